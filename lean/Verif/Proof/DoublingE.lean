import Verif.Proof.DoublingD
import Mathlib.Analysis.SpecialFunctions.ExpDeriv

/-! The derivatives kept by the doubling are those of its results. -/

namespace Xrtm.Spec

open Mat Matrix

variable {n : Nat} {x : ℝ}

theorem VDeriv.smul {t : ℝ → ℝ} {t' : ℝ} {v : ℝ → V n ℝ} {v' : V n ℝ} (ht : HasDerivAt t t' x) (hv : VDeriv v v' x) :
    VDeriv (fun y => t y • v y) (t x • v' + t' • v x) x := by
  intro i
  refine (ht.fun_mul (hv i)).congr_deriv ?_
  simp only [Pi.add_apply, Pi.smul_apply, smul_eq_mul]
  ring

theorem MDeriv.smul {t : ℝ → ℝ} {t' : ℝ} {v : ℝ → M n ℝ} {v' : M n ℝ} (ht : HasDerivAt t t' x) (hv : MDeriv v v' x) :
    MDeriv (fun y => t y • v y) (t x • v' + t' • v x) x := by
  intro i j
  refine (ht.fun_mul (hv i j)).congr_deriv ?_
  simp only [Matrix.add_apply, Matrix.smul_apply, smul_eq_mul]
  ring

theorem VDeriv.const (v : V n ℝ) : VDeriv (fun _ => v) 0 x := fun i => hasDerivAt_const x (v i)

end Xrtm.Spec

namespace Xrtm.Doubling

open Mat Adding Matrix Spec Filter Topology

variable {n : Nat} {x0 : ℝ}

section formula
variable {R0 T0 : ℝ → M n ℝ} {R1 T1 : M n ℝ} {p1 m1 p2 m2 : ℝ → V n ℝ} {p1' m1' p2' m2' : V n ℝ} {q : ℝ → M n ℝ}

theorem A_deriv (hR : MDeriv R0 R1 x0) (hT : MDeriv T0 T1 x0) (hq : ∀ᶠ y in 𝓝 x0, q y * (1 - R0 y * R0 y) = 1) :
    MDeriv (fun y => T0 y * q y) (gA (R0 x0) (T0 x0) (q x0) R1 T1) x0 := by
  have h0 := hq.self_of_nhds
  have hd : (1 - R0 x0 * R0 x0).det ≠ 0 := by
    intro h
    have := congrArg Matrix.det h0
    simp [h] at this
  have e0 : q x0 = (1 - R0 x0 * R0 x0)⁻¹ := (Matrix.inv_eq_left_inv h0).symm
  have := a_deriv hR hR hT hd
  rw [← e0] at this
  refine MDeriv.eventually (this.congr ?_) (hq.mono fun y hy => by rw [Matrix.inv_eq_left_inv hy])
  rw [gA]

theorem oR_deriv (hR : MDeriv R0 R1 x0) (hT : MDeriv T0 T1 x0) (hq : ∀ᶠ y in 𝓝 x0, q y * (1 - R0 y * R0 y) = 1) :
    MDeriv (fun y => oR (R0 y) (T0 y) (q y)) (gR (R0 x0) (T0 x0) (q x0) R1 T1) x0 := by
  refine (hR.add ((A_deriv hR hT hq).mul (hR.mul hT))).congr ?_
  rw [gR]; abel

theorem oT_deriv (hR : MDeriv R0 R1 x0) (hT : MDeriv T0 T1 x0) (hq : ∀ᶠ y in 𝓝 x0, q y * (1 - R0 y * R0 y) = 1) :
    MDeriv (fun y => oT (T0 y) (q y)) (gT (R0 x0) (T0 x0) (q x0) R1 T1) x0 :=
  (A_deriv hR hT hq).mul hT

theorem oP_deriv (hR : MDeriv R0 R1 x0) (hT : MDeriv T0 T1 x0) (hq : ∀ᶠ y in 𝓝 x0, q y * (1 - R0 y * R0 y) = 1)
    (h1 : VDeriv p1 p1' x0) (h2 : VDeriv m1 m1' x0) (h3 : VDeriv p2 p2' x0) :
    VDeriv (fun y => oP (R0 y) (T0 y) (q y) (p1 y) (m1 y) (p2 y))
      (gP (R0 x0) (T0 x0) (q x0) R1 T1 (m1 x0) (p2 x0) p1' m1' p2') x0 := by
  refine (h1.add (VDeriv.mulVec (A_deriv hR hT hq) ((VDeriv.mulVec hR h2).add h3))).congr ?_
  rw [gP]; abel

theorem oM_deriv (hR : MDeriv R0 R1 x0) (hT : MDeriv T0 T1 x0) (hq : ∀ᶠ y in 𝓝 x0, q y * (1 - R0 y * R0 y) = 1)
    (h2 : VDeriv m1 m1' x0) (h3 : VDeriv p2 p2' x0) (h4 : VDeriv m2 m2' x0) :
    VDeriv (fun y => oM (R0 y) (T0 y) (q y) (m1 y) (p2 y) (m2 y))
      (gM (R0 x0) (T0 x0) (q x0) R1 T1 (m1 x0) (p2 x0) m1' p2' m2') x0 := by
  refine (h4.add (VDeriv.mulVec (A_deriv hR hT hq) ((VDeriv.mulVec hR h3).add h2))).congr ?_
  rw [gM]; abel

end formula

/-- The arrays and scalars of derivative `i` in `s`, `x` are the derivatives at `x0` of those of the curves `S`, `X`, and the
values are the same there. -/
structure Tracks (i : Nat) (fl : Flags) (sol th init : Bool) (S : ℝ → Mem n ℝ) (X : ℝ → Scal ℝ) (s : Mem n ℝ) (x : Scal ℝ)
    (x0 : ℝ) : Prop where
  r : s.m R = (S x0).m R
  t : s.m T = (S x0).m T
  dr : MDeriv (fun y => (S y).m R) (R' fl i s) x0
  dt : MDeriv (fun y => (S y).m T) (T' fl i s) x0
  se : sol = true → s.v Sep = (S x0).v Sep ∧ s.v Sem = (S x0).v Sem ∧ x.t = (X x0).t
  dse : sol = true → fl.beam i = true → VDeriv (fun y => (S y).v Sep) (s.v (Sepl i)) x0 ∧
    VDeriv (fun y => (S y).v Sem) (s.v (Seml i)) x0 ∧ HasDerivAt (fun y => (X y).t) (x.tl i) x0
  sl : th = true → s.v Slp = (S x0).v Slp ∧ s.v Slm = (S x0).v Slm ∧ Lp0 init s = Lp0 init (S x0) ∧
    Lm0 init s = Lm0 init (S x0) ∧ x.g = (X x0).g
  dsl : th = true → fl.therm i = true → VDeriv (fun y => (S y).v Slp) (s.v (Slpl i)) x0 ∧
    VDeriv (fun y => (S y).v Slm) (s.v (Slml i)) x0 ∧ VDeriv (fun y => Lp0 init (S y)) (Lpl0 init i s) x0 ∧
    VDeriv (fun y => Lm0 init (S y)) (Lml0 init i s) x0 ∧ HasDerivAt (fun y => (X y).g) (x.gl i) x0

theorem Val.congr {K : Type} [CommRing K] {q q' : M n K} {t g : K} {sol th init : Bool} {s s' : Mem n K} (h : Val q t g sol th init s s')
    (e : q = q') : Val q' t g sol th init s s' := e ▸ h

theorem Tracks.step {i nd : Nat} {fl : Flags} {sol th init : Bool} {S S1 : ℝ → Mem n ℝ} {X : ℝ → Scal ℝ} {s s1 : Mem n ℝ}
    {x : Scal ℝ} {pth : Nat → ℝ} {c : ℝ} {fl0 : Flags} {pth0 : ℝ → Nat → ℝ} {c0 : ℝ → ℝ} (h : Tracks i fl sol th init S X s x x0) (hi : i < nd)
    (hS : ∀ᶠ y in 𝓝 x0, ∃ q, q * (1 - (S y).m R * (S y).m R) = 1 ∧ Val q (X y).t (X y).g sol th init (S y) (S1 y))
    {q : M n ℝ} (hq : q * (1 - s.m R * s.m R) = 1) (hv : Val q x.t x.g sol th init s s1) (ho : Out q x fl sol th init i s s s1)
    (hp : sol = true → fl.beam i = true → x.tl i = pth i * x.t * c) :
    Tracks i fl sol th false S1 (fun y => (X y).next (c0 y) (pth0 y) 0 fl0 sol th) s1 (x.next c pth nd fl sol th) x0 ∧
    (sol = true → fl.beam i = true →
      (x.next c pth nd fl sol th).tl i = pth i * (x.next c pth nd fl sol th).t * (c * 2)) := by
  set Q : ℝ → M n ℝ := fun y => (1 - (S y).m R * (S y).m R)⁻¹ with hQ
  have hS' : ∀ᶠ y in 𝓝 x0, Q y * (1 - (S y).m R * (S y).m R) = 1 ∧ Val (Q y) (X y).t (X y).g sol th init (S y) (S1 y) := by
    filter_upwards [hS] with y ⟨q, h1, h2⟩
    have e : q = Q y := (Matrix.inv_eq_left_inv h1).symm
    exact ⟨e ▸ h1, e ▸ h2⟩
  have hQ1 := hS'.mono fun y hy => hy.1
  obtain ⟨g1, g2⟩ := hS'.self_of_nhds
  have eq : q = Q x0 := by
    rw [hQ]; rw [h.r] at hq; exact (Matrix.inv_eq_left_inv hq).symm
  subst eq
  have er := h.r
  have et := h.t
  have hdR := oR_deriv h.dr h.dt hQ1
  have hdT := oT_deriv h.dr h.dt hQ1
  refine ⟨⟨?_, ?_, ?_, ?_, fun ws => ?_, fun ws wb => ?_, fun wt => ?_, fun wt wb => ?_⟩, fun ws wb => ?_⟩
  · rw [hv.hr, g2.hr, er, et]
  · rw [hv.ht, g2.ht, et]
  · refine MDeriv.eventually (hdR.congr ?_) (hS'.mono fun y hy => hy.2.hr)
    cases hl : fl.lay i with
    | true =>
        rw [show R' fl i s1 = s1.m (Rl i) by simp [R', hl], (ho.rt hl).1, er, et]
    | false =>
        simp only [R', T', hl, gR]
        simp [gA_zero]
  · refine MDeriv.eventually (hdT.congr ?_) (hS'.mono fun y hy => hy.2.ht)
    cases hl : fl.lay i with
    | true =>
        rw [show T' fl i s1 = s1.m (Tl i) by simp [T', hl], (ho.rt hl).2, er, et]
    | false =>
        simp only [R', T', hl, gT]
        simp [gA_zero]
  · obtain ⟨a1, a2, a3⟩ := h.se ws
    obtain ⟨b1, b2⟩ := hv.se ws
    obtain ⟨b3, b4⟩ := g2.se ws
    rw [b1, b2, b3, b4, er, et, a1, a2, a3]
    exact ⟨rfl, rfl, by simp [Scal.next, ws, a3]⟩
  · obtain ⟨a1, a2, a3⟩ := h.se ws
    obtain ⟨d1, d2, d3⟩ := h.dse ws wb
    obtain ⟨o1, o2⟩ := ho.se ws wb
    have ts := VDeriv.smul d3 d1
    have tm := VDeriv.smul d3 d2
    refine ⟨VDeriv.eventually ((oP_deriv h.dr h.dt hQ1 d1 d2 ts).congr ?_) (hS'.mono fun y hy => (hy.2.se ws).1),
      VDeriv.eventually ((oM_deriv h.dr h.dt hQ1 d2 ts tm).congr ?_) (hS'.mono fun y hy => (hy.2.se ws).2), ?_⟩
    · rw [o1, er, et, a1, a2, a3]
    · rw [o2, er, et, a1, a2, a3]
    · simp only [Scal.next, ws, if_true]
      refine (d3.fun_mul d3).congr_deriv ?_
      simp only [hi, wb, decide_true, Bool.and_self, if_true]
      rw [hp ws wb, ← a3]
      ring
  · obtain ⟨a1, a2, a3, a4, a5⟩ := h.sl wt
    obtain ⟨b1, b2, b3, b4⟩ := hv.sl wt
    obtain ⟨c1, c2, c3, c4⟩ := g2.sl wt
    have e1 : Lp0 false s1 = s1.v Lp := rfl
    have e2 : Lm0 false s1 = s1.v Lm := rfl
    have e3 : Lp0 false (S1 x0) = (S1 x0).v Lp := rfl
    have e4 : Lm0 false (S1 x0) = (S1 x0).v Lm := rfl
    rw [e1, e2, e3, e4, b1, b2, b3, b4, c1, c2, c3, c4, er, et, a1, a2, a3, a4, a5]
    exact ⟨rfl, rfl, rfl, rfl, by simp [Scal.next, wt, a5]⟩
  · obtain ⟨a1, a2, a3, a4, a5⟩ := h.sl wt
    obtain ⟨d1, d2, d3, d4, d5⟩ := h.dsl wt wb
    obtain ⟨o1, o2, o3, o4⟩ := ho.sl wt wb
    have tp := d1.add (VDeriv.smul d5 d3)
    have tm := d2.add (VDeriv.smul d5 d4)
    refine ⟨VDeriv.eventually ((oP_deriv h.dr h.dt hQ1 d1 d2 tp).congr ?_) (hS'.mono fun y hy => (hy.2.sl wt).1),
      VDeriv.eventually ((oM_deriv h.dr h.dt hQ1 d2 tp tm).congr ?_) (hS'.mono fun y hy => (hy.2.sl wt).2.1),
      VDeriv.eventually ((oP_deriv h.dr h.dt hQ1 d3 d4 d3).congr ?_) (hS'.mono fun y hy => (hy.2.sl wt).2.2.1),
      VDeriv.eventually ((oM_deriv h.dr h.dt hQ1 d4 d3 d4).congr ?_) (hS'.mono fun y hy => (hy.2.sl wt).2.2.2), ?_⟩
    · rw [o1, er, et, a1, a2, a3, a5, add_assoc]
    · rw [o2, er, et, a1, a2, a3, a4, a5, add_assoc, add_assoc]
    · rw [show Lpl0 false i s1 = s1.v (Lpl i) from rfl, o3, er, et, a3, a4]
    · rw [show Lml0 false i s1 = s1.v (Lml i) from rfl, o4, er, et, a3, a4]
    · simp only [Scal.next, wt, if_true]
      refine (d5.mul_const 2).congr_deriv ?_
      simp [hi, wb]
  · simp only [Scal.next, ws, hi, wb, decide_true, Bool.and_self, if_true]

theorem Out.inactive {K : Type} [CommRing K] {q : M n K} {x : Scal K} {fl : Flags} {sol th init : Bool} {i : Nat} {s0 s s' : Mem n K}
    (h1 : fl.lay i = false) (h2 : sol = true → fl.beam i = false) (h3 : th = true → fl.therm i = false) :
    Out q x fl sol th init i s0 s s' :=
  ⟨fun w => by simp [h1] at w, fun w1 w2 => by simp [h2 w1] at w2, fun w1 w2 => by simp [h3 w1] at w2⟩

/-- The flags that turn all derivatives off. -/
def off : Flags := ⟨fun _ => false, fun _ => false, fun _ => false⟩

theorem plain_off (sol th : Bool) : plain 0 off sol th = true := by simp [plain]

/-- The same, through all turns: near `x0` the loop without derivatives succeeds, and `s'` ends up with the derivatives of
its results. -/
theorem tracks_loop {inv? : M n ℝ → Option (M n ℝ)} (hinv : Exact inv?) {i nd k : Nat} {fl : Flags} {sol th init : Bool}
    {S : ℝ → Mem n ℝ} {X : ℝ → Scal ℝ} {s s' : Mem n ℝ} {x x' : Scal ℝ} {pth : Nat → ℝ} {c : ℝ}
    {pth0 : ℝ → Nat → ℝ} {c0 : ℝ → ℝ} (hi : i < nd) (h : Tracks i fl sol th init S X s x x0)
    (hp : sol = true → fl.beam i = true → x.tl i = pth i * x.t * c)
    (hs : loop inv? nd fl sol th pth k init x c s = .ok (s', x')) :
    ∃ out xout init', (∀ᶠ y in 𝓝 x0, loop inv? 0 off sol th (pth0 y) k init (X y) (c0 y) (S y) = .ok (out y, xout y)) ∧
      Tracks i fl sol th init' out xout s' x' x0 := by
  induction k generalizing init S X s x c c0 with
  | zero =>
      simp only [loop, Except.ok.injEq, Prod.mk.injEq] at hs
      obtain ⟨rfl, rfl⟩ := hs
      exact ⟨S, X, init, .of_forall fun y => rfl, h⟩
  | succ k ih =>
      obtain ⟨s1, h1, h2⟩ := loop_succ hs
      obtain ⟨q, hq, hv, ho⟩ := step_ok hinv h1
      have ho' : Out q x fl sol th init i s s s1 := by
        cases hpl : plain nd fl sol th with
        | true =>
            obtain ⟨p1, p2, p3⟩ := plain_inactive hpl hi
            exact Out.inactive p1 p2 p3
        | false => exact ho hpl i hi
      -- near `x0` the turn succeeds
      have hd : (1 - (S x0).m R * (S x0).m R).det ≠ 0 := by
        intro h0
        rw [h.r] at hq
        have := congrArg Matrix.det hq
        simp [h0] at this
      have near : ∀ᶠ y in 𝓝 x0, ∃ q, q * (1 - (S y).m R * (S y).m R) = 1 :=
        (((MDeriv.const (x := x0) 1).sub (h.dr.mul h.dr)).det_near hd).mono fun y hy =>
          ⟨_, Matrix.nonsing_inv_mul _ (isUnit_iff_ne_zero.2 hy)⟩
      have hex : ∀ y, ∃ s1, (∃ q, q * (1 - (S y).m R * (S y).m R) = 1) →
          (∃ q, q * (1 - (S y).m R * (S y).m R) = 1 ∧ Val q (X y).t (X y).g sol th init (S y) s1) ∧
          run inv? (layerDouble (X y).t (X y).g sol th init) (S y) = .ok s1 := by
        intro y
        by_cases hy : ∃ q, q * (1 - (S y).m R * (S y).m R) = 1
        · obtain ⟨q, hy⟩ := hy
          obtain ⟨u, u1, u2⟩ := (layerDouble_post hinv hy (X y).t (X y).g sol th init).elim
          exact ⟨u, fun _ => ⟨⟨q, hy, u2.1⟩, u1⟩⟩
        · exact ⟨S y, fun e => absurd e hy⟩
      choose S1 hS1 using hex
      obtain ⟨t1, t2⟩ := Tracks.step (S1 := S1) (pth := pth) (c := c) (fl0 := off) (pth0 := pth0) (c0 := c0) h hi
        (near.mono fun y hy => (hS1 y hy).1) hq hv ho' hp
      obtain ⟨out, xout, init', e1, e2⟩ := ih (c0 := fun y => c0 y * 2) t1 t2 h2
      refine ⟨out, xout, init', ?_, e2⟩
      filter_upwards [e1, near] with y y1 y2
      simp only [loop, plain_off, if_true, (hS1 y y2).2]
      exact y1

/-! ## The start -/

/-- Derivative at `x0` of a curve of inputs. -/
structure InDeriv (z : ℝ → In n ℝ) (z' : In n ℝ) (x0 : ℝ) : Prop where
  r : MDeriv (fun y => (z y).r) z'.r x0
  t : MDeriv (fun y => (z y).t) z'.t x0
  pm : VDeriv (fun y => (z y).pm) z'.pm x0
  mm : VDeriv (fun y => (z y).mm) z'.mm x0
  om : HasDerivAt (fun y => (z y).om) z'.om x0
  dt : HasDerivAt (fun y => (z y).dt) z'.dt x0
  as0 : HasDerivAt (fun y => (z y).as0) z'.as0 x0
  b0 : HasDerivAt (fun y => (z y).b0) z'.b0 x0
  b1 : HasDerivAt (fun y => (z y).b1) z'.b1 x0

/-- Nothing of the layer itself varies. -/
structure Still (z' : In n ℝ) : Prop where
  r : z'.r = 0
  t : z'.t = 0
  pm : z'.pm = 0
  mm : z'.mm = 0
  om : z'.om = 0
  dt : z'.dt = 0

variable {o : Env0 n ℝ} {z : ℝ → In n ℝ} {z' : In n ℝ}

theorem over_zero : over o 0 = 0 := by funext j; simp [over]

theorem over_deriv {v : ℝ → V n ℝ} {v' : V n ℝ} (h : VDeriv v v' x0) : VDeriv (fun y => over o (v y)) (over o v') x0 :=
  fun i => (h i).const_mul (o.w i)

theorem tran_deriv (he : o.exp = Real.exp) (h : InDeriv z z' x0) :
    HasDerivAt (fun y => tran o (z y)) (path true (z x0) z' * tran o (z x0)) x0 := by
  simp only [tran, he, path, if_true]
  refine ((h.dt.fun_neg.fun_mul h.as0).exp).congr_deriv ?_
  ring

theorem amp_deriv (he : o.exp = Real.exp) (h : InDeriv z z' x0) :
    HasDerivAt (fun y => amp o (z y)) (ampL o (z x0) z') x0 := by
  simp only [amp]
  refine ((((hasDerivAt_const x0 o.a).fun_mul h.om).fun_mul (tran_deriv he h)).fun_mul h.dt).congr_deriv ?_
  simp only [ampL]
  ring

theorem emit_deriv (h : InDeriv z z' x0) : HasDerivAt (fun y => emit (z y)) (emitL true (z x0) z') x0 := by
  simp only [emit]
  refine ((((hasDerivAt_const x0 (1 : ℝ)).fun_sub h.om).fun_mul h.b0).fun_mul h.dt).congr_deriv ?_
  simp only [emitL, if_true]
  ring

theorem linFac_deriv (h : InDeriv z z' x0) (k : Nat) (hb : (z x0).b0 ≠ 0) :
    HasDerivAt (fun y => linFac k (z y)) (linFacL k (z x0) z') x0 := by
  have ev : ∀ᶠ y in 𝓝 x0, linFac k (z y) = ((z y).b1 / (z y).b0 - 1) / 2 ^ k :=
    (h.b0.continuousAt.eventually_ne hb).mono fun y hy => by simp [linFac, hy]
  refine HasDerivAt.congr_of_eventuallyEq ?_ ev
  refine (((h.b1.fun_div h.b0 hb).sub_const 1).div_const (2 ^ k)).congr_deriv ?_
  rw [linFacL, if_neg hb]
  field_simp

theorem tracks_start {i k : Nat} {fl : Flags} {sol th : Bool} {dz : Nat → In n ℝ} {dz0 : ℝ → Nat → In n ℝ}
    (he : o.exp = Real.exp) (h : InDeriv z (dz i) x0)
    (hl : fl.lay i = false → Still (dz i)) (hb : sol = true → fl.beam i = true → fl.lay i = false → (dz i).as0 = 0)
    (ht : th = true → fl.therm i = true → (z x0).b0 ≠ 0) :
    Tracks i fl sol th true (fun y => mem0 o off (z y) (dz0 y)) (fun y => scal0 o k off (z y) (dz0 y)) (mem0 o fl (z x0) dz)
      (scal0 o k fl (z x0) dz) x0 := by
  have e2 : (2 * i) / 2 = i := by omega
  have e3 : (2 * i + 1) / 2 = i := by omega
  have e4 : (2 * i) % 2 = 0 := by omega
  have e5 : (2 * i + 1) % 2 = 1 := by omega
  have d0 : 6 * i / 6 = i := by omega
  have d1 : (6 * i + 1) / 6 = i := by omega
  have d2 : (6 * i + 2) / 6 = i := by omega
  have d3 : (6 * i + 3) / 6 = i := by omega
  have f0 : 6 * i % 6 = 0 := by omega
  have f1 : (6 * i + 1) % 6 = 1 := by omega
  have f2 : (6 * i + 2) % 6 = 2 := by omega
  have f3 : (6 * i + 3) % 6 = 3 := by omega
  have kR : R' fl i (mem0 o fl (z x0) dz) = o.D * (-(z x0).dt • (dz i).r + -(dz i).dt • (z x0).r) := by
    cases hh : fl.lay i with
    | true => simp [R', hh, mem0, Rl, e2, e4]
    | false => simp [R', hh, (hl hh).r, (hl hh).dt]
  have kT : T' fl i (mem0 o fl (z x0) dz) = (z x0).dt • (dz i).t + (dz i).dt • (z x0).t := by
    cases hh : fl.lay i with
    | true => simp [T', hh, mem0, Tl, e3, e5]
    | false => simp [T', hh, (hl hh).t, (hl hh).dt]
  refine ⟨rfl, rfl, ?_, ?_, fun _ => ⟨rfl, rfl, rfl⟩, fun ws wb => ?_, fun _ => ⟨rfl, rfl, rfl, rfl, rfl⟩, fun wt wb => ?_⟩
  · rw [kR]
    refine ((MDeriv.const o.D).mul (MDeriv.smul h.dt.fun_neg h.r)).congr ?_
    simp
  · rw [kT]
    refine ((MDeriv.const 1).sub (MDeriv.smul h.dt.fun_neg h.t)).congr ?_
    simp only [zero_sub, neg_smul]
    abel
  · have kp : (mem0 o fl (z x0) dz).v (Sepl i) = over o (ampL o (z x0) (dz i) • (z x0).pm + amp o (z x0) • (dz i).pm) := by
      cases hh : fl.lay i with
      | true => simp [hh, mem0, Sepl, d1, f1]
      | false =>
          have : ampL o (z x0) (dz i) = 0 := by simp [ampL, path, (hl hh).om, (hl hh).dt, hb ws wb hh]
          rw [this, (hl hh).pm]
          simp [hh, mem0, Sepl, d1, f1, over_zero]
    have km : (mem0 o fl (z x0) dz).v (Seml i) =
        o.D *ᵥ over o (ampL o (z x0) (dz i) • (z x0).mm + amp o (z x0) • (dz i).mm) := by
      cases hh : fl.lay i with
      | true => simp [hh, mem0, Seml, d0, f0]
      | false =>
          have : ampL o (z x0) (dz i) = 0 := by simp [ampL, path, (hl hh).om, (hl hh).dt, hb ws wb hh]
          rw [this, (hl hh).mm]
          simp [hh, mem0, Seml, d0, f0, over_zero]
    have a1 := VDeriv.smul (amp_deriv he h) (over_deriv (o := o) h.pm)
    have a2 := VDeriv.smul (amp_deriv he h) (over_deriv (o := o) h.mm)
    refine ⟨a1.congr ?_, (VDeriv.mulVec (MDeriv.const o.D) a2).congr ?_, ?_⟩
    · rw [kp]; funext j; simp [over]; ring
    · rw [km, zero_mulVec, zero_add]; congr 1; funext j; simp [over]; ring
    · refine (tran_deriv he h).congr_deriv ?_
      cases hh : fl.lay i with
      | true => simp [scal0, hh]
      | false => simp [scal0, hh, path, (hl hh).dt]
  · have hem : VDeriv (fun y => over o fun _ => emit (z y)) (over o fun _ => emitL (fl.lay i) (z x0) (dz i)) x0 := by
      refine over_deriv fun j => (emit_deriv h).congr_deriv ?_
      cases hh : fl.lay i with
      | true => rfl
      | false => simp [emitL, (hl hh).om, (hl hh).dt]
    have kp : (mem0 o fl (z x0) dz).v (Slpl i) = over o fun _ => emitL (fl.lay i) (z x0) (dz i) := by
      simp [mem0, Slpl, d3, f3]
    have km : (mem0 o fl (z x0) dz).v (Slml i) = over o fun _ => emitL (fl.lay i) (z x0) (dz i) := by
      simp [mem0, Slml, d2, f2]
    refine ⟨by rw [kp]; exact hem, by rw [km]; exact hem, ?_, ?_, linFac_deriv h k (ht wt wb)⟩
    · rw [Lpl0, if_pos rfl, kp]; exact hem
    · rw [Lml0, if_pos rfl, km]; exact hem

/-! ## The number of doublings -/

theorem doubParams_spec {ltau d : ℝ} (h1 : 0 < ltau) (h2 : 0 < d) :
    1 ≤ (doubParams ltau d).1 ∧ (doubParams ltau d).2 * 2 ^ (doubParams ltau d).1 = ltau ∧ (doubParams ltau d).2 < d ∧
      (d ≤ ltau → d / 2 ≤ (doubParams ltau d).2) := by
  have hm : 0 < min ltau d := lt_min h1 h2
  set m := min ltau d with hmd
  have hr : 1 ≤ ltau / m := by rw [one_le_div hm]; exact min_le_left _ _
  have hl2 : 0 < Real.log 2 := Real.log_pos (by norm_num)
  have hl : 0 ≤ Real.log (ltau / m) / Real.log 2 := div_nonneg (Real.log_nonneg hr) hl2.le
  have e : (doubParams ltau d).1 = ⌊Real.log (ltau / m) / Real.log 2 + 1⌋₊ := rfl
  have e2 : (doubParams ltau d).2 = ltau / 2 ^ (doubParams ltau d).1 := rfl
  set k := (doubParams ltau d).1 with hk
  have hp : (0 : ℝ) < 2 ^ k := by positivity
  have lower : Real.log (ltau / m) / Real.log 2 < k := by
    have := Nat.lt_floor_add_one (Real.log (ltau / m) / Real.log 2 + 1)
    rw [← e] at this
    linarith
  have upper : (k : ℝ) ≤ Real.log (ltau / m) / Real.log 2 + 1 := by
    rw [e]; exact Nat.floor_le (by linarith)
  have hrp : 0 < ltau / m := lt_of_lt_of_le one_pos hr
  have a1 : ltau / m < 2 ^ k := by
    rw [div_lt_iff₀ hl2, ← Real.log_pow] at lower
    exact (Real.log_lt_log_iff hrp hp).1 lower
  have a2 : (2 : ℝ) ^ k ≤ 2 * (ltau / m) := by
    have u : (k : ℝ) - 1 ≤ Real.log (ltau / m) / Real.log 2 := by linarith
    rw [le_div_iff₀ hl2, sub_mul, one_mul, ← Real.log_pow, sub_le_iff_le_add, add_comm, ← Real.log_mul (by norm_num) hrp.ne'] at u
    exact (Real.log_le_log_iff hp (by positivity)).1 u
  refine ⟨?_, ?_, ?_, fun hd => ?_⟩
  · have : 1 ≤ ⌊Real.log (ltau / m) / Real.log 2 + 1⌋₊ := Nat.le_floor (by push_cast; linarith)
    rw [e]; exact this
  · rw [e2]; field_simp
  · rw [e2]
    have : ltau / 2 ^ k < m := by
      rw [div_lt_iff₀ hm] at a1
      rw [div_lt_iff₀ hp]; linarith
    exact lt_of_lt_of_le this (min_le_right _ _)
  · have hm' : m = d := min_eq_right hd
    rw [e2]
    rw [hm'] at a2
    rw [le_div_iff₀ hp]
    have : d / 2 * 2 ^ k ≤ d / 2 * (2 * (ltau / d)) := by gcongr
    refine this.trans (le_of_eq ?_)
    field_simp

end Xrtm.Doubling
