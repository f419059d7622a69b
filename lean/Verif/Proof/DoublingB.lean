import Verif.Proof.DoublingA

/-! A whole call of `layer_double`, `layer_double_l`. -/

namespace Xrtm.Doubling

open Mat Adding Matrix

variable {K : Type} [CommRing K] {n : Nat} {inv? : M n K → Option (M n K)}

/-- `L_p`, `L_m` after the first turn has set them. -/
def Lp0 (init : Bool) (s : Mem n K) : V n K := if init then s.v Slp else s.v Lp
def Lm0 (init : Bool) (s : Mem n K) : V n K := if init then s.v Slm else s.v Lm
def Lpl0 (init : Bool) (i : Nat) (s : Mem n K) : V n K := if init then s.v (Slpl i) else s.v (Lpl i)
def Lml0 (init : Bool) (i : Nat) (s : Mem n K) : V n K := if init then s.v (Slml i) else s.v (Lml i)

/-- The values after a call. -/
structure Val (q : M n K) (t g : K) (sol th init : Bool) (s s' : Mem n K) : Prop where
  hr : s'.m R = oR (s.m R) (s.m T) q
  ht : s'.m T = oT (s.m T) q
  se : sol = true → s'.v Sep = oP (s.m R) (s.m T) q (s.v Sep) (s.v Sem) (t • s.v Sep) ∧
    s'.v Sem = oM (s.m R) (s.m T) q (s.v Sem) (t • s.v Sep) (t • s.v Sem)
  sl : th = true → s'.v Slp = oP (s.m R) (s.m T) q (s.v Slp) (s.v Slm) (s.v Slp + g • Lp0 init s) ∧
    s'.v Slm = oM (s.m R) (s.m T) q (s.v Slm) (s.v Slp + g • Lp0 init s) (s.v Slm + g • Lm0 init s) ∧
    s'.v Lp = oP (s.m R) (s.m T) q (Lp0 init s) (Lm0 init s) (Lp0 init s) ∧
    s'.v Lm = oM (s.m R) (s.m T) q (Lm0 init s) (Lp0 init s) (Lm0 init s)

/-- The arrays of derivative `i` are as before. -/
structure Same (i : Nat) (s s' : Mem n K) : Prop where
  r : s'.m (Rl i) = s.m (Rl i)
  t : s'.m (Tl i) = s.m (Tl i)
  sem : s'.v (Seml i) = s.v (Seml i)
  sep : s'.v (Sepl i) = s.v (Sepl i)
  slm : s'.v (Slml i) = s.v (Slml i)
  slp : s'.v (Slpl i) = s.v (Slpl i)
  lm : s'.v (Lml i) = s.v (Lml i)
  lp : s'.v (Lpl i) = s.v (Lpl i)

theorem Post.bind {p q : List (Instr K)} {s : Mem n K} {Q1 Q2 : Mem n K → Prop} (h : Post (run inv? p s) Q1)
    (h2 : ∀ s', Q1 s' → Post (run inv? q s') Q2) : Post (run inv? (p ++ q) s) Q2 :=
  (Post_run_append p q s Q2).2 (h.mono h2)

theorem Post.if {p : List (Instr K)} {c : Bool} {s : Mem n K} {Q : Mem n K → Prop} (h : c = true → Post (run inv? p s) Q)
    (h2 : c = false → Q s) : Post (run inv? (if c then p else []) s) Q := by
  cases c with
  | true => exact h rfl
  | false => exact h2 rfl

theorem thermalAll_post (g : K) (init : Bool) (s : Mem n K) :
    Post (run inv? ((if init then initL else []) ++ thermal g) s) fun s' => s'.m = s.m ∧
      s'.v Slp = s.v Slp + s.m A *ᵥ (s.m R *ᵥ s.v Slm + (s.v Slp + g • Lp0 init s)) ∧
      s'.v Slm = s.v Slm + g • Lm0 init s + s.m A *ᵥ (s.m R *ᵥ (s.v Slp + g • Lp0 init s) + s.v Slm) ∧
      s'.v Lp = Lp0 init s + s.m A *ᵥ (s.m R *ᵥ Lm0 init s + Lp0 init s) ∧
      s'.v Lm = Lm0 init s + s.m A *ᵥ (s.m R *ᵥ Lp0 init s + Lm0 init s) ∧
      ∀ k, k ≠ 2 → k ≠ 3 → k ≠ 4 → k ≠ 5 → s'.v (.ext k) = s.v (.ext k) := by
  refine Post.bind (Q1 := fun s' => s'.m = s.m ∧ s'.v Lp = Lp0 init s ∧ s'.v Lm = Lm0 init s ∧
    s'.v Slp = s.v Slp ∧ s'.v Slm = s.v Slm ∧ ∀ k, k ≠ 4 → k ≠ 5 → s'.v (.ext k) = s.v (.ext k)) (Post.if ?_ ?_) ?_
  · rintro rfl
    refine (initL_post s).mono fun s1 h => ⟨h.1, h.2.1, h.2.2.1, h.2.2.2 _ (by decide) (by decide),
      h.2.2.2 _ (by decide) (by decide), fun k h1 h2 => h.2.2.2 _ (by simp [Lp, h2]) (by simp [Lm, h1])⟩
  · rintro rfl
    exact ⟨rfl, rfl, rfl, rfl, rfl, fun k _ _ => rfl⟩
  · rintro s1 ⟨h1, h2, h3, h4, h5, h6⟩
    refine (thermal_post g s1).mono fun s2 h => ?_
    rw [h1, h2, h3, h4, h5] at h
    exact ⟨h.1, h.2.1, h.2.2.1, h.2.2.2.1, h.2.2.2.2.1, fun k a1 a2 a3 a4 => by
      rw [h.2.2.2.2.2 k a1 a2 a3 a4, h6 k a3 a4]⟩

theorem layerDouble_post (hinv : Exact inv?) {s : Mem n K} {q : M n K} (hq : q * (1 - s.m R * s.m R) = 1) (t g : K)
    (sol th init : Bool) :
    Post (run inv? (layerDouble t g sol th init) s) fun s' => Val q t g sol th init s s' ∧ ∀ i, Same i s s' := by
  unfold layerDouble
  rw [List.append_assoc, List.append_assoc]
  refine Post.bind (head_post hinv hq) fun s1 ⟨a1, a2, a3⟩ => ?_
  refine Post.bind (Q1 := fun s' => s'.m = s1.m ∧
      (sol = true → s'.v Sep = s.v Sep + s1.m A *ᵥ (s.m R *ᵥ s.v Sem + t • s.v Sep) ∧
      s'.v Sem = t • s.v Sem + s1.m A *ᵥ (s.m R *ᵥ (t • s.v Sep) + s.v Sem)) ∧
      ∀ k, k ≠ 0 → k ≠ 1 → s'.v (.ext k) = s.v (.ext k)) (Post.if (fun _ => ?_) fun h => ?_) ?_
  · refine (solar_post t s1).mono fun s' h => ?_
    rw [a3, show s1.m R = s.m R from a2 0] at h
    exact ⟨h.1, fun _ => ⟨h.2.1, h.2.2.1⟩, h.2.2.2⟩
  · exact ⟨rfl, fun h' => by simp [h] at h', fun k _ _ => by rw [a3]⟩
  rintro s2 ⟨b1, b2, b3⟩
  have l1 : Lp0 init s2 = Lp0 init s := by simp [Lp0, Slp, Lp, b3]
  have l2 : Lm0 init s2 = Lm0 init s := by simp [Lm0, Slm, Lm, b3]
  refine Post.bind (Q1 := fun s' => s'.m = s2.m ∧
      (th = true → s'.v Slp = s.v Slp + s1.m A *ᵥ (s.m R *ᵥ s.v Slm + (s.v Slp + g • Lp0 init s)) ∧
      s'.v Slm = s.v Slm + g • Lm0 init s + s1.m A *ᵥ (s.m R *ᵥ (s.v Slp + g • Lp0 init s) + s.v Slm) ∧
      s'.v Lp = Lp0 init s + s1.m A *ᵥ (s.m R *ᵥ Lm0 init s + Lp0 init s) ∧
      s'.v Lm = Lm0 init s + s1.m A *ᵥ (s.m R *ᵥ Lp0 init s + Lm0 init s)) ∧
      ∀ k, k ≠ 2 → k ≠ 3 → k ≠ 4 → k ≠ 5 → s'.v (.ext k) = s2.v (.ext k)) (Post.if (fun _ => ?_) fun h => ?_) ?_
  · refine (thermalAll_post g init s2).mono fun s' h => ?_
    rw [l1, l2, b1, show s1.m R = s.m R from a2 0, show s2.v Slp = s.v Slp from b3 3 (by decide) (by decide),
      show s2.v Slm = s.v Slm from b3 2 (by decide) (by decide)] at h
    exact ⟨by rw [h.1, b1], fun _ => ⟨h.2.1, h.2.2.1, h.2.2.2.1, h.2.2.2.2.1⟩, h.2.2.2.2.2⟩
  · exact ⟨rfl, fun h' => by simp [h] at h', fun k _ _ _ _ => rfl⟩
  rintro s3 ⟨c1, c2, c3⟩
  refine (tail_post s3).mono fun s4 ⟨d1, d2, d3, d4⟩ => ?_
  have m3 : s3.m = s1.m := by rw [c1, b1]
  rw [m3, show s1.m R = s.m R from a2 0, show s1.m T = s.m T from a2 1, a1] at d2
  rw [m3, show s1.m T = s.m T from a2 1, a1] at d3
  rw [a1] at b2 c2
  refine ⟨⟨by rw [d2, oR], by rw [d3, oT], fun h => ?_, fun h => ?_⟩, fun i => ?_⟩
  · obtain ⟨e1, e2⟩ := b2 h
    rw [d1, show s3.v Sep = s2.v Sep from c3 1 (by decide) (by decide) (by decide) (by decide),
      show s3.v Sem = s2.v Sem from c3 0 (by decide) (by decide) (by decide) (by decide), e1, e2]
    exact ⟨rfl, rfl⟩
  · obtain ⟨e1, e2, e3, e4⟩ := c2 h
    rw [d1, e1, e2, e3, e4]
    exact ⟨rfl, rfl, rfl, rfl⟩
  · have hm : ∀ k, s4.m (.ext (k + 2)) = s.m (.ext (k + 2)) := fun k => by rw [d4 _ (by omega) (by omega), m3, a2]
    have hv : ∀ k, s4.v (.ext (k + 6)) = s.v (.ext (k + 6)) := fun k => by
      rw [d1, c3 _ (by omega) (by omega) (by omega) (by omega), b3 _ (by omega) (by omega)]
    exact ⟨hm _, hm (2 * i + 1), hv _, hv (6 * i + 1), hv (6 * i + 2), hv (6 * i + 3), hv (6 * i + 4), hv (6 * i + 5)⟩

/-! ## With derivatives -/

/-- What the loop over the derivatives finds: the values of the call `s0` and the parts computed ahead. -/
structure Env (inv? : M n K → Option (M n K)) (q : M n K) (t g : K) (sol th init : Bool) (s0 s : Mem n K) : Prop where
  hr : s.m R = s0.m R
  ht : s.m T = s0.m T
  ha : s.m A = s0.m T * q
  hb : s.m B = s0.m R * s0.m T
  hp : inv? (s.m P) = some qᵀ
  sem : s.v Sem = s0.v Sem
  sep : s.v Sep = s0.v Sep
  slm : s.v Slm = s0.v Slm
  slp : s.v Slp = s0.v Slp
  lm : th = true → s.v Lm = Lm0 init s0
  lp : th = true → s.v Lp = Lp0 init s0
  va : sol = true → s.v a = s0.m R *ᵥ s0.v Sem + t • s0.v Sep
  vb : sol = true → s.v b = s0.m R *ᵥ (t • s0.v Sep) + s0.v Sem
  ve : th = true → s.v e = s0.m R *ᵥ s0.v Slm + (s0.v Slp + g • Lp0 init s0)
  vf : th = true → s.v f = s0.m R *ᵥ (s0.v Slp + g • Lp0 init s0) + s0.v Slm
  vc : th = true → s.v c = s0.m R *ᵥ Lm0 init s0 + Lp0 init s0
  vd : th = true → s.v d = s0.m R *ᵥ Lp0 init s0 + Lm0 init s0

theorem Env.only {q : M n K} {t g : K} {sol th init : Bool} {s0 s s' : Mem n K} {i : Nat}
    (h : Env inv? q t g sol th init s0 s) (ho : Only i s s') : Env inv? q t g sol th init s0 s' := by
  have m : ∀ x, x = R ∨ x = T ∨ x = A ∨ x = B ∨ x = P → s'.m x = s.m x := by
    rintro x (rfl | rfl | rfl | rfl | rfl) <;> apply ho.m <;> simp [R, T, A, B, P, w1, w2, Al, Rl, Tl]
  have v : ∀ x, x = Sem ∨ x = Sep ∨ x = Slm ∨ x = Slp ∨ x = Lm ∨ x = Lp ∨ x = a ∨ x = b ∨ x = c ∨ x = d ∨ x = e ∨ x = f →
      s'.v x = s.v x := by
    rintro x (rfl | rfl | rfl | rfl | rfl | rfl | rfl | rfl | rfl | rfl | rfl | rfl) <;> apply ho.v <;>
      simp [Sem, Sep, Slm, Slp, Lm, Lp, a, b, c, d, e, f, v1, v2, v3, v4, v5, Seml, Sepl, Slml, Slpl, Lml, Lpl]
  exact ⟨by rw [m _ (by simp), h.hr], by rw [m _ (by simp), h.ht], by rw [m _ (by simp), h.ha], by rw [m _ (by simp), h.hb],
    by rw [m _ (by simp), h.hp], by rw [v _ (by simp), h.sem], by rw [v _ (by simp), h.sep], by rw [v _ (by simp), h.slm],
    by rw [v _ (by simp), h.slp], fun w => by rw [v _ (by simp), h.lm w], fun w => by rw [v _ (by simp), h.lp w],
    fun w => by rw [v _ (by simp), h.va w], fun w => by rw [v _ (by simp), h.vb w], fun w => by rw [v _ (by simp), h.ve w],
    fun w => by rw [v _ (by simp), h.vf w], fun w => by rw [v _ (by simp), h.vc w], fun w => by rw [v _ (by simp), h.vd w]⟩

theorem Only.same {i j : Nat} {s s' : Mem n K} (h : Only i s s') (hij : j ≠ i) : Same j s s' := by
  constructor <;> first | apply h.m | apply h.v
  all_goals simp [w1, w2, Al, Rl, Tl, v1, v2, v3, v4, v5, Seml, Sepl, Slml, Slpl, Lml, Lpl]
  all_goals omega

theorem Same.trans {i : Nat} {s s1 s2 : Mem n K} (h : Same i s s1) (h2 : Same i s1 s2) : Same i s s2 :=
  ⟨h2.r.trans h.r, h2.t.trans h.t, h2.sem.trans h.sem, h2.sep.trans h.sep, h2.slm.trans h.slm, h2.slp.trans h.slp,
    h2.lm.trans h.lm, h2.lp.trans h.lp⟩

theorem Same.refl (i : Nat) (s : Mem n K) : Same i s s := ⟨rfl, rfl, rfl, rfl, rfl, rfl, rfl, rfl⟩

theorem Only.trans {i : Nat} {s s1 s2 : Mem n K} (h : Only i s s1) (h2 : Only i s1 s2) : Only i s s2 :=
  ⟨fun x a1 a2 a3 a4 a5 => (h2.m x a1 a2 a3 a4 a5).trans (h.m x a1 a2 a3 a4 a5),
   fun x a1 a2 a3 a4 a5 a6 a7 a8 a9 a10 a11 => (h2.v x a1 a2 a3 a4 a5 a6 a7 a8 a9 a10 a11).trans
    (h.v x a1 a2 a3 a4 a5 a6 a7 a8 a9 a10 a11)⟩

/-- Derivatives of the operators: those of an inactive layer are zero. -/
def R' (fl : Flags) (i : Nat) (s : Mem n K) : M n K := if fl.lay i then s.m (Rl i) else 0
def T' (fl : Flags) (i : Nat) (s : Mem n K) : M n K := if fl.lay i then s.m (Tl i) else 0

/-- The results for derivative `i`: `s0` the values at the call, `s` the memory with the old derivatives. -/
structure Out (q : M n K) (x : Scal K) (fl : Flags) (sol th init : Bool) (i : Nat) (s0 s s' : Mem n K) : Prop where
  rt : fl.lay i = true → s'.m (Rl i) = gR (s0.m R) (s0.m T) q (R' fl i s) (T' fl i s) ∧
    s'.m (Tl i) = gT (s0.m R) (s0.m T) q (R' fl i s) (T' fl i s)
  se : sol = true → fl.beam i = true →
    s'.v (Sepl i) = gP (s0.m R) (s0.m T) q (R' fl i s) (T' fl i s) (s0.v Sem) (x.t • s0.v Sep) (s.v (Sepl i)) (s.v (Seml i))
      (x.t • s.v (Sepl i) + x.tl i • s0.v Sep) ∧
    s'.v (Seml i) = gM (s0.m R) (s0.m T) q (R' fl i s) (T' fl i s) (s0.v Sem) (x.t • s0.v Sep) (s.v (Seml i))
      (x.t • s.v (Sepl i) + x.tl i • s0.v Sep) (x.t • s.v (Seml i) + x.tl i • s0.v Sem)
  sl : th = true → fl.therm i = true →
    s'.v (Slpl i) = gP (s0.m R) (s0.m T) q (R' fl i s) (T' fl i s) (s0.v Slm) (s0.v Slp + x.g • Lp0 init s0) (s.v (Slpl i))
      (s.v (Slml i)) (s.v (Slpl i) + x.g • Lpl0 init i s + x.gl i • Lp0 init s0) ∧
    s'.v (Slml i) = gM (s0.m R) (s0.m T) q (R' fl i s) (T' fl i s) (s0.v Slm) (s0.v Slp + x.g • Lp0 init s0) (s.v (Slml i))
      (s.v (Slpl i) + x.g • Lpl0 init i s + x.gl i • Lp0 init s0) (s.v (Slml i) + x.g • Lml0 init i s + x.gl i • Lm0 init s0) ∧
    s'.v (Lpl i) = gP (s0.m R) (s0.m T) q (R' fl i s) (T' fl i s) (Lm0 init s0) (Lp0 init s0) (Lpl0 init i s) (Lml0 init i s)
      (Lpl0 init i s) ∧
    s'.v (Lml i) = gM (s0.m R) (s0.m T) q (R' fl i s) (T' fl i s) (Lm0 init s0) (Lp0 init s0) (Lml0 init i s) (Lpl0 init i s)
      (Lml0 init i s)

end Xrtm.Doubling
