import Verif.Proof.TwoStreamD

/-! The derivatives that go into the boundary value problem. -/

namespace Xrtm.TwoStream
open Xrtm.Loops Filter Topology

/-- The inputs along a curve: what has no flag does not change. -/
structure Along (z : ℝ → Inp) (z' : Inp) (fl : Flags) (x : ℝ) : Prop where
  first : ∀ y, (z y).first = (z x).first
  L : ∀ y, (z y).L = (z x).L
  qx : ∀ y, (z y).qx = (z x).qx
  F0 : ∀ y, (z y).F0 = (z x).F0
  mu0 : ∀ y, (z y).mu0 = (z x).mu0
  solar : ∀ y, (z y).solar = (z x).solar
  surface : ∀ y, (z y).surface = (z x).surface
  g : ∀ i, i < (z x).L → HasDerivAt (fun y => (z y).g i) (on (fl.lay i) (z'.g i)) x
  om : ∀ i, i < (z x).L → HasDerivAt (fun y => (z y).om i) (on (fl.lay i) (z'.om i)) x
  ltau : ∀ i, i < (z x).L → HasDerivAt (fun y => (z y).ltau i) (on (fl.lay i) (z'.ltau i)) x
  as0 : ∀ i, i < (z x).L → HasDerivAt (fun y => (z y).as0 i) (on (fl.beam i) (z'.as0 i)) x
  atran : ∀ i, i < (z x).L → HasDerivAt (fun y => (z y).atran i) (on (fl.beam i) (z'.atran i)) x
  btran : ∀ i, i ≤ (z x).L → HasDerivAt (fun y => (z y).btran i) (on (fl.beam i) (z'.btran i)) x
  Rq0 : HasDerivAt (fun y => (z y).Rq0) (on (fl.lay (z x).L) z'.Rq0) x
  Rqq : HasDerivAt (fun y => (z y).Rqq) (on (fl.lay (z x).L) z'.Rqq) x
  flags : ∀ i, i < (z x).L → fl.lay i = true → fl.beam i = true

/-- The derivatives that are left. -/
def mask (fl : Flags) (d : Inp) : Inp :=
  { d with
    g := fun i => on (fl.lay i) (d.g i)
    om := fun i => on (fl.lay i) (d.om i)
    btran := fun i => on (fl.beam i) (d.btran i)
    as0 := fun i => on (fl.beam i) (d.as0 i) }

variable {z : ℝ → Inp} {z' : Inp} {fl : Flags} {x : ℝ} (hz : Along z z' fl x) {i : Nat} (hi : i < (z x).L)
include hz hi

theorem Pqq_deriv :
    HasDerivAt (fun y => (Pqq (z y) i).1) (PqqL (z x) (mask fl z') i).1 x ∧
    HasDerivAt (fun y => (Pqq (z y) i).2) (PqqL (z x) (mask fl z') i).2 x := by
  have hg := hz.g i hi
  unfold Pqq PqqL
  simp only [hz.first, hz.qx]
  cases (z x).first
  · simp only [Bool.false_eq_true, if_false]
    exact ⟨hg.mul_const _, hg.mul_const _⟩
  · simp only [if_true]
    exact ⟨(hg.mul_const _).const_add 1, (hg.mul_const _).const_sub 1⟩

theorem Pq0_deriv :
    HasDerivAt (fun y => (Pq0 (z y) i).1) (Pq0L (z x) (mask fl z') i).1 x ∧
    HasDerivAt (fun y => (Pq0 (z y) i).2) (Pq0L (z x) (mask fl z') i).2 x := by
  have hg := hz.g i hi
  unfold Pq0 Pq0L
  simp only [hz.first, hz.qx, hz.mu0]
  cases (z x).first
  · simp only [Bool.false_eq_true, if_false]
    exact ⟨hg.mul_const _, hg.mul_const _⟩
  · simp only [if_true]
    exact ⟨(hg.mul_const _).const_add 1, (hg.mul_const _).const_sub 1⟩

omit hi in
theorem a6_const (y : ℝ) : a6 (z y) = a6 (z x) := by
  unfold a6; rw [hz.first, hz.qx]

theorem alpha_deriv : HasDerivAt (fun y => alpha (z y) i) (alphaL (z x) (mask fl z') i) x := by
  have h := ((hz.om i hi).fun_mul (Pqq_deriv hz hi).1).const_mul (a6 (z x))
  have h2 := h.const_add (-1 / (z x).qx)
  have e : (fun y => alpha (z y) i) = fun y =>
      -1 / (z x).qx + a6 (z x) * ((z y).om i * (Pqq (z y) i).1) := by
    funext y; unfold alpha; rw [a6_const hz, hz.qx]; ring
  rw [e]
  exact h2

theorem beta_deriv : HasDerivAt (fun y => beta (z y) i) (betaL (z x) (mask fl z') i) x := by
  have h := ((hz.om i hi).fun_mul (Pqq_deriv hz hi).2).const_mul (-a6 (z x))
  have e : (fun y => beta (z y) i) = fun y => -a6 (z x) * ((z y).om i * (Pqq (z y) i).2) := by
    funext y; unfold beta; rw [a6_const hz]; ring
  rw [e]
  exact h

theorem nu_deriv (h0 : nu (z x) i ≠ 0) : HasDerivAt (fun y => nu (z y) i) (nuL (z x) (mask fl z') i) x := by
  have ha := alpha_deriv hz hi
  have hb := beta_deriv hz hi
  have h := (ha.fun_mul ha).fun_sub (hb.fun_mul hb)
  have hne : alpha (z x) i * alpha (z x) i - beta (z x) i * beta (z x) i ≠ 0 := by
    intro e; apply h0; unfold nu; rw [e, Real.sqrt_zero]
  refine (h.sqrt hne).congr_deriv ?_
  unfold nuL
  have : √(alpha (z x) i * alpha (z x) i - beta (z x) i * beta (z x) i) = nu (z x) i := rfl
  rw [this]
  ring

theorem Xp_deriv (h0 : nu (z x) i ≠ 0) (h9 : nu (z x) i - a9 (z x) i ≠ 0) :
    HasDerivAt (fun y => Xp (z y) i) (XpL (z x) (mask fl z') i) x := by
  have hn := nu_deriv hz hi h0
  have h9' : HasDerivAt (fun y => a9 (z y) i) (alphaL (z x) (mask fl z') i + betaL (z x) (mask fl z') i) x :=
    (alpha_deriv hz hi).fun_add (beta_deriv hz hi)
  refine ((hn.fun_add h9').fun_div (hn.fun_sub h9') h9).congr_deriv ?_
  unfold XpL Xp
  field_simp

/-- The derivatives of the source, by all that changes. -/
noncomputable def FG (w d : Inp) (i : Nat) : ℝ × ℝ := FL w d ⟨fun _ => true, fun _ => true⟩ ⟨0, 0, 0, 0, 0, 0, 0⟩ i

theorem F_deriv (hs : (z x).solar = true) (h15 : (vars (z x) i ⟨0, 0, 0, 0, 0, 0, 0⟩).a15 ≠ 0) :
    HasDerivAt (fun y => Fp (z y) i) (FG (z x) (mask fl z') i).1 x ∧
    HasDerivAt (fun y => Fm (z y) i) (FG (z x) (mask fl z') i).2 x := by
  have ha := alpha_deriv hz hi
  have hb := beta_deriv hz hi
  obtain ⟨hp1, hp2⟩ := Pq0_deriv hz hi
  have ho := hz.om i hi
  have hbt := hz.btran i hi.le
  have has := hz.as0 i hi
  have h5 : ∀ y, (z y).F0 / (4 * Real.pi) / (z y).qx = (z x).F0 / (4 * Real.pi) / (z x).qx := fun y => by
    rw [hz.F0, hz.qx]
  have h10 := (ho.const_mul ((z x).F0 / (4 * Real.pi) / (z x).qx)).fun_mul hbt
  have h11 := h10.fun_mul hp2
  have h12 := h10.fun_mul hp1
  have h13 := has.fun_add ha
  have h14 := has.fun_sub ha
  have hd := (h13.fun_mul h14).fun_add (hb.fun_mul hb)
  have hnz : ((z x).as0 i + alpha (z x) i) * ((z x).as0 i - alpha (z x) i) + beta (z x) i * beta (z x) i ≠ 0 := by
    have : (vars (z x) i ⟨0, 0, 0, 0, 0, 0, 0⟩).a15 =
      ((z x).as0 i + alpha (z x) i) * ((z x).as0 i - alpha (z x) i) + beta (z x) i * beta (z x) i := by
      unfold vars; rw [if_pos hs]
    rw [← this]; exact h15
  have ep := ((h11.fun_mul h13).fun_add (hb.fun_mul h12)).fun_div hd hnz
  have em := ((h12.fun_mul h14.fun_neg).fun_add (hb.fun_mul h11)).fun_div hd hnz
  have e1 : (fun y => Fp (z y) i) = fun y =>
      ((z x).F0 / (4 * Real.pi) / (z x).qx * (z y).om i * (z y).btran i * (Pq0 (z y) i).2 *
        ((z y).as0 i + alpha (z y) i) +
      beta (z y) i * ((z x).F0 / (4 * Real.pi) / (z x).qx * (z y).om i * (z y).btran i * (Pq0 (z y) i).1)) /
      (((z y).as0 i + alpha (z y) i) * ((z y).as0 i - alpha (z y) i) + beta (z y) i * beta (z y) i) := by
    funext y
    have hs' : (z y).solar = true := by rw [hz.solar]; exact hs
    unfold Fp vars
    simp only [hs', if_true, h5]
    ring
  have e2 : (fun y => Fm (z y) i) = fun y =>
      ((z x).F0 / (4 * Real.pi) / (z x).qx * (z y).om i * (z y).btran i * (Pq0 (z y) i).1 *
        -((z y).as0 i - alpha (z y) i) +
      beta (z y) i * ((z x).F0 / (4 * Real.pi) / (z x).qx * (z y).om i * (z y).btran i * (Pq0 (z y) i).2)) /
      (((z y).as0 i + alpha (z y) i) * ((z y).as0 i - alpha (z y) i) + beta (z y) i * beta (z y) i) := by
    funext y
    have hs' : (z y).solar = true := by rw [hz.solar]; exact hs
    unfold Fm vars
    simp only [hs', if_true, h5]
    ring
  have c1 : Fp (z x) i = _ := congrFun e1 x
  have c2 : Fm (z x) i = _ := congrFun e2 x
  rw [e1, e2]
  have m1 : (mask fl z').om i = on (fl.lay i) (z'.om i) := rfl
  have m2 : (mask fl z').btran i = on (fl.beam i) (z'.btran i) := rfl
  have m3 : (mask fl z').as0 i = on (fl.beam i) (z'.as0 i) := rfl
  have q : ∀ N N' D D' : ℝ, D ≠ 0 → (N' * D - N * D') / D ^ 2 = 0 + (N' - N / D * D') / D := by
    intro N N' D D' hD; field_simp; ring
  constructor
  · refine ep.congr_deriv ?_
    unfold FG FL
    simp only [if_true, c1]
    unfold vars
    simp only [if_pos hs, m1, m2, m3]
    rw [q _ _ _ _ hnz]
    generalize ((z x).as0 i + alpha (z x) i) * ((z x).as0 i - alpha (z x) i) + beta (z x) i * beta (z x) i = D
    ring
  · refine em.congr_deriv ?_
    unfold FG FL
    simp only [if_true, c2]
    unfold vars
    simp only [if_pos hs, m1, m2, m3]
    rw [q _ _ _ _ hnz]
    generalize ((z x).as0 i + alpha (z x) i) * ((z x).as0 i - alpha (z x) i) + beta (z x) i * beta (z x) i = D
    ring

omit hz hi in
/-- Without a flag of the layer the optical properties do not change. -/
theorem still (w : Inp) (d : Inp) (h : fl.lay i = false) :
    alphaL w (mask fl d) i = 0 ∧ betaL w (mask fl d) i = 0 ∧ nuL w (mask fl d) i = 0 ∧ XpL w (mask fl d) i = 0 ∧
    (PqqL w (mask fl d) i) = 0 ∧ (Pq0L w (mask fl d) i) = 0 := by
  have h1 : (mask fl d).om i = 0 := by unfold mask on; simp [h]
  have h2 : (mask fl d).g i = 0 := by unfold mask on; simp [h]
  have hp : PqqL w (mask fl d) i = 0 := by unfold PqqL; rw [h2]; split_ifs <;> simp
  have hp0 : Pq0L w (mask fl d) i = 0 := by unfold Pq0L; rw [h2]; split_ifs <;> simp
  have ha : alphaL w (mask fl d) i = 0 := by unfold alphaL; rw [h1, hp]; simp
  have hb : betaL w (mask fl d) i = 0 := by unfold betaL; rw [h1, hp]; simp
  have hn : nuL w (mask fl d) i = 0 := by unfold nuL; rw [ha, hb]; simp
  refine ⟨ha, hb, hn, ?_, hp, hp0⟩
  unfold XpL
  simp [ha, hb, hn]

omit hz hi in
/-- With it they change as the code says. -/
theorem moved (w : Inp) (d : Inp) (h : fl.lay i = true) :
    alphaL w (mask fl d) i = alphaL w d i ∧ betaL w (mask fl d) i = betaL w d i ∧
    nuL w (mask fl d) i = nuL w d i ∧ XpL w (mask fl d) i = XpL w d i ∧
    PqqL w (mask fl d) i = PqqL w d i ∧ Pq0L w (mask fl d) i = Pq0L w d i := by
  have h1 : (mask fl d).om i = d.om i := by unfold mask on; simp [h]
  have h2 : (mask fl d).g i = d.g i := by unfold mask on; simp [h]
  have hp : PqqL w (mask fl d) i = PqqL w d i := by unfold PqqL; rw [h2]
  have hp0 : Pq0L w (mask fl d) i = Pq0L w d i := by unfold Pq0L; rw [h2]
  have ha : alphaL w (mask fl d) i = alphaL w d i := by unfold alphaL; rw [h1, hp]
  have hb : betaL w (mask fl d) i = betaL w d i := by unfold betaL; rw [h1, hp]
  have hn : nuL w (mask fl d) i = nuL w d i := by unfold nuL; rw [ha, hb]
  refine ⟨ha, hb, hn, ?_, hp, hp0⟩
  unfold XpL
  rw [ha, hb, hn]

omit hz hi in
/-- The three cases of the code are the one. -/
theorem FG_eq (w d : Inp) (junk : Vars) (hs : w.solar = true) (hf : fl.lay i = true → fl.beam i = true) :
    FG w (mask fl d) i = if fl.beam i then FL w d fl junk i else 0 := by
  have hv : ∀ j, vars w i j = vars w i junk := fun j => by unfold vars; rw [if_pos hs, if_pos hs]
  have m1 : (mask fl d).om i = on (fl.lay i) (d.om i) := rfl
  have m2 : (mask fl d).btran i = on (fl.beam i) (d.btran i) := rfl
  have m3 : (mask fl d).as0 i = on (fl.beam i) (d.as0 i) := rfl
  cases hl : fl.lay i
  · obtain ⟨h1, h2, -, -, -, h5⟩ := still (i := i) w d hl
    unfold FG FL
    simp only [if_true, hv ⟨0, 0, 0, 0, 0, 0, 0⟩, m1, m2, m3, h1, h2, h5, hl, hs]
    cases hb : fl.beam i
    · simp [on]
    · simp [on]
      constructor <;> ring
  · obtain ⟨h1, h2, -, -, -, h5⟩ := moved (i := i) w d hl
    have hb := hf hl
    unfold FG FL
    simp only [if_true, hv ⟨0, 0, 0, 0, 0, 0, 0⟩, m1, m2, m3, h1, h2, h5, hl, hb, on]

omit hi in
/-- The inputs of the boundary value problem have the derivatives that the code says. -/
theorem bvp_along (junk : Vars) (hn : Numbers (z x)) (h0 : ∀ i, i < (z x).L → nu (z x) i ≠ 0)
    (hsun : (z x).solar = true ∨ ∀ i, i < (z x).L → fl.lay i = false) :
    Bvp.InpDeriv (fun y => toBvp (z y)) (Bvp.masked (z x).L (toFlags fl) (toBvpL (z x) z' fl junk)) x := by
  have hF : ∀ i, i < (z x).L →
      HasDerivAt (fun y => Fp (z y) i) (if fl.beam i then (FL (z x) z' fl junk i).1 else 0) x ∧
      HasDerivAt (fun y => Fm (z y) i) (if fl.beam i then (FL (z x) z' fl junk i).2 else 0) x := by
    intro i hi
    cases hs : (z x).solar
    · have hl : fl.lay i = false := by
        rcases hsun with h | h
        · rw [hs] at h; cases h
        · exact h i hi
      have hc : ∀ y, Fp (z y) i = 0 ∧ Fm (z y) i = 0 := fun y => F_dark (z y) (by rw [hz.solar]; exact hs) i
      have e1 : (fun y => Fp (z y) i) = fun _ => 0 := funext fun y => (hc y).1
      have e2 : (fun y => Fm (z y) i) = fun _ => 0 := funext fun y => (hc y).2
      rw [e1, e2, FL_dark (z x) z' fl junk hs hl]
      simp only [ite_self]
      exact ⟨hasDerivAt_const x 0, hasDerivAt_const x 0⟩
    · have := F_deriv hz hi hs ((hn i hi).2.2 hs)
      rw [FG_eq (z x) z' junk hs (hz.flags i hi)] at this
      cases hb : fl.beam i
      · simpa [hb] using this
      · simpa [hb] using this
  have onl : ∀ (c : Bool) (f : ℝ) , on c f = if c then f else 0 := fun _ _ => rfl
  refine { L := fun y => hz.L y, surface := fun y => hz.surface y, solar := fun y => hz.solar y,
           thermal := fun _ => rfl, m := ?_, ltau := ?_, atran := ?_, Fsp := ?_, Fsm := ?_, Fs1p := ?_, Fs1m := ?_,
           Ft0p := ?_, Ft0m := ?_, Ft1p := ?_, Ft1m := ?_, Rs := ?_, I1m := ?_, Inp := ?_ }
  · intro i hi
    have hn' := nu_deriv hz hi (h0 i hi)
    have hx' := Xp_deriv hz hi (h0 i hi) (hn i hi).2.1
    have hm : (Bvp.masked (z x).L (toFlags fl) (toBvpL (z x) z' fl junk)).m i =
        ⟨fun _ => nuL (z x) (mask fl z') i, fun _ _ => XpL (z x) (mask fl z') i, fun _ _ => 0⟩ := by
      have : (Bvp.masked (z x).L (toFlags fl) (toBvpL (z x) z' fl junk)).m i =
        if fl.lay i then ⟨fun _ => nuL (z x) z' i, fun _ _ => XpL (z x) z' i, fun _ _ => 0⟩ else ⟨0, 0, 0⟩ := rfl
      rw [this]
      cases hl : fl.lay i
      · obtain ⟨-, -, a, b, -⟩ := still (i := i) (z x) z' hl
        rw [a, b]; rfl
      · obtain ⟨-, -, a, b, -⟩ := moved (i := i) (z x) z' hl
        rw [a, b]; rfl
    rw [hm]
    exact ⟨fun _ => hn', fun _ _ => hx', fun _ _ => hasDerivAt_const x 1⟩
  · intro i hi; exact hz.ltau i hi
  · intro i hi; exact hz.atran i hi
  · intro i hi j
    refine (hF i hi).1.congr_deriv ?_
    show _ = (if fl.beam i then fun _ => (FL (z x) z' fl junk i).1 else 0 : Fin 1 → ℝ) j
    split_ifs <;> rfl
  · intro i hi j
    refine (hF i hi).2.congr_deriv ?_
    show _ = (if fl.beam i then fun _ => (FL (z x) z' fl junk i).2 else 0 : Fin 1 → ℝ) j
    split_ifs <;> rfl
  · intro i hi j
    refine (hF i hi).1.congr_deriv ?_
    show _ = (if fl.beam i then fun _ => (FL (z x) z' fl junk i).1 else 0 : Fin 1 → ℝ) j
    split_ifs <;> rfl
  · intro i hi j
    refine (hF i hi).2.congr_deriv ?_
    show _ = (if fl.beam i then fun _ => (FL (z x) z' fl junk i).2 else 0 : Fin 1 → ℝ) j
    split_ifs <;> rfl
  · intro i hi j; exact hasDerivAt_const x 0
  · intro i hi j; exact hasDerivAt_const x 0
  · intro i hi j; exact hasDerivAt_const x 0
  · intro i hi j; exact hasDerivAt_const x 0
  · intro i j
    refine hz.Rqq.congr_deriv ?_
    show _ = (if fl.lay (z x).L then fun _ _ => z'.Rqq else 0 : Matrix (Fin 1) (Fin 1) ℝ) i j
    cases fl.lay (z x).L <;> rfl
  · intro i; exact hasDerivAt_const x 0
  · intro i
    show HasDerivAt (fun y => if (z y).solar && (z y).surface then solfac (z y) * (z y).btran (z y).L * (z y).Rq0 else 0)
      (if (z x).solar && (z x).surface then solfac (z x) * (on (fl.beam (z x).L) (z'.btran (z x).L * (z x).Rq0) +
        on (fl.lay (z x).L) ((z x).btran (z x).L * z'.Rq0)) else 0) x
    simp only [hz.solar, hz.surface, hz.L, solfac, hz.F0, hz.mu0]
    split_ifs
    · refine (((hz.btran _ le_rfl).const_mul ((z x).F0 * (z x).mu0 / Real.pi)).fun_mul hz.Rq0).congr_deriv ?_
      cases fl.beam (z x).L <;> cases fl.lay (z x).L <;> simp [on] <;> ring
    · exact hasDerivAt_const x 0

end Xrtm.TwoStream
