import Verif.Model.NoScatter
import Verif.Proof.AddingI
import Verif.Proof.AddingG
import Mathlib.Analysis.SpecialFunctions.ExpDeriv

/-!
# C42: layers that do not scatter

Light through them is dimmed by `exp(-ltau / mu)` and nothing else happens; two on top of each other are one with the sum of
the thicknesses; the derivative by the thickness is exact. With thermal emission the process ends.
-/

namespace Xrtm.NoScatter

open Mat Spec Matrix

variable {n : Nat}

/-- C42. What the layer does to light: each direction on its own is dimmed by Beer's law. -/
theorem C42_beer {qx : V n ℝ} {ltau : ℝ} {l : Layer n ℝ} (h : values Real.exp qx ltau false = .ok l) (dn1 up1 dn2 up2 : V n ℝ) :
    l.Obeys dn1 up1 dn2 up2 ↔
      ∀ i, up1 i = Real.exp (-ltau / qx i) * up2 i ∧ dn2 i = Real.exp (-ltau / qx i) * dn1 i := by
  simp only [values, Except.ok.injEq, Bool.false_eq_true, if_false] at h
  subst h
  simp only [Layer.Obeys, trans, zero_mulVec, zero_add, add_zero]
  constructor
  · rintro ⟨rfl, rfl⟩ i
    simp [mulVec_diagonal]
  · intro h
    constructor <;> funext i <;> simp [mulVec_diagonal, h i]

/-- C42. Two layers together are the layer of both thicknesses. -/
theorem C42_sum {qx : V n ℝ} {a b : ℝ} {la lb lc : Layer n ℝ} (ha : values Real.exp qx a false = .ok la)
    (hb : values Real.exp qx b false = .ok lb) (hc : values Real.exp qx (a + b) false = .ok lc) : Stacked la lb lc := by
  intro dn1 up1 dn3 up3
  have e : ∀ i, Real.exp (-(a + b) / qx i) = Real.exp (-a / qx i) * Real.exp (-b / qx i) := fun i => by
    rw [← Real.exp_add]; congr 1; ring
  rw [C42_beer hc]
  simp only [C42_beer ha, C42_beer hb, e]
  constructor
  · intro h
    refine ⟨fun i => Real.exp (-a / qx i) * dn1 i, fun i => Real.exp (-b / qx i) * up3 i, fun i => ⟨?_, rfl⟩, fun i => ⟨rfl, ?_⟩⟩
    · rw [(h i).1]; ring
    · rw [(h i).2]; ring
  · rintro ⟨dn2, up2, h1, h2⟩ i
    refine ⟨?_, ?_⟩
    · rw [(h1 i).1, (h2 i).1]; ring
    · rw [(h2 i).2, (h1 i).2]; ring

/-- C42. The operators' derivatives, for a derivative that varies the thickness of the layer. -/
theorem C42_derivative {qx : V n ℝ} {ltau : ℝ → ℝ} {ltau_l x : ℝ} (h : HasDerivAt ltau ltau_l x) {l : ℝ → Layer n ℝ}
    (hl : ∀ y, values Real.exp qx (ltau y) false = .ok (l y)) (beam : Bool) :
    ∃ Rl Tl, (derivs Real.exp qx (ltau x) ltau_l true beam).1 = some (Rl, Tl) ∧
      LDeriv l ⟨Rl, Tl, 0, Rl, Tl, 0⟩ x := by
  have e : l = fun y => ⟨0, trans Real.exp qx (ltau y), 0, 0, trans Real.exp qx (ltau y), 0⟩ := by
    funext y
    have := hl y
    simp only [values, Except.ok.injEq, Bool.false_eq_true, if_false] at this
    exact this.symm
  subst e
  have hT : MDeriv (fun y => trans Real.exp qx (ltau y))
      (Matrix.diagonal fun j => -ltau_l / qx j * trans Real.exp qx (ltau x) j j) x := by
    intro i j
    by_cases hij : i = j
    · subst hij
      simp only [trans, Matrix.diagonal_apply_eq]
      refine ((h.fun_neg.div_const (qx i)).exp).congr_deriv ?_
      ring
    · simp only [trans, Matrix.diagonal_apply_ne _ hij]
      exact hasDerivAt_const x 0
  exact ⟨0, _, rfl, MDeriv.const 0, hT, fun i => hasDerivAt_const x _, MDeriv.const 0, hT, fun i => hasDerivAt_const x _⟩

/-- C42. The routine fails exactly for thermal emission: the process ends. -/
theorem C42_exit_iff {K : Type} [Field K] [DecidableEq K] (exp : K → K) (qx : V n K) (ltau omega : K) (iFour nCoef : Nat) (th : Bool)
    (l : Layer n K) :
    (∃ e, layer exp qx ltau omega iFour nCoef th (.ok l) = .error e) ↔
      th = true ∧ iFour = 0 ∧ (omega = 0 ∨ nCoef = 0) := by
  unfold layer taken values
  by_cases h1 : omega = 0 <;> by_cases h2 : nCoef ≤ iFour <;> cases th <;> by_cases h3 : iFour = 0 <;> simp_all
  all_goals (first | (intro e; split <;> simp) | (split <;> simp) | omega)

/-- C42 is violated: with the option for thermal sources, a layer of albedo zero (in the accepted range) ends the process of
the caller, whatever the layer's other values. -/
theorem C42_violated_exit (qx : V n ℝ) (ltau : ℝ) (nCoef : Nat) (other : Except Fault (Layer n ℝ)) :
    layer Real.exp qx ltau 0 0 nCoef true other = .error .exit := by
  simp [layer, taken, values]

example : ∃ l : Layer 2 ℝ, values Real.exp ![1, 2] 3 false = .ok l ∧ Stacked l l ⟨0, trans Real.exp ![1, 2] (3 + 3), 0, 0,
    trans Real.exp ![1, 2] (3 + 3), 0⟩ := ⟨_, rfl, C42_sum rfl rfl rfl⟩

example : ∃ Rl Tl, (derivs Real.exp ![1, 2] (3 : ℝ) 1 true false).1 = some (Rl, Tl) ∧
    LDeriv (fun y => ⟨0, trans Real.exp ![1, 2] y, 0, 0, trans Real.exp ![1, 2] y, 0⟩) ⟨Rl, Tl, 0, Rl, Tl, 0⟩ 3 :=
  C42_derivative (hasDerivAt_id' 3) (fun _ => rfl) false

example : ∃ e, layer (n := 1) (fun x : ℚ => x) (fun _ => 1) 1 0 0 4 true (.ok ⟨0, 1, 0, 0, 1, 0⟩) = .error e :=
  (C42_exit_iff _ _ _ _ _ _ _ _).2 ⟨rfl, rfl, .inl rfl⟩

end Xrtm.NoScatter
