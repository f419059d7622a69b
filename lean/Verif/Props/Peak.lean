import Verif.Model.Peak
import Verif.Spec.Peak
import Mathlib.Tactic.FieldSimp
import Mathlib.Tactic.Linarith
import Mathlib.Tactic.FinCases
import Mathlib.Algebra.BigOperators.Ring.Finset

/-!
# C72: truncation takes the forward peak out of the scattering matrix
-/

namespace Xrtm.DeltaM
open Loops

theorem series_eq (n : Nat) (p : Nat → ℝ) (coef : Nat → Nat → ℝ) (e : Nat) :
    series n p coef e = ∑ j ∈ Finset.range n, coef e j * p j := by
  unfold series
  rw [forN_sum, zero_add]

/-- The matrix is that of particles turned every way, its six functions the sums of the coefficients. -/
theorem C72_shape (n : Nat) (p : Nat → ℝ) (coef : Nat → Nat → ℝ) (r c : Fin 4) :
    let F e := ∑ j ∈ Finset.range n, coef e j * p j
    scatLC n p coef true r c = sixMatrix (F 0) (F 1) (F 2) (F 3) (F 4) (F 5) r c := by
  fin_cases r <;> fin_cases c <;> simp [scatLC, sixMatrix, series_eq]

example : scatLC 1 (fun _ => 1) (fun e _ => e) true 3 2 = -5 := by
  rw [C72_shape]
  simp [sixMatrix]

/-- Coefficient for coefficient: the first four elements lose the peak, and what is left of all six is scaled up. -/
theorem C72_coef {f : ℝ} (hf : f ≠ 1) (coef : Nat → Nat → ℝ) (e i : Nat) :
    coef e i = f * (if e < 4 then 2 * (i : ℝ) + 1 else 0) + (1 - f) * deltaMCoef .gc f coef e i := by
  have ha : 1 - f ≠ 0 := sub_ne_zero.2 hf.symm
  unfold deltaMCoef
  dsimp only
  split_ifs
  · field_simp; ring
  · field_simp; ring
  · contradiction

example : (3 : ℝ) = 1 / 2 * (if 4 < 4 then 2 * ((1 : Nat) : ℝ) + 1 else 0) + (1 - 1 / 2) * deltaMCoef .gc (1 / 2) (fun _ _ => 3) 4 1 :=
  C72_coef (by norm_num) (fun _ _ => 3) 4 1

theorem series_low (ty : CoefType) {f : ℝ} (hf : f ≠ 1) (n : Nat) (p : Nat → ℝ) (coef : Nat → Nat → ℝ) {e : Nat} (he : e < 4) :
    series n p coef e = f * ∑ j ∈ Finset.range n, (2 * (j : ℝ) + 1) * p j + (1 - f) * series n p (deltaMCoef ty f coef) e := by
  have ha : 1 - f ≠ 0 := sub_ne_zero.2 hf.symm
  rw [series_eq, series_eq, Finset.mul_sum, Finset.mul_sum, ← Finset.sum_add_distrib]
  refine Finset.sum_congr rfl fun j _ => ?_
  unfold deltaMCoef
  dsimp only
  rw [if_pos he]
  field_simp
  ring

theorem series_high {f : ℝ} (n : Nat) (p : Nat → ℝ) (coef : Nat → Nat → ℝ) {e : Nat} (he : ¬ e < 4) :
    series n p (deltaMCoef .lc f coef) e = series n p coef e := by
  rw [series_eq, series_eq]
  refine Finset.sum_congr rfl fun j _ => ?_
  unfold deltaMCoef
  dsimp only
  rw [if_neg he, if_neg (by decide)]

/-- With coefficients in Legendre polynomials the diagonal is the part `f` of the peak and the part `1 - f` of the
diagonal of the truncated matrix.  Full statement: the whole matrix is; it is false, see `C72_violated_lc`. -/
theorem C72_diagonal_partial {f : ℝ} (hf : f ≠ 1) (n : Nat) (p : Nat → ℝ) (coef : Nat → Nat → ℝ) (r : Fin 4) :
    scatLC n p coef true r r = f * peak n p r r + (1 - f) * scatLC n p (deltaMCoef .lc f coef) true r r := by
  unfold peak
  rw [if_pos rfl]
  fin_cases r
  · exact series_low .lc hf n p coef (by norm_num)
  · exact series_low .lc hf n p coef (by norm_num)
  · exact series_low .lc hf n p coef (by norm_num)
  · exact series_low .lc hf n p coef (by norm_num)

/-- Without polarisation nothing else is there. -/
theorem C72_scalar {f : ℝ} (hf : f ≠ 1) (ty : CoefType) (n : Nat) (p : Nat → ℝ) (coef : Nat → Nat → ℝ) :
    scatLC n p coef false 0 0 = f * peak n p 0 0 + (1 - f) * scatLC n p (deltaMCoef ty f coef) false 0 0 := by
  unfold peak
  rw [if_pos rfl]
  exact series_low ty hf n p coef (by norm_num)

example : scatLC 3 (fun _ => 1) (fun _ j => 1 / (j + 1)) true 1 1 = 1 / 4 * peak 3 (fun _ => 1) 1 1 +
    (1 - 1 / 4) * scatLC 3 (fun _ => 1) (deltaMCoef .lc (1 / 4) fun _ j => 1 / (j + 1)) true 1 1 :=
  C72_diagonal_partial (by norm_num) 3 _ _ 1

/-- **Violated** with coefficients in Legendre polynomials wherever light is polarised by scattering: the elements off
the diagonal are left as they are (src/xrtm_utility.c:690-693), so their share of what is left of the scattering is too
small by `1 - f`. -/
theorem C72_violated_lc {f : ℝ} (h0 : f ≠ 0) (n : Nat) (p : Nat → ℝ) (coef : Nat → Nat → ℝ)
    (h : scatLC n p coef true 0 1 ≠ 0) :
    (1 - f) * scatLC n p (deltaMCoef .lc f coef) true 0 1 = (1 - f) * scatLC n p coef true 0 1 ∧
      ¬ Splits f (scatLC n p coef true) (peak n p) (scatLC n p (deltaMCoef .lc f coef) true) := by
  have e : scatLC n p (deltaMCoef .lc f coef) true 0 1 = scatLC n p coef true 0 1 :=
    series_high (f := f) n p coef (e := 4) (by norm_num)
  refine ⟨by rw [e], fun hs => ?_⟩
  have k := hs 0 1
  rw [e] at k
  unfold peak at k
  rw [if_neg (by decide)] at k
  exact mul_ne_zero h0 h (by linarith)

/-- With the rule for the other kind of coefficients the whole matrix would split. -/
theorem C72_as_gc {f : ℝ} (hf : f ≠ 1) (n : Nat) (p : Nat → ℝ) (coef : Nat → Nat → ℝ) :
    Splits f (scatLC n p coef true) (peak n p) (scatLC n p (deltaMCoef .gc f coef) true) := by
  have hi : ∀ e, ¬ e < 4 → series n p coef e = (1 - f) * series n p (deltaMCoef .gc f coef) e := by
    intro e he
    rw [series_eq, series_eq, Finset.mul_sum]
    refine Finset.sum_congr rfl fun j _ => ?_
    have := C72_coef hf coef e j
    rw [if_neg he, mul_zero, zero_add] at this
    rw [this]
    unfold deltaMCoef
    dsimp only
    rw [if_neg he, if_pos rfl]
    have ha : 1 - f ≠ 0 := sub_ne_zero.2 hf.symm
    field_simp
  have lo : ∀ e, e < 4 → _ := fun e he => series_low .gc hf n p coef (e := e) he
  intro r c
  unfold peak
  by_cases h : r = c
  · subst h
    rw [if_pos rfl]
    fin_cases r
    · exact lo 0 (by norm_num)
    · exact lo 1 (by norm_num)
    · exact lo 2 (by norm_num)
    · exact lo 3 (by norm_num)
  · rw [if_neg h, mul_zero, zero_add]
    fin_cases r <;> fin_cases c <;> first
      | exact absurd rfl h
      | (simp [scatLC]; done)
      | exact hi 4 (by norm_num)
      | exact hi 5 (by norm_num)
      | (simp only [scatLC]; have := hi 5 (by norm_num); simp; linarith)

example : ¬ Splits (1 / 2) (scatLC 1 (fun _ => 1) (fun _ _ => 1) true) (peak 1 fun _ => 1)
    (scatLC 1 (fun _ => 1) (deltaMCoef .lc (1 / 2) fun _ _ => 1) true) :=
  (C72_violated_lc (by norm_num) 1 _ _ (by simp [scatLC, series_eq])).2

end Xrtm.DeltaM
