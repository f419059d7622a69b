import Verif.Proof.PadeA
import Mathlib.Analysis.Normed.Algebra.Exponential
import Mathlib.Topology.Algebra.Polynomial
import Mathlib.Analysis.Normed.Ring.Units
import Mathlib.Algebra.Polynomial.Div

/-! Padé solver: the order of the approximant, in an algebra with a norm. -/

namespace Xrtm.Pade
open Finset Filter Topology Asymptotics

variable {A : Type} [NormedRing A] [NormedAlgebra ℝ A] [CompleteSpace A] [NormOneClass A]

theorem exp_partial (m : Nat) :
    (fun x : A => NormedSpace.exp x - ∑ k ∈ range m, ((k.factorial : ℝ)⁻¹) • x ^ k) =O[𝓝 0] fun x => ‖x‖ ^ m := by
  have h := (NormedSpace.exp_hasFPowerSeriesAt_zero (𝕂 := ℝ) (𝔸 := A)).isBigO_sub_partialSum_pow m
  simpa [FormalMultilinearSeries.partialSum, NormedSpace.expSeries_apply_eq] using h

/-- The numerator, the denominator and the first terms of the exponential as polynomials. -/
noncomputable def polyN (r : Nat) : Polynomial ℝ := ∑ k ∈ range (r + 1), Polynomial.C (coef r k) * Polynomial.X ^ k
noncomputable def polyD (r : Nat) : Polynomial ℝ := ∑ k ∈ range (r + 1), Polynomial.C ((-1) ^ k * coef r k) * Polynomial.X ^ k
noncomputable def polyE (r : Nat) : Polynomial ℝ :=
  ∑ k ∈ range (2 * r + 1), Polynomial.C ((k.factorial : ℝ)⁻¹) * Polynomial.X ^ k

theorem sum_coeff (f : Nat → ℝ) (m k : Nat) :
    (∑ i ∈ range m, Polynomial.C (f i) * Polynomial.X ^ i : Polynomial ℝ).coeff k = if k < m then f k else 0 := by
  simp [Polynomial.finset_sum_coeff, Polynomial.coeff_C_mul, Polynomial.coeff_X_pow]

theorem sum_aeval (f : Nat → ℝ) (m : Nat) (x : A) :
    Polynomial.aeval x (∑ i ∈ range m, Polynomial.C (f i) * Polynomial.X ^ i : Polynomial ℝ) = ∑ i ∈ range m, f i • x ^ i := by
  simp [Algebra.smul_def]

theorem polyD_aeval (r : Nat) (x : A) : Polynomial.aeval x (polyD r) = pad (coef r) r (-x) := by
  rw [polyD, sum_aeval, pad]
  refine sum_congr rfl fun k _ => ?_
  rcases Nat.even_or_odd k with h | h
  · simp [h.neg_one_pow, h.neg_pow]
  · simp [h.neg_one_pow, h.neg_pow]

theorem dvd_order (r : Nat) : Polynomial.X ^ (2 * r + 1) ∣ polyD r * polyE r - polyN r := by
  rw [Polynomial.X_pow_dvd_iff]
  intro k hk
  rw [Polynomial.coeff_sub, Polynomial.coeff_mul,
    Finset.Nat.sum_antidiagonal_eq_sum_range_succ fun i j => (polyD r).coeff i * (polyE r).coeff j, polyN, sum_coeff]
  have e := coef_order (p := r) (k := k) (by omega)
  have e2 : (if k < r + 1 then coef r k else 0) = coef r k := by
    split_ifs with h
    · rfl
    · rw [coef_zero_of_lt (by omega)]
  rw [e2, ← e, sub_eq_zero]
  refine sum_congr rfl fun j hj => ?_
  have hj : j ≤ k := by simpa [Nat.lt_succ_iff] using hj
  rw [polyD, polyE, sum_coeff, sum_coeff, if_pos (show k - j < 2 * r + 1 by omega)]
  congr 1
  split_ifs with h
  · rfl
  · rw [coef_zero_of_lt (by omega), mul_zero]

theorem aeval_bounded (P : Polynomial ℝ) : (fun x : A => Polynomial.aeval x P) =O[𝓝 0] fun _ => (1 : ℝ) := by
  have : Continuous fun x : A => Polynomial.aeval x P := by fun_prop
  exact (this.tendsto 0).isBigO_one ℝ

/-- The order of the approximant. -/
theorem pad_order (r : Nat) :
    (fun x : A => pad (coef r) r (-x) * NormedSpace.exp x - pad (coef r) r x) =O[𝓝 0] fun x => ‖x‖ ^ (2 * r + 1) := by
  obtain ⟨Q, hQ⟩ := dvd_order r
  have h1 : (fun x : A => Polynomial.aeval x (polyD r * polyE r - polyN r)) =O[𝓝 0] fun x => ‖x‖ ^ (2 * r + 1) := by
    simp only [hQ, map_mul, map_pow, Polynomial.aeval_X]
    have : (fun x : A => x ^ (2 * r + 1)) =O[𝓝 0] fun x => ‖x‖ ^ (2 * r + 1) :=
      IsBigO.of_bound 1 (Eventually.of_forall fun x => by
        rw [one_mul, Real.norm_of_nonneg (by positivity)]; exact norm_pow_le x _)
    simpa using this.mul (aeval_bounded Q)
  have h2 : (fun x : A => Polynomial.aeval x (polyD r) *
      (NormedSpace.exp x - ∑ k ∈ range (2 * r + 1), ((k.factorial : ℝ)⁻¹) • x ^ k)) =O[𝓝 0] fun x => ‖x‖ ^ (2 * r + 1) := by
    simpa using (aeval_bounded (A := A) (polyD r)).mul (exp_partial (2 * r + 1))
  refine (h1.add h2).congr_left fun x => ?_
  rw [map_sub, map_mul, polyD_aeval, polyE, sum_aeval, show Polynomial.aeval x (polyN r) = pad (coef r) r x from sum_aeval _ _ x]
  generalize pad (coef r) r (-x) = a
  generalize pad (coef r) r x = b
  rw [mul_sub]
  abel

theorem pad_zero (r : Nat) : pad (coef r) r (0 : A) = 1 := by
  rw [pad, sum_range_succ']
  simp [coef]

theorem pad_neg_tendsto (r : Nat) : Tendsto (fun x : A => pad (coef r) r (-x)) (𝓝 0) (𝓝 1) := by
  have : Continuous fun x : A => Polynomial.aeval x (polyD r) := by fun_prop
  have h := this.tendsto 0
  simp only [polyD_aeval, neg_zero, pad_zero] at h
  exact h

theorem pad_unit (r : Nat) : ∀ᶠ x : A in 𝓝 0, IsUnit (pad (coef r) r (-x)) :=
  (pad_neg_tendsto r).eventually (Units.nhds 1)

/-- The approximant. -/
noncomputable def approx (r : Nat) (x : A) : A := Ring.inverse (pad (coef r) r (-x)) * pad (coef r) r x

theorem approx_order (r : Nat) :
    (fun x : A => approx r x - NormedSpace.exp x) =O[𝓝 0] fun x => ‖x‖ ^ (2 * r + 1) := by
  have h1 : (fun x : A => Ring.inverse (pad (coef r) r (-x))) =O[𝓝 0] fun _ => (1 : ℝ) := by
    have h := (NormedRing.inverse_continuousAt (1 : Aˣ)).tendsto.comp (pad_neg_tendsto (A := A) r)
    exact h.isBigO_one ℝ
  have h2 := h1.mul (pad_order (A := A) r).neg_left
  simp only [one_mul] at h2
  refine h2.congr' ?_ EventuallyEq.rfl
  filter_upwards [pad_unit (A := A) r] with x hx
  rw [approx, neg_sub, mul_sub, ← mul_assoc, Ring.inverse_mul_cancel _ hx, one_mul]

theorem pow_sub_pow_le {a b : A} {B : ℝ} (hB : 1 ≤ B) (ha : ‖a‖ ≤ B) (hb : ‖b‖ ≤ B) (m : Nat) :
    ‖a ^ m - b ^ m‖ ≤ m * B ^ m * ‖a - b‖ := by
  induction m with
  | zero => simp
  | succ m ih =>
      have e : a ^ (m + 1) - b ^ (m + 1) = a * (a ^ m - b ^ m) + (a - b) * b ^ m := by
        rw [pow_succ', pow_succ']; noncomm_ring
      have hbm : ‖b ^ m‖ ≤ B ^ (m + 1) :=
        (norm_pow_le b m).trans ((pow_le_pow_left₀ (norm_nonneg b) hb m).trans (pow_le_pow_right₀ hB (Nat.le_succ m)))
      calc ‖a ^ (m + 1) - b ^ (m + 1)‖ ≤ ‖a * (a ^ m - b ^ m)‖ + ‖(a - b) * b ^ m‖ := by rw [e]; exact norm_add_le _ _
        _ ≤ ‖a‖ * ‖a ^ m - b ^ m‖ + ‖a - b‖ * ‖b ^ m‖ := add_le_add (norm_mul_le _ _) (norm_mul_le _ _)
        _ ≤ B * (m * B ^ m * ‖a - b‖) + ‖a - b‖ * B ^ (m + 1) := by
            gcongr
        _ = ((m + 1 : Nat) : ℝ) * B ^ (m + 1) * ‖a - b‖ := by push_cast; ring

/-- Many small steps: one constant for all thicknesses and numbers of steps. -/
theorem steps (r : Nat) (Z : A) : ∃ K : ℝ, 0 < K ∧ ∀ (t : ℝ) (s : Nat), 0 < t → t / 2 ^ s ≤ 1 / K →
    IsUnit (pad (coef r) r (-((t / 2 ^ s) • Z))) ∧
      ∀ E, pad (coef r) r (-((t / 2 ^ s) • Z)) * E = pad (coef r) r ((t / 2 ^ s) • Z) →
        ‖E ^ (2 ^ s) - NormedSpace.exp (t • Z)‖ ≤ K * Real.exp (K * t) * t * (t / 2 ^ s) ^ (2 * r) := by
  obtain ⟨K1, hK0, hK⟩ := (approx_order (A := A) r).exists_pos
  obtain ⟨K2, hK20, hK2⟩ := (exp_partial (A := A) 1).exists_pos
  obtain ⟨δ, hδ, hball⟩ := Metric.eventually_nhds_iff.1 (hK.bound.and (hK2.bound.and (pad_unit (A := A) r)))
  set z : ℝ := ‖Z‖
  have hz : 0 ≤ z := norm_nonneg Z
  set L : ℝ := K2 * z + K1 * z ^ (2 * r + 1)
  have hL : 0 ≤ L := by positivity
  set K : ℝ := 1 + L + K1 * z ^ (2 * r + 1) + (z + 1) / δ with hKdef
  have q1 : 0 ≤ K1 * z ^ (2 * r + 1) := by positivity
  have q2 : 0 < (z + 1) / δ := by positivity
  have hKpos : 0 < K := by positivity
  refine ⟨K, hKpos, fun t s ht hs => ?_⟩
  set h : ℝ := t / 2 ^ s with hh
  have hh0 : 0 < h := by positivity
  have hhK : h * K ≤ 1 := by rwa [le_div_iff₀ hKpos] at hs
  have hh1 : h ≤ 1 := by
    have : h * 1 ≤ h * K := by
      apply mul_le_mul_of_nonneg_left _ hh0.le
      linarith
    linarith
  have nx : ‖h • Z‖ = h * z := by rw [norm_smul, Real.norm_of_nonneg hh0.le]
  have hsmall : h * z < δ := by
    have h1 : h * ((z + 1) / δ) ≤ h * K := by
      apply mul_le_mul_of_nonneg_left _ hh0.le
      linarith
    have h2 : h * (z + 1) ≤ δ := by
      have : h * ((z + 1) / δ) ≤ 1 := h1.trans hhK
      rw [← mul_div_assoc, div_le_one hδ] at this
      exact this
    nlinarith
  obtain ⟨b1, b2, hu⟩ := hball (y := h • Z) (by rwa [dist_zero_right, nx])
  refine ⟨hu, fun E hE => ?_⟩
  have hE' : E = approx r (h • Z) := by
    rw [approx, ← hE, ← mul_assoc, Ring.inverse_mul_cancel _ hu, one_mul]
  rw [← hE'] at b1
  rw [Real.norm_of_nonneg (by positivity), nx, mul_pow] at b1
  rw [Real.norm_of_nonneg (by positivity), nx, pow_one] at b2
  simp only [range_one, sum_singleton, Nat.factorial_zero, Nat.cast_one, inv_one, one_smul, pow_zero] at b2
  have hp : h ^ (2 * r + 1) ≤ h := by
    simpa using pow_le_pow_of_le_one hh0.le hh1 (show 1 ≤ 2 * r + 1 by omega)
  have h4 : 1 + h * L = 1 + K2 * (h * z) + K1 * (h * z ^ (2 * r + 1)) := by simp only [L]; ring
  have n1 : ‖NormedSpace.exp (h • Z)‖ ≤ 1 + K2 * (h * z) := by
    have := norm_add_le (1 : A) (NormedSpace.exp (h • Z) - 1)
    rw [add_sub_cancel, norm_one] at this
    linarith
  have n2 : ‖E‖ ≤ 1 + h * L := by
    have := norm_add_le (NormedSpace.exp (h • Z)) (E - NormedSpace.exp (h • Z))
    rw [add_sub_cancel] at this
    have h3 : K1 * (h ^ (2 * r + 1) * z ^ (2 * r + 1)) ≤ K1 * (h * z ^ (2 * r + 1)) := by gcongr
    linarith
  have n3 : ‖NormedSpace.exp (h • Z)‖ ≤ 1 + h * L := by
    have : 0 ≤ K1 * (h * z ^ (2 * r + 1)) := by positivity
    linarith
  have hm : ((2 ^ s : Nat) : ℝ) * h = t := by
    rw [hh]; push_cast; exact mul_div_cancel₀ _ (by positivity)
  have hexp : NormedSpace.exp (h • Z) ^ (2 ^ s) = NormedSpace.exp (t • Z) := by
    letI : NormedAlgebra ℚ A := NormedAlgebra.restrictScalars ℚ ℝ A
    rw [← NormedSpace.exp_nsmul, ← Nat.cast_smul_eq_nsmul ℝ, smul_smul, hm]
  have hB : (1 + h * L) ^ (2 ^ s) ≤ Real.exp (K * t) := by
    have : (1 + h * L) ^ (2 ^ s) ≤ Real.exp (h * L) ^ (2 ^ s) := by
      gcongr
      rw [add_comm]; exact Real.add_one_le_exp _
    rw [← Real.exp_nat_mul, ← mul_assoc, hm] at this
    refine this.trans (Real.exp_le_exp.2 ?_)
    rw [mul_comm]
    apply mul_le_mul_of_nonneg_right _ ht.le
    linarith
  have key := pow_sub_pow_le (by nlinarith : 1 ≤ 1 + h * L) n2 n3 (2 ^ s)
  rw [hexp] at key
  have hKz : K1 * z ^ (2 * r + 1) ≤ K := by linarith
  calc _ ≤ _ := key
    _ ≤ ((2 ^ s : Nat) : ℝ) * Real.exp (K * t) * (K1 * (h ^ (2 * r + 1) * z ^ (2 * r + 1))) := by gcongr
    _ = (((2 ^ s : Nat) : ℝ) * h) * (Real.exp (K * t) * (K1 * z ^ (2 * r + 1)) * h ^ (2 * r)) := by rw [pow_succ h]; ring
    _ ≤ t * (Real.exp (K * t) * K * h ^ (2 * r)) := by rw [hm]; gcongr
    _ = _ := by ring

end Xrtm.Pade
