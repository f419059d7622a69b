import Verif.Proof.LegendreMath
import Mathlib.Analysis.SpecialFunctions.Integrals.Basic
import Mathlib.MeasureTheory.Integral.IntervalIntegral.IntegrationByParts
import Mathlib.LinearAlgebra.Lagrange
import Mathlib.Analysis.Calculus.Deriv.Polynomial
import Mathlib.Analysis.Calculus.LocalExtr.Polynomial
import Mathlib.Topology.Algebra.Polynomial

/-!
# Gauss quadrature at the zeros of a Legendre polynomial
-/

namespace Xrtm.Gauss
open Polynomial Xrtm.Legendre Xrtm.Legendre.Spec

/-- The integral of a polynomial from minus one to one. -/
noncomputable def I (f : ℝ[X]) : ℝ := ∫ t in (-1 : ℝ)..1, f.eval t

theorem poly_int (f : ℝ[X]) (a b : ℝ) : IntervalIntegrable (fun t => f.eval t) MeasureTheory.volume a b :=
  f.continuous.intervalIntegrable a b

theorem I_add (f g : ℝ[X]) : I (f + g) = I f + I g := by
  unfold I
  rw [← intervalIntegral.integral_add (poly_int f _ _) (poly_int g _ _)]
  simp

theorem I_C_mul (c : ℝ) (f : ℝ[X]) : I (C c * f) = c * I f := by
  unfold I
  rw [← intervalIntegral.integral_const_mul]
  simp

theorem I_sum {ι : Type*} (s : Finset ι) (f : ι → ℝ[X]) : I (∑ i ∈ s, f i) = ∑ i ∈ s, I (f i) := by
  unfold I
  rw [← intervalIntegral.integral_finset_sum fun i _ => poly_int (f i) _ _]
  simp [eval_finset_sum]

theorem I_deriv (f g : ℝ[X]) :
    I (derivative f * g) = f.eval 1 * g.eval 1 - f.eval (-1) * g.eval (-1) - I (f * derivative g) := by
  have := intervalIntegral.integral_mul_deriv_eq_deriv_mul (a := (-1 : ℝ)) (b := 1) (u := fun t => g.eval t)
    (v := fun t => f.eval t) (u' := fun t => (derivative g).eval t) (v' := fun t => (derivative f).eval t)
    (fun x _ => g.hasDerivAt x) (fun x _ => f.hasDerivAt x) (poly_int _ _ _) (poly_int _ _ _)
  unfold I
  simp only [eval_mul]
  have e1 : (∫ t in (-1 : ℝ)..1, (derivative f).eval t * g.eval t) = ∫ t in (-1 : ℝ)..1, g.eval t * (derivative f).eval t :=
    intervalIntegral.integral_congr fun t _ => mul_comm _ _
  have e2 : (∫ t in (-1 : ℝ)..1, f.eval t * (derivative g).eval t) = ∫ t in (-1 : ℝ)..1, (derivative g).eval t * f.eval t :=
    intervalIntegral.integral_congr fun t _ => mul_comm _ _
  rw [e1, e2, this]
  ring

theorem eval_neg_one_low (l k : ℕ) (h : k < l) : (derivative^[k] (base l)).eval (-1) = 0 := by
  have hd : ((X : ℝ[X]) - C (-1)) ^ l ∣ base l := by
    unfold base
    refine pow_dvd_pow_of_dvd ?_ l
    exact ⟨X - C 1, by simp; ring⟩
  have h2 := pow_sub_dvd_iterate_derivative_of_pow_dvd k hd
  have h3 : ((X : ℝ[X]) - C (-1)) ∣ derivative^[k] (base l) :=
    (dvd_pow_self _ (by omega)).trans h2
  exact dvd_iff_isRoot.1 h3

theorem parts (l j : ℕ) (hj : j ≤ l) (q : ℝ[X]) :
    I (derivative^[l] (base l) * q) = (-1) ^ j * I (derivative^[l - j] (base l) * derivative^[j] q) := by
  induction j with
  | zero => simp
  | succ j ih =>
    rw [ih (by omega), show l - j = (l - (j + 1)) + 1 by omega, Function.iterate_succ_apply', I_deriv,
      eval_one_low l _ (by omega), eval_neg_one_low l _ (by omega), Function.iterate_succ_apply' derivative j]
    rw [pow_succ]; ring

/-- A Legendre polynomial is orthogonal to all of lower degree. -/
theorem orth (n : ℕ) (q : ℝ[X]) (hq : q.natDegree < n) : I (legendre n * q) = 0 := by
  rw [legendre_eq, mul_assoc, I_C_mul, parts n n le_rfl q, iterate_derivative_eq_zero hq]
  simp [I]

/-- The kernel of Christoffel and Darboux. -/
noncomputable def ker (n : ℕ) (y : ℝ) : ℝ[X] :=
  ∑ k ∈ Finset.range n, C ((2 * (k : ℝ) + 1) * (legendre k).eval y) * legendre k

theorem darboux (n : ℕ) (y : ℝ) : ker (n + 1) y * (X - C y) =
    C ((n : ℝ) + 1) * (C ((legendre n).eval y) * legendre (n + 1) - C ((legendre (n + 1)).eval y) * legendre n) := by
  induction n with
  | zero =>
    simp [ker, legendre_zero, legendre_one]
  | succ n ih =>
    have h : ker (n + 2) y = ker (n + 1) y +
        C ((2 * ((n + 1 : ℕ) : ℝ) + 1) * (legendre (n + 1)).eval y) * legendre (n + 1) := by
      unfold ker
      rw [Finset.sum_range_succ _ (n + 1)]
    rw [h, add_mul, ih]
    have b1 := bonnet n
    have b2 := congrArg (eval y) (bonnet n)
    simp only [eval_C, eval_sub, eval_mul, eval_X] at b2
    have b3 := congrArg C b2
    simp only [C_mul, C_sub, C_add] at b1 b3 ⊢
    push_cast
    simp only [C_mul, C_add, map_one, map_ofNat] at b1 b3 ⊢
    linear_combination (-(C (eval y (legendre (n + 1))))) * b1 + legendre (n + 1) * b3

/-- Where a Legendre polynomial has a zero its slope is known. -/
theorem slope (n : ℕ) (y : ℝ) : (1 - y ^ 2) * (derivative (legendre (n + 1))).eval y =
    (n + 1) * ((legendre n).eval y - y * (legendre (n + 1)).eval y) := by
  have h1 := congrArg (eval y) (relB n)
  have h2 := congrArg (eval y) (relC n)
  simp only [eval_C, eval_sub, eval_mul, eval_X, eval_add] at h1 h2
  linear_combination (-y) * h1 + h2

/-- And its curvature, by the equation of Legendre. -/
theorem curve (n : ℕ) (y : ℝ) : (1 - y ^ 2) * (derivative (derivative (legendre n))).eval y =
    2 * y * (derivative (legendre n)).eval y - n * (n + 1) * (legendre n).eval y := by
  rcases n with _ | n
  · simp [legendre_zero]
  have h1 := congrArg derivative (relB n)
  have h2 := congrArg derivative (relC n)
  simp only [derivative_sub, derivative_mul, derivative_X, derivative_C, derivative_add, one_mul, zero_mul, zero_add] at h1 h2
  have g1 := congrArg (eval y) h1
  have g2 := congrArg (eval y) h2
  have g3 := congrArg (eval y) (relB n)
  have g4 := congrArg (eval y) (relC n)
  simp only [eval_C, eval_sub, eval_mul, eval_X, eval_add] at g1 g2 g3 g4
  push_cast
  linear_combination (-y) * g1 + g2 - ((n : ℝ) + 2) * g3

theorem ker_self (n : ℕ) (y : ℝ) (hy : (legendre (n + 1)).eval y = 0) :
    (ker (n + 1) y).eval y * (1 - y ^ 2) = ((n + 1) * (legendre n).eval y) ^ 2 := by
  have h := congrArg (fun p => (derivative p).eval y) (darboux n y)
  simp only [derivative_mul, derivative_sub, derivative_X, derivative_C, eval_add, eval_mul, eval_sub, eval_X, eval_C, hy,
    sub_self, mul_zero, zero_add, sub_zero, mul_one, zero_mul, eval_zero, C_0, derivative_zero, add_zero, map_zero, eval_one] at h
  have s := slope n y
  rw [hy] at s
  rw [h]
  linear_combination ((n : ℝ) + 1) * (legendre n).eval y * s

theorem ker_other (n : ℕ) {y z : ℝ} (hy : (legendre (n + 1)).eval y = 0) (hz : (legendre (n + 1)).eval z = 0) (h : z ≠ y) :
    (ker (n + 1) y).eval z = 0 := by
  have := congrArg (eval z) (darboux n y)
  simp only [eval_mul, eval_sub, eval_X, eval_C, hy, hz, mul_zero, zero_mul, sub_zero] at this
  exact (mul_eq_zero.1 this).resolve_right (sub_ne_zero.2 h)

theorem ker_pos (n : ℕ) (y : ℝ) : 1 ≤ (ker (n + 1) y).eval y := by
  unfold ker
  rw [Finset.sum_range_succ', eval_add, eval_finset_sum]
  simp only [eval_mul, eval_C, legendre_zero, eval_one]
  have : 0 ≤ ∑ k ∈ Finset.range n, (2 * ((k + 1 : ℕ) : ℝ) + 1) * (legendre (k + 1)).eval y * (legendre (k + 1)).eval y :=
    Finset.sum_nonneg fun k _ => by
      rw [mul_assoc]
      exact mul_nonneg (by positivity) (mul_self_nonneg _)
  have h2 : (2 * ((0 : ℕ) : ℝ) + 1) * 1 * 1 = 1 := by norm_num
  rw [h2]
  linarith

theorem ker_degree (n : ℕ) (y : ℝ) : (ker (n + 1) y).natDegree ≤ n := by
  unfold ker
  refine natDegree_sum_le_of_forall_le _ _ fun k hk => ?_
  refine (natDegree_C_mul_le _ _).trans ((natDegree_legendre k).trans ?_)
  have := Finset.mem_range.1 hk
  omega

theorem I_ker (n : ℕ) (y : ℝ) : I (ker (n + 1) y) = 2 := by
  unfold ker
  rw [Finset.sum_range_succ', I_add, I_sum]
  have : ∑ k ∈ Finset.range n, I (C ((2 * ((k + 1 : ℕ) : ℝ) + 1) * (legendre (k + 1)).eval y) * legendre (k + 1)) = 0 := by
    refine Finset.sum_eq_zero fun k _ => ?_
    rw [I_C_mul]
    have := orth (k + 1) 1 (by simp)
    rw [mul_one] at this
    rw [this, mul_zero]
  rw [this]
  simp [I, legendre_zero]
  norm_num

theorem legendre_degree (n : ℕ) : (legendre n).natDegree = n := by
  refine le_antisymm (natDegree_legendre n) ?_
  by_contra h
  have h0 : derivative^[n] (legendre n) = 0 := iterate_derivative_eq_zero (by omega)
  have h1 : T n n 1 = 0 := by simp [T, h0]
  have h2 : ∀ m : ℕ, T m m 1 ≠ 0 := by
    intro m
    induction m with
    | zero => rw [T_00]; exact one_ne_zero
    | succ m ih => rw [T_diag]; exact mul_ne_zero (by positivity) ih
  exact h2 n h1

/-- With all the zeros, and the weights of Christoffel, the sum is the integral for every
polynomial of degree below twice their number. -/
theorem gauss (n : ℕ) (y : Fin (n + 1) → ℝ) (hy : ∀ i, (legendre (n + 1)).eval (y i) = 0) (hi : Function.Injective y)
    (f : ℝ[X]) (hf : f.natDegree < 2 * (n + 1)) :
    ∑ i, 2 * (1 - y i ^ 2) / ((n + 1) * (legendre n).eval (y i)) ^ 2 * f.eval (y i) = I f := by
  set P := legendre (n + 1) with hP
  have hP0 : P ≠ 0 := fun h => by
    have := legendre_at_one (n + 1)
    rw [← hP, h] at this
    simp at this
  have hPd : P.natDegree = n + 1 := legendre_degree (n + 1)
  set q := f / P with hq
  set r := f % P with hr
  have hfr : f = P * q + r := (EuclideanDomain.div_add_mod f P).symm
  have hrd : r.degree < P.degree := EuclideanDomain.mod_lt f hP0
  have hrn : r.natDegree < n + 1 := by
    rcases eq_or_ne r 0 with h0 | h0
    · rw [h0]; simp
    · rw [← hPd]; exact (natDegree_lt_natDegree_iff h0).2 hrd
  have hqn : q.natDegree < n + 1 := by
    rcases eq_or_ne q 0 with h0 | h0
    · rw [h0]; simp
    · have hm : (P * q).natDegree = n + 1 + q.natDegree := by rw [natDegree_mul hP0 h0, hPd]
      have : (P * q).natDegree ≤ f.natDegree ⊔ r.natDegree := by
        rw [show P * q = f - r from eq_sub_of_add_eq hfr.symm]
        exact natDegree_sub_le _ _
      rcases le_max_iff.1 this with h | h <;> omega
  have hker : ∀ i, (ker (n + 1) (y i)).eval (y i) ≠ 0 := fun i => by
    have := ker_pos n (y i)
    linarith
  have hw : ∀ i, 2 * (1 - y i ^ 2) / ((n + 1) * (legendre n).eval (y i)) ^ 2 = 2 / (ker (n + 1) (y i)).eval (y i) := fun i => by
    have := ker_self n (y i) (hy i)
    rw [← this]
    have h1 : 1 - y i ^ 2 ≠ 0 := fun h => by
      have h2 : y i = 1 ∨ y i = -1 := by
        have : (y i - 1) * (y i + 1) = 0 := by linarith
        rcases mul_eq_zero.1 this with h | h
        · left; linarith
        · right; linarith
      rcases h2 with h2 | h2
      · have := hy i
        rw [h2, hP, legendre_at_one] at this
        exact one_ne_zero this
      · have := hy i
        have hn := T_neg 0 (n + 1) 1
        simp only [T, Function.iterate_zero, id] at hn
        rw [h2, hP, hn, legendre_at_one] at this
        simp at this
    have h3 := hker i
    field_simp
  -- the remainder is its interpolation
  have hint : r = ∑ i, C (r.eval (y i) / (ker (n + 1) (y i)).eval (y i)) * ker (n + 1) (y i) := by
    have hd : (∑ i, C (r.eval (y i) / (ker (n + 1) (y i)).eval (y i)) * ker (n + 1) (y i)).natDegree ≤ n :=
      natDegree_sum_le_of_forall_le _ _ fun i _ => (natDegree_C_mul_le _ _).trans (ker_degree n (y i))
    have hz : r - ∑ i, C (r.eval (y i) / (ker (n + 1) (y i)).eval (y i)) * ker (n + 1) (y i) = 0 := by
      refine eq_zero_of_natDegree_lt_card_of_eval_eq_zero _ hi (fun j => ?_) ?_
      · rw [eval_sub, eval_finset_sum, Finset.sum_eq_single j, eval_mul, eval_C, div_mul_cancel₀ _ (hker j), sub_self]
        · intro i _ hij
          rw [eval_mul, ker_other n (hy i) (hy j) fun h => hij (hi h.symm), mul_zero]
        · intro h; exact absurd (Finset.mem_univ j) h
      · rw [Fintype.card_fin]
        refine lt_of_le_of_lt (natDegree_sub_le _ _) (max_lt hrn (by omega))
    exact sub_eq_zero.1 hz
  have hIf : I f = I r := by
    rw [hfr, I_add, hP, orth (n + 1) q hqn, zero_add]
  rw [hIf, hint, I_sum]
  refine Finset.sum_congr rfl fun i _ => ?_
  rw [I_C_mul, I_ker, hw]
  have : f.eval (y i) = r.eval (y i) := by
    conv_lhs => rw [hfr]
    rw [eval_add, eval_mul, hy i, zero_mul, zero_add]
  rw [this]
  ring

theorem at_neg_one (n : ℕ) : (legendre n).eval (-1) ≠ 0 := by
  have hn := T_neg 0 n 1
  simp only [T, Function.iterate_zero, id] at hn
  rw [hn, legendre_at_one]
  simp

/-- At a zero the slope is not zero. -/
theorem slope_ne (n : ℕ) {y : ℝ} (hy : (legendre n).eval y = 0) : (derivative (legendre n)).eval y ≠ 0 := by
  rcases n with _ | n
  · simp [legendre_zero] at hy
  intro h
  have h1 := congrArg (fun p => (derivative p).eval y) (darboux n y)
  simp only [derivative_mul, derivative_sub, derivative_X, derivative_C, eval_add, eval_mul, eval_sub, eval_X, eval_C, hy, h,
    sub_self, mul_zero, zero_add, sub_zero, mul_one, zero_mul, eval_zero, C_0, derivative_zero, add_zero, map_zero, eval_one] at h1
  have := ker_pos n y
  linarith

/-- The zeros lie inside. -/
theorem zero_inside (n : ℕ) {y : ℝ} (hy : (legendre n).eval y = 0) : 0 < 1 - y ^ 2 := by
  rcases n with _ | n
  · simp [legendre_zero] at hy
  have h1 := ker_self n y hy
  have h2 := ker_pos n y
  have h3 : 0 ≤ 1 - y ^ 2 := by
    by_contra h
    have h4 : (ker (n + 1) y).eval y * (1 - y ^ 2) < 0 := mul_neg_of_pos_of_neg (by linarith) (by linarith)
    have h5 := sq_nonneg (((n : ℝ) + 1) * (legendre n).eval y)
    linarith
  refine lt_of_le_of_ne h3 fun h => ?_
  have h4 : (y - 1) * (y + 1) = 0 := by linarith
  rcases mul_eq_zero.1 h4 with h | h
  · have : y = 1 := by linarith
    rw [this, legendre_at_one] at hy
    exact one_ne_zero hy
  · have : y = -1 := by linarith
    rw [this] at hy
    exact at_neg_one _ hy

theorem legendre_ne (n : ℕ) : legendre n ≠ 0 := fun h => by
  have := legendre_at_one n
  rw [h] at this
  simp at this

theorem rolle (p : ℝ[X]) (k : ℕ) : p.roots.card ≤ (derivative^[k] p).roots.card + k := by
  induction k with
  | zero => simp
  | succ k ih =>
    have := card_roots_le_derivative (derivative^[k] p)
    rw [Function.iterate_succ_apply']
    omega

/-- There are as many zeros as the degree. -/
theorem zeros_card (n : ℕ) : (legendre n).roots.toFinset.card = n := by
  have h1 : (base n).roots.card = 2 * n := by
    have e : base n = (X - C 1) ^ n * (X - C (-1)) ^ n := by
      unfold base
      rw [← mul_pow]
      congr 1
      simp
      ring
    rw [e, roots_mul (mul_ne_zero (pow_ne_zero _ (X_sub_C_ne_zero _)) (pow_ne_zero _ (X_sub_C_ne_zero _))),
      roots_pow, roots_pow, roots_X_sub_C, roots_X_sub_C]
    simp
    ring
  have h2 := rolle (base n) n
  have h3 : (legendre n).roots = (derivative^[n] (base n)).roots := by
    rw [legendre_eq]
    refine roots_C_mul _ ?_
    intro h
    have := legendre_ne n
    rw [legendre_eq, h, C_0, zero_mul] at this
    exact this rfl
  have h4 : (legendre n).roots.Nodup := by
    rw [Multiset.nodup_iff_count_le_one]
    intro y
    by_cases hy : y ∈ (legendre n).roots
    · have hr := (mem_roots (legendre_ne n)).1 hy
      rw [count_roots]
      by_contra hc
      have := (one_lt_rootMultiplicity_iff_isRoot (legendre_ne n)).1 (by omega : 1 < (legendre n).rootMultiplicity y)
      exact slope_ne n hr this.2
    · rw [Multiset.count_eq_zero.2 hy]
      omega
  rw [Multiset.toFinset_card_of_nodup h4]
  refine le_antisymm ((card_roots' _).trans (natDegree_legendre n)) ?_
  rw [h3]
  omega

end Xrtm.Gauss
