import Verif.Spec.Legendre
import Mathlib.Analysis.SpecialFunctions.Trigonometric.Basic
import Mathlib.Tactic.Ring
import Mathlib.Tactic.FieldSimp
import Mathlib.Tactic.LinearCombination
import Mathlib.Tactic.Linarith

/-!
# The mathematics of Legendre polynomials that the tables rest on
-/

namespace Xrtm.Legendre
open Polynomial Spec

/-- The norm of the formula of Rodrigues. -/
noncomputable def rod (l : ℕ) : ℝ := 1 / (2 ^ l * (l.factorial : ℝ))

theorem rod_succ (l : ℕ) : rod (l + 1) * (2 * (l + 1)) = rod l := by
  unfold rod
  rw [pow_succ, Nat.factorial_succ]
  push_cast
  have : ((l.factorial : ℝ)) ≠ 0 := by positivity
  have : ((l : ℝ) + 1) ≠ 0 := by positivity
  field_simp

/-- The power under the derivative. -/
noncomputable def base (l : ℕ) : ℝ[X] := (X ^ 2 - 1) ^ l

theorem legendre_eq (l : ℕ) : legendre l = C (rod l) * derivative^[l] (base l) := rfl

theorem deriv_base (l : ℕ) :
    derivative (base (l + 1)) = C (2 * ((l : ℝ) + 1)) * (X * base l) := by
  unfold base
  rw [derivative_pow_succ]
  simp only [derivative_sub, derivative_X_pow, derivative_one, map_mul, map_add, map_one,
    map_natCast, map_ofNat]
  push_cast
  ring

theorem deriv2_base (l : ℕ) :
    derivative (derivative (base (l + 2))) =
      C (2 * ((l : ℝ) + 2)) * (C (2 * (l : ℝ) + 3) * base (l + 1) + C (2 * ((l : ℝ) + 1)) * base l) := by
  have h := deriv_base (l + 1)
  rw [show l + 1 + 1 = l + 2 from rfl] at h
  rw [h, derivative_C_mul, derivative_mul, derivative_X, deriv_base]
  have hb : base (l + 1) = (X ^ 2 - 1) * base l := by
    unfold base; rw [pow_succ]; ring
  rw [hb]
  simp only [map_mul, map_add, map_one, map_natCast, map_ofNat]
  push_cast
  ring

theorem iter_C_mul (a : ℝ) (p : ℝ[X]) (k : ℕ) :
    derivative^[k] (C a * p) = C a * derivative^[k] p := iterate_derivative_C_mul a p k

theorem iter_add (p q : ℝ[X]) (k : ℕ) :
    derivative^[k] (p + q) = derivative^[k] p + derivative^[k] q := iterate_map_add derivative k p q

theorem iter_X_mul (p : ℝ[X]) (k : ℕ) :
    derivative^[k] (X * p) = X * derivative^[k] p + C (k : ℝ) * derivative^[k - 1] p := by
  rw [mul_comm, iterate_derivative_mul_X]
  simp [mul_comm]

/-- `P'_{l+1} = X P'_l + (l+1) P_l`. -/
theorem relC (l : ℕ) : derivative (legendre (l + 1)) =
    X * derivative (legendre l) + C ((l : ℝ) + 1) * legendre l := by
  rw [legendre_eq, legendre_eq, derivative_C_mul, derivative_C_mul,
    ← Function.iterate_succ_apply' derivative (l + 1), Function.iterate_succ_apply,
    deriv_base, iter_C_mul, iter_X_mul, ← Function.iterate_succ_apply' derivative l]
  rw [show l + 1 - 1 = l from rfl]
  have := rod_succ l
  push_cast
  rw [← mul_assoc (C (rod (l + 1))), ← C_mul, this]
  ring

/-- `P'_{l+2} = P'_l + (2l+3) P_{l+1}`. -/
theorem relA (l : ℕ) : derivative (legendre (l + 2)) =
    derivative (legendre l) + C (2 * (l : ℝ) + 3) * legendre (l + 1) := by
  rw [legendre_eq, legendre_eq, legendre_eq, derivative_C_mul, derivative_C_mul,
    ← Function.iterate_succ_apply' derivative (l + 2), Function.iterate_succ_apply,
    Function.iterate_succ_apply, deriv2_base, iter_C_mul, iter_add, iter_C_mul,
    iter_C_mul, ← Function.iterate_succ_apply' derivative l]
  have h1 := rod_succ l
  have h2 := rod_succ (l + 1)
  push_cast at h2
  rw [show l + 1 + 1 = l + 2 from rfl] at h2
  have e2 : rod (l + 2) * (2 * ((l : ℝ) + 2)) = rod (l + 1) := by rw [← h2]; ring
  rw [← mul_assoc (C (rod (l + 2))), ← C_mul, e2, mul_add, ← mul_assoc, ← mul_assoc, ← C_mul,
    ← C_mul, h1, ← mul_assoc, ← C_mul]
  rw [mul_comm (rod (l + 1)) (2 * (l : ℝ) + 3)]
  ring

/-- `X P'_{l+1} - P'_l = (l+1) P_{l+1}`. -/
theorem relB (l : ℕ) : X * derivative (legendre (l + 1)) - derivative (legendre l) =
    C ((l : ℝ) + 1) * legendre (l + 1) := by
  have h1 := relA l
  have h2 := relC (l + 1)
  rw [show l + 1 + 1 = l + 2 from rfl] at h2
  have e : C (2 * (l : ℝ) + 3) = C ((l : ℝ) + 1) + C (((l + 1 : ℕ) : ℝ) + 1) := by
    rw [← C_add]; congr 1; push_cast; ring
  rw [e] at h1
  linear_combination h1 - h2

theorem eval_one_low (l k : ℕ) (h : k < l) : (derivative^[k] (base l)).eval 1 = 0 := by
  have hd : ((X : ℝ[X]) - C 1) ^ l ∣ base l := by
    unfold base
    refine pow_dvd_pow_of_dvd ?_ l
    exact ⟨X + 1, by rw [C_1]; ring⟩
  have := pow_sub_dvd_iterate_derivative_of_pow_dvd k hd
  obtain ⟨q, hq⟩ := dvd_trans (dvd_pow_self _ (by omega : l - k ≠ 0)) this
  rw [hq]
  simp

theorem legendre_zero : legendre 0 = 1 := by
  simp [legendre]

theorem legendre_one : legendre 1 = X := by
  rw [legendre_eq]
  have h : derivative^[1] (base 1) = C 2 * X := by
    rw [Function.iterate_one]
    have := deriv_base 0
    simpa [base] using this
  rw [h, ← mul_assoc, ← C_mul]
  have : rod 1 * 2 = 1 := by norm_num [rod]
  rw [this]
  simp

/-- `P_l(1) = 1`. -/
theorem legendre_at_one (l : ℕ) : (legendre l).eval 1 = 1 := by
  induction l with
  | zero => simp [legendre_zero]
  | succ l ih =>
    rw [legendre_eq, Function.iterate_succ_apply, deriv_base, iter_C_mul, iter_X_mul, eval_mul,
      eval_C, eval_mul, eval_C, eval_add, eval_mul, eval_X, eval_mul, eval_C]
    have h0 : (l : ℝ) * (derivative^[l - 1] (base l)).eval 1 = 0 := by
      rcases Nat.eq_zero_or_pos l with rfl | h
      · simp
      · rw [eval_one_low l (l - 1) (by omega), mul_zero]
    rw [legendre_eq, eval_mul, eval_C] at ih
    rw [h0]
    have := rod_succ l
    linear_combination ih + (derivative^[l] (base l)).eval 1 * this

/-- The recurrence of Bonnet. -/
theorem bonnet (l : ℕ) : C ((l : ℝ) + 2) * legendre (l + 2) =
    C (2 * (l : ℝ) + 3) * (X * legendre (l + 1)) - C ((l : ℝ) + 1) * legendre l := by
  have hC := relC (l + 1)
  rw [show l + 1 + 1 = l + 2 from rfl] at hC
  have hB := relB l
  have hd : derivative (C ((l : ℝ) + 2) * legendre (l + 2) -
      (C (2 * (l : ℝ) + 3) * (X * legendre (l + 1)) - C ((l : ℝ) + 1) * legendre l)) = 0 := by
    simp only [derivative_sub, derivative_mul, derivative_C, derivative_X, zero_mul, zero_add,
      one_mul]
    rw [hC]
    have e : derivative (legendre l) = X * derivative (legendre (l + 1)) -
        C ((l : ℝ) + 1) * legendre (l + 1) := by linear_combination -hB
    rw [e]
    simp only [map_add, map_mul, map_ofNat, map_natCast, map_one]
    push_cast
    ring
  have hc := natDegree_eq_zero_of_derivative_eq_zero hd
  obtain ⟨a, ha⟩ := natDegree_eq_zero.1 hc
  have h1 : a = 0 := by
    have := congrArg (eval 1) ha
    simp only [eval_C, eval_sub, eval_mul, eval_X, legendre_at_one] at this
    linarith
  rw [h1, map_zero] at ha
  exact sub_eq_zero.1 ha.symm

/-! ## Derivatives of higher order -/

/-- The `m`-th derivative of the Legendre polynomial of degree `l`, at `x`. -/
noncomputable def T (m l : ℕ) (x : ℝ) : ℝ := (derivative^[m] (legendre l)).eval x

theorem T_A (m l : ℕ) (x : ℝ) :
    T (m + 1) (l + 2) x = T (m + 1) l x + (2 * l + 3) * T m (l + 1) x := by
  unfold T
  rw [Function.iterate_succ_apply, Function.iterate_succ_apply, relA, iter_add,
    iter_C_mul]
  simp

theorem T_C (m l : ℕ) (x : ℝ) :
    T (m + 1) (l + 1) x = x * T (m + 1) l x + (m + l + 1) * T m l x := by
  unfold T
  rw [Function.iterate_succ_apply, relC, iter_add, iter_C_mul, iter_X_mul,
    Function.iterate_succ_apply]
  have h : C (m : ℝ) * derivative^[m - 1] (derivative (legendre l)) =
      C (m : ℝ) * derivative^[m] (legendre l) := by
    rcases m with _ | m
    · simp
    · rw [show m + 1 - 1 = m from rfl, ← Function.iterate_succ_apply]
  rw [h]
  simp
  ring

theorem T_B (m l : ℕ) (x : ℝ) :
    x * T (m + 1) (l + 1) x - T (m + 1) l x = ((l : ℝ) + 1 - m) * T m (l + 1) x := by
  have h1 := T_A m l x
  have h2 := T_C m (l + 1) x
  rw [show l + 1 + 1 = l + 2 from rfl] at h2
  push_cast at h2
  linear_combination h1 - h2

theorem T_recur (m l : ℕ) (x : ℝ) :
    ((l : ℝ) + 2 - m) * T m (l + 2) x =
      (2 * l + 3) * x * T m (l + 1) x - (l + 1 + m) * T m l x := by
  rcases m with _ | m
  · have := congrArg (eval x) (bonnet l)
    simp only [eval_C, eval_sub, eval_mul, eval_X] at this
    simp only [T, Function.iterate_zero, id]
    push_cast
    linear_combination this
  · have hA := T_A m l x
    have hC := T_C m (l + 1) x
    have hB := T_B m l x
    rw [show l + 1 + 1 = l + 2 from rfl] at hC
    push_cast at hC ⊢
    have h2 : (m + l + 2 : ℝ) * T (m+1) (l + 2) x = (m + l + 2) * T (m+1) l x +
      (2 * l + 3) * (T (m+1) (l+2) x - x * T (m + 1) (l + 1) x) := by
      linear_combination (m + l + 2 : ℝ) * hA - (2 * l + 3 : ℝ) * hC
    linear_combination -h2

theorem natDegree_legendre (l : ℕ) : (legendre l).natDegree ≤ l := by
  unfold legendre
  refine (natDegree_C_mul_le _ _).trans ?_
  refine (natDegree_iterate_derivative _ _).trans ?_
  have : ((X ^ 2 - 1 : ℝ[X]) ^ l).natDegree ≤ 2 * l := by
    refine natDegree_pow_le.trans ?_
    have : (X ^ 2 - 1 : ℝ[X]).natDegree ≤ 2 := by
      refine (natDegree_sub_le _ _).trans ?_
      simp
    rw [mul_comm]
    exact Nat.mul_le_mul_right l this
  omega

theorem T_zero (m l : ℕ) (h : l < m) (x : ℝ) : T m l x = 0 := by
  unfold T
  rw [iterate_derivative_eq_zero (lt_of_le_of_lt (natDegree_legendre l) h)]
  simp

theorem T_00 (x : ℝ) : T 0 0 x = 1 := by simp [T, legendre_zero]
theorem T_01 (x : ℝ) : T 0 1 x = x := by simp [T, legendre_one]

theorem T_diag (m : ℕ) (x : ℝ) : T (m + 1) (m + 1) x = (2 * m + 1) * T m m x := by
  rw [T_C, T_zero (m + 1) m (by omega)]
  ring

theorem T_next (m : ℕ) (x : ℝ) : T m (m + 1) x = (2 * m + 1) * x * T m m x := by
  rcases m with _ | m
  · simp [T_00, T_01]
  · have h := T_recur (m + 1) m x
    rw [T_zero (m + 1) m (by omega)] at h
    push_cast at h
    rw [show m + 1 + 1 = m + 2 from rfl]
    push_cast
    linear_combination h

/-- Raising the order. -/
theorem T_E (m l : ℕ) (x : ℝ) :
    (2 * l + 3) * ((1 - x ^ 2) * T (m + 1) (l + 1) x) =
      ((l : ℝ) + m + 2) * (l + m + 1) * T m l x -
        ((l : ℝ) + 1 - m) * (l + 2 - m) * T m (l + 2) x := by
  have hC := T_C m l x
  have hB := T_B m l x
  have hR := T_recur m l x
  linear_combination (2 * l + 3 : ℝ) * hC - (2 * l + 3 : ℝ) * x * hB + ((l : ℝ) + 1 - m) * hR

/-! ## The theorem of addition -/

/-- A product with cosine of a Fourier series. -/
theorem cos_shift (g : ℕ → ℝ) (φ : ℝ) (M : ℕ) :
    Real.cos φ * ∑ m ∈ Finset.range (M + 1), eps m * g m * Real.cos (m * φ) =
      ∑ m ∈ Finset.range (M + 1),
        eps m * (if m = 0 then g 1 else (g (m - 1) + g (m + 1)) / 2) * Real.cos (m * φ) +
      (g M * Real.cos ((M + 1) * φ) - g (M + 1) * Real.cos (M * φ)) := by
  induction M with
  | zero => simp [eps]; ring
  | succ M ih =>
    rw [Finset.sum_range_succ, Finset.sum_range_succ _ (M + 1), mul_add, ih]
    have h1 : eps (M + 1) = 2 := by simp [eps]
    rw [h1, if_neg (Nat.succ_ne_zero M), Nat.add_sub_cancel]
    push_cast
    have h2 : Real.cos ((M + 1 + 1) * φ) =
        Real.cos ((M + 1) * φ) * Real.cos φ - Real.sin ((M + 1) * φ) * Real.sin φ := by
      rw [← Real.cos_add]; congr 1; ring
    have h3 : Real.cos (M * φ) =
        Real.cos ((M + 1) * φ) * Real.cos φ + Real.sin ((M + 1) * φ) * Real.sin φ := by
      rw [← Real.cos_sub]; congr 1; ring
    rw [h2, h3]
    ring

/-- Terms of the series, without signs and roots. -/
noncomputable def G (l m : ℕ) (x y s t : ℝ) : ℝ :=
  ((l - m).factorial : ℝ) / ((l + m).factorial : ℝ) * (s ^ m * t ^ m) * (T m l x * T m l y)

theorem G_zero (l m : ℕ) (h : l < m) (x y s t : ℝ) : G l m x y s t = 0 := by
  simp [G, T_zero m l h]

theorem G_recur_zero (l : ℕ) (x y s t : ℝ) (hs : s ^ 2 = 1 - x ^ 2) (ht : t ^ 2 = 1 - y ^ 2) :
    (l + 2) * G (l + 2) 0 x y s t =
      (2 * l + 3) * (x * y * G (l + 1) 0 x y s t + s * t * G (l + 1) 1 x y s t) -
        (l + 1) * G l 0 x y s t := by
  unfold G
  have hx := T_recur 0 l x
  have hy := T_recur 0 l y
  have ex := T_E 0 l x
  have ey := T_E 0 l y
  simp only [Nat.cast_zero, sub_zero, add_zero, zero_add] at hx hy ex ey
  have f0 : ∀ n : ℕ, ((n.factorial : ℝ)) ≠ 0 := fun n => by positivity
  simp only [Nat.sub_zero, add_zero, pow_zero, div_self (f0 _), one_mul, Nat.add_sub_cancel, pow_one]
  rw [show l + 1 + 1 = (l + 1) + 1 from rfl, Nat.factorial_succ (l + 1), Nat.factorial_succ l]
  push_cast
  have hl : (l : ℝ) + 1 ≠ 0 := by positivity
  have hl2 : (l : ℝ) + 1 + 1 ≠ 0 := by positivity
  have hl3 : (2 * (l : ℝ) + 3) ≠ 0 := by positivity
  have e1 : (l.factorial : ℝ) / ((l + 1 + 1) * ((l + 1) * l.factorial)) =
      1 / ((l + 1 + 1) * (l + 1)) := by
    field_simp
  rw [e1]
  have key : s * t * (1 / (((l : ℝ) + 1 + 1) * (l + 1)) * (s * t) * (T 1 (l + 1) x * T 1 (l + 1) y)) =
      1 / (((l : ℝ) + 1 + 1) * (l + 1)) *
        (((1 - x ^ 2) * T 1 (l + 1) x) * ((1 - y ^ 2) * T 1 (l + 1) y)) := by
    rw [← hs, ← ht]; ring
  rw [key]
  have ux : (1 - x ^ 2) * T 1 (l + 1) x =
      ((l + 2) * (l + 1) * (T 0 l x - T 0 (l + 2) x)) / (2 * l + 3) := by
    field_simp; linear_combination ex
  have uy : (1 - y ^ 2) * T 1 (l + 1) y =
      ((l + 2) * (l + 1) * (T 0 l y - T 0 (l + 2) y)) / (2 * l + 3) := by
    field_simp; linear_combination ey
  have vx : x * T 0 (l + 1) x = ((l + 2) * T 0 (l + 2) x + (l + 1) * T 0 l x) / (2 * l + 3) := by
    field_simp; linear_combination -hx
  have vy : y * T 0 (l + 1) y = ((l + 2) * T 0 (l + 2) y + (l + 1) * T 0 l y) / (2 * l + 3) := by
    field_simp; linear_combination -hy
  have e2 : x * y * (T 0 (l + 1) x * T 0 (l + 1) y) =
      (x * T 0 (l + 1) x) * (y * T 0 (l + 1) y) := by ring
  rw [e2, ux, uy, vx, vy]
  field_simp
  ring

theorem G_recur_succ (l m : ℕ) (x y s t : ℝ) (hs : s ^ 2 = 1 - x ^ 2) (ht : t ^ 2 = 1 - y ^ 2) :
    (l + 2) * G (l + 2) (m + 1) x y s t =
      (2 * l + 3) * (x * y * G (l + 1) (m + 1) x y s t +
        s * t * ((G (l + 1) m x y s t + G (l + 1) (m + 2) x y s t) / 2)) -
        (l + 1) * G l (m + 1) x y s t := by
  have f0 : ∀ n : ℕ, ((n.factorial : ℝ)) ≠ 0 := fun n => by positivity
  have hl3 : (2 * (l : ℝ) + 3) ≠ 0 := by positivity
  have ax := T_A m l x
  have ay := T_A m l y
  have hx := T_recur (m + 1) l x
  have hy := T_recur (m + 1) l y
  have ex := T_E (m + 1) l x
  have ey := T_E (m + 1) l y
  rw [show m + 1 + 1 = m + 2 from rfl] at ex ey
  push_cast at hx hy ex ey
  have ux : T m (l + 1) x = (T (m + 1) (l + 2) x - T (m + 1) l x) / (2 * l + 3) := by
    field_simp; linear_combination -ax
  have uy : T m (l + 1) y = (T (m + 1) (l + 2) y - T (m + 1) l y) / (2 * l + 3) := by
    field_simp; linear_combination -ay
  have vx : x * T (m + 1) (l + 1) x =
      ((l + 1 - m) * T (m + 1) (l + 2) x + (l + m + 2) * T (m + 1) l x) / (2 * l + 3) := by
    field_simp; linear_combination -hx
  have vy : y * T (m + 1) (l + 1) y =
      ((l + 1 - m) * T (m + 1) (l + 2) y + (l + m + 2) * T (m + 1) l y) / (2 * l + 3) := by
    field_simp; linear_combination -hy
  have wx : s ^ 2 * T (m + 2) (l + 1) x =
      ((l + m + 3) * (l + m + 2) * T (m + 1) l x -
        (l - m) * (l + 1 - m) * T (m + 1) (l + 2) x) / (2 * l + 3) := by
    rw [hs]; field_simp; linear_combination ex
  have wy : t ^ 2 * T (m + 2) (l + 1) y =
      ((l + m + 3) * (l + m + 2) * T (m + 1) l y -
        (l - m) * (l + 1 - m) * T (m + 1) (l + 2) y) / (2 * l + 3) := by
    rw [ht]; field_simp; linear_combination ey
  have core : ∀ (n1 n2 n3 n4 n5 : ℝ),
      (l + 2) * n1 * (T (m + 1) (l + 2) x * T (m + 1) (l + 2) y) =
        (2 * l + 3) * (n2 * ((x * T (m + 1) (l + 1) x) * (y * T (m + 1) (l + 1) y)) +
          (n3 * (T m (l + 1) x * T m (l + 1) y) +
           n4 * ((s ^ 2 * T (m + 2) (l + 1) x) * (t ^ 2 * T (m + 2) (l + 1) y))) / 2) -
        (l + 1) * n5 * (T (m + 1) l x * T (m + 1) l y) →
      (l + 2) * (n1 * (s ^ (m + 1) * t ^ (m + 1)) * (T (m + 1) (l + 2) x * T (m + 1) (l + 2) y)) =
      (2 * l + 3) * (x * y * (n2 * (s ^ (m + 1) * t ^ (m + 1)) * (T (m + 1) (l + 1) x * T (m + 1) (l + 1) y)) +
        s * t * ((n3 * (s ^ m * t ^ m) * (T m (l + 1) x * T m (l + 1) y) +
          n4 * (s ^ (m + 2) * t ^ (m + 2)) * (T (m + 2) (l + 1) x * T (m + 2) (l + 1) y)) / 2)) -
        (l + 1) * (n5 * (s ^ (m + 1) * t ^ (m + 1)) * (T (m + 1) l x * T (m + 1) l y)) := by
    intro n1 n2 n3 n4 n5 h
    linear_combination (s ^ (m + 1) * t ^ (m + 1)) * h
  unfold G
  apply core
  rw [vx, vy, wx, wy, ux, uy]
  rcases lt_trichotomy l m with hlm | hlm | hlm
  · -- the order is above the degrees, or equal to the highest
    rcases Nat.lt_or_ge (l + 1) m with h2 | h2
    · rw [T_zero (m + 1) (l + 2) (by omega), T_zero (m + 1) l (by omega),
        T_zero (m + 1) (l + 2) (by omega), T_zero (m + 1) l (by omega)]
      ring
    · obtain rfl : m = l + 1 := by omega
      rw [T_zero (l + 1 + 1) l (by omega) x, T_zero (l + 1 + 1) l (by omega) y]
      rw [show l + 2 - (l + 1 + 1) = 0 by omega, show l + 1 - (l + 1) = 0 by omega,
        show l + 2 + (l + 1 + 1) = (l + 1 + (l + 1)) + 1 + 1 by omega, Nat.factorial_succ,
        Nat.factorial_succ]
      push_cast
      have := f0 (l + 1 + (l + 1))
      have h3 : (l : ℝ) + 1 + (l + 1) + 1 + 1 ≠ 0 := by positivity
      have h4 : (l : ℝ) + 1 + (l + 1) + 1 ≠ 0 := by positivity
      simp only [Nat.factorial_zero, Nat.cast_one]
      field_simp
      ring
  · subst hlm
    rw [T_zero (l + 1) l (by omega) x, T_zero (l + 1) l (by omega) y]
    rw [show l + 2 - (l + 1) = 1 by omega, show l + 1 - (l + 1) = 0 by omega,
      show l + 1 - l = 1 by omega,
      show l + 2 + (l + 1) = (l + 1 + l) + 1 + 1 by omega,
      show l + 1 + (l + 1) = (l + 1 + l) + 1 by omega, Nat.factorial_succ (l + 1 + l + 1),
      Nat.factorial_succ (l + 1 + l)]
    push_cast
    have := f0 (l + 1 + l)
    have h3 : (l : ℝ) + 1 + l + 1 + 1 ≠ 0 := by positivity
    have h4 : (l : ℝ) + 1 + l + 1 ≠ 0 := by positivity
    simp only [Nat.factorial_zero, Nat.factorial_one, Nat.cast_one]
    field_simp
    ring
  · obtain ⟨k, rfl⟩ : ∃ k, l = m + 1 + k := ⟨l - (m + 1), by omega⟩
    rw [show m + 1 + k + 2 - (m + 1) = k + 1 + 1 by omega,
      show m + 1 + k + 1 - (m + 1) = k + 1 by omega,
      show m + 1 + k + 1 - m = k + 1 + 1 by omega,
      show m + 1 + k + 1 - (m + 2) = k by omega,
      show m + 1 + k - (m + 1) = k by omega,
      show m + 1 + k + 2 + (m + 1) = (m + 1 + k + (m + 1)) + 1 + 1 by omega,
      show m + 1 + k + 1 + (m + 1) = (m + 1 + k + (m + 1)) + 1 by omega,
      show m + 1 + k + 1 + m = (m + 1 + k + (m + 1)) by omega,
      show m + 1 + k + 1 + (m + 2) = (m + 1 + k + (m + 1)) + 1 + 1 by omega,
      Nat.factorial_succ (m + 1 + k + (m + 1) + 1), Nat.factorial_succ (m + 1 + k + (m + 1)),
      Nat.factorial_succ (k + 1), Nat.factorial_succ k]
    have hk := f0 k
    have hn := f0 (m + 1 + k + (m + 1))
    push_cast
    generalize (k.factorial : ℝ) = K at *
    generalize ((m + 1 + k + (m + 1)).factorial : ℝ) = Q at *
    clear hx hy ex ey vx vy wx wy ux uy ax ay core
    push_cast at hl3
    have h3 : (m : ℝ) + 1 + k + (m + 1) + 1 + 1 ≠ 0 := by positivity
    have h4 : (m : ℝ) + 1 + k + (m + 1) + 1 ≠ 0 := by positivity
    field_simp
    ring

/-- The theorem of addition of Legendre polynomials, without roots. -/
theorem addition_G (l M : ℕ) (hM : l < M) (x y s t φ : ℝ) (hs : s ^ 2 = 1 - x ^ 2)
    (ht : t ^ 2 = 1 - y ^ 2) :
    ∑ m ∈ Finset.range M, eps m * G l m x y s t * Real.cos (m * φ) =
      (legendre l).eval (x * y + s * t * Real.cos φ) := by
  induction l using Nat.strong_induction_on generalizing M with
  | _ l ih =>
    obtain ⟨M, rfl⟩ : ∃ M', M = M' + 1 := ⟨M - 1, by omega⟩
    match l, ih, hM with
    | 0, _, _ =>
      rw [Finset.sum_range_succ']
      rw [Finset.sum_eq_zero fun m _ => by rw [G_zero 0 (m + 1) (by omega)]; ring]
      simp [eps, G, T_00, legendre_zero]
    | 1, _, hM =>
      obtain ⟨M, rfl⟩ : ∃ M', M = M' + 1 := ⟨M - 1, by omega⟩
      rw [Finset.sum_range_succ', Finset.sum_range_succ']
      rw [Finset.sum_eq_zero fun m _ => by rw [G_zero 1 (m + 1 + 1) (by omega)]; ring]
      have h11 : ∀ z, T 1 1 z = 1 := fun z => by
        have := T_diag 0 z
        simpa [T_00] using this
      simp [eps, G, T_01, h11, legendre_one]
      ring
    | l + 2, ih, hM =>
      have h1 := ih (l + 1) (by omega) (M + 1) (by omega)
      have h0 := ih l (by omega) (M + 1) (by omega)
      have hb := congrArg (eval (x * y + s * t * Real.cos φ)) (bonnet l)
      simp only [eval_C, eval_sub, eval_mul, eval_X] at hb
      rw [← h1, ← h0] at hb
      have hsh := cos_shift (fun m => G (l + 1) m x y s t) φ M
      rw [G_zero (l + 1) M (by omega), G_zero (l + 1) (M + 1) (by omega)] at hsh
      have hsum : ((l : ℝ) + 2) * ∑ m ∈ Finset.range (M + 1),
          eps m * G (l + 2) m x y s t * Real.cos (m * φ) =
          (2 * l + 3) * (x * y * ∑ m ∈ Finset.range (M + 1),
            eps m * G (l + 1) m x y s t * Real.cos (m * φ) +
            s * t * ∑ m ∈ Finset.range (M + 1),
              eps m * (if m = 0 then G (l + 1) 1 x y s t
                else (G (l + 1) (m - 1) x y s t + G (l + 1) (m + 1) x y s t) / 2) *
                Real.cos (m * φ)) -
          (l + 1) * ∑ m ∈ Finset.range (M + 1), eps m * G l m x y s t * Real.cos (m * φ) := by
        simp only [Finset.mul_sum, ← Finset.sum_add_distrib, ← Finset.sum_sub_distrib]
        refine Finset.sum_congr rfl fun m _ => ?_
        rcases m with _ | m
        · rw [if_pos rfl]
          have := G_recur_zero l x y s t hs ht
          linear_combination (eps 0 * Real.cos ((0 : ℕ) * φ)) * this
        · rw [if_neg (Nat.succ_ne_zero m), Nat.add_sub_cancel]
          have := G_recur_succ l m x y s t hs ht
          rw [show m + 1 + 1 = m + 2 from rfl]
          linear_combination (eps (m + 1) * Real.cos ((m + 1 : ℕ) * φ)) * this
      have hl : (l : ℝ) + 2 ≠ 0 := by positivity
      apply mul_left_cancel₀ hl
      rw [hsum, hb]
      linear_combination -(2 * (l : ℝ) + 3) * s * t * hsh

/-- **The theorem of addition** for the functions of the tables. -/
theorem addition (l M : ℕ) (hM : l < M) (x y φ : ℝ) (hx : x ^ 2 ≤ 1) (hy : y ^ 2 ≤ 1) :
    ∑ m ∈ Finset.range M, eps m * (Y m l x * Y m l y) * Real.cos (m * φ) =
      (legendre l).eval (x * y + √(1 - x ^ 2) * √(1 - y ^ 2) * Real.cos φ) := by
  rw [← addition_G l M hM x y _ _ φ (Real.sq_sqrt (by linarith)) (Real.sq_sqrt (by linarith))]
  refine Finset.sum_congr rfl fun m _ => ?_
  congr 2
  unfold Y G T
  have h1 : ((-1 : ℝ) ^ m) * (-1) ^ m = 1 := by
    rw [← mul_pow]; norm_num
  have h2 : √(((l - m).factorial : ℝ) / ((l + m).factorial : ℝ)) *
      √(((l - m).factorial : ℝ) / ((l + m).factorial : ℝ)) =
      ((l - m).factorial : ℝ) / ((l + m).factorial : ℝ) :=
    Real.mul_self_sqrt (by positivity)
  generalize √(((l - m).factorial : ℝ) / ((l + m).factorial : ℝ)) = r at *
  linear_combination (r * r * √(1 - x ^ 2) ^ m * √(1 - y ^ 2) ^ m *
      (derivative^[m] (legendre l)).eval x * (derivative^[m] (legendre l)).eval y) * h1 +
    (√(1 - x ^ 2) ^ m * √(1 - y ^ 2) ^ m *
      (derivative^[m] (legendre l)).eval x * (derivative^[m] (legendre l)).eval y) * h2

theorem T_diag_const (m : ℕ) (x y : ℝ) : T m m x = T m m y := by
  induction m with
  | zero => rw [T_00, T_00]
  | succ m ih => rw [T_diag, T_diag, ih]

/-- Parity. -/
theorem T_neg (m l : ℕ) (x : ℝ) : T m l (-x) = (-1) ^ (l + m) * T m l x := by
  induction l using Nat.strong_induction_on with
  | _ l ih =>
    rcases Nat.lt_or_ge l m with h | h
    · rw [T_zero m l h, T_zero m l h, mul_zero]
    · rcases Nat.lt_or_ge l (m + 2) with h2 | h2
      · rcases Nat.lt_or_ge l (m + 1) with h3 | h3
        · obtain rfl : l = m := by omega
          rw [T_diag_const l (-x) x, ← two_mul, pow_mul]
          norm_num
        · obtain rfl : l = m + 1 := by omega
          rw [T_next, T_next, T_diag_const m (-x) x, show m + 1 + m = 2 * m + 1 by omega, pow_succ,
            pow_mul]
          norm_num
      · obtain ⟨k, rfl⟩ : ∃ k, l = k + 2 := ⟨l - 2, by omega⟩
        have h0 : ((k : ℝ) + 2 - m) ≠ 0 := by
          have : (m : ℝ) ≤ k := by exact_mod_cast (by omega : m ≤ k)
          intro h; linarith
        apply mul_left_cancel₀ h0
        rw [T_recur, ih (k + 1) (by omega), ih k (by omega)]
        have hr := T_recur m k x
        have e1 : ((-1 : ℝ)) ^ (k + 1 + m) = -(-1) ^ (k + m) := by
          rw [show k + 1 + m = k + m + 1 by omega, pow_succ]; ring
        have e2 : ((-1 : ℝ)) ^ (k + 2 + m) = (-1) ^ (k + m) := by
          rw [show k + 2 + m = k + m + 2 by omega, pow_add]; norm_num
        rw [e1, e2]
        linear_combination -(-1) ^ (k + m) * hr

theorem Y_neg (m l : ℕ) (x : ℝ) : Y m l (-x) = (-1) ^ (l + m) * Y m l x := by
  have := T_neg m l x
  unfold T at this
  unfold Y
  rw [this, neg_sq]
  ring

theorem Y_zero (m l : ℕ) (h : l < m) (x : ℝ) : Y m l x = 0 := by
  have := T_zero m l h x
  unfold T at this
  unfold Y
  rw [this, mul_zero]

end Xrtm.Legendre
