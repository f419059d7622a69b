import Verif.Spec.PhaseVec
import Verif.Proof.Legendre

/-!
# Closed forms of the functions of polarised scattering and their recurrences
-/

namespace Xrtm.PhaseVec
open Legendre Legendre.Spec Spec Polynomial

theorem lad_dn (m k : ℕ) (x : ℝ) : T (m + 1) k x = x * T (m + 1) (k + 1) x - (k + 1 - m) * T m (k + 1) x := by
  have := T_B m k x
  linear_combination -this

theorem lad_up (m k : ℕ) (x : ℝ) :
    T (m + 1) (k + 2) x = x * T (m + 1) (k + 1) x + (m + k + 2) * T m (k + 1) x := by
  have := T_C m (k + 1) x
  rw [show k + 1 + 1 = k + 2 from rfl] at this
  push_cast at this
  linear_combination this

theorem low (m k : ℕ) (x : ℝ) : ((k : ℝ) + 1 + m) * T m k x =
    (k + 1 - m) * x * T m (k + 1) x + (1 - x ^ 2) * T (m + 1) (k + 1) x := by
  have h1 := T_C m k x
  have h2 := lad_dn m k x
  linear_combination -h1 + (-x) * h2

theorem high (m k : ℕ) (x : ℝ) : ((k : ℝ) + 2 - m) * T m (k + 2) x =
    (k + 2 + m) * x * T m (k + 1) x - (1 - x ^ 2) * T (m + 1) (k + 1) x := by
  have h1 := T_B m (k + 1) x
  rw [show k + 1 + 1 = k + 2 from rfl] at h1
  have h2 := lad_up m k x
  push_cast at h1
  linear_combination -h1 + x * h2

theorem ode (m k : ℕ) (x : ℝ) : (1 - x ^ 2) * T (m + 2) (k + 1) x =
    2 * (m + 1) * x * T (m + 1) (k + 1) x - (k + 2 + m) * (k + 1 - m) * T m (k + 1) x := by
  have h1 := low (m + 1) k x
  have h2 := lad_dn m k x
  rw [show m + 1 + 1 = m + 2 from rfl] at h1
  push_cast at h1
  linear_combination -h1 + (k + 2 + m : ℝ) * h2

/-- The closed form of `along` without the norm. -/
noncomputable def Rt (m l : ℕ) (x : ℝ) : ℝ :=
  match m with
  | 0 => 2 * x * T 1 l x - l * (l + 1) * T 0 l x
  | 1 => √(1 - x ^ 2) * ((2 - l * (l + 1)) * T 1 l x + 2 * x * T 2 l x)
  | m + 2 => √(1 - x ^ 2) ^ m * ((2 * ((m : ℝ) + 2) ^ 2 - 2 * (m + 2) * x ^ 2 -
      l * (l + 1) * (1 - x ^ 2)) * T (m + 2) l x + 2 * x * (1 - x ^ 2) * T (m + 3) l x)

/-- The closed form of `across` without the norm. -/
noncomputable def Tt (m l : ℕ) (x : ℝ) : ℝ :=
  match m with
  | 0 => 0
  | 1 => √(1 - x ^ 2) * (2 * T 2 l x)
  | m + 2 => √(1 - x ^ 2) ^ m * (2 * ((m : ℝ) + 2) * ((1 - x ^ 2) * T (m + 3) l x -
      (m + 1) * x * T (m + 2) l x))

theorem Rt_recur (m k : ℕ) (x : ℝ) :
    ((k : ℝ) + 2 - m) * k * (k + 1) * Rt m (k + 2) x = (2 * k + 3) * (k + 1) * (k + 2) * x * Rt m (k + 1) x -
      (k + 1 + m) * (k + 3) * (k + 2) * Rt m k x + 2 * m * (2 * k + 3) * Tt m (k + 1) x := by
  match m with
  | 0 =>
    have h1 := low 0 k x
    have h2 := high 0 k x
    have h3 := lad_up 0 k x
    have h4 := lad_dn 0 k x
    simp only [Rt, Tt, zero_add, Nat.cast_zero, Nat.cast_add, Nat.cast_one, Nat.cast_ofNat] at *
    linear_combination (-((k : ℝ) * (k + 1) * ((k + 2) * (k + 3)))) * h2 +
      ((k : ℝ) + 2) * k * (k + 1) * 2 * x * h3 - ((k : ℝ) + 3) * (k + 2) * (k * (k + 1)) * h1 +
      ((k : ℝ) + 1) * (k + 3) * (k + 2) * 2 * x * h4
  | 1 =>
    have h1 := low 1 k x
    have h2 := high 1 k x
    have h3 := lad_up 1 k x
    have h4 := lad_dn 1 k x
    simp only [Rt, Tt, Nat.cast_zero, Nat.cast_add, Nat.cast_one, Nat.cast_ofNat, show 1 + 1 = 2 from rfl] at *
    linear_combination √(1 - x ^ 2) * ((k : ℝ) * (k + 1) * (2 - (k + 2) * (k + 3)) * h2 +
      ((k : ℝ) + 1) * k * (k + 1) * 2 * x * h3 + ((k : ℝ) + 3) * (k + 2) * (2 - k * (k + 1)) * h1 +
      ((k : ℝ) + 2) * (k + 3) * (k + 2) * 2 * x * h4)
  | m + 2 =>
    have h1 := low (m + 2) k x
    have h2 := high (m + 2) k x
    have h3 := lad_up (m + 2) k x
    have h4 := lad_dn (m + 2) k x
    simp only [Rt, Tt, Nat.cast_add, Nat.cast_one, Nat.cast_ofNat, show m + 2 + 1 = m + 3 from rfl] at *
    linear_combination √(1 - x ^ 2) ^ m * ((k : ℝ) * (k + 1) * (2 * ((m : ℝ) + 2) ^ 2 -
        2 * (m + 2) * x ^ 2 - (k + 2) * (k + 3) * (1 - x ^ 2)) * h2 +
      ((k : ℝ) - m) * k * (k + 1) * 2 * x * (1 - x ^ 2) * h3 + ((k : ℝ) + 3) * (k + 2) *
        (2 * ((m : ℝ) + 2) ^ 2 - 2 * (m + 2) * x ^ 2 - k * (k + 1) * (1 - x ^ 2)) * h1 +
      ((k : ℝ) + 3 + m) * (k + 3) * (k + 2) * 2 * x * (1 - x ^ 2) * h4)

theorem Tt_recur (m k : ℕ) (x : ℝ) :
    ((k : ℝ) + 2 - m) * k * (k + 1) * Tt m (k + 2) x = (2 * k + 3) * (k + 1) * (k + 2) * x * Tt m (k + 1) x -
      (k + 1 + m) * (k + 3) * (k + 2) * Tt m k x + 2 * m * (2 * k + 3) * Rt m (k + 1) x := by
  match m with
  | 0 => simp [Tt]
  | 1 =>
    have h3 := lad_up 1 k x
    have h4 := lad_dn 1 k x
    simp only [Rt, Tt, Nat.cast_zero, Nat.cast_add, Nat.cast_one, Nat.cast_ofNat, show 1 + 1 = 2 from rfl] at *
    linear_combination √(1 - x ^ 2) * (((k : ℝ) + 1) * k * (k + 1) * 2 * h3 +
      ((k : ℝ) + 2) * (k + 3) * (k + 2) * 2 * h4)
  | m + 2 =>
    have h1 := low (m + 2) k x
    have h2 := high (m + 2) k x
    have h3 := lad_up (m + 2) k x
    have h4 := lad_dn (m + 2) k x
    simp only [Rt, Tt, Nat.cast_add, Nat.cast_one, Nat.cast_ofNat, show m + 2 + 1 = m + 3 from rfl] at *
    linear_combination √(1 - x ^ 2) ^ m * (2 * ((m : ℝ) + 2)) * (
      -((k : ℝ) * (k + 1) * (m + 1) * x) * h2 +
      ((k : ℝ) - m) * k * (k + 1) * (1 - x ^ 2) * h3 - ((k : ℝ) + 3) * (k + 2) *
        (m + 1) * x * h1 +
      ((k : ℝ) + 3 + m) * (k + 3) * (k + 2) * (1 - x ^ 2) * h4)

theorem norm2_up (k : ℕ) : norm2 (k + 3) * √(((k : ℝ) + 5) * (k + 1)) = (k + 1) * norm2 (k + 2) := by
  unfold norm2
  rw [show k + 3 - 2 = k + 1 by omega, show k + 2 - 2 = k by omega, show k + 3 + 2 = (k + 4) + 1 by omega,
    show k + 2 + 2 = k + 4 by omega, ← Real.sqrt_mul (by positivity)]
  have h : ((k : ℝ) + 1) = √((k + 1) ^ 2) := (Real.sqrt_sq (by positivity)).symm
  conv_rhs => rw [h]
  rw [← Real.sqrt_mul (by positivity), Nat.factorial_succ k, Nat.factorial_succ (k + 4)]
  congr 1
  have : ((k + 4).factorial : ℝ) ≠ 0 := by positivity
  push_cast
  field_simp
  ring

theorem norm2_dn (k : ℕ) : norm2 (k + 2) * √(((k : ℝ) + 3) * (k + 3) - 4) = (k + 5) * norm2 (k + 3) := by
  unfold norm2
  rw [show k + 3 - 2 = k + 1 by omega, show k + 2 - 2 = k by omega, show k + 3 + 2 = (k + 4) + 1 by omega,
    show k + 2 + 2 = k + 4 by omega, ← Real.sqrt_mul (by positivity)]
  have h : ((k : ℝ) + 5) = √((k + 5) ^ 2) := (Real.sqrt_sq (by positivity)).symm
  conv_rhs => rw [h]
  rw [← Real.sqrt_mul (by positivity), Nat.factorial_succ k, Nat.factorial_succ (k + 4)]
  congr 1
  have : ((k + 4).factorial : ℝ) ≠ 0 := by positivity
  push_cast
  field_simp
  ring

theorem T_11 (x : ℝ) : T 1 1 x = 1 := by
  have := T_diag 0 x
  simpa [T_00] using this

theorem Rt_one (m : ℕ) (x : ℝ) : Rt m 1 x = 0 := by
  match m with
  | 0 => simp [Rt, T_11, T_01]; ring
  | 1 => simp only [Rt, T_zero 2 1 (by omega)]; push_cast; ring
  | m + 2 => simp only [Rt, T_zero (m + 2) 1 (by omega), T_zero (m + 3) 1 (by omega)]; ring

theorem Tt_one (m : ℕ) (x : ℝ) : Tt m 1 x = 0 := by
  match m with
  | 0 => rfl
  | 1 => simp only [Tt, T_zero 2 1 (by omega)]; ring
  | m + 2 => simp only [Tt, T_zero (m + 2) 1 (by omega), T_zero (m + 3) 1 (by omega)]; ring

theorem Rt_low (m l : ℕ) (h : l < m) (x : ℝ) : Rt m l x = 0 := by
  match m with
  | 0 => omega
  | 1 => simp only [Rt, T_zero 2 l (by omega), T_zero 1 l (by omega)]; ring
  | m + 2 => simp only [Rt, T_zero (m + 2) l (by omega), T_zero (m + 3) l (by omega)]; ring

theorem Tt_low (m l : ℕ) (h : l < m) (x : ℝ) : Tt m l x = 0 := by
  match m with
  | 0 => rfl
  | 1 => simp only [Tt, T_zero 2 l (by omega)]; ring
  | m + 2 => simp only [Tt, T_zero (m + 2) l (by omega), T_zero (m + 3) l (by omega)]; ring

/-- A recurrence without roots is one with them. -/
theorem rooted (m k : ℕ) (hm : m ≤ k + 2) (x : ℝ) (X Y : ℕ → ℝ) (hX1 : X 1 = 0)
    (h : ∀ j : ℕ, ((j : ℝ) + 2 - m) * j * (j + 1) * X (j + 2) =
      (2 * j + 3) * (j + 1) * (j + 2) * x * X (j + 1) - (j + 1 + m) * (j + 3) * (j + 2) * X j +
        2 * m * (2 * j + 3) * Y (j + 1)) :
    ((2 * (((k + 2 : ℕ) : ℝ)) + 1) * x * (norm2 (k + 2) * X (k + 2)) -
      (((k + 2 : ℕ) : ℝ) + m) / ((k + 2 : ℕ) : ℝ) * √(((k + 2 : ℕ) : ℝ) * ((k + 2 : ℕ) : ℝ) - 4) *
        (if 1 ≤ k then norm2 (k + 1) * X (k + 1) else 0) +
      2 * m * (2 * (((k + 2 : ℕ) : ℝ)) + 1) / (((k + 2 : ℕ) : ℝ) * (((k + 2 : ℕ) : ℝ) + 1)) *
        (norm2 (k + 2) * Y (k + 2))) /
      (((((k + 2 : ℕ) : ℝ) + 1 - m) / (((k + 2 : ℕ) : ℝ) + 1)) *
        √((((k + 2 : ℕ) : ℝ) + 3) * (((k + 2 : ℕ) : ℝ) - 1))) = norm2 (k + 3) * X (k + 3) := by
  have hm' : (m : ℝ) ≤ k + 2 := by exact_mod_cast hm
  have ha : (0 : ℝ) < (k : ℝ) + 3 - m := by linarith
  have hr := norm2_up k
  have hk := h (k + 1)
  push_cast at hk ⊢
  have hroot : √(((k : ℝ) + 2 + 3) * (k + 2 - 1)) = √(((k : ℝ) + 5) * (k + 1)) := by
    congr 1; ring
  have hpos : (0 : ℝ) < √(((k : ℝ) + 5) * (k + 1)) := Real.sqrt_pos.2 (by positivity)
  rw [hroot]
  have hdn : √(((k : ℝ) + 2) * (k + 2) - 4) * (if 1 ≤ k then norm2 (k + 1) * X (k + 1) else 0) =
      (k + 4) * norm2 (k + 2) * X (k + 1) := by
    rcases k with _ | k
    · rw [if_neg (by omega), zero_add, hX1]; ring
    · rw [if_pos (by omega)]
      have := norm2_dn k
      push_cast
      rw [show (k : ℝ) + 1 + 2 = k + 3 by ring, show (k : ℝ) + 1 + 4 = k + 5 by ring,
        show k + 1 + 1 = k + 2 from rfl, show k + 1 + 2 = k + 3 from rfl]
      linear_combination X (k + 2) * this
  have hb : ((k : ℝ) + 2 + 1 - m) / (k + 2 + 1) * √(((k : ℝ) + 5) * (k + 1)) ≠ 0 := by
    have : (0 : ℝ) < (k : ℝ) + 2 + 1 - m := by linarith
    positivity
  rw [div_eq_iff hb]
  have e1 : (((k : ℝ) + 2 + m) / (k + 2) * √(((k : ℝ) + 2) * (k + 2) - 4) *
      (if 1 ≤ k then norm2 (k + 1) * X (k + 1) else 0)) =
      ((k : ℝ) + 2 + m) / (k + 2) * ((k + 4) * norm2 (k + 2) * X (k + 1)) := by
    rw [← hdn]; ring
  rw [e1]
  have e2 : norm2 (k + 3) * X (k + 3) * ((((k : ℝ) + 2 + 1 - m) / (k + 2 + 1)) * √(((k : ℝ) + 5) * (k + 1))) =
      ((k : ℝ) + 3 - m) / (k + 3) * ((k + 1) * norm2 (k + 2)) * X (k + 3) := by
    rw [← hr]; ring
  rw [e2]
  rw [show k + 1 + 2 = k + 3 from rfl, show k + 1 + 1 = k + 2 from rfl] at hk
  have h2 : (k : ℝ) + 2 ≠ 0 := by positivity
  have h3 : (k : ℝ) + 3 ≠ 0 := by positivity
  rw [show (k : ℝ) + 2 + 1 = k + 3 by ring]
  field_simp
  linear_combination (-(norm2 (k + 2))) * hk

end Xrtm.PhaseVec
