import Verif.Spec.Phase
import Verif.Props.Legendre
import Verif.Proof.Loss
import Verif.Props.Gauss

/-!
# The phase matrices are Fourier terms of a phase function
-/

namespace Xrtm.Phase
open Polynomial Legendre.Spec Legendre Transfer

theorem wave (k : ℤ) : (∫ φ in (0 : ℝ)..2 * Real.pi, Real.cos (k * φ)) = if k = 0 then 2 * Real.pi else 0 := by
  split_ifs with h
  · simp [h]
  · have hk : (k : ℝ) ≠ 0 := by exact_mod_cast h
    rw [intervalIntegral.integral_comp_mul_left (f := Real.cos) hk, integral_cos]
    have : Real.sin (k * (2 * Real.pi)) = 0 := by
      have := Real.sin_int_mul_pi (2 * k)
      push_cast at this
      rw [← this]; ring_nf
    simp [this]

theorem waves (a b : Nat) : (∫ φ in (0 : ℝ)..2 * Real.pi, Real.cos (a * φ) * Real.cos (b * φ)) =
    if a = b then 2 * Real.pi / eps b else 0 := by
  have e : ∀ φ : ℝ, Real.cos (a * φ) * Real.cos (b * φ) =
      1 / 2 * Real.cos (((a : ℤ) - b : ℤ) * φ) + 1 / 2 * Real.cos (((a : ℤ) + b : ℤ) * φ) := by
    intro φ
    push_cast
    rw [sub_mul, add_mul, Real.cos_sub, Real.cos_add]; ring
  simp only [e]
  rw [intervalIntegral.integral_add, intervalIntegral.integral_const_mul, intervalIntegral.integral_const_mul, wave, wave]
  · unfold eps
    by_cases h : a = b
    · subst h
      by_cases h0 : a = 0
      · subst h0; simp; ring
      · have : (a : ℤ) + a ≠ 0 := by omega
        simp [this, h0]
    · have h1 : (a : ℤ) - b ≠ 0 := by omega
      have h2 : (a : ℤ) + b ≠ 0 := by omega
      simp [h1, h2, h]
  · exact (by fun_prop : Continuous _).intervalIntegrable _ _
  · exact (by fun_prop : Continuous _).intervalIntegrable _ _

theorem func_continuous (nc : Nat) (coef : Nat → ℝ) : Continuous (func nc coef) := by
  unfold func
  fun_prop

theorem angle_continuous (x y : ℝ) : Continuous (angle x y) := by
  unfold angle
  fun_prop

/-- The Fourier term in the closed form of the routine. -/
theorem fourier_eq (m nc : Nat) (coef : Nat → ℝ) (x y : ℝ) (hx : x ^ 2 ≤ 1) (hy : y ^ 2 ≤ 1) :
    fourier m nc coef x y = eps m * ∑ k ∈ Finset.range nc, coef k * (Y m k x * Y m k y) := by
  set M := nc + m + 1 with hM
  have hf : ∀ φ, func nc coef (angle x y φ) * Real.cos (m * φ) =
      ∑ a ∈ Finset.range M, (eps a * ∑ k ∈ Finset.range nc, coef k * (Y a k x * Y a k y)) *
        (Real.cos (a * φ) * Real.cos (m * φ)) := by
    intro φ
    have h1 : func nc coef (angle x y φ) = ∑ k ∈ Finset.range nc, ∑ a ∈ Finset.range M,
        coef k * (eps a * (Y a k x * Y a k y) * Real.cos (a * φ)) := by
      unfold func
      refine Finset.sum_congr rfl fun k hk => ?_
      rw [← Finset.mul_sum, C48_addition k M (by have := Finset.mem_range.1 hk; omega) x y φ hx hy]
      congr 2
      unfold angle scatAngle
      rw [pow_two, pow_two]; ring
    rw [h1, Finset.sum_comm, Finset.sum_mul]
    refine Finset.sum_congr rfl fun a _ => ?_
    rw [Finset.mul_sum, Finset.sum_mul, Finset.sum_mul]
    exact Finset.sum_congr rfl fun k _ => by ring
  unfold fourier
  simp only [hf]
  rw [intervalIntegral.integral_finset_sum]
  · simp only [intervalIntegral.integral_const_mul, waves]
    rw [Finset.sum_eq_single m]
    · have hp := Real.pi_ne_zero
      have he : eps m ≠ 0 := by unfold eps; split_ifs <;> norm_num
      rw [if_pos rfl]
      field_simp
    · intro a _ ha
      rw [if_neg ha, mul_zero]
    · intro h
      exact absurd (Finset.mem_range.2 (by omega)) h
  · intro a _
    exact (by fun_prop : Continuous _).intervalIntegrable _ _

theorem angle_le (x y φ : ℝ) (hx : x ^ 2 ≤ 1) (hy : y ^ 2 ≤ 1) : -1 ≤ angle x y φ ∧ angle x y φ ≤ 1 := by
  unfold angle
  have h1 := Real.sq_sqrt (show 0 ≤ 1 - x ^ 2 by linarith)
  have h2 := Real.sq_sqrt (show 0 ≤ 1 - y ^ 2 by linarith)
  set a := √(1 - x ^ 2)
  set b := √(1 - y ^ 2)
  have ha : 0 ≤ a := Real.sqrt_nonneg _
  have hb : 0 ≤ b := Real.sqrt_nonneg _
  have hc := Real.neg_one_le_cos φ
  have hc' := Real.cos_le_one φ
  have hab : 0 ≤ a * b := mul_nonneg ha hb
  have u : a * b * Real.cos φ ≤ a * b := by nlinarith
  have l : -(a * b) ≤ a * b * Real.cos φ := by nlinarith
  constructor <;> nlinarith [sq_nonneg (x - y), sq_nonneg (x + y), sq_nonneg (a - b)]

section bound
variable {nc : Nat} {coef : Nat → ℝ} (hp : ∀ c, -1 ≤ c → c ≤ 1 → 0 ≤ func nc coef c)
include hp

theorem fourier_nonneg {x y : ℝ} (hx : x ^ 2 ≤ 1) (hy : y ^ 2 ≤ 1) : 0 ≤ fourier 0 nc coef x y := by
  unfold fourier
  refine mul_nonneg (div_nonneg (by norm_num [eps]) (by positivity)) ?_
  refine intervalIntegral.integral_nonneg (by positivity) fun φ _ => ?_
  simp only [Nat.cast_zero, zero_mul, Real.cos_zero, mul_one]
  exact hp _ (angle_le x y φ hx hy).1 (angle_le x y φ hx hy).2

theorem fourier_bound (m : Nat) {x y : ℝ} (hx : x ^ 2 ≤ 1) (hy : y ^ 2 ≤ 1) :
    |fourier m nc coef x y| ≤ eps m * fourier 0 nc coef x y := by
  have hi : ∀ a : Nat, IntervalIntegrable (fun φ => func nc coef (angle x y φ) * Real.cos (a * φ)) MeasureTheory.volume 0 (2 * Real.pi) :=
    fun a => (((func_continuous nc coef).comp (angle_continuous x y)).mul (by fun_prop)).intervalIntegrable _ _
  have h1 : |∫ φ in (0 : ℝ)..2 * Real.pi, func nc coef (angle x y φ) * Real.cos (m * φ)| ≤
      ∫ φ in (0 : ℝ)..2 * Real.pi, func nc coef (angle x y φ) * Real.cos ((0 : ℕ) * φ) := by
    refine (intervalIntegral.abs_integral_le_integral_abs (by positivity)).trans ?_
    refine intervalIntegral.integral_mono_on (by positivity) (hi m).abs (hi 0) fun φ _ => ?_
    have h0 := hp _ (angle_le x y φ hx hy).1 (angle_le x y φ hx hy).2
    rw [abs_mul, abs_of_nonneg h0]
    simp only [Nat.cast_zero, zero_mul, Real.cos_zero]
    exact mul_le_mul_of_nonneg_left (Real.abs_cos_le_one _) h0
  unfold fourier
  have he : 0 ≤ eps m := by unfold eps; split_ifs <;> norm_num
  rw [abs_mul, abs_of_nonneg (div_nonneg he (by positivity))]
  have e0 : eps 0 = 1 := rfl
  rw [e0]
  calc eps m / (2 * Real.pi) * _ ≤ eps m / (2 * Real.pi) * _ := mul_le_mul_of_nonneg_left h1 (div_nonneg he (by positivity))
    _ = _ := by ring

end bound

theorem Y_zero_order (k : Nat) (x : ℝ) : Y 0 k x = (legendre k).eval x := by
  unfold Y
  simp [div_self (show ((k.factorial : ℝ)) ≠ 0 by positivity)]

/-- What the two hemispheres scatter into a direction is one. -/
theorem fourier_total {n nc : Nat} {x w : Fin n → ℝ} (hr : Rule n nc x w) (coef : Nat → ℝ) (hnc : 0 < nc) (h0 : coef 0 = 1)
    {y : ℝ} (hy : y ^ 2 ≤ 1) : ∑ j, w j * (fourier 0 nc coef y (x j) + fourier 0 nc coef (-y) (x j)) = 2 := by
  have hx : ∀ j, x j ^ 2 ≤ 1 := fun j => by nlinarith [(hr.cos j).1, (hr.cos j).2]
  have e : ∀ j, w j * (fourier 0 nc coef y (x j) + fourier 0 nc coef (-y) (x j)) =
      ∑ k ∈ Finset.range nc, coef k * ((1 + (-1) ^ k) * (legendre k).eval y) * (w j * (legendre k).eval (x j)) := by
    intro j
    rw [fourier_eq 0 nc coef y (x j) hy (hx j), fourier_eq 0 nc coef (-y) (x j) (by rwa [neg_sq]) (hx j)]
    have e0 : eps 0 = 1 := rfl
    rw [e0, one_mul, one_mul, ← Finset.sum_add_distrib, Finset.mul_sum]
    refine Finset.sum_congr rfl fun k _ => ?_
    have hn := T_neg 0 k y
    simp only [T, Function.iterate_zero, id, add_zero] at hn
    rw [Y_zero_order, Y_zero_order, Y_zero_order, hn]
    ring
  simp only [e]
  rw [Finset.sum_comm]
  simp only [← Finset.mul_sum]
  rw [Finset.sum_eq_single 0]
  · simp only [legendre_zero, eval_one, mul_one, hr.one, h0]
    norm_num
  · intro k hk hk0
    rcases Nat.even_or_odd k with ⟨a, ha⟩ | ho
    · have : k = 2 * a := by omega
      subst this
      rw [hr.even a (by omega) (Finset.mem_range.1 hk), mul_zero]
    · rw [ho.neg_one_pow]
      simp
  · intro h
    exact absurd (Finset.mem_range.2 hnc) h

/-! ### The rules of Gauss are good enough -/

theorem even_integral (k : Nat) (hk : 0 < k) : (∫ t in (0 : ℝ)..1, (legendre (2 * k)).eval t) = 0 := by
  have he : ∀ t, (legendre (2 * k)).eval (-t) = (legendre (2 * k)).eval t := fun t => by
    have hn := T_neg 0 (2 * k) t
    simp only [T, Function.iterate_zero, id, add_zero] at hn
    rw [hn, pow_mul]; simp
  have h := Gauss.orth (2 * k) 1 (by simp; omega)
  rw [mul_one] at h
  unfold Gauss.I at h
  have a4 : (∫ t in (-1 : ℝ)..0, (legendre (2 * k)).eval t) = ∫ t in (0 : ℝ)..1, (legendre (2 * k)).eval t := by
    have := intervalIntegral.integral_comp_neg (a := (0 : ℝ)) (b := 1) fun t => (legendre (2 * k)).eval t
    rw [neg_zero] at this
    rw [← this]
    exact intervalIntegral.integral_congr fun t _ => he t
  have a5 := intervalIntegral.integral_add_adjacent_intervals (Gauss.poly_int (legendre (2 * k)) (-1) 0)
    (Gauss.poly_int (legendre (2 * k)) 0 1)
  rw [a4, h] at a5
  linarith

theorem even_even (k : Nat) : Gauss.Even (legendre (2 * k)) := fun t => by
  have hn := T_neg 0 (2 * k) t
  simp only [T, Function.iterate_zero, id, add_zero] at hn
  rw [hn, pow_mul]; simp

theorem rule_double {n nc : Nat} (hn : 0 < n) (hnc : nc ≤ 2 * n) (pt : Nat → ℝ × ℝ)
    (hp : ∀ i < (n + 1) / 2, Gauss.Found n pt i) (s : (Nat → ℝ) × (Nat → ℝ)) :
    Rule n nc (fun j => (Gauss.fillDouble n pt s).1 j) fun j => (Gauss.fillDouble n pt s).2 j := by
  have h := Gauss.C63_double n hn pt hp s
  refine ⟨fun j => ⟨(h.2.1 j j.2).2.1, (h.2.1 j j.2).2.2.le⟩, fun j => (h.2.1 j j.2).1, ?_, fun k hk hkn => ?_⟩
  · rw [← h.2.2.1, Finset.sum_range]
  · have := h.1 (legendre (2 * k)) (by have := natDegree_legendre (2 * k); omega)
    unfold Gauss.Integrates at this
    rw [even_integral k hk, Finset.sum_range] at this
    exact this

theorem rule_norm {n nc : Nat} (hn : 0 < n) (hnc : nc ≤ 2 * n) (pt : Nat → ℝ × ℝ)
    (hp : ∀ i, n ≤ i → i < 2 * n → Gauss.Found (2 * n) pt i) (s : (Nat → ℝ) × (Nat → ℝ)) :
    Rule n nc (fun j => (Gauss.fillNorm n pt s).1 j) fun j => (Gauss.fillNorm n pt s).2 j := by
  have h := Gauss.C63_norm n hn pt hp s
  refine ⟨fun j => ⟨(h.2.1 j j.2).2.1, (h.2.1 j j.2).2.2.le⟩, fun j => (h.2.1 j j.2).1, ?_, fun k hk hkn => ?_⟩
  · rw [← h.2.2, Finset.sum_range]
  · have := h.1 (legendre (2 * k)) (by have := natDegree_legendre (2 * k); omega) (even_even k)
    unfold Gauss.Integrates at this
    rw [even_integral k hk, Finset.sum_range] at this
    exact this

/-! ### The medium -/

variable {n : Nat}

/-- The medium of a phase function, for the order `m`. -/
noncomputable def air (m nc : Nat) (coef : Nat → ℝ) (x w : Fin n → ℝ) (om : ℝ) : Medium n :=
  Medium.of (decide (m = 0)) x w om (fun i j => fourier m nc coef (x i) (x j)) (fun i j => fourier m nc coef (-x i) (x j))
    (fun i j => fourier m nc coef (x i) (x j)) (fun i j => fourier m nc coef (-x i) (x j))

theorem fourier_sides (m nc : Nat) (coef : Nat → ℝ) {x y : ℝ} (hx : x ^ 2 ≤ 1) (hy : y ^ 2 ≤ 1) :
    fourier m nc coef (-x) y = fourier m nc coef (-y) x := by
  rw [fourier_eq m nc coef (-x) y (by rwa [neg_sq]) hy, fourier_eq m nc coef (-y) x (by rwa [neg_sq]) hx]
  congr 1
  refine Finset.sum_congr rfl fun k _ => ?_
  rw [C48_phase_sides]
  ring

theorem fourier_symm (m nc : Nat) (coef : Nat → ℝ) {x y : ℝ} (hx : x ^ 2 ≤ 1) (hy : y ^ 2 ≤ 1) :
    fourier m nc coef x y = fourier m nc coef y x := by
  rw [fourier_eq m nc coef x y hx hy, fourier_eq m nc coef y x hy hx]
  congr 1
  exact Finset.sum_congr rfl fun k _ => by ring

theorem air_k (m nc : Nat) (coef : Nat → ℝ) (x w : Fin n → ℝ) (om : ℝ) :
    (air m nc coef x w om).k = om / (2 * eps m) := by
  have hp := Real.pi_ne_zero
  unfold air Medium.of eps
  by_cases h : m = 0
  · simp [h]; field_simp; norm_num
  · simp [h]; field_simp; norm_num

theorem scattered_eq (m : Medium n) (u d : Fin n → ℝ) :
    scattered m u d = ∑ i, ∑ j, m.w i * m.w j * (m.k * m.Ppp i j * (u i * u j) + m.k * m.Ppm i j * (u i * d j) +
      m.k * m.Pmp i j * (d i * u j) + m.k * m.Pmm i j * (d i * d j)) := by
  unfold scattered Medium.intoUp Medium.intoDn
  simp only [← Finset.sum_add_distrib, Finset.mul_sum]
  exact Finset.sum_congr rfl fun i _ => Finset.sum_congr rfl fun j _ => by ring

theorem air_scattered {nc : Nat} {coef : Nat → ℝ} (hp : ∀ c, -1 ≤ c → c ≤ 1 → 0 ≤ func nc coef c) (hnc : 0 < nc) (h0 : coef 0 = 1)
    {x w : Fin n → ℝ} (hr : Rule n nc x w) {om : ℝ} (hom : 0 ≤ om) (m : Nat) (u d : Fin n → ℝ) :
    scattered (air m nc coef x w om) u d ≤ om * ∑ j, w j * (u j ^ 2 + d j ^ 2) := by
  have hx : ∀ j, x j ^ 2 ≤ 1 := fun j => by nlinarith [(hr.cos j).1, (hr.cos j).2]
  have hx' : ∀ j, (-x j) ^ 2 ≤ 1 := fun j => by rw [neg_sq]; exact hx j
  -- with no loss, and the first order
  have hN : (air 0 nc coef x w 1).Normal := by
    have hk : (air 0 nc coef x w 1).k = 1 / 2 := by rw [air_k]; norm_num [eps]
    refine ⟨by rw [hk]; norm_num, fun j => (hr.weight j).le, fun i j => ?_, fun i j => ?_, fun i => ?_, fun i => ?_⟩
    · exact ⟨fourier_nonneg hp (hx i) (hx j), fourier_nonneg hp (hx' i) (hx j), fourier_nonneg hp (hx' i) (hx j),
        fourier_nonneg hp (hx i) (hx j)⟩
    · exact ⟨fourier_symm 0 nc coef (hx i) (hx j), fourier_symm 0 nc coef (hx i) (hx j), fourier_sides 0 nc coef (hx i) (hx j)⟩
    · rw [hk]
      change 1 / 2 * ∑ j, w j * (fourier 0 nc coef (x i) (x j) + fourier 0 nc coef (-x i) (x j)) ≤ 1
      rw [fourier_total hr coef hnc h0 (hx i)]; norm_num
    · rw [hk]
      change 1 / 2 * ∑ j, w j * (fourier 0 nc coef (-x i) (x j) + fourier 0 nc coef (x i) (x j)) ≤ 1
      have := fourier_total hr coef hnc h0 (hx i)
      rw [Finset.sum_congr rfl fun j _ => by rw [add_comm (fourier 0 nc coef (x i) (x j))]] at this
      rw [this]; norm_num
  have h1 := hN.passive (fun j => |u j|) fun j => |d j|
  have h2 : scattered (air 0 nc coef x w 1) (fun j => |u j|) (fun j => |d j|) ≤ ∑ j, w j * (u j ^ 2 + d j ^ 2) := by
    have e : ∑ j, (air 0 nc coef x w 1).w j * (|u j| * (|u j| - (air 0 nc coef x w 1).intoUp (fun j => |u j|) (fun j => |d j|) j) +
        |d j| * (|d j| - (air 0 nc coef x w 1).intoDn (fun j => |u j|) (fun j => |d j|) j)) =
        ∑ j, w j * (u j ^ 2 + d j ^ 2) - scattered (air 0 nc coef x w 1) (fun j => |u j|) (fun j => |d j|) := by
      unfold scattered
      rw [← Finset.sum_sub_distrib]
      refine Finset.sum_congr rfl fun j _ => ?_
      have a := sq_abs (u j)
      have b := sq_abs (d j)
      change w j * _ = w j * _ - w j * _
      rw [← a, ← b]; ring
    rw [e] at h1
    linarith
  refine le_trans ?_ (mul_le_mul_of_nonneg_left h2 hom)
  rw [scattered_eq, scattered_eq, Finset.mul_sum]
  refine Finset.sum_le_sum fun i _ => ?_
  rw [Finset.mul_sum]
  refine Finset.sum_le_sum fun j _ => ?_
  have hk0 : (air 0 nc coef x w 1).k = 1 / 2 := by rw [air_k]; norm_num [eps]
  rw [hk0, air_k]
  have he : 0 < eps m := by unfold eps; split_ifs <;> norm_num
  have hw : 0 ≤ w i * w j := mul_nonneg (hr.weight i).le (hr.weight j).le
  have step : ∀ (z : ℝ) (a b : ℝ), z ^ 2 ≤ 1 →
      om / (2 * eps m) * fourier m nc coef z (x j) * (a * b) ≤ om * (1 / 2 * fourier 0 nc coef z (x j) * (|a| * |b|)) := by
    intro z a b hz
    have hb := fourier_bound hp m hz (hx j)
    calc om / (2 * eps m) * fourier m nc coef z (x j) * (a * b)
        ≤ |om / (2 * eps m) * fourier m nc coef z (x j) * (a * b)| := le_abs_self _
      _ = om / (2 * eps m) * |fourier m nc coef z (x j)| * (|a| * |b|) := by
          rw [abs_mul, abs_mul, abs_mul, abs_of_nonneg (div_nonneg hom (by positivity))]
      _ ≤ om / (2 * eps m) * (eps m * fourier 0 nc coef z (x j)) * (|a| * |b|) := by gcongr
      _ = _ := by field_simp
  have s1 := step (x i) (u i) (u j) (hx i)
  have s2 := step (-x i) (u i) (d j) (hx' i)
  have s3 := step (-x i) (d i) (u j) (hx' i)
  have s4 := step (x i) (d i) (d j) (hx i)
  change w i * w j * (om / (2 * eps m) * fourier m nc coef (x i) (x j) * (u i * u j) +
      om / (2 * eps m) * fourier m nc coef (-x i) (x j) * (u i * d j) +
      om / (2 * eps m) * fourier m nc coef (-x i) (x j) * (d i * u j) +
      om / (2 * eps m) * fourier m nc coef (x i) (x j) * (d i * d j)) ≤
    om * (w i * w j * (1 / 2 * fourier 0 nc coef (x i) (x j) * (|u i| * |u j|) +
      1 / 2 * fourier 0 nc coef (-x i) (x j) * (|u i| * |d j|) + 1 / 2 * fourier 0 nc coef (-x i) (x j) * (|d i| * |u j|) +
      1 / 2 * fourier 0 nc coef (x i) (x j) * (|d i| * |d j|)))
  rw [mul_left_comm om]
  refine mul_le_mul_of_nonneg_left ?_ hw
  linarith

theorem passive_of_scattered {m : Medium n} {om : ℝ} (hw : ∀ j, 0 ≤ m.w j) (hom : om ≤ 1)
    (h : ∀ u d, scattered m u d ≤ om * ∑ j, m.w j * (u j ^ 2 + d j ^ 2)) : m.Passive := by
  intro u d
  have e : ∑ j, m.w j * (u j * (u j - m.intoUp u d j) + d j * (d j - m.intoDn u d j)) =
      ∑ j, m.w j * (u j ^ 2 + d j ^ 2) - scattered m u d := by
    unfold scattered
    rw [← Finset.sum_sub_distrib]
    exact Finset.sum_congr rfl fun j _ => by ring
  rw [e]
  have h1 := h u d
  have h2 : 0 ≤ ∑ j, m.w j * (u j ^ 2 + d j ^ 2) := Finset.sum_nonneg fun j _ => mul_nonneg (hw j) (by positivity)
  nlinarith

end Xrtm.Phase
