import Verif.Proof.PhaseVecSum

/-!
# The theorem of addition with polarisation
-/

namespace Xrtm.PhaseVec
open Loops Legendre Legendre.Spec Spec Polynomial

/-- The cosine between the directions. -/
noncomputable def cc (y t θ φ : ℝ) : ℝ := Real.cos θ * y + Real.sin θ * t * Real.cos φ
/-- Its derivative in `θ`. -/
noncomputable def ct (y t θ φ : ℝ) : ℝ := -Real.sin θ * y + Real.cos θ * t * Real.cos φ

theorem cc_dθ (y t θ φ : ℝ) : HasDerivAt (fun θ => cc y t θ φ) (ct y t θ φ) θ := by
  have h := ((Real.hasDerivAt_cos θ).mul_const y).fun_add
    (((Real.hasDerivAt_sin θ).mul_const t).mul_const (Real.cos φ))
  exact h.congr_deriv rfl

theorem ct_dθ (y t θ φ : ℝ) : HasDerivAt (fun θ => ct y t θ φ) (-cc y t θ φ) θ := by
  have h := (((Real.hasDerivAt_sin θ).fun_neg).mul_const y).fun_add
    (((Real.hasDerivAt_cos θ).mul_const t).mul_const (Real.cos φ))
  refine h.congr_deriv ?_
  unfold cc; ring

theorem cc_dφ (y t θ φ : ℝ) : HasDerivAt (fun φ => cc y t θ φ) (-(Real.sin θ * t * Real.sin φ)) φ := by
  have h := ((Real.hasDerivAt_cos φ).const_mul (Real.sin θ * t)).const_add (Real.cos θ * y)
  refine h.congr_deriv ?_
  ring

theorem ct_dφ (y t θ φ : ℝ) : HasDerivAt (fun φ => ct y t θ φ) (-(Real.cos θ * t * Real.sin φ)) φ := by
  have h := ((Real.hasDerivAt_cos φ).const_mul (Real.cos θ * t)).const_add (-Real.sin θ * y)
  refine h.congr_deriv ?_
  ring

theorem cos_mul_d (m : ℕ) (φ : ℝ) :
    HasDerivAt (fun φ : ℝ => Real.cos (m * φ)) (-(m * Real.sin (m * φ))) φ := by
  have h := ((hasDerivAt_id φ).const_mul (m : ℝ)).cos
  refine h.congr_deriv ?_
  simp only [id]; ring

theorem sin_mul_d (m : ℕ) (φ : ℝ) :
    HasDerivAt (fun φ : ℝ => Real.sin (m * φ)) (m * Real.cos (m * φ)) φ := by
  have h := ((hasDerivAt_id φ).const_mul (m : ℝ)).sin
  refine h.congr_deriv ?_
  simp only [id]; ring

/-- Derivatives of equal functions are equal. -/
theorem same {f g : ℝ → ℝ} {a b x : ℝ} (h : ∀ u, f u = g u) (hf : HasDerivAt f a x)
    (hg : HasDerivAt g b x) : a = b := by
  rw [funext h] at hf
  exact hf.unique hg

/-- The weights of the terms. -/
noncomputable def W (l : ℕ) (y t : ℝ) (m : ℕ) : ℝ := eps m * wt m l * (t ^ m * T m l y)

section
variable (l M : ℕ) (hM : l < M) (y t : ℝ) (ht : t ^ 2 = 1 - y ^ 2)
include hM ht

theorem add0 (θ φ : ℝ) : ∑ m ∈ Finset.range M, W l y t m * pat m l θ * Real.cos (m * φ) =
    T 0 l (cc y t θ φ) := by
  have h := addition_G l M hM (Real.cos θ) y (Real.sin θ) t φ
    (by rw [← Real.sin_sq]) ht
  unfold cc
  rw [show T 0 l (Real.cos θ * y + Real.sin θ * t * Real.cos φ) =
    (legendre l).eval (Real.cos θ * y + Real.sin θ * t * Real.cos φ) from rfl, ← h]
  refine Finset.sum_congr rfl fun m _ => ?_
  unfold W G wt
  rw [pat_eq]
  ring

theorem add1 (θ φ : ℝ) : ∑ m ∈ Finset.range M, W l y t m * P1 m l θ * Real.cos (m * φ) =
    T 1 l (cc y t θ φ) * ct y t θ φ :=
  same (fun u => add0 l M hM y t ht u φ)
    (HasDerivAt.fun_sum fun m _ => ((pat_d1 m l θ).const_mul (W l y t m)).mul_const _)
    ((T_hasDerivAt 0 l _).comp θ (cc_dθ y t θ φ))

theorem add2 (θ φ : ℝ) : ∑ m ∈ Finset.range M, W l y t m * P2 m l θ * Real.cos (m * φ) =
    T 2 l (cc y t θ φ) * ct y t θ φ ^ 2 - T 1 l (cc y t θ φ) * cc y t θ φ := by
  have h := same (fun u => add1 l M hM y t ht u φ)
    (HasDerivAt.fun_sum fun m _ => ((pat_d2 m l θ).const_mul (W l y t m)).mul_const _)
    (((T_hasDerivAt 1 l _).comp θ (cc_dθ y t θ φ)).fun_mul (ct_dθ y t θ φ))
  rw [h]
  simp only [Function.comp]
  ring

theorem add3 (θ φ : ℝ) : ∑ m ∈ Finset.range M, W l y t m * pat m l θ * (-(m * Real.sin (m * φ))) =
    T 1 l (cc y t θ φ) * -(Real.sin θ * t * Real.sin φ) :=
  same (fun u => add0 l M hM y t ht θ u)
    (HasDerivAt.fun_sum fun m _ => (cos_mul_d m φ).const_mul (W l y t m * pat m l θ))
    ((T_hasDerivAt 0 l _).comp φ (cc_dφ y t θ φ))

theorem add4 (θ φ : ℝ) :
    ∑ m ∈ Finset.range M, W l y t m * pat m l θ * (-(m * (m * Real.cos (m * φ)))) =
    T 2 l (cc y t θ φ) * (Real.sin θ * t * Real.sin φ) ^ 2 -
      T 1 l (cc y t θ φ) * (Real.sin θ * t * Real.cos φ) := by
  have h := same (fun u => add3 l M hM y t ht θ u)
    (HasDerivAt.fun_sum fun m _ =>
      (((sin_mul_d m φ).const_mul (m : ℝ)).fun_neg).const_mul (W l y t m * pat m l θ))
    (((T_hasDerivAt 1 l _).comp φ (cc_dφ y t θ φ)).fun_mul
      (((Real.hasDerivAt_sin φ).const_mul (Real.sin θ * t)).fun_neg))
  rw [h]
  simp only [Function.comp]
  ring

theorem add5 (θ φ : ℝ) : ∑ m ∈ Finset.range M, W l y t m * P1 m l θ * (-(m * Real.sin (m * φ))) =
    -(T 2 l (cc y t θ φ) * ct y t θ φ * (Real.sin θ * t * Real.sin φ)) -
      T 1 l (cc y t θ φ) * (Real.cos θ * t * Real.sin φ) := by
  have h := same (fun u => add1 l M hM y t ht θ u)
    (HasDerivAt.fun_sum fun m _ => (cos_mul_d m φ).const_mul (W l y t m * P1 m l θ))
    (((T_hasDerivAt 1 l _).comp φ (cc_dφ y t θ φ)).fun_mul (ct_dφ y t θ φ))
  rw [h]
  simp only [Function.comp]
  ring

theorem addQ (θ φ : ℝ) (h0 : Real.sin θ ≠ 0) :
    ∑ m ∈ Finset.range M, W l y t m * along m l θ * Real.cos (m * φ) =
      norm2 l * (T 2 l (cc y t θ φ) * (ct y t θ φ ^ 2 - (t * Real.sin φ) ^ 2)) := by
  have h1 := add1 l M hM y t ht θ φ
  have h2 := add2 l M hM y t ht θ φ
  have h4 := add4 l M hM y t ht θ φ
  have e : ∑ m ∈ Finset.range M, W l y t m * along m l θ * Real.cos (m * φ) =
      norm2 l * (∑ m ∈ Finset.range M, W l y t m * P2 m l θ * Real.cos (m * φ) -
        Real.cos θ / Real.sin θ * ∑ m ∈ Finset.range M, W l y t m * P1 m l θ * Real.cos (m * φ) -
        1 / Real.sin θ ^ 2 *
          ∑ m ∈ Finset.range M, W l y t m * pat m l θ * (-(m * (m * Real.cos (m * φ))))) := by
    rw [Finset.mul_sum, Finset.mul_sum, ← Finset.sum_sub_distrib, ← Finset.sum_sub_distrib,
      Finset.mul_sum]
    refine Finset.sum_congr rfl fun m _ => ?_
    rw [along_eq]
    ring
  rw [e, h1, h2, h4]
  congr 1
  have hc : cc y t θ φ * Real.sin θ + Real.cos θ * ct y t θ φ = t * Real.cos φ := by
    have := Real.sin_sq_add_cos_sq θ
    unfold cc ct
    linear_combination t * Real.cos φ * this
  field_simp
  linear_combination (-(T 1 l (cc y t θ φ))) * hc

theorem addU (θ φ : ℝ) (h0 : Real.sin θ ≠ 0) :
    ∑ m ∈ Finset.range M, W l y t m * across m l θ * Real.sin (m * φ) =
      norm2 l * (-2 * T 2 l (cc y t θ φ) * ct y t θ φ * (t * Real.sin φ)) := by
  have h3 := add3 l M hM y t ht θ φ
  have h5 := add5 l M hM y t ht θ φ
  have e : ∑ m ∈ Finset.range M, W l y t m * across m l θ * Real.sin (m * φ) =
      norm2 l * (2 / Real.sin θ *
        ∑ m ∈ Finset.range M, W l y t m * P1 m l θ * (-(m * Real.sin (m * φ))) -
        2 * Real.cos θ / Real.sin θ ^ 2 *
          ∑ m ∈ Finset.range M, W l y t m * pat m l θ * (-(m * Real.sin (m * φ)))) := by
    rw [Finset.mul_sum, Finset.mul_sum, ← Finset.sum_sub_distrib, Finset.mul_sum]
    refine Finset.sum_congr rfl fun m _ => ?_
    rw [across_eq m l θ h0]
    field_simp
    ring
  rw [e, h3, h5]
  congr 1
  field_simp
  ring

end

theorem cc_sq (y t θ φ : ℝ) (ht : t ^ 2 = 1 - y ^ 2) :
    1 - cc y t θ φ ^ 2 = ct y t θ φ ^ 2 + (t * Real.sin φ) ^ 2 := by
  have h1 := Real.sin_sq_add_cos_sq θ
  have h2 := Real.sin_sq_add_cos_sq φ
  unfold cc ct
  linear_combination (-(y ^ 2 + t ^ 2 * Real.cos φ ^ 2)) * h1 - t ^ 2 * h2 - ht

/-! ## The rows of the angle of scattering -/

theorem scatQ_Rt (l : ℕ) (hl : 1 ≤ l) (c : ℝ) : scatQ l c = -(norm2 l * Rt 0 l c) := by
  obtain ⟨k, rfl⟩ : ∃ k, l = k + 1 := ⟨l - 1, by omega⟩
  have o := ode 0 k c
  unfold scatQ
  simp only [Rt]
  have : (1 - c ^ 2) * (derivative^[2] (legendre (k + 1))).eval c = (1 - c ^ 2) * T 2 (k + 1) c := rfl
  rw [this]
  rw [zero_add] at o
  push_cast at o ⊢
  rw [o]; ring

theorem scatQ_two (c : ℝ) : scatQ 2 c = 1 / 4 * √6 * (c * c - 1) := by
  have : scatQ 2 c = -(norm2 2 * ((1 - c ^ 2) * T 2 2 c)) := rfl
  rw [this, norm2_two, T_22]; ring

theorem scatQ_recur (k : ℕ) (c : ℝ) : scatQ (k + 3) c =
    ((2 * (((k + 2 : ℕ)) : ℝ) + 1) * c * scatQ (k + 2) c -
      √((((k + 2 : ℕ)) : ℝ) * ((k + 2 : ℕ) : ℝ) - 4) * (if k = 0 then 0 else scatQ (k + 1) c)) /
      √((((k + 2 : ℕ) : ℝ) + 1) * (((k + 2 : ℕ) : ℝ) + 1) - 4) := by
  have hpos : 0 < √((((k + 2 : ℕ) : ℝ) + 1) * (((k + 2 : ℕ) : ℝ) + 1) - 4) := by
    apply Real.sqrt_pos.2; push_cast; nlinarith [(Nat.cast_nonneg k : (0 : ℝ) ≤ k)]
  rw [eq_div_iff hpos.ne', scatQ_Rt _ (by omega), scatQ_Rt _ (by omega)]
  have h := Rt_recur 0 (k + 1) c
  have u := norm2_up k
  have ru : (((k + 2 : ℕ) : ℝ) + 1) * (((k + 2 : ℕ) : ℝ) + 1) - 4 = ((k : ℝ) + 5) * (k + 1) := by
    push_cast; ring
  rw [ru]
  have kk : ((k : ℝ) + 2) * (k + 3) ≠ 0 := by positivity
  have h' : ((k : ℝ) + 1) * Rt 0 (k + 3) c = (2 * k + 5) * c * Rt 0 (k + 2) c - (k + 4) * Rt 0 (k + 1) c := by
    apply mul_left_cancel₀ kk
    rw [show k + 1 + 2 = k + 3 from rfl, show k + 1 + 1 = k + 2 from rfl] at h
    push_cast at h
    linear_combination h
  have d : √((((k + 2 : ℕ)) : ℝ) * ((k + 2 : ℕ) : ℝ) - 4) * (if k = 0 then 0 else scatQ (k + 1) c) =
      -((k + 4) * norm2 (k + 2) * Rt 0 (k + 1) c) := by
    match k with
    | 0 => rw [if_pos rfl, Rt_one]; ring
    | k + 1 =>
      rw [if_neg (by omega), scatQ_Rt _ (by omega)]
      have d := norm2_dn k
      have rd : (((k + 1 + 2 : ℕ)) : ℝ) * ((k + 1 + 2 : ℕ) : ℝ) - 4 = ((k : ℝ) + 3) * (k + 3) - 4 := by
        push_cast; ring
      rw [rd]
      rw [show k + 1 + 1 = k + 2 from rfl, show k + 1 + 2 = k + 3 from rfl]
      push_cast
      linear_combination (-Rt 0 (k + 2) c) * d
  rw [d]
  push_cast
  linear_combination (-Rt 0 (k + 3) c) * u - norm2 (k + 2) * h'

/-- What the second row holds: nothing below the second degree. -/
noncomputable def lin (l : ℕ) (c : ℝ) : ℝ := if l < 2 then 0 else scatQ l c

theorem prt_eq (n : ℕ) (mu : ℝ) (p : (ℕ → ℝ) × (ℕ → ℝ)) (l : ℕ) (hl : l < n) :
    (prt n mu p).1 l = scatI l mu ∧ (prt n mu p).2 l = lin l mu := by
  have l0 : scatI 0 mu = 1 := by have := T_00 mu; exact this
  have l1 : scatI 1 mu = mu := by have := T_01 mu; exact this
  have l2 : scatI 2 mu = (3 * (mu * mu) - 1) / 2 := by
    have : scatI 2 mu = T 0 2 mu := rfl
    rw [this, T_02]; ring
  unfold prt
  dsimp only
  have key := forN_ind_lt (n - 1 - 2) (fun t (p : (ℕ → ℝ) × (ℕ → ℝ)) => ∀ l, l < n → l ≤ t + 2 →
    p.1 l = scatI l mu ∧ p.2 l = lin l mu)
    (fun t p =>
    (put p.1 (2 + t + 1) (((2 * (((2 + t : ℕ) : ℕ) : ℝ) + 1) * mu * p.1 (2 + t) - ((2 + t : ℕ) : ℝ) * p.1 (2 + t - 1)) / (((2 + t : ℕ) : ℝ) + 1)),
     put p.2 (2 + t + 1) (((2 * ((2 + t : ℕ) : ℝ) + 1) * mu * p.2 (2 + t) - √(((2 + t : ℕ) : ℝ) * ((2 + t : ℕ) : ℝ) - 4) * p.2 (2 + t - 1)) /
       √((((2 + t : ℕ) : ℝ) + 1) * (((2 + t : ℕ) : ℝ) + 1) - 4))))
    (if 2 < n then
      (put (if 1 < n then (put (if 0 < n then (put p.1 0 1, put p.2 0 0) else p).1 1 mu,
          put (if 0 < n then (put p.1 0 1, put p.2 0 0) else p).2 1 0)
          else (if 0 < n then (put p.1 0 1, put p.2 0 0) else p)).1 2 ((3 * (mu * mu) - 1) / 2),
        put (if 1 < n then (put (if 0 < n then (put p.1 0 1, put p.2 0 0) else p).1 1 mu,
          put (if 0 < n then (put p.1 0 1, put p.2 0 0) else p).2 1 0)
          else (if 0 < n then (put p.1 0 1, put p.2 0 0) else p)).2 2 (1 / 4 * √6 * (mu * mu - 1)))
      else (if 1 < n then (put (if 0 < n then (put p.1 0 1, put p.2 0 0) else p).1 1 mu,
          put (if 0 < n then (put p.1 0 1, put p.2 0 0) else p).2 1 0)
          else (if 0 < n then (put p.1 0 1, put p.2 0 0) else p))) ?_ ?_
  · refine key l hl ?_
    omega
  · intro l h1 h2
    rw [if_pos (by omega : 0 < n)]
    have : l = 0 ∨ l = 1 ∨ l = 2 := by omega
    rcases this with rfl | rfl | rfl
    · by_cases a1 : 1 < n <;> by_cases a2 : 2 < n <;> simp [a1, a2, put, l0, lin]
    · rw [if_pos h1]
      by_cases a2 : 2 < n <;> simp [a2, put, l1, lin]
    · rw [if_pos h1]
      simp only [put, lin, l2, scatQ_two]
      simp
  · intro t p ht hp l h1 h2
    have e1 := hp (2 + t) (by omega) (by omega)
    have e2 := hp (2 + t - 1) (by omega) (by omega)
    by_cases hl3 : l = 2 + t + 1
    · subst hl3
      simp only [put, if_true]
      constructor
      · rw [e1.1, e2.1]
        have := T_recur 0 (t + 1) mu
        have hp' : (((2 + t : ℕ) : ℝ) + 1) ≠ 0 := by positivity
        rw [div_eq_iff hp', show 2 + t + 1 = t + 1 + 2 by omega, show 2 + t - 1 = t + 1 by omega,
          show 2 + t = t + 1 + 1 by omega]
        have e : ∀ l, scatI l mu = T 0 l mu := fun _ => rfl
        simp only [e]
        push_cast at this ⊢
        linear_combination -this
      · rw [e1.2, e2.2]
        have := scatQ_recur t mu
        rw [show t + 3 = 2 + t + 1 by omega, show t + 2 = 2 + t by omega] at this
        unfold lin
        rw [if_neg (by omega : ¬ 2 + t + 1 < 2), if_neg (by omega : ¬ 2 + t < 2), this]
        by_cases h0 : t = 0
        · subst h0; simp
        · rw [if_neg h0, if_neg (by omega : ¬ 2 + t - 1 < 2), show 2 + t - 1 = t + 1 by omega]
    · simp only [put, hl3, if_false]
      exact hp l h1 (by omega)

end Xrtm.PhaseVec
