import Verif.Spec.Loss
import Verif.Proof.BvpSing
import Verif.Proof.Whole
import Mathlib.Analysis.Calculus.Deriv.MeanValue

/-! An atmosphere that makes no light keeps none. -/

namespace Xrtm.Transfer
open Xrtm.Bvp Xrtm.Whole

variable {n : Nat}

/-- The flux of the squares. -/
noncomputable def flux (mu w up dn : Fin n → ℝ) : ℝ := ∑ j, w j * mu j * (up j ^ 2 - dn j ^ 2)

theorem flux_mono {m : Medium n} (hm : m.Passive) {up dn : ℝ → Fin n → ℝ} (h : m.Carries 0 0 up dn) :
    Monotone fun τ => flux m.mu m.w (up τ) (dn τ) := by
  have hd : ∀ τ, HasDerivAt (fun τ => flux m.mu m.w (up τ) (dn τ))
      (2 * ∑ j, m.w j * (up τ j * (up τ j - m.intoUp (up τ) (dn τ) j) + dn τ j * (dn τ j - m.intoDn (up τ) (dn τ) j))) τ := by
    intro τ
    choose u d hu hv eu ev using h τ
    have : ∀ j ∈ Finset.univ, HasDerivAt (fun τ => m.w j * m.mu j * (up τ j ^ 2 - dn τ j ^ 2))
        (2 * (m.w j * (up τ j * (up τ j - m.intoUp (up τ) (dn τ) j) + dn τ j * (dn τ j - m.intoDn (up τ) (dn τ) j)))) τ := by
      intro j _
      have := (((hu j).fun_pow 2).fun_sub ((hv j).fun_pow 2)).const_mul (m.w j * m.mu j)
      refine this.congr_deriv ?_
      have e1 := eu j
      have e2 := ev j
      simp only [Pi.zero_apply, sub_zero] at e1 e2
      push_cast
      simp only [Nat.add_one_sub_one, pow_one]
      linear_combination (2 * m.w j * up τ j) * e1 + (2 * m.w j * dn τ j) * e2
    have := HasDerivAt.fun_sum this
    rw [Finset.mul_sum]
    exact this
  refine monotone_of_deriv_nonneg (fun τ => (hd τ).differentiableAt) fun τ => ?_
  rw [(hd τ).deriv]
  exact mul_nonneg zero_le_two (hm _ _)

theorem dark_zero {S : Stack n} {mu w : Fin n → ℝ} (hS : S.Passive mu w) {up dn : Nat → ℝ → Fin n → ℝ}
    (h : (darkS S).Lit up dn) (i : Nat) (hi : i < S.L) (s : ℝ) : up i s = 0 ∧ dn i s = 0 := by
  have hc : ∀ i, i < S.L → (S.med i).Carries 0 0 (up i) (dn i) := h.layer
  have hm : ∀ i, i < S.L → Monotone fun τ => flux mu w (up i τ) (dn i τ) := fun i hi => by
    have := flux_mono (hS.layer i hi) (hc i hi)
    rwa [(hS.dirs i hi).1, (hS.dirs i hi).2] at this
  have hmeet : ∀ i, i + 1 < S.L → up i (S.T i) = up (i + 1) 0 ∧ dn i (S.T i) = dn (i + 1) 0 := h.meet
  have hsky : dn 0 0 = 0 := h.sky
  have hL : 0 < S.L := by omega
  -- the flux grows downwards
  have hgrow : ∀ i, i < S.L → flux mu w (up 0 0) (dn 0 0) ≤ flux mu w (up i 0) (dn i 0) := by
    intro i
    induction i with
    | zero => intro _; exact le_rfl
    | succ i ih =>
      intro hi
      rw [← (hmeet i hi).1, ← (hmeet i hi).2]
      exact (ih (by omega)).trans (hm i (by omega) (hS.thick i (by omega)))
  have h0 : flux mu w (up 0 0) (dn 0 0) ≤ 0 := by
    have hi : S.L - 1 < S.L := by omega
    refine ((hgrow _ hi).trans (hm _ hi (hS.thick _ hi))).trans ?_
    have hg : up (S.L - 1) (S.T (S.L - 1)) = S.Rs.mulVec (dn (S.L - 1) (S.T (S.L - 1))) := by
      have := h.ground
      rw [show (darkS S).bot = 0 from rfl, zero_add] at this
      exact this
    have := hS.ground (dn (S.L - 1) (S.T (S.L - 1)))
    rw [← hg] at this
    unfold flux
    simp only [mul_sub, Finset.sum_sub_distrib]
    linarith
  have hz : up 0 0 = 0 := by
    have e : flux mu w (up 0 0) (dn 0 0) = ∑ j, w j * mu j * up 0 0 j ^ 2 := by
      unfold flux
      rw [hsky]
      simp
    rw [e] at h0
    have hn : ∀ j ∈ Finset.univ, 0 ≤ w j * mu j * up 0 0 j ^ 2 := fun j _ =>
      mul_nonneg (mul_nonneg (hS.weight j).le (hS.cos j).le) (sq_nonneg _)
    have := (Finset.sum_eq_zero_iff_of_nonneg hn).1 (le_antisymm h0 (Finset.sum_nonneg hn))
    funext j
    have hj := this j (Finset.mem_univ j)
    have hp := mul_pos (hS.weight j) (hS.cos j)
    exact pow_eq_zero_iff two_ne_zero |>.1 ((mul_eq_zero.1 hj).resolve_left hp.ne')
  have hall : ∀ i, i < S.L → ∀ s, up i s = 0 ∧ dn i s = 0 := by
    intro i
    induction i with
    | zero =>
      intro hi s
      have := carries_zero_of (fun j => by rw [(hS.dirs 0 hi).1]; exact (hS.cos j).ne') (hc 0 hi) (t := 0) hz hsky
      exact ⟨congrFun this.1 s, congrFun this.2 s⟩
    | succ i ih =>
      intro hi s
      have := ih (by omega) (S.T i)
      rw [(hmeet i hi).1, (hmeet i hi).2] at this
      have := carries_zero_of (fun j => by rw [(hS.dirs _ hi).1]; exact (hS.cos j).ne') (hc _ hi) (t := 0) this.1 this.2
      exact ⟨congrFun this.1 s, congrFun this.2 s⟩
  exact hall i hi s

/-- A phase function makes no light. -/
theorem Medium.Normal.passive {m : Medium n} (h : m.Normal) : m.Passive := by
  intro u d
  have key : ∀ (P : Fin n → Fin n → ℝ) (a b : Fin n → ℝ), (∀ i j, 0 ≤ P i j) →
      ∑ i, ∑ j, m.w i * m.w j * P i j * (a i * b j) ≤
        ∑ i, ∑ j, m.w i * m.w j * P i j * (a i ^ 2 / 2) + ∑ i, ∑ j, m.w i * m.w j * P i j * (b j ^ 2 / 2) := by
    intro P a b hP
    rw [← Finset.sum_add_distrib]
    refine Finset.sum_le_sum fun i _ => ?_
    rw [← Finset.sum_add_distrib]
    refine Finset.sum_le_sum fun j _ => ?_
    rw [← mul_add]
    refine mul_le_mul_of_nonneg_left ?_ (mul_nonneg (mul_nonneg (h.w i) (h.w j)) (hP i j))
    nlinarith [sq_nonneg (a i - b j)]
  -- what is scattered
  have e1 : ∑ j, m.w j * (u j * m.intoUp u d j + d j * m.intoDn u d j) =
      m.k * (∑ i, ∑ j, m.w i * m.w j * m.Ppp i j * (u i * u j) + ∑ i, ∑ j, m.w i * m.w j * m.Ppm i j * (u i * d j) +
        ∑ i, ∑ j, m.w i * m.w j * m.Pmp i j * (d i * u j) + ∑ i, ∑ j, m.w i * m.w j * m.Pmm i j * (d i * d j)) := by
    simp only [Medium.intoUp, Medium.intoDn, ← Finset.sum_add_distrib, Finset.mul_sum]
    refine Finset.sum_congr rfl fun i _ => ?_
    refine Finset.sum_congr rfl fun j _ => ?_
    ring
  have swap : ∀ (P Q : Fin n → Fin n → ℝ) (b : Fin n → ℝ), (∀ i j, P i j = Q j i) →
      ∑ i, ∑ j, m.w i * m.w j * P i j * (b j ^ 2 / 2) = ∑ i, ∑ j, m.w i * m.w j * Q i j * (b i ^ 2 / 2) := by
    intro P Q b hPQ
    rw [Finset.sum_comm]
    refine Finset.sum_congr rfl fun i _ => Finset.sum_congr rfl fun j _ => ?_
    rw [hPQ j i]; ring
  have k1 := key m.Ppp u u fun i j => (h.pos i j).1
  have k2 := key m.Ppm u d fun i j => (h.pos i j).2.1
  have k3 := key m.Pmp d u fun i j => (h.pos i j).2.2.1
  have k4 := key m.Pmm d d fun i j => (h.pos i j).2.2.2
  rw [swap m.Ppp m.Ppp u fun i j => (h.back i j).1] at k1
  rw [swap m.Ppm m.Pmp d fun i j => (h.back i j).2.2] at k2
  rw [swap m.Pmp m.Ppm u fun i j => (h.back j i).2.2.symm] at k3
  rw [swap m.Pmm m.Pmm d fun i j => (h.back i j).2.1] at k4
  have rows : ∀ (P Q : Fin n → Fin n → ℝ) (a : Fin n → ℝ), (∀ i, m.k * ∑ j, m.w j * (P i j + Q i j) ≤ 1) →
      m.k * (∑ i, ∑ j, m.w i * m.w j * P i j * (a i ^ 2 / 2) + ∑ i, ∑ j, m.w i * m.w j * Q i j * (a i ^ 2 / 2)) ≤
        ∑ i, m.w i * a i ^ 2 / 2 := by
    intro P Q a hPQ
    rw [← Finset.sum_add_distrib, Finset.mul_sum]
    refine Finset.sum_le_sum fun i _ => ?_
    have : m.k * (∑ j, m.w i * m.w j * P i j * (a i ^ 2 / 2) + ∑ j, m.w i * m.w j * Q i j * (a i ^ 2 / 2)) =
        m.w i * a i ^ 2 / 2 * (m.k * ∑ j, m.w j * (P i j + Q i j)) := by
      rw [← Finset.sum_add_distrib, Finset.mul_sum, Finset.mul_sum, Finset.mul_sum]
      refine Finset.sum_congr rfl fun j _ => ?_
      ring
    rw [this]
    refine mul_le_of_le_one_right ?_ (hPQ i)
    have := h.w i
    positivity
  have r1 := rows m.Ppp m.Ppm u h.up
  have r2 := rows m.Pmp m.Pmm d h.dn
  have tot : ∑ j, m.w j * (u j * m.intoUp u d j + d j * m.intoDn u d j) ≤ ∑ j, m.w j * (u j ^ 2 + d j ^ 2) := by
    rw [e1]
    refine (mul_le_mul_of_nonneg_left (add_le_add (add_le_add (add_le_add k1 k2) k3) k4) h.k).trans ?_
    have : ∑ j, m.w j * (u j ^ 2 + d j ^ 2) =
        2 * ∑ i, m.w i * u i ^ 2 / 2 + 2 * ∑ i, m.w i * d i ^ 2 / 2 := by
      rw [Finset.mul_sum, Finset.mul_sum, ← Finset.sum_add_distrib]
      refine Finset.sum_congr rfl fun j _ => ?_
      ring
    rw [this]
    linarith
  have : ∑ j, m.w j * (u j * (u j - m.intoUp u d j) + d j * (d j - m.intoDn u d j)) =
      ∑ j, m.w j * (u j ^ 2 + d j ^ 2) - ∑ j, m.w j * (u j * m.intoUp u d j + d j * m.intoDn u d j) := by
    rw [← Finset.sum_sub_distrib]
    refine Finset.sum_congr rfl fun j _ => ?_
    ring
  rw [this]
  linarith

end Xrtm.Transfer

namespace Xrtm.Bvp
open Xrtm.Transfer Xrtm.Eig

variable {n : Nat} {K : Type} [RCLike K] {ex : K → K}
  {inv? : {N : Nat} → Matrix (Fin N) (Fin N) K → Option (Matrix (Fin N) (Fin N) K)}

/-- The solver does not fail for an atmosphere that makes no light. -/
theorem passive_solves (he : IsExp ex) (hex : ExactAll inv?) {first : Bool} {ns : Nat} {mu w : Source.V n}
    {c : Nat → Content n K} {su sd : Nat → ℝ → Source.V n} {z : Inp n K} {S : Stack n}
    (hp : Posed first ns mu w c su sd z S) {mu' w' : Source.V n} (hS : S.Passive mu' w') :
    ∃ B, solveBvp ex z inv? = some B := by
  rw [← Option.ne_none_iff_exists', ne_eq, solve_dark he hex hp]
  rintro ⟨up, dn, hl, i, hi, s, j, hne⟩
  obtain ⟨h1, h2⟩ := dark_zero hS hl i hi s
  rcases hne with h | h
  · exact h (congrFun h1 j)
  · exact h (congrFun h2 j)

end Xrtm.Bvp
