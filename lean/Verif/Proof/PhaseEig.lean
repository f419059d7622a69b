import Verif.Proof.Phase
import Verif.Props.Eig
import Mathlib.Analysis.RCLike.Basic
import Mathlib.Analysis.Matrix.Spectrum

/-!
# The eigenvalues of a scalar medium that absorbs are real and positive
-/

namespace Xrtm.Phase
open Matrix Transfer Source

variable {n : Nat} {K : Type} [RCLike K]

/-- `v* W B v` for a real matrix is real where `W B` is symmetric. -/
theorem form_real (B : Fin n → Fin n → ℝ) (hB : ∀ i j, B i j = B j i) (v : Fin n → K) :
    ∑ i, ∑ j, (starRingEnd K) (v i) * ((B i j : ℝ) : K) * v j =
      (((∑ i, ∑ j, B i j * (RCLike.re (v i) * RCLike.re (v j))) + ∑ i, ∑ j, B i j * (RCLike.im (v i) * RCLike.im (v j)) : ℝ) : K) := by
  apply RCLike.ext
  · rw [RCLike.ofReal_re]
    simp only [map_sum, ← Finset.sum_add_distrib]
    refine Finset.sum_congr rfl fun i _ => Finset.sum_congr rfl fun j _ => ?_
    simp only [RCLike.mul_re, RCLike.mul_im, RCLike.conj_re, RCLike.conj_im, RCLike.ofReal_re, RCLike.ofReal_im]
    ring
  · rw [RCLike.ofReal_im]
    simp only [map_sum]
    have e : ∀ i j, RCLike.im ((starRingEnd K) (v i) * ((B i j : ℝ) : K) * v j) =
        B i j * (RCLike.re (v i) * RCLike.im (v j)) - B i j * (RCLike.im (v i) * RCLike.re (v j)) := by
      intro i j
      simp only [RCLike.mul_re, RCLike.mul_im, RCLike.conj_re, RCLike.conj_im, RCLike.ofReal_re, RCLike.ofReal_im]
      ring
    simp only [e, Finset.sum_sub_distrib]
    rw [sub_eq_zero]
    conv_rhs => rw [Finset.sum_comm]
    exact Finset.sum_congr rfl fun i _ => Finset.sum_congr rfl fun j _ => by rw [hB i j]; ring

/-- If both matrices are symmetric and positive for the weights, every eigenvalue of their
product, each divided by the cosines, is positive. -/
theorem eigen_pos {mu w : Fin n → ℝ} (hmu : ∀ j, 0 < mu j) (A B : Fin n → Fin n → ℝ)
    (hA : ∀ i j, w i * A i j = w j * A j i) (hB : ∀ i j, w i * B i j = w j * B j i)
    (pA : ∀ v : Fin n → ℝ, v ≠ 0 → 0 < ∑ i, ∑ j, w i * A i j * (v i * v j))
    (pB : ∀ v : Fin n → ℝ, v ≠ 0 → 0 < ∑ i, ∑ j, w i * B i j * (v i * v j))
    (v : Fin n → K) (hv : v ≠ 0) (l : K)
    (h : ∀ i, ∑ j, ((A i j : ℝ) : K) * (((1 / mu j : ℝ) : K) * ∑ k, ((B j k : ℝ) : K) * v k) = l * (((mu i : ℝ) : K) * v i)) :
    ∃ r : ℝ, 0 < r ∧ l = (r : K) := by
  have part : ∀ C : Fin n → Fin n → ℝ, (∀ v : Fin n → ℝ, v ≠ 0 → 0 < ∑ i, ∑ j, w i * C i j * (v i * v j)) →
      ∀ v : Fin n → K, v ≠ 0 → 0 < (∑ i, ∑ j, w i * C i j * (RCLike.re (v i) * RCLike.re (v j))) +
        ∑ i, ∑ j, w i * C i j * (RCLike.im (v i) * RCLike.im (v j)) := by
    intro C pC v hv
    have z : ∀ x : Fin n → ℝ, 0 ≤ ∑ i, ∑ j, w i * C i j * (x i * x j) := by
      intro x
      rcases eq_or_ne x 0 with h | h
      · rw [h]; simp
      · exact (pC x h).le
    by_cases hr : (fun i => RCLike.re (v i)) = (0 : Fin n → ℝ)
    · have hi : (fun i => RCLike.im (v i)) ≠ (0 : Fin n → ℝ) := by
        intro hi
        apply hv
        funext i
        apply RCLike.ext
        · simpa using congrFun hr i
        · simpa using congrFun hi i
      have := pC _ hi
      have := z fun i => RCLike.re (v i)
      linarith
    · have := pC _ hr
      have := z fun i => RCLike.im (v i)
      linarith
  set b : Fin n → K := fun j => ∑ k, ((B j k : ℝ) : K) * v k with hb
  set g : Fin n → K := fun j => ((1 / mu j : ℝ) : K) * b j with hg
  have mg : ∀ j, ((mu j : ℝ) : K) * g j = b j := by
    intro j
    simp only [hg]
    rw [← mul_assoc, ← RCLike.ofReal_mul, mul_one_div_cancel (hmu j).ne', RCLike.ofReal_one, one_mul]
  have fA := form_real (fun i j => w i * A i j) hA g
  have fB := form_real (fun i j => w i * B i j) hB v
  have bB := part B pB v hv
  have hg0 : g ≠ 0 := by
    intro h0
    have hb0 : ∀ j, b j = 0 := fun j => by rw [← mg j, h0]; simp
    have : ∑ i, ∑ j, (starRingEnd K) (v i) * ((w i * B i j : ℝ) : K) * v j = 0 := by
      refine Finset.sum_eq_zero fun i _ => ?_
      have e : ∑ j, (starRingEnd K) (v i) * ((w i * B i j : ℝ) : K) * v j = (starRingEnd K) (v i) * ((w i : ℝ) : K) * b i := by
        simp only [hb, Finset.mul_sum]
        exact Finset.sum_congr rfl fun j _ => by push_cast; ring
      rw [e, hb0, mul_zero]
    rw [this] at fB
    have := (RCLike.ofReal_eq_zero (K := K)).1 fB.symm
    linarith
  have bA := part A pA g hg0
  set α := (∑ i, ∑ j, w i * A i j * (RCLike.re (g i) * RCLike.re (g j))) + ∑ i, ∑ j, w i * A i j * (RCLike.im (g i) * RCLike.im (g j))
  set β := (∑ i, ∑ j, w i * B i j * (RCLike.re (v i) * RCLike.re (v j))) + ∑ i, ∑ j, w i * B i j * (RCLike.im (v i) * RCLike.im (v j))
  have key : (α : K) = l * (β : K) := by
    rw [← fA]
    have e1 : ∀ i, ∑ j, (starRingEnd K) (g i) * ((w i * A i j : ℝ) : K) * g j =
        l * ((starRingEnd K) (b i) * ((w i : ℝ) : K) * v i) := by
      intro i
      have : ∑ j, (starRingEnd K) (g i) * ((w i * A i j : ℝ) : K) * g j =
          (starRingEnd K) (g i) * ((w i : ℝ) : K) * ∑ j, ((A i j : ℝ) : K) * g j := by
        rw [Finset.mul_sum]
        exact Finset.sum_congr rfl fun j _ => by push_cast; ring
      have hb' : (starRingEnd K) (b i) = ((mu i : ℝ) : K) * (starRingEnd K) (g i) := by
        rw [← mg i, map_mul, RCLike.conj_ofReal]
      have hi : ∑ j, ((A i j : ℝ) : K) * g j = l * (((mu i : ℝ) : K) * v i) := h i
      rw [this, hi, hb']
      ring
    rw [Finset.sum_congr rfl fun i _ => e1 i, ← Finset.mul_sum]
    congr 1
    have e2 : ∑ i, (starRingEnd K) (b i) * ((w i : ℝ) : K) * v i = (starRingEnd K) (β : K) := by
      rw [← fB, map_sum]
      refine Finset.sum_congr rfl fun i _ => ?_
      rw [map_sum]
      simp only [hb, map_sum, map_mul, RCLike.conj_ofReal, RCLike.conj_conj, Finset.sum_mul]
      refine Finset.sum_congr rfl fun j _ => ?_
      push_cast
      ring
    rw [e2, RCLike.conj_ofReal]
  refine ⟨α / β, div_pos bA bB, ?_⟩
  have hβ : (β : K) ≠ 0 := fun h => by
    have := (RCLike.ofReal_eq_zero (K := K)).1 h
    linarith
  rw [RCLike.ofReal_div, eq_div_iff hβ]
  exact key.symm

/-- A square that is real and positive. -/
theorem root_pos {z : K} {r : ℝ} (hr : 0 < r) (h : z ^ 2 = (r : K)) : RCLike.im z = 0 ∧ RCLike.re z ≠ 0 := by
  have h1 := congrArg RCLike.re h
  have h2 := congrArg RCLike.im h
  rw [pow_two, RCLike.mul_re, RCLike.ofReal_re] at h1
  rw [pow_two, RCLike.mul_im, RCLike.ofReal_im] at h2
  have h3 : RCLike.re z * RCLike.im z = 0 := by linarith
  rcases mul_eq_zero.1 h3 with h | h
  · rw [h] at h1
    nlinarith [sq_nonneg (RCLike.im z)]
  · refine ⟨h, fun h0 => ?_⟩
    rw [h0, h] at h1
    simp at h1
    linarith

/-- The matrices of the routine for a scalar medium that is the same both ways and scatters less
than it gets. -/
theorem scalar_parts (first : Bool) {mu w : Fin n → ℝ} (hw : ∀ j, 0 < w j) {om c : ℝ} {P Q : M n}
    (hP : ∀ i j, P i j = P j i) (hQ : ∀ i j, Q i j = Q j i) (hc : c < 1)
    (hs : ∀ u d, scattered (Medium.of first mu w om P Q P Q) u d ≤ c * ∑ j, w j * (u j ^ 2 + d j ^ 2)) :
    ∃ A B : Fin n → Fin n → ℝ, (∀ i j, w i * A i j = w j * A j i) ∧ (∀ i j, w i * B i j = w j * B j i) ∧
      (∀ v : Fin n → ℝ, v ≠ 0 → 0 < ∑ i, ∑ j, w i * A i j * (v i * v j)) ∧
      (∀ v : Fin n → ℝ, v ≠ 0 → 0 < ∑ i, ∑ j, w i * B i j * (v i * v j)) ∧
      (∀ i j, (txr 1 (localRT first mu w om P Q).1 (localRT first mu w om P Q).2).1 i j = -(1 / mu i * B i j)) ∧
      ∀ i j, (txr 1 (localRT first mu w om P Q).1 (localRT first mu w om P Q).2).2 i j = -(1 / mu i * A i j) := by
  set q : ℝ := (1 + if first then 1 else 0) / 4 * om with hq
  have hk : (Medium.of first mu w om P Q P Q).k = q := by
    have hp := Real.pi_ne_zero
    unfold Medium.of
    simp only [hq]
    cases first <;> simp <;> field_simp <;> norm_num
  set A : Fin n → Fin n → ℝ := fun i j => (if i = j then 1 else 0) - q * (P i j + Q i j) * w j with hA
  set B : Fin n → Fin n → ℝ := fun i j => (if i = j then 1 else 0) - q * (P i j - Q i j) * w j with hB
  have sym : ∀ (C : Fin n → Fin n → ℝ), (∀ i j, C i j = C j i) → ∀ i j,
      w i * ((if i = j then 1 else 0) - q * C i j * w j) = w j * ((if j = i then 1 else 0) - q * C j i * w i) := by
    intro C hC i j
    by_cases hij : i = j
    · rw [hij]
    · rw [if_neg hij, if_neg (Ne.symm hij), hC i j]; ring
  have pos : ∀ (s : ℝ), s = 1 ∨ s = -1 → ∀ v : Fin n → ℝ, v ≠ 0 →
      0 < ∑ i, ∑ j, w i * ((if i = j then 1 else 0) - q * (P i j + s * Q i j) * w j) * (v i * v j) := by
    intro s hs1 v hv
    have hss : s ^ 2 = 1 := by rcases hs1 with h | h <;> rw [h] <;> norm_num
    have h1 := hs v fun j => s * v j
    rw [scattered_eq, hk] at h1
    have e1 : ∑ i, ∑ j, w i * w j * (q * P i j * (v i * v j) + q * Q i j * (v i * (s * v j)) + q * Q i j * (s * v i * v j) +
        q * P i j * (s * v i * (s * v j))) = 2 * ∑ i, ∑ j, w i * (q * (P i j + s * Q i j) * w j) * (v i * v j) := by
      rw [Finset.mul_sum]
      refine Finset.sum_congr rfl fun i _ => ?_
      rw [Finset.mul_sum]
      refine Finset.sum_congr rfl fun j _ => ?_
      linear_combination w i * w j * q * P i j * (v i * v j) * hss
    change ∑ i, ∑ j, w i * w j * (q * P i j * (v i * v j) + q * Q i j * (v i * (s * v j)) + q * Q i j * (s * v i * v j) +
        q * P i j * (s * v i * (s * v j))) ≤ _ at h1
    rw [e1] at h1
    have e2 : ∑ j, w j * (v j ^ 2 + (s * v j) ^ 2) = 2 * ∑ j, w j * v j ^ 2 := by
      rw [Finset.mul_sum]
      refine Finset.sum_congr rfl fun j _ => ?_
      linear_combination w j * v j ^ 2 * hss
    rw [e2] at h1
    have e3 : ∑ i, ∑ j, w i * ((if i = j then 1 else 0) - q * (P i j + s * Q i j) * w j) * (v i * v j) =
        ∑ j, w j * v j ^ 2 - ∑ i, ∑ j, w i * (q * (P i j + s * Q i j) * w j) * (v i * v j) := by
      rw [← Finset.sum_sub_distrib]
      refine Finset.sum_congr rfl fun i _ => ?_
      have : ∑ j, w i * (if i = j then (1 : ℝ) else 0) * (v i * v j) = w i * v i ^ 2 := by
        rw [Finset.sum_eq_single i]
        · rw [if_pos rfl]; ring
        · intro j _ hj
          rw [if_neg (Ne.symm hj)]; ring
        · intro h; exact absurd (Finset.mem_univ i) h
      rw [← this, ← Finset.sum_sub_distrib]
      exact Finset.sum_congr rfl fun j _ => by ring
    rw [e3]
    have hpos : 0 < ∑ j, w j * v j ^ 2 := by
      obtain ⟨j, hj⟩ : ∃ j, v j ≠ 0 := by
        by_contra hh
        push Not at hh
        exact hv (funext hh)
      exact Finset.sum_pos' (fun i _ => mul_nonneg (hw i).le (sq_nonneg _))
        ⟨j, Finset.mem_univ j, mul_pos (hw j) (by positivity)⟩
    nlinarith
  have pA : ∀ v : Fin n → ℝ, v ≠ 0 → 0 < ∑ i, ∑ j, w i * A i j * (v i * v j) := by
    intro v hv
    have := pos 1 (.inl rfl) v hv
    simpa only [one_mul] using this
  have pB : ∀ v : Fin n → ℝ, v ≠ 0 → 0 < ∑ i, ∑ j, w i * B i j * (v i * v j) := by
    intro v hv
    have := pos (-1) (.inr rfl) v hv
    simpa only [neg_one_mul, ← sub_eq_add_neg] using this
  -- the matrices of the routine
  have tpr : ∀ i j, (txr 1 (localRT first mu w om P Q).1 (localRT first mu w om P Q).2).1 i j = -(1 / mu i * B i j) := by
    intro i j
    change (1 * (1 + if first then 1 else 0) / 4 * om * (1 / mu i * P i j * w j) - (diagonal fun i => 1 / mu i) i j) +
      -1 * (1 + if first then 1 else 0) / 4 * om * (1 / mu i * Q i j * w j) = _
    simp only [hB, diagonal_apply, hq]
    by_cases hij : i = j
    · rw [if_pos hij, if_pos hij]; ring
    · rw [if_neg hij, if_neg hij]; ring
  have tmr : ∀ i j, (txr 1 (localRT first mu w om P Q).1 (localRT first mu w om P Q).2).2 i j = -(1 / mu i * A i j) := by
    intro i j
    change (1 * (1 + if first then 1 else 0) / 4 * om * (1 / mu i * P i j * w j) - (diagonal fun i => 1 / mu i) i j) -
      -1 * (1 + if first then 1 else 0) / 4 * om * (1 / mu i * Q i j * w j) = _
    simp only [hA, diagonal_apply, hq]
    by_cases hij : i = j
    · rw [if_pos hij, if_pos hij]; ring
    · rw [if_neg hij, if_neg hij]; ring
  exact ⟨A, B, sym _ fun i j => by rw [hP i j, hQ i j], sym _ fun i j => by rw [hP i j, hQ i j], pA, pB, tpr, tmr⟩

/-- The eigenvalues for a scalar medium that is the same both ways and scatters less than it gets. -/
theorem scalar_eigen (first : Bool) {mu w : Fin n → ℝ} (hmu : ∀ j, 0 < mu j) (hw : ∀ j, 0 < w j) {om c : ℝ} {P Q : M n}
    (hP : ∀ i j, P i j = P j i) (hQ : ∀ i j, Q i j = Q j i) (hc : c < 1)
    (hs : ∀ u d, scattered (Medium.of first mu w om P Q P Q) u d ≤ c * ∑ j, w j * (u j ^ 2 + d j ^ 2))
    {V : Matrix (Fin n) (Fin n) K} (hV : V.det ≠ 0) {l : Fin n → K}
    (h : ((gammaOf (txr 1 (localRT first mu w om P Q).1 (localRT first mu w om P Q).2).1
      (txr 1 (localRT first mu w om P Q).1 (localRT first mu w om P Q).2).2).map fun z : ℝ => (z : K)) * V =
        V * diagonal l) (k : Fin n) : ∃ r : ℝ, 0 < r ∧ l k = (r : K) := by
  obtain ⟨A, B, sA, sB, pA, pB, tpr, tmr⟩ := scalar_parts first hw hP hQ hc hs
  set v : Fin n → K := fun i => V i k with hv
  have hv0 : v ≠ 0 := by
    intro h0
    apply hV
    exact det_eq_zero_of_column_eq_zero k fun i => congrFun h0 i
  refine eigen_pos hmu A B sA sB pA pB v hv0 (l k)
    fun i => ?_
  have hi := congrFun (congrFun h i) k
  rw [mul_diagonal, mul_apply] at hi
  have hmi : ((mu i : ℝ) : K) ≠ 0 := by
    rw [Ne, RCLike.ofReal_eq_zero]; exact (hmu i).ne'
  have e : ∑ j, ((gammaOf (txr 1 (localRT first mu w om P Q).1 (localRT first mu w om P Q).2).1
      (txr 1 (localRT first mu w om P Q).1 (localRT first mu w om P Q).2).2).map fun z : ℝ => (z : K)) i j * V j k =
      ((1 / mu i : ℝ) : K) * ∑ j, ((A i j : ℝ) : K) * (((1 / mu j : ℝ) : K) * ∑ k', ((B j k' : ℝ) : K) * v k') := by
    simp only [map_apply, gammaOf, mul_apply, tpr, tmr, Finset.mul_sum, RCLike.ofReal_sum, Finset.sum_mul]
    rw [Finset.sum_comm]
    refine Finset.sum_congr rfl fun j _ => Finset.sum_congr rfl fun k' _ => ?_
    push_cast
    ring
  rw [e] at hi
  have : ((mu i : ℝ) : K) * (((1 / mu i : ℝ) : K) * ∑ j, ((A i j : ℝ) : K) * (((1 / mu j : ℝ) : K) * ∑ k', ((B j k' : ℝ) : K) * v k')) =
      ∑ j, ((A i j : ℝ) : K) * (((1 / mu j : ℝ) : K) * ∑ k', ((B j k' : ℝ) : K) * v k') := by
    rw [← mul_assoc, ← RCLike.ofReal_mul, mul_one_div_cancel (hmu i).ne', RCLike.ofReal_one, one_mul]
  rw [← this, hi]
  ring

/-- A symmetric positive matrix has an orthogonal set of eigenvectors. -/
theorem symm_eigen {S : M n} (hs : Sᵀ = S) (hp : ∀ v : Fin n → ℝ, v ≠ 0 → 0 < v ⬝ᵥ (S *ᵥ v)) :
    ∃ (l : Fin n → ℝ) (U : M n), (∀ k, 0 < l k) ∧ Uᵀ * U = 1 ∧ S * U = U * diagonal l := by
  have hS : S.IsHermitian := by
    rw [Matrix.IsHermitian, conjTranspose_eq_transpose_of_trivial]; exact hs
  have hU : (hS.eigenvectorUnitary : M n)ᵀ * (hS.eigenvectorUnitary : M n) = 1 := by
    have := Unitary.coe_star_mul_self hS.eigenvectorUnitary
    rwa [star_eq_conjTranspose, conjTranspose_eq_transpose_of_trivial] at this
  have hSU : S * (hS.eigenvectorUnitary : M n) = (hS.eigenvectorUnitary : M n) * diagonal hS.eigenvalues := by
    ext i k
    have := congrFun (hS.mulVec_eigenvectorBasis k) i
    rw [mul_diagonal, mul_apply]
    simp only [mulVec, dotProduct, Pi.smul_apply, smul_eq_mul] at this
    rw [mul_comm]
    exact this
  refine ⟨hS.eigenvalues, (hS.eigenvectorUnitary).1, fun k => ?_, hU, hSU⟩
  set U : M n := (hS.eigenvectorUnitary).1
  have hne : (fun i => U i k) ≠ 0 := by
    intro h0
    have := congrFun (congrFun hU k) k
    rw [mul_apply, one_apply_eq] at this
    simp only [transpose_apply, congrFun h0 _, Pi.zero_apply, mul_zero, Finset.sum_const_zero] at this
    exact zero_ne_one this
  have h1 := hp _ hne
  have h2 : (fun i => U i k) ⬝ᵥ (S *ᵥ fun i => U i k) = (Uᵀ * (S * U)) k k := by
    rw [mul_apply]
    rfl
  rw [h2, hSU, ← Matrix.mul_assoc, hU, Matrix.one_mul, diagonal_apply_eq] at h1
  exact h1

/-- The product of two positive matrices has a full set of eigenvectors, and positive eigenvalues. -/
theorem product_eigen {P Q : M n} (sP : Pᵀ = P) (sQ : Qᵀ = Q) (hP : ∀ v : Fin n → ℝ, v ≠ 0 → 0 < v ⬝ᵥ (P *ᵥ v))
    (hQ : ∀ v : Fin n → ℝ, v ≠ 0 → 0 < v ⬝ᵥ (Q *ᵥ v)) :
    ∃ (l : Fin n → ℝ) (V : M n), (∀ k, 0 < l k) ∧ V.det ≠ 0 ∧ P * Q * V = V * diagonal l := by
  obtain ⟨p, U, hp, hU, hPU⟩ := symm_eigen sP hP
  have hU' : U * Uᵀ = 1 := mul_eq_one_comm.1 hU
  have dU : U.det ≠ 0 := by
    intro h0
    have := congrArg det hU
    rw [det_mul, h0, mul_zero, det_one] at this
    exact zero_ne_one this
  set C : M n := U * diagonal fun k => √(p k) with hC
  have dC : C.det ≠ 0 := by
    rw [hC, det_mul, det_diagonal]
    exact mul_ne_zero dU (Finset.prod_ne_zero_iff.2 fun k _ => (Real.sqrt_pos.2 (hp k)).ne')
  have hCC : C * Cᵀ = P := by
    have e : P = U * diagonal p * Uᵀ := by rw [← hPU, Matrix.mul_assoc, hU', Matrix.mul_one]
    rw [e, hC, transpose_mul, diagonal_transpose, Matrix.mul_assoc, ← Matrix.mul_assoc (diagonal _) (diagonal _), diagonal_mul_diagonal,
      ← Matrix.mul_assoc]
    congr 3
    funext k
    exact Real.mul_self_sqrt (hp k).le
  have sS : (Cᵀ * Q * C)ᵀ = Cᵀ * Q * C := by
    simp only [transpose_mul, transpose_transpose, sQ, Matrix.mul_assoc]
  obtain ⟨l, W, hl, hW, hSW⟩ := symm_eigen sS fun v hv => by
    have hne : C *ᵥ v ≠ 0 := fun h0 => hv (eq_zero_of_mulVec_eq_zero dC h0)
    have := hQ _ hne
    rw [← mulVec_mulVec, ← mulVec_mulVec, dotProduct_mulVec, vecMul_transpose]
    exact this
  refine ⟨l, C * W, hl, ?_, ?_⟩
  · rw [det_mul]
    refine mul_ne_zero dC fun h0 => ?_
    have := congrArg det hW
    rw [det_mul, h0, mul_zero, det_one] at this
    exact zero_ne_one this
  · calc P * Q * (C * W) = C * (Cᵀ * Q * C * W) := by rw [← hCC]; simp only [Matrix.mul_assoc]
      _ = _ := by rw [hSW, ← Matrix.mul_assoc]

theorem form_dot (w : Fin n → ℝ) (A : Fin n → Fin n → ℝ) (v : Fin n → ℝ) :
    v ⬝ᵥ ((Matrix.of fun i j => w i * A i j) *ᵥ v) = ∑ i, ∑ j, w i * A i j * (v i * v j) := by
  simp only [dotProduct, mulVec, of_apply, Finset.mul_sum]
  exact Finset.sum_congr rfl fun i _ => Finset.sum_congr rfl fun j _ => by ring

/-- There are eigenvalues and eigenvectors, and they are real. -/
theorem scalar_exists (first : Bool) {mu w : Fin n → ℝ} (hmu : ∀ j, 0 < mu j) (hw : ∀ j, 0 < w j) {om c : ℝ} {P Q : M n}
    (hP : ∀ i j, P i j = P j i) (hQ : ∀ i j, Q i j = Q j i) (hc : c < 1)
    (hs : ∀ u d, scattered (Medium.of first mu w om P Q P Q) u d ≤ c * ∑ j, w j * (u j ^ 2 + d j ^ 2)) :
    ∃ (nu : Fin n → ℝ) (V : M n), (∀ k, 0 < nu k) ∧ V.det ≠ 0 ∧
      gammaOf (txr 1 (localRT first mu w om P Q).1 (localRT first mu w om P Q).2).1
        (txr 1 (localRT first mu w om P Q).1 (localRT first mu w om P Q).2).2 * V = V * diagonal fun k => nu k ^ 2 := by
  obtain ⟨A, B, sA, sB, pA, pB, tpr, tmr⟩ := scalar_parts first hw hP hQ hc hs
  set E : M n := diagonal fun i => 1 / (mu i * w i) with hE
  set P' : M n := E * (Matrix.of fun i j => w i * A i j) * E with hP'
  set Q' : M n := Matrix.of fun i j => w i * B i j with hQ'
  have he : ∀ i, 1 / (mu i * w i) ≠ 0 := fun i => by have := hmu i; have := hw i; positivity
  obtain ⟨l, V, hl, hV, h⟩ := product_eigen (P := P') (Q := Q')
    (by
      rw [hP', transpose_mul, transpose_mul, hE, diagonal_transpose, ← Matrix.mul_assoc]
      congr 2
      ext i j
      exact (sA i j).symm)
    (by ext i j; exact (sB i j).symm)
    (fun v hv => by
      have hne : E *ᵥ v ≠ 0 := fun h0 => hv (by
        funext i
        have := congrFun h0 i
        rw [hE, mulVec_diagonal] at this
        exact (mul_eq_zero.1 this).resolve_left (he i))
      have := pA _ hne
      rw [← form_dot] at this
      rw [hP', ← mulVec_mulVec, ← mulVec_mulVec, dotProduct_mulVec]
      have e : v ᵥ* E = E *ᵥ v := by
        funext i; rw [hE, vecMul_diagonal, mulVec_diagonal, mul_comm]
      rw [e]
      exact this)
    (fun v hv => by
      rw [hQ', form_dot]; exact pB v hv)
  refine ⟨fun k => √(l k), V, fun k => Real.sqrt_pos.2 (hl k), hV, ?_⟩
  have e : gammaOf (txr 1 (localRT first mu w om P Q).1 (localRT first mu w om P Q).2).1
      (txr 1 (localRT first mu w om P Q).1 (localRT first mu w om P Q).2).2 = P' * Q' := by
    ext i j
    simp only [gammaOf, mul_apply, tpr, tmr]
    refine Finset.sum_congr rfl fun k _ => ?_
    have h1 := (hmu i).ne'
    have h2 := (hmu k).ne'
    have h3 := (hw i).ne'
    have h4 := (hw k).ne'
    have : P' i k = 1 / (mu i * w i) * (w i * A i k) * (1 / (mu k * w k)) := by
      rw [hP', hE, mul_diagonal, diagonal_mul]; rfl
    rw [this]
    change _ = _ * (w k * B k j)
    field_simp
  rw [e, h]
  congr 2
  funext k
  exact (Real.sq_sqrt (hl k).le).symm

/-- The matrix of the thermal solution is not singular. -/
theorem scalar_heat (first : Bool) {mu w : Fin n → ℝ} (hmu : ∀ j, 0 < mu j) (hw : ∀ j, 0 < w j) {om c : ℝ} {P Q : M n} (hc : c < 1)
    (hs : ∀ u d, scattered (Medium.of first mu w om P Q P Q) u d ≤ c * ∑ j, w j * (u j ^ 2 + d j ^ 2)) :
    (heatMat mu (localRT first mu w om P Q).1 (localRT first mu w om P Q).2 (localRT first mu w om P Q).1
      (localRT first mu w om P Q).2).det ≠ 0 := by
  intro h
  obtain ⟨v, hv, e⟩ := Matrix.exists_mulVec_eq_zero_iff.2 h
  set u : Fin n → ℝ := fun i => v (.inl i) with hu
  set d : Fin n → ℝ := fun i => v (.inr i) with hd
  set q : ℝ := (1 + if first then 1 else 0) / 4 * om with hq
  have hk : (Medium.of first mu w om P Q P Q).k = q := by
    have hp := Real.pi_ne_zero
    unfold Medium.of
    simp only [hq]
    cases first <;> simp <;> field_simp <;> norm_num
  have t : ∀ (x : Fin n → ℝ) i, ∑ j, (localRT first mu w om P Q).2 i j * mu i * x j = q * ∑ j, w j * (P i j * x j) - x i := by
    intro x i
    have : ∀ j, (localRT first mu w om P Q).2 i j * mu i * x j = q * (w j * (P i j * x j)) - (if i = j then x j else 0) := by
      intro j
      change (1 * (1 + if first then 1 else 0) / 4 * om * (1 / mu i * P i j * w j) - (diagonal fun i => 1 / mu i) i j) * mu i * x j = _
      have := (hmu i).ne'
      by_cases hij : i = j
      · subst hij
        rw [diagonal_apply_eq, if_pos rfl, hq]; field_simp
      · rw [diagonal_apply_ne _ hij, if_neg hij, hq]; field_simp; ring
    simp only [this, Finset.sum_sub_distrib, ← Finset.mul_sum, Finset.sum_ite_eq, Finset.mem_univ, if_true]
  have r : ∀ (x : Fin n → ℝ) i, ∑ j, (localRT first mu w om P Q).1 i j * mu i * x j = -(q * ∑ j, w j * (Q i j * x j)) := by
    intro x i
    rw [Finset.mul_sum, ← Finset.sum_neg_distrib]
    refine Finset.sum_congr rfl fun j _ => ?_
    change (-1 * (1 + if first then 1 else 0) / 4 * om * (1 / mu i * Q i j * w j)) * mu i * x j = _
    have := (hmu i).ne'
    rw [hq]; field_simp
  have e1 : ∀ i, u i = q * ∑ j, w j * (P i j * u j + Q i j * d j) := by
    intro i
    have h1 := congrFun e (.inl i)
    rw [mulVec, dotProduct, Fintype.sum_sum_type] at h1
    change (∑ j, -(localRT first mu w om P Q).2 i j * mu i * u j) + (∑ j, (localRT first mu w om P Q).1 i j * mu i * d j) = 0 at h1
    have h2 : ∑ j, -(localRT first mu w om P Q).2 i j * mu i * u j = -(q * ∑ j, w j * (P i j * u j) - u i) := by
      rw [← t, ← Finset.sum_neg_distrib]; exact Finset.sum_congr rfl fun j _ => by ring
    rw [h2, r] at h1
    simp only [mul_add, Finset.sum_add_distrib]
    linarith
  have e2 : ∀ i, d i = q * ∑ j, w j * (Q i j * u j + P i j * d j) := by
    intro i
    have h1 := congrFun e (.inr i)
    rw [mulVec, dotProduct, Fintype.sum_sum_type] at h1
    change (∑ j, -(localRT first mu w om P Q).1 i j * -mu i * u j) + (∑ j, (localRT first mu w om P Q).2 i j * -mu i * d j) = 0 at h1
    have h2 : ∑ j, -(localRT first mu w om P Q).1 i j * -mu i * u j = -(q * ∑ j, w j * (Q i j * u j)) := by
      rw [← r]; exact Finset.sum_congr rfl fun j _ => by ring
    have h3 : ∑ j, (localRT first mu w om P Q).2 i j * -mu i * d j = -(q * ∑ j, w j * (P i j * d j) - d i) := by
      rw [← t, ← Finset.sum_neg_distrib]; exact Finset.sum_congr rfl fun j _ => by ring
    rw [h2, h3] at h1
    simp only [mul_add, Finset.sum_add_distrib]
    linarith
  have h1 := hs u d
  have h2 : scattered (Medium.of first mu w om P Q P Q) u d = ∑ j, w j * (u j ^ 2 + d j ^ 2) := by
    unfold scattered
    refine Finset.sum_congr rfl fun j _ => ?_
    have i1 : (Medium.of first mu w om P Q P Q).intoUp u d j = u j := by
      unfold Medium.intoUp; rw [hk]; exact (e1 j).symm
    have i2 : (Medium.of first mu w om P Q P Q).intoDn u d j = d j := by
      unfold Medium.intoDn; rw [hk]; exact (e2 j).symm
    rw [i1, i2]
    change w j * _ = _
    ring
  rw [h2] at h1
  have h3 : 0 < ∑ j, w j * (u j ^ 2 + d j ^ 2) := by
    obtain ⟨k, hk⟩ : ∃ k, v k ≠ 0 := by
      by_contra hh
      push Not at hh
      exact hv (funext hh)
    cases k with
    | inl k =>
      have hk' : u k ≠ 0 := hk
      exact Finset.sum_pos' (fun i _ => mul_nonneg (hw i).le (by positivity)) ⟨k, Finset.mem_univ k, mul_pos (hw k) (by positivity)⟩
    | inr k =>
      have hk' : d k ≠ 0 := hk
      exact Finset.sum_pos' (fun i _ => mul_nonneg (hw i).le (by positivity)) ⟨k, Finset.mem_univ k, mul_pos (hw k) (by positivity)⟩
  nlinarith

end Xrtm.Phase
