import Verif.Proof.PhaseVecAdd
import Mathlib.Topology.Algebra.Polynomial

/-!
# The Fourier terms add up to the phase function of the angle
-/

namespace Xrtm.PhaseVec
open Loops Legendre Legendre.Spec Spec Polynomial

theorem deg_first (ns : ℕ) (hns : Some4 ns) (m : ℕ) (x y : ℝ) (gc : ℕ → ℕ → ℝ) (s i : ℕ) :
    deg ns gc (rowOf ns m x s) (rowOf ns m y 0) i =
      (ent (ns2 ns) m i x s 0 * gc 0 i +
        (if 2 ≤ ns then ent (ns2 ns) m i x s 1 * -gc 4 i else 0)) * (√(1 - y ^ 2) ^ m * T m i y) := by
  unfold deg rowOf
  rcases hns with rfl | rfl | rfl | rfl <;>
    simp [ns2, Finset.sum_range_succ, gcToB, ent, add_mul]

theorem sum_shift (m n : ℕ) (g : ℕ → ℝ) (h : ∀ l, l < m → g l = 0) :
    ∑ d ∈ Finset.range (n - m), g (m + d) = ∑ l ∈ Finset.range n, g l := by
  by_cases hn : n ≤ m
  · rw [show n - m = 0 by omega, Finset.range_zero, Finset.sum_empty]
    exact (Finset.sum_eq_zero fun l hl => h l (by have := Finset.mem_range.1 hl; omega)).symm
  · rw [← Finset.sum_Ico_eq_sum_range, ← Finset.sum_range_add_sum_Ico g (by omega : m ≤ n),
      Finset.sum_eq_zero fun l hl => h l (Finset.mem_range.1 hl), zero_add]

theorem Z_first (m n ns : ℕ) (hns : Some4 ns) (x y : ℝ) (gc : ℕ → ℕ → ℝ) (s : ℕ) :
    Z m n ns x y gc s 0 = ∑ l ∈ Finset.range n, (ent (ns2 ns) m l x s 0 * gc 0 l +
        (if 2 ≤ ns then ent (ns2 ns) m l x s 1 * -gc 4 l else 0)) * W l y (√(1 - y ^ 2)) m := by
  unfold Z
  rw [← sum_shift m n]
  · refine Finset.sum_congr rfl fun d _ => ?_
    rw [deg_first ns hns]
    unfold W; ring
  · intro l hl
    unfold W
    rw [T_zero m l hl]; ring

/-- The Fourier sum of one column. -/
noncomputable def fsum (M n ns : ℕ) (x y φ : ℝ) (gc : ℕ → ℕ → ℝ) (s : ℕ) : ℝ :=
  ∑ m ∈ Finset.range M, wave m s φ * Z m n ns x y gc s 0

theorem fsum_swap (M n ns : ℕ) (hns : Some4 ns) (x y φ : ℝ) (gc : ℕ → ℕ → ℝ) (s : ℕ) :
    fsum M n ns x y φ gc s = ∑ l ∈ Finset.range n, ∑ m ∈ Finset.range M, wave m s φ *
      ((ent (ns2 ns) m l x s 0 * gc 0 l +
        (if 2 ≤ ns then ent (ns2 ns) m l x s 1 * -gc 4 l else 0)) * W l y (√(1 - y ^ 2)) m) := by
  unfold fsum
  rw [Finset.sum_comm]
  refine Finset.sum_congr rfl fun m _ => ?_
  rw [Z_first m n ns hns, Finset.mul_sum]

section
variable (M n ns : ℕ) (hns : Some4 ns) (hM : n ≤ M) (θ y φ : ℝ) (h0 : 0 < Real.sin θ)
  (hy : y ^ 2 ≤ 1) (gc : ℕ → ℕ → ℝ)
include hns hM h0 hy

theorem fsum_I : fsum M n ns (Real.cos θ) y φ gc 0 =
    ∑ l ∈ Finset.range n, gc 0 l * T 0 l (cc y (√(1 - y ^ 2)) θ φ) := by
  rw [fsum_swap M n ns hns]
  refine Finset.sum_congr rfl fun l hl => ?_
  have hl := Finset.mem_range.1 hl
  rw [← add0 l M (by omega) y (√(1 - y ^ 2)) (Real.sq_sqrt (by linarith)) θ φ, Finset.mul_sum]
  refine Finset.sum_congr rfl fun m _ => ?_
  have e1 : ent (ns2 ns) m l (Real.cos θ) 0 0 = pat m l θ := by
    have := few_ns2 ns hns
    rw [ent_kernel (ns2 ns) m l θ h0 0 0 (few_pos this.1) (few_pos this.1) this.1]; rfl
  have e2 : ent (ns2 ns) m l (Real.cos θ) 0 1 = 0 := rfl
  have e3 : wave m 0 φ = Real.cos (m * φ) := by simp [wave]
  rw [e1, e2, e3]
  simp
  ring

theorem fsum_Q (h2 : 2 ≤ ns) : fsum M n ns (Real.cos θ) y φ gc 1 =
    ∑ l ∈ Finset.range n, if l < 2 then 0 else -gc 4 l * (norm2 l * (T 2 l (cc y (√(1 - y ^ 2)) θ φ) *
      (ct y (√(1 - y ^ 2)) θ φ ^ 2 - (√(1 - y ^ 2) * Real.sin φ) ^ 2))) := by
  rw [fsum_swap M n ns hns]
  refine Finset.sum_congr rfl fun l hl => ?_
  have hl := Finset.mem_range.1 hl
  have hf := few_ns2 ns hns
  have e0 : ∀ m, ent (ns2 ns) m l (Real.cos θ) 1 0 = 0 := fun _ => rfl
  have e1 : ∀ m, ent (ns2 ns) m l (Real.cos θ) 1 1 = if l < 2 then 0 else along m l θ := by
    intro m
    rw [ent_kernel (ns2 ns) m l θ h0 1 1 (by omega) (by omega) hf.1]; rfl
  have e3 : ∀ m, wave m 1 φ = Real.cos (m * φ) := by intro m; simp [wave]
  simp only [e0, e1, e3, if_pos h2]
  by_cases hl2 : l < 2
  · simp [hl2]
  · simp only [hl2, if_false]
    rw [← addQ l M (by omega) y (√(1 - y ^ 2)) (Real.sq_sqrt (by linarith)) θ φ h0.ne', Finset.mul_sum]
    refine Finset.sum_congr rfl fun m _ => ?_
    ring

theorem fsum_U (h2 : 3 ≤ ns) : fsum M n ns (Real.cos θ) y φ gc 2 =
    ∑ l ∈ Finset.range n, if l < 2 then 0 else -gc 4 l * (norm2 l * (-2 * T 2 l (cc y (√(1 - y ^ 2)) θ φ) *
      ct y (√(1 - y ^ 2)) θ φ * (√(1 - y ^ 2) * Real.sin φ))) := by
  rw [fsum_swap M n ns hns]
  refine Finset.sum_congr rfl fun l hl => ?_
  have hl := Finset.mem_range.1 hl
  have hf := few_ns2 ns hns
  have e0 : ∀ m, ent (ns2 ns) m l (Real.cos θ) 2 0 = 0 := fun _ => rfl
  have e1 : ∀ m, ent (ns2 ns) m l (Real.cos θ) 2 1 = if l < 2 then 0 else across m l θ := by
    intro m
    rw [ent_kernel (ns2 ns) m l θ h0 2 1 (by omega) (by omega) hf.1]; rfl
  have e3 : ∀ m, wave m 2 φ = Real.sin (m * φ) := by intro m; simp [wave]
  simp only [e0, e1, e3, if_pos (by omega : 2 ≤ ns)]
  by_cases hl2 : l < 2
  · simp [hl2]
  · simp only [hl2, if_false]
    rw [← addU l M (by omega) y (√(1 - y ^ 2)) (Real.sq_sqrt (by linarith)) θ φ h0.ne', Finset.mul_sum]
    refine Finset.sum_congr rfl fun m _ => ?_
    ring

end

theorem fsum_V (M n ns : ℕ) (hns : Some4 ns) (x y φ : ℝ) (gc : ℕ → ℕ → ℝ) :
    fsum M n ns x y φ gc 3 = 0 := by
  rw [fsum_swap M n ns hns]
  refine Finset.sum_eq_zero fun l _ => Finset.sum_eq_zero fun m _ => ?_
  have e0 : ent (ns2 ns) m l x 3 0 = 0 := rfl
  have e1 : ent (ns2 ns) m l x 3 1 = 0 := rfl
  rw [e0, e1]; simp

/-! ## The poles -/

theorem T_cont (m l : ℕ) : Continuous (T m l) := (derivative^[m] (legendre l)).continuous

theorem Rt_cont (m l : ℕ) : Continuous fun x : ℝ => Rt m l x := by
  match m with
  | 0 =>
    simp only [Rt]
    have a := T_cont 0 l
    have b := T_cont 1 l
    generalize T 0 l = f at *
    generalize T 1 l = g at *
    fun_prop
  | 1 =>
    simp only [Rt]
    have a := T_cont 1 l
    have b := T_cont 2 l
    generalize T 1 l = f at *
    generalize T 2 l = g at *
    fun_prop
  | m + 2 =>
    simp only [Rt]
    have a := T_cont (m + 2) l
    have b := T_cont (m + 3) l
    generalize T (m + 2) l = f at *
    generalize T (m + 3) l = g at *
    fun_prop

theorem Tt_cont (m l : ℕ) : Continuous fun x : ℝ => Tt m l x := by
  match m with
  | 0 => simp only [Tt]; exact continuous_const
  | 1 =>
    simp only [Tt]
    have b := T_cont 2 l
    generalize T 2 l = g at *
    fun_prop
  | m + 2 =>
    simp only [Tt]
    have a := T_cont (m + 2) l
    have b := T_cont (m + 3) l
    generalize T (m + 2) l = f at *
    generalize T (m + 3) l = g at *
    fun_prop

theorem ent_cont (ns m l r c : ℕ) : Continuous fun x => ent ns m l x r c := by
  have h1 : Continuous fun x : ℝ => √(1 - x ^ 2) ^ m * T m l x := by
    have := T_cont m l
    generalize T m l = f at *
    fun_prop
  have g : ∀ (P : Prop) [Decidable P] (f : ℝ → ℝ), Continuous f →
      Continuous fun x => if P then f x else 0 := by
    intro P _ f hf
    by_cases h : P
    · simpa only [h, if_true] using hf
    · simpa only [h, if_false] using continuous_const
  have k2 : Continuous fun x : ℝ => norm2 l * Rt m l x := (Rt_cont m l).const_mul _
  have k3 : Continuous fun x : ℝ => norm2 l * Tt m l x := (Tt_cont m l).const_mul _
  unfold ent
  split
  · exact h1
  · exact g _ _ k2
  · exact g _ _ k3
  · exact g _ _ k3
  · exact g _ _ k2
  · exact g _ _ h1
  · exact continuous_const

theorem fsum_cont (M n ns : ℕ) (hns : Some4 ns) (y φ : ℝ) (gc : ℕ → ℕ → ℝ) (s : ℕ) :
    Continuous fun θ => fsum M n ns (Real.cos θ) y φ gc s := by
  have e : (fun θ => fsum M n ns (Real.cos θ) y φ gc s) = fun θ =>
      ∑ l ∈ Finset.range n, ∑ m ∈ Finset.range M, wave m s φ *
      ((ent (ns2 ns) m l (Real.cos θ) s 0 * gc 0 l +
        (if 2 ≤ ns then ent (ns2 ns) m l (Real.cos θ) s 1 * -gc 4 l else 0)) *
          W l y (√(1 - y ^ 2)) m) := funext fun θ => fsum_swap M n ns hns (Real.cos θ) y φ gc s
  rw [e]
  refine continuous_finset_sum _ fun l _ => continuous_finset_sum _ fun m _ => ?_
  have a : Continuous fun θ => ent (ns2 ns) m l (Real.cos θ) s 0 :=
    (ent_cont (ns2 ns) m l s 0).comp Real.continuous_cos
  have b : Continuous fun θ => ent (ns2 ns) m l (Real.cos θ) s 1 :=
    (ent_cont (ns2 ns) m l s 1).comp Real.continuous_cos
  by_cases h : 2 ≤ ns
  · simp only [h, if_true]; fun_prop
  · simp only [h, if_false]; fun_prop

theorem to_ends {f g : ℝ → ℝ} (hf : Continuous f) (hg : Continuous g)
    (h : ∀ θ, 0 < Real.sin θ → f θ = g θ) (θ : ℝ) (h0 : 0 ≤ θ) (h1 : θ ≤ Real.pi) : f θ = g θ := by
  have e : Set.EqOn f g (Set.Ioo 0 Real.pi) := fun t ht => h t (Real.sin_pos_of_mem_Ioo ht)
  have := e.closure hf hg
  rw [closure_Ioo Real.pi_pos.ne] at this
  exact this ⟨h0, h1⟩

section
variable (M n ns : ℕ) (hns : Some4 ns) (hM : n ≤ M) (θ y φ : ℝ) (h0 : 0 ≤ θ) (h1 : θ ≤ Real.pi)
  (hy : y ^ 2 ≤ 1) (gc : ℕ → ℕ → ℝ)
include hns hM h0 h1 hy

theorem cfsum_I : fsum M n ns (Real.cos θ) y φ gc 0 =
    ∑ l ∈ Finset.range n, gc 0 l * T 0 l (cc y (√(1 - y ^ 2)) θ φ) := by
  refine to_ends (fsum_cont M n ns hns y φ gc 0) ?_
    (fun θ h => fsum_I M n ns hns hM θ y φ h hy gc) θ h0 h1
  refine continuous_finset_sum _ fun l _ => ?_
  have := T_cont 0 l
  unfold cc
  fun_prop

theorem cfsum_Q (h2 : 2 ≤ ns) : fsum M n ns (Real.cos θ) y φ gc 1 =
    ∑ l ∈ Finset.range n, if l < 2 then 0 else -gc 4 l * (norm2 l * (T 2 l (cc y (√(1 - y ^ 2)) θ φ) *
      (ct y (√(1 - y ^ 2)) θ φ ^ 2 - (√(1 - y ^ 2) * Real.sin φ) ^ 2))) := by
  refine to_ends (fsum_cont M n ns hns y φ gc 1) ?_
    (fun θ h => fsum_Q M n ns hns hM θ y φ h hy gc h2) θ h0 h1
  refine continuous_finset_sum _ fun l _ => ?_
  have := T_cont 2 l
  unfold cc ct
  split <;> fun_prop

theorem cfsum_U (h2 : 3 ≤ ns) : fsum M n ns (Real.cos θ) y φ gc 2 =
    ∑ l ∈ Finset.range n, if l < 2 then 0 else -gc 4 l * (norm2 l * (-2 * T 2 l (cc y (√(1 - y ^ 2)) θ φ) *
      ct y (√(1 - y ^ 2)) θ φ * (√(1 - y ^ 2) * Real.sin φ))) := by
  refine to_ends (fsum_cont M n ns hns y φ gc 2) ?_
    (fun θ h => fsum_U M n ns hns hM θ y φ h hy gc h2) θ h0 h1
  refine continuous_finset_sum _ fun l _ => ?_
  have := T_cont 2 l
  unfold cc ct
  split <;> fun_prop

end

/-! ## The rotated vector -/

theorem scatVec_I (n ns : ℕ) (c : ℝ) (p : (ℕ → ℝ) × (ℕ → ℝ)) (gc : ℕ → ℕ → ℝ) :
    scatVec n ns (prt n c p) gc 0 = ∑ l ∈ Finset.range n, gc 0 l * T 0 l c := by
  unfold scatVec
  rw [if_pos rfl]
  have key := forN_ind_lt n (fun t F => F = ∑ l ∈ Finset.range t, gc 0 l * T 0 l c)
    (fun i F => F + gc 0 i * (prt n c p).1 i) 0 (by simp) ?_
  · exact key
  · rintro i F hi rfl
    rw [Finset.sum_range_succ, (prt_eq n c p i hi).1]; rfl

theorem scatVec_Q (n ns : ℕ) (h2 : 2 ≤ ns) (c : ℝ) (p : (ℕ → ℝ) × (ℕ → ℝ)) (gc : ℕ → ℕ → ℝ) :
    scatVec n ns (prt n c p) gc 1 = ∑ l ∈ Finset.range n, gc 4 l * lin l c := by
  unfold scatVec
  rw [if_neg (by omega), if_pos ⟨rfl, by omega⟩]
  rw [← sum_shift 2 n]
  · have key := forN_ind_lt (n - 2) (fun t F => F = ∑ d ∈ Finset.range t, gc 4 (2 + d) * lin (2 + d) c)
      (fun t F => F + gc 4 (2 + t) * (prt n c p).2 (2 + t)) 0 (by simp) ?_
    · exact key
    · rintro i F hi rfl
      rw [Finset.sum_range_succ, (prt_eq n c p (2 + i) (by omega)).2]
  · intro l hl
    unfold lin
    rw [if_pos hl, mul_zero]

section
variable (z mu0 φ : ℝ) (hz : z ^ 2 ≤ 1) (hm : mu0 ^ 2 ≤ 1)

/-- The angle of the direction light is scattered into, with the sense of the
matrices. -/
noncomputable def ang (z : ℝ) : ℝ := Real.arccos (-z)

include hz
theorem cos_ang : Real.cos (ang z) = -z := by
  unfold ang
  rw [Real.cos_arccos] <;> nlinarith

theorem sin_ang : Real.sin (ang z) = √(1 - z ^ 2) := by
  unfold ang
  rw [Real.sin_arccos, neg_sq]

theorem cc_ang : cc (-mu0) (√(1 - mu0 ^ 2)) (ang z) φ = scatAngle mu0 z φ := by
  unfold cc scatAngle
  rw [cos_ang z hz, sin_ang z hz, sq, sq]; ring

include hm
omit hz in
theorem rot_pole (hz1 : z ^ 2 = 1) :
    (1 - scatAngle mu0 z φ ^ 2) *
      (2 * (cosSig mu0 z (scatAngle mu0 z φ) φ * cosSig mu0 z (scatAngle mu0 z φ) φ) - 1) =
      ct (-mu0) (√(1 - mu0 ^ 2)) (ang z) φ ^ 2 - (√(1 - mu0 ^ 2) * Real.sin φ) ^ 2 ∧
    (1 - scatAngle mu0 z φ ^ 2) *
      (if 1 - cosSig mu0 z (scatAngle mu0 z φ) φ * cosSig mu0 z (scatAngle mu0 z φ) φ < 0 then 0 else
        2 * √(1 - cosSig mu0 z (scatAngle mu0 z φ) φ * cosSig mu0 z (scatAngle mu0 z φ) φ) *
          cosSig mu0 z (scatAngle mu0 z φ) φ) =
      (if z = 1 then -1 else 1) *
        (2 * ct (-mu0) (√(1 - mu0 ^ 2)) (ang z) φ * |√(1 - mu0 ^ 2) * Real.sin φ|) := by
  have hzz : 1 - z * z = 0 := by rw [← sq, hz1]; ring
  have hsa : scatAngle mu0 z φ = z * mu0 := by
    unfold scatAngle
    rw [hzz, Real.sqrt_zero]; ring
  have hct : ct (-mu0) (√(1 - mu0 ^ 2)) (ang z) φ = -z * (√(1 - mu0 ^ 2) * Real.cos φ) := by
    unfold ct
    rw [cos_ang z hz1.le, sin_ang z hz1.le, hz1]
    simp
    ring
  have hMU : 1 - (z * mu0) ^ 2 = 1 - mu0 ^ 2 := by rw [mul_pow, hz1]; ring
  have hMU' : 1 - z * mu0 * (z * mu0) = 1 - mu0 ^ 2 := by rw [← hMU]; ring
  have hq2 : √(1 - mu0 ^ 2) ^ 2 = 1 - mu0 ^ 2 := Real.sq_sqrt (by linarith)
  have hq0 : 0 ≤ √(1 - mu0 ^ 2) := Real.sqrt_nonneg _
  rw [hsa, hct, hMU]
  by_cases h : √(1 - mu0 ^ 2) = 0
  · rw [← hq2, h]; simp
  · have hv : cosSig mu0 z (z * mu0) φ = Real.cos φ := by
      unfold cosSig
      rw [hMU', if_neg h, hzz, Real.sqrt_zero, if_pos rfl]
    rw [hv]
    generalize √(1 - mu0 ^ 2) = q at *
    rw [← hq2]
    have hsc := Real.sin_sq_add_cos_sq φ
    have h1 : 1 - Real.cos φ * Real.cos φ = |Real.sin φ| ^ 2 := by rw [sq_abs]; linarith
    constructor
    · linear_combination (-(q ^ 2 * Real.cos φ ^ 2)) * hz1 + q ^ 2 * hsc
    · rw [h1, if_neg (not_lt.2 (by positivity)), Real.sqrt_sq (abs_nonneg _), abs_mul,
        abs_of_nonneg hq0]
      have : z = 1 ∨ z = -1 := by
        have e : (z - 1) * (z + 1) = 0 := by linarith
        rcases mul_eq_zero.1 e with h | h
        · exact Or.inl (by linarith)
        · exact Or.inr (by linarith)
      rcases this with rfl | rfl
      · rw [if_pos rfl]; ring
      · rw [if_neg (by norm_num)]; ring

/-- What the rotation makes of the angle. -/
theorem rot_values :
    let c := cosSig mu0 z (scatAngle mu0 z φ) φ
    let a := ct (-mu0) (√(1 - mu0 ^ 2)) (ang z) φ
    let b := √(1 - mu0 ^ 2) * Real.sin φ
    (1 - scatAngle mu0 z φ ^ 2) * (2 * (c * c) - 1) = a ^ 2 - b ^ 2 ∧
    (1 - scatAngle mu0 z φ ^ 2) * (if 1 - c * c < 0 then 0 else 2 * √(1 - c * c) * c) =
      (if z = 1 then -1 else 1) * (2 * a * |b|) := by
  dsimp only
  have hc := cc_ang z mu0 φ hz
  have ht : √(1 - mu0 ^ 2) ^ 2 = 1 - (-mu0) ^ 2 := by rw [neg_sq]; exact Real.sq_sqrt (by linarith)
  have hsq := cc_sq (-mu0) (√(1 - mu0 ^ 2)) (ang z) φ ht
  have hnum : mu0 - z * scatAngle mu0 z φ =
      √(1 - z ^ 2) * ct (-mu0) (√(1 - mu0 ^ 2)) (ang z) φ := by
    rw [← hc]
    unfold cc ct
    rw [cos_ang z hz, sin_ang z hz]
    have := Real.sq_sqrt (by linarith : 0 ≤ 1 - z ^ 2)
    linear_combination (-mu0) * this
  rw [hc] at hsq
  by_cases hz1 : z ^ 2 = 1
  · exact rot_pole z mu0 φ hm hz1
  have hs : 0 < √(1 - z ^ 2) := Real.sqrt_pos.2 (by
    have := lt_of_le_of_ne hz hz1; linarith)
  have hz1' : z ≠ 1 := by rintro rfl; exact hz1 (by norm_num)
  rw [if_neg hz1', one_mul]
  generalize ct (-mu0) (√(1 - mu0 ^ 2)) (ang z) φ = a at *
  generalize √(1 - mu0 ^ 2) * Real.sin φ = b at *
  generalize scatAngle mu0 z φ = c at *
  have hsz : √(1 - z * z) = √(1 - z ^ 2) := by rw [sq]
  have hsc : √(1 - c * c) = √(1 - c ^ 2) := by rw [sq]
  by_cases h : √(1 - c ^ 2) = 0
  · have h1 : 1 - c ^ 2 = 0 := by
      have := (Real.sqrt_eq_zero' ).1 h
      nlinarith [sq_nonneg a, sq_nonneg b]
    have ha : a = 0 := by nlinarith [sq_nonneg a, sq_nonneg b]
    have hb : b = 0 := by nlinarith [sq_nonneg a, sq_nonneg b]
    rw [h1, ha, hb]
    simp
  · have hq : 0 < √(1 - c ^ 2) := lt_of_le_of_ne (Real.sqrt_nonneg _) (Ne.symm h)
    have hq2 : √(1 - c ^ 2) ^ 2 = 1 - c ^ 2 := Real.sq_sqrt (Real.sqrt_pos.1 hq).le
    have hv : cosSig mu0 z c φ = a / √(1 - c ^ 2) := by
      unfold cosSig
      rw [hsc, if_neg h, hsz, if_neg hs.ne', hnum]
      field_simp
    rw [hv]
    have hcc : a / √(1 - c ^ 2) * (a / √(1 - c ^ 2)) = a ^ 2 / (1 - c ^ 2) := by
      rw [div_mul_div_comm, ← sq, ← sq, hq2]
    have hp : 0 < 1 - c ^ 2 := Real.sqrt_pos.1 hq
    have h1c : 1 - a ^ 2 / (1 - c ^ 2) = (|b| / √(1 - c ^ 2)) ^ 2 := by
      rw [div_pow, hq2, sq_abs]
      field_simp
      linarith
    constructor
    · rw [hcc]
      field_simp
      linarith
    · rw [hcc, h1c, if_neg (not_lt.2 (by positivity)), Real.sqrt_sq (by positivity)]
      nth_rewrite 1 [← hq2]
      field_simp

end

theorem fullVec_eq (n ns : ℕ) (z mu0 φ : ℝ) (hz : z ^ 2 ≤ 1) (hm : mu0 ^ 2 ≤ 1)
    (gc : ℕ → ℕ → ℝ) (p : (ℕ → ℝ) × (ℕ → ℝ)) :
    fullVec n ns z mu0 φ gc p 0 = ∑ l ∈ Finset.range n, gc 0 l * T 0 l (scatAngle mu0 z φ) ∧
    (2 ≤ ns → fullVec n ns z mu0 φ gc p 1 = ∑ l ∈ Finset.range n, if l < 2 then 0 else
      -gc 4 l * (norm2 l * (T 2 l (scatAngle mu0 z φ) *
      (ct (-mu0) (√(1 - mu0 ^ 2)) (ang z) φ ^ 2 - (√(1 - mu0 ^ 2) * Real.sin φ) ^ 2)))) ∧
    (2 ≤ ns → fullVec n ns z mu0 φ gc p 2 = ∑ l ∈ Finset.range n, if l < 2 then 0 else
      -gc 4 l * (norm2 l * (-2 * T 2 l (scatAngle mu0 z φ) *
      ct (-mu0) (√(1 - mu0 ^ 2)) (ang z) φ * ((if z = 1 then -1 else 1) *
        |√(1 - mu0 ^ 2) * Real.sin φ|)))) := by
  obtain ⟨r1, r2⟩ := rot_values z mu0 φ hz hm
  unfold fullVec
  dsimp only
  refine ⟨?_, fun h2 => ?_, fun h2 => ?_⟩
  · unfold rotate
    rw [if_pos rfl, scatVec_I]
  · unfold rotate
    rw [if_neg (by omega)]
    dsimp only
    rw [if_pos rfl, scatVec_Q n ns h2, Finset.sum_mul]
    refine Finset.sum_congr rfl fun l _ => ?_
    unfold lin
    by_cases hl : l < 2
    · simp [hl]
    · simp only [hl, if_false]
      rw [← r1]
      have e : scatQ l (scatAngle mu0 z φ) =
        -(norm2 l * ((1 - scatAngle mu0 z φ ^ 2) * T 2 l (scatAngle mu0 z φ))) := rfl
      rw [e]; ring
  · unfold rotate
    rw [if_neg (by omega)]
    dsimp only
    rw [if_neg (by omega), if_pos rfl, scatVec_Q n ns h2, ← Finset.sum_neg_distrib, Finset.sum_mul]
    refine Finset.sum_congr rfl fun l _ => ?_
    unfold lin
    by_cases hl : l < 2
    · simp [hl]
    · simp only [hl, if_false]
      have e : scatQ l (scatAngle mu0 z φ) =
        -(norm2 l * ((1 - scatAngle mu0 z φ ^ 2) * T 2 l (scatAngle mu0 z φ))) := rfl
      rw [e]
      linear_combination (gc 4 l * norm2 l * T 2 l (scatAngle mu0 z φ)) * r2

/-- The sign of the half of the circle. -/
noncomputable def half (s : ℕ) (z φ : ℝ) : ℝ :=
  if s = 2 then (if Real.sin φ < 0 then -1 else 1) * (if z = 1 then -1 else 1) else 1

theorem fsum_full (M n ns : ℕ) (hns : Some4 ns) (hM : n ≤ M) (z mu0 φ : ℝ) (hz : z ^ 2 ≤ 1)
    (hm : mu0 ^ 2 ≤ 1) (gc : ℕ → ℕ → ℝ) (p : (ℕ → ℝ) × (ℕ → ℝ)) (s : ℕ) (hs : s < ns) :
    fsum M n ns (-z) (-mu0) φ gc s = half s z φ * fullVec n ns z mu0 φ gc p s := by
  have h0 : 0 ≤ ang z := Real.arccos_nonneg _
  have h1 : ang z ≤ Real.pi := Real.arccos_le_pi _
  have hy : (-mu0) ^ 2 ≤ 1 := by rw [neg_sq]; exact hm
  have hn : √(1 - (-mu0) ^ 2) = √(1 - mu0 ^ 2) := by rw [neg_sq]
  obtain ⟨f0, f1, f2⟩ := fullVec_eq n ns z mu0 φ hz hm gc p
  have hcc := cc_ang z mu0 φ hz
  have h4 : ns ≤ 4 := by rcases hns with h | h | h | h <;> omega
  have : s = 0 ∨ s = 1 ∨ s = 2 ∨ s = 3 := by omega
  rcases this with rfl | rfl | rfl | rfl
  · rw [← cos_ang z hz, cfsum_I M n ns hns hM (ang z) (-mu0) φ h0 h1 hy, f0, hn, hcc]
    simp [half]
  · rw [← cos_ang z hz, cfsum_Q M n ns hns hM (ang z) (-mu0) φ h0 h1 hy gc (by omega), f1 (by omega), hn, hcc]
    simp [half]
  · rw [← cos_ang z hz, cfsum_U M n ns hns hM (ang z) (-mu0) φ h0 h1 hy gc (by omega), f2 (by omega), hn, hcc,
      Finset.mul_sum]
    refine Finset.sum_congr rfl fun l _ => ?_
    by_cases hl : l < 2
    · simp [hl]
    · simp only [hl, if_false]
      rw [abs_mul, abs_of_nonneg (Real.sqrt_nonneg _)]
      unfold half
      rw [if_pos rfl]
      by_cases hsn : Real.sin φ < 0
      · rw [if_pos hsn, abs_of_neg hsn]; split <;> ring
      · rw [if_neg hsn, abs_of_nonneg (not_lt.1 hsn)]; split <;> ring
  · rw [fsum_V M n ns hns]
    simp [fullVec, rotate]

end Xrtm.PhaseVec
