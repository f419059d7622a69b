import Verif.Proof.PhaseVecFull
import Verif.Props.Legendre
import Verif.Spec.Transfer

/-!
# C54: the phase matrices with polarisation
-/

namespace Xrtm.PhaseVec
open Loops Legendre Legendre.Spec Spec Polynomial Transfer

/-- `basic_matrix` writes, whatever the array held, the Legendre functions for
intensity and circular polarisation and their second derivatives on the sphere
for linear polarisation. -/
theorem C54_basis (m n ns : Nat) (hns : ns = 1 ∨ ns = 3 ∨ ns = 4) (θ : ℝ) (h0 : 0 < θ) (h1 : θ < Real.pi)
    (A : Tab) (l r c : Nat) (hm : m ≤ l) (hl : l < n) (hr : r < ns) (hc : c < ns) :
    basic m n ns (Real.cos θ) A l r c = kernel m l θ r c := by
  rw [basic_eq m n ns hns _ (Real.cos_sq_le_one θ) A l r c hm hl hr hc]
  exact ent_kernel ns m l θ (Real.sin_pos_of_pos_of_lt_pi h0 h1) r c hr hc hns

example (A : Tab) : basic 2 9 4 (Real.cos 1) A 7 1 2 = kernel 2 7 1 1 2 :=
  C54_basis 2 9 4 (by norm_num) 1 (by norm_num) (by linarith [Real.pi_gt_three]) A 7 1 2 (by norm_num)
    (by norm_num) (by norm_num) (by norm_num)

/-- Towards the zenith and the nadir, where the derivatives along and across a
meridian have no meaning, it writes their limits. -/
theorem C54_basis_poles (m n ns : Nat) (hns : ns = 1 ∨ ns = 3 ∨ ns = 4) (A : Tab) (l r c : Nat)
    (hm : m ≤ l) (hl : l < n) (hr : r < ns) (hc : c < ns) :
    ContinuousOn (fun mu => basic m n ns mu A l r c) (Set.Icc (-1) 1) := by
  refine (ent_cont ns m l r c).continuousOn.congr fun x hx => ?_
  exact basic_eq m n ns hns x (by nlinarith [hx.1, hx.2]) A l r c hm hl hr hc

example (A : Tab) : ContinuousOn (fun mu => basic 2 9 4 mu A 7 1 1) (Set.Icc (-1) 1) :=
  C54_basis_poles 2 9 4 (by norm_num) A 7 1 1 (by norm_num) (by norm_num) (by norm_num) (by norm_num)

theorem kernel_off (ns : ℕ) (hns : Some4 ns) (m l : ℕ) (θ : ℝ) (t k : ℕ) (ht : t < ns) (hk : ns2 ns ≤ k) :
    kernel m l θ t k = 0 := by
  rcases hns with rfl | rfl | rfl | rfl
  · obtain ⟨k, rfl⟩ : ∃ j, k = j + 1 := ⟨k - 1, by simp [ns2] at hk; omega⟩
    obtain rfl : t = 0 := by omega
    rfl
  · obtain ⟨k, rfl⟩ : ∃ j, k = j + 3 := ⟨k - 3, by simp [ns2] at hk; omega⟩
    have : t = 0 ∨ t = 1 := by omega
    rcases this with rfl | rfl <;> rfl
  · obtain ⟨k, rfl⟩ : ∃ j, k = j + 3 := ⟨k - 3, by simp [ns2] at hk; omega⟩
    have : t = 0 ∨ t = 1 ∨ t = 2 := by omega
    rcases this with rfl | rfl | rfl <;> rfl
  · obtain ⟨k, rfl⟩ : ∃ j, k = j + 4 := ⟨k - 4, by simp [ns2] at hk; omega⟩
    have : t = 0 ∨ t = 1 ∨ t = 2 ∨ t = 3 := by omega
    rcases this with rfl | rfl | rfl | rfl <;> rfl

theorem greek_eq (ns : ℕ) (hns : Some4 ns) (gc : ℕ → ℕ → ℝ) (l j k : ℕ) (hj : j < ns2 ns) (hk : k < ns2 ns) :
    gcToB (ns2 ns) gc l 1 j k = greek gc l j k := by
  have h1 : ns2 ns = 1 → j = 0 ∧ k = 0 := by omega
  have h3 : ns2 ns = 3 → j < 3 ∧ k < 3 := by omega
  unfold gcToB greek
  rcases (few_ns2 ns hns).1 with e | e | e <;> rw [e] at hj hk ⊢
  · obtain rfl : j = 0 := by omega
    obtain rfl : k = 0 := by omega
    simp
  · interval_cases j <;> interval_cases k <;> simp
  · interval_cases j <;> interval_cases k <;> simp

theorem Z_zmat (m n ns : ℕ) (hns : Some4 ns) (θ₁ θ₂ : ℝ) (h1 : 0 < Real.sin θ₁) (h2 : 0 < Real.sin θ₂)
    (gc : ℕ → ℕ → ℝ) (s t : ℕ) (hs : s < ns) (ht : t < ns) :
    Z m n ns (Real.cos θ₁) (Real.cos θ₂) gc s t = zmat m n gc θ₁ θ₂ s t := by
  obtain ⟨hf, hle⟩ := few_ns2 ns hns
  have h4 : ns2 ns ≤ 4 := by rcases hf with h | h | h <;> omega
  have cut : ∀ f : ℕ → ℝ, (∀ k, ns2 ns ≤ k → f k = 0) →
      ∑ k ∈ Finset.range 4, f k = ∑ k ∈ Finset.range (ns2 ns), f k := by
    intro f hz
    refine (Finset.sum_subset (Finset.range_subset_range.2 h4) fun k _ hk => hz k ?_).symm
    rw [Finset.mem_range] at hk; omega
  unfold Z zmat
  rw [Finset.mul_sum]
  have g := sum_shift m n (fun l => eps m * (if m ≤ l then
    ((l - m).factorial : ℝ) / ((l + m).factorial : ℝ) *
      ∑ j ∈ Finset.range 4, ∑ k ∈ Finset.range 4,
        kernel m l θ₁ s j * greek gc l j k * kernel m l θ₂ t k
    else 0)) (fun l hl => by rw [if_neg (by omega), mul_zero])
  rw [← g]
  refine Finset.sum_congr rfl fun d _ => ?_
  rw [if_pos (by omega)]
  have e : deg ns gc (rowOf ns m (Real.cos θ₁) s) (rowOf ns m (Real.cos θ₂) t) (m + d) =
      ∑ j ∈ Finset.range 4, ∑ k ∈ Finset.range 4,
        kernel m (m + d) θ₁ s j * greek gc (m + d) j k * kernel m (m + d) θ₂ t k := by
    rw [Finset.sum_comm, cut]
    · unfold deg
      refine Finset.sum_congr rfl fun k hk => ?_
      rw [cut]
      · refine Finset.sum_congr rfl fun j hj => ?_
        rw [Finset.mem_range] at hk hj
        unfold rowOf
        rw [ent_kernel (ns2 ns) m (m + d) θ₁ h1 s j (by omega) hj hf,
          ent_kernel (ns2 ns) m (m + d) θ₂ h2 t k (by omega) hk hf, greek_eq ns hns gc _ j k hj hk]
      · intro j hj
        rw [kernel_off ns hns m (m + d) θ₁ s j hs hj]; ring
    · intro k hk
      refine Finset.sum_eq_zero fun j _ => ?_
      rw [kernel_off ns hns m (m + d) θ₂ t k ht hk]; ring
  rw [e]
  unfold wt
  ring

/-- The elements of the four phase matrices are the Fourier terms of the phase
matrix between the directions of both sides. -/
theorem C54_matrix (m n ns : Nat) (hns : ns = 1 ∨ ns = 2 ∨ ns = 3 ∨ ns = 4) (θ₁ θ₂ : ℝ)
    (h1 : 0 < θ₁ ∧ θ₁ < Real.pi) (h2 : 0 < θ₂ ∧ θ₂ < Real.pi) (gc : Nat → Nat → ℝ) (A : Tab)
    (s t : Nat) (hs : s < ns) (ht : t < ns) :
    phaseMat m n ns (Real.cos θ₁) (Real.cos θ₂) gc A s t =
      ⟨zmat m n gc θ₁ θ₂ s t, zmat m n gc (Real.pi - θ₁) θ₂ s t,
        zmat m n gc (Real.pi - θ₁) (Real.pi - θ₂) s t, zmat m n gc θ₁ (Real.pi - θ₂) s t⟩ := by
  have p1 := Real.sin_pos_of_pos_of_lt_pi h1.1 h1.2
  have p2 := Real.sin_pos_of_pos_of_lt_pi h2.1 h2.2
  have q1 : 0 < Real.sin (Real.pi - θ₁) := by rw [Real.sin_pi_sub]; exact p1
  have q2 : 0 < Real.sin (Real.pi - θ₂) := by rw [Real.sin_pi_sub]; exact p2
  rw [phaseMat_eq m n ns hns _ _ (Real.cos_sq_le_one _) (Real.cos_sq_le_one _) gc A s t hs ht,
    ← Z_zmat m n ns hns θ₁ θ₂ p1 p2 gc s t hs ht, ← Z_zmat m n ns hns _ θ₂ q1 p2 gc s t hs ht,
    ← Z_zmat m n ns hns _ _ q1 q2 gc s t hs ht, ← Z_zmat m n ns hns θ₁ _ p1 q2 gc s t hs ht,
    Real.cos_pi_sub, Real.cos_pi_sub]

example (gc : Nat → Nat → ℝ) (A : Tab) : (phaseMat 2 6 4 (Real.cos 1) (Real.cos 2) gc A 3 2).mp =
    zmat 2 6 gc (Real.pi - 1) 2 3 2 := by
  have hp := Real.pi_gt_three
  rw [C54_matrix 2 6 4 (by norm_num) 1 2 ⟨by norm_num, by linarith⟩ ⟨by norm_num, by linarith⟩ gc A 3 2
    (by norm_num) (by norm_num)]

/-- Which side a direction is on is a matter of the sign of its cosine, poles
included. -/
theorem C54_sides (m n ns : Nat) (hns : ns = 1 ∨ ns = 2 ∨ ns = 3 ∨ ns = 4) (mu1 mu2 : ℝ)
    (h1 : mu1 ^ 2 ≤ 1) (h2 : mu2 ^ 2 ≤ 1) (gc : Nat → Nat → ℝ) (A A' : Tab)
    (s t : Nat) (hs : s < ns) (ht : t < ns) :
    (phaseMat m n ns mu1 mu2 gc A s t).mp = (phaseMat m n ns (-mu1) mu2 gc A' s t).pp ∧
    (phaseMat m n ns mu1 mu2 gc A s t).mm = (phaseMat m n ns (-mu1) (-mu2) gc A' s t).pp ∧
    (phaseMat m n ns mu1 mu2 gc A s t).pm = (phaseMat m n ns mu1 (-mu2) gc A' s t).pp ∧
    (phaseVec m n ns mu1 mu2 gc A s).1 = (phaseMat m n ns mu1 mu2 gc A' s 0).pp ∧
    (phaseVec m n ns mu1 mu2 gc A s).2 = (phaseMat m n ns (-mu1) mu2 gc A' s 0).pp := by
  have n1 : (-mu1) ^ 2 ≤ 1 := by rw [neg_sq]; exact h1
  have n2 : (-mu2) ^ 2 ≤ 1 := by rw [neg_sq]; exact h2
  have h0 : 0 < ns := by omega
  rw [phaseMat_eq m n ns hns _ _ h1 h2 gc A s t hs ht, phaseMat_eq m n ns hns _ _ n1 h2 gc A' s t hs ht,
    phaseMat_eq m n ns hns _ _ n1 n2 gc A' s t hs ht, phaseMat_eq m n ns hns _ _ h1 n2 gc A' s t hs ht,
    phaseVec_eq m n ns hns _ _ h1 h2 gc A s hs, phaseMat_eq m n ns hns _ _ h1 h2 gc A' s 0 hs h0,
    phaseMat_eq m n ns hns _ _ n1 h2 gc A' s 0 hs h0]
  exact ⟨rfl, rfl, rfl, rfl, rfl⟩

example (gc : Nat → Nat → ℝ) (A : Tab) : (phaseVec 1 5 3 (1 / 2) (-1) gc A 2).2 =
    (phaseMat 1 5 3 (-(1 / 2)) (-1) gc A 2 0).pp :=
  (C54_sides 1 5 3 (by norm_num) (1 / 2) (-1) (by norm_num) (by norm_num) gc A A 2 0 (by norm_num)
    (by norm_num)).2.2.2.2

/-- The matrix of a layer that `get_phase_mats` puts together. -/
noncomputable def layerMat (m n ns : Nat) (mu1 mu2 : Nat → ℝ) (gc : Nat → Nat → ℝ) (A : Tab)
    (side : Four → ℝ) (N : Nat) : Matrix (Fin N) (Fin N) ℝ :=
  fun i j => side (phaseMat m n ns (mu1 (i / ns)) (mu2 (j / ns)) gc A (i % ns) (j % ns))

/-- A layer with these matrices looks the same from above and from below, as
the eigenmatrix solvers take for granted. -/
theorem C54_mirrored (m n ns N : Nat) (first : Bool) (mu w : Fin N → ℝ) (om : ℝ) (qx : Nat → ℝ)
    (gc : Nat → Nat → ℝ) (A : Tab) :
    (Medium.of first mu w om (layerMat m n ns qx qx gc A Four.pp N) (layerMat m n ns qx qx gc A Four.mp N)
      (layerMat m n ns qx qx gc A Four.mm N) (layerMat m n ns qx qx gc A Four.pm N)).Mirrored ns := by
  intro i j
  have ht : ∀ k : Nat, stokesSign ns k = turn (k % ns) := by
    intro k
    unfold stokesSign turn
    by_cases h : k % ns < 2
    · rw [if_pos h, if_neg (by omega)]
    · rw [if_neg h, if_pos (by omega)]
  simp only [Medium.of, layerMat, phaseMat, ht]
  split <;> simp

example (gc : Nat → Nat → ℝ) (A : Tab) :
    (Medium.of true (fun _ : Fin 8 => 1 / 2) (fun _ => 1) 1 (layerMat 0 5 4 (fun _ => 1 / 2) (fun _ => 1 / 2) gc A Four.pp 8)
      (layerMat 0 5 4 (fun _ => 1 / 2) (fun _ => 1 / 2) gc A Four.mp 8)
      (layerMat 0 5 4 (fun _ => 1 / 2) (fun _ => 1 / 2) gc A Four.mm 8)
      (layerMat 0 5 4 (fun _ => 1 / 2) (fun _ => 1 / 2) gc A Four.pm 8)).Mirrored 4 :=
  C54_mirrored 0 5 4 8 true _ _ 1 _ gc A

/-- The first elements are those of the routines for intensity alone. -/
theorem C54_scalar (m n ns : Nat) (hns : ns = 1 ∨ ns = 2 ∨ ns = 3 ∨ ns = 4) (mu1 mu2 : ℝ)
    (h1 : mu1 ^ 2 ≤ 1) (h2 : mu2 ^ 2 ≤ 1) (gc : Nat → Nat → ℝ) (A : Tab) (y1 y2 : Nat → ℝ)
    (hy1 : ∀ k < n, y1 k = Y m k mu1) (hy2 : ∀ k < n, y2 k = Y m k mu2) :
    ((phaseMat m n ns mu1 mu2 gc A 0 0).pp, (phaseMat m n ns mu1 mu2 gc A 0 0).mp) =
      phaseElem m n y1 y2 (gc 0) ∧
    phaseVec m n ns mu1 mu2 gc A 0 = phaseElem m n y1 y2 (gc 0) := by
  have h0 : 0 < ns := by omega
  have zz : ∀ x y, x ^ 2 ≤ 1 → y ^ 2 ≤ 1 → Z m n ns x y gc 0 0 =
      eps m * ∑ k ∈ Finset.range n, gc 0 k * (Y m k x * Y m k y) := by
    intro x y hx hy
    rw [Z_first m n ns hns, Finset.mul_sum]
    refine Finset.sum_congr rfl fun l _ => ?_
    have e1 : ent (ns2 ns) m l x 0 1 = 0 := rfl
    have e0 : ent (ns2 ns) m l x 0 0 = √(1 - x ^ 2) ^ m * T m l x := rfl
    have eY : ∀ z, Y m l z = (-1) ^ m * √(wt m l) * √(1 - z ^ 2) ^ m * T m l z := fun _ => rfl
    have hw : √(wt m l) * √(wt m l) = wt m l := Real.mul_self_sqrt (by unfold wt; positivity)
    have hs : ((-1 : ℝ)) ^ m * (-1) ^ m = 1 := by rw [← mul_pow]; norm_num
    rw [e0, e1, eY, eY]
    unfold W
    simp only [zero_mul, ite_self, add_zero]
    generalize √(wt m l) = q at *
    rw [← hw]
    linear_combination (-(eps m * gc 0 l * q * q * √(1 - x ^ 2) ^ m * T m l x *
      √(1 - y ^ 2) ^ m * T m l y)) * hs
  have n1 : (-mu1) ^ 2 ≤ 1 := by rw [neg_sq]; exact h1
  rw [phaseMat_eq m n ns hns _ _ h1 h2 gc A 0 0 h0 h0, phaseVec_eq m n ns hns _ _ h1 h2 gc A 0 h0,
    C48_phase m n mu1 mu2 y1 y2 (gc 0) hy1 hy2]
  dsimp only
  rw [zz _ _ h1 h2, zz _ _ n1 h2]
  exact ⟨rfl, rfl⟩

example (gc : Nat → Nat → ℝ) (A : Tab) : phaseVec 2 6 4 (1 / 2) (1 / 3) gc A 0 =
    phaseElem 2 6 (fun k => Y 2 k (1 / 2)) (fun k => Y 2 k (1 / 3)) (gc 0) :=
  (C54_scalar 2 6 4 (by norm_num) _ _ (by norm_num) (by norm_num) gc A _ _ (fun _ _ => rfl)
    (fun _ _ => rfl)).2

/-- `gen_spher_funcs_prt` gives the functions of the angle of scattering. -/
theorem C54_angle (n : Nat) (mu : ℝ) (p : (Nat → ℝ) × (Nat → ℝ)) (l : Nat) (hl : l < n) :
    (prt n mu p).1 l = scatI l mu ∧ (prt n mu p).2 l = if l < 2 then 0 else scatQ l mu :=
  prt_eq n mu p l hl

example (p : (Nat → ℝ) × (Nat → ℝ)) : (prt 8 (1 / 2) p).2 6 = scatQ 6 (1 / 2) :=
  (C54_angle 8 (1 / 2) p 6 (by norm_num)).2

theorem q0_sum (M n ns : Nat) (hns : Some4 ns) (mu mu0 φ : ℝ) (h1 : mu ^ 2 ≤ 1) (h2 : mu0 ^ 2 ≤ 1)
    (gc : Nat → Nat → ℝ) (A : Nat → Tab) (s : Nat) (hs : s < ns) :
    ∑ m ∈ Finset.range M, wave m s φ * (q0 m n ns mu mu0 gc (A m) s).1 = fsum M n ns mu (-mu0) φ gc s ∧
    ∑ m ∈ Finset.range M, wave m s φ * (q0 m n ns mu mu0 gc (A m) s).2 = fsum M n ns (-mu) (-mu0) φ gc s := by
  have n2 : (-mu0) ^ 2 ≤ 1 := by rw [neg_sq]; exact h2
  unfold fsum q0
  constructor <;>
  · refine Finset.sum_congr rfl fun m _ => ?_
    rw [phaseVec_eq m n ns hns mu (-mu0) h1 n2 gc (A m) s hs]

/-- With as many Fourier terms as there are coefficients, light scattered once
is the same with the phase function of the angle as with the Fourier terms:
upwards and downwards, for all Stokes parameters; for the third one where the
azimuths differ by no more than half a turn and the light does not go straight
down. -/
theorem C54_fourier_partial (M n ns : Nat) (hM : n ≤ M) (hns : ns = 1 ∨ ns = 2 ∨ ns = 3 ∨ ns = 4)
    (mu mu0 φ : ℝ) (h1 : mu ^ 2 ≤ 1) (h0 : 0 ≤ mu) (h2 : mu0 ^ 2 ≤ 1) (gc : Nat → Nat → ℝ) (A : Nat → Tab)
    (p : (Nat → ℝ) × (Nat → ℝ)) (s : Nat) (hs : s < ns) (hφ : s = 2 → 0 ≤ Real.sin φ) :
    ∑ m ∈ Finset.range M, wave m s φ * (q0 m n ns mu mu0 gc (A m) s).1 =
      fullVec n ns (-mu) mu0 φ gc p s ∧
    ((s = 2 → mu ≠ 1) → ∑ m ∈ Finset.range M, wave m s φ * (q0 m n ns mu mu0 gc (A m) s).2 =
      fullVec n ns mu mu0 φ gc p s) := by
  obtain ⟨q1, q2⟩ := q0_sum M n ns hns mu mu0 φ h1 h2 gc A s hs
  rw [q1, q2]
  have hh : ∀ z, (s = 2 → z ≠ 1) → half s z φ = 1 := by
    intro z hz
    unfold half
    by_cases h : s = 2
    · rw [if_pos h, if_neg (not_lt.2 (hφ h)), if_neg (hz h), one_mul]
    · rw [if_neg h]
  constructor
  · have := fsum_full M n ns hns hM (-mu) mu0 φ (by rw [neg_sq]; exact h1) h2 gc p s hs
    rw [neg_neg] at this
    rw [this, hh (-mu) (fun _ h => by linarith), one_mul]
  · intro hz
    rw [fsum_full M n ns hns hM mu mu0 φ h1 h2 gc p s hs, hh mu hz, one_mul]

example (gc : Nat → Nat → ℝ) (A : Nat → Tab) (p : (Nat → ℝ) × (Nat → ℝ)) :
    ∑ m ∈ Finset.range 7, wave m 2 1 * (q0 m 5 3 (1 / 2) (1 / 3) gc (A m) 2).2 =
      fullVec 5 3 (1 / 2) (1 / 3) 1 gc p 2 :=
  (C54_fourier_partial 7 5 3 (by norm_num) (by norm_num) (1 / 2) (1 / 3) 1 (by norm_num) (by norm_num)
    (by norm_num) gc A p 2 (by norm_num) (fun _ => Real.sin_nonneg_of_nonneg_of_le_pi (by norm_num)
      (by linarith [Real.pi_gt_three]))).2 (fun _ => by norm_num)

/-- The coefficients of Rayleigh scattering. -/
noncomputable def rayleigh : Nat → Nat → ℝ
  | 0, 0 => 1
  | 0, 2 => 1 / 2
  | 1, 2 => 3
  | 3, 1 => 3 / 2
  | 4, 2 => √6 / 2
  | _, _ => 0

/-- In the other half of the turn, the third Stokes parameter of the two has
opposite signs: always upwards, and downwards but for straight down.  It is not
zero for Rayleigh scattering. -/
theorem C54_violated_half (M n ns : Nat) (hM : n ≤ M) (hns : ns = 3 ∨ ns = 4)
    (mu mu0 φ : ℝ) (h1 : mu ^ 2 < 1) (h0 : 0 ≤ mu) (h2 : mu0 ^ 2 ≤ 1) (gc : Nat → Nat → ℝ) (A : Nat → Tab)
    (p : (Nat → ℝ) × (Nat → ℝ)) (hφ : Real.sin φ < 0) :
    ∑ m ∈ Finset.range M, wave m 2 φ * (q0 m n ns mu mu0 gc (A m) 2).1 =
      -fullVec n ns (-mu) mu0 φ gc p 2 ∧
    ∑ m ∈ Finset.range M, wave m 2 φ * (q0 m n ns mu mu0 gc (A m) 2).2 =
      -fullVec n ns mu mu0 φ gc p 2 ∧
    fullVec 3 3 0 (3 / 5) (-(Real.pi / 2)) rayleigh p 2 ≠ 0 ∧ Real.sin (-(Real.pi / 2)) < 0 := by
  have hns' : Some4 ns := by unfold Some4; omega
  obtain ⟨q1, q2⟩ := q0_sum M n ns hns' mu mu0 φ h1.le h2 gc A 2 (by omega)
  have hne : mu ≠ 1 := by rintro rfl; norm_num at h1
  refine ⟨?_, ?_, ?_, ?_⟩
  · have := fsum_full M n ns hns' hM (-mu) mu0 φ (by rw [neg_sq]; exact h1.le) h2 gc p 2 (by omega)
    rw [neg_neg] at this
    rw [q1, this]
    unfold half
    rw [if_pos rfl, if_pos hφ, if_neg (fun h => by linarith)]; ring
  · rw [q2, fsum_full M n ns hns' hM mu mu0 φ h1.le h2 gc p 2 (by omega)]
    unfold half
    rw [if_pos rfl, if_pos hφ, if_neg hne]; ring
  · rw [(fullVec_eq 3 3 0 (3 / 5) (-(Real.pi / 2)) (by norm_num) (by norm_num) rayleigh p).2.2 (by norm_num)]
    have e : √(1 - (3 / 5 : ℝ) ^ 2) = 4 / 5 := by
      rw [show (1 - (3 / 5 : ℝ) ^ 2) = (4 / 5) ^ 2 by norm_num]; exact Real.sqrt_sq (by norm_num)
    simp only [Finset.sum_range_succ, Finset.sum_range_zero, ct, cos_ang 0 (by norm_num),
      sin_ang 0 (by norm_num), e, norm2_two, T_22, rayleigh]
    simp
  · rw [Real.sin_neg, Real.sin_pi_div_two]; norm_num

example (A : Nat → Tab) (p : (Nat → ℝ) × (Nat → ℝ)) :
    ∑ m ∈ Finset.range 3, wave m 2 (-(Real.pi / 2)) * (q0 m 3 3 0 (3 / 5) rayleigh (A m) 2).2 =
      -fullVec 3 3 0 (3 / 5) (-(Real.pi / 2)) rayleigh p 2 :=
  (C54_violated_half 3 3 3 (by norm_num) (by norm_num) 0 (3 / 5) (-(Real.pi / 2)) (by norm_num) (by norm_num)
    (by norm_num) rayleigh A p (by rw [Real.sin_neg, Real.sin_pi_div_two]; norm_num)).2.1

/-- Straight down, the sign is wrong in the first half of the turn. -/
theorem C54_violated_pole (M n ns : Nat) (hM : n ≤ M) (hns : ns = 3 ∨ ns = 4)
    (mu0 φ : ℝ) (h2 : mu0 ^ 2 ≤ 1) (gc : Nat → Nat → ℝ) (A : Nat → Tab)
    (p : (Nat → ℝ) × (Nat → ℝ)) (hφ : 0 ≤ Real.sin φ) :
    ∑ m ∈ Finset.range M, wave m 2 φ * (q0 m n ns 1 mu0 gc (A m) 2).2 =
      -fullVec n ns 1 mu0 φ gc p 2 ∧
    fullVec 3 3 1 (3 / 5) (Real.pi / 4) rayleigh p 2 ≠ 0 ∧ 0 < Real.sin (Real.pi / 4) := by
  have hns' : Some4 ns := by unfold Some4; omega
  obtain ⟨q1, q2⟩ := q0_sum M n ns hns' 1 mu0 φ (by norm_num) h2 gc A 2 (by omega)
  refine ⟨?_, ?_, ?_⟩
  · rw [q2, fsum_full M n ns hns' hM 1 mu0 φ (by norm_num) h2 gc p 2 (by omega)]
    unfold half
    rw [if_pos rfl, if_neg (not_lt.2 hφ), if_pos rfl]; ring
  · rw [(fullVec_eq 3 3 1 (3 / 5) (Real.pi / 4) (by norm_num) (by norm_num) rayleigh p).2.2 (by norm_num)]
    have e : √(1 - (3 / 5 : ℝ) ^ 2) = 4 / 5 := by
      rw [show (1 - (3 / 5 : ℝ) ^ 2) = (4 / 5) ^ 2 by norm_num]; exact Real.sqrt_sq (by norm_num)
    simp only [Finset.sum_range_succ, Finset.sum_range_zero, ct, cos_ang 1 (by norm_num),
      sin_ang 1 (by norm_num), e, norm2_two, T_22, rayleigh]
    simp
  · rw [Real.sin_pi_div_four]; positivity

example (A : Nat → Tab) (p : (Nat → ℝ) × (Nat → ℝ)) :
    ∑ m ∈ Finset.range 3, wave m 2 (Real.pi / 4) * (q0 m 3 3 1 (3 / 5) rayleigh (A m) 2).2 =
      -fullVec 3 3 1 (3 / 5) (Real.pi / 4) rayleigh p 2 :=
  (C54_violated_pole 3 3 3 (by norm_num) (by norm_num) (3 / 5) (Real.pi / 4) (by norm_num) rayleigh A p
    (by rw [Real.sin_pi_div_four]; positivity)).1

/-- `basic_matrix` keeps within the array of `n` degrees, -/
theorem C54_bounds_partial (m n : Nat) (h : ¬ (m = 0 ∧ n = 1)) : ∀ l ∈ writes m n, l < n := by
  intro l hl
  unfold writes at hl
  split_ifs at hl <;> simp only [List.mem_cons, List.mem_map, List.mem_range, List.not_mem_nil, or_false] at hl
  all_goals
    first
    | omega
    | (rcases hl with rfl | rfl | hl <;> first | omega | (obtain ⟨t, h1, rfl⟩ := hl; omega))
    | (rcases hl with rfl | rfl | rfl | hl <;> first | omega | (obtain ⟨t, h1, rfl⟩ := hl; omega))
    | (rcases hl with rfl | hl <;> first | omega | (obtain ⟨t, h1, rfl⟩ := hl; omega))

example : ∀ l ∈ writes 2 7, l < 7 := C54_bounds_partial 2 7 (by omega)

/-- except with a single coefficient and the first Fourier term, where it writes
behind the end. -/
theorem C54_violated_bounds : 1 ∈ writes 0 1 ∧ ¬ 1 < 1 := by
  refine ⟨?_, lt_irrefl 1⟩
  simp [writes]

end Xrtm.PhaseVec
