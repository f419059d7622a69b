import Mathlib.Algebra.BigOperators.Field
import Mathlib.Analysis.Calculus.Deriv.Mul
import Mathlib.Analysis.Calculus.Deriv.Pow
import Mathlib.Analysis.Calculus.Deriv.Inv
import Mathlib.Analysis.SpecialFunctions.ExpDeriv
import Verif.Model.Chapman
import Verif.Props.Beam

/-!
# C36: geometry of the direct beam

`Spec.depth`, `Spec.transmittance`, .. are what the code computes (`Verif.Props.Beam`, C10); here
their properties in exact real arithmetic.
-/

namespace Xrtm

open Spec

/-! ### Plane parallel -/

/-- C36: the optical path is the accumulated optical depth over `mu_0`. -/
theorem C36_path (p : Profile ℝ) (h : p.chap = none) (i : Nat) :
    depth p i * p.mu0 = (∑ j ∈ Finset.range i, p.tau j) ∨ p.mu0 = 0 := by
  rw [depth_plane p h]
  by_cases hm : p.mu0 = 0
  · exact .inr hm
  · left; field_simp

/-- C36: and the average secant is `1 / mu_0`. -/
theorem C36_plane_secant (p : Profile ℝ) (h : p.chap = none) (k : Nat) (ht : p.tau k ≠ 0) :
    secant p k = 1 / p.mu0 := by
  simp only [secant, ArithR.div_eq, ArithR.sub_eq]
  rw [depth_plane p h, depth_plane p h, Finset.sum_range_succ]
  by_cases hm : p.mu0 = 0
  · simp [hm]
  · field_simp; ring

theorem trans_exp (p : Profile ℝ) (i : Nat) : transmittance p i = Real.exp (-depth p i) := by
  cases i with
  | zero => simp [transmittance, depth, slant]
  | succ i => rfl

/-- C36: the average secant of a layer reproduces its transmittance, and transmittance is multiplicative
over layers; with Chapman factors or without. -/
theorem C36_multiplicative (p : Profile ℝ) (k : Nat) (ht : p.tau k ≠ 0) :
    transmittance p (k + 1) = transmittance p k * layerTrans p k := by
  rw [trans_exp, trans_exp]
  simp only [layerTrans, secant, ArithR.exp_eq, ArithR.mul_eq, ArithR.neg_eq, ArithR.div_eq, ArithR.sub_eq]
  rw [← Real.exp_add]
  congr 1
  field_simp
  ring

/-- Over any stack of layers. -/
theorem C36_multiplicative_stack (p : Profile ℝ) (i m : Nat) (ht : ∀ k, i ≤ k → k < i + m → p.tau k ≠ 0) :
    transmittance p (i + m) = transmittance p i * ∏ k ∈ Finset.range m, layerTrans p (i + k) := by
  induction m with
  | zero => simp
  | succ m ih =>
      rw [← Nat.add_assoc, C36_multiplicative p (i + m) (ht _ (by omega) (by omega)),
        ih fun k h1 h2 => ht k h1 (by omega), Finset.prod_range_succ, mul_assoc]

/-- C36: without Chapman factors the transmittance does not increase with depth (and lies in `(0, 1]`). -/
theorem C36_decreasing_plane (p : Profile ℝ) (h : p.chap = none) (hm : 0 < p.mu0) (ht : ∀ k, 0 ≤ p.tau k)
    {i j : Nat} (hij : i ≤ j) :
    transmittance p j ≤ transmittance p i ∧ 0 < transmittance p j ∧ transmittance p j ≤ 1 := by
  have key : ∀ {i j : Nat}, i ≤ j → transmittance p j ≤ transmittance p i := by
    intro i j hij
    rw [trans_exp, trans_exp, Real.exp_le_exp, neg_le_neg_iff, depth_plane p h, depth_plane p h]
    refine div_le_div_of_nonneg_right ?_ hm.le
    exact Finset.sum_le_sum_of_subset_of_nonneg (Finset.range_mono hij) fun k _ _ => ht k
  refine ⟨key hij, by rw [trans_exp]; exact Real.exp_pos _, ?_⟩
  have := key (Nat.zero_le j)
  simpa [transmittance] using this

/-! ### Chapman factors -/

theorem sin_sq_arccos {mu0 : ℝ} (h1 : -1 ≤ mu0) (h2 : mu0 ≤ 1) :
    Real.sin (Real.arccos mu0) * Real.sin (Real.arccos mu0) = 1 - mu0 ^ 2 := by
  rw [Real.sin_arccos, Real.mul_self_sqrt]
  nlinarith

/-- C36: row `i` looks at the levels at and above `i + 1`, i.e. at layers `0 .. i`. -/
theorem C36_only_above (mu0 z0 : ℝ) (z z' : Nat → ℝ) (i j : Nat) (hj : j ≤ i) (h : ∀ k, k ≤ i + 1 → z k = z' k) :
    chapman mu0 z0 z i j = chapman mu0 z0 z' i j := by
  have key : ∀ b j, j ≤ i → chapRow (fun k => z0 + z k) b j = chapRow (fun k => z0 + z' k) b j := by
    intro b j hj
    induction j with
    | zero => simp only [chapRow]; rw [h 0 (by omega), h 1 (by omega)]
    | succ j ih => simp only [chapRow]; rw [h (j + 1) (by omega), h (j + 2) (by omega), ih (by omega)]
  simp only [chapman]
  rw [h (i + 1) le_rfl]
  exact key _ j hj

/-- Path length of the ray through a shell over its thickness. -/
theorem factor_eq {r1 r2 b : ℝ} (h2 : 0 < r2) (h12 : r2 < r1) (hb : b ≤ r2 * r2) :
    (√(r1 * r1 - b) - √(r2 * r2 - b)) / (r1 - r2) = (r1 + r2) / (√(r1 * r1 - b) + √(r2 * r2 - b)) := by
  have p1 : 0 < √(r1 * r1 - b) := Real.sqrt_pos.2 (by nlinarith)
  have p2 : 0 ≤ √(r2 * r2 - b) := Real.sqrt_nonneg _
  rw [div_eq_div_iff (by linarith) (by linarith)]
  have s1 := Real.mul_self_sqrt (show (0:ℝ) ≤ r1 * r1 - b by nlinarith)
  have s2 := Real.mul_self_sqrt (show (0:ℝ) ≤ r2 * r2 - b by nlinarith)
  nlinarith

theorem factor_bounds {r1 r2 R mu : ℝ} (hm0 : 0 < mu) (hm : mu ≤ 1) (hR : 0 < R) (hR2 : R ≤ r2)
    (h12 : r2 < r1) :
    1 ≤ (√(r1 * r1 - R * R * (1 - mu ^ 2)) - √(r2 * r2 - R * R * (1 - mu ^ 2))) / (r1 - r2) ∧
    (√(r1 * r1 - R * R * (1 - mu ^ 2)) - √(r2 * r2 - R * R * (1 - mu ^ 2))) / (r1 - r2) ≤ 1 / mu := by
  have hmm : 0 ≤ 1 - mu ^ 2 := by nlinarith
  have hRR : 0 ≤ R * R * (1 - mu ^ 2) := by positivity
  have low : ∀ r, R ≤ r → r * mu ≤ √(r * r - R * R * (1 - mu ^ 2)) := by
    intro r hr
    apply Real.le_sqrt_of_sq_le
    have : R * R * (1 - mu ^ 2) ≤ r * r * (1 - mu ^ 2) :=
      mul_le_mul_of_nonneg_right (by nlinarith) hmm
    nlinarith
  have up : ∀ r, 0 < r → √(r * r - R * R * (1 - mu ^ 2)) ≤ r := by
    intro r hr
    rw [Real.sqrt_le_left hr.le]
    nlinarith
  have h2 : 0 < r2 := by linarith
  have hb : R * R * (1 - mu ^ 2) ≤ r2 * r2 := by nlinarith [sq_nonneg mu, mul_self_nonneg R]
  rw [factor_eq h2 h12 hb]
  have l1 := low r1 (by linarith)
  have l2 := low r2 hR2
  have u1 := up r1 (by linarith)
  have u2 := up r2 h2
  have q1 : 0 < r1 * mu := mul_pos (by linarith) hm0
  have q2 : 0 < r2 * mu := mul_pos h2 hm0
  constructor
  · rw [le_div_iff₀ (by linarith)]; linarith
  · rw [div_le_div_iff₀ (by linarith) hm0]; nlinarith

/-- The uppermost level is strictly above the next, the levels do not rise, all lie above the centre. -/
structure GoodLevels (n : Nat) (z0 : ℝ) (z : Nat → ℝ) : Prop where
  top : z 1 < z 0
  mono : ∀ k, k < n → z (k + 1) ≤ z k
  pos : ∀ k, k ≤ n → 0 < z0 + z k

theorem GoodLevels.anti {n : Nat} {z0 : ℝ} {z : Nat → ℝ} (h : GoodLevels n z0 z) {i j : Nat} (hij : i ≤ j)
    (hj : j ≤ n) : z j ≤ z i := by
  induction j with
  | zero => rw [Nat.le_zero.1 hij]
  | succ j ih =>
      rcases Nat.lt_or_eq_of_le hij with hij | rfl
      · exact (h.mono j (by omega)).trans (ih (by omega) (by omega))
      · exact le_rfl

/-- C36: for sensible altitudes every Chapman factor that is used exists, is at least that of the
vertical and at most that of the plane parallel atmosphere. Equal altitudes inside the column are
included. -/
theorem C36_chapman_bounds {n : Nat} {mu0 z0 : ℝ} {z : Nat → ℝ} (h : GoodLevels n z0 z) (hm0 : 0 < mu0)
    (hm : mu0 ≤ 1) {i j : Nat} (hi : i < n) (hj : j ≤ i) :
    ∃ f, chapman mu0 z0 z i j = some f ∧ 1 ≤ f ∧ f ≤ 1 / mu0 := by
  simp only [chapman]
  rw [sin_sq_arccos (by linarith) hm]
  have hR := h.pos (i + 1) (by omega)
  induction j with
  | zero =>
      have ht := h.top
      simp only [chapRow]
      rw [if_neg (by linarith)]
      refine ⟨_, rfl, factor_bounds hm0 hm hR ?_ (by linarith)⟩
      have := h.anti (i := 1) (j := i + 1) (by omega) (by omega)
      linarith
  | succ j ih =>
      simp only [chapRow]
      split
      · exact ih (by omega)
      · rename_i hne
        have h1 := h.mono (j + 1) (by omega)
        have h2 := h.anti (i := j + 2) (j := i + 1) (by omega) (by omega)
        refine ⟨_, rfl, factor_bounds hm0 hm hR (by linarith) ?_⟩
        refine lt_of_le_of_ne (by linarith) fun he => hne he.symm

/-- C36: overhead sun, every factor is 1. -/
theorem C36_chapman_overhead {n : Nat} {z0 : ℝ} {z : Nat → ℝ} (h : GoodLevels n z0 z) {i j : Nat} (hi : i < n)
    (hj : j ≤ i) : chapman 1 z0 z i j = some 1 := by
  obtain ⟨f, h1, h2, h3⟩ := C36_chapman_bounds h one_pos le_rfl hi hj
  rw [h1, le_antisymm (by simpa using h3) h2]

/-- C36: hence the spherical path is between the vertical and the plane parallel one. -/
theorem C36_psa_depth {n : Nat} {p q : Profile ℝ} {z0 : ℝ} {z : Nat → ℝ} (h : GoodLevels n z0 z)
    {ch : Nat → Nat → ℝ} (hq : q.chap = none) (hp : p.chap = some ch)
    (hch : ∀ i j, i < n → j ≤ i → chapman p.mu0 z0 z i j = some (ch i j))
    (hm0 : 0 < p.mu0) (hm : p.mu0 ≤ 1) (ht : ∀ k, 0 ≤ p.tau k) (hqt : q.tau = p.tau) (hqm : q.mu0 = p.mu0)
    {i : Nat} (hi : i ≤ n) :
    (∑ j ∈ Finset.range i, p.tau j) ≤ depth p i ∧ depth p i ≤ depth q i := by
  have ws : ∀ (w x : Nat → ℝ) m, wSum w x m = ∑ j ∈ Finset.range m, x j * w j := by
    intro w x m
    induction m with
    | zero => rfl
    | succ m ih => simp [wSum, ih, Finset.sum_range_succ]
  rw [depth_plane q hq, hqt, hqm, Finset.sum_div]
  cases i with
  | zero => simp [depth, slant]
  | succ i =>
      simp only [depth, slant, hp]
      rw [ws]
      constructor
      · refine Finset.sum_le_sum fun j hj => ?_
        obtain ⟨f, e1, e2, e3⟩ := C36_chapman_bounds h hm0 hm (i := i) (j := j) (by omega)
          (by simp at hj; omega)
        rw [hch i j (by omega) (by simp at hj; omega)] at e1
        rw [Option.some.inj e1]
        exact le_mul_of_one_le_right (ht j) e2
      · refine Finset.sum_le_sum fun j hj => ?_
        obtain ⟨f, e1, e2, e3⟩ := C36_chapman_bounds h hm0 hm (i := i) (j := j) (by omega)
          (by simp at hj; omega)
        rw [hch i j (by omega) (by simp at hj; omega)] at e1
        rw [Option.some.inj e1, div_eq_mul_one_div]
        exact mul_le_mul_of_nonneg_left e3 (ht j)

/-- C36 fails: if the two uppermost levels have the same altitude (`xrtm_set_levels_z` accepts it,
`src/xrtm_interface.c:3099-3105`), `chap[i][-1]` is read. -/
theorem C36_violated_top (mu0 z0 : ℝ) (z : Nat → ℝ) (h : z 0 = z 1) (i : Nat) : chapman mu0 z0 z i 0 = none := by
  simp [chapman, chapRow, h]

/-- C36 fails with the pseudo-spherical approximation: transmittance may increase with depth. In every
atmosphere with two distinct layers, sun neither at the zenith nor below the horizon, and every absorbing
upper layer, there is a thickness of the lower layer for which the lower level is brighter (each
level sees its own ray, and that of the lower level crosses the upper layer more steeply). -/
theorem C36_violated_increasing {mu0 z0 : ℝ} {z : Nat → ℝ} (h0 : z 1 < z 0) (h1 : z 2 < z 1) (h2 : 0 < z0 + z 2)
    (hm0 : 0 < mu0) (hm : mu0 < 1) {tau0 : ℝ} (ht : 0 < tau0) :
    ∃ (p : Profile ℝ) (ch : Nat → Nat → ℝ), p.mu0 = mu0 ∧ p.chap = some ch ∧
      (∀ i j, i < 2 → j ≤ i → chapman mu0 z0 z i j = some (ch i j)) ∧ p.tau 0 = tau0 ∧ 0 < p.tau 1 ∧
      transmittance p 1 < transmittance p 2 := by
  have hg : GoodLevels 2 z0 z := ⟨h0, fun k hk => by
      rcases Nat.lt_or_ge k 1 with h | h
      · obtain rfl : k = 0 := by omega
        exact h0.le
      · obtain rfl : k = 1 := by omega
        exact h1.le, fun k hk => by
      rcases Nat.lt_or_ge k 1 with h | h
      · obtain rfl : k = 0 := by omega
        linarith
      · rcases Nat.lt_or_ge k 2 with h | h
        · obtain rfl : k = 1 := by omega
          linarith
        · obtain rfl : k = 2 := by omega
          exact h2⟩
  set ch : Nat → Nat → ℝ := fun i j => (chapman mu0 z0 z i j).getD 0 with hch
  have hch' : ∀ i j, i < 2 → j ≤ i → chapman mu0 z0 z i j = some (ch i j) := by
    intro i j hi hj
    obtain ⟨f, e, -⟩ := C36_chapman_bounds hg hm0 hm.le hi hj
    simp [hch, e]
  -- the factor of the upper layer is smaller for the lower level
  have hlt : ch 1 0 < ch 0 0 := by
    have e1 := hch' 1 0 (by omega) (by omega)
    have e0 := hch' 0 0 (by omega) (by omega)
    simp only [chapman, chapRow] at e1 e0
    rw [sin_sq_arccos (by linarith) hm.le, if_neg (by linarith)] at e1 e0
    rw [← Option.some.inj e1, ← Option.some.inj e0]
    set r0 := z0 + z 0
    set r1 := z0 + z 1
    set r2 := z0 + z 2
    have q2 : 0 < r2 := h2
    have q1 : r2 < r1 := by simp only [r1, r2]; linarith
    have q0 : r1 < r0 := by simp only [r1, r0]; linarith
    have ha : 0 < 1 - mu0 ^ 2 := by nlinarith
    have ha1 : 1 - mu0 ^ 2 < 1 := by nlinarith
    have hb : r2 * r2 * (1 - mu0 ^ 2) < r1 * r1 * (1 - mu0 ^ 2) :=
      mul_lt_mul_of_pos_right (by nlinarith) ha
    have hb1 : r1 * r1 * (1 - mu0 ^ 2) < r1 * r1 := by nlinarith [mul_self_pos.2 (ne_of_gt (q2.trans q1))]
    rw [factor_eq (q2.trans q1) q0 (by linarith), factor_eq (q2.trans q1) q0 hb1.le]
    have s0 : √(r0 * r0 - r1 * r1 * (1 - mu0 ^ 2)) < √(r0 * r0 - r2 * r2 * (1 - mu0 ^ 2)) :=
      Real.sqrt_lt_sqrt (by nlinarith) (by linarith)
    have s1 : √(r1 * r1 - r1 * r1 * (1 - mu0 ^ 2)) < √(r1 * r1 - r2 * r2 * (1 - mu0 ^ 2)) :=
      Real.sqrt_lt_sqrt (by nlinarith) (by linarith)
    have n0 := Real.sqrt_nonneg (r0 * r0 - r1 * r1 * (1 - mu0 ^ 2))
    have n1 : 0 < √(r1 * r1 - r1 * r1 * (1 - mu0 ^ 2)) := Real.sqrt_pos.2 (by linarith)
    exact div_lt_div_of_pos_left (by linarith) (by linarith) (by linarith)
  have h11 : 1 ≤ ch 1 1 := by
    obtain ⟨f, e, e', -⟩ := C36_chapman_bounds hg hm0 hm.le (i := 1) (j := 1) (by omega) le_rfl
    rw [hch' 1 1 (by omega) le_rfl] at e
    rw [Option.some.inj e]; exact e'
  set e := tau0 * (ch 0 0 - ch 1 0) / (2 * ch 1 1) with he
  have hepos : 0 < e := div_pos (mul_pos ht (by linarith)) (by linarith)
  refine ⟨⟨fun k => if k = 0 then tau0 else e, fun _ _ => 0, mu0, some ch⟩, ch, rfl, rfl, hch', rfl, ?_, ?_⟩
  · simpa using hepos
  · rw [trans_exp, trans_exp, Real.exp_lt_exp, neg_lt_neg_iff]
    simp [depth, slant, wSum]
    have : e * ch 1 1 = tau0 * (ch 0 0 - ch 1 0) / 2 := by
      rw [he]; field_simp
    have : 0 < tau0 * (ch 0 0 - ch 1 0) := mul_pos ht (by linarith)
    nlinarith

/-! ### Derivatives -/

/-- A family of profiles, and a direction `j` in which the stored derivatives are those of the family
at `t`. The solar angle and the geometry are not differentiated by the code. -/
structure Family (P : ℝ → Profile ℝ) (t : ℝ) (j : Nat) : Prop where
  mu0 : ∀ u, (P u).mu0 = (P t).mu0
  chap : ∀ u, (P u).chap = (P t).chap
  tau : ∀ k, HasDerivAt (fun u => (P u).tau k) ((P t).tauL k j) t

theorem Family.slant {P : ℝ → Profile ℝ} {t : ℝ} {j : Nat} (h : Family P t j) (i : Nat) :
    HasDerivAt (fun u => depth (P u) i) (depthL (P t) i j) t := by
  have hps : ∀ i, HasDerivAt (fun u => pathSum (P t).mu0 (P u).tau i)
      (pathSum (P t).mu0 (fun k => (P t).tauL k j) i) t := by
    intro i
    induction i with
    | zero => exact hasDerivAt_const t (0 : ℝ)
    | succ i ih => exact ih.add ((h.tau i).div_const _)
  have hws : ∀ (w : Nat → ℝ) i, HasDerivAt (fun u => wSum w (P u).tau i)
      (wSum w (fun k => (P t).tauL k j) i) t := by
    intro w i
    induction i with
    | zero => exact hasDerivAt_const t (0 : ℝ)
    | succ i ih => exact ih.add ((h.tau i).mul_const _)
  cases i with
  | zero => exact hasDerivAt_const t (0 : ℝ)
  | succ i =>
      simp only [depth, depthL, Spec.slant, h.chap, h.mu0]
      cases (P t).chap with
      | none => exact hps (i + 1)
      | some ch => exact hws (ch i) (i + 1)

/-- C36: the linearised beam arrays are the derivatives of the beam arrays. -/
theorem C36_derivatives {P : ℝ → Profile ℝ} {t : ℝ} {j : Nat} (h : Family P t j) (i : Nat) :
    HasDerivAt (fun u => depth (P u) i) (depthL (P t) i j) t ∧
    HasDerivAt (fun u => transmittance (P u) i) (transmittanceL (P t) i j) t ∧
    ((P t).tau i ≠ 0 →
      HasDerivAt (fun u => secant (P u) i) (secantL (P t) i j) t ∧
      HasDerivAt (fun u => layerTrans (P u) i) (layerTransL (P t) i j) t) := by
  refine ⟨h.slant i, ?_, fun ht => ?_⟩
  · cases i with
    | zero => exact hasDerivAt_const t (1 : ℝ)
    | succ i =>
        refine (h.slant (i + 1)).fun_neg.exp.congr_deriv ?_
        simp only [transmittance, transmittanceL, ArithR.exp_eq, ArithR.neg_eq, ArithR.mul_eq]
        ring
  · have hs : HasDerivAt (fun u => secant (P u) i) (secantL (P t) i j) t := by
      refine (((h.slant (i + 1)).fun_sub (h.slant i)).fun_div (h.tau i) ht).congr_deriv ?_
      simp only [secant, secantL, ArithR.div_eq, ArithR.sub_eq, ArithR.mul_eq]
      field_simp
    refine ⟨hs, ?_⟩
    refine ((h.tau i).fun_neg.fun_mul hs).exp.congr_deriv ?_
    simp only [layerTrans, layerTransL, ArithR.exp_eq, ArithR.neg_eq, ArithR.mul_eq, ArithR.add_eq]
    ring

/-! ### The hypotheses can be met -/

example : GoodLevels 3 6371 (fun k => if k = 0 then 30 else if k = 1 then 10 else 0) := by
  refine ⟨by norm_num, fun k hk => ?_, fun k hk => ?_⟩
  · rcases k with _ | _ | k <;> norm_num
  · rcases k with _ | _ | k <;> norm_num

example : ∃ P : ℝ → Profile ℝ, Family P 2 0 ∧ (P 2).tau 1 ≠ 0 ∧ (P 2).tauL 1 0 ≠ 0 :=
  ⟨fun u => ⟨fun _ => u ^ 2, fun _ _ => 4, 1 / 2, none⟩, ⟨fun _ => rfl, fun _ => rfl, fun k => by
    exact (hasDerivAt_pow 2 (2 : ℝ)).congr_deriv (by norm_num)⟩, by norm_num, by norm_num⟩

end Xrtm
