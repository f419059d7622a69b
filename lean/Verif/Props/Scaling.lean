import Mathlib.Analysis.Calculus.Deriv.Mul
import Mathlib.Analysis.Calculus.Deriv.Inv
import Mathlib.Analysis.Calculus.Deriv.Add
import Mathlib.Tactic.Linarith
import Mathlib.Tactic.FieldSimp
import Verif.Model.DeltaM

/-!
# C26 delta-M scaling, C27 single scattering correction factor, C35 singularity avoidance

All in exact real arithmetic.
-/

namespace Xrtm

/-! ## C26 -/

/-- A family of layers whose stored derivatives are those of the family at `t`. -/
structure LayerFamily (x : ℝ → LayerIn) (t : ℝ) : Prop where
  coef : ∀ e i, HasDerivAt (fun u => (x u).coef e i) ((x t).coefL e i) t
  omega : HasDerivAt (fun u => (x u).omega) (x t).omegaL t
  ltau : HasDerivAt (fun u => (x u).ltau) (x t).ltauL t

section parts
variable {f omega ltau g : ℝ → ℝ} {fL omegaL ltauL gL t : ℝ}

theorem C26_g (hf : HasDerivAt f fL t) (hg : HasDerivAt g gL t) (h1 : f t ≠ 1) :
    HasDerivAt (fun u => deltaMG (f u) (g u)) (deltaMGL (f t) fL (g t) gL) t := by
  have ha : 1 - f t ≠ 0 := sub_ne_zero.2 (Ne.symm h1)
  refine ((hg.fun_sub hf).fun_div (hf.const_sub 1) ha).congr_deriv ?_
  simp only [deltaMGL]
  field_simp
  ring

theorem C26_coef (ty : CoefType) {coef : ℝ → Nat → Nat → ℝ} {coefL : Nat → Nat → ℝ} (hf : HasDerivAt f fL t)
    (hc : ∀ e i, HasDerivAt (fun u => coef u e i) (coefL e i) t) (h1 : f t ≠ 1) (e i : Nat) :
    HasDerivAt (fun u => deltaMCoef ty (f u) (coef u) e i) (deltaMCoefL ty (f t) fL (coef t) coefL e i) t := by
  have ha : 1 - f t ≠ 0 := sub_ne_zero.2 (Ne.symm h1)
  simp only [deltaMCoef, deltaMCoefL]
  split
  · refine (((hc e i).fun_sub (hf.const_mul (2 * (i : ℝ) + 1))).fun_div (hf.const_sub 1) ha).congr_deriv ?_
    field_simp
    ring
  · split
    · refine ((hc e i).fun_div (hf.const_sub 1) ha).congr_deriv ?_
      field_simp
      ring
    · exact hc e i

theorem C26_omega (hf : HasDerivAt f fL t) (ho : HasDerivAt omega omegaL t) (h1 : omega t * f t ≠ 1) :
    HasDerivAt (fun u => deltaMOmega (f u) (omega u)) (deltaMOmegaL (f t) fL (omega t) omegaL) t := by
  have hb : 1 - omega t * f t ≠ 0 := sub_ne_zero.2 (Ne.symm h1)
  refine (((hf.const_sub 1).fun_div ((ho.fun_mul hf).const_sub 1) hb).fun_mul ho).congr_deriv ?_
  simp only [deltaMOmegaL]
  field_simp
  ring

theorem C26_ltau (hf : HasDerivAt f fL t) (ho : HasDerivAt omega omegaL t) (hl : HasDerivAt ltau ltauL t) :
    HasDerivAt (fun u => deltaMLtau (f u) (omega u) (ltau u))
      (deltaMLtauL (f t) fL (omega t) omegaL (ltau t) ltauL) t := by
  refine (((ho.fun_mul hf).const_sub 1).fun_mul hl).congr_deriv ?_
  simp only [deltaMLtauL]

end parts

/-- The truncation factor. -/
theorem C26_f {coef : ℝ → Nat → Nat → ℝ} {coefL : Nat → Nat → ℝ} {t : ℝ} (n n2 : Nat)
    (hc : ∀ e i, HasDerivAt (fun u => coef u e i) (coefL e i) t) :
    HasDerivAt (fun u => deltaMF n n2 (coef u)) (deltaMFL n n2 coefL) t := by
  simp only [deltaMF, deltaMFL]
  split
  · exact hasDerivAt_const t _
  · exact (hc 0 n2).div_const _

/-- C26: the scaled layer produced by `update_opt_props` carries the exact derivatives of the scaled
quantities, wherever the scaling is defined. -/
theorem C26_derivatives (ty : CoefType) (n n2 : Nat) {x : ℝ → LayerIn} {t : ℝ} (h : LayerFamily x t)
    (h1 : deltaMF n n2 (x t).coef ≠ 1) (h2 : (x t).omega * deltaMF n n2 (x t).coef ≠ 1) :
    LayerFamily (fun u => optProps ty n n2 (x u)) t := by
  have hf := C26_f n n2 h.coef
  exact ⟨fun e i => C26_coef ty hf h.coef h1 e i, C26_omega hf h.omega h2, C26_ltau hf h.omega h.ltau⟩

/-- C26: no truncation, no change. -/
theorem C26_identity (ty : CoefType) (n n2 : Nat) (x : LayerIn) (hn : n ≤ n2) : optProps ty n n2 x = x := by
  cases x
  simp only [optProps, deltaMF, deltaMFL, hn, if_true, deltaMCoef, deltaMOmega, deltaMLtau, deltaMCoefL,
    deltaMOmegaL, deltaMLtauL, LayerIn.mk.injEq]
  refine ⟨?_, by norm_num, by norm_num, ?_, by norm_num, by norm_num⟩
  · funext e i; norm_num [deltaMCoef]
  · funext e i; norm_num [deltaMCoefL]

/-- C26: the scaled albedo stays in `[0, 1)`, the scaled thickness positive. -/
theorem C26_range {f omega ltau : ℝ} (hf : f < 1) (h0 : 0 ≤ omega) (h1 : omega < 1) (hl : 0 < ltau) :
    0 ≤ deltaMOmega f omega ∧ deltaMOmega f omega < 1 ∧ 0 < deltaMLtau f omega ltau := by
  have hb : 0 < 1 - omega * f := by nlinarith
  refine ⟨by simp only [deltaMOmega]; exact mul_nonneg (div_nonneg (by linarith) hb.le) h0, ?_, ?_⟩
  · simp only [deltaMOmega]
    rw [div_mul_eq_mul_div, div_lt_one hb]
    nlinarith
  · exact mul_pos hb hl

/-- C26: what the scaling preserves: the absorption optical thickness; and the scattering optical
thickness becomes `1 - f` times the old one. -/
theorem C26_absorption {f omega ltau : ℝ} (h : omega * f ≠ 1) :
    (1 - deltaMOmega f omega) * deltaMLtau f omega ltau = (1 - omega) * ltau ∧
    deltaMOmega f omega * deltaMLtau f omega ltau = (1 - f) * (omega * ltau) := by
  have hb : 1 - omega * f ≠ 0 := sub_ne_zero.2 (Ne.symm h)
  have key : deltaMOmega f omega * deltaMLtau f omega ltau = (1 - f) * (omega * ltau) := by
    simp only [deltaMOmega, deltaMLtau]
    rw [div_mul_eq_mul_div, div_mul_eq_mul_div, div_eq_iff hb]
    ring
  refine ⟨?_, key⟩
  rw [sub_mul, key, deltaMLtau]
  ring

/-- C26: the first truncated coefficient vanishes and a normalised expansion stays normalised. -/
theorem C26_truncated (ty : CoefType) {n n2 : Nat} (hn : n2 < n) {coef : Nat → Nat → ℝ}
    (h1 : deltaMF n n2 coef ≠ 1) :
    deltaMCoef ty (deltaMF n n2 coef) coef 0 n2 = 0 ∧
    (coef 0 0 = 1 → deltaMCoef ty (deltaMF n n2 coef) coef 0 0 = 1) := by
  have ha : 1 - deltaMF n n2 coef ≠ 0 := sub_ne_zero.2 (Ne.symm h1)
  constructor
  · have : (2 * (n2 : ℝ) + 1) ≠ 0 := by positivity
    simp only [deltaMCoef, deltaMF, if_neg (not_le.2 hn)]
    norm_num
    left
    field_simp
    simp
  · intro h
    simp only [deltaMCoef, h]
    norm_num
    exact ha

example : LayerFamily (fun u => ⟨fun _ i => u / (i + 1), u / 4, 3 * u, fun _ i => 1 / (i + 1), 1 / 4, 3⟩) 1 ∧
    deltaMF 8 4 (fun _ i => (1 : ℝ) / (i + 1)) ≠ 1 ∧ 0 < deltaMF 8 4 (fun _ i => (1 : ℝ) / (i + 1)) := by
  refine ⟨⟨fun e i => ?_, ?_, ?_⟩, ?_, ?_⟩
  · exact (hasDerivAt_id (1 : ℝ)).div_const _
  · exact (hasDerivAt_id (1 : ℝ)).div_const _
  · exact ((hasDerivAt_id (1 : ℝ)).const_mul 3).congr_deriv (by norm_num)
  · norm_num [deltaMF]
  · norm_num [deltaMF]

/-! ## C27 -/

/-- C27: the correction factor is the quotient `omega0 / (1 - f omega0)`, which is the ratio of true scattering
thickness to scaled thickness, and its linearisation is the exact derivative. -/
theorem C27_tms {f omega0 : ℝ → ℝ} {fL omega0L t : ℝ} (hf : HasDerivAt f fL t) (ho : HasDerivAt omega0 omega0L t)
    (h1 : f t * omega0 t ≠ 1) :
    HasDerivAt (fun u => tmsOmega (f u) (omega0 u)) (tmsOmegaL (f t) fL (omega0 t) omega0L) t ∧
    ∀ ltau, tmsOmega (f t) (omega0 t) * deltaMLtau (f t) (omega0 t) ltau = omega0 t * ltau := by
  have ha : 1 - f t * omega0 t ≠ 0 := sub_ne_zero.2 (Ne.symm h1)
  refine ⟨(ho.fun_div ((hf.fun_mul ho).const_sub 1) ha).congr_deriv ?_, fun ltau => ?_⟩
  · simp only [tmsOmegaL, tmsOmega]
    field_simp
    ring
  · have hb : 1 - omega0 t * f t ≠ 0 := by rwa [mul_comm]
    simp only [tmsOmega, deltaMLtau]
    rw [mul_comm (omega0 t) (f t)]
    field_simp

/-- C27: the corrected albedo is the scaled one over `1 - f`. -/
theorem C27_ratio {f omega : ℝ} (hf : f ≠ 1) : tmsOmega f omega = deltaMOmega f omega / (1 - f) := by
  have ha : 1 - f ≠ 0 := sub_ne_zero.2 (Ne.symm hf)
  simp only [tmsOmega, deltaMOmega]
  rw [mul_comm omega f]
  field_simp

example : ∃ (f o : ℝ → ℝ), HasDerivAt f 1 (1 / 2 : ℝ) ∧ HasDerivAt o 1 (1 / 2 : ℝ) ∧ f (1 / 2) * o (1 / 2) ≠ 1 :=
  ⟨fun u => u, fun u => u, hasDerivAt_id _, hasDerivAt_id _, by norm_num⟩

/-! ## C35 -/

/-- C35 for `singularity_adjust_auto`: all values, bases and thresholds. -/
theorem C35_auto (base value : ℝ) {eps : ℝ} (he : 0 < eps) :
    eps ≤ |adjAuto base value eps - base| ∧
    (eps ≤ |value - base| → adjAuto base value eps = value) ∧
    |adjAuto base value eps - value| ≤ eps := by
  simp only [adjAuto]
  split
  · rename_i h
    refine ⟨by simp [abs_of_pos he], fun h' => ?_, ?_⟩
    · rw [abs_of_pos (by linarith)] at h'; linarith
    · rw [abs_of_pos (by linarith)]; linarith
  · rename_i h
    split
    · rename_i h2
      refine ⟨by simp [abs_of_pos he], fun h' => ?_, ?_⟩
      · rw [abs_of_nonpos (by linarith)] at h'; linarith
      · rw [abs_of_nonpos (by linarith)]; linarith
    · rename_i h2
      refine ⟨?_, fun _ => rfl, by simp [he.le]⟩
      rw [le_abs]
      rcases lt_or_ge (base - value) 0 with hs | hs
      · left
        have : ¬ (base - value > -eps) := fun h3 => h ⟨hs, h3⟩
        linarith
      · right
        have : ¬ (base - value < eps) := fun h3 => h2 ⟨hs, h3⟩
        linarith

/-- C35 for `singularity_adjust_down`, for values not above the base: this is how it is used
(`xrtm_set_omega`, base 1, after the check `omega <= 1`). -/
theorem C35_down_partial {base value eps : ℝ} (he : 0 < eps) (hv : value ≤ base) :
    eps ≤ |adjDown base value eps - base| ∧
    (eps ≤ |value - base| → adjDown base value eps = value) ∧
    |adjDown base value eps - value| ≤ eps ∧ adjDown base value eps ≤ base - eps := by
  simp only [adjDown]
  split
  · rename_i h
    refine ⟨by simp [abs_of_pos he], fun h' => ?_, ?_, le_rfl⟩
    · rw [abs_of_nonpos (by linarith)] at h'; linarith
    · rw [abs_le]; constructor <;> linarith
  · rename_i h
    refine ⟨?_, fun _ => rfl, by simp [he.le], by linarith⟩
    rw [abs_of_nonpos (by linarith)]; linarith

/-- C35 fails for `singularity_adjust_down` above the base, however far: the value is moved across. -/
theorem C35_violated_down {base value eps : ℝ} (he : 0 < eps) (hv : base + eps ≤ value) :
    eps ≤ |value - base| ∧ adjDown base value eps = base - eps ∧ adjDown base value eps ≠ value ∧
    2 * eps ≤ |adjDown base value eps - value| := by
  have h : adjDown base value eps = base - eps := by
    simp only [adjDown]; rw [if_pos (by linarith)]
  refine ⟨by rw [abs_of_nonneg (by linarith)]; linarith, h, by rw [h]; linarith, ?_⟩
  rw [h, abs_of_nonpos (by linarith)]; linarith

/-- C35 fails for `singularity_adjust_up` (not called in this source): values above the singularity are
pulled down to it, values below by less than the threshold are moved up to twice the threshold. -/
theorem C35_violated_up {base value eps : ℝ} (he : 0 < eps) (hv : base + eps < value) :
    eps ≤ |value - base| ∧ adjUp base value eps = base + eps ∧ adjUp base value eps ≠ value := by
  have h : adjUp base value eps = base + eps := by
    simp only [adjUp]; rw [if_pos (by linarith)]
  exact ⟨by rw [abs_of_nonneg (by linarith)]; linarith, h, by rw [h]; linarith⟩

/-- A cosine is changed for a node iff it is within the threshold (nodes at least twice the threshold from 0, cosines
positive). -/
theorem adj_ne_iff {q mu eps : ℝ} (he : 0 < eps) (hq : 2 * eps ≤ q) (hm : 0 < mu) :
    |adjAuto q mu eps| ≠ mu ↔ |mu - q| < eps := by
  have h := C35_auto q mu he
  constructor
  · intro hne
    by_contra hge
    rw [h.2.1 (not_lt.1 hge), abs_of_pos hm] at hne
    exact hne rfl
  · intro hlt heq
    have h3 := abs_le.1 h.2.2
    have hpos : 0 < adjAuto q mu eps := by
      have := abs_lt.1 hlt
      simp only [adjAuto]
      split
      · linarith
      · split
        · linarith
        · exact hm
    rw [abs_of_pos hpos] at heq
    have := h.1
    rw [heq] at this
    linarith

theorem muLoop_ok {eps mu : ℝ} (he : 0 < eps) (hm : 0 < mu) : ∀ (qs : List ℝ) (cur : ℝ) (count : Nat) (r : ℝ × Nat),
    (∀ q ∈ qs, 2 * eps ≤ q) → count ≤ 1 → muLoop eps mu qs cur count = some r →
    (r.1 = cur ∧ r.2 = count ∧ ∀ q ∈ qs, eps ≤ |mu - q|) ∨
    (count = 0 ∧ r.2 = 1 ∧ ∃ q ∈ qs, |mu - q| < eps ∧ r.1 = adjAuto q mu eps ∧
      ∀ q' ∈ qs, |mu - q'| < eps → adjAuto q' mu eps = r.1)
  | [], cur, count, r, _, _, h => by
      simp only [muLoop, Option.some.injEq] at h
      subst h; left; simp
  | q :: qs, cur, count, r, hq, hc, h => by
      have hq0 := hq q (by simp)
      have hqs : ∀ q ∈ qs, 2 * eps ≤ q := fun x hx => hq x (by simp [hx])
      simp only [muLoop] at h
      by_cases hlt : |mu - q| < eps
      · have hne := (adj_ne_iff he hq0 hm).2 hlt
        simp only [if_pos hne] at h
        split at h
        · simp at h
        · rename_i hcc
          have hc0 : count = 0 := by omega
          subst hc0
          rcases muLoop_ok he hm qs _ _ r hqs (by omega) h with ⟨h1, h2, h3⟩ | ⟨h1, -⟩
          · right
            have hpos : 0 < adjAuto q mu eps := by
              have := abs_lt.1 hlt
              simp only [adjAuto]
              split
              · linarith
              · split
                · linarith
                · exact hm
            rw [abs_of_pos hpos] at h1
            refine ⟨rfl, h2, q, by simp, hlt, h1, ?_⟩
            intro q' hq' hlt'
            simp only [List.mem_cons] at hq'
            rcases hq' with rfl | hq'
            · exact h1.symm
            · exact absurd hlt' (not_lt.2 (h3 q' hq'))
          · omega
      · have he' : ¬ |adjAuto q mu eps| ≠ mu := fun hne => hlt ((adj_ne_iff he hq0 hm).1 hne)
        simp only [if_neg he'] at h
        rw [if_neg (by omega)] at h
        rcases muLoop_ok he hm qs _ _ r hqs hc h with ⟨h1, h2, h3⟩ | ⟨h1, h2, q', h3, h4, h5, h6⟩
        · left
          refine ⟨h1, h2, fun x hx => ?_⟩
          simp only [List.mem_cons] at hx
          rcases hx with rfl | hx
          · exact not_lt.1 hlt
          · exact h3 x hx
        · right
          refine ⟨h1, h2, q', by simp [h3], h4, h5, fun x hx hx' => ?_⟩
          simp only [List.mem_cons] at hx
          rcases hx with rfl | hx
          · exact absurd hx' hlt
          · exact h6 x hx hx'

/-- C35 for the cosine of the solar angle against all quadrature and output cosines: when the adjustment
does not report a conflict the result is off the threshold of every node within reach of the given value,
is the given value if no node was, and moves by at most the threshold. Missing: nodes
further away, see `C35_violated_nodes`. -/
theorem C35_mu0_partial {eps mu : ℝ} (he : 0 < eps) (hm : 0 < mu) {qs : List ℝ} (hq : ∀ q ∈ qs, 2 * eps ≤ q) {r : ℝ}
    (h : muAdjust eps mu qs = some r) :
    ((∀ q ∈ qs, eps ≤ |mu - q|) → r = mu) ∧ |r - mu| ≤ eps ∧ ∀ q ∈ qs, |mu - q| < eps → eps ≤ |r - q| := by
  simp only [muAdjust, Option.map_eq_some_iff] at h
  obtain ⟨a, h, rfl⟩ := h
  rcases muLoop_ok he hm qs mu 0 a hq (by omega) h with ⟨h1, -, h3⟩ | ⟨-, -, q, h3, h4, h5, h6⟩
  · refine ⟨fun _ => h1, by rw [h1]; simp [he.le], fun q hq' hlt => absurd hlt (not_lt.2 (h3 q hq'))⟩
  · refine ⟨fun hall => absurd h4 (not_lt.2 (hall q h3)), by rw [h5]; exact (C35_auto q mu he).2.2, ?_⟩
    intro q' hq' hlt
    rw [← h6 q' hq' hlt]
    exact (C35_auto q' mu he).1

/-- C35 fails: moving the cosine off one node can put it exactly on another, and this is not noticed. -/
theorem C35_violated_nodes {eps : ℝ} (he : 0 < eps) {q : ℝ} (hq : 3 * eps ≤ q) :
    muAdjust eps q [q - eps, q] = some (q - eps) := by
  have h1 : adjAuto (q - eps) q eps = q :=
    (C35_auto (q - eps) q he).2.1 (by rw [abs_of_pos (by linarith)]; linarith)
  have h2 : adjAuto q q eps = q - eps := by
    simp only [adjAuto]
    rw [if_neg (by simp), if_pos (by simp [he])]
  have hq0 : |q| = q := abs_of_pos (by linarith)
  have hq1 : |q - eps| = q - eps := abs_of_pos (by linarith)
  have hne : q - eps ≠ q := by linarith
  simp [muAdjust, muLoop, h1, h2, hq0, hq1, hne]

/-- The hypotheses of `C35_mu0_partial` met by a case where the cosine moves. -/
example : muAdjust (1 / 1000) (1 / 2 : ℝ) [1 / 4, 1 / 2, 3 / 4] = some (1 / 2 - 1 / 1000) ∧
    ∀ q ∈ [(1 / 4 : ℝ), 1 / 2, 3 / 4], 2 * (1 / 1000) ≤ q := by
  constructor
  · have h1 : |adjAuto (1 / 4) (1 / 2) (1 / 1000)| = (1 / 2 : ℝ) := by norm_num [adjAuto]
    have h2 : |adjAuto (1 / 2) (1 / 2) (1 / 1000)| = (1 / 2 - 1 / 1000 : ℝ) := by
      norm_num [adjAuto]
    have h3 : |adjAuto (3 / 4) (1 / 2) (1 / 1000)| = (1 / 2 : ℝ) := by norm_num [adjAuto]
    simp only [muAdjust, muLoop, h1, h2, h3]
    norm_num
  · intro q hq
    simp only [List.mem_cons, List.not_mem_nil, or_false] at hq
    rcases hq with rfl | rfl | rfl <;> norm_num

example : ∃ base value eps : ℝ, 0 < eps ∧ value ≤ base ∧ adjDown base value eps ≠ value :=
  ⟨1, 1, 1 / 10, by norm_num, by norm_num, by norm_num [adjDown]⟩

end Xrtm
