import Verif.Proof.SourceD
import Verif.Props.Adding
import Verif.Proof.Session

/-!
# C49: the local matrices, the particular solutions and the sources of a layer
are what the equation of transfer asks for, and so are their derivatives
-/

namespace Xrtm.Source
open Matrix Filter Topology Xrtm.Spec Xrtm.Transfer

variable {n : Nat}

/-- An exact solver there is. -/
noncomputable def inverse {ι : Type} [Fintype ι] [DecidableEq ι] (a : Matrix ι ι ℝ) : Option (Matrix ι ι ℝ) :=
  if a.det ≠ 0 then some a⁻¹ else none

theorem inverse_exact {ι : Type} [Fintype ι] [DecidableEq ι] : Exact (inverse (ι := ι)) := by
  intro a b
  unfold inverse
  constructor
  · intro h
    split_ifs at h with hd
    · rw [← Option.some.inj h]; exact Matrix.mul_nonsing_inv _ (isUnit_iff_ne_zero.2 hd)
  · intro h
    have hd : a.det ≠ 0 := fun h0 => by
      have := congrArg Matrix.det h
      rw [Matrix.det_mul, h0, zero_mul, Matrix.det_one] at this
      exact zero_ne_one this
    rw [if_pos hd, Matrix.inv_eq_right_inv h]

/-- The inputs of the solution for the beam as the drivers make them: the local
matrices for light from below, their sum and difference, the product. -/
noncomputable def sunOf (first : Bool) (ns : Nat) (mu w : V n) (om as0 : ℝ) (Ppp Pmp : M n) (P0mm P0pm : V n) :
    Sun n :=
  let rt := localRT first mu w om Ppp Pmp
  let x := txr ns rt.1 rt.2
  ⟨om, as0, P0mm, P0pm, x.1, x.2, gammaOf x.1 x.2⟩

/-- The inputs of the thermal solution. -/
noncomputable def heatOf (first : Bool) (mu w : V n) (b0 b1 om T : ℝ) (Ppp Pmp Pmm Ppm : M n) : Heat n :=
  let p := localRT first mu w om Ppp Pmp
  let m := localRT first mu w om Pmm Ppm
  ⟨b0, b1, om, T, p.1, p.2, m.1, m.2⟩

/-- In the local matrices `build_local_r_and_t` makes of the phase matrices, the
equation of transfer reads `dI+ = -t_p I+ + r_m I- - Q+ / mu`,
`dI- = -r_p I+ + t_m I- + Q- / mu`. -/
theorem C49_local (first : Bool) (mu w : V n) (om : ℝ) (Ppp Pmp Pmm Ppm : M n) (hmu : ∀ i, mu i ≠ 0)
    (qp qm up dn : ℝ → V n) :
    (Medium.of first mu w om Ppp Pmp Pmm Ppm).Carries qp qm up dn ↔
      ∀ τ i, HasDerivAt (fun s => up s i) (-((localRT first mu w om Ppp Pmp).2 *ᵥ up τ) i +
          ((localRT first mu w om Pmm Ppm).1 *ᵥ dn τ) i - qp τ i / mu i) τ ∧
        HasDerivAt (fun s => dn s i) (-((localRT first mu w om Ppp Pmp).1 *ᵥ up τ) i +
          ((localRT first mu w om Pmm Ppm).2 *ᵥ dn τ) i + qm τ i / mu i) τ :=
  carries_iff hmu qp qm up dn

example (qp qm up dn : ℝ → V 1) :=
  C49_local true (fun _ => 1 / 2) (fun _ => 1) (3 / 5) 1 1 1 1 (fun _ => by norm_num) qp qm up dn

/-- The solution for the beam is light in the medium: scaled by the beam it
solves the equation of transfer with the single scattering of the beam as
source. -/
theorem C49_sun {inv? : M n → Option (M n)} (hex : Exact inv?) (first : Bool) (ns : Nat) (hns : 0 < ns)
    (mu w : V n) (om as0 F0 : ℝ) (Ppp Pmp Pmm Ppm : M n) (P0mm P0pm : V n) (hmu : ∀ i, mu i ≠ 0)
    (hm : (Medium.of first mu w om Ppp Pmp Pmm Ppm).Mirrored ns) (ha : as0 ≠ 0) (o : SunOut n)
    (h : sun inv? ns mu F0 (sunOf first ns mu w om as0 Ppp Pmp P0mm P0pm) = some o) :
    (Medium.of first mu w om Ppp Pmp Pmm Ppm).Carries (beamSource F0 om as0 P0pm) (beamSource F0 om as0 P0mm)
      (fun τ => Real.exp (-as0 * τ) • o.Fp) (fun τ => Real.exp (-as0 * τ) • o.Fm) :=
  sun_carries hex hns hmu hm ha h

/-- It exists unless the square of the beam's rate of decay is an eigenvalue of
`gamma`. -/
theorem C49_sun_none {inv? : M n → Option (M n)} (hex : Exact inv?) (ns : Nat) (mu : V n) (F0 : ℝ) (z : Sun n) :
    sun inv? ns mu F0 z = none ↔ ∃ v : V n, v ≠ 0 ∧ z.gamma *ᵥ v = (z.as0 ^ 2) • v := by
  have key : (∃ v : V n, v ≠ 0 ∧ z.gamma *ᵥ v = (z.as0 ^ 2) • v) ↔
      (z.gamma - Matrix.diagonal fun _ => z.as0 * z.as0).det = 0 := by
    rw [← Matrix.exists_mulVec_eq_zero_iff]
    refine exists_congr fun v => and_congr_right fun _ => ?_
    rw [Matrix.sub_mulVec, sub_eq_zero]
    have : (Matrix.diagonal fun _ : Fin n => z.as0 * z.as0) *ᵥ v = (z.as0 ^ 2) • v := by
      funext i; rw [Matrix.mulVec_diagonal, Pi.smul_apply, smul_eq_mul, pow_two]
    rw [this]
  rw [key]
  unfold sun
  dsimp only
  cases hi : inv? (z.gamma - Matrix.diagonal fun _ => z.as0 * z.as0) with
  | none =>
    refine ⟨fun _ => ?_, fun _ => rfl⟩
    by_contra hd
    have := (hex _ _).2 (Matrix.mul_nonsing_inv _ (isUnit_iff_ne_zero.2 hd))
    rw [hi] at this
    cases this
  | some X =>
    refine ⟨fun h => (by cases h), fun hd => ?_⟩
    have := congrArg Matrix.det ((hex _ _).1 hi)
    rw [Matrix.det_mul, hd, zero_mul, Matrix.det_one] at this
    exact absurd this zero_ne_one

/-- What single-direction isotropic scattering gives: `gamma = 4 (1 - om)`. -/
theorem gamma_one (om as0 : ℝ) (a b : V 1) :
    (sunOf true 1 (fun _ => 1 / 2) (fun _ => 1) om as0 1 1 a b).gamma = fun _ _ => 4 * (1 - om) := by
  funext i j
  fin_cases i; fin_cases j
  simp [sunOf, txr, gammaOf, localRT, localMat, Matrix.mul_apply]
  ring

/-- A layer the beam is solved for. -/
theorem demo_sun (F0 : ℝ) (a b : V 1) : ∃ o, sun inverse 1 (fun _ => 1 / 2) F0
    (sunOf true 1 (fun _ => 1 / 2) (fun _ => 1) (3 / 5) 2 1 1 a b) = some o := by
  rcases h : sun inverse 1 (fun _ => 1 / 2) F0
    (sunOf true 1 (fun _ => 1 / 2) (fun _ => 1) (3 / 5) 2 1 1 a b) with _ | o
  · exfalso
    obtain ⟨v, hv, e⟩ := (C49_sun_none inverse_exact _ _ _ _).1 h
    rw [gamma_one] at e
    have e := congrFun e 0
    have hs : (sunOf true 1 (fun _ : Fin 1 => (1 : ℝ) / 2) (fun _ => 1) (3 / 5) 2 1 1 a b).as0 = 2 := rfl
    rw [hs] at e
    simp only [Matrix.mulVec, dotProduct, Fin.sum_univ_one, Pi.smul_apply, smul_eq_mul] at e
    refine hv (funext fun i => ?_)
    fin_cases i
    simp only [Pi.zero_apply]
    show v 0 = 0
    linarith
  · exact ⟨o, rfl⟩

theorem demo_mirrored (om : ℝ) : (Medium.of true (fun _ : Fin 1 => 1 / 2) (fun _ => 1) om 1 1 1 1).Mirrored 1 := by
  intro i j
  simp [Medium.of, stokesSign, Nat.mod_one]

example (F0 : ℝ) (a b : V 1) : ∃ Fp Fm : V 1,
    (Medium.of true (fun _ : Fin 1 => 1 / 2) (fun _ => 1) (3 / 5) 1 1 1 1).Carries
      (beamSource F0 (3 / 5) 2 b) (beamSource F0 (3 / 5) 2 a)
      (fun τ => Real.exp (-2 * τ) • Fp) (fun τ => Real.exp (-2 * τ) • Fm) := by
  obtain ⟨o, ho⟩ := demo_sun F0 a b
  exact ⟨o.Fp, o.Fm, C49_sun inverse_exact true 1 one_pos _ _ _ _ F0 1 1 1 1 a b (fun _ => by norm_num)
    (demo_mirrored _) (by norm_num) o ho⟩

/-- There are layers for which it does not exist: one direction up and one down,
isotropic scattering of three quarters of the light, the sun overhead. -/
theorem C49_violated_resonance (F0 : ℝ) (a b : V 1) :
    sun inverse 1 (fun _ => 1 / 2) F0
      (sunOf true 1 (fun _ => 1 / 2) (fun _ => 1) (3 / 4) 1 1 1 a b) = none := by
  rw [C49_sun_none inverse_exact, gamma_one]
  refine ⟨fun _ => 1, fun h => one_ne_zero (congrFun h 0), ?_⟩
  have hs : (sunOf true 1 (fun _ : Fin 1 => (1 : ℝ) / 2) (fun _ => 1) (3 / 4) 1 1 1 a b).as0 = 1 := rfl
  rw [hs]
  funext i
  simp [Matrix.mulVec, dotProduct]
  norm_num

/-- The sources `build_global_source_solar2` makes of it complete the layer: if
the reflection and transmission matrices are right for light without sources,
then with `S_p`, `S_m` they are right for all light with the beam as source. -/
theorem C49_sun_layer {inv? : M n → Option (M n)} (hex : Exact inv?) (first : Bool) (ns : Nat) (hns : 0 < ns)
    (mu w : V n) (om as0 F0 T : ℝ) (Ppp Pmp Pmm Ppm : M n) (P0mm P0pm : V n) (hmu : ∀ i, mu i ≠ 0)
    (hm : (Medium.of first mu w om Ppp Pmp Pmm Ppm).Mirrored ns) (ha : as0 ≠ 0) (o : SunOut n)
    (h : sun inv? ns mu F0 (sunOf first ns mu w om as0 Ppp Pmp P0mm P0pm) = some o) (Rp Tp Rm Tm : M n)
    (hR : (Medium.of first mu w om Ppp Pmp Pmm Ppm).Fills 0 0 T ⟨Rm, Tm, 0, Rp, Tp, 0⟩) :
    let S := global (Real.exp (-as0 * T)) Rp Tp Rm Tm o.Fp o.Fm
    (Medium.of first mu w om Ppp Pmp Pmm Ppm).Fills (beamSource F0 om as0 P0pm) (beamSource F0 om as0 P0mm) T
      ⟨Rm, Tm, S.2, Rp, Tp, S.1⟩ := by
  have := fills_of hR (C49_sun hex first ns hns mu w om as0 F0 Ppp Pmp Pmm Ppm P0mm P0pm hmu hm ha o h)
  simp only [mul_zero, Real.exp_zero, one_smul, Matrix.mulVec_smul, ← smul_sub] at this
  exact this

/-- The thermal solution, for one Stokes parameter, is light in the medium with
the emission as source. -/
theorem C49_heat_partial {inv2? : Matrix (Fin n ⊕ Fin n) (Fin n ⊕ Fin n) ℝ →
      Option (Matrix (Fin n ⊕ Fin n) (Fin n ⊕ Fin n) ℝ)} (hex : Exact inv2?) (first : Bool) (mu w : V n)
    (b0 b1 om T : ℝ) (Ppp Pmp Pmm Ppm : M n) (hmu : ∀ i, mu i ≠ 0)
    (a : (Fin n ⊕ Fin n → ℝ) × (Fin n ⊕ Fin n → ℝ))
    (h : heat inv2? mu (heatOf first mu w b0 b1 om T Ppp Pmp Pmm Ppm) = some a) :
    (Medium.of first mu w om Ppp Pmp Pmm Ppm).Carries (thermalSource 1 om b0 b1 T) (thermalSource 1 om b0 b1 T)
      (fun τ i => a.1 (.inl i) + τ * a.2 (.inl i)) (fun τ i => a.1 (.inr i) + τ * a.2 (.inr i)) :=
  heat_carries hex hmu h

/-- The sources `build_global_source_thermal` makes of its values at the top and
at the bottom complete the layer. -/
theorem C49_heat_layer_partial {inv2? : Matrix (Fin n ⊕ Fin n) (Fin n ⊕ Fin n) ℝ →
      Option (Matrix (Fin n ⊕ Fin n) (Fin n ⊕ Fin n) ℝ)} (hex : Exact inv2?) (first : Bool) (mu w : V n)
    (b0 b1 om T : ℝ) (Ppp Pmp Pmm Ppm : M n) (hmu : ∀ i, mu i ≠ 0)
    (a : (Fin n ⊕ Fin n → ℝ) × (Fin n ⊕ Fin n → ℝ))
    (h : heat inv2? mu (heatOf first mu w b0 b1 om T Ppp Pmp Pmm Ppm) = some a) (Rp Tp Rm Tm : M n)
    (hR : (Medium.of first mu w om Ppp Pmp Pmm Ppm).Fills 0 0 T ⟨Rm, Tm, 0, Rp, Tp, 0⟩) :
    let F := heatEnds T a
    let S := globalHeat Rp Tp Rm Tm (fun i => F.1 (.inl i)) (fun i => F.1 (.inr i)) (fun i => F.2 (.inl i))
      (fun i => F.2 (.inr i))
    (Medium.of first mu w om Ppp Pmp Pmm Ppm).Fills (thermalSource 1 om b0 b1 T) (thermalSource 1 om b0 b1 T) T
      ⟨Rm, Tm, S.2, Rp, Tp, S.1⟩ := by
  have := fills_of hR (heat_carries hex hmu h)
  simp only [zero_mul, add_zero] at this
  simp only [heatEnds_eq]
  exact this

/-- The matrix of the thermal solution without scattering, one over two
directions: it is one up to the sign that is turned twice. -/
theorem heatMat_empty (k : Nat) (b0 b1 T : ℝ) :
    heatMat (fun _ : Fin k => (1 : ℝ)) (heatOf true (fun _ => 1) (fun _ => 1) b0 b1 0 T 0 0 0 0).rp
      (heatOf true (fun _ => 1) (fun _ => 1) b0 b1 0 T 0 0 0 0).tp
      (heatOf true (fun _ => 1) (fun _ => 1) b0 b1 0 T 0 0 0 0).rm
      (heatOf true (fun _ => 1) (fun _ => 1) b0 b1 0 T 0 0 0 0).tm = 1 := by
  have hd : (fun i j => -(-Matrix.diagonal (fun _ : Fin k => (1 : ℝ))) i j) = (1 : M k) := by
    funext i j; rw [Matrix.neg_apply, neg_neg, Matrix.diagonal_one]
  funext i j
  rcases i with i | i <;> rcases j with j | j <;>
    simp [heatMat, heatOf, localRT, localMat, Matrix.one_apply, Matrix.fromBlocks, Matrix.diagonal_apply]

/-- Emission is not polarised, but the thermal solution sets the same source for
all Stokes parameters.  A vector instance with thermal sources is created; in a
layer that does not scatter and is as warm at the top as at the bottom, the
solution for two Stokes parameters has as much in the second as in the first,
and no light with the emission there is that looks like it. -/
theorem C49_violated_thermal :
    (∃ cfg, create (OPT_OUTPUT_AT_LEVELS ||| OPT_VECTOR ||| OPT_SOURCE_SOLAR ||| OPT_SOURCE_THERMAL)
      SOLVER_EIG_ADD { demoCounts with nStokes := 2 } [] = .ok cfg) ∧
    ∀ B T : ℝ, B ≠ 0 → ∃ a, heat inverse (fun _ : Fin 2 => 1)
        (heatOf true (fun _ => 1) (fun _ => 1) B B 0 T 0 0 0 0) = some a ∧
      a.1 (.inl 1) = B ∧ a.2 (.inl 1) = 0 ∧
      ¬ (Medium.of true (fun _ : Fin 2 => 1) (fun _ => 1) 0 0 0 0 0).Carries (thermalSource 2 0 B B T)
        (thermalSource 2 0 B B T) (fun τ i => a.1 (.inl i) + τ * a.2 (.inl i))
        (fun τ i => a.1 (.inr i) + τ * a.2 (.inr i)) := by
  refine ⟨⟨_, by rfl⟩, fun B T hB => ?_⟩
  have hi : inverse (1 : Matrix (Fin 2 ⊕ Fin 2) (Fin 2 ⊕ Fin 2) ℝ) = some 1 :=
    (inverse_exact _ _).2 (one_mul 1)
  refine ⟨(fun _ => B, fun _ => 0), ?_, rfl, rfl, fun hc => ?_⟩
  · unfold heat
    rw [heatMat_empty, hi]
    dsimp only
    have h0 : (heatOf true (fun _ : Fin 2 => (1 : ℝ)) (fun _ => 1) B B 0 T 0 0 0 0).b0 = B := rfl
    have h1 : (heatOf true (fun _ : Fin 2 => (1 : ℝ)) (fun _ => 1) B B 0 T 0 0 0 0).b1 = B := rfl
    have h2 : (heatOf true (fun _ : Fin 2 => (1 : ℝ)) (fun _ => 1) B B 0 T 0 0 0 0).om = 0 := rfl
    rw [h0, h1, h2]
    simp only [Matrix.one_mulVec, sub_self, zero_div, mul_zero]
    congr 2
    funext i
    rcases i with i | i <;> simp [withMu]
  · obtain ⟨u, d, hu, hd, e1, e2⟩ := hc 0 1
    have h0 : u = 0 := hu.unique (by simpa using hasDerivAt_const (0 : ℝ) B)
    subst h0
    simp [Medium.of, Medium.intoUp, thermalSource] at e1
    exact hB e1.symm

example (B T : ℝ) : ∃ a, heat inverse (fun _ : Fin 1 => 1)
    (heatOf true (fun _ => 1) (fun _ => 1) B (2 * B) 0 T 0 0 0 0) = some a ∧
    (Medium.of true (fun _ : Fin 1 => 1) (fun _ => 1) 0 0 0 0 0).Carries (thermalSource 1 0 B (2 * B) T)
      (thermalSource 1 0 B (2 * B) T) (fun τ i => a.1 (.inl i) + τ * a.2 (.inl i))
      (fun τ i => a.1 (.inr i) + τ * a.2 (.inr i)) := by
  have hi : inverse (1 : Matrix (Fin 1 ⊕ Fin 1) (Fin 1 ⊕ Fin 1) ℝ) = some 1 := (inverse_exact _ _).2 (one_mul 1)
  rcases h : heat inverse (fun _ : Fin 1 => (1 : ℝ))
    (heatOf true (fun _ => 1) (fun _ => 1) B (2 * B) 0 T 0 0 0 0) with _ | a
  · unfold heat at h
    rw [heatMat_empty, hi] at h
    cases h
  · exact ⟨a, rfl, C49_heat_partial inverse_exact true _ _ _ _ _ _ 0 0 0 0 (fun _ => one_ne_zero) a h⟩

/-! ## Derivatives -/

variable {x : ℝ}

/-- The linearised local matrices, their sum, difference and product are
derivatives. -/
theorem C49_local_deriv (first : Bool) (ns : Nat) (mu w : V n) (om : ℝ → ℝ) (om' : ℝ) (Pp Pm : ℝ → M n)
    (Pp' Pm' : M n) (ho : HasDerivAt om om' x) (hp : MDeriv Pp Pp' x) (hm : MDeriv Pm Pm' x) :
    let rt := fun y => localRT first mu w (om y) (Pp y) (Pm y)
    let rtl := localRTL first mu w (om x) om' (Pp x) (Pm x) Pp' Pm'
    let xt := fun y => txr ns (rt y).1 (rt y).2
    let xl := txr ns rtl.1 rtl.2
    MDeriv (fun y => (rt y).1) rtl.1 x ∧ MDeriv (fun y => (rt y).2) rtl.2 x ∧
      MDeriv (fun y => (xt y).1) xl.1 x ∧ MDeriv (fun y => (xt y).2) xl.2 x ∧
      MDeriv (fun y => gammaOf (xt y).1 (xt y).2) (gammaL (xt x).1 (xt x).2 xl.1 xl.2) x := by
  obtain ⟨h1, h2⟩ := localRT_deriv (first := first) (mu := mu) (w := w) ho hp hm
  obtain ⟨h3, h4⟩ := txr_deriv ns h1 h2
  exact ⟨h1, h2, h3, h4, gamma_deriv h3 h4⟩

example : MDeriv (fun y : ℝ => (localRT true (fun _ : Fin 1 => 1 / 2) (fun _ => 1) y 1 1).1)
    (localRTL true (fun _ : Fin 1 => 1 / 2) (fun _ => 1) (3 / 5) 1 1 1 0 0).1 (3 / 5) :=
  (C49_local_deriv true 1 _ _ (fun y => y) 1 (fun _ => 1) (fun _ => 1) 0 0 (hasDerivAt_id _)
    (fun i j => hasDerivAt_const _ _) (fun i j => hasDerivAt_const _ _)).1

/-- The linearised solution for the beam is the derivative, for derivatives that
are active in the layer. -/
theorem C49_sun_deriv {inv? : M n → Option (M n)} (hex : Exact inv?) (ns : Nat) (mu : V n) (F0 : ℝ)
    (z : ℝ → Sun n) (z' : Sun n) (o : ℝ → SunOut n) (L : V n × V n) (hz : SunDeriv z z' x)
    (ha : (z x).as0 ≠ 0) (ho : ∀ᶠ y in 𝓝 x, sun inv? ns mu F0 (z y) = some (o y))
    (hL : sunLayerL inv? ns mu F0 (z x) z' (o x) = some L) :
    VDeriv (fun y => (o y).Fp) L.1 x ∧ VDeriv (fun y => (o y).Fm) L.2 x :=
  sunLayerL_deriv hex hz ha ho hL

/-- And for derivatives that are active in the beam only. -/
theorem C49_sun_beam_deriv {inv? : M n → Option (M n)} (hex : Exact inv?) (ns : Nat) (mu : V n) (F0 : ℝ)
    (z : Sun n) (as0 : ℝ → ℝ) (as0' : ℝ) (o : ℝ → SunOut n) (L : V n × V n) (hz : HasDerivAt as0 as0' x)
    (ha : as0 x ≠ 0) (ho : ∀ᶠ y in 𝓝 x, sun inv? ns mu F0 { z with as0 := as0 y } = some (o y))
    (hL : sunBeamL inv? ns { z with as0 := as0 x } as0' (o x) = some L) :
    VDeriv (fun y => (o y).Fp) L.1 x ∧ VDeriv (fun y => (o y).Fm) L.2 x :=
  sunBeamL_deriv hex hz ha ho hL

/-- Where the solution exists its derivative exists too, and near by as well. -/
theorem C49_sun_near {inv? : M n → Option (M n)} (hex : Exact inv?) (ns : Nat) (mu : V n) (F0 : ℝ)
    (z : ℝ → Sun n) (z' : Sun n) (o : SunOut n) (hz : SunDeriv z z' x)
    (h : sun inv? ns mu F0 (z x) = some o) :
    (∃ o' : ℝ → SunOut n, ∀ᶠ y in 𝓝 x, sun inv? ns mu F0 (z y) = some (o' y)) ∧
      ∀ z2, (sunLayerL inv? ns mu F0 (z x) z2 o).isSome = true := by
  have hdet : ((z x).gamma - Matrix.diagonal fun _ => (z x).as0 * (z x).as0).det ≠ 0 := fun h0 => by
    have : sun inv? ns mu F0 (z x) = none := by
      rw [C49_sun_none hex]
      obtain ⟨v, hv, e⟩ := Matrix.exists_mulVec_eq_zero_iff.2 h0
      refine ⟨v, hv, ?_⟩
      rw [Matrix.sub_mulVec, sub_eq_zero] at e
      rw [e]
      funext i; rw [Matrix.mulVec_diagonal, Pi.smul_apply, smul_eq_mul, pow_two]
    rw [h] at this
    cases this
  constructor
  · have hd : ∀ i j, DifferentiableAt ℝ
        (fun y => ((z y).gamma - Matrix.diagonal fun _ => (z y).as0 * (z y).as0 : M n) i j) x := by
      intro i j
      rcases eq_or_ne i j with rfl | hij
      · simp only [Matrix.sub_apply, Matrix.diagonal_apply_eq]
        exact ((hz.gamma i i).fun_sub (hz.as0.fun_mul hz.as0)).differentiableAt
      · simp only [Matrix.sub_apply, Matrix.diagonal_apply_ne _ hij, sub_zero]
        exact (hz.gamma i j).differentiableAt
    have hn := (detι hd).continuousAt.eventually_ne hdet
    have : ∀ y, ∃ o', ((z y).gamma - Matrix.diagonal fun _ => (z y).as0 * (z y).as0).det ≠ 0 →
        sun inv? ns mu F0 (z y) = some o' := by
      intro y
      by_cases hy : ((z y).gamma - Matrix.diagonal fun _ => (z y).as0 * (z y).as0).det ≠ 0
      · have e := (hex _ _).2 (Matrix.mul_nonsing_inv _ (isUnit_iff_ne_zero.2 hy))
        unfold sun
        dsimp only
        rw [e]
        exact ⟨_, fun _ => rfl⟩
      · exact ⟨o, fun hc => absurd hc hy⟩
    choose o' ho' using this
    exact ⟨o', hn.mono fun y hy => ho' y hy⟩
  · intro z2
    unfold sunLayerL
    rw [(sun_parts hex h).1, (hex _ _).2 (Matrix.mul_nonsing_inv _ (isUnit_iff_ne_zero.2 hdet))]
    rfl

/-- A curve the theorems about derivatives are about: the single scattering
albedo and the beam change. -/
example (F0 : ℝ) (a b : V 1) : ∃ (o : ℝ → SunOut 1) (L : V 1),
    VDeriv (fun y : ℝ => (o y).Fp) L 0 ∧ ∀ᶠ y in 𝓝 (0 : ℝ), sun inverse 1 (fun _ : Fin 1 => 1 / 2) F0
      (sunOf true 1 (fun _ => 1 / 2) (fun _ => 1) (3 / 5 + y) (2 + 3 * y) 1 1 a b) = some (o y) := by
  have D := C49_local_deriv (x := 0) true 1 (fun _ : Fin 1 => 1 / 2) (fun _ => 1) (fun y => 3 / 5 + y) 1
    (fun _ => 1) (fun _ => 1) 0 0 (by simpa using (hasDerivAt_id (0 : ℝ)).const_add (3 / 5))
    (fun _ _ => hasDerivAt_const _ _) (fun _ _ => hasDerivAt_const _ _)
  obtain ⟨z', hz⟩ : ∃ z', SunDeriv (fun y : ℝ => sunOf true 1 (fun _ => 1 / 2)
      (fun _ => 1) (3 / 5 + y) (2 + 3 * y) 1 1 a b) z' 0 :=
    ⟨⟨1, 3, 0, 0, _, _, _⟩, by simpa [sunOf] using (hasDerivAt_id (0 : ℝ)).const_add (3 / 5),
      by simpa [sunOf] using ((hasDerivAt_id (0 : ℝ)).const_mul 3).const_add 2,
      fun _ => hasDerivAt_const _ _, fun _ => hasDerivAt_const _ _, D.2.2.1, D.2.2.2.1, D.2.2.2.2⟩
  obtain ⟨o0, ho0⟩ := demo_sun F0 a b
  have ho0' : sun inverse 1 (fun _ : Fin 1 => 1 / 2) F0
      (sunOf true 1 (fun _ => 1 / 2) (fun _ => 1) (3 / 5 + 0) (2 + 3 * 0) 1 1 a b) = some o0 := by
    rw [← ho0]; norm_num
  obtain ⟨⟨o, ho⟩, hs⟩ := C49_sun_near inverse_exact 1 _ F0 _ z' o0 hz ho0'
  have e : o 0 = o0 := Option.some.inj (ho.self_of_nhds.symm.trans ho0')
  obtain ⟨L, hL⟩ := Option.isSome_iff_exists.1 (hs z')
  rw [← e] at hL
  have ha : (sunOf true 1 (fun _ : Fin 1 => (1 : ℝ) / 2) (fun _ => 1) (3 / 5 + 0) (2 + 3 * 0) 1 1 a b).as0 ≠ 0 := by
    show (2 + 3 * 0 : ℝ) ≠ 0
    norm_num
  exact ⟨o, L.1, (C49_sun_deriv inverse_exact 1 _ F0 _ z' o L hz ha ho hL).1, ho⟩

/-- The linearised thermal solution and its values at the top and the bottom are
derivatives, for derivatives that are active in the layer. -/
theorem C49_heat_deriv {inv2? : Matrix (Fin n ⊕ Fin n) (Fin n ⊕ Fin n) ℝ →
      Option (Matrix (Fin n ⊕ Fin n) (Fin n ⊕ Fin n) ℝ)} (hex : Exact inv2?) (mu : V n)
    (z : ℝ → Heat n) (z' : Heat n) (a : ℝ → (Fin n ⊕ Fin n → ℝ) × (Fin n ⊕ Fin n → ℝ))
    (L : (Fin n ⊕ Fin n → ℝ) × (Fin n ⊕ Fin n → ℝ)) (hz : HeatDeriv z z' x) (hl : (z x).ltau ≠ 0)
    (ho : ∀ᶠ y in 𝓝 x, heat inv2? mu (z y) = some (a y)) (hL : heatLayerL inv2? mu (z x) z' (a x) = some L)
    (i : Fin n ⊕ Fin n) :
    HasDerivAt (fun y => (heatEnds (z y).ltau (a y)).1 i) ((heatEndsL (z x).ltau z'.ltau (a x) L).1 i) x ∧
    HasDerivAt (fun y => (heatEnds (z y).ltau (a y)).2 i) ((heatEndsL (z x).ltau z'.ltau (a x) L).2 i) x := by
  obtain ⟨h0, h1⟩ := heatLayerL_deriv hex hz hl ho hL
  have := heatEnds_deriv hz.ltau h0 h1
  exact ⟨this.1 i, this.2 i⟩

/-- And for derivatives that are active in the thermal source only. -/
theorem C49_heat_only_deriv {inv2? : Matrix (Fin n ⊕ Fin n) (Fin n ⊕ Fin n) ℝ →
      Option (Matrix (Fin n ⊕ Fin n) (Fin n ⊕ Fin n) ℝ)} (hex : Exact inv2?) (mu : V n)
    (z z' : Heat n) (b0 b1 : ℝ → ℝ) (a : ℝ → (Fin n ⊕ Fin n → ℝ) × (Fin n ⊕ Fin n → ℝ))
    (L : (Fin n ⊕ Fin n → ℝ) × (Fin n ⊕ Fin n → ℝ)) (h0 : HasDerivAt b0 z'.b0 x) (h1 : HasDerivAt b1 z'.b1 x)
    (hl : z.ltau ≠ 0) (ho : ∀ᶠ y in 𝓝 x, heat inv2? mu { z with b0 := b0 y, b1 := b1 y } = some (a y))
    (hL : heatOnlyL inv2? mu { z with b0 := b0 x, b1 := b1 x } z' = some L) (i : Fin n ⊕ Fin n) :
    HasDerivAt (fun y => (heatEnds z.ltau (a y)).1 i) ((heatEndsL z.ltau 0 (a x) L).1 i) x ∧
    HasDerivAt (fun y => (heatEnds z.ltau (a y)).2 i) ((heatEndsL z.ltau 0 (a x) L).2 i) x := by
  obtain ⟨d0, d1⟩ := heatOnlyL_deriv hex rfl rfl h0 h1 hl ho hL
  have := heatEnds_deriv (ltau := fun _ => z.ltau) (hasDerivAt_const x _) d0 d1
  exact ⟨this.1 i, this.2 i⟩

/-- A layer that warms up. -/
example (T : ℝ) (hT : T ≠ 0) : ∃ (a : ℝ → (Fin 1 ⊕ Fin 1 → ℝ) × (Fin 1 ⊕ Fin 1 → ℝ)) (d : ℝ),
    HasDerivAt (fun y => (heatEnds T (a y)).2 (.inl 0)) d 1 := by
  have hi : inverse (1 : Matrix (Fin 1 ⊕ Fin 1) (Fin 1 ⊕ Fin 1) ℝ) = some 1 := (inverse_exact _ _).2 (one_mul 1)
  have ex : ∀ b0 b1 : ℝ, ∃ a, heat inverse (fun _ : Fin 1 => (1 : ℝ))
      (heatOf true (fun _ => 1) (fun _ => 1) b0 b1 0 T 0 0 0 0) = some a := by
    intro b0 b1
    unfold heat
    rw [heatMat_empty, hi]
    exact ⟨_, rfl⟩
  choose a ha using fun y : ℝ => ex y (y ^ 2)
  obtain ⟨L, hL⟩ : ∃ L, heatOnlyL inverse (fun _ : Fin 1 => (1 : ℝ))
      (heatOf true (fun _ => 1) (fun _ => 1) 1 (1 ^ 2) 0 T 0 0 0 0)
      (heatOf true (fun _ => 1) (fun _ => 1) 1 (2 * 1) 0 T 0 0 0 0) = some L := by
    unfold heatOnlyL
    rw [heatMat_empty, hi]
    exact ⟨_, rfl⟩
  exact ⟨a, _, (C49_heat_only_deriv inverse_exact (fun _ => 1) (heatOf true (fun _ => 1) (fun _ => 1) 1 1 0 T 0 0 0 0)
    (heatOf true (fun _ => 1) (fun _ => 1) 1 (2 * 1) 0 T 0 0 0 0) (fun y => y) (fun y => y ^ 2) a L
    (hasDerivAt_id 1) (by simpa [heatOf] using hasDerivAt_pow 2 (1 : ℝ)) hT (Eventually.of_forall ha) hL (.inl 0)).2⟩

/-- The linearised sources of the layer are derivatives, for derivatives that are
active in the layer. -/
theorem C49_global_deriv (t : ℝ → ℝ) (t' : ℝ) (Rp Tp Rm Tm : ℝ → M n) (Rp' Tp' Rm' Tm' : M n)
    (Fp Fm : ℝ → V n) (Fp' Fm' : V n) (ht : HasDerivAt t t' x) (h1 : MDeriv Rp Rp' x) (h2 : MDeriv Tp Tp' x)
    (h3 : MDeriv Rm Rm' x) (h4 : MDeriv Tm Tm' x) (hp : VDeriv Fp Fp' x) (hm : VDeriv Fm Fm' x) :
    let S := fun y => global (t y) (Rp y) (Tp y) (Rm y) (Tm y) (Fp y) (Fm y)
    let L := globalLayerL (t x) t' (Rp x) (Tp x) (Rm x) (Tm x) Rp' Tp' Rm' Tm' (Fp x) (Fm x) Fp' Fm'
    VDeriv (fun y => (S y).1) L.1 x ∧ VDeriv (fun y => (S y).2) L.2 x :=
  globalLayerL_deriv ht h1 h2 h3 h4 hp hm

example : VDeriv (fun y : ℝ => (global (y ^ 2) (1 : M 1) 1 1 1 (fun _ => y) (fun _ => 1)).1)
    (globalLayerL (3 ^ 2) (2 * 3) (1 : M 1) 1 1 1 0 0 0 0 (fun _ => 3) (fun _ => 1) (fun _ => 1) 0).1 3 :=
  (C49_global_deriv (x := 3) (fun y => y ^ 2) (2 * 3) (fun _ => 1) (fun _ => 1) (fun _ => 1) (fun _ => 1) 0 0 0 0
    (fun y _ => y) (fun _ _ => 1) (fun _ => 1) 0 (by simpa using hasDerivAt_pow 2 (3 : ℝ))
    (fun _ _ => hasDerivAt_const _ _) (fun _ _ => hasDerivAt_const _ _) (fun _ _ => hasDerivAt_const _ _)
    (fun _ _ => hasDerivAt_const _ _) (fun _ => hasDerivAt_id 3) (fun _ => hasDerivAt_const _ _)).1

/-- For derivatives that are active in the beam only: the transmittance of the
beam and the particular solution change together.  What is asked is that the
solution does not change where the transmittance does not. -/
theorem C49_global_beam_deriv (t : ℝ → ℝ) (t' : ℝ) (Rp Tp Rm Tm : M n) (Fp Fm : ℝ → V n) (Fp' Fm' : V n)
    (ht : HasDerivAt t t' x) (hp : VDeriv Fp Fp' x) (hm : VDeriv Fm Fm' x)
    (hz : t' = 0 → Fp' = 0 ∧ Fm' = 0) :
    let S := fun y => global (t y) Rp Tp Rm Tm (Fp y) (Fm y)
    let L := globalBeamL (t x) t' Rp Tp Rm Tm (Fp x) (Fm x) Fp' Fm'
    VDeriv (fun y => (S y).1) L.1 x ∧ VDeriv (fun y => (S y).2) L.2 x := by
  dsimp only
  rw [globalBeamL_eq Rp Tp Rm Tm (Fp x) (Fm x) Fp' Fm' hz]
  exact globalLayerL_deriv ht (MDeriv.const _) (MDeriv.const _) (MDeriv.const _) (MDeriv.const _) hp hm

/-- That is so for the transmittance `exp (-as0 T)` of a layer of fixed thickness
and the linearised solution of the beam. -/
theorem C49_beam_together (inv? : M n → Option (M n)) (ns : Nat) (z : Sun n) (as0' T : ℝ) (o : SunOut n)
    (L : V n × V n) (hT : T ≠ 0) (hL : sunBeamL inv? ns z as0' o = some L)
    (ht : -(as0' * T) * Real.exp (-(z.as0 * T)) = 0) : L.1 = 0 ∧ L.2 = 0 := by
  have h0 : as0' = 0 := by
    rcases mul_eq_zero.1 ht with h | h
    · rcases mul_eq_zero.1 (neg_eq_zero.1 h) with h | h
      · exact h
      · exact absurd h hT
    · exact absurd h (Real.exp_ne_zero _)
  unfold sunBeamL at hL
  rw [if_neg (by simpa using h0)] at hL
  rw [← Option.some.inj hL]
  exact ⟨rfl, rfl⟩

/-- If it is not so the linearised source is wrong: where the transmittance is
too small for a number and its derivative comes out as zero, the linearised
source is zero although the source changes. -/
theorem C49_violated_underflow :
    ∃ (Fp Fm : ℝ → V 1) (Fp' Fm' : V 1), VDeriv Fp Fp' 0 ∧ VDeriv Fm Fm' 0 ∧
      (∀ (L : V 1 × V 1), L = globalBeamL 0 0 0 0 0 0 (Fp 0) (Fm 0) Fp' Fm' →
        ¬ VDeriv (fun y => (global 0 0 0 0 0 (Fp y) (Fm y)).1) L.1 0) := by
  refine ⟨fun y _ => y, fun _ _ => 0, fun _ => 1, 0, fun i => hasDerivAt_id _, fun i => hasDerivAt_const _ _, ?_⟩
  rintro L rfl hd
  have h1 := hd 0
  have h2 : HasDerivAt (fun y : ℝ => (global 0 (0 : M 1) 0 0 0 (fun _ => y) (fun _ => 0)).1 0) 1 0 := by
    have e : (fun y : ℝ => (global 0 (0 : M 1) 0 0 0 (fun _ => y) (fun _ => 0)).1 0) = fun y => y := by
      funext y; simp [global]
    rw [e]; exact hasDerivAt_id _
  have := h1.unique h2
  simp [globalBeamL] at this

/-- The linearised thermal sources of the layer are derivatives, for derivatives
that are active in the layer and for those that are active in the source only. -/
theorem C49_global_heat_deriv (lay : Bool) (Rp Tp Rm Tm : ℝ → M n) (Rp' Tp' Rm' Tm' : M n)
    (F0p F0m F1p F1m : ℝ → V n) (F0p' F0m' F1p' F1m' : V n) (h1 : MDeriv Rp Rp' x) (h2 : MDeriv Tp Tp' x)
    (h3 : MDeriv Rm Rm' x) (h4 : MDeriv Tm Tm' x)
    (hlay : lay = false → Rp' = 0 ∧ Tp' = 0 ∧ Rm' = 0 ∧ Tm' = 0)
    (f0p : VDeriv F0p F0p' x) (f0m : VDeriv F0m F0m' x) (f1p : VDeriv F1p F1p' x) (f1m : VDeriv F1m F1m' x) :
    let S := fun y => globalHeat (Rp y) (Tp y) (Rm y) (Tm y) (F0p y) (F0m y) (F1p y) (F1m y)
    let L := globalHeatL lay (Rp x) (Tp x) (Rm x) (Tm x) Rp' Tp' Rm' Tm' (F0p x) (F0m x) (F1p x) (F1m x)
        F0p' F0m' F1p' F1m'
    VDeriv (fun y => (S y).1) L.1 x ∧ VDeriv (fun y => (S y).2) L.2 x :=
  globalHeatL_deriv h1 h2 h3 h4 hlay f0p f0m f1p f1m

example : VDeriv (fun y : ℝ => (globalHeat (1 : M 1) 1 1 1 (fun _ => y) (fun _ => 1) (fun _ => y ^ 2) (fun _ => 2)).1)
    (globalHeatL false (1 : M 1) 1 1 1 0 0 0 0 (fun _ => 3) (fun _ => 1) (fun _ => 3 ^ 2) (fun _ => 2)
      (fun _ => 1) 0 (fun _ => 2 * 3) 0).1 3 :=
  (C49_global_heat_deriv (x := 3) false (fun _ => 1) (fun _ => 1) (fun _ => 1) (fun _ => 1) 0 0 0 0
    (fun y _ => y) (fun _ _ => 1) (fun y _ => y ^ 2) (fun _ _ => 2) (fun _ => 1) 0 (fun _ => 2 * 3) 0
    (fun _ _ => hasDerivAt_const _ _) (fun _ _ => hasDerivAt_const _ _) (fun _ _ => hasDerivAt_const _ _)
    (fun _ _ => hasDerivAt_const _ _) (fun _ => ⟨rfl, rfl, rfl, rfl⟩) (fun _ => hasDerivAt_id 3)
    (fun _ => hasDerivAt_const _ _) (fun _ => by simpa using hasDerivAt_pow 2 (3 : ℝ))
    (fun _ => hasDerivAt_const _ _)).1

end Xrtm.Source
