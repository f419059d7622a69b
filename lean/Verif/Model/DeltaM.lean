import Mathlib.Data.Real.Basic

/-!
# Delta-M scaling, single scattering correction factor, singularity avoidance

`src/xrtm_utility.c:348-385` and `633-886`, `get_delta_m_f` (`src/xrtm_model.c:158-182`) and the calls in
`update_opt_props` (270-360), over exact reals, formula by formula. A loop over derivatives is one
derivative here. `XRTM_SOLVERS_USE_G` is 0 in this source (`src/xrtm_support.h:37,72`), so the branches for `g` are
never taken; `delta_m_g` is included for completeness.
-/

namespace Xrtm

/-- `delta_m_g` (`src/xrtm_utility.c:634-645`). -/
noncomputable def deltaMG (f g : ℝ) : ℝ := (g - f) / (1 - f)

/-- `delta_m_g_l` (649-662). -/
noncomputable def deltaMGL (f fL g gL : ℝ) : ℝ :=
  let a := 1 - f
  let b := g - f
  (gL - fL + b * fL / a) / a

/-- `SCAT_COEF_GC` or not (`src/xrtm_scatter.h`). -/
inductive CoefType | gc | lc
  deriving DecidableEq

/-- `delta_m_coef` (666-702), element `e` (`e > 0` only with `allsix`), coefficient `i`. -/
noncomputable def deltaMCoef (ty : CoefType) (f : ℝ) (coef : Nat → Nat → ℝ) (e i : Nat) : ℝ :=
  let a := 1 - f
  let b := (2 * i + 1) * f
  if e < 4 then (coef e i - b) / a
  else if ty = .gc then coef e i / a
  else coef e i

/-- `delta_m_coef_l` (706-750). -/
noncomputable def deltaMCoefL (ty : CoefType) (f fL : ℝ) (coef coefL : Nat → Nat → ℝ) (e j : Nat) : ℝ :=
  let a := 1 - f
  let b := 2 * (j : ℝ) + 1
  let c := b * f
  let d := b * fL
  let ee := fL / a
  if e < 4 then ((coefL e j - d) + (coef e j - c) * ee) / a
  else if ty = .gc then (coefL e j + coef e j * ee) / a
  else coefL e j

/-- `delta_m_omega` (754-768). -/
noncomputable def deltaMOmega (f omega : ℝ) : ℝ := (1 - f) / (1 - omega * f) * omega

/-- `delta_m_omega_l` (772-791). -/
noncomputable def deltaMOmegaL (f fL omega omegaL : ℝ) : ℝ :=
  let a := 1 - f
  let b := 1 - omega * f
  let c := omega * fL
  (omegaL * a - c) / b + omega * a * (omegaL * f + c) / (b * b)

/-- `delta_m_ltau` (795-809). -/
def deltaMLtau (f omega ltau : ℝ) : ℝ := (1 - omega * f) * ltau

/-- `delta_m_ltau_l` (813-827). -/
def deltaMLtauL (f fL omega omegaL ltau ltauL : ℝ) : ℝ :=
  -(omegaL * f + omega * fL) * ltau + (1 - omega * f) * ltauL

/-- `get_delta_m_f` (`src/xrtm_model.c:158-182`): `nCoef = n_coef_layer[i_layer]`, `nCoef2 = n_coef2`,
`a = 2 n_coef2 + 1`. -/
noncomputable def deltaMF (nCoef nCoef2 : Nat) (coef : Nat → Nat → ℝ) : ℝ :=
  if nCoef ≤ nCoef2 then 0 else coef 0 nCoef2 / (2 * nCoef2 + 1)

noncomputable def deltaMFL (nCoef nCoef2 : Nat) (coefL : Nat → Nat → ℝ) : ℝ :=
  if nCoef ≤ nCoef2 then 0 else coefL 0 nCoef2 / (2 * nCoef2 + 1)

/-- The inputs of a layer and one derivative of them. -/
structure LayerIn where
  coef : Nat → Nat → ℝ
  omega : ℝ
  ltau : ℝ
  coefL : Nat → Nat → ℝ
  omegaL : ℝ
  ltauL : ℝ

/-- The scaled layer: everything flagged, `update_opt_props` (270-360). -/
noncomputable def optProps (ty : CoefType) (nCoef nCoef2 : Nat) (x : LayerIn) : LayerIn :=
  let f := deltaMF nCoef nCoef2 x.coef
  let fL := deltaMFL nCoef nCoef2 x.coefL
  { coef := deltaMCoef ty f x.coef
    omega := deltaMOmega f x.omega
    ltau := deltaMLtau f x.omega x.ltau
    coefL := deltaMCoefL ty f fL x.coef x.coefL
    omegaL := deltaMOmegaL f fL x.omega x.omegaL
    ltauL := deltaMLtauL f fL x.omega x.omegaL x.ltau x.ltauL }

/-- `n_t_tms_scaling` (872-886). -/
noncomputable def tmsOmega (f omega0 : ℝ) : ℝ := omega0 / (1 - f * omega0)

noncomputable def tmsOmegaL (f fL omega0 omega0L : ℝ) : ℝ :=
  (omega0L - tmsOmega f omega0 * (-fL * omega0 - f * omega0L)) / (1 - f * omega0)

/-! Singularity avoidance. -/

open Classical in
/-- `singularity_adjust_up` (348-354). -/
noncomputable def adjUp (base value eps : ℝ) : ℝ := if base - value < eps then base + eps else value

open Classical in
/-- `singularity_adjust_down` (358-364). -/
noncomputable def adjDown (base value eps : ℝ) : ℝ := if base - value < eps then base - eps else value

open Classical in
/-- `singularity_adjust_auto` (368-382). -/
noncomputable def adjAuto (base value eps : ℝ) : ℝ :=
  let a := base - value
  if a < 0 ∧ a > -eps then base + eps
  else if a ≥ 0 ∧ a < eps then base - eps
  else value

open Classical in
/-- The loop of `mu_0_singularity_adjust` (`src/xrtm_interface.c:2663-2675`): `cur` is `mu_0`, `count`
the number of adjustments so far; `none` is the error return. -/
noncomputable def muLoop (eps mu00 : ℝ) : List ℝ → ℝ → Nat → Option (ℝ × Nat)
  | [], cur, count => some (cur, count)
  | q :: qs, cur, count =>
      let a := |adjAuto q mu00 eps|
      let cur' := if a ≠ mu00 then a else cur
      let count' := if a ≠ mu00 then count + 1 else count
      if count' > 1 then none else muLoop eps mu00 qs cur' count'

/-- `mu_0_singularity_adjust` (2650-2681) on the nodes `qx[0 .. n-1]`. -/
noncomputable def muAdjust (eps mu00 : ℝ) (qx : List ℝ) : Option ℝ := (muLoop eps mu00 qx mu00 0).map (·.1)

end Xrtm
