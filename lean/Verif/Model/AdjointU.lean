import Verif.Model.DeltaM
import Verif.Model.MatProg
import Mathlib.Algebra.BigOperators.Group.Finset.Basic

/-!
# Reverse mode of the layer scaling and of the local matrices

`src/xrtm_utility_a.c` and `opt_props_update_a`, `get_delta_m_f_a` (`src/xrtm_model_a.c:42-59`, `137-174`), over exact
reals, with the forward linearisations they belong to (`src/xrtm_utility.c:925-1119`; the forward scaling is in
`Model/DeltaM`).
-/

namespace Xrtm.Adjoint

open Mat

/-- What one layer gathers: `f_a`, `coef0_a[i]`, `omega0_a[i]`, `ltau0_a[i]`. -/
structure Gather where
  f : ℝ
  coef : Nat → Nat → ℝ
  omega : ℝ
  ltau : ℝ

/-- `delta_m_ltau_a`, 115-132. `pa` is `*ltau_prime_a`. -/
def deltaMLtauA (f omega ltau pa : ℝ) (g : Gather) : Gather :=
  let a := 1 - omega * f
  let t := -pa * ltau
  { g with omega := g.omega + t * f, f := g.f + t * omega, ltau := g.ltau + pa * a }

/-- `delta_m_omega_a`, 91-111. -/
noncomputable def deltaMOmegaA (f omega pa : ℝ) (g : Gather) : Gather :=
  let a := 1 - f
  let b := 1 - omega * f
  let t := pa / b
  let g := { g with omega := g.omega + t * a, f := g.f - t * omega }
  let t := t * (omega * a / b)
  { g with omega := g.omega + t * f, f := g.f + t * omega }

/-- One element of one coefficient in `delta_m_coef_a`, 43-72. -/
noncomputable def deltaMCoefStepA (ty : CoefType) (f : ℝ) (coef pa : Nat → Nat → ℝ) (g : Gather) (x : Nat × Nat) :
    Gather :=
  let a := 1 - f
  let b := 2 * (x.2 : ℝ) + 1
  let c := b * f
  let put (t : ℝ) : Nat → Nat → ℝ := fun e j => if e = x.1 ∧ j = x.2 then g.coef e j + t else g.coef e j
  if x.1 < 4 then
    let t := pa x.1 x.2 / a
    { g with coef := put t, f := g.f + t * (-b + (coef x.1 x.2 - c) / a) }
  else if ty = .gc then
    let t := pa x.1 x.2 / a
    { g with coef := put t, f := g.f + t * coef x.1 x.2 / a }
  else { g with coef := put (pa x.1 x.2) }

/-- The order of the loops, 39-74: for every `j` the elements `0` or `0 .. 5`. -/
def coefOrder (nCoef : Nat) (allsix : Bool) : List (Nat × Nat) :=
  (List.range nCoef).flatMap fun j => (List.range (if allsix then 6 else 1)).map fun e => (e, j)

/-- `delta_m_coef_a`, 25-87. -/
noncomputable def deltaMCoefA (ty : CoefType) (nCoef : Nat) (allsix : Bool) (f : ℝ) (coef pa : Nat → Nat → ℝ)
    (g : Gather) : Gather :=
  (coefOrder nCoef allsix).foldl (deltaMCoefStepA ty f coef pa) g

/-- `get_delta_m_f_a`, `src/xrtm_model_a.c:42-59` (`XRTM_SOLVERS_USE_G` is 0). -/
noncomputable def deltaMFA (nCoef nCoef2 : Nat) (g : Gather) : Gather :=
  let g' := if nCoef ≤ nCoef2 then g
    else { g with coef := fun e j => if e = 0 ∧ j = nCoef2 then g.coef e j + g.f / (2 * nCoef2 + 1) else g.coef e j }
  { g' with f := 0 }

/-- `opt_props_update_a` with delta-M, 137-174: `x` the layer, `pa`, `omegaA`, `ltauA` what has reached `coef_a`,
`omega_a`, `ltau_a`; `g` what is in the arrays with a `0`. -/
noncomputable def optPropsA (ty : CoefType) (allsix : Bool) (nCoef nCoef2 : Nat) (x : LayerIn) (pa : Nat → Nat → ℝ)
    (omegaA ltauA : ℝ) (g : Gather) : Gather :=
  let f := deltaMF nCoef nCoef2 x.coef
  let g := { g with f := 0 }
  let g := deltaMLtauA f x.omega x.ltau ltauA g
  let g := deltaMOmegaA f x.omega omegaA g
  let g := deltaMCoefA ty nCoef2 allsix f x.coef pa g
  deltaMFA nCoef nCoef2 g

/-- `n_t_tms_scaling_a`, `src/xrtm_utility_a.c:158-169`: new `f_a`, `omega0_a`. -/
noncomputable def tmsOmegaA (f omega0 pa fA omega0A : ℝ) : ℝ × ℝ :=
  let t := pa / (1 - f * omega0)
  (fA + t * tmsOmega f omega0 * omega0, omega0A + t + t * tmsOmega f omega0 * f)

section local_
variable {n : Nat}

/-- `b` of `build_local_r_or_t_mat`, `src/xrtm_utility.c:981`. -/
noncomputable def localB (iFour : Nat) (a : ℝ) : ℝ := a * (1 + if iFour = 0 then 1 else 0) / 4

/-- `build_local_r_or_t_mat`, the branch in use (969-1012): derivative `r_l`. -/
noncomputable def localL (iFour : Nat) (a : ℝ) (v qw : V n ℝ) (omega omegaL : ℝ) (P PL : M n ℝ) : M n ℝ :=
  Matrix.of fun i j => v i * (localB iFour a * omegaL * P i j + localB iFour a * omega * PL i j) * qw j

/-- `build_local_r_or_t_mat_a`, `src/xrtm_utility_a.c:176-208`: new `omega_a`, `P_m_a`. -/
noncomputable def localA (iFour : Nat) (a : ℝ) (v qw : V n ℝ) (omega : ℝ) (P rA : M n ℝ) (omegaA : ℝ) (PA : M n ℝ) :
    ℝ × M n ℝ :=
  let w1 : M n ℝ := Matrix.of fun i j => localB iFour a * (v i * rA i j * qw j)
  (omegaA + ∑ i, ∑ j, w1 i j * P i j, PA + omega • w1)

/-- `dmat_mul_D_A` (`src/xrtm_utility.c:1230`) with the signs in `D`: `1` for the first two Stokes parameters, `-1` for
the others. -/
def signs (nStokes : Nat) : V n ℝ := fun i => if i.1 % nStokes < 2 then 1 else -1

def mulD (d : V n ℝ) (a : M n ℝ) : M n ℝ := Matrix.of fun i j => d i * a i j

/-- `build_txr`, 1051-1080: derivatives `tpr_l`, `tmr_l`. -/
def txrL (nStokes : Nat) (rL tL : M n ℝ) : M n ℝ × M n ℝ :=
  if nStokes ≤ 2 then (tL + rL, tL - rL) else (tL + mulD (signs nStokes) rL, tL - mulD (signs nStokes) rL)

/-- `build_txr_a`, `src/xrtm_utility_a.c:236-260`: new `r_p_a`, `t_p_a`. The signs are put on all of `r_p_a`. -/
def txrA (nStokes : Nat) (tprA tmrA rA tA : M n ℝ) : M n ℝ × M n ℝ :=
  let tA := tA + (tprA + tmrA)
  let rA := rA + (tprA - tmrA)
  (if nStokes > 2 then mulD (signs nStokes) rA else rA, tA)

/-- `build_gamma`, 1111-1113. -/
def gammaL (tpr tmr tprL tmrL : M n ℝ) : M n ℝ := tmr * tprL + tmrL * tpr

/-- `build_gamma_a`, 267-291: new `tpr_a`, `tmr_a`. -/
def gammaA (tpr tmr gA tprA tmrA : M n ℝ) : M n ℝ × M n ℝ :=
  (tmr.transpose * gA + tprA, gA * tpr.transpose + tmrA)

end local_

end Xrtm.Adjoint
