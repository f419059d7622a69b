import Verif.Model.Loops
import Mathlib.Analysis.SpecialFunctions.Trigonometric.Inverse
import Mathlib.Analysis.SpecialFunctions.Trigonometric.Arctan
import Mathlib.Analysis.SpecialFunctions.Pow.Real

/-!
# The reflecting surface

`src/xrtm_brdf.c`: the kernels, their weighted sums and the Fourier terms of these. Exact
reals stand for doubles and the functions of the C library for the real functions of the same
name. Both C functions that fill arrays of kernel values (`brdf_build_kernel_vecs` for one
incident direction, `brdf_build_kernel_mats` for many) do the same to each pair of an
incident and a reflected direction; `cell` is that common part, and the two loops around it
follow.

`f_l` is scratch memory from `get_work1(WORK_DDERIVS)` that is not cleared: what it holds at
entry is an input here.
-/

namespace Xrtm.Brdf

open Loops

/-- `enum xrtm_kernel_type` (`src/xrtm_interface.h`), in order. -/
inductive Kernel where
  | lambertian | directAndDiffuse | roujean | liSparse | liDense | rossThin | rossThick
  | hapke | rahman | coxMunk | userDefined
  deriving DecidableEq

/-- `n_params_kernel`, `src/xrtm_brdf.c:76`; `MAX_KERNEL_PARAMS` is 4. -/
def Kernel.nParams : Kernel → Nat
  | .lambertian => 0 | .directAndDiffuse => 4 | .roujean => 0 | .liSparse => 2 | .liDense => 2
  | .rossThin => 0 | .rossThick => 0 | .hapke => 3 | .rahman => 3 | .coxMunk => 2
  | .userDefined => 4

/-- `kernel_needs_fourier`, `src/xrtm_brdf.c:93`. -/
def Kernel.needsFourier : Kernel → Bool
  | .lambertian => false
  | .directAndDiffuse => false
  | _ => true

/-- `enum xrtm_brdf_geometry`. -/
inductive Geom where
  | qq | q0 | uq | u0

/-- `brdf_aux_data` after `brdf_aux_calc_base`, `_part` and `_mu_0`
(`src/xrtm_brdf.c:138-186`): tables for the polar angles and the azimuths. -/
structure Aux where
  cosT : Nat → ℝ
  sinT : Nat → ℝ
  tanT : Nat → ℝ
  tanT2 : Nat → ℝ
  cosP : Nat → ℝ
  sinP : Nat → ℝ
  sinP2 : Nat → ℝ

/-- `138-186`: `mu` lists the quadrature cosines, the user cosines and last `mu_0`. -/
noncomputable def auxCalc (mu : Nat → ℝ) (qx : Nat → ℝ) : Aux :=
  { cosT := mu
    sinT := fun i => Real.sqrt (1 - mu i * mu i)
    tanT := fun i => Real.sqrt (1 - mu i * mu i) / mu i
    tanT2 := fun i =>
      (Real.sqrt (1 - mu i * mu i) / mu i) * (Real.sqrt (1 - mu i * mu i) / mu i)
    cosP := fun k => Real.cos (qx k)
    sinP := fun k => Real.sin (qx k)
    sinP2 := fun k => Real.sin (qx k) * Real.sin (qx k) }

section kernels
open Real

/-- `direct_diffuse_param`, `330-344`. -/
def directDiffuse (g : Geom) (p : Nat → ℝ) : ℝ :=
  match g with
  | .qq => p 3
  | .q0 => p 1
  | .uq => p 2
  | .u0 => p 0

/-- `roujean_aux`, `roujean_kernel`, `373-401`. -/
noncomputable def roujean (A : Aux) (i j k : Nat) (phi : ℝ) : ℝ :=
  let xa := A.tanT i + A.tanT j
  let xb := A.tanT2 i + A.tanT2 j
  let a := A.tanT i * A.tanT j
  let xc := 2 * a
  let xd := a / (2 * π)
  let sg : ℝ := if phi < 0 then -1 else 1
  let delta := (xa + sqrt (xb - xc * A.cosP k)) / π
  ((π - sg * phi) * A.cosP k + A.sinP k) * xd - delta

/-- `li_aux`, `li_common`, `408-461`: the pair `p_`, `q`, and `r`. -/
noncomputable def liCommon (A : Aux) (p : Nat → ℝ) (i j k : Nat) : ℝ × ℝ × ℝ :=
  let ti := p 0 * A.tanT i
  let tr := p 0 * A.tanT j
  let ci := cos (arctan ti)
  let si := sin (arctan ti)
  let cr := cos (arctan tr)
  let sr := sin (arctan tr)
  let r := 1 / ci + 1 / cr
  let g := p 1 / r
  let cosKsi := ci * cr + si * sr * A.cosP k
  let p_ := (1 + cosKsi) / cr
  let d := sqrt (ti * ti + tr * tr - ti * tr * 2 * A.cosP k)
  let h := sqrt (d * d + (ti * ti) * (tr * tr) * A.sinP2 k)
  let cosT := g * h
  let q := if 1 < cosT then 1 else 1 - (arccos cosT - sqrt (1 - cosT * cosT) * cosT) / π
  (p_, q, r)

/-- `467-477`. -/
noncomputable def liSparse (A : Aux) (p : Nat → ℝ) (i j k : Nat) : ℝ :=
  let x := liCommon A p i j k
  1 / 2 * x.1 - x.2.1 * x.2.2

/-- `481-491`. -/
noncomputable def liDense (A : Aux) (p : Nat → ℝ) (i j k : Nat) : ℝ :=
  let x := liCommon A p i j k
  x.1 / (x.2.1 * x.2.2) - 2

/-- `ross_aux`, `ross_thin_kernel`, `498-519`. -/
noncomputable def rossThin (A : Aux) (i j k : Nat) : ℝ :=
  let cosKsi := A.cosT i * A.cosT j + A.sinT i * A.sinT j * A.cosP k
  let ksi := arccos cosKsi
  ((π / 2 - ksi) * cosKsi + sin ksi) / (A.cosT i * A.cosT j) - π / 2

/-- `ross_thick_kernel`, `523-535`. -/
noncomputable def rossThick (A : Aux) (i j k : Nat) : ℝ :=
  let cosKsi := A.cosT i * A.cosT j + A.sinT i * A.sinT j * A.cosP k
  let ksi := arccos cosKsi
  ((π / 2 - ksi) * cosKsi + sin ksi) / (A.cosT i + A.cosT j) - π / 4

/-- `hapke_aux`, `hapke_kernel`, `544-587`. -/
noncomputable def hapke (A : Aux) (p : Nat → ℝ) (i j k : Nat) : ℝ :=
  let rIr := p 0 / ((A.cosT i + A.cosT j) * 4)
  let gamma := sqrt (1 - p 0)
  let a := 2 * A.cosT i
  let b := 2 * A.cosT j
  let d := ((1 + a) / (1 + a * gamma)) * ((1 + b) / (1 + b * gamma))
  let cosKsi := A.cosT i * A.cosT j + A.sinT i * A.sinT j * A.cosP k
  let P := 1 + 1 / 2 * cosKsi
  let ksi := arccos cosKsi
  let B := p 1 * p 2 / (p 2 + tan (ksi / 2))
  rIr * ((1 + B) * P + d - 1)

/-- `rahman_aux`, `rahman_kernel`, `596-633`. -/
noncomputable def rahman (A : Aux) (p : Nat → ℝ) (i j k : Nat) : ℝ :=
  let xa := A.cosT i * A.cosT j
  let g2 := p 1 * p 1
  let cosKsi := xa + A.sinT i * A.sinT j * A.cosP k
  let P := (1 - g2) / (1 + g2 + 2 * p 1 * cosKsi) ^ (3 / 2 : ℝ)
  let delta := sqrt (A.tanT2 i + A.tanT2 j - A.tanT i * A.tanT j * 2 * A.cosP k)
  let R := (1 - p 0) / (1 + delta)
  p 0 * P * (1 + R) * (xa * (A.cosT i + A.cosT j)) ^ (p 2 - 1)

/-- The reflection of a facet of the sea in `cox_munk_kernel`, `672-681`: `n` is `p[1]`,
`lambda` the cosine of incidence on the facet. -/
noncomputable def facet (n lambda : ℝ) : ℝ :=
  let a := n * lambda
  let c := sqrt (n + (lambda * lambda - 1))
  let rp := (a - c) / (a + c)
  let rm := (lambda - c) / (lambda + c)
  (rp * rp + rm * rm) / 2

/-- `cox_munk_aux`, `cox_munk_kernel`, `639-691`. -/
noncomputable def coxMunk (A : Aux) (p : Nat → ℝ) (i j k : Nat) : ℝ :=
  let xa := A.cosT i * A.cosT j
  let xc := (A.cosT i + A.cosT j) / 2
  let xd := 4 * xa * π * p 0
  let cosKsi := xa + A.sinT i * A.sinT j * A.cosP k
  let lambda := cos (arccos cosKsi / 2)
  let R := facet (p 1) lambda
  let gamma := xc / lambda
  let gamma2 := gamma * gamma
  let tau := tan (π / 2 - arcsin gamma)
  let P := 1 / (xd * (gamma2 * gamma2)) * exp (-(tau * tau) / p 0)
  R * P

end kernels

/-- The kernel of the user (`brdf_kernel_func_data`): its value, and what it leaves in `f_l`. -/
structure UserFn where
  value : Geom → Nat → Nat → Nat → ℝ → (Nat → ℝ) → ℝ
  lin : Geom → Nat → Nat → Nat → ℝ → (Nat → Bool) → (Nat → ℝ) → (Nat → Nat → ℝ) →
    (Nat → ℝ) → (Nat → ℝ)

/-- The value returned by `call_kernel_func`, `743-774`. -/
noncomputable def kernelValue (A : Aux) (U : UserFn) (g : Geom) (kern : Kernel) (i j k : Nat)
    (phi : ℝ) (p : Nat → ℝ) : ℝ :=
  match kern with
  | .lambertian => 1
  | .directAndDiffuse => directDiffuse g p
  | .roujean => roujean A i j k phi
  | .liSparse => liSparse A p i j k
  | .liDense => liDense A p i j k
  | .rossThin => rossThin A i j k
  | .rossThick => rossThick A i j k
  | .hapke => hapke A p i j k
  | .rahman => rahman A p i j k
  | .coxMunk => coxMunk A p i j k
  | .userDefined => U.value g i j k phi p

/-- What `call_kernel_func` leaves in `f_l`: only `lambertian_kernel` (`302-308`),
`direct_and_diffuse_kernel` (`351-357`) and the kernel of the user write to it. -/
def kernelLin (U : UserFn) (g : Geom) (kern : Kernel) (i j k : Nat) (phi : ℝ)
    (act : Nat → Bool) (p : Nat → ℝ) (pl : Nat → Nat → ℝ) (fl : Nat → ℝ) : Nat → ℝ :=
  match kern with
  | .lambertian => fun ii => if act ii then 0 else fl ii
  | .directAndDiffuse => fun ii => if act ii then directDiffuse g (pl ii) else fl ii
  | .userDefined => U.lin g i j k phi act p pl fl
  | _ => fl

/-- One kernel of the surface with its amplitude and parameters, and their linearised
counterparts indexed by derivative first. -/
structure Term where
  kern : Kernel
  amp : ℝ
  p : Nat → ℝ
  ampL : Nat → ℝ
  pL : Nat → Nat → ℝ
  U : UserFn

/-- What all calls share. `act` is `derivs.layers[n_layers]`, false past `n_derivs`. -/
structure Env where
  A : Aux
  g : Geom
  nQ : Nat
  qx : Nat → ℝ
  qw : Nat → ℝ
  act : Nat → Bool

/-- The column of `kernel_f` and of each `kernel_f_l` that belongs to one pair of directions
(slot 0 for the isotropic kernels, `1 …` for `+phi`, `n_kernel_quad + 1 …` for `-phi`), and
the scratch memory. -/
structure Col where
  f : Nat → ℝ
  fl : Nat → Nat → ℝ
  scratch : Nat → ℝ

/-- A call of the kernel and the two sums into one slot (`816-824`, `832-840`, `842-850`). -/
noncomputable def sample (E : Env) (T : Term) (i j k : Nat) (phi : ℝ) (slot : Nat) (c : Col) :
    Col :=
  let v := kernelValue E.A T.U E.g T.kern i j k phi T.p
  let s := kernelLin T.U E.g T.kern i j k phi E.act T.p T.pL c.scratch
  { f := bump c.f slot (v * T.amp)
    fl := fun l => if E.act l then bump (c.fl l) slot (s l * T.amp + v * T.ampL l) else c.fl l
    scratch := s }

/-- One kernel, one pair of directions: the incident one is `i`, the reflected one `j`. -/
noncomputable def cell (E : Env) (T : Term) (i j : Nat) (c : Col) : Col :=
  if T.kern.needsFourier then
    forN E.nQ (fun k c =>
      sample E T i j k (-E.qx k) (E.nQ + k + 1) (sample E T i j k (E.qx k) (k + 1) c)) c
  else sample E T i j 0 0 0 c

/-- `brdf_build_kernel_vecs`, `781-858`: the kernels one after the other, each over all
reflected directions `i_offset + jj`. The columns are kept by `jj`; the scratch memory is
handed on. -/
noncomputable def vecs (E : Env) (iOff n jOff : Nat) (g₀ : Nat → ℝ) (Ts : List Term) :
    (Nat → Col) × (Nat → ℝ) :=
  Ts.foldl (fun x T => forN n (fun jj x =>
      let c := cell E T jOff (iOff + jj) { x.1 jj with scratch := x.2 }
      (put x.1 jj c, c.scratch)) x)
    (fun _ => { f := fun _ => 0, fl := fun _ _ => 0, scratch := g₀ }, g₀)

/-- `brdf_build_kernel_mats`, `921-1003`: also over all incident directions `j_offset + kk`. -/
noncomputable def mats (E : Env) (iOff n1 jOff n2 : Nat) (g₀ : Nat → ℝ) (Ts : List Term) :
    (Nat → Nat → Col) × (Nat → ℝ) :=
  Ts.foldl (fun x T => forN n1 (fun jj x => forN n2 (fun kk x =>
      let c := cell E T (jOff + kk) (iOff + jj) { x.1 jj kk with scratch := x.2 }
      (put x.1 jj (put (x.1 jj) kk c), c.scratch)) x) x)
    (fun _ _ => { f := fun _ => 0, fl := fun _ _ => 0, scratch := g₀ }, g₀)

/-- `brdf_needs_fourier`, `95-106`. -/
def needsFourier (Ts : List Term) : Bool := Ts.any fun T => T.kern.needsFourier

/-- The Fourier term of one column before it is scaled (`brdf_build_ref_vec`, `884-911`,
`brdf_build_ref_mat`, `1029-1058`). `R_s` is cleared before when `i_four > 0`. -/
noncomputable def fourierTerm (E : Env) (flag : Bool) (m : Nat) (f : Nat → ℝ) : ℝ :=
  if flag then
    forN E.nQ (fun k r =>
        r + f (k + 1) * (E.qw k * Real.cos (m * E.qx k) / 2)
          + f (E.nQ + k + 1) * (E.qw k * Real.cos (m * -E.qx k) / 2))
      (if m = 0 then f 0 else 0)
  else f 0

/-- An element of `R_s` from `brdf_build_ref_vec`, `864-915`. -/
noncomputable def refVec (E : Env) (flag : Bool) (m : Nat) (f : Nat → ℝ) : ℝ :=
  fourierTerm E flag m f * (2 - if m = 0 then 1 else 0)

/-- An element of `R_s` from `brdf_build_ref_mat`, `1009-1069`; `qx`, `qw` are the cosine and
weight of the incident direction. -/
noncomputable def refMat (E : Env) (flag : Bool) (qf qx qw : ℝ) (m : Nat) (f : Nat → ℝ) : ℝ :=
  fourierTerm E flag m f
    * ((2 - if m = 0 then 1 else 0) * (1 + if m = 0 then 1 else 0) * qf * qx * qw)

end Xrtm.Brdf
