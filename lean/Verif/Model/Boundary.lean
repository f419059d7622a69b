import Verif.Model.Loops
import Mathlib.Algebra.Field.Basic

/-!
# The radiances that enter the medium at its two ends

`diff_bound_input_update` (`src/xrtm_model.c:3912-4157`): what shines on the top of the
atmosphere and leaves the surface upward, apart from the reflected diffuse light. The
reflection vectors and matrices of the surface are inputs here; the surface itself is in
`Model/Brdf`.

Numbers are exact (any field). The dependence flags that decide whether the function does
anything are in `Model/Cache`; here they are set. The copies for the reverse mode
(`4056-4061`) are left out.
-/

namespace Xrtm.Boundary

open Loops

/-- What is fixed when the instance is made, and the Fourier term.
`nQuadX` is `d->n_quad_x` (`src/xrtm_interface.c:1090-1093`). -/
structure Dims where
  nStokes : Nat
  nQuad : Nat
  nUmus : Nat
  sfi : Bool
  solar : Bool
  thermal : Bool
  nDerivs : Nat
  nKernels : Nat
  /-- `brdf_needs_fourier(d->kernels, d->n_kernels)` -/
  needsFourier : Bool
  iFour : Nat

/-- `src/xrtm_interface.c:1090-1093`. -/
def Dims.nQuadX (D : Dims) : Nat := if D.sfi then D.nQuad else D.nQuad + D.nUmus

/-- All directions, `d->n_quad + d->n_umus`. -/
def Dims.nDirs (D : Dims) : Nat := D.nQuad + D.nUmus

/-- `solar_surface_for_i_four` (`src/xrtm_model.c:138-141`). -/
def Dims.solarSurface (D : Dims) : Bool :=
  decide (0 < D.nKernels) && (D.iFour == 0 || D.needsFourier)

/-- `thermal_surface_for_i_four` (`src/xrtm_model.c:145-148`). -/
def Dims.thermalSurface (D : Dims) : Bool := decide (0 < D.nKernels) && D.iFour == 0

/-- The inputs that the function reads. -/
structure Vals (K : Type*) where
  qf : K
  mu0 : K
  F0 : K
  pi : K
  isoTop : K
  isoBot : K
  btran : K
  surfaceB : K
  rsQ0 : Nat → K
  rsU0 : Nat → K
  rsQq : Nat → Nat → K
  rsUq : Nat → Nat → K

/-- Their linearised counterparts, for one derivative. `layer` is
`d->derivs.layers[d->n_layers][i]`. -/
structure Lins (K : Type*) where
  isoTop : K
  isoBot : K
  btran : K
  surfaceB : K
  layer : Bool
  rsQ0 : Nat → K
  rsU0 : Nat → K
  rsQq : Nat → Nat → K
  rsUq : Nat → Nat → K

/-- The arrays that are filled, and the C locals `a` and `b` that outlive their loops.
`bSet` tells whether `b` has been assigned, `bad` whether it was read before. -/
structure Out (K : Type*) where
  inP : Nat → K
  i1M : Nat → K
  inPl : Nat → Nat → K
  i1Ml : Nat → Nat → K
  a : K
  b : K
  bSet : Bool
  bad : Bool

variable {K : Type*} [Field K]

/-- `3966-3972`: all four arrays cleared. The locals hold whatever they hold. -/
def start (ga gb : K) : Out K :=
  { inP := fun _ => 0, i1M := fun _ => 0, inPl := fun _ _ => 0, i1Ml := fun _ _ => 0
    a := ga, b := gb, bSet := false, bad := false }

/-- `3978-3994`: the isotropic illumination, only in the first Fourier term. -/
def iso (D : Dims) (v : Vals K) (l : Nat → Lins K) (o : Out K) : Out K :=
  if D.iFour = 0 then
    { o with
      i1M := forN D.nDirs (fun i A => bump A (i * D.nStokes) v.isoTop) o.i1M
      inP := forN D.nDirs (fun i A => bump A (i * D.nStokes) v.isoBot) o.inP
      i1Ml := fun i => if i < D.nDerivs then
          forN D.nDirs (fun j A => bump A (j * D.nStokes) (l i).isoTop) (o.i1Ml i)
        else o.i1Ml i
      inPl := fun i => if i < D.nDerivs then
          forN D.nDirs (fun j A => bump A (j * D.nStokes) (l i).isoBot) (o.inPl i)
        else o.inPl i }
  else o

/-- `4031-4051` for one derivative: the quadrature part, then the user angles. -/
def solarL (D : Dims) (v : Vals K) (a b : K) (l : Lins K) (A : Nat → K) : Nat → K :=
  let c := a * l.btran
  let A := forN (D.nQuadX * D.nStokes) (fun j A =>
    let A := bump A j (c * v.rsQ0 j)
    if l.layer then bump A j (b * l.rsQ0 j) else A) A
  forN ((D.nDirs - D.nQuadX) * D.nStokes) (fun jj A =>
    let A := bump A (D.nQuadX * D.nStokes + jj) (c * v.rsU0 jj)
    if l.layer then bump A (D.nQuadX * D.nStokes + jj) (b * l.rsU0 jj) else A) A

/-- `3998-4062`: the direct beam reflected by the surface. -/
def solarPart (D : Dims) (v : Vals K) (l : Nat → Lins K) (o : Out K) : Out K :=
  if D.solar && D.solarSurface then
    let a := v.qf * v.mu0 * v.F0 / v.pi
    let b := a * v.btran
    { o with
      a := a, b := b, bSet := true
      inP := forN ((D.nDirs - D.nQuadX) * D.nStokes)
        (fun ii A => bump A (D.nQuadX * D.nStokes + ii) (b * v.rsU0 ii))
        (forN (D.nQuadX * D.nStokes) (fun i A => bump A i (b * v.rsQ0 i)) o.inP)
      inPl := fun i => if i < D.nDerivs then solarL D v a b (l i) (o.inPl i) else o.inPl i }
  else o

/-- `4085-4090`, `4098-4103`, `4121-4124`, `4139-4142`: the sum of a row over the first
Stokes elements of all quadrature directions. -/
def rowSum (D : Dims) (row : Nat → K) : K :=
  forN D.nQuadX (fun j a => a + row (j * D.nStokes)) 0

/-- `4083-4094`: emission into the quadrature directions; `a` keeps the sum of the last row. -/
def emitQ (D : Dims) (v : Vals K) (s : (Nat → K) × K) : (Nat → K) × K :=
  forN D.nQuadX (fun i s =>
    let a := rowSum D (v.rsQq (i * D.nStokes))
    (bump s.1 (i * D.nStokes) (v.surfaceB * (1 - a)), a)) s

/-- `4096-4108`: emission into the user angles; `b` keeps the sum of the last row. -/
def emitU (D : Dims) (v : Vals K) (s : (Nat → K) × K × Bool) : (Nat → K) × K × Bool :=
  forN (D.nDirs - D.nQuadX) (fun i s =>
    let b := rowSum D (v.rsUq (i * D.nStokes))
    (bump s.1 ((D.nQuadX + i) * D.nStokes) (v.surfaceB * (1 - b)), b, true)) s

/-- `4115-4150` for one derivative. -/
def emitL (D : Dims) (v : Vals K) (a b : K) (l : Lins K) (A : Nat → K) : Nat → K :=
  let c := l.surfaceB * (1 - a)
  let A := forN D.nQuadX (fun j A =>
    let e := if l.layer then rowSum D (l.rsQq (j * D.nStokes)) else 0
    bump A (j * D.nStokes) (c + v.surfaceB * -e)) A
  let c := l.surfaceB * (1 - b)
  forN (D.nDirs - D.nQuadX) (fun j A =>
    let e := if l.layer then rowSum D (l.rsUq (j * D.nStokes)) else 0
    bump A ((D.nQuadX + j) * D.nStokes) (c + v.surfaceB * -e)) A

/-- `4065-4155`: thermal emission of the surface. Line 4132 reads `b` for every
derivative, also when no statement has assigned it. -/
def thermalPart (D : Dims) (v : Vals K) (l : Nat → Lins K) (o : Out K) : Out K :=
  if D.thermal && D.thermalSurface then
    let q := emitQ D v (o.inP, o.a)
    let u := emitU D v (q.1, o.b, o.bSet)
    { o with
      inP := u.1, a := q.2, b := u.2.1, bSet := u.2.2
      bad := o.bad || (decide (0 < D.nDerivs) && !u.2.2)
      inPl := fun i =>
        if i < D.nDerivs then emitL D v q.2 u.2.1 (l i) (o.inPl i) else o.inPl i }
  else o

/-- `diff_bound_input_update`, `3912-4157`, once its dependences have changed. `ga`, `gb`
are what the locals `a` and `b` happen to hold at entry. -/
def update (D : Dims) (v : Vals K) (l : Nat → Lins K) (ga gb : K) : Out K :=
  thermalPart D v l (solarPart D v l (iso D v l (start ga gb)))

end Xrtm.Boundary
