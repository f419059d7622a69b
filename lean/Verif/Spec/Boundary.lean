import Verif.Model.Boundary
import Mathlib.Analysis.Calculus.Deriv.Add
import Mathlib.Analysis.Calculus.Deriv.Mul

/-!
# What enters at the boundaries

Direction `d` (quadrature angles first, then user angles), Stokes element `s`.
-/

namespace Xrtm.Boundary.Spec

variable {K : Type*} [Field K]

/-- Reflection of the direct beam into a direction: quadrature angles and, when they are
kept apart, user angles each have their own vector. -/
def direct (D : Dims) (v : Vals K) (d s : Nat) : K :=
  if d < D.nQuadX then v.rsQ0 (d * D.nStokes + s)
  else v.rsU0 ((d - D.nQuadX) * D.nStokes + s)

/-- Diffuse reflection into direction `d` from quadrature direction `j`, intensity only. -/
def diffuse (D : Dims) (v : Vals K) (d j : Nat) : K :=
  if d < D.nQuadX then v.rsQq (d * D.nStokes) (j * D.nStokes)
  else v.rsUq ((d - D.nQuadX) * D.nStokes) (j * D.nStokes)

/-- The part of isotropic light that the surface sends back into direction `d`. -/
def albedo (D : Dims) (v : Vals K) (d : Nat) : K :=
  ∑ j ∈ Finset.range D.nQuadX, diffuse D v d j

/-- Whether the surface reflects the beam in this Fourier term, and whether it emits. -/
def Lit (D : Dims) : Prop :=
  D.solar = true ∧ 0 < D.nKernels ∧ (D.iFour = 0 ∨ D.needsFourier = true)
def Warm (D : Dims) : Prop := D.thermal = true ∧ 0 < D.nKernels ∧ D.iFour = 0

instance (D : Dims) : Decidable (Lit D) := by unfold Lit; infer_instance
instance (D : Dims) : Decidable (Warm D) := by unfold Warm; infer_instance

/-- Downward at the top: isotropic light, unpolarised, azimuth independent. -/
def down (D : Dims) (v : Vals K) (s : Nat) : K :=
  if D.iFour = 0 ∧ s = 0 then v.isoTop else 0

/-- Upward at the bottom: isotropic light, the attenuated beam of flux `mu_0 F_0` reflected,
and emission with the emissivity that goes with the reflection (Kirchhoff). -/
def up (D : Dims) (v : Vals K) (d s : Nat) : K :=
  (if D.iFour = 0 ∧ s = 0 then v.isoBot else 0)
  + (if Lit D then v.qf * v.mu0 * v.F0 / v.pi * v.btran * direct D v d s else 0)
  + (if Warm D ∧ s = 0 then v.surfaceB * (1 - albedo D v d) else 0)

/-- `l` holds the derivatives at `t₀` of the inputs that depend on `t`. Elements of the
surface's linearised arrays only mean something where the surface depends on the parameter. -/
structure IsLin (v : ℝ → Vals ℝ) (l : Lins ℝ) (t₀ : ℝ) : Prop where
  qf : ∀ t, (v t).qf = (v t₀).qf
  mu0 : ∀ t, (v t).mu0 = (v t₀).mu0
  F0 : ∀ t, (v t).F0 = (v t₀).F0
  pi : ∀ t, (v t).pi = (v t₀).pi
  isoTop : HasDerivAt (fun t => (v t).isoTop) l.isoTop t₀
  isoBot : HasDerivAt (fun t => (v t).isoBot) l.isoBot t₀
  btran : HasDerivAt (fun t => (v t).btran) l.btran t₀
  surfaceB : HasDerivAt (fun t => (v t).surfaceB) l.surfaceB t₀
  rsQ0 : ∀ i, HasDerivAt (fun t => (v t).rsQ0 i) (if l.layer then l.rsQ0 i else 0) t₀
  rsU0 : ∀ i, HasDerivAt (fun t => (v t).rsU0 i) (if l.layer then l.rsU0 i else 0) t₀
  rsQq : ∀ i j, HasDerivAt (fun t => (v t).rsQq i j) (if l.layer then l.rsQq i j else 0) t₀
  rsUq : ∀ i j, HasDerivAt (fun t => (v t).rsUq i j) (if l.layer then l.rsUq i j else 0) t₀

end Xrtm.Boundary.Spec
