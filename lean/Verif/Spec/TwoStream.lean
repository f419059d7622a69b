import Verif.Model.TwoStream
import Verif.Spec.Legendre
import Verif.Spec.Stack

/-!
# The atmosphere of the two stream solver

Layers with two coefficients of the phase function, one direction up and one down.
From the model only the record of inputs is taken.
-/

namespace Xrtm.TwoStream.Spec
open Xrtm.Transfer Xrtm.Legendre.Spec

/-- The Fourier term of the phase function with the coefficients 1 and `g`, by the
theorem of addition. -/
noncomputable def phase (first : Bool) (g x y : ℝ) : ℝ :=
  let m := if first then 0 else 1
  eps m * ∑ k ∈ Finset.range 2, (if k = 0 then 1 else g) * (Y m k x * Y m k y)

variable (z : Inp)

/-- What scatters in a layer. -/
noncomputable def medium (i : Nat) : Medium 1 :=
  Medium.of z.first (fun _ => z.qx) (fun _ => 1) (z.om i)
    (fun _ _ => phase z.first (z.g i) z.qx z.qx) (fun _ _ => phase z.first (z.g i) (-z.qx) z.qx)
    (fun _ _ => phase z.first (z.g i) (-z.qx) (-z.qx)) fun _ _ => phase z.first (z.g i) z.qx (-z.qx)

/-- The layers under the beam, which goes down (`-mu0`), over the ground, which
reflects the beam and the light; no light comes from the sky. -/
noncomputable def stack : Stack 1 where
  L := z.L
  med := medium z
  T := z.ltau
  qp := fun i τ j => if z.solar then
    z.btran i * beamSource z.F0 (z.om i) (z.as0 i) (fun _ => phase z.first (z.g i) z.qx (-z.mu0)) τ j else 0
  qm := fun i τ j => if z.solar then
    z.btran i * beamSource z.F0 (z.om i) (z.as0 i) (fun _ => phase z.first (z.g i) (-z.qx) (-z.mu0)) τ j else 0
  top := 0
  bot := fun _ => if z.solar && z.surface then z.F0 * z.mu0 / Real.pi * z.btran z.L * z.Rq0 else 0
  Rs := fun _ _ => if z.surface then z.Rqq else 0

/-- What is asked of the inputs: cosines are, and what is left of the beam at the
bottom of a layer of what came to its top is that of its rate of decay. -/
structure Fine (z : Inp) : Prop where
  one : 1 ≤ z.L
  q0 : z.qx ≠ 0
  q1 : z.qx ^ 2 ≤ 1
  m1 : z.mu0 ^ 2 ≤ 1
  decay : ∀ i, i < z.L → z.atran i = Real.exp (-z.ltau i * z.as0 i)

end Xrtm.TwoStream.Spec
