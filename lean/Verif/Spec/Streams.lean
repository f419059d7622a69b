import Verif.Model.Streams
import Verif.Spec.Legendre
import Verif.Spec.Stack

/-!
# The atmosphere of the four and six stream solvers

Layers under a beam, with as many coefficients of the phase function as there are
streams.  From the model only the record of inputs is taken.
-/

namespace Xrtm.Streams.Spec
open Xrtm.Transfer Xrtm.Legendre.Spec

/-- A Fourier term of the phase function with the coefficients `c`, by the theorem of
addition: `f` and `g` are the functions `Y` of the two directions. -/
noncomputable def same (m N : Nat) (c f g : Nat → ℝ) : ℝ :=
  eps m * ∑ l ∈ Finset.Ico m N, c l * (f l * g l)

/-- The same with one of the directions turned over; `Y m l (-x)` is `Y m l x` times the
sign. -/
noncomputable def other (m N : Nat) (c f g : Nat → ℝ) : ℝ :=
  eps m * ∑ l ∈ Finset.Ico m N, (-1) ^ (l + m) * (c l * (f l * g l))

variable {n : Nat} (f : Fin n → Nat → ℝ) (z : Inp n)

/-- What scatters in a layer; `f j` is the function of the direction `j`. -/
noncomputable def medium (i : Nat) : Medium n :=
  Medium.of (z.m == 0) z.qx z.qw (z.om i)
    (fun a b => same z.m (2 * n) (z.coef i) (f a) (f b)) (fun a b => other z.m (2 * n) (z.coef i) (f a) (f b))
    (fun a b => same z.m (2 * n) (z.coef i) (f a) (f b)) fun a b => other z.m (2 * n) (z.coef i) (f a) (f b)

/-- The layers under the beam, which goes down (`-mu0`), between the light from above and
the light from below, over the ground. -/
noncomputable def stack : Stack n where
  L := z.L
  med := medium f z
  T := z.ltau
  qp := fun i τ j => z.btran i * beamSource z.F0 (z.om i) (z.as0 i)
    (fun j => same z.m (2 * n) (z.coef i) (f j) fun l => Y z.m l (-z.mu0)) τ j
  qm := fun i τ j => z.btran i * beamSource z.F0 (z.om i) (z.as0 i)
    (fun j => other z.m (2 * n) (z.coef i) (f j) fun l => Y z.m l (-z.mu0)) τ j
  top := z.I1m
  bot := z.Inp
  Rs := if z.surface then z.Rs else 0

/-- What is asked of the inputs. -/
structure Fine (z : Inp n) : Prop where
  one : 1 ≤ z.L
  q0 : ∀ j, z.qx j ≠ 0
  m1 : z.mu0 ^ 2 ≤ 1
  decay : ∀ i, i < z.L → z.atran i = Real.exp (-z.ltau i * z.as0 i)
  /-- The layers are plane: the beam decays with the cosine of its angle. -/
  plane : ∀ i, i < z.L → z.as0 i * z.mu0 = 1
  sun : z.solar = true
  /-- No light comes from above. -/
  sky : z.I1m = 0
  /-- Light comes from below from the ground only. -/
  ground : z.surface = false → z.Inp = 0

/-- The two nodes of Gauss on the interval from 0 to 1. -/
noncomputable def node4 : Fin 2 → ℝ := ![(1 - √(1 / 3)) / 2, (1 + √(1 / 3)) / 2]

/-- The three. -/
noncomputable def node6 : Fin 3 → ℝ := ![(1 - √(3 / 5)) / 2, 1 / 2, (1 + √(3 / 5)) / 2]

end Xrtm.Streams.Spec
