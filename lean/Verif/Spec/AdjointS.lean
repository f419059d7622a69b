import Verif.Model.AdjointS

/-!
# What weights of inputs give for a derivative of the inputs
-/

namespace Xrtm.AdjointS
open Matrix Xrtm.Source Xrtm.Radiance Xrtm.Spec

variable {n : Nat}

/-- ... of the solution for the beam. -/
def sunPair (w d : Sun n) : ℝ :=
  w.om * d.om + w.as0 * d.as0 + vpair w.Pmm d.Pmm + vpair w.Ppm d.Ppm + mpair w.tpr d.tpr + mpair w.tmr d.tmr +
    mpair w.gamma d.gamma

/-- ... of the sources of a layer. -/
def gPair (w d : GW n) : ℝ :=
  w.atran * d.atran + mpair w.Rp d.Rp + mpair w.Tp d.Tp + mpair w.Rm d.Rm + mpair w.Tm d.Tm + vpair w.Fp d.Fp +
    vpair w.Fm d.Fm

/-- ... of the radiances. -/
def atmPair (w d : Atm n ℝ) : ℝ :=
  mpair w.Rp d.Rp + mpair w.Tp d.Tp + mpair w.Rm d.Rm + mpair w.Tm d.Tm + vpair w.Sp d.Sp + vpair w.Sm d.Sm +
    mpair w.Rs d.Rs + vpair w.In d.In + vpair w.I1 d.I1

/-- What the weights of the outputs give for derivatives of the outputs. -/
def outPair (ul : List Nat) (up dn : Nat → V n) (out : Nat → Radiance.Pair n ℝ) : ℝ :=
  ∑ k ∈ Finset.range ul.length, (vpair (up k) (out k).1 + vpair (dn k) (out k).2)

end Xrtm.AdjointS
