import Verif.Spec.Adding

/-!
# What a reverse step has to keep

An adjoint is a list of weights, one for every number of a quantity: how fast the final answer grows with that number.
The weights, applied to a derivative, give the part of the derivative of the final answer that comes through that
quantity. A reverse step through `r = f(top, bot)` moves the weights of `r` to `top` and `bot`; what they give for any
derivative must stay the same. Nothing here refers to the routines.
-/

namespace Xrtm.Spec

variable {n : Nat} {K : Type} [CommRing K]

/-- Weights applied to a matrix, to a vector. -/
def mpair (a b : Matrix (Fin n) (Fin n) K) : K := ∑ i, ∑ j, a i j * b i j
def vpair (a b : Fin n → K) : K := ∑ i, a i * b i

/-- ... to a layer, to a mirror. -/
def Layer.pair (a b : Layer n K) : K :=
  mpair a.Rm b.Rm + mpair a.Tm b.Tm + vpair a.Sm b.Sm + mpair a.Rp b.Rp + mpair a.Tp b.Tp + vpair a.Sp b.Sp

def Mirror.pair (a b : Mirror n K) : K := mpair a.R b.R + vpair a.S b.S

end Xrtm.Spec
