import Verif.Spec.Adding

/-!
# Light in an atmosphere over a surface

`dn1` comes in at the top. The light at the top and at the bottom has to obey what the layers do and what is below them, at
once.
-/

namespace Xrtm.Spec

variable {n : Nat} {K : Type} [CommRing K]

/-- Light `dn1`, `up1` at the top, `dn2`, `up2` at the bottom of the layers `ls` over `base` is possible. -/
def Lit (ls : List (Layer n K)) (base : Mirror n K) (dn1 up1 dn2 up2 : Fin n → K) : Prop :=
  Through ls dn1 up1 dn2 up2 ∧ base.Obeys dn2 up2

end Xrtm.Spec
