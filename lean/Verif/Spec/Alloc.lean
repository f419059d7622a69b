/-!
# Row-major arrays
-/

namespace Xrtm.Spec

/-- The place of an element counted in elements, after `acc` of the rows it is in. -/
def rowMajor (acc : Nat) : List Nat → List Nat → Nat
  | d :: ds, i :: is => rowMajor (acc * d + i) ds is
  | _, _ => acc

/-- One index for each dimension, each in range. -/
def InRange : List Nat → List Nat → Prop
  | [], [] => True
  | d :: ds, i :: is => i < d ∧ InRange ds is
  | _, _ => False

end Xrtm.Spec
