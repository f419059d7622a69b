import Verif.Spec.Adding

/-!
# A layer that looks the same from above and below

Seen from below such a layer is its own mirror image. With polarised light the mirror image changes the sign of some
components: `D`, with `D D = 1`. (Without polarisation `D = 1`.)
-/

namespace Xrtm.Spec

variable {n : Nat} {K : Type} [CommRing K]

/-- The layer with `D R` for light from below, `T` for light that goes up, own light `p` up and `D m` down. -/
def Layer.sym (D R T : Matrix (Fin n) (Fin n) K) (p m : Fin n → K) : Layer n K :=
  ⟨R * D, D * T * D, D.mulVec m, D * R, T, p⟩

/-- `N` equal layers whose own light is dimmed from one to the next by `t`. -/
def dimming (N : Nat) (t : K) (D R T : Matrix (Fin n) (Fin n) K) (p m : Fin n → K) : List (Layer n K) :=
  (List.range N).map fun i => Layer.sym D R T (t ^ i • p) (t ^ i • m)

/-- `N` equal layers whose own light grows linearly. -/
def growing (N : Nat) (g : K) (D R T : Matrix (Fin n) (Fin n) K) (p m lp lm : Fin n → K) : List (Layer n K) :=
  (List.range N).map fun i : Nat => Layer.sym D R T (p + ((i : K) * g) • lp) (m + ((i : K) * g) • lm)

end Xrtm.Spec
