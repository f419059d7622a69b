import Mathlib.Data.Real.Basic
import Mathlib.Algebra.BigOperators.Group.Finset.Basic
import Mathlib.LinearAlgebra.Matrix.Notation

/-!
# The forward peak

Light that goes straight on keeps its polarisation: the scattering matrix of the peak is the peak
times the identity.
-/

namespace Xrtm.DeltaM

/-- The peak in `n` Legendre polynomials with values `p`, times the identity. -/
def peak (n : Nat) (p : Nat → ℝ) (r c : Fin 4) : ℝ :=
  if r = c then ∑ j ∈ Finset.range n, (2 * (j : ℝ) + 1) * p j else 0

/-- The scattering matrix of particles turned every way, from its six functions. -/
def sixMatrix (a1 a2 a3 a4 b1 b2 : ℝ) : Matrix (Fin 4) (Fin 4) ℝ :=
  !![a1, b1, 0, 0; b1, a2, 0, 0; 0, 0, a3, b2; 0, 0, -b2, a4]

/-- The matrix `F` is the part `f` of the peak and the part `1 - f` of `G`. -/
def Splits (f : ℝ) (F P G : Fin 4 → Fin 4 → ℝ) : Prop := ∀ r c, F r c = f * P r c + (1 - f) * G r c

end Xrtm.DeltaM
