import Verif.Spec.Legendre
import Verif.Spec.Transfer
import Mathlib.Analysis.SpecialFunctions.Integrals.Basic
import Mathlib.Analysis.SpecialFunctions.Trigonometric.Basic

/-!
# A phase function and its Fourier terms
-/

namespace Xrtm.Phase
open Polynomial Legendre.Spec

/-- The phase function with `nc` coefficients, at the cosine `c` of the angle of
scattering. -/
noncomputable def func (nc : Nat) (coef : Nat → ℝ) (c : ℝ) : ℝ :=
  ∑ k ∈ Finset.range nc, coef k * (legendre k).eval c

/-- The cosine of the angle between two directions. -/
noncomputable def angle (x y φ : ℝ) : ℝ := x * y + √(1 - x ^ 2) * √(1 - y ^ 2) * Real.cos φ

/-- The term of order `m` of its Fourier series in the azimuth. -/
noncomputable def fourier (m nc : Nat) (coef : Nat → ℝ) (x y : ℝ) : ℝ :=
  eps m / (2 * Real.pi) * ∫ φ in (0 : ℝ)..2 * Real.pi, func nc coef (angle x y φ) * Real.cos (m * φ)

/-- Cosines and weights good enough for `nc` coefficients. -/
structure Rule (n nc : Nat) (x w : Fin n → ℝ) : Prop where
  cos : ∀ j, 0 < x j ∧ x j ≤ 1
  weight : ∀ j, 0 < w j
  one : ∑ j, w j = 1
  even : ∀ k, 0 < k → 2 * k < nc → ∑ j, w j * (legendre (2 * k)).eval (x j) = 0

/-- What is scattered of the light `u`, `d`, weighted with it. -/
def scattered {n : Nat} (m : Transfer.Medium n) (u d : Fin n → ℝ) : ℝ :=
  ∑ j, m.w j * (u j * m.intoUp u d j + d j * m.intoDn u d j)

end Xrtm.Phase
