import Mathlib.Algebra.Polynomial.Derivative
import Mathlib.Data.Real.Sqrt

/-!
# Legendre polynomials, as the mathematics has them
-/

namespace Xrtm.Legendre.Spec
open Polynomial

/-- The Legendre polynomial of degree `l`, by the formula of Rodrigues. -/
noncomputable def legendre (l : ℕ) : ℝ[X] :=
  C (1 / (2 ^ l * (l.factorial : ℝ))) * derivative^[l] ((X ^ 2 - 1) ^ l)

/-- The associated Legendre function of order `m` and degree `l`, with the sign
of Condon and Shortley, so normalised that no factor is left in the theorem of
addition. -/
noncomputable def Y (m l : ℕ) (x : ℝ) : ℝ :=
  (-1) ^ m * √(((l - m).factorial : ℝ) / ((l + m).factorial : ℝ)) * √(1 - x ^ 2) ^ m *
    (derivative^[m] (legendre l)).eval x

/-- The weight of a Fourier term: one for the first, two for the others. -/
def eps (m : ℕ) : ℝ := if m = 0 then 1 else 2

end Xrtm.Legendre.Spec
