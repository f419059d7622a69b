import Verif.Spec.Legendre
import Mathlib.Algebra.Polynomial.Roots
import Mathlib.Analysis.SpecialFunctions.Integrals.Basic

/-!
# What a rule of quadrature is for
-/

namespace Xrtm.Gauss
open Polynomial

/-- The sum over the points is the integral, for this polynomial. -/
def Integrates (n : Nat) (x w : Nat → ℝ) (a b : ℝ) (f : ℝ[X]) : Prop :=
  ∑ i ∈ Finset.range n, w i * f.eval (x i) = ∫ t in a..b, f.eval t

/-- `z` is a zero of the Legendre polynomial of degree `n`, and `i` zeros are
greater. -/
def IsZero (n i : Nat) (z : ℝ) : Prop :=
  (Legendre.Spec.legendre n).eval z = 0 ∧
    (((Legendre.Spec.legendre n).roots.toFinset).filter fun t => z < t).card = i

/-- An even polynomial. -/
def Even (f : ℝ[X]) : Prop := ∀ t, f.eval (-t) = f.eval t

end Xrtm.Gauss
