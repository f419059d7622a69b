import Mathlib.Analysis.Calculus.Deriv.Basic
import Mathlib.Algebra.BigOperators.Fin

/-!
# What `xrtm_solution_2` is to do

The radiances are a finite list without gaps or repetitions, and each derivative is the derivative of a
radiance along the direction given by the derivatives of all inputs.
-/

namespace Xrtm.Solution2.Spec

/-- The inputs a radiance may depend on. `other` stands for those `xrtm_solution_2` does not look at:
isotropic sources, Planck terms, kernel parameters. -/
inductive Input
  | ampfac (j : Nat)
  | ltau (j : Nat)
  | omega (j : Nat)
  | coef (j l m : Nat)
  | other (n : Nat)
  deriving DecidableEq

/-- How much of each input there is. -/
structure Sizes where
  nKernels : Nat
  nLayers : Nat
  nElem : Nat
  nCoef : Nat → Nat
  nOther : Nat

/-- `Σ_x g x * v x` over all inputs. -/
noncomputable def along (z : Sizes) (g v : Input → ℝ) : ℝ :=
  (∑ j ∈ Finset.range z.nKernels, g (.ampfac j) * v (.ampfac j)) +
  (∑ j ∈ Finset.range z.nLayers, (g (.ltau j) * v (.ltau j) + g (.omega j) * v (.omega j) +
    ∑ l ∈ Finset.range z.nElem, ∑ m ∈ Finset.range (z.nCoef j), g (.coef j l m) * v (.coef j l m))) +
  ∑ n ∈ Finset.range z.nOther, g (.other n) * v (.other n)

/-- `g` is the gradient of the radiance `R` at `x`: along every path of the inputs through `x` the
radiance has the derivative the chain rule gives. -/
def IsGradient (z : Sizes) (R : (Input → ℝ) → ℝ) (x : Input → ℝ) (g : Input → ℝ) : Prop :=
  ∀ (path : ℝ → Input → ℝ) (v : Input → ℝ), path 0 = x → (∀ i, HasDerivAt (fun t => path t i) (v i) 0) →
    HasDerivAt (fun t => R (path t)) (along z g v) 0

end Xrtm.Solution2.Spec
