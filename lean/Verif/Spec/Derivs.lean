import Mathlib.Data.Real.Basic
import Verif.Model.Derivs

/-!
# What may depend on what

The inputs that have a linearisation, and for each quantity the inputs it can depend on. Only the record
of inputs is shared with the model.
-/

namespace Xrtm.Derivs

/-- An input with a linearisation. -/
inductive Par
  | ltau (i : Nat) | omega (i : Nat) | coef (i k l : Nat)
  | ampfac (k : Nat) | param (k l : Nat)
  | levelB (i : Nat) | surfaceB | isoTop | isoBot
  deriving DecidableEq

variable {F : Type} (x : LinIn F)

/-- Its derivative number `j`. -/
def pert (j : Nat) : Par → F
  | .ltau i => x.ltauL i j
  | .omega i => x.omegaL i j
  | .coef i k l => x.coefL i j k l
  | .ampfac k => x.ampfacL k j
  | .param k l => x.paramsL k j l
  | .levelB i => x.levelsBL i j
  | .surfaceB => x.surfaceBL j
  | .isoTop => x.isoTopL j
  | .isoBot => x.isoBotL j

/-- Reflection and transmission of layer `i`. -/
def OfLayer (i : Nat) : Par → Prop
  | .ltau i' => i' = i
  | .omega i' => i' = i
  | .coef i' k l => i' = i ∧ k < x.nElem ∧ l < x.nCoefLayer i
  | _ => False

/-- Reflection of the surface, for the Fourier terms where it is not zero. -/
def OfSurface : Par → Prop
  | .ampfac k => k < x.nKernels
  | .param k l => k < x.nKernels ∧ l < x.nParams k
  | _ => False

/-- Reflection and transmission of row `i`: layer or, at `n`, surface. `surf`: the surface takes part. -/
def OfRow (surf : Prop) (i : Nat) (p : Par) : Prop :=
  (i < x.nLayers ∧ OfLayer x i p) ∨ (i = x.nLayers ∧ surf ∧ OfSurface x p)

/-- Sources of solar light in row `i`: everything the light met on the way, and the row itself. -/
def OfSolar (surf : Prop) (i : Nat) (p : Par) : Prop := ∃ k ≤ i, OfRow x surf k p

/-- Thermal emission of row `i`. -/
def OfThermal (surf : Prop) (i : Nat) (p : Par) : Prop :=
  OfRow x surf i p ∨ (i < x.nLayers ∧ (p = .levelB i ∨ p = .levelB (i + 1))) ∨ (i = x.nLayers ∧ p = .surfaceB)

def OfSource (surf : Prop) (i : Nat) (p : Par) : Prop :=
  (x.solar = true ∧ OfSolar x surf i p) ∨ (x.thermal = true ∧ OfThermal x surf i p)

/-- Derivative `j` reaches a quantity that depends on `D`. -/
def Reaches [Zero F] (j : Nat) (D : Par → Prop) : Prop := ∃ p, D p ∧ pert x j p ≠ 0

/-- A function of the inputs that looks only at `D`. -/
def DependsOn {V : Type} (q : (Par → ℝ) → V) (D : Par → Prop) : Prop :=
  ∀ a b, (∀ p, D p → a p = b p) → q a = q b

end Xrtm.Derivs
