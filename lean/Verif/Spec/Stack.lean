import Verif.Spec.Transfer

/-!
# Light in a stack of media over a surface

Nothing here refers to the routines.
-/

namespace Xrtm.Transfer

variable {n : Nat}

/-- Layers, with the thickness and the sources of each; the light that comes in
at the top; the light that the ground gives off; and what the ground reflects. -/
structure Stack (n : Nat) where
  L : Nat
  med : Nat → Medium n
  T : Nat → ℝ
  qp : Nat → ℝ → Fin n → ℝ
  qm : Nat → ℝ → Fin n → ℝ
  top : Fin n → ℝ
  bot : Fin n → ℝ
  Rs : Matrix (Fin n) (Fin n) ℝ

/-- `up` and `dn`, by the layer and the depth in it, are the light in the stack. -/
structure Stack.Lit (s : Stack n) (up dn : Nat → ℝ → Fin n → ℝ) : Prop where
  layer : ∀ i, i < s.L → (s.med i).Carries (s.qp i) (s.qm i) (up i) (dn i)
  meet : ∀ i, i + 1 < s.L → up i (s.T i) = up (i + 1) 0 ∧ dn i (s.T i) = dn (i + 1) 0
  sky : dn 0 0 = s.top
  ground : up (s.L - 1) (s.T (s.L - 1)) = s.bot + Matrix.mulVec s.Rs (dn (s.L - 1) (s.T (s.L - 1)))

/-- The light at a level: at the top of the layer below it, or on the ground. -/
def Stack.on (s : Stack n) (f : Nat → ℝ → Fin n → ℝ) (lev : Nat) : Fin n → ℝ :=
  if lev < s.L then f lev 0 else f (s.L - 1) (s.T (s.L - 1))

end Xrtm.Transfer
