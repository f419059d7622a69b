import Mathlib.LinearAlgebra.Matrix.NonsingularInverse
import Mathlib.Analysis.Calculus.Deriv.Basic

/-!
# What it means to put layers on top of each other

Light streams through a stack of layers in two directions, as vectors over the quadrature angles: `dn` down, `up` up.
A layer turns what comes in at its top and at its bottom into what goes out, and emits light of its own. Nothing here
refers to the routines.
-/

namespace Xrtm.Spec

variable {n : Nat} {K : Type} [CommRing K]

/-- A layer, in the names of the code: `m` acts on or is light that goes down, `p` up. -/
@[ext] structure Layer (n : Nat) (K : Type) where
  Rm : Matrix (Fin n) (Fin n) K
  Tm : Matrix (Fin n) (Fin n) K
  Sm : Fin n → K
  Rp : Matrix (Fin n) (Fin n) K
  Tp : Matrix (Fin n) (Fin n) K
  Sp : Fin n → K

/-- Light `dn1`, `up1` at the top and `dn2`, `up2` at the bottom of the layer is possible. -/
def Layer.Obeys (l : Layer n K) (dn1 up1 dn2 up2 : Fin n → K) : Prop :=
  up1 = l.Rm.mulVec dn1 + l.Tp.mulVec up2 + l.Sp ∧ dn2 = l.Tm.mulVec dn1 + l.Rp.mulVec up2 + l.Sm

/-- The layer with its own light dimmed by `t`. -/
def Layer.dim (t : K) (l : Layer n K) : Layer n K := { l with Sm := t • l.Sm, Sp := t • l.Sp }

/-- `r` is what `top` and `bot` are together: the same light gets through. -/
def Stacked (top bot r : Layer n K) : Prop :=
  ∀ dn1 up1 dn3 up3, r.Obeys dn1 up1 dn3 up3 ↔
    ∃ dn2 up2, top.Obeys dn1 up1 dn2 up2 ∧ bot.Obeys dn2 up2 dn3 up3

/-- Something opaque seen from above: it turns `dn` into `up`. -/
@[ext] structure Mirror (n : Nat) (K : Type) where
  R : Matrix (Fin n) (Fin n) K
  S : Fin n → K

def Mirror.Obeys (m : Mirror n K) (dn up : Fin n → K) : Prop := up = m.R.mulVec dn + m.S

def Mirror.dim (t : K) (m : Mirror n K) : Mirror n K := { m with S := t • m.S }

/-- `r` is what `top` and the mirror below it are together. -/
def Backed (top : Layer n K) (bot r : Mirror n K) : Prop :=
  ∀ dn1 up1, r.Obeys dn1 up1 ↔ ∃ dn2 up2, top.Obeys dn1 up1 dn2 up2 ∧ bot.Obeys dn2 up2

/-- Upside down. -/
def Layer.flip (l : Layer n K) : Layer n K := ⟨l.Rp, l.Tp, l.Sp, l.Rm, l.Tm, l.Sm⟩

/-- Light through a list of layers, from the top down. -/
def Through : List (Layer n K) → (dn up dn' up' : Fin n → K) → Prop
  | [], dn, up, dn', up' => dn' = dn ∧ up' = up
  | l :: ls, dn, up, dn', up' => ∃ a b, l.Obeys dn up a b ∧ Through ls a b dn' up'

/-- `r` is what the layers are together. -/
def Joined (ls : List (Layer n K)) (r : Layer n K) : Prop :=
  ∀ dn up dn' up', r.Obeys dn up dn' up' ↔ Through ls dn up dn' up'

/-- `m` is what the layers on top of `base` are together, seen from above. -/
def Resting (ls : List (Layer n K)) (base m : Mirror n K) : Prop :=
  ∀ dn up, m.Obeys dn up ↔ ∃ dn' up', Through ls dn up dn' up' ∧ base.Obeys dn' up'

/-- Nothing comes back. -/
def Mirror.dark : Mirror n K := ⟨0, 0⟩

/-- `m` is what the layers are together, seen from below with no light from above. -/
def Hanging (ls : List (Layer n K)) (m : Mirror n K) : Prop :=
  ∀ up' dn', m.Obeys up' dn' ↔ ∃ up, Through ls 0 up dn' up'

/-- `1 - R₂ R₁` of the two sides of an interface has an inverse: light between them dies out in one way only. -/
def Regular (below above : Matrix (Fin n) (Fin n) K) : Prop := ∃ q, q * (1 - below * above) = 1

/-- All interfaces met when the layers `ls` are added below `r`, one by one, are regular. -/
def ClearDown : Layer n K → List (Layer n K) → Prop
  | _, [] => True
  | r, b :: bs => Regular b.Rm r.Rp ∧ ∀ r', Stacked r b r' → ClearDown r' bs

/-- ... when the layers are put on the mirror `m`, one by one. -/
def ClearUp : Mirror n K → List (Layer n K) → Prop
  | _, [] => True
  | m, l :: ls => Regular m.R l.Rp ∧ ∀ m', Backed l m m' → ClearUp m' ls

/-- Results of adding the layers in any order of brackets. -/
inductive Bracketed : List (Layer n K) → Layer n K → Prop
  | one (l : Layer n K) : Bracketed [l] l
  | add {xs ys : List (Layer n K)} {a b r : Layer n K} :
      Bracketed xs a → Bracketed ys b → Stacked a b r → Bracketed (xs ++ ys) r

/-- Entry by entry, the derivative at `x` of a curve of matrices, of vectors. -/
def MDeriv (A : ℝ → Matrix (Fin n) (Fin n) ℝ) (A' : Matrix (Fin n) (Fin n) ℝ) (x : ℝ) : Prop :=
  ∀ i j, HasDerivAt (fun y => A y i j) (A' i j) x

def VDeriv (v : ℝ → Fin n → ℝ) (v' : Fin n → ℝ) (x : ℝ) : Prop := ∀ i, HasDerivAt (fun y => v y i) (v' i) x

/-- `l'` is the derivative at `x` of a curve of layers. -/
structure LDeriv (l : ℝ → Layer n ℝ) (l' : Layer n ℝ) (x : ℝ) : Prop where
  Rm : MDeriv (fun y => (l y).Rm) l'.Rm x
  Tm : MDeriv (fun y => (l y).Tm) l'.Tm x
  Sm : VDeriv (fun y => (l y).Sm) l'.Sm x
  Rp : MDeriv (fun y => (l y).Rp) l'.Rp x
  Tp : MDeriv (fun y => (l y).Tp) l'.Tp x
  Sp : VDeriv (fun y => (l y).Sp) l'.Sp x

structure RDeriv (r : ℝ → Mirror n ℝ) (r' : Mirror n ℝ) (x : ℝ) : Prop where
  R : MDeriv (fun y => (r y).R) r'.R x
  S : VDeriv (fun y => (r y).S) r'.S x

end Xrtm.Spec
