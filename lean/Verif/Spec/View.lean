import Verif.Spec.Stack
import Mathlib.Data.Fin.Tuple.Basic
import Mathlib.Algebra.BigOperators.Fin

/-!
# Light seen in further directions

Light in a stack scatters into directions that are not among those of the stack.
Nothing here refers to the routines.
-/

namespace Xrtm.Transfer

variable {m n : Nat}

/-- Further directions: their cosines; scattering into them, layer by layer; sources;
the light that comes in at the top and that the ground gives off; what the ground
reflects into them. -/
structure View (m n : Nat) where
  mu : Fin m → ℝ
  Ppp : Nat → Matrix (Fin m) (Fin n) ℝ
  Pmp : Nat → Matrix (Fin m) (Fin n) ℝ
  Pmm : Nat → Matrix (Fin m) (Fin n) ℝ
  Ppm : Nat → Matrix (Fin m) (Fin n) ℝ
  qp : Nat → ℝ → Fin m → ℝ
  qm : Nat → ℝ → Fin m → ℝ
  top : Fin m → ℝ
  bot : Fin m → ℝ
  Rs : Matrix (Fin m) (Fin n) ℝ

/-- `U` and `D` are the light in the further directions if `up` and `dn` is the light in
those of the stack. -/
structure View.Seen (v : View m n) (s : Stack n) (up dn : Nat → ℝ → Fin n → ℝ) (U D : Nat → ℝ → Fin m → ℝ) : Prop where
  layer : ∀ i, i < s.L → ∀ τ u, ∃ a b, HasDerivAt (fun t => U i t u) a τ ∧ HasDerivAt (fun t => D i t u) b τ ∧
    v.mu u * a = U i τ u - (s.med i).k * ∑ j, (s.med i).w j * (v.Ppp i u j * up i τ j + v.Ppm i u j * dn i τ j) - v.qp i τ u ∧
    -(v.mu u * b) = D i τ u - (s.med i).k * ∑ j, (s.med i).w j * (v.Pmp i u j * up i τ j + v.Pmm i u j * dn i τ j) - v.qm i τ u
  meet : ∀ i, i + 1 < s.L → U i (s.T i) = U (i + 1) 0 ∧ D i (s.T i) = D (i + 1) 0
  sky : D 0 0 = v.top
  ground : U (s.L - 1) (s.T (s.L - 1)) = v.bot + Matrix.mulVec v.Rs (dn (s.L - 1) (s.T (s.L - 1)))

/-- The light in them at a level of the stack. -/
def View.on (s : Stack n) (f : Nat → ℝ → Fin m → ℝ) (lev : Nat) : Fin m → ℝ :=
  if lev < s.L then f lev 0 else f (s.L - 1) (s.T (s.L - 1))

/-- Rows of one and of the other, with nothing in the further columns of them but `Q`. -/
def below (A : Matrix (Fin n) (Fin n) ℝ) (B : Matrix (Fin m) (Fin n) ℝ) (Q : Matrix (Fin (n + m)) (Fin m) ℝ) :
    Matrix (Fin (n + m)) (Fin (n + m)) ℝ := fun i =>
  Fin.append (Fin.append (fun a => A a : Fin n → Fin n → ℝ) (fun b => B b) i) (Q i)

/-- The stack with the further directions among its own, where they get no weight: nothing
is scattered out of them, whatever `Q` says. -/
def Stack.more (s : Stack n) (v : View m n) (Q : Nat → Matrix (Fin (n + m)) (Fin m) ℝ) : Stack (n + m) where
  L := s.L
  med := fun i => ⟨Fin.append (s.med i).mu v.mu, Fin.append (s.med i).w 0, (s.med i).k,
    below (s.med i).Ppp (v.Ppp i) (Q i), below (s.med i).Pmp (v.Pmp i) (Q i), below (s.med i).Pmm (v.Pmm i) (Q i),
    below (s.med i).Ppm (v.Ppm i) (Q i)⟩
  T := s.T
  qp := fun i τ => Fin.append (s.qp i τ) (v.qp i τ)
  qm := fun i τ => Fin.append (s.qm i τ) (v.qm i τ)
  top := Fin.append s.top v.top
  bot := Fin.append s.bot v.bot
  Rs := below s.Rs v.Rs 0

end Xrtm.Transfer
