import Mathlib.LinearAlgebra.Matrix.NonsingularInverse

/-!
# Programs of matrix and vector calls

The adding, doubling and radiance routines of xrtm are straight lines of calls of the small matrix library
(`misc/gmatrix.h`, `misc/gvector.h`) on arrays given by address. Whether two arguments are the same array matters:
`dmat_mul` and `dm_v_mul` write their result while they still read their operands. The model keeps addresses:
a program is a list of instructions on a memory, a call whose result overlaps what it still reads is a fault of
its own, and so is the `exit(1)` of `dmat_getrf` on a singular matrix.

Numbers: any commutative ring (exact arithmetic, no rounding).
-/

namespace Xrtm.Mat

/-- Matrix arrays: arrays of the caller, and scratch arrays a routine gets for itself from the work space
(`get_work1`). Scratch arrays are distinct from each other and from everything else (C20, C39). -/
inductive MCell
  | ext (a : Nat)
  | scratch (k : Nat)
deriving DecidableEq

/-- Vector arrays. -/
inductive VCell
  | ext (a : Nat)
  | scratch (k : Nat)
deriving DecidableEq

variable {K : Type} {n : Nat}

abbrev M (n : Nat) (K : Type) := Matrix (Fin n) (Fin n) K
abbrev V (n : Nat) (K : Type) := Fin n → K

structure Mem (n : Nat) (K : Type) where
  m : MCell → M n K
  v : VCell → V n K

def Mem.setM (s : Mem n K) (c : MCell) (x : M n K) : Mem n K :=
  { s with m := fun c' => if c' = c then x else s.m c' }

def Mem.setV (s : Mem n K) (c : VCell) (x : V n K) : Mem n K :=
  { s with v := fun c' => if c' = c then x else s.v c' }

/-- The calls used. Arguments in the order of the C calls. -/
inductive Instr (K : Type)
  /-- `dmat_mul(a, b, n, n, n, c)`: `c = a b`, `misc/gmatrix.h:404-434`. -/
  | mul (a b c : MCell)
  /-- `dmat_gxgxmx(0, a, 0, b, 1., c, 1., n, n, n)`: `c = a b + c`, 438-530. -/
  | gemm (a b c : MCell)
  /-- `dmat_add(a, b, c, n, n)`. -/
  | add (a b c : MCell)
  /-- `dmat_sub(a, b, c, n, n)`, 240-250. -/
  | sub (a b c : MCell)
  /-- `dmat_i_sub(b, c, n)`: `c = 1 - b`, 301-313. -/
  | isub (b c : MCell)
  /-- `dmat_trans(a, c, n, n)`. -/
  | trans (a c : MCell)
  /-- `dmat_copy(c, a, n, n)`. -/
  | copy (c a : MCell)
  /-- `dmat_zero(c, n, n)`. -/
  | zero (c : MCell)
  /-- `dmat_getrf(a, n, n, ipiv)`, 980-989: factors in place, `exit(1)` if singular. The cell keeps the matrix the
  factors stand for. -/
  | getrf (a : MCell)
  /-- `dmat_getrs(a, b, n, n, ipiv)`, 1019-1037. LAPACK sees the transposes, and `trans` is flipped: afterwards
  `a bᵀ` is the old `bᵀ`. -/
  | getrs (a b : MCell)
  /-- `dmat_getrs(a, &b, n, 1, ipiv)` on one vector: afterwards `a b` is the old `b`. -/
  | getrsV (a : MCell) (b : VCell)
  /-- `dm_v_mul(a, b, n, n, c)`, 331-356. -/
  | mulV (a : MCell) (b c : VCell)
  /-- `dvec_add(a, b, c, n)`. -/
  | addV (a b c : VCell)
  /-- `dvec_scale(t, b, c, n)`. -/
  | scaleV (t : K) (b c : VCell)
  /-- `dvec_copy(c, a, n)`. -/
  | copyV (c a : VCell)
  /-- `dvec_zero(c, n)`. -/
  | zeroV (c : VCell)

/-- What goes wrong: a result that overlaps an operand, `exit(1)` because a matrix is singular, `exit(1)` because a
case is not implemented. -/
inductive Fault
  | overlap
  | singular
  | exit
deriving DecidableEq

variable [CommRing K] (inv? : M n K → Option (M n K))

/-- One call. `inv?` stands for the LAPACK factorisation: `none` for a singular matrix. -/
def step (s : Mem n K) : Instr K → Except Fault (Mem n K)
  | .mul a b c => if c = a ∨ c = b then .error .overlap else .ok (s.setM c (s.m a * s.m b))
  | .gemm a b c => if c = a ∨ c = b then .error .overlap else .ok (s.setM c (s.m a * s.m b + s.m c))
  | .add a b c => .ok (s.setM c (s.m a + s.m b))
  | .sub a b c => .ok (s.setM c (s.m a - s.m b))
  | .isub b c => .ok (s.setM c (1 - s.m b))
  | .trans a c => if c = a then .error .overlap else .ok (s.setM c (s.m a).transpose)
  | .copy c a => .ok (s.setM c (s.m a))
  | .zero c => .ok (s.setM c 0)
  | .getrf a => if (inv? (s.m a)).isSome then .ok s else .error .singular
  | .getrs a b =>
      if a = b then .error .overlap else
      match inv? (s.m a) with
      | some x => .ok (s.setM b (x * (s.m b).transpose).transpose)
      | none => .error .singular
  | .getrsV a b =>
      match inv? (s.m a) with
      | some x => .ok (s.setV b (x.mulVec (s.v b)))
      | none => .error .singular
  | .mulV a b c => if c = b then .error .overlap else .ok (s.setV c ((s.m a).mulVec (s.v b)))
  | .addV a b c => .ok (s.setV c (s.v a + s.v b))
  | .scaleV t b c => .ok (s.setV c (t • s.v b))
  | .copyV c a => .ok (s.setV c (s.v a))
  | .zeroV c => .ok (s.setV c 0)

def run : List (Instr K) → Mem n K → Except Fault (Mem n K)
  | [], s => .ok s
  | i :: is, s =>
      match step inv? s i with
      | .ok s' => run is s'
      | .error e => .error e

/-- The factorisation is right: it fails exactly for singular matrices. -/
def Exact : Prop := ∀ a b : M n K, inv? a = some b ↔ a * b = 1

end Xrtm.Mat
