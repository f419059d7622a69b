import Mathlib.Data.BitVec
import Mathlib.Tactic.Ring
import Mathlib.Tactic.Tauto

/-!
# C integer words used as bit sets, and API return codes

XRTM stores options, solvers, outputs and dependency flags in 32 bit `int`s
(`src/xrtm_interface.h:41-111`, `src/xrtm_model.h:24-60`).
-/

namespace Xrtm

/-- A C `int` used as a bit set. -/
abbrev Word := BitVec 32

/-- `(1L << k)` (`src/xrtm_interface.h:42-110`). -/
def bit (k : Nat) : Word := BitVec.twoPow 32 k

/-- The C truth value of `(w & m)`. -/
def has (w m : Word) : Bool := (w &&& m) != 0#32

/-- `XRTM_INT_ERROR` = `-INT_MAX` (`src/xrtm_interface.h:33`). -/
def xrtmIntError : Int := -2147483647

/-- The size arguments of the creation call, as given by the user
(`xrtm_create_misc`, `src/xrtm_interface.c:785`). C `int`s are unbounded here: the
only arithmetic done on them before the checks finish is `2 * n_quad + 1`, which
overflows (undefined behaviour in C, not modelled) only for `n_quad >= 2^30`. -/
structure Counts where
  maxCoef : Int
  nQuad : Int
  nStokes : Int
  nDerivs : Int
  nLayers : Int
  nTheta0s : Int
  nKernels : Int
  nKernelQuad : Int
  nOutLevels : Int
  nOutThetas : Int
  deriving DecidableEq, Repr

end Xrtm
