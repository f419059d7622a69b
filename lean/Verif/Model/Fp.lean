import Verif.Model.Word

/-!
# Number type of the state machine, API return codes, undefined behaviour

The state machine never computes with the physical inputs; it compares them with
limits and applies a few functions once.  All of this is uninterpreted here, so what
is proved for every `Fp F` holds for IEEE doubles (where the comparisons are false on
NaN) and for exact reals (`Verif.Model.FpReal`) alike.
-/

namespace Xrtm

/-- The operations on C `double` used by the setters and getters of
`src/xrtm_interface.c:2830-4930`. `a > b` is `lt b a`, `a >= b` is `le b a`. -/
class Fp (F : Type) where
  zero : F
  one : F
  /-- the literal `90.` -/
  ninety : F
  /-- C `<` -/
  lt : F → F → Bool
  /-- C `<=` -/
  le : F → F → Bool
  /-- C `==` -/
  eq : F → F → Bool
  add : F → F → F
  sub : F → F → F
  mul : F → F → F
  /-- `fabs` -/
  abs : F → F
  cos : F → F
  acos : F → F
  /-- `D2R`, `R2D` -/
  d2r : F
  r2d : F
  /-- `misc_input.threshold_mu_0_singlarity` -/
  muEps : F
  /-- `misc_input.threshold_omega_singlarity` -/
  omegaEps : F
  /-- `DBL_EPSILON` -/
  dblEps : F

variable {F : Type} [Fp F]

/-- `singularity_adjust_down` (`src/xrtm_utility.c:361-368`). -/
def adjustDown (base value eps : F) : F :=
  if Fp.lt (Fp.sub base value) eps then Fp.sub base eps else value

/-- `singularity_adjust_auto` (`src/xrtm_utility.c:371-385`): `a = base - value`. -/
def adjustAuto (base value eps : F) : F :=
  let a := Fp.sub base value
  if Fp.lt a Fp.zero && Fp.lt (Fp.sub Fp.zero eps) a then Fp.add base eps
  else if Fp.le Fp.zero a && Fp.lt a eps then Fp.sub base eps
  else value

/-- What an API function returns: `0` or a value, `-1` (from the macros
`CHECK_INIT_FOR_DERIVS`, `SOLUTION_PREPROCESS`), `XRTM_INT_ERROR`, `XRTM_DBL_ERROR`, or
`XRTM_INT_ERROR` converted to `double`. -/
inductive Code
  | ok | minusOne | intErr | dblErr | intErrAsDouble
  deriving DecidableEq, Repr

/-- Kinds of undefined behaviour: an index outside an array (or an array that was
not allocated / already freed), and reading a cell never written. -/
inductive UB
  | oob | uninit
  deriving DecidableEq, Repr

end Xrtm
