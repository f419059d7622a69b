import Verif.Model.Word

/-!
# Option, count and solver checks at creation, and the gate of `xrtm_solution`

Models `src/xrtm_interface.c:320-345`, `478-735`, `742-757`, `800-1020`, `5651-5703`.
The error messages (`report`) are not modelled.
-/

namespace Xrtm

/-! `enum xrtm_option_mask`, `src/xrtm_interface.h:42-76`. -/
def OPT_CALC_DERIVS : Word := bit 0
def OPT_REVERSE_DERIVS : Word := bit 1
def OPT_DELTA_M : Word := bit 2
def OPT_N_T_TMS : Word := bit 3
def OPT_FOUR_CONV_OLD : Word := bit 4
def OPT_FOUR_CONV_NEW : Word := bit 5
def OPT_NO_AZIMUTHAL : Word := bit 6
def OPT_OUTPUT_AT_LEVELS : Word := bit 7
def OPT_OUTPUT_AT_TAUS : Word := bit 8
def OPT_PART_SOL_CLASSICAL : Word := bit 9
def OPT_PART_SOL_GREENS : Word := bit 10
def OPT_PHASE_SCALAR : Word := bit 11
def OPT_PHASE_MATRIX_GC : Word := bit 12
def OPT_PHASE_MATRIX_LC : Word := bit 13
def OPT_PSA : Word := bit 14
def OPT_QUAD_NORM_GAUS_LEG : Word := bit 15
def OPT_QUAD_DOUB_GAUS_LEG : Word := bit 16
def OPT_QUAD_LOBATTO : Word := bit 17
def OPT_SAVE_LEG_POLYS : Word := bit 18
def OPT_SAVE_PHASE_MATS : Word := bit 19
def OPT_SAVE_LOCAL_R_T : Word := bit 20
def OPT_SAVE_LAYER_R_T_S : Word := bit 21
def OPT_SAVE_TOTAL_R_T_S : Word := bit 22
def OPT_SFI : Word := bit 23
def OPT_SOURCE_SOLAR : Word := bit 24
def OPT_SOURCE_THERMAL : Word := bit 25
def OPT_STACK_REUSE_ADDING : Word := bit 26
def OPT_TOP_DOWN_ADDING : Word := bit 27
def OPT_BOTTOM_UP_ADDING : Word := bit 28
def OPT_UPWELLING_OUTPUT : Word := bit 29
def OPT_DOWNWELLING_OUTPUT : Word := bit 30
def OPT_VECTOR : Word := bit 31

/-! `enum xrtm_solver_mask`, `src/xrtm_interface.h:87-97`. -/
def SOLVER_DOUB_ADD : Word := bit 0
def SOLVER_EIG_ADD : Word := bit 1
def SOLVER_EIG_BVP : Word := bit 2
def SOLVER_FOUR_STREAM : Word := bit 3
def SOLVER_MEM_BVP : Word := bit 4
def SOLVER_PADE_ADD : Word := bit 5
def SOLVER_SINGLE : Word := bit 6
def SOLVER_SIX_STREAM : Word := bit 7
def SOLVER_SOS : Word := bit 8
def SOLVER_TWO_OS : Word := bit 9
def SOLVER_TWO_STREAM : Word := bit 10

/-- `XRTM_SOLVERS_ALL` (`src/xrtm_support.h:47-60`): all eleven bits. -/
def SOLVER_ALL : Word := 0x7ff#32

/-! `enum xrtm_output_mask`, `src/xrtm_interface.h:107-110`. -/
def OUTPUT_RADIANCE : Word := bit 0
def OUTPUT_RADIANCE_MEAN : Word := bit 1
def OUTPUT_FLUX : Word := bit 2
def OUTPUT_FLUX_DIVERGENCE : Word := bit 3

/-- `XRTM_SOLUTION_ALL` (`src/xrtm_support.h:123`): all four bits. -/
def OUTPUT_ALL : Word := 0xf#32

/-- `check_solvers` (`src/xrtm_interface.c:320-343`): the variable argument list,
without its terminating `0`, is a list of masks. -/
def checkSolversList (solvers : Word) : List Word → Int
  | [] => 0
  | s :: rest => if has solvers s then -1 else checkSolversList solvers rest

/-- `xrtm_check_options` (`src/xrtm_interface.c:478-587`). -/
def checkOptions (o : Word) : Int :=
  if has o OPT_N_T_TMS && has o OPT_NO_AZIMUTHAL then xrtmIntError
  else if !(has o (OPT_FOUR_CONV_OLD ||| OPT_FOUR_CONV_NEW)) then xrtmIntError
  else if has o OPT_FOUR_CONV_OLD && has o OPT_FOUR_CONV_NEW then xrtmIntError
  else if !(has o (OPT_OUTPUT_AT_LEVELS ||| OPT_OUTPUT_AT_TAUS)) then xrtmIntError
  else if has o OPT_OUTPUT_AT_LEVELS && has o OPT_OUTPUT_AT_TAUS then xrtmIntError
  else if !(has o (OPT_PART_SOL_CLASSICAL ||| OPT_PART_SOL_GREENS)) then xrtmIntError
  else if has o OPT_PART_SOL_CLASSICAL && has o OPT_PART_SOL_GREENS then xrtmIntError
  else if !(has o (OPT_PHASE_SCALAR ||| OPT_PHASE_MATRIX_GC ||| OPT_PHASE_MATRIX_LC)) then
    xrtmIntError
  else if (has o OPT_PHASE_SCALAR && has o OPT_PHASE_MATRIX_GC) ||
      (has o OPT_PHASE_SCALAR && has o OPT_PHASE_MATRIX_LC) ||
      (has o OPT_PHASE_MATRIX_GC && has o OPT_PHASE_MATRIX_LC) then xrtmIntError
  else if !(has o (OPT_QUAD_NORM_GAUS_LEG ||| OPT_QUAD_DOUB_GAUS_LEG ||| OPT_QUAD_LOBATTO)) then
    xrtmIntError
  else if (has o OPT_QUAD_NORM_GAUS_LEG && has o OPT_QUAD_DOUB_GAUS_LEG) ||
      (has o OPT_QUAD_NORM_GAUS_LEG && has o OPT_QUAD_LOBATTO) ||
      (has o OPT_QUAD_DOUB_GAUS_LEG && has o OPT_QUAD_LOBATTO) then xrtmIntError
  else if has o OPT_SAVE_LAYER_R_T_S && has o OPT_STACK_REUSE_ADDING then xrtmIntError
  else if has o OPT_STACK_REUSE_ADDING && !(has o OPT_CALC_DERIVS) then xrtmIntError
  else if has o OPT_STACK_REUSE_ADDING && has o OPT_TOP_DOWN_ADDING then xrtmIntError
  else if has o OPT_TOP_DOWN_ADDING && has o OPT_BOTTOM_UP_ADDING then xrtmIntError
  else if !(has o (OPT_UPWELLING_OUTPUT ||| OPT_DOWNWELLING_OUTPUT)) then xrtmIntError
  else if !(has o OPT_VECTOR) && has o (OPT_PHASE_MATRIX_GC ||| OPT_PHASE_MATRIX_LC) then
    xrtmIntError
  else if has o OPT_VECTOR && !(has o (OPT_PHASE_MATRIX_GC ||| OPT_PHASE_MATRIX_LC)) then
    xrtmIntError
  else 0

/-- `xrtm_check_counts` (`src/xrtm_interface.c:594-633`). -/
def checkCounts (o : Word) (c : Counts) : Int :=
  if !(has o OPT_CALC_DERIVS) && decide (c.nDerivs > 0) then xrtmIntError
  else if has o OPT_CALC_DERIVS && decide (c.nDerivs = 0) then xrtmIntError
  else if has o OPT_DELTA_M && decide (c.maxCoef < 2 * c.nQuad + 1) then xrtmIntError
  else if has o OPT_SFI && decide (c.nOutThetas = 0) then xrtmIntError
  else if has o OPT_TOP_DOWN_ADDING && decide (c.nOutLevels ≠ 1) then xrtmIntError
  else if has o OPT_BOTTOM_UP_ADDING && decide (c.nOutLevels ≠ 1) then xrtmIntError
  else if !(has o OPT_VECTOR) && decide (c.nStokes > 1) then xrtmIntError
  else 0

/-- `if (cond) { if (check_solvers(solvers, ..., masks, 0)) return e; } ...` -/
def excludeIf (cond : Bool) (solvers : Word) (masks : List Word) (e : Int) (k : Int) : Int :=
  if cond && decide (checkSolversList solvers masks ≠ 0) then e else k

/-- `xrtm_check_solvers` (`src/xrtm_interface.c:640-735`), without the
`INCLUDE_DEV_SOURCE` extension. -/
def checkSolvers (o s : Word) (c : Counts) : Int :=
  excludeIf (c.nQuad ≠ 1) s [SOLVER_TWO_STREAM] xrtmIntError <|
  excludeIf (c.nQuad ≠ 2) s [SOLVER_FOUR_STREAM] xrtmIntError <|
  excludeIf (c.nQuad ≠ 3) s [SOLVER_SIX_STREAM] xrtmIntError <|
  excludeIf (c.nTheta0s ≠ 1) s
    [SOLVER_EIG_ADD, SOLVER_EIG_BVP, SOLVER_FOUR_STREAM, SOLVER_MEM_BVP, SOLVER_PADE_ADD,
     SOLVER_SINGLE, SOLVER_SIX_STREAM, SOLVER_SOS, SOLVER_TWO_OS, SOLVER_TWO_STREAM]
    xrtmIntError <|
  excludeIf (c.nOutLevels > 2) s
    [SOLVER_DOUB_ADD, SOLVER_EIG_ADD, SOLVER_PADE_ADD, SOLVER_SOS, SOLVER_TWO_OS] xrtmIntError <|
  excludeIf (decide (c.nOutThetas > 0) && !(has o OPT_SFI)) s
    [SOLVER_TWO_STREAM, SOLVER_FOUR_STREAM, SOLVER_SIX_STREAM] xrtmIntError <|
  excludeIf (has o OPT_DELTA_M && !(has o OPT_N_T_TMS)) s [SOLVER_SINGLE] xrtmIntError <|
  excludeIf (has o OPT_N_T_TMS) s [SOLVER_TWO_OS] xrtmIntError <|
  excludeIf (has o OPT_NO_AZIMUTHAL) s [SOLVER_SINGLE] xrtmIntError <|
  excludeIf (has o OPT_OUTPUT_AT_TAUS) s
    [SOLVER_DOUB_ADD, SOLVER_EIG_ADD, SOLVER_PADE_ADD, SOLVER_SOS] xrtmIntError <|
  excludeIf (has o OPT_QUAD_LOBATTO) s
    [SOLVER_DOUB_ADD, SOLVER_EIG_ADD, SOLVER_EIG_BVP, SOLVER_FOUR_STREAM, SOLVER_MEM_BVP,
     SOLVER_PADE_ADD, SOLVER_SINGLE, SOLVER_SIX_STREAM, SOLVER_SOS, SOLVER_TWO_OS,
     SOLVER_TWO_STREAM] (-1) <|
  excludeIf (has o OPT_SFI) s
    [SOLVER_DOUB_ADD, SOLVER_EIG_ADD, SOLVER_MEM_BVP, SOLVER_PADE_ADD, SOLVER_SOS]
    xrtmIntError <|
  excludeIf (!(has o OPT_SOURCE_SOLAR)) s
    [SOLVER_MEM_BVP, SOLVER_SINGLE, SOLVER_SOS, SOLVER_TWO_OS] xrtmIntError <|
  excludeIf (has o OPT_SOURCE_THERMAL) s
    [SOLVER_FOUR_STREAM, SOLVER_MEM_BVP, SOLVER_SINGLE, SOLVER_SIX_STREAM, SOLVER_SOS,
     SOLVER_TWO_OS, SOLVER_TWO_STREAM] xrtmIntError <|
  excludeIf (has o OPT_STACK_REUSE_ADDING) s
    [SOLVER_EIG_BVP, SOLVER_MEM_BVP, SOLVER_SINGLE, SOLVER_SOS, SOLVER_TWO_OS] xrtmIntError <|
  excludeIf (has o OPT_TOP_DOWN_ADDING) s
    [SOLVER_EIG_BVP, SOLVER_MEM_BVP, SOLVER_SINGLE, SOLVER_SOS, SOLVER_TWO_OS] xrtmIntError <|
  excludeIf (has o OPT_BOTTOM_UP_ADDING) s
    [SOLVER_EIG_BVP, SOLVER_MEM_BVP, SOLVER_SINGLE, SOLVER_SOS, SOLVER_TWO_OS] xrtmIntError <|
  0

/-- `d->options |= m` guarded by a condition. -/
def orIf (c : Bool) (o m : Word) : Word := if c then o ||| m else o

/-- "Implicit configuration settings" of `xrtm_create_misc`
(`src/xrtm_interface.c:896-923`). -/
def implicitOptions (o : Word) (c : Counts) : Word :=
  let o := orIf (c.nStokes > 1) o OPT_VECTOR
  let o := orIf (has o OPT_N_T_TMS) o OPT_DELTA_M
  let o := orIf (!(has o (OPT_FOUR_CONV_OLD ||| OPT_FOUR_CONV_NEW))) o OPT_FOUR_CONV_NEW
  let o := orIf (!(has o (OPT_PART_SOL_CLASSICAL ||| OPT_PART_SOL_GREENS))) o
    OPT_PART_SOL_CLASSICAL
  let o :=
    if !(has o (OPT_PHASE_SCALAR ||| OPT_PHASE_MATRIX_GC ||| OPT_PHASE_MATRIX_LC)) then
      if !(has o OPT_VECTOR) then o ||| OPT_PHASE_SCALAR else o ||| OPT_PHASE_MATRIX_GC
    else o
  let o := orIf (!(has o (OPT_QUAD_NORM_GAUS_LEG ||| OPT_QUAD_DOUB_GAUS_LEG |||
    OPT_QUAD_LOBATTO))) o OPT_QUAD_DOUB_GAUS_LEG
  orIf (!(has o (OPT_UPWELLING_OUTPUT ||| OPT_DOWNWELLING_OUTPUT))) o
    (OPT_UPWELLING_OUTPUT ||| OPT_DOWNWELLING_OUTPUT)

/-- The range checks of `xrtm_create_misc` before the kernels are looked at
(`src/xrtm_interface.c:830-878`); `true` = in range. -/
def rangesOk1 (c : Counts) : Bool :=
  !(decide (c.maxCoef < 0)) && !(decide (c.nQuad ≤ 0)) &&
  !(decide (c.nStokes ≤ 0) || decide (c.nStokes > 4)) && !(decide (c.nDerivs < 0)) &&
  !(decide (c.nLayers ≤ 0)) && !(decide (c.nTheta0s ≤ 0)) && !(decide (c.nKernels < 0)) &&
  !(decide (c.nKernels > 0) && decide (c.nKernelQuad ≤ 0))

/-- `kernel_is_valid` (`src/xrtm_brdf.c:61`). -/
def kernelIsValid (k : Int) : Bool := !(decide (k < 0) || decide (k ≥ 11))

/-- The configuration fields `xrtm_create_misc` leaves in `*d` on success
(`src/xrtm_interface.c:806-1020`, `1100-1115`). -/
structure Config where
  options : Word
  solvers : Word
  nCoef : Int
  nCoef2 : Int
  nFour : Int
  nElem : Int
  nQuad : Int
  nQuadX : Int
  nQuadD : Int
  nStokes : Int
  nDerivs : Int
  nLayers : Int
  nTheta0s : Int
  nKernels : Int
  nOutLevels : Int
  nOutThetas : Int
  nOutThetas2 : Int
  deriving DecidableEq, Repr

/-- `n_four` (`src/xrtm_interface.c:990-1009`). -/
def nFourOf (o : Word) (c : Counts) : Int :=
  if has o OPT_NO_AZIMUTHAL then 1
  else if c.maxCoef = 0 then 1
  else if c.maxCoef ≤ 2 * c.nQuad then c.maxCoef
  else 2 * c.nQuad

/-- `n_coef2` (`src/xrtm_interface.c:990-1006`). -/
def nCoef2Of (c : Counts) : Int :=
  if c.maxCoef = 0 then 0
  else if c.maxCoef ≤ 2 * c.nQuad then c.maxCoef
  else 2 * c.nQuad

/-- The fields filled in after all checks passed. `o` is the completed option
word. -/
def configOf (o s : Word) (c : Counts) : Config where
  options := orIf (has o OPT_PHASE_MATRIX_LC) o OPT_SAVE_PHASE_MATS
  solvers := s
  nCoef := c.maxCoef
  nCoef2 := nCoef2Of c
  nFour := nFourOf o c
  nElem := if c.nStokes = 1 then 1 else 6
  nQuad := c.nQuad
  nQuadX := if !(has o OPT_SFI) then c.nQuad + c.nOutThetas else c.nQuad
  nQuadD := c.nQuad + c.nOutThetas
  nStokes := c.nStokes
  nDerivs := if !(has o OPT_CALC_DERIVS) then 0 else c.nDerivs
  nLayers := c.nLayers
  nTheta0s := c.nTheta0s
  nKernels := c.nKernels
  nOutLevels := c.nOutLevels
  nOutThetas := c.nOutThetas
  nOutThetas2 := if c.nOutThetas = 0 then c.nQuad else c.nOutThetas

/-- `xrtm_create_misc` (`src/xrtm_interface.c:785-1020`): either an error code or
the configuration. `kernels` is the array argument, of `n_kernels` entries (the
first `n_kernels` entries are read). The allocation that follows is modelled in
`Verif.Model.Alloc`; it cannot fail here. -/
def create (options solvers : Word) (c : Counts) (kernels : List Int) : Except Int Config :=
  if !(rangesOk1 c) then .error xrtmIntError
  else if !((kernels.take c.nKernels.toNat).all kernelIsValid) then .error xrtmIntError
  else if c.nOutLevels ≤ 0 then .error xrtmIntError
  else if c.nOutThetas < 0 then .error xrtmIntError
  else
    let o := implicitOptions options c
    if checkOptions o ≠ 0 then .error xrtmIntError
    else if checkCounts o c ≠ 0 then .error xrtmIntError
    else if checkSolvers o solvers c ≠ 0 then .error xrtmIntError
    else .ok (configOf o solvers c)

/-- The argument checks at the head of `xrtm_solution`
(`src/xrtm_interface.c:5653-5690`).  -/
def solutionGate (dSolvers solver solutions : Word) (nOutPhis : Int) : Int :=
  if !(has solver SOLVER_ALL) then xrtmIntError
  else if !(has solver dSolvers) then xrtmIntError
  else if !(has solutions OUTPUT_ALL) then xrtmIntError
  else if has solutions OUTPUT_RADIANCE && decide (nOutPhis ≤ 0) then xrtmIntError
  else if has solutions OUTPUT_RADIANCE_MEAN && decide (checkSolversList solver [SOLVER_SINGLE] ≠ 0)
    then xrtmIntError
  else if has solutions OUTPUT_FLUX && decide (checkSolversList solver [SOLVER_SINGLE] ≠ 0)
    then xrtmIntError
  else if has solutions OUTPUT_FLUX_DIVERGENCE &&
      decide (checkSolversList solver [SOLVER_SINGLE] ≠ 0) then xrtmIntError
  else 0

end Xrtm
