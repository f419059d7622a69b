import Verif.Model.Fp
import Verif.Model.Options

/-!
# The instance as a state machine: setters, getters, input gate

Models `src/xrtm_interface.c:2423-2685` (input checks), `2830-4925` (all setters and
getters of the inputs) and `src/xrtm_support.c:138-191`.

An API call is modelled by the *sequence of checks, reads, writes and dependency
notices it performs*, in program order (`Cmd`, `exec`): a failing check returns at once
and keeps the writes done before it, a read or write outside the allocated extent is
undefined behaviour.  The arrays of the caller are functions on indices: it is a
precondition of the API, not checked by the code, that they are long enough.

Not modelled here: the surface kernel geometry tables (`brdf_aux_*`), the Stokes-expanded
copies `qx_v`/`qw_v` of the quadrature and the symmetric-form vectors, all functions of
what is modelled; error messages.  `i_layer + 1` in the `_1` setters is computed before
the range check, which overflows for `INT_MAX`; `int`s are unbounded here.
-/

namespace Xrtm

/-! ## Dependency bits, `src/xrtm_model.h:24-60` -/

def DEP_DOUB_D_TAU : Word := bit 1
def DEP_PADE_PARAMS : Word := bit 2
def DEP_SOS_PARAMS : Word := bit 3
def DEP_FOURIER_TOL : Word := bit 4
def DEP_LAMBDA : Word := bit 5
def DEP_PLANET_R : Word := bit 6
def DEP_LEVELS_Z : Word := bit 7
def DEP_ULEVELS : Word := bit 8
def DEP_UTAUS : Word := bit 9
def DEP_UMUS : Word := bit 10
def DEP_F_0 : Word := bit 11
def DEP_MU_0 : Word := bit 12
def DEP_PHI_0 : Word := bit 13
def DEP_F_ISO_TOP : Word := bit 14
def DEP_F_ISO_TOP_L : Word := bit 15
def DEP_F_ISO_BOT : Word := bit 16
def DEP_F_ISO_BOT_L : Word := bit 17
def DEP_LEVELS_B : Word := bit 18
def DEP_LEVELS_B_L : Word := bit 19
def DEP_SURFACE_B : Word := bit 20
def DEP_SURFACE_B_L : Word := bit 21
def DEP_G : Word := bit 22
def DEP_G_L : Word := bit 23
def DEP_COEF : Word := bit 24
def DEP_COEF_L : Word := bit 25
def DEP_OMEGA : Word := bit 26
def DEP_OMEGA_L : Word := bit 27
def DEP_LTAU : Word := bit 28
def DEP_LTAU_L : Word := bit 29
def DEP_BRDF : Word := bit 30
def DEP_BRDF_L : Word := bit 31
def DEP_MASK : Word := 0xffffffff#32

/-! ## Memory of an instance -/

/-- The `double` cells of `xrtm_data` that hold inputs (`src/xrtm_model.h`): one
constructor per field, with its array indices. `qx i` covers the quadrature points
(`i < n_quad`) and the user output cosines `umus = qx + n_quad`. `mu00` is `mu_0_0`. -/
inductive FLoc
  | doubDTau | sosMaxTau | sosTol | fourierTol | lambda | planetR
  | levelsZ (i : Int) | utaus (i : Int) | qx (i : Int)
  | fIsoTop | fIsoTopL (d : Int) | fIsoBot | fIsoBotL (d : Int)
  | f0 | mu00 | mu0 | phi0
  | levelsB (i : Int) | levelsBL (i d : Int) | surfaceB | surfaceBL (d : Int)
  | coef (i e k : Int) | coefL (i d e k : Int)
  | omega (i : Int) | omegaL (i d : Int) | ltau (i : Int) | ltauL (i d : Int)
  | ampfac (k : Int) | ampfacL (k d : Int) | param (k p : Int) | paramL (k d p : Int)
  deriving DecidableEq, Repr

/-- The `int` cells; `kernelFunc` stands for the two function pointers of a user
defined kernel. -/
inductive ILoc
  | padeS | padeR | sosMaxOs | nFour2
  | ulevel (i : Int) | nCoefLayer (i : Int) | nCoefLayer2 (i : Int) | kernelFunc (k : Int)
  deriving DecidableEq, Repr

/-- The `set_flags_*` cells. -/
inductive SLoc
  | doubDTau | padeParams | sosParams | fourierTol | lambda | planetR | levelsZ
  | ulevels | utaus | umus | fIsoTop | fIsoBot | f0 | mu0 | phi0 | levelsB | surfaceB
  | coef (i : Int) | omega (i : Int) | ltau (i : Int)
  | ampfac (k : Int) | param (k p : Int) | func (k : Int)
  deriving DecidableEq, Repr

/-- One call of `set_deps(d, mask, lo, hi)`. -/
structure DepEv where
  mask : Word
  lo : Int
  hi : Int
  deriving DecidableEq, Repr

/-- The part of `xrtm_data` the input interface works on. A cell holds `none` until
first written. `notices` is the list of `set_deps` calls, newest first: what the
caches (`Verif.Model.Cache`) see of the setters. `depUtaus` is `dep_flags_utaus`, the
one dependency word the interface itself reads. -/
structure State (F : Type) where
  cfg : Config
  /-- `d->kernels[i]`, `0 ≤ i < n_kernels` -/
  kernels : Int → Int
  f : FLoc → Option F
  i : ILoc → Option Int
  isSet : SLoc → Bool
  /-- `inputs_initialized`: 1 until all inputs have been seen set -/
  inputsInit : Bool
  /-- `varied_layers_updated`: 1 until `xrtm_update_varied_layers` is called -/
  variedDue : Bool
  depUtaus : Word
  notices : List DepEv

def inRange (x n : Int) : Bool := decide (0 ≤ x) && decide (x < n)

/-- `XRTM_SOLVERS_USE_COEF` = `XRTM_SOLVERS_INTERNAL` = all eleven solvers
(`src/xrtm_support.h:47-85`). -/
def useCoef (c : Config) : Bool := has c.solvers SOLVER_ALL
/-- `XRTM_SOLVERS_USE_G` (`src/xrtm_support.h:72`) is empty. -/
def useG (c : Config) : Bool := has c.solvers 0#32
def calcDerivs (c : Config) : Bool := has c.options OPT_CALC_DERIVS
def thermal (c : Config) : Bool := has c.options OPT_SOURCE_THERMAL
def solar (c : Config) : Bool := has c.options OPT_SOURCE_SOLAR

/-- `MAX_KERNEL_PARAMS` (`src/xrtm_brdf.h`). -/
def maxKernelParams : Int := 4

/-- `kernel_n_params` (`src/xrtm_brdf.c:75-86`). -/
def kernelNParams (k : Int) : Int :=
  if !(kernelIsValid k) then -1
  else if k = 1 ∨ k = 10 then 4 else if k = 3 ∨ k = 4 ∨ k = 9 then 2
  else if k = 7 ∨ k = 8 then 3 else 0

/-- Extent of the allocations of `xrtm_create_misc` holding inputs
(`src/xrtm_interface.c:1100-1325`). `coef0`, `omega0`, `ltau0` and their `_l` arrays are
either allocated or aliases of arrays of the same dimensions. -/
def FLoc.valid (c : Config) : FLoc → Bool
  | .doubDTau | .sosMaxTau | .sosTol | .fourierTol | .lambda | .planetR => true
  | .levelsZ i => has c.options OPT_PSA && inRange i (c.nLayers + 1)
  | .utaus i => !(has c.options OPT_OUTPUT_AT_LEVELS) && inRange i c.nOutLevels
  | .qx i => inRange i c.nQuadD
  | .fIsoTop | .fIsoBot | .f0 | .mu00 | .mu0 | .phi0 | .surfaceB => true
  | .fIsoTopL d | .fIsoBotL d => calcDerivs c && inRange d c.nDerivs
  | .levelsB i => thermal c && inRange i (c.nLayers + 1)
  | .levelsBL i d => calcDerivs c && thermal c && inRange i (c.nLayers + 1) && inRange d c.nDerivs
  | .surfaceBL d => calcDerivs c && thermal c && inRange d c.nDerivs
  | .coef i e k => useCoef c && inRange i c.nLayers && inRange e c.nElem && inRange k c.nCoef
  | .coefL i d e k => calcDerivs c && useCoef c && inRange i c.nLayers && inRange d c.nDerivs &&
      inRange e c.nElem && inRange k c.nCoef
  | .omega i | .ltau i => inRange i c.nLayers
  | .omegaL i d | .ltauL i d => calcDerivs c && inRange i c.nLayers && inRange d c.nDerivs
  | .ampfac k => decide (0 < c.nKernels) && inRange k c.nKernels
  | .param k p => decide (0 < c.nKernels) && inRange k c.nKernels && inRange p maxKernelParams
  | .ampfacL k d => decide (0 < c.nKernels) && calcDerivs c && inRange k c.nKernels &&
      inRange d c.nDerivs
  | .paramL k d p => decide (0 < c.nKernels) && calcDerivs c && inRange k c.nKernels &&
      inRange d c.nDerivs && inRange p maxKernelParams

def ILoc.valid (c : Config) : ILoc → Bool
  | .padeS | .padeR | .sosMaxOs | .nFour2 => true
  | .ulevel i => inRange i c.nOutLevels
  | .nCoefLayer i | .nCoefLayer2 i => useCoef c && inRange i c.nLayers
  | .kernelFunc k => decide (0 < c.nKernels) && inRange k c.nKernels

/-- The scalar flags are fields of the structure; the per layer and per kernel arrays
are freed when `inputs_initialized` drops to 0 (`src/xrtm_interface.c:2568-2578`), except
`set_flags_kernel_func`, which is not freed there. -/
def SLoc.valid (c : Config) (inputsInit : Bool) : SLoc → Bool
  | .coef i | .omega i | .ltau i => inputsInit && inRange i c.nLayers
  | .ampfac k => inputsInit && decide (0 < c.nKernels) && inRange k c.nKernels
  | .param k p => inputsInit && decide (0 < c.nKernels) && inRange k c.nKernels &&
      inRange p maxKernelParams
  | .func k => decide (0 < c.nKernels) && inRange k c.nKernels
  | _ => true

/-! ## Call traces -/

/-- One step of a call. -/
inductive Cmd (F : Type)
  /-- `if (fail) return code;` -/
  | check (fail : Bool) (code : Code)
  | rd (l : FLoc)
  | rdI (l : ILoc)
  | wr (l : FLoc) (x : F)
  | wrI (l : ILoc) (n : Int)
  /-- `set_flags = 1` -/
  | flag (l : SLoc)
  /-- `if (d->inputs_initialized) set_flags[..] = 1` -/
  | flagIfInit (l : SLoc)
  /-- `GET_INPUTS_CHECK_SET_FLAGS` (`src/xrtm_support.h:184-189`) -/
  | needFlag (l : SLoc) (code : Code)
  /-- `set_deps` -/
  | dep (mask : Word) (lo hi : Int)

/-- How a trace ends: it ran through, it returned early, or it was undefined. -/
inductive Res (F : Type)
  | done (s : State F)
  | stop (c : Code) (s : State F)
  | ub (k : UB)

variable {F : Type}

def State.setF (s : State F) (l : FLoc) (x : F) : State F :=
  { s with f := fun l' => if l' = l then some x else s.f l' }
def State.setI (s : State F) (l : ILoc) (n : Int) : State F :=
  { s with i := fun l' => if l' = l then some n else s.i l' }
def State.setS (s : State F) (l : SLoc) : State F :=
  { s with isSet := fun l' => if l' = l then true else s.isSet l' }
/-- `set_deps` (`src/xrtm_interface.c:419-457`). -/
def State.setDep (s : State F) (e : DepEv) : State F :=
  { s with depUtaus := s.depUtaus ||| e.mask, notices := e :: s.notices }

def step1 (s : State F) : Cmd F → Res F
  | .check b c => if b then .stop c s else .done s
  | .rd l => if l.valid s.cfg then (if (s.f l).isSome then .done s else .ub .uninit) else .ub .oob
  | .rdI l => if l.valid s.cfg then (if (s.i l).isSome then .done s else .ub .uninit) else .ub .oob
  | .wr l x => if l.valid s.cfg then .done (s.setF l x) else .ub .oob
  | .wrI l n => if l.valid s.cfg then .done (s.setI l n) else .ub .oob
  | .flag l => if l.valid s.cfg s.inputsInit then .done (s.setS l) else .ub .oob
  | .flagIfInit l =>
      if s.inputsInit then
        (if l.valid s.cfg s.inputsInit then .done (s.setS l) else .ub .oob)
      else .done s
  | .needFlag l c =>
      if s.inputsInit then
        (if l.valid s.cfg s.inputsInit then
          (if s.isSet l then .done s else .stop c s)
        else .ub .oob)
      else .done s
  | .dep m lo hi => .done (s.setDep ⟨m, lo, hi⟩)

def exec : List (Cmd F) → State F → Res F
  | [], s => .done s
  | c :: cs, s => match step1 s c with
      | .done s' => exec cs s'
      | r => r

/-- Indices `0 .. n-1`, as the loop `for (i = 0; i < n; ++i)` visits them. -/
def upto (n : Int) : List Int := (List.range n.toNat).map Int.ofNat

/-- Indices `lo .. hi-1`. -/
def between (lo hi : Int) : List Int := (upto (hi - lo)).map (lo + ·)

/-! ## Setters -/

/-- The four shapes `_11`, `_n1`, `_1n`, `_nn` of the linearised setters, with their
layer and derivative arguments and the caller's array. -/
inductive LinArg (α : Type)
  | l11 (i j : Int) (x : α)
  | ln1 (j : Int) (x : Int → α)
  | l1n (i : Int) (x : Int → α)
  | lnn (x : Int → Int → α)

namespace LinArg
variable {α : Type}
/-- first layer, end layer, first derivative, end derivative passed to the `_x_l` helper
(e.g. `src/xrtm_interface.c:4408-4450`) -/
def iLo : LinArg α → Int
  | .l11 i _ _ | .l1n i _ => i
  | _ => 0
def iHi (c : Config) : LinArg α → Int
  | .l11 i _ _ | .l1n i _ => i + 1
  | _ => c.nLayers
def jLo : LinArg α → Int
  | .l11 _ j _ | .ln1 j _ => j
  | _ => 0
def jHi (c : Config) : LinArg α → Int
  | .l11 _ j _ | .ln1 j _ => j + 1
  | _ => c.nDerivs
/-- the `switch (type)` of `xrtm_set_layer_x_l` (`src/xrtm_support.c:164-186`):
`ii`, `jj` count from 0 -/
def val : LinArg α → Int → Int → α
  | .l11 _ _ x, _, _ => x
  | .ln1 _ x, ii, _ => x ii
  | .l1n _ x, _, jj => x jj
  | .lnn x, ii, jj => x ii jj
end LinArg

/-- A call of the input interface. Caller arrays are functions of the index.
`solve` is `xrtm_solution` (and its wrappers): `computed` says whether the numerical part
succeeded and `located` whether it got as far as `update_utaus`; both are arbitrary. -/
inductive Op (F : Type)
  | setDoubDTau (x : F)
  | setPadeParams (s r : Int)
  | setSosParams (maxOs : Int) (maxTau tol : F)
  | setFourierTol (x : F)
  | setLambda (x : F)
  | setPlanetR (x : F)
  | setLevelsZ (z : Int → F)
  | setOutLevels (l : Int → Int)
  | setOutTaus (t : Int → F)
  | setOutThetas (t : Int → F)
  | setFIsoTop (x : F) | setFIsoTopL1 (d : Int) (x : F) | setFIsoTopLn (x : Int → F)
  | setFIsoBot (x : F) | setFIsoBotL1 (d : Int) (x : F) | setFIsoBotLn (x : Int → F)
  | setF0 (x : F)
  | setTheta0 (x : F)
  | setPhi0 (x : F)
  | setLevelsB (b : Int → F) | setLevelsBL1 (d : Int) (b : Int → F)
  | setLevelsBLn (b : Int → Int → F)
  | setSurfaceB (x : F) | setSurfaceBL1 (d : Int) (x : F) | setSurfaceBLn (x : Int → F)
  | setG1 (i : Int) (x : F) | setGn (x : Int → F) | setGL (a : LinArg F)
  | setCoef1 (i n : Int) (c : Int → Int → F)
  | setCoefN (n : Option (Int → Int)) (c : Int → Int → Int → F)
  | setCoefL (a : LinArg (Int → Int → F))
  | setOmega1 (i : Int) (x : F) | setOmegaN (x : Int → F) | setOmegaL (a : LinArg F)
  | setLtau1 (i : Int) (x : F) | setLtauN (x : Int → F) | setLtauL (a : LinArg F)
  | setAmpfac (k : Int) (x : F)
  | setParam1 (k p : Int) (x : F) | setParamN (k : Int) (x : Int → F)
  | setAmpfacL1 (k d : Int) (x : F) | setAmpfacLn (k : Int) (x : Int → F)
  | setParamL11 (k d p : Int) (x : F) | setParamL1n (k d : Int) (x : Int → F)
  | setParamLn1 (k p : Int) (x : Int → F) | setParamLnn (k : Int) (x : Int → Int → F)
  | setKernelFunc (k : Int) (fn : Int)
  | updateVariedLayers
  | solve (solver solutions : Word) (nPhis : Int) (computed located : Bool)

/-- `CHECK_INDEX_RANGE` (`src/xrtm_support.h:176-182`). -/
def ckIdx (x n : Int) (c : Code) : Cmd F := .check (decide (x < 0) || decide (x ≥ n)) c

/-- `CHECK_INIT_FOR_DERIVS` (`src/xrtm_support.h:168-174`) in a public function. -/
def ckDerivs (cfg : Config) (c : Code) : Cmd F := .check (!(calcDerivs cfg)) c

/-- `CHECK_N_KERNELS_NOT_ZERO` (`src/xrtm_support.h:161-166`). -/
def ckKernels (cfg : Config) (c : Code) : Cmd F := .check (decide (cfg.nKernels = 0)) c

section
variable [Fp F]

/-- `update_n_four2` (`src/xrtm_interface.c:739-754`) given the flags and the values of
`mu_0_0` and `umus[0]`. -/
def nFour2Of (c : Config) (flag1 flag2 : Bool) (mu00 umu0 : F) : Int :=
  if has c.options OPT_NO_AZIMUTHAL ||
      (!(solar c) && thermal c) ||
      (decide (c.nStokes = 1) && ((flag1 && Fp.eq mu00 Fp.one) ||
        (flag2 && decide (c.nOutThetas = 1) && Fp.eq umu0 Fp.one))) then 1
  else c.nFour

/-- The loop and end of `mu_0_singularity_adjust` (`src/xrtm_interface.c:2661-2682`):
`qs` are the remaining quadrature and user cosines, `count` the adjustments so far. -/
def adjustCmds (c : Config) (mu00 : F) : List F → Nat → List (Cmd F)
  | [], count => if count > 0 then [.dep DEP_MU_0 0 c.nLayers] else []
  | q :: qs, count =>
      let a := Fp.abs (adjustAuto q mu00 Fp.muEps)
      if !(Fp.eq a mu00) then
        .wr .mu0 a :: .check (decide (count + 1 > 1)) .intErr :: adjustCmds c mu00 qs (count + 1)
      else
        .check (decide (count > 1)) .intErr :: adjustCmds c mu00 qs count

/-- The value of a cell, for use after a `rd` of the same cell. -/
def State.fv (s : State F) (l : FLoc) : F := (s.f l).getD Fp.zero
/-- Likewise for `int` cells, after `rdI`. -/
def State.iv (s : State F) (l : ILoc) : Int := (s.i l).getD 0

/-- `xrtm_set_layer_x` (`src/xrtm_support.c:138-150`). -/
def layerCmds (mk : Int → FLoc) (fl : Int → SLoc) (x : Int → F) (lo hi : Int) : List (Cmd F) :=
  (between lo hi).flatMap fun i => [.wr (mk i) (x (i - lo)), .flagIfInit (fl i)]

/-- `xrtm_set_layer_x_l` (`src/xrtm_support.c:154-191`). -/
def layerLCmds (c : Config) (mk : Int → Int → FLoc) (a : LinArg F) : List (Cmd F) :=
  (between a.iLo (a.iHi c)).flatMap fun i =>
    (between a.jLo (a.jHi c)).map fun j => .wr (mk i j) (a.val (i - a.iLo) (j - a.jLo))

/-- The dependency mask of `xrtm_set_coef_x` (`src/xrtm_interface.c:4079-4091`). -/
def coefDeps (c : Config) : Word :=
  if useCoef c && has c.options OPT_DELTA_M then
    (if calcDerivs c then
      DEP_COEF ||| DEP_OMEGA ||| DEP_LTAU ||| DEP_COEF_L ||| DEP_OMEGA_L ||| DEP_LTAU_L
    else DEP_COEF ||| DEP_OMEGA ||| DEP_LTAU)
  else DEP_COEF

/-- `xrtm_set_coef_x_l` (`src/xrtm_interface.c:4222-4226`). -/
def coefLDeps (c : Config) : Word :=
  if useCoef c && has c.options OPT_DELTA_M then DEP_COEF_L ||| DEP_OMEGA_L ||| DEP_LTAU_L
  else DEP_COEF_L

/-- `xrtm_set_omega_x` (`src/xrtm_interface.c:4326-4335`). -/
def omegaDeps (c : Config) : Word :=
  if useCoef c && has c.options OPT_DELTA_M then
    (if calcDerivs c then DEP_OMEGA ||| DEP_LTAU ||| DEP_OMEGA_L ||| DEP_LTAU_L
    else DEP_OMEGA ||| DEP_LTAU)
  else DEP_OMEGA

/-- `xrtm_set_omega_x_l` (`src/xrtm_interface.c:4396-4399`). -/
def omegaLDeps (c : Config) : Word :=
  if has c.options OPT_DELTA_M then DEP_OMEGA_L ||| DEP_LTAU_L else DEP_OMEGA_L

/-- `xrtm_set_coef_x` (`src/xrtm_interface.c:4021-4095`). `n = none` models the `NULL`
count array. -/
def coefCmds (c : Config) (n : Option (Int → Int)) (coef : Int → Int → Int → F)
    (lo hi : Int) : List (Cmd F) :=
  let cnt : Int → Int := fun ii => match n with | none => c.nCoef | some n => n ii
  let cnt2 : Int → Int := fun ii => match n with | none => c.nCoef2 | some n => min (n ii) c.nCoef2
  [.check (!(useCoef c)) .intErr, ckIdx lo c.nLayers .intErr] ++
  (match n with
    | none => []
    | some n => (between lo hi).flatMap fun i =>
        [.check (decide (n (i - lo) < 0)) .intErr, .check (decide (n (i - lo) > c.nCoef)) .intErr]) ++
  ((between lo hi).flatMap fun i =>
    [.wrI (.nCoefLayer i) (cnt (i - lo)), .wrI (.nCoefLayer2 i) (cnt2 (i - lo)),
      .check (decide (cnt (i - lo) > 1) &&
        Fp.lt Fp.dblEps (Fp.abs (Fp.sub Fp.one (coef (i - lo) 0 0)))) .intErr] ++
    ((upto c.nElem).flatMap fun e => (upto (cnt (i - lo))).map fun k =>
      .wr (.coef i e k) (coef (i - lo) e k)) ++
    [.flagIfInit (.coef i)]) ++
  [.dep (coefDeps c) lo hi]

/-- `xrtm_set_coef_x_l` (`src/xrtm_interface.c:4164-4229`): only the coefficients in use
for a layer (`n_coef_layer[i]`) are written. -/
def coefLCmds (s : State F) (a : LinArg (Int → Int → F)) : List (Cmd F) :=
  let c := s.cfg
  [ckDerivs c .intErr, .check (!(useCoef c)) .intErr, ckIdx a.iLo c.nLayers .intErr,
    ckIdx a.jLo c.nDerivs .intErr] ++
  ((between a.iLo (a.iHi c)).flatMap fun i => (between a.jLo (a.jHi c)).flatMap fun j =>
    (upto c.nElem).flatMap fun e =>
      .rdI (.nCoefLayer i) :: (upto (s.iv (.nCoefLayer i))).map fun k =>
        .wr (.coefL i j e k) (a.val (i - a.iLo) (j - a.jLo) e k)) ++
  [.dep (coefLDeps c) a.iLo (a.iHi c)]

/-- `xrtm_set_omega_x` (`src/xrtm_interface.c:4301-4341`). -/
def omegaCmds (c : Config) (x : Int → F) (lo hi : Int) : List (Cmd F) :=
  [ckIdx lo c.nLayers .intErr] ++
  ((between lo hi).map fun i =>
    .check (Fp.lt (x (i - lo)) Fp.zero || Fp.lt Fp.one (x (i - lo))) .intErr) ++
  layerCmds .omega .omega x lo hi ++
  ((between lo hi).map fun i =>
    .wr (.omega i) (adjustDown Fp.one (x (i - lo)) Fp.omegaEps)) ++
  [.dep (omegaDeps c) lo hi]

/-- `xrtm_set_ltau_x` (`src/xrtm_interface.c:4469-4492`). -/
def ltauCmds (c : Config) (x : Int → F) (lo hi : Int) : List (Cmd F) :=
  [ckIdx lo c.nLayers .intErr] ++
  ((between lo hi).map fun i => .check (Fp.le (x (i - lo)) Fp.zero) .intErr) ++
  layerCmds .ltau .ltau x lo hi ++
  [.dep DEP_LTAU lo hi]

/-- A scalar setter: checks, write, flag, notice for all layers. -/
def scalarCmds (c : Config) (cks : List (Cmd F)) (l : FLoc) (x : F) (fl : SLoc) (m : Word) :
    List (Cmd F) :=
  cks ++ [.wr l x, .flag fl, .dep m 0 c.nLayers]

/-- The trace of each setter, in the order of the source. -/
def setCmds (s : State F) : Op F → List (Cmd F)
  /- `xrtm_set_doub_d_tau` (2830-2848) -/
  | .setDoubDTau x =>
      scalarCmds s.cfg [.check (Fp.le x Fp.zero) .intErr] .doubDTau x .doubDTau DEP_DOUB_D_TAU
  /- `xrtm_set_pade_params` (2869-2894) -/
  | .setPadeParams ps pr =>
      [.wrI .padeS ps, .wrI .padeR pr, .flag .padeParams, .dep DEP_PADE_PARAMS 0 s.cfg.nLayers]
  /- `xrtm_set_sos_params` (2918-2947); its `set_deps` is commented out -/
  | .setSosParams n t tol =>
      [.check (decide (n ≤ 0)) .intErr, .check (Fp.le t Fp.zero) .intErr,
        .check (Fp.lt tol Fp.zero) .intErr,
        .wrI .sosMaxOs n, .wr .sosMaxTau t, .wr .sosTol tol, .flag .sosParams]
  /- `xrtm_set_fourier_tol` (2972-2985) -/
  | .setFourierTol x =>
      [.check (Fp.lt x Fp.zero) .intErr, .wr .fourierTol x, .flag .fourierTol]
  /- `xrtm_set_lambda` (3001-3021) -/
  | .setLambda x =>
      scalarCmds s.cfg [.check (!(thermal s.cfg)) .intErr, .check (Fp.le x Fp.zero) .intErr]
        .lambda x .lambda DEP_LAMBDA
  /- `xrtm_set_planet_r` (3041-3061) -/
  | .setPlanetR x =>
      scalarCmds s.cfg [.check (!(has s.cfg.options OPT_PSA)) .intErr,
        .check (Fp.le x Fp.zero) .intErr] .planetR x .planetR DEP_PLANET_R
  /- `xrtm_set_levels_z` (3082-3115) -/
  | .setLevelsZ z =>
      [.check (!(has s.cfg.options OPT_PSA)) .intErr] ++
      ((between 1 (s.cfg.nLayers + 1)).map fun i => .check (Fp.lt (z (i - 1)) (z i)) .intErr) ++
      ((upto (s.cfg.nLayers + 1)).map fun i => .wr (.levelsZ i) (z i)) ++
      [.flag .levelsZ, .dep DEP_LEVELS_Z 0 s.cfg.nLayers]
  /- `xrtm_set_out_levels` (3141-3196) -/
  | .setOutLevels l =>
      [.check (!(has s.cfg.options OPT_OUTPUT_AT_LEVELS)) .intErr,
        .check (decide (l 0 < 0) || decide (l 0 > s.cfg.nLayers)) .intErr] ++
      ((between 1 s.cfg.nOutLevels).map fun i =>
        .check (decide (l i ≤ l (i - 1)) || decide (l i > s.cfg.nLayers)) .intErr) ++
      ((upto (min 2 s.cfg.nOutLevels)).map fun i =>
        .check (decide (l i ≠ 0) && decide (l i ≠ s.cfg.nLayers) &&
          decide (checkSolversList s.cfg.solvers [SOLVER_DOUB_ADD, SOLVER_EIG_ADD,
            SOLVER_PADE_ADD, SOLVER_SOS, SOLVER_TWO_OS] ≠ 0)) .intErr) ++
      [.check (has s.cfg.options OPT_TOP_DOWN_ADDING && decide (l 0 ≠ s.cfg.nLayers)) .intErr,
        .check (has s.cfg.options OPT_BOTTOM_UP_ADDING && decide (l 0 ≠ 0)) .intErr] ++
      ((upto s.cfg.nOutLevels).map fun i => .wrI (.ulevel i) (l i)) ++
      [.flag .ulevels, .dep DEP_ULEVELS 0 s.cfg.nLayers]
  /- `xrtm_set_out_taus` (3222-3245): the loop checks and writes -/
  | .setOutTaus t =>
      [.check (!(has s.cfg.options OPT_OUTPUT_AT_TAUS)) .intErr] ++
      ((upto s.cfg.nOutLevels).flatMap fun i =>
        [.check (Fp.lt (t i) Fp.zero) .intErr, .wr (.utaus i) (t i)]) ++
      [.flag .utaus, .dep DEP_UTAUS 0 s.cfg.nLayers]
  /- `xrtm_set_out_thetas` (3271-3335) -/
  | .setOutThetas t =>
      let mu : Int → F := fun i => Fp.cos (Fp.mul (t i) Fp.d2r)
      [.check (decide (s.cfg.nOutThetas = 0)) .intErr] ++
      ((upto s.cfg.nOutThetas).map fun i =>
        .check (Fp.lt (t i) Fp.zero || Fp.le Fp.ninety (t i)) .intErr) ++
      ((upto s.cfg.nOutThetas).map fun i => .wr (.qx (s.cfg.nQuad + i)) (mu i)) ++
      [.flag .umus,
        .wrI .nFour2 (nFour2Of s.cfg (s.isSet .mu0) true (s.fv .mu00) (mu 0))] ++
      (if s.isSet .mu0 then
        [.rd .mu00, .wr .mu0 (s.fv .mu00)] ++
        ((upto s.cfg.nQuad).map fun i => .rd (.qx i)) ++
        adjustCmds s.cfg (s.fv .mu00)
          ((upto s.cfg.nQuad).map (fun i => s.fv (.qx i)) ++ (upto s.cfg.nOutThetas).map mu) 0
      else []) ++
      [.dep DEP_UMUS 0 s.cfg.nLayers]
  /- `xrtm_set_F_iso_top` (3365-3380), `_l_1` (3393-3404), `_l_n` (3408-3420) -/
  | .setFIsoTop x =>
      scalarCmds s.cfg [.check (Fp.lt x Fp.zero) .intErr] .fIsoTop x .fIsoTop DEP_F_ISO_TOP
  | .setFIsoTopL1 d x =>
      [ckDerivs s.cfg .minusOne, ckIdx d s.cfg.nDerivs .intErr, .wr (.fIsoTopL d) x,
        .dep DEP_F_ISO_TOP_L 0 s.cfg.nLayers]
  | .setFIsoTopLn x =>
      [ckDerivs s.cfg .minusOne] ++ ((upto s.cfg.nDerivs).map fun d => .wr (.fIsoTopL d) (x d)) ++
      [.dep DEP_F_ISO_TOP_L 0 s.cfg.nLayers]
  /- `xrtm_set_F_iso_bot` (3436-3451), `_l_1` (3464-3475), `_l_n` (3479-3491) -/
  | .setFIsoBot x =>
      scalarCmds s.cfg [.check (Fp.lt x Fp.zero) .intErr] .fIsoBot x .fIsoBot DEP_F_ISO_BOT
  | .setFIsoBotL1 d x =>
      [ckDerivs s.cfg .minusOne, ckIdx d s.cfg.nDerivs .intErr, .wr (.fIsoBotL d) x,
        .dep DEP_F_ISO_BOT_L 0 s.cfg.nLayers]
  | .setFIsoBotLn x =>
      [ckDerivs s.cfg .minusOne] ++ ((upto s.cfg.nDerivs).map fun d => .wr (.fIsoBotL d) (x d)) ++
      [.dep DEP_F_ISO_BOT_L 0 s.cfg.nLayers]
  /- `xrtm_set_F_0` (3507-3527) -/
  | .setF0 x =>
      scalarCmds s.cfg [.check (!(solar s.cfg)) .intErr, .check (Fp.lt x Fp.zero) .intErr]
        .f0 x .f0 DEP_F_0
  /- `xrtm_set_theta_0` (3548-3578) -/
  | .setTheta0 x =>
      let m := Fp.cos (Fp.mul x Fp.d2r)
      [.check (!(solar s.cfg)) .intErr,
        .check (Fp.lt x Fp.zero || Fp.le Fp.ninety x) .intErr, .wr .mu00 m] ++
      (if s.isSet .umus && decide (s.cfg.nOutThetas = 1) then [.rd (.qx s.cfg.nQuad)] else []) ++
      [.wrI .nFour2 (nFour2Of s.cfg true (s.isSet .umus) m (s.fv (.qx s.cfg.nQuad))),
        .wr .mu0 m] ++
      ((upto (if s.isSet .umus then s.cfg.nQuad + s.cfg.nOutThetas else s.cfg.nQuad)).map
        fun i => .rd (.qx i)) ++
      adjustCmds s.cfg m
        ((upto (if s.isSet .umus then s.cfg.nQuad + s.cfg.nOutThetas else s.cfg.nQuad)).map
          fun i => s.fv (.qx i)) 0 ++
      [.flag .mu0, .dep DEP_MU_0 0 s.cfg.nLayers]
  /- `xrtm_set_phi_0` (3599-3613) -/
  | .setPhi0 x => [.wr .phi0 x, .dep DEP_PHI_0 0 s.cfg.nLayers, .flag .phi0]
  /- `xrtm_set_levels_b` (3634-3659), `_l_1` (3682-3701), `_l_n` (3705-3725) -/
  | .setLevelsB b =>
      [.check (!(thermal s.cfg)) .intErr] ++
      ((upto (s.cfg.nLayers + 1)).map fun i => .check (Fp.lt (b i) Fp.zero) .intErr) ++
      ((upto (s.cfg.nLayers + 1)).map fun i => .wr (.levelsB i) (b i)) ++
      [.flag .levelsB, .dep DEP_LEVELS_B 0 s.cfg.nLayers]
  | .setLevelsBL1 d b =>
      [.check (!(thermal s.cfg)) .intErr, ckDerivs s.cfg .minusOne, ckIdx d s.cfg.nDerivs .intErr] ++
      ((upto (s.cfg.nLayers + 1)).map fun i => .wr (.levelsBL i d) (b i)) ++
      [.dep DEP_LEVELS_B_L 0 s.cfg.nLayers]
  | .setLevelsBLn b =>
      [.check (!(thermal s.cfg)) .intErr, ckDerivs s.cfg .minusOne] ++
      ((upto (s.cfg.nLayers + 1)).flatMap fun i => (upto s.cfg.nDerivs).map fun d =>
        .wr (.levelsBL i d) (b i d)) ++
      [.dep DEP_LEVELS_B_L 0 s.cfg.nLayers]
  /- `xrtm_set_surface_b` (3751-3771), `_l_1` (3789-3805), `_l_n` (3809-3826) -/
  | .setSurfaceB x =>
      scalarCmds s.cfg [.check (!(thermal s.cfg)) .intErr, .check (Fp.lt x Fp.zero) .intErr]
        .surfaceB x .surfaceB DEP_SURFACE_B
  | .setSurfaceBL1 d x =>
      [.check (!(thermal s.cfg)) .intErr, ckDerivs s.cfg .minusOne, ckIdx d s.cfg.nDerivs .intErr,
        .wr (.surfaceBL d) x, .dep DEP_SURFACE_B_L 0 s.cfg.nLayers]
  | .setSurfaceBLn x =>
      [.check (!(thermal s.cfg)) .intErr, ckDerivs s.cfg .minusOne] ++
      ((upto s.cfg.nDerivs).map fun d => .wr (.surfaceBL d) (x d)) ++
      [.dep DEP_SURFACE_B_L 0 s.cfg.nLayers]
  /- `xrtm_set_g_x` (3849-3881), `xrtm_set_g_x_l` (3925-3951): refused because no solver is in
  `XRTM_SOLVERS_USE_G`; what follows the refusal is not modelled -/
  | .setG1 _ _ => [.check (!(useG s.cfg)) .intErr]
  | .setGn _ => [.check (!(useG s.cfg)) .intErr]
  | .setGL _ => [ckDerivs s.cfg .intErr, .check (!(useG s.cfg)) .intErr]
  /- `xrtm_set_coef_1` (4099-4114), `_n` (4118-4126), `_l_*` (4233-4277) -/
  | .setCoef1 i n c =>
      coefCmds s.cfg (if n < 0 then none else some fun _ => n) (fun _ => c) i (i + 1)
  | .setCoefN n c => coefCmds s.cfg n c 0 s.cfg.nLayers
  | .setCoefL a => coefLCmds s a
  /- `xrtm_set_omega_1/_n` (4345-4365), `_l_*` (4408-4452) -/
  | .setOmega1 i x => omegaCmds s.cfg (fun _ => x) i (i + 1)
  | .setOmegaN x => omegaCmds s.cfg x 0 s.cfg.nLayers
  | .setOmegaL a =>
      [ckDerivs s.cfg .intErr, ckIdx a.iLo s.cfg.nLayers .intErr, ckIdx a.jLo s.cfg.nDerivs .intErr] ++
      layerLCmds s.cfg .omegaL a ++ [.dep (omegaLDeps s.cfg) a.iLo (a.iHi s.cfg)]
  /- `xrtm_set_ltau_1/_n` (4496-4516), `_l_*` (4552-4596) -/
  | .setLtau1 i x => ltauCmds s.cfg (fun _ => x) i (i + 1)
  | .setLtauN x => ltauCmds s.cfg x 0 s.cfg.nLayers
  | .setLtauL a =>
      [ckDerivs s.cfg .intErr, ckIdx a.iLo s.cfg.nLayers .intErr, ckIdx a.jLo s.cfg.nDerivs .intErr] ++
      layerLCmds s.cfg .ltauL a ++ [.dep DEP_LTAU_L a.iLo (a.iHi s.cfg)]
  /- `xrtm_set_kernel_ampfac` (4613-4633) -/
  | .setAmpfac k x =>
      [ckKernels s.cfg .intErr, ckIdx k s.cfg.nKernels .intErr,
        .check (Fp.lt x Fp.zero || Fp.lt Fp.one x) .intErr,
        .wr (.ampfac k) x, .flagIfInit (.ampfac k), .dep DEP_BRDF 0 s.cfg.nLayers]
  /- `xrtm_set_kernel_params_1` (4650-4670), `_n` (4674-4696) -/
  | .setParam1 k p x =>
      [ckKernels s.cfg .intErr, ckIdx k s.cfg.nKernels .intErr,
        ckIdx p (kernelNParams (s.kernels k)) .intErr,
        .wr (.param k p) x, .flagIfInit (.param k p), .dep DEP_BRDF 0 s.cfg.nLayers]
  | .setParamN k x =>
      [ckKernels s.cfg .intErr, ckIdx k s.cfg.nKernels .intErr] ++
      ((upto (kernelNParams (s.kernels k))).flatMap fun p =>
        [.wr (.param k p) (x p), .flagIfInit (.param k p)]) ++
      [.dep DEP_BRDF 0 s.cfg.nLayers]
  /- `xrtm_set_kernel_ampfac_l_1` (4719-4733), `_l_n` (4737-4753) -/
  | .setAmpfacL1 k d x =>
      [ckKernels s.cfg .intErr, ckDerivs s.cfg .minusOne, ckIdx k s.cfg.nKernels .intErr,
        ckIdx d s.cfg.nDerivs .intErr, .wr (.ampfacL k d) x, .dep DEP_BRDF_L 0 s.cfg.nLayers]
  | .setAmpfacLn k x =>
      [ckKernels s.cfg .intErr, ckDerivs s.cfg .minusOne, ckIdx k s.cfg.nKernels .intErr] ++
      ((upto s.cfg.nDerivs).map fun d => .wr (.ampfacL k d) (x d)) ++
      [.dep DEP_BRDF_L 0 s.cfg.nLayers]
  /- `xrtm_set_kernel_params_l_11` (4769-4789), `_1n` (4793-4814), `_n1` (4818-4840),
  `_nn` (4844-4868) -/
  | .setParamL11 k d p x =>
      [ckKernels s.cfg .intErr, ckDerivs s.cfg .minusOne, ckIdx k s.cfg.nKernels .intErr,
        ckIdx d s.cfg.nDerivs .intErr, ckIdx p (kernelNParams (s.kernels k)) .intErr,
        .wr (.paramL k d p) x, .dep DEP_BRDF_L 0 s.cfg.nLayers]
  | .setParamL1n k d x =>
      [ckKernels s.cfg .intErr, ckDerivs s.cfg .minusOne, ckIdx k s.cfg.nKernels .intErr,
        ckIdx d s.cfg.nDerivs .intErr] ++
      ((upto (kernelNParams (s.kernels k))).map fun p => .wr (.paramL k d p) (x p)) ++
      [.dep DEP_BRDF_L 0 s.cfg.nLayers]
  | .setParamLn1 k p x =>
      [ckKernels s.cfg .intErr, ckDerivs s.cfg .minusOne, ckIdx k s.cfg.nKernels .intErr,
        ckIdx p (kernelNParams (s.kernels k)) .intErr] ++
      ((upto s.cfg.nDerivs).map fun d => .wr (.paramL k d p) (x d)) ++
      [.dep DEP_BRDF_L 0 s.cfg.nLayers]
  | .setParamLnn k x =>
      [ckKernels s.cfg .intErr, ckDerivs s.cfg .minusOne, ckIdx k s.cfg.nKernels .intErr] ++
      ((upto s.cfg.nDerivs).flatMap fun d =>
        (upto (kernelNParams (s.kernels k))).map fun p => .wr (.paramL k d p) (x d p)) ++
      [.dep DEP_BRDF_L 0 s.cfg.nLayers]
  /- `xrtm_set_kernel_func` (4890-4914) -/
  | .setKernelFunc k fn =>
      [ckKernels s.cfg .intErr, ckIdx k s.cfg.nKernels .intErr,
        .check (decide (s.kernels k ≠ 10)) .intErr,
        .wrI (.kernelFunc k) fn, .flagIfInit (.func k), .dep DEP_BRDF 0 s.cfg.nLayers]
  | .updateVariedLayers => []
  | .solve .. => []

/-! ## Input gate -/

/-- The flags `check_inputs_initialized` looks at, in its order
(`src/xrtm_interface.c:2423-2567`). -/
def requiredFlags (s : State F) : List SLoc :=
  (if has s.cfg.solvers SOLVER_DOUB_ADD then [.doubDTau] else []) ++
  (if has s.cfg.solvers SOLVER_PADE_ADD then [.padeParams] else []) ++
  (if has s.cfg.solvers SOLVER_SOS then [.sosParams] else []) ++
  [.fourierTol] ++
  (if has s.cfg.options OPT_PSA then [.planetR, .levelsZ] else []) ++
  (if has s.cfg.options OPT_OUTPUT_AT_LEVELS then [.ulevels] else []) ++
  (if has s.cfg.options OPT_OUTPUT_AT_TAUS then [.utaus] else []) ++
  (if s.cfg.nOutThetas > 0 then [.umus] else []) ++
  [.fIsoTop, .fIsoBot] ++
  (if solar s.cfg then [.f0, .mu0, .phi0] else []) ++
  (if thermal s.cfg then [.levelsB, .surfaceB] else []) ++
  ((upto s.cfg.nLayers).flatMap fun i =>
    (if useCoef s.cfg then [.coef i] else []) ++ [.omega i, .ltau i]) ++
  ((upto s.cfg.nKernels).flatMap fun k =>
    [.ampfac k] ++ ((upto (kernelNParams (s.kernels k))).map fun p => .param k p) ++
    (if s.kernels k = 10 then [.func k] else []))

/-- `check_inputs_initialized` (`src/xrtm_interface.c:2423-2585`): the flags must be
readable; on success the flag arrays are freed and `inputs_initialized` becomes 0. The
`INPUT_*` number returned on failure is never 0 (the enumeration starts at 1,
`src/xrtm_interface.c:192`). The source nests the two output options as
`if (LEVELS && !set) .. else if (TAUS && !set)`, which is the same as testing both when
they exclude each other. -/
def checkInputs (s : State F) : Res F :=
  match exec ((requiredFlags s).map fun l => Cmd.needFlag l .intErr) s with
  | .done s' => .done { s' with inputsInit := false }
  | r => r

/-- `check_inputs_post_checks` (`src/xrtm_interface.c:2590-2617`): `true` = passed.
`utaus[]` and `ltau0[]` are read. -/
def postChecks (s : State F) : Bool :=
  if has s.cfg.options OPT_OUTPUT_AT_TAUS && has s.depUtaus (DEP_UTAUS ||| DEP_LTAU) then
    let a := (upto s.cfg.nLayers).foldl (fun a i => Fp.add a (s.fv (.ltau i))) Fp.zero
    !(Fp.lt (s.fv (.utaus 0)) Fp.zero || Fp.lt a (s.fv (.utaus 0))) &&
    (between 1 s.cfg.nOutLevels).all fun i =>
      !(Fp.le (s.fv (.utaus i)) (s.fv (.utaus (i - 1))) || Fp.lt a (s.fv (.utaus i)))
  else true

/-- `solution_preprocess` (`src/xrtm_interface.c:2621-2646`). -/
def preprocess (s : State F) : Res F :=
  match (if s.inputsInit then checkInputs s else .done s) with
  | .done s =>
      if !(postChecks s) then .stop .minusOne s
      else if calcDerivs s.cfg && s.variedDue then .stop .minusOne s
      else .done s
  | .stop _ s => .stop .minusOne s
  | .ub k => .ub k

/-- `utaus_deps` (`src/xrtm_model.c:190-193`). -/
def utausDeps : Word := DEP_UTAUS ||| DEP_LTAU ||| DEP_COEF

/-- The outcome of one API call: return code and state, or undefined behaviour. -/
inductive Out (F : Type)
  | ret (c : Code) (s : State F)
  | ub (k : UB)

def Res.toOut : Res F → Out F
  | .done s => .ret .ok s
  | .stop c s => .ret c s
  | .ub k => .ub k

/-- One API call.
`xrtm_update_varied_layers` (`src/xrtm_interface.c:5347-5490`): the flag tables it fills
are modelled in `Verif.Model.Derivs`.
`xrtm_solution` (`src/xrtm_interface.c:5651-5703`): gate, preprocessing, computation; the
computation changes no input, and at most clears the bits of `utaus_deps`. -/
def apply (s : State F) : Op F → Out F
  | .updateVariedLayers =>
      if !(calcDerivs s.cfg) then .ret .intErr s
      else match (if s.inputsInit then checkInputs s else .done s) with
        | .done s => .ret .ok { s with variedDue := false }
        | .stop _ s => .ret .intErr s
        | .ub k => .ub k
  | .solve solver sols n computed located =>
      if solutionGate s.cfg.solvers solver sols n ≠ 0 then .ret .intErr s
      else match preprocess s with
        | .done s => .ret (if computed then .ok else .intErr)
            (if located then { s with depUtaus := s.depUtaus &&& ~~~utausDeps } else s)
        | .stop c s => .ret c s
        | .ub k => .ub k
  | op => (exec (setCmds s op) s).toOut

/-! ## Creation -/

/-- The instance `xrtm_create_misc` leaves behind (`src/xrtm_interface.c:800-1845`): no
input is set; derivative inputs are zero; `phi_0` is zero; all layers use all
coefficients; the quadrature points are there (`quad`, computed by `gauss_leg_quad*`). -/
def initState (c : Config) (kernels : Int → Int) (quad : Int → F) : State F where
  cfg := c
  kernels := kernels
  f := fun l => match l with
    | .phi0 => some Fp.zero
    | .qx i => if i < c.nQuad then some (quad i) else none
    | .fIsoTopL _ | .fIsoBotL _ | .levelsBL .. | .surfaceBL _ | .coefL .. | .omegaL ..
    | .ltauL .. | .ampfacL .. | .paramL .. => some Fp.zero
    | _ => none
  i := fun l => match l with
    | .nCoefLayer _ => some c.nCoef
    | .nCoefLayer2 _ => some c.nCoef2
    | .nFour2 => some (nFour2Of c false false (Fp.zero : F) Fp.zero)
    | .ulevel i => if has c.options OPT_OUTPUT_AT_LEVELS then
        (if i = 0 then some 0 else if i = 1 then some c.nLayers else none) else none
    | _ => none
  isSet := fun _ => false
  inputsInit := true
  variedDue := true
  depUtaus := DEP_MASK
  notices := []

/-! ## Getters -/

/-- The getters; a getter of an array fills the whole array of the caller. -/
inductive Get
  | doubDTau | padeParams | sosParams | fourierTol | lambda | planetR | levelsZ
  | outLevels | outTaus | outThetas
  | fIsoTop | fIsoTopL (d : Int) | fIsoBot | fIsoBotL (d : Int)
  | f0 | theta0 | phi0 | levelsB | levelsBL (d : Int) | surfaceB | surfaceBL (d : Int)
  | g (i : Int) | gL (i d : Int)
  | nCoef (i : Int) | coef (i e k : Int) | coefL (i d e k : Int)
  | omega (i : Int) | omegaL (i d : Int) | ltau (i : Int) | ltauL (i d : Int)
  | ampfac (k : Int) | ampfacL (k d : Int) | param (k p : Int) | paramL (k d p : Int)
  deriving DecidableEq, Repr

/-- What a getter does: checks, then the `int` cells and the `double` cells it
returns, the latter through `post` (identity or `acos(.)*R2D`). -/
structure GetTrace (F : Type) where
  cmds : List (Cmd F)
  ints : List ILoc
  dbls : List FLoc
  post : F → F

/-- Result of a getter. -/
inductive GetOut (F : Type)
  | val (ints : List Int) (dbls : List F)
  | err (c : Code)
  | ub (k : UB)

/-- The trace of each getter (`src/xrtm_interface.c:2852-4886`); note that the per layer and
per kernel getters test the flag *before* the index range. -/
def getTrace (s : State F) : Get → GetTrace F
  | .doubDTau => ⟨[.check (!(has s.cfg.solvers SOLVER_DOUB_ADD)) .dblErr, .needFlag .doubDTau .dblErr],
      [], [.doubDTau], id⟩
  | .padeParams => ⟨[.check (!(has s.cfg.solvers SOLVER_PADE_ADD)) .intErr,
      .needFlag .padeParams .intErr], [.padeS, .padeR], [], id⟩
  | .sosParams => ⟨[.check (!(has s.cfg.solvers SOLVER_SOS)) .intErr, .needFlag .sosParams .intErr],
      [.sosMaxOs], [.sosMaxTau, .sosTol], id⟩
  | .fourierTol => ⟨[.needFlag .fourierTol .dblErr], [], [.fourierTol], id⟩
  | .lambda => ⟨[.check (!(thermal s.cfg)) .dblErr, .needFlag .lambda .dblErr], [], [.lambda], id⟩
  | .planetR => ⟨[.check (!(has s.cfg.options OPT_PSA)) .dblErr, .needFlag .planetR .dblErr], [],
      [.planetR], id⟩
  | .levelsZ => ⟨[.check (!(has s.cfg.options OPT_PSA)) .intErr, .needFlag .levelsZ .intErr], [],
      (upto (s.cfg.nLayers + 1)).map .levelsZ, id⟩
  | .outLevels => ⟨[.check (!(has s.cfg.options OPT_OUTPUT_AT_LEVELS)) .intErr,
      .needFlag .ulevels .intErr], (upto s.cfg.nOutLevels).map .ulevel, [], id⟩
  | .outTaus => ⟨[.check (!(has s.cfg.options OPT_OUTPUT_AT_TAUS)) .intErr,
      .needFlag .utaus .intErr], [], (upto s.cfg.nOutLevels).map .utaus, id⟩
  | .outThetas => ⟨[.check (decide (s.cfg.nOutThetas = 0)) .intErr, .needFlag .umus .intErr], [],
      (upto s.cfg.nOutThetas).map fun i => .qx (s.cfg.nQuad + i),
      fun x => Fp.mul (Fp.acos x) Fp.r2d⟩
  | .fIsoTop => ⟨[.needFlag .fIsoTop .dblErr], [], [.fIsoTop], id⟩
  | .fIsoTopL d => ⟨[ckIdx d s.cfg.nDerivs .dblErr], [], [.fIsoTopL d], id⟩
  | .fIsoBot => ⟨[.needFlag .fIsoBot .dblErr], [], [.fIsoBot], id⟩
  | .fIsoBotL d => ⟨[ckIdx d s.cfg.nDerivs .dblErr], [], [.fIsoBotL d], id⟩
  | .f0 => ⟨[.check (!(solar s.cfg)) .dblErr, .needFlag .f0 .dblErr], [], [.f0], id⟩
  | .theta0 => ⟨[.check (!(solar s.cfg)) .intErrAsDouble, .needFlag .mu0 .dblErr], [], [.mu00],
      fun x => Fp.mul (Fp.acos x) Fp.r2d⟩
  | .phi0 => ⟨[.needFlag .phi0 .dblErr], [], [.phi0], id⟩
  | .levelsB => ⟨[.check (!(thermal s.cfg)) .intErr, .needFlag .levelsB .intErr], [],
      (upto (s.cfg.nLayers + 1)).map .levelsB, id⟩
  | .levelsBL d => ⟨[.check (!(thermal s.cfg)) .dblErr, ckIdx d s.cfg.nDerivs .dblErr], [],
      (upto (s.cfg.nLayers + 1)).map fun i => .levelsBL i d, id⟩
  | .surfaceB => ⟨[.check (!(thermal s.cfg)) .intErrAsDouble, .needFlag .surfaceB .dblErr], [],
      [.surfaceB], id⟩
  | .surfaceBL d => ⟨[.check (!(thermal s.cfg)) .intErrAsDouble, ckIdx d s.cfg.nDerivs .dblErr], [],
      [.surfaceBL d], id⟩
  /- `xrtm_get_g`, `xrtm_get_g_l`: always refused, see `setG1` -/
  | .g _ => ⟨[.check (!(useG s.cfg)) .dblErr], [], [], id⟩
  | .gL _ _ => ⟨[.check (!(useG s.cfg)) .dblErr], [], [], id⟩
  | .nCoef i => ⟨[.check (!(useCoef s.cfg)) .intErr, .needFlag (.coef i) .intErr,
      ckIdx i s.cfg.nLayers .intErr], [.nCoefLayer i], [], id⟩
  | .coef i e k => ⟨[.check (!(useCoef s.cfg)) .dblErr, .needFlag (.coef i) .dblErr,
      ckIdx i s.cfg.nLayers .dblErr, ckIdx e s.cfg.nElem .dblErr, .rdI (.nCoefLayer i),
      ckIdx k (s.iv (.nCoefLayer i)) .dblErr], [], [.coef i e k], id⟩
  | .coefL i d e k => ⟨[.check (!(useCoef s.cfg)) .dblErr, ckIdx i s.cfg.nLayers .dblErr,
      ckIdx d s.cfg.nDerivs .dblErr, ckIdx e s.cfg.nElem .dblErr, .rdI (.nCoefLayer i),
      ckIdx k (s.iv (.nCoefLayer i)) .dblErr], [], [.coefL i d e k], id⟩
  | .omega i => ⟨[.needFlag (.omega i) .dblErr, ckIdx i s.cfg.nLayers .dblErr], [], [.omega i], id⟩
  | .omegaL i d => ⟨[ckIdx i s.cfg.nLayers .dblErr, ckIdx d s.cfg.nDerivs .dblErr], [],
      [.omegaL i d], id⟩
  | .ltau i => ⟨[.needFlag (.ltau i) .dblErr, ckIdx i s.cfg.nLayers .dblErr], [], [.ltau i], id⟩
  | .ltauL i d => ⟨[ckIdx i s.cfg.nLayers .dblErr, ckIdx d s.cfg.nDerivs .dblErr], [],
      [.ltauL i d], id⟩
  | .ampfac k => ⟨[ckKernels s.cfg .dblErr, .needFlag (.ampfac k) .dblErr,
      ckIdx k s.cfg.nKernels .dblErr], [], [.ampfac k], id⟩
  | .ampfacL k d => ⟨[ckKernels s.cfg .dblErr, ckIdx k s.cfg.nKernels .dblErr,
      ckIdx d s.cfg.nDerivs .dblErr], [], [.ampfacL k d], id⟩
  | .param k p => ⟨[ckKernels s.cfg .dblErr, .needFlag (.param k p) .dblErr,
      ckIdx k s.cfg.nKernels .dblErr, ckIdx p (kernelNParams (s.kernels k)) .dblErr], [],
      [.param k p], id⟩
  | .paramL k d p => ⟨[ckKernels s.cfg .dblErr, ckIdx k s.cfg.nKernels .dblErr,
      ckIdx d s.cfg.nDerivs .dblErr, ckIdx p (kernelNParams (s.kernels k)) .dblErr], [],
      [.paramL k d p], id⟩

/-- Run a getter. -/
def get (s : State F) (g : Get) : GetOut F :=
  let t := getTrace s g
  match exec (t.cmds ++ t.ints.map .rdI ++ t.dbls.map .rd) s with
  | .done _ => .val (t.ints.map s.iv) (t.dbls.map fun l => t.post (s.fv l))
  | .stop c _ => .err c
  | .ub k => .ub k

/-! ## Histories -/

/-- States reachable from a freshly created instance by calls none of which was
undefined behaviour. -/
inductive Reach (c : Config) (kernels : Int → Int) (quad : Int → F) : List (Op F × Code) → State F → Prop
  | init : Reach c kernels quad [] (initState c kernels quad)
  | call {h s op r s'} : Reach c kernels quad h s → apply s op = .ret r s' →
      Reach c kernels quad ((op, r) :: h) s'

end

end Xrtm
