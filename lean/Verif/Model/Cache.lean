import Verif.Model.State

/-!
# Cached intermediate results and their dependency words

Models the caching of `src/xrtm_model.c`: `resolve_deps0/1/2` (51-90), the `*_deps` masks and the
`get_*`/`update_*` functions that keep results between calls, together with `init_deps`
and `set_deps` (`src/xrtm_interface.c:377-457`) and `xrtm_clear_saved` (4925).

What a cached quantity *is* (the numbers) is left open: a quantity is computed by an arbitrary
program (`Prog`) that reads inputs and asks for other cached quantities. Which inputs and
which other quantities it may look at is read off the source (`readsF`, `readsI`, `readsA`).

Not in this file: the direct-beam arrays (`Verif.Model.Beam`), the Legendre polynomials
(`Verif.Model.Legendre`), whose caches work differently. Quantities that are only passed to
the caller of the computing function (no `SAVE_*` option) are computed at each request.
-/

namespace Xrtm

/-- The cached quantities: one constructor per `dep_flags_*` array.
`m` is the Fourier term, `i` the layer. -/
inductive CUnit
  /-- `ulevels`, `utaus20`, `utaus2` of `update_utaus` (`src/xrtm_model.c:197-251`) -/
  | utaus
  /-- `chapman` of `get_chapman` (386-399) -/
  | chapman
  /-- delta-M scaled properties of `update_opt_props` (270-360) -/
  | opt (i : Int)
  /-- `P_q0_*`, `P_u0_*` (`phase_vecs_get`, 811-1060) -/
  | vecsQ0 (m i : Int) | vecsU0 (m i : Int)
  /-- `P_qq_*`, `P_uq_*` (`phase_mats_get`, 1223-1600) -/
  | matsQQ (m i : Int) | matsUQ (m i : Int)
  /-- `r_p`, `t_p`, .. (`get_local_r_t_u_w`, 1738-1870) -/
  | loc (m i : Int)
  /-- `Rl_p`, .. (`get_layer_R_T_S_U_W_V`, 2109-2380) -/
  | layer (m i : Int)
  /-- `R_p`, .. of the whole atmosphere (`get_total_*`, 2522-3900) -/
  | total (m : Int)
  /-- `In_p`, `I1_m` (`diff_bound_input_update`, 3912-4158) -/
  | bound (m : Int)
  deriving DecidableEq, Repr

/-- The layer a word belongs to; `none` for words that see every notice. -/
def CUnit.layer? : CUnit → Option Int
  | .utaus | .chapman | .total _ | .bound _ => none
  | .opt i | .vecsQ0 _ i | .vecsU0 _ i | .matsQQ _ i | .matsUQ _ i | .loc _ i | .layer _ i => some i

/-- Nesting depth of the computations. -/
def CUnit.rank : CUnit → Nat
  | .utaus | .chapman | .opt _ => 0
  | .vecsQ0 .. | .vecsU0 .. | .matsQQ .. | .matsUQ .. => 1
  | .loc .. => 2
  | .layer .. => 3
  | .total _ | .bound _ => 4

/-- Parts of a quantity that are recomputed separately. `val` stands for all of a quantity
that is computed as a whole; the linearised arrays are `lin`. -/
inductive CPart
  | val | lin
  | coef | omega | ltau | coefL | omegaL | ltauL
  | where_ | depth
  deriving DecidableEq, Repr

def CUnit.parts : CUnit → List CPart
  | .utaus => [.where_, .depth]
  | .opt _ => [.coef, .omega, .ltau, .coefL, .omegaL, .ltauL]
  | .chapman => [.val]
  | _ => [.val, .lin]

section masks
variable (c : Config)

/-- `DEP_MASK_UMUS` unless source function integration is on. -/
def umusUnlessSfi : Word := if !(has c.options OPT_SFI) then DEP_UMUS else 0

/-- `opt_props_deps` (`src/xrtm_model.c:258-267`), for the solvers that use `coef`. -/
def optDeps : Word :=
  DEP_COEF ||| DEP_COEF_L ||| DEP_OMEGA ||| DEP_OMEGA_L ||| DEP_LTAU ||| DEP_LTAU_L ||| utausDeps

/-- `chapman_deps` (377-380). -/
def chapmanDeps : Word := DEP_MU_0 ||| DEP_PLANET_R ||| DEP_LEVELS_Z

/-- `beam_params_deps` (478-482). -/
def beamDeps : Word := optDeps ||| chapmanDeps ||| DEP_MU_0 ||| DEP_LTAU ||| DEP_LTAU_L

/-- `phase_vecs_deps_q0` (1102-1110). -/
def vecsQ0Deps : Word := DEP_MU_0 ||| DEP_COEF ||| DEP_COEF_L ||| umusUnlessSfi c
/-- `phase_vecs_deps_u0` (1165-1168). -/
def vecsU0Deps : Word := DEP_MU_0 ||| DEP_UMUS ||| DEP_COEF ||| DEP_COEF_L
/-- `phase_mats_deps_qq` (1609-1617). -/
def matsQQDeps : Word := DEP_COEF ||| DEP_COEF_L ||| umusUnlessSfi c
/-- `phase_mats_deps_uq` (1668-1671). -/
def matsUQDeps : Word := DEP_UMUS ||| DEP_COEF ||| DEP_COEF_L
/-- `local_r_t_u_w_deps` (1728-1731). -/
def locDeps : Word := matsQQDeps c ||| DEP_OMEGA ||| DEP_OMEGA_L
/-- `layer_R_T_S_U_W_V_deps` (2091-2100) and `total_R_T_S_U_W_V_deps` (2522-2531). -/
def layerDeps : Word :=
  optDeps ||| beamDeps ||| vecsQ0Deps c ||| locDeps c |||
  (if has c.solvers SOLVER_PADE_ADD then DEP_PADE_PARAMS else 0)
/-- `diff_bound_input_deps` (4161-4165). -/
def boundDeps : Word :=
  optDeps ||| beamDeps ||| DEP_F_ISO_TOP ||| DEP_F_ISO_BOT ||| DEP_F_0 ||| DEP_MU_0 |||
  DEP_BRDF ||| DEP_BRDF_L

/-- The mask tested, and cleared, at a request. -/
def CUnit.deps : CUnit → Word
  | .utaus => utausDeps
  | .chapman => chapmanDeps
  | .opt _ => optDeps
  | .vecsQ0 .. => vecsQ0Deps c
  | .vecsU0 .. => vecsU0Deps
  | .matsQQ .. => matsQQDeps c
  | .matsUQ .. => matsUQDeps
  | .loc .. => locDeps c
  | .layer .. => layerDeps c
  | .total _ => layerDeps c
  | .bound _ => boundDeps

/-- The mask that makes a part be recomputed: the `if`s of `update_utaus` (209-246) and of
`update_opt_props` (303-347, the chain of `else if`s), otherwise the whole mask. -/
def CUnit.trig : CUnit → CPart → Word
  | .utaus, .where_ => DEP_UTAUS ||| DEP_LTAU
  | .utaus, .depth => DEP_UTAUS ||| DEP_LTAU ||| DEP_COEF
  | .opt _, .coef => DEP_COEF
  | .opt _, .omega => DEP_OMEGA
  | .opt _, .ltau => DEP_LTAU
  | .opt _, .coefL => DEP_COEF ||| DEP_COEF_L
  | .opt _, .omegaL => DEP_OMEGA ||| DEP_OMEGA_L
  | .opt _, .ltauL => DEP_LTAU ||| DEP_LTAU_L
  | .utaus, _ => 0
  | .opt _, _ => 0
  | u, _ => u.deps c

/-- Is the quantity kept between requests? -/
def CUnit.kept : CUnit → Bool
  | .utaus | .chapman | .bound _ => true
  | .opt _ => has c.options OPT_DELTA_M
  | .vecsQ0 .. | .vecsU0 .. | .matsQQ .. | .matsUQ .. => has c.options OPT_SAVE_PHASE_MATS
  | .loc .. => has c.options OPT_SAVE_LOCAL_R_T
  | .layer .. => has c.options OPT_SAVE_LAYER_R_T_S
  | .total _ => has c.options OPT_SAVE_TOTAL_R_T_S

end masks

/-- Is the part one of the linearised arrays? -/
def CPart.linear : CPart → Bool
  | .lin | .coefL | .omegaL | .ltauL => true
  | _ => false

section reads
variable (c : Config)

/-- `n_quad_x`: the number of cosines multiple scattering works on,
`src/xrtm_interface.c:1089-1092`. -/
def nQuadX : Int := if has c.options OPT_SFI then c.nQuad else c.nQuad + c.nOutThetas

/-- The inputs the direct beam of a layer is computed from (`beam_params_update`, 406-470). -/
def beamReads (l : FLoc) : Prop :=
  solar c ∧ match l with
    | .ltau _ | .mu0 => True
    | .planetR | .levelsZ _ => has c.options OPT_PSA
    | .omega _ | .coef .. => has c.options OPT_DELTA_M
    | _ => False

/-- The `double` inputs a part may depend on, directly or through the quantities it asks for. -/
def readsF : CUnit → CPart → FLoc → Prop
  | .utaus, .where_, l => match l with
      | .utaus _ | .ltau _ => True
      | _ => False
  | .utaus, _, l => match l with
      | .utaus _ | .ltau _ => True
      | .omega _ | .coef .. => has c.options OPT_DELTA_M
      | _ => False
  | .chapman, _, l => match l with
      | .mu0 | .planetR | .levelsZ _ => True
      | _ => False
  | .opt i, p, l => match p, l with
      | .coef, .coef j _ _ => j = i
      | .omega, .coef j _ _ | .omega, .omega j => j = i
      | .ltau, .coef j _ _ | .ltau, .omega j | .ltau, .ltau j => j = i
      | .coefL, .coef j _ _ | .coefL, .coefL j _ _ _ => j = i
      | .omegaL, .coef j _ _ | .omegaL, .coefL j _ _ _ | .omegaL, .omega j
        | .omegaL, .omegaL j _ => j = i
      | .ltauL, .coef j _ _ | .ltauL, .coefL j _ _ _ | .ltauL, .omega j
        | .ltauL, .omegaL j _ | .ltauL, .ltau j | .ltauL, .ltauL j _ => j = i
      | _, _ => False
  | .vecsQ0 _ i, p, l => match l with
      | .coef j _ _ => j = i
      | .coefL j _ _ _ => p.linear ∧ j = i
      | .mu0 => True
      | .qx j => j < nQuadX c
      | _ => False
  | .vecsU0 _ i, p, l => match l with
      | .coef j _ _ => j = i
      | .coefL j _ _ _ => p.linear ∧ j = i
      | .mu0 | .qx _ => True
      | _ => False
  | .matsQQ _ i, p, l => match l with
      | .coef j _ _ => j = i
      | .coefL j _ _ _ => p.linear ∧ j = i
      | .qx j => j < nQuadX c
      | _ => False
  | .matsUQ _ i, p, l => match l with
      | .coef j _ _ => j = i
      | .coefL j _ _ _ => p.linear ∧ j = i
      | .qx _ => True
      | _ => False
  | .loc _ i, p, l => match l with
      | .coef j _ _ | .omega j => j = i
      | .coefL j _ _ _ | .omegaL j _ => p.linear ∧ j = i
      | .qx j => j < nQuadX c
      | _ => False
  | .layer _ i, p, l => p.linear ∨ beamReads c l ∨ match l with
      | .coef j _ _ | .omega j | .ltau j => j = i
      | .qx j => j < nQuadX c ∨ has c.solvers SOLVER_PADE_ADD
      | .mu0 | .f0 => solar c
      | .levelsB _ => thermal c
      | .doubDTau => has c.solvers SOLVER_DOUB_ADD
      | _ => False
  | .total _, p, l => p.linear ∨ beamReads c l ∨ match l with
      | .coef .. | .omega _ | .ltau _ => True
      | .qx j => j < nQuadX c ∨ has c.solvers SOLVER_PADE_ADD
      | .mu0 | .f0 => solar c
      | .levelsB _ => thermal c
      | .doubDTau => has c.solvers SOLVER_DOUB_ADD
      | _ => False
  | .bound _, p, l => p.linear ∨ beamReads c l ∨ match l with
      | .fIsoTop | .fIsoBot => True
      | .f0 | .mu0 => solar c
      | .surfaceB => thermal c
      | .qx _ | .ampfac _ | .param .. => solar c ∨ thermal c
      | .coef .. | .omega _ | .ltau _ => solar c
      | _ => False

/-- The `int` inputs likewise. -/
def readsI : CUnit → CPart → ILoc → Prop
  | .utaus, p, l => match l with
      | .nCoefLayer _ => p ≠ .where_ ∧ has c.options OPT_DELTA_M
      | _ => False
  | .chapman, _, _ => False
  | .opt i, _, l | .vecsQ0 _ i, _, l | .vecsU0 _ i, _, l | .matsQQ _ i, _, l | .matsUQ _ i, _, l
    | .loc _ i, _, l => match l with
      | .nCoefLayer j | .nCoefLayer2 j => j = i
      | _ => False
  | .layer _ i, _, l => match l with
      | .nCoefLayer j | .nCoefLayer2 j => j = i ∨ (solar c ∧ has c.options OPT_DELTA_M)
      | .padeS | .padeR => has c.solvers SOLVER_PADE_ADD
      | _ => False
  | .total _, _, l => match l with
      | .nCoefLayer _ | .nCoefLayer2 _ => True
      | .padeS | .padeR => has c.solvers SOLVER_PADE_ADD
      | _ => False
  | .bound _, _, l => match l with
      | .nCoefLayer _ | .nCoefLayer2 _ => solar c
      | .kernelFunc _ => solar c ∨ thermal c
      | _ => False

/-- The activity flags of derivatives (`derivs.layers` and the tables built from it) likewise:
only the linearised arrays look at them, those of `update_opt_props` do not. -/
def readsA : CUnit → CPart → Prop
  | .utaus, _ | .chapman, _ | .opt _, _ => False
  | _, p => p.linear

/-- Which quantities ask which. `layer` asks for `loc`, `vecsQ0` (solar source), the scaled
properties of its layer; and so on. -/
def asks : CUnit → CPart → CUnit → CPart → Prop
  | .vecsQ0 _ i, p, .opt j, p' | .vecsU0 _ i, p, .opt j, p' | .matsQQ _ i, p, .opt j, p'
    | .matsUQ _ i, p, .opt j, p' =>
      j = i ∧ (p' = .coef ∨ p.linear ∧ p' = .coefL)
  | .loc _ i, p, .opt j, p' =>
      j = i ∧ (p' = .coef ∨ p' = .omega ∨ p.linear ∧ (p' = .coefL ∨ p' = .omegaL))
  | .loc m i, p, .matsQQ m' j, p' => m' = m ∧ j = i ∧ (p' = .val ∨ p.linear ∧ p' = .lin)
  | .layer _ i, p, .opt j, p' =>
      j = i ∧ (p' = .coef ∨ p' = .omega ∨ p' = .ltau ∨ p.linear ∧ p'.linear ∧ p' ≠ .lin)
  | .layer m i, p, .loc m' j, p' => m' = m ∧ j = i ∧ (p' = .val ∨ p.linear ∧ p' = .lin)
  | .layer m i, p, .vecsQ0 m' j, p' =>
      solar c ∧ m' = m ∧ j = i ∧ (p' = .val ∨ p.linear ∧ p' = .lin)
  | .total _, p, .opt j, p' =>
      (0 ≤ j ∧ j < c.nLayers) ∧ (p' = .coef ∨ p' = .omega ∨ p' = .ltau ∨ p.linear ∧ p'.linear ∧ p' ≠ .lin)
  | .total m, p, .layer m' j, p' =>
      m' = m ∧ (0 ≤ j ∧ j < c.nLayers) ∧ (p' = .val ∨ p.linear ∧ p' = .lin)
  | .bound _, p, .opt j, p' =>
      solar c ∧ (0 ≤ j ∧ j < c.nLayers) ∧
        (p' = .coef ∨ p' = .omega ∨ p' = .ltau ∨ p.linear ∧ p'.linear ∧ p' ≠ .lin)
  | _, _, _, _ => False

end reads

/-- A computation: reads inputs (`rdF`, `rdI`), derivative activity flags (`rdA i j`, the table
`derivs.layers`), asks for cached quantities, returns. -/
inductive Prog (F V R : Type)
  | ret (r : R)
  | rdF (l : FLoc) (k : Option F → Prog F V R)
  | rdI (l : ILoc) (k : Option Int → Prog F V R)
  | rdA (i j : Int) (k : Bool → Prog F V R)
  | ask (u : CUnit) (p : CPart) (k : V → Prog F V R)

/-- Everything a program does lies in the given sets. -/
def Prog.Within {F V R : Type} (A : CUnit → CPart → Prop) (RF : FLoc → Prop) (RI : ILoc → Prop)
    (RA : Int → Int → Prop) : Prog F V R → Prop
  | .ret _ => True
  | .rdF l k => RF l ∧ ∀ x, (k x).Within A RF RI RA
  | .rdI l k => RI l ∧ ∀ x, (k x).Within A RF RI RA
  | .rdA i j k => RA i j ∧ ∀ x, (k x).Within A RF RI RA
  | .ask u p k => A u p ∧ ∀ x, (k x).Within A RF RI RA

/-- Quantities whose computation can fail: the normalisation checks `check_phase_vecs_norm`,
`check_phase_mats_norm` (`src/xrtm_model.c:934-940`, `1381-1387`). -/
def CUnit.fallible : CUnit → Bool
  | .vecsQ0 .. | .vecsU0 .. | .matsQQ .. | .matsUQ .. => true
  | _ => false

/-- How the quantities are computed: a program for each part, and the check its result has to
pass. -/
structure Physics (F V : Type) where
  body : CUnit → CPart → Prog F V V
  chk : CUnit → CPart → V → Bool

/-- The programs respect the tables, and only the fallible quantities fail. -/
structure Respects {F V : Type} (c : Config) (P : Physics F V) : Prop where
  within : ∀ u p,
    (P.body u p).Within (asks c u p) (readsF c u p) (readsI c u p) (fun _ _ => readsA u p)
  chk : ∀ u p v, u.fallible = false → P.chk u p v = true

/-- The instance with its caches. `runs` counts recomputations. -/
structure CState (F V : Type) where
  st : State F
  act : Int → Int → Bool
  dep : CUnit → Word
  val : CUnit → CPart → Option V
  runs : CUnit → Nat

section
variable {F V R : Type}

/-- Does a notice reach the word of `u`?  (loops of `set_deps`) -/
def DepEv.hits (e : DepEv) (u : CUnit) : Bool :=
  match u.layer? with
  | none => true
  | some i => decide (e.lo ≤ i) && decide (i < e.hi)

/-- `set_deps` (`src/xrtm_interface.c:419-457`) on the words. -/
def orDeps (dep : CUnit → Word) (e : DepEv) (u : CUnit) : Word :=
  if e.hits u then dep u ||| e.mask else dep u

/-- The words after the notices `es`, newest first. -/
def orAll (dep : CUnit → Word) : List DepEv → CUnit → Word
  | [] => dep
  | e :: es => orDeps (orAll dep es) e

/-- Run a program, given the meaning of requests. `none`: a request failed, and the program
returned an error at once. -/
def runWith (req : CUnit → CPart → CState F V → CState F V × Option V) :
    Prog F V R → CState F V → CState F V × Option R
  | .ret r, s => (s, some r)
  | .rdF l k, s => runWith req (k (s.st.f l)) s
  | .rdI l k, s => runWith req (k (s.st.i l)) s
  | .rdA i j k, s => runWith req (k (s.act i j)) s
  | .ask u p k, s =>
      match req u p s with
      | (s', some v) => runWith req (k v) s'
      | (s', none) => (s', none)

/-- Recompute the parts of `u` whose mask meets the word `w`, in order, and store them. A value that
does not pass its check has already been stored when the error is returned. -/
def refresh (c : Config) (req : CUnit → CPart → CState F V → CState F V × Option V)
    (P : Physics F V) (u : CUnit) (w : Word) : List CPart → CState F V → CState F V × Bool
  | [], s => (s, true)
  | p :: ps, s =>
      if has w (u.trig c p) then
        match runWith req (P.body u p) s with
        | (s', none) => (s', false)
        | (s', some v) =>
            let s'' : CState F V :=
              { s' with val := fun u' p' => if u' = u ∧ p' = p then some v else s'.val u' p' }
            if P.chk u p v then refresh c req P u w ps s'' else (s'', false)
      else refresh c req P u w ps s

/-- A request for part `p` of `u`: `get_*`/`update_*` with `resolve_deps*`, which clears the bits
before anything is computed. `n` bounds the nesting. A quantity that is not kept is computed and handed
over. `default` stands for the contents of an array that was never computed. With
`PHASE_MATRIX_LC` the source computes, and marks, all Fourier terms of a layer together
(`resolve_deps2`, 77-90); here each term is marked on its own. -/
def request [Inhabited V] (c : Config) (P : Physics F V) :
    Nat → CUnit → CPart → CState F V → CState F V × Option V
  | 0, _, _, s => (s, none)
  | n + 1, u, p, s =>
      if !(u.kept c) then
        match runWith (request c P n) (P.body u p) s with
        | (s', some v) => (s', if P.chk u p v then some v else none)
        | (s', none) => (s', none)
      else if !(has (s.dep u) (u.deps c)) then (s, some ((s.val u p).getD default))
      else
        let s1 : CState F V :=
          { s with dep := fun u' => if u' = u then s.dep u &&& ~~~(u.deps c) else s.dep u',
                   runs := fun u' => if u' = u then s.runs u + 1 else s.runs u' }
        match refresh c (request c P n) P u (s.dep u) u.parts s1 with
        | (s2, true) => (s2, some ((s2.val u p).getD default))
        | (s2, false) => (s2, none)

/-- Nesting is at most 5 deep. -/
def depth : Nat := 5

/-- Run a solver on the instance. -/
def solveWith [Inhabited V] (c : Config) (P : Physics F V) (prog : Prog F V R)
    (s : CState F V) : CState F V × Option R :=
  runWith (request c P depth) prog s

/-- What `xrtm_clear_saved` does: `init_deps(d, DEP_MASK_MASK, 0, n_layers)`
(`src/xrtm_interface.c:377-416`, `4925-4932`). The words of layers that do not exist are left out of
the statement by taking all words. -/
def clearSaved (s : CState F V) : CState F V :=
  { s with st := { s.st with depUtaus := DEP_MASK }, dep := fun _ => DEP_MASK }

/-- A fresh instance: creation ends with `init_deps` (`src/xrtm_interface.c:1840`). -/
def freshC (st : State F) (act : Int → Int → Bool) : CState F V :=
  { st := st, act := act, dep := fun _ => DEP_MASK, val := fun _ _ => none, runs := fun _ => 0 }

/-- The notices issued by a call: those in front of the old ones. -/
def newNotices (s s' : State F) : List DepEv := s'.notices.take (s'.notices.length - s.notices.length)

/-- One call of the interface on the instance with caches; `actOf` is the table
`xrtm_update_varied_layers` computes. -/
def afterCall (actOf : State F → Int → Int → Bool) (s : CState F V) (op : Op F) (r : Code) (st' : State F) :
    CState F V :=
  { s with
    st := st'
    dep := orAll s.dep (newNotices s.st st')
    act := match op, r with
      | .updateVariedLayers, .ok => actOf st'
      | _, _ => s.act }

/-- Instances reachable by calls of the interface (each satisfying `good`), `xrtm_clear_saved` and
solver runs, failing ones only where `mayFail`. -/
inductive CReach [Fp F] [Inhabited V] (c : Config) (kern : Int → Int) (quad : Int → F)
    (actOf : State F → Int → Int → Bool) (act0 : Int → Int → Bool) (P : Physics F V)
    (good : State F → Op F → Code → State F → Prop) (mayFail : Prop) : CState F V → Prop
  | init : CReach c kern quad actOf act0 P good mayFail (freshC (initState c kern quad) act0)
  | call {s op r st'} : CReach c kern quad actOf act0 P good mayFail s → apply s.st op = .ret r st' →
      good s.st op r st' → CReach c kern quad actOf act0 P good mayFail (afterCall actOf s op r st')
  | clear {s} : CReach c kern quad actOf act0 P good mayFail s →
      CReach c kern quad actOf act0 P good mayFail (clearSaved s)
  | run {s R} (prog : Prog F V R) : CReach c kern quad actOf act0 P good mayFail s →
      ((solveWith c P prog s).2 = none → mayFail) →
      CReach c kern quad actOf act0 P good mayFail (solveWith c P prog s).1

end

end Xrtm
