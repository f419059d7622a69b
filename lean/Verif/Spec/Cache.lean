import Verif.Model.Cache

/-!
# What caching must not change

Independent of the dependency words: the value of a quantity is what its program computes from the
present inputs, every quantity it asks for being computed afresh too.
-/

namespace Xrtm.Spec

variable {F V R : Type}

/-- Run a program with `q` as the value of what it asks for; `none` = failure. -/
def evalWith (q : CUnit → CPart → Option V) (st : State F) (act : Int → Int → Bool) :
    Prog F V R → Option R
  | .ret r => some r
  | .rdF l k => evalWith q st act (k (st.f l))
  | .rdI l k => evalWith q st act (k (st.i l))
  | .rdA i j k => evalWith q st act (k (act i j))
  | .ask u p k => (q u p).bind fun v => evalWith q st act (k v)

/-- The value of a quantity without any caching. -/
def freshV (P : Physics F V) (st : State F) (act : Int → Int → Bool) :
    Nat → CUnit → CPart → Option V
  | 0, _, _ => none
  | n + 1, u, p => (evalWith (freshV P st act n) st act (P.body u p)).bind fun v =>
      if P.chk u p v then some v else none

/-- The result of a solver without any caching. -/
def plainRun (P : Physics F V) (prog : Prog F V R) (st : State F) (act : Int → Int → Bool) : Option R :=
  evalWith (freshV P st act depth) st act prog

/-- A quantity of an existing layer. -/
def ValidU (c : Config) (u : CUnit) : Prop :=
  ∀ i, u.layer? = some i → 0 ≤ i ∧ i < c.nLayers

/-- An instance for which the saved layer and total matrices depend on no input that their
dependency masks leave out. -/
def LayerMaskFull (c : Config) : Prop :=
  solar c = false ∧ thermal c = false ∧ has c.solvers SOLVER_DOUB_ADD = false ∧
  (has c.solvers SOLVER_PADE_ADD = true → has c.options OPT_SFI = true → c.nOutThetas ≤ 0)

/-- The quantities for which the dependency masks are complete, or that are not kept. What is
left out, and why, is shown by the `C09_violated_*` theorems. `fx` says that the activity table of the
derivatives never changes; kept linearised phase matrices and local matrices are covered only then, because a change of the table is
not announced. -/
def Covered (fx : Prop) (c : Config) : CUnit → CPart → Prop
  | .utaus, _ | .chapman, _ | .opt _, _ => True
  | .vecsQ0 .., p | .vecsU0 .., p | .matsQQ .., p | .matsUQ .., p =>
      p.linear = true → ¬ fx → has c.options OPT_SAVE_PHASE_MATS = false
  | .loc .., p =>
      p.linear = true → ¬ fx →
        has c.options OPT_SAVE_PHASE_MATS = false ∧ has c.options OPT_SAVE_LOCAL_R_T = false
  | .layer .., p =>
      (has c.options OPT_SAVE_LAYER_R_T_S = true → p.linear = false ∧ LayerMaskFull c) ∧
      (p.linear = true → ¬ fx →
        has c.options OPT_SAVE_PHASE_MATS = false ∧ has c.options OPT_SAVE_LOCAL_R_T = false)
  | .total _, p =>
      (has c.options OPT_SAVE_LAYER_R_T_S = true ∨ has c.options OPT_SAVE_TOTAL_R_T_S = true →
        p.linear = false ∧ LayerMaskFull c) ∧
      (p.linear = true → ¬ fx →
        has c.options OPT_SAVE_PHASE_MATS = false ∧ has c.options OPT_SAVE_LOCAL_R_T = false)
  | .bound _, p => p.linear = false ∧ thermal c = false ∧ (solar c = true → c.nOutThetas ≤ 0)

/-- No intermediate result that can fail, or depends on one that can, is kept. -/
def NoSave (c : Config) : Prop :=
  has c.options OPT_SAVE_PHASE_MATS = false ∧ has c.options OPT_SAVE_LOCAL_R_T = false ∧
  has c.options OPT_SAVE_LAYER_R_T_S = false ∧ has c.options OPT_SAVE_TOTAL_R_T_S = false

/-- A program that asks only for covered quantities of existing layers. -/
def AsksCovered (fx : Prop) (c : Config) (prog : Prog F V R) : Prop :=
  prog.Within (fun u p => Covered fx c u p ∧ ValidU c u ∧ p ∈ u.parts) (fun _ => True) (fun _ => True)
    (fun _ _ => True)

/-- A program that asks for quantities of existing layers. -/
def AsksValid (c : Config) (prog : Prog F V R) : Prop :=
  prog.Within (fun u p => ValidU c u ∧ p ∈ u.parts) (fun _ => True) (fun _ => True)
    (fun _ _ => True)

/-- A call after which the inputs differ from before only where a notice was given: refused calls
leave the inputs alone (not so for the setters named in `C05_violated_*`), and a change of the
adjusted `mu_0` is announced (not so in `C09_violated_mu0`). -/
structure Calm (s : State F) (op : Op F) (r : Code) (s' : State F) : Prop where
  refused : r ≠ .ok → s'.f = s.f ∧ s'.i = s.i
  mu0 : s'.f .mu0 = s.f .mu0 ∨
    ∃ e ∈ newNotices s s', has e.mask DEP_MU_0 = true ∧ e.lo ≤ 0 ∧ s.cfg.nLayers ≤ e.hi

/-- An instance that has been created and given inputs, and on which no solution has been computed. -/
inductive SetUp [Fp F] (c : Config) (kern : Int → Int) (quad : Int → F)
    (actOf : State F → Int → Int → Bool) (act0 : Int → Int → Bool) : CState F V → Prop
  | init : SetUp c kern quad actOf act0 (freshC (initState c kern quad) act0)
  | call {s op r st'} : SetUp c kern quad actOf act0 s → apply s.st op = .ret r st' →
      SetUp c kern quad actOf act0 (afterCall actOf s op r st')

/-- The dependency bit that stands for an input (`src/xrtm_interface.h`, `DEP_MASK_*`). -/
def inputBit : FLoc → Option Word
  | .doubDTau => some DEP_DOUB_D_TAU
  | .lambda => some DEP_LAMBDA
  | .planetR => some DEP_PLANET_R
  | .levelsZ _ => some DEP_LEVELS_Z
  | .utaus _ => some DEP_UTAUS
  | .qx _ => some DEP_UMUS
  | .fIsoTop => some DEP_F_ISO_TOP
  | .fIsoBot => some DEP_F_ISO_BOT
  | .f0 => some DEP_F_0
  | .mu00 => some DEP_MU_0
  | .coef .. => some DEP_COEF
  | .coefL .. => some DEP_COEF_L
  | .omega _ => some DEP_OMEGA
  | .omegaL .. => some DEP_OMEGA_L
  | .ltau _ => some DEP_LTAU
  | .ltauL .. => some DEP_LTAU_L
  | .surfaceB => some DEP_SURFACE_B
  | .surfaceBL _ => some DEP_SURFACE_B_L
  | .levelsB _ => some DEP_LEVELS_B
  | .levelsBL .. => some DEP_LEVELS_B_L
  | .fIsoTopL _ => some DEP_F_ISO_TOP_L
  | .fIsoBotL _ => some DEP_F_ISO_BOT_L
  | .phi0 => some DEP_PHI_0
  | .ampfac _ | .param .. => some DEP_BRDF
  | .ampfacL .. | .paramL .. => some DEP_BRDF_L
  | .sosMaxTau | .sosTol | .fourierTol | .mu0 => none

/-- The layer an input belongs to. -/
def inputLayer : FLoc → Option Int
  | .coef i _ _ | .coefL i _ _ _ | .omega i | .omegaL i _ | .ltau i | .ltauL i _ => some i
  | _ => none

/-- Announcements that concern `u`: they reach its word and carry a bit of its mask. -/
def concerns (c : Config) (u : CUnit) (es : List DepEv) : Bool :=
  es.any fun e => e.hits u && has e.mask (u.deps c)

/-- Executions of an instance, with the announcements of the calls made. -/
inductive CExec [Fp F] [Inhabited V] (c : Config) (actOf : State F → Int → Int → Bool)
    (P : Physics F V) : CState F V → List (List DepEv) → CState F V → Prop
  | refl {s} : CExec c actOf P s [] s
  | call {s0 es s op r st'} : CExec c actOf P s0 es s → apply s.st op = .ret r st' →
      CExec c actOf P s0 (newNotices s.st st' :: es) (afterCall actOf s op r st')
  | run {s0 es s R} (prog : Prog F V R) : CExec c actOf P s0 es s →
      CExec c actOf P s0 es (solveWith c P prog s).1

end Xrtm.Spec
