import Verif.Model.Options
import Verif.Spec.Options
import Verif.Proof.Word

/-!
# C01, C02, C03: what the creation call and the solution gate accept
-/

namespace Xrtm
open Spec

/-- Position of each option in the option word: the documented constant
`XRTM_OPTION_x = 1 << position`. -/
def optPos : Opt → Nat
  | .calcDerivs => 0 | .reverseDerivs => 1 | .deltaM => 2 | .nTTms => 3
  | .fourConvOld => 4 | .fourConvNew => 5 | .noAzimuthal => 6 | .outputAtLevels => 7
  | .outputAtTaus => 8 | .partSolClassical => 9 | .partSolGreens => 10 | .phaseScalar => 11
  | .phaseMatrixGc => 12 | .phaseMatrixLc => 13 | .psa => 14 | .quadNormGausLeg => 15
  | .quadDoubGausLeg => 16 | .quadLobatto => 17 | .saveLegPolys => 18 | .savePhaseMats => 19
  | .saveLocalRT => 20 | .saveLayerRTS => 21 | .saveTotalRTS => 22 | .sfi => 23
  | .sourceSolar => 24 | .sourceThermal => 25 | .stackReuseAdding => 26 | .topDownAdding => 27
  | .bottomUpAdding => 28 | .upwellingOutput => 29 | .downwellingOutput => 30 | .vector => 31

/-- The option set a word stands for. -/
def optsOf (w : Word) : OptSet := fun o => w.getLsbD (optPos o) = true

/-- Position of each solver in the solver word. -/
def solverPos : Solver → Nat
  | .doubAdd => 0 | .eigAdd => 1 | .eigBvp => 2 | .fourStream => 3 | .memBvp => 4
  | .padeAdd => 5 | .single => 6 | .sixStream => 7 | .sos => 8 | .twoOs => 9 | .twoStream => 10

/-- The solver set a word stands for (bits above the eleventh stand for nothing). -/
def solversOf (w : Word) : Solver → Prop := fun s => w.getLsbD (solverPos s) = true

theorem exactlyOne2 (S : OptSet) (a b : Opt) (h : a ≠ b) :
    ExactlyOne S [a, b] ↔ ((S a ∨ S b) ∧ ¬ (S a ∧ S b)) := by
  unfold ExactlyOne
  simp only [List.mem_cons, List.not_mem_nil, or_false, exists_eq_or_imp, exists_eq_left,
    forall_eq_or_imp, forall_eq]
  have h' := h.symm
  simp [h, h']
  tauto

theorem exactlyOne3 (S : OptSet) (a b c : Opt) (h1 : a ≠ b) (h2 : a ≠ c) (h3 : b ≠ c) :
    ExactlyOne S [a, b, c] ↔
      ((S a ∨ S b ∨ S c) ∧ ¬ ((S a ∧ S b) ∨ (S a ∧ S c) ∨ (S b ∧ S c))) := by
  unfold ExactlyOne
  simp only [List.mem_cons, List.not_mem_nil, or_false, exists_eq_or_imp, exists_eq_left,
    forall_eq_or_imp, forall_eq]
  simp [h1, h2, h3, h1.symm, h2.symm, h3.symm]
  tauto

/-- **C01.** `xrtm_check_options` accepts a word exactly when the option set it
stands for satisfies the documented consistency rules. -/
theorem C01_check_options_iff (w : Word) :
    checkOptions w = 0 ↔ Consistent (optsOf w) := by
  unfold checkOptions
  simp only [ite_err _ _ _ xrtmIntError_ne, has_or,
    OPT_N_T_TMS, OPT_NO_AZIMUTHAL, OPT_FOUR_CONV_OLD, OPT_FOUR_CONV_NEW, OPT_OUTPUT_AT_LEVELS,
    OPT_OUTPUT_AT_TAUS, OPT_PART_SOL_CLASSICAL, OPT_PART_SOL_GREENS, OPT_PHASE_SCALAR,
    OPT_PHASE_MATRIX_GC, OPT_PHASE_MATRIX_LC, OPT_QUAD_NORM_GAUS_LEG, OPT_QUAD_DOUB_GAUS_LEG,
    OPT_QUAD_LOBATTO, OPT_SAVE_LAYER_R_T_S, OPT_STACK_REUSE_ADDING, OPT_CALC_DERIVS,
    OPT_TOP_DOWN_ADDING, OPT_BOTTOM_UP_ADDING, OPT_UPWELLING_OUTPUT, OPT_DOWNWELLING_OUTPUT,
    OPT_VECTOR]
  simp only [has_bit w _ (by decide : (0:Nat) < 32), has_bit w _ (by decide : (3:Nat) < 32),
    has_bit w _ (by decide : (4:Nat) < 32), has_bit w _ (by decide : (5:Nat) < 32),
    has_bit w _ (by decide : (6:Nat) < 32), has_bit w _ (by decide : (7:Nat) < 32),
    has_bit w _ (by decide : (8:Nat) < 32), has_bit w _ (by decide : (9:Nat) < 32),
    has_bit w _ (by decide : (10:Nat) < 32), has_bit w _ (by decide : (11:Nat) < 32),
    has_bit w _ (by decide : (12:Nat) < 32), has_bit w _ (by decide : (13:Nat) < 32),
    has_bit w _ (by decide : (15:Nat) < 32), has_bit w _ (by decide : (16:Nat) < 32),
    has_bit w _ (by decide : (17:Nat) < 32), has_bit w _ (by decide : (21:Nat) < 32),
    has_bit w _ (by decide : (26:Nat) < 32), has_bit w _ (by decide : (27:Nat) < 32),
    has_bit w _ (by decide : (28:Nat) < 32), has_bit w _ (by decide : (29:Nat) < 32),
    has_bit w _ (by decide : (30:Nat) < 32), has_bit w _ (by decide : (31:Nat) < 32)]
  simp only [Bool.and_eq_true, Bool.or_eq_true, bnot_iff, not_not]
  constructor
  · rintro ⟨h1, h2, h3, h4, h5, h6, h7, h8, h9, h10, h11, h12, h13, h14, h15, h16, h17, h18, -⟩
    exact {
      conv := (exactlyOne2 _ _ _ (by decide)).2 ⟨h2, h3⟩
      out := (exactlyOne2 _ _ _ (by decide)).2 ⟨h4, h5⟩
      part := (exactlyOne2 _ _ _ (by decide)).2 ⟨h6, h7⟩
      phase := (exactlyOne3 _ _ _ _ (by decide) (by decide) (by decide)).2
        ⟨or_assoc.1 h8, fun h => h9 (or_assoc.2 h)⟩
      quad := (exactlyOne3 _ _ _ _ (by decide) (by decide) (by decide)).2
        ⟨or_assoc.1 h10, fun h => h11 (or_assoc.2 h)⟩
      tms := h1
      stackSave := fun h => h12 h.symm
      stackDerivs := fun h => by_contra fun hc => h13 ⟨h, hc⟩
      stackTop := h14
      topBottom := h15
      dir := h16
      vec := ⟨fun h => by_contra fun hc => h18 ⟨h, hc⟩, fun h => by_contra fun hc => h17 ⟨hc, h⟩⟩ }
  · rintro ⟨h1, h2, h3, h4, h5, h6, h7, h8, h9, h10, h11, h12⟩
    rw [exactlyOne2 _ _ _ (by decide)] at h1 h2 h3
    rw [exactlyOne3 _ _ _ _ (by decide) (by decide) (by decide)] at h4 h5
    exact ⟨h6, h1.1, h1.2, h2.1, h2.2, h3.1, h3.2, or_assoc.2 h4.1, fun h => h4.2 (or_assoc.1 h),
      or_assoc.2 h5.1, fun h => h5.2 (or_assoc.1 h), fun h => h7 h.symm, fun h => h.2 (h8 h.1),
      h9, h10, h11, fun h => h.1 (h12.2 h.2), fun h => h.2 (h12.1 h.1), trivial⟩

/-- A word accepted by `C01_check_options_iff`: levels output, up and down, scalar. -/
example : checkOptions (bit 5 ||| bit 7 ||| bit 9 ||| bit 11 ||| bit 16 ||| bit 29 ||| bit 30) = 0 := by
  decide

/-- **C02, sizes against options.** -/
theorem C02_check_counts_iff (w : Word) (c : Counts) (h0 : 0 ≤ c.nDerivs) (h1 : 0 ≤ c.nOutThetas) :
    checkCounts w c = 0 ↔ SizesFit c (optsOf w) := by
  unfold checkCounts
  simp only [ite_err _ _ _ xrtmIntError_ne]
  simp only [OPT_CALC_DERIVS, OPT_DELTA_M, OPT_SFI,
    OPT_TOP_DOWN_ADDING, OPT_BOTTOM_UP_ADDING, OPT_VECTOR,
    has_bit w _ (by decide : (0:Nat) < 32), has_bit w _ (by decide : (2:Nat) < 32),
    has_bit w _ (by decide : (23:Nat) < 32), has_bit w _ (by decide : (27:Nat) < 32),
    has_bit w _ (by decide : (28:Nat) < 32), has_bit w _ (by decide : (31:Nat) < 32),
    Bool.and_eq_true, bnot_iff, decide_eq_true_eq]
  constructor
  · rintro ⟨h2, h3, h4, h5, h6, h7, h8, -⟩
    exact {
      derivs := ⟨fun h => by
          have : c.nDerivs ≠ 0 := fun e => h3 ⟨h, e⟩
          omega,
        fun h => by_contra fun hc => h2 ⟨hc, h⟩⟩
      deltaM := fun h => by
        have : ¬ c.maxCoef < 2 * c.nQuad + 1 := fun e => h4 ⟨h, e⟩
        omega
      sfi := fun h => by
        have : c.nOutThetas ≠ 0 := fun e => h5 ⟨h, e⟩
        omega
      topDown := fun h => by_contra fun hc => h6 ⟨h, hc⟩
      bottomUp := fun h => by_contra fun hc => h7 ⟨h, hc⟩
      vector := fun h => by_contra fun hc => h8 ⟨hc, h⟩ }
  · rintro ⟨h2, h3, h4, h5, h6, h7⟩
    refine ⟨fun h => h.1 (h2.2 h.2), fun h => ?_, fun h => ?_, fun h => ?_,
      fun h => h.2 (h5 h.1), fun h => h.2 (h6 h.1), fun h => h.1 (h7 h.2), trivial⟩
    · have := h2.1 h.1; omega
    · have := h3 h.1; omega
    · have := h4 h.1; omega

theorem C02_ranges_iff (c : Counts) :
    (rangesOk1 c = true ∧ ¬ c.nOutLevels ≤ 0 ∧ ¬ c.nOutThetas < 0) ↔ SizesInRange c := by
  unfold rangesOk1
  simp only [Bool.and_eq_true, bnot_iff, Bool.or_eq_true, decide_eq_true_eq]
  constructor
  · rintro ⟨⟨⟨⟨⟨⟨⟨⟨h1, h2⟩, h3⟩, h4⟩, h5⟩, h6⟩, h7⟩, h8⟩, h9, h10⟩
    constructor <;> omega
  · rintro ⟨h1, h2, h3, h4, h5, h6, h7, h8, h9, h10⟩
    refine ⟨⟨⟨⟨⟨⟨⟨⟨?_, ?_⟩, ?_⟩, ?_⟩, ?_⟩, ?_⟩, ?_⟩, ?_⟩, ?_, ?_⟩ <;> omega

theorem checkSolversList_iff (s : Word) (ms : List Word) :
    checkSolversList s ms = 0 ↔ ∀ m ∈ ms, ¬ (has s m = true) := by
  induction ms with
  | nil => simp [checkSolversList]
  | cons m ms ih => by_cases h : has s m = true <;> simp [checkSolversList, h, ih]

theorem excludeIf_iff (b : Bool) (s : Word) (ms : List Word) (e k : Int) (he : e ≠ 0) :
    excludeIf b s ms e k = 0 ↔ (b = true → ∀ m ∈ ms, ¬ (has s m = true)) ∧ k = 0 := by
  unfold excludeIf
  rw [ite_err _ _ _ he, Bool.and_eq_true, decide_eq_true_eq, ← checkSolversList_iff]
  tauto

/-- **C03, solver table.** The solver check accepts exactly when every requested
solver supports the configuration. -/
theorem C03_check_solvers_iff (w s : Word) (c : Counts) :
    checkSolvers w s c = 0 ↔ ∀ v, solversOf s v → Supports v (optsOf w) c := by
  unfold checkSolvers
  simp only [excludeIf_iff _ _ _ _ _ xrtmIntError_ne,
    excludeIf_iff _ _ _ _ _ (by decide : (-1 : Int) ≠ 0)]
  simp only [List.forall_mem_cons, List.not_mem_nil, false_imp_iff, implies_true, and_true,
    SOLVER_DOUB_ADD, SOLVER_EIG_ADD, SOLVER_EIG_BVP, SOLVER_FOUR_STREAM, SOLVER_MEM_BVP,
    SOLVER_PADE_ADD, SOLVER_SINGLE, SOLVER_SIX_STREAM, SOLVER_SOS, SOLVER_TWO_OS,
    SOLVER_TWO_STREAM,
    OPT_SFI, OPT_DELTA_M, OPT_N_T_TMS, OPT_NO_AZIMUTHAL, OPT_OUTPUT_AT_TAUS, OPT_QUAD_LOBATTO,
    OPT_SOURCE_SOLAR, OPT_SOURCE_THERMAL, OPT_STACK_REUSE_ADDING, OPT_TOP_DOWN_ADDING,
    OPT_BOTTOM_UP_ADDING,
    has_bit w _ (by decide : (23:Nat) < 32), has_bit w _ (by decide : (2:Nat) < 32),
    has_bit w _ (by decide : (3:Nat) < 32), has_bit w _ (by decide : (6:Nat) < 32),
    has_bit w _ (by decide : (8:Nat) < 32), has_bit w _ (by decide : (17:Nat) < 32),
    has_bit w _ (by decide : (24:Nat) < 32), has_bit w _ (by decide : (25:Nat) < 32),
    has_bit w _ (by decide : (26:Nat) < 32), has_bit w _ (by decide : (27:Nat) < 32),
    has_bit w _ (by decide : (28:Nat) < 32),
    has_bit s _ (by decide : (0:Nat) < 32), has_bit s _ (by decide : (1:Nat) < 32),
    has_bit s _ (by decide : (2:Nat) < 32), has_bit s _ (by decide : (3:Nat) < 32),
    has_bit s _ (by decide : (4:Nat) < 32), has_bit s _ (by decide : (5:Nat) < 32),
    has_bit s _ (by decide : (6:Nat) < 32), has_bit s _ (by decide : (7:Nat) < 32),
    has_bit s _ (by decide : (8:Nat) < 32), has_bit s _ (by decide : (9:Nat) < 32),
    has_bit s _ (by decide : (10:Nat) < 32),
    Bool.and_eq_true, bnot_iff, decide_eq_true_eq]
  constructor
  · rintro ⟨h1, h2, h3, h4, h5, h6, h7, h8, h9, h10, h11, h12, h13, h14, h15, h16, h17⟩ v hv
    cases v <;> simp only [solversOf, solverPos] at hv <;>
      simp only [hv, not_true_eq_false, false_and, and_false, imp_false, not_not, not_and,
        not_lt] at h1 h2 h3 h4 h5 h6 h7 h8 h9 h10 h11 h12 h13 h14 h15 h16 h17 <;>
      simp only [Supports, optsOf, optPos] <;> simp_all
  · intro H
    have e0 := H .doubAdd
    have e1 := H .eigAdd
    have e2 := H .eigBvp
    have e3 := H .fourStream
    have e4 := H .memBvp
    have e5 := H .padeAdd
    have e6 := H .single
    have e7 := H .sixStream
    have e8 := H .sos
    have e9 := H .twoOs
    have e10 := H .twoStream
    clear H
    simp only [Supports, solversOf, solverPos, optsOf, optPos] at e0 e1 e2 e3 e4 e5 e6 e7 e8 e9 e10
    refine ⟨?_, ?_, ?_, ?_, ?_, ?_, ?_, ?_, ?_, ?_, ?_, ?_, ?_, ?_, ?_, ?_, ?_⟩
    all_goals intro hc
    all_goals (repeat' apply And.intro)
    all_goals intro hb
    all_goals
      first
      | have t := e0 hb; clear e0 e1 e2 e3 e4 e5 e6 e7 e8 e9 e10; grind
      | have t := e1 hb; clear e0 e1 e2 e3 e4 e5 e6 e7 e8 e9 e10; grind
      | have t := e2 hb; clear e0 e1 e2 e3 e4 e5 e6 e7 e8 e9 e10; grind
      | have t := e3 hb; clear e0 e1 e2 e3 e4 e5 e6 e7 e8 e9 e10; grind
      | have t := e4 hb; clear e0 e1 e2 e3 e4 e5 e6 e7 e8 e9 e10; grind
      | have t := e5 hb; clear e0 e1 e2 e3 e4 e5 e6 e7 e8 e9 e10; grind
      | have t := e6 hb; clear e0 e1 e2 e3 e4 e5 e6 e7 e8 e9 e10; grind
      | have t := e7 hb; clear e0 e1 e2 e3 e4 e5 e6 e7 e8 e9 e10; grind
      | have t := e8 hb; clear e0 e1 e2 e3 e4 e5 e6 e7 e8 e9 e10; grind
      | have t := e9 hb; clear e0 e1 e2 e3 e4 e5 e6 e7 e8 e9 e10; grind
      | have t := e10 hb; clear e0 e1 e2 e3 e4 e5 e6 e7 e8 e9 e10; grind

theorem getLsbD_orIf (b : Bool) (o m : Word) (k : Nat) :
    (orIf b o m).getLsbD k = (o.getLsbD k || (b && m.getLsbD k)) := by
  cases b <;> simp [orIf]

theorem optPos_lt (o : Opt) : optPos o < 32 := by cases o <;> decide

set_option maxHeartbeats 1000000 in
/-- **C01, defaults.** The options the model works with are the requested ones
completed by the documented defaults. -/
theorem C01_defaults (w : Word) (c : Counts) (o : Opt) :
    optsOf (implicitOptions w c) o ↔ withDefaults (optsOf w) c o := by
  unfold implicitOptions
  have hh : ∀ (w : Word) (k : Nat), k < 32 → has w (bit k) = w.getLsbD k := has_bit
  have ite_or : ∀ (b v : Bool) (x y z : Word),
      (if b = true then (if v = true then x ||| y else x ||| z) else x) =
      orIf (b && !v) (orIf (b && v) x y) z := by
    intro b v x y z; cases b <;> cases v <;> simp [orIf]
  simp only [optsOf, ite_or, OPT_VECTOR, OPT_N_T_TMS, OPT_DELTA_M, OPT_FOUR_CONV_OLD, OPT_FOUR_CONV_NEW,
    OPT_PART_SOL_CLASSICAL, OPT_PART_SOL_GREENS, OPT_PHASE_SCALAR, OPT_PHASE_MATRIX_GC,
    OPT_PHASE_MATRIX_LC, OPT_QUAD_NORM_GAUS_LEG, OPT_QUAD_DOUB_GAUS_LEG, OPT_QUAD_LOBATTO,
    OPT_UPWELLING_OUTPUT, OPT_DOWNWELLING_OUTPUT, has_or,
    hh _ 31 (by decide), hh _ 3 (by decide), hh _ 4 (by decide), hh _ 5 (by decide),
    hh _ 9 (by decide), hh _ 10 (by decide), hh _ 11 (by decide), hh _ 12 (by decide),
    hh _ 13 (by decide), hh _ 15 (by decide), hh _ 16 (by decide), hh _ 17 (by decide),
    hh _ 29 (by decide), hh _ 30 (by decide), getLsbD_orIf, BitVec.getLsbD_or,
    bit_getLsbD _ _ (optPos_lt o), bit_getLsbD _ _ (by decide : 31 < 32),
    bit_getLsbD _ _ (by decide : 3 < 32), bit_getLsbD _ _ (by decide : 4 < 32),
    bit_getLsbD _ _ (by decide : 5 < 32), bit_getLsbD _ _ (by decide : 9 < 32),
    bit_getLsbD _ _ (by decide : 10 < 32), bit_getLsbD _ _ (by decide : 11 < 32),
    bit_getLsbD _ _ (by decide : 12 < 32), bit_getLsbD _ _ (by decide : 13 < 32),
    bit_getLsbD _ _ (by decide : 15 < 32), bit_getLsbD _ _ (by decide : 16 < 32),
    bit_getLsbD _ _ (by decide : 17 < 32), bit_getLsbD _ _ (by decide : 29 < 32),
    bit_getLsbD _ _ (by decide : 30 < 32)]
  cases o <;> simp [optPos, withDefaults, optsOf] <;> grind


theorem consistent_congr {S T : OptSet} (h : ∀ o, S o ↔ T o) : Consistent S ↔ Consistent T := by
  have : S = T := funext fun o => propext (h o)
  rw [this]

/-- What a creation request must satisfy: the sizes are in range, the kernels
exist, and after the documented defaults the options are consistent, the sizes
fit them and every requested solver supports them. -/
structure Acceptable (options solvers : Word) (c : Counts) (kernels : List Int) : Prop where
  ranges : SizesInRange c
  kernels : ∀ k ∈ kernels, KernelValid k
  consistent : Consistent (withDefaults (optsOf options) c)
  fits : SizesFit c (withDefaults (optsOf options) c)
  supports : ∀ v, solversOf solvers v → Supports v (withDefaults (optsOf options) c) c

/-- **C01 + C02 + C03.** `xrtm_create` succeeds exactly on acceptable requests.
The hypothesis says the caller's `kernels` array has `n_kernels` entries. -/
theorem C01_C02_C03_create_iff (w s : Word) (c : Counts) (kernels : List Int)
    (hk : (kernels.length : Int) = c.nKernels) :
    (∃ cfg, create w s c kernels = .ok cfg) ↔ Acceptable w s c kernels := by
  have hopts : optsOf (implicitOptions w c) = withDefaults (optsOf w) c :=
    funext fun o => propext (C01_defaults w c o)
  have htake : kernels.take c.nKernels.toNat = kernels := by
    apply List.take_of_length_le; omega
  have hkall : kernels.all kernelIsValid = true ↔ ∀ k ∈ kernels, KernelValid k := by
    rw [List.all_eq_true]
    refine forall₂_congr fun k _ => ?_
    unfold kernelIsValid KernelValid
    rw [bnot_iff, Bool.or_eq_true, decide_eq_true_eq, decide_eq_true_eq]
    omega
  unfold create
  rw [htake]
  simp only [bnot_iff]
  by_cases h1 : rangesOk1 c = true
  case neg =>
    simp only [h1, if_true]
    constructor
    · rintro ⟨_, h⟩; simp at h
    · intro h; exact absurd ((C02_ranges_iff c).2 h.ranges).1 h1
  by_cases h2 : kernels.all kernelIsValid = true
  case neg =>
    simp only [h1, h2, if_true]
    constructor
    · rintro ⟨_, h⟩; simp at h
    · intro h; exact absurd (hkall.2 h.kernels) h2
  by_cases h3 : c.nOutLevels ≤ 0
  · simp only [h1, h2, h3, if_true]
    constructor
    · rintro ⟨_, h⟩; simp at h
    · intro h; exact absurd h3 ((C02_ranges_iff c).2 h.ranges).2.1
  by_cases h4 : c.nOutThetas < 0
  · simp only [h1, h2, h3, h4, if_true]
    constructor
    · rintro ⟨_, h⟩; simp at h
    · intro h; exact absurd h4 ((C02_ranges_iff c).2 h.ranges).2.2
  have hr : SizesInRange c := (C02_ranges_iff c).1 ⟨h1, h3, h4⟩
  have g1 := C01_check_options_iff (implicitOptions w c)
  have g2 := C02_check_counts_iff (implicitOptions w c) c hr.derivs hr.outThetas
  have g3 := C03_check_solvers_iff (implicitOptions w c) s c
  rw [hopts] at g1 g2 g3
  simp only [h1, h2, h3, h4, not_true_eq_false, if_false]
  by_cases k1 : checkOptions (implicitOptions w c) = 0
  case neg =>
    simp only [k1, ne_eq, not_false_eq_true, if_true]
    constructor
    · rintro ⟨_, h⟩; simp at h
    · intro h; exact absurd (g1.2 h.consistent) k1
  by_cases k2 : checkCounts (implicitOptions w c) c = 0
  case neg =>
    simp only [k1, k2, ne_eq, not_true_eq_false, not_false_eq_true, if_true, if_false]
    constructor
    · rintro ⟨_, h⟩; simp at h
    · intro h; exact absurd (g2.2 h.fits) k2
  by_cases k3 : checkSolvers (implicitOptions w c) s c = 0
  case neg =>
    simp only [k1, k2, k3, ne_eq, not_true_eq_false, not_false_eq_true, if_true, if_false]
    constructor
    · rintro ⟨_, h⟩; simp at h
    · intro h; exact absurd (g3.2 h.supports) k3
  simp only [k1, k2, k3, ne_eq, not_true_eq_false, if_false]
  exact ⟨fun _ => ⟨hr, hkall.1 h2, g1.1 k1, g2.1 k2, g3.1 k3⟩, fun _ => ⟨_, rfl⟩⟩

/-- An acceptable, non-trivial request: doubling/adding and the discrete ordinate
boundary value solver, derivatives, delta-M, two surface kernels. -/
def exampleCounts : Counts :=
  { maxCoef := 40, nQuad := 8, nStokes := 3, nDerivs := 2, nLayers := 10, nTheta0s := 1,
    nKernels := 2, nKernelQuad := 16, nOutLevels := 2, nOutThetas := 3 }

def exampleOptions : Word := OPT_CALC_DERIVS ||| OPT_DELTA_M ||| OPT_OUTPUT_AT_LEVELS |||
  OPT_SOURCE_SOLAR

example : (create exampleOptions (SOLVER_DOUB_ADD ||| SOLVER_EIG_BVP) exampleCounts [0, 9]).toOption.isSome
    = true := by decide

theorem create_ok {w s : Word} {c : Counts} {kernels : List Int} {cfg : Config}
    (h : create w s c kernels = .ok cfg) : cfg = configOf (implicitOptions w c) s c := by
  unfold create at h
  repeat' split at h
  all_goals first | contradiction | skip
  simp only at h
  repeat' split at h
  all_goals first | contradiction | skip
  exact (Except.ok.inj h).symm

/-- The options of a created instance, seen as a set. -/
theorem optsOf_config (w s : Word) (c : Counts) (o : Opt) :
    optsOf (configOf (implicitOptions w c) s c).options o ↔
      (withDefaults (optsOf w) c o ∨
        (o = .savePhaseMats ∧ withDefaults (optsOf w) c .phaseMatrixLc)) := by
  rw [← C01_defaults w c o, ← C01_defaults w c .phaseMatrixLc]
  generalize implicitOptions w c = w'
  have hb : bit 19 = BitVec.twoPow 32 19 := rfl
  simp only [configOf, optsOf, getLsbD_orIf, OPT_PHASE_MATRIX_LC, OPT_SAVE_PHASE_MATS,
    has_bit w' 13 (by decide), bit_getLsbD _ _ (optPos_lt o), Bool.or_eq_true, Bool.and_eq_true,
    decide_eq_true_eq]
  have : (19 = optPos o) ↔ o = .savePhaseMats := by
    cases o <;> simp [optPos]
  rw [this]
  simp only [optPos]
  tauto

/-- **C02, sizes of a created instance.** Every created instance has positive
quadrature, layer and output level counts, one to four Stokes parameters, at least
one Fourier term, and derivative storage exactly when derivatives were requested. -/
theorem C02_created_sizes (w s : Word) (c : Counts) (kernels : List Int)
    (hk : (kernels.length : Int) = c.nKernels) (cfg : Config)
    (h : create w s c kernels = .ok cfg) :
    0 < cfg.nQuad ∧ 0 < cfg.nLayers ∧ 0 < cfg.nOutLevels ∧ 0 < cfg.nTheta0s ∧
    1 ≤ cfg.nStokes ∧ cfg.nStokes ≤ 4 ∧ 0 ≤ cfg.nOutThetas ∧ 0 ≤ cfg.nKernels ∧
    0 < cfg.nOutThetas2 ∧ cfg.nQuad ≤ cfg.nQuadX ∧ cfg.nQuadX ≤ cfg.nQuadD ∧
    1 ≤ cfg.nFour ∧ cfg.nFour ≤ 2 * cfg.nQuad ∧
    0 ≤ cfg.nCoef2 ∧ cfg.nCoef2 ≤ cfg.nCoef ∧ cfg.nCoef2 ≤ 2 * cfg.nQuad ∧
    (0 < cfg.nDerivs ↔ optsOf w .calcDerivs) ∧
    (optsOf cfg.options .vector ↔ (optsOf w .vector ∨ 1 < cfg.nStokes)) := by
  have hacc := (C01_C02_C03_create_iff w s c kernels hk).1 ⟨cfg, h⟩
  have hcfg := create_ok h
  obtain ⟨⟨r1, r2, r3, r4, r5, r6, r7, r8, r9, r10⟩, -, -, ⟨f1, -, -, -, -, -⟩, -⟩ := hacc
  have hcalc := C01_defaults w c .calcDerivs
  have hhas : has (implicitOptions w c) OPT_CALC_DERIVS = true ↔ optsOf w .calcDerivs := by
    rw [OPT_CALC_DERIVS, has_bit _ _ (by decide)]
    exact hcalc
  have hv := optsOf_config w s c .vector
  subst hcfg
  have f1' : optsOf w .calcDerivs ↔ 0 < c.nDerivs := f1
  refine ⟨r2, r5, r9, r6, r3.1, r3.2, r10, r7, ?_, ?_, ?_, ?_, ?_, ?_, ?_, ?_, ?_, ?_⟩
  · simp only [configOf]; split <;> omega
  · simp only [configOf]; split <;> omega
  · simp only [configOf]; split <;> omega
  · simp only [configOf, nFourOf]; repeat' split
    all_goals omega
  · simp only [configOf, nFourOf]; repeat' split
    all_goals omega
  · simp only [configOf, nCoef2Of]; repeat' split
    all_goals omega
  · simp only [configOf, nCoef2Of]; repeat' split
    all_goals omega
  · simp only [configOf, nCoef2Of]; repeat' split
    all_goals omega
  · simp only [configOf]
    by_cases hc : optsOf w .calcDerivs
    · simp [hhas.2 hc, hc, f1'.1 hc]
    · simp [mt hhas.1 hc, hc]
  · rw [hv]; simp [withDefaults, configOf]

/-- The word that names one solver (`enum xrtm_solver_mask`). -/
def solverWord (v : Solver) : Word := bit (solverPos v)

theorem solverPos_lt (v : Solver) : solverPos v < 11 := by cases v <;> decide

theorem solverPos_inj (u v : Solver) : solverPos u = solverPos v ↔ u = v := by
  cases u <;> cases v <;> simp [solverPos]

/-- What the solution call asks of its arguments: the solver was requested at
creation; some output is requested; radiance output needs azimuth angles; the
single scattering solver gives radiances only. -/
def GateSpec (enabled : Solver → Prop) (v : Solver) (radiance mean flux fluxDiv : Bool)
    (nPhis : Int) : Prop :=
  enabled v ∧ (radiance ∨ mean ∨ flux ∨ fluxDiv) ∧ (radiance → 0 < nPhis) ∧
  ((mean ∨ flux ∨ fluxDiv) → v ≠ .single)

theorem C03_gate_iff (ds : Word) (v : Solver) (sols : Word) (n : Int) :
    solutionGate ds (solverWord v) sols n = 0 ↔
      GateSpec (solversOf ds) v (sols.getLsbD 0) (sols.getLsbD 1) (sols.getLsbD 2)
        (sols.getLsbD 3) n := by
  unfold solutionGate
  have hall : has (solverWord v) SOLVER_ALL = true := by cases v <;> decide
  have hen : has (solverWord v) ds = true ↔ solversOf ds v := by
    rw [has_iff, solversOf]
    constructor
    · rintro ⟨k, hk, h1, h2⟩
      rw [solverWord, bit_getLsbD _ _ hk, decide_eq_true_eq] at h1
      rw [h1]; exact h2
    · intro h
      have hlt : solverPos v < 32 := by have := solverPos_lt v; omega
      exact ⟨solverPos v, hlt, by rw [solverWord, bit_getLsbD _ _ hlt]; simp, h⟩
  have hout : has sols OUTPUT_ALL = (sols.getLsbD 0 || sols.getLsbD 1 || sols.getLsbD 2 ||
      sols.getLsbD 3) := by
    have : OUTPUT_ALL = bit 0 ||| bit 1 ||| bit 2 ||| bit 3 := by decide
    rw [this]
    simp only [has_or]
    rw [has_bit _ 0 (by decide), has_bit _ 1 (by decide), has_bit _ 2 (by decide),
      has_bit _ 3 (by decide)]
  have hsingle : checkSolversList (solverWord v) [SOLVER_SINGLE] = 0 ↔ v ≠ .single := by
    rw [checkSolversList_iff]
    cases v <;> simp [SOLVER_SINGLE] <;> decide
  simp only [ite_err _ _ _ xrtmIntError_ne]
  simp only [bnot_iff, not_not, hall, hen, hout, Bool.and_eq_true, decide_eq_true_eq, ne_eq,
    hsingle, OUTPUT_RADIANCE, OUTPUT_RADIANCE_MEAN, OUTPUT_FLUX, OUTPUT_FLUX_DIVERGENCE,
    has_bit sols _ (by decide : (0:Nat) < 32), has_bit sols _ (by decide : (1:Nat) < 32),
    has_bit sols _ (by decide : (2:Nat) < 32), has_bit sols _ (by decide : (3:Nat) < 32),
    Bool.or_eq_true, GateSpec, not_and]
  clear hall hen hout hsingle
  generalize solversOf ds v = P
  generalize (v = Solver.single) = Q
  generalize sols.getLsbD 0 = b0
  generalize sols.getLsbD 1 = b1
  generalize sols.getLsbD 2 = b2
  generalize sols.getLsbD 3 = b3
  cases b0 <;> cases b1 <;> cases b2 <;> cases b3 <;> simp

/-- `Supports` does not look at the storage options. -/
theorem supports_config (w s : Word) (c : Counts) (v : Solver) :
    Supports v (optsOf (configOf (implicitOptions w c) s c).options) c ↔
      Supports v (withDefaults (optsOf w) c) c := by
  have key : ∀ o, o ≠ Opt.savePhaseMats →
      (optsOf (configOf (implicitOptions w c) s c).options o ↔ withDefaults (optsOf w) c o) := by
    intro o ho
    rw [optsOf_config]
    simp [ho]
  cases v <;> simp only [Supports, key _ (by decide : Opt.outputAtTaus ≠ .savePhaseMats),
    key _ (by decide : Opt.quadLobatto ≠ .savePhaseMats),
    key _ (by decide : Opt.sfi ≠ .savePhaseMats),
    key _ (by decide : Opt.stackReuseAdding ≠ .savePhaseMats),
    key _ (by decide : Opt.topDownAdding ≠ .savePhaseMats),
    key _ (by decide : Opt.bottomUpAdding ≠ .savePhaseMats),
    key _ (by decide : Opt.sourceThermal ≠ .savePhaseMats),
    key _ (by decide : Opt.sourceSolar ≠ .savePhaseMats),
    key _ (by decide : Opt.deltaM ≠ .savePhaseMats),
    key _ (by decide : Opt.nTTms ≠ .savePhaseMats),
    key _ (by decide : Opt.noAzimuthal ≠ .savePhaseMats)]

/-- **C03.** Whatever instance `xrtm_create` returned, a solver the solution call
agrees to run was requested and supports every option and size of the instance. -/
theorem C03_runs_only_supported (w s : Word) (c : Counts) (kernels : List Int)
    (hk : (kernels.length : Int) = c.nKernels) (cfg : Config)
    (h : create w s c kernels = .ok cfg) (v : Solver) (sols : Word) (n : Int)
    (hg : solutionGate cfg.solvers (solverWord v) sols n = 0) :
    solversOf s v ∧ Supports v (optsOf cfg.options) c := by
  have hacc := (C01_C02_C03_create_iff w s c kernels hk).1 ⟨cfg, h⟩
  have hcfg := create_ok h
  subst hcfg
  have := (C03_gate_iff _ v sols n).1 hg
  exact ⟨this.1, (supports_config w s c v).2 (hacc.supports v this.1)⟩

/-- **C03, converse.** A requested solver that supports the configuration is not
refused when radiances at one or more azimuths are asked for. -/
theorem C03_supported_not_refused (w s : Word) (c : Counts) (kernels : List Int) (cfg : Config)
    (h : create w s c kernels = .ok cfg) (v : Solver) (hv : solversOf s v) (n : Int)
    (hn : 0 < n) : solutionGate cfg.solvers (solverWord v) OUTPUT_RADIANCE n = 0 := by
  have hcfg := create_ok h
  subst hcfg
  rw [C03_gate_iff]
  refine ⟨hv, .inl (by decide), fun _ => hn, ?_⟩
  intro hh
  exact absurd hh (by decide)

/-- **C03 does not extend to combined solver words.** The gate accepts a solver
argument with several bits as soon as one of them is enabled, even if another names a
solver that was not requested (`src/xrtm_interface.c:5658`). -/
theorem C03_combined_words_slip_through :
    ∃ (ds solver : Word), solutionGate ds solver OUTPUT_RADIANCE 1 = 0 ∧
      ∃ v, has solver (solverWord v) = true ∧ ¬ solversOf ds v :=
  ⟨solverWord .doubAdd, solverWord .doubAdd ||| solverWord .eigBvp, by decide, .eigBvp, by decide,
    by unfold solversOf; decide⟩

/-- The deviation of the request defaults: no output placement default is filled
in, so a request with neither `OUTPUT_AT_LEVELS` nor `OUTPUT_AT_TAUS` is always
refused. -/
theorem C01_no_output_placement_refused (w s : Word) (c : Counts) (kernels : List Int)
    (hk : (kernels.length : Int) = c.nKernels)
    (h1 : ¬ optsOf w .outputAtLevels) (h2 : ¬ optsOf w .outputAtTaus) :
    ¬ ∃ cfg, create w s c kernels = .ok cfg := by
  rw [C01_C02_C03_create_iff w s c kernels hk]
  intro h
  have := (exactlyOne2 _ _ _ (by decide)).1 h.consistent.out
  simp only [withDefaults] at this
  tauto

end Xrtm
