import Verif.Model.BvpCall
import Verif.Props.Options

/-!
# C65: what a boundary value solver works on has been computed in the call

Every array that a solver reads has been pointed to and computed from the inputs of now
before; with reverse derivatives what is kept for the way back is there to be copied.
-/

namespace Xrtm.Call

open Xrtm.Spec

/-- The solvers of `XRTM_SOLVERS_BVP` (`src/xrtm_support.h`). -/
def isBvp : Solver → Bool
  | .eigBvp | .memBvp | .sos | .twoOs | .twoStream | .fourStream | .sixStream => true
  | _ => false

/-- The solvers that need the light at both boundaries and are called for any number of angles. -/
def needsBound : Solver → Bool
  | .eigBvp | .memBvp | .sos => true
  | _ => false

/-- The run ends, and nothing was used that it should not. -/
def Fine (o : Out) : Prop := ∃ m, o = .done m

def Out.isDone : Out → Bool
  | .done _ => true
  | _ => false

theorem fine_iff (o : Out) : Fine o ↔ o.isDone = true := by
  cases o <;> simp [Fine, Out.isDone]

/-- Switches with one bit of the solver word set. -/
def one (r d so sf um tn su mo : Bool) (v : Solver) : Sw :=
  ⟨r, d, so, sf, um, tn, su, mo, v == .eigBvp, v == .memBvp, v == .sos, v == .twoOs, v == .twoStream,
    v == .fourStream, v == .sixStream⟩

theorem switches_one (c : Config) (v : Solver) (sf : Bool) :
    switches c (solverWord v) sf = one (has c.options OPT_REVERSE_DERIVS) (has c.options OPT_CALC_DERIVS)
      (has c.options OPT_SOURCE_SOLAR) (has c.options OPT_SFI) (decide (0 < c.nOutThetas))
      (has c.solvers SOLVER_TWO_STREAM) sf (decide (c.nQuadX * c.nStokes < c.nOutThetas * c.nStokes)) v := by
  cases v <;> rfl

/-- What the checks at creation leave. -/
def allowed (so sf um tn : Bool) : Solver → Bool
  | .eigBvp => !sf || um
  | .memBvp | .sos => !sf && so
  | .twoOs => (!sf || um) && so
  | .twoStream => sf == um
  | .fourStream | .sixStream => sf == um && !tn
  | _ => false

theorem forward_table (v : Solver) (b : Cell) : ∀ d so sf um tn su mo, allowed so sf um tn v = true →
    (run (forward (one false d so sf um tn su mo v)) (start b)).isDone =
      (!needsBound v || !tn || (b == .full && !d)) := by
  cases v <;> cases b <;> decide +kernel

theorem reverse_table (v : Solver) (b : Cell) : ∀ d so sf um su mo, allowed so sf um false v = true →
    (run (forward (one true d so sf um false su mo v)) (start b)).isDone =
      (match v with
        | .eigBvp => so && !mo
        | .memBvp => !mo
        | _ => false) := by
  cases v <;> cases b <;> decide +kernel

/-- An instance that was created, and a boundary value solver that `xrtm_solution` agrees to run. -/
structure Ready (w sv : Word) (n : Counts) (ks : List Int) (c : Config) (v : Solver) : Prop where
  kernels : (ks.length : Int) = n.nKernels
  created : create w sv n ks = .ok c
  bvp : isBvp v = true
  asked : solversOf sv v

variable {w sv : Word} {n : Counts} {ks : List Int} {c : Config} {v : Solver}

theorem has_opt (w : Word) (o : Opt) (m : Word) (h : m = bit (optPos o)) : has w m = true ↔ optsOf w o := by
  rw [h, has_bit _ _ (optPos_lt o)]
  rfl

theorem Ready.allowed (h : Ready w sv n ks c v) : allowed (has c.options OPT_SOURCE_SOLAR) (has c.options OPT_SFI)
    (decide (0 < c.nOutThetas)) (has c.solvers SOLVER_TWO_STREAM) v = true := by
  have hacc := (C01_C02_C03_create_iff w sv n ks h.kernels).1 ⟨c, h.created⟩
  have hcfg := create_ok h.created
  have hs := (supports_config w sv n v).2 (hacc.supports v h.asked)
  have h2 : ∀ u, solversOf sv u → Supports u (withDefaults (optsOf w) n) n := hacc.supports
  have hfit : optsOf c.options .sfi → 0 < n.nOutThetas := fun hs => by
    rw [hcfg, optsOf_config] at hs
    rcases hs with hs | hs
    · exact hacc.fits.sfi hs
    · exact absurd hs.1 (by decide)
  rw [← hcfg] at hs
  have e1 := has_opt c.options .sourceSolar OPT_SOURCE_SOLAR rfl
  have e2 := has_opt c.options .sfi OPT_SFI rfl
  have e3 : c.nOutThetas = n.nOutThetas := by rw [hcfg]; rfl
  have e4 : has c.solvers SOLVER_TWO_STREAM = true ↔ solversOf sv .twoStream := by
    rw [hcfg, show SOLVER_TWO_STREAM = bit 10 from rfl, has_bit _ _ (by decide)]
    rfl
  have e5 : has c.solvers SOLVER_TWO_STREAM = true → n.nQuad = 1 := fun hh => (h2 _ (e4.1 hh)).1
  rw [e3]
  have hb := h.bvp
  rw [← e2] at hfit
  have hs' : Supports v (optsOf c.options) n := hs
  clear h hacc hcfg h2 e4 hs
  generalize has c.options OPT_SOURCE_SOLAR = so at *
  generalize has c.options OPT_SFI = sf at *
  generalize has c.solvers SOLVER_TWO_STREAM = tn at *
  cases v <;> simp only [isBvp, Bool.false_eq_true] at hb <;> simp only [Supports, ← e1, ← e2] at hs' <;>
    clear e1 e2 e3 <;> by_cases hp : 0 < n.nOutThetas <;> cases so <;> cases sf <;> cases tn <;>
    simp only [Call.allowed, hp, decide_true, decide_false] <;> first | rfl | (exfalso; simp only [hp] at hfit hs'; grind)

theorem Ready.runs (h : Ready w sv n ks c v) (hr : ¬ optsOf c.options .reverseDerivs) (sf : Bool) (b : Cell) :
    (run (forward (switches c (solverWord v) sf)) (start b)).isDone =
      (!needsBound v || !has c.solvers SOLVER_TWO_STREAM || (b == .full && !has c.options OPT_CALC_DERIVS)) := by
  have e : has c.options OPT_REVERSE_DERIVS = false := by
    rw [← Bool.not_eq_true]
    exact fun hh => hr ((has_opt _ .reverseDerivs _ rfl).1 hh)
  rw [switches_one, e]
  exact forward_table v b _ _ _ _ _ _ _ h.allowed

/-- **C65.**  Exactly when a boundary value solver works on what was computed for it: it does not need
the light at the boundaries, or the two stream solver was not named at creation, or a solver of
another kind has run for the same inputs and there are no derivatives. -/
theorem C65_forward_iff (h : Ready w sv n ks c v) (hr : ¬ optsOf c.options .reverseDerivs) (sf : Bool) (b : Cell) :
    Fine (run (forward (switches c (solverWord v) sf)) (start b)) ↔
      needsBound v = false ∨ ¬ solversOf sv .twoStream ∨ (b = .full ∧ ¬ optsOf c.options .calcDerivs) := by
  rw [fine_iff, h.runs hr sf b]
  have e4 : has c.solvers SOLVER_TWO_STREAM = true ↔ solversOf sv .twoStream := by
    rw [create_ok h.created, show SOLVER_TWO_STREAM = bit 10 from rfl, has_bit _ _ (by decide)]
    rfl
  have e5 := has_opt c.options .calcDerivs OPT_CALC_DERIVS rfl
  rw [← e4, ← e5]
  cases needsBound v <;> cases has c.solvers SOLVER_TWO_STREAM <;> cases has c.options OPT_CALC_DERIVS <;>
    cases b <;> decide

/-- Every boundary value solver of the history was asked for at creation. -/
def Served (sv : Word) (l : List Step) : Prop :=
  ∀ s sf, Step.bvp s sf ∈ l → ∃ v, s = solverWord v ∧ isBvp v = true ∧ solversOf sv v

/-- **C65.**  Without the two stream solver and reverse derivatives no call in any history uses an array
that was not computed from the inputs of then. -/
theorem C65_history_partial (hk : (ks.length : Int) = n.nKernels) (hc : create w sv n ks = .ok c)
    (hr : ¬ optsOf c.options .reverseDerivs) (h2 : ¬ solversOf sv .twoStream) (l : List Step) (hl : Served sv l) :
    ∃ b, history c l = .ok b := by
  induction l with
  | nil => exact ⟨.blank, rfl⟩
  | cons a l ih =>
    obtain ⟨b, hb⟩ := ih fun s sf hm => hl s sf (List.mem_cons_of_mem _ hm)
    unfold history
    rw [hb]
    cases a with
    | set => exact ⟨_, rfl⟩
    | other => exact ⟨_, rfl⟩
    | bvp s sf =>
      obtain ⟨v, rfl, hv, ha⟩ := hl s sf (List.mem_cons_self ..)
      obtain ⟨m, hm⟩ := (C65_forward_iff ⟨hk, hc, hv, ha⟩ hr sf b).2 (.inr (.inl h2))
      exact ⟨m .bound, by simp only [step, hm]⟩

/-- **C65.**  With reverse derivatives (and without the two stream solver) the eigenvector solver works on, and keeps,
what was computed exactly when there is a sun and there are not more user angles than directions of light. -/
theorem C65_reverse_iff (h : Ready w sv n ks c .eigBvp) (hr : optsOf c.options .reverseDerivs)
    (h2 : ¬ solversOf sv .twoStream) (sf : Bool) (b : Cell) :
    Fine (run (forward (switches c (solverWord .eigBvp) sf)) (start b)) ↔
      optsOf c.options .sourceSolar ∧ c.nOutThetas ≤ c.nQuadX := by
  have e : has c.options OPT_REVERSE_DERIVS = true := (has_opt _ .reverseDerivs _ rfl).2 hr
  have e4 : has c.solvers SOLVER_TWO_STREAM = false := by
    rw [← Bool.not_eq_true, create_ok h.created, show SOLVER_TWO_STREAM = bit 10 from rfl, has_bit _ _ (by decide)]
    exact h2
  have ha := h.allowed
  have hst : 0 < c.nStokes := by
    have := (C02_created_sizes w sv n ks h.kernels c h.created).2.2.2.2.1
    omega
  rw [e4] at ha
  rw [fine_iff, switches_one, e, e4, reverse_table .eigBvp b _ _ _ _ _ _ ha, ← has_opt _ .sourceSolar _ rfl]
  simp only [Bool.and_eq_true, Bool.not_eq_true', decide_eq_false_iff_not, not_lt]
  exact and_congr_right fun _ => ⟨fun hh => Int.le_of_mul_le_mul_right hh hst,
    fun hh => Int.mul_le_mul_of_nonneg_right hh hst.le⟩

/-- Directions of light: with source function integration those of the quadrature only. -/
theorem Ready.quadX (h : Ready w sv n ks c v) :
    c.nQuadX = if has c.options OPT_SFI = true then c.nQuad else c.nQuad + c.nOutThetas := by
  have hcfg := create_ok h.created
  have e : has (implicitOptions w n) OPT_SFI = has c.options OPT_SFI := by
    rw [Bool.eq_iff_iff, has_opt _ .sfi OPT_SFI rfl, has_opt _ .sfi OPT_SFI rfl, hcfg, optsOf_config, C01_defaults]
    exact ⟨fun hh => .inl hh, fun hh => hh.resolve_right fun h' => absurd h'.1 (by decide)⟩
  rw [← e, hcfg]
  cases h : has (implicitOptions w n) OPT_SFI <;> simp [configOf, h]

/-- **C65.**  Without source function integration the sun is all it takes. -/
theorem C65_reverse_plain_partial (h : Ready w sv n ks c .eigBvp) (hr : optsOf c.options .reverseDerivs)
    (h2 : ¬ solversOf sv .twoStream) (hs : ¬ optsOf c.options .sfi) (ho : optsOf c.options .sourceSolar) (sf : Bool)
    (b : Cell) : Fine (run (forward (switches c (solverWord .eigBvp) sf)) (start b)) := by
  rw [C65_reverse_iff h hr h2]
  refine ⟨ho, ?_⟩
  have hq := (C02_created_sizes w sv n ks h.kernels c h.created).1
  rw [h.quadX, if_neg fun hh => hs ((has_opt _ .sfi OPT_SFI rfl).1 hh)]
  omega

/-- **C65 violated**: with source function integration into more user angles than there are in the quadrature, rows of the local
reflection are copied that it does not have. -/
theorem C65_violated_rows (h : Ready w sv n ks c .eigBvp) (hr : optsOf c.options .reverseDerivs)
    (h2 : ¬ solversOf sv .twoStream) (hs : optsOf c.options .sfi) (hm : c.nQuad < c.nOutThetas) (sf : Bool) (b : Cell) :
    ¬ Fine (run (forward (switches c (solverWord .eigBvp) sf)) (start b)) := by
  rw [C65_reverse_iff h hr h2, h.quadX, if_pos ((has_opt _ .sfi OPT_SFI rfl).2 hs)]
  omega

/-- **C65 violated**: with reverse derivatives a boundary value solver other than the eigenvector and the
matrix exponential one reads through pointers that were never set. -/
theorem C65_violated_keep (h : Ready w sv n ks c v) (hr : optsOf c.options .reverseDerivs)
    (h2 : ¬ solversOf sv .twoStream) (h3 : v ≠ .eigBvp) (h4 : v ≠ .memBvp) (sf : Bool) (b : Cell) :
    ¬ Fine (run (forward (switches c (solverWord v) sf)) (start b)) := by
  have e : has c.options OPT_REVERSE_DERIVS = true := (has_opt _ .reverseDerivs _ rfl).2 hr
  have e4 : has c.solvers SOLVER_TWO_STREAM = false := by
    rw [← Bool.not_eq_true, create_ok h.created, show SOLVER_TWO_STREAM = bit 10 from rfl, has_bit _ _ (by decide)]
    exact h2
  have ha := h.allowed
  rw [e4] at ha
  rw [fine_iff, switches_one, e, e4, reverse_table v b _ _ _ _ _ _ ha]
  cases v <;> simp_all

/-! ## Instances -/

/-- One direction, two layers, no surface. -/
def oneCounts : Counts :=
  { maxCoef := 2, nQuad := 1, nStokes := 1, nDerivs := 0, nLayers := 2, nTheta0s := 1,
    nKernels := 0, nKernelQuad := 0, nOutLevels := 1, nOutThetas := 0 }

def twoNamed : Word := SOLVER_EIG_BVP ||| SOLVER_TWO_STREAM ||| SOLVER_DOUB_ADD

def oneOpts : Word := OPT_OUTPUT_AT_LEVELS ||| OPT_SOURCE_SOLAR

/-- **C65 violated**: in a new instance with the two stream solver named, the eigenvector solver starts from
memory that nothing was written to. -/
theorem C65_violated_blank : ∃ c, create oneOpts twoNamed oneCounts [] = .ok c ∧
    history c [.bvp (solverWord .eigBvp) false] = .error (.blank .bound) :=
  ⟨configOf (implicitOptions oneOpts oneCounts) twoNamed oneCounts, by decide, rfl⟩

/-- **C65 violated**: and from the light of inputs that have been replaced, after doubling and adding. -/
theorem C65_violated_stale : ∃ c, create oneOpts twoNamed oneCounts [] = .ok c ∧
    history c [.bvp (solverWord .eigBvp) false, .set, .other] = .error (.stale .bound) :=
  ⟨configOf (implicitOptions oneOpts oneCounts) twoNamed oneCounts, by decide, rfl⟩

/-- **C65 violated**: with derivatives it reads them through pointers that were never set. -/
theorem C65_violated_pointer : ∃ c,
    create (oneOpts ||| OPT_CALC_DERIVS) twoNamed { oneCounts with nDerivs := 1 } [] = .ok c ∧
    history c [.bvp (solverWord .eigBvp) false, .other] = .error (.wild .boundL) :=
  ⟨configOf (implicitOptions (oneOpts ||| OPT_CALC_DERIVS) { oneCounts with nDerivs := 1 }) twoNamed
    { oneCounts with nDerivs := 1 }, by decide, rfl⟩

/-- A new instance with the eigenvector and the successive order solver. -/
def plainCfg : Config := configOf (implicitOptions oneOpts oneCounts) (SOLVER_EIG_BVP ||| SOLVER_SOS) oneCounts

theorem plain_created : create oneOpts (SOLVER_EIG_BVP ||| SOLVER_SOS) oneCounts [] = .ok plainCfg := by decide

example : ∃ b, history plainCfg [.bvp (solverWord .eigBvp) false, .set, .other, .set, .bvp (solverWord .sos) false] = .ok b :=
  C65_history_partial (n := oneCounts) (ks := []) rfl plain_created (by unfold optsOf; decide) (by unfold solversOf; decide) _
    (by
      intro s sf hm
      simp only [List.mem_cons, List.not_mem_nil, or_false, Step.bvp.injEq, reduceCtorEq, false_or] at hm
      rcases hm with ⟨rfl, -⟩ | ⟨rfl, -⟩
      · exact ⟨.eigBvp, rfl, rfl, by unfold solversOf; decide⟩
      · exact ⟨.sos, rfl, rfl, by unfold solversOf; decide⟩)

example : Fine (run (forward (switches plainCfg (solverWord .eigBvp) true)) (start .blank)) :=
  (C65_forward_iff (n := oneCounts) (ks := []) ⟨rfl, plain_created, rfl, by unfold solversOf; decide⟩
    (by unfold optsOf; decide) true .blank).2 (.inr (.inl (by unfold solversOf; decide)))

/-- Source function integration into one user angle, with reverse derivatives. -/
def backOpts : Word := oneOpts ||| OPT_CALC_DERIVS ||| OPT_REVERSE_DERIVS ||| OPT_SFI
def backCounts : Counts := { oneCounts with nDerivs := 1, nOutThetas := 1 }
def backCfg : Config := configOf (implicitOptions backOpts backCounts) SOLVER_EIG_BVP backCounts

theorem back_created : create backOpts SOLVER_EIG_BVP backCounts [] = .ok backCfg := by decide

example : Fine (run (forward (switches backCfg (solverWord .eigBvp) false)) (start .blank)) :=
  (C65_reverse_iff (n := backCounts) (ks := []) ⟨rfl, back_created, rfl, by unfold solversOf; decide⟩
    (by unfold optsOf; decide) (by unfold solversOf; decide) false .blank).2 ⟨by unfold optsOf; decide, by decide⟩

/-- The same without user angles, and with two. -/
def quadOpts : Word := oneOpts ||| OPT_CALC_DERIVS ||| OPT_REVERSE_DERIVS
def quadCounts : Counts := { oneCounts with nDerivs := 1 }
def moreCounts : Counts := { backCounts with nOutThetas := 2 }

example : ∃ c, Ready quadOpts SOLVER_EIG_BVP quadCounts [] c .eigBvp ∧
    Fine (run (forward (switches c (solverWord .eigBvp) false)) (start .blank)) := by
  have h : Ready quadOpts SOLVER_EIG_BVP quadCounts [] _ .eigBvp :=
    ⟨rfl, (by decide : _ = Except.ok (configOf (implicitOptions quadOpts quadCounts) SOLVER_EIG_BVP quadCounts)), rfl,
      by unfold solversOf; decide⟩
  exact ⟨_, h, C65_reverse_plain_partial h (by unfold optsOf; decide) (by unfold solversOf; decide) (by unfold optsOf; decide)
    (by unfold optsOf; decide) _ _⟩

example : ∃ c, Ready backOpts SOLVER_EIG_BVP moreCounts [] c .eigBvp ∧
    ¬ Fine (run (forward (switches c (solverWord .eigBvp) false)) (start .blank)) := by
  have h : Ready backOpts SOLVER_EIG_BVP moreCounts [] _ .eigBvp :=
    ⟨rfl, (by decide : _ = Except.ok (configOf (implicitOptions backOpts moreCounts) SOLVER_EIG_BVP moreCounts)), rfl,
      by unfold solversOf; decide⟩
  exact ⟨_, h, C65_violated_rows h (by unfold optsOf; decide) (by unfold solversOf; decide) (by unfold optsOf; decide)
    (by decide) _ _⟩

example : ∃ c, Ready quadOpts SOLVER_SOS quadCounts [] c .sos ∧
    ¬ Fine (run (forward (switches c (solverWord .sos) false)) (start .blank)) := by
  have h : Ready quadOpts SOLVER_SOS quadCounts [] _ .sos :=
    ⟨rfl, (by decide : _ = Except.ok (configOf (implicitOptions quadOpts quadCounts) SOLVER_SOS quadCounts)), rfl,
      by unfold solversOf; decide⟩
  exact ⟨_, h, C65_violated_keep h (by unfold optsOf; decide) (by unfold solversOf; decide) (by decide) (by decide) _ _⟩

end Xrtm.Call
