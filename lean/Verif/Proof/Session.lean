import Verif.Model.FpReal
import Verif.Proof.StateK

/-! Sessions: a created instance followed by any calls; and small sessions used as
examples and counterexamples. -/

namespace Xrtm

open Spec

variable {F : Type}

/-- The surface kernel array passed to the creation call. -/
def kernelAt (ks : List Int) (i : Int) : Int := ks.getD i.toNat 0

/-- `s` is the state of an instance that was created with configuration `c` and then saw
the calls `h` (newest first) with their return codes. -/
structure Session [Fp F] (c : Config) (kern : Int → Int) (quad : Int → F)
    (h : List (Op F × Code)) (s : State F) : Prop where
  args : ∃ w sv n ks, (List.length ks : Int) = n.nKernels ∧ create w sv n ks = .ok c ∧ kern = kernelAt ks
  calls : Reach c kern quad h s

variable [Fp F] {c : Config} {kern : Int → Int} {quad : Int → F} {h : List (Op F × Code)}
  {s : State F}

theorem Session.wf (S : Session c kern quad h s) : WF c := by
  obtain ⟨w, sv, n, ks, h1, h2, -⟩ := S.args
  exact created_wf h1 h2

theorem Session.inv (S : Session c kern quad h s) : Inv c kern s := S.calls.inv S.wf

theorem Session.call (S : Session c kern quad h s) {op : Op F} {r : Code} {s' : State F}
    (hc : apply s op = .ret r s') : Session c kern quad ((op, r) :: h) s' :=
  ⟨S.args, .call S.calls hc⟩

/-- The checks of a setter only look at the configuration, except the two that adjust the
solar angle. -/
theorem Session.accept (S : Session c kern quad h s) {op : Op F} (hs : IsSet op)
    (hp : ∀ s : State F, s.cfg = c → s.kernels = kern → Passes (setCmds s op)) :
    ∃ s', Session c kern quad ((op, .ok) :: h) s' :=
  ⟨_, S.call (Xrtm.accept S.wf S.inv hs (hp s S.inv.cfg S.inv.kern))⟩

/-- What the comparisons of the examples rely on; true of the real numbers and of
IEEE doubles. -/
structure Sane (F : Type) [Fp F] : Prop where
  lt00 : Fp.lt (Fp.zero : F) Fp.zero = false
  lt10 : Fp.lt (Fp.one : F) Fp.zero = false
  lt11 : Fp.lt (Fp.one : F) Fp.one = false
  le10 : Fp.le (Fp.one : F) Fp.zero = false
  norm : Fp.lt Fp.dblEps (Fp.abs (Fp.sub (Fp.one : F) Fp.one)) = false
  skew : Fp.lt Fp.dblEps (Fp.abs (Fp.sub (Fp.one : F) Fp.zero)) = true

theorem sane_real : Sane ℝ where
  lt00 := by simp
  lt10 := by simp
  lt11 := by simp
  le10 := by simp
  norm := by simp
  skew := by simp; norm_num

/-- Two layers, two coefficients, one output level, eigenvector/BVP solver, no surface,
no source but the boundaries. -/
def demoCounts : Counts :=
  { maxCoef := 2, nQuad := 1, nStokes := 1, nDerivs := 0, nLayers := 2, nTheta0s := 1,
    nKernels := 0, nKernelQuad := 0, nOutLevels := 1, nOutThetas := 0 }

def demoCfg : Config :=
  configOf (implicitOptions OPT_OUTPUT_AT_LEVELS demoCounts) SOLVER_EIG_BVP demoCounts

theorem demo_created : create OPT_OUTPUT_AT_LEVELS SOLVER_EIG_BVP demoCounts [] = .ok demoCfg := by
  decide

theorem demo_session (quad : Int → F) :
    Session demoCfg (kernelAt []) quad [] (initState demoCfg (kernelAt []) quad) :=
  ⟨⟨_, _, _, _, rfl, demo_created, rfl⟩, .init⟩

/-- All inputs of the demo configuration but the coefficients. -/
def demoRest : List (Op F × Code) :=
  [(.setLtauN fun _ => Fp.one, .ok), (.setOmegaN fun _ => Fp.one, .ok),
    (.setFIsoBot Fp.one, .ok), (.setFIsoTop Fp.one, .ok), (.setOutLevels fun _ => 0, .ok),
    (.setFourierTol Fp.one, .ok)]

theorem demo_solvers : demoCfg.solvers = SOLVER_EIG_BVP := rfl

theorem demo_rest (hF : Sane F) {quad : Int → F} {h s} (S : Session demoCfg (kernelAt []) quad h s) :
    ∃ s', Session demoCfg (kernelAt []) quad (demoRest ++ h) s' := by
  obtain ⟨h1, h2, h3, h4, h5, h6⟩ := hF
  obtain ⟨_, S⟩ := S.accept (op := .setFourierTol Fp.one) trivial
    (by intro s hc hk b r hb; simp [setCmds] at hb; rw [hb.1, h2])
  obtain ⟨_, S⟩ := S.accept (op := .setOutLevels fun _ => 0) trivial (by
    intro s hc hk b r hb
    simp only [setCmds, hc] at hb
    have e : demoCfg.nOutLevels = 1 := rfl
    have e1 : has demoCfg.options OPT_OUTPUT_AT_LEVELS = true := by decide
    have e2 : has demoCfg.options OPT_TOP_DOWN_ADDING = false := by decide
    have e3 : demoCfg.nLayers = 2 := rfl
    simp [e, e1, e2, e3, between, upto] at hb
    rcases hb with hb | hb | hb
    all_goals simp_all)
  obtain ⟨_, S⟩ := S.accept (op := .setFIsoTop Fp.one) trivial
    (by intro s hc hk b r hb; simp [setCmds, scalarCmds] at hb; rw [hb.1, h2])
  obtain ⟨_, S⟩ := S.accept (op := .setFIsoBot Fp.one) trivial
    (by intro s hc hk b r hb; simp [setCmds, scalarCmds] at hb; rw [hb.1, h2])
  obtain ⟨_, S⟩ := S.accept (op := .setOmegaN fun _ => Fp.one) trivial (by
    intro s hc hk b r hb
    have e3 : demoCfg.nLayers = 2 := rfl
    simp [setCmds, omegaCmds, hc, layerCmds, ckIdx, e3, h2, h3] at hb
    grind)
  obtain ⟨_, S⟩ := S.accept (op := .setLtauN fun _ => Fp.one) trivial (by
    intro s hc hk b r hb
    have e3 : demoCfg.nLayers = 2 := rfl
    simp [setCmds, ltauCmds, hc, layerCmds, ckIdx, e3, h4] at hb
    grind)
  exact ⟨_, S⟩

theorem demo_required {l : SLoc} (h : Required demoCfg (kernelAt []) l) :
    l = .coef 0 ∨ l = .coef 1 ∨ ∀ h' : List (Op F × Code), Provided demoCfg (kernelAt []) (demoRest ++ h') l := by
  have e3 : demoCfg.nLayers = 2 := rfl
  cases l
  case coef i =>
    obtain ⟨⟨h1, h2⟩, -⟩ := h
    rw [e3] at h2
    have : i = 0 ∨ i = 1 := by omega
    rcases this with rfl | rfl <;> simp
  case omega i => exact .inr (.inr fun h' => ⟨.setOmegaN fun _ => Fp.one, by simp [demoRest], ⟨i, h, rfl⟩⟩)
  case ltau i => exact .inr (.inr fun h' => ⟨.setLtauN fun _ => Fp.one, by simp [demoRest], ⟨i, h, rfl⟩⟩)
  case fourierTol => exact .inr (.inr fun h' => ⟨.setFourierTol Fp.one, by simp [demoRest], rfl⟩)
  case fIsoTop => exact .inr (.inr fun h' => ⟨.setFIsoTop Fp.one, by simp [demoRest], rfl⟩)
  case fIsoBot => exact .inr (.inr fun h' => ⟨.setFIsoBot Fp.one, by simp [demoRest], rfl⟩)
  case ulevels => exact .inr (.inr fun h' => ⟨.setOutLevels fun _ => 0, by simp [demoRest], rfl⟩)
  case ampfac k => exact absurd h.2 (by have : demoCfg.nKernels = 0 := rfl; have := h.1; omega)
  case param k p => exact absurd h.1.2 (by have : demoCfg.nKernels = 0 := rfl; have := h.1.1; omega)
  case func k => exact absurd h.1.2 (by have : demoCfg.nKernels = 0 := rfl; have := h.1.1; omega)
  all_goals
    exfalso
    revert h
    simp only [Required, solversOf, optsOf]
    decide

end Xrtm
