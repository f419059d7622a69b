import Verif.Proof.StateB

/-! Safety of the setters. -/

namespace Xrtm

open Spec

variable {F : Type}

theorem has_opt (w : Word) (o : Opt) : has w (bit (optPos o)) = true ↔ optsOf w o := by
  rw [has_bit _ _ (optPos_lt o)]; rfl

theorem has_solver (w : Word) (v : Solver) : has w (bit (solverPos v)) = true ↔ solversOf w v := by
  rw [has_bit _ _ (by have := solverPos_lt v; omega)]; rfl

theorem kernelNParams_le (k : Int) : kernelNParams k ≤ 4 := by
  unfold kernelNParams
  repeat' split
  all_goals decide

/-- What a setter relies on in the current state. -/
structure Ready (s : State F) : Prop where
  quad : ∀ i, 0 ≤ i → i < s.cfg.nQuad → (s.f (.qx i)).isSome = true
  mu : s.isSet .mu0 = true → (s.f .mu00).isSome = true
  umu : s.isSet .umus = true → ∀ i, s.cfg.nQuad ≤ i → i < s.cfg.nQuad + s.cfg.nOutThetas →
    (s.f (.qx i)).isSome = true
  cnt : ∀ i, 0 ≤ i → i < s.cfg.nLayers →
    ∃ n, s.i (.nCoefLayer i) = some n ∧ 0 ≤ n ∧ n ≤ s.cfg.nCoef

theorem Safe_adjust [Fp F] {u : Bool} (s : State F) (c : Config) (m : F) (qs : List F) (n : Nat) :
    Safe u s (adjustCmds c m qs n) := by
  induction qs generalizing n with
  | nil => simp only [adjustCmds]; split <;> simp [Safe]
  | cons q qs ih =>
      simp only [adjustCmds]
      split
      · exact ⟨rfl, fun _ => ih _⟩
      · exact fun _ => ih _

theorem useCoef_iff (c : Config) : useCoef c = true ↔ ∃ v, solversOf c.solvers v := by
  unfold useCoef
  rw [has_iff]
  constructor
  · rintro ⟨k, hk, h1, h2⟩
    have h11 : k < 11 := by
      by_contra hc
      have : ∀ k : Fin 32, 11 ≤ k.val → SOLVER_ALL.getLsbD k.val = false := by decide
      have := this ⟨k, hk⟩ (by simpa using hc)
      simp only at this
      rw [this] at h2
      contradiction
    have : ∃ v, solverPos v = k := by
      have h : k = 0 ∨ k = 1 ∨ k = 2 ∨ k = 3 ∨ k = 4 ∨ k = 5 ∨ k = 6 ∨ k = 7 ∨ k = 8 ∨ k = 9 ∨ k = 10 := by
        omega
      rcases h with h | h | h | h | h | h | h | h | h | h | h <;> subst h
      exacts [⟨.doubAdd, rfl⟩, ⟨.eigAdd, rfl⟩, ⟨.eigBvp, rfl⟩, ⟨.fourStream, rfl⟩, ⟨.memBvp, rfl⟩,
        ⟨.padeAdd, rfl⟩, ⟨.single, rfl⟩, ⟨.sixStream, rfl⟩, ⟨.sos, rfl⟩, ⟨.twoOs, rfl⟩,
        ⟨.twoStream, rfl⟩]
    obtain ⟨v, hv⟩ := this
    exact ⟨v, by unfold solversOf; rw [hv]; exact h1⟩
  · rintro ⟨v, hv⟩
    refine ⟨solverPos v, by have := solverPos_lt v; omega, hv, ?_⟩
    cases v <;> decide

/-- The facts about a created configuration in the form the traces use them. -/
structure CfgFacts (c : Config) : Prop where
  layers : 0 < c.nLayers
  quad : 0 < c.nQuad
  outLevels : 0 < c.nOutLevels
  thetas : 0 ≤ c.nOutThetas
  quadD : c.nQuadD = c.nQuad + c.nOutThetas
  coef : 0 ≤ c.nCoef
  kernels : 0 ≤ c.nKernels
  derivs : 0 ≤ c.nDerivs
  derivs' : calcDerivs c = true ↔ 0 < c.nDerivs
  elems : 0 < c.nElem
  place : has c.options OPT_OUTPUT_AT_LEVELS = !(has c.options OPT_OUTPUT_AT_TAUS)

theorem WF.facts {c : Config} (h : WF c) : CfgFacts c where
  layers := h.layers
  quad := h.quad
  outLevels := h.outLevels
  thetas := h.thetas
  quadD := h.quadD
  coef := h.coef
  kernels := h.kernels
  derivs := h.derivs
  derivs' := (has_opt _ .calcDerivs).trans h.derivs'
  elems := h.elems
  place := by
    have h1 := has_opt c.options .outputAtLevels
    have h2 := has_opt c.options .outputAtTaus
    have h3 := h.place
    simp only [OPT_OUTPUT_AT_LEVELS, OPT_OUTPUT_AT_TAUS]
    simp only [optPos] at h1 h2
    rw [← h1, ← h2] at h3
    clear h h1 h2
    revert h3
    cases has c.options (bit 7) <;> cases has c.options (bit 8) <;> simp

theorem Safe_map {u : Bool} {s : State F} {α : Type} {L : List α} {g : α → Cmd F}
    (h : ∀ i ∈ L, Safe u s [g i]) : Safe u s (L.map g) := by
  apply Safe_of_forall
  intro c hc
  obtain ⟨i, hi, rfl⟩ := List.mem_map.1 hc
  exact h i hi

theorem Safe_flatMap {u : Bool} {s : State F} {α : Type} {L : List α} {g : α → List (Cmd F)}
    (h : ∀ i ∈ L, Safe u s (g i)) : Safe u s (L.flatMap g) := by
  induction L with
  | nil => trivial
  | cons a L ih =>
      rw [List.flatMap_cons]
      exact Safe_append (h a List.mem_cons_self)
        fun _ => ih fun i hi => h i (List.mem_cons_of_mem _ hi)

theorem Safe_ite {u : Bool} {s : State F} {p : Prop} [Decidable p] {a : List (Cmd F)}
    (h : p → Safe u s a) : Safe u s (if p then a else []) := by
  split
  · exact h ‹_›
  · trivial

attribute [local simp] mem_upto mem_between ckIdx ckDerivs ckKernels
  LinArg.iLo LinArg.iHi LinArg.jLo LinArg.jHi LinArg.val FLoc.valid ILoc.valid SLoc.valid inRange
  maxKernelParams

macro "mkSafe" : tactic => `(tactic| (
  simp only [setCmds, scalarCmds, omegaCmds, ltauCmds, layerCmds, layerLCmds, coefCmds, coefLCmds, List.append_assoc, List.cons_append, List.nil_append, List.append_nil, ckIdx, ckDerivs, ckKernels];
  repeat' first
    | exact trivial
    | (refine Safe_append ?_ (fun hp => ?_))
    | (refine Safe_map ?_)
    | (refine Safe_flatMap ?_)
    | (refine Safe_ite ?_)
    | exact Safe_adjust ..
    | (intro hchk)
    | (simp only [Safe, and_true, List.append_assoc, List.cons_append, List.nil_append])
    | (refine And.intro ?_ ?_)))

set_option maxHeartbeats 4000000 in
theorem set_safe [Fp F] (s : State F) (hc : CfgFacts s.cfg) (hr : Ready s) (op : Op F) :
    Safe true s (setCmds s op) := by
  obtain ⟨h1, h2, h3, h4, h5, h6, h7, h8, h9, h10, h11⟩ := hc
  cases op with
  | setCoef1 i n c =>
      by_cases hn : n < 0
      · rw [setCmds, if_pos hn]
        mkSafe <;> simp at * <;> grind
      · rw [setCmds, if_neg hn]
        mkSafe <;> simp [Passes] at * <;> grind
  | setCoefN n c =>
      cases n with
      | none => mkSafe <;> simp at * <;> grind
      | some n =>
          mkSafe
          all_goals try (simp at *; grind)
          rename_i hp i hi _ e he k hk
          have hb := hp (decide (n (i - 0) > s.cfg.nCoef)) .intErr
            (List.mem_flatMap.2 ⟨i, hi, by simp⟩)
          simp at *
          grind
  | setCoefL a =>
      obtain ⟨-, -, -, r4⟩ := hr
      cases a <;> mkSafe <;> simp [State.iv] at * <;> grind
  | setOutThetas z =>
      obtain ⟨r1, r2, r3, r4⟩ := hr
      mkSafe <;> simp at * <;> grind
  | setTheta0 z =>
      obtain ⟨r1, r2, r3, r4⟩ := hr
      mkSafe <;> simp at * <;> grind
  | setParam1 k p x => have := kernelNParams_le (s.kernels k); mkSafe <;> simp at * <;> grind
  | setParamN k x => have := kernelNParams_le (s.kernels k); mkSafe <;> simp at * <;> grind
  | setParamL11 k d p x => have := kernelNParams_le (s.kernels k); mkSafe <;> simp at * <;> grind
  | setParamLn1 k p x => have := kernelNParams_le (s.kernels k); mkSafe <;> simp at * <;> grind
  | setParamL1n k d x => have := kernelNParams_le (s.kernels k); mkSafe <;> simp at * <;> grind
  | setParamLnn k x => have := kernelNParams_le (s.kernels k); mkSafe <;> simp at * <;> grind
  | setOmegaL a => cases a <;> mkSafe <;> simp at * <;> grind
  | setLtauL a => cases a <;> mkSafe <;> simp at * <;> grind
  | _ => mkSafe <;> simp at * <;> grind

end Xrtm
