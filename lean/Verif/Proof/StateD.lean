import Verif.Proof.StateC

/-! The invariant of the instance over all histories. -/

namespace Xrtm

open Spec

variable {F : Type}

attribute [local simp] mem_upto mem_between

set_option maxHeartbeats 1000000 in
theorem mem_requiredFlags (s : State F) (l : SLoc) :
    l ∈ requiredFlags s ↔ Required s.cfg s.kernels l := by
  have o1 := has_opt s.cfg.options .psa
  have o2 := has_opt s.cfg.options .outputAtLevels
  have o3 := has_opt s.cfg.options .outputAtTaus
  have o4 := has_opt s.cfg.options .sourceSolar
  have o5 := has_opt s.cfg.options .sourceThermal
  have v1 := has_solver s.cfg.solvers .doubAdd
  have v2 := has_solver s.cfg.solvers .padeAdd
  have v3 := has_solver s.cfg.solvers .sos
  have uc := useCoef_iff s.cfg
  simp only [optPos, solverPos] at o1 o2 o3 o4 o5 v1 v2 v3
  unfold requiredFlags
  simp only [OPT_PSA, OPT_OUTPUT_AT_LEVELS, OPT_OUTPUT_AT_TAUS, solar, thermal, OPT_SOURCE_SOLAR,
    OPT_SOURCE_THERMAL, SOLVER_DOUB_ADD, SOLVER_PADE_ADD, SOLVER_SOS, o1, o2, o3, o4, o5, v1, v2, v3,
    List.mem_append, ite_nil_mem, List.mem_cons, List.mem_flatMap, mem_upto, List.mem_map, uc,
    List.not_mem_nil, or_false]
  cases l <;> simp [Required, IsLayer, IsKernel, isParam_iff] <;> grind

theorem exec_needFlags {s : State F} {L : List SLoc} (c : Code)
    (hv : s.inputsInit = true → ∀ l ∈ L, l.valid s.cfg s.inputsInit = true) :
    exec (L.map fun l => Cmd.needFlag l c) s =
      if s.inputsInit = true ∧ ∃ l ∈ L, s.isSet l = false then .stop c s else .done s := by
  induction L with
  | nil => simp [exec]
  | cons a L ih =>
      have ih := ih fun hi l hl => hv hi l (List.mem_cons_of_mem _ hl)
      simp only [List.map_cons, exec, step1]
      by_cases hi : s.inputsInit = true
      · rw [if_pos hi, hv hi a List.mem_cons_self, if_pos rfl]
        by_cases ha : s.isSet a = true
        · simp [ha, ih, hi]
        · simp [ha, hi]
      · rw [if_neg hi]
        simp only [ih]
        simp [hi]

theorem required_valid {s : State F} (hi : s.inputsInit = true) {l : SLoc}
    (h : Required s.cfg s.kernels l) : l.valid s.cfg s.inputsInit = true := by
  cases l <;> simp only [Required, IsLayer, IsKernel, isParam_iff] at h <;>
    simp [SLoc.valid, inRange, hi] <;> try omega
  rename_i k p
  have := kernelNParams_le (s.kernels k)
  have e : maxKernelParams = 4 := rfl
  omega

/-- The outcome of `check_inputs_initialized`. -/
theorem checkInputs_eq (s : State F) :
    (checkInputs s = .done { s with inputsInit := false } ∧
      (s.inputsInit = true → ∀ l, Required s.cfg s.kernels l → s.isSet l = true)) ∨
    (checkInputs s = .stop .intErr s ∧ s.inputsInit = true ∧
      ∃ l, Required s.cfg s.kernels l ∧ s.isSet l = false) := by
  unfold checkInputs
  rw [exec_needFlags .intErr fun hi l hl => required_valid hi ((mem_requiredFlags s l).1 hl)]
  by_cases h : s.inputsInit = true ∧ ∃ l ∈ requiredFlags s, s.isSet l = false
  · right
    rw [if_pos h]
    obtain ⟨hi, l, hl, hs⟩ := h
    exact ⟨rfl, hi, l, (mem_requiredFlags s l).1 hl, hs⟩
  · left
    rw [if_neg h]
    refine ⟨rfl, fun hi l hl => ?_⟩
    by_contra hc
    exact h ⟨hi, l, (mem_requiredFlags s l).2 hl, by simpa using hc⟩

/-- Everything a successful `solution_preprocess` / `update_varied_layers` may do to the
input memory is to end the input phase. -/
theorem gateInputs_eq (s : State F) :
    ((if s.inputsInit then checkInputs s else .done s) = .done { s with inputsInit := false } ∧
      (s.inputsInit = true → ∀ l, Required s.cfg s.kernels l → s.isSet l = true)) ∨
    ((if s.inputsInit then checkInputs s else .done s) = .stop .intErr s ∧ s.inputsInit = true ∧
      ∃ l, Required s.cfg s.kernels l ∧ s.isSet l = false) := by
  by_cases hi : s.inputsInit = true
  · simp only [hi, if_true]
    rcases checkInputs_eq s with h | h
    · exact .inl ⟨h.1, fun _ => h.2 hi⟩
    · exact .inr ⟨h.1, trivial, h.2.2⟩
  · simp only [Bool.not_eq_true] at hi
    left
    simp [hi]
    cases s
    simp_all

/-- The cells that a set flag vouches for. -/
def FlagCell (c : Config) : SLoc → FLoc → Prop
  | .doubDTau, x => x = .doubDTau
  | .sosParams, x => x = .sosMaxTau ∨ x = .sosTol
  | .fourierTol, x => x = .fourierTol
  | .lambda, x => x = .lambda
  | .planetR, x => x = .planetR
  | .levelsZ, x => ∃ i, 0 ≤ i ∧ i < c.nLayers + 1 ∧ x = .levelsZ i
  | .utaus, x => ∃ i, 0 ≤ i ∧ i < c.nOutLevels ∧ x = .utaus i
  | .umus, x => ∃ i, c.nQuad ≤ i ∧ i < c.nQuad + c.nOutThetas ∧ x = .qx i
  | .fIsoTop, x => x = .fIsoTop
  | .fIsoBot, x => x = .fIsoBot
  | .f0, x => x = .f0
  | .mu0, x => x = .mu00
  | .phi0, x => x = .phi0
  | .levelsB, x => ∃ i, 0 ≤ i ∧ i < c.nLayers + 1 ∧ x = .levelsB i
  | .surfaceB, x => x = .surfaceB
  | .omega i, x => x = .omega i
  | .ltau i, x => x = .ltau i
  | .ampfac k, x => x = .ampfac k
  | .param k p, x => x = .param k p
  | _, _ => False

def FlagCellI (c : Config) : SLoc → ILoc → Prop
  | .padeParams, x => x = .padeS ∨ x = .padeR
  | .sosParams, x => x = .sosMaxOs
  | .ulevels, x => ∃ i, 0 ≤ i ∧ i < c.nOutLevels ∧ x = .ulevel i
  | .func k, x => x = .kernelFunc k
  | _, _ => False

structure Inv (c : Config) (kernels : Int → Int) (s : State F) : Prop where
  cfg : s.cfg = c
  kern : s.kernels = kernels
  quad : ∀ i, 0 ≤ i → i < c.nQuad → (s.f (.qx i)).isSome = true
  cnt : ∀ i, 0 ≤ i → i < c.nLayers → ∃ n, s.i (.nCoefLayer i) = some n ∧ 0 ≤ n ∧ n ≤ c.nCoef
  cells : ∀ l x, s.isSet l = true → FlagCell c l x → (s.f x).isSome = true
  cellsI : ∀ l x, s.isSet l = true → FlagCellI c l x → (s.i x).isSome = true
  complete : s.inputsInit = false → ∀ l, Required c kernels l → s.isSet l = true

theorem Inv.ready {c : Config} {kernels : Int → Int} {s : State F} (h : Inv c kernels s) :
    Ready s where
  quad := by rw [h.cfg]; exact h.quad
  mu := fun hm => h.cells .mu0 _ hm rfl
  umu := by
    intro hu i h1 h2
    rw [h.cfg] at h1 h2
    exact h.cells .umus _ hu ⟨i, h1, h2, rfl⟩
  cnt := by rw [h.cfg]; exact h.cnt

/-- A provided flag comes with its cells. -/
theorem provides_cell [Fp F] (c : Config) (kernels : Int → Int) (cnt : Int → Option Int) (op : Op F)
    (l : SLoc) (x : FLoc) (h : Provides c kernels op l) (hx : FlagCell c l x) :
    (assignF c kernels cnt op x).isSome = true := by
  have gi : ∀ {p : Prop} {y : F}, p → (given p y).isSome = true := by
    intro p y hp; simp [given, hp]
  cases op <;> simp only [Provides] at h
  all_goals first
    | (subst h; simp only [FlagCell] at hx; done)
    | (obtain ⟨i, hi, rfl⟩ := h; simp only [FlagCell] at hx; done)
    | (subst h; simp only [FlagCell] at hx; first
        | (subst hx; simp [assignF, gi])
        | (obtain ⟨i, h0, h1, rfl⟩ := hx; exact gi (by first | omega | (constructor <;> simp only [outAngle] <;> omega)))
        | (rcases hx with rfl | rfl <;> simp [assignF]))
    | (obtain ⟨i, hi, rfl⟩ := h; simp only [FlagCell] at hx; first | (subst hx; exact gi (by first | exact hi | exact ⟨rfl, hi⟩)))

theorem provides_cellI [Fp F] (c : Config) (kernels : Int → Int) (op : Op F)
    (l : SLoc) (x : ILoc) (h : Provides c kernels op l) (hx : FlagCellI c l x) :
    (assignI c op x).isSome = true := by
  have gi : ∀ {p : Prop} {y : Int}, p → (given p y).isSome = true := by
    intro p y hp; simp [given, hp]
  cases op <;> simp only [Provides] at h
  all_goals first
    | (subst h; simp only [FlagCellI] at hx; done)
    | (subst h; simp only [FlagCellI] at hx; first
        | (subst hx; simp [assignI, gi])
        | (obtain ⟨i, h0, h1, rfl⟩ := hx; exact gi (by omega))
        | (rcases hx with rfl | rfl <;> simp [assignI]))
    | (obtain ⟨i, hi, rfl⟩ := h; simp only [FlagCellI] at hx)

theorem FlagCell_ne {c : Config} {l : SLoc} {x : FLoc} (h : FlagCell c l x) : x ≠ .mu0 := by
  rintro rfl
  cases l <;> simp [FlagCell] at h

theorem FlagCellI_nd {c : Config} {l : SLoc} {x : ILoc} (h : FlagCellI c l x) :
    x.derived = false := by
  cases l <;> simp only [FlagCellI] at h <;> try contradiction
  · rcases h with rfl | rfl <;> rfl
  · subst h; rfl
  · obtain ⟨i, _, _, rfl⟩ := h; rfl
  · subst h; rfl

/-- Preservation, from what a (partial) run wrote. -/
theorem Inv.effs {c : Config} {kernels : Int → Int} {s : State F} (h : Inv c kernels s)
    (p : List (Cmd F))
    (hcnt : ∀ i n, Cmd.wrI (.nCoefLayer i) n ∈ p → 0 ≤ n ∧ n ≤ c.nCoef)
    (hf : ∀ l x, flags true p l = true → FlagCell c l x → (lastF p x).isSome = true)
    (hi : ∀ l x, flags true p l = true → FlagCellI c l x → (lastI p x).isSome = true) :
    Inv c kernels (effs p s) where
  cfg := by rw [effs_cfg, h.cfg]
  kern := by rw [effs_kernels, h.kern]
  quad := by
    intro i h0 h1
    rw [effs_f]
    simp [h.quad i h0 h1]
  cnt := by
    intro i h0 h1
    rw [effs_i]
    cases hl : lastI p (.nCoefLayer i) with
    | none => simpa using h.cnt i h0 h1
    | some n => exact ⟨n, by simp, hcnt i n (lastI_mem hl)⟩
  cells := by
    intro l x hs hx
    rw [effs_f]
    rw [effs_isSet, Bool.or_eq_true] at hs
    rcases hs with hs | hs
    · simp [h.cells l x hs hx]
    · simp [hf l x (flags_mono hs) hx]
  cellsI := by
    intro l x hs hx
    rw [effs_i]
    rw [effs_isSet, Bool.or_eq_true] at hs
    rcases hs with hs | hs
    · simp [h.cellsI l x hs hx]
    · simp [hi l x (flags_mono hs) hx]
  complete := by
    intro hc l hl
    rw [effs_init] at hc
    rw [effs_isSet, h.complete hc l hl, Bool.true_or]

theorem coefCmds_cnt [Fp F] {c : Config} {n : Option (Int → Int)} {v : Int → Int → Int → F}
    {lo hi : Int} (h6 : 0 ≤ c.nCoef) (hp : Passes (match n with
      | none => ([] : List (Cmd F))
      | some n => (between lo hi).flatMap fun i =>
        [.check (decide (n (i - lo) < 0)) .intErr, .check (decide (n (i - lo) > c.nCoef)) .intErr]))
    {i m : Int} (hm : Cmd.wrI (.nCoefLayer i) m ∈ coefCmds c n v lo hi) : 0 ≤ m ∧ m ≤ c.nCoef := by
  cases n with
  | none =>
      simp [coefCmds, ckIdx] at hm
      obtain ⟨_, _, rfl⟩ := hm
      omega
  | some n =>
      simp [coefCmds, ckIdx] at hm
      obtain ⟨hm1, rfl⟩ := hm
      have h1 := hp (decide (n (i - lo) < 0)) .intErr
        (List.mem_flatMap.2 ⟨i, by simp; omega, by simp⟩)
      have h2 := hp (decide (n (i - lo) > c.nCoef)) .intErr
        (List.mem_flatMap.2 ⟨i, by simp; omega, by simp⟩)
      simp at h1 h2
      exact ⟨h1, h2⟩

end Xrtm
