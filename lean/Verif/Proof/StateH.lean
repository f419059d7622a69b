import Verif.Proof.StateG

/-! Getters. -/

namespace Xrtm

open Spec

variable {F : Type}

attribute [local simp] mem_upto mem_between

theorem getTrace_ints [Fp F] (s : State F) (g : Get) : (getTrace s g).ints = reportsI s.cfg g := by
  cases g <;> rfl

theorem getTrace_dbls [Fp F] (s : State F) (g : Get) : (getTrace s g).dbls = reportsF s.cfg g := by
  cases g <;> rfl

theorem getTrace_post [Fp F] (s : State F) (g : Get) (hg : ∀ i, g ≠ .g i) (hl : ∀ i d, g ≠ .gL i d) :
    (getTrace s g).post = shown g := by
  cases g <;> rfl

theorem getTrace_pure [Fp F] (s : State F) (g : Get) : ∀ d ∈ (getTrace s g).cmds, d.pure = true := by
  cases g <;> simp [getTrace, ckIdx, ckKernels]

theorem exec_pure_reads {s s' : State F} {cs : List (Cmd F)} (hp : ∀ d ∈ cs, d.pure = true)
    (h : exec cs s = .done s') :
    (∀ l, Cmd.rd l ∈ cs → (s.f l).isSome = true) ∧ (∀ l, Cmd.rdI l ∈ cs → (s.i l).isSome = true) := by
  induction cs with
  | nil => simp
  | cons c cs ih =>
      simp only [exec] at h
      cases h1 : step1 s c with
      | done s1 =>
          rw [h1] at h
          have e := step1_done h1
          have hc := hp c List.mem_cons_self
          have e2 : s1 = s := by
            rw [e]; cases c <;> simp [Cmd.pure] at hc <;> rfl
          rw [e2] at h
          have ih := ih (fun d hd => hp d (List.mem_cons_of_mem _ hd)) h
          refine ⟨?_, ?_⟩
          · intro l hl
            rcases List.mem_cons.1 hl with rfl | hl
            · simp only [step1] at h1
              repeat' split at h1
              all_goals first | assumption | contradiction
            · exact ih.1 l hl
          · intro l hl
            rcases List.mem_cons.1 hl with rfl | hl
            · simp only [step1] at h1
              repeat' split at h1
              all_goals first | assumption | contradiction
            · exact ih.2 l hl
      | stop r s1 => rw [h1] at h; contradiction
      | ub k => rw [h1] at h; contradiction

theorem exec_pure_done {s : State F} {cs : List (Cmd F)} (h : ∀ d ∈ cs, step1 s d = .done s) :
    exec cs s = .done s := by
  induction cs with
  | nil => rfl
  | cons c cs ih =>
      simp only [exec, h c List.mem_cons_self]
      exact ih fun d hd => h d (List.mem_cons_of_mem _ hd)

/-- What a getter that returns a value returns. -/
theorem get_val [Fp F] {s : State F} {g : Get} {is fs} (h : get s g = .val is fs) :
    is.map some = (reportsI s.cfg g).map s.i ∧
    fs.map some = (reportsF s.cfg g).map (fun l => (s.f l).map (shown g)) := by
  unfold get at h
  simp only at h
  split at h
  · rename_i s1 hd
    injection h with h1 h2
    have hpure : ∀ d ∈ (getTrace s g).cmds ++ (getTrace s g).ints.map .rdI ++ (getTrace s g).dbls.map .rd,
        d.pure = true := by
      intro d hd
      simp only [List.mem_append, List.mem_map] at hd
      rcases hd with (hd | ⟨l, _, rfl⟩) | ⟨l, _, rfl⟩
      · exact getTrace_pure s g d hd
      · rfl
      · rfl
    obtain ⟨r1, r2⟩ := exec_pure_reads hpure hd
    refine ⟨?_, ?_⟩
    · rw [← h1, ← getTrace_ints, List.map_map]
      apply List.map_congr_left
      intro l hl
      have := r2 l (by simp [hl])
      simp only [Function.comp_apply, State.iv]
      obtain ⟨v, hv⟩ := Option.isSome_iff_exists.1 this
      simp [hv]
    · rw [← h2, ← getTrace_dbls, List.map_map]
      apply List.map_congr_left
      intro l hl
      have := r1 l (by simp [hl])
      simp only [Function.comp_apply, State.fv]
      obtain ⟨v, hv⟩ := Option.isSome_iff_exists.1 this
      rw [getTrace_post]
      · simp [hv]
      · rintro i rfl; simp [getTrace] at hl
      · rintro i d rfl; simp [getTrace] at hl
  · contradiction
  · contradiction

set_option maxHeartbeats 1000000 in
/-- Getters stay inside the arrays when the inputs are complete or the index selects an
existing flag. -/
theorem get_safe [Fp F] (s : State F) (hc : CfgFacts s.cfg) (hr : Ready s) (g : Get)
    (h : s.inputsInit = false ∨ IndicesOk s.cfg s.kernels g) :
    Safe false s ((getTrace s g).cmds ++ (getTrace s g).ints.map .rdI ++ (getTrace s g).dbls.map .rd) := by
  obtain ⟨h1, h2, h3, h4, h5, h6, h7, h8, h9, h10, h11⟩ := hc
  have kp : ∀ k, kernelNParams (s.kernels k) ≤ 4 := fun k => kernelNParams_le _
  have e4 : maxKernelParams = 4 := rfl
  have hcv : ∀ i, 0 ≤ i → i < s.cfg.nLayers → s.iv (.nCoefLayer i) ≤ s.cfg.nCoef := by
    intro i h0 h1
    obtain ⟨n, hn, _, h2⟩ := hr.cnt i h0 h1
    simp [State.iv, hn, h2]
  clear hr
  cases g with
  | outLevels =>
      simp only [getTrace, List.map_nil, List.append_nil, List.map_map]
      refine Safe_append ?_ fun hp => Safe_map ?_
      · simp [Safe, SLoc.valid]
      · intro i hi; simp at hi; simp [Safe, ILoc.valid, inRange, hi]
  | levelsZ =>
      simp only [getTrace, List.map_nil, List.append_nil, List.map_map]
      refine Safe_append ?_ fun hp => Safe_map ?_
      · simp [Safe, SLoc.valid]
      · have := hp _ _ List.mem_cons_self
        simp at this
        intro i hi; simp at hi; simp [Safe, FLoc.valid, inRange, this, hi]
  | outTaus =>
      simp only [getTrace, List.map_nil, List.append_nil, List.map_map]
      refine Safe_append ?_ fun hp => Safe_map ?_
      · simp [Safe, SLoc.valid]
      · have := hp _ _ List.mem_cons_self
        simp at this
        intro i hi; simp at hi; simp [Safe, FLoc.valid, inRange, this, h11, hi]
  | outThetas =>
      simp only [getTrace, List.map_nil, List.append_nil, List.map_map]
      refine Safe_append ?_ fun hp => Safe_map ?_
      · simp [Safe, SLoc.valid]
      · intro i hi; simp at hi; simp [Safe, FLoc.valid, inRange]
        omega
  | levelsB =>
      simp only [getTrace, List.map_nil, List.append_nil, List.map_map]
      refine Safe_append ?_ fun hp => Safe_map ?_
      · simp [Safe, SLoc.valid]
      · have := hp _ _ List.mem_cons_self
        simp at this
        intro i hi; simp at hi; simp [Safe, FLoc.valid, inRange, this, hi]
  | levelsBL d =>
      simp only [getTrace, List.map_nil, List.append_nil, List.map_map]
      refine Safe_append ?_ fun hp => Safe_map ?_
      · simp [Safe, ckIdx]
      · have e1 := hp _ _ List.mem_cons_self
        have e2 := hp _ _ (List.mem_cons_of_mem _ List.mem_cons_self)
        simp at e1 e2
        intro i hi; simp at hi; simp [Safe, FLoc.valid, inRange, e1, e2, h9, hi]
        omega
  | _ =>
    simp [getTrace, Safe, ckIdx, ckKernels, FLoc.valid, ILoc.valid, SLoc.valid, inRange, IndicesOk,
      isParam_iff, IsLayer, IsKernel, useG, has] at * <;> grind

theorem get_not_oob [Fp F] {s : State F} (hc : CfgFacts s.cfg) (hr : Ready s) (g : Get)
    (h : s.inputsInit = false ∨ IndicesOk s.cfg s.kernels g) : get s g ≠ .ub .oob := by
  have := exec_ne_ub (Extends.refl s) (get_safe s hc hr g h) .oob (.inl rfl)
  unfold get
  simp only
  intro hg
  split at hg
  · contradiction
  · contradiction
  · rename_i k hk
    injection hg with hg
    subst hg
    exact this hk

/-- A getter of an input that is not flagged is refused while inputs are incomplete. -/
theorem get_unset [Fp F] {s : State F} (hc : CfgFacts s.cfg) {g : Get} {l : SLoc}
    (hn : needs g = some l) (hi : s.inputsInit = true) (hl : s.isSet l = false)
    (hx : IndicesOk s.cfg s.kernels g) : ∃ r, get s g = .err r := by
  obtain ⟨h1, h2, h3, h4, h5, h6, h7, h8, h9, h10, h11⟩ := hc
  have kp : ∀ k, kernelNParams (s.kernels k) ≤ 4 := fun k => kernelNParams_le _
  have e4 : maxKernelParams = 4 := rfl
  have key : ∀ r1 b1 (rest : List (Cmd F)) r2, l.valid s.cfg true = true →
      ∃ s' r, exec (Cmd.check b1 r1 :: Cmd.needFlag l r2 :: rest) s = .stop r s' := by
    intro r1 b1 rest r2 hv
    cases b1 <;> simp [exec, step1, hi, hv, hl]
  have key2 : ∀ (rest : List (Cmd F)) r2, l.valid s.cfg true = true →
      ∃ s' r, exec (Cmd.needFlag l r2 :: rest) s = .stop r s' := by
    intro rest r2 hv
    simp [exec, step1, hi, hv, hl]
  have hv : l.valid s.cfg true = true := by
    cases g <;> simp [needs] at hn <;> subst hn <;>
      simp [IndicesOk, IsLayer, IsKernel, isParam_iff] at hx <;> simp [SLoc.valid, inRange] <;> grind
  cases g <;> simp [needs] at hn <;> subst hn <;> simp only [get, getTrace, ckKernels, List.cons_append, List.nil_append]
  all_goals first
    | (obtain ⟨s', r, e⟩ := key2 _ _ hv; rw [e]; exact ⟨r, rfl⟩)
    | (obtain ⟨s', r, e⟩ := key _ _ _ _ hv; rw [e]; exact ⟨r, rfl⟩)

theorem Safe_true {s : State F} {cs : List (Cmd F)} (h : Safe false s cs)
    (h1 : ∀ l, Cmd.rd l ∈ cs → (s.f l).isSome = true)
    (h2 : ∀ l, Cmd.rdI l ∈ cs → (s.i l).isSome = true) : Safe true s cs := by
  induction cs with
  | nil => trivial
  | cons c cs ih =>
      have ih := fun h => ih h (fun l hl => h1 l (List.mem_cons_of_mem _ hl))
        (fun l hl => h2 l (List.mem_cons_of_mem _ hl))
      cases c
      case check b r => exact fun hb => ih (h hb)
      case rd l => exact ⟨h.1, fun _ => h1 l List.mem_cons_self, ih h.2.2⟩
      case rdI l => exact ⟨h.1, fun _ => h2 l List.mem_cons_self, ih h.2.2⟩
      case dep => exact ih h
      all_goals exact ⟨h.1, ih h.2⟩

/-- The flag needed by a getter is set or no longer looked at. -/
def Seen (s : State F) (g : Get) : Prop :=
  ∀ l, needs g = some l → s.inputsInit = true → s.isSet l = true

set_option maxHeartbeats 1000000 in
/-- An applicable getter of inputs that are there returns a value. -/
theorem get_there [Fp F] {s : State F} (hc : CfgFacts s.cfg) (hr : Ready s) {g : Get}
    (ha : Applicable s.cfg s.kernels (fun i => s.i (.nCoefLayer i)) g) (hs : Seen s g)
    (hI : ∀ l ∈ reportsI s.cfg g, (s.i l).isSome = true)
    (hF : ∀ l ∈ reportsF s.cfg g, (s.f l).isSome = true) : ∃ is fs, get s g = .val is fs := by
  have hsafe : s.inputsInit = false ∨ IndicesOk s.cfg s.kernels g := by
    right
    cases g <;> simp only [Applicable] at ha <;> simp only [IndicesOk] <;> grind
  have hsafe := get_safe s hc hr g hsafe
  have o1 := has_opt s.cfg.options .psa
  have o2 := has_opt s.cfg.options .outputAtLevels
  have o3 := has_opt s.cfg.options .outputAtTaus
  have o4 := has_opt s.cfg.options .sourceSolar
  have o5 := has_opt s.cfg.options .sourceThermal
  have v1 := has_solver s.cfg.solvers .doubAdd
  have v2 := has_solver s.cfg.solvers .padeAdd
  have v3 := has_solver s.cfg.solvers .sos
  have uc := useCoef_iff s.cfg
  simp only [optPos, solverPos] at o1 o2 o3 o4 o5 v1 v2 v3
  have hpass : Passes (getTrace s g).cmds := by
    intro b c hb
    cases g <;> simp [getTrace, ckIdx, ckKernels, OPT_PSA, OPT_OUTPUT_AT_LEVELS, OPT_OUTPUT_AT_TAUS,
      solar, thermal, OPT_SOURCE_SOLAR,
      OPT_SOURCE_THERMAL, SOLVER_DOUB_ADD, SOLVER_PADE_ADD, SOLVER_SOS] at hb <;>
      simp only [Applicable, IsLayer, IsDeriv, IsKernel, isParam_iff] at ha <;> simp [State.iv] at * <;> grind
  have hneed : ∀ l c, Cmd.needFlag l c ∈ (getTrace s g).cmds → needs g = some l := by
    intro l c hb
    cases g <;> simp [getTrace, ckIdx, ckKernels] at hb <;> simp [needs, hb]
  have hrdI : ∀ l, Cmd.rdI l ∈ (getTrace s g).cmds → (s.i l).isSome = true := by
    intro l hb
    cases g <;> simp [getTrace, ckIdx, ckKernels] at hb <;> subst hb
    · obtain ⟨n, hn, _⟩ := hr.cnt _ ha.2.1.1 ha.2.1.2
      simp [hn]
    · obtain ⟨n, hn, _⟩ := hr.cnt _ ha.2.1.1 ha.2.1.2
      simp [hn]
  have hrd : ∀ l, Cmd.rd l ∉ (getTrace s g).cmds := by
    intro l hb
    cases g <;> simp [getTrace, ckIdx, ckKernels] at hb
  rw [← getTrace_ints] at hI
  rw [← getTrace_dbls] at hF
  have hT := Safe_true hsafe (by
      intro l hl
      simp only [List.mem_append, List.mem_map, Cmd.rd.injEq, exists_eq_right] at hl
      rcases hl with (h | ⟨_, _, h⟩) | h
      · exact absurd h (hrd l)
      · simp at h
      · exact hF l h) (by
      intro l hl
      simp only [List.mem_append, List.mem_map, Cmd.rdI.injEq, exists_eq_right] at hl
      rcases hl with (h | h) | ⟨_, _, h⟩
      · exact hrdI l h
      · exact hI l h
      · simp at h)
  unfold get
  simp only
  split
  · exact ⟨_, _, rfl⟩
  · rename_i r s1 he
    obtain ⟨p, c, q, hcs, hp, hc, e⟩ := exec_stop he
    have hm : c ∈ (getTrace s g).cmds ++ (getTrace s g).ints.map .rdI ++ (getTrace s g).dbls.map .rd := by
      rw [hcs]; simp
    rcases (step1_stop hc).2 with ⟨b, rfl⟩ | ⟨l, rfl⟩
    · simp at hm
      have := hpass _ _ hm
      subst this
      simp [step1] at hc
    · simp at hm
      have hn := hneed _ _ hm
      simp only [step1] at hc
      have e1 : s1.inputsInit = s.inputsInit := by rw [e, effs_init]
      have e2 : s1.isSet l = (s.isSet l || flags s.inputsInit p l) := by rw [e, effs_isSet]
      by_cases hi : s.inputsInit = true
      · rw [hs l hn hi, Bool.true_or] at e2
        rw [e1, hi, e2] at hc
        simp only [if_true] at hc
        split at hc <;> contradiction
      · rw [e1] at hc
        simp [hi] at hc
  · rename_i k he
    exact absurd he (exec_ne_ub (Extends.refl s) hT k (.inr rfl))

end Xrtm
