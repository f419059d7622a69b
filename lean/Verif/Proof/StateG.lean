import Verif.Proof.StateF

/-! Refinement of the call semantics to the abstract view of `Verif.Spec.State`. -/

namespace Xrtm

open Spec

variable {F : Type}

attribute [local simp] mem_upto mem_between

theorem leaky_of_F {c : Config} {op : Op F} {l : FLoc} (h : LeakF c op l) : Leaky op = true := by
  cases op <;> cases l <;> simp [LeakF] at h <;> rfl

theorem assignF_other [Fp F] {c : Config} {kernels cnt} {op : Op F} (h : ¬ IsSet op) (l : FLoc) :
    assignF c kernels cnt op l = none := by
  cases op <;> first | exact absurd trivial h | (cases l <;> rfl)

theorem assignI_other [Fp F] {c : Config} {op : Op F} (h : ¬ IsSet op) (l : ILoc) :
    assignI c op l = none := by
  cases op <;> first | exact absurd trivial h | (cases l <;> rfl)

theorem provides_other {c : Config} {kernels} {op : Op F} (h : ¬ IsSet op) (l : SLoc) :
    ¬ Provides c kernels op l := by
  cases op <;> first | exact absurd trivial h | (cases l <;> exact id)

/-- What a failing call leaves alone. -/
structure Frame (c : Config) (op : Op F) (s s' : State F) : Prop where
  f : ∀ l, ¬ LeakF c op l → s'.f l = s.f l
  i : ∀ l, ¬ LeakI c op l → s'.i l = s.i l
  isSet : ∀ l, ¬ LeakS c op l → s'.isSet l = s.isSet l
  mono : ∀ l, s.isSet l = true → s'.isSet l = true
  notices : s'.notices = s.notices

theorem effs_notices {p : List (Cmd F)} (h : ∀ m lo hi, Cmd.dep m lo hi ∉ p) (s : State F) :
    (effs p s).notices = s.notices ∧ (effs p s).depUtaus = s.depUtaus := by
  induction p generalizing s with
  | nil => exact ⟨rfl, rfl⟩
  | cons c p ih =>
      rw [effs_cons]
      have := ih (fun m lo hi hm => h m lo hi (List.mem_cons_of_mem _ hm)) (eff s c)
      rw [this.1, this.2]
      cases c
      case dep m lo hi => exact absurd List.mem_cons_self (h m lo hi)
      case flagIfInit l => simp only [eff]; split <;> exact ⟨rfl, rfl⟩
      all_goals exact ⟨rfl, rfl⟩

theorem call_frame [Fp F] {c : Config} {kernels : Int → Int} {s s' : State F} (hw : WF c)
    (hi : Inv c kernels s) {op : Op F} {r : Code} (h : apply s op = .ret r s') (hr : r ≠ .ok) :
    Frame c op s s' := by
  by_cases hs : IsSet op
  · rcases apply_set_cases hs h with ⟨h, _⟩ | ⟨_, h⟩
    · exact absurd h hr
    · cases hl : Leaky op with
      | false =>
          rw [exec_stop_tidy (set_tidy s op hl) h]
          exact ⟨fun _ _ => rfl, fun _ _ => rfl, fun _ _ => rfl, fun _ h => h, rfl⟩
      | true =>
          obtain ⟨p, h1, h2, h3⟩ := leak_stop (by rw [hi.cfg]; exact WF.facts hw)
            (by rw [hi.cfg]; exact hw.coef) h hl
          rw [hi.cfg] at h2
          rw [h1]
          refine ⟨?_, ?_, ?_, ?_, ?_⟩
          · intro l hn
            rw [effs_f, lastF_none.2, Option.none_or]
            exact fun x hx => hn (h2 _ hx)
          · intro l hn
            rw [effs_i, lastI_none.2, Option.none_or]
            exact fun x hx => hn (h2 _ hx).1
          · intro l hn
            rw [effs_isSet]
            have : flags s.inputsInit p l = false := by
              cases hf : flags s.inputsInit p l with
              | false => rfl
              | true =>
                  rcases flags_iff.1 hf with hm | ⟨_, hm⟩ <;> exact absurd (h2 _ hm) hn
            rw [this, Bool.or_false]
          · intro l hl
            rw [effs_isSet, hl, Bool.true_or]
          · exact (effs_notices (fun m lo hi hm => h2 _ hm) s).1
  · obtain ⟨e, _⟩ := apply_other hs h
    exact ⟨fun _ _ => by rw [e.f], fun _ _ => by rw [e.i], fun _ _ => by rw [e.isSet],
      fun _ h => by rw [e.isSet]; exact h, e.notices⟩

/-- What an accepted call does to the inputs. -/
theorem call_ok [Fp F] {c : Config} {kernels : Int → Int} {s s' : State F}
    (hi : Inv c kernels s) {op : Op F} (h : apply s op = .ret .ok s') :
    (∀ l, l ≠ .mu0 → s'.f l = (assignF c kernels (fun i => s.i (.nCoefLayer i)) op l).or (s.f l)) ∧
    (∀ l, l.derived = false → s'.i l = (assignI c op l).or (s.i l)) ∧
    (∀ l, s.isSet l = true → s'.isSet l = true) ∧
    (∀ l, s'.isSet l = true → s.isSet l = true ∨ Provides c kernels op l) ∧
    (∀ l, s.inputsInit = true → Provides c kernels op l → s'.isSet l = true) := by
  by_cases hs : IsSet op
  · rcases apply_set_cases hs h with ⟨_, h⟩ | ⟨h, _⟩
    · rw [exec_done h]
      rw [← hi.cfg, ← hi.kern]
      refine ⟨?_, ?_, ?_, ?_, ?_⟩
      · intro l hl
        rw [effs_f, set_lastF s op l hl]
      · intro l hl
        rw [effs_i, set_lastI s op l hl]
      · intro l hl
        rw [effs_isSet, hl, Bool.true_or]
      · intro l hl
        rw [effs_isSet, Bool.or_eq_true] at hl
        exact hl.imp id fun h => (set_flags s op l).1 (flags_mono h)
      · intro l hin hl
        rw [effs_isSet, Bool.or_eq_true, hin]
        exact .inr ((set_flags s op l).2 hl)
    · exact absurd rfl h
  · obtain ⟨e, _⟩ := apply_other hs h
    refine ⟨?_, ?_, ?_, ?_, ?_⟩
    · intro l _; rw [assignF_other hs, e.f]; rfl
    · intro l _; rw [assignI_other hs, e.i]; rfl
    · intro l hl; rw [e.isSet]; exact hl
    · intro l hl; rw [e.isSet] at hl; exact .inl hl
    · intro l _ hp; exact absurd hp (provides_other hs l)

/-- An accepted setter writes some flag with an unconditional command. -/
theorem lambda_flag [Fp F] {s s' : State F} {x : F} (h : apply s (.setLambda x) = .ret .ok s') :
    s'.isSet .lambda = true := by
  rcases apply_set_cases (op := .setLambda x) trivial h with ⟨_, h⟩ | ⟨h, _⟩
  · rw [exec_done h, effs_isSet, Bool.or_eq_true]
    right
    rw [flags_iff]
    left
    simp [setCmds, scalarCmds]
  · exact absurd rfl h

theorem setS_init_mono [Fp F] {s s' : State F} {op : Op F} {r : Code}
    (h : apply s op = .ret r s') (hi : s'.inputsInit = true) : s.inputsInit = true := by
  by_cases hs : IsSet op
  · rcases apply_set_cases hs h with ⟨_, h⟩ | ⟨_, h⟩
    · rw [exec_done h, effs_init] at hi; exact hi
    · obtain ⟨p, _, _, _, _, _, e⟩ := exec_stop h
      rw [e, effs_init] at hi; exact hi
  · obtain ⟨_, h1 | ⟨h1, _⟩⟩ := apply_other hs h
    · rw [← h1]; exact hi
    · rw [h1] at hi; contradiction

/-- Cells once written stay written. -/
theorem call_written [Fp F] {s s' : State F} {op : Op F} {r : Code} (h : apply s op = .ret r s') :
    (∀ l, (s.f l).isSome = true → (s'.f l).isSome = true) ∧
    (∀ l, (s.i l).isSome = true → (s'.i l).isSome = true) := by
  have key : ∀ p, s' = effs p s → _ := fun p e => by
    refine (?_ : (∀ l, (s.f l).isSome = true → (s'.f l).isSome = true) ∧
      (∀ l, (s.i l).isSome = true → (s'.i l).isSome = true))
    subst e
    exact ⟨fun l hl => by rw [effs_f]; simp [hl], fun l hl => by rw [effs_i]; simp [hl]⟩
  by_cases hs : IsSet op
  · rcases apply_set_cases hs h with ⟨_, h⟩ | ⟨_, h⟩
    · exact key _ (exec_done h)
    · obtain ⟨p, _, _, _, _, _, e⟩ := exec_stop h
      exact key _ e
  · obtain ⟨e, _⟩ := apply_other hs h
    rw [e.f, e.i]; exact ⟨fun _ h => h, fun _ h => h⟩

/-! ### Histories -/

/-- The inputs of a freshly created instance: derivatives and `phi_0` are zero, the
quadrature points and default levels are there, all layers use all coefficients. -/
def startInputs [Fp F] (c : Config) (kernels : Int → Int) (quad : Int → F) : Inputs F :=
  ⟨(initState c kernels quad).f, (initState c kernels quad).i⟩

theorem Leak_none {c : Config} {op : Op F} (h : Leaky op = false) :
    (∀ l, ¬ LeakF c op l) ∧ (∀ l, ¬ LeakI c op l) ∧ (∀ l, ¬ LeakS c op l) := by
  cases op <;> simp [Leaky] at h <;>
    exact ⟨fun l => by cases l <;> exact id, fun l => by cases l <;> exact id,
      fun l => by cases l <;> exact id⟩

theorem replay_err [Fp F] {c : Config} {kernels init} {op : Op F} {r : Code} {h} (hr : r ≠ .ok) :
    replay c kernels init ((op, r) :: h) = replay c kernels init h := by
  cases r <;> first | exact absurd rfl hr | rfl

theorem reach_replay [Fp F] {c : Config} {kernels : Int → Int} {quad : Int → F} {h s} (hw : WF c)
    (hr : Reach c kernels quad h s) (hq : Quiet h) :
    (∀ l, l ≠ .mu0 → s.f l = (replay c kernels (startInputs c kernels quad) h).f l) ∧
    (∀ l, l.derived = false → s.i l = (replay c kernels (startInputs c kernels quad) h).i l) := by
  induction hr with
  | init => exact ⟨fun _ _ => rfl, fun _ _ => rfl⟩
  | @call h s op r s' hr ha ih =>
      have ih := ih fun o ho => hq o (List.mem_cons_of_mem _ ho)
      have hi := hr.inv hw
      by_cases hok : r = .ok
      · subst hok
        obtain ⟨h1, h2, _⟩ := call_ok hi ha
        refine ⟨?_, ?_⟩
        · intro l hl
          rw [h1 l hl, ih.1 l hl]
          simp only [replay]
          have : (fun i => s.i (.nCoefLayer i)) =
              fun i => (replay c kernels (startInputs c kernels quad) h).i (.nCoefLayer i) :=
            funext fun i => ih.2 _ rfl
          rw [this]
        · intro l hl
          rw [h2 l hl, ih.2 l hl]
          rfl
      · rw [replay_err hok]
        have hf := call_frame hw hi ha hok
        obtain ⟨n1, n2, _⟩ := Leak_none (c := c) (hq (op, r) List.mem_cons_self hok)
        exact ⟨fun l hl => by rw [hf.f l (n1 l), ih.1 l hl], fun l hl => by rw [hf.i l (n2 l), ih.2 l hl]⟩

/-- A set flag was provided, or leaked by a failed call. -/
theorem reach_set [Fp F] {c : Config} {kernels : Int → Int} {quad : Int → F} {h s} (hw : WF c)
    (hr : Reach c kernels quad h s) {l : SLoc} (hl : s.isSet l = true) :
    Provided c kernels h l ∨ ∃ o ∈ h, o.2 ≠ .ok ∧ LeakS c o.1 l := by
  induction hr with
  | init => simp [initState] at hl
  | @call h s op r s' hr ha ih =>
      have hi := hr.inv hw
      have up : s.isSet l = true → Provided c kernels ((op, r) :: h) l ∨
          ∃ o ∈ (op, r) :: h, o.2 ≠ .ok ∧ LeakS c o.1 l := by
        intro h1
        rcases ih h1 with ⟨op', h2, h3⟩ | ⟨o, h2, h3⟩
        · exact .inl ⟨op', List.mem_cons_of_mem _ h2, h3⟩
        · exact .inr ⟨o, List.mem_cons_of_mem _ h2, h3⟩
      by_cases hok : r = .ok
      · subst hok
        rcases (call_ok hi ha).2.2.2.1 l hl with h1 | h1
        · exact up h1
        · exact .inl ⟨op, List.mem_cons_self, h1⟩
      · by_cases hk : LeakS c op l
        · exact .inr ⟨(op, r), List.mem_cons_self, hok, hk⟩
        · rw [(call_frame hw hi ha hok).isSet l hk] at hl
          exact up hl

/-- Flags are never cleared. -/
theorem call_set_mono [Fp F] {c : Config} {kernels : Int → Int} {s s' : State F} (hw : WF c)
    (hi : Inv c kernels s) {op : Op F} {r : Code} (h : apply s op = .ret r s') {l : SLoc}
    (hl : s.isSet l = true) : s'.isSet l = true := by
  by_cases hok : r = .ok
  · subst hok; exact (call_ok hi h).2.2.1 l hl
  · exact (call_frame hw hi h hok).mono l hl

/-- While inputs are incomplete, provided means flagged. -/
theorem reach_provided [Fp F] {c : Config} {kernels : Int → Int} {quad : Int → F} {h s} (hw : WF c)
    (hr : Reach c kernels quad h s) (hin : s.inputsInit = true) {l : SLoc}
    (hl : Provided c kernels h l) : s.isSet l = true := by
  induction hr with
  | init => obtain ⟨_, h, _⟩ := hl; simp at h
  | @call h s op r s' hr ha ih =>
      have hi := hr.inv hw
      have hin0 := setS_init_mono ha hin
      obtain ⟨op', h1, h2⟩ := hl
      rcases List.mem_cons.1 h1 with h1 | h1
      · injection h1 with h3 h4
        subst h3; subst h4
        exact (call_ok hi ha).2.2.2.2 l hin0 h2
      · exact call_set_mono hw hi ha (ih hin0 ⟨op', h1, h2⟩)

theorem reach_written [Fp F] {c : Config} {kernels : Int → Int} {quad : Int → F} {h s}
    (hr : Reach c kernels quad h s) :
    (∀ l, ((initState c kernels quad).f l).isSome = true → (s.f l).isSome = true) ∧
    (∀ l, ((initState c kernels quad).i l).isSome = true → (s.i l).isSome = true) := by
  induction hr with
  | init => exact ⟨fun _ h => h, fun _ h => h⟩
  | call _ ha ih =>
      have := call_written ha
      exact ⟨fun l hl => this.1 l (ih.1 l hl), fun l hl => this.2 l (ih.2 l hl)⟩

/-- `lambda`, once set, stays flagged. -/
theorem reach_lambda [Fp F] {c : Config} {kernels : Int → Int} {quad : Int → F} {h s} (hw : WF c)
    (hr : Reach c kernels quad h s) (hl : Provided c kernels h .lambda) : s.isSet .lambda = true := by
  induction hr with
  | init => obtain ⟨_, h, _⟩ := hl; simp at h
  | @call h s op r s' hr ha ih =>
      have hi := hr.inv hw
      obtain ⟨op', h1, h2⟩ := hl
      rcases List.mem_cons.1 h1 with h1 | h1
      · injection h1 with h3 h4
        subst h3; subst h4
        cases op' <;> simp [Provides] at h2
        exact lambda_flag ha
      · exact call_set_mono hw hi ha (ih ⟨op', h1, h2⟩)

/-- The coefficients in use of a flagged layer are there, if no coefficient setter failed
half way. -/
theorem reach_coef [Fp F] {c : Config} {kernels : Int → Int} {quad : Int → F} {h s} (hw : WF c)
    (hr : Reach c kernels quad h s) (hq : Quiet h) {i e k n : Int} (hl : s.isSet (.coef i) = true)
    (hn : s.i (.nCoefLayer i) = some n) (he : 0 ≤ e ∧ e < c.nElem) (hk : 0 ≤ k ∧ k < n) :
    (s.f (.coef i e k)).isSome = true := by
  induction hr generalizing n with
  | init => simp [initState] at hl
  | @call h s op r s' hr ha ih =>
      have ih := @ih fun o ho => hq o (List.mem_cons_of_mem _ ho)
      have hi := hr.inv hw
      by_cases hok : r = .ok
      · subst hok
        obtain ⟨h1, h2, _, h4, _⟩ := call_ok hi ha
        rw [h1 _ (by simp)]
        rw [h2 _ rfl] at hn
        by_cases hp : Provides c kernels op (.coef i)
        · cases op <;> simp [Provides] at hp
          · subst hp
            simp [assignI, given] at hn
            subst hn
            simp [assignF, given, he, hk]
          · simp [assignI, given, hp] at hn
            subst hn
            simp [assignF, given, hp, he, hk]
        · have : assignI c op (.nCoefLayer i) = none := by
            cases op <;> simp [Provides] at hp <;> simp [assignI, given, hp]
          rw [this, Option.none_or] at hn
          rcases h4 _ hl with h5 | h5
          · simp [ih h5 hn hk]
          · exact absurd h5 hp
      · have hf := call_frame hw hi ha hok
        obtain ⟨n1, n2, n3⟩ := Leak_none (c := c) (hq (op, r) List.mem_cons_self hok)
        rw [hf.f _ (n1 _)]
        rw [hf.isSet _ (n3 _)] at hl
        rw [hf.i _ (n2 _)] at hn
        exact ih hl hn hk

/-- `varied_layers_updated` drops exactly with an accepted `xrtm_update_varied_layers`. -/
theorem reach_varied [Fp F] {c : Config} {kernels : Int → Int} {quad : Int → F} {h s}
    (hr : Reach c kernels quad h s) :
    s.variedDue = false ↔ (Op.updateVariedLayers, Code.ok) ∈ h := by
  induction hr with
  | init => simp [initState]
  | @call h s op r s' hr ha ih =>
      by_cases hs : IsSet op
      · have hv : s'.variedDue = s.variedDue := by
          rcases apply_set_cases hs ha with ⟨_, h⟩ | ⟨_, h⟩
          · rw [exec_done h, effs_varied]
          · obtain ⟨p, _, _, _, _, _, e⟩ := exec_stop h
            rw [e, effs_varied]
        rw [hv, ih]
        cases op <;> simp [IsSet] at hs ⊢
      · cases op <;> first | exact absurd trivial hs | skip
        · rcases varied_eq s with ⟨_, e⟩ | ⟨_, _, _, e⟩ | ⟨_, hc, e⟩ <;> rw [e] at ha <;>
            simp only [Out.ret.injEq] at ha <;> obtain ⟨rfl, rfl⟩ := ha <;> simp [ih]
        · rename_i solver sols n comp loc
          rcases solve_eq s solver sols n comp loc with ⟨_, e⟩ | ⟨_, _, _, e⟩ | ⟨_, hc, _, e⟩ |
            ⟨_, hc, _, _, e⟩ <;> rw [e] at ha <;>
            simp only [Out.ret.injEq] at ha <;> obtain ⟨rfl, rfl⟩ := ha <;> simp [ih]

end Xrtm
