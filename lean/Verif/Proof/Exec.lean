import Verif.Model.State
import Mathlib.Tactic.SplitIfs
import Mathlib.Tactic.Tauto
import Mathlib.Tactic.Linarith

/-! Lemmas about traces (`Cmd`, `exec`). -/

namespace Xrtm

variable {F : Type}

theorem mem_upto {n i : Int} : i ∈ upto n ↔ 0 ≤ i ∧ i < n := by
  unfold upto
  simp only [List.mem_map, List.mem_range]
  constructor
  · rintro ⟨k, hk, rfl⟩
    simp only [Int.ofNat_eq_natCast]
    omega
  · rintro ⟨h0, h1⟩
    exact ⟨i.toNat, by omega, by simp only [Int.ofNat_eq_natCast]; omega⟩

theorem mem_between {lo hi i : Int} : i ∈ between lo hi ↔ lo ≤ i ∧ i < hi := by
  unfold between
  simp only [List.mem_map, mem_upto]
  constructor
  · rintro ⟨k, ⟨h0, h1⟩, rfl⟩
    omega
  · rintro ⟨h0, h1⟩
    exact ⟨i - lo, ⟨by omega, by omega⟩, by omega⟩

theorem inRange_iff {x n : Int} : inRange x n = true ↔ 0 ≤ x ∧ x < n := by
  simp [inRange]

/-- The effect of a step that neither stops nor is undefined. -/
def eff (s : State F) : Cmd F → State F
  | .wr l x => s.setF l x
  | .wrI l n => s.setI l n
  | .flag l => s.setS l
  | .flagIfInit l => if s.inputsInit then s.setS l else s
  | .dep m lo hi => s.setDep ⟨m, lo, hi⟩
  | _ => s

def effs (cs : List (Cmd F)) (s : State F) : State F := cs.foldl eff s

@[simp] theorem effs_nil (s : State F) : effs [] s = s := rfl
@[simp] theorem effs_cons (c : Cmd F) (cs) (s : State F) : effs (c :: cs) s = effs cs (eff s c) := rfl
theorem effs_append (a b : List (Cmd F)) (s : State F) : effs (a ++ b) s = effs b (effs a s) := by
  simp [effs, List.foldl_append]

theorem step1_done {s s' : State F} {c : Cmd F} (h : step1 s c = .done s') : s' = eff s c := by
  cases c <;> simp only [step1] at h <;> repeat' split at h
  all_goals first | contradiction | skip
  all_goals (injection h with h; subst h; simp [eff, *])

theorem step1_stop {s s' : State F} {c : Cmd F} {r : Code} (h : step1 s c = .stop r s') :
    s' = s ∧ ((∃ b, c = .check b r) ∨ ∃ l, c = .needFlag l r) := by
  cases c <;> simp only [step1] at h <;> repeat' split at h
  all_goals first | contradiction | skip
  all_goals (injection h with h1 h2; subst h1; subst h2; simp)

theorem exec_append (a b : List (Cmd F)) (s : State F) :
    exec (a ++ b) s = match exec a s with
      | .done s' => exec b s'
      | r => r := by
  induction a generalizing s with
  | nil => simp [exec]
  | cons c cs ih =>
      simp only [List.cons_append, exec]
      cases h : step1 s c with
      | done s' => simp only [ih]
      | stop => rfl
      | ub => rfl

theorem exec_done {s s' : State F} {cs : List (Cmd F)} (h : exec cs s = .done s') :
    s' = effs cs s := by
  induction cs generalizing s with
  | nil => simp [exec] at h; simp [h]
  | cons c cs ih =>
      simp only [exec] at h
      cases h1 : step1 s c with
      | done s1 =>
          rw [h1] at h
          have := step1_done h1
          subst this
          exact ih h
      | stop => rw [h1] at h; contradiction
      | ub => rw [h1] at h; contradiction

/-- A trace that stops has run a proper prefix and stopped at a check. -/
theorem exec_stop {s s' : State F} {cs : List (Cmd F)} {r : Code} (h : exec cs s = .stop r s') :
    ∃ p c q, cs = p ++ c :: q ∧ exec p s = .done s' ∧ step1 s' c = .stop r s' ∧ s' = effs p s := by
  induction cs generalizing s with
  | nil => simp [exec] at h
  | cons c cs ih =>
      simp only [exec] at h
      cases h1 : step1 s c with
      | done s1 =>
          rw [h1] at h
          obtain ⟨p, c', q, hcs, hp, hc, _⟩ := ih h
          refine ⟨c :: p, c', q, by simp [hcs], ?_, hc, ?_⟩
          · simp [exec, h1, hp]
          · rw [effs_cons, ← step1_done h1]; exact exec_done hp
      | stop r1 s1 =>
          rw [h1] at h
          injection h with e1 e2
          subst e1; subst e2
          have := (step1_stop h1).1
          subst this
          exact ⟨[], c, cs, rfl, rfl, h1, rfl⟩
      | ub => rw [h1] at h; contradiction

/-! ### Frame -/

@[simp] theorem eff_cfg (s : State F) (c : Cmd F) : (eff s c).cfg = s.cfg := by
  cases c <;> simp only [eff] <;> (try split) <;> rfl
@[simp] theorem eff_kernels (s : State F) (c : Cmd F) : (eff s c).kernels = s.kernels := by
  cases c <;> simp only [eff] <;> (try split) <;> rfl
@[simp] theorem eff_init (s : State F) (c : Cmd F) : (eff s c).inputsInit = s.inputsInit := by
  cases c <;> simp only [eff] <;> (try split) <;> rfl
@[simp] theorem eff_varied (s : State F) (c : Cmd F) : (eff s c).variedDue = s.variedDue := by
  cases c <;> simp only [eff] <;> (try split) <;> rfl

@[simp] theorem effs_cfg (cs : List (Cmd F)) (s : State F) : (effs cs s).cfg = s.cfg := by
  induction cs generalizing s with
  | nil => rfl
  | cons c cs ih => simp [ih]
@[simp] theorem effs_kernels (cs : List (Cmd F)) (s : State F) :
    (effs cs s).kernels = s.kernels := by
  induction cs generalizing s with
  | nil => rfl
  | cons c cs ih => simp [ih]
@[simp] theorem effs_init (cs : List (Cmd F)) (s : State F) :
    (effs cs s).inputsInit = s.inputsInit := by
  induction cs generalizing s with
  | nil => rfl
  | cons c cs ih => simp [ih]
@[simp] theorem effs_varied (cs : List (Cmd F)) (s : State F) :
    (effs cs s).variedDue = s.variedDue := by
  induction cs generalizing s with
  | nil => rfl
  | cons c cs ih => simp [ih]

/-! ### Last writes -/

/-- The value of the last write to `l` in a trace. -/
def lastF : List (Cmd F) → FLoc → Option F
  | [], _ => none
  | .wr l' x :: cs, l => (lastF cs l).or (if l = l' then some x else none)
  | _ :: cs, l => lastF cs l

def lastI : List (Cmd F) → ILoc → Option Int
  | [], _ => none
  | .wrI l' x :: cs, l => (lastI cs l).or (if l = l' then some x else none)
  | _ :: cs, l => lastI cs l

/-- Does the trace set the flag `l`? -/
def flags (ini : Bool) : List (Cmd F) → SLoc → Bool
  | [], _ => false
  | .flag l' :: cs, l => decide (l = l') || flags ini cs l
  | .flagIfInit l' :: cs, l => (ini && decide (l = l')) || flags ini cs l
  | _ :: cs, l => flags ini cs l

theorem effs_f (cs : List (Cmd F)) (s : State F) (l : FLoc) :
    (effs cs s).f l = (lastF cs l).or (s.f l) := by
  induction cs generalizing s with
  | nil => simp [lastF]
  | cons c cs ih =>
      rw [effs_cons, ih]
      cases c <;> simp only [lastF, eff] <;> try rfl
      · rename_i l' x
        simp only [State.setF, Option.or_assoc]
        congr 1
        split <;> simp
      · split <;> rfl

theorem effs_i (cs : List (Cmd F)) (s : State F) (l : ILoc) :
    (effs cs s).i l = (lastI cs l).or (s.i l) := by
  induction cs generalizing s with
  | nil => simp [lastI]
  | cons c cs ih =>
      rw [effs_cons, ih]
      cases c <;> simp only [lastI, eff] <;> try rfl
      · rename_i l' x
        simp only [State.setI, Option.or_assoc]
        congr 1
        split <;> simp
      · split <;> rfl

theorem effs_isSet (cs : List (Cmd F)) (s : State F) (l : SLoc) :
    (effs cs s).isSet l = (s.isSet l || flags s.inputsInit cs l) := by
  induction cs generalizing s with
  | nil => simp [flags]
  | cons c cs ih =>
      rw [effs_cons, ih, eff_init]
      cases c <;> simp only [flags, eff] <;> try rfl
      · rename_i l'
        simp only [State.setS]
        by_cases h : l = l' <;> simp [h]
      · rename_i l'
        by_cases hi : s.inputsInit = true
        · by_cases h : l = l' <;> simp [h, hi, State.setS]
        · simp [hi]

theorem lastF_append (a b : List (Cmd F)) (l : FLoc) :
    lastF (a ++ b) l = (lastF b l).or (lastF a l) := by
  induction a with
  | nil => simp [lastF]
  | cons c cs ih => cases c <;> simp [lastF, ih, Option.or_assoc]

theorem lastF_mem {cs : List (Cmd F)} {l : FLoc} {x : F} (h : lastF cs l = some x) :
    Cmd.wr l x ∈ cs := by
  induction cs with
  | nil => simp [lastF] at h
  | cons c cs ih =>
      cases c with
      | wr l' y =>
          simp only [lastF] at h
          rcases Option.or_eq_some_iff.1 h with h | ⟨_, h2⟩
          · exact List.mem_cons_of_mem _ (ih h)
          · clear h
            split at h2
            · rename_i e
              subst e
              injection h2 with h2
              subst h2
              exact List.mem_cons_self
            · contradiction
      | _ => exact List.mem_cons_of_mem _ (ih (by simpa [lastF] using h))

theorem lastF_none {cs : List (Cmd F)} {l : FLoc} : lastF cs l = none ↔ ∀ x, Cmd.wr l x ∉ cs := by
  induction cs with
  | nil => simp [lastF]
  | cons c cs ih =>
      cases c with
      | wr l' y =>
          simp only [lastF, Option.or_eq_none_iff, ih, List.mem_cons, not_or, Cmd.wr.injEq]
          constructor
          · rintro ⟨h1, h2⟩ x
            refine ⟨?_, h1 x⟩
            rintro ⟨e, _⟩
            simp [e] at h2
          · intro h
            refine ⟨fun x => (h x).2, ?_⟩
            have := (h y).1
            simp only [and_true] at this
            simp [this]
      | _ => simp [lastF, ih]

/-- The last write, when all writes to the cell agree. -/
theorem lastF_of {cs : List (Cmd F)} {l : FLoc} {o : Option F}
    (h1 : ∀ x, Cmd.wr l x ∈ cs → o = some x) (h2 : ∀ x, o = some x → Cmd.wr l x ∈ cs) :
    lastF cs l = o := by
  cases h : lastF cs l with
  | some x => exact (h1 x (lastF_mem h)).symm
  | none =>
      rw [lastF_none] at h
      cases o with
      | none => rfl
      | some x => exact absurd (h2 x rfl) (h x)

theorem lastI_mem {cs : List (Cmd F)} {l : ILoc} {x : Int} (h : lastI cs l = some x) :
    Cmd.wrI l x ∈ cs := by
  induction cs with
  | nil => simp [lastI] at h
  | cons c cs ih =>
      cases c with
      | wrI l' y =>
          simp only [lastI] at h
          rcases Option.or_eq_some_iff.1 h with h | ⟨_, h2⟩
          · exact List.mem_cons_of_mem _ (ih h)
          · clear h
            split at h2
            · rename_i e
              subst e
              injection h2 with h2
              subst h2
              exact List.mem_cons_self
            · contradiction
      | _ => exact List.mem_cons_of_mem _ (ih (by simpa [lastI] using h))

theorem lastI_none {cs : List (Cmd F)} {l : ILoc} :
    lastI cs l = none ↔ ∀ x, Cmd.wrI l x ∉ cs := by
  induction cs with
  | nil => simp [lastI]
  | cons c cs ih =>
      cases c with
      | wrI l' y =>
          simp only [lastI, Option.or_eq_none_iff, ih, List.mem_cons, not_or, Cmd.wrI.injEq]
          constructor
          · rintro ⟨h1, h2⟩ x
            refine ⟨?_, h1 x⟩
            rintro ⟨e, _⟩
            simp [e] at h2
          · intro h
            refine ⟨fun x => (h x).2, ?_⟩
            have := (h y).1
            simp only [and_true] at this
            simp [this]
      | _ => simp [lastI, ih]

theorem lastI_of {cs : List (Cmd F)} {l : ILoc} {o : Option Int}
    (h1 : ∀ x, Cmd.wrI l x ∈ cs → o = some x) (h2 : ∀ x, o = some x → Cmd.wrI l x ∈ cs) :
    lastI cs l = o := by
  cases h : lastI cs l with
  | some x => exact (h1 x (lastI_mem h)).symm
  | none =>
      rw [lastI_none] at h
      cases o with
      | none => rfl
      | some x => exact absurd (h2 x rfl) (h x)

theorem flags_iff {ini : Bool} {cs : List (Cmd F)} {l : SLoc} :
    flags ini cs l = true ↔ Cmd.flag l ∈ cs ∨ (ini = true ∧ Cmd.flagIfInit l ∈ cs) := by
  induction cs with
  | nil => simp [flags]
  | cons c cs ih =>
      cases c <;> simp [flags, ih] <;> tauto

theorem lastI_append (a b : List (Cmd F)) (l : ILoc) :
    lastI (a ++ b) l = (lastI b l).or (lastI a l) := by
  induction a with
  | nil => simp [lastI]
  | cons c cs ih => cases c <;> simp [lastI, ih, Option.or_assoc]

theorem flags_mono {ini : Bool} {cs : List (Cmd F)} {l : SLoc} (h : flags ini cs l = true) :
    flags true cs l = true := by
  rw [flags_iff] at h ⊢
  rcases h with h | h
  · exact .inl h
  · exact .inr ⟨rfl, h.2⟩

/-! ### Checks before effects -/

/-- The command can stop a call. -/
def Cmd.canStop : Cmd F → Bool
  | .check .. | .needFlag .. => true
  | _ => false

/-- The command leaves the state alone. -/
def Cmd.pure : Cmd F → Bool
  | .check .. | .needFlag .. | .rd _ | .rdI _ => true
  | _ => false

/-- No check follows an effect. -/
def Tidy : List (Cmd F) → Prop
  | [] => True
  | c :: cs => if c.pure then Tidy cs else ∀ d ∈ cs, d.canStop = false

theorem Tidy_of_noStop {cs : List (Cmd F)} (h : ∀ d ∈ cs, d.canStop = false) : Tidy cs := by
  induction cs with
  | nil => trivial
  | cons c cs ih =>
      unfold Tidy
      split
      · exact ih fun d hd => h d (List.mem_cons_of_mem _ hd)
      · exact fun d hd => h d (List.mem_cons_of_mem _ hd)

theorem Tidy_append {a b : List (Cmd F)} (ha : ∀ d ∈ a, d.pure = true)
    (hb : ∀ d ∈ b, d.canStop = false) : Tidy (a ++ b) := by
  induction a with
  | nil => exact Tidy_of_noStop hb
  | cons c cs ih =>
      rw [List.cons_append, Tidy, if_pos (ha c List.mem_cons_self)]
      exact ih fun d hd => ha d (List.mem_cons_of_mem _ hd)

theorem effs_pure {cs : List (Cmd F)} (h : ∀ d ∈ cs, d.pure = true) (s : State F) :
    effs cs s = s := by
  induction cs generalizing s with
  | nil => rfl
  | cons c cs ih =>
      have hc := h c List.mem_cons_self
      have : eff s c = s := by cases c <;> simp_all [Cmd.pure, eff]
      rw [effs_cons, this]
      exact ih (fun d hd => h d (List.mem_cons_of_mem _ hd)) s

theorem exec_stop_tidy {cs : List (Cmd F)} (ht : Tidy cs) {s s' : State F} {r : Code}
    (h : exec cs s = .stop r s') : s' = s := by
  induction cs generalizing s with
  | nil => simp [exec] at h
  | cons c cs ih =>
      simp only [exec] at h
      cases h1 : step1 s c with
      | done s1 =>
          rw [h1] at h
          have e := step1_done h1
          unfold Tidy at ht
          split at ht
          · rename_i hp
            have : eff s c = s := by cases c <;> simp_all [Cmd.pure, eff]
            rw [this] at e
            subst e
            exact ih ht h
          · obtain ⟨p, c', q, hcs, _, hc, _⟩ := exec_stop h
            have hm : c' ∈ cs := by rw [hcs]; simp
            have := ht c' hm
            rcases (step1_stop hc).2 with ⟨b, hb⟩ | ⟨l, hl⟩
            · rw [hb] at this; simp [Cmd.canStop] at this
            · rw [hl] at this; simp [Cmd.canStop] at this
      | stop r1 s1 =>
          rw [h1] at h
          injection h with e1 e2
          rw [← e2]
          exact (step1_stop h1).1
      | ub => rw [h1] at h; contradiction

/-! ### Absence of undefined behaviour -/

/-- Static safety of a trace started in `s0`: every access after passed checks is
inside the allocation, and (if `u`) every cell read had been written. -/
def Safe (u : Bool) (s0 : State F) : List (Cmd F) → Prop
  | [] => True
  | .check b _ :: cs => b = false → Safe u s0 cs
  | .rd l :: cs => l.valid s0.cfg = true ∧ (u = true → (s0.f l).isSome = true) ∧ Safe u s0 cs
  | .rdI l :: cs => l.valid s0.cfg = true ∧ (u = true → (s0.i l).isSome = true) ∧ Safe u s0 cs
  | .wr l _ :: cs => l.valid s0.cfg = true ∧ Safe u s0 cs
  | .wrI l _ :: cs => l.valid s0.cfg = true ∧ Safe u s0 cs
  | .flag l :: cs => l.valid s0.cfg s0.inputsInit = true ∧ Safe u s0 cs
  | .flagIfInit l :: cs => (s0.inputsInit = true → l.valid s0.cfg s0.inputsInit = true) ∧ Safe u s0 cs
  | .needFlag l _ :: cs => (s0.inputsInit = true → l.valid s0.cfg s0.inputsInit = true) ∧ Safe u s0 cs
  | .dep .. :: cs => Safe u s0 cs

/-- All checks of the trace pass. -/
def Passes (cs : List (Cmd F)) : Prop := ∀ b c, Cmd.check b c ∈ cs → b = false

theorem Safe_append {u : Bool} {s0 : State F} {a b : List (Cmd F)} (ha : Safe u s0 a)
    (hb : Passes a → Safe u s0 b) : Safe u s0 (a ++ b) := by
  induction a with
  | nil => exact hb (by intro b c h; simp at h)
  | cons c cs ih =>
      cases c with
      | check bb r =>
          intro h
          refine ih (ha h) fun hp => hb ?_
          intro b' c' hm
          rcases List.mem_cons.1 hm with h' | h'
          · injection h' with h' _; rw [h', h]
          · exact hp b' c' h'
      | _ =>
          simp only [List.cons_append, Safe] at ha ⊢
          have key : Safe u s0 cs → Safe u s0 (cs ++ b) := fun h => ih h fun hp => hb (by
            intro b' c' hm
            rcases List.mem_cons.1 hm with h' | h'
            · cases h'
            · exact hp b' c' h')
          tauto

/-- Safety of a list of commands whose accesses are all fine on their own. -/
theorem Safe_of_forall {u : Bool} {s0 : State F} {cs : List (Cmd F)} (h : ∀ c ∈ cs, Safe u s0 [c]) :
    Safe u s0 cs := by
  induction cs with
  | nil => trivial
  | cons c cs ih =>
      have := Safe_append (a := [c]) (b := cs) (h c List.mem_cons_self)
        (fun _ => ih fun d hd => h d (List.mem_cons_of_mem _ hd))
      simpa using this

/-- A state that extends `s0`: nothing written is lost. -/
structure Extends (s0 s : State F) : Prop where
  cfg : s.cfg = s0.cfg
  ini : s.inputsInit = s0.inputsInit
  f : ∀ l, (s0.f l).isSome = true → (s.f l).isSome = true
  i : ∀ l, (s0.i l).isSome = true → (s.i l).isSome = true

theorem Extends.eff {s0 s : State F} (h : Extends s0 s) (c : Cmd F) : Extends s0 (eff s c) := by
  refine ⟨by rw [eff_cfg, h.cfg], by rw [eff_init, h.ini], ?_, ?_⟩
  · intro l hl
    have := effs_f [c] s l
    simp only [effs_cons, effs_nil] at this
    rw [this]
    simp [h.f l hl]
  · intro l hl
    have := effs_i [c] s l
    simp only [effs_cons, effs_nil] at this
    rw [this]
    simp [h.i l hl]

theorem exec_ne_ub {u : Bool} {s0 s : State F} {cs : List (Cmd F)} (he : Extends s0 s) (hs : Safe u s0 cs)
    (k : UB) (hk : k = .oob ∨ u = true) : exec cs s ≠ .ub k := by
  induction cs generalizing s with
  | nil => simp [exec]
  | cons c cs ih =>
      simp only [exec]
      cases h1 : step1 s c with
      | done s1 =>
          have e := step1_done h1
          subst e
          refine ih (he.eff c) ?_
          cases c <;> simp only [Safe, step1] at hs h1 <;> try tauto
          rename_i b r
          cases b
          · exact hs rfl
          · simp at h1
      | stop => simp
      | ub k' =>
          intro hkk
          injection hkk with hkk
          subst hkk
          cases c <;> simp only [Safe, step1] at hs h1
          · split at h1 <;> contradiction
          · rw [he.cfg, hs.1] at h1
            rcases hk with hk | hk
            · subst hk; simp at h1; split at h1 <;> cases h1
            · rw [he.f _ (hs.2.1 hk)] at h1; simp at h1
          · rw [he.cfg, hs.1] at h1
            rcases hk with hk | hk
            · subst hk; simp at h1; split at h1 <;> cases h1
            · rw [he.i _ (hs.2.1 hk)] at h1; simp at h1
          · rw [he.cfg, hs.1] at h1; simp at h1
          · rw [he.cfg, hs.1] at h1; simp at h1
          · rw [he.cfg, he.ini, hs.1] at h1; simp at h1
          · rw [he.cfg, he.ini] at h1
            split at h1
            · rename_i hi
              rw [hs.1 hi] at h1; simp at h1
            · contradiction
          · rw [he.cfg, he.ini] at h1
            split at h1
            · rename_i hi
              rw [hs.1 hi] at h1
              simp only [if_true] at h1
              split at h1 <;> contradiction
            · contradiction
          · contradiction

theorem Extends.refl (s : State F) : Extends s s := ⟨rfl, rfl, fun _ h => h, fun _ h => h⟩

/-- When a trace runs through, all its checks passed. -/
theorem exec_done_passes {s s' : State F} {cs : List (Cmd F)} (h : exec cs s = .done s') :
    Passes cs := by
  induction cs generalizing s with
  | nil => intro b c h; simp at h
  | cons c cs ih =>
      simp only [exec] at h
      cases h1 : step1 s c with
      | done s1 =>
          rw [h1] at h
          intro b r hm
          rcases List.mem_cons.1 hm with e | hm
          · subst e
            simp only [step1] at h1
            cases b
            · rfl
            · simp at h1
          · exact ih h b r hm
      | stop => rw [h1] at h; contradiction
      | ub => rw [h1] at h; contradiction

/-- Without `needFlag`, passing all checks and being safe means running through. -/
theorem exec_of_passes {s0 s : State F} {cs : List (Cmd F)} (he : Extends s0 s)
    (hs : Safe true s0 cs)
    (hp : Passes cs) (hn : ∀ l c, Cmd.needFlag l c ∉ cs) : exec cs s = .done (effs cs s) := by
  cases h : exec cs s with
  | done s' => rw [exec_done h]
  | ub k => exact absurd h (exec_ne_ub he hs k (.inr rfl))
  | stop r s' =>
      obtain ⟨p, c, q, hcs, _, hc, _⟩ := exec_stop h
      rcases (step1_stop hc).2 with ⟨b, hb⟩ | ⟨l, hl⟩
      · subst hb
        have := hp b r (by rw [hcs]; simp)
        subst this
        simp [step1] at hc
      · subst hl
        exact absurd (by rw [hcs]; simp) (hn l r)

/-- A trace that stops, stops before a tail without checks. -/
theorem exec_stop_front {s s' : State F} {a b : List (Cmd F)} {r : Code}
    (h : exec (a ++ b) s = .stop r s') (hb : ∀ d ∈ b, d.canStop = false) :
    exec a s = .stop r s' := by
  rw [exec_append] at h
  cases ha : exec a s with
  | done s1 =>
      rw [ha] at h
      obtain ⟨p, c, q, hcs, _, hc, _⟩ := exec_stop h
      have := hb c (by rw [hcs]; simp)
      rcases (step1_stop hc).2 with ⟨b, hb⟩ | ⟨l, hl⟩
      · rw [hb] at this; simp [Cmd.canStop] at this
      · rw [hl] at this; simp [Cmd.canStop] at this
  | stop r1 s1 => rw [ha] at h; exact h
  | ub => rw [ha] at h; contradiction

/-- A trace that begins with checks only: either nothing happened, or the checks passed
and a part of the rest was executed. -/
theorem exec_stop_checks {s s' : State F} {a b : List (Cmd F)} {r : Code}
    (h : exec (a ++ b) s = .stop r s') (ha : ∀ d ∈ a, d.pure = true) :
    s' = s ∨ (Passes a ∧ exec b s = .stop r s') := by
  rw [exec_append] at h
  cases he : exec a s with
  | done s1 =>
      rw [he] at h
      right
      have e := exec_done he
      rw [effs_pure ha] at e
      subst e
      exact ⟨exec_done_passes he, h⟩
  | stop r1 s1 =>
      rw [he] at h
      injection h with h1 h2
      subst h1; subst h2
      left
      obtain ⟨p, c, q, hcs, _, _, e⟩ := exec_stop he
      rw [e]
      exact effs_pure (fun d hd => ha d (by rw [hcs]; simp [hd])) s
  | ub => rw [he] at h; contradiction

end Xrtm
