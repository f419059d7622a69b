import Verif.Proof.StateH

/-! Ranges of the stored inputs. -/

namespace Xrtm

open Spec

variable {F : Type}

attribute [local simp] mem_upto mem_between

/-- Every write of the trace satisfies `P`, given the checks before it. -/
def Writes (P : FLoc → F → Prop) : List (Cmd F) → Prop
  | [] => True
  | .check b _ :: cs => b = false → Writes P cs
  | .wr l x :: cs => P l x ∧ Writes P cs
  | _ :: cs => Writes P cs

theorem Writes_append {P : FLoc → F → Prop} {a b : List (Cmd F)} (ha : Writes P a)
    (hb : Passes a → Writes P b) : Writes P (a ++ b) := by
  induction a with
  | nil => exact hb (by intro b c h; simp at h)
  | cons c cs ih =>
      cases c
      case check b r =>
        intro hbf
        exact ih (ha hbf) fun hp => hb (by
          intro b' c' hm
          rcases List.mem_cons.1 hm with h | h
          · injection h with h1 h2; rw [h1, hbf]
          · exact hp b' c' h)
      case wr l x =>
        exact ⟨ha.1, ih ha.2 fun hp => hb (by
          intro b' c' hm
          rcases List.mem_cons.1 hm with h | h
          · contradiction
          · exact hp b' c' h)⟩
      all_goals
        exact ih ha fun hp => hb (by
          intro b' c' hm
          rcases List.mem_cons.1 hm with h | h
          · contradiction
          · exact hp b' c' h)

theorem Writes_of {P : FLoc → F → Prop} {a : List (Cmd F)} (h : ∀ l x, Cmd.wr l x ∈ a → P l x) :
    Writes P a := by
  induction a with
  | nil => trivial
  | cons c cs ih =>
      have ih := ih fun l x hm => h l x (List.mem_cons_of_mem _ hm)
      cases c
      case check b r => exact fun _ => ih
      case wr l x => exact ⟨h l x List.mem_cons_self, ih⟩
      all_goals exact ih

theorem Writes_flatMap {P : FLoc → F → Prop} {α : Type} {L : List α} {g : α → List (Cmd F)}
    (h : ∀ i ∈ L, Writes P (g i)) : Writes P (L.flatMap g) := by
  induction L with
  | nil => trivial
  | cons a L ih =>
      rw [List.flatMap_cons]
      exact Writes_append (h a List.mem_cons_self)
        fun _ => ih fun i hi => h i (List.mem_cons_of_mem _ hi)

theorem exec_writes {P : FLoc → F → Prop} {cs : List (Cmd F)} (hw : Writes P cs) {s s' : State F}
    (h : exec cs s = .done s' ∨ ∃ r, exec cs s = .stop r s') (l : FLoc) (x : F)
    (hx : s'.f l = some x) : s.f l = some x ∨ P l x := by
  induction cs generalizing s with
  | nil =>
      rcases h with h | ⟨r, h⟩ <;> simp [exec] at h
      subst h; exact .inl hx
  | cons c cs ih =>
      simp only [exec] at h
      cases h1 : step1 s c with
      | ub k => rw [h1] at h; simp at h
      | stop r s1 =>
          rw [h1] at h
          simp at h
          rw [← h, (step1_stop h1).1] at hx
          exact .inl hx
      | done s1 =>
          rw [h1] at h
          have e := step1_done h1
          cases c
          case check b r =>
            have hb : b = false := by
              cases b
              · rfl
              · simp [step1] at h1
            rcases ih (hw hb) h with h2 | h2
            · rw [e] at h2; exact .inl h2
            · exact .inr h2
          case wr l' x' =>
            rcases ih hw.2 h with h2 | h2
            · rw [e] at h2
              simp only [eff, State.setF] at h2
              split at h2
              · rename_i hl
                injection h2 with h2
                subst h2; subst hl
                exact .inr hw.1
              · exact .inl h2
            · exact .inr h2
          case flagIfInit l' =>
            rcases ih hw h with h2 | h2
            · rw [e] at h2
              simp only [eff] at h2
              split at h2 <;> exact .inl h2
            · exact .inr h2
          all_goals
            rcases ih hw h with h2 | h2
            · rw [e] at h2; exact .inl h2
            · exact .inr h2

theorem between_one (i : Int) : between i (i + 1) = [i] := by simp [between, upto]

set_option maxHeartbeats 1000000 in
/-- An accepted call stores values in range. -/
theorem assign_valid [Fp F] {s : State F} {op : Op F} (hp : Passes (setCmds s op)) {cnt} {l : FLoc} {x : F}
    (h : assignF s.cfg s.kernels cnt op l = some x) : ValidF s.cfg l x := by
  unfold Passes at hp
  cases op <;> cases l <;> simp only [assignF, given_eq_some, Option.some.injEq, reduceCtorEq] at h <;>
    first
      | contradiction
      | trivial
      | (simp only [ValidF]
         simp [setCmds, scalarCmds, omegaCmds, ltauCmds, layerCmds, ckIdx, ckKernels] at hp
         first
           | grind
           | (have hp := hp .intErr
              simp [between_one] at hp
              try simp only [IsLayer, outAngle] at h
              first
                | grind
                | (refine ⟨_, ?_, ?_, h.symm⟩ <;> grind)
                | (refine fun _ => ⟨_, ?_, ?_, h.2.symm⟩ <;> grind)))

theorem set_writes [Fp F] {s : State F} (op : Op F)
    (h1 : ∀ c n v, op ≠ .setCoef1 c n v) (h2 : ∀ n v, op ≠ .setCoefN n v) (hl : Leaky op = true) :
    Writes (ValidF s.cfg) (setCmds s op) := by
  cases op <;> simp [Leaky] at hl
  · rename_i t
    simp only [setCmds]
    refine Writes_append (Writes_append (by simp [Writes]) fun _ => ?_) fun _ => by simp [Writes]
    refine Writes_flatMap fun i _ => ?_
    simp [Writes, ValidF]
  · rename_i t
    obtain ⟨X, Y, he, hX, hY⟩ := adjust_split s.cfg (s.fv .mu00)
        ((upto s.cfg.nQuad).map (fun i => s.fv (.qx i)) ++
          (upto s.cfg.nOutThetas).map fun i => Fp.cos (Fp.mul (t i) Fp.d2r)) 0
    simp only [setCmds, he]
    refine Writes_append (Writes_append (Writes_append (Writes_append (Writes_append ?_ ?_) ?_) ?_) ?_) ?_
    · simp [Writes]
    · exact fun _ => Writes_of (by simp)
    · intro hp
      refine Writes_of ?_
      simp
      rintro l x j h0 h1 rfl rfl
      intro _
      have := hp _ _ (List.mem_append_right _ (List.mem_map.2 ⟨j, by simp [h0, h1], rfl⟩))
      simp at this
      exact ⟨t j, this.1, this.2, rfl⟩
    · simp [Writes]
    · intro _
      refine Writes_of ?_
      intro l x hm
      simp only [ite_nil_mem] at hm
      simp at hm
      rcases hm.2 with ⟨rfl, _⟩ | h | h
      · trivial
      · rcases hX _ h with ⟨y, h⟩ | ⟨b, h⟩ <;> simp at h
        rw [h.1]; trivial
      · have := hY _ h; simp at this
    · simp [Writes]
  · rename_i x
    obtain ⟨X, Y, he, hX, hY⟩ := adjust_split s.cfg (Fp.cos (Fp.mul x Fp.d2r))
        ((upto (if s.isSet .umus then s.cfg.nQuad + s.cfg.nOutThetas else s.cfg.nQuad)).map
          fun i => s.fv (.qx i)) 0
    simp only [setCmds, he, List.append_assoc]
    refine Writes_append ?_ ?_
    · simp only [Writes, Bool.or_eq_false_iff]
      intro _ h
      exact ⟨⟨x, h.1, h.2, rfl⟩, trivial⟩
    · intro _
      refine Writes_of ?_
      intro l y hm
      simp only [List.mem_append, ite_nil_mem] at hm
      simp at hm
      rcases hm with ⟨rfl, _⟩ | h | h
      · trivial
      · rcases hX _ h with ⟨y, h⟩ | ⟨b, h⟩ <;> simp at h
        rw [h.1]; trivial
      · have := hY _ h; simp at this
  · exact absurd rfl (h1 _ _ _)
  · exact absurd rfl (h2 _ _)

theorem init_valid [Fp F] {c : Config} {kernels : Int → Int} {quad : Int → F} {l : FLoc} {x : F}
    (h : (initState c kernels quad).f l = some x) : ValidF c l x := by
  cases l <;> simp [initState, ValidF] at h ⊢
  omega

/-- All stored `double` inputs are in range, after any history. -/
theorem reach_valid [Fp F] {c : Config} {kernels : Int → Int} {quad : Int → F} {h s} (hw : WF c)
    (hr : Reach c kernels quad h s) {l : FLoc} {x : F} (hx : s.f l = some x) : ValidF c l x := by
  induction hr with
  | init => exact init_valid hx
  | @call h s op r s' hr ha ih =>
      have hi := hr.inv hw
      by_cases hok : r = .ok
      · subst hok
        by_cases hm : l = .mu0
        · subst hm; trivial
        rw [(call_ok hi ha).1 l hm] at hx
        cases hA : assignF c kernels (fun i => s.i (.nCoefLayer i)) op l with
        | none => rw [hA] at hx; exact ih hx
        | some y =>
            rw [hA] at hx
            simp at hx
            subst hx
            by_cases hs : IsSet op
            · rcases apply_set_cases hs ha with ⟨_, he⟩ | ⟨h, _⟩
              · rw [← hi.cfg]
                rw [← hi.cfg, ← hi.kern] at hA
                exact assign_valid (exec_done_passes he) hA
              · exact absurd rfl h
            · rw [assignF_other hs] at hA; contradiction
      · by_cases hs : IsSet op
        · rcases apply_set_cases hs ha with ⟨h, _⟩ | ⟨_, he⟩
          · exact absurd h hok
          · cases hl : Leaky op with
            | false => rw [exec_stop_tidy (set_tidy s op hl) he] at hx; exact ih hx
            | true =>
                by_cases hc1 : ∃ a b c, op = .setCoef1 a b c
                · obtain ⟨a, b, c, rfl⟩ := hc1
                  have hf := call_frame hw hi ha hok
                  rw [hf.f l (by simp [LeakF])] at hx
                  exact ih hx
                · by_cases hc2 : ∃ a b, op = .setCoefN a b
                  · obtain ⟨a, b, rfl⟩ := hc2
                    have hf := call_frame hw hi ha hok
                    by_cases hl : LeakF c (.setCoefN a b) l
                    · cases l <;> simp [LeakF] at hl
                      trivial
                    · rw [hf.f l hl] at hx
                      exact ih hx
                  · have := exec_writes (set_writes (s := s) op (by grind) (by grind) hl)
                      (.inr ⟨r, he⟩) l x hx
                    rw [hi.cfg] at this
                    exact this.elim ih id
        · rw [(apply_other hs ha).1.f] at hx; exact ih hx

/-- Accepted output levels. -/
theorem levels_facts [Fp F] {s : State F} {lv : Int → Int} (hp : Passes (setCmds s (.setOutLevels lv))) :
    (∀ i, 0 ≤ i → i < s.cfg.nOutLevels → 0 ≤ lv i ∧ lv i ≤ s.cfg.nLayers) ∧
    (∀ i, 0 ≤ i → i + 1 < s.cfg.nOutLevels → lv i < lv (i + 1)) := by
  unfold Passes at hp
  simp [setCmds] at hp
  have hp := hp .intErr
  simp at hp
  obtain ⟨h1, ⟨h2, h3⟩, h4, h5⟩ := hp
  have h4' : ∀ i, 1 ≤ i → i < s.cfg.nOutLevels → lv (i - 1) < lv i ∧ lv i ≤ s.cfg.nLayers := by
    intro i a b
    have := h4 i a b
    omega
  refine ⟨?_, ?_⟩
  · intro i h0
    induction i, h0 using Int.leInduction with
    | base => intro _; exact ⟨h2, h3⟩
    | succ n hn ih =>
        intro hlt
        have h6 := ih (by omega)
        have h7 := h4' (n + 1) (by omega) hlt
        simp at h7
        omega
  · intro i h0 hlt
    have h7 := h4' (i + 1) (by omega) hlt
    simp at h7
    exact h7.1

/-- All stored `int` inputs are in range, after any history. -/
theorem reach_validI [Fp F] {c : Config} {kernels : Int → Int} {quad : Int → F} {h s} (hw : WF c)
    (hr : Reach c kernels quad h s) {l : ILoc} {n : Int} (hx : s.i l = some n) : ValidI c l n := by
  induction hr generalizing n with
  | init =>
      have := hw.layers
      have := hw.coef
      cases l <;> simp [initState, ValidI] at hx ⊢ <;> grind
  | @call h s op r s' hr ha ih =>
      have hi := hr.inv hw
      by_cases hok : r = .ok
      · subst hok
        by_cases hd : l.derived = true
        · cases l <;> simp [ILoc.derived] at hd <;> trivial
        rw [(call_ok hi ha).2.1 l (by simpa using hd)] at hx
        cases hA : assignI c op l with
        | none => rw [hA] at hx; exact ih hx
        | some y =>
            rw [hA] at hx
            simp at hx
            subst hx
            by_cases hs : IsSet op
            · rcases apply_set_cases hs ha with ⟨_, he⟩ | ⟨h, _⟩
              · have hp := exec_done_passes he
                have hcoef := hw.coef
                have hm := lastI_mem ((set_lastI s op l (by simpa using hd)).trans (by rw [hi.cfg]; exact hA))
                cases l <;> try trivial
                · cases op <;> simp only [assignI, Option.some.injEq, reduceCtorEq] at hA
                  subst hA
                  have := hp _ _ (by simp only [setCmds]; exact List.mem_cons_self)
                  simp at this
                  exact this
                · cases op <;> simp only [assignI, given_eq_some, reduceCtorEq] at hA
                  obtain ⟨⟨h0, h1⟩, rfl⟩ := hA
                  have := (levels_facts hp).1
                  rw [hi.cfg] at this
                  exact this _ h0 h1
                · intro _
                  rw [← hi.cfg] at hcoef ⊢
                  exact set_cnt hcoef op hp _ _ hm
              · exact absurd rfl h
            · rw [assignI_other hs] at hA; contradiction
      · have hf := call_frame hw hi ha hok
        by_cases hl : LeakI c op l
        · cases l <;> try trivial
          · cases op <;> simp [LeakI] at hl
          · cases op <;> simp [LeakI] at hl
          · rename_i i
            have hi' := Inv.apply hw hi ha
            intro hly
            obtain ⟨n', hn', hb⟩ := hi'.cnt i hly.1 hly.2
            rw [hn'] at hx
            injection hx with hx
            subst hx
            exact hb
        · rw [hf.i l hl] at hx
          exact ih hx

end Xrtm
