import Verif.Proof.StackWalks

/-!
# The chain of stacks: filling it
-/

namespace Xrtm.Stacks

open Spec

/-- No layer of the stack is due. -/
def Still (s : Store) (st : Stack) : Prop := ∀ l, st.i1 ≤ l → l ≤ st.i2 → s.due l = false

structure SInv (n : Nat) (s : Store) : Prop where
  sound : ∀ c, s.chain = some c → Sound n c ∧ n ≤ c.length
  holds : ∀ c, s.chain = some c → ∀ (k : Nat) (st : Stack), c[k]? = some st → (k < n ∨ s.fresh k = false) → Still s st →
    s.held k = some (current s.ver st)
  /-- Before there is a chain every layer is due. -/
  none : s.chain = none → ∀ l, s.due l = true

/-- Since the last update there has been a solution. -/
def Built (n : Nat) (s : Store) : Prop := ∀ c, s.chain = some c → ∀ k, n ≤ k → k < c.length → s.fresh k = false

theorem current_join {ver : Nat → Nat} {sp sq st : Stack} (h1 : sp.i1 = st.i1) (h2 : sp.i2 + 1 = sq.i1)
    (h3 : sq.i2 = st.i2) (hp : sp.i1 ≤ sp.i2) (hq : sq.i1 ≤ sq.i2) :
    current ver sp ++ current ver sq = current ver st := by
  unfold current
  rw [← List.map_append, h1, h3]
  congr 1
  rw [show sq.i1 = st.i1 + (sp.i2 + 1 - st.i1) by omega, List.range'_append_1]
  congr 1
  omega

structure FInv (n : Nat) (s : Store) (c : Chain) (d : Nat) (f : Fill) : Prop where
  done : ∀ (k : Nat) (st : Stack), k < d → c[k]? = some st → f.held k = some (current s.ver st)
  rest : ∀ k, d ≤ k → f.held k = s.held k
  touched : ∀ (k : Nat) (st : Stack), k < d → c[k]? = some st → f.touched k = false → Still s st

theorem fill_step {n : Nat} {s : Store} {c : Chain} (hi : SInv n s) (hc : s.chain = some c) {d : Nat} (hd : d < c.length)
    {f : Fill} (h : FInv n s c d f) : FInv n s c (d + 1) (fillStep s n c f d) := by
  have hs := (hi.sound c hc).1
  obtain ⟨st, hst⟩ : ∃ st, c[d]? = some st := ⟨_, List.getElem?_eq_getElem hd⟩
  have hrest : ∀ k, k ≠ d → (fillStep s n c f d).held k = f.held k := by
    intro k hk
    unfold fillStep
    dsimp only
    rw [if_neg (fun h => hk h.1)]
  have htou : ∀ k, k ≠ d → (fillStep s n c f d).touched k = f.touched k := by
    intro k hk
    unfold fillStep
    dsimp only
    rw [if_neg hk]
  have htd : (fillStep s n c f d).touched d = computes s n c f d := by
    unfold fillStep
    dsimp only
    rw [if_pos rfl]
  have key : (fillStep s n c f d).held d = some (current s.ver st) ∧
      ((fillStep s n c f d).touched d = false → Still s st) := by
    rw [htd]
    by_cases hdn : d < n
    · have hsd := hs.single d hdn
      rw [hst] at hsd
      cases hsd
      have hcomp : computes s n c f d = s.due d := by unfold computes; rw [if_pos hdn]
      have hstill : s.due d = false → Still s ⟨d, d, none⟩ := fun h l h1 h2 => by
        dsimp only at h1 h2
        rw [show l = d by omega]; exact h
      refine ⟨?_, fun h => hstill (by rw [← hcomp]; exact h)⟩
      unfold fillStep
      dsimp only
      rw [hcomp]
      cases hdu : s.due d with
      | true =>
        rw [if_pos ⟨rfl, rfl⟩, if_pos hdn]
        unfold current
        simp
      | false =>
        rw [if_neg (by rintro ⟨_, h⟩; cases h), h.rest d (Nat.le_refl _)]
        exact hi.holds c hc d _ hst (Or.inl hdn) (hstill hdu)
    · obtain ⟨p, q, sp, sq, a1, a2, a3, a4, a5, a6, a7, a8⟩ := hs.joined d st (by omega) hst
      have e1 := hs.ends _ _ a4
      have e2 := hs.ends _ _ a5
      have hcomp : computes s n c f d = (f.touched p || f.touched q || s.fresh d) := by
        unfold computes
        rw [if_neg hdn, getD_of hst, a1]
      have hstill : computes s n c f d = false → Still s st ∧ s.fresh d = false := by
        intro h0
        rw [hcomp] at h0
        simp only [Bool.or_eq_false_iff] at h0
        refine ⟨fun l h1 h2 => ?_, h0.2⟩
        by_cases hl : l ≤ sp.i2
        · exact h.touched p sp a2 a4 h0.1.1 l (by omega) hl
        · exact h.touched q sq a3 a5 h0.1.2 l (by omega) (by omega)
      refine ⟨?_, fun h0 => (hstill h0).1⟩
      unfold fillStep
      dsimp only
      cases hcv : computes s n c f d with
      | true =>
        rw [if_pos ⟨rfl, rfl⟩, if_neg hdn, getD_of hst, a1]
        dsimp only
        rw [h.done p sp a2 a4, h.done q sq a3 a5]
        show some _ = some _
        rw [current_join a6 a7 a8 e1.1 e2.1]
      | false =>
        rw [if_neg (by rintro ⟨_, h⟩; cases h), h.rest d (Nat.le_refl _)]
        exact hi.holds c hc d st hst (Or.inr (hstill hcv).2) (hstill hcv).1
  refine ⟨fun k st' hk hk' => ?_, fun k hk => ?_, fun k st' hk hk' => ?_⟩
  · by_cases hkd : k = d
    · subst hkd; rw [hst] at hk'; cases hk'; exact key.1
    · rw [hrest k hkd]; exact h.done k st' (by omega) hk'
  · rw [hrest k (by omega)]; exact h.rest k (by omega)
  · by_cases hkd : k = d
    · subst hkd; rw [hst] at hk'; cases hk'; exact key.2
    · rw [htou k hkd]; exact h.touched k st' (by omega) hk'

theorem fill_fold {n : Nat} {s : Store} {c : Chain} (hi : SInv n s) (hc : s.chain = some c) : ∀ d, d ≤ c.length →
    FInv n s c d ((List.range d).foldl (fillStep s n c) ⟨fun _ => false, s.held⟩) := by
  intro d
  induction d with
  | zero => intro _; exact ⟨fun k st hk => by omega, fun k _ => rfl, fun k st hk => by omega⟩
  | succ d ih =>
    intro hd
    rw [List.range_succ, List.foldl_append]
    exact fill_step hi hc (by omega) (ih (by omega))

theorem build_ok {n : Nat} {s : Store} (hi : SInv n s) : UpToDate (s.build n) ∧ SInv n (s.build n) ∧ Built n (s.build n) := by
  cases hc : s.chain with
  | none =>
    have he : s.build n = s := by unfold Store.build; rw [hc]
    rw [he]
    exact ⟨fun c h => (by rw [hc] at h; cases h), hi, fun c h => (by rw [hc] at h; cases h)⟩
  | some c =>
    have hf := fill_fold hi hc c.length (Nat.le_refl _)
    have he : s.build n = { s with
      held := ((List.range c.length).foldl (fillStep s n c) ⟨fun _ => false, s.held⟩).held
      fresh := fun k => if n ≤ k ∧ k < c.length then false else s.fresh k
      due := fun l => if l < n then false else s.due l } := by unfold Store.build; rw [hc]
    have hup : UpToDate (s.build n) := by
      intro c' hc' k st hk
      rw [he] at hc' ⊢
      dsimp only at hc' ⊢
      rw [hc] at hc'; cases hc'
      exact hf.done k st (lt_of_get hk) hk
    refine ⟨hup, ⟨fun c' hc' => hi.sound c' (by rw [he] at hc'; exact hc'), fun c' hc' k st hk _ _ => hup c' hc' k st hk,
      fun hn => ?_⟩, fun c' hc' k h1 h2 => ?_⟩
    · rw [he] at hn; dsimp only at hn; rw [hc] at hn; cases hn
    · rw [he] at hc' ⊢
      dsimp only at hc' ⊢
      rw [hc] at hc'; cases hc'
      rw [if_pos ⟨h1, h2⟩]

theorem change_ok {n : Nat} {s : Store} (hi : SInv n s) (i : Nat) : SInv n (s.change i) := by
  refine ⟨hi.sound, fun c hc k st hk hkf hs => ?_, fun h l => ?_⟩
  · have hstill : Still s st := fun l h1 h2 => by
      have := hs l h1 h2
      simp only [Store.change, Bool.or_eq_false_iff] at this
      exact this.2
    have := hi.holds c hc k st hk hkf hstill
    show s.held k = _
    rw [this]
    unfold current
    congr 1
    refine List.map_congr_left fun l hl => ?_
    rw [List.mem_range'_1] at hl
    have := hs l hl.1 (by omega)
    simp only [Store.change, Bool.or_eq_false_iff, beq_eq_false_iff_ne] at this
    show (l, s.ver l) = (l, if l = i then _ else _)
    rw [if_neg this.1]
  · have := hi.none h l
    simp only [Store.change, this, Bool.or_true]

theorem change_built {n : Nat} {s : Store} (h : Built n s) (i : Nat) : Built n (s.change i) := h

theorem replace_ok {n : Nat} {s : Store} (hi : SInv n s) (hb : Built n s) {new : Chain} (hs : Sound n new)
    (hn : n ≤ new.length) : SInv n (s.replace new) := by
  refine ⟨fun c hc => ?_, fun c hc k st hk hkf hst => ?_, fun h => by cases h⟩
  · cases hc; exact ⟨hs, hn⟩
  · have : c = new := by cases hc; rfl
    subst this
    have hge := hs.ends k st hk
    cases hch : s.chain with
    | none =>
      have := hst st.i1 (Nat.le_refl _) hge.1
      have h2 := hi.none hch st.i1
      change s.due st.i1 = false at this
      rw [h2] at this; cases this
    | some old =>
      have hso := (hi.sound old hch).1
      have htake : takeOver s.chain c k = find old st.i1 st.i2 := by
        unfold takeOver; rw [hch]; dsimp only; rw [getD_of hk]
      show (match takeOver s.chain c k with | some ii => s.held ii | none => none) = _
      rw [htake]
      cases hf : find old st.i1 st.i2 with
      | none =>
        exfalso
        rcases hkf with hkn | hfr
        · have h1 := hs.single k hkn
          rw [hk] at h1; cases h1
          have := (find_iff hso k k k).mpr ⟨_, hso.single k hkn, rfl, rfl⟩
          dsimp only at hf
          rw [this] at hf; cases hf
        · have : (takeOver s.chain c k).isNone = false := hfr
          rw [htake, hf] at this; cases this
      | some ii =>
        obtain ⟨st', f1, f2, f3⟩ := (find_iff hso _ _ ii).mp hf
        dsimp only
        have hcur : current s.ver st = current s.ver st' := by unfold current; rw [f2, f3]
        show s.held ii = some (current s.ver st)
        rw [hcur]
        refine hi.holds old hch ii st' f1 ?_ fun l h1 h2 => hst l (by omega) (by omega)
        by_cases hin : ii < n
        · exact Or.inl hin
        · exact Or.inr (hb old hch ii (by omega) (lt_of_get f1))

theorem start_ok (n : Nat) : SInv n Store.start ∧ Built n Store.start :=
  ⟨⟨fun c h => (by cases h), fun c h => (by cases h), fun _ _ => rfl⟩, fun c h => (by cases h)⟩

theorem run_ok (n : Nat) (hn : n * n ≤ n + rounds n) : ∀ (ops : List Op) (b : Bool) (s : Store), SInv n s →
    (b = true → Built n s) → Patient b ops → ∃ s', Store.run n s (ops ++ [.solve]) = .ok s' ∧ UpToDate s' := by
  intro ops
  induction ops with
  | nil =>
    intro b s hi _ _
    exact ⟨_, rfl, (build_ok hi).1⟩
  | cons op ops ih =>
    intro b s hi hb hp
    cases op with
    | change i =>
      obtain ⟨s', h1, h2⟩ := ih b (s.change i) (change_ok hi i) (fun h => change_built (hb h) i) hp
      exact ⟨s', h1, h2⟩
    | solve =>
      obtain ⟨_, h2, h3⟩ := build_ok hi
      exact ih true _ h2 (fun _ => h3) hp
    | update m lay =>
      obtain ⟨c, h1, h2, h3, _⟩ := buildChain_ok n m lay (rounds n) hn
      obtain ⟨s', h4, h5⟩ := ih false (s.replace c) (replace_ok hi (hb hp.1) h2 h3) (fun h => by cases h) hp.2
      refine ⟨s', ?_, h5⟩
      rw [List.cons_append]
      unfold Store.run
      simp only [Store.step, h1]
      exact h4

end Xrtm.Stacks
