import Verif.Spec.Work
import Mathlib.Tactic.SplitIfs
import Mathlib.Data.List.Range

namespace Xrtm.Work

open Spec

theorem roundUp_ge (n : Nat) : n ≤ roundUp n := by
  unfold roundUp alignment; split_ifs <;> omega

theorem roundUp_mod (n : Nat) : roundUp n % 16 = 0 := by
  unfold roundUp alignment; split_ifs <;> omega

def Below (c : Cursor) (b : Block) : Prop := b.page < c.page ∨ (b.page = c.page ∧ b.off + b.len ≤ c.byte)

theorem renew_bytes_self (p : Pages) (k n : Nat) : (p.renew k n).bytes k = max p.minPage n := by simp [Pages.renew]

theorem renew_bytes_ne (p : Pages) {k j : Nat} (n : Nat) (h : j ≠ k) : (p.renew k n).bytes j = p.bytes j := by
  simp [Pages.renew, h]

theorem renew_gen_ne (p : Pages) {k j : Nat} (n : Nat) (h : j ≠ k) : (p.renew k n).gen j = p.gen j := by
  simp [Pages.renew, h]

theorem renew_mono {p : Pages} {k n : Nat} (h : p.bytes k ≤ max p.minPage n) (j : Nat) : p.bytes j ≤ (p.renew k n).bytes j := by
  by_cases hk : j = k
  · subst hk; rw [renew_bytes_self]; exact h
  · rw [renew_bytes_ne _ _ hk]

theorem renew_min (p : Pages) (k n : Nat) : (p.renew k n).minPage = p.minPage := rfl

theorem getBlock_iff {p : Pages} {c : Cursor} {n : Nat} {p' : Pages} {c' : Cursor} {b : Block}
    (h : getBlock p c n = .ok (p', c', b)) :
    ∃ i, getCommon p c n = .ok (p', c', i) ∧ b = ⟨c'.page, p'.gen c'.page, i, n⟩ := by
  unfold getBlock at h
  cases hc : getCommon p c n with
  | error e => simp [hc] at h
  | ok r =>
    obtain ⟨p1, c1, i⟩ := r
    simp only [hc, Except.ok.injEq, Prod.mk.injEq] at h
    obtain ⟨rfl, rfl, rfl⟩ := h
    exact ⟨i, rfl, rfl⟩

/-- Everything there is to know about one request. -/
structure Got (p : Pages) (c : Cursor) (n : Nat) (p' : Pages) (c' : Cursor) (b : Block) : Prop where
  page : b.page = c'.page
  gen : b.gen = p'.gen b.page
  len : b.len = n
  stop : c'.byte = b.off + roundUp n
  fits : b.off + n ≤ p'.bytes b.page
  start : (b.page = c.page ∧ b.off = c.byte) ∨ (b.page = c.page + 1 ∧ b.off = 0 ∧ c.page + 1 < 1024)
  min : p'.minPage = p.minPage
  mono : ∀ k, p.bytes k ≤ p'.bytes k
  kept : ∀ k, k ≠ b.page → p'.bytes k = p.bytes k ∧ p'.gen k = p.gen k
  same : b.off ≠ 0 → p' = p

theorem getBlock_got {p : Pages} {c : Cursor} {n : Nat} {p' : Pages} {c' : Cursor} {b : Block}
    (h : getBlock p c n = .ok (p', c', b)) : Got p c n p' c' b := by
  have hr := roundUp_ge n
  obtain ⟨i, hc, hb⟩ := getBlock_iff h
  subst hb
  clear h
  have hm1 : maxPages = 1024 := rfl
  simp only [getCommon] at hc
  split_ifs at hc with h1 h2 h3 h4 h5
  all_goals cases hc
  all_goals
    refine ⟨rfl, rfl, rfl, ?_, ?_, ?_, rfl, ?_, ?_, ?_⟩
  all_goals first
    | exact fun k hk => ⟨renew_bytes_ne _ _ hk, renew_gen_ne _ _ hk⟩
    | exact fun k hk => ⟨rfl, rfl⟩
    | exact fun h => absurd rfl h
    | exact fun _ => rfl
    | exact fun k => le_rfl
    | exact renew_mono (by omega)
    | rfl
    | omega
    | (rw [renew_bytes_self]; omega)
    | (dsimp only; rw [renew_bytes_self]; omega)
    | (dsimp only; omega)

/-- Each copy's cursor is past every block taken from it and from the copies it was made from. -/
def Past : List (Cursor × List Block) → Prop
  | [] => True
  | (c, bs) :: fs => c.page < 1024 ∧ c.byte % 16 = 0 ∧ (∀ b ∈ bs ++ (fs.map Prod.snd).flatten, Below c b) ∧ Past fs

structure ArenaOk (s : Arena) : Prop where
  past : Past s.frames
  apart : s.live.Pairwise Apart
  usable : ∀ b ∈ s.live, Usable s.pages b

theorem init_ok (d q : Nat) : ArenaOk (.init d q) :=
  ⟨by simp [Arena.init, Past, initCursor], by simp [Arena.init, Arena.live], by simp [Arena.init, Arena.live]⟩

theorem Got.below {p c n p' c' b} (g : Got p c n p' c' b) : Below c' b := by
  have hr := roundUp_ge n
  right; exact ⟨g.page, by rw [g.stop, g.len]; omega⟩

theorem Got.old {p c n p' c' b} (g : Got p c n p' c' b) {b0 : Block} (h : Below c b0) : Below c' b0 := by
  unfold Below at *
  have h1 := g.page; have h2 := g.stop; have h3 := g.start
  omega

theorem Got.apart {p c n p' c' b} (g : Got p c n p' c' b) {b0 : Block} (h : Below c b0) : Apart b b0 := by
  unfold Below at *; unfold Apart
  have h3 := g.start
  omega

theorem Got.usable {p c n p' c' b} (g : Got p c n p' c' b) {b0 : Block} (h : Below c b0) (hu : Usable p b0) : Usable p' b0 := by
  obtain ⟨u1, u2, u3⟩ := hu
  refine ⟨u1, u2, fun hl => ?_⟩
  obtain ⟨u4, u5⟩ := u3 hl
  by_cases hp : b0.page = b.page
  · have : p' = p := g.same (by unfold Below at h; have h3 := g.start; omega)
    subst this; exact ⟨u4, u5⟩
  · rw [(g.kept _ hp).1, (g.kept _ hp).2]; exact ⟨u4, u5⟩

theorem step_ok {s s' : Arena} {o : Op} (hs : ArenaOk s) (h : s.step o = .ok s') : ArenaOk s' := by
  obtain ⟨p, fs⟩ := s
  obtain ⟨h1, h2, h3⟩ := hs
  cases o with
  | get n =>
    cases fs with
    | nil => simp [Arena.step] at h
    | cons f fs =>
      obtain ⟨c, bs⟩ := f
      simp only [Arena.step] at h
      cases hg : getBlock p c n with
      | error e => simp [hg] at h
      | ok r =>
        obtain ⟨p', c', b⟩ := r
        simp only [hg, Except.ok.injEq] at h
        subst h
        have g := getBlock_got hg
        obtain ⟨q1, q2, q3, q4⟩ := h1
        simp only [Arena.live, List.map_cons, List.flatten_cons] at h2 h3
        refine ⟨⟨?_, ?_, ?_, q4⟩, ?_, ?_⟩
        · have := g.start; have := g.page; omega
        · have := g.start; have := g.stop; have := roundUp_mod n; omega
        · intro b0 hb
          rcases List.mem_cons.1 hb with rfl | hb
          · exact g.below
          · exact g.old (q3 b0 hb)
        · simp only [Arena.live, List.map_cons, List.flatten_cons, List.cons_append, List.pairwise_cons]
          exact ⟨fun b0 hb => g.apart (q3 b0 hb), h2⟩
        · simp only [Arena.live, List.map_cons, List.flatten_cons, List.cons_append, List.mem_cons]
          rintro b0 (rfl | hb)
          · refine ⟨?_, ?_, fun _ => ⟨g.gen, ?_⟩⟩
            · have := g.start; omega
            · have := g.start; omega
            · have := g.fits; have := g.len; omega
          · exact g.usable (q3 b0 hb) (h3 b0 hb)
  | enter =>
    cases fs with
    | nil => simp [Arena.step] at h
    | cons f fs =>
      obtain ⟨c, bs⟩ := f
      simp only [Arena.step, Except.ok.injEq] at h
      subst h
      obtain ⟨q1, q2, q3, q4⟩ := h1
      refine ⟨⟨q1, q2, ?_, q1, q2, q3, q4⟩, ?_, ?_⟩
      · simpa using q3
      · simpa [Arena.live] using h2
      · simpa [Arena.live] using h3
  | leave =>
    match fs with
    | [] => simp [Arena.step] at h
    | [_] => simp [Arena.step] at h
    | (c, bs) :: f :: fs =>
      simp only [Arena.step, Except.ok.injEq] at h
      subst h
      obtain ⟨q1, q2, q3, q4⟩ := h1
      refine ⟨q4, ?_, ?_⟩
      · simp only [Arena.live, List.map_cons, List.flatten_cons] at h2 ⊢
        exact (List.pairwise_append.1 h2).2.1
      · intro b hb
        exact h3 b (by simp only [Arena.live, List.map_cons, List.flatten_cons] at hb ⊢; exact List.mem_append_right _ hb)

theorem run_ok {s s' : Arena} {os : List Op} (hs : ArenaOk s) (h : s.run os = .ok s') : ArenaOk s' := by
  induction os generalizing s with
  | nil => simp only [Arena.run, Except.ok.injEq] at h; exact h ▸ hs
  | cons o os ih =>
    simp only [Arena.run] at h
    cases ho : s.step o with
    | error e => simp [ho] at h
    | ok s1 => simp only [ho] at h; exact ih (step_ok hs ho) h

/-! Taking the same again. -/

/-- A run of requests from one cursor. -/
def getAll (p : Pages) (c : Cursor) : List Nat → Except Fault (Pages × Cursor × List Block)
  | [] => .ok (p, c, [])
  | n :: ns =>
    match getBlock p c n with
    | .error e => .error e
    | .ok (p', c', b) =>
      match getAll p' c' ns with
      | .error e => .error e
      | .ok (p'', c'', bs) => .ok (p'', c'', b :: bs)

/-- Past the start of its page a cursor leaves that page and the earlier ones alone. -/
theorem getAll_keeps {p : Pages} {c : Cursor} {ns : List Nat} {p' c' bs} (h : getAll p c ns = .ok (p', c', bs)) (hc : c.byte ≠ 0)
    (hn : ∀ n ∈ ns, 0 < n) : p'.minPage = p.minPage ∧ ∀ k ≤ c.page, p'.bytes k = p.bytes k ∧ p'.gen k = p.gen k := by
  induction ns generalizing p c bs with
  | nil => simp only [getAll, Except.ok.injEq, Prod.mk.injEq] at h; obtain ⟨rfl, -, -⟩ := h; simp
  | cons n ns ih =>
    simp only [getAll] at h
    cases hg : getBlock p c n with
    | error e => simp [hg] at h
    | ok r =>
      obtain ⟨p1, c1, b⟩ := r
      simp only [hg] at h
      cases ha : getAll p1 c1 ns with
      | error e => simp [ha] at h
      | ok r =>
        obtain ⟨p2, c2, bs2⟩ := r
        simp only [ha, Except.ok.injEq, Prod.mk.injEq] at h
        obtain ⟨rfl, rfl, rfl⟩ := h
        have g := getBlock_got hg
        have hn0 := hn n (by simp)
        have hr := roundUp_ge n
        have e1 := g.stop; have e2 := g.start; have e3 := g.page
        obtain ⟨m1, m2⟩ := ih ha (by omega) (fun x hx => hn x (by simp [hx]))
        refine ⟨m1.trans g.min, fun k hk => ?_⟩
        obtain ⟨m3, m4⟩ := m2 k (by omega)
        rw [m3, m4]
        by_cases hb : k = b.page
        · have : p1 = p := g.same (by omega)
          rw [this]; exact ⟨rfl, rfl⟩
        · exact g.kept k hb

theorem getBlock_again {p q : Pages} {c : Cursor} {n : Nat} {p' c' b} (h : getBlock p c n = .ok (p', c', b)) (hn : 0 < n)
    (hq : ∀ k ≤ c'.page, q.bytes k = p'.bytes k ∧ q.gen k = p'.gen k) (hm : 0 < p.minPage) :
    getBlock q c n = .ok (q, c', b) := by
  have hr := roundUp_ge n
  obtain ⟨i, hc, hb⟩ := getBlock_iff h
  subst hb
  clear h
  have hm1 : maxPages = 1024 := rfl
  simp only [getCommon] at hc
  split_ifs at hc with h1 h2 h3 h4 h5
  all_goals cases hc
  all_goals
    simp only at hq
  · obtain ⟨e1, e2⟩ := hq c.page le_rfl
    rw [renew_bytes_self] at e1
    simp only [getBlock, getCommon]
    rw [if_neg (by omega), if_neg (by omega), if_neg (by omega)]
    simp [e2, h1.1]
  · obtain ⟨e1, e2⟩ := hq c.page le_rfl
    rw [renew_bytes_self] at e1
    simp only [getBlock, getCommon]
    rw [if_neg (by omega), if_neg (by omega), if_neg (by omega)]
    simp [e2, h2.1]
  · obtain ⟨e1, e2⟩ := hq (c.page + 1) le_rfl
    obtain ⟨e3, e4⟩ := hq c.page (by omega)
    rw [renew_bytes_self] at e1
    rw [renew_bytes_ne _ _ (by omega)] at e3
    simp only [getBlock, getCommon]
    rw [if_neg (by omega), if_neg (by omega), if_pos (by omega), if_neg h4, if_neg (by omega)]
    simp only [e2]
  · obtain ⟨e1, e2⟩ := hq (c.page + 1) le_rfl
    obtain ⟨e3, e4⟩ := hq c.page (by omega)
    simp only [getBlock, getCommon]
    rw [if_neg (by omega), if_neg (by omega), if_pos (by omega), if_neg h4, if_neg (by omega)]
    simp only [e2]
  · obtain ⟨e1, e2⟩ := hq c.page le_rfl
    simp only [getBlock, getCommon]
    rw [if_neg (by omega), if_neg (by omega), if_neg (by omega)]
    simp [e2]

theorem getAll_again {p q : Pages} {c : Cursor} {ns : List Nat} {p' c' bs} (h : getAll p c ns = .ok (p', c', bs))
    (hn : ∀ n ∈ ns, 0 < n) (hm : 0 < p.minPage) (hq : ∀ k ≤ c'.page, q.bytes k = p'.bytes k ∧ q.gen k = p'.gen k) :
    c.page ≤ c'.page ∧ getAll q c ns = .ok (q, c', bs) := by
  induction ns generalizing p c bs with
  | nil => simp only [getAll, Except.ok.injEq, Prod.mk.injEq] at h ⊢; obtain ⟨rfl, rfl, rfl⟩ := h; simp
  | cons n ns ih =>
    simp only [getAll] at h
    cases hg : getBlock p c n with
    | error e => simp [hg] at h
    | ok r =>
      obtain ⟨p1, c1, b⟩ := r
      simp only [hg] at h
      cases ha : getAll p1 c1 ns with
      | error e => simp [ha] at h
      | ok r =>
        obtain ⟨p2, c2, bs2⟩ := r
        simp only [ha, Except.ok.injEq, Prod.mk.injEq] at h
        obtain ⟨rfl, rfl, rfl⟩ := h
        have g := getBlock_got hg
        have hn0 := hn n (by simp)
        have hr := roundUp_ge n
        have e1 := g.stop; have e2 := g.start; have e3 := g.page
        have hn' : ∀ x ∈ ns, 0 < x := fun x hx => hn x (by simp [hx])
        obtain ⟨-, m2⟩ := getAll_keeps ha (by omega) hn'
        obtain ⟨m3, m4⟩ := ih ha hn' (by rw [g.min]; exact hm)
        refine ⟨by omega, ?_⟩
        have : getBlock q c n = .ok (q, c1, b) := by
          refine getBlock_again hg hn0 (fun k hk => ?_) hm
          obtain ⟨r1, r2⟩ := hq k (by omega)
          obtain ⟨r3, r4⟩ := m2 k hk
          exact ⟨r1.trans r3, r2.trans r4⟩
        simp only [getAll, this, m4]

end Xrtm.Work
