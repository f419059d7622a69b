import Verif.Proof.Work
import Verif.Proof.WorkLists
import Verif.Props.Alloc

/-!
# C20 and C39: scratch memory
-/

namespace Xrtm.Work

open Spec

/-! ## C20 -/

/-- The blocks in use never share a byte, however the routines that took them are nested, and each still lies in the page it was cut
from, on a multiple of sixteen: pages grown by a callee are never ones the callers hold. -/
theorem C20_live {d q : Nat} {os : List Op} {s : Arena} (h : (Arena.init d q).run os = .ok s) :
    s.live.Pairwise Apart ∧ ∀ b ∈ s.live, Usable s.pages b :=
  ⟨(run_ok (init_ok d q) h).apart, (run_ok (init_ok d q) h).usable⟩

/-- Three copies deep, the innermost moving to a second page; the callee leaves and the caller takes that page, grown. -/
example : ∃ s, (Arena.init 1 2).run [.get 24, .enter, .get 100, .leave, .get 1000, .enter, .get 8] = .ok s ∧ s.live.length = 3 ∧
    s.live.map Block.page = [2, 1, 0] := by
  refine ⟨_, rfl, ?_, ?_⟩ <;> decide +kernel

/-- A block has the bytes asked for, right after the last one or at the start of the next page. -/
theorem C20_given {p : Pages} {c : Cursor} {n : Nat} {p' : Pages} {c' : Cursor} {b : Block} (h : getBlock p c n = .ok (p', c', b)) :
    b.len = n ∧ b.page = c'.page ∧ ((b.page = c.page ∧ b.off = c.byte) ∨ (b.page = c.page + 1 ∧ b.off = 0)) ∧
      b.off + n ≤ c'.byte ∧ c'.byte < b.off + n + 16 ∧ b.gen = p'.gen b.page ∧ b.off + n ≤ p'.bytes b.page := by
  have g := getBlock_got h
  have hr := roundUp_ge n
  have hr' : roundUp n < n + 16 := by unfold roundUp alignment; split_ifs <;> omega
  have := g.start; have := g.stop
  exact ⟨g.len, g.page, by omega, by omega, by omega, g.gen, g.fits⟩

example : getBlock (initPages 1 2) ⟨0, 0⟩ 40 = .ok ((initPages 1 2).renew 0 48, ⟨0, 48⟩, ⟨0, 1, 0, 40⟩) := rfl

/-- The process is ended only for want of a page: at the last one, with no room left on it. -/
theorem C20_exit {p : Pages} {c : Cursor} {n : Nat} {e : Fault} :
    getBlock p c n = .error e ↔
      e = .pages ∧ 1023 ≤ c.page ∧ p.bytes c.page < c.byte + roundUp n ∧ c.byte ≠ 0 := by
  have hm : maxPages = 1024 := rfl
  constructor
  · intro h
    unfold getBlock at h
    cases hc : getCommon p c n with
    | ok r => simp [hc] at h
    | error e' =>
      simp only [hc] at h
      cases h
      simp only [getCommon] at hc
      split_ifs at hc
      cases hc
      refine ⟨rfl, by omega, by omega, by omega⟩
  · rintro ⟨rfl, h1, h2, h3⟩
    have : getCommon p c n = .error .pages := by
      simp only [getCommon]
      rw [if_neg (by omega), if_neg (by omega), if_pos (by omega), if_pos (by omega)]
    simp only [getBlock, this]

example : getBlock ⟨64, fun _ => 64, fun _ => 1⟩ ⟨1023, 64⟩ 8 = .error .pages := by
  rw [C20_exit]; refine ⟨rfl, ?_, ?_, ?_⟩ <;> decide

/-- A table of rows is so many blocks, one for each flag that is set. -/
theorem C20_rows {p : Pages} {c : Cursor} {row : Nat} {flags : List Bool} {p' c' rows} (h : getRows p c row flags = .ok (p', c', rows))
    (bs : List Block) (fs : List (Cursor × List Block)) :
    rows.map Option.isSome = flags ∧
      (⟨p, (c, bs) :: fs⟩ : Arena).run (List.replicate (flags.count true) (.get row)) =
        .ok ⟨p', (c', (rows.filterMap id).reverse ++ bs) :: fs⟩ := by
  induction flags generalizing p c bs rows with
  | nil => simp only [getRows, Except.ok.injEq, Prod.mk.injEq] at h; obtain ⟨rfl, rfl, rfl⟩ := h; simp [Arena.run]
  | cons f flags ih =>
    cases f with
    | false =>
      simp only [getRows, Bool.false_eq_true, if_false] at h
      cases hr : getRows p c row flags with
      | error e => simp [hr] at h
      | ok r =>
        obtain ⟨p2, c2, bs2⟩ := r
        simp only [hr, Except.ok.injEq, Prod.mk.injEq] at h
        obtain ⟨rfl, rfl, rfl⟩ := h
        obtain ⟨h1, h2⟩ := ih hr bs
        exact ⟨by simp [h1], by simpa using h2⟩
    | true =>
      simp only [getRows, if_true] at h
      cases hg : getBlock p c row with
      | error e => simp [hg] at h
      | ok r =>
        obtain ⟨p1, c1, b⟩ := r
        simp only [hg] at h
        cases hr : getRows p1 c1 row flags with
        | error e => simp [hr] at h
        | ok r =>
          obtain ⟨p2, c2, bs2⟩ := r
          simp only [hr, Except.ok.injEq, Prod.mk.injEq] at h
          obtain ⟨rfl, rfl, rfl⟩ := h
          obtain ⟨h1, h2⟩ := ih hr (b :: bs)
          refine ⟨by simp [h1], ?_⟩
          rw [show (true :: flags).count true = flags.count true + 1 by simp, List.replicate_succ]
          simp only [Arena.run, Arena.step, hg]
          simpa using h2

example : ∃ r, getRows (initPages 1 2) ⟨0, 16⟩ 8 [true, false, true] = .ok r ∧ r.2.2.map Option.isSome = [true, false, true] := ⟨_, rfl, rfl⟩

/-- Where pages lie apart in memory so do the blocks in use, and they are aligned where the pages are. -/
theorem C20_addresses {d q : Nat} {os : List Op} {s : Arena} (h : (Arena.init d q).run os = .ok s) (addr : Nat → Nat → Nat)
    (hd : ∀ k k', k ≠ k' → addr k (s.pages.gen k) + s.pages.bytes k ≤ addr k' (s.pages.gen k') ∨
      addr k' (s.pages.gen k') + s.pages.bytes k' ≤ addr k (s.pages.gen k))
    (ha : ∀ k, addr k (s.pages.gen k) % 16 = 0) :
    (s.live.filter fun b => b.len ≠ 0).Pairwise (fun b b' =>
      addr b.page b.gen + b.off + b.len ≤ addr b'.page b'.gen + b'.off ∨ addr b'.page b'.gen + b'.off + b'.len ≤ addr b.page b.gen + b.off) ∧
    ∀ b ∈ s.live, b.len ≠ 0 → (addr b.page b.gen + b.off) % 16 = 0 := by
  obtain ⟨h1, h2⟩ := C20_live h
  constructor
  · have h1' := h1.filter (fun b => decide (b.len ≠ 0))
    refine h1'.imp_of_mem ?_
    intro b b' hb hb' hap
    simp only [List.mem_filter, decide_eq_true_eq] at hb hb'
    obtain ⟨-, -, u⟩ := h2 b hb.1
    obtain ⟨-, -, u'⟩ := h2 b' hb'.1
    obtain ⟨u1, u2⟩ := u hb.2
    obtain ⟨u1', u2'⟩ := u' hb'.2
    by_cases hp : b.page = b'.page
    · rw [u1, u1', hp]
      rcases hap with hap | hap | hap
      · exact absurd hp hap
      · left; omega
      · right; omega
    · rw [u1, u1']
      rcases hd _ _ hp with hdd | hdd
      · left; omega
      · right; omega
  · intro b hb hl
    obtain ⟨-, u2, u⟩ := h2 b hb
    obtain ⟨u1, -⟩ := u hl
    have := ha b.page
    rw [u1]; omega

example : ∃ s, (Arena.init 1 2).run [.get 24, .get 100] = .ok s ∧
    (∀ k k', k ≠ k' → 0x100000 * k + s.pages.bytes k ≤ 0x100000 * k' ∨ 0x100000 * k' + s.pages.bytes k' ≤ 0x100000 * k) ∧
    ∀ k, 0x100000 * k % 16 = 0 := by
  refine ⟨_, rfl, ?_, ?_⟩
  · have hb : ∀ k, (((initPages 1 2).renew 0 32).renew 1 112).bytes k ≤ 112 := by
      intro k
      simp only [Pages.renew, initPages, Function.update_apply]
      split_ifs <;> omega
    intro k k' hk
    have h1 := hb k; have h2 := hb k'
    simp only at h1 h2 ⊢
    show 0x100000 * k + (((initPages 1 2).renew 0 32).renew 1 112).bytes k ≤ 0x100000 * k' ∨
      0x100000 * k' + (((initPages 1 2).renew 0 32).renew 1 112).bytes k' ≤ 0x100000 * k
    omega
  · intro k; omega

/-- The bytes asked for hold the array: `get_work_x2` and the rest lay it out inside the block. -/
theorem C20_array {dimen : List Nat} (hne : dimen ≠ []) (hp : ∀ x ∈ dimen, 0 < x) {size : Nat} {p p' : Pages} {c c' : Cursor} {b : Block}
    (h : getBlock p c (Alloc.memLength dimen size) = .ok (p', c', b)) (page : Nat) :
    ∃ m D, Alloc.fromMem dimen size (page + b.off) b.len = .ok m ∧ Alloc.IsArray m dimen size (page + b.off) D ∧
      page + b.off ≤ D ∧ D + size * dimen.prod ≤ page + p'.bytes b.page := by
  have g := getBlock_got h
  obtain ⟨m, D, h1, h2, h3, h4, h5⟩ := Alloc.C21_from_mem hne hp (base := page + b.off) (len := b.len) (le_of_eq g.len.symm)
  refine ⟨m, D, h1, h2, ?_, ?_⟩
  · exact h2.after
  · have := g.fits; have := g.len; omega

example : ∃ r, getBlock (initPages 1 2) ⟨0, 16⟩ (Alloc.memLength [2, 3] 8) = .ok r ∧ r.2.2 = ⟨1, 1, 0, 64⟩ := ⟨_, rfl, rfl⟩

/-- The same requests from the same place give the same blocks and call `malloc` no more. -/
theorem C20_again {p : Pages} {c : Cursor} {ns : List Nat} {p' c' bs} (h : getAll p c ns = .ok (p', c', bs)) (hn : ∀ n ∈ ns, 0 < n)
    (hm : 0 < p.minPage) : getAll p' c ns = .ok (p', c', bs) :=
  (getAll_again h hn hm (fun _ _ => ⟨rfl, rfl⟩)).2

example : ∃ p' c' bs, getAll (initPages 1 2) initCursor [24, 100, 8] = .ok (p', c', bs) ∧ bs.map Block.page = [0, 1, 2] ∧
    0 < (initPages 1 2).minPage := ⟨_, _, _, rfl, rfl, by decide⟩

/-- Copies used side by side and not one inside the other are given the same memory. -/
theorem C20_side_by_side {p : Pages} {c : Cursor} {n : Nat} {p' c' b} (h : getBlock p c n = .ok (p', c', b)) (hn : 0 < n)
    (hm : 0 < p.minPage) : getBlock p' c n = .ok (p', c', b) ∧ ¬ Apart b b := by
  refine ⟨getBlock_again h hn (fun _ _ => ⟨rfl, rfl⟩) hm, ?_⟩
  have g := getBlock_got h
  have := g.len
  unfold Apart; omega

example : ∃ r, getBlock (initPages 1 2) initCursor 24 = .ok r ∧ 0 < (initPages 1 2).minPage := ⟨_, rfl, by decide⟩

/-! ## C39 -/

/-- The states met: from `work_init` by requests as the code makes them. -/
def Met (w : Sizes) (s : Store) : Prop := ∃ os, (∀ o ∈ os, Proper w o) ∧ (Store.init w).run os = .ok s

theorem Met.ok {w s} (h : Met w s) : StoreOk s ∧ s.lists.w = w := by
  obtain ⟨os, h1, h2⟩ := h
  obtain ⟨h3, h4⟩ := store_run (store_init_ok w) h1 h2
  exact ⟨h3, h4.ext.w⟩

/-- A request is always met: no list is written past its room, no pointer read that was not set. -/
theorem C39_served {w : Sizes} {s : Store} (hs : Met w s) (hne : s.frames ≠ []) {o : LOp} (ho : Proper w o)
    (hl : o = .leave → 2 ≤ s.frames.length) : ∃ s', s.step o = .ok s' := by
  obtain ⟨ok, hw⟩ := hs.ok
  obtain ⟨s', h, -⟩ := store_step ok hne (hw ▸ ho) hl
  exact ⟨s', h⟩

/-- Everything in use is different from everything else in use, and of the size of its type, whichever of the three routines first made
it. -/
theorem C39_distinct {w : Sizes} {s : Store} (hs : Met w s) : (inUse s).Nodup ∧ ∀ h ∈ (s.frames.map Prod.snd).flatten, Sized s.lists h :=
  ⟨hs.ok.1.nodup, hs.ok.1.sized⟩

/-- Two arrays' worth of tables, one in a callee with only its second slot asked for. -/
def sample : List LOp := [.get1 .DX, .get2 .DX .derivs none, .enter, .get2 .DX .derivs (some ⟨[false, true], 1⟩)]

theorem sample_proper : ∀ o ∈ sample, Proper ⟨2, 2, 1, 2, 3, 0⟩ o := by
  simp [sample, Proper, Counted, width]

example : ∃ s, Met ⟨2, 2, 1, 2, 3, 0⟩ s ∧ s.frames.length = 2 ∧ inUse s = [some 4, some 5, some 1, some 2, some 3, some 0] :=
  ⟨_, ⟨sample, sample_proper, rfl⟩, rfl, by decide +kernel⟩

example : ∃ s s', Met ⟨2, 2, 1, 2, 3, 0⟩ s ∧ s.frames ≠ [] ∧ 2 ≤ s.frames.length ∧
    s.step (.get3 .ZXX .both (some ⟨[true, false, false, true, true, false], 3⟩)) = .ok s' ∧ s'.lists.n .ZXX = 3 ∧ s'.lists.cap .ZXX = 1024 :=
  ⟨_, _, ⟨sample, sample_proper, rfl⟩, by simp, by simp, rfl, rfl, rfl⟩

/-- The same request made again where the first was made gives the same array, and nothing is allocated. -/
theorem C39_reuse {w : Sizes} {s s1 s2 : Store} (hs : Met w s) {t : WType} {x hs0 fs} (hf : s.frames = (x, hs0) :: fs)
    (h1 : s.step (.get1 t) = .ok s1) {os : List LOp} (hos : ∀ o ∈ os, Proper w o) (h2 : s1.run os = .ok s2)
    {y hs2 fs2} (hf2 : s2.frames = (y, hs2) :: fs2) (hy : y.i t = x.i t) :
    ∃ a x', s1.frames = (x', .one t a :: hs0) :: fs ∧
      s2.step (.get1 t) = .ok ⟨s2.lists, ({ y with i := Function.update y.i t (y.i t + 1) }, .one t a :: hs2) :: fs2⟩ := by
  obtain ⟨ok, hw⟩ := hs.ok
  obtain ⟨l, fs'⟩ := s
  simp only at hf; subst hf
  obtain ⟨o2, o3, o4, o5⟩ := ok.good
  obtain ⟨l', a, e, g, g1, g2, g3, -⟩ := get1_ok ok.inv (x := x) t (o2 t)
  simp only [Store.step] at h1
  simp only at e
  rw [e] at h1
  simp only [Except.ok.injEq] at h1
  subst h1
  refine ⟨a, _, rfl, ?_⟩
  have ok1 : StoreOk ⟨l', ({ x with i := Function.update x.i t (x.i t + 1) }, .one t a :: hs0) :: fs⟩ :=
    (store_step' ok (o := .get1 t) trivial (by simp only [Store.step]; rw [e])).1
  obtain ⟨ok2, gg⟩ := store_run ok1 (fun o ho => by simp only; rw [g.ext.w]; simp only at hw; rw [hw]; exact hos o ho) h2
  simp only at gg
  obtain ⟨l2, fs2'⟩ := s2
  simp only at hf2; subst hf2
  simp only at gg
  obtain ⟨p2, -, -, -⟩ := ok2.good
  obtain ⟨l3, a3, e3, -, -, -, q3, q4⟩ := get1_ok ok2.inv (x := y) t (p2 t)
  have hlt : y.i t < l2.n t := by rw [hy]; exact g2.trans_le (gg.n t)
  have hl3 := q4 hlt
  simp only at hl3
  subst hl3
  have : a3 = a := by
    have h5 := gg.ext.data t (x.i t) g2
    rw [g3, ← hy, q3] at h5
    exact Option.some.inj h5
  subst this
  simp only [Store.step]
  simp only at e3
  rw [e3]

/-- A callee takes an array and leaves; its next sibling gets the same one. -/
example : ∃ s s1 s2 x y, Met ⟨2, 2, 1, 2, 3, 0⟩ s ∧ s.frames = (x, []) :: [(initIndex, [])] ∧ s.step (.get1 .DXX) = .ok s1 ∧
    s1.run [.get1 .DXX, .leave, .enter] = .ok s2 ∧ s2.frames = (y, []) :: [(initIndex, [])] ∧ y.i .DXX = x.i .DXX ∧ s2.lists.n .DXX = 2 :=
  ⟨_, _, _, _, _, ⟨[.enter], by simp [Proper], rfl⟩, rfl, rfl, rfl, rfl, rfl, rfl⟩

/-- `work_free` frees what was allocated, each once, save the arrays of `WORK_DQQ`. -/
theorem C39_freed {w : Sizes} {s : Store} (hs : Met w s) :
    (freed s.lists).Nodup ∧ ∀ a, some a ∈ freed s.lists ↔
      a < s.lists.fresh ∧ ∀ j < s.lists.n .DQQ, s.lists.data .DQQ j ≠ some a := by
  have iv := hs.ok.1.inv
  generalize s.lists = l at iv
  have fnd : freedTypes.Nodup := by decide
  have fall : ∀ t, t ∈ freedTypes ↔ t ≠ .DQQ := by intro t; cases t <;> decide
  constructor
  · unfold freed
    refine List.nodup_append'.2 ⟨List.nodup_flatMap.2 ⟨?_, ?_⟩, List.nodup_flatMap.2 ⟨?_, ?_⟩, ?_⟩
    · intro t _
      refine (List.nodup_map_iff_inj_on List.nodup_range).2 ?_
      intro i hi j hj he
      exact (iv.inj t i t j (List.mem_range.1 hi) (List.mem_range.1 hj) he).2
    · refine List.Pairwise.imp ?_ fnd
      intro t t' htt o ho ho'
      obtain ⟨i, hi, rfl⟩ := List.mem_map.1 ho
      obtain ⟨j, hj, he⟩ := List.mem_map.1 ho'
      exact htt (iv.inj t i t' j (List.mem_range.1 hi) (List.mem_range.1 hj) he.symm).1
    · intro v _
      refine (List.nodup_map_iff_inj_on List.nodup_range).2 ?_
      intro i hi j hj he
      exact (iv.injV v i v j (List.mem_range.1 hi) (List.mem_range.1 hj) he).2
    · refine List.Pairwise.imp (R := (· ≠ ·)) ?_ (by decide)
      intro t t' htt o ho ho'
      obtain ⟨i, hi, rfl⟩ := List.mem_map.1 ho
      obtain ⟨j, hj, he⟩ := List.mem_map.1 ho'
      exact htt (iv.injV t i t' j (List.mem_range.1 hi) (List.mem_range.1 hj) he.symm).1
    · intro o ho ho'
      obtain ⟨t, -, ho⟩ := List.mem_flatMap.1 ho
      obtain ⟨i, hi, rfl⟩ := List.mem_map.1 ho
      obtain ⟨v, -, ho'⟩ := List.mem_flatMap.1 ho'
      obtain ⟨j, hj, he⟩ := List.mem_map.1 ho'
      obtain ⟨a, a1, -, a3⟩ := iv.arr t i (List.mem_range.1 hi)
      obtain ⟨b, b1, -, b3⟩ := iv.tab v j (List.mem_range.1 hj)
      rw [a1, b1] at he; cases he; rw [a3] at b3; simp at b3
  · intro a
    simp only [freed, List.mem_append, List.mem_flatMap, List.mem_map, List.mem_range, fall]
    constructor
    · rintro (⟨t, ht, i, hi, he⟩ | ⟨v, -, i, hi, he⟩)
      · obtain ⟨b, b1, b2, b3⟩ := iv.arr t i hi
        rw [b1] at he; cases he
        refine ⟨b2, fun j hj hc => ht (iv.inj _ _ _ _ hi hj (b1.trans hc.symm)).1⟩
      · obtain ⟨b, b1, b2, b3⟩ := iv.tab v i hi
        rw [b1] at he; cases he
        refine ⟨b2, fun j hj hc => ?_⟩
        obtain ⟨c, c1, -, c3⟩ := iv.arr .DQQ j hj
        rw [hc] at c1; cases c1; rw [c3] at b3; simp at b3
    · rintro ⟨h1, h2⟩
      rcases iv.all a h1 with ⟨t, j, hj, he⟩ | ⟨v, j, hj, he⟩
      · refine Or.inl ⟨t, ?_, j, hj, he⟩
        rintro rfl
        exact h2 j hj he
      · refine Or.inr ⟨v, ?_, j, hj, he⟩
        cases v <;> simp

/-- As the code stands nothing asks for `WORK_DQQ`, and then nothing is left. -/
theorem C39_freed_all {w : Sizes} {s : Store} (hs : Met w s) (hq : s.lists.n .DQQ = 0) (a : Nat) :
    some a ∈ freed s.lists ↔ a < s.lists.fresh := by
  rw [(C39_freed hs).2]; simp [hq]

example : ∃ s, Met ⟨2, 2, 1, 2, 3, 0⟩ s ∧ s.lists.n .DQQ = 0 ∧ s.lists.fresh = 6 :=
  ⟨_, ⟨sample, sample_proper, rfl⟩, rfl, rfl⟩

/-- A request for `WORK_DQQ` is never freed. -/
theorem C39_violated_dqq : ∃ s, Met ⟨2, 2, 1, 2, 3, 0⟩ s ∧ 0 < s.lists.fresh ∧ some 0 ∉ freed s.lists :=
  ⟨_, ⟨[.get1 .DQQ], by simp [Proper], rfl⟩, by decide, by decide +kernel⟩

/-- The count in front of the flags is trusted: where it is short the slots are filled from past the end of the list. -/
theorem C39_violated_count : (Store.init ⟨2, 2, 1, 2, 3, 0⟩).run [.get2 .DX .derivs (some ⟨[true, true], 1⟩)] = .error .unset := by
  rfl

/-- `work_get2` with `WORK_BOTH_V` goes on with pointers it has not set. -/
theorem C39_violated_both (s : Store) (hne : s.frames ≠ []) (t : WType) (f : Option Flags) : s.step (.get2 t .both f) = .error .unset := by
  obtain ⟨l, fs⟩ := s
  match fs with
  | [] => exact absurd rfl hne
  | (x, hs) :: fs => rfl

/-- The pages freed are those that were obtained. -/
theorem C39_pages_freed (p : Pages) (k : Nat) : k ∈ freedPages p ↔ k < 1024 ∧ 0 < p.bytes k := by
  simp [freedPages, maxPages]

example : freedPages ((initPages 1 2).renew 0 48) = [0] := by decide +kernel

end Xrtm.Work
