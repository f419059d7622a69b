import Verif.Proof.AATreeC
import Mathlib.Data.Finset.Card
import Mathlib.Data.Finset.Dedup

/-!
# C19, C44: the ordered tree

After any insertions the tree holds, in order, the first value given for each key; finding, counting, walking and freeing agree
with that; it is no deeper than twice the logarithm of its size. Deletion takes out the one entry, but looks at a pointer that
nothing has set, and leaves a `parent` that points at freed memory.
-/

namespace Xrtm.AATree

open T Spec

variable {V K : Type} [LinearOrder K] {cmp : V → V → Int} {key : V → K}

/-- What holds of a tree that insertions have built. -/
structure Good (key : V → K) (t : Tree V) : Prop where
  bal : Bal t.base
  inc : Increasing key (nodes t.base)
  live : Live (nodes t.base)
  linked : Linked 0 t.base

theorem good_create : Good key (create : Tree V) := ⟨trivial, .nil, ⟨.nil, by simp [create, nodes]⟩, trivial⟩

theorem put_present {e : Addr × V} {es : List (Addr × V)} (hi : Increasing key es) (h : ∃ y ∈ es, key y.2 = key e.2) :
    put key e es = es := by
  induction es with
  | nil => simp at h
  | cons y ys ih =>
    obtain ⟨i1, i2⟩ := List.pairwise_cons.1 hi
    obtain ⟨z, hz, hk⟩ := h
    rw [put]
    rcases List.mem_cons.1 hz with rfl | hz
    · rw [if_neg (by rw [hk]; exact lt_irrefl _), if_pos hk.symm]
    · have : key y.2 < key e.2 := hk ▸ i1 z hz
      rw [if_neg (fun h => lt_irrefl _ (lt_trans h this)), if_neg (fun h => by rw [h] at this; exact lt_irrefl _ this),
        ih i2 ⟨z, hz, hk⟩]

theorem put_absent {e : Addr × V} {pre post : List (Addr × V)} (h1 : ∀ y ∈ pre, key y.2 < key e.2)
    (h2 : ∀ y ∈ post, key e.2 < key y.2) : put key e (pre ++ post) = pre ++ e :: post := by
  induction pre with
  | nil =>
    cases post with
    | nil => rfl
    | cons y ys => rw [List.nil_append, put, if_pos (h2 y (by simp))]; rfl
  | cons y ys ih =>
    have := h1 y (by simp)
    rw [List.cons_append, put, if_neg (fun h => lt_irrefl _ (lt_trans h this)),
      if_neg (fun h => by rw [h] at this; exact lt_irrefl _ this), ih (fun z hz => h1 z (by simp [hz])), List.cons_append]

/-- C19. One insertion into a tree that insertions have built, at an address no live node has: the null node is not touched, the
nodes are those before with the new one in its place, `NULL` comes back exactly if the key was there, and then nothing at all
has changed. -/
theorem C19_insert (ho : Orders cmp key) {t : Tree V} (g : Good key t) {new : Addr} (hnew : new ∉ (nodes t.base).map Prod.fst)
    (h0 : new ≠ 0) (x : V) :
    ∃ t' res, t.insert cmp new x = .ok (t', res) ∧ Good key t' ∧ nodes t'.base = put key (new, x) (nodes t.base) ∧
      ((∃ e ∈ nodes t.base, key e.2 = key x) → t' = t ∧ res = none) ∧ ((∀ e ∈ nodes t.base, key e.2 ≠ key x) → res = some new) := by
  by_cases hx : ∃ e ∈ nodes t.base, key e.2 = key x
  · have := insert_present ho new x t.base g.bal g.inc 0 hx
    refine ⟨t, none, by simp [Tree.insert, this], g, (put_present g.inc hx).symm, fun _ => ⟨rfl, rfl⟩, fun h => ?_⟩
    obtain ⟨e, he, hk⟩ := hx
    exact absurd hk (h e he)
  · have hx' : ∀ e ∈ nodes t.base, key e.2 ≠ key x := fun e he hk => hx ⟨e, he, hk⟩
    obtain ⟨b, pre, post, e1, e2, -, e4, e5, e6, e7, e8⟩ := insert_absent ho new x t.base g.bal g.inc 0 hx'
    refine ⟨{ t with base := b }, some new, by simp [Tree.insert, e1], ⟨e2, ?_, ?_, e4 g.linked⟩, ?_, fun h => absurd h hx, fun _ => rfl⟩
    · simp only [e6]
      have := e5 ▸ g.inc
      have := List.pairwise_append.1 this
      exact increasing_node.2 ⟨this.1, this.2.1, e7, e8⟩
    · simp only [e6]
      have l1 := e5 ▸ g.live.1
      have l2 := e5 ▸ g.live.2
      rw [e5] at hnew
      constructor
      · have : ((new :: (pre ++ post).map Prod.fst)).Nodup := List.nodup_cons.2 ⟨hnew, l1⟩
        refine (List.Perm.nodup_iff ?_).1 this
        rw [List.map_append, List.map_append, List.map_cons]
        exact List.perm_middle.symm
      · simp only [List.map_append, List.map_cons, List.mem_append, List.mem_cons, not_or] at l2 ⊢
        exact ⟨l2.1, Ne.symm h0, l2.2⟩
    · simp only [e6, e5]
      exact (put_absent e7 e8).symm

theorem mem_put {e y : Addr × V} {es : List (Addr × V)} (hi : Increasing key es) :
    y ∈ put key e es ↔ y ∈ es ∨ y = e ∧ ∀ z ∈ es, key z.2 ≠ key e.2 := by
  by_cases hx : ∃ z ∈ es, key z.2 = key e.2
  · rw [put_present hi hx]
    obtain ⟨z, hz, hk⟩ := hx
    constructor
    · exact Or.inl
    · rintro (h | ⟨-, h⟩)
      · exact h
      · exact absurd hk (h z hz)
  · have hx' : ∀ z ∈ es, key z.2 ≠ key e.2 := fun z hz hk => hx ⟨z, hz, hk⟩
    have : ∃ pre post, es = pre ++ post ∧ (∀ y ∈ pre, key y.2 < key e.2) ∧ ∀ y ∈ post, key e.2 < key y.2 := by
      clear hx
      induction es with
      | nil => exact ⟨[], [], rfl, by simp, by simp⟩
      | cons w ws ih =>
        obtain ⟨i1, i2⟩ := List.pairwise_cons.1 hi
        rcases lt_or_gt_of_ne (hx' w (by simp)) with h | h
        · obtain ⟨pre, post, h1, h2, h3⟩ := ih i2 (fun z hz => hx' z (by simp [hz]))
          exact ⟨w :: pre, post, by rw [h1]; rfl, by simpa [h] using h2, h3⟩
        · refine ⟨[], w :: ws, rfl, by simp, ?_⟩
          intro y hy
          rcases List.mem_cons.1 hy with rfl | hy
          · exact h
          · exact lt_trans h (i1 y hy)
    obtain ⟨pre, post, rfl, h2, h3⟩ := this
    rw [put_absent h2 h3]
    simp only [List.mem_append, List.mem_cons]
    constructor
    · rintro (h | h | h)
      · exact Or.inl (Or.inl h)
      · exact Or.inr ⟨h, by simpa using hx'⟩
      · exact Or.inl (Or.inr h)
    · rintro ((h | h) | ⟨h, -⟩)
      · exact Or.inl h
      · exact Or.inr (Or.inr h)
      · exact Or.inr (Or.inl h)

/-- C19. Any insertions, at addresses all different, from a new tree: none fails; the tree holds exactly the first entry
given for each key; the answers say which were taken. -/
theorem C19_any_insertions (ho : Orders cmp key) (rs : List (Addr × V)) (hn : (rs.map Prod.fst).Nodup) (h0 : 0 ∉ rs.map Prod.fst) :
    ∃ t out, insertAll cmp rs create = .ok (t, out) ∧ Good key t ∧
      (∀ e, e ∈ nodes t.base ↔ rs.find? (fun y => key y.2 = key e.2) = some e) ∧
      out = rs.map fun e => if (rs.find? (fun y => key y.2 = key e.2)).map Prod.fst = some e.1 then some e.1 else none := by
  suffices H : ∀ (rs : List (Addr × V)) (t : Tree V), Good key t → (rs.map Prod.fst).Nodup → 0 ∉ rs.map Prod.fst →
      (∀ e ∈ rs, e.1 ∉ (nodes t.base).map Prod.fst) → ∃ t' out, insertAll cmp rs t = .ok (t', out) ∧ Good key t' ∧
      (∀ e, e ∈ nodes t'.base ↔ e ∈ nodes t.base ∨
        (∀ y ∈ nodes t.base, key y.2 ≠ key e.2) ∧ rs.find? (fun y => key y.2 = key e.2) = some e) ∧
      out = rs.map fun e => if (∀ y ∈ nodes t.base, key y.2 ≠ key e.2) ∧ (rs.find? (fun y => key y.2 = key e.2)).map Prod.fst = some e.1
        then some e.1 else none by
    obtain ⟨t, out, h1, h2, h3, h4⟩ := H rs create good_create hn h0 (by simp [create, nodes])
    refine ⟨t, out, h1, h2, ?_, ?_⟩
    · simpa [create, nodes] using h3
    · rw [h4]
      exact List.map_congr_left fun e _ => if_congr (by simp [create, nodes]) rfl rfl
  intro rs
  induction rs with
  | nil => intro t g _ _ _; exact ⟨t, [], rfl, g, by simp, rfl⟩
  | cons r rs ih =>
    obtain ⟨a, x⟩ := r
    intro t g hn h0 hf
    simp only [List.map_cons, List.nodup_cons, List.mem_cons, not_or] at hn h0
    have ha := hf (a, x) (by simp)
    obtain ⟨t1, res, e1, e2, e3, e4, e5⟩ := C19_insert ho g ha (Ne.symm h0.1) x
    have hmem : ∀ e, e ∈ nodes t1.base ↔ e ∈ nodes t.base ∨ e = (a, x) ∧ ∀ z ∈ nodes t.base, key z.2 ≠ key x := by
      intro e
      rw [e3, mem_put g.inc]
    obtain ⟨t2, out, f1, f2, f3, f4⟩ := ih t1 e2 hn.2 h0.2 (by
      intro e he hc
      obtain ⟨y, hy, hye⟩ := List.mem_map.1 hc
      rcases (hmem y).1 hy with h | ⟨rfl, -⟩
      · exact hf e (by simp [he]) (hye ▸ List.mem_map_of_mem h)
      · have : a = e.1 := hye
        exact hn.1 (this ▸ List.mem_map_of_mem he))
    have hcond : ∀ (e : Addr × V) (P : Prop), ((∀ y ∈ nodes t1.base, key y.2 ≠ key e.2) ∧ P) ↔
        key x ≠ key e.2 ∧ (∀ y ∈ nodes t.base, key y.2 ≠ key e.2) ∧ P := by
      intro e P
      constructor
      · rintro ⟨h1, h2⟩
        have h3 : ∀ y ∈ nodes t.base, key y.2 ≠ key e.2 := fun y hy => h1 y ((hmem y).2 (Or.inl hy))
        refine ⟨fun hc => ?_, h3, h2⟩
        exact h1 (a, x) ((hmem _).2 (Or.inr ⟨rfl, fun z hz => hc ▸ h3 z hz⟩)) hc
      · rintro ⟨h1, h2, h3⟩
        refine ⟨fun y hy => ?_, h3⟩
        rcases (hmem y).1 hy with h | ⟨rfl, -⟩
        · exact h2 y h
        · exact h1
    refine ⟨t2, res :: out, ?_, f2, ?_, ?_⟩
    · simp [insertAll, e1, f1]
    · intro e
      rw [f3, hcond, hmem, List.find?_cons]
      by_cases hk : key x = key e.2
      · simp only [hk, ne_eq, not_true, false_and, or_false, decide_true]
        simp only [Option.some.injEq]
        constructor
        · rintro (h | ⟨rfl, h⟩)
          · exact Or.inl h
          · exact Or.inr ⟨h, rfl⟩
        · rintro (h | ⟨h, rfl⟩)
          · exact Or.inl h
          · exact Or.inr ⟨rfl, h⟩
      · simp only [hk, ne_eq, not_false_iff, true_and, decide_false]
        constructor
        · rintro ((h | ⟨rfl, -⟩) | h)
          · exact Or.inl h
          · exact absurd rfl hk
          · exact Or.inr h
        · rintro (h | h)
          · exact Or.inl (Or.inl h)
          · exact Or.inr h
    · rw [List.map_cons]
      congr 1
      · simp only [List.find?_cons, decide_true, Option.map_some, and_true]
        split
        · rename_i h; exact e5 h
        · rename_i h
          push Not at h
          exact (e4 h).2
      · rw [f4]
        refine List.map_congr_left fun e he => ?_
        rw [if_congr (hcond e _) rfl rfl, List.find?_cons]
        by_cases hk : key x = key e.2
        · simp only [hk, decide_true, ne_eq, not_true, false_and, if_false]
          rw [if_neg]
          rintro ⟨-, h⟩
          simp only [Option.map_some, Option.some.injEq] at h
          exact hn.1 (h ▸ List.mem_map_of_mem (f := Prod.fst) he)
        · have : decide (key x = key e.2) = false := by simpa using hk
          simp only [this]
          exact if_congr (by simp [hk]) rfl rfl

/-- C19. Finding: the node with the key, or `NULL` if there is none. -/
theorem C19_find (ho : Orders cmp key) {t : Tree V} (g : Good key t) (x : V) :
    (∀ a, find cmp x t.base = some a ↔ ∃ v, (a, v) ∈ nodes t.base ∧ key v = key x) ∧
      (find cmp x t.base = none ↔ ∀ e ∈ nodes t.base, key e.2 ≠ key x) := by
  have h := find_iff ho x t.base g.inc
  refine ⟨h, ?_⟩
  constructor
  · intro hn e he hk
    have := (h e.1).2 ⟨e.2, he, hk⟩
    rw [hn] at this
    cases this
  · intro hn
    cases hf : find cmp x t.base with
    | none => rfl
    | some a =>
      obtain ⟨v, h1, h2⟩ := (h a).1 hf
      exact absurd h2 (hn _ h1)

/-- C19. Printing gives the values in order of their keys, no key twice; the count is their number. -/
theorem C19_traversal {t : Tree V} (g : Good key t) :
    print t.base = (nodes t.base).map Prod.snd ∧ (print t.base).Pairwise (fun x y => key x < key y) ∧
      count t.base = (print t.base).length ∧ count t.base = ((print t.base).map key).toFinset.card := by
  have hp := print_nodes t.base
  have h1 : (print t.base).Pairwise (fun x y => key x < key y) := by
    rw [hp, List.pairwise_map]
    exact g.inc
  refine ⟨hp, h1, by rw [hp, List.length_map, count_nodes], ?_⟩
  rw [List.toFinset_card_of_nodup, List.length_map, hp, List.length_map, count_nodes]
  rw [List.Nodup, List.pairwise_map]
  exact h1.imp fun h => ne_of_lt h

/-- C19. No search is longer than twice the logarithm of the size. -/
theorem C19_depth {t : Tree V} (g : Good key t) : 2 ^ height t.base ≤ (count t.base + 1) ^ 2 := by
  have h1 := (height_le g.bal).1
  have h2 := level_count g.bal
  calc 2 ^ height t.base ≤ 2 ^ (2 * t.base.level) := Nat.pow_le_pow_right (by omega) h1
    _ = (2 ^ t.base.level) ^ 2 := by rw [Nat.mul_comm, Nat.pow_mul]
    _ ≤ _ := Nat.pow_le_pow_left h2 2

/-- C19. Walking: the smallest and the largest node, and from any node the next and the one before, without reading anything but
live nodes. -/
theorem C19_walk (ho : Orders cmp key) {t : Tree V} (g : Good key t) :
    findMin t.base = (nodes t.base).head?.map Prod.fst ∧ findMax t.base = (nodes t.base).getLast?.map Prod.fst ∧
    ∀ pre post a v, nodes t.base = pre ++ (a, v) :: post →
      advance cmp t.base a = .ok (post.head?.map Prod.fst) ∧ retreat cmp t.base a = .ok (pre.getLast?.map Prod.fst) :=
  ⟨findMin_eq _, findMax_eq _, fun _ _ _ _ h => ⟨advance_eq ho h g.live g.inc g.linked, retreat_eq ho h g.live g.inc g.linked⟩⟩

/-- C19. Emptying frees every node once and hands every value to the callback once. -/
theorem C19_empty {t : Tree V} (g : Good key t) :
    (empty t.base).Perm (nodes t.base) ∧ ((empty t.base).map Prod.fst).Nodup := by
  have h := empty_perm t.base
  exact ⟨h, (h.map Prod.fst).nodup_iff.2 g.live.1⟩

/-! ## C44: deletion -/

/-- What holds of a tree that insertions and deletions have built. -/
structure Sound (key : V → K) (t : Tree V) : Prop where
  bal : Bal t.base
  inc : Increasing key (nodes t.base)
  live : Live (nodes t.base)
  /-- `dele_node` has never been set, is the null node, or is a live node. -/
  dele : t.dele = .unset ∨ t.dele = .null ∨ ∃ e ∈ nodes t.base, ∃ w, t.dele = .at e.1 w

theorem deref_value {w : T V} {a : Addr} {v : V} (h : (a, v) ∈ nodes w) (hn : ((nodes w).map Prod.fst).Nodup) :
    ∃ lv p l r, deref a w = some (node a lv v p l r) := by
  obtain ⟨pre, post, h⟩ := List.append_of_mem h
  obtain ⟨d, lv, p, l, r, pre', post', hs, -⟩ := exists_sub h hn
  exact ⟨lv, p, l, r, hs.deref_eq hn⟩

theorem dele_now {t : Tree V} (g : Sound key t) :
    t.dele.now t.base = t.dele ∧ (t.dele = .unset ∨ t.dele = .null) ∨ ∃ e ∈ nodes t.base, t.dele.now t.base = .at e.1 e.2 := by
  rcases g.dele with h | h | ⟨e, he, w, h⟩
  · exact Or.inl ⟨by rw [h]; rfl, Or.inl h⟩
  · exact Or.inl ⟨by rw [h]; rfl, Or.inr h⟩
  · obtain ⟨lv, p, l, r, hd⟩ := deref_value (v := e.2) he g.live.1
    exact Or.inr ⟨e, he, by simp [h, Dele.now, hd]⟩

/-- C44, as far as it holds. Deleting from a tree that insertions and deletions have built, unless it is the first deletion and
asks for a key smaller than all: the answer says whether the key was there; its entry and no other is gone; order and balance
are kept. Missing: that deletion, and the `parent` members (`C44_violated_first`, `C44_violated_walk`). -/
theorem C44_delete_partial (ho : Orders cmp key) {t : Tree V} (g : Sound key t) (x : V)
    (hfirst : t.dele = .unset → t.base = nil ∨ ∃ e ∈ nodes t.base, key e.2 ≤ key x) :
    ∃ t' ret, t.delete cmp x = .ok (t', ret) ∧ Sound key t' ∧
      (ret = true ↔ ∃ e ∈ nodes t.base, key e.2 = key x) ∧
      print t'.base = (print t.base).filter (fun v => key v ≠ key x) ∧
      (∀ a ∈ (nodes t'.base).map Prod.fst, a ∈ (nodes t.base).map Prod.fst) ∧ (ret = false → t'.base = t.base) := by
  by_cases hx : ∃ e ∈ nodes t.base, key e.2 = key x
  · obtain ⟨pre, b, w, post, t', u, f, e1, e2, e3, e4, e5, -, e7⟩ :=
      delete_present ho x t.base g.bal g.inc g.live.1 hx 0 (t.dele.now t.base)
    have hi := e1 ▸ g.inc
    have hl := e1 ▸ g.live.1
    have hl0 := e1 ▸ g.live.2
    have hi' := increasing_node.1 hi
    have hpre : ∀ y ∈ pre, y.1 ≠ b := by
      rintro y hy rfl
      simp only [List.map_append, List.map_cons, List.nodup_append] at hl
      exact hl.2.2 y.1 (List.mem_map_of_mem hy) y.1 (by simp) rfl
    have hpost : ∀ y ∈ post, y.1 ≠ b := by
      rintro y hy rfl
      simp only [List.map_append, List.map_cons, List.nodup_append, List.nodup_cons] at hl
      exact hl.2.1.1 (List.mem_map_of_mem hy)
    have hfil : ((pre ++ (b, w) :: post).map Prod.snd).filter (fun v => key v ≠ key x) = (pre ++ post).map Prod.snd := by
      simp only [List.map_append, List.map_cons, List.filter_append]
      rw [List.filter_cons_of_neg (by simp [e2]), List.filter_eq_self.2, List.filter_eq_self.2]
      · intro v hv
        obtain ⟨y, hy, rfl⟩ := List.mem_map.1 hv
        have := hi'.2.2.2 y hy
        rw [e2] at this
        simpa using ne_of_gt this
      · intro v hv
        obtain ⟨y, hy, rfl⟩ := List.mem_map.1 hv
        have := hi'.2.2.1 y hy
        rw [e2] at this
        simpa using ne_of_lt this
    have hset : ∃ es, nodes (setVal b u t') = es ∧ es.map Prod.snd = (pre ++ post).map Prod.snd ∧
        (es.map Prod.fst).Sublist ((pre ++ (b, w) :: post).map Prod.fst) := by
      refine ⟨_, rfl, ?_⟩
      rw [nodes_setVal]
      have idpre : pre.map (fun e => if e.1 = b then (e.1, u) else e) = pre := by
        conv_rhs => rw [← List.map_id pre]
        exact List.map_congr_left fun y hy => by simp [hpre y hy]
      have idpost : post.map (fun e => if e.1 = b then (e.1, u) else e) = post := by
        conv_rhs => rw [← List.map_id post]
        exact List.map_congr_left fun y hy => by simp [hpost y hy]
      rcases e4 with ⟨-, h⟩ | ⟨post', h', h⟩
      · rw [h, List.map_append, idpre, idpost]
        refine ⟨rfl, ?_⟩
        simp
      · subst h'
        have idpost' : post'.map (fun e => if e.1 = b then (e.1, u) else e) = post' := by
          rw [List.map_cons] at idpost
          exact (List.cons.inj idpost).2
        rw [h, List.map_append, List.map_cons, idpre, idpost']
        refine ⟨by simp, ?_⟩
        simp
    obtain ⟨es, hs1, hs2, hs3⟩ := hset
    refine ⟨⟨setVal b u t', .null⟩, true, ?_, ⟨e5.setVal b u, ?_, ⟨?_, ?_⟩, Or.inr (Or.inl rfl)⟩, by simpa using hx, ?_, ?_, by simp⟩
    · rw [Tree.delete, e3]; rfl
    · simp only [hs1]
      have : (es.map Prod.snd).Pairwise (fun x y => key x < key y) := by
        rw [hs2, List.pairwise_map]
        exact hi.sublist (List.Sublist.append (List.Sublist.refl _) (List.sublist_cons_self _ _))
      exact (List.pairwise_map (f := Prod.snd)).1 this
    · simp only [hs1]
      exact hs3.nodup hl
    · simp only [hs1]
      exact fun h => hl0 (hs3.subset h)
    · simp only [print_nodes, hs1, hs2]
      rw [e1]
      exact hfil.symm
    · simp only [hs1]
      intro a ha
      rw [e1]
      exact hs3.subset ha
  · have hx' : ∀ e ∈ nodes t.base, key e.2 ≠ key x := fun e he hk => hx ⟨e, he, hk⟩
    have hfil : (print t.base).filter (fun v => key v ≠ key x) = print t.base := by
      rw [List.filter_eq_self]
      intro v hv
      rw [print_nodes] at hv
      obtain ⟨y, hy, rfl⟩ := List.mem_map.1 hv
      simpa using hx' y hy
    by_cases hnil : t.base = nil
    · refine ⟨⟨nil, t.dele.now t.base⟩, false, ?_, ⟨trivial, .nil, ⟨.nil, by simp [nodes]⟩, ?_⟩, ?_, ?_, ?_, fun _ => hnil.symm⟩
      · rw [Tree.delete, hnil]; rfl
      · rcases dele_now g with ⟨h1, h2⟩ | ⟨e, he, -⟩
        · rw [h1]; exact h2.elim Or.inl (fun h => Or.inr (Or.inl h))
        · rw [hnil] at he; simp [nodes] at he
      · simpa using hx
      · simp [hnil, print]
      · simp [nodes]
    · have hD : t.dele.now t.base = .null ∨ (∃ b w, t.dele.now t.base = .at b w ∧ cmp x w ≠ 0) ∨
          ∃ e ∈ nodes t.base, key e.2 < key x := by
        rcases dele_now g with ⟨h1, h2 | h2⟩ | ⟨e, he, h1⟩
        · rcases hfirst h2 with h | ⟨e, he, hk⟩
          · exact absurd h hnil
          · exact Or.inr (Or.inr ⟨e, he, lt_of_le_of_ne hk (hx' e he)⟩)
        · exact Or.inl (h1.trans h2)
        · exact Or.inr (Or.inl ⟨e.1, e.2, h1, fun h => hx' e he ((Orders.zero ho x _).1 h).symm⟩)
      obtain ⟨m, D', e1, -, e3⟩ := delete_absent ho x t.base g.bal g.inc g.live.1 hx' 0 _ hD
      refine ⟨⟨t.base, D'⟩, false, ?_, ⟨g.bal, g.inc, g.live, ?_⟩, by simpa using hx, hfil.symm, fun a h => h, fun _ => rfl⟩
      · rw [Tree.delete, e1]; rfl
      · rcases e3 with ⟨rfl, -⟩ | ⟨e, he, rfl, -⟩
        · rcases dele_now g with ⟨h1, h2⟩ | ⟨e, he, h1⟩
          · rw [h1]; exact h2.elim Or.inl (fun h => Or.inr (Or.inl h))
          · exact Or.inr (Or.inr ⟨e, he, e.2, h1⟩)
        · exact Or.inr (Or.inr ⟨e, he, e.2, rfl⟩)

/-- Insertion after deletions: as before, but for the `parent` members. -/
theorem C44_insert (ho : Orders cmp key) {t : Tree V} (g : Sound key t) {new : Addr} (hnew : new ∉ (nodes t.base).map Prod.fst)
    (h0 : new ≠ 0) (x : V) :
    ∃ t' res, t.insert cmp new x = .ok (t', res) ∧ Sound key t' ∧ nodes t'.base = put key (new, x) (nodes t.base) ∧ t'.dele = t.dele := by
  by_cases hx : ∃ e ∈ nodes t.base, key e.2 = key x
  · have := insert_present ho new x t.base g.bal g.inc 0 hx
    exact ⟨t, none, by simp [Tree.insert, this], g, (put_present g.inc hx).symm, rfl⟩
  · have hx' : ∀ e ∈ nodes t.base, key e.2 ≠ key x := fun e he hk => hx ⟨e, he, hk⟩
    obtain ⟨b, pre, post, e1, e2, -, e4, e5, e6, e7, e8⟩ := insert_absent ho new x t.base g.bal g.inc 0 hx'
    refine ⟨{ t with base := b }, some new, by simp [Tree.insert, e1], ⟨e2, ?_, ?_, ?_⟩, ?_, rfl⟩
    · simp only [e6]
      have := e5 ▸ g.inc
      have := List.pairwise_append.1 this
      exact increasing_node.2 ⟨this.1, this.2.1, e7, e8⟩
    · simp only [e6]
      have l1 := e5 ▸ g.live.1
      have l2 := e5 ▸ g.live.2
      rw [e5] at hnew
      constructor
      · have : ((new :: (pre ++ post).map Prod.fst)).Nodup := List.nodup_cons.2 ⟨hnew, l1⟩
        refine (List.Perm.nodup_iff ?_).1 this
        rw [List.map_append, List.map_append, List.map_cons]
        exact List.perm_middle.symm
      · simp only [List.map_append, List.map_cons, List.mem_append, List.mem_cons, not_or] at l2 ⊢
        exact ⟨l2.1, Ne.symm h0, l2.2⟩
    · rcases g.dele with h | h | ⟨e, he, w, h⟩
      · exact Or.inl h
      · exact Or.inr (Or.inl h)
      · refine Or.inr (Or.inr ⟨e, ?_, w, h⟩)
        simp only [e6]
        rw [e5] at he
        simp only [List.mem_append, List.mem_cons] at he ⊢
        rcases he with he | he
        · exact Or.inl he
        · exact Or.inr (Or.inr he)
    · simp only [e6, e5]
      exact (put_absent e7 e8).symm

/-- C44 fails: the first deletion, of a key smaller than all there are, reads through a pointer that nothing has set. -/
theorem C44_violated_first (ho : Orders cmp key) {t : Tree V} (hd : t.dele = .unset) (x : V) (hne : t.base ≠ nil)
    (hx : ∀ e ∈ nodes t.base, key x < key e.2) (hn : ((nodes t.base).map Prod.fst).Nodup) :
    t.delete cmp x = .error .uninitialised := by
  have : ∀ (s : T V) (last : Addr), s ≠ nil → (∀ e ∈ nodes s, key x < key e.2) →
      deleteAux cmp x last .unset s = .error .uninitialised := by
    intro s
    induction s with
    | nil => intro _ h; exact absurd rfl h
    | node a lv v p l r ihl ihr =>
      intro last _ h
      have hc : cmp x v < 0 := (ho.neg _ _).2 (h (a, v) (by simp [nodes]))
      rw [deleteAux, if_pos hc]
      by_cases hl : l = nil
      · subst hl
        simp [deleteAux, Except.bind, deleteEnd]
      · rw [ihl a hl (fun e he => h e (by simp [nodes, he]))]
        rfl
  rw [Tree.delete, hd]
  simp only [Dele.now]
  rw [this t.base 0 hne hx]
  rfl

/-- Numbers compared by subtraction. -/
def intCmp (x y : Int) : Int := x - y

theorem intCmp_orders : Orders intCmp (id : Int → Int) := by
  constructor <;> intro x y <;> simp only [intCmp, id] <;> omega

/-- C44 fails: four insertions, a deletion that succeeds (after one that sets the pointer), and the largest node can no longer be
walked on from: its `parent` is the node that was freed. -/
theorem C44_violated_walk :
    ∃ t t1 t2 : Tree Int, insertAll intCmp [(10, 1), (20, 2), (30, 3), (40, 4)] create = .ok (t, [some 10, some 20, some 30, some 40]) ∧
      t.delete intCmp 7 = .ok (t1, false) ∧ t1.delete intCmp 2 = .ok (t2, true) ∧ print t2.base = [1, 3, 4] ∧
      findMax t2.base = some 40 ∧ advance intCmp t2.base 40 = .error .dangling :=
  ⟨_, _, _, rfl, rfl, rfl, rfl, rfl, rfl⟩

/-- C44 fails: a tree emptied after a deletion that found nothing keeps a pointer to a node it has freed, and the next deletion
reads it. -/
theorem C44_violated_empty :
    ∃ t t1 t2 : Tree Int, insertAll intCmp [(10, 1)] create = .ok (t, [some 10]) ∧ t.delete intCmp 7 = .ok (t1, false) ∧
      insertAll intCmp [(20, 5)] { t1 with base := nil } = .ok (t2, [some 20]) ∧ t2.delete intCmp 0 = .error .dangling :=
  ⟨_, _, _, rfl, rfl, rfl, rfl⟩

/-! Examples. -/

/-- Seven numbers, one of them twice, in no order. -/
example : ∃ t out, insertAll intCmp [(10, 5), (11, 2), (12, 9), (13, 5), (14, 1), (15, 7), (16, 3)] create = .ok (t, out) ∧
    Good (id : Int → Int) t ∧ out = [some 10, some 11, some 12, none, some 14, some 15, some 16] ∧ print t.base = [1, 2, 3, 5, 7, 9] := by
  obtain ⟨t, out, h1, h2, -, h4⟩ := C19_any_insertions intCmp_orders
    [(10, 5), (11, 2), (12, 9), (13, 5), (14, 1), (15, 7), (16, 3)] (by decide) (by decide)
  refine ⟨t, out, h1, h2, ?_, ?_⟩
  · rw [h4]; decide
  · have : insertAll intCmp [(10, 5), (11, 2), (12, 9), (13, 5), (14, 1), (15, 7), (16, 3)] create =
        .ok (_, [some 10, some 11, some 12, none, some 14, some 15, some 16]) := rfl
    rw [this] at h1
    cases h1
    rfl

example : Sound (id : Int → Int) ⟨node 20 2 2 0 (node 10 1 1 20 nil nil) (node 30 1 3 20 nil nil), .null⟩ :=
  ⟨by simp [Bal], by simp [Increasing, nodes], by simp [Live, nodes], Or.inr (Or.inl rfl)⟩

end Xrtm.AATree
