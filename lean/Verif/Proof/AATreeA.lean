import Verif.Spec.AATree
import Mathlib.Tactic.Basic
import Mathlib.Tactic.SplitIfs
import Mathlib.Order.MinMax

/-! Balance of the ordered tree under insertion. -/

namespace Xrtm.AATree

open T Spec

variable {V K : Type}

@[simp] theorem level_nil : (nil : T V).level = 0 := rfl
@[simp] theorem left_nil : (nil : T V).left = nil := rfl
@[simp] theorem right_nil : (nil : T V).right = nil := rfl
@[simp] theorem level_node (a lv : Nat) (v : V) (p : Addr) (l r : T V) : (node a lv v p l r).level = lv := rfl
@[simp] theorem left_node (a lv : Nat) (v : V) (p : Addr) (l r : T V) : (node a lv v p l r).left = l := rfl
@[simp] theorem right_node (a lv : Nat) (v : V) (p : Addr) (l r : T V) : (node a lv v p l r).right = r := rfl

/-- Andersson's balance: a left child is one level down, a right child on the same level or one down, and no two right children
in a row on the level. -/
def Bal : T V → Prop
  | nil => True
  | node _ lv _ _ l r => Bal l ∧ Bal r ∧ lv = l.level + 1 ∧ (r.level = lv ∨ r.level + 1 = lv) ∧ r.right.level < lv

theorem Bal.zero {t : T V} (h : Bal t) (h0 : t.level = 0) : t = nil := by
  cases t with
  | nil => rfl
  | node a lv v p l r =>
    obtain ⟨_, _, h, _⟩ := h
    simp only [level_nil, level_node] at h0
    omega

theorem Bal.right_le {t : T V} (h : Bal t) : t.right.level ≤ t.level := by
  cases t with
  | nil => simp
  | node a lv v p l r =>
    obtain ⟨_, _, _, h, _⟩ := h
    simp only [right_node, level_node]
    omega

@[simp] theorem level_setParent (p : Addr) (t : T V) : (t.setParent p).level = t.level := by cases t <;> rfl
@[simp] theorem left_setParent (p : Addr) (t : T V) : (t.setParent p).left = t.left := by cases t <;> rfl
@[simp] theorem right_setParent (p : Addr) (t : T V) : (t.setParent p).right = t.right := by cases t <;> rfl
@[simp] theorem nodes_setParent (p : Addr) (t : T V) : nodes (t.setParent p) = nodes t := by cases t <;> rfl
@[simp] theorem bal_setParent (p : Addr) (t : T V) : Bal (t.setParent p) ↔ Bal t := by cases t <;> rfl

theorem linked_setParent {p q : Addr} {t : T V} (h : Linked p t) : Linked q (t.setParent q) := by
  cases t with
  | nil => trivial
  | node => exact ⟨rfl, h.2⟩

theorem nodes_setLevel {lv : Nat} {t t' : T V} (h : t.setLevel lv = some t') : nodes t' = nodes t := by
  cases t <;> simp [setLevel] at h; subst h; rfl

theorem linked_setLevel {lv : Nat} {t t' : T V} {p : Addr} (h : t.setLevel lv = some t') (hl : Linked p t) : Linked p t' := by
  cases t <;> simp [setLevel] at h; subst h; exact hl

theorem nodes_rotL {t t' : T V} (h : rotL t = some t') : nodes t' = nodes t := by
  unfold rotL at h
  split at h <;> simp at h
  · subst h; rfl
  · subst h; simp [nodes]

theorem linked_rotL {t t' : T V} {p : Addr} (h : rotL t = some t') (hl : Linked p t) : Linked p t' := by
  unfold rotL at h
  split at h <;> simp at h
  · subst h; trivial
  · subst h
    obtain ⟨e, ⟨_, h1, h2⟩, h3⟩ := hl
    exact ⟨e, h1, rfl, linked_setParent h2, h3⟩

theorem nodes_rotR {t t' : T V} (h : rotR t = some t') : nodes t' = nodes t := by
  unfold rotR at h
  split at h <;> simp at h
  · subst h; rfl
  · subst h; simp [nodes]

theorem linked_rotR {t t' : T V} {p : Addr} (h : rotR t = some t') (hl : Linked p t) : Linked p t' := by
  unfold rotR at h
  split at h <;> simp at h
  · subst h; trivial
  · subst h
    obtain ⟨e, h1, _, h2, h3⟩ := hl
    exact ⟨e, ⟨rfl, h1, linked_setParent h2⟩, h3⟩

theorem nodes_skew {t t' : T V} (h : skew t = some t') : nodes t' = nodes t := by
  unfold skew at h
  split at h
  · exact nodes_rotL h
  · simp at h; rw [h]

theorem linked_skew {t t' : T V} {p : Addr} (h : skew t = some t') (hl : Linked p t) : Linked p t' := by
  unfold skew at h
  split at h
  · exact linked_rotL h hl
  · simp at h; rwa [← h]

theorem nodes_split {t t' : T V} (h : split t = some t') : nodes t' = nodes t := by
  unfold split at h
  split at h
  · obtain ⟨s, h1, h2⟩ := Option.bind_eq_some_iff.1 h
    rw [nodes_setLevel h2, nodes_rotR h1]
  · simp at h; rw [h]

theorem linked_split {t t' : T V} {p : Addr} (h : split t = some t') (hl : Linked p t) : Linked p t' := by
  unfold split at h
  split at h
  · obtain ⟨s, h1, h2⟩ := Option.bind_eq_some_iff.1 h
    exact linked_setLevel h2 (linked_rotR h1 hl)
  · simp at h; rwa [← h]

/-- `skew` then `split`, as after every insertion. -/
def fix (t : T V) : Option (T V) := (skew t).bind split

theorem nodes_fix {t t' : T V} (h : fix t = some t') : nodes t' = nodes t := by
  obtain ⟨s, h1, h2⟩ := Option.bind_eq_some_iff.1 h
  rw [nodes_split h2, nodes_skew h1]

theorem linked_fix {t t' : T V} {p : Addr} (h : fix t = some t') (hl : Linked p t) : Linked p t' := by
  obtain ⟨s, h1, h2⟩ := Option.bind_eq_some_iff.1 h
  exact linked_split h2 (linked_skew h1 hl)

theorem skew_bal {t : T V} (h : Bal t) : skew t = some t := by
  cases t with
  | nil => rfl
  | node a lv v p l r =>
    obtain ⟨_, _, h, _⟩ := h
    simp only [skew, left_nil, left_node, level_nil, level_node]
    exact if_neg (by omega)

theorem split_bal {t : T V} (h : Bal t) (hn : t ≠ nil) : split t = some t := by
  cases t with
  | nil => exact absurd rfl hn
  | node a lv v p l r =>
    obtain ⟨_, _, _, _, h⟩ := h
    simp only [split, right_nil, right_node, level_nil, level_node]
    exact if_neg (by omega)

theorem fix_bal {t : T V} (h : Bal t) (hn : t ≠ nil) : fix t = some t := by
  simp [fix, skew_bal h, split_bal h hn]

/-- How an insertion may change the level. -/
def Grow (t t' : T V) : Prop :=
  t'.level = t.level ∨ t'.level = t.level + 1 ∧ t.right.level = t.level ∧ t'.right.level < t'.level

theorem fix_left {a : Addr} {lv : Nat} {v : V} {p : Addr} {l l' r : T V} (h : Bal (node a lv v p l r)) (hl : Bal l')
    (g : Grow l l') : ∃ t', fix (node a lv v p l' r) = some t' ∧ Bal t' ∧ Grow (node a lv v p l r) t' := by
  obtain ⟨h1, h2, h3, h4, h5⟩ := h
  rcases g with g | ⟨g1, g2, g3⟩
  · have hb : Bal (node a lv v p l' r) := ⟨hl, h2, by omega, h4, h5⟩
    exact ⟨_, fix_bal hb (by simp), hb, Or.inl rfl⟩
  · cases l' with
    | nil => simp [level_nil, level_node] at g1
    | node a1 lv1 v1 p1 l1 r1 =>
      obtain ⟨k1, k2, k3, k4, k5⟩ := hl
      simp only [level_nil, level_node, right_nil, right_node] at g1 g3
      have e : lv1 = lv := by omega
      subst e
      by_cases hr : r.level = lv1
      · cases r with
        | nil => simp [level_nil, level_node] at hr; omega
        | node a2 lv2 v2 p2 l2 r2 =>
          obtain ⟨m1, m2, m3, m4, m5⟩ := h2
          simp only [level_nil, level_node, right_nil, right_node] at *
          subst hr
          refine ⟨_, by simp [fix, skew, split, rotL, rotR, setLevel, left_nil, left_node, right_nil, right_node, level_nil, level_node]; rfl, ?_, ?_⟩
          · simp only [Bal, bal_setParent, level_setParent, right_setParent, level_nil, level_node, right_nil, right_node]
            refine ⟨⟨k1, ?_⟩, ?_⟩ <;> grind [Bal, Bal.right_le]
          · simp only [Grow, level_nil, level_node, right_nil, right_node]
            grind
      · refine ⟨_, by simp [fix, skew, split, rotL, rotR, setLevel, left_nil, left_node, right_nil, right_node, level_nil, level_node, hr]; rfl, ?_, ?_⟩
        · simp only [Bal, bal_setParent, level_setParent, right_setParent, level_nil, level_node, right_nil, right_node]
          grind [Bal, Bal.right_le]
        · simp only [Grow, level_nil, level_node, right_nil, right_node]
          grind

theorem fix_right {a : Addr} {lv : Nat} {v : V} {p : Addr} {l r r' : T V} (h : Bal (node a lv v p l r)) (hr : Bal r')
    (g : Grow r r') : ∃ t', fix (node a lv v p l r') = some t' ∧ Bal t' ∧ Grow (node a lv v p l r) t' := by
  obtain ⟨h1, h2, h3, h4, h5⟩ := h
  have hskew : skew (node a lv v p l r') = some (node a lv v p l r') := by
    simp only [skew, left_nil, left_node, level_nil, level_node]
    exact if_neg (by omega)
  cases r' with
  | nil =>
    have hb : Bal (node a lv v p l nil) := by
      simp only [Grow, Bal, level_nil, level_node, right_nil, right_node] at *
      refine ⟨h1, trivial, h3, ?_, by omega⟩
      rcases g with g | g <;> omega
    exact ⟨_, fix_bal hb (by simp), hb, Or.inl rfl⟩
  | node a2 lv2 v2 p2 l2 r2 =>
    by_cases hc : r2.level = lv
    · obtain ⟨m1, m2, m3, m4, m5⟩ := hr
      simp only [Grow, level_nil, level_node, right_nil, right_node] at *
      refine ⟨_, by simp [fix, hskew, split, rotR, setLevel, right_nil, right_node, level_nil, level_node, hc]; rfl, ?_, ?_⟩
      · simp only [Bal, bal_setParent, level_setParent, right_setParent, level_nil, level_node, right_nil, right_node]
        grind [Bal, Bal.right_le]
      · simp only [level_nil, level_node, right_nil, right_node]
        grind
    · have hb : Bal (node a lv v p l (node a2 lv2 v2 p2 l2 r2)) := by
        refine ⟨h1, hr, h3, ?_⟩
        obtain ⟨m1, m2, m3, m4, m5⟩ := hr
        simp only [Grow, level_nil, level_node, right_nil, right_node] at *
        grind
      exact ⟨_, fix_bal hb (by simp), hb, Or.inl rfl⟩

variable [LinearOrder K] {cmp : V → V → Int} {key : V → K}

theorem Orders.zero (ho : Orders cmp key) (x y : V) : cmp x y = 0 ↔ key x = key y := by
  have h1 := ho.neg x y
  have h2 := ho.pos x y
  constructor
  · intro h
    rcases lt_trichotomy (key x) (key y) with h' | h' | h'
    · have := h1.2 h'; omega
    · exact h'
    · have := h2.2 h'; omega
  · intro h
    have n1 : ¬ key x < key y := by rw [h]; exact lt_irrefl _
    have n2 : ¬ key y < key x := by rw [h]; exact lt_irrefl _
    have := mt h1.1 n1
    have := mt h2.1 n2
    omega

theorem increasing_node {a : Addr} {v : V} {xs ys : List (Addr × V)} :
    Increasing key (xs ++ (a, v) :: ys) ↔ Increasing key xs ∧ Increasing key ys ∧ (∀ x ∈ xs, key x.2 < key v) ∧
      (∀ y ∈ ys, key v < key y.2) := by
  simp only [Increasing, List.pairwise_append, List.pairwise_cons, List.forall_mem_cons]
  constructor
  · rintro ⟨h1, ⟨h2, h3⟩, h4⟩
    exact ⟨h1, h3, fun x hx => (h4 x hx).1, h2⟩
  · rintro ⟨h1, h3, h4, h2⟩
    exact ⟨h1, ⟨h2, h3⟩, fun x hx => ⟨h4 x hx, fun y hy => lt_trans (h4 x hx) (h2 y hy)⟩⟩

theorem insert_node (new : Addr) (x : V) (par : Addr) (a : Addr) (lv : Nat) (v : V) (p : Addr) (l r : T V) :
    insert cmp new x par (node a lv v p l r) =
      (if cmp x v < 0 then (insert cmp new x a l).map fun s => (node a lv v p s.1 r, s.2)
       else if cmp x v > 0 then (insert cmp new x a r).map fun s => (node a lv v p l s.1, s.2)
       else some (node a lv v p l r, none)).bind fun s => (fix s.1).map fun t => (t, s.2) := by
  rw [insert]
  split
  · cases insert cmp new x a l with
    | none => rfl
    | some s => 
      simp only [fix, Option.bind_eq_bind, Option.bind_some, Option.pure_def, Option.map_some]
      cases skew (node a lv v p s.1 r) with
      | none => rfl
      | some t => simp; cases split t <;> rfl
  · split
    · cases insert cmp new x a r with
      | none => rfl
      | some s =>
        simp only [fix, Option.bind_eq_bind, Option.bind_some, Option.pure_def, Option.map_some]
        cases skew (node a lv v p l s.1) with
        | none => rfl
        | some t => simp; cases split t <;> rfl
    · simp only [fix, Option.bind_eq_bind, Option.bind_some, Option.pure_def]
      cases skew (node a lv v p l r) with
      | none => rfl
      | some t => simp; cases split t <;> rfl

/-- A key already there: nothing is allocated, nothing moves. -/
theorem insert_present (ho : Orders cmp key) (new : Addr) (x : V) (t : T V) (hb : Bal t) (hi : Increasing key (nodes t)) (par : Addr)
    (hx : ∃ e ∈ nodes t, key e.2 = key x) : insert cmp new x par t = some (t, none) := by
  induction t generalizing par with
  | nil => simp [nodes] at hx
  | node a lv v p l r ihl ihr =>
    rw [nodes, increasing_node] at hi
    obtain ⟨i1, i2, i3, i4⟩ := hi
    obtain ⟨e, he, hk⟩ := hx
    rw [insert_node]
    have hfix := fix_bal hb (by simp)
    simp only [nodes, List.mem_append, List.mem_cons] at he
    rcases he with he | rfl | he
    · have : cmp x v < 0 := (ho.neg _ _).2 (hk ▸ i3 e he)
      rw [if_pos this, ihl hb.1 i1 a ⟨e, he, hk⟩]
      simp [hfix]
    · have := (Orders.zero ho x v).2 hk.symm
      simp [this, hfix]
    · have h1 : cmp x v > 0 := (ho.pos _ _).2 (hk ▸ i4 e he)
      rw [if_neg (by omega), if_pos h1, ihr hb.2.1 i2 a ⟨e, he, hk⟩]
      simp [hfix]

/-- A new key: the node is put where the order wants it. -/
theorem insert_absent (ho : Orders cmp key) (new : Addr) (x : V) (t : T V) (hb : Bal t) (hi : Increasing key (nodes t)) (par : Addr)
    (hx : ∀ e ∈ nodes t, key e.2 ≠ key x) :
    ∃ t' pre post, insert cmp new x par t = some (t', some new) ∧ Bal t' ∧ Grow t t' ∧ (Linked par t → Linked par t') ∧
      nodes t = pre ++ post ∧ nodes t' = pre ++ (new, x) :: post ∧ (∀ e ∈ pre, key e.2 < key x) ∧ (∀ e ∈ post, key x < key e.2) := by
  induction t generalizing par with
  | nil =>
    refine ⟨node new 1 x par nil nil, [], [], ?_, ?_, ?_, ?_, rfl, rfl, by simp, by simp⟩
    · simp [insert, skew, split, left_nil, left_node, right_nil, right_node, level_nil, level_node]
    · simp [Bal, level_nil, level_node, right_nil, right_node]
    · simp [Grow, level_nil, level_node, right_nil, right_node]
    · intro _; exact ⟨rfl, trivial, trivial⟩
  | node a lv v p l r ihl ihr =>
    rw [nodes, increasing_node] at hi
    obtain ⟨i1, i2, i3, i4⟩ := hi
    simp only [nodes, List.mem_append, List.mem_cons, or_imp, forall_and, forall_eq] at hx
    obtain ⟨x1, x2, x3⟩ := hx
    rw [insert_node]
    rcases lt_or_gt_of_ne x2 with hlt | hlt
    · have h1 : cmp x v > 0 := (ho.pos _ _).2 hlt
      obtain ⟨r', pre, post, e1, e2, e3, e4, e5, e6, e7, e8⟩ := ihr hb.2.1 i2 a x3
      obtain ⟨t', f1, f2, f3⟩ := fix_right hb e2 e3
      refine ⟨t', nodes l ++ (a, v) :: pre, post, ?_, f2, f3, ?_, ?_, ?_, ?_, e8⟩
      · rw [if_neg (by omega), if_pos h1, e1]; simp [f1]
      · rintro ⟨rfl, q1, q2⟩
        exact linked_fix f1 ⟨rfl, q1, e4 q2⟩
      · simp [nodes, e5]
      · rw [nodes_fix f1]; simp [nodes, e6]
      · simp only [List.mem_append, List.mem_cons]
        rintro e (he | rfl | he)
        · exact lt_trans (i3 e he) hlt
        · exact hlt
        · exact e7 e he
    · have h1 : cmp x v < 0 := (ho.neg _ _).2 hlt
      obtain ⟨l', pre, post, e1, e2, e3, e4, e5, e6, e7, e8⟩ := ihl hb.1 i1 a x1
      obtain ⟨t', f1, f2, f3⟩ := fix_left hb e2 e3
      refine ⟨t', pre, post ++ (a, v) :: nodes r, ?_, f2, f3, ?_, ?_, ?_, e7, ?_⟩
      · rw [if_pos h1, e1]; simp [f1]
      · rintro ⟨rfl, q1, q2⟩
        exact linked_fix f1 ⟨rfl, e4 q1, q2⟩
      · simp [nodes, e5]
      · rw [nodes_fix f1]; simp [nodes, e6]
      · simp only [List.mem_append, List.mem_cons]
        rintro e (he | rfl | he)
        · exact e8 e he
        · exact hlt
        · exact lt_trans hlt (i4 e he)

/-! Depth and number of nodes. -/

theorem height_le {t : T V} (h : Bal t) :
    height t ≤ 2 * t.level ∧ (t.right.level < t.level → height t + 1 ≤ 2 * t.level) := by
  induction t with
  | nil => simp [height]
  | node a lv v p l r ihl ihr =>
    obtain ⟨h1, h2, h3, h4, h5⟩ := h
    have i1 := ihl h1
    have i2 := ihr h2
    simp only [height, level_node, right_node] at *
    have := h1.right_le
    have := h2.right_le
    have hm : max (height l) (height r) = height l ∨ max (height l) (height r) = height r := max_choice _ _
    generalize max (height l) (height r) = m at hm ⊢
    rcases hm with hm | hm <;> omega

theorem count_nodes (t : T V) : count t = (nodes t).length := by
  induction t with
  | nil => rfl
  | node a lv v p l r ihl ihr => simp [count, nodes, ihl, ihr]; omega

theorem level_count {t : T V} (h : Bal t) : 2 ^ t.level ≤ count t + 1 := by
  induction t with
  | nil => simp [count, level_nil, level_node]
  | node a lv v p l r ihl ihr =>
    obtain ⟨h1, h2, h3, h4, h5⟩ := h
    have i1 := ihl h1
    have i2 := ihr h2
    simp only [count, level_nil, level_node] at *
    have : 2 ^ l.level ≤ 2 ^ r.level := Nat.pow_le_pow_right (by omega) (by omega)
    rw [h3, Nat.pow_succ]
    omega

end Xrtm.AATree
