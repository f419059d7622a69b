import Verif.Proof.AATreeB

/-! Deletion. -/

namespace Xrtm.AATree

open T Spec

variable {V K : Type}

theorem nodes_setRight {t r t' : T V} (h : t.setRight r = some t') (hr : nodes r = nodes t.right) : nodes t' = nodes t := by
  cases t with
  | nil =>
    cases r with
    | nil => simp [setRight] at h; rw [← h]
    | node => simp [setRight] at h
  | node a lv v p l q =>
    simp only [setRight, Option.some.injEq] at h
    subst h
    simp only [right_node] at hr
    simp [nodes, hr]

theorem rebalance_node (a : Addr) (lv : Nat) (v : V) (p : Addr) (l r : T V) :
    rebalance (node a lv v p l r) =
      if l.level + 1 < lv ∨ r.level + 1 < lv then
        (if r.level > lv - 1 then r.setLevel (lv - 1) else some r).bind fun r =>
        (skew (node a (lv - 1) v p l r)).bind fun t => (skew t.right).bind fun s => (t.setRight s).bind fun t =>
        (skew t.right.right).bind fun s => (t.right.setRight s).bind fun s => (t.setRight s).bind fun t =>
        (split t).bind fun t => (split t.right).bind fun s => t.setRight s
      else some (node a lv v p l r) := by
  unfold rebalance
  simp only [left_node, right_node, level_node]
  split
  · simp only [Option.bind_eq_bind, Option.pure_def]
    split <;> rfl
  · rfl

theorem nodes_rebalance {t t' : T V} (h : rebalance t = some t') : nodes t' = nodes t := by
  cases t with
  | nil => simp [rebalance] at h; rw [← h]
  | node a lv v p l r =>
    rw [rebalance_node] at h
    split at h
    · simp only [Option.bind_eq_some_iff] at h
      obtain ⟨r1, h1, t1, h2, s1, h3, t2, h4, s2, h5, s3, h6, t3, h7, t4, h8, s4, h9, h10⟩ := h
      have hr : nodes r1 = nodes r := by
        split at h1
        · exact nodes_setLevel h1
        · simp at h1; rw [h1]
      have e1 := nodes_skew h2
      have e2 := nodes_setRight h4 (nodes_skew h3)
      have e3 := nodes_setRight h6 (nodes_skew h5)
      have e4 := nodes_setRight h7 e3
      have e5 := nodes_split h8
      have e6 := nodes_setRight h10 (nodes_split h9)
      rw [e6, e5, e4, e2, e1]
      simp [nodes, hr]
    · simp at h; rw [h]

theorem rebalance_bal {t : T V} (h : Bal t) : rebalance t = some t := by
  unfold rebalance
  rw [if_neg]
  · rfl
  · cases t with
    | nil => simp
    | node a lv v p l r =>
      obtain ⟨_, _, h3, h4, _⟩ := h
      simp only [left_node, right_node, level_node]
      omega

/-- How a deletion may change the level. -/
def Shrink (t t' : T V) : Prop :=
  (t'.level = t.level ∨ t'.level + 1 = t.level) ∧ (t'.level = t.level → t.right.level < t.level → t'.right.level < t'.level)

theorem Shrink.refl (t : T V) : Shrink t t := ⟨Or.inl rfl, fun _ h => h⟩

theorem skew_no {t : T V} (h : t.left.level ≠ t.level) : skew t = some t := if_neg h

theorem skew_yes {a lv v p a1 lv1 v1 p1} {l1 r1 r : T V} (h : lv1 = lv) :
    skew (node a lv v p (node a1 lv1 v1 p1 l1 r1) r) = some (node a1 lv1 v1 p l1 (node a lv v a1 (r1.setParent a) r)) := if_pos h

theorem split_no {t : T V} (h : t.right.right.level ≠ t.level) : split t = some t := if_neg h

theorem split_yes {a lv v p a2 lv2 v2 p2} {l l2 r2 : T V} (h : r2.level = lv) :
    split (node a lv v p l (node a2 lv2 v2 p2 l2 r2)) =
      some (node a2 (lv2 + 1) v2 p (node a lv v a2 l (l2.setParent a)) r2) := by
  simp [split, rotR, setLevel, h]

/-- The steps of `rebalance` one after the other. -/
theorem rebalance_steps {a lv v p} {l r t1 s2 t4 s4 : T V} (r1 : T V) (hc : l.level + 1 < lv ∨ r.level + 1 < lv)
    (h1 : (if r.level > lv - 1 then r.setLevel (lv - 1) else some r) = some r1)
    {b blv bv bp bl br} (h2 : skew (node a (lv - 1) v p l r1) = some (node b blv bv bp bl br))
    {c clv cv cp cl cr} (h3 : skew br = some (node c clv cv cp cl cr))
    (h5 : skew cr = some s2)
    (h8 : split (node b blv bv bp bl (node c clv cv cp cl s2)) = some t4)
    (h9 : split t4.right = some s4) (h10 : t4.setRight s4 = some t1) :
    rebalance (node a lv v p l r) = some t1 := by
  rw [rebalance_node, if_pos hc, h1]
  simp only [Option.bind_some, h2, right_node, h3, setRight, h5, h8, h9]
  exact h10

macro "bal" : tactic => `(tactic| (
  simp only [Bal, bal_setParent, level_setParent, right_setParent, level_node, right_node]
  grind [Bal, Bal.right_le]))

macro "shr" : tactic => `(tactic| (
  simp only [Shrink, level_node, right_node, level_setParent, right_setParent]
  grind))

theorem rebalance_left {a : Addr} {lv : Nat} {v : V} {p : Addr} {l l' r : T V} (h : Bal (node a lv v p l r)) (hl : Bal l')
    (g : Shrink l l') : ∃ t', rebalance (node a lv v p l' r) = some t' ∧ Bal t' ∧ Shrink (node a lv v p l r) t' := by
  obtain ⟨h1, h2, h3, h4, h5⟩ := h
  obtain ⟨g | g, -⟩ := g
  · have hb : Bal (node a lv v p l' r) := ⟨hl, h2, by omega, h4, h5⟩
    exact ⟨_, rebalance_bal hb, hb, Or.inl rfl, fun _ h => h⟩
  · obtain ⟨n, rfl⟩ : ∃ n, lv = n + 1 := ⟨l.level, h3⟩
    have hl' : l'.level + 1 = n := by omega
    have q0 : l'.level + 1 < n + 1 := by omega
    have q1 : l'.level ≠ n := by omega
    cases r with
    | nil => simp at h4; omega
    | node a2 lv2 v2 p2 l2 r2 =>
      obtain ⟨m1, m2, m3, m4, m5⟩ := h2
      simp only [level_node, right_node] at h4 h5
      rcases h4 with rfl | h4
      · -- the right child is on the level
        have e1 : l2.level = n := by omega
        have e2 : r2.level = n := by omega
        cases l2 with
        | nil => simp at e1; omega
        | node a3 lv3 v3 p3 l3 r3 =>
          obtain ⟨k1, k2, k3, k4, k5⟩ := m1
          simp only [level_node] at e1 m3
          subst e1
          have q2 : l3.level ≠ lv3 := by omega
          by_cases c : r3.level = lv3
          · cases r3 with
            | nil => simp at c; omega
            | node a4 lv4 v4 p4 l4 r4 =>
              simp only [level_node] at c
              subst c
              obtain ⟨j1, j2, j3, j4, j5⟩ := k2
              simp only [level_node, right_node] at k4 k5
              refine ⟨_, rebalance_steps (node a2 lv4 v2 p2 (node a3 lv4 v3 p3 l3 (node a4 lv4 v4 p4 l4 r4)) r2) (Or.inl q0) (by simp [setLevel]) (skew_no (by simpa using q1)) (skew_yes (by simp))
                (skew_yes (by simp)) (split_yes (by simp)) (split_yes (by simpa using e2)) rfl, ?_, ?_⟩
              · bal
              · shr
          · cases r2 with
            | nil => simp at e2; omega
            | node a4 lv4 v4 p4 l4 r4 =>
              obtain ⟨j1, j2, j3, j4, j5⟩ := m2
              simp only [level_node, right_node] at *
              by_cases c2 : r4.level = lv3
              · refine ⟨_, rebalance_steps (node a2 lv3 v2 p2 (node a3 lv3 v3 p3 l3 r3) (node a4 lv4 v4 p4 l4 r4)) (Or.inl q0) (by simp [setLevel]) (skew_no (by simpa using q1)) (skew_yes (by simp))
                  (skew_no (by simpa using c)) (split_yes (by simp)) (split_yes (by simpa using c2)) rfl, ?_, ?_⟩
                · bal
                · shr
              · refine ⟨_, rebalance_steps (node a2 lv3 v2 p2 (node a3 lv3 v3 p3 l3 r3) (node a4 lv4 v4 p4 l4 r4)) (Or.inl q0) (by simp [setLevel]) (skew_no (by simpa using q1)) (skew_yes (by simp))
                  (skew_no (by simpa using c)) (split_yes (by simp)) (split_no (by simpa using c2)) rfl, ?_, ?_⟩
                · bal
                · shr
      · have e : lv2 = n := by omega
        subst e
        have q2 : l2.level ≠ lv2 := by omega
        by_cases c : r2.level = lv2
        · cases r2 with
          | nil => simp at c; omega
          | node a4 lv4 v4 p4 l4 r4 =>
            simp only [level_node, right_node] at c m5
            have q4 : r4.right.level ≠ lv4 := by
              have := m2.2.1.right_le
              omega
            refine ⟨_, rebalance_steps _ (Or.inl q0) (if_neg (by simp)) (skew_no (by simpa using q1)) (skew_no (by simpa using q2))
              (skew_bal m2) (split_yes (by simpa using c)) (split_no (by simpa using q4)) rfl, ?_, ?_⟩
            · obtain ⟨j1, j2, j3, j4, j5⟩ := m2
              bal
            · shr
        · have q3 : r2.right.level ≠ lv2 := by have := m2.right_le; omega
          refine ⟨_, rebalance_steps _ (Or.inl q0) (if_neg (by simp)) (skew_no (by simpa using q1)) (skew_no (by simpa using q2))
              (skew_bal m2) (split_no (by simpa using c)) (split_no (by simpa using q3)) rfl, ?_, ?_⟩
          · bal
          · shr

theorem rebalance_right {a : Addr} {lv : Nat} {v : V} {p : Addr} {l r r' : T V} (h : Bal (node a lv v p l r)) (hr : Bal r')
    (g : Shrink r r') : ∃ t', rebalance (node a lv v p l r') = some t' ∧ Bal t' ∧ Shrink (node a lv v p l r) t' := by
  obtain ⟨h1, h2, h3, h4, h5⟩ := h
  by_cases hc : r'.level + 1 < lv
  · have e : r'.level + 2 = lv := by
      rcases g.1 with g | g <;> omega
    obtain ⟨n, rfl⟩ : ∃ n, lv = n + 1 := ⟨l.level, h3⟩
    have e1 : l.level = n := by omega
    have e2 : r'.level ≠ n := by omega
    have e3 : ¬ n < r'.level := by omega
    have e4 := hr.right_le
    have er : r.level = n := by
      rcases g.1 with g | g <;> omega
    cases l with
    | nil => simp at e1; omega
    | node a1 lv1 v1 p1 l1 r1 =>
      obtain ⟨k1, k2, k3, k4, k5⟩ := h1
      simp only [level_node] at e1
      subst e1
      by_cases c : r1.level = lv1
      · cases r1 with
        | nil => simp at c; omega
        | node a4 lv4 v4 p4 l4 r4 =>
          obtain ⟨j1, j2, j3, j4, j5⟩ := k2
          simp only [level_node, right_node] at c k5
          subst c
          have q4 : r'.right.level ≠ lv4 := by omega
          have q5 : r4.level ≠ lv4 := by omega
          refine ⟨_, rebalance_steps r' (Or.inr hc) (by simp [e3]) (skew_yes (by simp)) (skew_yes (by simp))
            (skew_no (by simpa using q5)) (split_yes (by simp)) (split_no (by simpa using q4)) rfl, ?_, ?_⟩
          · bal
          · shr
      · have q4 : r'.right.level ≠ lv1 := by omega
        refine ⟨_, rebalance_steps r' (Or.inr hc) (by simp [e3]) (skew_yes (by simp)) (skew_no (by simpa using c))
          (skew_bal hr) (split_no (by simpa using e2)) (split_no (by simpa using q4)) rfl, ?_, ?_⟩
        · bal
        · shr
  · have hb : Bal (node a lv v p l r') := by
      have := hr.right_le
      refine ⟨h1, hr, h3, ?_⟩
      obtain ⟨g | g, g'⟩ := g
      · rcases h4 with h4 | h4
        · have := g' g (by omega)
          omega
        · omega
      · omega
    refine ⟨_, rebalance_bal hb, hb, Or.inl rfl, fun _ h => ?_⟩
    simp only [right_node, level_node] at h ⊢
    rcases g.1 with g | g <;> omega

theorem Bal.leaf_left {a lv v p} {r : T V} (h : Bal (node a lv v p nil r)) : lv = 1 := by
  obtain ⟨_, _, h, _⟩ := h
  simpa using h

theorem Bal.leaf_right {a lv v p} {l : T V} (h : Bal (node a lv v p l nil)) : lv = 1 ∧ l = nil := by
  obtain ⟨h1, _, h, h2, _⟩ := h
  simp only [level_nil] at h2
  exact ⟨by omega, h1.zero (by omega)⟩

theorem bind_ok {α β : Type} {x : Except Fault α} {y : α} (f : α → Except Fault β) (h : x = .ok y) : x.bind f = f y := by
  rw [h]; rfl

variable [LinearOrder K] {cmp : V → V → Int} {key : V → K}

/-- The addresses of `l` are not that of the node above. -/
theorem nodup_node {a lv v p} {l r : T V} (h : ((nodes (node a lv v p l r)).map Prod.fst).Nodup) :
    ((nodes l).map Prod.fst).Nodup ∧ ((nodes r).map Prod.fst).Nodup ∧ a ∉ (nodes l).map Prod.fst ∧ a ∉ (nodes r).map Prod.fst := by
  simp only [nodes, List.map_append, List.map_cons, List.nodup_append, List.nodup_cons] at h
  obtain ⟨h1, ⟨h2, h3⟩, h4⟩ := h
  exact ⟨h1, h3, fun hc => h4 a hc a (by simp) rfl, h2⟩

/-- The key is that of a node above, all of `t` lies after it: the first node of `t` is taken out to replace it. -/
theorem delete_first (ho : Orders cmp key) (x : V) (b : Addr) (w : V) (hw : cmp x w = 0) (t : T V) (hb : Bal t)
    (hn : ((nodes t).map Prod.fst).Nodup) (hx : ∀ e ∈ nodes t, key x < key e.2) (ht : t ≠ nil) (last : Addr) :
    ∃ m u rest t', nodes t = (m, u) :: rest ∧
      deleteAux cmp x last (.at b w) t = .ok ⟨t', true, m, .null, some (b, u), some m⟩ ∧ nodes t' = rest ∧ Bal t' ∧ Shrink t t' := by
  induction t generalizing last with
  | nil => exact absurd rfl ht
  | node a lv v p l r ihl ihr =>
    obtain ⟨n1, n2, n3, n4⟩ := nodup_node hn
    have hc : cmp x v < 0 := (ho.neg _ _).2 (hx (a, v) (by simp [nodes]))
    by_cases hl : l = nil
    · subst hl
      obtain ⟨b1, b2, b3, b4, b5⟩ := hb
      refine ⟨a, v, nodes r, r, by simp [nodes], ?_, rfl, b2, ?_⟩
      · simp [deleteAux, hc, Except.bind, deleteEnd, hw]
      · simp only [Shrink, level_node, right_node, level_nil] at *
        exact ⟨by omega, fun _ _ => by omega⟩
    · obtain ⟨m, u, rest, l', e1, e2, e3, e4, e5⟩ := ihl hb.1 n1 (fun e he => hx e (by simp [nodes, he])) hl a
      obtain ⟨t', f1, f2, f3⟩ := rebalance_left hb e4 e5
      refine ⟨m, u, rest ++ (a, v) :: nodes r, t', by simp [nodes, e1], ?_, ?_, f2, f3⟩
      · have : a ≠ m := by
          rintro rfl
          exact n3 (by simp [e1])
        rw [deleteAux, if_pos hc, bind_ok _ e2]
        simp [deleteEnd, this, f1]
      · rw [nodes_rebalance f1]
        simp [nodes, e3]

/-- The key is not there and not above. -/
theorem delete_absent (ho : Orders cmp key) (x : V) (t : T V) (hb : Bal t) (hi : Increasing key (nodes t))
    (hn : ((nodes t).map Prod.fst).Nodup) (hx : ∀ e ∈ nodes t, key e.2 ≠ key x) (last : Addr) (D : Dele V)
    (hD : D = .null ∨ (∃ b w, D = .at b w ∧ cmp x w ≠ 0) ∨ ∃ e ∈ nodes t, key e.2 < key x) :
    ∃ m D', deleteAux cmp x last D t = .ok ⟨t, false, m, D', none, none⟩ ∧ (m = last ∧ t = nil ∨ m ∈ (nodes t).map Prod.fst) ∧
      (D' = D ∧ (∀ e ∈ nodes t, key x < key e.2) ∨ ∃ e ∈ nodes t, D' = .at e.1 e.2 ∧ key e.2 < key x) := by
  induction t generalizing last D with
  | nil => exact ⟨last, D, rfl, by simp, by simp [nodes]⟩
  | node a lv v p l r ihl ihr =>
    obtain ⟨n1, n2, n3, n4⟩ := nodup_node hn
    rw [nodes, increasing_node] at hi
    obtain ⟨i1, i2, i3, i4⟩ := hi
    simp only [nodes, List.mem_append, List.mem_cons, or_imp, forall_and, forall_eq] at hx
    obtain ⟨x1, x2, x3⟩ := hx
    have hre := rebalance_bal hb
    rcases lt_or_gt_of_ne x2 with hlt | hlt
    · have hc : ¬ cmp x v < 0 := fun h => absurd (lt_trans hlt ((ho.neg _ _).1 h)) (lt_irrefl _)
      have hz : cmp x v ≠ 0 := fun h => by rw [(Orders.zero ho x v).1 h] at hlt; exact absurd hlt (lt_irrefl _)
      obtain ⟨m, D', e1, e2, e3⟩ := ihr hb.2.1 i2 n2 x3 a (.at a v) (Or.inr (Or.inl ⟨a, v, rfl, hz⟩))
      refine ⟨m, D', ?_, ?_, ?_⟩
      · rw [deleteAux, if_neg hc, bind_ok _ e1]
        by_cases hm : a = m
        · subst hm
          rcases e3 with ⟨rfl, -⟩ | ⟨e, he, rfl, hk⟩
          · simp [deleteEnd, hz]
          · have : cmp x e.2 ≠ 0 := fun h => by rw [(Orders.zero ho x _).1 h] at hk; exact absurd hk (lt_irrefl _)
            simp [deleteEnd, this]
        · simp [deleteEnd, hm, hre]
      · refine Or.inr ?_
        simp only [nodes, List.map_append, List.map_cons, List.mem_append, List.mem_cons]
        rcases e2 with ⟨rfl, -⟩ | e2
        · exact Or.inr (Or.inl rfl)
        · exact Or.inr (Or.inr e2)
      · refine Or.inr ?_
        rcases e3 with ⟨rfl, -⟩ | ⟨e, he, rfl, hk⟩
        · exact ⟨(a, v), by simp [nodes], rfl, hlt⟩
        · exact ⟨e, by simp [nodes, he], rfl, hk⟩
    · have hc : cmp x v < 0 := (ho.neg _ _).2 hlt
      have hr : ∀ e ∈ nodes r, key x < key e.2 := fun e he => lt_trans hlt (i4 e he)
      have hD' : D = .null ∨ (∃ b w, D = .at b w ∧ cmp x w ≠ 0) ∨ ∃ e ∈ nodes l, key e.2 < key x := by
        rcases hD with h | h | ⟨e, he, hk⟩
        · exact Or.inl h
        · exact Or.inr (Or.inl h)
        · simp only [nodes, List.mem_append, List.mem_cons] at he
          rcases he with he | rfl | he
          · exact Or.inr (Or.inr ⟨e, he, hk⟩)
          · exact absurd (lt_trans hk hlt) (lt_irrefl _)
          · exact absurd (lt_trans hk (hr e he)) (lt_irrefl _)
      obtain ⟨m, D', e1, e2, e3⟩ := ihl hb.1 i1 n1 x1 a D hD'
      refine ⟨m, D', ?_, ?_, ?_⟩
      · rw [deleteAux, if_pos hc, bind_ok _ e1]
        by_cases hm : a = m
        · subst hm
          have hl : l = nil := by
            rcases e2 with ⟨-, h⟩ | h
            · exact h
            · exact absurd h n3
          subst hl
          rcases e3 with ⟨rfl, -⟩ | ⟨e, he, -⟩
          · rcases hD' with rfl | ⟨b, w, rfl, hw⟩ | ⟨e, he, -⟩
            · simp [deleteEnd]
            · simp [deleteEnd, hw]
            · simp [nodes] at he
          · simp [nodes] at he
        · simp [deleteEnd, hm, hre]
      · refine Or.inr ?_
        simp only [nodes, List.map_append, List.map_cons, List.mem_append, List.mem_cons]
        rcases e2 with ⟨rfl, -⟩ | e2
        · exact Or.inr (Or.inl rfl)
        · exact Or.inl e2
      · rcases e3 with ⟨rfl, h⟩ | ⟨e, he, rfl, hk⟩
        · refine Or.inl ⟨rfl, ?_⟩
          simp only [nodes, List.mem_append, List.mem_cons]
          rintro e (he | rfl | he)
          · exact h e he
          · exact hlt
          · exact hr e he
        · exact Or.inr ⟨e, by simp [nodes, he], rfl, hk⟩

/-- What is left of the nodes when the node `b` loses its value and the node `f` its place. -/
def Taken (pre post : List (Addr × V)) (b : Addr) (w : V) (es : List (Addr × V)) (u : V) (f : Addr) : Prop :=
  f = b ∧ es = pre ++ post ∨ ∃ post', post = (f, u) :: post' ∧ es = pre ++ (b, w) :: post'

/-- The key is there. -/
theorem delete_present (ho : Orders cmp key) (x : V) (t : T V) (hb : Bal t) (hi : Increasing key (nodes t))
    (hn : ((nodes t).map Prod.fst).Nodup) (hx : ∃ e ∈ nodes t, key e.2 = key x) (last : Addr) (D : Dele V) :
    ∃ pre b w post t' u f, nodes t = pre ++ (b, w) :: post ∧ key w = key x ∧
      deleteAux cmp x last D t = .ok ⟨t', true, f, .null, some (b, u), some f⟩ ∧ Taken pre post b w (nodes t') u f ∧
      Bal t' ∧ Shrink t t' ∧ f ∈ (nodes t).map Prod.fst := by
  induction t generalizing last D with
  | nil => simp [nodes] at hx
  | node a lv v p l r ihl ihr =>
    obtain ⟨n1, n2, n3, n4⟩ := nodup_node hn
    rw [nodes, increasing_node] at hi
    obtain ⟨i1, i2, i3, i4⟩ := hi
    rcases lt_trichotomy (key x) (key v) with hlt | heq | hlt
    · have hc : cmp x v < 0 := (ho.neg _ _).2 hlt
      have hx' : ∃ e ∈ nodes l, key e.2 = key x := by
        obtain ⟨e, he, hk⟩ := hx
        simp only [nodes, List.mem_append, List.mem_cons] at he
        rcases he with he | rfl | he
        · exact ⟨e, he, hk⟩
        · rw [hk] at hlt; exact absurd hlt (lt_irrefl _)
        · have := i4 e he
          rw [hk] at this
          exact absurd (lt_trans hlt this) (lt_irrefl _)
      obtain ⟨pre, b, w, post, l', u, f, e1, e2, e3, e4, e5, e6, e7⟩ := ihl hb.1 i1 n1 hx' a D
      obtain ⟨t', f1, f2, f3⟩ := rebalance_left hb e5 e6
      have ha : a ≠ f := by rintro rfl; exact n3 e7
      refine ⟨pre, b, w, post ++ (a, v) :: nodes r, t', u, f, by simp [nodes, e1], e2, ?_, ?_, f2, f3, ?_⟩
      · rw [deleteAux, if_pos hc, bind_ok _ e3]
        simp [deleteEnd, ha, f1]
      · rw [nodes_rebalance f1]
        rcases e4 with ⟨rfl, h⟩ | ⟨post', rfl, h⟩
        · exact Or.inl ⟨rfl, by simp [nodes, h]⟩
        · exact Or.inr ⟨post' ++ (a, v) :: nodes r, by simp, by simp [nodes, h]⟩
      · simp only [nodes, List.map_append, List.mem_append]
        exact Or.inl e7
    · have h0 := (Orders.zero ho x v).2 heq
      have hc : ¬ cmp x v < 0 := by omega
      by_cases hr : r = nil
      · subst hr
        obtain ⟨rfl, rfl⟩ := hb.leaf_right
        refine ⟨[], a, v, [], nil, v, a, by simp [nodes], heq.symm, ?_, Or.inl ⟨rfl, rfl⟩, trivial, ?_, by simp [nodes]⟩
        · rw [deleteAux, if_neg hc]
          simp [deleteAux, Except.bind, deleteEnd, h0]
        · simp [Shrink]
      · obtain ⟨m, u, rest, r', e1, e2, e3, e4, e5⟩ :=
          delete_first ho x a v h0 r hb.2.1 n2 (fun e he => heq ▸ i4 e he) hr a
        obtain ⟨t', f1, f2, f3⟩ := rebalance_right hb e4 e5
        have ha : a ≠ m := by rintro rfl; exact n4 (by simp [e1])
        refine ⟨nodes l, a, v, nodes r, t', u, m, by simp [nodes], heq.symm, ?_, ?_, f2, f3, ?_⟩
        · rw [deleteAux, if_neg hc, bind_ok _ e2]
          simp [deleteEnd, ha, f1]
        · rw [nodes_rebalance f1]
          exact Or.inr ⟨rest, e1, by simp [nodes, e3]⟩
        · simp [nodes, e1]
    · have hc : ¬ cmp x v < 0 := fun h => absurd (lt_trans hlt ((ho.neg _ _).1 h)) (lt_irrefl _)
      have hx' : ∃ e ∈ nodes r, key e.2 = key x := by
        obtain ⟨e, he, hk⟩ := hx
        simp only [nodes, List.mem_append, List.mem_cons] at he
        rcases he with he | rfl | he
        · have := i3 e he
          rw [hk] at this
          exact absurd (lt_trans hlt this) (lt_irrefl _)
        · rw [hk] at hlt; exact absurd hlt (lt_irrefl _)
        · exact ⟨e, he, hk⟩
      obtain ⟨pre, b, w, post, r', u, f, e1, e2, e3, e4, e5, e6, e7⟩ := ihr hb.2.1 i2 n2 hx' a (.at a v)
      obtain ⟨t', f1, f2, f3⟩ := rebalance_right hb e5 e6
      have ha : a ≠ f := by rintro rfl; exact n4 e7
      refine ⟨nodes l ++ (a, v) :: pre, b, w, post, t', u, f, by simp [nodes, e1], e2, ?_, ?_, f2, f3, ?_⟩
      · rw [deleteAux, if_neg hc, bind_ok _ e3]
        simp [deleteEnd, ha, f1]
      · rw [nodes_rebalance f1]
        rcases e4 with ⟨rfl, h⟩ | ⟨post', rfl, h⟩
        · exact Or.inl ⟨rfl, by simp [nodes, h]⟩
        · exact Or.inr ⟨post', by simp, by simp [nodes, h]⟩
      · simp only [nodes, List.map_append, List.map_cons, List.mem_append, List.mem_cons]
        exact Or.inr (Or.inr e7)

theorem bal_setVal (a : Addr) (x : V) (t : T V) : (setVal a x t).level = t.level ∧ (setVal a x t).right = setVal a x t.right := by
  cases t <;> simp [setVal]

theorem Bal.setVal {t : T V} (h : Bal t) (a : Addr) (x : V) : Bal (setVal a x t) := by
  induction t with
  | nil => exact h
  | node b lv v p l r ihl ihr =>
    obtain ⟨h1, h2, h3, h4, h5⟩ := h
    refine ⟨ihl h1, ihr h2, ?_, ?_, ?_⟩
    · rw [(bal_setVal a x l).1]; exact h3
    · rw [(bal_setVal a x r).1]; exact h4
    · rw [(bal_setVal a x r).2, (bal_setVal a x r.right).1]; exact h5

theorem nodes_setVal (a : Addr) (x : V) (t : T V) : nodes (setVal a x t) = (nodes t).map fun e => if e.1 = a then (e.1, x) else e := by
  induction t with
  | nil => rfl
  | node b lv v p l r ihl ihr =>
    simp only [setVal, nodes, ihl, ihr, List.map_append, List.map_cons]
    split <;> rfl

end Xrtm.AATree
