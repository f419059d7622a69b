import Verif.Proof.AATreeA

/-! Finding, walking along the tree, freeing it. -/

namespace Xrtm.AATree

open T Spec

variable {V K : Type} [LinearOrder K] {cmp : V → V → Int} {key : V → K}

theorem find_iff (ho : Orders cmp key) (x : V) (t : T V) (hi : Increasing key (nodes t)) (a : Addr) :
    find cmp x t = some a ↔ ∃ v, (a, v) ∈ nodes t ∧ key v = key x := by
  induction t with
  | nil => simp [find, nodes]
  | node b lv v p l r ihl ihr =>
    rw [nodes, increasing_node] at hi
    obtain ⟨i1, i2, i3, i4⟩ := hi
    rw [find]
    rcases lt_trichotomy (key x) (key v) with h | h | h
    · rw [if_pos ((ho.neg _ _).2 h), ihl i1]
      simp only [nodes, List.mem_append, List.mem_cons]
      constructor
      · rintro ⟨w, h1, h2⟩; exact ⟨w, Or.inl h1, h2⟩
      · rintro ⟨w, h1 | h1 | h1, h2⟩
        · exact ⟨w, h1, h2⟩
        · cases h1; rw [h2] at h; exact absurd h (lt_irrefl _)
        · have := i4 _ h1
          simp only [h2] at this
          exact absurd (lt_trans h this) (lt_irrefl _)
    · have h0 := (Orders.zero ho x v).2 h
      rw [if_neg (by omega), if_neg (by omega)]
      simp only [nodes, List.mem_append, List.mem_cons, Option.some.injEq]
      constructor
      · rintro rfl; exact ⟨v, Or.inr (Or.inl rfl), h.symm⟩
      · rintro ⟨w, h1 | h1 | h1, h2⟩
        · have := i3 _ h1
          simp only [h2, h] at this
          exact absurd this (lt_irrefl _)
        · cases h1; rfl
        · have := i4 _ h1
          simp only [h2, h] at this
          exact absurd this (lt_irrefl _)
    · have h0 := (ho.pos _ _).2 h
      rw [if_neg (by omega), if_pos h0, ihr i2]
      simp only [nodes, List.mem_append, List.mem_cons]
      constructor
      · rintro ⟨w, h1, h2⟩; exact ⟨w, Or.inr (Or.inr h1), h2⟩
      · rintro ⟨w, h1 | h1 | h1, h2⟩
        · have := i3 _ h1
          simp only [h2] at this
          exact absurd (lt_trans h this) (lt_irrefl _)
        · cases h1; rw [h2] at h; exact absurd h (lt_irrefl _)
        · exact ⟨w, h1, h2⟩

theorem print_nodes (t : T V) : print t = (nodes t).map Prod.snd := by
  induction t with
  | nil => rfl
  | node b lv v p l r ihl ihr => simp [print, nodes, ihl, ihr]

theorem empty_perm (t : T V) : (empty t).Perm (nodes t) := by
  induction t with
  | nil => exact .nil
  | node b lv v p l r ihl ihr =>
    rw [empty, nodes, List.append_assoc]
    refine ihl.append ?_
    exact (ihr.append_right _).trans (List.perm_append_singleton _ _)

theorem findMin_eq (t : T V) : findMin t = (nodes t).head?.map Prod.fst := by
  induction t with
  | nil => rfl
  | node b lv v p l r ihl ihr =>
    cases l with
    | nil => simp [findMin, nodes]
    | node =>
      rw [findMin, ihl]
      · simp [nodes, List.head?_append]
      · simp

theorem findMax_eq (t : T V) : findMax t = (nodes t).getLast?.map Prod.fst := by
  induction t with
  | nil => rfl
  | node b lv v p l r ihl ihr =>
    cases r with
    | nil => simp [findMax, nodes]
    | node =>
      rw [findMax, ihr]
      · simp [nodes, List.getLast?_append, List.getLast?_cons]
      · simp

/-- The subtree `s` of `w`, `d` steps down, with the nodes of `w` before and after those of `s`. -/
inductive Sub (w : T V) : Nat → T V → List (Addr × V) → List (Addr × V) → Prop
  | top : Sub w 0 w [] []
  | left {d a lv v p l r pre post} : Sub w d (node a lv v p l r) pre post → Sub w (d + 1) l pre ((a, v) :: nodes r ++ post)
  | right {d a lv v p l r pre post} : Sub w d (node a lv v p l r) pre post → Sub w (d + 1) r (pre ++ nodes l ++ [(a, v)]) post

theorem Sub.nodes {w s : T V} {d pre post} (h : Sub w d s pre post) : nodes w = pre ++ nodes s ++ post := by
  induction h with
  | top => simp
  | left _ ih => simpa [Spec.nodes] using ih
  | right _ ih => simpa [Spec.nodes] using ih

theorem deref_none {a : Addr} {t : T V} (h : a ∉ (nodes t).map Prod.fst) : deref a t = none := by
  induction t with
  | nil => rfl
  | node b lv v p l r ihl ihr =>
    simp only [nodes, List.map_append, List.map_cons, List.mem_append, List.mem_cons, not_or] at h
    rw [deref, if_neg (fun e => h.2.1 e.symm), ihl h.1, ihr h.2.2]
    rfl

theorem nodup_mid {xs ys zs : List (Addr × V)} (h : ((xs ++ ys ++ zs).map Prod.fst).Nodup) :
    (ys.map Prod.fst).Nodup ∧ (∀ a ∈ ys.map Prod.fst, a ∉ xs.map Prod.fst) ∧ (∀ a ∈ ys.map Prod.fst, a ∉ zs.map Prod.fst) := by
  simp only [List.map_append, List.nodup_append] at h
  obtain ⟨⟨h1, h2, h3⟩, h4, h5⟩ := h
  refine ⟨h2, ?_, ?_⟩
  · intro a ha hx; exact h3 a hx a ha rfl
  · intro a ha hx; exact h5 a (by simp only [List.mem_append]; exact Or.inr ha) a hx rfl

theorem Sub.deref_eq {w : T V} {d a lv v p l r pre post} (h : Sub w d (node a lv v p l r) pre post)
    (hn : ((Spec.nodes w).map Prod.fst).Nodup) : deref a w = some (node a lv v p l r) := by
  generalize hs : node a lv v p l r = s at h
  have key : ∀ x ∈ (Spec.nodes s).map Prod.fst, deref x w = AATree.deref x s := by
    clear hs
    induction h with
    | top => intros; rfl
    | @left d b lv' v' p' l' r' pre post h ih =>
      intro x hx
      have hnod := h.nodes ▸ hn
      obtain ⟨n1, -, -⟩ := nodup_mid hnod
      rw [ih x (by simp only [Spec.nodes, List.map_append, List.mem_append]; exact Or.inl hx)]
      rw [Spec.nodes] at n1
      have n2 := nodup_mid (xs := []) (ys := Spec.nodes l') (zs := (b, v') :: Spec.nodes r') (by simpa using n1)
      have hb : b ≠ x := by
        rintro rfl
        exact n2.2.2 b hx (by simp)
      have hr : x ∉ (Spec.nodes r').map Prod.fst := fun hc => n2.2.2 x hx (by simp only [List.map_cons, List.mem_cons]; exact Or.inr hc)
      rw [AATree.deref, if_neg hb, deref_none hr]
      simp
    | @right d b lv' v' p' l' r' pre post h ih =>
      intro x hx
      have hnod := h.nodes ▸ hn
      obtain ⟨n1, -, -⟩ := nodup_mid hnod
      rw [ih x (by simp only [Spec.nodes, List.map_append, List.map_cons, List.mem_append, List.mem_cons]; exact Or.inr (Or.inr hx))]
      rw [Spec.nodes] at n1
      have n2 := nodup_mid (xs := Spec.nodes l' ++ [(b, v')]) (ys := Spec.nodes r') (zs := []) (by simpa using n1)
      have hb : b ≠ x := by
        rintro rfl
        exact n2.2.1 b hx (by simp)
      have hr : x ∉ (Spec.nodes l').map Prod.fst := fun hc =>
        n2.2.1 x hx (by simp only [List.map_append, List.mem_append]; exact Or.inl hc)
      rw [AATree.deref, if_neg hb, deref_none hr]
      simp
  subst hs
  rw [key a (by simp [Spec.nodes]), AATree.deref, if_pos rfl]

theorem Sub.depth {w s : T V} {d pre post} (h : Sub w d s pre post) : d + count s ≤ count w := by
  induction h with
  | top => simp
  | left _ ih => simp only [count] at ih ⊢; omega
  | right _ ih => simp only [count] at ih ⊢; omega

theorem Sub.linked {w s : T V} {d pre post} (h : Sub w d s pre post) (hl : Linked 0 w) : ∃ q, Linked q s := by
  induction h with
  | top => exact ⟨0, hl⟩
  | left _ ih => obtain ⟨q, _, h, _⟩ := ih; exact ⟨_, h⟩
  | right _ ih => obtain ⟨q, _, _, h⟩ := ih; exact ⟨_, h⟩

/-- Every node has its subtree. -/
theorem exists_sub {w : T V} {pre post : List (Addr × V)} {a : Addr} {v : V} (h : nodes w = pre ++ (a, v) :: post)
    (hn : ((nodes w).map Prod.fst).Nodup) :
    ∃ d lv p l r pre' post', Sub w d (node a lv v p l r) pre' post' ∧ pre = pre' ++ nodes l ∧ post = nodes r ++ post' := by
  have : ∀ d s pre' post', Sub w d s pre' post' → (a, v) ∈ nodes s →
      ∃ d lv p l r pre' post', Sub w d (node a lv v p l r) pre' post' := by
    intro d s
    induction s generalizing d with
    | nil => intro _ _ _ h; simp [nodes] at h
    | node b lv u p l r ihl ihr =>
      intro pre' post' hs hm
      simp only [nodes, List.mem_append, List.mem_cons] at hm
      rcases hm with hm | hm | hm
      · exact ihl _ _ _ hs.left hm
      · cases hm; exact ⟨_, _, _, _, _, _, _, hs⟩
      · exact ihr _ _ _ hs.right hm
  obtain ⟨d, lv, p, l, r, pre', post', hs⟩ := this _ _ _ _ Sub.top (by rw [h]; simp)
  have e := hs.nodes
  rw [nodes] at e
  refine ⟨d, lv, p, l, r, pre', post', hs, ?_⟩
  have e2 : pre ++ (a, v) :: post = (pre' ++ nodes l) ++ (a, v) :: (nodes r ++ post') := by
    rw [← h, e]; simp
  have hnd : ((pre ++ (a, v) :: post).map Prod.fst).Nodup := h ▸ hn
  have hpre : (a, v) ∉ pre := by
    intro hc
    simp only [List.map_append, List.map_cons, List.nodup_append] at hnd
    exact hnd.2.2 a (List.mem_map_of_mem hc) a (by simp) rfl
  have hpre' : (a, v) ∉ pre' ++ nodes l := by
    intro hc
    rw [e2] at hnd
    simp only [List.map_append, List.map_cons, List.nodup_append] at hnd
    exact hnd.2.2 a (by rw [← List.map_append]; exact List.mem_map_of_mem hc) a (by simp) rfl
  clear hs e h hn hnd
  generalize pre' ++ nodes l = q at *
  generalize nodes r ++ post' = q2 at *
  induction pre generalizing q with
  | nil =>
    cases q with
    | nil => simpa using e2
    | cons y q => simp at e2; simp [e2.1] at hpre'
  | cons y pre ih =>
    cases q with
    | nil => simp at e2; simp [e2.1] at hpre
    | cons z q =>
      simp only [List.cons_append, List.cons.injEq] at e2
      simp only [List.mem_cons, not_or] at hpre hpre'
      obtain ⟨h1, h2⟩ := ih hpre.2 q hpre'.2 e2.2
      exact ⟨by rw [e2.1, h1], h2⟩

/-- The climb from the top of a subtree ends at the next node after it. -/
theorem climb_next (ho : Orders cmp key) {w s : T V} {d pre post} (h : Sub w d s pre post) (hn : ((nodes w).map Prod.fst).Nodup)
    (h0 : 0 ∉ (nodes w).map Prod.fst) (hi : Increasing key (nodes w)) (hl : Linked 0 w) (hs : s ≠ nil) (fuel : Nat) (hf : d < fuel) :
    climb (fun v pv => decide (cmp v pv < 0)) w fuel s.addr = .ok (post.head?.map Prod.fst) := by
  induction h generalizing fuel with
  | top =>
    cases w with
    | nil => exact absurd rfl hs
    | node a lv v p l r =>
      obtain ⟨rfl, -⟩ := hl
      obtain _ | fuel := fuel
      · omega
      have := Sub.deref_eq Sub.top hn
      simp [climb, addr, this]
  | @left d b lv v p l r pre post h ih =>
    obtain _ | fuel := fuel
    · omega
    cases l with
    | nil => exact absurd rfl hs
    | node a lv' v' p' l' r' =>
      have d1 := h.left.deref_eq hn
      have d2 := h.deref_eq hn
      obtain ⟨q, -, ⟨rfl, -⟩, -⟩ := h.linked hl
      have hb : p' ≠ 0 := by
        rintro rfl
        exact h0 (by rw [h.nodes]; simp [nodes])
      have hlt : key v' < key v := by
        rw [h.nodes, nodes] at hi
        have := List.pairwise_append.1 (List.pairwise_append.1 hi).1
        have := (increasing_node.1 this.2.1).2.2.1 (a, v') (by simp [nodes])
        exact this
      have hc := (ho.neg _ _).2 hlt
      simp [climb, addr, d1, d2, hb, hc]
  | @right d b lv v p l r pre post h ih =>
    obtain _ | fuel := fuel
    · omega
    cases r with
    | nil => exact absurd rfl hs
    | node a lv' v' p' l' r' =>
      have d1 := h.right.deref_eq hn
      have d2 := h.deref_eq hn
      obtain ⟨q, -, -, ⟨rfl, -⟩⟩ := h.linked hl
      have hb : p' ≠ 0 := by
        rintro rfl
        exact h0 (by rw [h.nodes]; simp [nodes])
      have hlt : key v < key v' := by
        rw [h.nodes, nodes] at hi
        have := List.pairwise_append.1 (List.pairwise_append.1 hi).1
        have := (increasing_node.1 this.2.1).2.2.2 (a, v') (by simp [nodes])
        exact this
      have hc : ¬ cmp v' v < 0 := fun hc => absurd (lt_trans hlt ((ho.neg _ _).1 hc)) (lt_irrefl _)
      have := ih (by simp) fuel (by omega)
      simp only [addr] at this
      simp [climb, addr, d1, d2, hb, hc, this]

/-- The same downwards. -/
theorem climb_prev (ho : Orders cmp key) {w s : T V} {d pre post} (h : Sub w d s pre post) (hn : ((nodes w).map Prod.fst).Nodup)
    (h0 : 0 ∉ (nodes w).map Prod.fst) (hi : Increasing key (nodes w)) (hl : Linked 0 w) (hs : s ≠ nil) (fuel : Nat) (hf : d < fuel) :
    climb (fun v pv => decide (cmp v pv > 0)) w fuel s.addr = .ok (pre.getLast?.map Prod.fst) := by
  induction h generalizing fuel with
  | top =>
    cases w with
    | nil => exact absurd rfl hs
    | node a lv v p l r =>
      obtain ⟨rfl, -⟩ := hl
      obtain _ | fuel := fuel
      · omega
      have := Sub.deref_eq Sub.top hn
      simp [climb, addr, this]
  | @right d b lv v p l r pre post h ih =>
    obtain _ | fuel := fuel
    · omega
    cases r with
    | nil => exact absurd rfl hs
    | node a lv' v' p' l' r' =>
      have d1 := h.right.deref_eq hn
      have d2 := h.deref_eq hn
      obtain ⟨q, -, -, ⟨rfl, -⟩⟩ := h.linked hl
      have hb : p' ≠ 0 := by
        rintro rfl
        exact h0 (by rw [h.nodes]; simp [nodes])
      have hlt : key v < key v' := by
        rw [h.nodes, nodes] at hi
        have := List.pairwise_append.1 (List.pairwise_append.1 hi).1
        have := (increasing_node.1 this.2.1).2.2.2 (a, v') (by simp [nodes])
        exact this
      have hc : cmp v' v > 0 := (ho.pos _ _).2 hlt
      simp [climb, addr, d1, d2, hb, hc]
  | @left d b lv v p l r pre post h ih =>
    obtain _ | fuel := fuel
    · omega
    cases l with
    | nil => exact absurd rfl hs
    | node a lv' v' p' l' r' =>
      have d1 := h.left.deref_eq hn
      have d2 := h.deref_eq hn
      obtain ⟨q, -, ⟨rfl, -⟩, -⟩ := h.linked hl
      have hb : p' ≠ 0 := by
        rintro rfl
        exact h0 (by rw [h.nodes]; simp [nodes])
      have hlt : key v' < key v := by
        rw [h.nodes, nodes] at hi
        have := List.pairwise_append.1 (List.pairwise_append.1 hi).1
        have := (increasing_node.1 this.2.1).2.2.1 (a, v') (by simp [nodes])
        exact this
      have hc : ¬ cmp v' v > 0 := fun hc => absurd (lt_trans hlt ((ho.pos _ _).1 hc)) (lt_irrefl _)
      have := ih (by simp) fuel (by omega)
      simp only [addr] at this
      simp [climb, addr, d1, d2, hb, hc, this]

theorem advance_eq (ho : Orders cmp key) {w : T V} {pre post : List (Addr × V)} {a : Addr} {v : V}
    (h : nodes w = pre ++ (a, v) :: post) (hv : Live (nodes w)) (hi : Increasing key (nodes w)) (hl : Linked 0 w) :
    advance cmp w a = .ok (post.head?.map Prod.fst) := by
  obtain ⟨d, lv, p, l, r, pre', post', hs, rfl, rfl⟩ := exists_sub h hv.1
  have hd := hs.deref_eq hv.1
  cases r with
  | nil =>
    have hdep := hs.depth
    have := climb_next ho hs hv.1 hv.2 hi hl (by simp) (count w) (by simp only [count] at hdep; omega)
    simp only [addr] at this
    simp [advance, hd, this, nodes]
  | node b lv' v' p' l' r' =>
    simp only [advance, hd]
    rw [findMin_eq]
    have : nodes (node b lv' v' p' l' r') ≠ [] := by simp [nodes]
    cases hc : nodes (node b lv' v' p' l' r') with
    | nil => exact absurd hc this
    | cons x xs => simp

theorem retreat_eq (ho : Orders cmp key) {w : T V} {pre post : List (Addr × V)} {a : Addr} {v : V}
    (h : nodes w = pre ++ (a, v) :: post) (hv : Live (nodes w)) (hi : Increasing key (nodes w)) (hl : Linked 0 w) :
    retreat cmp w a = .ok (pre.getLast?.map Prod.fst) := by
  obtain ⟨d, lv, p, l, r, pre', post', hs, rfl, rfl⟩ := exists_sub h hv.1
  have hd := hs.deref_eq hv.1
  cases l with
  | nil =>
    have hdep := hs.depth
    have := climb_prev ho hs hv.1 hv.2 hi hl (by simp) (count w) (by simp only [count] at hdep; omega)
    simp only [addr] at this
    simp [retreat, hd, this, nodes]
  | node b lv' v' p' l' r' =>
    simp only [retreat, hd]
    rw [findMax_eq]
    have : nodes (node b lv' v' p' l' r') ≠ [] := by simp [nodes]
    rw [List.getLast?_append_of_ne_nil _ this]

end Xrtm.AATree
