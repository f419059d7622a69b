import Verif.Spec.SaveTree
import Verif.Props.AATree

/-!
# Lemmas for C18
-/

namespace Xrtm.SaveTree

open AATree Spec

/-- `omega` where addresses are numbers. -/
macro "nat" : tactic => `(tactic| (simp only [AATree.Addr] at *; omega))

def key (v : Node) : Nat := v.hash.toNat

theorem comp_orders : Orders comp key := by
  constructor <;> intro x y <;> simp only [comp, key, BitVec.lt_def, gt_iff_lt] <;> split_ifs <;> omega

theorem key_eq {v w : Node} : key v = key w ↔ v.hash = w.hash := by
  simp [key, BitVec.toNat_inj]

/-- What holds of the store: the tree is sound, and its nodes have been given out. -/
structure Fit (st : Store) : Prop where
  good : Good key st.tree
  below : ∀ e ∈ nodes st.tree.base, e.1 < st.next ∧ e.2.d < st.next
  pos : 0 < st.next

theorem find_node {st : Store} (g : Good key st.tree) {a : Addr} {v : Node} (h : (a, v) ∈ nodes st.tree.base) (w : Node)
    (hw : w.hash = v.hash) : AATree.find comp w st.tree.base = some a ∧ record st.tree (some a) = .ok v.d := by
  have hf := C19_find comp_orders g w
  constructor
  · refine (hf.1 a).2 ⟨v, h, key_eq.2 hw.symm⟩
  · have := deref_value h g.live.1
    obtain ⟨lv, p, l, r, hd⟩ := this
    simp [record, hd]

theorem find_none {st : Store} (g : Good key st.tree) (w : Node) (h : ∀ e ∈ nodes st.tree.base, e.2.hash ≠ w.hash) :
    AATree.find comp w st.tree.base = none :=
  (C19_find comp_orders g w).2.2 fun e he hk => h e he (key_eq.1 hk)

/-- Inserting a node with a new hash. -/
theorem insert_new {st : Store} (g : Fit st) (v : Node) (hv : v.d < st.next) (h : ∀ e ∈ nodes st.tree.base, e.2.hash ≠ v.hash) :
    ∃ t, insertNode v st = .ok ({ st with tree := t, next := st.next + 1 }, some st.next) ∧
      Fit { st with tree := t, next := st.next + 1 } ∧
      (∀ e, e ∈ nodes t.base ↔ e ∈ nodes st.tree.base ∨ e = (st.next, v)) ∧ record t (some st.next) = .ok v.d := by
  have hn : st.next ∉ (nodes st.tree.base).map Prod.fst := by
    intro hm
    obtain ⟨e, he, h1⟩ := List.mem_map.1 hm
    have := (g.below e he).1
    nat
  have ha : ∀ e ∈ nodes st.tree.base, key e.2 ≠ key v := fun e he hk => h e he (key_eq.1 hk)
  obtain ⟨t, res, h1, h2, h3, -, h5⟩ := C19_insert comp_orders g.good hn (by have := g.pos; nat) v
  have hm : ∀ e, e ∈ nodes t.base ↔ e ∈ nodes st.tree.base ∨ e = (st.next, v) := by
    intro e
    rw [h3, mem_put g.good.inc]
    constructor
    · rintro (h | ⟨h, -⟩)
      · exact Or.inl h
      · exact Or.inr h
    · rintro (h | h)
      · exact Or.inl h
      · exact Or.inr ⟨h, ha⟩
  refine ⟨t, by simp [insertNode, h1, h5 ha], ⟨h2, ?_, by simp⟩, hm, ?_⟩
  · intro e he
    rcases (hm e).1 he with h | rfl
    · have := g.below e h
      exact ⟨by nat, by nat⟩
    · exact ⟨by nat, by nat⟩
  · obtain ⟨lv, p, l, r, hd⟩ := deref_value ((hm _).2 (Or.inr rfl)) h2.live.1
    simp [record, hd]

/-- The tree against the ledger: `f` is where the record of a place is. -/
structure Rec (f : Place → Addr) (own : List (Place × Place)) (st : Store) : Prop where
  fit : Fit st
  self : ∀ e ∈ own, (e.2, e.2) ∈ own
  inj : ∀ e ∈ own, ∀ e' ∈ own, f e.2 = f e'.2 → e.2 = e'.2
  lt : ∀ e ∈ own, f e.2 < st.next
  node : ∀ x ∈ nodes st.tree.base, ∃ e ∈ own, mark e.1 = x.2.hash ∧ f e.2 = x.2.d ∧ (x.2.isProxy = false ↔ e.1 = e.2)
  entry : ∀ e ∈ own, ∃ x ∈ nodes st.tree.base, x.2.hash = mark e.1 ∧ x.2.d = f e.2 ∧ (x.2.isProxy = false ↔ e.1 = e.2)

theorem Rec.withHash {f : Place → Addr} {own : List (Place × Place)} {st : Store} (r : Rec f own st) (g : Nat → Option ULong) :
    Rec f own { st with hash := g } :=
  ⟨⟨r.fit.good, r.fit.below, r.fit.pos⟩, r.self, r.inj, r.lt, r.node, r.entry⟩

theorem node_unique {es : List (Addr × Node)} (h : Increasing key es) {x y : Addr × Node} (hx : x ∈ es) (hy : y ∈ es)
    (he : x.2.hash = y.2.hash) : x = y := by
  have hk := key_eq.2 he
  obtain ⟨pre, post, rfl⟩ := List.append_of_mem hx
  obtain ⟨-, h2, h3⟩ := List.pairwise_append.1 h
  rcases List.mem_append.1 hy with hy | hy
  · have := h3 y hy x (by simp)
    omega
  · rcases List.mem_cons.1 hy with rfl | hy
    · rfl
    · have := (List.pairwise_cons.1 h2).1 y hy
      omega

variable {f : Place → Addr} {l : Ledger} {st : Store} {K : List Place}

theorem ledger_find_some {p q : Place} (h : l.find p = some q) : (p, q) ∈ l.owner := by
  simp only [Ledger.find, Option.map_eq_some_iff] at h
  obtain ⟨e, h1, h2⟩ := h
  have h3 := List.mem_of_find?_eq_some h1
  have h4 := List.find?_some h1
  simp only [decide_eq_true_eq] at h4
  rw [← h4, ← h2]
  exact h3

theorem ledger_find_none {p : Place} (h : l.find p = none) : ∀ e ∈ l.owner, e.1 ≠ p := by
  simp only [Ledger.find, Option.map_eq_none_iff, List.find?_eq_none, decide_eq_true_eq] at h
  exact h

theorem Rec.found {p q : Place} (r : Rec f l.owner st) (h : l.find p = some q) (w : Node) (hw : w.hash = mark p) :
    ∃ a, AATree.find comp w st.tree.base = some a ∧ record st.tree (some a) = .ok (f q) := by
  obtain ⟨x, h1, h2, h3, -⟩ := r.entry _ (ledger_find_some h)
  have := find_node r.fit.good (a := x.1) (v := x.2) h1 w (hw.trans h2.symm)
  exact ⟨x.1, this.1, h3 ▸ this.2⟩

theorem Rec.absent {p : Place} (r : Rec f l.owner st) (h : l.find p = none) (hK : ∀ e ∈ l.owner, mark e.1 = mark p → e.1 = p) :
    ∀ e ∈ nodes st.tree.base, e.2.hash ≠ mark p := by
  intro x hx hp
  obtain ⟨e, h1, h2, -⟩ := r.node x hx
  exact ledger_find_none h e h1 (hK e h1 (h2.trans hp))

theorem get_spec {p : Place} (r : Rec f l.owner st) (hK : ∀ e ∈ l.owner, mark e.1 = mark p → e.1 = p) :
    ∃ st' f', dataRetrieve (mark p) st = .ok (st', (l.get p).2.1, f' (l.get p).2.2) ∧ Rec f' (l.get p).1.owner st' ∧
      st'.hash = st.hash ∧ (∀ e ∈ l.owner, f' e.2 = f e.2) ∧ (∃ e ∈ (l.get p).1.owner, e.2 = (l.get p).2.2) ∧
      (∀ e ∈ (l.get p).1.owner, e ∈ l.owner ∨ e.1 = p) ∧ (∀ e ∈ l.owner, e ∈ (l.get p).1.owner) := by
  cases h : l.find p with
  | some q =>
    obtain ⟨a, h1, h2⟩ := r.found h ⟨false, mark p, 0⟩ rfl
    have hg : l.get p = (l, false, q) := by simp [Ledger.get, h]
    rw [hg]
    refine ⟨st, f, by simp only [dataRetrieve, h1, h2]; rfl, r, rfl, fun _ _ => rfl, ⟨_, ledger_find_some h, rfl⟩, fun e he => Or.inl he, fun e he => he⟩
  | none =>
    have hab := r.absent h hK
    have hg : l.get p = ({ l with owner := (p, p) :: l.owner }, true, p) := by simp [Ledger.get, h]
    have hfit : Fit { st with next := st.next + 1 } := ⟨r.fit.good, fun e he => by
      have := r.fit.below e he
      exact ⟨by nat, by nat⟩, by simp⟩
    obtain ⟨t, h1, h2, h3, h4⟩ := insert_new hfit ⟨false, mark p, st.next⟩ (by simp) hab
    have hnp : ∀ e ∈ l.owner, e.2 ≠ p := fun e he hp => ledger_find_none h _ (r.self e he) hp
    have hf : ∀ e ∈ l.owner, Function.update f p st.next e.2 = f e.2 := fun e he => Function.update_of_ne (hnp e he) _ _
    rw [hg]
    refine ⟨{ st with tree := t, next := st.next + 1 + 1 }, Function.update f p st.next, ?_, ?_, rfl, hf, ⟨_, List.mem_cons_self, rfl⟩, ?_, ?_⟩
    · have hn := find_none r.fit.good ⟨false, mark p, 0⟩ hab
      simp only [dataRetrieve, hn, h1, Function.update_self]
      show (do let v ← record t (some (st.next + 1)); _) = _
      simp only at h4
      rw [h4]
      rfl
    · refine ⟨h2, ?_, ?_, ?_, ?_, ?_⟩
      · intro e he
        rcases List.mem_cons.1 he with rfl | he
        · exact List.mem_cons_self
        · exact List.mem_cons_of_mem _ (r.self e he)
      · intro e he e' he' hee
        rcases List.mem_cons.1 he with rfl | he <;> rcases List.mem_cons.1 he' with rfl | he'
        · rfl
        · rw [hf e' he', Function.update_self] at hee
          have := r.lt e' he'
          nat
        · rw [hf e he, Function.update_self] at hee
          have := r.lt e he
          nat
        · rw [hf e he, hf e' he'] at hee
          exact r.inj e he e' he' hee
      · intro e he
        rcases List.mem_cons.1 he with rfl | he
        · simp only [Function.update_self]
          nat
        · rw [hf e he]
          have := r.lt e he
          nat
      · intro x hx
        rcases (h3 x).1 hx with hx | rfl
        · obtain ⟨e, e1, e2, e3, e4⟩ := r.node x hx
          exact ⟨e, List.mem_cons_of_mem _ e1, e2, by rw [hf e e1, e3], e4⟩
        · exact ⟨(p, p), List.mem_cons_self, rfl, by simp, by simp⟩
      · intro e he
        rcases List.mem_cons.1 he with rfl | he
        · exact ⟨_, (h3 _).2 (Or.inr rfl), rfl, by simp, by simp⟩
        · obtain ⟨x, e1, e2, e3, e4⟩ := r.entry e he
          exact ⟨x, (h3 x).2 (Or.inl e1), e2, by rw [hf e he, e3], e4⟩
    · intro e he
      rcases List.mem_cons.1 he with rfl | he
      · exact Or.inr rfl
      · exact Or.inl he
    · intro e he
      exact List.mem_cons_of_mem _ he

/-- The machine against the ledger. -/
structure Inv (f : Place → Addr) (l : Ledger) (m : State) : Prop where
  rc : Rec f l.owner m.st
  i : m.i = l.here.length
  deep : l.here.length ≤ 127
  hash : ∀ k ≤ l.here.length, m.st.hash k = some (mark (l.here.take k))
  saved : m.saved = l.callers.map fun p => (p.length : Int)
  chain : (l.here :: l.callers).Pairwise fun a b => b <+: a

theorem Inv.hashAt {m : State} (v : Inv f l m) : hashAt m.st m.i = .ok (mark l.here) := by
  have h := v.hash l.here.length le_rfl
  rw [List.take_length] at h
  have h2 := v.deep
  have : (0 : Int) ≤ m.i ∧ m.i < capacity := by rw [v.i]; simp [capacity]; omega
  simp only [SaveTree.hashAt, if_pos this]
  rw [v.i, Int.toNat_natCast, h]

theorem take_append_le {α : Type} {a : List α} {s : α} {k : Nat} (h : k ≤ a.length) : (a ++ [s]).take k = a.take k := by
  rw [List.take_append_of_le_length h]

theorem chain_weaken {a b : Place} {cs : List Place} (h : (a :: cs).Pairwise fun a b => b <+: a) (hp : ∀ c ∈ cs, c <+: b) :
    (b :: cs).Pairwise fun a b => b <+: a :=
  List.pairwise_cons.2 ⟨hp, (List.pairwise_cons.1 h).2⟩

theorem prefix_dropLast {a c : Place} (h : c <+: a) (hl : c.length < a.length) : c <+: a.dropLast := by
  obtain ⟨t, rfl⟩ := h
  have : t ≠ [] := by rintro rfl; simp at hl
  rw [List.dropLast_append_of_ne_nil this]
  exact List.prefix_append _ _

theorem head_longest {a : Place} {cs : List Place} (h : (a :: cs).Pairwise fun a b => b <+: a)
    (hl : (cs.head?.map List.length).getD 0 < a.length) : ∀ c ∈ cs, c.length < a.length := by
  cases cs with
  | nil => simp
  | cons b bs =>
    intro c hc
    simp only [List.head?_cons, Option.map_some, Option.getD_some] at hl
    rcases List.mem_cons.1 hc with rfl | hc
    · exact hl
    · have := (List.pairwise_cons.1 (List.pairwise_cons.1 h).2).1 c hc
      exact lt_of_le_of_lt this.length_le hl

/-- Places that have a record have been asked about. -/
def Within (K : List Place) (l : Ledger) : Prop := ∀ e ∈ l.owner, e.1 ∈ K

def Apart (K : List Place) : Prop := ∀ p ∈ K, ∀ q ∈ K, mark p = mark q → p = q

theorem mark_append (p : Place) (s : Str) : mark (p ++ [s]) = djb2 (mark p) s := by simp [mark]

/-- One operation. -/
theorem step_spec {m : State} {o : Op} {l' : Ledger} {r : Option (Bool × Place)} (v : Inv f l m) (hA : Apart K) (hW : Within K l)
    (hasked : ∀ p ∈ asked [o] l, p ∈ K) (hs : l.step o = some (l', r)) :
    ∃ m' f', step m o = .ok (m', r.map fun x => (x.1, f' x.2)) ∧ Inv f' l' m' ∧ Within K l' ∧
      (∀ e ∈ l.owner, f' e.2 = f e.2) ∧ (∀ e ∈ l.owner, e ∈ l'.owner) ∧ ∀ x ∈ r, ∃ e ∈ l'.owner, e.2 = x.2 := by
  cases o with
  | enc s =>
    simp only [Ledger.step] at hs
    split_ifs at hs with hlen
    obtain ⟨rfl, rfl⟩ := Prod.mk.inj (Option.some.inj hs)
    have hlt : m.i + 1 < capacity := by rw [v.i]; simp [capacity]; omega
    refine ⟨{ m with st := { m.st with hash := fun k => if k = (m.i + 1).toNat then some (djb2 (mark l.here) s) else m.st.hash k }, i := m.i + 1 },
      f, by simp only [step, encode, v.hashAt, if_pos hlt]; rfl, ⟨v.rc.withHash _, ?_, ?_, ?_, v.saved, ?_⟩, hW, fun _ _ => rfl, fun _ h => h, by simp⟩
    · simp [v.i]
    · simp; omega
    · intro k hk
      simp only [List.length_append, List.length_cons, List.length_nil] at hk
      have hi : (m.i + 1).toNat = l.here.length + 1 := by rw [v.i]; omega
      simp only [hi]
      by_cases hkk : k = l.here.length + 1
      · rw [if_pos hkk, hkk, List.take_of_length_le (by simp), mark_append]
      · rw [if_neg hkk, take_append_le (by omega), v.hash k (by omega)]
    · exact chain_weaken v.chain fun c hc => ((List.pairwise_cons.1 v.chain).1 c hc).trans (List.prefix_append _ _)
  | dec =>
    simp only [Ledger.step] at hs
    split_ifs at hs with hlen
    obtain ⟨rfl, rfl⟩ := Prod.mk.inj (Option.some.inj hs)
    have := head_longest v.chain hlen
    refine ⟨decode m, f, rfl, ⟨v.rc, ?_, ?_, ?_, v.saved, ?_⟩, hW, fun _ _ => rfl, fun _ h => h, by simp⟩
    · simp only [decode, v.i, List.length_dropLast]
      omega
    · have := v.deep
      simp only [List.length_dropLast]
      omega
    · intro k hk
      simp only [List.length_dropLast] at hk
      show m.st.hash k = _
      rw [v.hash k (by omega), List.dropLast_eq_take, List.take_take, min_eq_left (by omega)]
    · exact chain_weaken v.chain fun c hc => prefix_dropLast ((List.pairwise_cons.1 v.chain).1 c hc) (this c hc)
  | enter =>
    obtain ⟨rfl, rfl⟩ := Prod.mk.inj (Option.some.inj hs)
    refine ⟨_, f, rfl, ⟨v.rc, v.i, v.deep, v.hash, ?_, ?_⟩, hW, fun _ _ => rfl, fun _ h => h, by simp⟩
    · simp [v.i, v.saved]
    · refine List.pairwise_cons.2 ⟨?_, v.chain⟩
      intro c hc
      rcases List.mem_cons.1 hc with rfl | hc
      · exact List.prefix_rfl
      · exact (List.pairwise_cons.1 v.chain).1 c hc
  | leave =>
    simp only [Ledger.step] at hs
    cases hc : l.callers with
    | nil => simp [hc] at hs
    | cons p ps =>
      rw [hc] at hs
      obtain ⟨rfl, rfl⟩ := Prod.mk.inj (Option.some.inj hs)
      have hch := v.chain
      have hsv := v.saved
      rw [hc] at hch hsv
      have hp := (List.pairwise_cons.1 hch).1 p (by simp)
      have hpl := hp.length_le
      refine ⟨{ m with i := p.length, saved := ps.map fun p => (p.length : Int) }, f, ?_, ⟨v.rc, rfl, ?_, ?_, rfl, ?_⟩, hW, fun _ _ => rfl, fun _ h => h, by simp⟩
      · simp only [step, hsv, List.map_cons]
        rfl
      · have := v.deep
        simp only
        omega
      · intro k hk
        simp only at hk
        show m.st.hash k = _
        rw [v.hash k (by omega)]
        obtain ⟨t, ht⟩ := hp
        rw [← ht, List.take_append_of_le_length hk]
      · exact (List.pairwise_cons.1 hch).2
  | get =>
    have hh : l.here ∈ K := hasked _ (by simp [asked])
    obtain ⟨st', f', h1, h2, h3, h4, h5, h6, h7⟩ := get_spec (p := l.here) v.rc fun e he => hA _ (hW e he) _ hh
    simp only [Ledger.step] at hs
    obtain ⟨rfl, rfl⟩ := Prod.mk.inj (Option.some.inj hs)
    have hhere : (l.get l.here).1.here = l.here ∧ (l.get l.here).1.callers = l.callers := by
      unfold Ledger.get
      split <;> exact ⟨rfl, rfl⟩
    refine ⟨{ m with st := st' }, f', ?_, ⟨h2, ?_, ?_, ?_, ?_, ?_⟩, ?_, h4, h7, ?_⟩
    · simp only [step, retrieve, v.hashAt]
      show (do let r ← (do let x ← dataRetrieve (mark l.here) m.st; _); _) = _
      rw [h1]
      rfl
    · rw [hhere.1]; exact v.i
    · rw [hhere.1]; exact v.deep
    · rw [hhere.1]; intro k hk; show st'.hash k = _; rw [h3]; exact v.hash k hk
    · rw [hhere.2]; exact v.saved
    · rw [hhere.1, hhere.2]; exact v.chain
    · intro e he
      rcases h6 e he with h | h
      · exact hW e h
      · rw [h]; exact hh
    · rintro x hx
      rw [Option.mem_def] at hx
      obtain rfl := Option.some.inj hx
      exact h5
  | proxy s =>
    have hh : l.here ∈ K := hasked _ (by simp [asked])
    have hsK : [s] ∈ K := hasked _ (by simp [asked])
    simp only [Ledger.step] at hs
    split_ifs at hs with hne
    cases hf : l.find l.here with
    | some q =>
      rw [hf] at hs
      obtain ⟨rfl, rfl⟩ := Prod.mk.inj (Option.some.inj hs)
      obtain ⟨a, h1, h2⟩ := v.rc.found hf ⟨false, mark l.here, 0⟩ rfl
      refine ⟨m, f, ?_, v, hW, fun _ _ => rfl, fun _ h => h, ?_⟩
      · simp only [step, retrieveProxy, v.hashAt, bind, Except.bind, h1, h2]
        rfl
      · rintro x hx
        rw [Option.mem_def] at hx
        obtain rfl := Option.some.inj hx
        exact ⟨_, ledger_find_some hf, rfl⟩
    | none =>
      rw [hf] at hs
      obtain ⟨rfl, rfl⟩ := Prod.mk.inj (Option.some.inj hs)
      obtain ⟨st', f', h1, h2, h3, h4, h5, h6, h7⟩ := get_spec (p := [s]) v.rc fun e he => hA _ (hW e he) _ hsK
      have hhere : (l.get [s]).1.here = l.here ∧ (l.get [s]).1.callers = l.callers := by
        unfold Ledger.get
        split <;> exact ⟨rfl, rfl⟩
      obtain ⟨e5, he5, hq⟩ := h5
      have hm : mark [s] = djb2 5381 s := rfl
      rw [hm] at h1
      have hab0 := v.rc.absent hf fun e he => hA _ (hW e he) _ hh
      have hab : ∀ e ∈ nodes st'.tree.base, e.2.hash ≠ mark l.here := by
        intro x hx hp
        obtain ⟨e, e1, e2, -⟩ := h2.node x hx
        rcases h6 e e1 with h | h
        · exact ledger_find_none hf e h (hA _ (hW e h) _ hh (e2.trans hp))
        · rw [h] at e2
          exact hne (hA _ hsK _ hh (e2.trans hp)).symm
      have hself : l.here ≠ (l.get [s]).2.2 := by
        intro hc
        have := h2.self _ he5
        rw [hq, ← hc] at this
        rcases h6 _ this with h | h
        · exact ledger_find_none hf _ h rfl
        · exact hne h
      have hlt := h2.lt _ he5
      rw [hq] at hlt
      obtain ⟨t, i1, i2, i3, i4⟩ := insert_new h2.fit ⟨true, mark l.here, f' (l.get [s]).2.2⟩ hlt hab
      have hn := find_none v.rc.fit.good ⟨false, mark l.here, 0⟩ hab0
      refine ⟨{ m with st := { st' with tree := t, next := st'.next + 1 } }, f', ?_, ⟨⟨i2, ?_, ?_, ?_, ?_, ?_⟩, ?_, ?_, ?_, ?_, ?_⟩, ?_, h4, ?_, ?_⟩
      · simp only [step, retrieveProxy, v.hashAt, bind, Except.bind, hn, h1, i1, i4]
        rfl
      · intro e he
        rcases List.mem_cons.1 he with rfl | he
        · exact List.mem_cons_of_mem _ (hq ▸ h2.self _ he5)
        · exact List.mem_cons_of_mem _ (h2.self e he)
      · intro e he e' he' hee
        rcases List.mem_cons.1 he with rfl | he <;> rcases List.mem_cons.1 he' with rfl | he'
        · rfl
        · simp only at hee ⊢
          rw [← hq] at hee ⊢
          exact h2.inj _ he5 _ he' hee
        · simp only at hee ⊢
          rw [← hq] at hee ⊢
          exact h2.inj _ he _ he5 hee
        · exact h2.inj e he e' he' hee
      · intro e he
        show _ < st'.next + 1
        rcases List.mem_cons.1 he with rfl | he
        · exact Nat.lt_succ_of_lt hlt
        · exact Nat.lt_succ_of_lt (h2.lt e he)
      · intro x hx
        rcases (i3 x).1 hx with hx | rfl
        · obtain ⟨e, e1, e2⟩ := h2.node x hx
          exact ⟨e, List.mem_cons_of_mem _ e1, e2⟩
        · exact ⟨_, List.mem_cons_self, rfl, rfl, by simpa using hself⟩
      · intro e he
        rcases List.mem_cons.1 he with rfl | he
        · exact ⟨_, (i3 _).2 (Or.inr rfl), rfl, rfl, by simpa using hself⟩
        · obtain ⟨x, e1, e2⟩ := h2.entry e he
          exact ⟨x, (i3 x).2 (Or.inl e1), e2⟩
      · simp only [hhere.1]; exact v.i
      · simp only [hhere.1]; exact v.deep
      · simp only [hhere.1]; intro k hk; rw [h3]; exact v.hash k hk
      · simp only [hhere.2]; exact v.saved
      · simp only [hhere.1, hhere.2]; exact v.chain
      · intro e he
        rcases List.mem_cons.1 he with rfl | he
        · exact hh
        · rcases h6 e he with h | h
          · exact hW e h
          · rw [h]; exact hsK
      · intro e he
        exact List.mem_cons_of_mem _ (h7 e he)
      · rintro x hx
        rw [Option.mem_def] at hx
        obtain rfl := Option.some.inj hx
        exact ⟨_, List.mem_cons_self, rfl⟩

/-- Every record has been given out. -/
theorem step_owners {o : Op} {l' : Ledger} {r : Option (Bool × Place)} (hs : l.step o = some (l', r)) :
    ∀ e ∈ l'.owner, (∃ e' ∈ l.owner, e'.2 = e.2) ∨ ∃ x ∈ r, x.2 = e.2 := by
  intro e he
  cases o with
  | enc s =>
    simp only [Ledger.step] at hs
    split_ifs at hs
    obtain ⟨rfl, rfl⟩ := Prod.mk.inj (Option.some.inj hs)
    exact Or.inl ⟨e, he, rfl⟩
  | dec =>
    simp only [Ledger.step] at hs
    split_ifs at hs
    obtain ⟨rfl, rfl⟩ := Prod.mk.inj (Option.some.inj hs)
    exact Or.inl ⟨e, he, rfl⟩
  | enter =>
    obtain ⟨rfl, rfl⟩ := Prod.mk.inj (Option.some.inj hs)
    exact Or.inl ⟨e, he, rfl⟩
  | leave =>
    simp only [Ledger.step] at hs
    split at hs
    · cases hs
    · obtain ⟨rfl, rfl⟩ := Prod.mk.inj (Option.some.inj hs)
      exact Or.inl ⟨e, he, rfl⟩
  | get =>
    simp only [Ledger.step] at hs
    obtain ⟨rfl, rfl⟩ := Prod.mk.inj (Option.some.inj hs)
    unfold Ledger.get at he ⊢
    split at he
    · exact Or.inl ⟨e, he, rfl⟩
    · rename_i h
      rcases List.mem_cons.1 he with rfl | he
      · exact Or.inr ⟨_, rfl, by simp [h]⟩
      · exact Or.inl ⟨e, he, rfl⟩
  | proxy s =>
    simp only [Ledger.step] at hs
    split_ifs at hs
    split at hs
    · obtain ⟨rfl, rfl⟩ := Prod.mk.inj (Option.some.inj hs)
      exact Or.inl ⟨e, he, rfl⟩
    · obtain ⟨rfl, rfl⟩ := Prod.mk.inj (Option.some.inj hs)
      rcases List.mem_cons.1 he with rfl | he
      · exact Or.inr ⟨_, rfl, rfl⟩
      · unfold Ledger.get at he ⊢
        split at he
        · exact Or.inl ⟨e, he, rfl⟩
        · rename_i h
          rcases List.mem_cons.1 he with rfl | he
          · exact Or.inr ⟨_, rfl, by simp [h]⟩
          · exact Or.inl ⟨e, he, rfl⟩

theorem asked_cons {o : Op} {os : List Op} {l l' : Ledger} {r : Option (Bool × Place)} (hs : l.step o = some (l', r)) :
    asked (o :: os) l = asked [o] l ++ asked os l' := by
  simp [asked, hs]

/-- A run. -/
theorem run_spec {os : List Op} : ∀ {f : Place → Addr} {l l' : Ledger} {m : State} {rs : List (Bool × Place)}, Inv f l m → Apart K →
    Within K l → (∀ p ∈ asked os l, p ∈ K) → Ledger.run os l = some (l', rs) →
    ∃ m' f', run os m = .ok (m', rs.map fun x => (x.1, f' x.2)) ∧ Inv f' l' m' ∧
      (∀ e ∈ l.owner, f' e.2 = f e.2) ∧ (∀ e ∈ l.owner, e ∈ l'.owner) ∧ (∀ x ∈ rs, ∃ e ∈ l'.owner, e.2 = x.2) ∧
      ∀ e ∈ l'.owner, (∃ e' ∈ l.owner, e'.2 = e.2) ∨ ∃ x ∈ rs, x.2 = e.2 := by
  induction os with
  | nil =>
    intro f l l' m rs v _ _ _ h
    obtain ⟨rfl, rfl⟩ := Prod.mk.inj (Option.some.inj h)
    exact ⟨m, f, rfl, v, fun _ _ => rfl, fun _ h => h, by simp, fun e he => Or.inl ⟨e, he, rfl⟩⟩
  | cons o os ih =>
    intro f l l' m rs v hA hW hK h
    simp only [Ledger.run] at h
    cases hs : l.step o with
    | none => simp [hs] at h
    | some x =>
      obtain ⟨l1, r⟩ := x
      rw [hs] at h
      simp only at h
      cases hr : Ledger.run os l1 with
      | none => simp [hr] at h
      | some y =>
        obtain ⟨l2, rs'⟩ := y
        rw [hr] at h
        obtain ⟨rfl, rfl⟩ := Prod.mk.inj (Option.some.inj h)
        rw [asked_cons hs] at hK
        obtain ⟨m1, f1, a1, a2, a3, a4, a5, a6⟩ := step_spec v hA hW (fun p hp => hK p (List.mem_append_left _ hp)) hs
        obtain ⟨m2, f2, b1, b2, b3, b4, b5, b6⟩ := ih a2 hA a3 (fun p hp => hK p (List.mem_append_right _ hp)) hr
        refine ⟨m2, f2, ?_, b2, ?_, fun e he => b4 e (a5 e he), ?_, ?_⟩
        · simp only [run, a1, bind, Except.bind, b1, List.map_append, Except.ok.injEq, Prod.mk.injEq, true_and]
          congr 1
          cases r with
          | none => rfl
          | some x =>
            obtain ⟨e, e1, e2⟩ := a6 x rfl
            have := b3 e e1
            rw [e2] at this
            simp [this]
        · intro e he
          rw [b3 e (a5 e he), a4 e he]
        · intro x hx
          rcases List.mem_append.1 hx with hx | hx
          · obtain ⟨e, e1, e2⟩ := a6 x (by simpa using hx)
            exact ⟨e, b4 e e1, e2⟩
          · exact b5 x hx
        · intro e he
          rcases b6 e he with ⟨e', h1, h2⟩ | ⟨x, h1, h2⟩
          · rcases step_owners hs e' h1 with ⟨e'', h3, h4⟩ | ⟨x, h3, h4⟩
            · exact Or.inl ⟨e'', h3, h4.trans h2⟩
            · exact Or.inr ⟨x, List.mem_append_left _ (by simpa using h3), h4.trans h2⟩
          · exact Or.inr ⟨x, List.mem_append_right _ h1, h2⟩

theorem inv_init : Inv (fun _ => 0) Ledger.start init := by
  refine ⟨⟨⟨good_create, by simp [init, create, nodes], by simp [init]⟩, ?_, ?_, ?_, ?_, ?_⟩, rfl, by simp [Ledger.start], ?_, rfl, by simp [Ledger.start]⟩
  all_goals simp [Ledger.start, init, create, nodes, mark]

end Xrtm.SaveTree
