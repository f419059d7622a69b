import Verif.Spec.Work
import Mathlib.Tactic.SplitIfs
import Mathlib.Data.List.Range
import Mathlib.Data.List.Nodup

namespace Xrtm.Work

open Spec

theorem shape2_eq (w : Sizes) (t : WType) : shape2 w t = shape1 w t := by cases t <;> rfl

theorem shape3_eq (w : Sizes) (t : WType) : shape3 w t = shape1 w t := by cases t <;> rfl

theorem lt_grow (i n : Nat) : i < grow i n := by
  unfold grow listInc; split_ifs <;> omega

theorem le_grow (i n : Nat) : n ≤ grow i n := by
  unfold grow listInc; split_ifs <;> omega

/-- The lists hold different objects of the right sizes, and between them every object there is. `n` and `nV` are the lengths. -/
structure Inv (l : Lists) (n : WType → Nat) (nV : VType → Nat) : Prop where
  cap : ∀ t, n t ≤ l.cap t
  capV : ∀ v, nV v ≤ l.capV v
  arr : ∀ t j, j < n t → ∃ a, l.data t j = some a ∧ a < l.fresh ∧ l.obj a = some (.array (shape1 l.w t))
  tab : ∀ v j, j < nV v → ∃ a, l.dataV v j = some a ∧ a < l.fresh ∧ l.obj a = some (.table (width l.w v))
  inj : ∀ t j t' j', j < n t → j' < n t' → l.data t j = l.data t' j' → t = t' ∧ j = j'
  injV : ∀ v j v' j', j < nV v → j' < nV v' → l.dataV v j = l.dataV v' j' → v = v' ∧ j = j'
  all : ∀ a < l.fresh, (∃ t j, j < n t ∧ l.data t j = some a) ∨ (∃ v j, j < nV v ∧ l.dataV v j = some a)

/-- Nothing that was there has changed. -/
structure Ext (l l' : Lists) (n : WType → Nat) (nV : VType → Nat) : Prop where
  w : l'.w = l.w
  data : ∀ t j, j < n t → l'.data t j = l.data t j
  dataV : ∀ v j, j < nV v → l'.dataV v j = l.dataV v j
  obj : ∀ a < l.fresh, l'.obj a = l.obj a
  fresh : l.fresh ≤ l'.fresh

theorem Ext.refl (l : Lists) (n nV) : Ext l l n nV := ⟨rfl, fun _ _ _ => rfl, fun _ _ _ => rfl, fun _ _ => rfl, le_rfl⟩

theorem Ext.trans {l l' l'' n nV m mV} (h : Ext l l' n nV) (h' : Ext l' l'' m mV) (hn : ∀ t, n t ≤ m t) (hv : ∀ v, nV v ≤ mV v) :
    Ext l l'' n nV :=
  ⟨h'.w.trans h.w, fun t j hj => (h'.data t j (hj.trans_le (hn t))).trans (h.data t j hj),
    fun v j hj => (h'.dataV v j (hj.trans_le (hv v))).trans (h.dataV v j hj),
    fun a ha => (h'.obj a (ha.trans_le h.fresh)).trans (h.obj a ha), h.fresh.trans h'.fresh⟩

theorem le_update {α : Type} [DecidableEq α] (n : α → Nat) (t : α) (k : Nat) (hk : n t ≤ k) (t' : α) :
    n t' ≤ Function.update n t k t' := by
  by_cases h : t' = t
  · subst h; simpa using hk
  · simp [h]

theorem alloc_inv {l : Lists} {n nV} (h : Inv l n nV) {t : WType} (hc : n t < l.cap t) :
    ∃ l', l.alloc t (shape1 l.w t) (n t) = .ok l' ∧ Inv l' (Function.update n t (n t + 1)) nV ∧ Ext l l' n nV ∧
      l'.cap = l.cap ∧ l'.capV = l.capV ∧ l'.n = l.n ∧ l'.nV = l.nV ∧ l'.dataV = l.dataV ∧ l'.slot = l.slot := by
  refine ⟨_, if_pos hc, ?_, ?_, rfl, rfl, rfl, rfl, rfl, rfl⟩
  · have key : ∀ t' j, j < Function.update n t (n t + 1) t' →
        (t' = t ∧ j = n t) ∨ (j < n t' ∧ ¬ (t' = t ∧ j = n t)) := by
      intro t' j hj
      by_cases ht : t' = t
      · subst ht; rw [Function.update_self] at hj
        rcases Nat.lt_succ_iff_lt_or_eq.1 hj with hj | hj
        · exact Or.inr ⟨hj, fun h => absurd h.2 (Nat.ne_of_lt hj)⟩
        · exact Or.inl ⟨rfl, hj⟩
      · simp only [Function.update_of_ne ht] at hj
        exact Or.inr ⟨hj, fun h => ht h.1⟩
    have dnew : ∀ t' j, (t' = t ∧ j = n t) →
        Function.update l.data t (Function.update (l.data t) (n t) (some l.fresh)) t' j = some l.fresh := by
      rintro t' j ⟨rfl, rfl⟩; simp
    have dold : ∀ t' j, ¬ (t' = t ∧ j = n t) →
        Function.update l.data t (Function.update (l.data t) (n t) (some l.fresh)) t' j = l.data t' j := by
      intro t' j hn
      by_cases ht : t' = t
      · subst ht
        have : j ≠ n t' := fun h => hn ⟨rfl, h⟩
        simp [this]
      · simp [ht]
    constructor
    · intro t'
      by_cases ht : t' = t
      · subst ht; simp only [Function.update_self]; exact hc
      · simp only [Function.update_of_ne ht]; exact h.cap t'
    · exact h.capV
    · intro t' j hj
      rcases key t' j hj with ht | ⟨hj', ht⟩
      · refine ⟨l.fresh, dnew _ _ ht, Nat.lt_succ_self _, ?_⟩
        obtain ⟨rfl, -⟩ := ht
        simp
      · obtain ⟨a, h1, h2, h3⟩ := h.arr t' j hj'
        refine ⟨a, (dold _ _ ht).trans h1, Nat.lt_succ_of_lt h2, ?_⟩
        simp only [Function.update_of_ne (Nat.ne_of_lt h2)]; exact h3
    · intro v j hj
      obtain ⟨a, h1, h2, h3⟩ := h.tab v j hj
      refine ⟨a, h1, Nat.lt_succ_of_lt h2, ?_⟩
      simp only [Function.update_of_ne (Nat.ne_of_lt h2)]; exact h3
    · intro t1 j1 t2 j2 hj1 hj2 he
      simp only at he
      rcases key t1 j1 hj1 with h1 | ⟨h1', h1⟩ <;> rcases key t2 j2 hj2 with h2 | ⟨h2', h2⟩
      · exact ⟨h1.1.trans h2.1.symm, h1.2.trans h2.2.symm⟩
      · rw [dnew _ _ h1, dold _ _ h2] at he
        obtain ⟨a, e1, e2, -⟩ := h.arr _ _ h2'
        rw [e1] at he; simp only [Option.some.injEq] at he; omega
      · rw [dold _ _ h1, dnew _ _ h2] at he
        obtain ⟨a, e1, e2, -⟩ := h.arr _ _ h1'
        rw [e1] at he; simp only [Option.some.injEq] at he; omega
      · rw [dold _ _ h1, dold _ _ h2] at he
        exact h.inj _ _ _ _ h1' h2' he
    · exact h.injV
    · intro a ha
      simp only at ha ⊢
      rcases Nat.lt_succ_iff_lt_or_eq.1 ha with ha | rfl
      · rcases h.all a ha with ⟨t', j, hj, he⟩ | h'
        · refine Or.inl ⟨t', j, hj.trans_le (le_update n t _ (Nat.le_succ _) t'), ?_⟩
          rw [dold]
          · exact he
          · rintro ⟨rfl, rfl⟩; omega
        · exact Or.inr h'
      · exact Or.inl ⟨t, n t, by simp, dnew _ _ ⟨rfl, rfl⟩⟩
  · refine ⟨rfl, fun t' j hj => ?_, fun _ _ _ => rfl, fun a ha => ?_, Nat.le_succ _⟩
    · by_cases ht : t' = t
      · subst ht; simp [Nat.ne_of_lt hj]
      · simp [ht]
    · simp [Nat.ne_of_lt ha]

theorem allocV_inv {l : Lists} {n nV} (h : Inv l n nV) {v : VType} (hc : nV v < l.capV v) :
    ∃ l', l.allocV v (width l.w v) (nV v) = .ok l' ∧ Inv l' n (Function.update nV v (nV v + 1)) ∧ Ext l l' n nV ∧
      l'.cap = l.cap ∧ l'.capV = l.capV ∧ l'.n = l.n ∧ l'.nV = l.nV ∧ l'.data = l.data ∧ l'.slot = l.slot := by
  refine ⟨_, if_pos hc, ?_, ?_, rfl, rfl, rfl, rfl, rfl, rfl⟩
  · have key : ∀ t' j, j < Function.update nV v (nV v + 1) t' →
        (t' = v ∧ j = nV v) ∨ (j < nV t' ∧ ¬ (t' = v ∧ j = nV v)) := by
      intro t' j hj
      by_cases ht : t' = v
      · subst ht; rw [Function.update_self] at hj
        rcases Nat.lt_succ_iff_lt_or_eq.1 hj with hj | hj
        · exact Or.inr ⟨hj, fun h => absurd h.2 (Nat.ne_of_lt hj)⟩
        · exact Or.inl ⟨rfl, hj⟩
      · simp only [Function.update_of_ne ht] at hj
        exact Or.inr ⟨hj, fun h => ht h.1⟩
    have dnew : ∀ t' j, (t' = v ∧ j = nV v) →
        Function.update l.dataV v (Function.update (l.dataV v) (nV v) (some l.fresh)) t' j = some l.fresh := by
      rintro t' j ⟨rfl, rfl⟩; simp
    have dold : ∀ t' j, ¬ (t' = v ∧ j = nV v) →
        Function.update l.dataV v (Function.update (l.dataV v) (nV v) (some l.fresh)) t' j = l.dataV t' j := by
      intro t' j hn
      by_cases ht : t' = v
      · subst ht
        have : j ≠ nV t' := fun h => hn ⟨rfl, h⟩
        simp [this]
      · simp [ht]
    constructor
    · exact h.cap
    · intro t'
      by_cases ht : t' = v
      · subst ht; simp only [Function.update_self]; exact hc
      · simp only [Function.update_of_ne ht]; exact h.capV t'
    · intro v j hj
      obtain ⟨a, h1, h2, h3⟩ := h.arr v j hj
      refine ⟨a, h1, Nat.lt_succ_of_lt h2, ?_⟩
      simp only [Function.update_of_ne (Nat.ne_of_lt h2)]; exact h3
    · intro t' j hj
      rcases key t' j hj with ht | ⟨hj', ht⟩
      · refine ⟨l.fresh, dnew _ _ ht, Nat.lt_succ_self _, ?_⟩
        obtain ⟨rfl, -⟩ := ht
        simp
      · obtain ⟨a, h1, h2, h3⟩ := h.tab t' j hj'
        refine ⟨a, (dold _ _ ht).trans h1, Nat.lt_succ_of_lt h2, ?_⟩
        simp only [Function.update_of_ne (Nat.ne_of_lt h2)]; exact h3
    · exact h.inj
    · intro t1 j1 t2 j2 hj1 hj2 he
      simp only at he
      rcases key t1 j1 hj1 with h1 | ⟨h1', h1⟩ <;> rcases key t2 j2 hj2 with h2 | ⟨h2', h2⟩
      · exact ⟨h1.1.trans h2.1.symm, h1.2.trans h2.2.symm⟩
      · rw [dnew _ _ h1, dold _ _ h2] at he
        obtain ⟨a, e1, e2, -⟩ := h.tab _ _ h2'
        rw [e1] at he; simp only [Option.some.injEq] at he; omega
      · rw [dold _ _ h1, dnew _ _ h2] at he
        obtain ⟨a, e1, e2, -⟩ := h.tab _ _ h1'
        rw [e1] at he; simp only [Option.some.injEq] at he; omega
      · rw [dold _ _ h1, dold _ _ h2] at he
        exact h.injV _ _ _ _ h1' h2' he
    · intro a ha
      simp only at ha ⊢
      rcases Nat.lt_succ_iff_lt_or_eq.1 ha with ha | rfl
      · rcases h.all a ha with h' | ⟨t', j, hj, he⟩
        · exact Or.inl h'
        · refine Or.inr ⟨t', j, hj.trans_le (le_update nV v _ (Nat.le_succ _) t'), ?_⟩
          rw [dold]
          · exact he
          · rintro ⟨rfl, rfl⟩; omega
      · exact Or.inr ⟨v, nV v, by simp, dnew _ _ ⟨rfl, rfl⟩⟩
  · refine ⟨rfl, fun _ _ _ => rfl, fun t' j hj => ?_, fun a ha => ?_, Nat.le_succ _⟩
    · by_cases ht : t' = v
      · subst ht; simp [Nat.ne_of_lt hj]
      · simp [ht]
    · simp [Nat.ne_of_lt ha]

/-- The lengths written in the lists play no part. -/
theorem Inv.len {l : Lists} {n nV} (h : Inv l n nV) (m mV) : Inv { l with n := m, nV := mV } n nV := ⟨h.1, h.2, h.3, h.4, h.5, h.6, h.7⟩

theorem Inv.room {l : Lists} {n nV} (h : Inv l n nV) {c cV} (hc : ∀ t, l.cap t ≤ c t) (hv : ∀ v, l.capV v ≤ cV v) :
    Inv { l with cap := c, capV := cV } n nV :=
  ⟨fun t => (h.1 t).trans (hc t), fun v => (h.2 v).trans (hv v), h.3, h.4, h.5, h.6, h.7⟩

/-- What every request leaves alone. -/
structure Grown (l l' : Lists) : Prop where
  inv : Inv l' l'.n l'.nV
  ext : Ext l l' l.n l.nV
  n : ∀ t, l.n t ≤ l'.n t
  nV : ∀ v, l.nV v ≤ l'.nV v

theorem Grown.refl {l : Lists} (h : Inv l l.n l.nV) : Grown l l := ⟨h, Ext.refl .., fun _ => le_rfl, fun _ => le_rfl⟩

theorem Grown.trans {l l' l''} (h : Grown l l') (h' : Grown l' l'') : Grown l l'' :=
  ⟨h'.inv, h.ext.trans h'.ext h.n h.nV, fun t => (h.n t).trans (h'.n t), fun v => (h.nV v).trans (h'.nV v)⟩

theorem addOne_grown {l : Lists} (h : Inv l l.n l.nV) (t : WType) :
    ∃ l', l.addOne t (shape1 l.w t) (l.n t) = .ok l' ∧ Grown l l' ∧ l.n t < l'.n t ∧ l'.slot = l.slot ∧ l'.nV = l.nV := by
  have h0 : Inv { l with cap := Function.update l.cap t (grow (l.n t) (l.cap t)) } l.n l.nV :=
    h.room (le_update _ _ _ (le_grow _ _)) (fun _ => le_rfl)
  obtain ⟨l', e, i, x, c1, c2, c3, c4, c5, c6⟩ := alloc_inv h0 (t := t) (by simpa using lt_grow _ _)
  refine ⟨{ l' with n := Function.update l'.n t (l'.n t + 1) }, ?_, ⟨?_, ?_, ?_, ?_⟩, ?_, c6, c4⟩
  · simp only [Lists.addOne, e]
  · have := i.len (Function.update l'.n t (l'.n t + 1)) l'.nV
    simp only at c3 c4
    rw [c3, c4] at *
    exact this
  · exact ⟨x.w, x.data, x.dataV, x.obj, x.fresh⟩
  · intro t'; simp only at c3; simp only [c3]; exact le_update _ _ _ (Nat.le_succ _) t'
  · intro v; simp only at c4; simp only [c4]; exact le_rfl
  · simp only at c3; simp [c3]

theorem addMany_inv {l : Lists} {n nV} (h : Inv l n nV) {t : WType} (k : Nat) (hc : n t + k ≤ l.cap t) :
    ∃ l', l.addMany t (shape1 l.w t) (n t) k = .ok l' ∧ Inv l' (Function.update n t (n t + k)) nV ∧ Ext l l' n nV ∧
      l'.n = l.n ∧ l'.nV = l.nV ∧ l'.slot = l.slot ∧ l'.dataV = l.dataV := by
  induction k generalizing l n with
  | zero => exact ⟨l, rfl, by simpa using h, Ext.refl .., rfl, rfl, rfl, rfl⟩
  | succ k ih =>
    obtain ⟨l1, e, i, x, c1, c2, c3, c4, c5, c6⟩ := alloc_inv h (t := t) (by omega)
    obtain ⟨l2, e2, i2, x2, d1, d2, d3, d4⟩ := ih i (by rw [c1]; simp only [Function.update_self]; omega)
    refine ⟨l2, ?_, ?_, x.trans x2 (le_update _ _ _ (Nat.le_succ _)) (fun _ => le_rfl), d1.trans c3, d2.trans c4, d3.trans c6,
      d4.trans c5⟩
    · simp only [Lists.addMany, e]
      rw [x.w] at e2
      simpa using e2
    · simp only [Function.update_self, Function.update_idem] at i2
      rw [show n t + (k + 1) = n t + 1 + k by omega]
      exact i2

theorem ensure_grown {l : Lists} (h : Inv l l.n l.nV) (t : WType) {i : Nat} (hi : i ≤ l.n t) (count : Nat) :
    ∃ l', l.ensure t (shape1 l.w t) i count = .ok l' ∧ Grown l l' ∧ i + count ≤ l'.n t ∧ l'.slot = l.slot ∧ l'.nV = l.nV ∧
      l'.dataV = l.dataV := by
  unfold Lists.ensure
  split_ifs with hg
  · have h0 : Inv { l with cap := Function.update l.cap t (grow (i + count - 1) (l.cap t)) } l.n l.nV :=
      h.room (le_update _ _ _ (le_grow _ _)) (fun _ => le_rfl)
    have := lt_grow (i + count - 1) (l.cap t)
    obtain ⟨l', e, iv, x, c1, c2, c3, c4⟩ := addMany_inv h0 (t := t) (i + count - l.n t)
      (by simp only [Function.update_self]; omega)
    simp only at c1 c2 c3 c4
    have hle : l.n t + (i + count - l.n t) = i + count := by omega
    refine ⟨{ l' with n := Function.update l'.n t (i + count) }, ?_, ⟨?_, ?_, ?_, ?_⟩, ?_, c3, c2, c4⟩
    · simp only [e]
    · have := iv.len (Function.update l'.n t (i + count)) l'.nV
      rw [hle] at this
      rw [c1, c2] at *
      exact this
    · exact ⟨x.w, x.data, x.dataV, x.obj, x.fresh⟩
    · intro t'; simp only [c1]; exact le_update _ _ _ (by omega) t'
    · intro v; simp only [c2]; exact le_rfl
    · simp
  · exact ⟨l, rfl, Grown.refl h, by omega, rfl, rfl, rfl⟩

theorem get1_ok {l : Lists} (h : Inv l l.n l.nV) {x : Index} (t : WType) (hi : x.i t ≤ l.n t) :
    ∃ l' a, workGet1 l x t = .ok (l', { x with i := Function.update x.i t (x.i t + 1) }, a) ∧ Grown l l' ∧ l'.slot = l.slot ∧
      x.i t < l'.n t ∧ l'.data t (x.i t) = some a ∧ (x.i t < l.n t → l' = l) := by
  unfold workGet1 get1
  by_cases hx : x.i t ≥ l.n t
  · have he : x.i t = l.n t := by omega
    obtain ⟨l', e, g, c1, c2, -⟩ := addOne_grown h t
    obtain ⟨a, a1, -, -⟩ := g.inv.arr t (x.i t) (by omega)
    refine ⟨l', a, ?_, g, c2, by omega, a1, fun h => absurd h (by omega)⟩
    rw [if_pos hx, he, e]
    rw [he] at a1
    simp only [Lists.read, a1]
  · obtain ⟨a, a1, -, -⟩ := h.arr t (x.i t) (by omega)
    refine ⟨l, a, ?_, Grown.refl h, rfl, by omega, a1, fun _ => rfl⟩
    rw [if_neg hx]
    simp only [Lists.read, a1]

theorem slots_congr (f g : Nat → Option Nat) (k : Nat) (fs : List Bool) (h : ∀ j, k ≤ j → f j = g j) : slots f k fs = slots g k fs := by
  induction fs generalizing k with
  | nil => rfl
  | cons b fs ih =>
    simp only [slots]
    rw [h k le_rfl, ih (k + 1) (fun j hj => h j (by omega))]

theorem fill_ok (l : Lists) (t : WType) (tab i k : Nat) (fs : List Bool) (hd : ∀ j, i ≤ j → j < i + fs.count true → ∃ a, l.data t j = some a) :
    ∃ g : Nat → Option Nat, l.fill t tab i k fs = .ok ({ l with slot := Function.update l.slot tab g }, i + fs.count true) ∧
      (∀ j < k, g j = l.slot tab j) ∧ slots g k fs = (List.range' i (fs.count true)).map (l.data t) ∧
      ∀ m, fs[m]? = some true → ∃ j, i ≤ j ∧ j < i + fs.count true ∧ g (k + m) = l.data t j := by
  induction fs generalizing l i k with
  | nil => exact ⟨l.slot tab, by simp [Lists.fill], fun _ _ => rfl, rfl, by simp⟩
  | cons b fs ih =>
    cases b with
    | false =>
      have hc : (false :: fs).count true = fs.count true := by simp
      rw [hc] at hd ⊢
      obtain ⟨g, g1, g2, g3, g4⟩ := ih l i (k + 1) hd
      refine ⟨g, ?_, fun j hj => g2 j (by omega), ?_, ?_⟩
      · simpa [Lists.fill] using g1
      · simpa [slots] using g3
      · intro m hm
        cases m with
        | zero => simp at hm
        | succ m =>
          obtain ⟨j, j1, j2, j3⟩ := g4 m (by simpa using hm)
          exact ⟨j, j1, j2, by rw [← j3]; congr 1; omega⟩
    | true =>
      have hc : (true :: fs).count true = fs.count true + 1 := by simp
      rw [hc] at hd ⊢
      obtain ⟨a, ha⟩ := hd i le_rfl (by omega)
      obtain ⟨g, g1, g2, g3, g4⟩ := ih { l with slot := Function.update l.slot tab (Function.update (l.slot tab) k (some a)) }
        (i + 1) (k + 1) (fun j h1 h2 => hd j (by omega) (by omega))
      have gk : g k = l.data t i := by rw [g2 k (by omega)]; simp [ha]
      refine ⟨g, ?_, ?_, ?_, ?_⟩
      · simp only [Lists.fill, if_true, Lists.read, ha, g1, Function.update_idem]
        congr 2; omega
      · intro j hj
        rw [g2 j (by omega)]
        simp [Nat.ne_of_lt hj]
      · simp only [slots, if_true, List.range'_succ, List.map_cons, gk, g3]
      · intro m hm
        cases m with
        | zero => exact ⟨i, le_rfl, by omega, by simpa using gk⟩
        | succ m =>
          obtain ⟨j, j1, j2, j3⟩ := g4 m (by simpa using hm)
          exact ⟨j, by omega, by omega, by rw [← j3]; congr 1; omega⟩

theorem take_all {α : Type} (l : List α) (n : Nat) (h : l.length = n) : l.take n = l := by subst h; simp

/-- The slots asked for. -/
abbrev marks (w : Sizes) (v : VType) (f : Option Flags) : List Bool := setOf (width w v) f

theorem wanted_eq (w : Sizes) (v : VType) (f : Option Flags) : wanted w v f = marks w v f := by
  cases v <;> rfl

structure Many (l : Lists) (x : Index) (v : VType) (t : WType) (fs : List Bool) (l' : Lists) (tab : Nat) : Prop where
  grown : Grown l l'
  slot : ∀ a, a ≠ tab → l'.slot a = l.slot a
  here : l'.dataV v (x.v v) = some tab
  lenV : x.v v < l'.nV v
  len : x.i t + fs.count true ≤ l'.n t
  filled : slots (l'.slot tab) 0 fs = (List.range' (x.i t) (fs.count true)).map (l'.data t)
  each : ∀ m, fs[m]? = some true → ∃ j, x.i t ≤ j ∧ j < x.i t + fs.count true ∧ l'.slot tab m = l'.data t j

theorem many_count (w : Sizes) (v : VType) (f : Option Flags) (h : Counted w v f) :
    countOf (width w v) f = (marks w v f).count true := by
  cases f with
  | none => simp [setOf, countOf]
  | some f => obtain ⟨h1, h2⟩ := h; simp only [setOf, countOf]; rw [take_all _ _ h1]; exact h2

theorem getMany_ok {l : Lists} (h : Inv l l.n l.nV) {x : Index} (v : VType) (t : WType) (flags : Option Flags)
    (hi : x.i t ≤ l.n t) (hv : x.v v ≤ l.nV v) (hf : Counted l.w v flags) :
    ∃ l' tab, getMany l x v (width l.w v) t (shape1 l.w t) flags =
        .ok (l', ⟨Function.update x.i t (x.i t + (marks l.w v flags).count true), Function.update x.v v (x.v v + 1)⟩, tab) ∧
      Many l x v t (marks l.w v flags) l' tab := by
  -- the table
  obtain ⟨l1, e1, g1, s1, v1⟩ : ∃ l1, l.table v (width l.w v) (x.v v) = .ok l1 ∧ Grown l l1 ∧ l1.slot = l.slot ∧ x.v v < l1.nV v := by
    unfold Lists.table
    by_cases hx : x.v v ≥ l.nV v
    · have he : x.v v = l.nV v := by omega
      have h0 : Inv { l with capV := Function.update l.capV v (grow (l.nV v) (l.capV v)) } l.n l.nV :=
        h.room (fun _ => le_rfl) (le_update _ _ _ (le_grow _ _))
      obtain ⟨l', e, i, y, c1, c2, c3, c4, c5, c6⟩ := allocV_inv h0 (v := v) (by simpa using lt_grow _ _)
      simp only at e c1 c2 c3 c4 c5 c6
      refine ⟨{ l' with nV := Function.update l'.nV v (l'.nV v + 1) }, ?_, ⟨?_, ?_, ?_, ?_⟩, c6, ?_⟩
      · rw [if_pos hx, he, e]
      · have := i.len l'.n (Function.update l'.nV v (l'.nV v + 1))
        rw [c3, c4] at *
        exact this
      · exact ⟨y.w, y.data, y.dataV, y.obj, y.fresh⟩
      · intro t'; simp only [c3]; exact le_rfl
      · intro v'; simp only [c4]; exact le_update _ _ _ (Nat.le_succ _) v'
      · simp only [c4, Function.update_self]; omega
    · exact ⟨l, if_neg hx, Grown.refl h, rfl, by omega⟩
  obtain ⟨l2, e2, g2, n2, s2, v2, dv2⟩ := ensure_grown g1.inv t (i := x.i t) (hi.trans (g1.n t)) ((marks l.w v flags).count true)
  rw [g1.ext.w] at e2
  obtain ⟨tab, t1, t2, t3⟩ := g2.inv.tab v (x.v v) (by rw [v2]; exact v1)
  obtain ⟨g, f1, f2, f3, f4⟩ := fill_ok l2 t tab (x.i t) 0 (marks l.w v flags) (fun j h1 h2 => by
    obtain ⟨a, ha, -⟩ := g2.inv.arr t j (by omega)
    exact ⟨a, ha⟩)
  refine ⟨{ l2 with slot := Function.update l2.slot tab g }, tab, ?_, ?_⟩
  · simp only [getMany, e1, many_count l.w v flags hf, e2, Lists.readV, t1, f1]
  · have gg := g1.trans g2
    refine ⟨⟨⟨gg.inv.1, gg.inv.2, gg.inv.3, gg.inv.4, gg.inv.5, gg.inv.6, gg.inv.7⟩, ⟨gg.ext.1, gg.ext.2, gg.ext.3, gg.ext.4, gg.ext.5⟩,
      gg.n, gg.nV⟩, ?_, t1, ?_, n2, ?_, ?_⟩
    · intro a ha; simp only [Function.update_of_ne ha]; rw [s2, s1]
    · simp only; rw [v2]; exact v1
    · simp only [Function.update_self]; exact f3
    · intro m hm
      obtain ⟨j, j1, j2, j3⟩ := f4 m hm
      exact ⟨j, j1, j2, by simp only [Function.update_self]; simpa using j3⟩

/-! The store. -/

def held (fs : List (Index × List Held)) : List Held := (fs.map Prod.snd).flatten

def At (l : Lists) (lo hi : Index) (o : Option Nat) : Prop :=
  (∃ t j, lo.i t ≤ j ∧ j < hi.i t ∧ l.data t j = o) ∨ (∃ v j, lo.v v ≤ j ∧ j < hi.v v ∧ l.dataV v j = o)

/-- Each copy's indices are past everything taken from it and from the copies it was made from. -/
def GoodF (l : Lists) : List (Index × List Held) → Prop
  | [] => True
  | (x, hs) :: fs => (∀ t, x.i t ≤ l.n t) ∧ (∀ v, x.v v ≤ l.nV v) ∧
      (∀ h ∈ hs ++ held fs, ∀ o ∈ objects l h, At l initIndex x o) ∧ GoodF l fs

structure StoreOk (s : Store) : Prop where
  inv : Inv s.lists s.lists.n s.lists.nV
  good : GoodF s.lists s.frames
  nodup : (inUse s).Nodup
  sized : ∀ h ∈ held s.frames, Sized s.lists h

theorem store_init_ok (w : Sizes) : StoreOk (.init w) := by
  refine ⟨⟨fun _ => le_rfl, fun _ => le_rfl, ?_, ?_, ?_, ?_, ?_⟩, ?_, ?_, ?_⟩
  all_goals simp [Store.init, initLists, GoodF, initIndex, held, inUse]

theorem At.ext {l l' : Lists} {n nV} (e : Ext l l' n nV) {x : Index} (hx : ∀ t, x.i t ≤ n t) (hv : ∀ v, x.v v ≤ nV v) {lo o}
    (h : At l lo x o) : At l' lo x o := by
  rcases h with ⟨t, j, h1, h2, h3⟩ | ⟨v, j, h1, h2, h3⟩
  · exact Or.inl ⟨t, j, h1, h2, by rw [e.data t j (h2.trans_le (hx t))]; exact h3⟩
  · exact Or.inr ⟨v, j, h1, h2, by rw [e.dataV v j (h2.trans_le (hv v))]; exact h3⟩

theorem goodF_ext {l l' : Lists} (g : Grown l l') {fs : List (Index × List Held)} (ho : ∀ h ∈ held fs, objects l' h = objects l h)
    (h : GoodF l fs) : GoodF l' fs := by
  induction fs with
  | nil => trivial
  | cons f fs ih =>
    obtain ⟨x, hs⟩ := f
    obtain ⟨h1, h2, h3, h4⟩ := h
    refine ⟨fun t => (h1 t).trans (g.n t), fun v => (h2 v).trans (g.nV v), ?_, ih (fun h hh => ho h ?_) h4⟩
    · intro h hh o hoo
      rw [ho h (by simpa [held] using hh)] at hoo
      exact (h3 h hh o hoo).ext g.ext h1 h2
    · simp only [held, List.map_cons, List.flatten_cons, List.mem_append] at hh ⊢; exact Or.inr hh

theorem obj_lt {l : Lists} (h : Inv l l.n l.nV) {x : Index} (h1 : ∀ t, x.i t ≤ l.n t) (h2 : ∀ v, x.v v ≤ l.nV v) {lo a}
    (ha : At l lo x (some a)) : a < l.fresh := by
  rcases ha with ⟨t, j, -, j2, j3⟩ | ⟨v, j, -, j2, j3⟩
  · obtain ⟨b, b1, b2, -⟩ := h.arr t j (j2.trans_le (h1 t))
    rw [b1] at j3; cases j3; exact b2
  · obtain ⟨b, b1, b2, -⟩ := h.tab v j (j2.trans_le (h2 v))
    rw [b1] at j3; cases j3; exact b2

/-- Two different places hold different objects. -/
theorem At.disjoint {l : Lists} (h : Inv l l.n l.nV) {lo x y : Index} (h1 : ∀ t, y.i t ≤ l.n t) (h2 : ∀ v, y.v v ≤ l.nV v)
    (h1' : ∀ t, x.i t ≤ l.n t) (h2' : ∀ v, x.v v ≤ l.nV v)
    {o : Option Nat} (ha : At l lo x o) (hb : At l x y o) : False := by
  rcases ha with ⟨t, j, -, j2, j3⟩ | ⟨v, j, -, j2, j3⟩ <;> rcases hb with ⟨t', k, k1, k2, k3⟩ | ⟨v', k, k1, k2, k3⟩
  · obtain ⟨rfl, rfl⟩ := h.inj t j t' k (j2.trans_le (h1' t)) (k2.trans_le (h1 t')) (j3.trans k3.symm)
    omega
  · obtain ⟨a, a1, -, a3⟩ := h.arr t j (j2.trans_le (h1' t))
    obtain ⟨b, b1, -, b3⟩ := h.tab v' k (k2.trans_le (h2 v'))
    rw [a1] at j3; rw [b1, ← j3] at k3; cases k3; rw [a3] at b3; simp at b3
  · obtain ⟨a, a1, -, a3⟩ := h.tab v j (j2.trans_le (h2' v))
    obtain ⟨b, b1, -, b3⟩ := h.arr t' k (k2.trans_le (h1 t'))
    rw [a1] at j3; rw [b1, ← j3] at k3; cases k3; rw [a3] at b3; simp at b3
  · obtain ⟨rfl, rfl⟩ := h.injV v j v' k (j2.trans_le (h2' v)) (k2.trans_le (h2 v')) (j3.trans k3.symm)
    omega

theorem sized_ext {l l' : Lists} (e : Ext l l' l.n l.nV) {h : Held} (ho : ∀ tab t v set, h = .many t v tab set → l'.slot tab = l.slot tab)
    (hlt : ∀ a, some a ∈ objects l h → a < l.fresh) (hs : Sized l h) : Sized l' h := by
  cases h with
  | one t a =>
    simp only [Sized] at hs ⊢
    rw [e.w, e.obj a (hlt a (by simp [objects]))]; exact hs
  | many t v tab set =>
    obtain ⟨h1, h2, h3⟩ := hs
    refine ⟨?_, by rw [e.w]; exact h2, fun k hk => ?_⟩
    · rw [e.w, e.obj tab (hlt tab (by simp [objects]))]; exact h1
    · obtain ⟨a, a1, a2⟩ := h3 k hk
      refine ⟨a, by rw [ho tab t v set rfl]; exact a1, ?_⟩
      rw [e.w, e.obj a]
      · exact a2
      · refine hlt a ?_
        simp only [objects, List.mem_cons]
        right
        rw [← a1]
        have key : ∀ (f : Nat → Option Nat) (fs : List Bool) (i m : Nat), fs[m]? = some true → f (i + m) ∈ slots f i fs := by
          intro f fs
          induction fs with
          | nil => intro i m hm; simp at hm
          | cons b fs ih =>
            intro i m hm
            cases m with
            | zero => simp only [List.getElem?_cons_zero, Option.some.injEq] at hm; subst hm; simp [slots]
            | succ m =>
              have := ih (i + 1) m (by simpa using hm)
              rw [show i + 1 + m = i + (m + 1) by omega] at this
              simp only [slots]; split_ifs
              · exact List.mem_cons_of_mem _ this
              · exact this
        simpa using key (l.slot tab) set 0 k hk

/-- Putting one more thing in the innermost copy's hands. -/
theorem push_ok {l l' : Lists} {x x' : Index} {hs fs} (ok : StoreOk ⟨l, (x, hs) :: fs⟩) {h : Held} (g : Grown l l')
    (hslot : ∀ h0 ∈ hs ++ held fs, ∀ tab t v set, h0 = .many t v tab set → l'.slot tab = l.slot tab)
    (hi : ∀ t, x.i t ≤ x'.i t ∧ x'.i t ≤ l'.n t) (hv : ∀ v, x.v v ≤ x'.v v ∧ x'.v v ≤ l'.nV v)
    (hat : ∀ o ∈ objects l' h, At l' x x' o) (hnd : (objects l' h).Nodup) (hsz : Sized l' h) :
    StoreOk ⟨l', (x', h :: hs) :: fs⟩ := by
  obtain ⟨o1, ⟨o2, o3, o4, o5⟩, o6, o7⟩ := ok
  simp only at o1 o2 o3 o4 o5
  have hobj : ∀ h0 ∈ hs ++ held fs, objects l' h0 = objects l h0 := by
    intro h0 hh
    cases h0 with
    | one t a => rfl
    | many t v tab set => simp only [objects]; rw [hslot _ hh tab t v set rfl]
  have hold : ∀ h0 ∈ hs ++ held fs, ∀ o ∈ objects l' h0, At l' initIndex x o := by
    intro h0 hh o ho
    rw [hobj h0 hh] at ho
    exact (o4 h0 hh o ho).ext g.ext o2 o3
  refine ⟨g.inv, ⟨fun t => (hi t).2, fun v => (hv v).2, ?_, ?_⟩, ?_, ?_⟩
  · intro h0 hh o ho
    rw [List.cons_append, List.mem_cons] at hh
    rcases hh with rfl | hh
    · rcases hat o ho with ⟨t, j, j1, j2, j3⟩ | ⟨v, j, j1, j2, j3⟩
      · exact Or.inl ⟨t, j, Nat.zero_le _, j2, j3⟩
      · exact Or.inr ⟨v, j, Nat.zero_le _, j2, j3⟩
    · rcases hold h0 hh o ho with ⟨t, j, j1, j2, j3⟩ | ⟨v, j, j1, j2, j3⟩
      · exact Or.inl ⟨t, j, j1, j2.trans_le (hi t).1, j3⟩
      · exact Or.inr ⟨v, j, j1, j2.trans_le (hv v).1, j3⟩
  · exact goodF_ext g (fun h0 hh => hobj h0 (List.mem_append_right _ hh)) o5
  · simp only [inUse, List.map_cons, List.flatten_cons, List.cons_append, List.flatMap_cons] at o6 ⊢
    have e : (hs ++ (fs.map Prod.snd).flatten).flatMap (objects l') = (hs ++ (fs.map Prod.snd).flatten).flatMap (objects l) := by
      rw [List.flatMap_def, List.flatMap_def]
      congr 1
      exact List.map_congr_left hobj
    refine List.nodup_append'.2 ⟨hnd, by rw [e]; exact o6, ?_⟩
    intro o ho ho'
    obtain ⟨h0, hh, ho'⟩ := List.mem_flatMap.1 ho'
    exact At.disjoint g.inv (fun t => (hi t).2) (fun v => (hv v).2) (fun t => (hi t).1.trans (hi t).2)
      (fun v => (hv v).1.trans (hv v).2) (hold h0 hh o ho') (hat o ho)
  · intro h0 hh
    simp only [held, List.map_cons, List.flatten_cons, List.cons_append, List.mem_cons] at hh
    rcases hh with rfl | hh
    · exact hsz
    · refine sized_ext g.ext (hslot h0 hh) (fun a ha => ?_) (o7 h0 (by simpa [held] using hh))
      exact obj_lt o1 o2 o3 (o4 h0 hh _ ha)

theorem slot_other {l l' : Lists} {x : Index} {v t set tab hs fs} (ok : StoreOk ⟨l, (x, hs) :: fs⟩) (m : Many l x v t set l' tab) :
    ∀ h0 ∈ hs ++ held fs, ∀ tab' t v set, h0 = .many t v tab' set → l'.slot tab' = l.slot tab' := by
  obtain ⟨o1, ⟨o2, o3, o4, o5⟩, o6, o7⟩ := ok
  simp only at o1 o2 o3 o4 o5
  intro h0 hh tab' t' v' set' he
  refine m.slot _ ?_
  rintro rfl
  subst he
  have ha := (o4 _ hh (some tab') (by simp [objects])).ext m.grown.ext o2 o3
  refine At.disjoint m.grown.inv (y := ⟨x.i, Function.update x.v v (x.v v + 1)⟩) (fun t => (o2 t).trans (m.grown.n t)) ?_
    (fun t => (o2 t).trans (m.grown.n t)) (fun v => (o3 v).trans (m.grown.nV v)) ha (Or.inr ⟨v, x.v v, le_rfl, by simp, m.here⟩)
  intro v0
  by_cases hv : v0 = v
  · subst hv; simp only [Function.update_self]; exact m.lenV
  · simp only [Function.update_of_ne hv]; exact (o3 v0).trans (m.grown.nV v0)

theorem many_push {l l' : Lists} {x : Index} {v t set tab hs fs} (ok : StoreOk ⟨l, (x, hs) :: fs⟩) (m : Many l x v t set l' tab)
    (hl : set.length = width l.w v) :
    StoreOk ⟨l', (⟨Function.update x.i t (x.i t + set.count true), Function.update x.v v (x.v v + 1)⟩, .many t v tab set :: hs) :: fs⟩ := by
  have ok' := ok
  obtain ⟨o1, ⟨o2, o3, o4, o5⟩, o6, o7⟩ := ok
  simp only at o1 o2 o3 o4 o5
  have hslots : ∀ o ∈ slots (l'.slot tab) 0 set, ∃ j, x.i t ≤ j ∧ j < x.i t + set.count true ∧ l'.data t j = o := by
    intro o ho
    rw [m.filled] at ho
    obtain ⟨j, j1, j2⟩ := List.mem_map.1 ho
    have := List.mem_range'_1.1 j1
    exact ⟨j, this.1, this.2, j2⟩
  refine push_ok ok' m.grown (slot_other ok' m) ?_ ?_ ?_ ?_ ?_
  · intro t'
    by_cases ht : t' = t
    · subst ht; simp only [Function.update_self]; exact ⟨Nat.le_add_right _ _, m.len⟩
    · simp only [Function.update_of_ne ht]; exact ⟨le_rfl, (o2 t').trans (m.grown.n t')⟩
  · intro v'
    by_cases hv : v' = v
    · subst hv; simp only [Function.update_self]; exact ⟨Nat.le_succ _, m.lenV⟩
    · simp only [Function.update_of_ne hv]; exact ⟨le_rfl, (o3 v').trans (m.grown.nV v')⟩
  · intro o ho
    simp only [objects, List.mem_cons] at ho
    rcases ho with rfl | ho
    · exact Or.inr ⟨v, x.v v, le_rfl, by simp, m.here⟩
    · obtain ⟨j, j1, j2, j3⟩ := hslots o ho
      exact Or.inl ⟨t, j, j1, by simpa using j2, j3⟩
  · simp only [objects, List.nodup_cons]
    constructor
    · intro ho
      obtain ⟨j, j1, j2, j3⟩ := hslots _ ho
      obtain ⟨a, a1, -, a3⟩ := m.grown.inv.arr t j (by have := m.len; omega)
      obtain ⟨b, b1, -, b3⟩ := m.grown.inv.tab v (x.v v) m.lenV
      rw [m.here] at b1; cases b1
      rw [j3] at a1; cases a1
      rw [a3] at b3; simp at b3
    · rw [m.filled]
      refine (List.nodup_map_iff_inj_on (List.nodup_range' ..)).2 ?_
      intro i hi j hj he
      have h1 := List.mem_range'_1.1 hi
      have h2 := List.mem_range'_1.1 hj
      have := m.len
      exact (m.grown.inv.inj t i t j (by omega) (by omega) he).2
  · refine ⟨?_, by rw [m.grown.ext.w]; exact hl, ?_⟩
    · obtain ⟨b, b1, -, b3⟩ := m.grown.inv.tab v (x.v v) m.lenV
      rw [m.here] at b1; cases b1; exact b3
    · intro k hk
      obtain ⟨j, j1, j2, j3⟩ := m.each k hk
      obtain ⟨a, a1, -, a3⟩ := m.grown.inv.arr t j (by have := m.len; omega)
      exact ⟨a, j3.trans a1, a3⟩

theorem marks_length (w : Sizes) (v : VType) (f : Option Flags) (h : Counted w v f) : (marks w v f).length = width w v := by
  cases f with
  | none => simp [setOf]
  | some f => simp [setOf, h.1]

theorem workGet2_eq (l : Lists) (x : Index) (t : WType) (v : VType) (f : Option Flags) (hv : v ≠ .both) :
    workGet2 l x t v f = getMany l x v (width l.w v) t (shape1 l.w t) f := by
  cases v
  · simp [workGet2, shape2_eq, width]
  · simp [workGet2, shape2_eq, width]
  · exact absurd rfl hv

theorem workGet3_eq (l : Lists) (x : Index) (t : WType) (v : VType) (f : Option Flags) (hv : v = .both) :
    workGet3 l x t v f = getMany l x v (width l.w v) t (shape1 l.w t) f := by
  subst hv; simp [workGet3, shape3_eq, width]

/-- A proper request is met, and what it gives keeps everything in order; the only thing that can go wrong is a `leave` too many. -/
theorem store_step {s : Store} (ok : StoreOk s) (hne : s.frames ≠ []) {o : LOp} (ho : Proper s.lists.w o)
    (hl : o = .leave → 2 ≤ s.frames.length) :
    ∃ s', s.step o = .ok s' ∧ StoreOk s' ∧ Grown s.lists s'.lists ∧ s'.frames ≠ [] := by
  obtain ⟨l, fs⟩ := s
  cases fs with
  | nil => exact absurd rfl hne
  | cons f fs =>
    obtain ⟨x, hs⟩ := f
    have ok' := ok
    obtain ⟨o1, ⟨o2, o3, o4, o5⟩, o6, o7⟩ := ok
    simp only at o1 o2 o3 o4 o5 ho hl
    cases o with
    | get1 t =>
      obtain ⟨l', a, e, g, h1, h2, h3, -⟩ := get1_ok o1 (x := x) t (o2 t)
      refine ⟨⟨l', ({ x with i := Function.update x.i t (x.i t + 1) }, .one t a :: hs) :: fs⟩, by simp only [Store.step, e], ?_, g, by simp⟩
      refine push_ok ok' g (fun _ _ _ _ _ _ _ => by rw [h1]) ?_ (fun v => ⟨le_rfl, (o3 v).trans (g.nV v)⟩) ?_ (by simp [objects]) ?_
      · intro t'
        by_cases ht : t' = t
        · subst ht; simp only [Function.update_self]; exact ⟨Nat.le_succ _, h2⟩
        · simp only [Function.update_of_ne ht]; exact ⟨le_rfl, (o2 t').trans (g.n t')⟩
      · intro o ho
        simp only [objects, List.mem_singleton] at ho
        subst ho
        exact Or.inl ⟨t, x.i t, le_rfl, by simp, h3⟩
      · obtain ⟨b, b1, -, b3⟩ := g.inv.arr t (x.i t) h2
        rw [h3] at b1; cases b1; exact b3
    | get2 t v f =>
      obtain ⟨hv, hf⟩ := ho
      obtain ⟨l', tab, e, m⟩ := getMany_ok o1 (x := x) v t f (o2 t) (o3 v) hf
      refine ⟨_, by simp only [Store.step]; rw [workGet2_eq _ _ _ _ _ hv, e], ?_, m.grown, by simp⟩
      rw [wanted_eq]
      exact many_push ok' m (marks_length _ _ _ hf)
    | get3 t v f =>
      obtain ⟨hv, hf⟩ := ho
      obtain ⟨l', tab, e, m⟩ := getMany_ok o1 (x := x) v t f (o2 t) (o3 v) hf
      refine ⟨_, by simp only [Store.step]; rw [workGet3_eq _ _ _ _ _ hv, e], ?_, m.grown, by simp⟩
      rw [wanted_eq]
      exact many_push ok' m (marks_length _ _ _ hf)
    | enter =>
      refine ⟨_, rfl, ⟨o1, ⟨o2, o3, ?_, o2, o3, o4, o5⟩, ?_, ?_⟩, Grown.refl o1, by simp⟩
      · simpa [held] using o4
      · simpa [inUse] using o6
      · simpa [held] using o7
    | leave =>
      cases fs with
      | nil => have := hl rfl; simp at this
      | cons f fs =>
        refine ⟨_, rfl, ⟨o1, o5, ?_, ?_⟩, Grown.refl o1, by simp⟩
        · simp only [inUse, List.map_cons, List.flatten_cons, List.flatMap_append] at o6 ⊢
          exact (List.nodup_append'.1 o6).2.1
        · intro h hh
          refine o7 h ?_
          simp only [held, List.map_cons, List.flatten_cons, List.mem_append] at hh ⊢
          exact Or.inr hh

/-- Conversely whatever succeeds without an improper request keeps everything in order. -/
theorem store_step' {s s' : Store} (ok : StoreOk s) {o : LOp} (ho : Proper s.lists.w o) (h : s.step o = .ok s') :
    StoreOk s' ∧ Grown s.lists s'.lists := by
  have hne : s.frames ≠ [] := by
    intro h0
    simp [Store.step, h0] at h
  have hl : o = .leave → 2 ≤ s.frames.length := by
    rintro rfl
    obtain ⟨l, fs⟩ := s
    match fs with
    | [] => exact absurd rfl hne
    | [_] => simp [Store.step] at h
    | _ :: _ :: _ => simp
  obtain ⟨s1, e, ok1, g, -⟩ := store_step ok hne ho hl
  rw [h] at e; cases e
  exact ⟨ok1, g⟩

theorem store_run {s s' : Store} (ok : StoreOk s) {os : List LOp} (ho : ∀ o ∈ os, Proper s.lists.w o) (h : s.run os = .ok s') :
    StoreOk s' ∧ Grown s.lists s'.lists := by
  induction os generalizing s with
  | nil => simp only [Store.run, Except.ok.injEq] at h; subst h; exact ⟨ok, Grown.refl ok.inv⟩
  | cons o os ih =>
    simp only [Store.run] at h
    cases e : s.step o with
    | error e' => simp [e] at h
    | ok s1 =>
      simp only [e] at h
      obtain ⟨ok1, g1⟩ := store_step' ok (ho o (by simp)) e
      obtain ⟨ok2, g2⟩ := ih ok1 (fun o' h' => by rw [g1.ext.w]; exact ho o' (by simp [h'])) h
      exact ⟨ok2, g1.trans g2⟩

end Xrtm.Work
