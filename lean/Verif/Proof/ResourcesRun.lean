import Verif.Proof.Resources

/-! # What is allocated, along every history -/

namespace Xrtm.Resources

open List Stacks Stacks.Spec

/-- The memory of the chain. -/
def chainToks (c : Config) : Option Held → List Tok
  | none => []
  | some o => .chain o.id ::
      (List.range o.chain.length).flatMap (pieces (stackAlloc c.nFour.toNat c.nDerivs.toNat) c.nLayers.toNat o.own)

/-- The memory apart from the chain. -/
def baseToks (c : Config) (sym inputsInit : Bool) : List Tok :=
  (taken (val c sym inputsInit) destroyTab ++ forgotten c inputsInit).map .buf

/-- The chain that is held: a sound one, whose stacks have arrays of their own. -/
structure HeldOk (n next : Nat) (o : Held) : Prop where
  sound : Sound n o.chain
  id : o.id < next
  below : ∀ k, k < o.chain.length → o.own k < next
  inj : ∀ k k', k < o.chain.length → k' < o.chain.length → o.own k = o.own k' → k = k'

structure Inv (c : Config) (sym : Bool) (s : RState) : Prop where
  cfg : s.cfg = c
  symm : s.sym = sym
  held : ∀ o, s.held = some o → HeldOk c.nLayers.toNat s.next o ∧ reuses c = true
  heap : s.heap.Perm (baseToks c sym s.inputsInit ++ chainToks c s.held)

theorem start_inv (c : Config) (sym : Bool) : Inv c sym (start c sym) where
  cfg := rfl
  symm := rfl
  held := by intro o h; cases h
  heap := by
    have := (create_perm_init c sym).map Tok.buf
    simpa [start, baseToks, chainToks, forgotten] using this

theorem checked_inv {c : Config} {sym : Bool} {s : RState} (h : Inv c sym s) :
    ∃ s', checked s = some s' ∧ Inv c sym s' ∧ s'.inputsInit = false := by
  by_cases hi : s.inputsInit = true
  · have hp : s.heap.Perm ((taken (val c sym true) checkTab).map Tok.buf ++
        (baseToks c sym false ++ chainToks c s.held)) := by
      have h1 := h.heap
      rw [hi] at h1
      refine h1.trans ?_
      rw [← List.append_assoc]
      refine List.Perm.append_right _ ?_
      have h2 := ((create_perm_init c sym).symm.trans (create_perm_checked c sym)).map Tok.buf
      simpa [baseToks, forgotten] using h2
    obtain ⟨h', e, p⟩ := freeAll_perm _ hp
    refine ⟨{ s with heap := h', inputsInit := false }, ?_, ⟨h.cfg, h.symm, h.held, p⟩, rfl⟩
    unfold checked
    rw [if_pos hi, h.cfg, h.symm, e]
    rfl
  · refine ⟨s, ?_, h, by simpa using hi⟩
    unfold checked
    rw [if_neg hi]

theorem map_get_flatMap {α β : Type} (f : Nat → List α) (g : Nat → β) (h : β → List α) : ∀ l : List Nat,
    (∀ k ∈ l, f k = h (g k)) → l.flatMap f = (l.map g).flatMap h
  | [], _ => rfl
  | k :: l, hl => by
    rw [List.flatMap_cons, List.map_cons, List.flatMap_cons, hl k (by simp),
      map_get_flatMap f g h l fun x hx => hl x (by simp [hx])]

theorem takeOver_lt {n : Nat} {old new : Chain} (ho : Sound n old) {k ii : Nat} (hk : k < new.length)
    (h : takeOver (some old) new k = some ii) : ii < old.length := by
  have g := List.getElem?_eq_getElem hk
  unfold takeOver at h
  dsimp only at h
  rw [getD_of g] at h
  obtain ⟨s, e1, -, -⟩ := (find_iff ho _ _ ii).mp h
  exact lt_of_get e1

/-- The stacks of the old chain that are taken over, in the order of the new one. -/
def overs (old new : Chain) : List Nat :=
  ((List.range new.length).filter fun k => (takeOver (some old) new k).isSome).map fun k =>
    (takeOver (some old) new k).getD 0

theorem overs_perm {n : Nat} {old new : Chain} (ho : Sound n old) (hw : Sound n new) :
    (overs old new).Perm ((List.range old.length).filter fun ii => !(kept old new ii)) := by
  have hg : ∀ k, k < new.length → (takeOver (some old) new k).isSome = true →
      takeOver (some old) new k = some ((takeOver (some old) new k).getD 0) := by
    intro k _ h
    obtain ⟨x, e⟩ := Option.isSome_iff_exists.mp h
    rw [e]; rfl
  rw [List.perm_ext_iff_of_nodup]
  · intro ii
    unfold overs
    rw [List.mem_map, List.mem_filter]
    constructor
    · rintro ⟨k, hk, e⟩
      rw [List.mem_filter, List.mem_range] at hk
      have h1 := hg k hk.1 hk.2
      rw [e] at h1
      refine ⟨List.mem_range.mpr (takeOver_lt ho hk.1 h1), ?_⟩
      have : kept old new ii = false := by
        unfold kept
        rw [List.all_eq_false]
        exact ⟨k, List.mem_range.mpr hk.1, by rw [h1]; simp⟩
      rw [this]; rfl
    · rintro ⟨-, h2⟩
      have h3 : kept old new ii = false := by simpa using h2
      unfold kept at h3
      rw [List.all_eq_false] at h3
      obtain ⟨k, hk, e⟩ := h3
      have e' : takeOver (some old) new k = some ii := by simpa using e
      exact ⟨k, List.mem_filter.mpr ⟨hk, by rw [e']; rfl⟩, by rw [e']; rfl⟩
  · unfold overs
    refine List.Nodup.map_on ?_ (List.nodup_range.filter _)
    intro x hx y hy e
    rw [List.mem_filter, List.mem_range] at hx hy
    have h1 := hg x hx.1 hx.2
    have h2 := hg y hy.1 hy.2
    rw [e] at h1
    exact (C17_take_over ho hw hx.1 hy.1 h1 h2).1
  · exact List.nodup_range.filter _

theorem owner_taken {o : Held} {new : Chain} {next k ii : Nat} (h : takeOver (some o.chain) new k = some ii) :
    owner (some o) new next k = o.own ii := by
  unfold owner
  simp [h]

theorem owner_fresh {old : Option Held} {new : Chain} {next k : Nat} (h : takeOver (old.map (·.chain)) new k = none) :
    owner old new next k = next + 1 + k := by
  unfold owner
  rw [h]
  cases old <;> rfl

theorem flatMap_split {α : Type} (f : Nat → List α) (p : Nat → Bool) (l : List Nat) :
    (l.flatMap f).Perm ((l.filter p).flatMap f ++ (l.filter fun x => !(p x)).flatMap f) := by
  induction l with
  | nil => simp
  | cons a l ih =>
    by_cases h : p a = true
    · simp only [List.flatMap_cons, List.filter_cons, h, if_true, Bool.not_true, Bool.false_eq_true, if_false,
        List.append_assoc]
      exact ih.append_left _
    · have h' : p a = false := by simpa using h
      simp only [List.flatMap_cons, List.filter_cons, h', Bool.false_eq_true, if_false, Bool.not_false, if_true]
      refine (ih.append_left _).trans ?_
      rw [← List.append_assoc, ← List.append_assoc]
      exact List.perm_append_comm.append_right _

/-- The arrays of the stacks that are taken over are those of the old ones. -/
theorem taken_pieces {n next : Nat} {o : Held} {new : Chain} (ho : Sound n o.chain) (hw : Sound n new)
    (f : Bool → List Piece) :
    (((List.range new.length).filter fun k => (takeOver (some o.chain) new k).isSome).flatMap
      (pieces f n (owner (some o) new next))).Perm
    (((List.range o.chain.length).filter fun ii => !(kept o.chain new ii)).flatMap (pieces f n o.own)) := by
  rw [map_get_flatMap (pieces f n (owner (some o) new next)) (fun k => (takeOver (some o.chain) new k).getD 0)
    (pieces f n o.own)]
  · exact (overs_perm ho hw).flatMap_right _
  · intro k hk
    rw [List.mem_filter, List.mem_range] at hk
    obtain ⟨ii, e⟩ := Option.isSome_iff_exists.mp hk.2
    unfold pieces
    rw [owner_taken e, e]
    have := C17_take_over_kind ho hw hk.1 e
    have e2 : decide (k < n) = decide (ii < n) := by
      by_cases hd : k < n
      · simp [hd, this.mp hd]
      · have hd' : ¬ ii < n := fun x => hd (this.mpr x)
        simp [hd, hd']
    rw [e2]
    rfl

theorem replace_ok {c : Config} {sym : Bool} {s : RState} (h : Inv c sym s) (hr : reuses c = true) {new : Chain}
    (hw : Sound c.nLayers.toNat new) : ∃ s', replace s new = some s' ∧ Inv c sym s' ∧ s'.inputsInit = s.inputsInit := by
  have hcfg := h.cfg
  -- the new chain's own pieces, split into fresh ones and those taken over
  cases ho : s.held with
  | none =>
    have hnone : ∀ k, takeOver ((none : Option Held).map (·.chain)) new k = none := fun _ => rfl
    have hp : ((Tok.chain s.next :: ((List.range new.length).filter fun k =>
        (takeOver (s.held.map (·.chain)) new k).isNone).flatMap
        (pieces (stackAlloc s.cfg.nFour.toNat s.cfg.nDerivs.toNat) s.cfg.nLayers.toNat (owner s.held new s.next)) ++ s.heap)).Perm
        ([] ++ (baseToks c sym s.inputsInit ++ chainToks c (some ⟨s.next, new, owner s.held new s.next⟩))) := by
      rw [ho, hcfg]
      have : ((List.range new.length).filter fun k => (takeOver ((none : Option Held).map (·.chain)) new k).isNone) =
          List.range new.length := List.filter_eq_self.mpr fun k _ => by rw [hnone]; rfl
      rw [this]
      have h1 := h.heap
      rw [ho] at h1
      simp only [chainToks, List.append_nil] at h1 ⊢
      rw [List.nil_append]
      refine (h1.append_left _).trans ?_
      exact List.perm_append_comm
    obtain ⟨h', e, p⟩ := freeAll_perm _ hp
    refine ⟨{ s with held := some ⟨s.next, new, owner s.held new s.next⟩, heap := h', next := s.next + 1 + new.length },
      ?_, ⟨hcfg, h.symm, ?_, p⟩, rfl⟩
    · unfold replace
      rw [ho] at e ⊢
      dsimp only
      rw [e]
      rfl
    intro o e2
    rw [ho] at e2
    cases e2
    refine ⟨⟨hw, by dsimp only; omega, ?_, ?_⟩, hr⟩
    · intro k hk
      dsimp only at hk ⊢
      rw [owner_fresh (hnone k)]
      omega
    · intro k k' hk hk' e3
      dsimp only at e3
      rw [owner_fresh (hnone k), owner_fresh (hnone k')] at e3
      omega
  | some o =>
    obtain ⟨hk, -⟩ := h.held o ho
    have hp : ((Tok.chain s.next :: ((List.range new.length).filter fun k =>
        (takeOver (s.held.map (·.chain)) new k).isNone).flatMap
        (pieces (stackAlloc s.cfg.nFour.toNat s.cfg.nDerivs.toNat) s.cfg.nLayers.toNat (owner s.held new s.next)) ++ s.heap)).Perm
        ((chainFree s.cfg.nFour.toNat s.cfg.nDerivs.toNat s.cfg.nLayers.toNat o (kept o.chain new) ++ [.chain o.id]) ++
          (baseToks c sym s.inputsInit ++ chainToks c (some ⟨s.next, new, owner s.held new s.next⟩))) := by
      rw [ho, hcfg]
      have h1 := h.heap
      rw [ho] at h1
      -- old stacks
      have hold := flatMap_split (pieces (stackAlloc c.nFour.toNat c.nDerivs.toNat) c.nLayers.toNat o.own)
        (kept o.chain new) (List.range o.chain.length)
      have hnew := flatMap_split
        (pieces (stackAlloc c.nFour.toNat c.nDerivs.toNat) c.nLayers.toNat (owner (some o) new s.next))
        (fun k => (takeOver (some o.chain) new k).isNone) (List.range new.length)
      have hsome : ((List.range new.length).filter fun k => !((takeOver (some o.chain) new k).isNone)) =
          (List.range new.length).filter fun k => (takeOver (some o.chain) new k).isSome := by
        apply List.filter_congr
        intro k _
        cases takeOver (some o.chain) new k <;> rfl
      rw [hsome] at hnew
      have hover := taken_pieces (next := s.next) hk.sound hw (stackAlloc c.nFour.toNat c.nDerivs.toNat)
      have hfree : (((List.range o.chain.length).filter (kept o.chain new)).flatMap
          (pieces (stackAlloc c.nFour.toNat c.nDerivs.toNat) c.nLayers.toNat o.own)).Perm
          (chainFree c.nFour.toNat c.nDerivs.toNat c.nLayers.toNat o (kept o.chain new)) :=
        List.Perm.flatMap_left _ fun k _ => pieces_perm _ _ _ _ _
      simp only [chainToks, Option.map_some] at h1 ⊢
      rw [List.perm_iff_count] at h1 hold hnew hover hfree ⊢
      intro t
      have a1 := h1 t
      have a2 := hold t
      have a3 := hnew t
      have a4 := hover t
      have a5 := hfree t
      simp only [List.count_append, List.count_cons, List.count_nil] at a1 a2 a3 a4 a5 ⊢
      omega
    obtain ⟨h', e, p⟩ := freeAll_perm _ hp
    refine ⟨{ s with held := some ⟨s.next, new, owner s.held new s.next⟩, heap := h', next := s.next + 1 + new.length },
      ?_, ⟨hcfg, h.symm, ?_, p⟩, rfl⟩
    · unfold replace
      rw [ho] at e ⊢
      dsimp only
      rw [e]
      rfl
    intro o' e2
    rw [ho] at e2
    cases e2
    have hown : ∀ k, k < new.length → (∃ ii, takeOver (some o.chain) new k = some ii ∧ ii < o.chain.length ∧
        owner (some o) new s.next k = o.own ii) ∨ (takeOver (some o.chain) new k = none ∧
        owner (some o) new s.next k = s.next + 1 + k) := by
      intro k hk2
      cases e3 : takeOver (some o.chain) new k with
      | none => exact .inr ⟨rfl, owner_fresh (old := some o) e3⟩
      | some ii => exact .inl ⟨ii, rfl, takeOver_lt hk.sound hk2 e3, owner_taken e3⟩
    refine ⟨⟨hw, by dsimp only; omega, ?_, ?_⟩, hr⟩
    · intro k hk2
      dsimp only at hk2 ⊢
      rcases hown k hk2 with ⟨ii, -, h2, h3⟩ | ⟨-, h3⟩
      · rw [h3]
        have := hk.below ii h2
        omega
      · rw [h3]; omega
    · intro k k' hk2 hk2' e3
      dsimp only at e3 hk2 hk2'
      rcases hown k hk2 with ⟨ii, h1, h2, h3⟩ | ⟨-, h3⟩ <;> rcases hown k' hk2' with ⟨jj, h1', h2', h3'⟩ | ⟨-, h3'⟩
      · rw [h3, h3'] at e3
        have := hk.inj ii jj h2 h2' e3
        subst this
        exact (C17_take_over hk.sound hw hk2 hk2' h1 h1').1
      · rw [h3, h3'] at e3
        have := hk.below ii h2
        omega
      · rw [h3, h3'] at e3
        have := hk.below jj h2'
        omega
      · omega

theorem varied_inv {c : Config} {sym : Bool} {s : RState} (h : Inv c sym s) (lay : Nat → Nat → Bool) :
    ∃ s', varied s lay = some s' ∧ Inv c sym s' ∧
      s'.inputsInit = (s.inputsInit && !(has c.options OPT_CALC_DERIVS)) := by
  unfold varied
  rw [h.cfg]
  by_cases hd : has c.options OPT_CALC_DERIVS = true
  · rw [if_pos hd]
    obtain ⟨s1, e1, i1, f1⟩ := checked_inv h
    rw [e1, Option.bind_some, i1.cfg]
    by_cases hr : reuses c = true
    · rw [if_pos hr]
      obtain ⟨ch, e2, hs, -⟩ := C17_chain c.nLayers.toNat c.nDerivs.toNat lay (rounds c.nLayers.toNat) (Nat.le_refl _)
      rw [e2]
      obtain ⟨s2, e3, i2, f2⟩ := replace_ok i1 hr hs
      exact ⟨s2, e3, i2, by rw [f2, f1, hd]; simp⟩
    · rw [if_neg hr]
      exact ⟨s1, rfl, i1, by rw [f1, hd]; simp⟩
  · rw [if_neg hd]
    exact ⟨s, rfl, h, by simp [hd]⟩

/-- The memory is made of different pieces. -/
theorem heap_nodup {c : Config} {sym : Bool} {s : RState} (h : Inv c sym s) : s.heap.Nodup := by
  refine h.heap.nodup_iff.mpr ?_
  have hbase : (baseToks c sym s.inputsInit).Nodup := by
    have hn := once_sound tables_once (val c sym true)
    have hn := List.Nodup.of_map _ hn
    unfold baseToks
    refine List.Nodup.map (fun a b e => by cases e; rfl) ?_
    cases hi : s.inputsInit with
    | true =>
      rw [(create_perm_init c sym).nodup_iff] at hn
      simpa [forgotten] using hn
    | false =>
      rw [(create_perm_checked c sym).nodup_iff] at hn
      exact (List.nodup_append.mp hn).2.1
  rw [List.nodup_append]
  refine ⟨hbase, ?_, ?_⟩
  · cases ho : s.held with
    | none => simp [chainToks]
    | some o =>
      obtain ⟨hk, -⟩ := h.held o ho
      unfold chainToks
      rw [List.nodup_cons]
      constructor
      · intro hm
        obtain ⟨k, -, hm⟩ := List.mem_flatMap.mp hm
        obtain ⟨x, -, e⟩ := List.mem_map.mp hm
        cases e
      · rw [List.nodup_flatMap]
        constructor
        · intro k _
          exact (stack_nodup _ _ _).map fun a b e => by cases e; rfl
        · refine List.Pairwise.imp_of_mem ?_ (List.nodup_range (n := o.chain.length))
          intro a b ha hb hab x hx hx'
          obtain ⟨p, -, e⟩ := List.mem_map.mp hx
          obtain ⟨p', -, e'⟩ := List.mem_map.mp hx'
          subst e
          injection e' with e1 _
          exact hab (hk.inj a b (List.mem_range.mp ha) (List.mem_range.mp hb) e1.symm)
  · intro x hx y hy e
    subst e
    unfold baseToks at hx
    obtain ⟨b, -, e⟩ := List.mem_map.mp hx
    subst e
    cases ho : s.held with
    | none => rw [ho] at hy; simp [chainToks] at hy
    | some o =>
      rw [ho] at hy
      rcases List.mem_cons.mp hy with h1 | h1
      · cases h1
      · obtain ⟨k, -, h1⟩ := List.mem_flatMap.mp h1
        obtain ⟨x, -, e⟩ := List.mem_map.mp h1
        cases e

/-- What `xrtm_destroy` frees, and what it leaves. -/
theorem heap_frees {c : Config} {sym : Bool} {s : RState} (h : Inv c sym s) :
    s.heap.Perm (frees s ++ (forgotten c s.inputsInit).map .buf) := by
  refine h.heap.trans ?_
  unfold frees baseToks
  rw [h.cfg, h.symm]
  cases ho : s.held with
  | none =>
    simp only [chainToks, List.append_nil, List.map_append, ite_self, List.nil_append]
    exact Perm.refl _
  | some o =>
    obtain ⟨-, hr⟩ := h.held o ho
    rw [if_pos hr]
    have hfree : ((List.range o.chain.length).flatMap
        (pieces (stackAlloc c.nFour.toNat c.nDerivs.toNat) c.nLayers.toNat o.own)).Perm
        (chainFree c.nFour.toNat c.nDerivs.toNat c.nLayers.toNat o fun _ => true) := by
      unfold chainFree
      rw [List.filter_true]
      exact List.Perm.flatMap_left _ fun k _ => pieces_perm _ _ _ _ _
    simp only [chainToks]
    rw [List.perm_iff_count] at hfree ⊢
    intro t
    have := hfree t
    simp only [List.map_append, List.count_append, List.count_cons, List.count_nil] at this ⊢
    omega

end Xrtm.Resources
