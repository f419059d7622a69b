import Verif.Model.Resources
import Verif.Props.Stacks
import Mathlib.Data.List.Count
import Mathlib.Data.List.Nodup

/-! # Proofs about allocating and freeing -/

namespace Xrtm.Resources

open List

/-! ## Freeing -/

theorem freeAll_perm : ∀ (ts : List Tok) {h r : List Tok}, h.Perm (ts ++ r) →
    ∃ h', freeAll ts h = some h' ∧ h'.Perm r
  | [], h, r, hp => ⟨h, rfl, hp⟩
  | t :: ts, h, r, hp => by
    have hm : t ∈ h := hp.mem_iff.mpr (by simp)
    have h2 : (h.erase t).Perm (ts ++ r) := by
      have := hp.erase t
      simpa using this
    obtain ⟨h', e, p⟩ := freeAll_perm ts h2
    exact ⟨h', by simp [freeAll, hm, e], p⟩

theorem freeAll_some : ∀ (ts : List Tok) {h h' : List Tok}, freeAll ts h = some h' → h.Perm (ts ++ h')
  | [], h, h', e => by
    cases e; exact Perm.refl _
  | t :: ts, h, h', e => by
    rw [freeAll] at e
    by_cases hm : t ∈ h
    · rw [if_pos hm] at e
      exact (List.perm_cons_erase hm).trans ((freeAll_some ts e).cons t)
    · rw [if_neg hm] at e; cases e

/-! ## Comparing two tables of statements for all valuations -/

/-- The atoms of a list of conditions. -/
def Lit.atom : Lit → Atom
  | .yes a => a
  | .no a => a

def Entry.on (v : Atom → Bool) (e : Entry) : Bool := e.guard.all (·.holds v)

def atomsOf (es : List Entry) : List Atom := (es.flatMap fun e => e.guard.map Lit.atom).dedup

/-- Every choice of the atoms that are true. -/
def choices : List Atom → List (List Atom)
  | [] => [[]]
  | a :: l => (choices l) ++ (choices l).map (a :: ·)

theorem filter_mem_choices (v : Atom → Bool) : ∀ l : List Atom, l.filter v ∈ choices l
  | [] => by simp [choices]
  | a :: l => by
    have ih := filter_mem_choices v l
    by_cases h : v a = true
    · simp only [List.filter_cons, h, if_true, choices, List.mem_append, List.mem_map]
      exact .inr ⟨_, ih, rfl⟩
    · simp only [List.filter_cons, h, choices, List.mem_append]
      exact .inl (by simpa using ih)

theorem holds_congr {v w : Atom → Bool} {l : Lit} (h : v l.atom = w l.atom) : l.holds v = l.holds w := by
  cases l <;> simp_all [Lit.holds, Lit.atom]

theorem on_congr {v w : Atom → Bool} {e : Entry} (h : ∀ l ∈ e.guard, v l.atom = w l.atom) : e.on v = e.on w := by
  unfold Entry.on
  have : ∀ ls : List Lit, (∀ l ∈ ls, v l.atom = w l.atom) → ls.all (·.holds v) = ls.all (·.holds w) := by
    intro ls
    induction ls with
    | nil => intro _; rfl
    | cons l ls ih =>
      intro hl
      rw [List.all_cons, List.all_cons, holds_congr (hl l (by simp)), ih fun x hx => hl x (by simp [hx])]
  exact this _ h

/-- Whether a test of the executed statements of a table holds for every valuation, by trying every
choice of the atoms that occur. -/
def always' (es : List Entry) (p : (Entry → Bool) → Bool) : Bool :=
  (choices (atomsOf es)).all fun s => p fun e => e.on fun a => s.contains a

theorem always'_sound {es : List Entry} {p : (Entry → Bool) → Bool} (h : always' es p = true)
    (hp : ∀ f g : Entry → Bool, (∀ e ∈ es, f e = g e) → p f = p g) (v : Atom → Bool) : p (fun e => e.on v) = true := by
  have h1 := List.all_eq_true.mp h _ (filter_mem_choices v (atomsOf es))
  rw [← h1]
  refine hp _ _ fun e he => on_congr fun l hl => ?_
  have hm : l.atom ∈ atomsOf es := by
    unfold atomsOf
    rw [List.mem_dedup, List.mem_flatMap]
    exact ⟨e, he, List.mem_map.mpr ⟨l, hl, rfl⟩⟩
  rw [Bool.eq_iff_iff, List.contains_iff_mem, List.mem_filter]
  exact ⟨fun x => ⟨hm, x⟩, fun x => x.2⟩

theorem countP_congr' {es : List Entry} {f g : Entry → Bool} (h : ∀ e ∈ es, f e = g e) : es.countP f = es.countP g :=
  List.countP_congr fun e he => by rw [h e he]

/-- For a piece, the number of statements of each table that are executed is the same. -/
def sameFor (t u : List Entry) (b : Buf) : Bool :=
  let ts := t.filter fun e => e.buf = b
  let us := u.filter fun e => e.buf = b
  always' (ts ++ us) fun f => ts.countP f == us.countP f

def same (t u : List Entry) : Bool := ((t ++ u).map (·.buf)).all (sameFor t u)

theorem count_taken (v : Atom → Bool) (t : List Entry) (b : Buf) :
    (taken v t).count b = (t.filter fun e => e.buf = b).countP fun e => e.on v := by
  unfold taken
  rw [List.count, List.countP_map, List.countP_filter, List.countP_filter]
  apply List.countP_congr
  intro e _
  simp [Entry.on, and_comm]

theorem same_sound {t u : List Entry} (h : same t u = true) (v : Atom → Bool) : (taken v t).Perm (taken v u) := by
  rw [List.perm_iff_count]
  intro b
  rw [count_taken, count_taken]
  by_cases hb : b ∈ (t ++ u).map (·.buf)
  · have h1 := List.all_eq_true.mp h b hb
    unfold sameFor at h1
    have := always'_sound h1 (fun f g hfg => by
      rw [countP_congr' (es := t.filter fun e => e.buf = b) fun e he => hfg e (by simp_all),
        countP_congr' (es := u.filter fun e => e.buf = b) fun e he => hfg e (by simp_all)]) v
    exact eq_of_beq this
  · have ht : (t.filter fun e => e.buf = b) = [] := by
      rw [List.filter_eq_nil_iff]
      intro e he h2
      exact hb (List.mem_map.mpr ⟨e, by simp [he], by simpa using h2⟩)
    have hu : (u.filter fun e => e.buf = b) = [] := by
      rw [List.filter_eq_nil_iff]
      intro e he h2
      exact hb (List.mem_map.mpr ⟨e, by simp [he], by simpa using h2⟩)
    rw [ht, hu]

/-- No member is allocated twice. -/
def onceFor (t : List Entry) (x : Field) : Bool :=
  let ts := t.filter fun e => e.buf.field = x
  always' ts fun f => decide (ts.countP f ≤ 1)

def once (t : List Entry) : Bool := (t.map (·.buf.field)).all (onceFor t)

theorem once_sound {t : List Entry} (h : once t = true) (v : Atom → Bool) : ((taken v t).map (·.field)).Nodup := by
  rw [List.nodup_iff_count_le_one]
  intro x
  have e : ((taken v t).map (·.field)).count x = (t.filter fun e => e.buf.field = x).countP fun e => e.on v := by
    unfold taken
    rw [List.count, List.countP_map, List.countP_map, List.countP_filter, List.countP_filter]
    apply List.countP_congr
    intro e _
    simp [Entry.on, and_comm]
  rw [e]
  by_cases hx : x ∈ t.map (·.buf.field)
  · have h1 := List.all_eq_true.mp h x hx
    unfold onceFor at h1
    have := always'_sound h1 (fun f g hfg => by rw [countP_congr' hfg]) v
    exact of_decide_eq_true this
  · have ht : (t.filter fun e => e.buf.field = x) = [] := by
      rw [List.filter_eq_nil_iff]
      intro e he h2
      exact hx (List.mem_map.mpr ⟨e, he, by simpa using h2⟩)
    rw [ht]
    simp

/-! ## The tables -/

def funcFlags : Buf := ⟨.set_flags_kernel_func, .arr 1 .uc⟩

/-- What is freed in the end, in one table: by `xrtm_destroy`, by `check_inputs_initialized` if it has
been through, and what the latter forgets. -/
def goneTab : List Entry :=
  destroyTab ++ under [.no .inputsInit] (checkTab ++ under [.yes .kernels] (always [funcFlags]))

set_option maxRecDepth 20000 in
theorem tables_same : same createTab goneTab = true := by decide +kernel

set_option maxRecDepth 20000 in
theorem tables_once : once createTab = true := by decide +kernel

def mentions (a : Atom) (t : List Entry) : Bool := t.any fun e => e.guard.any fun l => l.atom == a

theorem taken_congr {v w : Atom → Bool} {a : Atom} {t : List Entry} (hm : mentions a t = false)
    (h : ∀ x, x ≠ a → v x = w x) : taken v t = taken w t := by
  unfold taken
  congr 1
  apply List.filter_congr
  intro e he
  refine on_congr (v := v) (w := w) fun l hl => h _ fun e1 => ?_
  unfold mentions at hm
  rw [List.any_eq_false] at hm
  exact hm e he (List.any_eq_true.mpr ⟨l, hl, by simp [e1]⟩)

theorem create_free : mentions .inputsInit createTab = false := by decide +kernel
theorem check_free : mentions .inputsInit checkTab = false := by decide +kernel

theorem val_flag (c : Config) (sym b b' : Bool) (x : Atom) (h : x ≠ .inputsInit) : val c sym b x = val c sym b' x := by
  cases x <;> first | rfl | exact absurd rfl h

theorem taken_append (v : Atom → Bool) (t u : List Entry) : taken v (t ++ u) = taken v t ++ taken v u := by
  simp [taken]

theorem taken_under (v : Atom → Bool) (g : List Lit) (t : List Entry) :
    taken v (under g t) = if g.all (·.holds v) then taken v t else [] := by
  unfold taken under
  rw [List.filter_map, List.map_map]
  by_cases h : g.all (·.holds v) = true
  · rw [if_pos h]
    congr 1
    apply List.filter_congr
    intro e _
    simp only [Function.comp, List.all_append, h, Bool.true_and]
  · rw [if_neg h, List.map_eq_nil_iff, List.filter_eq_nil_iff]
    intro e _ h2
    simp only [Function.comp, List.all_append, Bool.and_eq_true] at h2
    exact h h2.1

theorem taken_always (v : Atom → Bool) (bs : List Buf) : taken v (always bs) = bs := by
  unfold taken always
  rw [List.filter_map, List.map_map]
  have : bs.filter ((fun e : Entry => e.guard.all (·.holds v)) ∘ fun b => ⟨[], b⟩) = bs :=
    List.filter_eq_self.mpr fun _ _ => rfl
  rw [this]
  exact List.map_id _

/-- What is forgotten, once the inputs have been checked. -/
def forgotten (c : Config) (inputsInit : Bool) : List Buf :=
  if !inputsInit && decide (0 < c.nKernels) then [funcFlags] else []

theorem create_perm_init (c : Config) (sym : Bool) :
    (taken (val c sym true) createTab).Perm (taken (val c sym true) destroyTab) := by
  have := same_sound tables_same (val c sym true)
  rw [goneTab, taken_append, taken_under] at this
  simpa [Lit.holds, val] using this

theorem create_perm_checked (c : Config) (sym : Bool) :
    (taken (val c sym true) createTab).Perm (taken (val c sym true) checkTab ++
      (taken (val c sym false) destroyTab ++ forgotten c false)) := by
  have := same_sound tables_same (val c sym false)
  rw [goneTab, taken_append, taken_under] at this
  have e1 : taken (val c sym true) createTab = taken (val c sym false) createTab :=
    taken_congr create_free (val_flag c sym _ _)
  have e2 : taken (val c sym true) checkTab = taken (val c sym false) checkTab :=
    taken_congr check_free (val_flag c sym _ _)
  have e3 : taken (val c sym false) (under [.yes .kernels] (always [funcFlags])) = forgotten c false := by
    rw [taken_under, taken_always]
    simp [Lit.holds, val, forgotten]
  rw [e1, e2]
  rw [if_pos (by simp [Lit.holds, val]), taken_append, e3] at this
  refine this.trans ?_
  rw [← List.append_assoc, ← List.append_assoc]
  exact (List.perm_append_comm).append_right _

/-! ## The stacks -/

theorem swap4 {α : Type} (a b c d : List α) : (a ++ b ++ c ++ d).Perm (b ++ a ++ d ++ c) := by
  have h1 : (a ++ b).Perm (b ++ a) := List.perm_append_comm
  have h2 : (c ++ d).Perm (d ++ c) := List.perm_append_comm
  have := h1.append h2
  simpa [List.append_assoc] using this

/-- What is freed of a stack is what was allocated. -/
theorem stack_perm (nf nd : Nat) (single : Bool) : (stackAlloc nf nd single).Perm (stackFree nf nd single) := by
  unfold stackAlloc stackFree
  refine List.Perm.append_left _ ?_
  cases single
  · exact swap4 _ _ _ _
  · exact swap4 _ _ _ _

theorem pieces_perm (nf nd n : Nat) (own : Nat → Nat) (k : Nat) :
    (pieces (stackAlloc nf nd) n own k).Perm (pieces (stackFree nf nd) n own k) := (stack_perm nf nd _).map _

def inners : Piece → Option (Part × Nat × Nat)
  | .inner p _ j k => some (p, j, k)
  | _ => none

theorem loops_nodup (nf nd : Nat) (body : Nat → Nat → List Piece) (hb : ∀ j k, (body j k).Nodup)
    (hi : ∀ j k x, x ∈ body j k → ∃ p, inners x = some (p, j, k)) : (loops nf nd body).Nodup := by
  unfold loops
  rw [List.nodup_flatMap]
  constructor
  · intro j _
    rw [List.nodup_flatMap]
    refine ⟨fun k _ => hb j k, ?_⟩
    refine List.Pairwise.imp ?_ (List.nodup_range (n := nd))
    intro a b hab x hx hx'
    obtain ⟨p, e⟩ := hi j a x hx
    obtain ⟨p', e'⟩ := hi j b x hx'
    rw [e] at e'; cases e'
    exact hab rfl
  · refine List.Pairwise.imp ?_ (List.nodup_range (n := nf))
    intro a b hab x hx hx'
    simp only [List.mem_flatMap] at hx hx'
    obtain ⟨k, -, hx⟩ := hx
    obtain ⟨k', -, hx'⟩ := hx'
    obtain ⟨p, e⟩ := hi a k x hx
    obtain ⟨p', e'⟩ := hi b k' x hx'
    rw [e] at e'; cases e'
    exact hab rfl

theorem aux_nodup (nf : Nat) : ((List.range nf).flatMap auxAlloc).Nodup := by
  rw [List.nodup_flatMap]
  refine ⟨fun j _ => by simp [auxAlloc], ?_⟩
  refine List.Pairwise.imp ?_ (List.nodup_range (n := nf))
  intro a b hab x hx hx'
  simp only [auxAlloc, List.mem_cons, List.not_mem_nil, or_false] at hx hx'
  rcases hx with h | h | h | h | h | h | h | h | h | h <;> subst h <;> simp at hx' <;> exact hab hx'

theorem mem_loops {nf nd : Nat} {body : Nat → Nat → List Piece} {x : Piece} :
    x ∈ loops nf nd body ↔ ∃ j < nf, ∃ k < nd, x ∈ body j k := by
  simp [loops]

/-- Which of the groups of pieces, in the order of `stackAlloc`. -/
def tag : Piece → Nat
  | .outer .R_p_l _ | .outer .T_p_l _ | .outer .R_m_l _ | .outer .T_m_l _ => 1
  | .outer .S_p_l _ | .outer .S_m_l _ | .outer .Sl_p_l _ | .outer .Sl_m_l _ => 3
  | .outer .d _ => 5
  | .outer _ _ => 0
  | .inner .R_p_l _ _ _ | .inner .T_p_l _ _ _ | .inner .R_m_l _ _ _ | .inner .T_m_l _ _ _ => 2
  | .inner _ _ _ _ => 4
  | .aux _ _ _ => 6

theorem tagged {l l' : List Piece} (m : Nat) (h : l.Nodup) (h' : l'.Nodup) (hl : ∀ x ∈ l, tag x < m)
    (hl' : ∀ x ∈ l', m ≤ tag x) : (l ++ l').Nodup :=
  List.nodup_append.mpr ⟨h, h', fun x hx y hy e => by
    have := hl x hx
    have := hl' y hy
    subst e
    omega⟩

theorem lit {l : List Piece} {m : Nat} (hd : l.all (fun x => decide (m ≤ tag x)) = true) {x : Piece} (h : x ∈ l) :
    m ≤ tag x := of_decide_eq_true (List.all_eq_true.mp hd x h)

/-- The pieces of a stack are different pieces. -/
theorem stack_nodup (nf nd : Nat) (single : Bool) : (stackAlloc nf nd single).Nodup := by
  have hR := loops_nodup nf nd (fun j k => [.inner .R_p_l (.arr 2 .d) j k, .inner .T_p_l (.arr 2 .d) j k,
      .inner .R_m_l (.arr 2 .d) j k, .inner .T_m_l (.arr 2 .d) j k]) (by simp) (by
        intro j k x hx
        simp only [List.mem_cons, List.not_mem_nil, or_false] at hx
        rcases hx with h | h | h | h <;> subst h <;> exact ⟨_, rfl⟩)
  have hS := loops_nodup nf nd (fun j k => [.inner .S_p_l (.arr 1 .d) j k, .inner .S_m_l (.arr 1 .d) j k,
      .inner .Sl_p_l (.arr 1 .d) j k, .inner .Sl_m_l (.arr 1 .d) j k]) (by simp) (by
        intro j k x hx
        simp only [List.mem_cons, List.not_mem_nil, or_false] at hx
        rcases hx with h | h | h | h <;> subst h <;> exact ⟨_, rfl⟩)
  have hA := aux_nodup nf
  have tR : ∀ x ∈ loops nf nd (fun j k => [.inner .R_p_l (.arr 2 .d) j k, .inner .T_p_l (.arr 2 .d) j k,
      .inner .R_m_l (.arr 2 .d) j k, .inner .T_m_l (.arr 2 .d) j k]), tag x = 2 := by
    intro x hx
    obtain ⟨j, -, k, -, hx⟩ := mem_loops.mp hx
    simp only [List.mem_cons, List.not_mem_nil, or_false] at hx
    rcases hx with h | h | h | h <;> subst h <;> rfl
  have tS : ∀ x ∈ loops nf nd (fun j k => [.inner .S_p_l (.arr 1 .d) j k, .inner .S_m_l (.arr 1 .d) j k,
      .inner .Sl_p_l (.arr 1 .d) j k, .inner .Sl_m_l (.arr 1 .d) j k]), tag x = 4 := by
    intro x hx
    obtain ⟨j, -, k, -, hx⟩ := mem_loops.mp hx
    simp only [List.mem_cons, List.not_mem_nil, or_false] at hx
    rcases hx with h | h | h | h <;> subst h <;> rfl
  have tA : ∀ x ∈ (List.range nf).flatMap auxAlloc, tag x = 6 := by
    intro x hx
    obtain ⟨j, -, hx⟩ := List.mem_flatMap.mp hx
    simp only [auxAlloc, List.mem_cons, List.not_mem_nil, or_false] at hx
    rcases hx with h | h | h | h | h | h | h | h | h | h <;> subst h <;> rfl
  unfold stackAlloc
  cases single
  · simp only [Bool.false_eq_true, if_false, List.append_assoc]
    refine tagged 1 (by decide) ?_ (by decide) ?_
    · refine tagged 4 (by decide) ?_ (by decide) ?_
      · refine tagged 5 hS ?_ (fun x hx => by rw [tS x hx]; decide) ?_
        · refine tagged 6 (by decide) hA (by decide) fun x hx => by rw [tA x hx]
        · intro x hx
          rcases List.mem_append.mp hx with h | h
          · exact lit (by decide) h
          · rw [tA x h]; decide
      · intro x hx
        rcases List.mem_append.mp hx with h | h
        · rw [tS x h]
        · rcases List.mem_append.mp h with h | h
          · exact lit (by decide) h
          · rw [tA x h]; decide
    · intro x hx
      rcases List.mem_append.mp hx with h | h
      · exact lit (by decide) h
      · rcases List.mem_append.mp h with h | h
        · rw [tS x h]; decide
        · rcases List.mem_append.mp h with h | h
          · exact lit (by decide) h
          · rw [tA x h]; decide
  · simp only [if_true, List.append_assoc]
    refine tagged 1 (by decide) ?_ (by decide) ?_
    · refine tagged 2 (by decide) ?_ (by decide) ?_
      · refine tagged 3 hR ?_ (fun x hx => by rw [tR x hx]; decide) ?_
        · refine tagged 4 (by decide) hS (by decide) fun x hx => by rw [tS x hx]
        · intro x hx
          rcases List.mem_append.mp hx with h | h
          · exact lit (by decide) h
          · rw [tS x h]; decide
      · intro x hx
        rcases List.mem_append.mp hx with h | h
        · rw [tR x h]
        · rcases List.mem_append.mp h with h | h
          · exact lit (by decide) h
          · rw [tS x h]; decide
    · intro x hx
      rcases List.mem_append.mp hx with h | h
      · exact lit (by decide) h
      · rcases List.mem_append.mp h with h | h
        · rw [tR x h]; decide
        · rcases List.mem_append.mp h with h | h
          · exact lit (by decide) h
          · rw [tS x h]; decide

end Xrtm.Resources
