import Verif.Proof.AddingL
import Verif.Model.Derivs

/-! The rows of `derivs.adding_down` and `derivs.adding_up` fit the loops. -/

namespace Xrtm.Adding

open Mat Spec Derivs

variable {n : Nat} {F : Type} [Zero F] [DecidableEq F]

@[simp] theorem ofBits_l (l s : Bool) : (Act.ofBits l s).l = l := by cases l <;> cases s <;> rfl
@[simp] theorem ofBits_s (l s : Bool) : (Act.ofBits l s).s = s := by cases l <;> cases s <;> rfl

theorem join_ofBits (a b c d : Bool) : (Act.ofBits a b).join (Act.ofBits c d) = Act.ofBits (a || c) (b || d) := by
  cases a <;> cases b <;> cases c <;> cases d <;> rfl

theorem decode_down (a b c d : Bool) : decode (downCode a b c d) = (.ofBits a b, .ofBits c d) := by
  revert a b c d; decide

theorem decode_up (a b c d : Bool) : decode (upCode a b c d) = (.ofBits a b, .ofBits c d) := by
  revert a b c d; decide

/-- The layers carry the rows of `derivs.adding_down`, from row `k` on. -/
def RowsDown (lay src : Nat → Nat → Bool) (k : Nat) (ls : List (LayerIn n ℝ)) : Prop :=
  ∀ i (h : i < ls.length), ∀ j, ls[i].act j = decode (addingDown lay src (k + i) j)

/-- ... of `derivs.adding_up`; the layers are rows `k ..`, the surface is row `N`. -/
def RowsUp (N : Nat) (lay src : Nat → Nat → Bool) (ls : List (LayerIn n ℝ)) : Prop :=
  ∀ i (h : i < ls.length), ∀ j, ls[i].act j = decode (addingUp N lay src i j)

theorem RowsDown.cons {lay src : Nat → Nat → Bool} {k : Nat} {l : LayerIn n ℝ} {ls : List (LayerIn n ℝ)}
    (h : RowsDown lay src k (l :: ls)) : (∀ j, l.act j = decode (addingDown lay src k j)) ∧ RowsDown lay src (k + 1) ls :=
  ⟨fun j => h 0 (by simp) j, fun i hi j => by
    have := h (i + 1) (by simpa using hi) j
    rw [show k + (i + 1) = k + 1 + i by omega] at this
    simpa using this⟩

theorem chainDown_rows {lay src : Nat → Nat → Bool} (j : Nat) {ls : List (LayerIn n ℝ)} {k : Nat}
    (h : RowsDown lay src k ls) :
    ChainDown j (.ofBits (anyBelow (fun i => lay i j) k) (anyBelow (fun i => src i j) k)) ls ∧
    endDown j (.ofBits (anyBelow (fun i => lay i j) k) (anyBelow (fun i => src i j) k)) ls =
      .ofBits (anyBelow (fun i => lay i j) (k + ls.length)) (anyBelow (fun i => src i j) (k + ls.length)) := by
  induction ls generalizing k with
  | nil => exact ⟨trivial, rfl⟩
  | cons l ls ih =>
      obtain ⟨h1, h2⟩ := h.cons
      have e := h1 j
      rw [addingDown, decode_down] at e
      obtain ⟨i1, i2⟩ := ih h2
      simp only [ChainDown, endDown, e, join_ofBits, true_and, List.length_cons]
      rw [show k + (ls.length + 1) = k + 1 + ls.length by omega]
      exact ⟨i1, i2⟩

/-- Layers from the bottom up: number `i` of the list is row `N - 1 - (k + i)`. -/
theorem chainUp_rows {lay src : Nat → Nat → Bool} (j N : Nat) {ls : List (LayerIn n ℝ)} {k : Nat}
    (hk : k + ls.length ≤ N)
    (h : ∀ i (h : i < ls.length), ls[i].act j = decode (addingUp N lay src (N - 1 - (k + i)) j)) :
    ChainUp j (.ofBits (anyBelow (fun i => lay (N - i) j) (k + 1)) (anyBelow (fun i => src (N - i) j) (k + 1))) ls ∧
    endUp j (.ofBits (anyBelow (fun i => lay (N - i) j) (k + 1)) (anyBelow (fun i => src (N - i) j) (k + 1))) ls =
      .ofBits (anyBelow (fun i => lay (N - i) j) (k + ls.length + 1))
        (anyBelow (fun i => src (N - i) j) (k + ls.length + 1)) := by
  induction ls generalizing k with
  | nil => exact ⟨trivial, rfl⟩
  | cons l ls ih =>
      simp only [List.length_cons] at hk
      have e := h 0 (by simp)
      have hn : N - (N - 1 - (k + 0)) = k + 1 := by omega
      rw [addingUp, decode_up, hn] at e
      simp only [Nat.add_zero, List.getElem_cons_zero] at e
      have hh : N - 1 - k = N - (k + 1) := by omega
      obtain ⟨i1, i2⟩ := ih (k := k + 1) (by omega) (fun i hi => by
        have := h (i + 1) (by simpa using hi)
        rw [show k + (i + 1) = k + 1 + i by omega] at this
        simpa using this)
      simp only [ChainUp, endUp, e, join_ofBits, true_and, List.length_cons, hh]
      rw [show k + (ls.length + 1) + 1 = k + 1 + ls.length + 1 by omega]
      have c : ∀ p : Nat → Bool, (p (k + 1) || anyBelow p (k + 1)) = anyBelow p (k + 1 + 1) := by
        intro p; rw [Bool.or_comm]; rfl
      rw [c (fun i => lay (N - i) j), c (fun i => src (N - i) j)]
      exact ⟨i1, i2⟩

/-! ### The codes that occur -/

section codes
variable (x : LinIn F) (flag : Bool)

theorem anyBelow_true {p : Nat → Bool} {k : Nat} : anyBelow p k = true ↔ ∃ i, i < k ∧ p i = true := by
  induction k with
  | zero => simp [anyBelow]
  | succ k ih =>
      simp only [anyBelow, Bool.or_eq_true, ih]
      constructor
      · rintro (⟨i, h1, h2⟩ | h)
        · exact ⟨i, by omega, h2⟩
        · exact ⟨k, by omega, h⟩
      · rintro ⟨i, h1, h2⟩
        by_cases e : i = k
        · exact .inr (e ▸ h2)
        · exact .inl ⟨i, by omega, h2⟩

theorem beam_true {lay : Nat → Nat → Bool} {i j : Nat} : beam lay i j = true ↔ ∃ k, k ≤ i ∧ lay k j = true := by
  induction i with
  | zero => simp [beam]
  | succ i ih =>
      simp only [beam, Bool.or_eq_true, ih]
      constructor
      · rintro (⟨k, h1, h2⟩ | h)
        · exact ⟨k, by omega, h2⟩
        · exact ⟨_, le_rfl, h⟩
      · rintro ⟨k, h1, h2⟩
        by_cases e : k = i + 1
        · exact .inr (e ▸ h2)
        · exact .inl ⟨k, by omega, h2⟩

/-- With a source a layer that is active has active sources. -/
theorem lit_rows (h : x.solar = true ∨ x.thermal = true) (i j : Nat) (hl : (tables x flag).layers i j = true) :
    (tables x flag).sources i j = true := by
  simp only [tables] at hl ⊢
  simp only [sources, Bool.or_eq_true, Bool.and_eq_true]
  rcases h with h | h
  · exact .inl ⟨h, beam_true.2 ⟨i, le_rfl, hl⟩⟩
  · refine .inr ⟨h, ?_⟩
    unfold thermalT
    split <;> simp [hl]

/-- Without a source nothing is. -/
theorem dark_rows (h : x.solar = false ∧ x.thermal = false) (i j : Nat) : (tables x flag).sources i j = false := by
  simp [tables, sources, h]

/-- `adding_down` never holds a code with an `exit(1)`, and for the reflection from below always one that is there. -/
theorem down_codes (i j : Nat) :
    allExits (decode ((tables x flag).addingDown i j)) = false ∧
    ∀ f, refHas f (flip f (decode ((tables x flag).addingDown i j))).1
      (flip f (decode ((tables x flag).addingDown i j))).2 = true := by
  have e : decode ((tables x flag).addingDown i j) = _ := decode_down _ _ _ _
  rw [e]; clear e
  have h1 : anyBelow (fun k => (tables x flag).layers k j) i = true → x.solar = true ∨ x.thermal = true →
      anyBelow (fun k => (tables x flag).sources k j) i = true := by
    intro h hs
    obtain ⟨k, h1, h2⟩ := anyBelow_true.1 h
    exact anyBelow_true.2 ⟨k, h1, lit_rows x flag hs k j h2⟩
  have h2 := lit_rows x flag (i := i) (j := j)
  have h3 := dark_rows x flag (i := i) (j := j)
  have h4 : x.solar = false ∧ x.thermal = false → anyBelow (fun k => (tables x flag).sources k j) i = false := by
    intro h
    rw [← Bool.not_eq_true, anyBelow_true]
    rintro ⟨k, _, h'⟩
    rw [dark_rows x flag h] at h'
    cases h'
  simp only [tables] at h1 h2 h3 h4 ⊢
  generalize anyBelow (fun k => layers x flag k j) i = p at *
  generalize anyBelow (fun k => sources x (layers x flag) k j) i = q at *
  generalize layers x flag i j = r at *
  generalize sources x (layers x flag) i j = t at *
  generalize x.solar = u at *
  generalize x.thermal = v at *
  revert p q r t u v
  decide

theorem up_codes (i j : Nat) :
    ∀ f, refHas f (flip f (decode ((tables x flag).addingUp i j))).1
      (flip f (decode ((tables x flag).addingUp i j))).2 = true := by
  have e : decode ((tables x flag).addingUp i j) = _ := decode_up _ _ _ _
  rw [e]; clear e
  have h1 : anyBelow (fun k => (tables x flag).layers (x.nLayers - k) j) (x.nLayers - i) = true →
      x.solar = true ∨ x.thermal = true →
      anyBelow (fun k => (tables x flag).sources (x.nLayers - k) j) (x.nLayers - i) = true := by
    intro h hs
    obtain ⟨k, h1, h2⟩ := anyBelow_true.1 h
    exact anyBelow_true.2 ⟨k, h1, lit_rows x flag hs _ j h2⟩
  have h2 := lit_rows x flag (i := i) (j := j)
  have h3 := dark_rows x flag (i := i) (j := j)
  have h4 : x.solar = false ∧ x.thermal = false →
      anyBelow (fun k => (tables x flag).sources (x.nLayers - k) j) (x.nLayers - i) = false := by
    intro h
    rw [← Bool.not_eq_true, anyBelow_true]
    rintro ⟨k, _, h'⟩
    rw [dark_rows x flag h] at h'
    cases h'
  simp only [tables] at h1 h2 h3 h4 ⊢
  generalize anyBelow (fun k => layers x flag (x.nLayers - k) j) (x.nLayers - i) = p at *
  generalize anyBelow (fun k => sources x (layers x flag) (x.nLayers - k) j) (x.nLayers - i) = q at *
  generalize layers x flag i j = r at *
  generalize sources x (layers x flag) i j = t at *
  generalize x.solar = u at *
  generalize x.thermal = v at *
  revert p q r t u v
  decide

/-- Without thermal emission all codes of `adding_down` are there in `layer_add_all`. -/
theorem solar_codes (h : x.thermal = false) (i j : Nat) :
    allHas (decode ((tables x flag).addingDown i j)).1 (decode ((tables x flag).addingDown i j)).2 = true := by
  have e : decode ((tables x flag).addingDown i j) = _ := decode_down _ _ _ _
  rw [e]; clear e
  have h1 : x.solar = true → anyBelow (fun k => (tables x flag).sources k j) i =
      anyBelow (fun k => (tables x flag).layers k j) i := by
    intro hs
    rw [Bool.eq_iff_iff, anyBelow_true, anyBelow_true]
    constructor
    · rintro ⟨k, h1, h2⟩
      simp only [tables, sources, hs, h, Bool.false_and, Bool.or_false, Bool.true_and] at h2
      obtain ⟨k', h3, h4⟩ := beam_true.1 h2
      exact ⟨k', by omega, h4⟩
    · rintro ⟨k, h1, h2⟩
      exact ⟨k, h1, lit_rows x flag (.inl hs) k j h2⟩
  have h2 := lit_rows x flag (i := i) (j := j)
  have h3 := dark_rows x flag (i := i) (j := j)
  have h4 : x.solar = false ∧ x.thermal = false → anyBelow (fun k => (tables x flag).sources k j) i = false := by
    intro h
    rw [← Bool.not_eq_true, anyBelow_true]
    rintro ⟨k, _, h'⟩
    rw [dark_rows x flag h] at h'
    cases h'
  have h5 : x.solar = true → anyBelow (fun k => (tables x flag).layers k j) i = true →
      (tables x flag).sources i j = true := by
    intro hs h'
    obtain ⟨k, h1, h2⟩ := anyBelow_true.1 h'
    simp only [tables, sources, hs, Bool.true_and, Bool.or_eq_true]
    exact .inl (beam_true.2 ⟨k, by omega, h2⟩)
  simp only [tables] at h1 h2 h3 h4 h5 ⊢
  generalize anyBelow (fun k => layers x flag k j) i = p at *
  generalize anyBelow (fun k => sources x (layers x flag) k j) i = q at *
  generalize layers x flag i j = r at *
  generalize sources x (layers x flag) i j = t at *
  generalize x.solar = u at *
  generalize x.thermal = v at *
  subst h
  revert p q r t u
  decide

end codes

end Xrtm.Adding
