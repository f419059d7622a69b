import Mathlib.Tactic.Linarith
import Mathlib.Algebra.BigOperators.Group.Finset.Basic
import Mathlib.Tactic.NormNum
import Mathlib.Data.Finset.Card
import Verif.Spec.Derivs

/-!
# C15, C16: derivative activity tables
-/

namespace Xrtm.Derivs

theorem anyBelow_iff (p : Nat → Bool) (n : Nat) : anyBelow p n = true ↔ ∃ k < n, p k = true := by
  induction n with
  | zero => simp [anyBelow]
  | succ n ih =>
      simp only [anyBelow, Bool.or_eq_true, ih]
      constructor
      · rintro (⟨k, h1, h2⟩ | h)
        · exact ⟨k, by omega, h2⟩
        · exact ⟨n, by omega, h⟩
      · rintro ⟨k, h1, h2⟩
        rcases Nat.lt_or_ge k n with h | h
        · exact Or.inl ⟨k, h, h2⟩
        · have : k = n := by omega
          exact Or.inr (this ▸ h2)

section
variable {F : Type} [Zero F] [DecidableEq F] (x : LinIn F)

/-- Whether the surface takes part in the terms a table is for. -/
def surf (flag : Bool) : Prop := flag = true ∨ x.needsFourier = true

/-- C15: a row is active exactly if the derivative reaches its reflection and transmission. -/
theorem C15_layers (flag : Bool) {i : Nat} (hi : i ≤ x.nLayers) (j : Nat) :
    (tables x flag).layers i j = true ↔ Reaches x j (OfRow x (surf x flag) i) := by
  simp only [tables, layers, Reaches, OfRow]
  split
  · rename_i h
    simp only [Bool.or_eq_true, decide_eq_true_eq, anyBelow_iff]
    constructor
    · rintro ((h1 | h1) | ⟨k, hk, l, hl, h1⟩)
      · exact ⟨.ltau i, Or.inl ⟨h, rfl⟩, h1⟩
      · exact ⟨.omega i, Or.inl ⟨h, rfl⟩, h1⟩
      · exact ⟨.coef i k l, Or.inl ⟨h, rfl, hk, hl⟩, h1⟩
    · rintro ⟨p, ⟨-, hp⟩ | ⟨rfl, -⟩, h1⟩
      · cases p <;> simp only [OfLayer] at hp
        · subst hp; exact Or.inl (Or.inl h1)
        · subst hp; exact Or.inl (Or.inr h1)
        · obtain ⟨rfl, hk, hl⟩ := hp; exact Or.inr ⟨_, hk, _, hl, h1⟩
      · omega
  · rename_i h
    have hi : i = x.nLayers := by omega
    simp only [Bool.or_eq_true, Bool.and_eq_true, decide_eq_true_eq, anyBelow_iff]
    constructor
    · rintro ⟨hs, k, hk, h1 | ⟨l, hl, h1⟩⟩
      · exact ⟨.ampfac k, Or.inr ⟨hi, hs, hk⟩, h1⟩
      · exact ⟨.param k l, Or.inr ⟨hi, hs, hk, hl⟩, h1⟩
    · rintro ⟨p, ⟨h', -⟩ | ⟨-, hs, hp⟩, h1⟩
      · omega
      · refine ⟨hs, ?_⟩
        cases p <;> simp only [OfSurface] at hp
        · exact ⟨_, hp, Or.inl h1⟩
        · exact ⟨_, hp.1, Or.inr ⟨_, hp.2, h1⟩⟩

theorem beam_iff (lay : Nat → Nat → Bool) (i j : Nat) : beam lay i j = true ↔ ∃ k ≤ i, lay k j = true := by
  induction i with
  | zero => simp [beam]
  | succ i ih =>
      simp only [beam, Bool.or_eq_true, ih]
      constructor
      · rintro (⟨k, h1, h2⟩ | h)
        · exact ⟨k, by omega, h2⟩
        · exact ⟨_, le_rfl, h⟩
      · rintro ⟨k, h1, h2⟩
        rcases Nat.lt_or_ge i k with h | h
        · have : k = i + 1 := by omega
          exact Or.inr (this ▸ h2)
        · exact Or.inl ⟨k, h, h2⟩

/-- C15: beam activity is exactly that some row down to this one is active. -/
theorem C15_beam_rows (flag : Bool) (i j : Nat) :
    (tables x flag).beam i j = true ↔ ∃ k ≤ i, (tables x flag).layers k j = true := beam_iff _ i j

theorem C15_beam (flag : Bool) {i : Nat} (hi : i ≤ x.nLayers) (j : Nat) :
    (tables x flag).beam i j = true ↔ Reaches x j (OfSolar x (surf x flag) i) := by
  rw [C15_beam_rows]
  constructor
  · rintro ⟨k, hk, h⟩
    obtain ⟨p, h1, h2⟩ := (C15_layers x flag (by omega) j).1 h
    exact ⟨p, ⟨k, hk, h1⟩, h2⟩
  · rintro ⟨p, ⟨k, hk, h1⟩, h2⟩
    exact ⟨k, hk, (C15_layers x flag (by omega) j).2 ⟨p, h1, h2⟩⟩

/-- C15: thermal emission. -/
theorem C15_thermal (flag : Bool) {i : Nat} (hi : i ≤ x.nLayers) (j : Nat) :
    (tables x flag).thermal i j = true ↔ Reaches x j (OfThermal x (surf x flag) i) := by
  have hl := C15_layers x flag hi j
  simp only [tables] at hl
  simp only [tables, thermalT]
  split
  · rename_i h
    simp only [Bool.or_eq_true, decide_eq_true_eq, hl, Reaches, OfThermal]
    constructor
    · rintro ((⟨p, h1, h2⟩ | h1) | h1)
      · exact ⟨p, Or.inl h1, h2⟩
      · exact ⟨.levelB i, Or.inr (Or.inl ⟨h, Or.inl rfl⟩), h1⟩
      · exact ⟨.levelB (i + 1), Or.inr (Or.inl ⟨h, Or.inr rfl⟩), h1⟩
    · rintro ⟨p, h1 | ⟨-, rfl | rfl⟩ | ⟨h1, -⟩, h2⟩
      · exact Or.inl (Or.inl ⟨p, h1, h2⟩)
      · exact Or.inl (Or.inr h2)
      · exact Or.inr h2
      · omega
  · rename_i h
    simp only [Bool.or_eq_true, decide_eq_true_eq, hl, Reaches, OfThermal]
    constructor
    · rintro (⟨p, h1, h2⟩ | h1)
      · exact ⟨p, Or.inl h1, h2⟩
      · exact ⟨.surfaceB, Or.inr (Or.inr ⟨by omega, rfl⟩), h1⟩
    · rintro ⟨p, h1 | ⟨h1, -⟩ | ⟨-, rfl⟩, h2⟩
      · exact Or.inl ⟨p, h1, h2⟩
      · omega
      · exact Or.inr h2

/-- C15: the sources of a row. -/
theorem C15_sources (flag : Bool) {i : Nat} (hi : i ≤ x.nLayers) (j : Nat) :
    (tables x flag).sources i j = true ↔ Reaches x j (OfSource x (surf x flag) i) := by
  have hb := C15_beam x flag hi j
  have ht := C15_thermal x flag hi j
  simp only [tables] at hb ht
  simp only [tables, sources, Bool.or_eq_true, Bool.and_eq_true, hb, ht, Reaches, OfSource]
  constructor
  · rintro (⟨h, p, h1, h2⟩ | ⟨h, p, h1, h2⟩)
    · exact ⟨p, Or.inl ⟨h, h1⟩, h2⟩
    · exact ⟨p, Or.inr ⟨h, h1⟩, h2⟩
  · rintro ⟨p, ⟨h, h1⟩ | ⟨h, h1⟩, h2⟩
    · exact Or.inl ⟨h, p, h1, h2⟩
    · exact Or.inr ⟨h, p, h1, h2⟩

/-- C15: the whole stack. -/
theorem C15_total (flag : Bool) (j : Nat) :
    (tables x flag).total j = true ↔
      Reaches x j (fun p => ∃ i ≤ x.nLayers, OfRow x (surf x flag) i p ∨ OfSource x (surf x flag) i p) := by
  have hl : ∀ i, i ≤ x.nLayers → _ := fun i hi => C15_layers x flag hi j
  have hs : ∀ i, i ≤ x.nLayers → _ := fun i hi => C15_sources x flag hi j
  simp only [tables] at hl hs
  simp only [tables, total, anyBelow_iff, Bool.or_eq_true]
  constructor
  · rintro ⟨i, hi, h | h⟩
    · obtain ⟨p, h1, h2⟩ := (hl i (by omega)).1 h
      exact ⟨p, ⟨i, by omega, Or.inl h1⟩, h2⟩
    · obtain ⟨p, h1, h2⟩ := (hs i (by omega)).1 h
      exact ⟨p, ⟨i, by omega, Or.inr h1⟩, h2⟩
  · rintro ⟨p, ⟨i, hi, h | h⟩, h2⟩
    · exact ⟨i, by omega, Or.inl ((hl i hi).2 ⟨p, h, h2⟩)⟩
    · exact ⟨i, by omega, Or.inr ((hs i hi).2 ⟨p, h, h2⟩)⟩

theorem downCode_bits (a b c d : Bool) : downCode a b c d < 16 ∧
    (downCode a b c d).testBit 3 = a ∧ (downCode a b c d).testBit 2 = b ∧
    (downCode a b c d).testBit 1 = c ∧ (downCode a b c d).testBit 0 = d := by
  cases a <;> cases b <;> cases c <;> cases d <;> decide

theorem upCode_bits (a b c d : Bool) : upCode a b c d < 16 ∧
    (upCode a b c d).testBit 3 = a ∧ (upCode a b c d).testBit 2 = b ∧
    (upCode a b c d).testBit 1 = c ∧ (upCode a b c d).testBit 0 = d := by
  cases a <;> cases b <;> cases c <;> cases d <;> decide

/-- C15: adding downwards. The four bits of the code say whether the derivative reaches the reflection and
transmission above, the sources above, those of this row. The code is always set. -/
theorem C15_adding_down (flag : Bool) {i : Nat} (hi : i ≤ x.nLayers) (j : Nat) :
    (tables x flag).addingDown i j < 16 ∧
    (((tables x flag).addingDown i j).testBit 3 = true ↔
      Reaches x j (fun p => ∃ k < i, OfRow x (surf x flag) k p)) ∧
    (((tables x flag).addingDown i j).testBit 2 = true ↔
      Reaches x j (fun p => ∃ k < i, OfSource x (surf x flag) k p)) ∧
    (((tables x flag).addingDown i j).testBit 1 = true ↔ Reaches x j (OfRow x (surf x flag) i)) ∧
    (((tables x flag).addingDown i j).testBit 0 = true ↔ Reaches x j (OfSource x (surf x flag) i)) := by
  have hl : ∀ i, i ≤ x.nLayers → _ := fun i hi => C15_layers x flag hi j
  have hs : ∀ i, i ≤ x.nLayers → _ := fun i hi => C15_sources x flag hi j
  simp only [tables] at hl hs
  simp only [tables, addingDown]
  obtain ⟨h0, h1, h2, h3, h4⟩ := downCode_bits
    (anyBelow (fun k => layers x flag k j) i) (anyBelow (fun k => sources x (layers x flag) k j) i)
    (layers x flag i j) (sources x (layers x flag) i j)
  refine ⟨h0, ?_, ?_, ?_, ?_⟩
  · rw [h1, anyBelow_iff]
    constructor
    · rintro ⟨k, hk, h⟩
      obtain ⟨p, g1, g2⟩ := (hl k (by omega)).1 h
      exact ⟨p, ⟨k, hk, g1⟩, g2⟩
    · rintro ⟨p, ⟨k, hk, g1⟩, g2⟩
      exact ⟨k, hk, (hl k (by omega)).2 ⟨p, g1, g2⟩⟩
  · rw [h2, anyBelow_iff]
    constructor
    · rintro ⟨k, hk, h⟩
      obtain ⟨p, g1, g2⟩ := (hs k (by omega)).1 h
      exact ⟨p, ⟨k, hk, g1⟩, g2⟩
    · rintro ⟨p, ⟨k, hk, g1⟩, g2⟩
      exact ⟨k, hk, (hs k (by omega)).2 ⟨p, g1, g2⟩⟩
  · rw [h3]; exact hl i hi
  · rw [h4]; exact hs i hi

/-- C15: adding upwards: this row and everything below. -/
theorem C15_adding_up (flag : Bool) {i : Nat} (hi : i ≤ x.nLayers) (j : Nat) :
    (tables x flag).addingUp i j < 16 ∧
    (((tables x flag).addingUp i j).testBit 3 = true ↔ Reaches x j (OfRow x (surf x flag) i)) ∧
    (((tables x flag).addingUp i j).testBit 2 = true ↔ Reaches x j (OfSource x (surf x flag) i)) ∧
    (((tables x flag).addingUp i j).testBit 1 = true ↔
      Reaches x j (fun p => ∃ k, i < k ∧ k ≤ x.nLayers ∧ OfRow x (surf x flag) k p)) ∧
    (((tables x flag).addingUp i j).testBit 0 = true ↔
      Reaches x j (fun p => ∃ k, i < k ∧ k ≤ x.nLayers ∧ OfSource x (surf x flag) k p)) := by
  have hl : ∀ i, i ≤ x.nLayers → _ := fun i hi => C15_layers x flag hi j
  have hs : ∀ i, i ≤ x.nLayers → _ := fun i hi => C15_sources x flag hi j
  simp only [tables] at hl hs
  simp only [tables, addingUp]
  obtain ⟨h0, h1, h2, h3, h4⟩ := upCode_bits (layers x flag i j) (sources x (layers x flag) i j)
    (anyBelow (fun k => layers x flag (x.nLayers - k) j) (x.nLayers - i))
    (anyBelow (fun k => sources x (layers x flag) (x.nLayers - k) j) (x.nLayers - i))
  refine ⟨h0, ?_, ?_, ?_, ?_⟩
  · rw [h1]; exact hl i hi
  · rw [h2]; exact hs i hi
  · rw [h3, anyBelow_iff]
    constructor
    · rintro ⟨k, hk, h⟩
      obtain ⟨p, g1, g2⟩ := (hl _ (by omega)).1 h
      exact ⟨p, ⟨_, by omega, by omega, g1⟩, g2⟩
    · rintro ⟨p, ⟨k, hk, hk', g1⟩, g2⟩
      refine ⟨x.nLayers - k, by omega, ?_⟩
      rw [show x.nLayers - (x.nLayers - k) = k by omega]
      exact (hl k hk').2 ⟨p, g1, g2⟩
  · rw [h4, anyBelow_iff]
    constructor
    · rintro ⟨k, hk, h⟩
      obtain ⟨p, g1, g2⟩ := (hs _ (by omega)).1 h
      exact ⟨p, ⟨_, by omega, by omega, g1⟩, g2⟩
    · rintro ⟨p, ⟨k, hk, hk', g1⟩, g2⟩
      refine ⟨x.nLayers - k, by omega, ?_⟩
      rw [show x.nLayers - (x.nLayers - k) = k by omega]
      exact (hs k hk').2 ⟨p, g1, g2⟩

private theorem stackCode : ∀ a b : Bool, (a = true → b = true) →
    (match a, b with
      | false, false => 0
      | true, false => 1
      | false, true => 5
      | true, true => 5 : Nat) = if b then 5 else 0 := by decide

/-- C15: the stack table, below the first row, says whether the derivative reaches something above the row;
the code 1 occurs in row 0 only, for the row itself. -/
theorem C15_stacks (flag : Bool) {i : Nat} (hi : i ≤ x.nLayers) (j : Nat) :
    (tables x flag).stackT (i + 1) j = (if (tables x flag).beam i j then 5 else 0) ∧
    (tables x flag).stackT 0 j = (if (tables x flag).layers 0 j then 1 else 0) := by
  refine ⟨?_, rfl⟩
  simp only [tables, stackT]
  have h : anyBelow (fun k => layers x flag k j) (i + 1) = beam (layers x flag) i j := by
    rw [Bool.eq_iff_iff, anyBelow_iff, beam_iff]
    constructor
    · rintro ⟨k, h1, h2⟩; exact ⟨k, by omega, h2⟩
    · rintro ⟨k, h1, h2⟩; exact ⟨k, by omega, h2⟩
  have h' : layers x flag i j = true → beam (layers x flag) i j = true := fun h =>
    (beam_iff _ i j).2 ⟨i, le_rfl, h⟩
  rw [h]
  exact stackCode _ _ h'

end

/-- C15: treated as zero, it is zero. If derivative `j` does not reach what a quantity looks at, the quantity
does not change at all along the perturbation. With the theorems above: whenever the table says inactive. -/
theorem C15_zero (x : LinIn ℝ) (j : Nat) {D : Par → Prop} (h : ¬ Reaches x j D) {V : Type} {q : (Par → ℝ) → V}
    (hq : DependsOn q D) (base : Par → ℝ) (t : ℝ) : q (fun p => base p + t * pert x j p) = q base := by
  apply hq
  intro p hp
  have : pert x j p = 0 := by
    by_contra hne
    exact h ⟨p, hp, hne⟩
  rw [this, mul_zero, add_zero]

/-- The upward light that leaves the surface when there is one (`In_p` of `diff_bound_input_update`,
`src/xrtm_model.c:3912-4157`) also contains the isotropic input from below. -/
def OfUpwardInput {F : Type} (x : LinIn F) (p : Par) : Prop := OfSource x True x.nLayers p ∨ p = .isoBot

/-- C15 fails for the isotropic input: when a derivative acts on the isotropic input from below only, the
source of the surface row is marked inactive, although `get_total_TOA_R_S_U_V` (2863-2864) takes the
derivative of the upward input from it only if the row is active. -/
theorem C15_violated_iso {F : Type} [Zero F] [DecidableEq F] (x : LinIn F) (j : Nat) (h : x.isoBotL j ≠ 0)
    (h0 : ∀ p, p ≠ .isoBot → pert x j p = 0) :
    (tables x true).sources x.nLayers j = false ∧ (tables x true).total j = false ∧ Reaches x j (OfUpwardInput x) := by
  refine ⟨?_, ?_, .isoBot, Or.inr rfl, h⟩
  · rw [← Bool.not_eq_true, C15_sources x true le_rfl]
    rintro ⟨p, hp, hne⟩
    by_cases hp' : p = .isoBot
    · subst hp'
      simp [OfSource, OfSolar, OfThermal, OfRow, OfLayer, OfSurface] at hp
    · exact hne (h0 p hp')
  · rw [← Bool.not_eq_true, C15_total x true]
    rintro ⟨p, hp, hne⟩
    by_cases hp' : p = .isoBot
    · subst hp'
      simp [OfSource, OfSolar, OfThermal, OfRow, OfLayer, OfSurface] at hp
    · exact hne (h0 p hp')

/-- A table of 3 layers and 2 derivatives: derivative 0 acts on the thickness of layer 1, derivative 1 on
the temperature of level 2. -/
def demo : LinIn Int :=
  { nLayers := 3, nDerivs := 2, nElem := 1, nCoefLayer := fun _ => 2, nKernels := 1, nParams := fun _ => 1
    needsFourier := false, solar := true, thermal := true
    ltauL := fun i j => if i = 1 ∧ j = 0 then 1 else 0
    omegaL := fun _ _ => 0, coefL := fun _ _ _ _ => 0, ampfacL := fun _ _ => 0, paramsL := fun _ _ _ => 0
    levelsBL := fun i j => if i = 2 ∧ j = 1 then 1 else 0
    surfaceBL := fun _ => 0, isoTopL := fun _ => 0, isoBotL := fun j => if j = 2 then 1 else 0 }

example : (List.range 4).map (fun i => (tables demo true).addingDown i 0) = [0, 3, 13, 13] ∧
    (List.range 4).map (fun i => (tables demo true).addingDown i 1) = [0, 1, 5, 4] ∧
    (List.range 4).map (fun i => (tables demo true).addingUp i 0) = [3, 13, 5, 4] ∧
    (List.range 4).map (fun i => (tables demo true).stackT i 0) = [0, 0, 5, 5] := by decide

example : demo.isoBotL 2 ≠ 0 ∧ ∀ p, p ≠ .isoBot → pert demo 2 p = 0 := by
  refine ⟨by decide, fun p hp => ?_⟩
  cases p <;> simp_all [pert, demo]

example : ¬ Reaches demo 0 (OfRow demo True 0) ∧ Reaches demo 0 (OfRow demo True 1) := by
  constructor
  · have := C15_layers demo true (i := 0) (by decide) 0
    intro h
    exact absurd (this.2 (by
      obtain ⟨p, hp, h2⟩ := h
      refine ⟨p, ?_, h2⟩
      simpa [OfRow, surf] using hp)) (by decide)
  · exact ⟨.ltau 1, Or.inl ⟨by decide, rfl⟩, by decide⟩

/-! ## C16 -/

/-- C16: `or_` is 1 iff some flag is set, and `count` is the number of flags set. -/
theorem C16_meta (flags : Nat → Nat) (n : Nat) :
    (flagsOr (fillMeta flags n) n = 1 ↔ ∃ k < n, flags k ≠ 0) ∧
    (flagsOr (fillMeta flags n) n = 0 ↔ ∀ k < n, flags k = 0) ∧
    flagsCount (fillMeta flags n) n = ((Finset.range n).filter fun k => flags k ≠ 0).card := by
  have key : ∀ n, ((fillMeta flags n).or_ = if (∃ k < n, flags k ≠ 0) then 1 else 0) ∧
      (fillMeta flags n).count = ((Finset.range n).filter fun k => flags k ≠ 0).card := by
    intro n
    induction n with
    | zero => simp [fillMeta]
    | succ n ih =>
        simp only [fillMeta]
        by_cases h : flags n = 0
        · simp only [h, ne_eq, not_true_eq_false, if_false]
          have e : (∃ k < n + 1, ¬ flags k = 0) ↔ ∃ k < n, ¬ flags k = 0 := by
            constructor
            · rintro ⟨k, h1, h2⟩
              refine ⟨k, ?_, h2⟩
              rcases Nat.lt_or_ge k n with h' | h'
              · exact h'
              · have : k = n := by omega
                exact absurd h (this ▸ h2)
            · rintro ⟨k, h1, h2⟩; exact ⟨k, by omega, h2⟩
          refine ⟨by rw [ih.1]; simp only [ne_eq, e], ?_⟩
          rw [ih.2, Finset.range_add_one, Finset.filter_insert, if_neg (by simp [h])]
        · simp only [ne_eq, h, not_false_eq_true, if_true]
          refine ⟨by rw [if_pos ⟨n, by omega, h⟩], ?_⟩
          rw [ih.2, Finset.range_add_one, Finset.filter_insert, if_pos h,
            Finset.card_insert_of_notMem (by simp)]
  have k1 := key n
  rcases Nat.eq_zero_or_pos n with rfl | hn
  · simp [flagsOr, flagsCount]
  · simp only [flagsOr, flagsCount, if_neg (by omega : ¬ n = 0), k1.1, k1.2]
    refine ⟨?_, ?_, trivial⟩
    · by_cases h : ∃ k < n, flags k ≠ 0
      · simp [h]
      · simp [h]
    · by_cases h : ∃ k < n, flags k ≠ 0
      · rw [if_pos h]
        obtain ⟨k, h1, h2⟩ := h
        simp only [one_ne_zero, false_iff]
        exact fun h => h2 (h k h1)
      · rw [if_neg h]
        simp only [true_iff]
        intro k hk
        by_contra h'
        exact h ⟨k, hk, h'⟩

/-- C16, whole tables. -/
theorem C16_meta2 (flags : Nat → Nat → Nat) (n m : Nat) :
    ((fillMeta2 flags n m).or_ = 1 ↔ ∃ i < m, ∃ k < n, flags i k ≠ 0) ∧
    (fillMeta2 flags n m).count = ∑ i ∈ Finset.range m, ((Finset.range n).filter fun k => flags i k ≠ 0).card := by
  have key : ∀ m, ((fillMeta2 flags n m).or_ = 0 ∨ (fillMeta2 flags n m).or_ = 1) ∧
      ((fillMeta2 flags n m).or_ = 1 ↔ ∃ i < m, ∃ k < n, flags i k ≠ 0) ∧
      (fillMeta2 flags n m).count = ∑ i ∈ Finset.range m, ((Finset.range n).filter fun k => flags i k ≠ 0).card := by
    intro m
    induction m with
    | zero => simp [fillMeta2]
    | succ m ih =>
        obtain ⟨r1, r2, r3⟩ := C16_meta (flags m) n
        simp only [fillMeta2]
        by_cases h : flagsOr (fillMeta (flags m) n) n = 0
        · have hz := r2.1 h
          simp only [h, ne_eq, not_true_eq_false, if_false]
          refine ⟨ih.1, ih.2.1.trans ?_, ?_⟩
          · constructor
            · rintro ⟨i, hi, h'⟩; exact ⟨i, by omega, h'⟩
            · rintro ⟨i, hi, k, hk, h'⟩
              refine ⟨i, ?_, k, hk, h'⟩
              rcases Nat.lt_or_ge i m with h3 | h3
              · exact h3
              · have : i = m := by omega
                exact absurd (hz k hk) (this ▸ h')
          · rw [Finset.sum_range_succ, ih.2.2]
            have : ((Finset.range n).filter fun k => flags m k ≠ 0) = ∅ := by
              rw [Finset.filter_eq_empty_iff]
              intro k hk
              simp [hz k (Finset.mem_range.1 hk)]
            rw [this]; simp
        · have h1 : ∃ k < n, flags m k ≠ 0 := by
            by_contra hno
            apply h
            rw [r2]
            intro k hk
            by_contra h'
            exact hno ⟨k, hk, h'⟩
          simp only [ne_eq, h, not_false_eq_true, if_true]
          refine ⟨Or.inr trivial, ?_, ?_⟩
          · simp only [true_iff]; exact ⟨m, by omega, h1⟩
          · rw [Finset.sum_range_succ, ih.2.2, r3]
  exact (key m).2

theorem C16_bits (flags : Nat → Nat) (n b : Nat) :
    (unionBits flags n).testBit b = true ↔ ∃ k < n, (flags k).testBit b = true := by
  induction n with
  | zero => simp [unionBits]
  | succ n ih =>
      simp only [unionBits, Nat.testBit_or, Bool.or_eq_true, ih]
      constructor
      · rintro (⟨k, h1, h2⟩ | h)
        · exact ⟨k, by omega, h2⟩
        · exact ⟨n, by omega, h⟩
      · rintro ⟨k, h1, h2⟩
        rcases Nat.lt_or_ge k n with h | h
        · exact Or.inl ⟨k, h, h2⟩
        · have : k = n := by omega
          exact Or.inr (this ▸ h2)

section
variable {F : Type} [Zero F] [DecidableEq F] (x : LinIn F)

/-- "`u` is the logical or over the derivatives of row `i`". -/
def IsOr (u : Option Nat) (n : Nat) (row : Nat → Prop) : Prop :=
  ∃ v, u = some v ∧ (v = 0 ∨ v = 1) ∧ (v = 1 ↔ ∃ j < n, row j)

/-- "`u` is the bitwise or". -/
def IsBits (u : Option Nat) (n : Nat) (row : Nat → Nat) : Prop :=
  ∃ v, u = some v ∧ ∀ b, v.testBit b = true ↔ ∃ j < n, (row j).testBit b = true

theorem unionOr_is (flags : Nat → Nat → Nat) (n i : Nat) (row : Nat → Prop) (h : ∀ j, flags i j ≠ 0 ↔ row j) :
    IsOr (some (unionOr flags n i)) n row := by
  obtain ⟨h1, h2, -⟩ := C16_meta (flags i) n
  refine ⟨_, rfl, ?_, ?_⟩
  · simp only [unionOr]
    by_cases h' : ∃ k < n, flags i k ≠ 0
    · exact Or.inr (h1.2 h')
    · left
      rw [h2]
      intro k hk
      by_contra h3
      exact h' ⟨k, hk, h3⟩
  · simp only [unionOr, h1, h]

/-- C16: with the adjoint option on, the union tables for Fourier term 0 are the or over the derivatives. -/
theorem C16_unions (i : Nat) :
    IsOr ((unions x).layers i) x.nDerivs (fun j => (tables x true).layers i j = true) ∧
    IsOr ((unions x).sources i) x.nDerivs (fun j => (tables x true).sources i j = true) ∧
    IsOr ((unions x).stackT i) x.nDerivs (fun j => (tables x true).stackT i j ≠ 0) ∧
    (x.solar = true → IsOr ((unions x).beam i) x.nDerivs (fun j => (tables x true).beam i j = true)) ∧
    (x.thermal = true → IsOr ((unions x).thermal i) x.nDerivs (fun j => (tables x true).thermal i j = true)) ∧
    IsBits ((unions x).addingUp i) x.nDerivs (fun j => (tables x true).addingUp i j) ∧
    IsBits ((unions x).addingDown i) x.nDerivs (fun j => (tables x true).addingDown i j) := by
  have hb : ∀ b : Bool, b2n b ≠ 0 ↔ b = true := by intro b; cases b <;> simp [b2n]
  refine ⟨unionOr_is _ _ _ _ (fun j => hb _), unionOr_is _ _ _ _ (fun j => hb _),
    unionOr_is _ _ _ _ (fun j => Iff.rfl), fun h => ?_, fun h => ?_, ⟨_, rfl, fun b => C16_bits _ _ _⟩,
    ⟨_, rfl, fun b => C16_bits _ _ _⟩⟩
  · simp only [unions, h, if_true]; exact unionOr_is _ _ _ _ (fun j => hb _)
  · simp only [unions, h, if_true]; exact unionOr_is _ _ _ _ (fun j => hb _)

/-- C16 for the other Fourier terms: the code words are right; the layer and source unions are at least
the or. Missing: they can be larger, and the beam union is not written, see `C16_violated_*`. -/
theorem C16_unions_m_partial {i : Nat} (hi : i ≤ x.nLayers) :
    IsBits ((unionsM x).addingUp i) x.nDerivs (fun j => (tables x false).addingUp i j) ∧
    IsBits ((unionsM x).addingDown i) x.nDerivs (fun j => (tables x false).addingDown i j) ∧
    (∀ j < x.nDerivs, (tables x false).layers i j = true → (unionsM x).layers i = some 1) ∧
    (∀ j < x.nDerivs, (tables x false).sources i j = true → (unionsM x).sources i = some 1) := by
  have mono : ∀ D D' : Par → Prop, (∀ p, D p → D' p) → ∀ j, Reaches x j D → Reaches x j D' :=
    fun D D' h j ⟨p, h1, h2⟩ => ⟨p, h p h1, h2⟩
  have hs : surf x false → surf x true := fun _ => Or.inl rfl
  have hrow : ∀ k p, OfRow x (surf x false) k p → OfRow x (surf x true) k p := by
    rintro k p (h | ⟨h1, h2, h3⟩)
    · exact Or.inl h
    · exact Or.inr ⟨h1, hs h2, h3⟩
  have hsrc : ∀ k p, OfSource x (surf x false) k p → OfSource x (surf x true) k p := by
    rintro k p (⟨h, k', hk', h'⟩ | ⟨h, h' | h'⟩)
    · exact Or.inl ⟨h, k', hk', hrow _ _ h'⟩
    · exact Or.inr ⟨h, Or.inl (hrow _ _ h')⟩
    · exact Or.inr ⟨h, Or.inr h'⟩
  refine ⟨⟨_, rfl, fun b => C16_bits _ _ _⟩, ⟨_, rfl, fun b => C16_bits _ _ _⟩, fun j hj h => ?_, fun j hj h => ?_⟩
  · obtain ⟨v, h1, h2, h3⟩ := (C16_unions x i).1
    have h4 : (unionsM x).layers i = (unions x).layers i := rfl
    rw [h4, h1, h3.2 ⟨j, hj, (C15_layers x true hi j).2 (mono _ _ (hrow i) j ((C15_layers x false hi j).1 h))⟩]
  · obtain ⟨v, h1, h2, h3⟩ := (C16_unions x i).2.1
    have h4 : (unionsM x).sources i = (unions x).sources i := rfl
    rw [h4, h1, h3.2 ⟨j, hj, (C15_sources x true hi j).2 (mono _ _ (hsrc i) j ((C15_sources x false hi j).1 h))⟩]

/-- C16 fails: `flags_and` never reports that all flags are set. -/
theorem C16_violated_and (flags : Nat → Nat) (n : Nat) : flagsAnd (fillMeta flags n) n = 0 := by
  have : ∀ n, (fillMeta flags n).and_ = 0 := by
    intro n
    induction n with
    | zero => rfl
    | succ n ih => simp only [fillMeta]; split <;> simp [ih]
  simp [flagsAnd, this]

/-- C16 fails: the beam union for the higher terms is never written. -/
theorem C16_violated_beam_m (i : Nat) (P : Nat → Prop) : ¬ IsOr ((unionsM x).beam i) x.nDerivs P := by
  rintro ⟨v, h, -⟩
  simp [unionsM] at h

/-- C16 fails: with a Lambertian surface, whose derivative is zero in the higher terms, the layer
union of the higher terms still has the surface row set. -/
theorem C16_violated_layers_m {j : Nat} (hj : j < x.nDerivs) (hf : x.needsFourier = false) (hk : 0 < x.nKernels)
    (ha : x.ampfacL 0 j ≠ 0) :
    (unionsM x).layers x.nLayers = some 1 ∧ ∀ j, (tables x false).layers x.nLayers j = false := by
  constructor
  · obtain ⟨v, h1, h2, h3⟩ := (C16_unions x x.nLayers).1
    have h4 : (unionsM x).layers x.nLayers = (unions x).layers x.nLayers := rfl
    rw [h4, h1, h3.2 ⟨j, hj, (C15_layers x true le_rfl j).2 ⟨.ampfac 0, Or.inr ⟨rfl, Or.inl rfl, hk⟩, ha⟩⟩]
  · intro j
    rw [← Bool.not_eq_true, C15_layers x false le_rfl]
    rintro ⟨p, ⟨h, -⟩ | ⟨-, h, -⟩, -⟩
    · omega
    · simp [surf, hf] at h

/-- C15/C16: `derivs_merge_s` leaves one combination unwritten: the upper part active, the lower not. -/
theorem C16_merge (s1 sm : Nat) : mergeS s1 sm = none ↔ s1 ≠ 0 ∧ sm = 0 := by
  unfold mergeS
  by_cases h1 : s1 = 0 <;> by_cases h2 : sm = 0 <;> simp [h1, h2]

/-- Between rows of the stack table with the first row above the second this does not occur. -/
theorem C16_merge_ok (flag : Bool) {i1 i2 : Nat} (h : i1 ≤ i2) (h2 : i2 ≤ x.nLayers) (h0 : 0 < i1) (j : Nat) :
    mergeS ((tables x flag).stackT i1 j) ((tables x flag).stackT i2 j) ≠ none := by
  rw [Ne, C16_merge]
  rintro ⟨g1, g2⟩
  obtain ⟨a, rfl⟩ : ∃ a, i1 = a + 1 := ⟨i1 - 1, by omega⟩
  obtain ⟨b, rfl⟩ : ∃ b, i2 = b + 1 := ⟨i2 - 1, by omega⟩
  rw [(C15_stacks x flag (by omega) j).1] at g1 g2
  have hb : (tables x flag).beam b j = false := by
    by_contra hc
    simp [hc] at g2
  have ha : (tables x flag).beam a j = true := by
    by_contra hc
    simp [hc] at g1
  obtain ⟨k, hk, h3⟩ := (C15_beam_rows x flag a j).1 ha
  have := (C15_beam_rows x flag b j).2 ⟨k, by omega, h3⟩
  rw [hb] at this
  cases this

end

example : (unionsM { demo with ampfacL := fun _ _ => 1 }).layers demo.nLayers = some 1 :=
  (C16_violated_layers_m (F := Int)
    { demo with ampfacL := fun _ _ => 1 } (j := 0) (by decide) rfl (by decide) (by decide)).1

example : (fillMeta (fun k => if k = 2 then 0 else 7) 5).count = 4 ∧
    (List.range 4).map (fun i => (unions demo).addingDown i) = [some 0, some 3, some 13, some 13] := by decide

end Xrtm.Derivs
