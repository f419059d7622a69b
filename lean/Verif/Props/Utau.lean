import Mathlib.Tactic.Linarith
import Mathlib.Algebra.Order.Ring.Int
import Mathlib.Algebra.BigOperators.Group.Finset.Basic
import Mathlib.Algebra.Order.BigOperators.Group.Finset
import Verif.Model.Utau
import Verif.Props.Scaling

/-!
# C14: output optical depths are located in the right layer
-/

namespace Xrtm

section order
variable {F : Type} [LinearOrder F]

/-- What the location of a depth should be, in terms of the depths `top` of the interfaces: the layer
whose upper interface is at or above the depth and whose lower interface is below it, except that the bottom
of the atmosphere belongs to the last layer. -/
def Spec.Contains (top : Nat → F) (n : Nat) (u : F) (k : Int) : Prop :=
  0 ≤ k ∧ k < n ∧ top k.toNat ≤ u ∧ (u < top (k.toNat + 1) ∨ (u = top n ∧ k = n - 1))

theorem scan_ok {tt : Nat → F} {n : Nat} {u : F} (hu : u < tt n) (ii : Nat) (hi : ii ≤ n)
    (hlo : ∀ j, j + 1 = ii → tt j ≤ u) :
    ∃ r, scan tt n u ii = some r ∧ ii ≤ r ∧ r ≤ n ∧ u < tt r ∧ ∀ j, j + 1 = r → tt j ≤ u := by
  rw [scan, if_neg (by omega)]
  split
  · rename_i h
    have hlt : ii < n := by
      rcases Nat.lt_or_ge ii n with h' | h'
      · exact h'
      · have : ii = n := by omega
        subst this
        exact absurd h (not_le.2 hu)
    obtain ⟨r, h1, h2, h3⟩ := scan_ok hu (ii + 1) (by omega) (fun j hj => by
      have : j = ii := by omega
      rwa [this])
    exact ⟨r, h1, by omega, h3⟩
  · rename_i h
    exact ⟨ii, rfl, le_rfl, hi, not_le.1 h, hlo⟩
termination_by n + 1 - ii

variable [Sub F]

theorem loop2_ok (tt u : Nat → F) (n : Nat) : ∀ k i (l : Loc F) (j : Nat),
    (loop2 tt u n k i l).ulevels j =
      (if i ≤ j ∧ j < i + k ∧ u j = tt n then (n : Int) - 1 else l.ulevels j) ∧
    (loop2 tt u n k i l).utaus20 j =
      (if i ≤ j ∧ j < i + k ∧ u j = tt n then u j - tt (n - 1) else l.utaus20 j)
  | 0, i, l, j => by
      rw [if_neg (by omega), if_neg (by omega)]
      exact ⟨rfl, rfl⟩
  | k + 1, i, l, j => by
      have ih := loop2_ok tt u n k (i + 1) (if u i = tt n then l.set i ((n : Int) - 1) (u i - tt (n - 1)) else l) j
      simp only [loop2]
      rw [ih.1, ih.2]
      by_cases hj : j = i
      · subst hj
        have hno : ¬ (j + 1 ≤ j ∧ j < j + 1 + k ∧ u j = tt n) := by omega
        simp only [if_neg hno]
        by_cases hu : u j = tt n
        · have hy : j ≤ j ∧ j < j + (k + 1) ∧ u j = tt n := ⟨le_rfl, by omega, hu⟩
          simp only [if_pos hu, if_pos hy]
          simp [Loc.set]
        · simp [hu]
      · have hs : ((if u i = tt n then l.set i ((n : Int) - 1) (u i - tt (n - 1)) else l).ulevels j = l.ulevels j) ∧
            (if u i = tt n then l.set i ((n : Int) - 1) (u i - tt (n - 1)) else l).utaus20 j = l.utaus20 j := by
          split
          · simp [Loc.set, hj]
          · exact ⟨rfl, rfl⟩
        rw [hs.1, hs.2]
        have : (i + 1 ≤ j ∧ j < i + 1 + k ∧ u j = tt n) ↔ (i ≤ j ∧ j < i + (k + 1) ∧ u j = tt n) := by
          constructor <;> rintro ⟨h1, h2, h3⟩ <;> exact ⟨by omega, by omega, h3⟩
        simp only [this, and_self]

theorem loop1_ok {tt u : Nat → F} {n : Nat} : ∀ k i ii (l : Loc F),
    ii ≤ n → (∀ j, i ≤ j → j < i + k → u j ≤ tt n ∧ tt 0 ≤ u j) →
    (∀ j, i ≤ j → j + 1 < i + k → u j < u (j + 1)) →
    (∀ j, j + 1 = ii → 0 < k → tt j ≤ u i) →
    ∃ l', loop1 tt u n k i ii l = some l' ∧ ∀ j,
      (j < i ∨ i + k ≤ j → l'.ulevels j = l.ulevels j ∧ l'.utaus20 j = l.utaus20 j) ∧
      (i ≤ j → j < i + k → u j ≠ tt n →
        Spec.Contains tt n (u j) (l'.ulevels j) ∧ l'.utaus20 j = u j - tt (l'.ulevels j).toNat)
  | 0, i, ii, l, _, _, _, _ => ⟨l, rfl, fun j => ⟨fun _ => ⟨rfl, rfl⟩, fun h1 h2 => by omega⟩⟩
  | k + 1, i, ii, l, hi, hr, hm, hlo => by
      have hri := hr i le_rfl (by omega)
      simp only [loop1]
      by_cases he : u i = tt n
      · rw [if_pos he]
        refine ⟨l, rfl, fun j => ⟨fun _ => ⟨rfl, rfl⟩, fun h1 h2 h3 => ?_⟩⟩
        exfalso
        have hall : ∀ d, i + d < i + (k + 1) → tt n ≤ u (i + d) := by
          intro d
          induction d with
          | zero => intro _; rw [Nat.add_zero, he]
          | succ d ihd => intro hd; exact (ihd (by omega)).trans (hm (i + d) (by omega) (by omega)).le
        obtain ⟨d, rfl⟩ := Nat.exists_eq_add_of_le h1
        exact h3 (le_antisymm (hr _ h1 h2).1 (hall d h2))
      · rw [if_neg he]
        have hlt : u i < tt n := lt_of_le_of_ne hri.1 he
        obtain ⟨r, h1, h2, h3, h4, h5⟩ := scan_ok hlt ii hi (fun j hj => hlo j hj (by omega))
        rw [h1]
        cases r with
        | zero => exact absurd hri.2 (not_le.2 h4)
        | succ r =>
            have h6 := h5 r rfl
            simp only
            obtain ⟨l', g1, g2⟩ := loop1_ok k (i + 1) (r + 1) (l.set i r (u i - tt r)) h3
              (fun j hj hj' => hr j (by omega) (by omega)) (fun j hj hj' => hm j (by omega) (by omega))
              (fun j hj hk => by
                have : j = r := by omega
                rw [this]
                exact h6.trans (hm i le_rfl (by omega)).le)
            refine ⟨l', g1, fun j => ⟨fun hj => ?_, fun hj1 hj2 hj3 => ?_⟩⟩
            · have := (g2 j).1 (by omega)
              rw [this.1, this.2]
              have hne : j ≠ i := by omega
              simp [Loc.set, hne]
            · by_cases hji : j = i
              · subst hji
                have := (g2 j).1 (by omega)
                rw [this.1, this.2]
                simp only [Loc.set, if_true, Int.toNat_natCast]
                refine ⟨⟨by omega, by omega, ?_, Or.inl ?_⟩, trivial⟩
                · simpa using h6
                · simpa using h4
              · exact (g2 j).2 (by omega) (by omega) hj3

theorem postCheck_iff [Zero F] [Add F] (ltau u : Nat → F) {n m : Nat} (hm : 0 < m) :
    postCheck ltau u n m = true ↔
      0 ≤ u 0 ∧ (∀ i, i < m → u i ≤ ttau ltau n) ∧ ∀ i, i + 1 < m → u i < u (i + 1) := by
  simp only [postCheck, Bool.and_eq_true, Bool.not_eq_true', Bool.or_eq_false_iff, decide_eq_false_iff_not,
    List.all_eq_true, List.mem_range, Bool.or_eq_true, beq_iff_eq, not_lt, not_le, gt_iff_lt]
  constructor
  · rintro ⟨⟨h1, h2⟩, h3⟩
    refine ⟨h1, fun i hi => ?_, fun i hi => ?_⟩
    · rcases h3 i hi with h | h
      · rw [h]; exact h2
      · exact h.2
    · rcases h3 (i + 1) hi with h | h
      · omega
      · exact h.1
  · rintro ⟨h1, h2, h3⟩
    refine ⟨⟨h1, h2 0 hm⟩, fun i hi => ?_⟩
    rcases Nat.eq_zero_or_pos i with h | h
    · exact Or.inl h
    · right
      obtain ⟨j, rfl⟩ := Nat.exists_eq_add_of_lt h
      simp only [Nat.zero_add]
      exact ⟨h3 j (by omega), h2 _ (by omega)⟩

/-- C14, order part, for any linearly ordered numbers and any rounding of the sums: accepted depths are located
without reading out of bounds, in the layer that contains them. The bottom of the atmosphere is in the last
layer if the last interface is not above the one before. -/
theorem C14_located [Zero F] [Add F] (ltau u : Nat → F) {n m : Nat} (hn : 0 < n) (hm : 0 < m)
    (hacc : postCheck ltau u n m = true) (hlast : ttau ltau (n - 1) ≤ ttau ltau n) (l : Loc F) :
    ∃ l', locate (ttau ltau) u n m l = some l' ∧ ∀ i, i < m →
      Spec.Contains (ttau ltau) n (u i) (l'.ulevels i) ∧
      l'.utaus20 i = u i - ttau ltau (l'.ulevels i).toNat := by
  obtain ⟨h0, h1, h2⟩ := (postCheck_iff ltau u hm).1 hacc
  have hpos : ∀ i, i < m → ttau ltau 0 ≤ u i := by
    intro i
    induction i with
    | zero => intro _; exact h0
    | succ i ih => intro hi; exact (ih (by omega)).trans (h2 i hi).le
  obtain ⟨l1, g1, g2⟩ := loop1_ok (tt := ttau ltau) (u := u) (n := n) m 0 0 l (by omega)
    (fun j _ hj => ⟨h1 j (by omega), hpos j (by omega)⟩) (fun j _ hj => h2 j (by omega)) (fun j hj => by omega)
  refine ⟨loop2 (ttau ltau) u n m 0 l1, by simp [locate, g1], fun i hi => ?_⟩
  have e := loop2_ok (ttau ltau) u n m 0 l1 i
  by_cases hu : u i = ttau ltau n
  · rw [if_pos ⟨by omega, by omega, hu⟩, if_pos ⟨by omega, by omega, hu⟩] at e
    rw [e.1, e.2]
    have ht : ((n : Int) - 1).toNat = n - 1 := by omega
    refine ⟨⟨by omega, by omega, ?_, Or.inr ⟨hu, rfl⟩⟩, by rw [ht]⟩
    rw [ht, hu]; exact hlast
  · rw [if_neg (fun h => hu h.2.2), if_neg (fun h => hu h.2.2)] at e
    rw [e.1, e.2]
    exact (g2 i).2 (by omega) (by omega) hu

end order

/-! ## Exact arithmetic -/

/-- The optical depth of interface `k` below the top. -/
def Spec.above (ltau : Nat → ℝ) (k : Nat) : ℝ := ∑ i ∈ Finset.range k, ltau i

theorem ttau_above (ltau : Nat → ℝ) (k : Nat) : ttau ltau k = Spec.above ltau k := by
  induction k with
  | zero => simp [ttau, Spec.above]
  | succ k ih => simp [ttau, Spec.above, Finset.sum_range_succ, ih]

/-- C14: for any positive layer thicknesses and any depths the validation accepts, each depth is given a
layer index in `[0, n)` and an offset between 0 and the thickness of that layer, and the offset plus the depth of the
layer's top is the requested depth. -/
theorem C14_offsets (ltau u : Nat → ℝ) {n m : Nat} (hn : 0 < n) (hm : 0 < m) (hl : ∀ i, i < n → 0 < ltau i)
    (hacc : postCheck ltau u n m = true) (l : Loc ℝ) :
    ∃ l', locate (ttau ltau) u n m l = some l' ∧ ∀ i, i < m →
      0 ≤ l'.ulevels i ∧ l'.ulevels i < n ∧ 0 ≤ l'.utaus20 i ∧ l'.utaus20 i ≤ ltau (l'.ulevels i).toNat ∧
      Spec.above ltau (l'.ulevels i).toNat + l'.utaus20 i = u i := by
  obtain ⟨k, rfl⟩ : ∃ k, n = k + 1 := ⟨n - 1, by omega⟩
  obtain ⟨l', h1, h2⟩ := C14_located ltau u hn hm hacc (by
    have := hl k (by omega)
    simp only [Nat.add_sub_cancel, ttau]; linarith) l
  refine ⟨l', h1, fun i hi => ?_⟩
  obtain ⟨⟨a1, a2, a3, a4⟩, a5⟩ := h2 i hi
  refine ⟨a1, a2, by rw [a5]; linarith, ?_, by rw [a5, ttau_above]; ring⟩
  rw [a5]
  rcases a4 with a4 | ⟨a4, a6⟩
  · simp only [ttau] at a4; linarith
  · have : (l'.ulevels i).toNat = k := by omega
    rw [this, a4]
    simp [ttau]

/-- C14: the location is the only possible one. -/
theorem C14_unique (ltau : Nat → ℝ) {n : Nat} (hl : ∀ i, i < n → 0 < ltau i) {u : ℝ} {k k' : Int}
    (h : Spec.Contains (Spec.above ltau) n u k) (h' : Spec.Contains (Spec.above ltau) n u k') : k = k' := by
  have mono : ∀ a b, a ≤ b → b ≤ n → Spec.above ltau a ≤ Spec.above ltau b := by
    intro a b hab
    induction b, hab using Nat.le_induction with
    | base => intro _; exact le_rfl
    | succ b hb ih =>
        intro hbn
        have := hl b (by omega)
        have := ih (by omega)
        simp only [Spec.above, Finset.sum_range_succ] at *
        linarith
  have key : ∀ {k k' : Int}, Spec.Contains (Spec.above ltau) n u k → Spec.Contains (Spec.above ltau) n u k' → ¬ k < k' := by
    rintro k k' ⟨a1, a2, a3, a4⟩ ⟨b1, b2, b3, b4⟩ hlt
    rcases a4 with a4 | ⟨a4, a5⟩
    · have := mono (k.toNat + 1) k'.toNat (by omega) (by omega)
      linarith
    · omega
  exact le_antisymm (not_lt.1 (key h' h)) (not_lt.1 (key h h'))

/-- C14 with delta-M: the scaled offset is between 0 and the scaled thickness, and its share of the layer is
unchanged. -/
theorem C14_deltaM (ltau u : Nat → ℝ) {n m : Nat} (hn : 0 < n) (hm : 0 < m) (hl : ∀ i, i < n → 0 < ltau i)
    (hacc : postCheck ltau u n m = true) (l : Loc ℝ) (n2 : Nat) (nCoef : Nat → Nat)
    (coef : Nat → Nat → Nat → ℝ) (omega0 : Nat → ℝ)
    (hw : ∀ i, i < n → omega0 i * deltaMF (nCoef i) n2 (coef i) < 1) :
    ∃ l', locate (ttau ltau) u n m l = some l' ∧ ∀ i, i < m →
      let k := (l'.ulevels i).toNat
      let thick := deltaMLtau (deltaMF (nCoef k) n2 (coef k)) (omega0 k) (ltau k)
      0 ≤ utaus2 n2 nCoef coef omega0 l' i ∧ utaus2 n2 nCoef coef omega0 l' i ≤ thick ∧
      utaus2 n2 nCoef coef omega0 l' i * ltau k = l'.utaus20 i * thick := by
  obtain ⟨l', h1, h2⟩ := C14_offsets ltau u hn hm hl hacc l
  refine ⟨l', h1, fun i hi => ?_⟩
  obtain ⟨a1, a2, a3, a4, a5⟩ := h2 i hi
  have hk : (l'.ulevels i).toNat < n := by omega
  have hp := hw _ hk
  have hs : 0 ≤ 1 - omega0 (l'.ulevels i).toNat * deltaMF (nCoef (l'.ulevels i).toNat) n2 (coef (l'.ulevels i).toNat) := by
    linarith
  simp only [utaus2, deltaMLtau]
  exact ⟨mul_nonneg hs a3, mul_le_mul_of_nonneg_left a4 hs, by ring⟩

/-- Interfaces, interior, and bottom: three layers of thickness 1, 2, 3, depths 0, 1, 2, 6. -/
example : postCheck (F := ℝ) (fun i => i + 1) (fun i => if i = 3 then 6 else i) 3 4 = true := by
  rw [postCheck_iff _ _ (by norm_num)]
  refine ⟨by norm_num, fun i hi => ?_, fun i hi => ?_⟩
  · have : i = 0 ∨ i = 1 ∨ i = 2 ∨ i = 3 := by omega
    rcases this with rfl | rfl | rfl | rfl <;> norm_num [ttau]
  · have : i = 0 ∨ i = 1 ∨ i = 2 := by omega
    rcases this with rfl | rfl | rfl <;> norm_num

example : (locate (F := ℤ) (ttau fun i => i + 1) (fun i => if i = 3 then 6 else i) 3 4 ⟨fun _ => 7, fun _ => 7⟩).map
    (fun l => (List.range 4).map fun i => (l.ulevels i, l.utaus20 i)) = some [(0, 0), (1, 0), (1, 1), (2, 3)] := by
  decide +kernel

end Xrtm
