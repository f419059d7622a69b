import Verif.Model.Alloc
import Verif.Spec.Alloc
import Mathlib.Tactic.Ring
import Mathlib.Tactic.Linarith
import Mathlib.Algebra.BigOperators.Group.List.Basic

/-!
# Lemmas for C21
-/

namespace Xrtm.Alloc

open Spec

theorem foldlM_range {α ε : Type} {f : α → Nat → Except ε α} {I : Nat → α → Prop} {n : Nat}
    (h : ∀ i < n, ∀ m, I i m → ∃ m', f m i = .ok m' ∧ I (i + 1) m') {m : α} (h0 : I 0 m) :
    ∃ m', (List.range n).foldlM f m = .ok m' ∧ I n m' := by
  induction n with
  | zero => exact ⟨m, rfl, h0⟩
  | succ n ih =>
    obtain ⟨m1, h1, h2⟩ := ih fun i hi => h i (by omega)
    obtain ⟨m2, h3, h4⟩ := h n (by omega) m1 h2
    refine ⟨m2, ?_, h4⟩
    rw [List.range_succ, List.foldlM_append, h1]
    simp [bind, Except.bind, h3, pure, Except.pure]

/-- Rows at a level. -/
def rows (dimen : List Nat) : Nat → Nat
  | 0 => 1
  | d + 1 => rows dimen d * dim dimen d

/-- Where the table of a level starts. -/
def table (dimen : List Nat) (base : Nat) : Nat → Nat
  | 0 => base
  | d + 1 => table dimen base d + 8 * rows dimen (d + 1)

/-- Where row `t` of a level starts; `D` is where the data start. -/
def loc (dimen : List Nat) (size base D d t : Nat) : Nat :=
  if d + 1 < dimen.length then table dimen base d + 8 * (t * dim dimen d) else D + size * (t * dim dimen d)

variable {dimen : List Nat} {size base D : Nat}

theorem strides_eq (dimen : List Nat) (base : Nat) (n : Nat) :
    (strides dimen n).2 = rows dimen n ∧ base + 8 * (strides dimen n).1 = table dimen base n := by
  induction n with
  | zero => simp [strides, rows, table]
  | succ n ih =>
    simp only [strides, rows, table]
    rw [← ih.2, ih.1]
    refine ⟨rfl, by ring⟩

theorem memLength_eq (dimen : List Nat) (size base : Nat) (h : dimen ≠ []) :
    base + memLength dimen size = table dimen base (dimen.length - 1) + rows dimen dimen.length * size := by
  obtain ⟨h1, h2⟩ := strides_eq dimen base (dimen.length - 1)
  have : dimen.length = dimen.length - 1 + 1 := by
    have := List.length_pos_iff.2 h
    omega
  rw [this, rows]
  simp only [Nat.add_sub_cancel]
  rw [← h2, ← h1]
  simp only [memLength]
  ring

theorem table_mono (base : Nat) {d d' : Nat} (h : d ≤ d') : table dimen base d ≤ table dimen base d' := by
  induction h with
  | refl => exact le_rfl
  | step _ ih => simp only [table]; omega

theorem cell_inj {d u d' u' : Nat} (hu : u < rows dimen (d + 1)) (hu' : u' < rows dimen (d' + 1))
    (h : table dimen base d + 8 * u = table dimen base d' + 8 * u') : d = d' ∧ u = u' := by
  rcases lt_trichotomy d d' with hlt | rfl | hlt
  · have := table_mono (dimen := dimen) base hlt
    simp only [table] at this
    omega
  · exact ⟨rfl, by omega⟩
  · have := table_mono (dimen := dimen) base hlt
    simp only [table] at this
    omega

/-- Row-major place of a prefix of an index. -/
def place (dimen : List Nat) (index : Nat → Nat) : Nat → Nat
  | 0 => 0
  | d + 1 => place dimen index d * dim dimen d + index d

theorem offsetLoop_eq (index : Nat → Nat) (j off off3 : Nat) :
    offsetLoop dimen index j off off3 = off + off3 * place dimen index j := by
  induction j generalizing off off3 with
  | zero => simp [offsetLoop, place]
  | succ j ih => rw [offsetLoop, ih, place]; ring

theorem place_congr {index index' : Nat → Nat} {j : Nat} (h : ∀ k < j, index k = index' k) : place dimen index j = place dimen index' j := by
  induction j with
  | zero => rfl
  | succ j ih => rw [place, place, ih fun k hk => h k (by omega), h j (by omega)]

/-- What holds while pointers are written: the block is big enough for the tables; what is written is right. -/
structure Right (dimen : List Nat) (size base D : Nat) (m : Mem) : Prop where
  start : m.base = base
  len : table dimen base (dimen.length - 1) ≤ base + m.len
  right : ∀ d u v, d + 1 < dimen.length → u < rows dimen (d + 1) → m.cell (table dimen base d + 8 * u) = some v →
    v = loc dimen size base D (d + 1) u
  low : ∀ p, m.cell p ≠ none → base ≤ p ∧ p + 8 ≤ table dimen base (dimen.length - 1)

def Written (dimen : List Nat) (base : Nat) (m : Mem) (d u : Nat) : Prop := m.cell (table dimen base d + 8 * u) ≠ none

theorem Right.inside {m : Mem} (r : Right dimen size base D m) {d u : Nat} (hd : d + 1 < dimen.length) (hu : u < rows dimen (d + 1)) :
    m.inside (table dimen base d + 8 * u) = true := by
  have h1 := table_mono (dimen := dimen) base (show d + 1 ≤ dimen.length - 1 by omega)
  have h2 := table_mono (dimen := dimen) base (show 0 ≤ d by omega)
  have h3 := r.len
  simp only [table] at h1 h2
  simp only [Mem.inside, r.start, Bool.and_eq_true, decide_eq_true_eq]
  omega

theorem Right.read {m : Mem} (r : Right dimen size base D m) {d u : Nat} (hd : d + 1 < dimen.length) (hu : u < rows dimen (d + 1))
    (hw : Written dimen base m d u) : m.read (table dimen base d + 8 * u) = .ok (loc dimen size base D (d + 1) u) := by
  simp only [Mem.read, r.inside hd hu, if_true]
  cases h : m.cell (table dimen base d + 8 * u) with
  | none => exact absurd h hw
  | some v => rw [r.right d u v hd hu h]

theorem Right.write {m : Mem} (r : Right dimen size base D m) {d u : Nat} (hd : d + 1 < dimen.length) (hu : u < rows dimen (d + 1)) :
    ∃ m', m.write (table dimen base d + 8 * u) (loc dimen size base D (d + 1) u) = .ok m' ∧ Right dimen size base D m' ∧ m'.len = m.len ∧
      Written dimen base m' d u ∧ ∀ d' u', Written dimen base m d' u' → Written dimen base m' d' u' := by
  refine ⟨{ m with cell := Function.update m.cell (table dimen base d + 8 * u) (some (loc dimen size base D (d + 1) u)) },
    by simp only [Mem.write, r.inside hd hu, if_true], ⟨r.start, r.len, ?_, ?_⟩, rfl, ?_, ?_⟩
  · intro d' u' v hd' hu' h
    by_cases he : table dimen base d' + 8 * u' = table dimen base d + 8 * u
    · obtain ⟨rfl, rfl⟩ := cell_inj hu' hu he
      simp only [Function.update_self, Option.some.injEq] at h
      exact h.symm
    · simp only [Function.update_of_ne he] at h
      exact r.right d' u' v hd' hu' h
  · intro p h
    by_cases he : p = table dimen base d + 8 * u
    · have h1 := table_mono (dimen := dimen) base (show d + 1 ≤ dimen.length - 1 by omega)
      have h2 := table_mono (dimen := dimen) base (show 0 ≤ d by omega)
      simp only [table] at h1 h2
      omega
    · simp only [Function.update_of_ne he] at h
      exact r.low p h
  · simp [Written]
  · intro d' u' h
    by_cases he : table dimen base d' + 8 * u' = table dimen base d + 8 * u
    · simp [Written, he]
    · simpa [Written, Function.update_of_ne he] using h

/-- Product of `n` dimensions from `d`. -/
def span (dimen : List Nat) : Nat → Nat → Nat
  | 0, _ => 1
  | n + 1, d => dim dimen d * span dimen n (d + 1)

theorem rows_span (dimen : List Nat) (n d : Nat) : rows dimen (d + n) = rows dimen d * span dimen n d := by
  induction n generalizing d with
  | zero => simp [span]
  | succ n ih => rw [show d + (n + 1) = d + 1 + n by omega, ih, span, rows]; ring

/-- Row `t` of level `d` is filled at all tables below. -/
def Filled (dimen : List Nat) (base : Nat) (m : Mem) (d t : Nat) : Prop :=
  ∀ n, d + n + 1 < dimen.length → ∀ u, t * span dimen (n + 1) d ≤ u → u < (t + 1) * span dimen (n + 1) d → Written dimen base m (d + n) u

theorem rows_pos (hp : ∀ k < dimen.length, 0 < dim dimen k) {d : Nat} (h : d ≤ dimen.length) : 0 < rows dimen d := by
  induction d with
  | zero => simp [rows]
  | succ d ih => exact Nat.mul_pos (ih (by omega)) (hp d (by omega))

theorem assign_spec (hp : ∀ k < dimen.length, 0 < dim dimen k) (left : Nat) :
    ∀ (depth t : Nat) (index : Nat → Nat) (m : Mem), depth + left + 2 = dimen.length → t < rows dimen depth → place dimen index depth = t →
      Right dimen size base D m → (∀ d, depth ≤ d → d + 1 < dimen.length → Written dimen base m d 0) →
      ∃ m', assign dimen size left depth (table dimen base depth) (table dimen base depth + 8 * (t * dim dimen depth)) index m = .ok m' ∧
        Right dimen size base D m' ∧ m'.len = m.len ∧ (∀ d u, Written dimen base m d u → Written dimen base m' d u) ∧ Filled dimen base m' depth t := by
  induction left with
  | zero =>
    intro depth t index m hl ht hpl r hw
    have hlast : depth + 1 + 1 = dimen.length := by omega
    have hoff : offsetLoop dimen index depth 0 (dim dimen (depth + 1) * dim dimen depth) = dim dimen (depth + 1) * dim dimen depth * t := by
      rw [offsetLoop_eq, hpl]; omega
    obtain ⟨m', h1, h2⟩ := foldlM_range (n := dim dimen depth) (m := m)
      (f := fun m i => do
        let p ← m.read (table dimen base depth)
        m.write (table dimen base depth + 8 * (t * dim dimen depth) + 8 * i) (p + (dim dimen (depth + 1) * dim dimen depth * t * size + i * (dim dimen (depth + 1) * size))))
      (I := fun i m' => Right dimen size base D m' ∧ m'.len = m.len ∧ (∀ d u, Written dimen base m d u → Written dimen base m' d u) ∧
        ∀ k < i, Written dimen base m' depth (t * dim dimen depth + k)) (by
        rintro i hi m1 ⟨r1, l1, w1, k1⟩
        have hu : t * dim dimen depth + i < rows dimen (depth + 1) := by
          rw [rows]
          nlinarith
        have h0 : 0 < rows dimen (depth + 1) := rows_pos hp (by omega)
        have hread := r1.read (d := depth) (u := 0) (by omega) h0 (w1 _ _ (hw depth le_rfl (by omega)))
        obtain ⟨m2, e1, e2, e3, e4, e5⟩ := r1.write (d := depth) (u := t * dim dimen depth + i) (by omega) hu
        refine ⟨m2, ?_, e2, e3.trans l1, fun d u h => e5 d u (w1 d u h), ?_⟩
        · rw [Nat.mul_zero, Nat.add_zero] at hread
          simp only [hread, bind, Except.bind]
          rw [← e1]
          congr 1
          · ring
          · simp only [loc, if_neg (show ¬ depth + 1 + 1 < dimen.length by omega)]
            ring
        · intro k hk
          rcases Nat.lt_succ_iff_lt_or_eq.1 hk with h | rfl
          · exact e5 _ _ (k1 k h)
          · exact e4) ⟨r, rfl, fun _ _ h => h, by simp⟩
    refine ⟨m', ?_, h2.1, h2.2.1, h2.2.2.1, ?_⟩
    · simp only [assign, hoff]
      exact h1
    · intro n hn u hu1 hu2
      obtain rfl : n = 0 := by omega
      simp only [span, Nat.mul_one] at hu1 hu2
      have := h2.2.2.2 (u - t * dim dimen depth) (by rw [Nat.add_mul, Nat.one_mul] at hu2; omega)
      rwa [Nat.add_sub_cancel' hu1] at this
  | succ left ih =>
    intro depth t index m hl ht hpl r hw
    have hoff : offsetLoop dimen index depth 0 (dim dimen (depth + 1) * dim dimen depth) = dim dimen (depth + 1) * dim dimen depth * t := by
      rw [offsetLoop_eq, hpl]; omega
    obtain ⟨m', h1, h2⟩ := foldlM_range (n := dim dimen depth) (m := m)
      (f := fun m i => do
        let p ← m.read (table dimen base depth)
        let m ← m.write (table dimen base depth + 8 * (t * dim dimen depth) + 8 * i) (p + (dim dimen (depth + 1) * dim dimen depth * t * 8 + i * (dim dimen (depth + 1) * 8)))
        let p0 ← m.read (table dimen base depth)
        let q ← m.read (table dimen base depth + 8 * (t * dim dimen depth) + 8 * i)
        assign dimen size left (depth + 1) p0 q (Function.update index depth i) m)
      (I := fun i m' => Right dimen size base D m' ∧ m'.len = m.len ∧ (∀ d u, Written dimen base m d u → Written dimen base m' d u) ∧
        ∀ k < i, Written dimen base m' depth (t * dim dimen depth + k) ∧ Filled dimen base m' (depth + 1) (t * dim dimen depth + k)) (by
        rintro i hi m1 ⟨r1, l1, w1, k1⟩
        have hu : t * dim dimen depth + i < rows dimen (depth + 1) := by
          rw [rows]
          nlinarith
        have h0 : 0 < rows dimen (depth + 1) := rows_pos hp (by omega)
        have hread := r1.read (d := depth) (u := 0) (by omega) h0 (w1 _ _ (hw depth le_rfl (by omega)))
        obtain ⟨m2, e1, e2, e3, e4, e5⟩ := r1.write (d := depth) (u := t * dim dimen depth + i) (by omega) hu
        have hread2 := e2.read (d := depth) (u := 0) (by omega) h0 (e5 _ _ (w1 _ _ (hw depth le_rfl (by omega))))
        have hread3 := e2.read (d := depth) (u := t * dim dimen depth + i) (by omega) hu e4
        rw [Nat.mul_zero, Nat.add_zero] at hread hread2
        have hloc0 : loc dimen size base D (depth + 1) 0 = table dimen base (depth + 1) := by
          simp [loc, show depth + 1 + 1 < dimen.length by omega]
        have hloc : loc dimen size base D (depth + 1) (t * dim dimen depth + i) =
            table dimen base (depth + 1) + 8 * ((t * dim dimen depth + i) * dim dimen (depth + 1)) := by
          simp [loc, show depth + 1 + 1 < dimen.length by omega]
        obtain ⟨m3, f1, f2, f3, f4, f5⟩ := ih (depth + 1) (t * dim dimen depth + i) (Function.update index depth i) m2 (by omega) hu (by
            rw [place, Function.update_self, ← hpl]
            congr 2
            exact place_congr fun k hk => Function.update_of_ne (by omega) _ _) e2
          (fun d hd hd' => e5 _ _ (w1 _ _ (hw d (by omega) hd')))
        refine ⟨m3, ?_, f2, f3.trans (e3.trans l1), fun d u h => f4 _ _ (e5 d u (w1 d u h)), ?_⟩
        · have ha : table dimen base depth + 8 * (t * dim dimen depth) + 8 * i = table dimen base depth + 8 * (t * dim dimen depth + i) := by ring
          have hv : loc dimen size base D (depth + 1) 0 + (dim dimen (depth + 1) * dim dimen depth * t * 8 + i * (dim dimen (depth + 1) * 8)) =
              loc dimen size base D (depth + 1) (t * dim dimen depth + i) := by
            rw [hloc0, hloc]; ring
          simp only [hread, bind, Except.bind, hv, ha, e1, hread2, hread3]
          rw [hloc0, hloc]
          exact f1
        · intro k hk
          rcases Nat.lt_succ_iff_lt_or_eq.1 hk with h | rfl
          · exact ⟨f4 _ _ (e5 _ _ (k1 k h).1), fun n hn u h1 h2 => f4 _ _ (e5 _ _ ((k1 k h).2 n hn u h1 h2))⟩
          · exact ⟨f4 _ _ e4, f5⟩) ⟨r, rfl, fun _ _ h => h, by simp⟩
    refine ⟨m', ?_, h2.1, h2.2.1, h2.2.2.1, ?_⟩
    · simp only [assign, hoff]
      exact h1
    · intro n hn u hu1 hu2
      cases n with
      | zero =>
        simp only [span, Nat.mul_one] at hu1 hu2
        have := (h2.2.2.2 (u - t * dim dimen depth) (by rw [Nat.add_mul, Nat.one_mul] at hu2; omega)).1
        rwa [Nat.add_sub_cancel' hu1] at this
      | succ n =>
        rw [span] at hu1 hu2
        have hs : 0 < span dimen (n + 1) (depth + 1) := by
          by_contra h
          have h : span dimen (n + 1) (depth + 1) = 0 := by omega
          simp [h] at hu2
        have hq1 : t * dim dimen depth ≤ u / span dimen (n + 1) (depth + 1) := by
          rw [Nat.le_div_iff_mul_le hs]
          calc _ = t * (dim dimen depth * span dimen (n + 1) (depth + 1)) := by ring
            _ ≤ u := hu1
        have hq2 : u / span dimen (n + 1) (depth + 1) < t * dim dimen depth + dim dimen depth := by
          rw [Nat.div_lt_iff_lt_mul hs]
          calc u < _ := hu2
            _ = _ := by ring
        have := (h2.2.2.2 (u / span dimen (n + 1) (depth + 1) - t * dim dimen depth) (by omega)).2 n (by omega) u
        rw [Nat.add_sub_cancel' hq1] at this
        have h3 := this (Nat.div_mul_le_self u _) (by rw [Nat.mul_comm]; exact Nat.lt_mul_div_succ u hs)
        rwa [show depth + (n + 1) = depth + 1 + n by omega]

theorem init_spec (hp : ∀ k < dimen.length, 0 < dim dimen k) (rank : Nat) :
    ∀ (d : Nat) (m : Mem), d + rank + 1 = dimen.length → Right dimen size base (table dimen base (dimen.length - 1)) m →
      ∃ m', init dimen rank (d + 1) (table dimen base d) (rows dimen (d + 1)) m = .ok m' ∧
        Right dimen size base (table dimen base (dimen.length - 1)) m' ∧ m'.len = m.len ∧
        (∀ d', d ≤ d' → d' + 1 < dimen.length → Written dimen base m' d' 0) := by
  induction rank with
  | zero =>
    intro d m hd r
    exact ⟨m, rfl, r, rfl, fun d' h1 h2 => by omega⟩
  | succ rank ih =>
    intro d m hd r
    obtain ⟨m1, h1, h2, h3, h4⟩ := ih (d + 1) m (by omega) r
    obtain ⟨m2, e1, e2, e3, e4, e5⟩ := h2.write (d := d) (u := 0) (by omega) (rows_pos hp (by omega))
    refine ⟨m2, ?_, e2, e3.trans h3, ?_⟩
    · have hv : loc dimen size base (table dimen base (dimen.length - 1)) (d + 1) 0 = table dimen base d + 8 * rows dimen (d + 1) := by
        simp only [loc, Nat.zero_mul, Nat.mul_zero, Nat.add_zero]
        split_ifs with h
        · rfl
        · rw [show dimen.length - 1 = d + 1 by omega]; rfl
      simp only [init]
      have ha : table dimen base d + 8 * rows dimen (d + 1) = table dimen base (d + 1) := rfl
      have hb : rows dimen (d + 1) * dim dimen (d + 1) = rows dimen (d + 1 + 1) := rfl
      rw [hb, ha, h1]
      simp only [bind, Except.bind]
      rw [← ha, ← hv]
      exact e1
    · intro d' h5 h6
      rcases Nat.eq_or_lt_of_le h5 with rfl | h
      · exact e4
      · exact e5 _ _ (h4 d' h h6)

theorem initFrom_spec (hp : ∀ k < dimen.length, 0 < dim dimen k) (rank : Nat) :
    ∀ (d : Nat) (m : Mem), d + (rank + 1) + 1 = dimen.length → Right dimen size base D m →
      ∃ m', initFrom dimen D (rank + 1) (d + 1) (table dimen base d) (rows dimen (d + 1)) m = .ok m' ∧
        Right dimen size base D m' ∧ m'.len = m.len ∧
        (∀ d', d ≤ d' → d' + 1 < dimen.length → Written dimen base m' d' 0) := by
  induction rank with
  | zero =>
    intro d m hd r
    obtain ⟨m2, e1, e2, e3, e4, e5⟩ := r.write (d := d) (u := 0) (by omega) (rows_pos hp (by omega))
    refine ⟨m2, ?_, e2, e3, ?_⟩
    · simp only [loc, Nat.zero_mul, Nat.mul_zero, Nat.add_zero, if_neg (show ¬ d + 1 + 1 < dimen.length by omega)] at e1
      exact e1
    · intro d' h5 h6
      rcases Nat.eq_or_lt_of_le h5 with rfl | h
      · exact e4
      · omega
  | succ rank ih =>
    intro d m hd r
    obtain ⟨m1, h1, h2, h3, h4⟩ := ih (d + 1) m (by omega) r
    obtain ⟨m2, e1, e2, e3, e4, e5⟩ := h2.write (d := d) (u := 0) (by omega) (rows_pos hp (by omega))
    refine ⟨m2, ?_, e2, e3.trans h3, ?_⟩
    · have hv : loc dimen size base D (d + 1) 0 = table dimen base d + 8 * rows dimen (d + 1) := by
        simp only [loc, Nat.zero_mul, Nat.mul_zero, Nat.add_zero, if_pos (show d + 1 + 1 < dimen.length by omega)]
        rfl
      simp only [initFrom]
      have ha : table dimen base d + 8 * rows dimen (d + 1) = table dimen base (d + 1) := rfl
      have hb : rows dimen (d + 1) * dim dimen (d + 1) = rows dimen (d + 1 + 1) := rfl
      rw [hb, ha, h1]
      simp only [bind, Except.bind]
      rw [← ha, ← hv]
      exact e1
    · intro d' h5 h6
      rcases Nat.eq_or_lt_of_le h5 with rfl | h
      · exact e4
      · exact e5 _ _ (h4 d' h h6)

/-- All pointers written and right: `a[i][j]...` arrives at the row-major place. -/
theorem access_spec {m : Mem} (r : Right dimen size base D m) (hw : ∀ d u, d + 1 < dimen.length → u < rows dimen (d + 1) → Written dimen base m d u) :
    ∀ (is : List Nat) (d t : Nat), d < dimen.length → t < rows dimen d → InRange (dimen.drop d) is →
      access m size (loc dimen size base D d t) is = .ok (D + size * rowMajor t (dimen.drop d) is) := by
  intro is
  induction is with
  | nil =>
    intro d t hd _ h
    rw [List.drop_eq_getElem_cons hd] at h
    exact h.elim
  | cons i is ih =>
    intro d t hd ht h
    have hdim : dim dimen d = dimen[d] := by simp [dim, List.getD_eq_getElem?_getD, hd]
    rw [List.drop_eq_getElem_cons hd] at h ⊢
    obtain ⟨hi, h⟩ := h
    rw [← hdim] at hi ⊢
    have hu : t * dim dimen d + i < rows dimen (d + 1) := by
      rw [rows]
      nlinarith
    cases is with
    | nil =>
      have hlast : d + 1 = dimen.length := by
        by_contra hne
        rw [List.drop_eq_getElem_cons (show d + 1 < dimen.length by omega)] at h
        exact h
      simp only [access, loc, if_neg (show ¬ d + 1 < dimen.length by omega), Except.ok.injEq]
      rw [rowMajor]
      cases dimen.drop (d + 1) <;> simp only [rowMajor] <;> ring
    | cons j is =>
      have hnl : d + 1 < dimen.length := by
        by_contra hne
        rw [List.drop_eq_nil_of_le (by omega)] at h
        exact h
      have hread := r.read hnl hu (hw d _ hnl hu)
      have ha : loc dimen size base D d t + 8 * i = table dimen base d + 8 * (t * dim dimen d + i) := by
        simp only [loc, if_pos hnl]
        ring
      simp only [access, ha, hread, bind, Except.bind]
      rw [ih (d + 1) _ hnl hu h, rowMajor]

theorem rowMajor_acc (ds is : List Nat) (h : InRange ds is) (acc : Nat) : rowMajor acc ds is = acc * ds.prod + rowMajor 0 ds is := by
  induction ds generalizing is acc with
  | nil =>
    cases is with
    | nil => simp [rowMajor]
    | cons i is => exact h.elim
  | cons d ds ih =>
    cases is with
    | nil => exact h.elim
    | cons i is =>
      rw [rowMajor, rowMajor, ih is h.2, ih is h.2 (0 * d + i), List.prod_cons]
      ring

theorem rowMajor_lt (ds is : List Nat) (h : InRange ds is) : rowMajor 0 ds is < ds.prod := by
  induction ds generalizing is with
  | nil =>
    cases is with
    | nil => simp [rowMajor]
    | cons i is => exact h.elim
  | cons d ds ih =>
    cases is with
    | nil => exact h.elim
    | cons i is =>
      have := ih is h.2
      have h1 := h.1
      rw [rowMajor, rowMajor_acc ds is h.2, List.prod_cons]
      nlinarith

theorem rowMajor_inj (ds is js : List Nat) (hi : InRange ds is) (hj : InRange ds js) (h : rowMajor 0 ds is = rowMajor 0 ds js) : is = js := by
  induction ds generalizing is js with
  | nil =>
    cases is with
    | nil =>
      cases js with
      | nil => rfl
      | cons j js => exact hj.elim
    | cons i is => exact hi.elim
  | cons d ds ih =>
    cases is with
    | nil => exact hi.elim
    | cons i is =>
      cases js with
      | nil => exact hj.elim
      | cons j js =>
        have l1 := rowMajor_lt ds is hi.2
        have l2 := rowMajor_lt ds js hj.2
        rw [rowMajor, rowMajor, rowMajor_acc ds is hi.2, rowMajor_acc ds js hj.2] at h
        simp only [Nat.zero_mul, Nat.zero_add] at h
        have hij : i = j := by
          have hp : 0 < ds.prod := by omega
          have h1 := congrArg (· / ds.prod) h
          simpa [Nat.mul_comm i, Nat.mul_comm j, Nat.mul_add_div hp, Nat.div_eq_of_lt l1, Nat.div_eq_of_lt l2] using h1
        subst hij
        rw [ih is js hi.2 hj.2 (by omega)]

theorem rows_length (dimen : List Nat) : rows dimen dimen.length = dimen.prod := by
  have : ∀ n ≤ dimen.length, rows dimen n = (dimen.take n).prod := by
    intro n hn
    induction n with
    | zero => simp [rows]
    | succ n ih =>
      rw [rows, ih (by omega), List.take_add_one, List.prod_append]
      simp [dim, List.getD_eq_getElem?_getD, show n < dimen.length by omega]
  rw [this _ le_rfl, List.take_length]

end Xrtm.Alloc
