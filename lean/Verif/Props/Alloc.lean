import Verif.Proof.Alloc

/-!
# C21: arrays of arrays

For any number of dimensions, none of them zero, `alloc_array` fills its tables of pointers without leaving the block; `a[i][j]...`
is the row-major element; elements are inside the block, do not overlap, and lie beyond the tables. A zero dimension that is not
the last makes it write beyond the block; `dup_array` copies the table instead of the data; `realloc_array7` loses a dimension.
-/

namespace Xrtm.Alloc

open Spec

/-- Elements do not share a byte. -/
def Apart (size p q : Nat) : Prop := p + size ≤ q ∨ q + size ≤ p

/-- What an array in a block is: where its data are, that its indexing arrives there, and that its pointers are elsewhere. -/
structure IsArray (m : Mem) (dimen : List Nat) (size base D : Nat) : Prop where
  elem : ∀ is, InRange dimen is → access m size base is = .ok (D + size * rowMajor 0 dimen is)
  apart : ∀ is js, InRange dimen is → InRange dimen js → is ≠ js →
    Apart size (D + size * rowMajor 0 dimen is) (D + size * rowMajor 0 dimen js)
  inside : ∀ is, InRange dimen is → D + size * rowMajor 0 dimen is + size ≤ D + size * dimen.prod
  tables : ∀ p, m.cell p ≠ none → base ≤ p ∧ p + 8 ≤ D
  after : base ≤ D

theorem base_le_table (dimen : List Nat) (base k : Nat) : base ≤ table dimen base k := by
  induction k with
  | zero => exact le_rfl
  | succ k ih => exact ih.trans (Nat.le_add_right _ _)

theorem dim_pos {dimen : List Nat} (hp : ∀ d ∈ dimen, 0 < d) : ∀ k < dimen.length, 0 < dim dimen k := by
  intro k hk
  have : dim dimen k = dimen[k] := by simp [dim, List.getD_eq_getElem?_getD, hk]
  rw [this]
  exact hp _ (List.getElem_mem hk)

theorem isArray {m : Mem} {dimen : List Nat} {size base D : Nat} (hne : dimen ≠ []) (r : Right dimen size base D m)
    (hw : ∀ d u, d + 1 < dimen.length → u < rows dimen (d + 1) → Written dimen base m d u) (hD : dimen.length = 1 → D = base)
    (hT : table dimen base (dimen.length - 1) ≤ D) : IsArray m dimen size base D := by
  have hlen := List.length_pos_iff.2 hne
  refine ⟨?_, ?_, ?_, ?_, (base_le_table ..).trans hT⟩
  · intro is his
    have := access_spec r hw is 0 0 hlen (by simp [rows]) (by simpa using his)
    have hl : loc dimen size base D 0 0 = base := by
      simp only [loc, Nat.zero_mul, Nat.mul_zero, Nat.add_zero, table]
      split_ifs with h
      · rfl
      · exact hD (by omega)
    rw [hl] at this
    simpa using this
  · intro is js hi hj hne
    have : rowMajor 0 dimen is ≠ rowMajor 0 dimen js := fun h => hne (rowMajor_inj dimen is js hi hj h)
    rcases Nat.lt_or_gt_of_ne this with h | h
    · left; nlinarith
    · right; nlinarith
  · intro is hi
    have := rowMajor_lt dimen is hi
    nlinarith
  · intro p hp
    have := r.low p hp
    omega

/-- C21. `alloc_array`: no pointer is written or read outside the block, what comes back is an array of the dimensions asked
for, and its data end where the block ends. -/
theorem C21_alloc {dimen : List Nat} (hne : dimen ≠ []) (hp : ∀ d ∈ dimen, 0 < d) (size base : Nat) :
    ∃ m D, alloc dimen size base = .ok m ∧ IsArray m dimen size base D ∧ m.base = base ∧ m.len = memLength dimen size ∧
      D + size * dimen.prod = m.base + m.len := by
  have hp := dim_pos hp
  have hlen := List.length_pos_iff.2 hne
  have hml := memLength_eq dimen size base hne
  have hrl := rows_length dimen
  have r0 : Right dimen size base (table dimen base (dimen.length - 1)) ⟨base, memLength dimen size, fun _ => none⟩ :=
    ⟨rfl, by simp only; omega, by simp, by simp⟩
  obtain ⟨m1, h1, h2, h3, h4⟩ := init_spec (size := size) (base := base) hp (dimen.length - 1) 0 _ (by omega) r0
  have hrow : rows dimen (0 + 1) = dim dimen 0 := by simp [rows]
  rw [hrow] at h1
  have h1 : init dimen (dimen.length - 1) 1 base (dim dimen 0) ⟨base, memLength dimen size, fun _ => none⟩ = .ok m1 := h1
  have hend : table dimen base (dimen.length - 1) + size * dimen.prod = base + memLength dimen size := by
    rw [hml, hrl, Nat.mul_comm]
  by_cases hr : dimen.length > 1
  · obtain ⟨m2, e1, e2, e3, e4, e5⟩ := assign_spec hp (dimen.length - 2) 0 0 (fun _ => 0) m1 (by omega) (by simp [rows]) rfl h2 (fun d hd hd' => h4 d hd hd')
    have e1 : assign dimen size (dimen.length - 2) 0 base base (fun _ => 0) m1 = .ok m2 := by simpa [table] using e1
    refine ⟨m2, _, by simp only [alloc, h1, bind, Except.bind, if_pos hr, e1], isArray hne e2 ?_ (by omega) le_rfl, e2.start, e3.trans h3, ?_⟩
    · intro d u hd hu
      have hs : rows dimen (d + 1) = span dimen (d + 1) 0 := by simpa [rows] using rows_span dimen (d + 1) 0
      have := e5 d (by omega) u (by simp) (by rw [Nat.zero_add, Nat.one_mul, ← hs]; exact hu)
      simpa using this
    · rw [e2.start, e3, h3]; exact hend
  · have hr1 : dimen.length = 1 := by omega
    refine ⟨m1, _, by simp only [alloc, h1, bind, Except.bind, if_neg hr], isArray hne h2 (fun d u hd => by omega) (fun _ => by rw [hr1]; rfl) le_rfl, h2.start, h3, ?_⟩
    rw [h2.start, h3]; exact hend

example : ∃ m D, alloc [3, 4, 2, 5] 16 1000 = .ok m ∧ IsArray m [3, 4, 2, 5] 16 1000 D ∧ m.base = 1000 ∧ m.len = (3 + 12 + 24) * 8 + 120 * 16 ∧
    D + 16 * 120 = m.base + m.len := C21_alloc (by decide) (by decide) 16 1000

/-- C21. `array_from_mem` with `flag == 0` on memory of at least `array_mem_length` bytes. -/
theorem C21_from_mem {dimen : List Nat} (hne : dimen ≠ []) (hp : ∀ d ∈ dimen, 0 < d) {size base len : Nat} (hlen' : memLength dimen size ≤ len) :
    ∃ m D, fromMem dimen size base len = .ok m ∧ IsArray m dimen size base D ∧ m.base = base ∧ m.len = len ∧ D + size * dimen.prod ≤ base + len := by
  have hp := dim_pos hp
  have hlen := List.length_pos_iff.2 hne
  have hml := memLength_eq dimen size base hne
  have hml0 := memLength_eq dimen 0 base hne
  have hrl := rows_length dimen
  rw [Nat.mul_zero, Nat.add_zero] at hml0
  have hend : table dimen base (dimen.length - 1) + size * dimen.prod ≤ base + len := by
    rw [hrl, Nat.mul_comm] at hml
    omega
  by_cases hr : dimen.length > 1
  · have hpos : memLength dimen 0 ≠ 0 := by
      intro h0
      have h1 := table_mono (dimen := dimen) base (show 1 ≤ dimen.length - 1 by omega)
      have h2 : 0 < rows dimen (0 + 1) := rows_pos hp (by omega)
      simp only [table] at h1
      omega
    have r0 : Right dimen size base (base + memLength dimen 0) ⟨base, len, fun _ => none⟩ :=
      ⟨rfl, by simp only; omega, by simp, by simp⟩
    obtain ⟨m1, h1, h2, h3, h4⟩ := initFrom_spec hp (dimen.length - 2) 0 _ (by omega) r0
    have hrow : rows dimen (0 + 1) = dim dimen 0 := by simp [rows]
    rw [hrow, show dimen.length - 2 + 1 = dimen.length - 1 by omega] at h1
    have h1 : initFrom dimen (base + memLength dimen 0) (dimen.length - 1) 1 base (dim dimen 0) ⟨base, len, fun _ => none⟩ = .ok m1 := h1
    obtain ⟨m2, e1, e2, e3, e4, e5⟩ := assign_spec hp (dimen.length - 2) 0 0 (fun _ => 0) m1 (by omega) (by simp [rows]) rfl h2 (fun d hd hd' => h4 d hd hd')
    have e1 : assign dimen size (dimen.length - 2) 0 base base (fun _ => 0) m1 = .ok m2 := by simpa [table] using e1
    refine ⟨m2, _, by simp only [fromMem, if_neg hpos, h1, bind, Except.bind, if_pos hr, e1], isArray hne e2 ?_ (by omega) (by omega), e2.start, e3.trans h3, by omega⟩
    intro d u hd hu
    have hs : rows dimen (d + 1) = span dimen (d + 1) 0 := by simpa [rows] using rows_span dimen (d + 1) 0
    have := e5 d (by omega) u (by simp) (by rw [Nat.zero_add, Nat.one_mul, ← hs]; exact hu)
    simpa using this
  · have hr1 : dimen.length = 1 := by omega
    have h0 : memLength dimen 0 = 0 := by
      rw [hr1] at hml0
      simp only [Nat.sub_self, table] at hml0
      omega
    have r0 : Right dimen size base base ⟨base, len, fun _ => none⟩ :=
      ⟨rfl, by simp only [hr1, Nat.sub_self, table]; omega, by simp, by simp⟩
    refine ⟨_, base, by simp only [fromMem, if_pos h0], isArray hne r0 (fun d u hd => by omega) (fun _ => rfl) (by rw [hr1]; exact le_rfl), rfl, rfl, ?_⟩
    rw [hr1] at hend
    exact hend

example : ∃ m D, fromMem [2, 3] 8 64 100 = .ok m ∧ IsArray m [2, 3] 8 64 D ∧ m.base = 64 ∧ m.len = 100 ∧ D + 8 * 6 ≤ 64 + 100 :=
  C21_from_mem (by decide) (by decide) (by decide)

/-- C21 fails for a zero dimension that is not the last: `ptr_array_init` writes `a[0]` of an empty table, beyond the block. -/
theorem C21_violated_zero {dimen : List Nat} (size base : Nat) {k : Nat} (hk : k + 1 < dimen.length) (h0 : dim dimen k = 0) :
    alloc dimen size base = .error .outside := by
  have hne : dimen ≠ [] := by rintro rfl; simp at hk
  have hz : ∀ n, k < n → rows dimen n = 0 := by
    intro n hn
    induction n with
    | zero => omega
    | succ n ih =>
      rw [rows]
      rcases Nat.lt_succ_iff_lt_or_eq.1 hn with h | rfl
      · rw [ih h, Nat.zero_mul]
      · rw [h0, Nat.mul_zero]
  have hml := memLength_eq dimen size base hne
  have hlen : table dimen base (dimen.length - 2) = base + memLength dimen size := by
    rw [hml, hz _ (by omega), show dimen.length - 1 = dimen.length - 2 + 1 by omega, table, hz _ (by omega)]
    omega
  have : ∀ rank d, d + (rank + 1) + 1 = dimen.length → init dimen (rank + 1) (d + 1) (table dimen base d) (rows dimen (d + 1)) ⟨base, memLength dimen size, fun _ => none⟩ = .error .outside := by
    intro rank
    induction rank with
    | zero =>
      intro d hd
      have hins : Mem.inside ⟨base, memLength dimen size, fun _ => none⟩ (table dimen base d) = false := by
        rw [show d = dimen.length - 2 by omega, hlen]
        simp [Mem.inside]
      simp [init, bind, Except.bind, Mem.write, hins]
    | succ rank ih =>
      intro d hd
      have := ih (d + 1) (by omega)
      rw [init]
      have ha : table dimen base d + 8 * rows dimen (d + 1) = table dimen base (d + 1) := rfl
      have hb : rows dimen (d + 1) * dim dimen (d + 1) = rows dimen (d + 1 + 1) := rfl
      rw [hb, ha, this]
      rfl
  have := this (dimen.length - 2) 0 (by omega)
  rw [show dimen.length - 2 + 1 = dimen.length - 1 by omega, show rows dimen (0 + 1) = dim dimen 0 by simp [rows]] at this
  have this : init dimen (dimen.length - 1) 1 base (dim dimen 0) ⟨base, memLength dimen size, fun _ => none⟩ = .error .outside := this
  simp only [alloc, this, bind, Except.bind]

example : alloc [3, 0, 2] 8 16 = .error .outside := C21_violated_zero 8 16 (k := 1) (by decide) rfl

/-- `dup_array2` fails: the copy's pointers are the original's, so every element of the copy is the original's element. -/
theorem C21_violated_dup {r c size base1 base2 : Nat} {m1 m2 : Mem} (hr : 0 < r) (hc : 0 < c) (hs : 8 ≤ c * size)
    (h1 : alloc [r, c] size base1 = .ok m1) (h2 : dup m1 [r, c] size base2 = .ok m2) {i j : Nat} (hi : i < r) (hj : j < c) :
    access m2 size base2 [i, j] = access m1 size base1 [i, j] := by
  obtain ⟨m, D, a1, a2, a3, a4, a5⟩ := C21_alloc (dimen := [r, c]) (by simp) (by simp [hr, hc]) size base1
  obtain rfl : m1 = m := by rw [h1] at a1; exact Except.ok.inj a1
  have hlen : m1.len = r * 8 + r * c * size := by rw [a4]; simp [memLength, strides, dim]
  have hin : m2.base = base2 ∧ m2.len = r * 8 + r * c * size ∧ m2.cell (base2 + 8 * i) = m1.cell (base1 + 8 * i) := by
    have hw : Mem.inside ⟨base2, memLength [r, c] size, fun _ => none⟩ base2 = true := by
      simp [Mem.inside, memLength, strides, dim]
      nlinarith
    simp only [dup, init, bind, Except.bind, Mem.write, hw, if_true, List.length_cons, List.length_nil] at h2
    obtain rfl := Except.ok.inj h2
    refine ⟨rfl, by simp [memLength, strides, dim], ?_⟩
    have hle : 8 * i + 8 ≤ r * c * size := by
      have : (i + 1) * 8 ≤ r * (c * size) := Nat.mul_le_mul hi hs
      rw [Nat.mul_assoc]; omega
    simp only [List.prod_cons, List.prod_nil, Nat.mul_one]
    rw [if_pos ⟨by omega, by omega⟩, a3]
    congr 1
    omega
  have hi1 : m1.inside (base1 + 8 * i) = true := by
    simp only [Mem.inside, a3, hlen, Bool.and_eq_true, decide_eq_true_eq]
    omega
  have hi2 : m2.inside (base2 + 8 * i) = true := by
    simp only [Mem.inside, hin.1, hin.2.1, Bool.and_eq_true, decide_eq_true_eq]
    omega
  simp only [access, Mem.read, hi1, hi2, if_true, hin.2.2]

example : ∃ m1 m2, alloc [2, 2] 8 0 = .ok m1 ∧ dup m1 [2, 2] 8 1000 = .ok m2 := by
  obtain ⟨m1, D, h, -⟩ := C21_alloc (dimen := [2, 2]) (by decide) (by decide) 8 0
  exact ⟨m1, _, h, rfl⟩

/-- `realloc_array7` fails: with 1 in the uninitialised `dimen[4]` the block is smaller than the array asked for, and its dimensions
are never those asked for unless the fourth and fifth agree and the garbage is right. -/
theorem C21_violated_realloc7 :
    (∀ m n o p q r s g, realloc7 m n o p q r s g = [m, n, o, p, q, r, s] ↔ p = q ∧ g = q) ∧
    ∀ m n o q r s size, 0 < m → 0 < n → 0 < o → 1 < q → 0 < r → 0 < s →
      memLength (realloc7 m n o q q r s 1) size < memLength [m, n, o, q, q, r, s] size := by
  refine ⟨fun m n o p q r s g => by simp [realloc7]; omega, ?_⟩
  intro m n o q r s size h1 h2 h3 h4 h5 h6
  simp only [memLength, strides, realloc7, dim, List.length_cons, List.length_nil, Nat.add_one_sub_one, List.getD_cons_zero, List.getD_cons_succ]
  have hA : 0 < m * n * o * q := by positivity
  have e1 : m * n * o * q * 1 < m * n * o * q * q := by nlinarith
  have e2 : m * n * o * q * 1 * r ≤ m * n * o * q * q * r := Nat.mul_le_mul_right _ e1.le
  have e3 : m * n * o * q * 1 * r * s * size ≤ m * n * o * q * q * r * s * size := Nat.mul_le_mul_right _ (Nat.mul_le_mul_right _ e2)
  simp only [Nat.one_mul]
  omega

end Xrtm.Alloc
