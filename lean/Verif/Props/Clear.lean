import Verif.Proof.Clear
import Verif.Props.Alloc

/-!
# C66: results are cleared and stored within the arrays given for them

What is cleared before a solution is computed, and what is stored, are the elements of the arrays with the results, all of
them and nothing else.
-/

namespace Xrtm.Clear

open Xrtm.Alloc Xrtm.Spec

/-- Only elements are written, and every element is. -/
def Covers (dimen : List Nat) (D : Nat) (l : List Nat) : Prop :=
  (∀ a ∈ l, ∃ e < dimen.prod, a = D + 8 * e) ∧ ∀ e < dimen.prod, D + 8 * e ∈ l

/-- Only elements are written. -/
def Within (dimen : List Nat) (D : Nat) (l : List Nat) : Prop := ∀ a ∈ l, ∃ e < dimen.prod, a = D + 8 * e

theorem dims_pos {pre : List Nat} {M P S : Nat} (hpre : ∀ d ∈ pre, 0 < d) (hM : 0 < M) (hP : 0 < P) (hS : 0 < S) :
    ∀ k < (pre ++ [M, P, S]).length, 0 < dim (pre ++ [M, P, S]) k := by
  refine dim_pos fun d hd => ?_
  simp only [List.mem_append, List.mem_cons, List.not_mem_nil, or_false] at hd
  rcases hd with hd | rfl | rfl | rfl
  exacts [hpre d hd, hM, hP, hS]

/-- `init_arrayN_d` on an array with the dimensions it was allocated with meets every element. -/
theorem init_mem {dimen : List Nat} {size base D : Nat} {m : Mem} (f : Full dimen size base D m) : ∀ (n d t : Nat),
    d + n + 1 = dimen.length → t < rows dimen d → ∀ l, initArray m size (dimen.drop d) (loc dimen size base D d t) = .ok l →
    ∀ e, t * (dimen.drop d).prod ≤ e → e < (t + 1) * (dimen.drop d).prod → D + size * e ∈ l := by
  intro n
  induction n with
  | zero =>
    intro d t hd ht l hl e h1 h2
    have hdim : dim dimen d = dimen[d]'(by omega) := by simp [dim, List.getD_eq_getElem?_getD, show d < dimen.length by omega]
    rw [List.drop_eq_getElem_cons (by omega), List.drop_eq_nil_of_le (by omega), ← hdim] at hl h1 h2
    simp only [initArray, Except.ok.injEq] at hl
    simp only [List.prod_cons, List.prod_nil, mul_one] at h1 h2
    rw [← hl, List.mem_map]
    refine ⟨e - t * dim dimen d, List.mem_range.2 ?_, ?_⟩
    · rw [Nat.succ_mul] at h2
      omega
    · simp only [loc, if_neg (show ¬ d + 1 < dimen.length by omega)]
      rw [Nat.add_assoc, ← Nat.mul_add]
      congr 2
      omega
  | succ n ih =>
    intro d t hd ht l hl e h1 h2
    have hdim : dim dimen d = dimen[d]'(by omega) := by simp [dim, List.getD_eq_getElem?_getD, show d < dimen.length by omega]
    have hdr : dimen.drop d = dim dimen d :: dimen.drop (d + 1) := by rw [List.drop_eq_getElem_cons (by omega), ← hdim]
    have hdr' : dimen.drop (d + 1) = dimen[d + 1]'(by omega) :: dimen.drop (d + 1 + 1) := List.drop_eq_getElem_cons (by omega)
    rw [hdr, List.prod_cons] at h1 h2
    obtain ⟨Q, hQ⟩ : ∃ Q, Q = (dimen.drop (d + 1)).prod := ⟨_, rfl⟩
    rw [← hQ] at h1 h2
    have hQ0 : 0 < Q := by
      rcases Nat.eq_zero_or_pos Q with h0 | h0
      · rw [h0] at h1 h2; omega
      · exact h0
    obtain ⟨i, hi⟩ : ∃ i, i = e / Q - t * dim dimen d := ⟨_, rfl⟩
    have hq1 : t * dim dimen d ≤ e / Q := (Nat.le_div_iff_mul_le hQ0).2 (by rw [Nat.mul_assoc]; exact h1)
    have hq2 : e / Q < (t + 1) * dim dimen d := Nat.div_lt_of_lt_mul (by rw [Nat.mul_comm]; rw [← Nat.mul_assoc] at h2; exact h2)
    have hid : i < dim dimen d := by
      rw [Nat.succ_mul] at hq2
      omega
    have hu : t * dim dimen d + i < rows dimen (d + 1) := by
      rw [rows]
      nlinarith
    rw [hdr, hdr'] at hl
    unfold initArray at hl
    obtain ⟨x, hx, hsub⟩ := each_mem hl hid
    rw [f.next (by omega) hu] at hx
    simp only [bind, Except.bind] at hx
    rw [← hdr'] at hx
    have hsum : t * dim dimen d + i = e / Q := by omega
    refine hsub _ (ih (d + 1) _ (by omega) hu x hx e ?_ ?_)
    · rw [hsum, ← hQ]
      exact Nat.div_mul_le_self e Q
    · rw [hsum, ← hQ]
      have := Nat.lt_div_mul_add (a := e) hQ0
      rw [Nat.succ_mul]
      exact this

/-- **C66.**  `init_arrayN_d`, with the dimensions of the array and any number of them, writes the elements, all of them and
nothing else. -/
theorem C66_init {dimen : List Nat} (hr : 1 < dimen.length) (hp : ∀ d ∈ dimen, 0 < d) (base : Nat) :
    ∃ m D l, alloc dimen 8 base = .ok m ∧ D + 8 * dimen.prod = m.base + m.len ∧ initArray m 8 dimen base = .ok l ∧
      Covers dimen D l := by
  have hne : dimen ≠ [] := List.length_pos_iff.1 (by omega)
  have hp' := dim_pos hp
  obtain ⟨m, ha, f⟩ := alloc_full hne hp' hr le_rfl base
  obtain ⟨m', D', ha', -, hb, hl, hend⟩ := C21_alloc hne hp 8 base
  obtain rfl : m = m' := by rw [ha] at ha'; exact Except.ok.inj ha'
  have hml := memLength_eq dimen 8 base hne
  have hrl := rows_length dimen
  have hD : D' = table dimen base (dimen.length - 1) := by
    rw [hrl] at hml
    omega
  subst hD
  have hloc : loc dimen 8 base (table dimen base (dimen.length - 1)) 0 0 = base := by
    simp only [loc, if_pos (show 0 + 1 < dimen.length by omega), Nat.zero_mul, Nat.mul_zero, Nat.add_zero, table]
  obtain ⟨l, h1, h2⟩ := f.init (dimen.length - 1) 0 0 (by omega) (by simp [rows])
  have h3 := init_mem f (dimen.length - 1) 0 0 (by omega) (by simp [rows]) l h1
  rw [hloc, List.drop_zero] at h1
  refine ⟨m, _, l, ha, hend, h1, fun a ha => ?_, fun e he => h3 e (by simp) (by simpa using he)⟩
  obtain ⟨e, he, h⟩ := h2 a ha
  exact ⟨e, by rwa [hrl] at he, h⟩

/-- **C66.**  `get_solution_internal` clears the results, and nothing else. -/
theorem C66_clear {pre : List Nat} {M P S : Nat} (hpre : ∀ d ∈ pre, 0 < d) (hM : 0 < M) (hP : 0 < P) (hS : 0 < S) (base : Nat) :
    ∃ m D l, alloc (pre ++ [M, P, S]) 8 base = .ok m ∧ D + 8 * (pre ++ [M, P, S]).prod = m.base + m.len ∧
      clear pre M P S m base = .ok l ∧ Covers (pre ++ [M, P, S]) D l := by
  refine C66_init (by simp) (fun d hd => ?_) base
  simp only [List.mem_append, List.mem_cons, List.not_mem_nil, or_false] at hd
  rcases hd with hd | rfl | rfl | rfl
  exacts [hpre d hd, hM, hP, hS]

/-- **C66.**  What `get_single` clears of an array that `alloc_array` made is within it exactly when there are not more
azimuths than polar angles; with more, it takes numbers for pointers. -/
theorem C66_single {pre : List Nat} {M P S : Nat} (hpre : ∀ d ∈ pre, 0 < d) (hM : 0 < M) (hP : 0 < P) (hS : 0 < S) (base : Nat) :
    ∃ m D, alloc (pre ++ [M, P, S]) 8 base = .ok m ∧ D + 8 * (pre ++ [M, P, S]).prod = m.base + m.len ∧
      (P ≤ M → ∃ l, clearSingle pre M P S m base = .ok l ∧ Within (pre ++ [M, P, S]) D l) ∧
      (M < P → clearSingle pre M P S m base = .error .unset) := by
  obtain ⟨dimen, hdimen⟩ : ∃ dimen, dimen = pre ++ [M, P, S] := ⟨_, rfl⟩
  have hlen : dimen.length = pre.length + 3 := by simp [hdimen]
  have hne : dimen ≠ [] := List.length_pos_iff.1 (by omega)
  have hp' : ∀ k < dimen.length, 0 < dim dimen k := hdimen ▸ dims_pos hpre hM hP hS
  have hp : ∀ d ∈ dimen, 0 < d := fun d hd => by
    simp only [hdimen, List.mem_append, List.mem_cons, List.not_mem_nil, or_false] at hd
    rcases hd with hd | rfl | rfl | rfl
    exacts [hpre d hd, hM, hP, hS]
  obtain ⟨m, ha, f⟩ := alloc_full hne hp' (by omega) le_rfl base
  obtain ⟨m', D', ha', -, hb, hl, hend⟩ := C21_alloc hne hp 8 base
  obtain rfl : m = m' := by rw [ha] at ha'; exact Except.ok.inj ha'
  have hml := memLength_eq dimen 8 base hne
  have hrl := rows_length dimen
  have hD : D' = table dimen base (dimen.length - 1) := by
    rw [hrl] at hml
    omega
  subst hD
  generalize hD' : table dimen base (dimen.length - 1) = D at *
  have hloc : loc dimen 8 base D 0 0 = base := by
    simp only [loc, if_pos (show 0 + 1 < dimen.length by omega), Nat.zero_mul, Nat.mul_zero, Nat.add_zero, table]
  subst hdimen
  refine ⟨m, D, ha, hend, fun hPM => ?_, fun hMP => ?_⟩
  · obtain ⟨l, h1, h2⟩ := f.above (by simp) (fun t ht => f.swapped hPM ht) pre.length le_rfl 0 (by simp [rows])
    simp only [Nat.sub_self, List.drop_zero] at h1
    rw [hloc] at h1
    refine ⟨l, h1, fun a ha => ?_⟩
    obtain ⟨e, he, h⟩ := h2 a ha
    exact ⟨e, by rwa [hrl] at he, h⟩
  · have h0 : 0 < rows (pre ++ [M, P, S]) pre.length := rows_pos hp' (by omega)
    have := (f.above_error (by simp) hp' (fun t ht => (f.swapped_error hM hMP hS ht).1)
      ((f.swapped_error hM hMP hS (by omega)).2 (by omega)) pre.length le_rfl).2
    simp only [Nat.sub_self, List.drop_zero, rows] at this
    rw [hloc] at this
    exact this

/-- **C66.**  The stores of `get_single` meet every element and nothing else. -/
theorem C66_store {L M P S : Nat} (hL : 0 < L) (hM : 0 < M) (hP : 0 < P) (hS : 0 < S) (base : Nat) :
    ∃ m D l, alloc [L, M, P, S] 8 base = .ok m ∧ D + 8 * [L, M, P, S].prod = m.base + m.len ∧
      storeSingle L M P S m base = .ok l ∧ Covers [L, M, P, S] D l := by
  obtain ⟨m, D, ha, hA, hb, hl, hend⟩ := C21_alloc (dimen := [L, M, P, S]) (by simp) (by simp [hL, hM, hP, hS]) 8 base
  have hrow : ∀ k i j s, rowMajor 0 [L, M, P, S] [k, i, j, s] = ((k * M + i) * P + j) * S + s := fun k i j s => by
    simp [rowMajor]
  have hprod : [L, M, P, S].prod = L * M * P * S := by simp [Nat.mul_assoc]
  have hacc : ∀ k < L, ∀ i < M, ∀ j < P, ∀ s < S, access m 8 base [k, i, j, s] = .ok (D + 8 * (((k * M + i) * P + j) * S + s)) := by
    intro k hk i hi j hj s hs
    rw [← hrow]
    exact hA.elem _ ⟨hk, hi, hj, hs, trivial⟩
  have hin : ∀ k < L, ∀ i < M, ∀ j < P, ∀ s < S, ((k * M + i) * P + j) * S + s < [L, M, P, S].prod := by
    intro k hk i hi j hj s hs
    have h1 : k * M + i < L * M := by nlinarith
    have h2 : (k * M + i) * P + j < L * M * P := by nlinarith
    rw [hprod]
    nlinarith
  obtain ⟨l, h1, h2⟩ : ∃ l, storeSingle L M P S m base = .ok l ∧ Within [L, M, P, S] D l := by
    refine each_ok fun i hi => each_ok fun j hj => each_ok fun k hk => each_ok fun s hs => ?_
    rw [hacc k hk i hi j hj s hs]
    refine ⟨_, rfl, fun a ha => ?_⟩
    rw [List.mem_singleton] at ha
    exact ⟨_, hin k hk i hi j hj s hs, ha⟩
  refine ⟨m, D, l, ha, hend, h1, h2, fun e he => ?_⟩
  rw [hprod] at he
  obtain ⟨q3, hq3⟩ : ∃ q, q = e / S := ⟨_, rfl⟩
  obtain ⟨q2, hq2⟩ : ∃ q, q = q3 / P := ⟨_, rfl⟩
  obtain ⟨q1, hq1⟩ : ∃ q, q = q2 / M := ⟨_, rfl⟩
  have b3 : q3 < L * M * P := by rw [hq3]; exact Nat.div_lt_of_lt_mul (by rw [Nat.mul_comm]; exact he)
  have b2 : q2 < L * M := by rw [hq2]; exact Nat.div_lt_of_lt_mul (by rw [Nat.mul_comm]; exact b3)
  have b1 : q1 < L := by rw [hq1]; exact Nat.div_lt_of_lt_mul (by rw [Nat.mul_comm]; exact b2)
  have e1 : ((q1 * M + q2 % M) * P + q3 % P) * S + e % S = e := by
    have a1 : q1 * M + q2 % M = q2 := by rw [hq1, Nat.mul_comm]; exact Nat.div_add_mod _ _
    have a2 : q2 * P + q3 % P = q3 := by rw [hq2, Nat.mul_comm]; exact Nat.div_add_mod _ _
    rw [a1, a2, hq3, Nat.mul_comm]
    exact Nat.div_add_mod _ _
  obtain ⟨x1, hx1, s1⟩ := each_mem h1 (Nat.mod_lt q2 hM)
  obtain ⟨x2, hx2, s2⟩ := each_mem hx1 (Nat.mod_lt q3 hP)
  obtain ⟨x3, hx3, s3⟩ := each_mem hx2 b1
  obtain ⟨x4, hx4, s4⟩ := each_mem hx3 (Nat.mod_lt e hS)
  rw [hacc q1 b1 _ (Nat.mod_lt q2 hM) _ (Nat.mod_lt q3 hP) _ (Nat.mod_lt e hS), e1] at hx4
  simp only [bind, Except.bind, Except.ok.injEq] at hx4
  exact s1 _ (s2 _ (s3 _ (s4 _ (by rw [← hx4]; exact List.mem_singleton_self _))))

/-- **C66.**  In arrays whose rows are allocated one by one, what `get_single` clears is within the rows exactly when there are as
many azimuths as polar angles. -/
theorem C66_rows_iff {L M P S : Nat} (hL : 0 < L) (hM : 0 < M) (hP : 0 < P) (hS : 0 < S) :
    (∀ is, InRange [L, P, M, S] is → InRange [L, M, P, S] is) ↔ P = M := by
  constructor
  · intro h
    have h1 := h [0, P - 1, 0, 0] ⟨hL, by omega, hM, hS, trivial⟩
    have h2 := h [0, 0, M - 1, 0] ⟨hL, hP, by omega, hS, trivial⟩
    have h1 := h1.2.1
    have h2 := h2.2.2.1
    omega
  · rintro rfl is h
    exact h

/-- **C66 violated**: two azimuths and one polar angle, for any number of levels. -/
theorem C66_violated_azimuths {L : Nat} (hL : 0 < L) (base : Nat) : ∃ m, alloc [L, 1, 2, 1] 8 base = .ok m ∧
    clearSingle [L] 1 2 1 m base = .error .unset := by
  obtain ⟨m, -, h1, -, -, h2⟩ := C66_single (pre := [L]) (M := 1) (P := 2) (S := 1) (by simpa using hL) (by decide) (by decide)
    (by decide) base
  exact ⟨m, h1, h2 (by decide)⟩

example : ∃ m D l, alloc [2, 3, 4, 3] 8 1000 = .ok m ∧ D + 8 * [2, 3, 4, 3].prod = m.base + m.len ∧
    clear [2] 3 4 3 m 1000 = .ok l ∧ Covers [2, 3, 4, 3] D l :=
  C66_clear (pre := [2]) (by decide) (by decide) (by decide) (by decide) 1000

example : ∃ m D l, alloc [2, 5, 3, 4, 3] 8 64 = .ok m ∧ D + 8 * [2, 5, 3, 4, 3].prod = m.base + m.len ∧
    initArray m 8 [2, 5, 3, 4, 3] 64 = .ok l ∧ Covers [2, 5, 3, 4, 3] D l :=
  C66_init (by decide) (by decide) 64

example : ∃ m D, alloc [2, 5, 4, 3, 3] 8 64 = .ok m ∧ D + 8 * [2, 5, 4, 3, 3].prod = m.base + m.len ∧
    ∃ l, clearSingle [2, 5] 4 3 3 m 64 = .ok l ∧ Within [2, 5, 4, 3, 3] D l := by
  obtain ⟨m, D, h1, h2, h3, -⟩ := C66_single (pre := [2, 5]) (M := 4) (P := 3) (S := 3) (by decide) (by decide) (by decide)
    (by decide) 64
  exact ⟨m, D, h1, h2, h3 (by decide)⟩

example : ∃ m D l, alloc [2, 3, 4, 3] 8 1000 = .ok m ∧ D + 8 * [2, 3, 4, 3].prod = m.base + m.len ∧
    storeSingle 2 3 4 3 m 1000 = .ok l ∧ Covers [2, 3, 4, 3] D l :=
  C66_store (by decide) (by decide) (by decide) (by decide) 1000

example : ¬ ∀ is, InRange [2, 2, 3, 1] is → InRange [2, 3, 2, 1] is := fun h =>
  absurd ((C66_rows_iff (L := 2) (M := 3) (P := 2) (S := 1) (by decide) (by decide) (by decide) (by decide)).1 h) (by decide)

end Xrtm.Clear
