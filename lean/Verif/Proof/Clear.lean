import Verif.Model.Clear
import Verif.Proof.Alloc

/-!
# Lemmas for C66
-/

namespace Xrtm.Clear

open Xrtm.Alloc Xrtm.Spec

theorem each_ok {f : Nat → Except Fault (List Nat)} {Q : Nat → Prop} {n : Nat}
    (h : ∀ i < n, ∃ l, f i = .ok l ∧ ∀ a ∈ l, Q a) : ∃ l, each f n = .ok l ∧ ∀ a ∈ l, Q a := by
  induction n with
  | zero => exact ⟨[], rfl, by simp⟩
  | succ n ih =>
    obtain ⟨l, h1, h2⟩ := ih fun i hi => h i (by omega)
    obtain ⟨x, h3, h4⟩ := h n (by omega)
    refine ⟨l ++ x, by simp only [each, h1, h3, bind, Except.bind], fun a ha => ?_⟩
    rcases List.mem_append.1 ha with ha | ha
    · exact h2 a ha
    · exact h4 a ha

/-- A place is written in a loop when it is in one of its rounds. -/
theorem each_mem {f : Nat → Except Fault (List Nat)} {n : Nat} {l : List Nat} (h : each f n = .ok l) {i : Nat} (hi : i < n) :
    ∃ x, f i = .ok x ∧ ∀ a ∈ x, a ∈ l := by
  induction n generalizing l with
  | zero => omega
  | succ n ih =>
    simp only [each, bind, Except.bind] at h
    cases h1 : each f n with
    | error e => simp [h1] at h
    | ok l1 =>
      cases h2 : f n with
      | error e => simp [h1, h2] at h
      | ok x =>
        simp only [h1, h2, Except.ok.injEq] at h
        subst h
        rcases Nat.lt_succ_iff_lt_or_eq.1 hi with hlt | rfl
        · obtain ⟨y, h3, h4⟩ := ih h1 hlt
          exact ⟨y, h3, fun a ha => List.mem_append_left _ (h4 a ha)⟩
        · exact ⟨x, h2, fun a ha => List.mem_append_right _ ha⟩

theorem each_error {f : Nat → Except Fault (List Nat)} {e : Fault} {n k : Nat} (hk : k < n) (h : f k = .error e)
    (hb : ∀ i < k, ∃ l, f i = .ok l) : each f n = .error e := by
  induction n with
  | zero => omega
  | succ n ih =>
    rcases Nat.lt_succ_iff_lt_or_eq.1 hk with hlt | rfl
    · simp only [each, ih hlt, bind, Except.bind]
    · obtain ⟨l, hl, -⟩ := each_ok (Q := fun _ => True) fun i hi => (hb i hi).imp fun l h => ⟨h, fun _ _ => trivial⟩
      simp only [each, hl, h, bind, Except.bind]

/-- The first round that fails decides. -/
theorem each_fault {f : Nat → Except Fault (List Nat)} {e : Fault} {n k : Nat} (hk : k < n) (h : f k = .error e)
    (hb : ∀ i < n, (∃ l, f i = .ok l) ∨ f i = .error e) : each f n = .error e := by
  induction n with
  | zero => omega
  | succ n ih =>
    by_cases hlt : k < n
    · simp only [each, ih hlt fun i hi => hb i (by omega), bind, Except.bind]
    · obtain rfl : k = n := by omega
      by_cases hall : ∀ i < k, ∃ l, f i = .ok l
      · exact each_error (by omega) h hall
      · simp only [not_forall] at hall
        obtain ⟨i, hi, hno⟩ := hall
        have hall2 : ∀ n' ≤ k, (∃ j < n', f j = .error e) → each f n' = .error e := by
          intro n' hn'
          induction n' with
          | zero => rintro ⟨j, hj, -⟩; omega
          | succ n' ih' =>
            rintro ⟨j, hj, he⟩
            by_cases hex : ∃ j < n', f j = .error e
            · simp only [each, ih' (by omega) hex, bind, Except.bind]
            · refine each_error hj he fun i' hi' => ?_
              rcases hb i' (by omega) with h' | h'
              · exact h'
              · exact absurd ⟨i', by omega, h'⟩ hex
        have := hall2 k le_rfl ⟨i, hi, (hb i (by omega)).resolve_left hno⟩
        simp only [each, this, bind, Except.bind]

/-- The tables of an array in a block are complete, and nothing else in the block is a pointer. -/
structure Full (dimen : List Nat) (size base D : Nat) (m : Mem) : Prop where
  read : ∀ d u, d + 1 < dimen.length → u < rows dimen (d + 1) →
    m.read (table dimen base d + 8 * u) = .ok (loc dimen size base D (d + 1) u)
  data : m.read D = .error .unset

theorem alloc_full {dimen : List Nat} (hne : dimen ≠ []) (hp : ∀ k < dimen.length, 0 < dim dimen k) (hr : dimen.length > 1)
    {size : Nat} (hs : 8 ≤ size) (base : Nat) : ∃ m, alloc dimen size base = .ok m ∧
      Full dimen size base (table dimen base (dimen.length - 1)) m := by
  have hlen := List.length_pos_iff.2 hne
  have hml := memLength_eq dimen size base hne
  have r0 : Right dimen size base (table dimen base (dimen.length - 1)) ⟨base, memLength dimen size, fun _ => none⟩ :=
    ⟨rfl, by simp only; omega, by simp, by simp⟩
  obtain ⟨m1, h1, h2, h3, h4⟩ := init_spec (size := size) (base := base) hp (dimen.length - 1) 0 _ (by omega) r0
  have hrow : rows dimen (0 + 1) = dim dimen 0 := by simp [rows]
  rw [hrow] at h1
  have h1 : init dimen (dimen.length - 1) 1 base (dim dimen 0) ⟨base, memLength dimen size, fun _ => none⟩ = .ok m1 := h1
  obtain ⟨m2, e1, e2, e3, e4, e5⟩ := assign_spec hp (dimen.length - 2) 0 0 (fun _ => 0) m1 (by omega) (by simp [rows]) rfl h2 (fun d hd hd' => h4 d hd hd')
  have e1 : assign dimen size (dimen.length - 2) 0 base base (fun _ => 0) m1 = .ok m2 := by simpa [table] using e1
  refine ⟨m2, by simp only [alloc, h1, bind, Except.bind, if_pos hr, e1], ?_, ?_⟩
  · intro d u hd hu
    have hs : rows dimen (d + 1) = span dimen (d + 1) 0 := by simpa [rows] using rows_span dimen (d + 1) 0
    have := e5 d (by omega) u (by simp) (by rw [Nat.zero_add, Nat.one_mul, ← hs]; exact hu)
    exact e2.read hd hu (by simpa using this)
  · have hin : m2.inside (table dimen base (dimen.length - 1)) = true := by
      have h0 : 0 < rows dimen dimen.length := rows_pos hp le_rfl
      have hb := table_mono (dimen := dimen) base (show 0 ≤ dimen.length - 1 by omega)
      simp only [table] at hb
      have : 8 ≤ rows dimen dimen.length * size := by nlinarith
      have hl : m2.len = memLength dimen size := e3.trans h3
      simp only [Mem.inside, e2.start, hl, Bool.and_eq_true, decide_eq_true_eq]
      omega
    have hnone : m2.cell (table dimen base (dimen.length - 1)) = none := by
      by_contra hc
      have := e2.low _ hc
      omega
    simp only [Mem.read, hin, if_true, hnone]

variable {dimen : List Nat} {size base D : Nat} {m : Mem}

/-- Where the elements are. -/
def Elem (dimen : List Nat) (size D : Nat) (a : Nat) : Prop := ∃ e < rows dimen dimen.length, a = D + size * e

/-- One level of the loops, through a table that is complete. -/
theorem Full.next (f : Full dimen size base D m) {d t i : Nat} (hd : d + 1 < dimen.length)
    (hu : t * dim dimen d + i < rows dimen (d + 1)) :
    m.read (loc dimen size base D d t + 8 * i) = .ok (loc dimen size base D (d + 1) (t * dim dimen d + i)) := by
  rw [← f.read d _ hd hu]
  congr 1
  simp only [loc, if_pos hd]
  ring

/-- `init_arrayN_d` with the dimensions of the array. -/
theorem Full.init (f : Full dimen size base D m) : ∀ (n d t : Nat), d + n + 1 = dimen.length → t < rows dimen d →
    ∃ l, initArray m size (dimen.drop d) (loc dimen size base D d t) = .ok l ∧ ∀ a ∈ l, Elem dimen size D a := by
  intro n
  induction n with
  | zero =>
    intro d t hd ht
    have hdim : dim dimen d = dimen[d]'(by omega) := by simp [dim, List.getD_eq_getElem?_getD, show d < dimen.length by omega]
    rw [List.drop_eq_getElem_cons (by omega), List.drop_eq_nil_of_le (by omega), ← hdim]
    refine ⟨_, rfl, fun a ha => ?_⟩
    obtain ⟨i, hi, rfl⟩ := List.mem_map.1 ha
    rw [List.mem_range] at hi
    refine ⟨t * dim dimen d + i, ?_, ?_⟩
    · rw [show dimen.length = d + 1 by omega, rows]
      nlinarith
    · simp only [loc, if_neg (show ¬ d + 1 < dimen.length by omega)]
      ring
  | succ n ih =>
    intro d t hd ht
    have hdim : dim dimen d = dimen[d]'(by omega) := by simp [dim, List.getD_eq_getElem?_getD, show d < dimen.length by omega]
    rw [List.drop_eq_getElem_cons (by omega), List.drop_eq_getElem_cons (show d + 1 < dimen.length by omega), ← hdim]
    unfold initArray
    refine each_ok fun i hi => ?_
    have hu : t * dim dimen d + i < rows dimen (d + 1) := by
      rw [rows]
      nlinarith
    rw [f.next (by omega) hu]
    have := ih (d + 1) _ (by omega) hu
    rw [List.drop_eq_getElem_cons (show d + 1 < dimen.length by omega)] at this
    exact this

theorem each_dich {f : Nat → Except Fault (List Nat)} {e : Fault} {n : Nat}
    (hb : ∀ i < n, (∃ l, f i = .ok l) ∨ f i = .error e) : (∃ l, each f n = .ok l) ∨ each f n = .error e := by
  by_cases h : ∃ k < n, f k = .error e
  · obtain ⟨k, hk, he⟩ := h
    exact .inr (each_fault hk he hb)
  · obtain ⟨l, hl, -⟩ := each_ok (Q := fun _ => True) (f := f) (n := n) fun i hi =>
      ((hb i hi).resolve_right fun he => h ⟨i, hi, he⟩).imp fun l hl => ⟨hl, fun _ _ => trivial⟩
    exact .inl ⟨l, hl⟩

/-- Levels that are walked through with their own dimensions, when what is below them works. -/
theorem Full.above {pre post : List Nat} {n' : Nat} {ns : List Nat} (f : Full (pre ++ post) size base D m)
    (hpost : 1 < post.length) {Q : Nat → Prop}
    (h : ∀ t < rows (pre ++ post) pre.length,
      ∃ l, initArray m size (n' :: ns) (loc (pre ++ post) size base D pre.length t) = .ok l ∧ ∀ a ∈ l, Q a) :
    ∀ k ≤ pre.length, ∀ t < rows (pre ++ post) (pre.length - k),
      ∃ l, initArray m size (pre.drop (pre.length - k) ++ n' :: ns)
        (loc (pre ++ post) size base D (pre.length - k) t) = .ok l ∧ ∀ a ∈ l, Q a := by
  intro k
  induction k with
  | zero => intro _ t ht; simpa using h t ht
  | succ k ih =>
    intro hk t ht
    obtain ⟨d, hd⟩ : ∃ d, d = pre.length - (k + 1) := ⟨_, rfl⟩
    have hdim : dim (pre ++ post) d = pre[d]'(by omega) := by
      simp [dim, List.getD_eq_getElem?_getD, List.getElem?_append, show d < pre.length by omega]
    rw [← hd] at ht ⊢
    have e1 : pre.length - k = d + 1 := by omega
    rw [e1] at ih
    rw [List.drop_eq_getElem_cons (by omega), ← hdim, List.cons_append]
    have hne : ∃ a as, pre.drop (d + 1) ++ n' :: ns = a :: as := by
      cases pre.drop (d + 1) with
      | nil => exact ⟨n', ns, rfl⟩
      | cons a as => exact ⟨a, as ++ n' :: ns, rfl⟩
    obtain ⟨a, as, he⟩ := hne
    rw [he] at ih ⊢
    unfold initArray
    refine each_ok fun i hi => ?_
    have hu : t * dim (pre ++ post) d + i < rows (pre ++ post) (d + 1) := by
      rw [rows]
      nlinarith
    rw [f.next (by rw [List.length_append]; omega) hu]
    exact ih (by omega) _ hu

/-- And when it fails in the last row of theirs. -/
theorem Full.above_error {pre post : List Nat} {n' : Nat} {ns : List Nat} {e : Fault} (f : Full (pre ++ post) size base D m)
    (hpost : 1 < post.length) (hp : ∀ k < (pre ++ post).length, 0 < dim (pre ++ post) k)
    (h : ∀ t < rows (pre ++ post) pre.length,
      (∃ l, initArray m size (n' :: ns) (loc (pre ++ post) size base D pre.length t) = .ok l) ∨
      initArray m size (n' :: ns) (loc (pre ++ post) size base D pre.length t) = .error e)
    (hl : initArray m size (n' :: ns) (loc (pre ++ post) size base D pre.length (rows (pre ++ post) pre.length - 1)) = .error e) :
    ∀ k ≤ pre.length, (∀ t < rows (pre ++ post) (pre.length - k),
      (∃ l, initArray m size (pre.drop (pre.length - k) ++ n' :: ns)
        (loc (pre ++ post) size base D (pre.length - k) t) = .ok l) ∨
      initArray m size (pre.drop (pre.length - k) ++ n' :: ns) (loc (pre ++ post) size base D (pre.length - k) t) = .error e) ∧
      initArray m size (pre.drop (pre.length - k) ++ n' :: ns)
        (loc (pre ++ post) size base D (pre.length - k) (rows (pre ++ post) (pre.length - k) - 1)) = .error e := by
  intro k
  induction k with
  | zero => intro _; simpa using ⟨h, hl⟩
  | succ k ih =>
    intro hk
    obtain ⟨d, hd⟩ : ∃ d, d = pre.length - (k + 1) := ⟨_, rfl⟩
    have hdim : dim (pre ++ post) d = pre[d]'(by omega) := by
      simp [dim, List.getD_eq_getElem?_getD, List.getElem?_append, show d < pre.length by omega]
    rw [← hd]
    have e1 : pre.length - k = d + 1 := by omega
    rw [e1] at ih
    rw [List.drop_eq_getElem_cons (by omega), ← hdim, List.cons_append]
    have hne : ∃ a as, pre.drop (d + 1) ++ n' :: ns = a :: as := by
      cases pre.drop (d + 1) with
      | nil => exact ⟨n', ns, rfl⟩
      | cons a as => exact ⟨a, as ++ n' :: ns, rfl⟩
    obtain ⟨a, as, he⟩ := hne
    rw [he] at ih ⊢
    obtain ⟨ih1, ih2⟩ := ih (by omega)
    have hdl : d + 1 < (pre ++ post).length := by rw [List.length_append]; omega
    have key : ∀ t < rows (pre ++ post) d, ∀ i < dim (pre ++ post) d,
        (∃ l, (m.read (loc (pre ++ post) size base D d t + 8 * i) >>= fun q => initArray m size (a :: as) q) = .ok l) ∨
        (m.read (loc (pre ++ post) size base D d t + 8 * i) >>= fun q => initArray m size (a :: as) q) = .error e := by
      intro t ht i hi
      have hu : t * dim (pre ++ post) d + i < rows (pre ++ post) (d + 1) := by
        rw [rows]
        nlinarith
      rw [f.next hdl hu]
      exact ih1 _ hu
    refine ⟨fun t ht => ?_, ?_⟩
    · unfold initArray
      exact each_dich (key t ht)
    · unfold initArray
      have hd0 := hp d (by omega)
      have hr0 : 0 < rows (pre ++ post) d := rows_pos hp (by omega)
      refine each_fault (k := dim (pre ++ post) d - 1) (by omega) ?_ (key _ (by omega))
      have hlast : (rows (pre ++ post) d - 1) * dim (pre ++ post) d + (dim (pre ++ post) d - 1) = rows (pre ++ post) (d + 1) - 1 := by
        rw [rows]
        obtain ⟨r, hr⟩ : ∃ r, rows (pre ++ post) d = r + 1 := ⟨_, (Nat.succ_pred_eq_of_pos hr0).symm⟩
        rw [hr, Nat.add_sub_cancel, Nat.succ_mul]
        omega
      have hu : (rows (pre ++ post) d - 1) * dim (pre ++ post) d + (dim (pre ++ post) d - 1) < rows (pre ++ post) (d + 1) := by
        have : 0 < rows (pre ++ post) (d + 1) := rows_pos hp (by omega)
        omega
      rw [f.next hdl hu, hlast]
      exact ih2

/-- The three last levels, two of them in the wrong order. -/
theorem Full.swapped {pre : List Nat} {M P S : Nat} (f : Full (pre ++ [M, P, S]) size base D m) (hPM : P ≤ M) {t : Nat}
    (ht : t < rows (pre ++ [M, P, S]) pre.length) :
    ∃ l, initArray m size [P, M, S] (loc (pre ++ [M, P, S]) size base D pre.length t) = .ok l ∧
      ∀ a ∈ l, Elem (pre ++ [M, P, S]) size D a := by
  have d0 : dim (pre ++ [M, P, S]) pre.length = M := by simp [dim, List.getD_eq_getElem?_getD]
  have d1 : dim (pre ++ [M, P, S]) (pre.length + 1) = P := by simp [dim, List.getD_eq_getElem?_getD]
  have d2 : dim (pre ++ [M, P, S]) (pre.length + 2) = S := by simp [dim, List.getD_eq_getElem?_getD]
  have hlen : (pre ++ [M, P, S]).length = pre.length + 3 := by simp
  unfold initArray
  refine each_ok fun j hj => ?_
  have hu : t * dim (pre ++ [M, P, S]) pre.length + j < rows (pre ++ [M, P, S]) (pre.length + 1) := by
    rw [rows, d0]
    nlinarith
  rw [f.next (by omega) hu]
  simp only [bind, Except.bind]
  unfold initArray
  refine each_ok fun k hk => ?_
  have hv : (t * dim (pre ++ [M, P, S]) pre.length + j) * dim (pre ++ [M, P, S]) (pre.length + 1) + k <
      rows (pre ++ [M, P, S]) (pre.length + 1 + 1) := by
    rw [rows, rows, d0, d1]
    obtain ⟨r, hr⟩ : ∃ r, rows (pre ++ [M, P, S]) pre.length = t + 1 + r := ⟨_, (Nat.add_sub_of_le ht).symm⟩
    obtain ⟨q, rfl⟩ : ∃ q, P = j + 1 + q := ⟨_, (Nat.add_sub_of_le hj).symm⟩
    obtain ⟨w, rfl⟩ : ∃ w, M = j + 1 + q + w := ⟨_, (Nat.add_sub_of_le hPM).symm⟩
    rw [hr]
    nlinarith [Nat.zero_le (r * (j + 1 + q + w) * (j + 1 + q)), Nat.zero_le (w * q), Nat.zero_le (w * j), Nat.zero_le (q * q), Nat.zero_le (q * j)]
  rw [f.next (by omega) hv]
  simp only [bind, Except.bind]
  refine ⟨_, rfl, fun a ha => ?_⟩
  obtain ⟨i, hi, rfl⟩ := List.mem_map.1 ha
  rw [List.mem_range] at hi
  refine ⟨((t * dim (pre ++ [M, P, S]) pre.length + j) * dim (pre ++ [M, P, S]) (pre.length + 1) + k) * S + i, ?_, ?_⟩
  · rw [hlen, rows, d2]
    have : pre.length + 1 + 1 = pre.length + 2 := rfl
    rw [this] at hv
    nlinarith
  · simp only [loc, if_neg (show ¬ pre.length + 1 + 1 + 1 < (pre ++ [M, P, S]).length by omega)]
    rw [show pre.length + 1 + 1 = pre.length + 2 from rfl, d2]
    ring

/-- With more rows asked for than there are, the tables end before the loop does and numbers are taken for pointers. -/
theorem Full.swapped_error {pre : List Nat} {M P S : Nat} (f : Full (pre ++ [M, P, S]) size base D m)
    (hM : 0 < M) (hMP : M < P) (hS : 0 < S) {t : Nat}
    (ht : t < rows (pre ++ [M, P, S]) pre.length) :
    ((∃ l, initArray m size [P, M, S] (loc (pre ++ [M, P, S]) size base D pre.length t) = .ok l) ∨
      initArray m size [P, M, S] (loc (pre ++ [M, P, S]) size base D pre.length t) = .error .unset) ∧
    (t + 1 = rows (pre ++ [M, P, S]) pre.length →
      initArray m size [P, M, S] (loc (pre ++ [M, P, S]) size base D pre.length t) = .error .unset) := by
  have d0 : dim (pre ++ [M, P, S]) pre.length = M := by simp [dim, List.getD_eq_getElem?_getD]
  have d1 : dim (pre ++ [M, P, S]) (pre.length + 1) = P := by simp [dim, List.getD_eq_getElem?_getD]
  have d2 : dim (pre ++ [M, P, S]) (pre.length + 2) = S := by simp [dim, List.getD_eq_getElem?_getD]
  have hlen : (pre ++ [M, P, S]).length = pre.length + 3 := by simp
  have r1 : rows (pre ++ [M, P, S]) (pre.length + 1) = rows (pre ++ [M, P, S]) pre.length * M := by rw [rows, d0]
  -- rows that are there
  have good : ∀ j, t * M + j < rows (pre ++ [M, P, S]) pre.length * M →
      ∃ l, (m.read (loc (pre ++ [M, P, S]) size base D pre.length t + 8 * j) >>= fun q => initArray m size [M, S] q) = .ok l := by
    intro j hj
    have hu : t * dim (pre ++ [M, P, S]) pre.length + j < rows (pre ++ [M, P, S]) (pre.length + 1) := by
      rw [d0, r1]
      exact hj
    rw [f.next (by omega) hu]
    simp only [bind, Except.bind]
    unfold initArray
    obtain ⟨l, hl, -⟩ := each_ok (n := M) (Q := fun _ => True) (f := fun i => m.read (loc (pre ++ [M, P, S]) size base D (pre.length + 1)
      (t * dim (pre ++ [M, P, S]) pre.length + j) + 8 * i) >>= fun q => initArray m size [S] q) fun k hk => by
        have hv : (t * dim (pre ++ [M, P, S]) pre.length + j) * dim (pre ++ [M, P, S]) (pre.length + 1) + k <
            rows (pre ++ [M, P, S]) (pre.length + 1 + 1) := by
          rw [rows, d1]
          nlinarith
        rw [f.next (by omega) hv]
        exact ⟨_, rfl, fun _ _ => trivial⟩
    exact ⟨l, hl⟩
  -- the row after the last
  have bad : ∀ j, t * M + j = rows (pre ++ [M, P, S]) pre.length * M →
      (m.read (loc (pre ++ [M, P, S]) size base D pre.length t + 8 * j) >>= fun q => initArray m size [M, S] q) = .error .unset := by
    intro j hj
    have hpos : 0 < rows (pre ++ [M, P, S]) (pre.length + 1 + 1) := by
      rw [rows, d1, r1]
      exact Nat.mul_pos (Nat.mul_pos (by omega) hM) (by omega)
    have e : m.read (loc (pre ++ [M, P, S]) size base D pre.length t + 8 * j) = .ok D := by
      have := f.read (pre.length + 1) 0 (by omega) hpos
      simp only [loc, if_neg (show ¬ pre.length + 1 + 1 + 1 < (pre ++ [M, P, S]).length by omega), Nat.zero_mul, Nat.mul_zero,
        Nat.add_zero] at this
      rw [← this]
      congr 1
      simp only [loc, if_pos (show pre.length + 1 < (pre ++ [M, P, S]).length by omega), table, d0, r1]
      rw [← hj]
      ring
    rw [e]
    simp only [bind, Except.bind]
    unfold initArray
    refine each_error hM ?_ (by omega)
    rw [Nat.mul_zero, Nat.add_zero, f.data]
    rfl
  have hbig : ∀ n', (∀ j < n', t * M + j < rows (pre ++ [M, P, S]) pre.length * M) ∨
      ∃ j < n', t * M + j = rows (pre ++ [M, P, S]) pre.length * M := by
    intro n'
    by_cases h : t * M + n' ≤ rows (pre ++ [M, P, S]) pre.length * M
    · exact .inl fun j hj => by omega
    · have : t * M ≤ rows (pre ++ [M, P, S]) pre.length * M := Nat.mul_le_mul_right _ ht.le
      exact .inr ⟨rows (pre ++ [M, P, S]) pre.length * M - t * M, by omega, by omega⟩
  have hcase : (∃ j < P, t * M + j = rows (pre ++ [M, P, S]) pre.length * M) →
      initArray m size [P, M, S] (loc (pre ++ [M, P, S]) size base D pre.length t) = .error .unset := by
    rintro ⟨j, hj, he⟩
    unfold initArray
    exact each_error hj (bad j he) fun i hi => good i (by omega)
  refine ⟨?_, fun hlast => hcase ?_⟩
  · rcases hbig P with h | h
    · left
      unfold initArray
      obtain ⟨l, hl, -⟩ := each_ok (Q := fun _ => True) fun j hj => (good j (h j hj)).imp fun l hl => ⟨hl, fun _ _ => trivial⟩
      exact ⟨l, hl⟩
    · exact .inr (hcase h)
  · exact ⟨M, hMP, by rw [← hlast]; ring⟩

end Xrtm.Clear
