import Verif.Spec.Names
import Mathlib.Tactic.Linarith
import Mathlib.Data.List.TakeWhile

namespace Xrtm.Names
open Spec

theorem name_some {t : Table} {i : Nat} {s : Str} (h : t.names[i]? = some s) :
    t.name i = .ok s := by simp [Table.name, h]

theorem value_some {t : Table} {i : Nat} {v : Long} (h : t.values[i]? = some v) :
    t.value i = .ok v := by simp [Table.value, h]

theorem get_some {α : Type} {l : List α} {i : Nat} (h : i < l.length) : ∃ a, l[i]? = some a :=
  ⟨l[i], by simp [h]⟩

theorem nameToIndexFrom_spec (t : Table) (name : Str) (k i : Nat) (h : i + k ≤ t.names.length) :
    (nameToIndexFrom t name k i = .ok (-1) ∧
      ∀ j, i ≤ j → j < i + k → t.names[j]? ≠ some name) ∨
    (∃ j : Nat, nameToIndexFrom t name k i = .ok (j : Int) ∧ i ≤ j ∧ j < i + k ∧
      t.names[j]? = some name) := by
  induction k generalizing i with
  | zero => left; exact ⟨rfl, fun j a b => absurd b (by omega)⟩
  | succ k ih =>
    obtain ⟨s, hs⟩ := get_some (l := t.names) (i := i) (by omega)
    unfold nameToIndexFrom
    simp only [name_some hs, bind, Except.bind]
    by_cases e : s = name
    · right; exact ⟨i, by simp [e], by omega, by omega, by rw [hs, e]⟩
    · rw [if_neg e]
      rcases ih (i + 1) (by omega) with ⟨a, b⟩ | ⟨j, a, b, c, d⟩
      · left
        refine ⟨a, fun j h1 h2 => ?_⟩
        rcases Nat.lt_or_ge i j with g | g
        · exact b j (by omega) (by omega)
        · have : j = i := by omega
          subst this; rw [hs]; simpa using e
      · right; exact ⟨j, a, by omega, by omega, d⟩

theorem valueToIndexFrom_spec (t : Table) (v : Long) (k i : Nat) (h : i + k ≤ t.values.length) :
    (valueToIndexFrom t v k i = .ok (-1) ∧
      ∀ j, i ≤ j → j < i + k → t.values[j]? ≠ some v) ∨
    (∃ j : Nat, valueToIndexFrom t v k i = .ok (j : Int) ∧ i ≤ j ∧ j < i + k ∧
      t.values[j]? = some v) := by
  induction k generalizing i with
  | zero => left; exact ⟨rfl, fun j a b => absurd b (by omega)⟩
  | succ k ih =>
    obtain ⟨s, hs⟩ := get_some (l := t.values) (i := i) (by omega)
    unfold valueToIndexFrom
    simp only [value_some hs, bind, Except.bind]
    by_cases e : v = s
    · right; exact ⟨i, by simp [e], by omega, by omega, by rw [hs, e]⟩
    · rw [if_neg e]
      rcases ih (i + 1) (by omega) with ⟨a, b⟩ | ⟨j, a, b, c, d⟩
      · left
        refine ⟨a, fun j h1 h2 => ?_⟩
        rcases Nat.lt_or_ge i j with g | g
        · exact b j (by omega) (by omega)
        · have : j = i := by omega
          subst this; rw [hs]; simpa using fun q => e q.symm
      · right; exact ⟨j, a, by omega, by omega, d⟩

theorem nameToValueFrom_spec (t : Table) (name : Str) (k i : Nat) (h : i + k ≤ t.names.length)
    (h' : t.values.length = t.names.length) :
    (nameToValueFrom t name k i = .ok (-1) ∧
      ∀ j, i ≤ j → j < i + k → t.names[j]? ≠ some name) ∨
    (∃ (j : Nat) (v : Long), nameToValueFrom t name k i = .ok v ∧ i ≤ j ∧ j < i + k ∧
      Row t j name v) := by
  induction k generalizing i with
  | zero => left; exact ⟨rfl, fun j a b => absurd b (by omega)⟩
  | succ k ih =>
    obtain ⟨s, hs⟩ := get_some (l := t.names) (i := i) (by omega)
    obtain ⟨v, hv⟩ := get_some (l := t.values) (i := i) (by omega)
    unfold nameToValueFrom
    simp only [name_some hs, bind, Except.bind]
    by_cases e : name = s
    · right; exact ⟨i, v, by simp [e, value_some hv], by omega, by omega, by rw [hs, e], hv⟩
    · rw [if_neg e]
      rcases ih (i + 1) (by omega) with ⟨a, b⟩ | ⟨j, w, a, b, c, d⟩
      · left
        refine ⟨a, fun j h1 h2 => ?_⟩
        rcases Nat.lt_or_ge i j with g | g
        · exact b j (by omega) (by omega)
        · have : j = i := by omega
          subst this; rw [hs]; simpa using fun q => e q.symm
      · right; exact ⟨j, w, a, by omega, by omega, d⟩

theorem valueToNameFrom_spec (t : Table) (v : Long) (k i : Nat) (h : i + k ≤ t.values.length)
    (h' : t.values.length = t.names.length) :
    (valueToNameFrom t v k i = .ok none ∧
      ∀ j, i ≤ j → j < i + k → t.values[j]? ≠ some v) ∨
    (∃ (j : Nat) (s : Str), valueToNameFrom t v k i = .ok (some s) ∧ i ≤ j ∧ j < i + k ∧
      Row t j s v) := by
  induction k generalizing i with
  | zero => left; exact ⟨rfl, fun j a b => absurd b (by omega)⟩
  | succ k ih =>
    obtain ⟨s, hs⟩ := get_some (l := t.names) (i := i) (by omega)
    obtain ⟨w, hw⟩ := get_some (l := t.values) (i := i) (by omega)
    unfold valueToNameFrom
    simp only [value_some hw, bind, Except.bind]
    by_cases e : v = w
    · right; exact ⟨i, s, by simp [e, name_some hs], by omega, by omega, hs, by rw [hw, e]⟩
    · rw [if_neg e]
      rcases ih (i + 1) (by omega) with ⟨a, b⟩ | ⟨j, w, a, b, c, d⟩
      · left
        refine ⟨a, fun j h1 h2 => ?_⟩
        rcases Nat.lt_or_ge i j with g | g
        · exact b j (by omega) (by omega)
        · have : j = i := by omega
          subst this; rw [hw]; simpa using fun q => e q.symm
      · right; exact ⟨j, w, a, by omega, by omega, d⟩

/-! ## Lists -/

/-- The rows from `i` on of which the mask has a bit. -/
def hits (t : Table) (mask : Long) (k i : Nat) : List (Nat × Str × Long) :=
  match k with
  | 0 => []
  | k + 1 =>
    match t.names[i]?, t.values[i]? with
    | some s, some v =>
      if mask &&& v ≠ 0 then (i, s, v) :: hits t mask k (i + 1) else hits t mask k (i + 1)
    | _, _ => []

theorem hits_chosen (t : Table) (mask : Long) (h1 : t.names.length = t.n)
    (h2 : t.values.length = t.n) : hits t mask t.n 0 = chosen t mask := by
  have key : ∀ k i, i + k = t.n → hits t mask k i =
      ((List.range' i k).zip ((t.names.drop i).zip (t.values.drop i))).filter
        (fun r => decide (mask &&& r.2.2 ≠ 0)) := by
    intro k
    induction k with
    | zero => intro i _; simp [hits]
    | succ k ih =>
      intro i hi
      have a : i < t.names.length := by omega
      have b : i < t.values.length := by omega
      rw [hits, List.drop_eq_getElem_cons a, List.drop_eq_getElem_cons b, List.range'_succ]
      simp only [List.getElem?_eq_getElem a, List.getElem?_eq_getElem b, List.zip_cons_cons,
        List.filter_cons, ih (i + 1) (by omega)]
      by_cases c : mask &&& t.values[i] = 0 <;> simp [c]
  rw [key t.n 0 (by omega)]
  simp [chosen, List.range_eq_range']

theorem maskToIndexFrom_spec (t : Table) (mask : Long) (length : Nat) (k i ii : Nat) (b : Buf Int)
    (h1 : i + k ≤ t.names.length) (h2 : t.values.length = t.names.length)
    (hl : ii < length) (hc : length ≤ b.cap) :
    ∃ b' : Buf Int, maskToIndexFrom t mask length k i ii b =
        .ok (b', ii + min (length - ii) (hits t mask k i).length) ∧ b'.cap = b.cap ∧
      (∀ j, j < ii → b'.cell j = b.cell j) ∧
      ∀ j, j < min (length - ii) (hits t mask k i).length →
        b'.cell (ii + j) = ((hits t mask k i)[j]?).map (fun r => (r.1 : Int)) := by
  induction k generalizing i ii b with
  | zero => exact ⟨b, by simp [maskToIndexFrom, hits], rfl, fun _ _ => rfl, by simp [hits]⟩
  | succ k ih =>
    obtain ⟨s, hs⟩ := get_some (l := t.names) (i := i) (by omega)
    obtain ⟨v, hv⟩ := get_some (l := t.values) (i := i) (by omega)
    unfold maskToIndexFrom hits
    simp only [value_some hv, hs, hv, bind, Except.bind]
    by_cases e : mask &&& v = 0
    · simp only [ne_eq, e, not_true, if_false]
      rw [if_neg (by omega)]
      exact ih (i + 1) ii b (by omega) hl hc
    · simp only [ne_eq, e, not_false_eq_true, if_true]
      have hw : ii < b.cap := by omega
      simp only [Buf.write, if_pos hw]
      by_cases f : (ii + 1 : Int) ≥ length
      · rw [if_pos f]
        have : length - ii = 1 := by omega
        refine ⟨{ b with cell := fun j => if j = ii then some (i : Int) else b.cell j }, by rw [this]; simp, rfl, fun j hj => if_neg (by omega), fun j hj => ?_⟩
        have : j = 0 := by omega
        subst this; simp
      · rw [if_neg f]
        obtain ⟨b', e1, e2, e3, e4⟩ := ih (i + 1) (ii + 1)
          { b with cell := fun j => if j = ii then some (i : Int) else b.cell j } (by omega) (by omega) hc
        refine ⟨b', ?_, e2, fun j hj => ?_, fun j hj => ?_⟩
        · rw [e1]; simp only [List.length_cons]
          congr 2; omega
        · rw [e3 j (by omega)]; exact if_neg (by omega)
        · simp only [List.length_cons] at hj
          cases j with
          | zero => rw [Nat.add_zero, e3 ii (by omega)]; simp
          | succ j =>
            have := e4 j (by omega)
            rw [show ii + (j + 1) = ii + 1 + j by omega, this]; simp

theorem maskToValueFrom_spec (t : Table) (mask : Long) (length : Nat) (k i ii : Nat) (b : Buf Long)
    (h1 : i + k ≤ t.names.length) (h2 : t.values.length = t.names.length)
    (hl : ii < length) (hc : length ≤ b.cap) :
    ∃ b' : Buf Long, maskToValueFrom t mask length k i ii b =
        .ok (b', ii + min (length - ii) (hits t mask k i).length) ∧ b'.cap = b.cap ∧
      (∀ j, j < ii → b'.cell j = b.cell j) ∧
      ∀ j, j < min (length - ii) (hits t mask k i).length →
        b'.cell (ii + j) = ((hits t mask k i)[j]?).map (fun r => r.2.2) := by
  induction k generalizing i ii b with
  | zero => exact ⟨b, by simp [maskToValueFrom, hits], rfl, fun _ _ => rfl, by simp [hits]⟩
  | succ k ih =>
    obtain ⟨s, hs⟩ := get_some (l := t.names) (i := i) (by omega)
    obtain ⟨v, hv⟩ := get_some (l := t.values) (i := i) (by omega)
    unfold maskToValueFrom hits
    simp only [value_some hv, hs, hv, bind, Except.bind]
    by_cases e : mask &&& v = 0
    · simp only [ne_eq, e, not_true, if_false]
      rw [if_neg (by omega)]
      exact ih (i + 1) ii b (by omega) hl hc
    · simp only [ne_eq, e, not_false_eq_true, if_true]
      have hw : ii < b.cap := by omega
      simp only [Buf.write, if_pos hw]
      by_cases f : (ii + 1 : Int) ≥ length
      · rw [if_pos f]
        have : length - ii = 1 := by omega
        refine ⟨{ b with cell := fun j => if j = ii then some v else b.cell j }, by rw [this]; simp, rfl, fun j hj => if_neg (by omega), fun j hj => ?_⟩
        have : j = 0 := by omega
        subst this; simp
      · rw [if_neg f]
        obtain ⟨b', e1, e2, e3, e4⟩ := ih (i + 1) (ii + 1)
          { b with cell := fun j => if j = ii then some v else b.cell j } (by omega) (by omega) hc
        refine ⟨b', ?_, e2, fun j hj => ?_, fun j hj => ?_⟩
        · rw [e1]; simp only [List.length_cons]
          congr 2; omega
        · rw [e3 j (by omega)]; exact if_neg (by omega)
        · simp only [List.length_cons] at hj
          cases j with
          | zero => rw [Nat.add_zero, e3 ii (by omega)]; simp
          | succ j =>
            have := e4 j (by omega)
            rw [show ii + (j + 1) = ii + 1 + j by omega, this]; simp

/-! ## Printing -/

theorem writeStr_ok (b : Buf Char) (i : Nat) (a : Str) (h : i + a.length ≤ b.cap) :
    ∃ b' : Buf Char, writeStr b i a = .ok b' ∧ b'.cap = b.cap ∧
      (∀ j, (j < i ∨ i + a.length ≤ j) → b'.cell j = b.cell j) ∧
      ∀ j, j < a.length → b'.cell (i + j) = a[j]? := by
  induction a generalizing b i with
  | nil => exact ⟨b, rfl, rfl, fun _ _ => rfl, by simp⟩
  | cons c cs ih =>
    simp only [List.length_cons] at h
    obtain ⟨b', e1, e2, e3, e4⟩ := ih { b with cell := fun j => if j = i then some c else b.cell j }
      (i + 1) (by simp only; omega)
    refine ⟨b', ?_, e2, fun j hj => ?_, fun j hj => ?_⟩
    · simp only [writeStr, Buf.write, if_pos (show i < b.cap by omega), bind, Except.bind, e1]
    · simp only [List.length_cons] at hj
      rw [e3 j (by omega)]; exact if_neg (by omega)
    · cases j with
      | zero => rw [Nat.add_zero, e3 i (by omega)]; simp
      | succ j =>
        simp only [List.length_cons] at hj
        rw [show i + (j + 1) = i + 1 + j by omega, e4 j (by omega)]; simp

theorem writeStr_cap (b b' : Buf Char) (i : Nat) (a : Str) (h : writeStr b i a = .ok b') :
    b'.cap = b.cap := by
  induction a generalizing b i with
  | nil => simp only [writeStr, Except.ok.injEq] at h; rw [h]
  | cons c cs ih =>
    simp only [writeStr, Buf.write, bind, Except.bind] at h
    by_cases e : i < b.cap
    · rw [if_pos e] at h; exact ih { b with cell := fun j => if j = i then some c else b.cell j } (i + 1) h
    · rw [if_neg e] at h; cases h

theorem snprintf_ok (b : Buf Char) (n length : Nat) (a : Str) (h : n + a.length < length)
    (hc : length ≤ b.cap) :
    ∃ b' : Buf Char, snprintf b n length a = .ok (b', n + a.length) ∧ b'.cap = b.cap ∧
      (∀ j, j < n → b'.cell j = b.cell j) ∧
      ∀ j, j < a.length → b'.cell (n + j) = a[j]? := by
  obtain ⟨b', e1, e2, e3, e4⟩ := writeStr_ok b n a (by omega)
  have hsz : ¬ ((length : Int) - n = 0) := by omega
  have hneg : ¬ ((length : Int) - n < 0) := by omega
  have htake : a.take ((length : Int) - n - 1).toNat = a := List.take_of_length_le (by omega)
  refine ⟨{ b' with cell := fun j => if j = n + a.length then some '\x00' else b'.cell j },
    ?_, e2, fun j hj => ?_, fun j hj => ?_⟩
  · simp only [snprintf, if_neg hsz, if_neg hneg, htake, e1, bind, Except.bind, Buf.write,
      if_pos (show n + a.length < b'.cap by omega)]
  · simp only [if_neg (show ¬ (j = n + a.length) by omega)]
    exact e3 j (by omega)
  · simp only [if_neg (show ¬ (n + j = n + a.length) by omega)]
    exact e4 j hj

theorem snprintf_n (b b' : Buf Char) (n n' : Nat) (length : Int) (a : Str)
    (h : snprintf b n length a = .ok (b', n')) : n' = n + a.length ∧ b'.cap = b.cap := by
  simp only [snprintf] at h
  split at h
  · simp only [Except.ok.injEq, Prod.mk.injEq] at h; exact ⟨h.2.symm, by rw [h.1]⟩
  · simp only [bind, Except.bind] at h
    split at h
    · cases h
    · rename_i b1 hb1
      simp only [Buf.write] at h
      have := writeStr_cap _ _ _ _ hb1
      split at h
      · cases h
      · rename_i b2 hb2
        simp only [Except.ok.injEq, Prod.mk.injEq] at h
        refine ⟨h.2.symm, ?_⟩
        rw [← h.1]
        generalize hw : (if length - (n : Int) < 0 then a else a.take (length - (n : Int) - 1).toNat) = w at hb2
        by_cases g : n + w.length < b1.cap
        · rw [if_pos g] at hb2
          simp only [Except.ok.injEq] at hb2
          rw [← hb2]; exact this
        · rw [if_neg g] at hb2; cases hb2

/-- What the loop has still to print. -/
def tailOf (flag : Bool) (ns : List Str) : Str :=
  match ns with
  | [] => []
  | s :: ss => (if flag then [','] else []) ++ joined (s :: ss)

theorem tailOf_cons (flag : Bool) (s : Str) (ss : List Str) :
    tailOf flag (s :: ss) = (if flag then [','] else []) ++ (s ++ tailOf true ss) := by
  cases ss with
  | nil => simp [tailOf, joined]
  | cons r rs => simp [tailOf, joined]

theorem maskToNamesFrom_n (t : Table) (mask : Long) (length : Int) (k i : Nat) (flag : Bool)
    (n : Nat) (b b' : Buf Char) (n' : Nat) (h1 : i + k ≤ t.names.length)
    (h2 : t.values.length = t.names.length)
    (h : maskToNamesFrom t mask length k i flag n b = .ok (b', n')) :
    n' = n + (tailOf flag ((hits t mask k i).map (·.2.1))).length ∧ b'.cap = b.cap := by
  induction k generalizing i flag n b with
  | zero =>
    simp only [maskToNamesFrom, Except.ok.injEq, Prod.mk.injEq] at h
    simp [hits, tailOf, h.1, h.2]
  | succ k ih =>
    obtain ⟨s, hs⟩ := get_some (l := t.names) (i := i) (by omega)
    obtain ⟨v, hv⟩ := get_some (l := t.values) (i := i) (by omega)
    unfold maskToNamesFrom at h
    unfold hits
    simp only [value_some hv, name_some hs, hs, hv, bind, Except.bind] at h ⊢
    by_cases e : mask &&& v = 0
    · simp only [ne_eq, e, not_true, if_false] at h ⊢
      exact ih (i + 1) flag n b (by omega) h
    · simp only [ne_eq, e, not_false_eq_true, if_true] at h ⊢
      rw [List.map_cons, tailOf_cons]
      cases flag with
      | false =>
        simp only [Bool.false_eq_true, if_false] at h ⊢
        split at h
        · cases h
        · rename_i p hp
          obtain ⟨b2, n2⟩ := p
          obtain ⟨q1, q2⟩ := snprintf_n _ _ _ _ _ _ hp
          obtain ⟨r1, r2⟩ := ih (i + 1) true n2 b2 (by omega) h
          exact ⟨by rw [r1, q1]; simp; omega, by rw [r2, q2]⟩
      | true =>
        simp only [if_true] at h ⊢
        split at h
        · cases h
        · rename_i p hp
          obtain ⟨b1, n1⟩ := p
          obtain ⟨p1, p2⟩ := snprintf_n _ _ _ _ _ _ hp
          simp only at h
          split at h
          · cases h
          · rename_i p hp
            obtain ⟨b2, n2⟩ := p
            obtain ⟨q1, q2⟩ := snprintf_n _ _ _ _ _ _ hp
            obtain ⟨r1, r2⟩ := ih (i + 1) true n2 b2 (by omega) h
            exact ⟨by rw [r1, q1, p1]; simp; omega, by rw [r2, q2, p2]⟩

theorem maskToNamesFrom_ok (t : Table) (mask : Long) (length : Nat) (k i : Nat) (flag : Bool)
    (n : Nat) (b : Buf Char) (h1 : i + k ≤ t.names.length)
    (h2 : t.values.length = t.names.length) (hc : length ≤ b.cap)
    (hn : n + (tailOf flag ((hits t mask k i).map (·.2.1))).length < length) :
    ∃ b' : Buf Char, maskToNamesFrom t mask length k i flag n b =
        .ok (b', n + (tailOf flag ((hits t mask k i).map (·.2.1))).length) ∧ b'.cap = b.cap ∧
      (∀ j, j < n → b'.cell j = b.cell j) ∧
      ∀ j, j < (tailOf flag ((hits t mask k i).map (·.2.1))).length →
        b'.cell (n + j) = (tailOf flag ((hits t mask k i).map (·.2.1)))[j]? := by
  induction k generalizing i flag n b with
  | zero => exact ⟨b, by simp [maskToNamesFrom, hits, tailOf], rfl, fun _ _ => rfl, by simp [hits, tailOf]⟩
  | succ k ih =>
    obtain ⟨s, hs⟩ := get_some (l := t.names) (i := i) (by omega)
    obtain ⟨v, hv⟩ := get_some (l := t.values) (i := i) (by omega)
    unfold maskToNamesFrom
    unfold hits at hn ⊢
    simp only [value_some hv, name_some hs, hs, hv, bind, Except.bind] at hn ⊢
    by_cases e : mask &&& v = 0
    · simp only [ne_eq, e, not_true, if_false] at hn ⊢
      exact ih (i + 1) flag n b (by omega) hc hn
    · simp only [ne_eq, e, not_false_eq_true, if_true] at hn ⊢
      rw [List.map_cons, tailOf_cons] at hn ⊢
      have fin : ∀ (n1 : Nat) (b1 : Buf Char), b1.cap = b.cap →
          n1 + (s ++ tailOf true ((hits t mask k (i + 1)).map (fun r : Nat × Str × Long => r.2.1))).length < length →
          ∃ b' : Buf Char, Except.bind (snprintf b1 n1 length s)
            (fun p => maskToNamesFrom t mask length k (i + 1) true p.2 p.1) =
              .ok (b', n1 + (s ++ tailOf true ((hits t mask k (i + 1)).map (fun r : Nat × Str × Long => r.2.1))).length) ∧
            b'.cap = b.cap ∧ (∀ j, j < n1 → b'.cell j = b1.cell j) ∧
            ∀ j, j < (s ++ tailOf true ((hits t mask k (i + 1)).map (fun r : Nat × Str × Long => r.2.1))).length →
              b'.cell (n1 + j) = (s ++ tailOf true ((hits t mask k (i + 1)).map (fun r : Nat × Str × Long => r.2.1)))[j]? := by
        intro n1 b1 hb1 hl
        rw [List.length_append] at hl ⊢
        obtain ⟨b2, q1, q2, q3, q4⟩ := snprintf_ok b1 n1 length s (by omega) (by omega)
        obtain ⟨b3, r1, r2, r3, r4⟩ := ih (i + 1) true (n1 + s.length) b2 (by omega) (by omega)
          (by omega)
        refine ⟨b3, ?_, by omega, fun j hj => ?_, fun j hj => ?_⟩
        · rw [q1]; simp only [Except.bind, r1]; rw [Nat.add_assoc]
        · rw [r3 j (by omega), q3 j hj]
        · by_cases g : j < s.length
          · rw [r3 _ (by omega), q4 j g, List.getElem?_append_left g]
          · have := r4 (j - s.length) (by omega)
            rw [show n1 + s.length + (j - s.length) = n1 + j by omega] at this
            rw [this, List.getElem?_append_right (by omega)]
      cases flag with
      | false =>
        simp only [Bool.false_eq_true, if_false, List.nil_append] at hn ⊢
        have := fin n b rfl hn
        simp only [Except.bind] at this
        exact this
      | true =>
        simp only [if_true] at hn ⊢
        rw [List.singleton_append, List.length_cons] at hn ⊢
        obtain ⟨b2, q1, q2, q3, q4⟩ := snprintf_ok b n length [','] (by simp; omega) hc
        rw [q1]
        obtain ⟨b3, r1, r2, r3, r4⟩ := fin (n + 1) b2 q2 (by omega)
        simp only [Except.bind] at r1
        refine ⟨b3, ?_, r2, fun j hj => ?_, fun j hj => ?_⟩
        · simp only [List.length_singleton]
          refine Eq.trans ?_ (r1.trans ?_)
          · rfl
          · congr 2; omega
        · rw [r3 j (by omega), q3 j hj]
        · cases j with
          | zero =>
            rw [Nat.add_zero, r3 n (by omega)]
            simpa using q4 0 (by simp)
          | succ j =>
            rw [show n + (j + 1) = n + 1 + j by omega, r4 j (by omega)]; simp

/-! ## Parsing -/

theorem delim_eq : delim = separator := by
  funext c
  rw [Bool.eq_iff_iff]
  simp [delim, separator, or_assoc]

theorem words_delim (c : Char) (cs : Str) (h : separator c = true) : words (c :: cs) = words cs := by
  simp [words, List.splitOnP_cons, h]

theorem words_drop (s : Str) : words (s.dropWhile separator) = words s := by
  induction s with
  | nil => rfl
  | cons c cs ih =>
    by_cases h : separator c = true
    · rw [List.dropWhile_cons_of_pos h, ih, words_delim c cs h]
    · rw [List.dropWhile_cons_of_neg h]

theorem words_plain (w : Str) (hw : w ≠ []) (h : ∀ c ∈ w, ¬ separator c = true) : words w = [w] := by
  rw [words, List.splitOnP_eq_singleton (fun x hx => by simpa using h x hx)]
  simp [hw]

theorem words_append (w : Str) (hw : w ≠ []) (h : ∀ c ∈ w, ¬ separator c = true) (c : Char)
    (hc : separator c = true) (cs : Str) : words (w ++ c :: cs) = w :: words cs := by
  rw [words, List.splitOnP_first (fun x hx => by simpa using h x hx) c hc]
  simp [words, hw]

theorem strtok_none (s : Str) (h : strtok s = none) : words s = [] := by
  unfold strtok at h
  rw [← words_drop, ← delim_eq]
  split at h
  · rename_i e; rw [e]; rfl
  · cases h

theorem strtok_some (s w r : Str) (h : strtok s = some (w, r)) :
    words s = w :: words r ∧ r.length < s.length := by
  unfold strtok at h
  rw [← words_drop, ← delim_eq]
  split at h
  · cases h
  · rename_i c cs e
    rw [e]
    have hc : ¬ delim c = true := by
      have := List.head_dropWhile_not delim (l := s) (by rw [e]; simp)
      simpa [e] using this
    simp only [Option.some.injEq, Prod.mk.injEq] at h
    have hlen : (c :: cs).length ≤ s.length := by
      rw [← e]; exact (List.dropWhile_suffix delim).length_le
    have hsplit := List.takeWhile_append_dropWhile (p := fun c => !delim c) (l := c :: cs)
    have hw : ∀ x ∈ w, ¬ separator x = true := by
      intro x hx
      rw [← h.1] at hx
      have := List.mem_takeWhile_imp hx
      rw [← delim_eq]; simpa using this
    have hne : w ≠ [] := by
      rw [← h.1, List.takeWhile_cons_of_pos (by simpa using hc)]; simp
    rw [h.1] at hsplit
    cases hd : (c :: cs).dropWhile (fun c => !delim c) with
    | nil =>
      rw [hd] at h hsplit
      rw [← h.2]
      refine ⟨?_, by simp at hlen ⊢; omega⟩
      rw [← hsplit, List.append_nil, words_plain w hne hw]; rfl
    | cons d ds =>
      rw [hd] at h hsplit
      simp only [List.tail_cons] at h
      rw [← h.2]
      have hd' : separator d = true := by
        have := List.head_dropWhile_not (fun c => !delim c) (l := c :: cs) (by rw [hd]; simp)
        rw [← delim_eq]; simpa [hd] using this
      refine ⟨by rw [← hsplit]; exact words_append w hne hw d hd' ds, ?_⟩
      have := congrArg List.length hsplit
      simp at this hlen ⊢
      omega

/-- The loop of `name_list_to_mask` over the words. -/
def orAll (t : Table) : List Str → Word → Except Fault Long
  | [], mask => .ok (mask.signExtend 64)
  | w :: ws, mask => do
    let v ← nameToValue t w
    let temp : Word := v.truncate 32
    if temp.slt 0 then .ok (-1) else orAll t ws (mask ||| temp)

theorem nameListFrom_words (t : Table) (fuel : Nat) (s : Str) (mask : Word) (h : s.length < fuel) :
    nameListFrom t fuel s mask = orAll t (words s) mask := by
  induction fuel generalizing s mask with
  | zero => omega
  | succ fuel ih =>
    unfold nameListFrom
    cases e : strtok s with
    | none => rw [strtok_none s e]; rfl
    | some p =>
      obtain ⟨w, r⟩ := p
      obtain ⟨a, b⟩ := strtok_some s w r e
      rw [a]
      simp only [orAll]
      congr 1
      funext v
      rw [ih r _ (by omega)]

theorem nameToValue_cases (t : Table) (h : Sound t) (w : Str) :
    (w ∉ t.names ∧ nameToValue t w = .ok (-1)) ∨
    ∃ (i : Nat) (v : Long), Row t i w v ∧ nameToValue t w = .ok v := by
  rcases nameToValueFrom_spec t w t.n 0 (by rw [h.names_length]; omega)
    (by rw [h.names_length, h.values_length]) with ⟨a, b⟩ | ⟨j, v, a, _, _, d⟩
  · left
    refine ⟨fun hm => ?_, a⟩
    obtain ⟨i, hi, e⟩ := List.getElem_of_mem hm
    exact b i (by omega) (by rw [← h.names_length]; omega) (by simp [hi, e])
  · exact .inr ⟨j, v, d, a⟩

theorem Row.unique_value {t : Table} (h : Sound t) {i j : Nat} {s : Str} {v w : Long}
    (a : Row t i s v) (b : Row t j s w) : i = j ∧ v = w := by
  obtain ⟨hi, e1⟩ := List.getElem?_eq_some_iff.1 a.1
  obtain ⟨hj, e2⟩ := List.getElem?_eq_some_iff.1 b.1
  have : i = j := (List.Nodup.getElem_inj_iff h.names_nodup).1 (e1.trans e2.symm)
  subst this
  exact ⟨rfl, Option.some.inj (a.2.symm.trans b.2)⟩

theorem Row.unique_name {t : Table} (h : Sound t) {i j : Nat} {s r : Str} {v : Long}
    (a : Row t i s v) (b : Row t j r v) : i = j ∧ s = r := by
  obtain ⟨hi, e1⟩ := List.getElem?_eq_some_iff.1 a.2
  obtain ⟨hj, e2⟩ := List.getElem?_eq_some_iff.1 b.2
  have : i = j := (List.Nodup.getElem_inj_iff h.values_nodup).1 (e1.trans e2.symm)
  subst this
  exact ⟨rfl, Option.some.inj (a.1.symm.trans b.1)⟩

theorem slt_zero_iff (v : Long) (h : v.toNat < 2 ^ 32) :
    (v.truncate 32 : Word).slt 0 = decide (2 ^ 31 ≤ v.toNat) := by
  have e : (v.truncate 32 : Word).toNat = v.toNat := by
    simp only [BitVec.truncate_eq_setWidth, BitVec.toNat_setWidth]; omega
  have := BitVec.slt_zero_eq_msb (x := (v.truncate 32 : Word))
  rw [BitVec.ofNat_eq_ofNat, this, BitVec.msb_eq_decide, e]

theorem union_lt (vs : List Long) (h : ∀ v ∈ vs, v.toNat < 2 ^ 31) : (union vs).toNat < 2 ^ 31 := by
  induction vs with
  | nil => simp [union]
  | cons v vs ih =>
    rw [union, List.foldr_cons, BitVec.toNat_or]
    exact Nat.or_lt_two_pow (h v (by simp)) (ih (fun x hx => h x (by simp [hx])))

theorem orAll_known (t : Table) (h : Sound t) (ws : List Str) (mask : Word)
    (hm : mask.toNat < 2 ^ 31)
    (hk : ∀ w ∈ ws, ∃ i v, Row t i w v ∧ v.toNat < 2 ^ 31) :
    ∃ vs : List Long, List.Forall₂ (fun w v => ∃ i, Row t i w v) ws vs ∧
      orAll t ws mask = .ok (mask.zeroExtend 64 ||| union vs) := by
  induction ws generalizing mask with
  | nil =>
    refine ⟨[], .nil, ?_⟩
    have : mask.msb = false := by rw [BitVec.msb_eq_decide]; simp; omega
    simp only [orAll, union, List.foldr_nil, BitVec.or_zero]
    rw [BitVec.signExtend_eq_setWidth_of_msb_false this]
    exact congrArg Except.ok (BitVec.or_zero).symm
  | cons w ws ih =>
    obtain ⟨i, v, hr, hv⟩ := hk w (by simp)
    rcases nameToValue_cases t h w with ⟨a, _⟩ | ⟨j, v', hr', e⟩
    · exact absurd (List.mem_of_getElem? hr.1) a
    · have := (Row.unique_value h hr' hr).2
      subst this
      obtain ⟨vs, f, g⟩ := ih (mask ||| v'.truncate 32)
        (by
          rw [BitVec.toNat_or]
          refine Nat.or_lt_two_pow hm ?_
          simp only [BitVec.truncate_eq_setWidth, BitVec.toNat_setWidth]; omega)
        (fun w hw => hk w (by simp [hw]))
      refine ⟨v' :: vs, .cons ⟨i, hr⟩ f, ?_⟩
      simp only [orAll, e, bind, Except.bind]
      rw [slt_zero_iff v' (by omega)]
      rw [show decide (2 ^ 31 ≤ v'.toNat) = false by simp; omega]
      simp only [Bool.false_eq_true, if_false, g]
      congr 1
      rw [show union (v' :: vs) = v' ||| union vs from rfl, ← BitVec.or_assoc]
      congr 1
      apply BitVec.eq_of_toNat_eq
      simp only [BitVec.truncate_eq_setWidth, BitVec.toNat_or, BitVec.toNat_setWidth]
      rw [Nat.mod_eq_of_lt (b := 2 ^ 32) (by omega), Nat.mod_eq_of_lt (a := mask.toNat) (by omega),
        Nat.mod_eq_of_lt]
      exact lt_trans (Nat.or_lt_two_pow hm hv) (by norm_num)

theorem orAll_bad (t : Table) (h : Sound t) (hv : ∀ v ∈ t.values, v.toNat < 2 ^ 32)
    (ws : List Str) (mask : Word)
    (hk : ∃ w ∈ ws, w ∉ t.names ∨ ∃ i v, Row t i w v ∧ 2 ^ 31 ≤ v.toNat) :
    orAll t ws mask = .ok (-1) := by
  induction ws generalizing mask with
  | nil => simp at hk
  | cons w ws ih =>
    simp only [orAll]
    rcases nameToValue_cases t h w with ⟨a, e⟩ | ⟨j, v', hr', e⟩
    · rw [e]; rfl
    · rw [e]
      simp only [bind, Except.bind]
      rw [slt_zero_iff v' (hv v' (List.mem_of_getElem? hr'.2))]
      by_cases c : 2 ^ 31 ≤ v'.toNat
      · rw [show decide (2 ^ 31 ≤ v'.toNat) = true by simpa using c]; rfl
      · rw [show decide (2 ^ 31 ≤ v'.toNat) = false by simpa using c]
        simp only [Bool.false_eq_true, if_false]
        apply ih
        obtain ⟨w', hw', hb⟩ := hk
        rcases List.mem_cons.1 hw' with rfl | hw'
        · exfalso
          rcases hb with hb | ⟨i, v, hr, hb⟩
          · exact hb (List.mem_of_getElem? hr'.1)
          · have := (Row.unique_value h hr hr').2
            subst this; exact c hb
        · exact ⟨w', hw', hb⟩

theorem words_joined (ws : List Str) (h : ∀ w ∈ ws, Plain w) : words (joined ws) = ws := by
  have sep : ∀ w, Plain w → ∀ c ∈ w, ¬ separator c = true := by
    intro w hw c hc
    have := hw.2 c hc
    simp [separator, this.1, this.2.1, this.2.2.1]
  induction ws with
  | nil => rfl
  | cons w ws ih =>
    cases ws with
    | nil => exact words_plain w (h w (by simp)).1 (sep w (h w (by simp)))
    | cons r rs =>
      rw [joined, words_append w (h w (by simp)).1 (sep w (h w (by simp))) ',' (by decide),
        ih (fun x hx => h x (by simp [hx]))]

theorem joined_no_null (ws : List Str) (h : ∀ w ∈ ws, Plain w) : '\x00' ∉ joined ws := by
  induction ws with
  | nil => simp [joined]
  | cons w ws ih =>
    have hw : '\x00' ∉ w := fun hm => ((h w (by simp)).2 _ hm).2.2.2 rfl
    cases ws with
    | nil => exact hw
    | cons r rs =>
      rw [joined]
      have := ih (fun x hx => h x (by simp [hx]))
      simp [hw, this]

theorem mem_hits (t : Table) (mask : Long) (k i : Nat) (h1 : i + k ≤ t.names.length)
    (h2 : t.values.length = t.names.length) (j : Nat) (s : Str) (v : Long) :
    (j, s, v) ∈ hits t mask k i ↔ i ≤ j ∧ j < i + k ∧ Row t j s v ∧ mask &&& v ≠ 0 := by
  induction k generalizing i with
  | zero => simp [hits]; omega
  | succ k ih =>
    obtain ⟨s', hs⟩ := get_some (l := t.names) (i := i) (by omega)
    obtain ⟨v', hv⟩ := get_some (l := t.values) (i := i) (by omega)
    unfold hits
    simp only [hs, hv]
    have step : (i ≤ j ∧ j < i + (k + 1) ∧ Row t j s v ∧ mask &&& v ≠ 0) ↔
        ((j = i ∧ s = s' ∧ v = v' ∧ mask &&& v' ≠ 0) ∨
          (i + 1 ≤ j ∧ j < i + 1 + k ∧ Row t j s v ∧ mask &&& v ≠ 0)) := by
      constructor
      · rintro ⟨a, b, c, d⟩
        rcases Nat.eq_or_lt_of_le a with e | e
        · subst e
          have e1 : s' = s := Option.some.inj (hs.symm.trans c.1)
          have e2 : v' = v := Option.some.inj (hv.symm.trans c.2)
          subst e1; subst e2
          exact .inl ⟨rfl, rfl, rfl, d⟩
        · exact .inr ⟨by omega, by omega, c, d⟩
      · rintro (⟨rfl, rfl, rfl, d⟩ | ⟨a, b, c, d⟩)
        · exact ⟨by omega, by omega, ⟨hs, hv⟩, d⟩
        · exact ⟨by omega, by omega, c, d⟩
    rw [step]
    split
    · rename_i c
      rw [List.mem_cons, ih (i + 1) (by omega)]
      simp only [Prod.mk.injEq]
      constructor
      · rintro (⟨a, b, d⟩ | a)
        · exact .inl ⟨a, b, d, c⟩
        · exact .inr a
      · rintro (⟨a, b, d, _⟩ | a)
        · exact .inl ⟨a, b, d⟩
        · exact .inr a
    · rename_i c
      rw [ih (i + 1) (by omega)]
      constructor
      · exact .inr
      · rintro (⟨_, _, _, d⟩ | a)
        · exact absurd d c
        · exact a

theorem union_bit (vs : List Long) (j : Nat) :
    (union vs).getLsbD j = true ↔ ∃ v ∈ vs, v.getLsbD j = true := by
  induction vs with
  | nil => simp [union]
  | cons v vs ih =>
    rw [show union (v :: vs) = v ||| union vs from rfl, BitVec.getLsbD_or, Bool.or_eq_true, ih]
    simp

theorem and_twoPow_ne (mask : Long) (k : Nat) (hk : k < 64) :
    mask &&& BitVec.twoPow 64 k ≠ 0 ↔ mask.getLsbD k = true := by
  rw [BitVec.and_twoPow]
  split
  · rename_i h
    refine ⟨fun _ => h, fun _ e => ?_⟩
    have := congrArg (fun x : Long => x.getLsbD k) e
    simp [BitVec.getLsbD_twoPow, hk] at this
  · rename_i h; simpa using h

end Xrtm.Names
