import Verif.Proof.Names

/-! # C22, C23: names, indices and masks -/

namespace Xrtm.Names
open Spec

/-! ## C22 -/

/-- Index and name of a row determine each other, in both directions; an index
outside the table has no name, a name outside the table has index -1, and nothing
outside the table is read. -/
theorem C22_index_name (t : Table) (h : Sound t) :
    (∀ (i : Int) (s : Str), indexToName t i = .ok (some s) ↔ 0 ≤ i ∧ nameToIndex t s = .ok i) ∧
    (∀ i : Int, indexToName t i = .ok none ↔ i < 0 ∨ i ≥ t.n) ∧
    (∀ s : Str, nameToIndex t s = .ok (-1) ↔ s ∉ t.names) ∧
    (∀ i : Int, ∃ r, indexToName t i = .ok r) ∧ (∀ s, ∃ r, nameToIndex t s = .ok r) := by
  have key : ∀ s : Str, (s ∉ t.names ∧ nameToIndex t s = .ok (-1)) ∨
      ∃ j : Nat, nameToIndex t s = .ok (j : Int) ∧ t.names[j]? = some s := by
    intro s
    rcases nameToIndexFrom_spec t s t.n 0 (by rw [h.names_length]; omega) with
      ⟨a, b⟩ | ⟨j, a, _, _, d⟩
    · left
      refine ⟨fun hm => ?_, a⟩
      obtain ⟨i, hi, e⟩ := List.getElem_of_mem hm
      exact b i (by omega) (by rw [← h.names_length]; omega) (by simp [hi, e])
    · exact .inr ⟨j, a, d⟩
  have idx : ∀ i : Int, (indexToName t i = .ok none ∧ (i < 0 ∨ i ≥ t.n)) ∨
      ∃ (j : Nat) (s : Str), i = j ∧ indexToName t i = .ok (some s) ∧ t.names[j]? = some s := by
    intro i
    by_cases g : i < 0 ∨ i ≥ t.n
    · left; exact ⟨by simp only [indexToName, if_pos g], g⟩
    · right
      obtain ⟨s, hs⟩ := get_some (l := t.names) (i := i.toNat) (by rw [h.names_length]; omega)
      refine ⟨i.toNat, s, by omega, ?_, hs⟩
      simp only [indexToName, if_neg g, name_some hs, bind, Except.bind]
  refine ⟨fun i s => ⟨fun e => ?_, fun ⟨e0, e⟩ => ?_⟩, fun i => ⟨fun e => ?_, fun e => ?_⟩,
    fun s => ⟨fun e => ?_, fun e => ?_⟩, fun i => ?_, fun s => ?_⟩
  · rcases idx i with ⟨a, _⟩ | ⟨j, s', rfl, a, b⟩
    · rw [a] at e; simp at e
    · rw [a] at e
      simp only [Except.ok.injEq, Option.some.injEq] at e
      subst e
      refine ⟨by omega, ?_⟩
      rcases key s' with ⟨c, _⟩ | ⟨j', c, d⟩
      · exact absurd (List.mem_of_getElem? b) c
      · obtain ⟨_, e1⟩ := List.getElem?_eq_some_iff.1 b
        obtain ⟨_, e2⟩ := List.getElem?_eq_some_iff.1 d
        have := (List.Nodup.getElem_inj_iff h.names_nodup).1 (e1.trans e2.symm)
        rw [c, this]
  · rcases key s with ⟨_, c⟩ | ⟨j', c, d⟩
    · rw [c] at e; simp only [Except.ok.injEq] at e; omega
    · rw [c] at e
      simp only [Except.ok.injEq] at e
      rcases idx i with ⟨_, a⟩ | ⟨j, s', e', a, b⟩
      · obtain ⟨hj, _⟩ := List.getElem?_eq_some_iff.1 d
        rw [h.names_length] at hj; omega
      · have : j = j' := by omega
        subst this
        rw [a, ← Option.some.inj (b.symm.trans d)]
  · rcases idx i with ⟨_, a⟩ | ⟨j, s', rfl, a, b⟩
    · exact a
    · rw [a] at e; simp at e
  · rcases idx i with ⟨a, _⟩ | ⟨j, s', rfl, a, b⟩
    · exact a
    · obtain ⟨hj, _⟩ := List.getElem?_eq_some_iff.1 b
      rw [h.names_length] at hj; omega
  · rcases key s with ⟨c, _⟩ | ⟨j', c, d⟩
    · exact c
    · rw [c] at e; simp only [Except.ok.injEq] at e; omega
  · rcases key s with ⟨_, c⟩ | ⟨j', c, d⟩
    · exact c
    · exact absurd (List.mem_of_getElem? d) e
  · rcases idx i with ⟨a, _⟩ | ⟨j, s', rfl, a, b⟩
    · exact ⟨_, a⟩
    · exact ⟨_, a⟩
  · rcases key s with ⟨_, c⟩ | ⟨j', c, d⟩
    · exact ⟨_, c⟩
    · exact ⟨_, c⟩

/-- Name and value of a row determine each other, in both directions; a value
outside the table has no name, a name outside the table has value -1, and nothing
outside the table is read. -/
theorem C22_name_value (t : Table) (h : Sound t) :
    (∀ (s : Str) (v : Long), valueToName t v = .ok (some s) ↔ s ∈ t.names ∧ nameToValue t s = .ok v) ∧
    (∀ (s : Str) (v : Long), (s ∈ t.names ∧ nameToValue t s = .ok v) ↔ ∃ i, Row t i s v) ∧
    (∀ v : Long, valueToName t v = .ok none ↔ v ∉ t.values) ∧
    (∀ s : Str, s ∉ t.names → nameToValue t s = .ok (-1)) ∧
    (∀ v : Long, ∃ r, valueToName t v = .ok r) ∧ (∀ s, ∃ r, nameToValue t s = .ok r) := by
  have key : ∀ v : Long, (v ∉ t.values ∧ valueToName t v = .ok none) ∨
      ∃ (j : Nat) (s : Str), valueToName t v = .ok (some s) ∧ Row t j s v := by
    intro v
    rcases valueToNameFrom_spec t v t.n 0 (by rw [h.values_length]; omega)
      (by rw [h.names_length, h.values_length]) with ⟨a, b⟩ | ⟨j, s, a, _, _, d⟩
    · left
      refine ⟨fun hm => ?_, a⟩
      obtain ⟨i, hi, e⟩ := List.getElem_of_mem hm
      exact b i (by omega) (by rw [← h.values_length]; omega) (by simp [hi, e])
    · exact .inr ⟨j, s, a, d⟩
  have row : ∀ (s : Str) (v : Long), (s ∈ t.names ∧ nameToValue t s = .ok v) ↔ ∃ i, Row t i s v := by
    intro s v
    rcases nameToValue_cases t h s with ⟨a, _⟩ | ⟨i, w, r, e⟩
    · exact ⟨fun g => absurd g.1 a, fun ⟨i, r⟩ => absurd (List.mem_of_getElem? r.1) a⟩
    · constructor
      · rintro ⟨_, g⟩
        rw [e] at g
        simp only [Except.ok.injEq] at g
        exact ⟨i, g ▸ r⟩
      · rintro ⟨j, r'⟩
        exact ⟨List.mem_of_getElem? r.1, by rw [e, (Row.unique_value h r r').2]⟩
  refine ⟨fun s v => ?_, row, fun v => ⟨fun e => ?_, fun e => ?_⟩, fun s hs => ?_, fun v => ?_,
    fun s => ?_⟩
  · rw [row]
    rcases key v with ⟨a, e⟩ | ⟨j, r, e, d⟩
    · rw [e]
      exact ⟨fun g => by simp at g, fun ⟨i, r⟩ => absurd (List.mem_of_getElem? r.2) a⟩
    · rw [e]
      simp only [Except.ok.injEq, Option.some.injEq]
      constructor
      · rintro rfl; exact ⟨j, d⟩
      · rintro ⟨i, d'⟩; exact (Row.unique_name h d d').2
  · rcases key v with ⟨a, _⟩ | ⟨j, s, a, d⟩
    · exact a
    · rw [a] at e; simp at e
  · rcases key v with ⟨_, a⟩ | ⟨j, s, a, d⟩
    · exact a
    · exact absurd (List.mem_of_getElem? d.2) e
  · rcases nameToValue_cases t h s with ⟨_, a⟩ | ⟨i, w, r, e⟩
    · exact a
    · exact absurd (List.mem_of_getElem? r.1) hs
  · rcases key v with ⟨_, a⟩ | ⟨j, s, a, d⟩
    · exact ⟨_, a⟩
    · exact ⟨_, a⟩
  · rcases nameToValue_cases t h s with ⟨_, a⟩ | ⟨i, w, r, e⟩
    · exact ⟨_, a⟩
    · exact ⟨_, e⟩

/-- Value and index of a row determine each other. -/
theorem C22_index_value (t : Table) (h : Sound t) (i : Nat) (v : Long) :
    (i < t.n ∧ indexToValue t i = .ok v ↔ valueToIndex t v = .ok (i : Int)) ∧
    (valueToIndex t v = .ok (-1) ↔ v ∉ t.values) := by
  have key : (v ∉ t.values ∧ valueToIndex t v = .ok (-1)) ∨
      ∃ j : Nat, valueToIndex t v = .ok (j : Int) ∧ t.values[j]? = some v := by
    rcases valueToIndexFrom_spec t v t.n 0 (by rw [h.values_length]; omega) with
      ⟨a, b⟩ | ⟨j, a, _, _, d⟩
    · left
      refine ⟨fun hm => ?_, a⟩
      obtain ⟨i, hi, e⟩ := List.getElem_of_mem hm
      exact b i (by omega) (by rw [← h.values_length]; omega) (by simp [hi, e])
    · exact .inr ⟨j, a, d⟩
  have idx : ∀ j : Nat, (j < t.n ∧ indexToValue t j = .ok v) ↔ t.values[j]? = some v := by
    intro j
    constructor
    · rintro ⟨hj, e⟩
      obtain ⟨w, hw⟩ := get_some (l := t.values) (i := j) (by rw [h.values_length]; omega)
      rw [indexToValue, if_neg (by omega), Int.toNat_natCast, value_some hw] at e
      simp only [Except.ok.injEq] at e
      rw [hw, e]
    · intro e
      obtain ⟨hj, _⟩ := List.getElem?_eq_some_iff.1 e
      rw [h.values_length] at hj
      exact ⟨hj, by rw [indexToValue, if_neg (by omega), Int.toNat_natCast, value_some e]⟩
  rw [idx i]
  rcases key with ⟨a, e⟩ | ⟨j, e, d⟩
  · rw [e]
    refine ⟨⟨fun g => absurd (List.mem_of_getElem? g) a, fun g => ?_⟩, by simp [a]⟩
    simp only [Except.ok.injEq] at g; omega
  · rw [e]
    refine ⟨⟨fun g => ?_, fun g => ?_⟩, ⟨fun g => ?_, fun g => absurd (List.mem_of_getElem? d) g⟩⟩
    · obtain ⟨_, e1⟩ := List.getElem?_eq_some_iff.1 g
      obtain ⟨_, e2⟩ := List.getElem?_eq_some_iff.1 d
      rw [(List.Nodup.getElem_inj_iff h.values_nodup).1 (e1.trans e2.symm)]
    · simp only [Except.ok.injEq, Nat.cast_inj] at g; rw [← g]; exact d
    · simp only [Except.ok.injEq] at g; omega

theorem sound_of (t : Table) (a : t.names.length = t.n) (b : t.values.length = t.n)
    (c : t.names.Nodup) (d : t.values.Nodup) (e : ∀ s ∈ t.names, Plain s) : Sound t :=
  ⟨a, b, c, d, e⟩

/-- The tables of options, solvers, outputs, kernels and difference methods have
a name and a value in each row, none of them twice. -/
theorem C22_tables :
    Sound optionTable ∧ Sound solverTable ∧ Sound outputTable ∧ Sound kernelTable ∧
      Sound fdMethodTable := by
  refine ⟨sound_of _ ?_ ?_ ?_ ?_ ?_, sound_of _ ?_ ?_ ?_ ?_ ?_, sound_of _ ?_ ?_ ?_ ?_ ?_,
    sound_of _ ?_ ?_ ?_ ?_ ?_, sound_of _ ?_ ?_ ?_ ?_ ?_⟩ <;> decide +kernel

/-- The kernel codes that `kernel_is_valid` accepts are the ones with a name. -/
theorem C22_kernels (k : Nat) (hk : k < 2 ^ 63) :
    kernelIsValid k = true ↔ ∃ s, valueToName kernelTable (BitVec.ofNat 64 k) = .ok (some s) := by
  have h := C22_tables.2.2.2.1
  have hv : (BitVec.ofNat 64 k ∈ kernelTable.values) ↔ k < 11 := by
    constructor
    · intro hm
      have : (kernelTable.values.all fun v => decide (v.toNat < 11)) = true := by decide +kernel
      have := List.all_eq_true.1 this _ hm
      rw [decide_eq_true_eq] at this
      rw [BitVec.toNat_ofNat, Nat.mod_eq_of_lt (by omega)] at this
      exact this
    · intro hk
      have : ∀ k, k < 11 → BitVec.ofNat 64 k ∈ kernelTable.values := by decide +kernel
      exact this k hk
  have hk' : kernelIsValid k = true ↔ k < 11 := by
    simp [kernelIsValid]
  rw [hk', ← hv]
  obtain ⟨_, _, n, _, a, _⟩ := C22_name_value kernelTable h
  obtain ⟨r, hr⟩ := a (BitVec.ofNat 64 k)
  constructor
  · intro hm
    cases r with
    | none => exact absurd hm ((n _).1 hr)
    | some s => exact ⟨s, hr⟩
  · rintro ⟨s, e⟩
    by_contra hm
    rw [(n _).2 hm] at e; simp at e

/-- The list of indices of a mask: the rows the mask has a bit of, in the order
of the table, as many as there is room for; no element after the room is written.
There must be room for one. -/
theorem C22_index_list (t : Table) (h : Sound t) (mask : Long) (b : Buf Int) (length : Nat)
    (h1 : 1 ≤ length) (hc : length ≤ b.cap) :
    ∃ b' : Buf Int, maskToIndexList t mask b length =
        .ok (b', min length (chosen t mask).length) ∧ b'.cap = b.cap ∧
      ∀ j, j < min length (chosen t mask).length →
        b'.cell j = ((chosen t mask)[j]?).map (fun r => (r.1 : Int)) := by
  obtain ⟨b', e1, e2, _, e4⟩ := maskToIndexFrom_spec t mask length t.n 0 0 b
    (by rw [h.names_length]; omega) (by rw [h.names_length, h.values_length]) h1 hc
  rw [hits_chosen t mask h.names_length h.values_length] at e1 e4
  exact ⟨b', by simpa [maskToIndexList] using e1, e2, fun j hj => by simpa using e4 j (by simpa using hj)⟩

theorem C22_value_list (t : Table) (h : Sound t) (mask : Long) (b : Buf Long) (length : Nat)
    (h1 : 1 ≤ length) (hc : length ≤ b.cap) :
    ∃ b' : Buf Long, maskToValueList t mask b length =
        .ok (b', min length (chosen t mask).length) ∧ b'.cap = b.cap ∧
      ∀ j, j < min length (chosen t mask).length →
        b'.cell j = ((chosen t mask)[j]?).map (fun r => r.2.2) := by
  obtain ⟨b', e1, e2, _, e4⟩ := maskToValueFrom_spec t mask length t.n 0 0 b
    (by rw [h.names_length]; omega) (by rw [h.names_length, h.values_length]) h1 hc
  rw [hits_chosen t mask h.names_length h.values_length] at e1 e4
  exact ⟨b', by simpa [maskToValueList] using e1, e2, fun j hj => by simpa using e4 j (by simpa using hj)⟩

/-- Values put together and taken as a `long` are all their bits, as long as none
has bit 31 or higher. -/
theorem C22_value_list_to_mask (vs : List Long) (hv : ∀ v ∈ vs, v.toNat < 2 ^ 31) :
    valueListToMask vs = union vs := by
  have key : ∀ (vs : List Long) (m : Word), m.toNat < 2 ^ 31 → (∀ v ∈ vs, v.toNat < 2 ^ 31) →
      (vs.foldl (fun (m : Word) v => (m.signExtend 64 ||| v).truncate 32) m).signExtend 64 =
        m.zeroExtend 64 ||| union vs := by
    intro vs
    induction vs with
    | nil =>
      intro m hm _
      have : m.msb = false := by rw [BitVec.msb_eq_decide]; simp; omega
      rw [List.foldl_nil, BitVec.signExtend_eq_setWidth_of_msb_false this]
      exact (BitVec.or_zero).symm
    | cons v vs ih =>
      intro m hm hv
      have hb : m.msb = false := by rw [BitVec.msb_eq_decide]; simp; omega
      have h1 := hv v (by simp)
      have e : (m.signExtend 64 ||| v).truncate 32 = m ||| (v.truncate 32 : Word) := by
        rw [BitVec.signExtend_eq_setWidth_of_msb_false hb]
        apply BitVec.eq_of_toNat_eq
        simp only [BitVec.truncate_eq_setWidth, BitVec.toNat_or, BitVec.toNat_setWidth]
        rw [Nat.mod_eq_of_lt (a := m.toNat) (by omega), Nat.mod_eq_of_lt (a := v.toNat) (by omega),
          Nat.mod_eq_of_lt]
        exact lt_trans (Nat.or_lt_two_pow hm h1) (by norm_num)
      rw [List.foldl_cons, e, ih _ ?_ (fun x hx => hv x (by simp [hx]))]
      · rw [show union (v :: vs) = v ||| union vs from rfl, ← BitVec.or_assoc]
        congr 1
        apply BitVec.eq_of_toNat_eq
        simp only [BitVec.truncate_eq_setWidth, BitVec.toNat_or, BitVec.toNat_setWidth]
        rw [Nat.mod_eq_of_lt (a := v.toNat) (by omega), Nat.mod_eq_of_lt (a := m.toNat) (by omega),
          Nat.mod_eq_of_lt]
        exact lt_trans (Nat.or_lt_two_pow hm h1) (by norm_num)
      · rw [BitVec.toNat_or]
        refine Nat.or_lt_two_pow hm ?_
        simp only [BitVec.truncate_eq_setWidth, BitVec.toNat_setWidth]; omega
  rw [valueListToMask, key vs 0 (by decide) hv]
  exact BitVec.zero_or

/-- With no room at all the first index is written all the same, if the mask has
the bit of the first row. -/
theorem C22_violated_no_room (t : Table) (v : Long) (hv : t.values[0]? = some v) (hn : 0 < t.n)
    (mask : Long) (hm : mask &&& v ≠ 0) (b : Buf Int) (hb : b.cap = 0) :
    maskToIndexList t mask b 0 = .error .buffer := by
  obtain ⟨k, hk⟩ : ∃ k, t.n = k + 1 := ⟨t.n - 1, by omega⟩
  simp only [maskToIndexList, hk, maskToIndexFrom, value_some hv, bind, Except.bind, if_pos hm,
    Buf.write, hb, Nat.not_lt_zero, if_false]

/-- The table of inputs: a comma is missing between the last two names. The name
of the last input is read past the end of the table, and so is the table for any
name it does not have; the last but one has the names of both. The values are one
row away from the names. -/
theorem C22_violated_inputs :
    indexToName inputTable 34 = .error .table ∧
    (∀ s, s ∉ inputTable.names → nameToIndex inputTable s = .error .table) ∧
    indexToName inputTable 33 = .ok (some "kernel_params_lkernel_funcs".toList) ∧
    nameToIndex inputTable "kernel_funcs".toList = .error .table ∧
    nameToValue inputTable "doub_d_tau".toList = .ok 2 ∧
    valueToName inputTable 1 = .ok (some []) := by
  have all : ∀ s, s ∉ inputTable.names → nameToIndex inputTable s = .error .table := by
    intro s hs
    have key : ∀ k i, i + k = 34 → nameToIndexFrom inputTable s (k + 1) i = .error .table := by
      intro k
      induction k with
      | zero =>
        intro i hi
        have : i = 34 := by omega
        subst this
        have hn : inputTable.names[34]? = none := List.getElem?_eq_none (by decide +kernel)
        simp only [nameToIndexFrom, Table.name, hn, bind, Except.bind]
      | succ k ih =>
        intro i hi
        have hl : inputTable.names.length = 34 := by decide +kernel
        obtain ⟨r, hr⟩ := get_some (l := inputTable.names) (i := i) (by omega)
        unfold nameToIndexFrom
        simp only [name_some hr, bind, Except.bind]
        rw [if_neg (fun e : r = s => hs (e ▸ List.mem_of_getElem? hr))]
        exact ih (i + 1) (by omega)
    have hn : inputTable.n = 34 + 1 := rfl
    rw [nameToIndex, hn]
    exact key 34 0 rfl
  refine ⟨by decide +kernel, all, by decide +kernel, all _ (by decide +kernel), by decide +kernel,
    by decide +kernel⟩

/-- Every other input has its name. -/
theorem C22_inputs_partial (i : Nat) (h0 : 1 ≤ i) (h : i ≤ 32) :
    ∃ s, indexToName inputTable i = .ok (some s) ∧ Plain s ∧ nameToIndex inputTable s = .ok (i : Int) := by
  have key : ∀ i : Nat, i < 33 → 1 ≤ i → ∃ s ∈ inputTable.names,
      indexToName inputTable i = .ok (some s) ∧ Plain s ∧ nameToIndex inputTable s = .ok (i : Int) := by
    decide +kernel
  obtain ⟨s, _, e⟩ := key i (by omega) h0
  exact ⟨s, e⟩

/-- Built without a Fortran compiler and without EISPACK, the one eigenvalue
solver there is has the name of another, and its own name is unknown. -/
theorem C22_violated_eigen :
    valueToName (eigenRealTable false false) 0 = .ok (some "asymtx".toList) ∧
    nameToValue (eigenRealTable false false) "lapack".toList = .ok (-1) ∧
    nameToValue (eigenRealTable true true) "lapack".toList = .ok 2 := by
  decide +kernel

/-- An unknown name in the list of options of an input file is not refused: the
value -1 for an error is taken for a mask, with all bits. -/
theorem C22_violated_unknown (t : Table) (h : Sound t) (hv : ∀ v ∈ t.values, v.truncate 32 ≠ (0 : Word))
    (ss : List Str) (hs : ∃ s ∈ ss, s ∉ t.names) (o : Long) :
    ∃ m : Long, stringListToMask t ss o = .ok m ∧ ∀ j < 32, m.getLsbD j = true := by
  have grow : ∀ (ss : List Str) (o : Long), (∀ j < 32, o.getLsbD j = true) →
      ∃ m : Long, stringListToMask t ss o = .ok m ∧ ∀ j < 32, m.getLsbD j = true := by
    intro ss
    induction ss with
    | nil => intro o ho; exact ⟨o, rfl, ho⟩
    | cons s ss ih =>
      intro o ho
      have fin : ∀ v : Long, v.truncate 32 ≠ (0 : Word) → nameToValue t s = .ok v →
          ∃ m : Long, stringListToMask t (s :: ss) o = .ok m ∧ ∀ j < 32, m.getLsbD j = true := by
        intro v hv0 e
        simp only [stringListToMask, e, bind, Except.bind]
        rw [if_neg]
        · exact ih _ (fun j hj => by rw [BitVec.getLsbD_or, ho j hj]; rfl)
        · intro hz
          apply hv0
          have := congrArg BitVec.toNat hz
          apply BitVec.eq_of_toNat_eq
          simp only [BitVec.truncate_eq_setWidth, BitVec.toNat_setWidth, BitVec.ofNat_eq_ofNat,
            BitVec.toNat_ofNat] at this ⊢
          omega
      rcases nameToValue_cases t h s with ⟨_, e⟩ | ⟨i, v, r, e⟩
      · exact fin _ (by decide) e
      · exact fin v (hv v (List.mem_of_getElem? r.2)) e
  induction ss generalizing o with
  | nil => simp at hs
  | cons s ss ih =>
    rcases nameToValue_cases t h s with ⟨_, e⟩ | ⟨i, v, r, e⟩
    · simp only [stringListToMask, e, bind, Except.bind]
      rw [if_neg (by decide)]
      apply grow
      intro j hj
      rw [BitVec.getLsbD_or, Bool.or_eq_true]
      right
      revert j
      decide
    · simp only [stringListToMask, e, bind, Except.bind]
      have hv0 := hv v (List.mem_of_getElem? r.2)
      rw [if_neg]
      · apply ih
        obtain ⟨s', hm, hn⟩ := hs
        rcases List.mem_cons.1 hm with rfl | hm
        · exact absurd (List.mem_of_getElem? r.1) hn
        · exact ⟨s', hm, hn⟩
      · intro hz
        apply hv0
        have := congrArg BitVec.toNat hz
        apply BitVec.eq_of_toNat_eq
        simp only [BitVec.truncate_eq_setWidth, BitVec.toNat_setWidth, BitVec.ofNat_eq_ofNat,
          BitVec.toNat_ofNat] at this ⊢
        omega

/-! ## C23 -/

/-- A list of names of the table, none of them with bit 31, gives all bits of
their values; whatever separates and surrounds the names. -/
theorem C23_parse (t : Table) (h : Sound t) (s : Str)
    (hk : ∀ w ∈ words s, ∃ i v, Row t i w v ∧ v.toNat < 2 ^ 31) :
    ∃ vs : List Long, List.Forall₂ (fun w v => ∃ i, Row t i w v) (words s) vs ∧
      nameListToMask t s = .ok (union vs) := by
  obtain ⟨vs, f, e⟩ := orAll_known t h (words s) 0 (by decide) hk
  refine ⟨vs, f, ?_⟩
  rw [nameListToMask, nameListFrom_words t _ s 0 (by omega), e]
  exact congrArg Except.ok BitVec.zero_or

/-- A list with a name that is not in the table is refused. -/
theorem C23_unknown (t : Table) (h : Sound t) (hv : ∀ v ∈ t.values, v.toNat < 2 ^ 32) (s : Str)
    (hk : ∃ w ∈ words s, w ∉ t.names) : nameListToMask t s = .ok (-1) := by
  rw [nameListToMask, nameListFrom_words t _ s 0 (by omega)]
  obtain ⟨w, a, b⟩ := hk
  exact orAll_bad t h hv (words s) 0 ⟨w, a, .inl b⟩

/-- The string the names of a mask are printed to: the names the mask has a bit
of, with commas between them, if and only if there is room for them and the null. -/
theorem C23_print (t : Table) (h : Sound t) (mask : Long) (b : Buf Char) :
    (((joined ((chosen t mask).map (·.2.1))).length < b.cap) →
      ∃ b', maskToNameList t mask b b.cap = .ok b' ∧
        Holds b' (joined ((chosen t mask).map (·.2.1)))) ∧
    (b.cap ≤ (joined ((chosen t mask).map (·.2.1))).length →
      maskToNameList t mask b b.cap = .error .buffer) := by
  have hl : t.values.length = t.names.length := by rw [h.names_length, h.values_length]
  have hc := hits_chosen t mask h.names_length h.values_length
  have tl : ∀ ns : List Str, tailOf false ns = joined ns := by
    intro ns; cases ns <;> simp [tailOf, joined]
  constructor
  · intro hr
    obtain ⟨b', e1, e2, _, e4⟩ := maskToNamesFrom_ok t mask b.cap t.n 0 false 0 b
      (by rw [h.names_length]; omega) hl (le_refl _) (by rw [tl, hc]; simpa using hr)
    rw [tl, hc, Nat.zero_add] at e1
    rw [tl, hc] at e4
    generalize joined ((chosen t mask).map (·.2.1)) = S at hr e1 e4 ⊢
    refine ⟨{ b' with cell := fun j => if j = S.length then some '\x00' else b'.cell j }, ?_,
      by rw [e2]; exact hr, fun i hi => ?_, if_pos rfl⟩
    · simp only [maskToNameList, e1, bind, Except.bind, Buf.write, if_pos (show S.length < b'.cap by omega)]
    · refine Eq.trans (if_neg (by omega)) ?_
      simpa using e4 i hi
  · intro hr
    have noread : ∀ (k i : Nat) (flag : Bool) (n : Nat) (b : Buf Char) (L : Int) (f : Fault),
        i + k ≤ t.names.length → maskToNamesFrom t mask L k i flag n b = .error f → f = .buffer := by
      have wr : ∀ (b : Buf Char) (i : Nat) (c : Char) (f : Fault), b.write i c = .error f → f = .buffer := by
        intro b i c f e
        simp only [Buf.write] at e
        split at e
        · cases e
        · simpa using e.symm
      have ws : ∀ (a : Str) (b : Buf Char) (i : Nat) (f : Fault), writeStr b i a = .error f → f = .buffer := by
        intro a
        induction a with
        | nil => intro b i f e; simp [writeStr] at e
        | cons c cs ih =>
          intro b i f e
          simp only [writeStr, bind, Except.bind] at e
          split at e
          · rename_i e'; simp only [Except.error.injEq] at e; subst e; exact wr _ _ _ _ e'
          · exact ih _ _ _ e
      have sp : ∀ (b : Buf Char) (n : Nat) (L : Int) (a : Str) (f : Fault),
          snprintf b n L a = .error f → f = .buffer := by
        intro b n L a f e
        simp only [snprintf] at e
        split at e
        · cases e
        · simp only [bind, Except.bind] at e
          split at e
          · rename_i e'; simp only [Except.error.injEq] at e; subst e; exact ws _ _ _ _ e'
          · split at e
            · rename_i e'; simp only [Except.error.injEq] at e; subst e; exact wr _ _ _ _ e'
            · cases e
      intro k
      induction k with
      | zero => intro i flag n b L f _ e; simp [maskToNamesFrom] at e
      | succ k ih =>
        intro i flag n b L f hi e
        obtain ⟨s, hs⟩ := get_some (l := t.names) (i := i) (by omega)
        obtain ⟨v, hv⟩ := get_some (l := t.values) (i := i) (by omega)
        unfold maskToNamesFrom at e
        simp only [value_some hv, name_some hs, bind, Except.bind] at e
        by_cases g : mask &&& v = 0
        · simp only [ne_eq, g, not_true, if_false] at e
          exact ih _ _ _ _ _ _ (by omega) e
        · simp only [ne_eq, g, not_false_eq_true, if_true] at e
          cases flag with
          | false =>
            simp only [Bool.false_eq_true, if_false] at e
            split at e
            · rename_i e'; simp only [Except.error.injEq] at e; subst e; exact sp _ _ _ _ _ e'
            · exact ih _ _ _ _ _ _ (by omega) e
          | true =>
            simp only [if_true] at e
            split at e
            · rename_i e'; simp only [Except.error.injEq] at e; subst e; exact sp _ _ _ _ _ e'
            · split at e
              · rename_i e'; simp only [Except.error.injEq] at e; subst e; exact sp _ _ _ _ _ e'
              · exact ih _ _ _ _ _ _ (by omega) e
    simp only [maskToNameList, bind, Except.bind]
    cases e : maskToNamesFrom t mask b.cap t.n 0 false 0 b with
    | error f => rw [noread _ _ _ _ _ _ _ (by rw [h.names_length]; omega) e]
    | ok p =>
      obtain ⟨b', n'⟩ := p
      obtain ⟨q1, q2⟩ := maskToNamesFrom_n t mask b.cap t.n 0 false 0 b b' n'
        (by rw [h.names_length]; omega) hl e
      rw [tl, hc, Nat.zero_add] at q1
      simp only [Buf.write]
      exact if_neg (by omega)

/-- Printed and parsed, a mask of bits of the table is what it was. -/
theorem C23_round_trip (t : Table) (h : Sound t)
    (hb : ∀ v ∈ t.values, ∃ k < 31, v = BitVec.twoPow 64 k) (mask : Long)
    (hm : ∀ j, mask.getLsbD j = true → BitVec.twoPow 64 j ∈ t.values) (b : Buf Char)
    (hr : (joined ((chosen t mask).map (·.2.1))).length < b.cap) :
    ∃ b' s, maskToNameList t mask b b.cap = .ok b' ∧ Holds b' s ∧ '\x00' ∉ s ∧
      nameListToMask t s = .ok mask := by
  have hl : t.values.length = t.names.length := by rw [h.names_length, h.values_length]
  have small : ∀ k, k < 31 → (BitVec.twoPow 64 k).toNat < 2 ^ 31 := by decide
  obtain ⟨b', e1, e2⟩ := (C23_print t h mask b).1 hr
  have hmem : ∀ r ∈ chosen t mask, Row t r.1 r.2.1 r.2.2 ∧ mask &&& r.2.2 ≠ 0 := by
    rintro ⟨j, s, v⟩ hrm
    rw [← hits_chosen t mask h.names_length h.values_length,
      mem_hits t mask t.n 0 (by rw [h.names_length]; omega) hl] at hrm
    exact hrm.2.2
  have pl : ∀ w ∈ (chosen t mask).map (·.2.1), Plain w := by
    intro w hw
    obtain ⟨r, hr1, rfl⟩ := List.mem_map.1 hw
    exact h.plain _ (List.mem_of_getElem? (hmem r hr1).1.1)
  refine ⟨b', _, e1, e2, joined_no_null _ pl, ?_⟩
  obtain ⟨vs, f, g⟩ := C23_parse t h (joined ((chosen t mask).map (·.2.1))) (by
    intro w hw
    rw [words_joined _ pl] at hw
    obtain ⟨r, hr1, rfl⟩ := List.mem_map.1 hw
    have hrow := (hmem r hr1).1
    obtain ⟨k, hk, e⟩ := hb _ (List.mem_of_getElem? hrow.2)
    exact ⟨_, _, hrow, by rw [e]; exact small k hk⟩)
  rw [g]
  congr 1
  rw [words_joined _ pl] at f
  have hvs : vs = (chosen t mask).map (·.2.2) := by
    have : ∀ (l : List (Nat × Str × Long)) (vs : List Long),
        (∀ r ∈ l, Row t r.1 r.2.1 r.2.2) →
        List.Forall₂ (fun w v => ∃ i, Row t i w v) (l.map (·.2.1)) vs → vs = l.map (·.2.2) := by
      intro l
      induction l with
      | nil => intro vs _ f; cases f; rfl
      | cons r l ih =>
        intro vs hl f
        cases f with
        | cons a f =>
          obtain ⟨i, hi⟩ := a
          rw [ih _ (fun x hx => hl x (by simp [hx])) f, List.map_cons,
            (Row.unique_value h hi (hl r (by simp))).2]
    exact this _ _ (fun r hr => (hmem r hr).1) f
  apply BitVec.eq_of_getLsbD_eq
  intro j hj
  rw [Bool.eq_iff_iff, union_bit, hvs]
  constructor
  · rintro ⟨v, hv, hvj⟩
    obtain ⟨r, hr1, rfl⟩ := List.mem_map.1 hv
    obtain ⟨hrow, hne⟩ := hmem r hr1
    obtain ⟨k, hk, e⟩ := hb _ (List.mem_of_getElem? hrow.2)
    rw [e] at hvj hne
    rw [BitVec.getLsbD_twoPow] at hvj
    simp only [Bool.and_eq_true, decide_eq_true_eq] at hvj
    rw [← hvj.2]
    exact (and_twoPow_ne mask k (by omega)).1 hne
  · intro hmj
    have hv := hm j hmj
    obtain ⟨i, hi, e⟩ := List.getElem_of_mem hv
    obtain ⟨s, hs⟩ := get_some (l := t.names) (i := i) (by omega)
    have hrow : Row t i s (BitVec.twoPow 64 j) := ⟨hs, by simp [hi, e]⟩
    refine ⟨BitVec.twoPow 64 j, List.mem_map.2 ⟨(i, s, BitVec.twoPow 64 j), ?_, rfl⟩, ?_⟩
    · rw [← hits_chosen t mask h.names_length h.values_length,
        mem_hits t mask t.n 0 (by rw [h.names_length]; omega) hl]
      exact ⟨by omega, by rw [← h.values_length]; omega, hrow, (and_twoPow_ne mask j hj).2 hmj⟩
    · rw [BitVec.getLsbD_twoPow]; simp [hj]

/-- For solvers: any word of solvers is what it was. -/
theorem C23_solvers (m : Word) (hm : m &&& ~~~SOLVER_ALL = 0) (b : Buf Char) (hr : 128 ≤ b.cap) :
    ∃ b' s, maskToNameList solverTable (m.zeroExtend 64) b b.cap = .ok b' ∧ Holds b' s ∧
      '\x00' ∉ s ∧ nameListToMask solverTable s = .ok (m.zeroExtend 64) := by
  have hbit : ∀ j, m.getLsbD j = true → j < 11 := by
    intro j hj
    by_contra hn
    have hj32 : j < 32 := by
      by_contra g
      rw [BitVec.getLsbD_of_ge _ _ (by omega)] at hj; cases hj
    have := congrArg (fun x : Word => x.getLsbD j) hm
    simp only [BitVec.getLsbD_and, hj, Bool.true_and] at this
    have all : ∀ j, j < 32 → ¬ j < 11 → (~~~SOLVER_ALL).getLsbD j = true := by decide
    rw [all j hj32 hn] at this
    simp at this
  apply C23_round_trip solverTable C22_tables.2.1
  · have : (solverTable.values.all fun v => (List.range 31).any fun k => v == BitVec.twoPow 64 k) = true := by
      decide +kernel
    intro v hv
    obtain ⟨k, hk, e⟩ := List.any_eq_true.1 (List.all_eq_true.1 this v hv)
    exact ⟨k, by simpa using hk, by simpa using e⟩
  · intro j hj
    have : m.getLsbD j = true := by
      rw [show m.zeroExtend 64 = m.setWidth 64 from rfl, BitVec.getLsbD_setWidth] at hj
      simp only [Bool.and_eq_true] at hj
      exact hj.2
    have all : ∀ j, j < 11 → BitVec.twoPow 64 j ∈ solverTable.values := by decide +kernel
    exact all j (hbit j this)
  · refine lt_of_lt_of_le ?_ hr
    have mono : ∀ (l1 l2 : List Str), l1.Sublist l2 → (joined l1).length ≤ (joined l2).length := by
      intro l1 l2 hs
      induction hs with
      | slnil => exact le_refl _
      | cons a hs ih =>
        rename_i l1 l2
        cases l2 with
        | nil => cases hs; simp [joined]
        | cons r rs => rw [joined]; simp; omega
      | cons_cons a hs ih =>
        rename_i l1 l2
        cases l1 with
        | nil =>
          cases l2 with
          | nil => exact le_refl _
          | cons r rs => rw [joined, joined]; simp
        | cons q qs =>
          cases l2 with
          | nil => cases hs
          | cons r rs => rw [joined, joined]; simp at ih ⊢; omega
    have hsub : List.Sublist ((chosen solverTable (m.zeroExtend 64)).map (·.2.1)) solverTable.names := by
      refine (List.filter_sublist.map _).trans ?_
      have : (((List.range solverTable.n).zip (solverTable.names.zip solverTable.values)).map (·.2.1)) =
          solverTable.names := by decide +kernel
      rw [this]
    exact lt_of_le_of_lt (mono _ _ hsub) (by decide +kernel)

/-- Any list of options with "vector" in it is refused, though every name is that
of an option: its value does not fit in an `int`. -/
theorem C23_violated_vector (s : Str) (hs : "vector".toList ∈ words s) :
    nameListToMask optionTable s = .ok (-1) := by
  rw [nameListToMask, nameListFrom_words _ _ s 0 (by omega)]
  have hv : (optionTable.values.all fun v => decide (v.toNat < 2 ^ 32)) = true := by decide +kernel
  refine orAll_bad optionTable C22_tables.1
    (fun v h => of_decide_eq_true (List.all_eq_true.1 hv v h)) (words s) 0
    ⟨_, hs, .inr ⟨31, BitVec.twoPow 64 31, ⟨by decide +kernel, by decide +kernel⟩, by decide +kernel⟩⟩

/-- A buffer the names do not fit in is overrun: nothing is cut off. -/
theorem C23_violated_room (t : Table) (h : Sound t) (mask : Long) (b : Buf Char)
    (hr : b.cap ≤ (joined ((chosen t mask).map (·.2.1))).length) :
    maskToNameList t mask b b.cap = .error .buffer := (C23_print t h mask b).2 hr

/-! ## Examples -/

example : nameListToMask solverTable " eig_add, \tsingle,".toList = .ok 66 := by decide +kernel
example : words " eig_add, \tsingle,".toList = ["eig_add".toList, "single".toList] := by
  simp [words, List.splitOnP_cons, List.splitOnP_nil, separator]
example : nameListToMask optionTable "delta_m,vector".toList = .ok (-1) := by decide +kernel
example : nameListToMask solverTable "eig_ad".toList = .ok (-1) := by decide +kernel
example : (maskToNameList solverTable 3 ⟨16, fun _ => none⟩ 16).toOption.isSome = false := by
  decide +kernel
example : (maskToNameList solverTable 3 ⟨17, fun _ => none⟩ 17).toOption.map
    (fun b => (List.range 17).map b.cell) =
      some ("doub_add,eig_add".toList.map some ++ [some '\x00']) := by decide +kernel
example : stringListToMask solverTable ["eig_ad".toList] 0 = .ok 0xffffffff := by decide +kernel
example : nameToIndex kernelTable "hapke".toList = .ok 7 := by decide +kernel

end Xrtm.Names
