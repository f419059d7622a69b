import Verif.Proof.SaveTree
import Verif.Proof.SaveHash

/-!
# C18: results saved for the adjoint are found again

Each place in the nest of calls has its own record as long as no two places asked about have the same hash; the hash keeps loop
indices apart. It does not keep all places apart, and one function does not say which layer it is at.
-/

namespace Xrtm.SaveTree

open Spec AATree

/-- C18, as far as it holds. Any sequence of calls, labels and requests that keeps to its own labels, no deeper than there is
room for, and whose places have different hashes: it ends without fault, each request is answered as the ledger says (made or
found, and whose record), and two answers are the same record exactly if the ledger says so. Missing: places with equal hashes
(`C18_violated_hash`, `C18_violated_join`). -/
theorem C18_records_partial {os : List Op} {l : Ledger} {rs : List (Bool × Place)} (h : Ledger.run os Ledger.start = some (l, rs))
    (hA : ∀ p ∈ asked os Ledger.start, ∀ q ∈ asked os Ledger.start, mark p = mark q → p = q) :
    ∃ (m : State) (f : Place → Addr), run os init = .ok (m, rs.map fun x => (x.1, f x.2)) ∧ m.i = l.here.length ∧
      ∀ x ∈ rs, ∀ y ∈ rs, f x.2 = f y.2 ↔ x.2 = y.2 := by
  obtain ⟨m, f, h1, h2, -, -, h5, -⟩ := run_spec (K := asked os Ledger.start) inv_init hA (by simp [Within, Ledger.start]) (fun _ h => h) h
  refine ⟨m, f, h1, h2.i, fun x hx y hy => ⟨fun he => ?_, fun he => by rw [he]⟩⟩
  obtain ⟨e, e1, e2⟩ := h5 x hx
  obtain ⟨e', e3, e4⟩ := h5 y hy
  rw [← e2, ← e4] at he ⊢
  exact h2.rc.inj e e1 e' e3 he

/-- A string from ASCII text, for examples. -/
def str (s : String) : Str := s.toList.map fun c => BitVec.ofNat 8 c.toNat

example : ∃ (m : State) (f : Place → Addr), run [.enc (str "eig"), .enter, .enc (digits 0), .get, .leave, .enc (digits 12), .get, .dec, .enc (digits 0), .get] init =
    .ok (m, [(true, f [str "eig", digits 0]), (true, f [str "eig", digits 12]), (false, f [str "eig", digits 0])]) := by
  have hd : digits 0 = str "0" ∧ digits 12 = str "21" := by
    constructor
    · rw [show (0 : Int) = ((0 : Nat) : Int) from rfl, digits_nat]; rfl
    · rw [show (12 : Int) = ((12 : Nat) : Int) from rfl, digits_nat, if_neg (by decide), digits_nat]; rfl
  rw [hd.1, hd.2]
  obtain ⟨m, f, h, -⟩ := C18_records_partial (os := [.enc (str "eig"), .enter, .enc (str "0"), .get, .leave, .enc (str "21"), .get, .dec, .enc (str "0"), .get])
    (l := ⟨[str "eig", str "0"], [], [([str "eig", str "21"], [str "eig", str "21"]), ([str "eig", str "0"], [str "eig", str "0"])]⟩)
    (rs := [(true, [str "eig", str "0"]), (true, [str "eig", str "21"]), (false, [str "eig", str "0"])]) (by decide) (by decide)
  exact ⟨m, f, h⟩

/-- C18. After such a sequence `save_tree_free` frees every record given out, once, and nothing else. -/
theorem C18_freed {os : List Op} {l : Ledger} {rs : List (Bool × Place)} (h : Ledger.run os Ledger.start = some (l, rs))
    (hA : ∀ p ∈ asked os Ledger.start, ∀ q ∈ asked os Ledger.start, mark p = mark q → p = q) :
    ∃ m out, run os init = .ok (m, out) ∧ (freed m.st.tree).Nodup ∧ ∀ a, a ∈ freed m.st.tree ↔ ∃ x ∈ out, x.2 = a := by
  obtain ⟨m, f, h1, h2, -, -, h5, h6⟩ := run_spec (K := asked os Ledger.start) inv_init hA (by simp [Within, Ledger.start]) (fun _ h => h) h
  have hp : (freed m.st.tree).Perm ((nodes m.st.tree.base).filterMap fun e => if e.2.isProxy then none else some e.2.d) :=
    (C19_empty h2.rc.fit.good).1.filterMap _
  refine ⟨m, _, h1, ?_, ?_⟩
  · rw [hp.nodup_iff]
    have hi : (nodes m.st.tree.base).Pairwise fun x y => x ≠ y :=
      h2.rc.fit.good.inc.imp fun {x y} hlt he => by rw [he] at hlt; exact lt_irrefl _ hlt
    refine List.Pairwise.filterMap _ ?_ (List.Pairwise.and_mem.1 hi)
    rintro x y ⟨hx, hy, hne⟩ a ha b hb rfl
    simp only [Option.ite_none_left_eq_some, Option.some.injEq, Bool.not_eq_true] at ha hb
    obtain ⟨e, e1, e2, e3, e4⟩ := h2.rc.node x hx
    obtain ⟨e', d1, d2, d3, d4⟩ := h2.rc.node y hy
    have := h2.rc.inj e e1 e' d1 (by rw [e3, d3, ha.2, hb.2])
    refine hne (node_unique h2.rc.fit.good.inc hx hy ?_)
    rw [← e2, ← d2, e4.1 ha.1, d4.1 hb.1, this]
  · intro a
    rw [hp.mem_iff]
    simp only [List.mem_filterMap, Option.ite_none_left_eq_some, Option.some.injEq, Bool.not_eq_true, List.mem_map]
    constructor
    · rintro ⟨x, hx, hpx, rfl⟩
      obtain ⟨e, e1, -, e3, -⟩ := h2.rc.node x hx
      rcases h6 e e1 with ⟨e', h, -⟩ | ⟨y, hy, he⟩
      · simp [Ledger.start] at h
      · exact ⟨_, ⟨y, hy, rfl⟩, by simp [he, e3]⟩
    · rintro ⟨-, ⟨y, hy, rfl⟩, rfl⟩
      obtain ⟨e, e1, e2⟩ := h5 y hy
      obtain ⟨x, hx, -, x3, x4⟩ := h2.rc.entry _ (h2.rc.self e e1)
      exact ⟨x, hx, x4.2 rfl, by rw [x3, e2]⟩

example : ∃ m out, run [.enc (str "a"), .get, .enc (str "b"), .proxy (str "shared"), .dec, .enc (str "c"), .proxy (str "shared")] init = .ok (m, out) ∧
    (freed m.st.tree).Nodup ∧ ∀ a, a ∈ freed m.st.tree ↔ ∃ x ∈ out, x.2 = a :=
  C18_freed (l := ⟨[str "a", str "c"], [], [([str "a", str "c"], [str "shared"]), ([str "a", str "b"], [str "shared"]), ([str "shared"], [str "shared"]), ([str "a"], [str "a"])]⟩)
    (rs := [(true, [str "a"]), (true, [str "shared"]), (false, [str "shared"])]) (by decide) (by decide)

/-! ## Which places have different hashes -/

/-- C18. Loop indices with equally many digits never share a record, whatever the labels before and after. -/
theorem C18_index (p s : Place) {i j : Nat} (hi : i < 10 ^ 10) (hl : (digits i).length = (digits j).length)
    (h : mark (p ++ digits i :: s) = mark (p ++ digits j :: s)) : i = j := by
  simp only [mark, List.foldl_append, List.foldl_cons] at h
  have aux : ∀ (s : Place) (h h' : ULong), s.foldl djb2 h = s.foldl djb2 h' → h = h' := by
    intro s
    induction s with
    | nil => exact fun _ _ h => h
    | cons c s ih => exact fun h h' he => djb2_inj (ih _ _ he)
  have h := aux _ _ _ h
  refine digits_inj (djb2_apart (b := 48) hl ((digits_length (by decide) hi).trans (by decide)) ?_ ?_ h)
  · intro c hc
    have := digits_range i c hc
    omega
  · intro c hc
    have := digits_range j c hc
    omega

/-- C18. Loop indices below 79 never share a record, whatever the labels before and after. -/
theorem C18_index_small (p s : Place) {i j : Nat} (hi : i < 79) (hj : j < 79)
    (h : mark (p ++ digits i :: s) = mark (p ++ digits j :: s)) : i = j := by
  have h0 := h
  simp only [mark, List.foldl_append, List.foldl_cons] at h
  have aux : ∀ (s : Place) (h h' : ULong), s.foldl djb2 h = s.foldl djb2 h' → h = h' := by
    intro s
    induction s with
    | nil => exact fun _ _ h => h
    | cons c s ih => exact fun h h' he => djb2_inj (ih _ _ he)
  have h := congrArg (fun w => BitVec.toNat w % 32) (aux _ _ _ h)
  simp only [djb2_mod] at h
  have one : ∀ n : Nat, n < 10 → (digits n).length = 1 ∧ ((digits n).map BitVec.toNat).sum = 48 + n := by
    intro n hn
    rw [digits_nat, if_pos (by omega)]
    simp [BitVec.toNat_ofNat]
    omega
  have two : ∀ n : Nat, 10 ≤ n → n < 100 → (digits n).length = 2 ∧ ((digits n).map BitVec.toNat).sum = 96 + (n % 10 + n / 10) := by
    intro n h1 h2
    rw [digits_nat, if_neg (by omega), digits_nat, if_pos (by omega)]
    simp [BitVec.toNat_ofNat]
    omega
  by_cases h1 : i < 10 <;> by_cases h2 : j < 10
  · exact C18_index p s (by omega) ((one i h1).1.trans (one j h2).1.symm) h0
  · rw [(one i h1).2, (two j (by omega) (by omega)).2] at h
    have : j % 10 + j / 10 ≤ 15 := by omega
    generalize j % 10 + j / 10 = k at *
    omega
  · rw [(two i (by omega) (by omega)).2, (one j h2).2] at h
    have : i % 10 + i / 10 ≤ 15 := by omega
    generalize i % 10 + i / 10 = k at *
    omega
  · exact C18_index p s (by omega) ((two i (by omega) (by omega)).1.trans (two j (by omega) (by omega)).1.symm) h0

example : mark [str "add", digits (9 : Nat), str "r"] ≠ mark [str "add", digits (10 : Nat), str "r"] := fun h => by
  have := C18_index_small [str "add"] [str "r"] (i := 9) (j := 10) (by decide) (by decide) h
  omega

example : mark [digits (1234 : Nat)] ≠ mark [digits (4321 : Nat)] := fun h => by
  have := C18_index [] [] (i := 1234) (j := 4321) (by decide) (by
    rw [digits_nat, if_neg (by decide), digits_nat, if_neg (by decide), digits_nat, if_neg (by decide), digits_nat, if_pos (by decide),
      digits_nat, if_neg (by decide), digits_nat, if_neg (by decide), digits_nat, if_neg (by decide), digits_nat, if_pos (by decide)]; rfl) h
  omega

/-- C18. The number fits the sixteen characters of `temp`, with the zero. -/
theorem C18_temp (i : Nat) (h : i < 2 ^ 31) : (digits i).length + 1 ≤ 16 ∧ ∀ c ∈ digits i, c ≠ 0 := by
  refine ⟨by have := digits_length (k := 10) (n := i) (by decide) (by omega); omega, ?_⟩
  rintro c hc rfl
  have := digits_range i 0 hc
  simp at this

example : (digits (2147483647 : Nat)).length + 1 ≤ 16 := (C18_temp 2147483647 (by decide)).1

/-- C18 fails: the ends of labels do not count, so places whose labels join to the same string share a record. -/
theorem C18_violated_join {p q : Place} (h : p.flatten = q.flatten) : mark p = mark q := by
  rw [mark_flatten, mark_flatten, h]

theorem run_append (a b : List Op) (m : State) :
    run (a ++ b) m = (run a m).bind fun x => (run b x.1).bind fun y => .ok (y.1, x.2 ++ y.2) := by
  induction a generalizing m with
  | nil =>
    simp only [List.nil_append, run, Except.bind]
    cases run b m <;> rfl
  | cons o a ih =>
    simp only [List.cons_append, run, bind]
    cases step m o with
    | error e => rfl
    | ok x =>
      simp only [Except.bind, ih]
      cases run a x.1 with
      | error e => rfl
      | ok y =>
        simp only
        cases run b y.1 with
        | error e => rfl
        | ok z => simp

/-- C18 fails: two places are asked about for the first time; the second is given the record of the first. -/
theorem C18_violated_hash :
    (∃ m d, run [.enter, .enc (str "a"), .enc (str "bc"), .get, .leave, .enter, .enc (str "ab"), .enc (str "c"), .get, .leave] init =
      .ok (m, [(true, d), (false, d)])) ∧
    ∃ m d, run [.enter, .enc (str "ab"), .get, .leave, .enter, .enc (str "bA"), .get, .leave] init = .ok (m, [(true, d), (false, d)]) :=
  ⟨⟨_, _, rfl⟩, ⟨_, _, rfl⟩⟩

/-- C18 fails: the 128th label is written beyond the array. -/
theorem C18_violated_depth (s : Str) : run (List.replicate 128 (.enc s)) init = .error .index := by
  have hl : ∀ k ≤ 127, Ledger.run (List.replicate k (.enc s)) Ledger.start = some (⟨List.replicate k s, [], []⟩, []) ∧
      asked (List.replicate k (.enc s)) Ledger.start = [] := by
    have : ∀ k (p : Place), p.length + k ≤ 127 → Ledger.run (List.replicate k (.enc s)) ⟨p, [], []⟩ = some (⟨p ++ List.replicate k s, [], []⟩, []) ∧
        asked (List.replicate k (.enc s)) ⟨p, [], []⟩ = [] := by
      intro k
      induction k with
      | zero => intro p _; simp [Ledger.run, asked]
      | succ k ih =>
        intro p hp
        have := ih (p ++ [s]) (by simp; omega)
        have hlt : p.length < 127 := by omega
        simp [List.replicate_succ, Ledger.run, asked, Ledger.step, hlt, this]
    intro k hk
    have := this k [] (by simpa using hk)
    simpa [Ledger.start] using this
  obtain ⟨h1, h2⟩ := hl 127 le_rfl
  obtain ⟨m, f, h3, h4, -⟩ := run_spec (K := asked (List.replicate 127 (.enc s)) Ledger.start) inv_init (by rw [h2]; simp [Apart])
    (by simp [Within, Ledger.start]) (fun _ h => h) h1
  have hsplit : List.replicate 128 (Op.enc s) = List.replicate 127 (.enc s) ++ [.enc s] := by
    rw [show 128 = 127 + 1 from rfl, List.replicate_succ']
  have hi : m.i = 127 := by rw [h4.i]; simp
  have hstep : step m (.enc s) = .error .index := by
    have hnot : ¬ m.i + 1 < capacity := by rw [hi]; decide
    simp only [step, encode, h4.hashAt, bind, Except.bind, if_neg hnot]
  rw [hsplit, run_append, h3]
  simp [Except.bind, run, hstep, bind]

/-! ## The layers of `get_local_r_t_u_w_all` -/

theorem ledger_run_append (a b : List Op) (l : Ledger) :
    Ledger.run (a ++ b) l = (Ledger.run a l).bind fun x => (Ledger.run b x.1).map fun y => (y.1, x.2 ++ y.2) := by
  induction a generalizing l with
  | nil =>
    simp only [List.nil_append, Ledger.run, Option.bind_some]
    cases Ledger.run b l <;> rfl
  | cons o a ih =>
    simp only [List.cons_append, Ledger.run]
    cases l.step o with
    | none => rfl
    | some x =>
      simp only [ih]
      cases Ledger.run a x.1 with
      | none => rfl
      | some y =>
        simp only [Option.bind_some]
        cases Ledger.run b y.1 with
        | none => rfl
        | some z => simp

theorem asked_append {a b : List Op} {l l' : Ledger} {rs : List (Bool × Place)} (h : Ledger.run a l = some (l', rs)) :
    asked (a ++ b) l = asked a l ++ asked b l' := by
  induction a generalizing l rs with
  | nil =>
    obtain ⟨rfl, rfl⟩ := Prod.mk.inj (Option.some.inj h)
    simp [asked]
  | cons o a ih =>
    simp only [Ledger.run] at h
    cases hs : l.step o with
    | none => simp [hs] at h
    | some x =>
      rw [hs] at h
      simp only at h
      cases hr : Ledger.run a x.1 with
      | none => simp [hr] at h
      | some y =>
        rw [hr] at h
        obtain ⟨rfl, rfl⟩ := Prod.mk.inj (Option.some.inj h)
        rw [List.cons_append, asked_cons (r := x.2) hs, asked_cons (os := a) (r := x.2) hs, ih hr, List.append_assoc]

/-- The body of the loop at one layer. -/
def body (inner : Str) (i : Nat) : List Op := recode (digits i) (i == 0) ++ [.enter, .enc inner, .get, .leave]

theorem loop_ledger (name inner : Str) (n : Nat) :
    Ledger.run ((List.range n).flatMap (body inner)) ⟨[name], [[]], []⟩ =
      some (⟨if n = 0 then [name] else [name, digits (n - 1 : Nat)], [[]], (List.range n).reverse.map fun (i : Nat) => ([name, digits i, inner], [name, digits i, inner])⟩,
        (List.range n).map fun (i : Nat) => (true, [name, digits i, inner])) ∧
    asked ((List.range n).flatMap (body inner)) ⟨[name], [[]], []⟩ = (List.range n).map fun (i : Nat) => [name, digits i, inner] := by
  induction n with
  | zero => simp [Ledger.run, asked]
  | succ n ih =>
    have hfind : ∀ (h c : _), Ledger.find ⟨h, c, (List.range n).reverse.map fun (i : Nat) => ([name, digits i, inner], [name, digits i, inner])⟩ [name, digits n, inner] = none := by
      intro h c
      simp only [Ledger.find, Option.map_eq_none_iff, List.find?_eq_none, List.mem_map, List.mem_reverse, List.mem_range, decide_eq_true_eq]
      rintro _ ⟨i, hi, rfl⟩ he
      simp only [List.cons.injEq, true_and, and_true] at he
      have := digits_inj he
      omega
    have hbody : Ledger.run (body inner n) ⟨if n = 0 then [name] else [name, digits (n - 1 : Nat)], [[]], (List.range n).reverse.map fun (i : Nat) => ([name, digits i, inner], [name, digits i, inner])⟩ =
        some (⟨[name, digits n], [[]], ([name, digits n, inner], [name, digits n, inner]) :: (List.range n).reverse.map fun (i : Nat) => ([name, digits i, inner], [name, digits i, inner])⟩,
          [(true, [name, digits n, inner])]) ∧
        asked (body inner n) ⟨if n = 0 then [name] else [name, digits (n - 1 : Nat)], [[]], (List.range n).reverse.map fun (i : Nat) => ([name, digits i, inner], [name, digits i, inner])⟩ = [[name, digits n, inner]] := by
      generalize ((List.range n).reverse.map fun (i : Nat) => ([name, digits i, inner], [name, digits i, inner])) = own at hfind ⊢
      rcases Nat.eq_zero_or_pos n with rfl | hn
      · simp only [Nat.cast_zero] at hfind
        simp [body, recode, Ledger.run, Ledger.step, asked, Ledger.get, hfind]
      · have h0 : n ≠ 0 := by omega
        simp [body, recode, Ledger.run, Ledger.step, asked, Ledger.get, h0, hfind]
    rw [List.range_succ, List.flatMap_append, List.flatMap_singleton, ledger_run_append, asked_append ih.1, ih.1, ih.2, Option.bind_some]
    simp only [hbody, Option.map_some]
    simp [List.map_append]

/-- C18. Without SAVE_LOCAL_R_T, up to 79 layers: each layer's request makes a record of its own. -/
theorem C18_local_layers (name inner : Str) {n : Nat} (h0 : 0 < n) (hn : n ≤ 79) :
    ∃ (m : State) (f : Nat → Addr), run (localAll false name inner n) init = .ok (m, (List.range n).map fun i => (true, f i)) ∧ m.i = 0 ∧
      ∀ i < n, ∀ j < n, f i = f j → i = j := by
  obtain ⟨h1, h2⟩ := loop_ledger name inner n
  have hops : localAll false name inner n = [.enter, .enc name] ++ ((List.range n).flatMap (body inner) ++ [.dec, .leave]) := by
    simp [localAll]
    rfl
  have hne : n ≠ 0 := by omega
  have hstart : Ledger.run [.enter, .enc name] Ledger.start = some (⟨[name], [[]], []⟩, []) := by
    simp [Ledger.run, Ledger.step, Ledger.start]
  have hrun : Ledger.run (localAll false name inner n) Ledger.start = some (⟨[], [], (List.range n).reverse.map fun (i : Nat) => ([name, digits i, inner], [name, digits i, inner])⟩,
      (List.range n).map fun (i : Nat) => (true, [name, digits i, inner])) := by
    rw [hops, ledger_run_append, hstart, Option.bind_some, ledger_run_append, h1]
    simp [Ledger.run, Ledger.step, hne]
  have hasked : asked (localAll false name inner n) Ledger.start = (List.range n).map fun (i : Nat) => [name, digits i, inner] := by
    rw [hops, asked_append hstart, asked_append h1, h2]
    simp [asked, Ledger.step, Ledger.start, hne]
  have apart : ∀ i < n, ∀ j < n, mark [name, digits i, inner] = mark [name, digits j, inner] → i = j := fun i hi j hj h =>
    C18_index_small [name] [inner] (by omega) (by omega) h
  obtain ⟨m, f, r1, r2, r3⟩ := C18_records_partial hrun (by
    rw [hasked]
    intro p hp q hq h
    simp only [List.mem_map, List.mem_range] at hp hq
    obtain ⟨i, hi, rfl⟩ := hp
    obtain ⟨j, hj, rfl⟩ := hq
    rw [apart i hi j hj h])
  refine ⟨m, fun i => f [name, digits i, inner], by rw [r1, List.map_map]; rfl, by simpa using r2, ?_⟩
  intro i hi j hj h
  have := (r3 (true, [name, digits i, inner]) (List.mem_map.2 ⟨i, List.mem_range.2 hi, rfl⟩) (true, [name, digits j, inner]) (List.mem_map.2 ⟨j, List.mem_range.2 hj, rfl⟩)).1 h
  simp only [List.cons.injEq, true_and, and_true] at this
  exact digits_inj this

example : ∃ (m : State) (f : Nat → Addr), run (localAll false (str "get_local_r_t_u_w_all") (str "get_local_r_t_u_w") 50) init = .ok (m, (List.range 50).map fun i => (true, f i)) ∧
    m.i = 0 ∧ ∀ i < 50, ∀ j < 50, f i = f j → i = j := C18_local_layers _ _ (by decide) (by decide)

/-- C18 fails: with SAVE_LOCAL_R_T all layers are given the first layer's record. -/
theorem C18_violated_local (name inner : Str) (n : Nat) :
    ∃ m d, run (localAll true name inner (n + 1)) init = .ok (m, (true, d) :: List.replicate n (false, d)) := by
  have hloop : ∀ (k : Nat) (l : Ledger), l.here = [name] → l.find [name, inner] = some [name, inner] →
      Ledger.run ((List.replicate k [Op.enter, .enc inner, .get, .leave]).flatten) l = some (l, List.replicate k (false, [name, inner])) ∧
      ∀ p ∈ asked ((List.replicate k [Op.enter, .enc inner, .get, .leave]).flatten) l, p = [name, inner] := by
    intro k
    induction k with
    | zero => intro l _ _; simp [Ledger.run, asked]
    | succ k ih =>
      intro l hl hf
      have hb : Ledger.run [Op.enter, .enc inner, .get, .leave] l = some (l, [(false, [name, inner])]) := by
        obtain ⟨here, callers, owner⟩ := l
        simp only at hl
        subst hl
        have : Ledger.find ⟨[name, inner], [name] :: callers, owner⟩ [name, inner] = some [name, inner] := hf
        simp [Ledger.run, Ledger.step, Ledger.get, this]
      have hb2 : asked [Op.enter, .enc inner, .get, .leave] l = [[name, inner]] := by
        obtain ⟨here, callers, owner⟩ := l
        simp only at hl
        subst hl
        have : Ledger.find ⟨[name, inner], [name] :: callers, owner⟩ [name, inner] = some [name, inner] := hf
        simp [asked, Ledger.step, Ledger.get, this]
      obtain ⟨i1, i2⟩ := ih l hl hf
      rw [List.replicate_succ, List.flatten_cons, ledger_run_append, asked_append hb, hb, Option.bind_some, i1, hb2]
      refine ⟨by simp [List.replicate_succ], ?_⟩
      intro p hp
      rcases List.mem_append.1 hp with h | h
      · simpa using h
      · exact i2 p h
  have hops : localAll true name inner (n + 1) = [.enter, .enc name, .enter, .enc inner, .get, .leave] ++
      ((List.replicate n [Op.enter, .enc inner, .get, .leave]).flatten ++ [.leave]) := by
    have : ∀ xs : List Nat, xs.flatMap (fun _ => [Op.enter, .enc inner, .get, .leave]) = (List.replicate xs.length [Op.enter, .enc inner, .get, .leave]).flatten := by
      intro xs
      induction xs with
      | nil => rfl
      | cons x xs ih => simp [List.replicate_succ, ih]
    simp only [localAll, if_true, List.nil_append, this, List.length_range, List.replicate_succ, List.flatten_cons]
    simp
  have h1 : Ledger.run [.enter, .enc name, .enter, .enc inner, .get, .leave] Ledger.start =
      some (⟨[name], [[]], [([name, inner], [name, inner])]⟩, [(true, [name, inner])]) := by
    simp [Ledger.run, Ledger.step, Ledger.start, Ledger.get, Ledger.find]
  have h2 : asked [.enter, .enc name, .enter, .enc inner, .get, .leave] Ledger.start = [[name, inner]] := by
    simp [asked, Ledger.step, Ledger.start, Ledger.get, Ledger.find]
  obtain ⟨h3, h4⟩ := hloop n ⟨[name], [[]], [([name, inner], [name, inner])]⟩ rfl (by simp [Ledger.find])
  have hrun : Ledger.run (localAll true name inner (n + 1)) Ledger.start = some (⟨[], [], [([name, inner], [name, inner])]⟩,
      (true, [name, inner]) :: List.replicate n (false, [name, inner])) := by
    rw [hops, ledger_run_append, h1, Option.bind_some, ledger_run_append, h3]
    simp [Ledger.run, Ledger.step]
  have hasked : ∀ p ∈ asked (localAll true name inner (n + 1)) Ledger.start, p = [name, inner] := by
    rw [hops, asked_append h1, asked_append h3, h2]
    intro p hp
    rcases List.mem_append.1 hp with h | h
    · simpa using h
    · rcases List.mem_append.1 h with h | h
      · exact h4 p h
      · simp [asked, Ledger.step] at h
  obtain ⟨m, f, r1, -, -⟩ := C18_records_partial hrun (fun p hp q hq _ => (hasked p hp).trans (hasked q hq).symm)
  exact ⟨m, f [name, inner], by rw [r1]; simp⟩

end Xrtm.SaveTree
