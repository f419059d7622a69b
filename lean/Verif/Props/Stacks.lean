import Verif.Proof.StackStore

/-!
# C17: stacks of layers shared by the derivatives
-/

namespace Xrtm.Stacks

open Spec Derivs

/-! ## The chain -/

/-- `build_stack_chain` ends, within `n * n` rounds, never writes past the `n * n` entries of the chain,
and the chain is sound: the single layers, then stacks each of two earlier neighbours, none twice. -/
theorem C17_chain (n m : Nat) (lay : Nat → Nat → Bool) (fuel : Nat) (hf : rounds n ≤ fuel) :
    ∃ c, buildChain n m fuel lay = .ok c ∧ Sound n c ∧ c.length ≤ n * n ∧ duplicates c = 0 := by
  unfold rounds at hf
  obtain ⟨c, h1, h2, _⟩ := buildChain_ok n m lay fuel (by omega)
  exact ⟨c, h1, h2, sound_length h2, duplicates_zero h2⟩

/-- The number of rounds allowed makes no difference to the chain. -/
theorem buildLoop_mono {n m cap : Nat} : ∀ (f : Nat) (c : Chain) (g : Grid) (r : Chain × Grid),
    buildLoop n m cap f c g = .ok r → buildLoop n m cap (f + 1) c g = .ok r := by
  intro f
  induction f with
  | zero =>
    intro c g r h
    unfold buildLoop at h ⊢
    by_cases hb : (bestRow n m g).1 = 0
    · rw [if_pos hb] at h ⊢; exact h
    · rw [if_neg hb] at h; cases h
  | succ f ih =>
    intro c g r h
    unfold buildLoop at h ⊢
    by_cases hb : (bestRow n m g).1 = 0
    · rw [if_pos hb] at h ⊢; exact h
    · rw [if_neg hb] at h ⊢
      dsimp only at h ⊢
      by_cases hl : c.length < cap
      · rw [if_pos hl] at h ⊢; exact ih _ _ _ h
      · rw [if_neg hl] at h; cases h

theorem C17_chain_total (n m : Nat) (lay : Nat → Nat → Bool) (d : Nat) :
    buildChain n m (rounds n + d) lay = buildChain n m (rounds n) lay := by
  induction d with
  | zero => rfl
  | succ d ih =>
    obtain ⟨c, h1, _⟩ := C17_chain n m lay (rounds n + d) (by omega)
    rw [← ih, h1]
    unfold buildChain at h1 ⊢
    cases hb : buildLoop n m (n * n) (rounds n + d) (singles n) (startGrid lay) with
    | error e => rw [hb] at h1; cases h1
    | ok r =>
      rw [← Nat.add_assoc, buildLoop_mono _ _ _ _ hb]
      rw [hb] at h1
      exact h1

/-- Every run of layers without derivatives, of every derivative, is one stack of the chain, and the
grid of stacks leads to it. -/
theorem C17_runs (n m : Nat) (lay : Nat → Nat → Bool) :
    ∃ c, buildChain n m (rounds n) lay = .ok c ∧ ∀ j, j < m → ∀ a b, Run n (fun i => lay i j) a b →
      ∃ (k : Nat) (s : Stack), stackGrid c a b = some k ∧ c[k]? = some s ∧ s.i1 = a ∧ s.i2 = b := by
  obtain ⟨c, h1, h2, _, h4⟩ := buildChain_ok n m lay (rounds n) (by unfold rounds; omega)
  refine ⟨c, h1, fun j hj a b hr => ?_⟩
  obtain ⟨k, s, e1, e2, e3⟩ := h4 j hj a b hr
  exact ⟨k, s, (stackGrid_iff h2 a b k).mpr ⟨s, e1, e2, e3⟩, e1, e2, e3⟩

theorem lookup_of {n m : Nat} {lay : Nat → Nat → Bool} {c : Chain} (h : buildChain n m (rounds n) lay = .ok c) {j : Nat}
    (hj : j < m) {lay' : Nat → Bool} (he : ∀ i, i < n → lay' i = lay i j) : Lookup n lay' c (stackGrid c) := by
  obtain ⟨c', h1, h2, _, h4⟩ := buildChain_ok n m lay (rounds n) (by unfold rounds; omega)
  rw [h] at h1; cases h1
  refine ⟨h2.single, fun a b hr => ?_⟩
  obtain ⟨r1, r2, r3, r4, r5⟩ := hr
  obtain ⟨k, s, e1, e2, e3⟩ := h4 j hj a b ⟨r1, r2, fun i hi hi' => by
      show lay i j = false
      rw [← he i (by omega)]; exact r3 i hi hi', by
      rcases r4 with r4 | r4
      · exact Or.inl r4
      · right; show lay (a - 1) j = true; rw [← he (a - 1) (by omega)]; exact r4, by
      by_cases hb : b + 1 = n
      · exact Or.inl hb
      · rcases r5 with r5 | r5
        · exact Or.inl r5
        · right; show lay (b + 1) j = true; rw [← he (b + 1) (by omega)]; exact r5⟩
  exact ⟨k, s, (stackGrid_iff h2 a b k).mpr ⟨s, e1, e2, e3⟩, e1, e2, e3⟩

/-! ## The totals -/

/-- The downward loop: for every derivative the stacks used are the layers `0 .. n-1` from the top, each
once, varying layers by themselves and the others in whole runs; the first is copied and the others are
added; no `NULL` is followed; with sunlight only each addition has the code of what changes. -/
theorem C17_down (n m : Nat) (hn : 0 < n) (lay : Nat → Nat → Bool) :
    ∃ c, buildChain n m (rounds n) lay = .ok c ∧ ∀ j, j < m → ∃ w,
      walkDown n (fun i => lay i j) (stackGrid c) = .ok w ∧ Tiles c 0 (w.uses.map Use.stack) n ∧
      CopyThenAdd w.uses ∧ ∀ u ∈ w.uses, DownGood n (fun i => lay i j) c u := by
  obtain ⟨c, h1, _⟩ := C17_chain n m lay (rounds n) (Nat.le_refl _)
  exact ⟨c, h1, fun j hj => walkDown_ok (lookup_of h1 hj fun i _ => rfl) hn⟩

theorem beam_eq (lay : Nat → Nat → Bool) (i j : Nat) : beam lay i j = anyIn (fun l => lay l j) 0 (i + 1) := by
  induction i with
  | zero => simp [beam, anyIn]
  | succ i ih =>
    unfold beam
    rw [ih]
    unfold anyIn
    rw [Nat.sub_zero, Nat.sub_zero, ← List.range_eq_range', ← List.range_eq_range', List.range_succ (n := i + 1),
      List.any_append]
    simp

/-- The rows of the layers are the same for all Fourier terms: the terms differ in the surface only. -/
theorem layers_row {F : Type} [Zero F] [DecidableEq F] (x : LinIn F) (flag : Bool) {i : Nat} (hi : i < x.nLayers) (j : Nat) :
    layers x flag i j = layers x true i j := by
  unfold layers
  rw [if_pos hi, if_pos hi]

/-- The upward loop, with sunlight only, for any Fourier term (`flag`), with and without a surface: the
stacks used are the layers from the bottom to the top, each once, and so on as for the downward loop. The
chain is the one built from the flags of Fourier term 0. -/
theorem C17_up {F : Type} [Zero F] [DecidableEq F] (x : LinIn F) (m : Nat) (hn : 0 < x.nLayers) (hs : x.solar = true)
    (ht : x.thermal = false) (flag surface : Bool) :
    ∃ c, buildChain x.nLayers m (rounds x.nLayers) (layers x true) = .ok c ∧ ∀ j, j < m → ∃ w,
      walkUp x.nLayers (fun i => layers x flag i j) (fun i => sources x (layers x flag) i j)
        (layers x flag x.nLayers j) surface (stackGrid c) = .ok w ∧
      Tiles c 0 (w.uses.map Use.stack).reverse x.nLayers ∧
      (if surface then ∀ u ∈ w.uses, isAdd u else CopyThenAdd w.uses) ∧
      ∀ u ∈ w.uses, UpGood x.nLayers (fun i => layers x flag i j) (surface && layers x flag x.nLayers j) c u := by
  obtain ⟨c, h1, _⟩ := C17_chain x.nLayers m (layers x true) (rounds x.nLayers) (Nat.le_refl _)
  refine ⟨c, h1, fun j hj => ?_⟩
  have hsrc : ∀ i, sources x (layers x flag) i j = anyIn (fun l => layers x flag l j) 0 (i + 1) := fun i => by
    unfold sources
    rw [hs, ht, beam_eq]
    simp
  obtain ⟨w, h2, h3, h4, h5⟩ := walkUp_ok (src := fun i => sources x (layers x flag) i j)
    (sfc := layers x flag x.nLayers j) (surface := surface) (sol := True)
    (lookup_of h1 hj fun i hi => layers_row x flag hi j) (fun _ i _ => hsrc i) hn
  exact ⟨w, h2, h3, h4, h5 trivial⟩

/-- With any kind of source the upward loop still follows no `NULL` and uses each layer once. -/
theorem C17_up_layers (n m : Nat) (hn : 0 < n) (lay : Nat → Nat → Bool) (src : Nat → Bool) (sfc surface : Bool) :
    ∃ c, buildChain n m (rounds n) lay = .ok c ∧ ∀ j, j < m → ∃ w,
      walkUp n (fun i => lay i j) src sfc surface (stackGrid c) = .ok w ∧
      Tiles c 0 (w.uses.map Use.stack).reverse n := by
  obtain ⟨c, h1, _⟩ := C17_chain n m lay (rounds n) (Nat.le_refl _)
  refine ⟨c, h1, fun j hj => ?_⟩
  obtain ⟨w, h2, h3, _⟩ := walkUp_ok (sfc := sfc) (surface := surface) (src := src) (sol := False)
    (lookup_of h1 hj fun i _ => rfl) (fun h => h.elim) hn
  exact ⟨w, h2, h3⟩

/-- What it comes to: if adding is associative, the total made of the stacks of any derivative is the
total made by adding the layers `0 .. n-1` one at a time. -/
theorem C17_total {α : Type} (op : α → α → α) (hop : ∀ x y z, op (op x y) z = op x (op y z)) (layer : Nat → α)
    (n m : Nat) (hn : 0 < n) (lay : Nat → Nat → Bool) :
    ∃ c, buildChain n m (rounds n) lay = .ok c ∧ ∃ val : Nat → α,
      (∀ k, k < c.length → Value op layer c k (val k)) ∧
      ∀ j, j < m → ∃ w k ks, walkDown n (fun i => lay i j) (stackGrid c) = .ok w ∧
        w.uses.map Use.stack = k :: ks ∧
        ks.foldl (fun x k => op x (val k)) (val k) = added op layer 0 (n - 1) := by
  obtain ⟨c, h1, h2, _⟩ := C17_chain n m lay (rounds n) (Nat.le_refl _)
  have hex : ∀ k, ∃ x, k < c.length → Value op layer c k x := fun k => by
    by_cases hk : k < c.length
    · obtain ⟨x, hx⟩ := value_exists op layer h2 k _ (List.getElem?_eq_getElem hk)
      exact ⟨x, fun _ => hx⟩
    · exact ⟨layer 0, fun h => absurd h hk⟩
  choose val hval using hex
  refine ⟨c, h1, val, hval, fun j hj => ?_⟩
  obtain ⟨w, w1, w2, w3, _⟩ := walkDown_ok (lookup_of h1 hj fun i _ => rfl) hn
  obtain ⟨k, x, rest, hu, _⟩ := w3
  refine ⟨w, k, rest.map Use.stack, w1, by rw [hu]; rfl, ?_⟩
  rw [hu] at w2
  obtain ⟨s, t1, t2, t3, t4⟩ := w2
  change c[k]? = some s at t1
  have hmem : ∀ (ks : List Nat) (a b : Nat), Tiles c a ks b → ∀ k ∈ ks, k < c.length := by
    intro ks
    induction ks with
    | nil => intro a b _ k hk; cases hk
    | cons k' ks ih =>
      intro a b ht k hk
      obtain ⟨s, g1, _, _, g4⟩ := ht
      rcases List.mem_cons.mp hk with rfl | hk
      · exact lt_of_get g1
      · exact ih _ _ g4 k hk
  rw [value_eq hop h2 (hval k (lt_of_get t1)) s t1, t2]
  obtain ⟨e, f1, f2⟩ := tiles_fold hop h2 (layer := layer) (rest.map Use.stack) 0 (s.i2 - 0) n val
    (fun k' hk' => hval k' (hmem _ _ _ t4 k' hk')) (by rw [show 0 + (s.i2 - 0) + 1 = s.i2 + 1 by omega]; exact t4)
  rw [f1]
  congr 1
  omega

/-- Five layers, two derivatives: layer 2 varies with the first, layer 0 with the second. -/
def someLay : Nat → Nat → Bool := fun i j => (i == 2 && j == 0) || (i == 0 && j == 1)

/-- The runs are `0..1`, `3..4` and `1..4`: three stacks of two and a stack of the last two stacks. -/
example : (match buildChain 5 2 25 someLay with
    | .ok c => c.map (fun s => (s.i1, s.i2)) ==
        [(0, 0), (1, 1), (2, 2), (3, 3), (4, 4), (3, 4), (0, 1), (1, 2), (1, 4)]
    | .error _ => false) = true := by decide +kernel

example : (match buildChain 5 2 25 someLay with
    | .ok c => (match walkDown 5 (fun i => someLay i 0) (stackGrid c) with
        | .ok w => w.uses == [.copy 6 0, .add 2 3, .add 5 13]
        | .error _ => false)
    | .error _ => false) = true := by decide +kernel

example : (match buildChain 5 2 25 someLay with
    | .ok c => (match walkUp 5 (fun i => someLay i 1) (fun _ => true) false true (stackGrid c) with
        | .ok w => w.uses == [.add 8 5, .add 0 13]
        | .error _ => false)
    | .error _ => false) = true := by decide +kernel

/-! ## Taking over the arrays of the last chain -/

/-- No two stacks of a new chain take over the arrays of the same old one, and what is taken over is of
the same layers: so nothing is shared and nothing freed twice. -/
theorem C17_take_over {n : Nat} {old new : Chain} (ho : Sound n old) (hw : Sound n new) {k k' ii : Nat}
    (hk : k < new.length) (hk' : k' < new.length) (h : takeOver (some old) new k = some ii)
    (h' : takeOver (some old) new k' = some ii) : k = k' ∧
      ∃ s t, old[ii]? = some s ∧ new[k]? = some t ∧ s.i1 = t.i1 ∧ s.i2 = t.i2 := by
  have g := List.getElem?_eq_getElem hk
  have g' := List.getElem?_eq_getElem hk'
  unfold takeOver at h h'
  dsimp only at h h'
  rw [getD_of g] at h
  rw [getD_of g'] at h'
  obtain ⟨s, e1, e2, e3⟩ := (find_iff ho _ _ ii).mp h
  obtain ⟨s', f1, f2, f3⟩ := (find_iff ho _ _ ii).mp h'
  rw [e1] at f1; cases f1
  exact ⟨hw.distinct k k' _ _ g g' (by omega) (by omega), s, _, e1, g, e2, e3⟩

/-- A single layer keeps its own place, so the arrays of the layers and those of the joined stacks,
which differ in what is allocated, are not mixed up. -/
theorem C17_take_over_kind {n : Nat} {old new : Chain} (ho : Sound n old) (hw : Sound n new) {k ii : Nat}
    (hk : k < new.length) (h : takeOver (some old) new k = some ii) : k < n ↔ ii < n := by
  obtain ⟨_, s, t, e1, e2, e3, e4⟩ := C17_take_over ho hw hk hk h h
  constructor
  · intro hn
    have := hw.single k hn
    rw [e2] at this; cases this
    have := ho.single k hn
    rw [ho.distinct ii k _ _ e1 this e3 e4]; exact hn
  · intro hn
    have := ho.single ii hn
    rw [e1] at this; cases this
    have := hw.single ii hn
    rw [hw.distinct k ii _ _ e2 this e3.symm e4.symm]; exact hn

example : takeOver (some (singles 2 ++ [⟨0, 1, some (0, 1)⟩])) (singles 2 ++ [⟨0, 1, some (0, 1)⟩]) 2 = some 2 := by
  decide +kernel

/-! ## Filling the chain -/

/-- As long as there is a solution between any two calls of `xrtm_update_varied_layers`, a solution
leaves every stack of the chain holding its layers as they are at the time, whatever was changed and
whatever was taken over from earlier chains. -/
theorem C17_fill_partial (n : Nat) (ops : List Op) (hp : Patient true ops) :
    ∃ s, Store.run n .start (ops ++ [.solve]) = .ok s ∧ UpToDate s :=
  run_ok n (by unfold rounds; omega) ops true .start (start_ok n).1 (fun _ => (start_ok n).2) hp

/-- Three layers, one derivative, of layer 0 or of none. -/
def lay0 (on : Bool) : Nat → Nat → Bool := fun i _ => on && i == 0

/-- A patient program whose second chain takes over stacks of the first and has a new one. -/
example : Patient true [.update 1 (lay0 false), .solve, .change 0, .update 1 (lay0 true)] := by
  simp [Patient]

/-- The same with the update twice (as `doc/xrtm.tex:1727` says to do when the set of varying layers
changes twice). -/
def twice : List Op :=
  [.update 1 (lay0 false), .solve, .change 0, .update 1 (lay0 true), .change 0, .update 1 (lay0 true), .solve]

/-- Then the stack of layers 1 and 2, new in the second chain, is taken over by the third as if it had
been computed: after the solution its matrices have never been written, and the total of the derivative
is made with them. -/
theorem C17_violated_unwritten : ∃ s c, Store.run 3 .start twice = .ok s ∧ s.chain = some c ∧ ∃ w,
    walkDown 3 (fun i => lay0 true i 0) (stackGrid c) = .ok w ∧ ∃ u ∈ w.uses, s.held u.stack = none := by
  have key : (match Store.run 3 .start twice with
      | .ok s => (match s.chain with
          | some c => c == singles 3 ++ [⟨1, 2, some (1, 2)⟩] && s.held 3 == none
          | none => false)
      | .error _ => false) = true := by decide +kernel
  cases hr : Store.run 3 .start twice with
  | error e => rw [hr] at key; cases key
  | ok s =>
    rw [hr] at key
    cases hc : s.chain with
    | none => simp only [hc] at key; cases key
    | some c =>
      simp only [hc, Bool.and_eq_true, beq_iff_eq] at key
      refine ⟨s, c, rfl, hc, ⟨3, true, [.copy 0 3, .add 3 13]⟩, ?_, .add 3 13, by simp, key.2⟩
      rw [key.1]
      decide +kernel

/-- With thermal emission the codes do not look at `derivs.sources`: here only the emission of a layer
has a derivative, its source vectors change, and it is copied without them (code 0), both downward and
upward. -/
def emission : LinIn Int where
  nLayers := 1
  nDerivs := 1
  nElem := 1
  nCoefLayer := fun _ => 1
  nKernels := 0
  nParams := fun _ => 0
  needsFourier := false
  solar := false
  thermal := true
  ltauL := fun _ _ => 0
  omegaL := fun _ _ => 0
  coefL := fun _ _ _ _ => 0
  ampfacL := fun _ _ => 0
  paramsL := fun _ _ _ => 0
  levelsBL := fun _ _ => 1
  surfaceBL := fun _ => 0
  isoTopL := fun _ => 0
  isoBotL := fun _ => 0

theorem C17_violated_thermal : sources emission (layers emission true) 0 0 = true ∧
    ∃ c, buildChain 1 1 (rounds 1) (layers emission true) = .ok c ∧
      (∃ w, walkDown 1 (fun i => layers emission true i 0) (stackGrid c) = .ok w ∧ w.uses = [.copy 0 0]) ∧
      ∃ w, walkUp 1 (fun i => layers emission true i 0) (fun i => sources emission (layers emission true) i 0) false false
        (stackGrid c) = .ok w ∧ w.uses = [.copy 0 0] := by
  refine ⟨by decide +kernel, singles 1, by decide +kernel, ⟨⟨1, true, [.copy 0 0]⟩, by decide +kernel, rfl⟩,
    ⟨0, true, [.copy 0 0]⟩, by decide +kernel, rfl⟩

end Xrtm.Stacks
