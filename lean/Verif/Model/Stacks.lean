import Verif.Model.Derivs

/-!
# Stacks of layers that are added once and used by many derivatives

`src/xrtm_stacks.c` (the chain of stacks), `src/xrtm_interface.c:5454-5483` (where it is built) and
`src/xrtm_model.c:2387-2513`, `2935-3250`, `3490-3770` (where it is filled and used), all for
`XRTM_OPTION_STACK_REUSE_ADDING`.

A pointer to a stack is its index in the chain. The fields `count` and `stack`, which only the
printing code in comments reads, are left out, as are the numbers themselves: what a stack holds is
described below by the list of layers that went into it.
-/

namespace Xrtm.Stacks

/-- What can go wrong: a write past the `n_layers * n_layers` entries of the chain, a `NULL` entry of
`stack_grid` followed, a loop that has not ended after the given number of rounds. -/
inductive Fault
  | past
  | null
  | spin
  deriving DecidableEq, Repr

/-- `stack_data` (`src/xrtm_stacks.h`): the layers `i1 .. i2` and the two halves. -/
structure Stack where
  i1 : Nat
  i2 : Nat
  parts : Option (Nat × Nat)
  deriving DecidableEq, Repr

abbrev Chain := List Stack

/-- `grid_data`. The member `s` of a cell that varies is not set. -/
structure Cell where
  varies : Bool
  active : Bool
  s : Nat
  deriving DecidableEq, Repr

/-- Layers by derivatives. -/
abbrev Grid := Nat → Nat → Cell

/-! ## Building the chain -/

/-- `next_layer` (80-90) over the given rows. -/
def nextFrom (g : Grid) (j : Nat) : List Nat → Option Nat
  | [] => none
  | i :: is => if (g i j).varies then none else if (g i j).active then some i else nextFrom g j is

/-- `next_layer(&grid[i], 1, j, n_layers - i)`: the rows below `i`. The C code counts from row `i`. -/
def nextLayer (n : Nat) (g : Grid) (i j : Nat) : Option Nat := nextFrom g j (List.range' (i + 1) (n - (i + 1)))

/-- The locals of `max_set_of_pairs1` (98-112). -/
structure Pairs where
  count : Nat
  cur : Nat × Nat
  maxC : Nat
  max : Nat × Nat
  deriving DecidableEq, Repr

/-- The lines at label `L1` (139-146). -/
def Pairs.close (p : Pairs) : Pairs :=
  if p.count > p.maxC then ⟨0, p.cur, p.count, p.cur⟩ else { p with count := 0 }

/-- Lines 128-137: a column that has the pair `pr`. -/
def Pairs.meet (p : Pairs) (pr : Nat × Nat) : Pairs :=
  if pr = (if p.count = 0 then pr else p.cur) then { p with cur := pr, count := p.count + 1 }
  else p.close

/-- One column (113-146). -/
def pairStep (n : Nat) (g : Grid) (i : Nat) (p : Pairs) (j : Nat) : Pairs :=
  if (g i j).varies then p.close
  else if (g i j).active then
    match nextLayer n g i j with
    | none => p.close
    | some i' => p.meet ((g i j).s, (g i' j).s)
  else p

/-- `max_set_of_pairs1` (98-162) for row `i`: the length of the longest set of columns with the same
pair of stacks and the pair. -/
def maxPairs (n m : Nat) (g : Grid) (i : Nat) : Nat × Nat × Nat :=
  let p := ((List.range m).foldl (pairStep n g i) ⟨0, (0, 0), 0, (0, 0)⟩).close
  (p.maxC, p.max)

/-- The choice of the row (377-394): the first with the greatest count. -/
def bestRow (n m : Nat) (g : Grid) : Nat × Nat × Nat × Nat :=
  (List.range (n - 1)).foldl
    (fun best i => if (maxPairs n m g i).1 > best.1 then ((maxPairs n m g i).1, i, (maxPairs n m g i).2) else best)
    (0, 0, 0, 0)

/-- The test of 264-267 for a column: it holds `s1` in row `i` and `s2` next. The row of `s2`. -/
def pairAt (n : Nat) (g : Grid) (i s1 s2 j : Nat) : Option Nat :=
  if (g i j).active then
    match nextLayer n g i j with
    | none => none
    | some i' =>
        if !(g i j).varies && (g i j).s == s1 && (!(g i' j).varies && (g i' j).s == s2) then some i' else none
  else none

/-- `combine_grid_layers` (245-273): the cells. -/
def combineGrid (n m : Nat) (g : Grid) (i s1 s2 k : Nat) : Grid := fun r j =>
  if j < m then
    match pairAt n g i s1 s2 j with
    | none => g r j
    | some i' =>
        if r = i then { g r j with s := k }
        else if r = i' then { g r j with active := false }
        else g r j
  else g r j

/-- The stack made of two others (252-257). -/
def joinOf (c : Chain) (s1 s2 : Nat) : Stack :=
  ⟨(c.getD s1 ⟨0, 0, none⟩).i1, (c.getD s2 ⟨0, 0, none⟩).i2, some (s1, s2)⟩

/-- The loop of 374-402, at most `fuel` rounds. `cap` is the number of entries of the chain. -/
def buildLoop (n m cap : Nat) : Nat → Chain → Grid → Except Fault (Chain × Grid)
  | fuel, c, g =>
    if (bestRow n m g).1 = 0 then .ok (c, g)
    else match fuel with
      | 0 => .error .spin
      | fuel + 1 =>
        if c.length < cap then
          buildLoop n m cap fuel
            (c ++ [joinOf c (bestRow n m g).2.2.1 (bestRow n m g).2.2.2])
            (combineGrid n m g (bestRow n m g).2.1 (bestRow n m g).2.2.1 (bestRow n m g).2.2.2 c.length)
        else .error .past

/-- The single layers (340-350). -/
def singles (n : Nat) : Chain := (List.range n).map fun i => ⟨i, i, none⟩

/-- The first grid (352-366). -/
def startGrid (lay : Nat → Nat → Bool) : Grid := fun i j => ⟨lay i j, !lay i j, i⟩

/-- `build_stack_chain` (320-424), with the chain of `n * n` entries of `xrtm_interface.c:5455`. -/
def buildChain (n m fuel : Nat) (lay : Nat → Nat → Bool) : Except Fault Chain :=
  match buildLoop n m (n * n) fuel (singles n) (startGrid lay) with
  | .ok (c, _) => .ok c
  | .error e => .error e

/-- `stack_chain_find` (737-748): the first with these ends. -/
def find (c : Chain) (i1 i2 : Nat) : Option Nat := c.findIdx? fun s => s.i1 == i1 && s.i2 == i2

/-- `check_for_duplicates` (280-305): how many lines it prints. -/
def duplicates (c : Chain) : Nat :=
  ((List.range c.length).filter fun i => (c.take i).any fun s =>
    s.i1 == (c.getD i ⟨0, 0, none⟩).i1 && s.i2 == (c.getD i ⟨0, 0, none⟩).i2).length

/-- `d->stack_grid` after `xrtm_interface.c:5473-5480`: the last stack written with these ends. -/
def stackGrid (c : Chain) (i1 i2 : Nat) : Option Nat :=
  (List.range c.length).foldl
    (fun r k => if (c.getD k ⟨0, 0, none⟩).i1 = i1 ∧ (c.getD k ⟨0, 0, none⟩).i2 = i2 then some k else r) none

/-! ## Using the chain -/

/-- What the loops do with a stack: copy it, with the flags given to `layer_copy_all_l` (or, packed the
same way, `d_h` and `d_d` of `layer_copy_ref_l`), or add it, with the code given to `layer_add_all2` or
`layer_add_ref2`. -/
inductive Use
  | copy (k : Nat) (code : Nat)
  | add (k : Nat) (code : Nat)
  deriving DecidableEq, Repr

def Use.stack : Use → Nat
  | .copy k _ => k
  | .add k _ => k

/-- A stack taken from `stack_grid`: following `NULL` is a fault. -/
def taken : Option Nat → Except Fault Nat
  | none => .error .null
  | some k => .ok k

/-- `i1`, `flag2` and what has been done so far. -/
structure Walk where
  i1 : Nat
  flag2 : Bool
  uses : List Use
  deriving DecidableEq, Repr

/-- One row of the downward loop of `get_total_R_T_S_U_W_V_2` (`xrtm_model.c:3622-3693`). -/
def downStep (n : Nat) (lay : Nat → Bool) (sg : Nat → Nat → Option Nat) (w : Walk) (i : Nat) : Except Fault Walk :=
  if lay i && !w.flag2 && i == 0 then .ok ⟨i + 1, true, w.uses ++ [.copy i 3]⟩
  else if lay i && !w.flag2 && i != 0 then do
    let k ← taken (sg w.i1 (i - 1))
    .ok ⟨i + 1, true, w.uses ++ [.copy k 0, .add i 3]⟩
  else if lay i && w.flag2 && i != 0 && i == w.i1 then .ok ⟨i + 1, w.flag2, w.uses ++ [.add i 15]⟩
  else if lay i && w.flag2 && i != 0 && i != w.i1 then do
    let k ← taken (sg w.i1 (i - 1))
    .ok ⟨i + 1, w.flag2, w.uses ++ [.add k 13, .add i 15]⟩
  else if i + 1 == n && !w.flag2 then do
    let k ← taken (sg w.i1 i)
    .ok ⟨i + 1, true, w.uses ++ [.copy k 0]⟩
  else if i + 1 == n && w.flag2 then do
    let k ← taken (sg w.i1 i)
    .ok ⟨i + 1, w.flag2, w.uses ++ [.add k 13]⟩
  else .ok w

/-- The downward loop for one derivative (3617-3770). -/
def walkDown (n : Nat) (lay : Nat → Bool) (sg : Nat → Nat → Option Nat) : Except Fault Walk :=
  (List.range n).foldlM (downStep n lay sg) ⟨0, false, []⟩

/-- `ADDING_x_B` or `ADDING_x_S`, by the flag of the surface (3069, 3087, 3089, 3137). -/
def bySurface (sfc : Bool) (yes no : Nat) : Nat := if sfc then yes else no

/-- One row of the upward loop of `get_total_TOA_R_S_U_V_2` (`xrtm_model.c:3051-3163`). `i1` is kept
one greater than in the C code, where it ends at -1: `w.i1 = i1 + 1`. `sfc` is
`derivs_layers[n_layers][j]`, `src` the flags `derivs_sources`. -/
def upStep (n : Nat) (lay src : Nat → Bool) (sfc surface : Bool) (sg : Nat → Nat → Option Nat) (w : Walk) (i : Nat) :
    Except Fault Walk :=
  if lay i && !w.flag2 && i + 1 == n && !surface then
    .ok ⟨i, true, w.uses ++ [.copy i (2 * (if lay i then 1 else 0) + (if src i then 1 else 0))]⟩
  else if lay i && !w.flag2 && i + 1 == n && surface then
    .ok ⟨i, true, w.uses ++ [.add i (bySurface sfc 15 13)]⟩
  else if lay i && !w.flag2 && i + 1 != n && !surface then do
    let k ← taken (sg (i + 1) (w.i1 - 1))
    .ok ⟨i, true, w.uses ++ [.copy k 1, .add i 13]⟩
  else if lay i && !w.flag2 && i + 1 != n && surface then do
    let k ← taken (sg (i + 1) (w.i1 - 1))
    .ok ⟨i, true, w.uses ++ [.add k (bySurface sfc 7 5), .add i (bySurface sfc 15 13)]⟩
  else if lay i && w.flag2 && i + 1 != n && i + 1 == w.i1 then .ok ⟨i, w.flag2, w.uses ++ [.add i 15]⟩
  else if lay i && w.flag2 && i + 1 != n && i + 1 != w.i1 then do
    let k ← taken (sg (i + 1) (w.i1 - 1))
    .ok ⟨i, w.flag2, w.uses ++ [.add k 7, .add i 15]⟩
  else if i == 0 && !w.flag2 && !surface then do
    let k ← taken (sg i (w.i1 - 1))
    .ok ⟨i, true, w.uses ++ [.copy k 0]⟩
  else if i == 0 && !w.flag2 && surface then do
    let k ← taken (sg i (w.i1 - 1))
    .ok ⟨i, true, w.uses ++ [.add k (bySurface sfc 3 0)]⟩
  else if i == 0 && w.flag2 then do
    let k ← taken (sg i (w.i1 - 1))
    .ok ⟨i, w.flag2, w.uses ++ [.add k 3]⟩
  else .ok w

/-- The upward loop for one derivative (3031-3240). -/
def walkUp (n : Nat) (lay src : Nat → Bool) (sfc surface : Bool) (sg : Nat → Nat → Option Nat) : Except Fault Walk :=
  (List.range n).reverse.foldlM (upStep n lay src sfc surface sg) ⟨n, false, []⟩

/-! ## Filling the chain

One Fourier term. What a stack holds is the list of layers that went into its matrices, each with the
number of times its inputs had been changed by then; `none` is memory that nothing has been written
to. -/

/-- The parts of `xrtm_data` that `build_layer_stacks` and `stack_chain_alloc` read and write. -/
structure Store where
  /-- The chain, or nothing before the first `xrtm_update_varied_layers`. -/
  chain : Option Chain
  /-- `new_[i_four]` of each stack. -/
  fresh : Nat → Bool
  /-- The contents of the matrices of each stack. -/
  held : Nat → Option (List (Nat × Nat))
  /-- How many times the inputs of each layer have been changed. -/
  ver : Nat → Nat
  /-- Whether `layer_R_T_S_U_W_V_resolve` will say that the layer is to be computed. -/
  due : Nat → Bool

/-- After `xrtm_create`: no chain, every layer due. -/
def Store.start : Store := ⟨none, fun _ => true, fun _ => none, fun _ => 0, fun _ => true⟩

/-- A setter for layer `i` with a new value. -/
def Store.change (s : Store) (i : Nat) : Store :=
  { s with ver := fun l => if l = i then s.ver l + 1 else s.ver l, due := fun l => l == i || s.due l }

/-- The stack of the old chain whose arrays stack `k` of the new one takes over, if any. -/
def takeOver (old : Option Chain) (new : Chain) (k : Nat) : Option Nat :=
  match old with
  | none => none
  | some c => find c (new.getD k ⟨0, 0, none⟩).i1 (new.getD k ⟨0, 0, none⟩).i2

/-- `stack_chain_alloc` (`src/xrtm_stacks.c:429-590`) and the change of chain
(`xrtm_interface.c:5460-5472`). -/
def Store.replace (s : Store) (new : Chain) : Store :=
  { s with
    chain := some new
    fresh := fun k => (takeOver s.chain new k).isNone
    held := fun k => match takeOver s.chain new k with
      | some ii => s.held ii
      | none => none }

/-- The contents made of two halves; unwritten memory stays unwritten. -/
def joinHeld : Option (List (Nat × Nat)) → Option (List (Nat × Nat)) → Option (List (Nat × Nat))
  | some a, some b => some (a ++ b)
  | _, _ => none

/-- `touched` of each stack and what the stacks hold, while `build_layer_stacks` runs. -/
structure Fill where
  touched : Nat → Bool
  held : Nat → Option (List (Nat × Nat))

/-- Whether the matrices of stack `k` are computed in this pass (2439, 2463): `use_rebuild_stacks` is 0
(`src/xrtm.h:32`). -/
def computes (s : Store) (n : Nat) (c : Chain) (f : Fill) (k : Nat) : Bool :=
  if k < n then s.due k
  else match (c.getD k ⟨0, 0, none⟩).parts with
    | none => false
    | some (p, q) => f.touched p || f.touched q || s.fresh k

/-- One stack of the loop of `build_layer_stacks` (2434-2506). Without `touched` only the source
vectors are added and the matrices stay as they are (2497-2498). -/
def fillStep (s : Store) (n : Nat) (c : Chain) (f : Fill) (k : Nat) : Fill :=
  { touched := fun x => if x = k then computes s n c f k else f.touched x
    held := fun x =>
      if x = k ∧ computes s n c f k = true then
        (if k < n then some [(k, s.ver k)]
         else match (c.getD k ⟨0, 0, none⟩).parts with
          | none => f.held k
          | some (p, q) => joinHeld (f.held p) (f.held q))
      else f.held x }

/-- `build_layer_stacks` (2387-2513). -/
def Store.build (s : Store) (n : Nat) : Store :=
  match s.chain with
  | none => s
  | some c =>
    { s with
      held := ((List.range c.length).foldl (fillStep s n c) ⟨fun _ => false, s.held⟩).held
      fresh := fun k => if n ≤ k ∧ k < c.length then false else s.fresh k
      due := fun l => if l < n then false else s.due l }

/-- What a program does, seen from here: change the inputs of a layer, have the chain rebuilt for the
layers that now vary, solve. -/
inductive Op
  | change (i : Nat)
  | update (m : Nat) (lay : Nat → Nat → Bool)
  | solve

/-- Enough rounds for the loop of `build_stack_chain` (proved in `C17_chain_total`). -/
def rounds (n : Nat) : Nat := n * n

def Store.step (n : Nat) (s : Store) : Op → Except Fault Store
  | .change i => .ok (s.change i)
  | .update m lay =>
      match buildChain n m (rounds n) lay with
      | .ok c => .ok (s.replace c)
      | .error e => .error e
  | .solve => .ok (s.build n)

def Store.run (n : Nat) : Store → List Op → Except Fault Store
  | s, [] => .ok s
  | s, op :: ops =>
      match s.step n op with
      | .ok s' => Store.run n s' ops
      | .error e => .error e

end Xrtm.Stacks
