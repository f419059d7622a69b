import Verif.Model.AATree

/-!
# Results saved for the adjoint (`src/xrtm_save_tree.c`)

`save_tree_data` is passed by value: a callee has its own `i`, but the array `hash` and the tree are shared through pointers.
`enter` and `leave` are the copy made by a call and the return from it. Strings are their bytes before the terminating zero.
`malloc` succeeds; addresses are counted up.
-/

namespace Xrtm.SaveTree

open AATree (Addr T Tree)

abbrev ULong := BitVec 64
abbrev Str := List (BitVec 8)

/-- `djb2`, 17-27. -/
def djb2 (hash : ULong) : Str → ULong
  | [] => hash
  | c :: str => djb2 ((hash <<< 5) + hash + c.zeroExtend 64) str

/-- `save_node_data`, `xrtm_save_tree.h:30-34`. -/
structure Node where
  isProxy : Bool
  hash : ULong
  d : Addr
  deriving DecidableEq

/-- `save_tree_comp`, 31-39. -/
def comp (d1 d2 : Node) : Int :=
  if d1.hash < d2.hash then -1 else if d1.hash > d2.hash then 1 else 0

inductive Fault where
  /-- `hash` is indexed outside its 128 entries, or an entry never written is read -/
  | index
  /-- `gaatpos_retrieve(NULL)` -/
  | null
  /-- the tree -/
  | tree (f : AATree.Fault)
  deriving DecidableEq

/-- What is shared: the entries of `hash` written so far, the tree, the next address. -/
structure Store where
  hash : Nat → Option ULong
  tree : Tree Node
  next : Addr

/-- The machine: `i` of the running function, those of its callers. -/
structure State where
  st : Store
  i : Int
  saved : List Int

/-- `save_tree_init`, 59-71. -/
def init : State := ⟨⟨fun k => if k = 0 then some 5381 else none, AATree.create, 1⟩, 0, []⟩

/-- The 128 entries allocated at 63. -/
def capacity : Nat := 128

/-- `d->hash[d->i]`. -/
def hashAt (st : Store) (i : Int) : Except Fault ULong :=
  if 0 ≤ i ∧ i < capacity then
    match st.hash i.toNat with
    | some h => .ok h
    | none => .error .index
  else .error .index

/-- `save_tree_encode_s`, 84-88. -/
def encode (s : Str) (m : State) : Except Fault State := do
  let h ← hashAt m.st m.i
  if m.i + 1 < capacity then
    .ok { m with st := { m.st with hash := fun k => if k = (m.i + 1).toNat then some (djb2 h s) else m.st.hash k }, i := m.i + 1 }
  else .error .index

/-- The loop of `save_tree_encode_i`, 92-106: digits from the last to the first, with C's signed division. -/
def digits (i : Int) : Str :=
  BitVec.ofInt 8 (48 + i.tmod 10) :: if h : i.tdiv 10 = 0 then [] else digits (i.tdiv 10)
termination_by i.natAbs
decreasing_by
  have : i ≠ 0 := by rintro rfl; exact h (by decide)
  rw [Int.natAbs_tdiv]
  exact Nat.div_lt_self (by omega) (by decide)

/-- `save_tree_decode_s`, `_i`, `_i_j`, 121-138. -/
def decode (m : State) : State := { m with i := m.i - 1 }

/-- `gaatpos_retrieve(pos)->d` on the position of a node. -/
def record (t : Tree Node) (pos : Option Addr) : Except Fault Addr :=
  match pos with
  | none => .error .null
  | some a =>
    match AATree.deref a t.base with
    | some (.node _ _ v _ _ _) => .ok v.d
    | _ => .error (.tree .dangling)

def insertNode (v : Node) (st : Store) : Except Fault (Store × Option Addr) :=
  match st.tree.insert comp st.next v with
  | .error f => .error (.tree f)
  | .ok (t, pos) => .ok ({ st with tree := t, next := st.next + 1 }, pos)

/-- `save_tree_data_retrieve`, 171-198: flag and record. -/
def dataRetrieve (hash : ULong) (st : Store) : Except Fault (Store × Bool × Addr) :=
  match AATree.find comp ⟨false, hash, 0⟩ st.tree.base with
  | some a => do
    let v ← record st.tree (some a)
    .ok (st, false, v)
  | none => do
    let d := st.next
    let (st, pos) ← insertNode ⟨false, hash, d⟩ { st with next := st.next + 1 }
    let v ← record st.tree pos
    .ok (st, true, v)

/-- `__save_tree_retrieve_data`, 202-205. -/
def retrieve (m : State) : Except Fault (State × Bool × Addr) := do
  let h ← hashAt m.st m.i
  let (st, f, v) ← dataRetrieve h m.st
  .ok ({ m with st }, f, v)

/-- `__save_tree_retrieve_proxy`, 209-236. -/
def retrieveProxy (s : Str) (m : State) : Except Fault (State × Bool × Addr) := do
  let h ← hashAt m.st m.i
  match AATree.find comp ⟨false, h, 0⟩ m.st.tree.base with
  | some a => do
    let v ← record m.st.tree (some a)
    .ok (m, false, v)
  | none => do
    let (st, f, v) ← dataRetrieve (djb2 5381 s) m.st
    let (st, pos) ← insertNode ⟨true, h, v⟩ st
    let v ← record st.tree pos
    .ok ({ m with st }, f, v)

/-- What functions do with the tree. -/
inductive Op where
  | enc (s : Str)
  | dec
  | enter
  | leave
  | get
  | proxy (s : Str)
  deriving DecidableEq

/-- `save_tree_recode_i`, 151-157, as operations; `recode_s` and `recode_i_j` alike. -/
def recode (s : Str) (flag : Bool) : List Op := (if flag then [] else [.dec]) ++ [.enc s]

def step (m : State) : Op → Except Fault (State × Option (Bool × Addr))
  | .enc s => do .ok (← encode s m, none)
  | .dec => .ok (decode m, none)
  | .enter => .ok ({ m with saved := m.i :: m.saved }, none)
  | .leave =>
    match m.saved with
    | [] => .ok (m, none)
    | i :: is => .ok ({ m with i, saved := is }, none)
  | .get => do
    let (m, r) ← retrieve m
    .ok (m, some r)
  | .proxy s => do
    let (m, r) ← retrieveProxy s m
    .ok (m, some r)

/-- A run and what its retrievals gave, in order. -/
def run : List Op → State → Except Fault (State × List (Bool × Addr))
  | [], m => .ok (m, [])
  | o :: os, m => do
    let (m, r) ← step m o
    let (m, rs) ← run os m
    .ok (m, r.toList ++ rs)

/-- `save_tree_free`, 75-80, with `save_node_free`, 43-55: the records given to `free`, in order. -/
def freed (t : Tree Node) : List Addr :=
  (AATree.empty t.base).filterMap fun e => if e.2.isProxy then none else some e.2.d

/-- `get_local_r_t_u_w_all` with REVERSE_DERIVS, `xrtm_model.c:1905-1983`, as far as it concerns the tree: with
SAVE_LOCAL_R_T the layers are not told apart. `name`, `inner` are the two labels. -/
def localAll (saveLocal : Bool) (name inner : Str) (nLayers : Nat) : List Op :=
  .enter :: .enc name ::
    ((List.range nLayers).flatMap fun (i : Nat) =>
      (if saveLocal then [] else recode (digits i) (i == 0)) ++ [.enter, .enc inner, .get, .leave]) ++
    (if saveLocal then [] else [.dec]) ++ [.leave]

end Xrtm.SaveTree
