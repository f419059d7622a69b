/-!
# The ordered tree (`misc/gstruct_aatree.h`)

The `_comp` functions; the `_type` ones differ in comparing with `<` and `>` in place of the callback. A node is its address
and the fields of `struct aatree_node` (85-91); address 0 is `&aatree_null_node`, whose level is 0 and whose children are
itself (132-138). Children are written as subtrees rather than as addresses: each node hangs from one place only.
`malloc` is assumed to succeed, and gives the address the caller of the model passes in.

Writes into the shared null node are not lost: writing its `parent` is harmless (nothing reads it) and is dropped, anything
else that would change it ends in `none`.
-/

namespace Xrtm.AATree

abbrev Addr := Nat

inductive T (V : Type) where
  | nil
  | node (a : Addr) (lv : Nat) (v : V) (p : Addr) (l r : T V)
  deriving DecidableEq

variable {V : Type}

namespace T

def addr : T V → Addr
  | nil => 0
  | node a .. => a

/-- The null node has level 0, 134. -/
def level : T V → Nat
  | nil => 0
  | node _ lv .. => lv

def left : T V → T V
  | nil => nil
  | node _ _ _ _ l _ => l

def right : T V → T V
  | nil => nil
  | node _ _ _ _ _ r => r

/-- `pos->parent = p`. -/
def setParent (p : Addr) : T V → T V
  | nil => nil
  | node a lv v _ l r => node a lv v p l r

/-- `pos->level = lv`. -/
def setLevel (lv : Nat) : T V → Option (T V)
  | nil => none
  | node a _ v p l r => some (node a lv v p l r)

/-- `pos->right = r`. -/
def setRight : T V → T V → Option (T V)
  | nil, nil => some nil
  | nil, node .. => none
  | node a lv v p l _, r => some (node a lv v p l r)

end T

open T

/-- `aatree_rotate_with_left`, 271-284. On the null node itself it writes what is there already. -/
def rotL : T V → Option (T V)
  | nil => some nil
  | node _ _ _ _ nil _ => none
  | node a lv v p (node a1 lv1 v1 _ l1 r1) r => some (node a1 lv1 v1 p l1 (node a lv v a1 (r1.setParent a) r))

/-- `aatree_rotate_with_right`, 288-301. -/
def rotR : T V → Option (T V)
  | nil => some nil
  | node _ _ _ _ _ nil => none
  | node a lv v p l (node a2 lv2 v2 _ l2 r2) => some (node a2 lv2 v2 p (node a lv v a2 l (l2.setParent a)) r2)

/-- `aatree_skew`, 305-311. -/
def skew (t : T V) : Option (T V) :=
  if t.left.level = t.level then rotL t else some t

/-- `aatree_split`, 315-323: on the null node it would raise the null node's level. -/
def split (t : T V) : Option (T V) :=
  if t.right.right.level = t.level then (rotR t).bind fun t => t.setLevel (t.level + 1) else some t

/-- `aatpos_insert_comp`, 377-416: the subtree and what is returned, `none` for `NULL`. -/
def insert (cmp : V → V → Int) (new : Addr) (x : V) : Addr → T V → Option (T V × Option Addr)
  | parent, nil => do
    let t ← skew (node new 1 x parent nil nil)
    let t ← split t
    pure (t, some new)
  | _, node a lv v p l r => do
    let (t, res) ←
      if cmp x v < 0 then do
        let (l, res) ← insert cmp new x a l
        pure (node a lv v p l r, res)
      else if cmp x v > 0 then do
        let (r, res) ← insert cmp new x a r
        pure (node a lv v p l r, res)
      else pure (node a lv v p l r, none)
    let t ← skew t
    let t ← split t
    pure (t, res)

/-- `aatpos_find_comp`, 598-614. -/
def find (cmp : V → V → Int) (x : V) : T V → Option Addr
  | nil => none
  | node a _ v _ l r => if cmp x v < 0 then find cmp x l else if cmp x v > 0 then find cmp x r else some a

/-- `aatpos_find_min`, 625-633. -/
def findMin : T V → Option Addr
  | nil => none
  | node a _ _ _ nil _ => some a
  | node _ _ _ _ l _ => findMin l

/-- `aatpos_find_max`, 644-652. -/
def findMax : T V → Option Addr
  | nil => none
  | node a _ _ _ _ nil => some a
  | node _ _ _ _ _ r => findMax r

/-- `aatpos_count`, 222-235. -/
def count : T V → Nat
  | nil => 0
  | node _ _ _ _ l r => 1 + count l + count r

/-- `aatpos_print`, 246-260: the values in the order they are printed. -/
def print : T V → List V
  | nil => []
  | node _ _ v _ l r => print l ++ v :: print r

/-- `aatpos_empty`, 161-174: the nodes given to `free`, with the values given to the callback, in order. -/
def empty : T V → List (Addr × V)
  | nil => []
  | node a _ v _ l r => empty l ++ empty r ++ [(a, v)]

/-- The node at an address: what a `->` reads. `none` where there is no live node. -/
def deref (a : Addr) : T V → Option (T V)
  | nil => none
  | node b lv v p l r =>
    if b = a then some (node b lv v p l r) else (deref a l).or (deref a r)

/-- What reading through a pointer can meet. -/
inductive Fault where
  /-- a `->` on an address with no live node -/
  | dangling
  /-- a pointer never set -/
  | uninitialised
  /-- the climb does not end -/
  | endless
  /-- the null node is changed -/
  | sentinel
  deriving DecidableEq, Repr

/-- `aatpos_advback_comp`, 751-762, and `aatpos_retback_comp`, 693-704, that differ in the sign they look for. `fuel` bounds
the climb; running out of it is `endless`. -/
def climb (ok : V → V → Bool) (w : T V) : Nat → Addr → Except Fault (Option Addr)
  | 0, _ => .error .endless
  | fuel + 1, a =>
    match deref a w with
    | some (node _ _ v p _ _) =>
      if p = 0 then .ok none
      else match deref p w with
        | some (node _ _ pv _ _ _) => if ok v pv then .ok (some p) else climb ok w fuel p
        | _ => .error .dangling
    | _ => .error .dangling

/-- `aatpos_advance_comp`, 766-775, from the node at `a` of the tree `w`. -/
def advance (cmp : V → V → Int) (w : T V) (a : Addr) : Except Fault (Option Addr) :=
  match deref a w with
  | some (node _ _ _ _ _ nil) => climb (fun v pv => cmp v pv < 0) w (count w) a
  | some (node _ _ _ _ _ r) => .ok (findMin r)
  | _ => .error .dangling

/-- `aatpos_retreat_comp`, 708-717. -/
def retreat (cmp : V → V → Int) (w : T V) (a : Addr) : Except Fault (Option Addr) :=
  match deref a w with
  | some (node _ _ _ _ nil _) => climb (fun v pv => cmp v pv > 0) w (count w) a
  | some (node _ _ _ _ l _) => .ok (findMax l)
  | _ => .error .dangling

/-! ## Deletion -/

/-- `aatpos_rebalance`, 431-448. -/
def rebalance (t : T V) : Option (T V) :=
  if t.left.level + 1 < t.level ∨ t.right.level + 1 < t.level then
    match t with
    | nil => none
    | node a lv v p l r => do
      let r ← if r.level > lv - 1 then r.setLevel (lv - 1) else pure r
      let t ← skew (node a (lv - 1) v p l r)
      let t ← t.setRight (← skew t.right)
      let t ← t.setRight (← t.right.setRight (← skew t.right.right))
      let t ← split t
      t.setRight (← split t.right)
  else pure t

/-- What `tree->dele_node` holds: never set (`aatree_create` does not, 141-157), the null node, or a node with its value;
an address with no live node behind it is `dangling`. -/
inductive Dele (V : Type) where
  | unset
  | null
  | at (a : Addr) (v : V)
  | dangling (a : Addr)

/-- What `aatpos_delete_comp` hands back: the subtree, what is returned, `last_node`, `dele_node`, the value written into
`dele_node` (applied by the caller of the model: nothing reads it before the return), and the node freed. -/
structure Del (V : Type) where
  t : T V
  ret : Bool
  last : Addr
  dele : Dele V
  write : Option (Addr × V)
  freed : Option Addr

/-- `aatpos_delete_comp` after its recursive call, 532-553, in the node at `a` with value `v`; `t` is the node with the
subtree the call left. -/
def deleteEnd (cmp : V → V → Int) (x : V) (a : Addr) (v : V) (t : T V) (d : Del V) : Except Fault (Del V) :=
  if a = d.last then
    match d.dele with
    | .unset => .error .uninitialised
    | .dangling _ => .error .dangling
    | .null => .ok { d with t, ret := false }
    | .at b w =>
      if cmp x w = 0 then .ok { d with t := t.right, ret := true, dele := .null, write := some (b, v), freed := some a }
      else .ok { d with t, ret := false }
  else match rebalance t with
    | some t => .ok { d with t }
    | none => .error .sentinel

/-- `aatpos_delete_comp`, 514-557. -/
def deleteAux (cmp : V → V → Int) (x : V) : Addr → Dele V → T V → Except Fault (Del V)
  | last, dele, nil => .ok ⟨nil, false, last, dele, none, none⟩
  | _, dele, node a lv v p l r =>
    if cmp x v < 0 then
      (deleteAux cmp x a dele l).bind fun d => deleteEnd cmp x a v (node a lv v p d.t r) d
    else
      (deleteAux cmp x a (.at a v) r).bind fun d => deleteEnd cmp x a v (node a lv v p l d.t) d

/-- `dele_node->value = value`. -/
def setVal (a : Addr) (x : V) : T V → T V
  | nil => nil
  | node b lv v p l r => node b lv (if b = a then x else v) p (setVal a x l) (setVal a x r)

/-- The members of `struct aatree_type` (75-83) that calls leave behind. -/
structure Tree (V : Type) where
  base : T V
  dele : Dele V

/-- `aatree_create`, 141-157. -/
def create : Tree V := ⟨nil, .unset⟩

/-- What a pointer kept from an earlier call points at now. -/
def Dele.now (w : T V) : Dele V → Dele V
  | .unset => .unset
  | .null => .null
  | .at a _ | .dangling a =>
    match deref a w with
    | some (node _ _ v _ _ _) => .at a v
    | _ => .dangling a

/-- `aatree_insert_comp`, 420-423. -/
def Tree.insert (cmp : V → V → Int) (new : Addr) (x : V) (t : Tree V) : Except Fault (Tree V × Option Addr) :=
  match AATree.insert cmp new x 0 t.base with
  | some (b, res) => .ok ({ t with base := b }, res)
  | none => .error .sentinel

/-- `aatree_delete_comp`, 561-564. -/
def Tree.delete (cmp : V → V → Int) (x : V) (t : Tree V) : Except Fault (Tree V × Bool) := do
  let d ← deleteAux cmp x 0 (t.dele.now t.base) t.base
  pure (⟨(d.write.map fun w => setVal w.1 w.2 d.t).getD d.t, d.dele⟩, d.ret)

end Xrtm.AATree
