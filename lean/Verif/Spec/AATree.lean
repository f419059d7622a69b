import Verif.Model.AATree
import Mathlib.Order.Defs.LinearOrder
import Mathlib.Data.List.Sort

/-!
# What the ordered tree is for

Independent of how it balances: the nodes in order, what the callback must be, what the links must say.
-/

namespace Xrtm.Spec

open AATree T

variable {V K : Type}

/-- The callback orders values by a key. -/
structure Orders [LinearOrder K] (cmp : V → V → Int) (key : V → K) : Prop where
  neg : ∀ x y, cmp x y < 0 ↔ key x < key y
  pos : ∀ x y, cmp x y > 0 ↔ key y < key x

/-- The nodes from left to right. -/
def nodes : T V → List (Addr × V)
  | nil => []
  | node a _ v _ l r => nodes l ++ (a, v) :: nodes r

/-- Keys strictly increase from left to right: no key twice. -/
def Increasing [LinearOrder K] (key : V → K) (es : List (Addr × V)) : Prop :=
  es.Pairwise fun x y => key x.2 < key y.2

/-- Addresses are those of live nodes: all different, none the null node's. -/
def Live (es : List (Addr × V)) : Prop := (es.map Prod.fst).Nodup ∧ 0 ∉ es.map Prod.fst

/-- Every node's `parent` is the node it hangs from; that of the topmost is `p`. -/
def Linked (p : Addr) : T V → Prop
  | nil => True
  | node a _ _ q l r => q = p ∧ Linked a l ∧ Linked a r

/-- Steps from the top to the furthest node. -/
def height : T V → Nat
  | nil => 0
  | node _ _ _ _ l r => max (height l) (height r) + 1

/-- Putting an entry in its place; an entry with the key of another is not taken. -/
def put [LinearOrder K] (key : V → K) (e : Addr × V) : List (Addr × V) → List (Addr × V)
  | [] => [e]
  | y :: ys => if key e.2 < key y.2 then e :: y :: ys else if key e.2 = key y.2 then y :: ys else y :: put key e ys

/-- Insertions one after the other, each with the address `malloc` would give. -/
def insertAll (cmp : V → V → Int) : List (Addr × V) → Tree V → Except Fault (Tree V × List (Option Addr))
  | [], t => .ok (t, [])
  | (a, x) :: rs, t =>
    match t.insert cmp a x with
    | .error f => .error f
    | .ok (t, res) =>
      match insertAll cmp rs t with
      | .error f => .error f
      | .ok (t, out) => .ok (t, res :: out)

end Xrtm.Spec
