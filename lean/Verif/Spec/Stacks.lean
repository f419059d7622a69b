import Verif.Model.Stacks

/-!
# What a chain of stacks should be, stated apart from how it is built

Nothing here refers to the grid, to counting pairs or to the loops.
-/

namespace Xrtm.Stacks.Spec

/-- A chain for `n` layers: the single layers first, then stacks each made of two earlier, adjacent
ones, within the layers, no two the same. -/
structure Sound (n : Nat) (c : Chain) : Prop where
  single : ∀ k : Nat, k < n → c[k]? = some ⟨k, k, none⟩
  ends : ∀ (k : Nat) (s : Stack), c[k]? = some s → s.i1 ≤ s.i2 ∧ s.i2 < n
  joined : ∀ (k : Nat) (s : Stack), n ≤ k → c[k]? = some s → ∃ p q sp sq, s.parts = some (p, q) ∧ p < k ∧ q < k ∧
    c[p]? = some sp ∧ c[q]? = some sq ∧ sp.i1 = s.i1 ∧ sp.i2 + 1 = sq.i1 ∧ sq.i2 = s.i2
  distinct : ∀ (k k' : Nat) (s s' : Stack), c[k]? = some s → c[k']? = some s' → s.i1 = s'.i1 → s.i2 = s'.i2 → k = k'

/-- The layers `a .. b` are all the layers between two that vary, or between one and an end. -/
def Run (n : Nat) (lay : Nat → Bool) (a b : Nat) : Prop :=
  a ≤ b ∧ b < n ∧ (∀ i, a ≤ i → i ≤ b → lay i = false) ∧
    (a = 0 ∨ lay (a - 1) = true) ∧ (b + 1 = n ∨ lay (b + 1) = true)

/-- A layer that varies, by itself, or a whole run of layers that do not. -/
def Whole (n : Nat) (lay : Nat → Bool) (a b : Nat) : Prop :=
  (a = b ∧ b < n ∧ lay a = true) ∨ Run n lay a b

/-- The stacks, in this order, cover `a`, `a + 1`, ... up to but without `b`, each layer once. -/
def Tiles (c : Chain) : Nat → List Nat → Nat → Prop
  | a, [], b => a = b
  | a, k :: ks, b => ∃ s, c[k]? = some s ∧ s.i1 = a ∧ s.i1 ≤ s.i2 ∧ Tiles c (s.i2 + 1) ks b

/-- Whether some layer of `a`, `a + 1`, ... below `b` varies. -/
def anyIn (lay : Nat → Bool) (a b : Nat) : Bool := (List.range' a (b - a)).any lay

/-- 0 or 1. -/
def bin (b : Bool) : Nat := if b then 1 else 0

/-- The code of an addition: whether the matrices and the sources of the upper part, then of the lower
part, change with the derivative. -/
def code (topL topS botL botS : Bool) : Nat := 8 * bin topL + 4 * bin topS + 2 * bin botL + bin botS

/-- Sunlight only: the sources of a layer change if a layer above it or the layer itself varies. Layers
`0 .. a-1` on top of layers `a .. b`. -/
def downNeed (lay : Nat → Bool) (a b : Nat) : Nat :=
  code (anyIn lay 0 a) (anyIn lay 0 a) (anyIn lay a (b + 1)) (anyIn lay 0 (b + 1))

/-- Layers `a .. b` on top of layers `b+1 .. n-1` and, if `sfc`, of a surface that varies. -/
def upNeed (n : Nat) (lay : Nat → Bool) (sfc : Bool) (a b : Nat) : Nat :=
  code (anyIn lay a (b + 1)) (anyIn lay 0 (b + 1)) (anyIn lay (b + 1) n || sfc) (anyIn lay 0 n || sfc)

/-- Layers `a .. b` by themselves. -/
def copyNeed (lay : Nat → Bool) (a b : Nat) : Nat := code false false (anyIn lay a (b + 1)) (anyIn lay 0 (b + 1))

/-- Each stack used is a varying layer or a whole run, and the code is the one for what is above it, it
and what is below it. -/
def DownGood (n : Nat) (lay : Nat → Bool) (c : Chain) (u : Use) : Prop :=
  ∃ s, c[u.stack]? = some s ∧ Whole n lay s.i1 s.i2 ∧
    match u with
    | .copy _ x => x = copyNeed lay s.i1 s.i2
    | .add _ x => x = downNeed lay s.i1 s.i2

def UpGood (n : Nat) (lay : Nat → Bool) (sfc : Bool) (c : Chain) (u : Use) : Prop :=
  ∃ s, c[u.stack]? = some s ∧ Whole n lay s.i1 s.i2 ∧
    match u with
    | .copy _ x => x = copyNeed lay s.i1 s.i2
    | .add _ x => x = upNeed n lay sfc s.i1 s.i2

def isAdd : Use → Prop
  | .copy _ _ => False
  | .add _ _ => True

/-- The first stack is copied and the others are added to it. -/
def CopyThenAdd (us : List Use) : Prop := ∃ k x rest, us = .copy k x :: rest ∧ ∀ u ∈ rest, isAdd u

/-- The value of a stack when adding two neighbours is `op`. -/
inductive Value {α : Type} (op : α → α → α) (layer : Nat → α) (c : Chain) : Nat → α → Prop
  | single (k : Nat) : c[k]? = some ⟨k, k, none⟩ → Value op layer c k (layer k)
  | join (k p q : Nat) (s : Stack) (x y : α) : c[k]? = some s → s.parts = some (p, q) →
      Value op layer c p x → Value op layer c q y → Value op layer c k (op x y)

/-- Layers `a .. a + d` added one at a time. -/
def added {α : Type} (op : α → α → α) (layer : Nat → α) (a : Nat) : Nat → α
  | 0 => layer a
  | d + 1 => op (added op layer a d) (layer (a + d + 1))

/-- The layers of a stack, each as it now is. -/
def current (ver : Nat → Nat) (s : Stack) : List (Nat × Nat) :=
  (List.range' s.i1 (s.i2 + 1 - s.i1)).map fun l => (l, ver l)

/-- Every stack of the chain holds its layers as they now are. -/
def UpToDate (s : Store) : Prop :=
  ∀ c, s.chain = some c → ∀ k st, c[k]? = some st → s.held k = some (current s.ver st)

/-- A program that solves between any two updates of the chain: `solved` says whether it has since the
last one. -/
def Patient : Bool → List Op → Prop
  | _, [] => True
  | b, .change _ :: ops => Patient b ops
  | b, .update _ _ :: ops => b = true ∧ Patient false ops
  | _, .solve :: ops => Patient true ops

end Xrtm.Stacks.Spec
