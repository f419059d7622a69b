import Verif.Model.Work

/-!
# What a caller of the scratch memory counts on
-/

namespace Xrtm.Work.Spec

open Xrtm.Work

/-- No byte in common. -/
def Apart (b b' : Block) : Prop := b.page ≠ b'.page ∨ b.off + b.len ≤ b'.off ∨ b'.off + b'.len ≤ b.off

/-- The page the block was cut from is still the one `malloc` last gave, and the block lies inside it. -/
def Usable (p : Pages) (b : Block) : Prop :=
  b.page < 1024 ∧ b.off % 16 = 0 ∧ (b.len ≠ 0 → b.gen = p.gen b.page ∧ b.off + b.len ≤ p.bytes b.page)

/-- The objects a caller may write through what it holds: the array; or the table and the arrays in the slots asked for. -/
def slots (slot : Nat → Option Nat) : Nat → List Bool → List (Option Nat)
  | _, [] => []
  | k, f :: fs => if f then slot k :: slots slot (k + 1) fs else slots slot (k + 1) fs

def objects (l : Lists) : Held → List (Option Nat)
  | .one _ a => [some a]
  | .many _ _ tab set => some tab :: slots (l.slot tab) 0 set

/-- The objects in use. -/
def inUse (s : Store) : List (Option Nat) := (s.frames.map Prod.snd).flatten.flatMap (objects s.lists)

/-- The number of slots of a table. -/
def width (w : Sizes) : VType → Nat
  | .derivs => w.nDerivs
  | .layers => w.nLayers
  | .both => w.nLayers * w.nDerivs

/-- What the caller was promised: an array of the size of its type; a table with room for every slot, the slots asked for holding
arrays of the size of their type. -/
def Sized (l : Lists) : Held → Prop
  | .one t a => l.obj a = some (.array (shape1 l.w t))
  | .many t v tab set =>
    l.obj tab = some (.table (width l.w v)) ∧ set.length = width l.w v ∧
      ∀ k, set[k]? = some true → ∃ a, l.slot tab k = some a ∧ l.obj a = some (.array (shape1 l.w t))

/-- The flags go with the table and the count in front of them is right. -/
def Counted (w : Sizes) (v : VType) : Option Flags → Prop
  | none => True
  | some f => f.set.length = width w v ∧ f.count = f.set.count true

/-- Requests as the code makes them. -/
def Proper (w : Sizes) : LOp → Prop
  | .get2 _ v f => v ≠ .both ∧ Counted w v f
  | .get3 _ v f => v = .both ∧ Counted w v f
  | _ => True

end Xrtm.Work.Spec
