import Verif.Model.SaveTree

/-!
# What the saved results are for

A function's place is the list of labels from the outermost call to it. Each place has one record, made when it is first asked
for. A proxy asks for the record of another place, and makes it that of its own.
-/

namespace Xrtm.Spec

open SaveTree

abbrev Place := List Str

/-- Places of the running function and of its callers; which place's record each place has. -/
structure Ledger where
  here : Place
  callers : List Place
  owner : List (Place × Place)
  deriving DecidableEq

def Ledger.start : Ledger := ⟨[], [], []⟩

def Ledger.find (l : Ledger) (p : Place) : Option Place := (l.owner.find? fun e => e.1 = p).map Prod.snd

/-- The record of a place, made if there is none: was it made, whose is it. -/
def Ledger.get (l : Ledger) (p : Place) : Ledger × Bool × Place :=
  match l.find p with
  | some q => (l, false, q)
  | none => ({ l with owner := (p, p) :: l.owner }, true, p)

/-- One operation. `none` for an operation the discipline forbids: going back beyond the place the function was called at, going
deeper than the 127 labels there is room for, a proxy for its own place. -/
def Ledger.step (l : Ledger) : Op → Option (Ledger × Option (Bool × Place))
  | .enc s => if l.here.length < 127 then some ({ l with here := l.here ++ [s] }, none) else none
  | .dec => if (l.callers.head?.map List.length).getD 0 < l.here.length then some ({ l with here := l.here.dropLast }, none) else none
  | .enter => some ({ l with callers := l.here :: l.callers }, none)
  | .leave =>
    match l.callers with
    | [] => none
    | p :: ps => some ({ l with here := p, callers := ps }, none)
  | .get => let (l', r) := l.get l.here; some (l', some r)
  | .proxy s =>
    if l.here = [s] then none
    else match l.find l.here with
      | some q => some (l, some (false, q))
      | none =>
        let (l', f, q) := l.get [s]
        some ({ l' with owner := (l.here, q) :: l'.owner }, some (f, q))

def Ledger.run : List Op → Ledger → Option (Ledger × List (Bool × Place))
  | [], l => some (l, [])
  | o :: os, l =>
    match l.step o with
    | none => none
    | some (l, r) =>
      match Ledger.run os l with
      | none => none
      | some (l, rs) => some (l, r.toList ++ rs)

/-- What the code uses for a place. -/
def mark (p : Place) : ULong := p.foldl djb2 5381

/-- The places asked about. -/
def asked : List Op → Ledger → List Place
  | [], _ => []
  | o :: os, l =>
    (match o with
      | .get => [l.here]
      | .proxy s => [l.here, [s]]
      | _ => []) ++
    match l.step o with
    | none => []
    | some (l, _) => asked os l

end Xrtm.Spec
