import Verif.Model.Names
import Mathlib.Data.List.Basic
import Mathlib.Data.List.Nodup
import Mathlib.Data.List.SplitOn

/-! # What a table of names and its conversions mean -/

namespace Xrtm.Names.Spec

/-- A name that can stand in a list of names: some characters, none of which is
a comma, a blank, a tab or a null. -/
def Plain (s : Str) : Prop := s ≠ [] ∧ ∀ c ∈ s, c ≠ ',' ∧ c ≠ ' ' ∧ c ≠ '\t' ∧ c ≠ '\x00'

instance (s : Str) : Decidable (Plain s) := inferInstanceAs (Decidable (_ ∧ _))

/-- A table in which nothing is missing and nothing is said twice. -/
structure Sound (t : Table) : Prop where
  names_length : t.names.length = t.n
  values_length : t.values.length = t.n
  names_nodup : t.names.Nodup
  values_nodup : t.values.Nodup
  plain : ∀ s ∈ t.names, Plain s

/-- Name `s` and value `v` are in the same row `i`. -/
def Row (t : Table) (i : Nat) (s : Str) (v : Long) : Prop :=
  t.names[i]? = some s ∧ t.values[i]? = some v

/-- The rows of which the mask has a bit, in the order of the table. -/
def chosen (t : Table) (mask : Long) : List (Nat × Str × Long) :=
  ((List.range t.n).zip (t.names.zip t.values)).filter (fun r => decide (mask &&& r.2.2 ≠ 0))

/-- Names with commas between them. -/
def joined : List Str → Str
  | [] => []
  | [s] => s
  | s :: r :: rs => s ++ ',' :: joined (r :: rs)

/-- The buffer begins with the string `s` and a null. -/
def Holds (b : Buf Char) (s : Str) : Prop :=
  s.length < b.cap ∧ (∀ i, i < s.length → b.cell i = s[i]?) ∧ b.cell s.length = some '\x00'

/-- What separates the words of a list. -/
def separator (c : Char) : Bool := decide (c = ',' ∨ c = ' ' ∨ c = '\t')

/-- The words of a list: what is left between commas, blanks and tabs. -/
def words (s : Str) : List Str := (s.splitOnP separator).filter (fun w => decide (w ≠ []))

/-- All bits of some values. -/
def union (vs : List Long) : Long := vs.foldr (· ||| ·) 0

end Xrtm.Names.Spec
