import Mathlib.Data.Nat.Bitwise
import Mathlib.Algebra.Group.Defs

/-!
# Derivative activity tables

`build_derivs_*` and `xrtm_update_varied_layers` (`src/xrtm_interface.c:4935-5450`), `flags_*` and
`derivs_*` (`src/xrtm_utility.c:52-342`). Only comparison with zero is used of the numbers.
Rows are layers `0 .. n-1` and the surface, row `n`. A `uchar` is a natural number below 256.
-/

namespace Xrtm.Derivs

/-- The linearised inputs, and what decides which of them are looked at. -/
structure LinIn (F : Type) where
  nLayers : Nat
  nDerivs : Nat
  nElem : Nat
  nCoefLayer : Nat → Nat
  nKernels : Nat
  /-- `kernel_n_params(kernels[k])` -/
  nParams : Nat → Nat
  /-- `brdf_needs_fourier(kernels, n_kernels)` -/
  needsFourier : Bool
  /-- `XRTM_OPTION_SOURCE_SOLAR`, `XRTM_OPTION_SOURCE_THERMAL` -/
  solar : Bool
  thermal : Bool
  ltauL : Nat → Nat → F
  omegaL : Nat → Nat → F
  coefL : Nat → Nat → Nat → Nat → F
  ampfacL : Nat → Nat → F
  paramsL : Nat → Nat → Nat → F
  levelsBL : Nat → Nat → F
  surfaceBL : Nat → F
  isoTopL : Nat → F
  isoBotL : Nat → F

variable {F : Type} [Zero F] [DecidableEq F] (x : LinIn F)

/-- A loop with early exit over `0 .. n-1`. -/
def anyBelow (p : Nat → Bool) : Nat → Bool
  | 0 => false
  | n + 1 => anyBelow p n || p n

/-- `build_derivs_layers` (4935-4997): `flag = 1` for Fourier term 0, `flag = 0` for the others. -/
def layers (flag : Bool) (i j : Nat) : Bool :=
  if i < x.nLayers then
    decide (x.ltauL i j ≠ 0) || decide (x.omegaL i j ≠ 0) ||
      anyBelow (fun k => anyBelow (fun l => decide (x.coefL i j k l ≠ 0)) (x.nCoefLayer i)) x.nElem
  else
    (flag || x.needsFourier) &&
      anyBelow (fun k => decide (x.ampfacL k j ≠ 0) ||
        anyBelow (fun l => decide (x.paramsL k j l ≠ 0)) (x.nParams k)) x.nKernels

/-- `build_derivs_beam` (5021-5042): `flag` is set on the way down. -/
def beam (lay : Nat → Nat → Bool) : Nat → Nat → Bool
  | 0, j => lay 0 j
  | i + 1, j => beam lay i j || lay (i + 1) j

/-- `build_derivs_thermal` (5046-5067). -/
def thermalT (lay : Nat → Nat → Bool) (i j : Nat) : Bool :=
  if i < x.nLayers then lay i j || decide (x.levelsBL i j ≠ 0) || decide (x.levelsBL (i + 1) j ≠ 0)
  else lay i j || decide (x.surfaceBL j ≠ 0)

/-- `build_derivs_sources` (5071-5088). -/
def sources (lay : Nat → Nat → Bool) (i j : Nat) : Bool :=
  (x.solar && beam lay i j) || (x.thermal && thermalT x lay i j)

/-- `build_derivs_total` (5001-5017). -/
def total (lay src : Nat → Nat → Bool) (j : Nat) : Bool :=
  anyBelow (fun i => lay i j || src i j) (x.nLayers + 1)

/-- The sixteen cases of 5124-5186 (`flag`, `flag2`: layers, sources seen before; then this row), with
the codes of `src/xrtm_adding.h:30-46`. The unwritten value is 255. -/
def downCode : Bool → Bool → Bool → Bool → Nat
  | false, false, false, false => 0
  | false, false, false, true  => 1
  | false, false, true,  false => 2
  | false, false, true,  true  => 3
  | false, true,  false, false => 4
  | false, true,  false, true  => 5
  | false, true,  true,  false => 6
  | false, true,  true,  true  => 7
  | true,  false, false, false => 8
  | true,  false, false, true  => 9
  | true,  false, true,  false => 10
  | true,  false, true,  true  => 11
  | true,  true,  false, false => 12
  | true,  true,  false, true  => 13
  | true,  true,  true,  false => 14
  | true,  true,  true,  true  => 15

/-- `build_derivs_adding_down` (5092-5190); `acc` is the pair `flag, flag2` on entry to row `i`. -/
def addingDown (lay src : Nat → Nat → Bool) (i j : Nat) : Nat :=
  downCode (anyBelow (fun k => lay k j) i) (anyBelow (fun k => src k j) i) (lay i j) (src i j)

/-- The cases of 5228-5283 (this row, then `flag`, `flag2`: what is below). -/
def upCode : Bool → Bool → Bool → Bool → Nat
  | false, false, false, false => 0
  | false, true,  false, false => 4
  | true,  false, false, false => 8
  | true,  true,  false, false => 12
  | false, false, false, true  => 1
  | false, true,  false, true  => 5
  | true,  false, false, true  => 9
  | true,  true,  false, true  => 13
  | false, false, true,  false => 2
  | false, true,  true,  false => 6
  | true,  false, true,  false => 10
  | true,  true,  true,  false => 14
  | false, false, true,  true  => 3
  | false, true,  true,  true  => 7
  | true,  false, true,  true  => 11
  | true,  true,  true,  true  => 15

/-- `build_derivs_adding_up` (5194-5294), the loop from the surface, row `n`, up. -/
def addingUp (n : Nat) (lay src : Nat → Nat → Bool) (i j : Nat) : Nat :=
  upCode (lay i j) (src i j) (anyBelow (fun k => lay (n - k) j) (n - i)) (anyBelow (fun k => src (n - k) j) (n - i))

/-- `build_derivs_stacks` (5298-5341): row 0 is written before the loop; in the loop row `i` looks at
`derivs_layers[i-1]` and at `flag`, which has seen rows `0 .. i-1`. -/
def stackT (lay : Nat → Nat → Bool) (i j : Nat) : Nat :=
  match i with
  | 0 => if lay 0 j then 1 else 0
  | i + 1 =>
      match lay i j, anyBelow (fun k => lay k j) (i + 1) with
      | false, false => 0
      | true, false => 1
      | false, true => 5
      | true, true => 5

/-! ## Flag words with their metadata -/

/-- `flags_meta_data` (52-56). -/
structure Meta where
  or_ : Nat
  and_ : Nat
  count : Nat

/-- `flags_fill_meta` (164-186). -/
def fillMeta (flags : Nat → Nat) : Nat → Meta
  | 0 => ⟨0, 0, 0⟩
  | n + 1 =>
      let m := fillMeta flags n
      if flags n ≠ 0 then { m with or_ := 1, count := m.count + 1 } else { m with and_ := 0 }

/-- `flags_or`, `flags_and`, `flags_count` (219-245). -/
def flagsOr (m : Meta) (n : Nat) : Nat := if n = 0 then 0 else m.or_
def flagsAnd (m : Meta) (n : Nat) : Nat := if n = 0 then 0 else m.and_
def flagsCount (m : Meta) (n : Nat) : Nat := if n = 0 then 0 else m.count

/-- The table part of `flags_fill_meta2` (190-215), after the rows have been done. -/
def fillMeta2 (flags : Nat → Nat → Nat) (n : Nat) : Nat → Meta
  | 0 => ⟨0, 0, 0⟩
  | m + 1 =>
      let a := fillMeta2 flags n m
      let r := fillMeta (flags m) n
      if flagsOr r n ≠ 0 then { a with or_ := 1, count := a.count + flagsCount r n } else { a with and_ := 0 }

/-- `derivs_union_bitwise_or` (309-321). -/
def unionBits (flags : Nat → Nat) : Nat → Nat
  | 0 => 0
  | n + 1 => unionBits flags n ||| flags n

/-- `derivs_union_logical_or2` (325-331), row `i`: from the metadata of the row. -/
def unionOr (flags : Nat → Nat → Nat) (n i : Nat) : Nat := flagsOr (fillMeta (flags i) n) n

/-- `derivs_merge_s` (282-305): `none` is the pair for which nothing is written. -/
def mergeS (s1 sm : Nat) : Option Nat :=
  if s1 = 0 ∧ sm = 0 then some 0
  else if s1 = 0 ∧ sm ≠ 0 then some 1
  else if s1 ≠ 0 ∧ sm ≠ 0 then some 5
  else none

/-- 0 or 1. -/
def b2n (b : Bool) : Nat := if b then 1 else 0

/-- All the tables of `d->derivs` after `xrtm_update_varied_layers` (5370-5410), for Fourier term 0 and
(`_m`) for the others. -/
structure Tables where
  layers : Nat → Nat → Bool
  stackT : Nat → Nat → Nat
  beam : Nat → Nat → Bool
  thermal : Nat → Nat → Bool
  sources : Nat → Nat → Bool
  total : Nat → Bool
  addingDown : Nat → Nat → Nat
  addingUp : Nat → Nat → Nat

def tables (flag : Bool) : Tables :=
  let lay := layers x flag
  let src := sources x lay
  { layers := lay, stackT := stackT lay, beam := beam lay, thermal := thermalT x lay, sources := src
    total := total x lay src, addingDown := addingDown lay src, addingUp := addingUp x.nLayers lay src }

/-- The union tables written with `XRTM_OPTION_REVERSE_DERIVS` (5415-5447). `none`: not written. The
`_m` tables are filled from the tables for term 0 as in the source, and `beam_m_union` is not written (5441
writes `beam_union` again). -/
structure Unions where
  layers : Nat → Option Nat
  stackT : Nat → Option Nat
  sources : Nat → Option Nat
  beam : Nat → Option Nat
  thermal : Nat → Option Nat
  addingUp : Nat → Option Nat
  addingDown : Nat → Option Nat

def unions : Unions :=
  let t := tables x true
  { layers := fun i => some (unionOr (fun i j => b2n (t.layers i j)) x.nDerivs i)
    stackT := fun i => some (unionOr t.stackT x.nDerivs i)
    sources := fun i => some (unionOr (fun i j => b2n (t.sources i j)) x.nDerivs i)
    beam := fun i => if x.solar then some (unionOr (fun i j => b2n (t.beam i j)) x.nDerivs i) else none
    thermal := fun i => if x.thermal then some (unionOr (fun i j => b2n (t.thermal i j)) x.nDerivs i) else none
    addingUp := fun i => some (unionBits (t.addingUp i) x.nDerivs)
    addingDown := fun i => some (unionBits (t.addingDown i) x.nDerivs) }

def unionsM : Unions :=
  let t := tables x true
  let tm := tables x false
  { layers := fun i => some (unionOr (fun i j => b2n (t.layers i j)) x.nDerivs i)
    stackT := fun i => some (unionOr t.stackT x.nDerivs i)
    sources := fun i => some (unionOr (fun i j => b2n (t.sources i j)) x.nDerivs i)
    beam := fun _ => none
    thermal := fun i => if x.thermal then some (unionOr (fun i j => b2n (t.thermal i j)) x.nDerivs i) else none
    addingUp := fun i => some (unionBits (tm.addingUp i) x.nDerivs)
    addingDown := fun i => some (unionBits (tm.addingDown i) x.nDerivs) }

end Xrtm.Derivs
