import Mathlib.Logic.Function.Basic
import Mathlib.Data.List.Basic

/-!
# Scratch memory (`src/xrtm_work.c`, `src/xrtm_work.h`)

Two stores shared by every copy of a `work_data`: the pages that `get_work_common` cuts up, and the lists of arrays by type that
`work_get1`, `work_get2` and `work_get3` hand out (the variants compiled under `LEGACY`, which the makefiles define). A
`work_data` is a cursor into the two stores. A routine copies the `work_data` it was given (by passing it by value, or with
`work2 = *work`), takes from the copy, and drops the copy; the machines below have `enter` and `leave` for that.

`malloc` and `realloc` are taken to succeed (for pages the code does not look at the result). A page obtained from `malloc` is known
by its index and by how many times `malloc` had been called for that index. An array obtained from `alloc_array*` is known by a
number never used before.
-/

namespace Xrtm.Work

/-- `WORK_ALIGNMENT`, `WORK_MAX_PAGES`, `WORK_LIST_INC`, xrtm_work.h:19-23. -/
def alignment : Nat := 16
def maxPages : Nat := 1024
def listInc : Nat := 1024

inductive Fault where
  /-- `exit(1)` for want of a page, 179-182. -/
  | pages
  /-- A write at an index the list has no room for. -/
  | outside
  /-- A pointer read that was never written. -/
  | unset
  /-- `work_get3` with a type of table other than `WORK_BOTH_V`: `exit(1)`, 1290-1293. -/
  | vtype
  /-- `leave` without `enter`: no such program. -/
  | underflow
  deriving DecidableEq, Repr

/-! ## Pages -/

/-- `work_shared`: `min_page_size`, `n_bytes[]`, `pages[]`. -/
structure Pages where
  minPage : Nat
  bytes : Nat → Nat
  gen : Nat → Nat

/-- `i_page` and `i_byte` of a `work_data`. -/
structure Cursor where
  page : Nat
  byte : Nat
  deriving DecidableEq, Repr

/-- What the caller holds: the page pointer it was given (index and generation), the offset, and the bytes it asked for. -/
structure Block where
  page : Nat
  gen : Nat
  off : Nat
  len : Nat
  deriving DecidableEq, Repr

/-- `work_init`, 23-74: no pages; `min_page_size` from the sizes. -/
def initPages (nDerivs nQuadV : Nat) : Pages :=
  { minPage := (if nDerivs > 0 then nDerivs else 1) * nQuadV * nQuadV * 8, bytes := fun _ => 0, gen := fun _ => 0 }

def initCursor : Cursor := ⟨0, 0⟩

/-- 159: the length rounded up. -/
def roundUp (length : Nat) : Nat :=
  if length % 16 ≠ 0 then length / alignment * alignment + alignment else length

/-- `n_bytes[k] = MAX(min_page_size, length)` and `pages[k] = malloc(n_bytes[k])`, after `free(pages[k])` where there was one. -/
def Pages.renew (p : Pages) (k length : Nat) : Pages :=
  { p with
    bytes := Function.update p.bytes k (max p.minPage length)
    gen := Function.update p.gen k (p.gen k + 1) }

/-- `get_work_common`, 155-208. -/
def getCommon (p : Pages) (c : Cursor) (length : Nat) : Except Fault (Pages × Cursor × Nat) :=
  let length := roundUp length
  if c.byte = 0 ∧ p.bytes c.page = 0 then
    .ok (p.renew c.page length, { c with byte := length }, 0)
  else if c.byte = 0 ∧ length > p.bytes c.page then
    .ok (p.renew c.page length, { c with byte := length }, 0)
  else if c.byte + length > p.bytes c.page then
    if c.page + 1 ≥ maxPages then .error .pages
    else if length > p.bytes (c.page + 1) then
      .ok (p.renew (c.page + 1) length, ⟨c.page + 1, length⟩, 0)
    else .ok (p, ⟨c.page + 1, length⟩, 0)
  else .ok (p, { c with byte := c.byte + length }, c.byte)

/-- `get_work_x1` 214-224 and the others: the pointer is `pages[i_page] + i_byte` after the call. -/
def getBlock (p : Pages) (c : Cursor) (length : Nat) : Except Fault (Pages × Cursor × Block) :=
  match getCommon p c length with
  | .error e => .error e
  | .ok (p', c', i) => .ok (p', c', ⟨c'.page, p'.gen c'.page, i, length⟩)

/-- `get_work_x2_m_flags`, 297-320: the table of `m` pointers, then one row for each flag that is set. -/
def getRows (p : Pages) (c : Cursor) (row : Nat) : List Bool → Except Fault (Pages × Cursor × List (Option Block))
  | [] => .ok (p, c, [])
  | f :: fs =>
    if f then
      match getBlock p c row with
      | .error e => .error e
      | .ok (p', c', b) =>
        match getRows p' c' row fs with
        | .error e => .error e
        | .ok (p'', c'', bs) => .ok (p'', c'', some b :: bs)
    else
      match getRows p c row fs with
      | .error e => .error e
      | .ok (p'', c'', bs) => .ok (p'', c'', none :: bs)

inductive Op where
  | get (length : Nat)
  | enter
  | leave
  deriving DecidableEq, Repr

/-- One entry for each copy of the `work_data` that is in use, the innermost first, with the blocks taken from it. -/
structure Arena where
  pages : Pages
  frames : List (Cursor × List Block)

def Arena.init (nDerivs nQuadV : Nat) : Arena := ⟨initPages nDerivs nQuadV, [(initCursor, [])]⟩

def Arena.step (s : Arena) : Op → Except Fault Arena
  | .get length =>
    match s.frames with
    | [] => .error .underflow
    | (c, bs) :: fs =>
      match getBlock s.pages c length with
      | .error e => .error e
      | .ok (p, c', b) => .ok ⟨p, (c', b :: bs) :: fs⟩
  | .enter =>
    match s.frames with
    | [] => .error .underflow
    | (c, bs) :: fs => .ok ⟨s.pages, (c, []) :: (c, bs) :: fs⟩
  | .leave =>
    match s.frames with
    | _ :: f :: fs => .ok ⟨s.pages, f :: fs⟩
    | _ => .error .underflow

def Arena.run (s : Arena) : List Op → Except Fault Arena
  | [] => .ok s
  | o :: os =>
    match s.step o with
    | .error e => .error e
    | .ok s' => s'.run os

/-- The blocks in use. -/
def Arena.live (s : Arena) : List Block := (s.frames.map Prod.snd).flatten

/-! ## Lists of arrays by type -/

/-- `enum work_type`, xrtm_work.h. -/
inductive WType where
  | IX | IX2 | DQQ | DX | DX2 | DXX | DXX2 | DD | DS | DU | DUX | DDERIVS | DLAYERS | DBOTH | ZX | ZXX | ZU | ZUX
  deriving DecidableEq, Repr

/-- `enum work_v_type`, xrtm_work.h. -/
inductive VType where
  | derivs | layers | both
  deriving DecidableEq, Repr

/-- The sizes kept in `work_shared`. -/
structure Sizes where
  nQuadV : Nat
  nQuadVX : Nat
  nStokes : Nat
  nDerivs : Nat
  nLayers : Nat
  nUmusV : Nat
  deriving DecidableEq, Repr

/-- `work_init`, 45-50. -/
def initSizes (nQuad nQuadX nStokes nDerivs nLayers nUmus : Nat) : Sizes :=
  ⟨nQuad * nStokes, nQuadX * nStokes, nStokes, nDerivs, nLayers + 1, nUmus * nStokes⟩

inductive Elem where
  | int | double | complex
  deriving DecidableEq, Repr

/-- What `alloc_array*` is asked for. -/
inductive Shape where
  | vector (e : Elem) (m : Nat)
  | matrix (e : Elem) (m n : Nat)
  deriving DecidableEq, Repr

/-- The arguments in `work_get1`, 989-1040. -/
def shape1 (w : Sizes) : WType → Shape
  | .IX => .vector .int w.nQuadVX
  | .IX2 => .vector .int (2 * w.nQuadVX)
  | .DQQ => .matrix .double w.nQuadV w.nQuadV
  | .DX => .vector .double w.nQuadVX
  | .DX2 => .vector .double (2 * w.nQuadVX)
  | .DXX => .matrix .double w.nQuadVX w.nQuadVX
  | .DXX2 => .matrix .double (2 * w.nQuadVX) (2 * w.nQuadVX)
  | .DD => .vector .double (w.nQuadV + w.nUmusV)
  | .DS => .vector .double w.nStokes
  | .DU => .vector .double w.nUmusV
  | .DUX => .matrix .double w.nUmusV w.nQuadVX
  | .DDERIVS => .vector .double w.nDerivs
  | .DLAYERS => .vector .double w.nLayers
  | .DBOTH => .matrix .double w.nLayers w.nDerivs
  | .ZX => .vector .complex w.nQuadVX
  | .ZXX => .matrix .complex w.nQuadVX w.nQuadVX
  | .ZU => .vector .complex w.nUmusV
  | .ZUX => .matrix .complex w.nUmusV w.nQuadVX

/-- The arguments in `work_get2`, 1145-1190. -/
def shape2 (w : Sizes) : WType → Shape
  | .IX => .vector .int w.nQuadVX
  | .IX2 => .vector .int (2 * w.nQuadVX)
  | .DQQ => .matrix .double w.nQuadV w.nQuadV
  | .DX => .vector .double w.nQuadVX
  | .DX2 => .vector .double (2 * w.nQuadVX)
  | .DXX => .matrix .double w.nQuadVX w.nQuadVX
  | .DXX2 => .matrix .double (2 * w.nQuadVX) (2 * w.nQuadVX)
  | .DD => .vector .double (w.nQuadV + w.nUmusV)
  | .DS => .vector .double w.nStokes
  | .DU => .vector .double w.nUmusV
  | .DUX => .matrix .double w.nUmusV w.nQuadVX
  | .DDERIVS => .vector .double w.nDerivs
  | .DLAYERS => .vector .double w.nLayers
  | .DBOTH => .matrix .double w.nLayers w.nDerivs
  | .ZX => .vector .complex w.nQuadVX
  | .ZXX => .matrix .complex w.nQuadVX w.nQuadVX
  | .ZU => .vector .complex w.nUmusV
  | .ZUX => .matrix .complex w.nUmusV w.nQuadVX

/-- The arguments in `work_get3`, 1302-1345. -/
def shape3 (w : Sizes) : WType → Shape
  | .IX => .vector .int w.nQuadVX
  | .IX2 => .vector .int (2 * w.nQuadVX)
  | .DQQ => .matrix .double w.nQuadV w.nQuadV
  | .DX => .vector .double w.nQuadVX
  | .DX2 => .vector .double (2 * w.nQuadVX)
  | .DXX => .matrix .double w.nQuadVX w.nQuadVX
  | .DXX2 => .matrix .double (2 * w.nQuadVX) (2 * w.nQuadVX)
  | .DD => .vector .double (w.nQuadV + w.nUmusV)
  | .DS => .vector .double w.nStokes
  | .DU => .vector .double w.nUmusV
  | .DUX => .matrix .double w.nUmusV w.nQuadVX
  | .DDERIVS => .vector .double w.nDerivs
  | .DLAYERS => .vector .double w.nLayers
  | .DBOTH => .matrix .double w.nLayers w.nDerivs
  | .ZX => .vector .complex w.nQuadVX
  | .ZXX => .matrix .complex w.nQuadVX w.nQuadVX
  | .ZU => .vector .complex w.nUmusV
  | .ZUX => .matrix .complex w.nUmusV w.nQuadVX

/-- What an allocated object is: an array, or a table of pointers with so many slots. -/
inductive Obj where
  | array (s : Shape)
  | table (slots : Nat)
  deriving DecidableEq, Repr

/-- `work_shared`: one list for each type of array and one for each type of table; `obj` is what each number was allocated as, `slot`
what the tables hold. A table of `ll1 × ll2` pointers is one of `ll1 * ll2`. -/
structure Lists where
  w : Sizes
  data : WType → Nat → Option Nat
  n : WType → Nat
  cap : WType → Nat
  dataV : VType → Nat → Option Nat
  nV : VType → Nat
  capV : VType → Nat
  fresh : Nat
  obj : Nat → Option Obj
  slot : Nat → Nat → Option Nat

/-- `i_list[]` and `i_list_v[]` of a `work_data`. -/
structure Index where
  i : WType → Nat
  v : VType → Nat

/-- `work_init`, 63-73. -/
def initLists (w : Sizes) : Lists :=
  { w, data := fun _ _ => none, n := fun _ => 0, cap := fun _ => 0, dataV := fun _ _ => none, nV := fun _ => 0, capV := fun _ => 0,
    fresh := 0, obj := fun _ => none, slot := fun _ _ => none }

/-- `work_init`, 30-34. -/
def initIndex : Index := ⟨fun _ => 0, fun _ => 0⟩

/-- `check_work_bounds`, 587-593: the room the list has afterwards. -/
def grow (i n : Nat) : Nat := if i ≥ n then n + ((i - n + 1) / listInc + 1) * listInc else n

/-- `data[j] = alloc_array(shape)`. -/
def Lists.alloc (l : Lists) (t : WType) (s : Shape) (j : Nat) : Except Fault Lists :=
  if j < l.cap t then
    .ok { l with
      data := Function.update l.data t (Function.update (l.data t) j (some l.fresh))
      fresh := l.fresh + 1
      obj := Function.update l.obj l.fresh (some (.array s)) }
  else .error .outside

/-- `data1[j] = alloc_array1(ll, …)` or `alloc_array2(ll1, ll2, …)`. -/
def Lists.allocV (l : Lists) (v : VType) (ll j : Nat) : Except Fault Lists :=
  if j < l.capV v then
    .ok { l with
      dataV := Function.update l.dataV v (Function.update (l.dataV v) j (some l.fresh))
      fresh := l.fresh + 1
      obj := Function.update l.obj l.fresh (some (.table ll)) }
  else .error .outside

/-- `data[j]`. -/
def Lists.read (l : Lists) (t : WType) (j : Nat) : Except Fault Nat :=
  match l.data t j with
  | some a => .ok a
  | none => .error .unset

def Lists.readV (l : Lists) (v : VType) (j : Nat) : Except Fault Nat :=
  match l.dataV v j with
  | some a => .ok a
  | none => .error .unset

/-- `get_work_vector`, 638-650 (`get_work_matrix`, 830-842). -/
def Lists.addOne (l : Lists) (t : WType) (s : Shape) (i : Nat) : Except Fault Lists :=
  match { l with cap := Function.update l.cap t (grow (l.n t) (l.cap t)) }.alloc t s i with
  | .error e => .error e
  | .ok l => .ok { l with n := Function.update l.n t (l.n t + 1) }

/-- `GET_WORK1_VECTOR`, 617-623 (`GET_WORK1_MATRIX`). -/
def get1 (l : Lists) (x : Index) (t : WType) (s : Shape) : Except Fault (Lists × Index × Nat) :=
  match (if x.i t ≥ l.n t then l.addOne t s (x.i t) else .ok l) with
  | .error e => .error e
  | .ok l =>
    match l.read t (x.i t) with
    | .error e => .error e
    | .ok a => .ok (l, { x with i := Function.update x.i t (x.i t + 1) }, a)

/-- The loop `for (i = *n2; i < *iq2 + count; ++i) data2[i] = alloc(…)`, 680-686: `k` more from `j`. -/
def Lists.addMany (l : Lists) (t : WType) (s : Shape) (j : Nat) : Nat → Except Fault Lists
  | 0 => .ok l
  | k + 1 =>
    match l.alloc t s j with
    | .error e => .error e
    | .ok l => l.addMany t s (j + 1) k

/-- 677-689: the test, the growth, the loop, the count. -/
def Lists.ensure (l : Lists) (t : WType) (s : Shape) (i count : Nat) : Except Fault Lists :=
  if (i : Int) + count - 1 ≥ l.n t then
    match { l with cap := Function.update l.cap t (grow (i + count - 1) (l.cap t)) }.addMany t s (l.n t) (i + count - l.n t) with
    | .error e => .error e
    | .ok l => .ok { l with n := Function.update l.n t (i + count) }
  else .ok l

/-- 691-710: the slots are filled where the flag is set, all of them with no flags. -/
def Lists.fill (l : Lists) (t : WType) (tab : Nat) (i k : Nat) : List Bool → Except Fault (Lists × Nat)
  | [] => .ok (l, i)
  | f :: fs =>
    if f then
      match l.read t i with
      | .error e => .error e
      | .ok a => { l with slot := Function.update l.slot tab (Function.update (l.slot tab) k (some a)) }.fill t tab (i + 1) (k + 1) fs
    else l.fill t tab i (k + 1) fs

/-- Flags and the count kept in front of them (`flags_count`, xrtm_utility.c:219-226; for a table of two dimensions the sum of the
counts of the rows). -/
structure Flags where
  set : List Bool
  count : Nat
  deriving DecidableEq, Repr

/-- 659-671: a table is made where the list of them has run out. -/
def Lists.table (l : Lists) (v : VType) (ll i : Nat) : Except Fault Lists :=
  if i ≥ l.nV v then
    match { l with capV := Function.update l.capV v (grow (l.nV v) (l.capV v)) }.allocV v ll i with
    | .error e => .error e
    | .ok l => .ok { l with nV := Function.update l.nV v (l.nV v + 1) }
  else .ok l

/-- 673: `count = flags ? flags_count(flags, ll) : ll`. -/
def countOf (ll : Nat) : Option Flags → Nat
  | some f => f.count
  | none => ll

/-- 691-710: the slots gone through. -/
def setOf (ll : Nat) : Option Flags → List Bool
  | some f => f.set.take ll
  | none => List.replicate ll true

/-- `get_work_vectors`, 653-712 (`get_work_vectors2` 716, `get_work_matrices` 845, `get_work_matrices2` 907). -/
def getMany (l : Lists) (x : Index) (v : VType) (ll : Nat) (t : WType) (s : Shape) (flags : Option Flags) :
    Except Fault (Lists × Index × Nat) :=
  match l.table v ll (x.v v) with
  | .error e => .error e
  | .ok l =>
    match l.ensure t s (x.i t) (countOf ll flags) with
    | .error e => .error e
    | .ok l =>
      match l.readV v (x.v v) with
      | .error e => .error e
      | .ok tab =>
        match l.fill t tab (x.i t) 0 (setOf ll flags) with
        | .error e => .error e
        | .ok (l, i) => .ok (l, { i := Function.update x.i t i, v := Function.update x.v v (x.v v + 1) }, tab)

/-- `work_get1`, 989-1040. -/
def workGet1 (l : Lists) (x : Index) (t : WType) : Except Fault (Lists × Index × Nat) := get1 l x t (shape1 l.w t)

/-- `work_get2`, 1106-1200: the pointers are not set for any other type of table. -/
def workGet2 (l : Lists) (x : Index) (t : WType) (v : VType) (flags : Option Flags) : Except Fault (Lists × Index × Nat) :=
  match v with
  | .derivs => getMany l x .derivs l.w.nDerivs t (shape2 l.w t) flags
  | .layers => getMany l x .layers l.w.nLayers t (shape2 l.w t) flags
  | .both => .error .unset

/-- `work_get3`, 1275-1350. -/
def workGet3 (l : Lists) (x : Index) (t : WType) (v : VType) (flags : Option Flags) : Except Fault (Lists × Index × Nat) :=
  match v with
  | .both => getMany l x .both (l.w.nLayers * l.w.nDerivs) t (shape3 l.w t) flags
  | _ => .error .vtype

inductive LOp where
  | get1 (t : WType)
  | get2 (t : WType) (v : VType) (flags : Option Flags)
  | get3 (t : WType) (v : VType) (flags : Option Flags)
  | enter
  | leave
  deriving DecidableEq, Repr

/-- What a caller holds: an array, or a table and the slots that were to be filled. -/
inductive Held where
  | one (t : WType) (a : Nat)
  | many (t : WType) (v : VType) (tab : Nat) (set : List Bool)
  deriving DecidableEq, Repr

structure Store where
  lists : Lists
  frames : List (Index × List Held)

def Store.init (w : Sizes) : Store := ⟨initLists w, [(initIndex, [])]⟩

/-- The slots a request is to fill. -/
def wanted (w : Sizes) (v : VType) (flags : Option Flags) : List Bool :=
  setOf (match v with | .derivs => w.nDerivs | .layers => w.nLayers | .both => w.nLayers * w.nDerivs) flags

def Store.step (s : Store) (o : LOp) : Except Fault Store :=
  match s.frames with
  | [] => .error .underflow
  | (x, hs) :: fs =>
    match o with
    | .get1 t =>
      match workGet1 s.lists x t with
      | .error e => .error e
      | .ok (l, x, a) => .ok ⟨l, (x, .one t a :: hs) :: fs⟩
    | .get2 t v flags =>
      match workGet2 s.lists x t v flags with
      | .error e => .error e
      | .ok (l, x, a) => .ok ⟨l, (x, .many t v a (wanted s.lists.w v flags) :: hs) :: fs⟩
    | .get3 t v flags =>
      match workGet3 s.lists x t v flags with
      | .error e => .error e
      | .ok (l, x, a) => .ok ⟨l, (x, .many t v a (wanted s.lists.w v flags) :: hs) :: fs⟩
    | .enter => .ok ⟨s.lists, (x, []) :: (x, hs) :: fs⟩
    | .leave =>
      match fs with
      | [] => .error .underflow
      | f :: fs => .ok ⟨s.lists, f :: fs⟩

def Store.run (s : Store) : List LOp → Except Fault Store
  | [] => .ok s
  | o :: os =>
    match s.step o with
    | .error e => .error e
    | .ok s' => s'.run os

/-- The types whose lists `work_free` goes through, 119-145. -/
def freedTypes : List WType :=
  [.IX, .IX2, .DX, .DX2, .DXX, .DXX2, .DU, .DUX, .DD, .DS, .DDERIVS, .DLAYERS, .DBOTH, .ZX, .ZXX, .ZU, .ZUX]

/-- `work_free`, 105-148: the arrays and tables freed, in order (`free_work` 81, `free_work_v` 93). -/
def freed (l : Lists) : List (Option Nat) :=
  (freedTypes.flatMap fun t => (List.range (l.n t)).map (l.data t)) ++
  ([VType.derivs, .layers, .both].flatMap fun v => (List.range (l.nV v)).map (l.dataV v))

/-- `work_free`, 112-115: the pages freed. -/
def freedPages (p : Pages) : List Nat := (List.range maxPages).filter fun k => p.bytes k > 0

end Xrtm.Work
