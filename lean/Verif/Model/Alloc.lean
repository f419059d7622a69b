import Mathlib.Logic.Function.Basic

/-!
# Arrays of arrays in one block (`misc/gutil_alloc.c`)

A block of `len` bytes at `base`; the pointers written into it. A pointer is eight bytes. Reading or writing outside the block,
and reading a pointer never written, are outcomes. The `int` temporaries (`n`, `length`, `size`) are taken not to overflow.
-/

namespace Xrtm.Alloc

inductive Fault where
  | outside
  | unset
  deriving DecidableEq, Repr

structure Mem where
  base : Nat
  len : Nat
  cell : Nat → Option Nat

def Mem.inside (m : Mem) (p : Nat) : Bool := m.base ≤ p && p + 8 ≤ m.base + m.len

def Mem.read (m : Mem) (p : Nat) : Except Fault Nat :=
  if m.inside p then
    match m.cell p with
    | some v => .ok v
    | none => .error .unset
  else .error .outside

def Mem.write (m : Mem) (p v : Nat) : Except Fault Mem :=
  if m.inside p then .ok { m with cell := Function.update m.cell p (some v) } else .error .outside

/-- `dimen[k]`. -/
def dim (dimen : List Nat) (k : Nat) : Nat := dimen.getD k 0

/-- `array_mem_length`, 19-34: `length` and `stride` after the loop. -/
def strides (dimen : List Nat) : Nat → Nat × Nat
  | 0 => (0, 1)
  | i + 1 =>
    let (length, stride) := strides dimen i
    (length + stride * dim dimen i, stride * dim dimen i)

/-- `array_mem_length`, 19-34. -/
def memLength (dimen : List Nat) (size : Nat) : Nat :=
  let (length, stride) := strides dimen (dimen.length - 1)
  length * 8 + stride * dim dimen (dimen.length - 1) * size

/-- `ptr_array_init`, 41-47: the call is made first, then `a[0]` is written. `k` is how far `dimen` has been advanced. -/
def init (dimen : List Nat) : (rank k a length : Nat) → Mem → Except Fault Mem
  | 0, _, _, _, m => .ok m
  | rank + 1, k, a, length, m => do
    let m ← init dimen rank (k + 1) (a + 8 * length) (length * dim dimen k) m
    m.write a (a + 8 * length)

/-- `from_mem_ptr_array`, 98-106. -/
def initFrom (dimen : List Nat) (a2 : Nat) : (rank k a length : Nat) → Mem → Except Fault Mem
  | 0, _, _, _, m => .ok m
  | 1, _, a, _, m => m.write a a2
  | rank + 2, k, a, length, m => do
    let m ← initFrom dimen a2 (rank + 1) (k + 1) (a + 8 * length) (length * dim dimen k) m
    m.write a (a + 8 * length)

/-- The loop at 169-172, from `j - 1` down. -/
def offsetLoop (dimen : List Nat) (index : Nat → Nat) : (j offset offset3 : Nat) → Nat
  | 0, offset, _ => offset
  | j + 1, offset, offset3 => offsetLoop dimen index j (offset + index j * offset3) (offset3 * dim dimen j)

/-- `ptr_array_assign`, 142-197, `left` levels above the last table of pointers (`depth + left == rank - 2`). `index` is shared
with the calls below, which write only entries at their own depth and deeper. -/
def assign (dimen : List Nat) (size : Nat) : (left depth a0 a : Nat) → (Nat → Nat) → Mem → Except Fault Mem
  | 0, depth, a0, a, index, m =>
    let offset := offsetLoop dimen index depth 0 (dim dimen (depth + 1) * dim dimen depth)
    (List.range (dim dimen depth)).foldlM (fun m i => do
      let p ← m.read a0
      m.write (a + 8 * i) (p + (offset * size + i * (dim dimen (depth + 1) * size)))) m
  | left + 1, depth, a0, a, index, m =>
    let offset := offsetLoop dimen index depth 0 (dim dimen (depth + 1) * dim dimen depth)
    (List.range (dim dimen depth)).foldlM (fun m i => do
      let p ← m.read a0
      let m ← m.write (a + 8 * i) (p + (offset * 8 + i * (dim dimen (depth + 1) * 8)))
      let p0 ← m.read a0
      let q ← m.read (a + 8 * i)
      assign dimen size left (depth + 1) p0 q (Function.update index depth i) m) m

/-- `alloc_array`, 214-226, where `malloc` gives `base`. -/
def alloc (dimen : List Nat) (size base : Nat) : Except Fault Mem := do
  let m ← init dimen (dimen.length - 1) 1 base (dim dimen 0) ⟨base, memLength dimen size, fun _ => none⟩
  if dimen.length > 1 then assign dimen size (dimen.length - 2) 0 base base (fun _ => 0) m else .ok m

/-- `array_from_mem` with `flag == 0`, 110-135 and 246-258, on memory of `len` bytes at `base`: the array starts at `base`. -/
def fromMem (dimen : List Nat) (size base len : Nat) : Except Fault Mem := do
  if memLength dimen 0 = 0 then .ok ⟨base, len, fun _ => none⟩
  else
    let m ← initFrom dimen (base + memLength dimen 0) (dimen.length - 1) 1 base (dim dimen 0) ⟨base, len, fun _ => none⟩
    if dimen.length > 1 then assign dimen size (dimen.length - 2) 0 base base (fun _ => 0) m else .ok m

/-- `a[i][j]...`: where the element is. -/
def access (m : Mem) (size : Nat) : Nat → List Nat → Except Fault Nat
  | p, [] => .ok p
  | p, [i] => .ok (p + size * i)
  | p, i :: j :: is => do
    let q ← m.read (p + 8 * i)
    access m size q (j :: is)

/-- `dup_array`, 284-292, with `copy_array`, 270-280: `memcpy` from where `a1` points, which is its table of pointers. -/
def dup (m1 : Mem) (dimen : List Nat) (size base : Nat) : Except Fault Mem := do
  let m ← init dimen (dimen.length - 1) 1 base (dim dimen 0) ⟨base, memLength dimen size, fun _ => none⟩
  .ok { m with cell := fun p =>
    if base ≤ p ∧ p + 8 ≤ base + dimen.prod * size then m1.cell (m1.base + (p - base)) else m.cell p }

/-- The array `dimen` that `realloc_array7`, 817-830, makes: `dimen[3]` is written twice, `dimen[4]` holds what was there. -/
def realloc7 (m n o _p q r s garbage : Nat) : List Nat := [m, n, o, q, garbage, r, s]

end Xrtm.Alloc
