import Verif.Model.Alloc

/-!
# How results are cleared and stored

Models `init_array1_d` to `init_array5_d` (`misc/galloc.h:60-75`, `133-152`, `231-247`, `346-363`, `444-461`) on arrays of arrays as
in `Model/Alloc`, and what `get_single` (`src/xrtm_model.c:4231-4491`) does to the arrays it returns. The outcome is the list of places
of `double` that are written, in the order in which they are; values are in the model of single scattering.
-/

namespace Xrtm.Clear

open Xrtm.Alloc

/-- `for (i = 0; i < n; ++i)` -/
def each (f : Nat → Except Fault (List Nat)) : Nat → Except Fault (List Nat)
  | 0 => .ok []
  | n + 1 => do
    let l ← each f n
    let x ← f n
    .ok (l ++ x)

/-- `init_arrayN_d(a, n, n', …, x)`; the loops over all of the memory at once are commented out. -/
def initArray (m : Mem) (size : Nat) : List Nat → Nat → Except Fault (List Nat)
  | [], _ => .ok []
  | [n], p => .ok ((List.range n).map fun i => p + size * i)
  | n :: n' :: ns, p => each (fun i => do
      let q ← m.read (p + 8 * i)
      initArray m size (n' :: ns) q) n

/-- `src/xrtm_model.c:6217-6223` of `get_solution_internal`: `pre` is `[n_ulevels]` for radiances, `[n_ulevels, n_derivs]` for
their derivatives. -/
def clear (pre : List Nat) (nMus nPhis nStokes : Nat) (m : Mem) (base : Nat) : Except Fault (List Nat) :=
  initArray m 8 (pre ++ [nMus, nPhis, nStokes]) base

/-- `src/xrtm_model.c:4374` (`I_m`) and `4377` (`I_p_l`) of `get_single`: `n_phis` comes before `n_mus2`. -/
def clearSingle (pre : List Nat) (nMus nPhis nStokes : Nat) (m : Mem) (base : Nat) : Except Fault (List Nat) :=
  initArray m 8 (pre ++ [nPhis, nMus, nStokes]) base

/-- The stores of `get_single` to `I_p` (`src/xrtm_model.c:4386-4429`) or `I_m` (4470-4472). -/
def storeSingle (nLevels nMus nPhis nStokes : Nat) (m : Mem) (base : Nat) : Except Fault (List Nat) :=
  each (fun i => each (fun j => each (fun k => each (fun s => do
    let p ← access m 8 base [k, i, j, s]
    .ok [p]) nStokes) nLevels) nPhis) nMus

end Xrtm.Clear
