import Verif.Model.Loops
import Mathlib.Analysis.SpecialFunctions.Pow.Real
import Mathlib.Analysis.SpecialFunctions.Trigonometric.Basic

/-!
# Tables of Legendre functions and the Fourier terms of the phase function

misc/rtutil_math.c:450-613, src/xrtm_model.c:535-642, src/xrtm_scatter.c:24-300.

Simplified: reals for doubles and the functions of the C library; arrays are
functions of the index; the rows of a table, one for each direction, are
computed one after the other and not column by column.
-/

namespace Xrtm.Legendre
open Loops

/-- The body of the loop of `leg_poly2` for one direction,
misc/rtutil_math.c:500-507. -/
noncomputable def legStep (mu : ℝ) (j : Nat) (p : Nat → ℝ) : Nat → ℝ :=
  put p (j + 1) ((j : ℝ) / ((j : ℝ) + 1) * (mu * p j - p (j - 1)) + mu * p j)

/-- `leg_poly2`, one direction: misc/rtutil_math.c:477-541.  The loop is
`for (j = 1; j < n_l - 1; ++j)`. -/
noncomputable def legPoly (nL : Nat) (mu : ℝ) (p : Nat → ℝ) : Nat → ℝ :=
  let p := put p 0 1
  let p := if 1 < nL then put p 1 mu else p
  forN (nL - 2) (fun t p => legStep mu (t + 1) p) p

/-- The constants `cn` and `dn`, misc/rtutil_math.c:567-577. -/
noncomputable def consts (m : Nat) (cd : ℝ × ℝ) : ℝ × ℝ :=
  if m = 0 then (1, 1)
  else (cd.1 * -√((2 * (m : ℝ) - 1) / (2 * m)), cd.2 * -√((2 * (m : ℝ) + 1) / (2 * m)))

/-- The first elements of a row, misc/rtutil_math.c:579-601. -/
noncomputable def assocStart (m nL : Nat) (mu : ℝ) (cd : ℝ × ℝ) (y : Nat → ℝ) : Nat → ℝ :=
  if m = 0 then
    let y := put y 0 1
    if 1 < nL then put y 1 mu else y
  else
    let y := forN m (fun j y => put y j 0) y
    let a := (1 - mu * mu) ^ ((m : ℝ) / 2)
    let y := put y m (cd.1 * a)
    if m + 1 < nL then put y (m + 1) (cd.2 * mu * a) else y

/-- The body of the loop, misc/rtutil_math.c:603-611. -/
noncomputable def assocStep (m : Nat) (mu : ℝ) (j : Nat) (y : Nat → ℝ) : Nat → ℝ :=
  put y (j + 1) (((2 * (j : ℝ) + 1) * mu * y j - √(((j : ℝ) + m) * ((j : ℝ) - m)) * y (j - 1)) /
    √(((j : ℝ) - m + 1) * ((j : ℝ) + m + 1)))

/-- `leg_poly_assoc2` for one direction, without the update of the constants:
misc/rtutil_math.c:553-612.  The loop is `for (j = m + 1; j < n_l - 1; ++j)`. -/
noncomputable def assocPoly (m nL : Nat) (mu : ℝ) (cd : ℝ × ℝ) (y : Nat → ℝ) : Nat → ℝ :=
  forN (nL - 1 - (m + 1)) (fun t y => assocStep m mu (m + 1 + t) y) (assocStart m nL mu cd y)

/-- `leg_poly_assoc2` for all directions. -/
noncomputable def assocRows (m nL nMu : Nat) (mus : Nat → ℝ) (cd : ℝ × ℝ) (Y : Nat → Nat → ℝ) :
    Nat → Nat → ℝ :=
  fun i => if i < nMu then assocPoly m nL (mus i) cd (Y i) else Y i

/-- What `Y_x_get` keeps between calls: the order the constants belong to
(`none` is -1), the constants, the tables, and one flag for each order that
tells that its inputs have changed. -/
structure Cache where
  order : Option Nat
  cd : ℝ × ℝ
  tables : Nat → Nat → Nat → ℝ
  stale : Nat → Bool

/-- After `xrtm_create`: src/xrtm_interface.c:1780-1782 and the dependency
flags, all set. -/
def Cache.init (cd : ℝ × ℝ) (tables : Nat → Nat → Nat → ℝ) : Cache := ⟨none, cd, tables, fun _ => true⟩

/-- A change of the directions sets all flags (`set_deps`,
src/xrtm_interface.c:419-470). -/
def Cache.touch (s : Cache) : Cache := { s with stale := fun _ => true }

/-- The loop of `Y_x_get` over the orders up to the one asked for,
src/xrtm_model.c:561-569: the constants and the table that is written. -/
noncomputable def climb (nL nMu : Nat) (mus : Nat → ℝ) (lo : Nat) (n : Nat)
    (s : (ℝ × ℝ) × (Nat → Nat → ℝ)) : (ℝ × ℝ) × (Nat → Nat → ℝ) :=
  forN n (fun t s =>
    (consts (lo + t) s.1, assocRows (lo + t) nL nMu mus (consts (lo + t) s.1) s.2)) s

/-- The order from which the constants are carried on,
src/xrtm_model.c:561-564. -/
def lowest (o : Option Nat) (m : Nat) : Nat :=
  match o with
  | none => 0
  | some o => if m < o then 0 else o + 1

/-- `Y_x_get`, src/xrtm_model.c:535-573.  `save` is the option
`XRTM_OPTION_SAVE_LEG_POLYS`.  The table handed out is `tables slot` of the
resulting cache. -/
noncomputable def get (save : Bool) (nL nMu : Nat) (mus : Nat → ℝ) (m : Nat) (s : Cache) : Cache × Nat :=
  let slot := if save then m else 0
  let s1 := { s with stale := fun k => if k = m then false else s.stale k }
  if (s.stale m || (!save && decide (s.order ≠ some m))) = false then (s1, slot)
  else if s.order = some m then
    ({ s1 with tables := fun k => if k = slot then assocRows m nL nMu mus s.cd (s.tables slot)
        else s.tables k }, slot)
  else
    let lo := lowest s.order m
    let r := climb nL nMu mus lo (m + 1 - lo) (s.cd, s.tables slot)
    ({ s1 with
        order := some m
        cd := r.1
        tables := fun k => if k = slot then r.2 else s.tables k }, slot)

/-- What happens to the tables of an instance. -/
inductive Ev
  /-- the directions change -/
  | move (mus : Nat → ℝ)
  /-- the table of an order is asked for -/
  | ask (m : Nat)

/-- Any history of the tables; `mus` are the directions at the time. -/
noncomputable def history (save : Bool) (nL nMu : Nat) : List Ev → Cache × (Nat → ℝ) → Cache × (Nat → ℝ)
  | [], s => s
  | .move mus :: es, s => history save nL nMu es (s.1.touch, mus)
  | .ask m :: es, s => history save nL nMu es ((get save nL nMu s.2 m s.1).1, s.2)

/-! ## Phase functions -/

/-- `scat_angle`, src/xrtm_scatter.c:24-28, with the difference of azimuths in
radians. -/
noncomputable def scatAngle (mu0 mu dphi : ℝ) : ℝ :=
  mu * mu0 + √(1 - mu * mu) * √(1 - mu0 * mu0) * Real.cos dphi

/-- `phase_func`, src/xrtm_scatter.c:35-42. -/
noncomputable def phaseFunc (n : Nat) (p coef : Nat → ℝ) : ℝ :=
  forN n (fun i P => P + p i * coef i) 0

/-- `for (k = k0; k < n; k += 2) acc += coef[k] * y2[k] * y1[k]`, the two inner
loops of src/xrtm_scatter.c:187-199 and 269-287 for one element; `fuel` bounds
the number of turns and is `n`. -/
noncomputable def every2 (n : Nat) (term : Nat → ℝ) : Nat → Nat → ℝ → ℝ
  | 0, _, acc => acc
  | fuel + 1, k, acc => if k < n then every2 n term fuel (k + 2) (acc + term k) else acc

/-- One element of `build_phase_vecs_scalar` (src/xrtm_scatter.c:182-208) and of
`build_phase_mats_scalar` (src/xrtm_scatter.c:262-297): `P_pp` and `P_mp`. -/
noncomputable def phaseElem (m n : Nat) (y1 y2 coef : Nat → ℝ) : ℝ × ℝ :=
  let even := every2 n (fun k => coef k * y1 k * y2 k) n m 0
  let odd := every2 n (fun k => coef k * y1 k * y2 k) n (m + 1) 0
  let a := 2 - (if m = 0 then 1 else 0)
  ((even + odd) * a, (even - odd) * a)

/-- `calc_Y_x`, src/xrtm_scatter.c:49-101: the closed forms that the four and
six stream solvers use. -/
noncomputable def calcY (m : Nat) (x : ℝ) : Nat → ℝ :=
  let x2 := x * x
  let x3 := x2 * x
  let x4 := x3 * x
  let a1 := √(1 - x2)
  let a2 := a1 * a1 * a1
  let a3 := a2 * a1
  let a4 := a3 * a1
  match m with
  | 0 => fun
    | 0 => 1
    | 1 => x
    | 2 => 1 / 2 * (3 * x2 - 1)
    | 3 => 1 / 2 * (5 * x3 - 3 * x)
    | 4 => 1 / 8 * (35 * x4 - 30 * x2 + 3)
    | _ => 1 / 8 * x * (63 * x4 - 70 * x2 + 15)
  | 1 => fun
    | 1 => -a1 / √2
    | 2 => -3 * x * a1 / √6
    | 3 => -3 / 2 * (5 * x2 - 1) * a1 / √12
    | 4 => 5 / 2 * (7 * x3 - 3 * x) * a1 / √20
    | _ => 15 / 8 * a1 * (21 * x4 - 14 * x2 + 1) / √30
  | 2 => fun
    | 2 => 3 * (1 - x2) / √24
    | 3 => 15 * x * (1 - x2) / √120
    | 4 => 15 / 2 * (7 * x2 - 1) * (1 - x2) / √360
    | _ => 105 / 2 * x * (1 - x2) * (3 * x2 - 1) / √840
  | 3 => fun
    | 3 => -15 * a2 / √720
    | 4 => 105 * x * a2 / √5040
    | _ => 105 / 2 * a2 * (9 * x2 - 1) / √20160
  | 4 => fun
    | 4 => 105 * a3 / √40320
    | _ => 945 * x * a3 / √362880
  | _ => fun _ => 945 * a4 / √3628800

end Xrtm.Legendre
