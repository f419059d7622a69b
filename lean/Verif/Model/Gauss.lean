import Verif.Model.Loops
import Mathlib.Analysis.SpecialFunctions.Trigonometric.Basic
import Mathlib.Analysis.SpecialFunctions.Trigonometric.Deriv

/-!
# The points and weights of quadrature, `misc/rtutil_math.c` 73-316

The numbers are real.  A loop that never ends is `none`.
-/

namespace Xrtm.Gauss
open Loops

/-- The recurrence inside the loop: the pair `(p1, p2)` after `n` turns.
`misc/rtutil_math.c` 95-105. -/
noncomputable def climb (n : Nat) (y : ℝ) : ℝ × ℝ :=
  forN n (fun j s => (j / (j + 1) * (y * s.1 - s.2) + y * s.1, s.1)) (1, 0)

/-- One turn of the loop: the new `y1` from the old.  `misc/rtutil_math.c`
93-119. -/
noncomputable def turn (n ib : Nat) (y : ℝ) : ℝ :=
  let p1 := (climb n y).1
  let p2 := (climb n y).2
  let db := 1 - y * y
  let p1p := n * (p2 - y * p1) / db
  let p1pp := (2 * y * p1p - ib * p1) / db
  let db' := p1 / p1p
  y - db' * (1 + db' * p1pp / (2 * p1p))

/-- `misc/rtutil_math.c` 90-91: where the search begins. -/
noncomputable def start (i ia : Nat) (da : ℝ) : ℝ :=
  let db := (4 * i + 3) / ia * Real.pi
  Real.cos (db + da / Real.tan db)

open Classical in
/-- The `do`-`while` loop from a given beginning, `misc/rtutil_math.c` 93-124:
the last point and the `p2` of the point before it. -/
noncomputable def search (n ib : Nat) (eps y0 : ℝ) : Option (ℝ × ℝ) :=
  if h : ∃ k, ¬ eps < |(turn n ib)^[k + 1] y0 - (turn n ib)^[k] y0| then
    some ((turn n ib)^[Nat.find h + 1] y0, (climb n ((turn n ib)^[Nat.find h] y0)).2)
  else none

/-- `gauss_leg_point`, `misc/rtutil_math.c` 73-127. -/
noncomputable def point (eps : ℝ) (n i ia ib : Nat) (da : ℝ) : Option (ℝ × ℝ) :=
  search n ib eps (start i ia da)

/-- The loop of `gauss_leg_quad`, `misc/rtutil_math.c` 160-170, the points
given. -/
noncomputable def fillNorm (n : Nat) (pt : Nat → ℝ × ℝ) (s : (Nat → ℝ) × (Nat → ℝ)) : (Nat → ℝ) × (Nat → ℝ) :=
  let nn := 2 * n
  forN n (fun ii s =>
    let y1 := (pt (n + ii)).1
    let p2 := (pt (n + ii)).2
    let dd := nn * p2
    (put s.1 ii (-y1), put s.2 ii (2 * (1 - y1 * y1) / (dd * dd)))) s

/-- `gauss_leg_quad`, `misc/rtutil_math.c` 131-171. -/
noncomputable def gaussNorm (eps : ℝ) (n : Nat) (s : (Nat → ℝ) × (Nat → ℝ)) : Option ((Nat → ℝ) × (Nat → ℝ)) :=
  let nn := 2 * n
  let da : ℝ := (nn - 1) / (8 * (nn : ℝ) ^ 3)
  let found i := point eps nn i (4 * nn + 2) (nn * (nn + 1)) da
  if ∀ i ∈ Finset.Ico n nn, (found i).isSome then some (fillNorm n (fun i => (found i).getD 0) s) else none

/-- The loop of `gauss_leg_quad2`, `misc/rtutil_math.c` 202-220, the points
given. -/
noncomputable def fillDouble (n : Nat) (pt : Nat → ℝ × ℝ) (s : (Nat → ℝ) × (Nat → ℝ)) : (Nat → ℝ) × (Nat → ℝ) :=
  forN ((n + 1) / 2) (fun i s =>
    let ii := n - 1 - i
    let y1 := (pt i).1
    let p2 := (pt i).2
    let db := 1 / 2 * y1
    let dc := n * p2
    let w := put s.2 i ((1 - 2 * db * y1) / (dc * dc))
    (put (put s.1 i (1 / 2 - db)) ii (1 / 2 + db), put w ii (w i))) s

/-- `gauss_leg_quad2`, `misc/rtutil_math.c` 175-221. -/
noncomputable def gaussDouble (eps : ℝ) (n : Nat) (s : (Nat → ℝ) × (Nat → ℝ)) : Option ((Nat → ℝ) × (Nat → ℝ)) :=
  let da : ℝ := (n - 1) / (8 * (n : ℝ) ^ 3)
  let found i := point eps n i (4 * n + 2) (n * (n + 1)) da
  if ∀ i < (n + 1) / 2, (found i).isSome then some (fillDouble n (fun i => (found i).getD 0) s) else none

/-- The values and one derivative written by `gauss_leg_quadx_l`. -/
structure Lin where
  x : Nat → ℝ
  w : Nat → ℝ
  xl : Nat → ℝ
  wl : Nat → ℝ

/-- The loop of `gauss_leg_quadx_l`, `misc/rtutil_math.c` 266-311, the points
given, for one of the derivatives. -/
noncomputable def fillBetween (n : Nat) (x1 x2 x1l x2l : ℝ) (pt : Nat → ℝ × ℝ) (s : Lin) : Lin :=
  let db := (x1 + x2) / 2
  let dc := (x2 - x1) / 2
  let dbl := (x1l + x2l) / 2
  let dcl := (x2l - x1l) / 2
  forN ((n + 1) / 2) (fun i s =>
    let ii := n - 1 - i
    let y1 := (pt i).1
    let p2 := (pt i).2
    let dd := dc * y1
    let de := n * p2
    let de := 2 / (de * de)
    let w := put s.w i ((dc - dd * y1) * de)
    let ddl := dcl * y1
    let wl := put s.wl i ((dcl - ddl * y1) * de)
    ⟨put (put s.x i (db - dd)) ii (db + dd), put w ii (w i),
     put (put s.xl i (dbl - ddl)) ii (dbl + ddl), put wl ii (wl i)⟩) s

/-- `gauss_leg_quadx_l`, `misc/rtutil_math.c` 231-316. -/
noncomputable def gaussBetween (eps : ℝ) (n : Nat) (x1 x2 x1l x2l : ℝ) (s : Lin) : Option Lin :=
  let da : ℝ := (n - 1) / (8 * (n : ℝ) ^ 3)
  let found i := point eps n i (4 * n + 2) (n * (n + 1)) da
  if ∀ i < (n + 1) / 2, (found i).isSome then some (fillBetween n x1 x2 x1l x2l (fun i => (found i).getD 0) s) else none

/-- `xrtm_create`, `src/xrtm_interface.c` 1132-1135: the factor that makes the
cosines integrate to a half. -/
noncomputable def qf (n : Nat) (x w : Nat → ℝ) : ℝ :=
  1 / 2 / forN n (fun i a => a + x i * w i) 0

end Xrtm.Gauss
