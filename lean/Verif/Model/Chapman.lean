import Mathlib.Analysis.SpecialFunctions.Trigonometric.Inverse
import Mathlib.Analysis.SpecialFunctions.Sqrt

/-!
# `chapman_functions` (`src/xrtm_utility.c:891-920`)

Over exact reals. Reading `chap[i][-1]`, which happens when the two uppermost levels have the
same altitude, is the outcome `none`.
-/

namespace Xrtm

open Classical in
/-- Row `i` of the table: the inner loop 909-916, with `b` from lines 906-907 and `r k = z0 + z[k]`. -/
noncomputable def chapRow (r : Nat → ℝ) (b : ℝ) : Nat → Option ℝ
  | 0 => if r 0 = r 1 then none
    else some ((√(r 0 * r 0 - b) - √(r 1 * r 1 - b)) / (r 0 - r 1))
  | j + 1 => if r (j + 1) = r (j + 2) then chapRow r b j
    else some ((√(r (j + 1) * r (j + 1) - b) - √(r (j + 2) * r (j + 2) - b)) / (r (j + 1) - r (j + 2)))

/-- `chap[i][j]` for `j <= i` (901-918); other entries are not written. -/
noncomputable def chapman (mu0 z0 : ℝ) (z : Nat → ℝ) (i j : Nat) : Option ℝ :=
  let a := Real.sin (Real.arccos mu0) * Real.sin (Real.arccos mu0)
  let b := (z0 + z (i + 1)) * (z0 + z (i + 1)) * a
  chapRow (fun k => z0 + z k) b j

end Xrtm
