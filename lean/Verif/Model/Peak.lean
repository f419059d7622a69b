import Verif.Model.DeltaM
import Verif.Model.Loops

/-!
# The scattering matrix from coefficients in Legendre polynomials

src/xrtm_scatter.c:449-505.
-/

namespace Xrtm.DeltaM
open Loops

/-- The sum of one element, src/xrtm_scatter.c:491-493, 497-499. -/
noncomputable def series (n : Nat) (p : Nat → ℝ) (coef : Nat → Nat → ℝ) (e : Nat) : ℝ :=
  forN n (fun j a => a + coef e j * p j) 0

/-- `build_scat_matrix_lc`, src/xrtm_scatter.c:477-505, row `r` and column `c`. -/
noncomputable def scatLC (n : Nat) (p : Nat → ℝ) (coef : Nat → Nat → ℝ) (flag : Bool) : Fin 4 → Fin 4 → ℝ
  | 0, 0 => series n p coef 0
  | 1, 1 => if flag then series n p coef 1 else 0
  | 2, 2 => if flag then series n p coef 2 else 0
  | 3, 3 => if flag then series n p coef 3 else 0
  | 0, 1 => if flag then series n p coef 4 else 0
  | 1, 0 => if flag then series n p coef 4 else 0
  | 2, 3 => if flag then series n p coef 5 else 0
  | 3, 2 => if flag then -series n p coef 5 else 0
  | _, _ => 0

end Xrtm.DeltaM
