import Verif.Model.FiniteDiff

/-!
# What a caller of the finite differences relies on
-/

namespace Xrtm.FiniteDiff.Spec
open Xrtm.FiniteDiff

variable {K : Type} [Field K] {O : Type}

/-- The inputs an instance of this shape has a step for. -/
def Has (s : Shape) : In → Prop
  | .isoTop | .isoBot | .surfB => s.thermal = true
  | .levelB i => s.thermal = true ∧ i ≤ s.nLayers
  | .g i => s.useG = true ∧ i < s.nLayers
  | .coef i k l => s.useG = false ∧ i < s.nLayers ∧ k < s.nElem ∧ l < s.nCoef i
  | .omega i | .ltau i => i < s.nLayers
  | .amp i => i < s.nKernels
  | .par i k => i < s.nKernels ∧ k < s.nParams i

open Classical in
/-- The inputs at the signed distance `t` along the step `p`. -/
noncomputable def along (s : Shape) (x p : In → K) (t : K) : In → K :=
  fun a => if Has s a then x a + t * p a else x a

/-- The radiances `r` belong to the inputs `x`. -/
def Sol (d : Inst K O) (x : In → K) (r : O → K) : Prop := d.solve x = some r

end Xrtm.FiniteDiff.Spec
