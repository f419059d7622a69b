import Verif.Model.Bvp
import Verif.Model.NoScatter

/-!
# The layers that the adding solvers add

`get_layer_R_T_S_U_W_V` (`src/xrtm_model.c:2276-2335`) for the eigenmatrix solver, and
`scale_add_source_vectors` (`src/xrtm_source.c:1044-1143`), which makes the
sources of a layer ready to be added.
-/

namespace Xrtm.Whole

open Xrtm.Source Xrtm.Eig Xrtm.Spec

variable {n : Nat} {K : Type} [RCLike K]

/-- `scale_add_source_vectors`, src/xrtm_source.c:1097-1143 with 1044-1092: the
sources of a layer in the beam as it is at its top, and the thermal ones. -/
def scaleAdd (solar thermal : Bool) (btran : ℝ) (F Fl : V n) : V n :=
  let z : V n := 0
  let y := if solar then btran • F else z
  if thermal then y + Fl else y

/-- The linearised values.  `old`: what the array holds; `beam`, `heat`, `sources`
are the flags of the derivative. -/
def scaleAddL (solar thermal beam heat sources : Bool) (btran btran' : ℝ) (F F' Fl' old : V n) : V n :=
  let z := if sources then 0 else old
  let y := if solar && beam then btran' • F + btran • F' else z
  if thermal && heat then y + Fl' else y

/-- `get_layer_R_T_S_U_W_V` and `scale_add_source_vectors` for one layer and the
eigenmatrix solver: `rt` is what it makes of the layer, `s` and `a` the solutions
for the beam and for thermal emission.  `src/xrtm_model.c:2276`: a layer that does
not scatter in this Fourier term is not given to the solver; with thermal
emission that ends the process. -/
noncomputable def layer (ns : Nat) (mu : V n) (om T as0 btran : ℝ) (iFour nCoef : Nat) (solar thermal : Bool)
    (rt : Option (RT n K)) (s : SunOut n) (a : (Fin n ⊕ Fin n → ℝ) × (Fin n ⊕ Fin n → ℝ)) :
    Option (Layer n ℝ) :=
  open Classical in
  if om = 0 ∨ nCoef ≤ iFour then
    match NoScatter.values Real.exp mu T thermal with
    | .error _ => none
    | .ok l => some { l with
        Sm := scaleAdd solar false btran l.Sm 0
        Sp := scaleAdd solar false btran l.Sp 0 }
  else
    match rt with
    | none => none
    | some o =>
      let L := layerM ns o
      let S := global (Real.exp (-as0 * T)) L.1 L.2.1 L.2.2.1 L.2.2.2 s.Fp s.Fm
      let F := heatEnds T a
      let H := globalHeat L.1 L.2.1 L.2.2.1 L.2.2.2 (fun i => F.1 (.inl i)) (fun i => F.1 (.inr i))
        (fun i => F.2 (.inl i)) fun i => F.2 (.inr i)
      some ⟨L.2.2.1, L.2.2.2, scaleAdd solar thermal btran S.2 H.2, L.1, L.2.1,
        scaleAdd solar thermal btran S.1 H.1⟩

end Xrtm.Whole
