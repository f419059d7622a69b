import Verif.Model.MatProg
import Verif.Spec.Adding

/-!
# Layers that do not scatter

`no_scatter_r_t_s` (`src/xrtm_utility.c:1400-1458`) and the choice of it in `layer_R_T_S`
(`src/xrtm_model.c:2276`). The arrays are written whole, so the routine is a function here.
-/

namespace Xrtm.NoScatter

open Mat

variable {n : Nat} {K : Type} [Field K]

/-- 1424-1425: `exp(-ltau / qx_v[i])` on the diagonal. -/
def trans (exp : K → K) (qx : V n K) (ltau : K) : M n K := Matrix.diagonal fun i => exp (-ltau / qx i)

/-- 1411-1425. `thermal` prints a message and ends the process (1419-1422). -/
def values (exp : K → K) (qx : V n K) (ltau : K) (thermal : Bool) : Except Fault (Spec.Layer n K) :=
  if thermal then .error .exit else .ok ⟨0, trans exp qx ltau, 0, 0, trans exp qx ltau, 0⟩

/-- 1427-1450: one derivative; `lay`, `beam` its flags. What is not written is `none`. -/
def derivs (exp : K → K) (qx : V n K) (ltau ltau_l : K) (lay beam : Bool) :
    Option (M n K × M n K) × Option (V n K × V n K) :=
  (if lay then some (0, Matrix.diagonal fun j => -ltau_l / qx j * trans exp qx ltau j j) else none,
   if beam then some (0, 0) else none)

/-- `xrtm_model.c:2276`: the routine is taken for albedo zero, and for orders of the Fourier series beyond the layer's
coefficients. -/
def taken [DecidableEq K] (omega : K) (iFour nCoef : Nat) : Bool := decide (omega = 0) || decide (nCoef ≤ iFour)

/-- `xrtm_model.c:2276-2277`: the outcome for a layer; `other` stands for the solvers. -/
def layer [DecidableEq K] (exp : K → K) (qx : V n K) (ltau omega : K) (iFour nCoef : Nat) (optThermal : Bool)
    (other : Except Fault (Spec.Layer n K)) : Except Fault (Spec.Layer n K) :=
  if taken omega iFour nCoef then values exp qx ltau (optThermal && decide (iFour = 0)) else other

end Xrtm.NoScatter
