import Verif.Model.Brdf
import Mathlib.Analysis.Calculus.Deriv.Add
import Mathlib.Analysis.Calculus.Deriv.Mul

/-!
# What a reflecting surface is

A weighted sum of kernels; its Fourier terms are averages over the azimuth with the cosine.
-/

namespace Xrtm.Brdf.Spec

/-- The part of the surface that does not depend on azimuth, for incidence from direction `i`
into direction `j`. -/
noncomputable def even (E : Env) (Ts : List Term) (i j : Nat) : ℝ :=
  ((Ts.filter fun T => !T.kern.needsFourier).map fun T =>
    T.amp * kernelValue E.A T.U E.g T.kern i j 0 0 T.p).sum

/-- The part that does, at the azimuth `phi` of entry `k` of the tables. -/
noncomputable def uneven (E : Env) (Ts : List Term) (i j k : Nat) (phi : ℝ) : ℝ :=
  ((Ts.filter fun T => T.kern.needsFourier).map fun T =>
    T.amp * kernelValue E.A T.U E.g T.kern i j k phi T.p).sum

/-- The average over the full circle: nodes in `(0, pi)` and their mirror images, the weights
of the nodes adding up to one. -/
noncomputable def average (E : Env) (h : Nat → ℝ → ℝ) : ℝ :=
  ∑ k ∈ Finset.range E.nQ, E.qw k * ((h k (E.qx k) + h k (-E.qx k)) / 2)

/-- Fourier term `m` of the reflection: a constant has only term 0. -/
noncomputable def term (E : Env) (Ts : List Term) (i j m : Nat) : ℝ :=
  (if m = 0 then 1 else 2) *
    ((if m = 0 then even E Ts i j else 0)
      + average E fun k phi => uneven E Ts i j k phi * Real.cos (m * phi))

/-- Reflection by an interface of relative index `n`, for unpolarised light and cosine of
incidence `c`: Snell's law and the formulas of Fresnel. -/
noncomputable def fresnel (n c : ℝ) : ℝ :=
  let t := Real.sqrt (1 - (1 - c ^ 2) / n ^ 2)
  (((c - n * t) / (c + n * t)) ^ 2 + ((n * c - t) / (n * c + t)) ^ 2) / 2

/-- A kernel of the surface whose amplitude and parameters depend on `t`. -/
structure Dep where
  kern : Kernel
  amp : ℝ → ℝ
  p : Nat → ℝ → ℝ
  ampL : Nat → ℝ
  pL : Nat → Nat → ℝ
  U : UserFn

/-- The kernel at `t`. -/
def Dep.at (T : Dep) (t : ℝ) : Term :=
  { kern := T.kern, amp := T.amp t, p := fun q => T.p q t, ampL := T.ampL, pL := T.pL, U := T.U }

/-- `ampL`, `pL` are what the user has to give for derivative `l`. -/
structure Dep.IsLin (T : Dep) (l : Nat) (t₀ : ℝ) : Prop where
  amp : HasDerivAt T.amp (T.ampL l) t₀
  p : ∀ q, HasDerivAt (T.p q) (T.pL l q) t₀

/-- A kernel of the user that does its part: for active derivatives it writes the derivative
of its value, whatever the memory held. -/
def Dep.UserOk (T : Dep) (E : Env) (l : Nat) (t₀ : ℝ) : Prop :=
  ∀ i j k phi s, E.act l = true →
    HasDerivAt (fun t => T.U.value E.g i j k phi fun q => T.p q t)
      (T.U.lin E.g i j k phi E.act (fun q => T.p q t₀) T.pL s l) t₀

end Xrtm.Brdf.Spec
