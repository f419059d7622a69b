import Mathlib.MeasureTheory.Integral.IntervalIntegral.FundThmCalculus
import Mathlib.Analysis.SpecialFunctions.Integrals.Basic

/-!
# What singly scattered radiance is

For one viewing angle and one component. The source at depth `t` below the top of layer `i` is the beam
there, `btran i * exp (-as0 i * t)`, times albedo, phase function and `F0 / 4π`; what is scattered into
the line of sight is dimmed by the optical path to the point of observation, `/ mu`.
-/

namespace Xrtm.Single.Spec

/-- An atmosphere as seen under one angle. -/
structure Sky where
  n : Nat
  F0 : ℝ
  mu : ℝ
  ltau : Nat → ℝ
  omega : Nat → ℝ
  P : Nat → ℝ
  btran : Nat → ℝ
  as0 : Nat → ℝ

variable (s : Sky)

/-- Optical thickness of layers `a` to `b - 1`. -/
noncomputable def Sky.thick (a b : Nat) : ℝ := ∑ i ∈ Finset.Ico a b, s.ltau i

/-- The beam at depth `t` in layer `i`. -/
noncomputable def Sky.beam (i : Nat) (t : ℝ) : ℝ := s.btran i * Real.exp (-s.as0 i * t)

/-- Upward radiance at depth `u` in layer `l` (at level `l` for `u = 0`) with `Iin` from below. -/
noncomputable def upAt (Iin : ℝ) (l : Nat) (u : ℝ) : ℝ :=
  Iin * Real.exp (-(s.thick l s.n - u) / s.mu) +
  s.F0 / (4 * Real.pi) / s.mu * ∑ i ∈ Finset.Ico l s.n, s.omega i * s.P i *
    ∫ t in (if i = l then u else 0)..(s.ltau i), s.beam i t * Real.exp (-(s.thick l i + t - u) / s.mu)

/-- Downward radiance at depth `u` in layer `l` (at level `l` for `u = 0`) with `Iin` from above. -/
noncomputable def dnAt (Iin : ℝ) (l : Nat) (u : ℝ) : ℝ :=
  Iin * Real.exp (-(s.thick 0 l + u) / s.mu) +
  s.F0 / (4 * Real.pi) / s.mu * ∑ i ∈ Finset.range (l + 1), s.omega i * s.P i *
    ∫ t in (0 : ℝ)..(if i = l then u else s.ltau i), s.beam i t * Real.exp (-(s.thick i l + u - t) / s.mu)

end Xrtm.Single.Spec
