import Verif.Spec.Legendre
import Mathlib.Analysis.SpecialFunctions.Trigonometric.Deriv

/-!
# The functions of polarised scattering, as the mathematics has them

On a sphere, the patterns of linear polarisation of degree `l` and order `m` are
the second derivatives of the patterns of intensity along the meridian and across
it.
-/

namespace Xrtm.PhaseVec.Spec
open Polynomial Xrtm.Legendre.Spec

/-- The associated Legendre function, without sign and norm, of the angle. -/
noncomputable def pat (m l : ℕ) (θ : ℝ) : ℝ :=
  Real.sin θ ^ m * (derivative^[m] (legendre l)).eval (Real.cos θ)

/-- The norm of the second derivatives. -/
noncomputable def norm2 (l : ℕ) : ℝ := √(((l - 2).factorial : ℝ) / ((l + 2).factorial : ℝ))

/-- Along the meridian less across it. -/
noncomputable def along (m l : ℕ) (θ : ℝ) : ℝ :=
  norm2 l * (deriv (deriv (pat m l)) θ - Real.cos θ / Real.sin θ * deriv (pat m l) θ +
    (m : ℝ) ^ 2 / Real.sin θ ^ 2 * pat m l θ)

/-- Twice the mixed derivative. -/
noncomputable def across (m l : ℕ) (θ : ℝ) : ℝ :=
  norm2 l * (-2 * m * deriv (fun t => pat m l t / Real.sin t) θ)

/-- The matrix of degree `l` and order `m` for four Stokes parameters: intensity
and circular polarisation go with the Legendre function, linear polarisation with
its second derivatives. -/
noncomputable def kernel (m l : ℕ) (θ : ℝ) : ℕ → ℕ → ℝ
  | 0, 0 => pat m l θ
  | 1, 1 => if l < 2 then 0 else along m l θ
  | 1, 2 => if l < 2 then 0 else across m l θ
  | 2, 1 => if l < 2 then 0 else across m l θ
  | 2, 2 => if l < 2 then 0 else along m l θ
  | 3, 3 => pat m l θ
  | _, _ => 0

/-- The matrix of the coefficients of degree `l` (doc/xrtm.tex:1297-1340): `gc 0` to `gc 3` on the diagonal,
`gc 4` between intensity and linear polarisation, `gc 5` between linear and
circular polarisation. -/
def greek (gc : ℕ → ℕ → ℝ) (l : ℕ) : ℕ → ℕ → ℝ
  | 0, 0 => gc 0 l
  | 1, 1 => gc 1 l
  | 2, 2 => gc 2 l
  | 3, 3 => gc 3 l
  | 0, 1 => -gc 4 l
  | 1, 0 => -gc 4 l
  | 2, 3 => gc 5 l
  | 3, 2 => -gc 5 l
  | _, _ => 0

/-- The Fourier term `m` of the phase matrix between two directions, cut off
after the first `n` degrees. -/
noncomputable def zmat (m n : ℕ) (gc : ℕ → ℕ → ℝ) (θ₁ θ₂ : ℝ) (s t : ℕ) : ℝ :=
  eps m * ∑ l ∈ Finset.range n, if m ≤ l then
    ((l - m).factorial : ℝ) / ((l + m).factorial : ℝ) *
      ∑ j ∈ Finset.range 4, ∑ k ∈ Finset.range 4,
        kernel m l θ₁ s j * greek gc l j k * kernel m l θ₂ t k
    else 0

/-- The generalised spherical functions of intensity and of linear polarisation
for the angle of scattering. -/
noncomputable def scatI (l : ℕ) (c : ℝ) : ℝ := (legendre l).eval c
noncomputable def scatQ (l : ℕ) (c : ℝ) : ℝ :=
  -(norm2 l * ((1 - c ^ 2) * (derivative^[2] (legendre l)).eval c))

end Xrtm.PhaseVec.Spec
