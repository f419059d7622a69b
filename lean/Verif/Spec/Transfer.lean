import Verif.Spec.Adding
import Mathlib.Analysis.SpecialFunctions.ExpDeriv
import Mathlib.Analysis.Real.Pi.Bounds

/-!
# The equation of radiative transfer

In discrete directions, with the optical depth `τ` growing downwards.  Nothing
here refers to the routines.
-/

namespace Xrtm.Transfer
open Xrtm.Spec

variable {n : Nat}

/-- A uniform medium: cosines and weights of the directions, the part of the
light that is scattered (with the factor of the Fourier term), and the phase
matrices; the first sign is the one of the direction left in, the second the one
come from, `p` up and `m` down. -/
structure Medium (n : Nat) where
  mu : Fin n → ℝ
  w : Fin n → ℝ
  k : ℝ
  Ppp : Matrix (Fin n) (Fin n) ℝ
  Pmp : Matrix (Fin n) (Fin n) ℝ
  Pmm : Matrix (Fin n) (Fin n) ℝ
  Ppm : Matrix (Fin n) (Fin n) ℝ

/-- The medium for one Fourier term.  The phase matrices carry the factor of the
term (C48_fourier); the integral of the square of the cosine over the azimuth is
`2 pi` for the first term and `pi` for the others, and scattering takes the share
`om / (4 pi)` of it. -/
noncomputable def Medium.of (first : Bool) (mu w : Fin n → ℝ) (om : ℝ)
    (Ppp Pmp Pmm Ppm : Matrix (Fin n) (Fin n) ℝ) : Medium n :=
  ⟨mu, w, om / (4 * Real.pi) * (if first then 2 * Real.pi else Real.pi), Ppp, Pmp, Pmm, Ppm⟩

/-- Sign of the Stokes parameter under a reflection in the horizontal plane. -/
def stokesSign (ns i : Nat) : ℝ := if 2 ≤ i % ns then -1 else 1

/-- The medium looks the same from above and from below. -/
def Medium.Mirrored (m : Medium n) (ns : Nat) : Prop :=
  ∀ i j, m.Pmm i j = stokesSign ns i * stokesSign ns j * m.Ppp i j ∧
    m.Ppm i j = stokesSign ns i * stokesSign ns j * m.Pmp i j

/-- Light scattered into the direction `i` upwards. -/
def Medium.intoUp (m : Medium n) (up dn : Fin n → ℝ) (i : Fin n) : ℝ :=
  m.k * ∑ j, m.w j * (m.Ppp i j * up j + m.Ppm i j * dn j)

/-- Light scattered into the direction `i` downwards. -/
def Medium.intoDn (m : Medium n) (up dn : Fin n → ℝ) (i : Fin n) : ℝ :=
  m.k * ∑ j, m.w j * (m.Pmp i j * up j + m.Pmm i j * dn j)

/-- `up` and `dn`, at every depth, are light in the medium with the sources
`qp` and `qm`. -/
def Medium.Carries (m : Medium n) (qp qm up dn : ℝ → Fin n → ℝ) : Prop :=
  ∀ τ i, ∃ u d, HasDerivAt (fun s => up s i) u τ ∧ HasDerivAt (fun s => dn s i) d τ ∧
    m.mu i * u = up τ i - m.intoUp (up τ) (dn τ) i - qp τ i ∧
    -(m.mu i * d) = dn τ i - m.intoDn (up τ) (dn τ) i - qm τ i

/-- The layer of thickness `T` of the medium is what `l` says: all light in it
obeys `l`. -/
def Medium.Fills (m : Medium n) (qp qm : ℝ → Fin n → ℝ) (T : ℝ) (l : Layer n ℝ) : Prop :=
  ∀ up dn, m.Carries qp qm up dn → l.Obeys (dn 0) (up 0) (dn T) (up T)

/-- The single scattering of a beam `F0` that is dimmed by `as0` along the
depth. -/
noncomputable def beamSource (F0 om as0 : ℝ) (P : Fin n → ℝ) (τ : ℝ) (i : Fin n) : ℝ :=
  F0 / (4 * Real.pi) * om * P i * Real.exp (-as0 * τ)

/-- Thermal emission, linear in depth from `b0` at the top to `b1` at the
bottom.  It is not polarised: it is in the first of the `ns` Stokes parameters
of each direction only. -/
noncomputable def thermalSource (ns : Nat) (om b0 b1 T : ℝ) (τ : ℝ) (i : Fin n) : ℝ :=
  if i.val % ns = 0 then (1 - om) * (b0 + (b1 - b0) / T * τ) else 0

end Xrtm.Transfer
