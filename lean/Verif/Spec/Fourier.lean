import Verif.Model.Fourier
import Mathlib.Analysis.SpecialFunctions.Trigonometric.Basic

/-!
# What the Fourier sum and the integrated outputs should be

Nothing here refers to the loops, to the running count or to `e`.
-/

namespace Xrtm.Fourier

noncomputable instance fnumReal : FNum ℝ where
  zero := 0
  add := (· + ·)
  sub := (· - ·)
  mul := (· * ·)
  div := (· / ·)
  abs := fun x => |x|
  cos := Real.cos
  sin := Real.sin
  lt := fun a b => decide (a < b)
  ne0 := fun a => decide (a ≠ 0)
  nat := fun n => n
  pi := Real.pi
  d2r := Real.pi / 180

namespace Spec

variable {K : Type} [FNum K]

/-- `raw` and `cor` are the terms before and after the corrections, for as long as the solver and the
corrections succeed: each is computed on the arrays left by the one before. -/
def Terms (env : Env K) (r0 : Rad K) (n : Nat) (raw cor : Nat → Rad K) : Prop :=
  ∀ i, i < n → env.getFourier i (match i with | 0 => r0 | p + 1 => cor p) = some (raw i) ∧
    env.corrFourier i (raw i) = some (cor i)

/-- `a + t 0 + t 1 + ... + t (k - 1)`, added in this order. -/
def series (a : K) (t : Nat → K) : Nat → K
  | 0 => a
  | k + 1 => FNum.add (series a t k) (t k)

/-- The angles a user gets: their own if they gave some, the quadrature angles otherwise. -/
def angles (c : Cfg K) : Nat := if c.nUmus = 0 then c.nQuad else c.nUmus

/-- The stream of output angle `k`, component `s`. User angles follow the quadrature angles. -/
def stream (c : Cfg K) (k s : Nat) : Nat := (if c.nUmus = 0 then k else c.nQuad + k) * c.nStokes + s

/-- Term `i` of the series at angle `k`, azimuth `l`, component `s`: intensity and the first linear
polarisation go with the cosine, the others with the sine. -/
def azTerm (c : Cfg K) (i k l s : Nat) (row : Nat → K) : K :=
  let a := FNum.mul (FNum.mul (FNum.nat i) (FNum.sub (c.phis k l) c.phi0)) FNum.d2r
  FNum.mul (row (stream c k s)) (if s < 2 then FNum.cos a else FNum.sin a)

/-- `(j, k, l, s)` is an output of the run. -/
def Cell (c : Cfg K) (j k l s : Nat) : Prop :=
  j < c.nLevels ∧ k < angles c ∧ l < c.nPhis ∧ s < c.nStokes

/-- The radiances are those of `I0` with the first `n` terms added, and nothing else is changed. -/
structure Summed (c : Cfg K) (I0 : Four K) (cor : Nat → Rad K) (n : Nat) (I : Four K) : Prop where
  p : ∀ j k l s, Cell c j k l s → has c.options OPT_UPWELLING_OUTPUT = true →
    I.p j k l s = series (I0.p j k l s) (fun i => azTerm c i k l s ((cor i).p j)) n
  m : ∀ j k l s, Cell c j k l s → has c.options OPT_DOWNWELLING_OUTPUT = true →
    I.m j k l s = series (I0.m j k l s) (fun i => azTerm c i k l s ((cor i).m j)) n
  pl : ∀ j d k l s, Cell c j k l s → d < c.nDerivs → has c.options OPT_CALC_DERIVS = true →
    has c.options OPT_UPWELLING_OUTPUT = true →
    I.pl j d k l s = series (I0.pl j d k l s) (fun i => azTerm c i k l s ((cor i).pl j d)) n
  ml : ∀ j d k l s, Cell c j k l s → d < c.nDerivs → has c.options OPT_CALC_DERIVS = true →
    has c.options OPT_DOWNWELLING_OUTPUT = true →
    I.ml j d k l s = series (I0.ml j d k l s) (fun i => azTerm c i k l s ((cor i).ml j d)) n
  p' : ∀ j k l s, ¬ (Cell c j k l s ∧ has c.options OPT_UPWELLING_OUTPUT = true) → I.p j k l s = I0.p j k l s
  m' : ∀ j k l s, ¬ (Cell c j k l s ∧ has c.options OPT_DOWNWELLING_OUTPUT = true) → I.m j k l s = I0.m j k l s
  pl' : ∀ j d k l s, ¬ (Cell c j k l s ∧ d < c.nDerivs ∧ has c.options OPT_CALC_DERIVS = true ∧
    has c.options OPT_UPWELLING_OUTPUT = true) → I.pl j d k l s = I0.pl j d k l s
  ml' : ∀ j d k l s, ¬ (Cell c j k l s ∧ d < c.nDerivs ∧ has c.options OPT_CALC_DERIVS = true ∧
    has c.options OPT_DOWNWELLING_OUTPUT = true) → I.ml j d k l s = I0.ml j d k l s

/-- Exact arithmetic. Term `i` is below the tolerance: nowhere is its intensity as much as `tol` times
the sum up to and including it. Places where that sum is zero do not count. -/
def Below (c : Cfg ℝ) (I0 : Four ℝ) (cor : Nat → Rad ℝ) (i : Nat) : Prop :=
  ∀ j k l, j < c.nLevels → k < angles c → l < c.nPhis →
    (has c.options OPT_UPWELLING_OUTPUT = true →
      let t := fun i => azTerm c i k l 0 ((cor i).p j)
      series (I0.p j k l 0) t (i + 1) ≠ 0 → |t i| < c.tol * |series (I0.p j k l 0) t (i + 1)|) ∧
    (has c.options OPT_DOWNWELLING_OUTPUT = true →
      let t := fun i => azTerm c i k l 0 ((cor i).m j)
      series (I0.m j k l 0) t (i + 1) ≠ 0 → |t i| < c.tol * |series (I0.m j k l 0) t (i + 1)|)

/-- The series may end with `n` terms: the last two are below the tolerance, and neither is the first
term of the series. -/
def MayEnd (c : Cfg ℝ) (I0 : Four ℝ) (cor : Nat → Rad ℝ) (n : Nat) : Prop :=
  3 ≤ n ∧ 0 < c.tol ∧ Below c I0 cor (n - 1) ∧ Below c I0 cor (n - 2)

/-- The number of terms to use: the first at which the series may end, or all of them. -/
def Enough (c : Cfg ℝ) (I0 : Four ℝ) (cor : Nat → Rad ℝ) (avail n : Nat) : Prop :=
  n ≤ avail ∧ (n = avail ∨ MayEnd c I0 cor n) ∧ ∀ m, m < n → ¬ MayEnd c I0 cor m

/-! ### Integrated outputs -/

/-- Mean intensity and flux over a hemisphere by quadrature, from the intensity `I q` at each quadrature
angle, with weight `w q` and cosine `x q`. -/
noncomputable def meanOf (n : Nat) (w : Nat → ℝ) (I : Nat → ℝ) : ℝ := (∑ q ∈ Finset.range n, w q * I q) / 2
noncomputable def fluxOf (n : Nat) (x w : Nat → ℝ) (I : Nat → ℝ) : ℝ :=
  2 * Real.pi * ∑ q ∈ Finset.range n, x q * w q * I q

/-- The downward mean intensity and flux at a level the direct beam reaches with transmittance `t`. -/
noncomputable def meanDown (n : Nat) (w : Nat → ℝ) (I : Nat → ℝ) (F0 t : ℝ) : ℝ :=
  meanOf n w I + F0 * t / (4 * Real.pi)
noncomputable def fluxDown (n : Nat) (x w : Nat → ℝ) (I : Nat → ℝ) (F0 mu0 t : ℝ) : ℝ :=
  fluxOf n x w I + mu0 * F0 * t

end Spec
end Xrtm.Fourier
