import Verif.Model.Options

/-!
# The loop over the terms of the Fourier series

`get_solution_internal` (`src/xrtm_model.c:6113-6390`) with `azimuth_modes` (6060-6095) and
`max_radiance_ratio` (6099-6109), and `radiance_to_mean`, `radiance_to_flux`
(`src/xrtm_radiance.c:574-603`).

What a single term is (`get_fourier`), what the corrections add (`apply_corrections_radiance`,
`apply_corrections_fourier`) and the single scattering solver (`get_single`) are given functions, any
of the first three may fail. The saving for reverse derivatives (6181-6190, 6237-6257, 6376-6382) is
left out: it does not touch the results. The number type has the operations of C, uninterpreted.
-/

namespace Xrtm.Fourier

/-- The operations on `double` used here. -/
class FNum (K : Type) where
  zero : K
  add : K → K → K
  sub : K → K → K
  mul : K → K → K
  div : K → K → K
  /-- `fabs` -/
  abs : K → K
  cos : K → K
  sin : K → K
  /-- C `<`; `a > b` is `lt b a` -/
  lt : K → K → Bool
  /-- C `!= 0.` -/
  ne0 : K → Bool
  /-- the conversion of an `int` -/
  nat : Nat → K
  pi : K
  /-- `D2R` -/
  d2r : K

variable {K : Type} [FNum K]
open FNum

/-- `MAX` (`misc/gutil.h:296`). -/
def max2 (a b : K) : K := if lt b a then a else b

/-- `max_radiance_ratio` (`src/xrtm_model.c:6099-6109`). -/
def ratio (I1 I2 : K) : K := if ne0 I1 then max2 zero (abs (div I2 I1)) else zero

/-- The fields of `xrtm_data` and the arguments that are read. -/
structure Cfg (K : Type) where
  options : Word
  solutions : Word
  nQuad : Nat
  nUmus : Nat
  nStokes : Nat
  nLevels : Nat
  nPhis : Nat
  nDerivs : Nat
  nLayers : Nat
  nFour2 : Nat
  tol : K
  phi0 : K
  F0 : K
  mu0 : K
  /-- `phis[k][l]` -/
  phis : Nat → Nat → K
  /-- `qx_v`, `qw_v` -/
  qx : Nat → K
  qw : Nat → K
  btran : Nat → K

/-- `i_p[j][q]`, `i_m[j][q]`, `i_p_l[j][m][q]`, `i_m_l[j][m][q]`: the work arrays of one term. -/
structure Rad (K : Type) where
  p : Nat → Nat → K
  m : Nat → Nat → K
  pl : Nat → Nat → Nat → K
  ml : Nat → Nat → Nat → K

/-- `I_p[j][k][l][s]` and so on; the derivatives `I_p_l[j][m][k][l][s]`. -/
structure Four (K : Type) where
  p : Nat → Nat → Nat → Nat → K
  m : Nat → Nat → Nat → Nat → K
  pl : Nat → Nat → Nat → Nat → Nat → K
  ml : Nat → Nat → Nat → Nat → Nat → K

/-- Everything the caller can look at afterwards. `count` is `misc_output.fourier_count`, `none` until
it is set. -/
structure Out (K : Type) where
  rad : Four K
  meanP : Nat → K
  meanM : Nat → K
  meanPl : Nat → Nat → K
  meanMl : Nat → Nat → K
  fluxP : Nat → K
  fluxM : Nat → K
  fluxPl : Nat → Nat → K
  fluxMl : Nat → Nat → K
  fluxDiv : Nat → K
  fluxDivL : Nat → Nat → K
  count : Option Nat

/-- The parts that are not modelled. `get_fourier` and `apply_corrections_fourier` work on arrays that
hold the previous term. -/
structure Env (K : Type) where
  getFourier : Nat → Rad K → Option (Rad K)
  corrFourier : Nat → Rad K → Option (Rad K)
  corrRadiance : Four K → Option (Four K)
  getSingle : Four K → Four K

variable (c : Cfg K)

def Cfg.up : Bool := has c.options OPT_UPWELLING_OUTPUT
def Cfg.dn : Bool := has c.options OPT_DOWNWELLING_OUTPUT
def Cfg.derivs : Bool := has c.options OPT_CALC_DERIVS
def Cfg.radiance : Bool := has c.solutions OUTPUT_RADIANCE

/-- `n_mus2` and `i_mus2` (6157-6164). -/
def Cfg.nMus2 : Nat := if c.nUmus = 0 then c.nQuad else c.nUmus
def Cfg.iMus2 : Nat := if c.nUmus = 0 then 0 else c.nQuad

/-- `n_four` (6176-6179). -/
def Cfg.nFour : Nat := if c.radiance then c.nFour2 else 1

/-- `azimuth_modes` (6060-6095) for one angle, `n_stokes` at most 4: components 0 and 1 take the first
factor, 2 and 3 the second. -/
def mode (a b : K) (v : Nat → K) (s : Nat) : K := if s < 2 then mul (v s) a else mul (v s) b

/-- `a` of line 6321. -/
def arg (i k l : Nat) : K := mul (mul (nat i) (sub (c.phis k l) c.phi0)) d2r

/-- The vector added for term `i` at angle `k`, azimuth `l`: `v` is `&i_p[j][kk]`, `kk` starting at
`i_mus2 * n_stokes` and growing by `n_stokes` with each angle (6317, 6361). The sine is only computed,
and only used, with more than two components (6324-6325). -/
def term (i k l : Nat) (row : Nat → K) (s : Nat) : K :=
  mode (cos (arg c i k l)) (sin (arg c i k l))
    (fun t => row (c.iMus2 * c.nStokes + k * c.nStokes + t)) s

/-- `dvec_add` into one `[j][k][l]` (6330, 6335). -/
def addAt (I : Nat → Nat → Nat → Nat → K) (j k l n : Nat) (v : Nat → K) : Nat → Nat → Nat → Nat → K :=
  fun j' k' l' s => if j' = j ∧ k' = k ∧ l' = l ∧ s < n then add (I j' k' l' s) (v s) else I j' k' l' s

/-- The loop over derivatives (6346-6358), one direction. -/
def addDerivs (I : Nat → Nat → Nat → Nat → Nat → K) (j k l n nd : Nat) (v : Nat → Nat → K) :
    Nat → Nat → Nat → Nat → Nat → K :=
  fun j' m' k' l' s =>
    if j' = j ∧ m' < nd ∧ k' = k ∧ l' = l ∧ s < n then add (I j' m' k' l' s) (v m' s) else I j' m' k' l' s

/-- Lines 6327-6358 without `e`. -/
def addTerm (i : Nat) (r : Rad K) (I : Four K) (t : Nat × Nat × Nat) : Four K :=
  let (j, k, l) := t
  { p := if c.up then addAt I.p j k l c.nStokes (term c i k l (r.p j)) else I.p
    m := if c.dn then addAt I.m j k l c.nStokes (term c i k l (r.m j)) else I.m
    pl := if c.derivs && c.up then
        addDerivs I.pl j k l c.nStokes c.nDerivs (fun m => term c i k l (r.pl j m)) else I.pl
    ml := if c.derivs && c.dn then
        addDerivs I.ml j k l c.nStokes c.nDerivs (fun m => term c i k l (r.ml j m)) else I.ml }

/-- Lines 6338-6344: `I` already includes the term. -/
def addErr (i : Nat) (r : Rad K) (I : Four K) (t : Nat × Nat × Nat) (e : K) : K :=
  let (j, k, l) := t
  if lt zero c.tol && decide (0 < i) then
    let e1 := if c.up then max2 e (ratio (I.p j k l 0) (term c i k l (r.p j) 0)) else e
    if c.dn then max2 e1 (ratio (I.m j k l 0) (term c i k l (r.m j) 0)) else e1
  else e

/-- The order of the three loops (6315-6320). -/
def Cfg.cells : List (Nat × Nat × Nat) :=
  (List.range c.nLevels).flatMap fun j => (List.range c.nMus2).flatMap fun k =>
    (List.range c.nPhis).map fun l => (j, k, l)

/-- Lines 6314-6363: all outputs of a term, and `e`. -/
def addAll (i : Nat) (r : Rad K) (I : Four K) : Four K × K :=
  c.cells.foldl (fun (Ie : Four K × K) t =>
    (addTerm c i r Ie.1 t, addErr c i r (addTerm c i r Ie.1 t) t Ie.2)) (I, zero)

/-- `a += ...` over the first `n` components. -/
def sumUp (f : Nat → K) (n : Nat) : K := (List.range n).foldl (fun a i => add a (f i)) zero

/-- `radiance_to_mean` (`src/xrtm_radiance.c:574-585`): the other arguments are not used. -/
def toMean (n : Nat) (I : Nat → K) : K := div (sumUp (fun i => mul (c.qw i) (I i)) n) (nat 2)

/-- `radiance_to_flux` (`src/xrtm_radiance.c:592-603`). -/
def toFlux (n : Nat) (I : Nat → K) : K :=
  mul (mul (sumUp (fun i => mul (mul (c.qx i) (c.qw i)) (I i)) n) (nat 2)) pi

/-- `n_quad_v` (`src/xrtm_interface.c:1096`): the directions times the Stokes components. -/
def Cfg.nQuadV : Nat := c.nQuad * c.nStokes

/-- `jj` (6268, 6284). -/
def Cfg.level (j : Nat) : Nat := if j = 0 then 0 else c.nLayers

/-- Setting the first `n` elements. -/
def fill (n : Nat) (v f : Nat → K) : Nat → K := fun j => if j < n then v j else f j

/-- Lines 6263-6275. -/
def means (r : Rad K) (o : Out K) : Out K :=
  { o with
    meanP := if c.up then fill c.nLevels (fun j => toMean c c.nQuadV (r.p j)) o.meanP else o.meanP
    meanM := if c.dn then fill c.nLevels (fun j => add (toMean c c.nQuadV (r.m j))
      (div (mul c.F0 (c.btran (c.level j))) (mul (nat 4) pi))) o.meanM else o.meanM }

/-- Lines 6281-6292. -/
def fluxes (r : Rad K) (o : Out K) : Out K :=
  { o with
    fluxP := if c.up then fill c.nLevels (fun j => toFlux c c.nQuadV (r.p j)) o.fluxP else o.fluxP
    fluxM := if c.dn then fill c.nLevels (fun j => add (toFlux c c.nQuadV (r.m j))
      (mul (mul c.F0 c.mu0) (c.btran (c.level j)))) o.fluxM else o.fluxM }

/-- Lines 6263-6304. The branch for flux divergence (6298-6303) does nothing. -/
def sums (i : Nat) (r : Rad K) (o : Out K) : Out K :=
  let o1 := if has c.solutions OUTPUT_RADIANCE_MEAN && decide (i = 0) then means c r o else o
  if has c.solutions OUTPUT_FLUX && decide (i = 0) then fluxes c r o1 else o1

/-- The loop (6234-6374): `left` terms from `i` on. On failure the outputs are left as they are. -/
def loop (env : Env K) : (left i count : Nat) → Rad K → Out K → Except (Out K) (Out K)
  | 0, i, _, _, o => .ok { o with count := some i }
  | left + 1, i, count, r, o =>
    match env.getFourier i r with
    | none => .error o
    | some r1 =>
      let o1 := sums c i r1 o
      match env.corrFourier i r1 with
      | none => .error o1
      | some r2 =>
        if c.radiance then
          let Ie := addAll c i r2 o1.rad
          let o2 := { o1 with rad := Ie.1 }
          let count' := if decide (0 < i) && lt Ie.2 c.tol then count + 1 else 0
          if 2 ≤ count' then .ok { o2 with count := some (i + 1) }
          else loop env left (i + 1) count' r2 o2
        else loop env left (i + 1) count r2 o1

/-- `init_array4_d`, `init_array5_d` (6213-6221): `n_ulevels`, angles, azimuths, components. -/
def zeroed (I : Four K) : Four K :=
  { p := fun j k l s => if j < c.nLevels ∧ k < c.nMus2 ∧ l < c.nPhis ∧ s < c.nStokes then zero else I.p j k l s
    m := fun j k l s => if j < c.nLevels ∧ k < c.nMus2 ∧ l < c.nPhis ∧ s < c.nStokes then zero else I.m j k l s
    pl := fun j m k l s => if c.derivs = true ∧ j < c.nLevels ∧ m < c.nDerivs ∧ k < c.nMus2 ∧ l < c.nPhis ∧ s < c.nStokes
      then zero else I.pl j m k l s
    ml := fun j m k l s => if c.derivs = true ∧ j < c.nLevels ∧ m < c.nDerivs ∧ k < c.nMus2 ∧ l < c.nPhis ∧ s < c.nStokes
      then zero else I.ml j m k l s }

/-- Setting the outputs to zero and adding the corrections (6212-6231). -/
def prepare (env : Env K) (I : Four K) : Option (Four K) :=
  if c.radiance then env.corrRadiance (zeroed c I) else some I

/-- `get_solution_internal`. `r0` is what the work arrays happen to hold. -/
def run (env : Env K) (single : Bool) (r0 : Rad K) (o : Out K) : Except (Out K) (Out K) :=
  if single then .ok { o with rad := env.getSingle o.rad }
  else
    match prepare c env o.rad with
    | none => .error { o with rad := zeroed c o.rad }
    | some I => loop c env c.nFour 0 0 r0 { o with rad := I }

end Xrtm.Fourier
