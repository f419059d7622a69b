import Verif.Model.Arith

/-!
# The arrays of the direct solar beam

Models `beam_params_update` (`src/xrtm_model.c:406-470`), `get_chapman` (386-399), the part
of `update_opt_props` (270-360) that gives the optical thickness, and the order in which
the solvers ask for the beam.

Simplified: the word `dep_flags_beam_params[i]` is one bit, "some bit of `beam_params_deps` is
set"; likewise `dep_flags_opt_props[i]` and `dep_flags_chapman`. The scaled thickness of a layer is an
arbitrary function `thick` of the inputs of that layer (`X`), the Chapman factors an arbitrary
function of `mu_0` and the geometry (`G`): their formulas are in `Model/DeltaM` and
`Model/Chapman`.
-/

namespace Xrtm

/-- What does not change during the life of an instance. -/
structure BeamCfg (F X G : Type) where
  /-- `n_layers` -/
  n : Nat
  /-- `XRTM_OPTION_PSA` -/
  psa : Bool
  /-- `XRTM_OPTION_DELTA_M` -/
  deltaM : Bool
  /-- the (delta-M scaled) optical thickness of a layer and its derivatives -/
  thick : X → F
  thickL : X → Nat → F
  /-- `chapman_functions` (`src/xrtm_utility.c:891-920`), from `mu_0` and the geometry -/
  chap : F → G → Nat → Nat → F

/-- The inputs, the arrays and the flags. -/
structure BeamS (F X G : Type) where
  /-- inputs of each layer -/
  raw : Nat → X
  /-- `mu_0` -/
  mu0 : F
  /-- `planet_r`, `levels_z` -/
  geom : G
  /-- `dep_flags_opt_props[i] & opt_props_deps(d)` -/
  optDirty : Nat → Bool
  /-- `ltau[i]`, `ltau_l[i][j]` -/
  ltau : Nat → F
  ltauL : Nat → Nat → F
  /-- `dep_flags_chapman & chapman_deps(d)` -/
  chapDirty : Bool
  chapman : Nat → Nat → F
  /-- `dep_flags_beam_params[i] & beam_params_deps(d)` -/
  dirty : Nat → Bool
  /-- by level -/
  btau : Nat → F
  btran : Nat → F
  btauL : Nat → Nat → F
  btranL : Nat → Nat → F
  /-- by layer -/
  as0 : Nat → F
  atran : Nat → F
  as0L : Nat → Nat → F
  atranL : Nat → Nat → F

section
variable {F X G : Type} [Arith F] (c : BeamCfg F X G)
open Arith

/-- `a[k] = v` -/
def put {A : Type} (f : Nat → A) (k : Nat) (v : A) : Nat → A := fun i => if i = k then v else f i

/-- `update_opt_props` (270-360), only the thickness; nothing without delta-M scaling (281). -/
def updateOpt (derivs : Bool) (k : Nat) (s : BeamS F X G) : BeamS F X G :=
  if c.deltaM && s.optDirty k then
    { s with
      ltau := put s.ltau k (c.thick (s.raw k))
      ltauL := if derivs then put s.ltauL k (c.thickL (s.raw k)) else s.ltauL
      optDirty := put s.optDirty k false }
  else s

/-- `get_chapman` (386-399). -/
def getChapman (s : BeamS F X G) : BeamS F X G :=
  if s.chapDirty then { s with chapDirty := false, chapman := c.chap s.mu0 s.geom } else s

/-- `for (j = 0; j < i; ++j) a += x[j] * y[j];` -/
def dot (x y : Nat → F) : Nat → F
  | 0 => zero
  | i + 1 => add (dot x y i) (mul (x i) (y i))

/-- One pass of the loop 431-467, for `i = k + 1`. -/
def beamStep (derivs : Bool) (s : BeamS F X G) (k : Nat) : BeamS F X G :=
  let s := updateOpt c derivs k { s with dirty := put s.dirty k false }
  let btau := put s.btau (k + 1)
    (if !c.psa then add (s.btau k) (div (s.ltau k) s.mu0) else dot s.ltau (s.chapman k) (k + 1))
  let btran := put s.btran (k + 1) (exp (neg (btau (k + 1))))
  let as0 := put s.as0 k (div (sub (btau (k + 1)) (btau k)) (s.ltau k))
  let atran := put s.atran k (exp (mul (neg (s.ltau k)) (as0 k)))
  let s := { s with btau, btran, as0, atran }
  if derivs then
    let btauL := put s.btauL (k + 1) fun j =>
      if !c.psa then add (s.btauL k j) (div (s.ltauL k j) s.mu0)
      else dot (fun l => s.ltauL l j) (s.chapman k) (k + 1)
    let btranL := put s.btranL (k + 1) fun j => mul (neg (btauL (k + 1) j)) (s.btran (k + 1))
    let as0L := put s.as0L k fun j =>
      div (sub (sub (btauL (k + 1) j) (btauL k j)) (mul (s.as0 k) (s.ltauL k j))) (s.ltau k)
    let atranL := put s.atranL k fun j =>
      mul (neg (add (mul (s.ltauL k j) (s.as0 k)) (mul (s.ltau k) (as0L k j)))) (s.atran k)
    { s with btauL, btranL, as0L, atranL }
  else s

/-- The loop 422-425: the number of layers before the first one that is flagged, at most `m`. -/
def firstDirty (d : Nat → Bool) : Nat → Nat
  | 0 => 0
  | m + 1 => if firstDirty d m = m ∧ d m = false then m + 1 else firstDirty d m

/-- The loop 430-468 from layer `i0` up to layer `m - 1`. -/
def beamLoop (derivs : Bool) (i0 : Nat) (s : BeamS F X G) : Nat → BeamS F X G
  | 0 => s
  | m + 1 => if i0 ≤ m then beamStep c derivs (beamLoop derivs i0 s m) m else beamLoop derivs i0 s m

/-- `i_level2` (417-420): how many layers a request for level `lvl` looks at. -/
def upTo (n lvl : Nat) : Nat := if lvl = n then lvl else lvl + 1

/-- `beam_params_update` (406-470), with the solar source. -/
def beamUpdate (derivs : Bool) (s : BeamS F X G) (lvl : Nat) : BeamS F X G :=
  let m := upTo c.n lvl
  let i0 := firstDirty s.dirty m
  let s := if c.psa then getChapman c s else s
  beamLoop c derivs i0 s m

/-- What happens to an instance, as far as the beam is concerned. -/
inductive BOp (F X G : Type)
  /-- an accepted `xrtm_set_{coef,omega,ltau}*` for layers `lo .. hi - 1`, with `set_deps` over that
  range (`src/xrtm_interface.c:419-457`); without delta-M `ltau` is the input array itself (1262) -/
  | layers (lo hi : Nat) (x : Nat → X)
  /-- an accepted setter of `mu_0`, `planet_r`, `levels_z`: notices for all layers -/
  | geom (mu0 : F) (g : G)
  /-- a notice without a change, e.g. `xrtm_set_out_taus` -/
  | touch
  /-- `update_opt_props` from elsewhere (`src/xrtm_model.c:2270`) -/
  | opt (derivs : Bool) (k : Nat)
  /-- a solution: the levels for which the solver asks, in order. `derivs`: `XRTM_OPTION_CALC_DERIVS` is on
  during the call -/
  | solve (derivs : Bool) (lvls : List Nat)

/-- The requests of one solution, in order. -/
def beamSolve (derivs : Bool) (lvls : List Nat) (s : BeamS F X G) : BeamS F X G :=
  lvls.foldl (beamUpdate c derivs) s

def beamApply (s : BeamS F X G) : BOp F X G → BeamS F X G
  | .layers lo hi x =>
      let inR := fun k => decide (lo ≤ k) && decide (k < hi)
      { s with
        raw := fun k => if inR k then x k else s.raw k
        ltau := fun k => if inR k && !c.deltaM then c.thick (x k) else s.ltau k
        ltauL := fun k => if inR k && !c.deltaM then c.thickL (x k) else s.ltauL k
        optDirty := fun k => inR k || s.optDirty k
        dirty := fun k => inR k || s.dirty k }
  | .geom mu0 g =>
      { s with mu0, geom := g, chapDirty := true, dirty := fun k => decide (k < c.n) || s.dirty k }
  | .touch =>
      { s with optDirty := fun k => decide (k < c.n) || s.optDirty k,
               dirty := fun k => decide (k < c.n) || s.dirty k }
  | .opt derivs k => updateOpt c derivs k s
  | .solve derivs lvls => beamSolve c derivs lvls s

/-- After creation: everything flagged (`init_deps`), level 0 filled in
(`src/xrtm_interface.c:1832-1840`). -/
def beamInit (s : BeamS F X G) : BeamS F X G :=
  { s with optDirty := fun _ => true, chapDirty := true, dirty := fun _ => true
           ltau := if c.deltaM then s.ltau else fun k => c.thick (s.raw k)
           ltauL := if c.deltaM then s.ltauL else fun k => c.thickL (s.raw k)
           btau := put s.btau 0 zero, btran := put s.btran 0 one
           btauL := put s.btauL 0 fun _ => zero, btranL := put s.btranL 0 fun _ => zero }

end

/-- The levels requested when adding both ways (`fourier_get_add_both_ways`, 4739-4955: the loop
of `get_total_R_T_S_U_W_V`, 3411-3468, then `update_diff_bound_input`, 4169). -/
def bothWays (n : Nat) : List Nat := List.range n ++ [n]

end Xrtm
