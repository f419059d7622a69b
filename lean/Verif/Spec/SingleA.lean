import Verif.Model.SingleA

/-! Weights and derivatives: what the weights give for one derivative of all inputs. -/

namespace Xrtm.SingleA.Spec

open Single

/-- Weights times derivatives, over `N` cells. -/
def vdot (N : Nat) (a b : Nat → ℝ) : ℝ := ∑ k ∈ Finset.range N, a k * b k

/-- What the weights of the atmosphere give for derivative `j`; the phase function of a layer that is not flagged does not
vary. -/
def dot (p : Prof ℝ) (j : Nat) (w : Wt) : ℝ :=
  vdot p.nLayers w.omega (fun n => p.omegaL n j) + vdot p.nLayers w.ltau (fun n => p.ltauL n j) +
    vdot p.nLayers w.btran (fun n => p.btranL n j) + vdot p.nLayers w.as0 (fun n => p.as0L n j) +
    ∑ n ∈ Finset.range p.nLayers, vdot (p.nUmus * p.nStokes) (w.P n) (fun kk => if p.flag n j then p.PL n j kk else 0)

/-- The same for the correction: `pt` has the derivatives of the truncated phase function and of the albedo that goes with
it, `pf` those of the full one. -/
def tdot (pt pf : Prof ℝ) (j : Nat) (x : TRes) : ℝ :=
  dot pt j ⟨x.omega, x.ltau, x.btran, x.as0, x.Ptrun⟩ + dot pf j ⟨x.omega2, fun _ => 0, fun _ => 0, fun _ => 0, x.Pfull⟩

end Xrtm.SingleA.Spec
