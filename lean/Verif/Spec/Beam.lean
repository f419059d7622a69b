import Verif.Model.Arith

/-!
# What the direct-beam arrays should contain

Written directly from the inputs, layer by layer, without flags or stored arrays.
-/

namespace Xrtm.Spec

open Arith

variable {F : Type} [Arith F]

/-- A profile: thickness and its derivatives per layer, cosine of the solar angle, Chapman factors
(`none`: plane parallel). -/
structure Profile (F : Type) where
  tau : Nat → F
  tauL : Nat → Nat → F
  mu0 : F
  chap : Option (Nat → Nat → F)

/-- Slant path from the top through the first `i` layers, in the order of summation of C. -/
def pathSum (mu0 : F) (tau : Nat → F) : Nat → F
  | 0 => zero
  | i + 1 => add (pathSum mu0 tau i) (div (tau i) mu0)

def wSum (w tau : Nat → F) : Nat → F
  | 0 => zero
  | i + 1 => add (wSum w tau i) (mul (tau i) (w i))

/-- Slant optical depth of level `i`. -/
def slant (p : Profile F) (tau : Nat → F) : Nat → F
  | 0 => zero
  | i + 1 => match p.chap with
    | none => pathSum p.mu0 tau (i + 1)
    | some ch => wSum (ch i) tau (i + 1)

/-- Depth and transmittance at a level, average secant and transmittance of a layer. -/
def depth (p : Profile F) (i : Nat) : F := slant p p.tau i
def transmittance (p : Profile F) : Nat → F
  | 0 => one
  | i + 1 => exp (neg (depth p (i + 1)))
def secant (p : Profile F) (k : Nat) : F := div (sub (depth p (k + 1)) (depth p k)) (p.tau k)
def layerTrans (p : Profile F) (k : Nat) : F := exp (mul (neg (p.tau k)) (secant p k))

/-- Their derivatives. -/
def depthL (p : Profile F) (i j : Nat) : F := slant p (fun k => p.tauL k j) i
def transmittanceL (p : Profile F) (i j : Nat) : F :=
  match i with
  | 0 => zero
  | i + 1 => mul (neg (depthL p (i + 1) j)) (transmittance p (i + 1))
def secantL (p : Profile F) (k j : Nat) : F :=
  div (sub (sub (depthL p (k + 1) j) (depthL p k j)) (mul (secant p k) (p.tauL k j))) (p.tau k)
def layerTransL (p : Profile F) (k j : Nat) : F :=
  mul (neg (add (mul (p.tauL k j) (secant p k)) (mul (p.tau k) (secantL p k j)))) (layerTrans p k)

end Xrtm.Spec
