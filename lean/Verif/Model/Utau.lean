import Mathlib.Order.Defs.LinearOrder
import Mathlib.Algebra.Group.Defs
import Verif.Model.DeltaM

/-!
# Locating output optical depths: `update_utaus`

`src/xrtm_model.c:197-251` and `check_inputs_post_checks` (`src/xrtm_interface.c:2590-2617`). The numbers
are any linearly ordered type with an addition and a subtraction of which nothing is assumed here, so
rounding is allowed (NaN is not). Reading `ttau` outside `[0, n_layers]` is the outcome `none`.
-/

namespace Xrtm

variable {F : Type} [LinearOrder F]

/-- `ttau[]` (213-216). -/
def ttau [Zero F] [Add F] (ltau : Nat → F) : Nat → F
  | 0 => 0
  | i + 1 => ttau ltau i + ltau i

/-- `check_inputs_post_checks` (2599-2613), on `n` layers and `m` depths; the sum of 2596-2598 is built in
the same order as `ttau`. `true` is acceptance. -/
def postCheck [Zero F] [Add F] (ltau u : Nat → F) (n m : Nat) : Bool :=
  let a := ttau ltau n
  !(decide (u 0 < 0) || decide (u 0 > a)) &&
    (List.range m).all fun i => i == 0 || !(decide (u i ≤ u (i - 1)) || decide (u i > a))

/-- `for ( ; utaus[i] >= ttau[ii]; ++ii) ;` (221). -/
def scan (tt : Nat → F) (n : Nat) (u : F) (ii : Nat) : Option Nat :=
  if ii > n then none
  else if tt ii ≤ u then scan tt n u (ii + 1)
  else some ii
termination_by n + 1 - ii

/-- `ulevels` and `utaus20`. -/
structure Loc (F : Type) where
  ulevels : Nat → Int
  utaus20 : Nat → F

def Loc.set (l : Loc F) (i : Nat) (k : Int) (x : F) : Loc F :=
  ⟨fun j => if j = i then k else l.ulevels j, fun j => if j = i then x else l.utaus20 j⟩

/-- First loop (218-225), from depth `i`, `k` depths left. `ii - 1` at `ii = 0` reads `ttau[-1]`. -/
def loop1 [Sub F] (tt u : Nat → F) (n : Nat) : Nat → Nat → Nat → Loc F → Option (Loc F)
  | 0, _, _, l => some l
  | k + 1, i, ii, l =>
      if u i = tt n then some l
      else match scan tt n (u i) ii with
        | none => none
        | some 0 => none
        | some (j + 1) => loop1 tt u n k (i + 1) (j + 1) (l.set i j (u i - tt j))

/-- Second loop (227-233). -/
def loop2 [Sub F] (tt u : Nat → F) (n : Nat) : Nat → Nat → Loc F → Loc F
  | 0, _, l => l
  | k + 1, i, l =>
      loop2 tt u n k (i + 1) (if u i = tt n then l.set i ((n : Int) - 1) (u i - tt (n - 1)) else l)

/-- Both loops; `m` depths, `l` the arrays before. -/
def locate [Sub F] (tt u : Nat → F) (n m : Nat) (l : Loc F) : Option (Loc F) :=
  (loop1 tt u n m 0 0 l).map (loop2 tt u n m 0)

/-- The delta-M part (236-247): `utaus2[i]` from `utaus20[i]` with the factors of layer `ulevels[i]`. -/
noncomputable def utaus2 (n2 : Nat) (nCoef : Nat → Nat) (coef : Nat → Nat → Nat → ℝ) (omega0 : Nat → ℝ)
    (l : Loc ℝ) (i : Nat) : ℝ :=
  let ii := (l.ulevels i).toNat
  deltaMLtau (deltaMF (nCoef ii) n2 (coef ii)) (omega0 ii) (l.utaus20 i)

end Xrtm
