import Verif.Model.Loops
import Mathlib.Analysis.SpecialFunctions.Exp
import Mathlib.Analysis.SpecialFunctions.Sqrt
import Mathlib.Analysis.Real.Pi.Bounds
import Mathlib.LinearAlgebra.Matrix.NonsingularInverse

/-!
# The two stream solver

src/xrtm_two_stream.c:50-1025, with `SOLVER` the general solver of LAPACK; called in
src/xrtm_model.c:5266-5295; the values come through src/xrtm_interface.c:4022-4075.

Numbers are real, with not-a-number (the root of a negative number, a division by
zero) as an outcome of its own.  Running indices are written as their values; one
parameter to be differentiated by at a time.  `dgetrf` and `dgetrs` are a solver of
linear systems that is given.  Not here: the radiances for directions other than
that of the quadrature (`n_umus > 0`, 1028-1290 and `sfi`), and the text that is
switched off (`if (0)`, the band solver, the pentadiagonal solver).
-/

namespace Xrtm.TwoStream
open Xrtm.Loops

/-- What comes out: not a number, a singular matrix (`exit(1)`), a write out of the
array, or a value. -/
inductive Res (α : Type) where
  | nan
  | singular
  | out
  | ok (a : α)

/-- What goes in; `g` is `coef[i][0][1]`. -/
structure Inp where
  first : Bool
  L : Nat
  qx : ℝ
  F0 : ℝ
  mu0 : ℝ
  g : Nat → ℝ
  om : Nat → ℝ
  ltau : Nat → ℝ
  btran : Nat → ℝ
  as0 : Nat → ℝ
  atran : Nat → ℝ
  Rq0 : ℝ
  Rqq : ℝ
  solar : Bool
  surface : Bool

/-- The loop of `xrtm_set_coef_x`, src/xrtm_interface.c:4069-4073: the coefficients of
a layer after `n` have been set. -/
def setCoef (n : Nat) (c : Nat → ℝ) (coef0 : Nat → ℝ) : Nat → ℝ :=
  forN n (fun k a => put a k (c k)) coef0

/-- The coefficient that is taken, whatever `n_coef_layer` is,
src/xrtm_two_stream.c:318-333, of rows that are `n_coef` long
(src/xrtm_interface.c:1256); `none`: a read out of the row. -/
def coefOf (nCoef : Nat) (coef : Nat → ℝ) : Option ℝ := if 1 < nCoef then some (coef 1) else none

variable (z : Inp)

/-- `P_qq_pp` and `P_qq_mp`, src/xrtm_two_stream.c:309-331. -/
noncomputable def Pqq (i : Nat) : ℝ × ℝ :=
  let a1 := z.qx * z.qx
  let a2 := 1 - a1
  if z.first then
    let a6 := z.g i * a1
    (1 + a6, 1 - a6)
  else
    let a6 := z.g i * a2
    (a6, a6)

/-- `P_q0_mm` and `P_q0_pm`, src/xrtm_two_stream.c:306-335. -/
noncomputable def Pq0 (i : Nat) : ℝ × ℝ :=
  let a3 := z.qx * z.mu0
  let a4 := √(1 - z.qx * z.qx) * √(1 - z.mu0 * z.mu0)
  if z.first then
    let a6 := z.g i * a3
    (1 + a6, 1 - a6)
  else
    let a6 := z.g i * a4
    (a6, a6)

/-- `a6`, src/xrtm_two_stream.c:326, 337. -/
noncomputable def a6 : ℝ := if z.first then 1 / 2 / z.qx else 1 / 4 / z.qx

/-- src/xrtm_two_stream.c:340. -/
noncomputable def alpha (i : Nat) : ℝ := -1 / z.qx + a6 z * z.om i * (Pqq z i).1

/-- src/xrtm_two_stream.c:341. -/
noncomputable def beta (i : Nat) : ℝ := -a6 z * z.om i * (Pqq z i).2

/-- src/xrtm_two_stream.c:343-346. -/
noncomputable def nu (i : Nat) : ℝ := √(alpha z i * alpha z i - beta z i * beta z i)

/-- `a9`, src/xrtm_two_stream.c:348. -/
noncomputable def a9 (i : Nat) : ℝ := alpha z i + beta z i

/-- `X_p`, src/xrtm_two_stream.c:350. -/
noncomputable def Xp (i : Nat) : ℝ := (nu z i + a9 z i) / (nu z i - a9 z i)

/-- `X_m`, src/xrtm_two_stream.c:351. -/
def Xm (_ : Nat) : ℝ := 1

/-- `Lambda`, src/xrtm_two_stream.c:353. -/
noncomputable def Lam (i : Nat) : ℝ := Real.exp (-nu z i * z.ltau i)

/-- The values `a5`, `a10` to `a15` (src/xrtm_two_stream.c:313-314, 357-366), which are
set for a solar source only; otherwise they are what the memory holds. -/
structure Vars where
  a5 : ℝ
  a10 : ℝ
  a11 : ℝ
  a12 : ℝ
  a13 : ℝ
  a14 : ℝ
  a15 : ℝ

noncomputable def vars (i : Nat) (junk : Vars) : Vars :=
  if z.solar then
    let a5 := z.F0 / (4 * Real.pi) / z.qx
    let a10 := a5 * z.om i * z.btran i
    let a13 := z.as0 i + alpha z i
    let a14 := z.as0 i - alpha z i
    ⟨a5, a10, a10 * (Pq0 z i).2, a10 * (Pq0 z i).1, a13, a14, a13 * a14 + beta z i * beta z i⟩
  else junk

/-- `F_p`, src/xrtm_two_stream.c:355, 368. -/
noncomputable def Fp (i : Nat) : ℝ :=
  if z.solar then
    let v := vars z i ⟨0, 0, 0, 0, 0, 0, 0⟩
    0 + (v.a11 * v.a13 + beta z i * v.a12) / v.a15
  else 0

/-- `F_m`, src/xrtm_two_stream.c:356, 369. -/
noncomputable def Fm (i : Nat) : ℝ :=
  if z.solar then
    let v := vars z i ⟨0, 0, 0, 0, 0, 0, 0⟩
    0 + (v.a12 * -v.a14 + beta z i * v.a11) / v.a15
  else 0

/-- All roots and divisions are fine. -/
def Numbers : Prop :=
  ∀ i, i < z.L → 0 ≤ alpha z i * alpha z i - beta z i * beta z i ∧ nu z i - a9 z i ≠ 0 ∧
    (z.solar = true → (vars z i ⟨0, 0, 0, 0, 0, 0, 0⟩).a15 ≠ 0)

/-! ## The linear system -/

/-- An array of `N` times `N`, and whether all writes to it were inside. -/
structure Arr where
  A : Nat → Nat → ℝ
  ok : Bool

/-- `A[r][c] = x`. -/
def Arr.store (N r c : Nat) (x : ℝ) (a : Arr) : Arr :=
  ⟨fun r' c' => if r' = r ∧ c' = c then x else a.A r' c', a.ok && decide (r < N ∧ c < N)⟩

/-- The columns of the layer above an interface, src/xrtm_two_stream.c:470-473 for the
first layer and 483-486. -/
noncomputable def below (i : Nat) (a : Arr) : Arr :=
  let N := 2 * z.L
  let a := a.store N (2 * i + 1) (2 * i) (Xp z i * Lam z i)
  let a := a.store N (2 * i + 1) (2 * i + 1) (Xm i)
  let a := a.store N (2 * i + 2) (2 * i) (-Xm i * Lam z i)
  a.store N (2 * i + 2) (2 * i + 1) (-Xp z i)

/-- The columns of the layer below an interface, src/xrtm_two_stream.c:478-481, 492-495. -/
noncomputable def above (i : Nat) (a : Arr) : Arr :=
  let N := 2 * z.L
  let a := a.store N (2 * i - 1) (2 * i) (-Xp z i)
  let a := a.store N (2 * i - 1) (2 * i + 1) (-Xm i * Lam z i)
  let a := a.store N (2 * i) (2 * i) (Xm i)
  a.store N (2 * i) (2 * i + 1) (Xp z i * Lam z i)

/-- src/xrtm_two_stream.c:502-509. -/
noncomputable def Vp : ℝ :=
  if z.surface then Xp z (z.L - 1) - z.Rqq * -Xm (z.L - 1) else Xp z (z.L - 1)

noncomputable def Vm : ℝ :=
  if z.surface then Xm (z.L - 1) - z.Rqq * -Xp z (z.L - 1) else Xm (z.L - 1)

/-- The matrix, src/xrtm_two_stream.c:454-512. -/
noncomputable def system : Arr :=
  let N := 2 * z.L
  let a : Arr := ⟨fun _ _ => 0, true⟩
  let a := a.store N 0 0 (-Xm 0)
  let a := a.store N 0 1 (-Xp z 0 * Lam z 0)
  let a := if z.L > 1 then
      let a := below z 0 a
      let a := forN (z.L - 2) (fun k a => below z (k + 1) (above z (k + 1) a)) a
      above z (z.L - 1) a
    else a
  let a := a.store N (2 * z.L - 1) (2 * z.L - 2) (Vp z * Lam z (z.L - 1))
  a.store N (2 * z.L - 1) (2 * z.L - 2 + 1) (Vm z)

/-- The matrix that is in the array. -/
def Arr.read (a : Arr) (N : Nat) : Matrix (Fin N) (Fin N) ℝ := fun r c => a.A r.val c.val

/-- `solfac`, src/xrtm_two_stream.c:300. -/
noncomputable def solfac : ℝ := z.F0 * z.mu0 / Real.pi

/-- `a1` and `a2`, src/xrtm_two_stream.c:658-665. -/
noncomputable def a12 : ℝ × ℝ :=
  if z.surface then
    (solfac z * z.btran z.L * z.Rq0, Fp z (z.L - 1) - z.Rqq * Fm z (z.L - 1))
  else (0, Fp z (z.L - 1))

/-- The right hand side, src/xrtm_two_stream.c:645-668. -/
noncomputable def rhs : Nat → ℝ :=
  let b : Nat → ℝ := fun _ => 0
  if z.solar then
    let b := put b 0 (-Fm z 0)
    let b := forN (z.L - 1) (fun k b =>
      let i := k + 1
      let b := put b (2 * k + 1) (Fp z i - Fp z (i - 1) * z.atran (i - 1))
      put b (2 * k + 1 + 1) (Fm z i - Fm z (i - 1) * z.atran (i - 1))) b
    put b (2 * z.L - 1) ((a12 z).1 - (a12 z).2 * z.atran (z.L - 1))
  else b

/-- The solution of the system with the factorised matrix, in an array. -/
def solved (N : Nat) (x : Matrix (Fin N) (Fin N) ℝ) (b : Nat → ℝ) : Nat → ℝ := fun r =>
  if h : r < N then (x.mulVec fun c => b c.val) ⟨r, h⟩ else b r

open Classical in
/-- The unknowns, src/xrtm_two_stream.c:300-685. -/
noncomputable def solve
    (inv? : {N : Nat} → Matrix (Fin N) (Fin N) ℝ → Option (Matrix (Fin N) (Fin N) ℝ)) : Res (Nat → ℝ) :=
  if Numbers z then
    if (system z).ok then
      match inv? ((system z).read (2 * z.L)) with
      | none => .singular
      | some x => .ok (solved (2 * z.L) x (rhs z))
    else .out
  else .nan

/-! ## The radiances -/

/-- `I_p` and `I_m` at a level, src/xrtm_two_stream.c:871-880, 916-925. -/
noncomputable def level (x : Nat → ℝ) (lev : Nat) : ℝ × ℝ :=
  if lev ≠ z.L then
    let ii := lev
    let a1 := x (ii * 2)
    let a2 := x (ii * 2 + 1) * Lam z ii
    (a1 * Xp z ii + a2 * Xm ii + Fp z ii, a1 * -Xm ii + a2 * -Xp z ii + Fm z ii)
  else
    let ii := z.L - 1
    let a1 := x (ii * 2) * Lam z ii
    let a2 := x (ii * 2 + 1)
    (a1 * Xp z ii + a2 * Xm ii + Fp z ii * z.atran ii, a1 * -Xm ii + a2 * -Xp z ii + Fm z ii * z.atran ii)

/-- `I_p` and `I_m` at the depth `t` in the layer `ii`, src/xrtm_two_stream.c:968-979. -/
noncomputable def atTau (x : Nat → ℝ) (ii : Nat) (t : ℝ) : ℝ × ℝ :=
  let uatran := Real.exp (-t * z.as0 ii)
  let a1 := x (ii * 2) * Real.exp (-nu z ii * (t - 0))
  let a2 := x (ii * 2 + 1) * Real.exp (-nu z ii * (z.ltau ii - t))
  (a1 * Xp z ii + a2 * Xm ii + Fp z ii * uatran, a1 * -Xm ii + a2 * -Xp z ii + Fm z ii * uatran)

/-! ## Derivatives -/

/-- Which of the values have a derivative. -/
structure Flags where
  lay : Nat → Bool
  beam : Nat → Bool

variable (z' : Inp) (fl : Flags) (junk : Vars)

/-- `P_qq_pp_l` and `P_qq_mp_l`, src/xrtm_two_stream.c:376-385. -/
noncomputable def PqqL (i : Nat) : ℝ × ℝ :=
  if z.first then
    let a6' := z'.g i * (z.qx * z.qx)
    (a6', -a6')
  else
    let a6' := z'.g i * (1 - z.qx * z.qx)
    (a6', a6')

/-- `P_q0_mm_l` and `P_q0_pm_l`, src/xrtm_two_stream.c:402-411. -/
noncomputable def Pq0L (i : Nat) : ℝ × ℝ :=
  if z.first then
    let a6' := z'.g i * (z.qx * z.mu0)
    (a6', -a6')
  else
    let a6' := z'.g i * (√(1 - z.qx * z.qx) * √(1 - z.mu0 * z.mu0))
    (a6', a6')

/-- src/xrtm_two_stream.c:387. -/
noncomputable def alphaL (i : Nat) : ℝ := a6 z * (z'.om i * (Pqq z i).1 + z.om i * (PqqL z z' i).1)

/-- src/xrtm_two_stream.c:388. -/
noncomputable def betaL (i : Nat) : ℝ := -a6 z * (z'.om i * (Pqq z i).2 + z.om i * (PqqL z z' i).2)

/-- src/xrtm_two_stream.c:390-393. -/
noncomputable def nuL (i : Nat) : ℝ :=
  (2 * alphaL z z' i * alpha z i - 2 * betaL z z' i * beta z i) / (2 * nu z i)

/-- src/xrtm_two_stream.c:395-397. -/
noncomputable def XpL (i : Nat) : ℝ :=
  let a9' := alphaL z z' i + betaL z z' i
  ((nuL z z' i + a9') - Xp z i * (nuL z z' i - a9')) / (nu z i - a9 z i)

/-- `X_m_l`, src/xrtm_two_stream.c:398. -/
def XmL (_ : Nat) : ℝ := 0

/-- src/xrtm_two_stream.c:400. -/
noncomputable def LamL (i : Nat) : ℝ := (-nuL z z' i * z.ltau i - nu z i * z'.ltau i) * Lam z i

/-- `F_p_l` and `F_m_l`, src/xrtm_two_stream.c:414-446: the first case does not ask for a
solar source. -/
noncomputable def FL (i : Nat) : ℝ × ℝ :=
  let v := vars z i junk
  if fl.lay i then
    let a10' := v.a5 * (z'.om i * z.btran i + z.om i * z'.btran i)
    let a11' := a10' * (Pq0 z i).2 + v.a10 * (Pq0L z z' i).2
    let a12' := a10' * (Pq0 z i).1 + v.a10 * (Pq0L z z' i).1
    let a13' := z'.as0 i + alphaL z z' i
    let a14' := z'.as0 i - alphaL z z' i
    let a15' := a13' * v.a14 + v.a13 * a14' + 2 * betaL z z' i * beta z i
    (0 + ((a11' * v.a13 + v.a11 * a13' + betaL z z' i * v.a12 + beta z i * a12') - Fp z i * a15') / v.a15,
     0 + ((a12' * -v.a14 + v.a12 * -a14' + betaL z z' i * v.a11 + beta z i * a11') - Fm z i * a15') / v.a15)
  else if z.solar && fl.beam i then
    let a10' := v.a5 * z.om i * z'.btran i
    let a11' := a10' * (Pq0 z i).2
    let a12' := a10' * (Pq0 z i).1
    let a13' := z'.as0 i
    let a14' := z'.as0 i
    let a15' := a13' * v.a14 + v.a13 * a14'
    (0 + ((a11' * v.a13 + v.a11 * a13' + beta z i * a12') - Fp z i * a15') / v.a15,
     0 + ((a12' * -v.a14 + v.a12 * -a14' + beta z i * a11') - Fm z i * a15') / v.a15)
  else (0, 0)

/-- `a += x` if the flag is set. -/
def on (c : Bool) (x : ℝ) : ℝ := if c then x else 0

/-- src/xrtm_two_stream.c:715-721. -/
noncomputable def topL (x : Nat → ℝ) : ℝ :=
  0 + on (z.solar && fl.beam 0) (-(FL z z' fl junk 0).2) +
    on (fl.lay 0) (XmL 0 * x 0 + (XpL z z' 0 * Lam z 0 + Xp z 0 * LamL z z' 0) * x 1)

/-- src/xrtm_two_stream.c:731-752, with `i` the layer below and `kk = 2 (i - 1)`. -/
noncomputable def upL (x : Nat → ℝ) (i : Nat) : ℝ :=
  let kk := 2 * (i - 1)
  0 + on (z.solar && fl.beam (i - 1))
      (-(FL z z' fl junk (i - 1)).1 * z.atran (i - 1) - Fp z (i - 1) * z'.atran (i - 1)) +
    on (z.solar && fl.beam i) (FL z z' fl junk i).1 +
    on (fl.lay (i - 1)) (-(XpL z z' (i - 1) * Lam z (i - 1) + Xp z (i - 1) * LamL z z' (i - 1)) * x kk -
      XmL (i - 1) * x (kk + 1)) +
    on (fl.lay i) (XpL z z' i * x (kk + 2) + (XmL i * Lam z i + Xm i * LamL z z' i) * x (kk + 3))

noncomputable def dnL (x : Nat → ℝ) (i : Nat) : ℝ :=
  let kk := 2 * (i - 1)
  0 + on (z.solar && fl.beam (i - 1))
      (-(FL z z' fl junk (i - 1)).2 * z.atran (i - 1) - Fm z (i - 1) * z'.atran (i - 1)) +
    on (z.solar && fl.beam i) (FL z z' fl junk i).2 +
    on (fl.lay (i - 1)) ((XmL (i - 1) * Lam z (i - 1) + Xm (i - 1) * LamL z z' (i - 1)) * x kk +
      XpL z z' (i - 1) * x (kk + 1)) +
    on (fl.lay i) (-XmL i * x (kk + 2) - (XpL z z' i * Lam z i + Xp z i * LamL z z' i) * x (kk + 3))

/-- src/xrtm_two_stream.c:758-828. -/
noncomputable def botL (x : Nat → ℝ) : ℝ :=
  let l := z.L - 1
  if z.surface then
    let a1 := (on (fl.beam z.L) (z'.btran z.L * z.Rq0) + on (fl.lay z.L) (z.btran z.L * z'.Rq0)) * solfac z
    let a2 := on (fl.beam l) ((FL z z' fl junk l).1 - z.Rqq * (FL z z' fl junk l).2) +
      on (fl.lay z.L) (-z'.Rqq * Fm z l)
    let vp := on (fl.lay l) (XpL z z' l - z.Rqq * -XmL l) + on (fl.lay z.L) (-z'.Rqq * -Xm l)
    let vm := on (fl.lay l) (XmL l - z.Rqq * -XpL z z' l) + on (fl.lay z.L) (-z'.Rqq * -Xp z l)
    0 + on z.solar (a1 - a2 * z.atran l - (a12 z).2 * z'.atran l) +
      (-(vp * Lam z l + on (fl.lay l) (Vp z * LamL z z' l)) * x (2 * z.L - 1 - 1) - vm * x (2 * z.L - 1))
  else
    0 + on z.solar (0 - on (fl.beam l) (FL z z' fl junk l).1 * z.atran l - (a12 z).2 * z'.atran l) +
      on (fl.lay l) (-(XpL z z' l * Lam z l + Vp z * LamL z z' l) * x (2 * z.L - 1 - 1) -
        XmL l * x (2 * z.L - 1))

/-- The right hand side for the derivative, src/xrtm_two_stream.c:714-828. -/
noncomputable def rhsL (x : Nat → ℝ) : Nat → ℝ :=
  let b : Nat → ℝ := fun _ => 0
  let b := put b 0 (topL z z' fl junk x)
  let b := forN (z.L - 1) (fun k b =>
    let b := put b (2 * k + 1) (upL z z' fl junk x (k + 1))
    put b (2 * k + 1 + 1) (dnL z z' fl junk x (k + 1))) b
  put b (2 * z.L - 1) (botL z z' fl junk x)

/-- The derivatives of the unknowns. -/
noncomputable def solveL
    (inv? : {N : Nat} → Matrix (Fin N) (Fin N) ℝ → Option (Matrix (Fin N) (Fin N) ℝ)) (x : Nat → ℝ) :
    Option (Nat → ℝ) :=
  match inv? ((system z).read (2 * z.L)) with
  | none => none
  | some y => some (solved (2 * z.L) y (rhsL z z' fl junk x))

/-- The derivatives at a level, src/xrtm_two_stream.c:891-910, 936-954: the source is not
asked for. -/
noncomputable def levelL (x x' : Nat → ℝ) (lev : Nat) : ℝ × ℝ :=
  if lev ≠ z.L then
    let ii := lev
    let a1 := x (ii * 2)
    let a2 := x (ii * 2 + 1) * Lam z ii
    let a1' := x' (ii * 2)
    let a2' := x' (ii * 2 + 1) * Lam z ii + on (fl.lay ii) (x (ii * 2 + 1) * LamL z z' ii)
    (a1' * Xp z ii + a2' * Xm ii + on (fl.lay ii) (a1 * XpL z z' ii + a2 * XmL ii) +
        on (fl.beam ii) (FL z z' fl junk ii).1,
     a1' * -Xm ii + a2' * -Xp z ii + on (fl.lay ii) (a1 * -XmL ii + a2 * -XpL z z' ii) +
        on (fl.beam ii) (FL z z' fl junk ii).2)
  else
    let ii := z.L - 1
    let a1 := x (ii * 2) * Lam z ii
    let a2 := x (ii * 2 + 1)
    let a1' := x' (ii * 2) * Lam z ii + on (fl.lay ii) (x (ii * 2) * LamL z z' ii)
    let a2' := x' (ii * 2 + 1)
    (a1' * Xp z ii + a2' * Xm ii + on (fl.lay ii) (a1 * XpL z z' ii + a2 * XmL ii) +
        on (fl.beam ii) ((FL z z' fl junk ii).1 * z.atran ii + Fp z ii * z'.atran ii),
     a1' * -Xm ii + a2' * -Xp z ii + on (fl.lay ii) (a1 * -XmL ii + a2 * -XpL z z' ii) +
        on (fl.beam ii) ((FL z z' fl junk ii).2 * z.atran ii + Fm z ii * z'.atran ii))

/-- The derivatives at a depth, src/xrtm_two_stream.c:994-1022. -/
noncomputable def atTauL (x x' : Nat → ℝ) (ii : Nat) (t : ℝ) : ℝ × ℝ :=
  let uatran := Real.exp (-t * z.as0 ii)
  let ep := Real.exp (-nu z ii * (t - 0))
  let em := Real.exp (-nu z ii * (z.ltau ii - t))
  let a1 := x (ii * 2) * ep
  let a2 := x (ii * 2 + 1) * em
  let t' := t * z'.ltau ii / z.ltau ii
  let uatran' := (-t' * z.as0 ii - t * z'.as0 ii) * uatran
  let a1' := x' (ii * 2) * ep +
    on (fl.lay ii) (x (ii * 2) * (-nuL z z' ii * (t - 0) - nu z ii * (t' - 0)) * ep)
  let a2' := x' (ii * 2 + 1) * em + on (fl.lay ii)
    (x (ii * 2 + 1) * (-nuL z z' ii * (z.ltau ii - t) - nu z ii * (z'.ltau ii - t')) * em)
  (a1' * Xp z ii + a2' * Xm ii + on (fl.lay ii) (a1 * XpL z z' ii + a2 * XmL ii) +
      on (fl.beam ii) ((FL z z' fl junk ii).1 * uatran + Fp z ii * uatran'),
   a1' * -Xm ii + a2' * -Xp z ii + on (fl.lay ii) (a1 * -XmL ii + a2 * -XpL z z' ii) +
      on (fl.beam ii) ((FL z z' fl junk ii).2 * uatran + Fm z ii * uatran'))

/-- The flags `derivs->beam` are read at 906, 950 and 1017 whatever the source, but
without a solar source they are the address 1 (src/xrtm_interface.c:1378-1380, 1396-1398):
`none` is a read from there. -/
noncomputable def levelL? (x x' : Nat → ℝ) (lev : Nat) : Option (ℝ × ℝ) :=
  if z.solar then some (levelL z z' fl junk x x' lev) else none

noncomputable def atTauL? (x x' : Nat → ℝ) (ii : Nat) (t : ℝ) : Option (ℝ × ℝ) :=
  if z.solar then some (atTauL z z' fl junk x x' ii t) else none

end Xrtm.TwoStream
