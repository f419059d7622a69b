import Verif.Model.Bvp
import Verif.Model.Legendre
import Mathlib.Analysis.SpecialFunctions.Pow.Complex

/-!
# The four and six stream solvers

src/xrtm_four_stream.c:57-1050, src/xrtm_six_stream.c:56-1345, as compiled
(`USE_EXPANDED`, arrays of pointers, the band solver); called in
src/xrtm_model.c:5294-5340.

The two differ in the number `n` of directions, in the tables and in the closed
forms of the eigenvalues, eigenvectors and the inverse, which are the fields of
`Kind`; the rest is one text for both.  Numbers are real, with not-a-number as an
outcome of its own.  Running indices are written as their values.  Not here: the
radiances for further directions (`n_umus > 0`, which go through `sfi_up` and
`sfi_dn`) and thermal emission, which is refused (src/xrtm_interface.c:706-709).
-/

namespace Xrtm.Streams
open Matrix Xrtm.Loops Xrtm.Bvp

/-- What comes out: not a number, a singular matrix (`exit(1)`), a write out of the
band array, a read out of the row of coefficients, a call of a function through a type
that is not its own, or a value. -/
inductive Res (α : Type) where
  | nan
  | singular
  | out
  | read
  | call
  | ok (a : α)

/-! ## The tables -/

/-- `calc_Y_1` and `calc_Y_2`, src/xrtm_four_stream.c:57-108; what is not assigned is not read. -/
noncomputable def Y4 : Nat → Nat → Nat → ℝ
  | 0, 0, 0 => 1.0000000000000000
  | 0, 0, 1 => 2.1132486540518713e-1
  | 0, 0, 2 => -4.3301270189221930e-1
  | 0, 0, 3 => -2.9339382851364088e-1
  | 0, 1, 1 => -6.9113739634803417e-1
  | 0, 1, 2 => -2.5297384456881489e-1
  | 0, 1, 3 => 3.2872926407690672e-1
  | 0, 2, 2 => 5.8502498576049988e-1
  | 0, 2, 3 => 2.7644581385388761e-1
  | 0, 3, 3 => -5.2199120072772409e-1
  | 1, 0, 0 => 1.0000000000000000
  | 1, 0, 1 => 7.8867513459481287e-1
  | 1, 0, 2 => 4.3301270189221941e-1
  | 1, 0, 3 => 4.3393828513641042e-2
  | 1, 1, 1 => -4.3473643283710062e-1
  | 1, 1, 2 => -5.9386101120610690e-1
  | 1, 1, 3 => -5.6173675511805921e-1
  | 1, 2, 2 => 2.3147159516722612e-1
  | 1, 2, 3 => 4.0820738302757004e-1
  | 1, 3, 3 => -1.2991165542275507e-1
  | _, _, _ => 0

/-- `calc_Y_1`, `calc_Y_2` and `calc_Y_3`, src/xrtm_six_stream.c:56-176. -/
noncomputable def Y6 : Nat → Nat → Nat → ℝ
  | 0, 0, 0 => 1.0000000000000000
  | 0, 0, 1 => 1.1270166537925830e-1
  | 0, 0, 2 => -4.8094750193111252e-1
  | 0, 0, 3 => -1.6547375096555625e-1
  | 0, 0, 4 => 3.2807458365518544e-1
  | 0, 0, 5 => 1.9893319427622813e-1
  | 0, 1, 1 => -7.0260171314221176e-1
  | 0, 1, 2 => -1.3715137481548439e-1
  | 0, 1, 3 => 4.0292921564868400e-1
  | 0, 1, 4 => -1.8223631786344985e-1
  | 0, 1, 5 => 2.8081218084679899e-1
  | 0, 2, 2 => 6.0459428593010522e-1
  | 0, 2, 3 => 1.5236295047544621e-1
  | 0, 2, 4 => -3.5556492019184532e-1
  | 0, 2, 5 => -1.9387690021392759e-1
  | 0, 3, 3 => -5.4840021642031433e-1
  | 0, 3, 4 => 1.6352229402102095e-1
  | 0, 3, 5 => -3.2126686945422495e-1
  | 0, 4, 4 => 5.0971315964803132e-1
  | 0, 4, 5 => 1.7233656587417068e-1
  | 0, 5, 5 => 4.8047556172276995e-1
  | 1, 0, 0 => 1.0000000000000000
  | 1, 0, 1 => 5.0000000000000000e-1
  | 1, 0, 2 => -1.2500000000000000e-1
  | 1, 0, 3 => -4.3750000000000000e-1
  | 1, 0, 4 => -2.8906250000000000e-1
  | 1, 0, 5 => 8.9843750000000000e-2
  | 1, 1, 1 => -6.1237243569579447e-1
  | 1, 1, 2 => -5.3033008588991071e-1
  | 1, 1, 3 => -9.3750000000000014e-2
  | 1, 1, 4 => -3.0257682392245444e-1
  | 1, 1, 5 => -3.5205044263593283e-1
  | 1, 2, 2 => 4.5927932677184591e-1
  | 1, 2, 3 => 5.1348989766109321e-1
  | 1, 2, 4 => 2.2234764798058917e-1
  | 1, 2, 5 => -1.6982082124440748e-1
  | 1, 3, 3 => -3.6309218870694526e-1
  | 1, 3, 4 => 4.8032581715435607e-1
  | 1, 3, 5 => 3.0020363572147252e-1
  | 1, 4, 4 => 2.9413829057838586e-1
  | 1, 4, 5 => 4.4120743586757882e-1
  | 1, 5, 5 => 2.4165926516368683e-1
  | 2, 0, 0 => 1.0000000000000000
  | 2, 0, 1 => 8.8729833462074170e-1
  | 2, 0, 2 => 6.8094750193111264e-1
  | 2, 0, 3 => 4.1547375096555617e-1
  | 2, 0, 4 => 1.3442541634481442e-1
  | 2, 0, 5 => -1.1768319427622852e-1
  | 2, 1, 1 => -3.2611475386683919e-1
  | 2, 1, 2 => -5.0118808883115185e-1
  | 2, 1, 3 => -5.8642821144342672e-1
  | 2, 1, 4 => 5.7443661482497066e-1
  | 2, 1, 5 => 4.7276033207965390e-1
  | 2, 2, 2 => 1.3025263690484826e-1
  | 2, 2, 3 => 2.5842896765342832e-1
  | 2, 2, 4 => 3.7928200264310813e-1
  | 2, 2, 5 => 4.6559021420497959e-1
  | 2, 3, 3 => -5.4837967049776844e-2
  | 2, 3, 4 => 1.2873600645546979e-1
  | 2, 3, 5 => 2.2073939349622659e-1
  | 2, 4, 4 => 2.3657607267441809e-2
  | 2, 4, 5 => 6.2974066588538019e-2
  | 2, 5, 5 => 1.0350885816619845e-2
  | _, _, _ => 0

/-! ## What differs -/

/-- The closed forms of a solver. -/
structure Kind (n : Nat) where
  /-- `Y_q[j][l]` for the Fourier term `m`. -/
  Y : Fin n → Nat → Nat → ℝ
  /-- The squares `evals`. -/
  evals : Source.M n → Source.V n
  evecs : Source.M n → Source.M n
  /-- The roots and divisions on the way to these. -/
  eigOk : Source.M n → Prop
  /-- `f` of `gamma` with the square of `as_0` taken off. -/
  inv : Source.M n → Source.M n
  /-- What `f` is divided by. -/
  det : Source.M n → ℝ
  /-- Is the source left as it is in memory, if there is no beam? -/
  asks : Bool

/-- `evals`, src/xrtm_four_stream.c:426-431. -/
noncomputable def evals4 (g : Source.M 2) : Source.V 2 :=
  let a1 := g 0 0 + g 1 1
  let a2 := g 0 0 - g 1 1
  let a3 := a2 * a2
  ![(a1 + √(a3 + 4 * g 0 1 * g 1 0)) / 2, (a1 - √(a3 + 4 * g 1 0 * g 0 1)) / 2]

/-- `evecs`, src/xrtm_four_stream.c:433-436. -/
noncomputable def evecs4 (g : Source.M 2) : Source.M 2 :=
  !![1, g 0 1 / (evals4 g 1 - g 0 0); g 1 0 / (evals4 g 0 - g 1 1), 1]

/-- src/xrtm_four_stream.c:476-481. -/
def det2 (g : Source.M 2) : ℝ := g 0 0 * g 1 1 - g 0 1 * g 1 0

/-- The four stream solver. -/
noncomputable def four : Kind 2 where
  Y := fun j => Y4 j
  evals := evals4
  evecs := evecs4
  eigOk := fun g => 0 ≤ (g 0 0 - g 1 1) * (g 0 0 - g 1 1) + 4 * g 0 1 * g 1 0 ∧
    evals4 g 1 - g 0 0 ≠ 0 ∧ evals4 g 0 - g 1 1 ≠ 0
  inv := fun g => !![g 1 1 / det2 g, -g 0 1 / det2 g; -g 1 0 / det2 g, g 0 0 / det2 g]
  det := det2
  asks := true

/-- `cubic_roots_general`, src/xrtm_six_stream.c:182-221, with `a = 1`: the powers are the
principal ones; `*x1` is a `double`, so the real part is kept. -/
noncomputable def cubic (b c d : ℝ) : ℝ × ℝ × ℝ :=
  let b2 := b * b
  let b3 := b2 * b
  let r1 := 1 * c
  let r2 := 2 * b3 - 9 * r1 * b + 27 * 1 * 1 * d
  let r3 := b2 - 3 * r1
  let c3 : ℂ := (((r2 * r2 - 4 * r3 * r3 * r3 : ℝ) : ℂ)) ^ (1 / 2 : ℂ)
  let c1 : ℂ := ((r2 + c3) / 2) ^ (1 / 3 : ℂ)
  let c2 : ℂ := ((r2 - c3) / 2) ^ (1 / 3 : ℂ)
  let x1 := ((-b - (c1 + c2)) / (3 * 1 : ℂ)).re
  let r1 := b / (3 * 1)
  let r2 := 6 * 1
  let s : ℂ := ((√3 : ℝ) : ℂ)
  (x1, -r1 + (((1 + Complex.I * s) * c1).re + ((1 - Complex.I * s) * c2).re) / r2,
    -r1 + (((1 - Complex.I * s) * c1).re + ((1 + Complex.I * s) * c2).re) / r2)

/-- `dd`, src/xrtm_six_stream.c:630, and `a1` at 724. -/
def det3 (g : Source.M 3) : ℝ :=
  g 0 0 * g 1 1 * g 2 2 + g 0 1 * g 1 2 * g 2 0 + g 0 2 * g 1 0 * g 2 1 - g 0 2 * g 1 1 * g 2 0 -
    g 0 0 * g 1 2 * g 2 1 - g 0 1 * g 1 0 * g 2 2

/-- `bb`, src/xrtm_six_stream.c:626. -/
def bb3 (g : Source.M 3) : ℝ := g 0 0 + g 1 1 + g 2 2

/-- `cc`, src/xrtm_six_stream.c:628. -/
def cc3 (g : Source.M 3) : ℝ :=
  g 0 0 * g 1 1 + g 0 0 * g 2 2 + g 1 1 * g 2 2 - g 1 2 * g 2 1 - g 0 2 * g 2 0 - g 0 1 * g 1 0

/-- `evals`, src/xrtm_six_stream.c:632-635. -/
noncomputable def evals6 (g : Source.M 3) : Source.V 3 :=
  let x := cubic (bb3 g) (cc3 g) (det3 g)
  ![x.1 * -1, x.2.1 * -1, x.2.2 * -1]

/-- The numbers the eigenvectors are ratios of, src/xrtm_six_stream.c:640-649. -/
def n01 (g : Source.M 3) (e : ℝ) : ℝ := g 1 2 * g 0 1 - g 0 2 * (g 1 1 - e)
def n10 (g : Source.M 3) (e : ℝ) : ℝ := g 0 2 * g 1 0 - g 1 2 * (g 0 0 - e)
def n02 (g : Source.M 3) (e : ℝ) : ℝ := g 0 2 * g 2 1 - g 0 1 * (g 2 2 - e)
def n20 (g : Source.M 3) (e : ℝ) : ℝ := g 0 1 * g 2 0 - g 2 1 * (g 0 0 - e)

/-- `evecs`, src/xrtm_six_stream.c:639-649. -/
noncomputable def evecs6 (g : Source.M 3) : Source.M 3 :=
  let e := evals6 g
  let e01 := n01 g (e 1) / n10 g (e 1)
  let e02 := n02 g (e 2) / n20 g (e 2)
  !![1, e01, e02;
     n10 g (e 0) / n01 g (e 0), 1, n10 g (e 2) / n01 g (e 2) * e02;
     n20 g (e 0) / n02 g (e 0), n20 g (e 1) / n02 g (e 1) * e01, 1]

/-- The six stream solver. -/
noncomputable def six : Kind 3 where
  Y := fun j => Y6 j
  evals := evals6
  evecs := evecs6
  eigOk := fun g =>
    n10 g (evals6 g 1) ≠ 0 ∧ n20 g (evals6 g 2) ≠ 0 ∧ n01 g (evals6 g 0) ≠ 0 ∧ n01 g (evals6 g 2) ≠ 0 ∧
      n02 g (evals6 g 0) ≠ 0 ∧ n02 g (evals6 g 1) ≠ 0
  inv := fun g => !![
    (g 1 1 * g 2 2 - g 1 2 * g 2 1) / det3 g, (g 0 2 * g 2 1 - g 0 1 * g 2 2) / det3 g,
      (g 0 1 * g 1 2 - g 0 2 * g 1 1) / det3 g;
    (g 1 2 * g 2 0 - g 1 0 * g 2 2) / det3 g, (g 0 0 * g 2 2 - g 0 2 * g 2 0) / det3 g,
      (g 0 2 * g 1 0 - g 0 0 * g 1 2) / det3 g;
    (g 1 0 * g 2 1 - g 1 1 * g 2 0) / det3 g, (g 0 1 * g 2 0 - g 0 0 * g 2 1) / det3 g,
      (g 0 0 * g 1 1 - g 0 1 * g 1 0) / det3 g]
  det := det3
  asks := false

/-! ## A layer -/

/-- What goes in; `coef i l` is `coef[i][0][l]`, in rows that are `nCoef` long
(src/xrtm_interface.c:1256). -/
structure Inp (n : Nat) where
  m : Nat
  L : Nat
  qx : Source.V n
  qw : Source.V n
  F0 : ℝ
  mu0 : ℝ
  nCoef : Nat
  coef : Nat → Nat → ℝ
  om : Nat → ℝ
  ltau : Nat → ℝ
  btran : Nat → ℝ
  as0 : Nat → ℝ
  atran : Nat → ℝ
  Rs : Source.M n
  I1m : Source.V n
  Inp : Source.V n
  solar : Bool
  surface : Bool

variable {n : Nat} (k : Kind n) (z : Inp n)

/-- `P_qq_pp` and `P_qq_mp`, src/xrtm_four_stream.c:331-366, src/xrtm_six_stream.c:493-528:
the sums over every second coefficient. -/
noncomputable def Pqq (i : Nat) (a b : Fin n) : ℝ × ℝ :=
  let even := Legendre.every2 (2 * n) (fun l => z.coef i l * k.Y a z.m l * k.Y b z.m l) (2 * n) z.m 0
  let odd := Legendre.every2 (2 * n) (fun l => z.coef i l * k.Y a z.m l * k.Y b z.m l) (2 * n) (z.m + 1) 0
  let a1 := 2 - (if z.m = 0 then 1 else 0)
  ((even + odd) * a1, (even - odd) * a1)

/-- `P_q0_pp` and `P_q0_mp`, src/xrtm_four_stream.c:487-512, src/xrtm_six_stream.c:743-768;
`Y_0` is that of `calc_Y_x` at `-mu_0`. -/
noncomputable def Pq0 (i : Nat) (j : Fin n) : ℝ × ℝ :=
  let Y0 := Legendre.calcY z.m (-z.mu0)
  let even := Legendre.every2 (2 * n) (fun l => z.coef i l * Y0 l * k.Y j z.m l) (2 * n) z.m 0
  let odd := Legendre.every2 (2 * n) (fun l => z.coef i l * Y0 l * k.Y j z.m l) (2 * n) (z.m + 1) 0
  let a1 := 2 - (if z.m = 0 then 1 else 0)
  ((even + odd) * a1, (even - odd) * a1)

/-- `a2` to `a4`, src/xrtm_four_stream.c:373-376, src/xrtm_six_stream.c:535-539. -/
noncomputable def wom (i : Nat) (b : Fin n) : ℝ := (1 + (if z.m = 0 then 1 else 0)) / 4 * z.qw b * z.om i

/-- src/xrtm_four_stream.c:378-381, src/xrtm_six_stream.c:541-551. -/
noncomputable def alpha (i : Nat) : Source.M n := fun a b =>
  if a = b then (-1 + wom z i b * (Pqq k z i a b).1) / z.qx a else wom z i b * (Pqq k z i a b).1 / z.qx a

/-- src/xrtm_four_stream.c:383-386, src/xrtm_six_stream.c:553-563. -/
noncomputable def beta (i : Nat) : Source.M n := fun a b => -wom z i b * (Pqq k z i a b).2 / z.qx a

/-- src/xrtm_four_stream.c:393-396, src/xrtm_six_stream.c:570-580. -/
noncomputable def apb (i : Nat) : Source.M n := fun a b => alpha k z i a b + beta k z i a b

/-- src/xrtm_four_stream.c:398-401, src/xrtm_six_stream.c:582-592. -/
noncomputable def amb (i : Nat) : Source.M n := fun a b => alpha k z i a b - beta k z i a b

/-- src/xrtm_four_stream.c:416-419, src/xrtm_six_stream.c:607-617. -/
noncomputable def gamma (i : Nat) : Source.M n := fun a b => ∑ l, amb k z i a l * apb k z i l b

/-- src/xrtm_four_stream.c:442-443, src/xrtm_six_stream.c:655-657. -/
noncomputable def nu (i : Nat) : Source.V n := fun j => √(k.evals (gamma k z i) j)

/-- `W1`, src/xrtm_four_stream.c:445-459, src/xrtm_six_stream.c:659-687. -/
noncomputable def W1 (i : Nat) : Source.M n := fun a b =>
  (∑ l, apb k z i a l * k.evecs (gamma k z i) l b) / nu k z i b

/-- src/xrtm_four_stream.c:461-464, src/xrtm_six_stream.c:689-699. -/
noncomputable def Xp (i : Nat) : Source.M n := fun a b => (k.evecs (gamma k z i) a b + W1 k z i a b) / 2

/-- src/xrtm_four_stream.c:466-469, src/xrtm_six_stream.c:701-711. -/
noncomputable def Xm (i : Nat) : Source.M n := fun a b => (k.evecs (gamma k z i) a b - W1 k z i a b) / 2

/-- `gamma` with the square taken off, src/xrtm_four_stream.c:476-479,
src/xrtm_six_stream.c:718-722. -/
noncomputable def gammaS (i : Nat) : Source.M n := fun a b =>
  if a = b then gamma k z i a b - z.as0 i * z.as0 i else gamma k z i a b

/-- `d`, src/xrtm_four_stream.c:520-524, src/xrtm_six_stream.c:776-780. -/
noncomputable def dd (i : Nat) : Source.V n := fun j =>
  z.F0 * z.om i / (4 * Real.pi) / z.qx j * ((Pq0 k z i j).1 + (Pq0 k z i j).2)

/-- `e`. -/
noncomputable def ee (i : Nat) : Source.V n := fun j =>
  z.F0 * z.om i / (4 * Real.pi) / z.qx j * ((Pq0 k z i j).1 - (Pq0 k z i j).2)

/-- `g`, src/xrtm_four_stream.c:527-528, src/xrtm_six_stream.c:783-785. -/
noncomputable def gg (i : Nat) : Source.V n := fun j =>
  -(∑ l, amb k z i j l * ee k z i l) - z.as0 i * dd k z i j

/-- `p`, src/xrtm_four_stream.c:530-531, src/xrtm_six_stream.c:787-789. -/
noncomputable def pp (i : Nat) : Source.V n := fun j => ∑ l, k.inv (gammaS k z i) j l * gg k z i l

/-- `h`, src/xrtm_four_stream.c:533-534, src/xrtm_six_stream.c:791-793. -/
noncomputable def hh (i : Nat) : Source.V n := fun j => (∑ l, apb k z i j l * pp k z i l) + ee k z i j

/-- `F_p` and `F_m`, src/xrtm_four_stream.c:475-578, src/xrtm_six_stream.c:795-837; what
memory holds, if there is no beam and the solver asks. -/
noncomputable def F (junk : Nat → Source.V n × Source.V n) (i : Nat) : Source.V n × Source.V n :=
  if k.asks && !z.solar then junk i
  else
    let Fp : Source.V n := fun j => (z.mu0 * hh k z i j + pp k z i j) / 2
    let Fm : Source.V n := fun j => Fp j - pp k z i j
    (fun j => z.btran i * Fp j, fun j => z.btran i * Fm j)

/-- `Lambda`, src/xrtm_four_stream.c:606-607, src/xrtm_six_stream.c:846-848. -/
noncomputable def Lam (i : Nat) : Source.V n := fun j => Real.exp (-nu k z i j * z.ltau i)

/-- All roots and divisions are fine. -/
def Numbers : Prop :=
  ∀ i, i < z.L → k.eigOk (gamma k z i) ∧ (∀ j, 0 ≤ k.evals (gamma k z i) j) ∧ (∀ j, nu k z i j ≠ 0) ∧
    ((k.asks && !z.solar) = false → k.det (gammaS k z i) ≠ 0)

/-! ## The linear system -/

variable (junk : Nat → Source.V n × Source.V n)

/-- `n_comp`, src/xrtm_four_stream.c:250, src/xrtm_six_stream.c:407. -/
def nc : Nat := 2 * n * z.L

/-- The columns of the layer above an interface, src/xrtm_four_stream.c:649-653 and
676-679, src/xrtm_six_stream.c:884-888 and 911-914, with `ii = 2 i - 1`, `jj = 2 i`. -/
noncomputable def below (i : Nat) (b : Band ℝ) : Band ℝ :=
  let N := nc z
  let b := insert2 N (mComp n) (nDiags n) (2 * i + 1) (2 * i) 1 (Lam k z i) (Xp k z i) b
  let b := insert1 N (mComp n) (nDiags n) (2 * i + 1) (2 * i + 1) 1 (Xm k z i) b
  let b := insert2 N (mComp n) (nDiags n) (2 * i + 2) (2 * i) (-1) (Lam k z i) (Xm k z i) b
  insert1 N (mComp n) (nDiags n) (2 * i + 2) (2 * i + 1) (-1) (Xp k z i) b

/-- The columns of the layer below an interface, src/xrtm_four_stream.c:671-674 and
690-694. -/
noncomputable def above (i : Nat) (b : Band ℝ) : Band ℝ :=
  let N := nc z
  let b := insert1 N (mComp n) (nDiags n) (2 * i - 1) (2 * i) (-1) (Xp k z i) b
  let b := insert2 N (mComp n) (nDiags n) (2 * i - 1) (2 * i + 1) (-1) (Lam k z i) (Xm k z i) b
  let b := insert1 N (mComp n) (nDiags n) (2 * i) (2 * i) 1 (Xm k z i) b
  insert2 N (mComp n) (nDiags n) (2 * i) (2 * i + 1) 1 (Lam k z i) (Xp k z i) b

/-- `pp1`, src/xrtm_four_stream.c:701-713. -/
noncomputable def pp1 : Source.M n :=
  if z.surface then fun a b => Xp k z (z.L - 1) a b + ∑ l, z.Rs a l * Xm k z (z.L - 1) l b
  else Xp k z (z.L - 1)

/-- `pp2`. -/
noncomputable def pp2 : Source.M n :=
  if z.surface then fun a b => Xm k z (z.L - 1) a b + ∑ l, z.Rs a l * Xp k z (z.L - 1) l b
  else Xm k z (z.L - 1)

/-- The matrix, src/xrtm_four_stream.c:614-721, src/xrtm_six_stream.c:855-952. -/
noncomputable def system : Band ℝ :=
  let N := nc z
  let b : Band ℝ := ⟨fun _ _ => 0, true⟩
  let b := insert1 N (mComp n) (nDiags n) 0 0 (-1) (Xm k z 0) b
  let b := insert2 N (mComp n) (nDiags n) 0 1 (-1) (Lam k z 0) (Xp k z 0) b
  let b := if z.L > 1 then
      let b := below k z 0 b
      let b := forN (z.L - 2) (fun i b => below k z (i + 1) (above k z (i + 1) b)) b
      above k z (z.L - 1) b
    else b
  let b := insert2 N (mComp n) (nDiags n) (2 * z.L - 1) (2 * z.L - 2) 1 (Lam k z (z.L - 1)) (pp1 k z) b
  insert1 N (mComp n) (nDiags n) (2 * z.L - 1) (2 * z.L - 2 + 1) 1 (pp2 k z) b

/-- `insert_vector1_d`, src/xrtm_matrix.c:840-865. -/
def insertV (i1 : Nat) (al : ℝ) (v : Source.V n) (b : Nat → ℝ) : Nat → ℝ :=
  each n (fun j b => put b (i1 * n + j) (al * v j)) b

/-- The right hand side, src/xrtm_four_stream.c:726-755, src/xrtm_six_stream.c:961-990. -/
noncomputable def rhs : Nat → ℝ :=
  let b : Nat → ℝ := fun _ => 0
  let b := insertV 0 (-1) (F k z junk 0).2 b
  let b := forN (z.L - 1) (fun i b =>
    let b := insertV (1 + 2 * i) 1 (fun j => (F k z junk (i + 1)).1 j - z.atran i * (F k z junk i).1 j) b
    insertV (1 + 2 * i + 1) 1 (fun j => (F k z junk (i + 1)).2 j - z.atran i * (F k z junk i).2 j) b) b
  let l := z.L - 1
  insertV (2 * z.L - 1) 1 (if z.surface then fun j =>
      z.Inp j - z.atran l * ((F k z junk l).1 j - ∑ r, z.Rs j r * (F k z junk l).2 r)
    else fun j => -z.atran l * (F k z junk l).1 j) b

open Classical in
/-- The unknowns, src/xrtm_four_stream.c:298-777, src/xrtm_six_stream.c:452-1008. -/
noncomputable def solve
    (inv? : {N : Nat} → Matrix (Fin N) (Fin N) ℝ → Option (Matrix (Fin N) (Fin N) ℝ)) : Res (Nat → ℝ) :=
  if z.m < 2 * n ∧ z.nCoef < 2 * n then .read
  else if Numbers k z then
    if (system k z).ok then
      match inv? ((system k z).read (nDiags n) (nc z)) with
      | none => .singular
      | some x => .ok (solved (nc z) x (rhs k z junk))
    else .out
  else .nan

/-! ## The radiances -/

/-- `I_p` and `I_m` at a level, src/xrtm_four_stream.c:784-927,
src/xrtm_six_stream.c:1014-1202. -/
noncomputable def level (b : Nat → ℝ) (lev : Nat) : Source.V n × Source.V n :=
  if lev ≠ z.L then
    let ii := lev
    let iii := ii * n * 2
    (fun j => (∑ l : Fin n, (b (iii + l) * Xp k z ii j l + b (iii + l + n) * Lam k z ii l * Xm k z ii j l)) +
        (F k z junk ii).1 j,
     fun j => (∑ l : Fin n, (b (iii + l) * -Xm k z ii j l + b (iii + l + n) * Lam k z ii l * -Xp k z ii j l)) +
        (F k z junk ii).2 j)
  else
    let ii := z.L - 1
    let iii := ii * n * 2
    (fun j => (∑ l : Fin n, (b (iii + l) * Lam k z ii l * Xp k z ii j l + b (iii + l + n) * Xm k z ii j l)) +
        (F k z junk ii).1 j * z.atran ii,
     fun j => (∑ l : Fin n, (b (iii + l) * Lam k z ii l * -Xm k z ii j l + b (iii + l + n) * -Xp k z ii j l)) +
        (F k z junk ii).2 j * z.atran ii)

/-- `I_p` and `I_m` at the depth `t` in the layer `ii`, src/xrtm_four_stream.c:967-1048,
src/xrtm_six_stream.c:1242-1343. -/
noncomputable def atTau (b : Nat → ℝ) (ii : Nat) (t : ℝ) : Source.V n × Source.V n :=
  let lp : Source.V n := fun j => Real.exp (-nu k z ii j * (t - 0))
  let lm : Source.V n := fun j => Real.exp (-nu k z ii j * (z.ltau ii - t))
  let uatran := Real.exp (-t * z.as0 ii)
  let iii := ii * n * 2
  (fun j => (∑ l : Fin n, (b (iii + l) * lp l * Xp k z ii j l + b (iii + l + n) * lm l * Xm k z ii j l)) +
      (F k z junk ii).1 j * uatran,
   fun j => (∑ l : Fin n, (b (iii + l) * lp l * -Xm k z ii j l + b (iii + l + n) * lm l * -Xp k z ii j l)) +
      (F k z junk ii).2 j * uatran)

/-! ## The call in the four stream solver -/

/-- Types of parameters. -/
inductive Ty where
  | int | pint | d1 | d2 | d3 | d4 | flags | tree | work
  deriving DecidableEq

/-- The parameters `calc_radiance_levels` is declared with in the four stream solver,
src/xrtm_four_stream.c:929-942. -/
def declared : List Ty :=
  [.int, .int, .int, .int, .pint, .d1, .d2, .d1, .d2, .d2, .d3, .d3, .d2, .d2, .d2, .d2, .d2, .d2,
   .d3, .d4, .d4, .d3, .d3, .d3, .d3, .d3, .d3, .d1, .d2, .d2, .d2, .d3, .d3, .int, .flags, .flags, .tree, .work]

/-- Those it is defined with, src/xrtm_eig_bvp_x.c:568-597, src/prototypes/xrtm_eig_bvp_p.h:2. -/
def defined : List Ty :=
  [.int, .int, .int, .int, .pint, .d1, .d2, .d1, .d2, .d2, .d3, .d3, .d2, .d2, .d2, .d2, .d2, .d2, .d2, .d2,
   .d3, .d4, .d4, .d3, .d3, .d3, .d3, .d3, .d3, .d3, .d3, .d1, .d2, .d2, .d2, .d3, .d3, .int, .int,
   .flags, .flags, .flags, .tree, .work]

/-- A call through a declaration; it has a meaning only if that is the one of the
definition. -/
def callAs {α : Type} (decl defn : List Ty) (a : α) : Res α := if decl = defn then .ok a else .call

/-- What is wanted: at levels or at depths. -/
inductive Want where
  | level (lev : Nat)
  | tau (ii : Nat) (t : ℝ)

/-- `rtm_four_stream` without further directions: at levels the radiances are in the
arrays, and then they are to be computed a second time by `calc_radiance_levels`
(src/xrtm_four_stream.c:944-957); `again` is what that makes of them. -/
noncomputable def runFour (z : Inp 2) (junk : Nat → Source.V 2 × Source.V 2)
    (inv? : {N : Nat} → Matrix (Fin N) (Fin N) ℝ → Option (Matrix (Fin N) (Fin N) ℝ))
    (again : Source.V 2 × Source.V 2) (w : Want) : Res (Source.V 2 × Source.V 2) :=
  match solve four z junk inv? with
  | .ok b =>
    match w with
    | .level _ => callAs declared defined again
    | .tau ii t => .ok (atTau four z junk b ii t)
  | .nan => .nan
  | .singular => .singular
  | .out => .out
  | .read => .read
  | .call => .call

/-- `rtm_six_stream`. -/
noncomputable def runSix (z : Inp 3) (junk : Nat → Source.V 3 × Source.V 3)
    (inv? : {N : Nat} → Matrix (Fin N) (Fin N) ℝ → Option (Matrix (Fin N) (Fin N) ℝ))
    (w : Want) : Res (Source.V 3 × Source.V 3) :=
  match solve six z junk inv? with
  | .ok b =>
    match w with
    | .level lev => .ok (level six z junk b lev)
    | .tau ii t => .ok (atTau six z junk b ii t)
  | .nan => .nan
  | .singular => .singular
  | .out => .out
  | .read => .read
  | .call => .call

/-- The derivatives both solvers give, src/xrtm_four_stream.c:314-324,
src/xrtm_six_stream.c:476-486. -/
def derivs {n : Nat} : Source.V n × Source.V n := (fun _ => 0, fun _ => 0)

end Xrtm.Streams
