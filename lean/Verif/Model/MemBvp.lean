import Verif.Model.Bvp

/-!
# The matrix exponential solver for the whole atmosphere

src/xrtm_mem_bvp_x.c:31-911, src/xrtm_mem_bvp.c:409-481.

`K` is as in `Model/Bvp`: the real numbers for `solve_bvp`, the complex numbers for
`solve_bvp2`.  The unknowns are the radiances at the levels.  Simplified: running
indices (`ii += 2`) are written as their values; the terms that are added to one
element of `B_l` one after the other are written as one sum; one parameter to be
differentiated by at a time; `sigma_p`, `sigma_m`, which are real numbers in an array
of `TYPE`, are real.  The modes are inputs (`Model/Eig`); the particular solutions
that `rtm_mem_bvp` makes (`Model/Source`) are handed to `SOLVE_BVP` and not used in
it, so they are not here.
-/

namespace Xrtm.MemBvp
open Matrix Xrtm.Loops Xrtm.Eig Xrtm.Bvp

variable {n : Nat} {K : Type} [RCLike K]

/-- What goes into `SOLVE_BVP`. -/
structure Inp (n : Nat) (K : Type) where
  L : Nat
  ns : Nat
  m : Nat → Modes n K
  F0 : ℝ
  qx : Source.V n
  omega : Nat → ℝ
  ltau : Nat → ℝ
  btau : Nat → ℝ
  btran : Nat → ℝ
  P0mm : Nat → Source.V n
  P0pm : Nat → Source.V n
  Rs : Source.M n
  I1m : Source.V n
  Inp : Source.V n
  surface : Bool

/-- `a_inv`, `b_inv`, src/xrtm_mem_bvp_x.c:209-215. -/
structure Inv (n : Nat) (K : Type) where
  a : Nat → Matrix (Fin n) (Fin n) K
  b : Nat → Matrix (Fin n) (Fin n) K

variable (ex : K → K) (z : Inp n K) (v : Inv n K)

/-- `X_i_11`, src/xrtm_mem_bvp_x.c:217-218. -/
def x11 (i : Nat) : Matrix (Fin n) (Fin n) K := (1 / 2 : K) • (v.a i + v.b i)

/-- `X_i_12`, src/xrtm_mem_bvp_x.c:219-220. -/
def x12 (i : Nat) : Matrix (Fin n) (Fin n) K := (1 / 2 : K) • (v.a i - v.b i)

/-- `alpha`, src/xrtm_mem_bvp_x.c:202-203. -/
def alpha (i : Nat) (j : Fin n) : K := ex (-(z.m i).nu j * (z.ltau i : K))

/-- The divisors of `beta1` and `beta2`, src/xrtm_mem_bvp_x.c:259-263. -/
def den1 (i : Nat) (j : Fin n) : K := (z.btau (i + 1) : K) - (z.btau i : K) - (z.m i).nu j * (z.ltau i : K)
def den2 (i : Nat) (j : Fin n) : K := (z.btau i : K) - (z.btau (i + 1) : K) - (z.m i).nu j * (z.ltau i : K)

/-- `beta1`, `beta2`, src/xrtm_mem_bvp_x.c:259-263. -/
def beta1 (i : Nat) (j : Fin n) : K :=
  ((z.btran i : K) * alpha ex z i j - (z.btran (i + 1) : K)) / den1 z i j
def beta2 (i : Nat) (j : Fin n) : K :=
  ((z.btran (i + 1) : K) * alpha ex z i j - (z.btran i : K)) / den2 z i j

/-- `cc`, src/xrtm_mem_bvp_x.c:269-274. -/
noncomputable def scat (i : Nat) (j : Fin n) : ℝ := z.F0 / (4 * Real.pi) * z.omega i * z.ltau i / z.qx j

/-- `sigma_p`, src/xrtm_mem_bvp_x.c:275. -/
noncomputable def sigP (i : Nat) : Source.V n := fun j => scat z i j * z.P0pm i j

/-- `sigma_m`, src/xrtm_mem_bvp_x.c:276-278. -/
noncomputable def sigM (i : Nat) : Source.V n := fun j =>
  let s := -scat z i j * z.P0mm i j
  if 1 < j.val % z.ns then -s else s

/-- A real vector as one of `TYPE`. -/
def up (f : Source.V n) : Fin n → K := fun j => (f j : K)

/-- `v1`, src/xrtm_mem_bvp_x.c:287-289. -/
noncomputable def vc (i : Nat) : Fin n → K := x11 v i *ᵥ up (sigP z i) + x12 v i *ᵥ up (sigM z i)

/-- `v1`, src/xrtm_mem_bvp_x.c:294-296. -/
noncomputable def vd (i : Nat) : Fin n → K := x11 v i *ᵥ up (sigM z i) + x12 v i *ᵥ up (sigP z i)

/-- `n_comp`, src/xrtm_mem_bvp_x.c:113. -/
def nComp : Nat := 2 * n * (z.L + 1)

/-- The rows of one layer, src/xrtm_mem_bvp_x.c:241-253, with `ii = 1 + 2 i`, `jj = 2 i`. -/
def layerRows (i : Nat) (b : Band K) : Band K :=
  let nc := nComp z
  let mc := mComp n
  let kd := nDiags n
  let ii := 1 + 2 * i
  let jj := 2 * i
  let b := insert1 nc mc kd (ii + 1) (jj + 1) (-1) (x11 v i) b
  let b := insert1 nc mc kd ii (jj + 2) (-1) (x11 v i) b
  let w1 : Matrix (Fin n) (Fin n) K := Matrix.of fun j k => alpha ex z i j * x11 v i j k
  let b := insert1 nc mc kd ii jj 1 w1 b
  let b := insert1 nc mc kd (ii + 1) (jj + 3) 1 w1 b
  let b := insert1 nc mc kd (ii + 1) jj (-1) (x12 v i) b
  let b := insert1 nc mc kd ii (jj + 3) (-1) (x12 v i) b
  let w1 : Matrix (Fin n) (Fin n) K := Matrix.of fun j k => alpha ex z i j * x12 v i j k
  let b := insert1 nc mc kd ii (jj + 1) 1 w1 b
  insert1 nc mc kd (ii + 1) (jj + 2) 1 w1 b

/-- The matrix of the system, src/xrtm_mem_bvp_x.c:150-182, 197-254. -/
def system : Band K :=
  let nc := nComp z
  let mc := mComp n
  let kd := nDiags n
  let b : Band K := ⟨fun _ _ => 0, true⟩
  let b := insert1 nc mc kd 0 1 1 (1 : Matrix (Fin n) (Fin n) K) b
  let ii := 2 * z.L
  let b := insert1 nc mc kd (ii + 1) ii 1 (1 : Matrix (Fin n) (Fin n) K) b
  let b := if z.surface then
      insert1 nc mc kd (ii + 1) (ii + 1) (-1) (Matrix.of fun i j => (z.Rs i j : K)) b
    else b
  forN z.L (layerRows ex z v) b

/-- The right hand side, src/xrtm_mem_bvp_x.c:186-191, 284-299; `B0` is what was in
the memory before. -/
noncomputable def rhs (B0 : Nat → K) : Nat → K :=
  let B := each n (fun i B => put B i.val 0) B0
  let B := each n (fun i B => put B (nComp z - n + i) (z.Inp i : K)) B
  forN z.L (fun i B =>
    let iii := (1 + 2 * i) * n
    let B := each n (fun j B => put B (iii + j) (beta1 ex z i j * vc z v i j)) B
    let B := each n (fun j B => put B (iii + n + j) (beta2 ex z i j * vd z v i j)) B
    each n (fun j B => put B (iii + n + j) (-1 * B (iii + n + j))) B) B

/-- The inverses there are. -/
def inverses (inv? : {N : Nat} → Matrix (Fin N) (Fin N) K → Option (Matrix (Fin N) (Fin N) K)) : Inv n K :=
  ⟨fun i => (inv? ((z.m i).Xp - (z.m i).Xm)).getD 0, fun i => (inv? ((z.m i).Xp + (z.m i).Xm)).getD 0⟩

/-- Nothing is divided by zero, and the matrices have inverses (otherwise `exit(1)` in
`xmat_getrf`). -/
def Safe (inv? : {N : Nat} → Matrix (Fin N) (Fin N) K → Option (Matrix (Fin N) (Fin N) K)) : Prop :=
  ∀ i, i < z.L → (inv? ((z.m i).Xp - (z.m i).Xm)).isSome ∧ (inv? ((z.m i).Xp + (z.m i).Xm)).isSome ∧
    ∀ j, den1 z i j ≠ 0 ∧ den2 z i j ≠ 0

open Classical in
/-- `SOLVE_BVP`, src/xrtm_mem_bvp_x.c:31-327: the unknowns, unless a matrix is singular
(`exit(1)`), the band array was left, or a number is none. -/
noncomputable def solve (inv? : {N : Nat} → Matrix (Fin N) (Fin N) K → Option (Matrix (Fin N) (Fin N) K))
    (B0 : Nat → K) : Option (Nat → K) :=
  if Safe z inv? then
    let v := inverses z inv?
    let b := system ex z v
    if b.ok then
      match inv? (b.read (nDiags n) (nComp z)) with
      | none => none
      | some x => some (solved (nComp z) x (rhs ex z v B0))
    else none
  else none

/-! ## The radiances -/

/-- The unknowns at a level. -/
def at_ (B : Nat → K) (lev : Nat) : (Fin n → K) × (Fin n → K) :=
  (fun j => B (lev * (n * 2) + j), fun j => B (lev * (n * 2) + j + n))

/-- `CALC_RADIANCE_LEVELS`, src/xrtm_mem_bvp_x.c:572-579. -/
def level (B : Nat → K) (lev : Nat) : Source.V n × Source.V n :=
  (fun j => RCLike.re ((at_ (n := n) B lev).1 j), fun j => RCLike.re ((at_ (n := n) B lev).2 j))

/-- `a`, src/xrtm_mem_bvp_x.c:711-713. -/
def va (B : Nat → K) (ii : Nat) : Fin n → K := x11 v ii *ᵥ (at_ B ii).1 + x12 v ii *ᵥ (at_ B ii).2

/-- `b`, src/xrtm_mem_bvp_x.c:715-717. -/
def vb (B : Nat → K) (ii : Nat) : Fin n → K :=
  x12 v ii *ᵥ (at_ B (ii + 1)).1 + x11 v ii *ᵥ (at_ B (ii + 1)).2

/-- What is left of the beam at a depth, src/xrtm_mem_bvp_x.c:731, 733. -/
noncomputable def beamAt (ii : Nat) (x : ℝ) : K :=
  ex (-((1 - (x : K) / (z.ltau ii : K)) * (z.btau ii : K) + (x : K) / (z.ltau ii : K) * (z.btau (ii + 1) : K)))

/-- `beta1`, src/xrtm_mem_bvp_x.c:730-731. -/
noncomputable def beta1At (ii : Nat) (x : ℝ) (j : Fin n) : K :=
  let aa := (z.m ii).nu j * (x : K)
  (ex (-((z.btau ii : K) + aa)) - beamAt ex z ii x) / den1 z ii j

/-- `beta2`, src/xrtm_mem_bvp_x.c:732-733. -/
noncomputable def beta2At (ii : Nat) (x : ℝ) (j : Fin n) : K :=
  let aa := (z.m ii).nu j * ((z.ltau ii - x : ℝ) : K)
  (ex (-((z.btau (ii + 1) : K) + aa)) - beamAt ex z ii x) / den2 z ii j

/-- `alpha1`, `alpha2`, src/xrtm_mem_bvp_x.c:702-705. -/
def alpha1 (ii : Nat) (x : ℝ) (j : Fin n) : K := ex (-(z.m ii).nu j * (x : K))
def alpha2 (ii : Nat) (x : ℝ) (j : Fin n) : K := ex (-(z.m ii).nu j * ((z.ltau ii - x : ℝ) : K))

/-- `gpo`, src/xrtm_mem_bvp_x.c:721, 750. -/
noncomputable def gpo (B : Nat → K) (ii : Nat) (x : ℝ) (j : Fin n) : K :=
  alpha1 ex z ii x j * va v B ii j + -beta1At ex z ii x j * vc z v ii j

/-- `hpp`, src/xrtm_mem_bvp_x.c:722, 751. -/
noncomputable def hpp (B : Nat → K) (ii : Nat) (x : ℝ) (j : Fin n) : K :=
  alpha2 ex z ii x j * -vb v B ii j + beta2At ex z ii x j * -vd z v ii j

/-- `CALC_RADIANCE_TAUS`, src/xrtm_mem_bvp_x.c:691-766. -/
noncomputable def atTau (B : Nat → K) (ii : Nat) (x : ℝ) : Source.V n × Source.V n :=
  let g := gpo ex z v B ii x
  let h := hpp ex z v B ii x
  (fun j => RCLike.re (((z.m ii).Xp *ᵥ g) j + ((z.m ii).Xm *ᵥ h) j),
   fun j => -RCLike.re (((z.m ii).Xm *ᵥ g) j + ((z.m ii).Xp *ᵥ h) j))

/-- What is given back, src/xrtm_mem_bvp.c:470-480: the light down is turned (only
for `vector`; otherwise `ns` is one). -/
def output (ns : Nat) (I : Source.V n × Source.V n) : Source.V n × Source.V n := (I.1, Source.turn ns I.2)

/-! ## Derivatives -/

/-- Which of the values have a derivative. -/
structure Flags where
  lay : Nat → Bool
  beam : Nat → Bool

variable (z' : Inp n K) (fl : Flags)

/-- `v1`, src/xrtm_mem_bvp_x.c:365-366. -/
def alphaL (i : Nat) (j : Fin n) : K :=
  (-(z'.m i).nu j * (z.ltau i : K) - (z.m i).nu j * (z'.ltau i : K)) * alpha ex z i j

/-- `w1`, `w2`, src/xrtm_mem_bvp_x.c:372-378. -/
def invL (i : Nat) : Matrix (Fin n) (Fin n) K × Matrix (Fin n) (Fin n) K :=
  (v.a i * ((z'.m i).Xp - (z'.m i).Xm) * v.a i, v.b i * ((z'.m i).Xp + (z'.m i).Xm) * v.b i)

/-- `X_i_11_l`, `X_i_12_l`, src/xrtm_mem_bvp_x.c:380-383. -/
def x11L (i : Nat) : Matrix (Fin n) (Fin n) K := (-(1 / 2) : K) • ((invL v z' i).1 + (invL v z' i).2)
def x12L (i : Nat) : Matrix (Fin n) (Fin n) K := (-(1 / 2) : K) • ((invL v z' i).1 - (invL v z' i).2)

/-- `bb_l`, src/xrtm_mem_bvp_x.c:446-448. -/
def rateL (i : Nat) (j : Fin n) : K :=
  (z.m i).nu j * (z'.ltau i : K) + on (fl.lay i) ((z'.m i).nu j * (z.ltau i : K))

/-- `v1`, src/xrtm_mem_bvp_x.c:450. -/
def beta1L (i : Nat) (j : Fin n) : K :=
  let bb' := rateL z z' fl i j
  ((-(z'.btau i : K) - bb') * (z.btran i : K) * alpha ex z i j + (z'.btau (i + 1) : K) * (z.btran (i + 1) : K) -
    beta1 ex z i j * ((z'.btau (i + 1) : K) - (z'.btau i : K) - bb')) / den1 z i j

/-- `v2`, src/xrtm_mem_bvp_x.c:451. -/
def beta2L (i : Nat) (j : Fin n) : K :=
  let bb' := rateL z z' fl i j
  ((-(z'.btau (i + 1) : K) - bb') * (z.btran (i + 1) : K) * alpha ex z i j + (z'.btau i : K) * (z.btran i : K) -
    beta2 ex z i j * ((z'.btau i : K) - (z'.btau (i + 1) : K) - bb')) / den2 z i j

/-- `cc_l`, src/xrtm_mem_bvp_x.c:462-466. -/
noncomputable def scatL (i : Nat) (j : Fin n) : ℝ :=
  z.F0 / (4 * Real.pi) * (z'.omega i * z.ltau i + z.omega i * z'.ltau i) / z.qx j

/-- `sigma_p_l`, src/xrtm_mem_bvp_x.c:467, 469. -/
noncomputable def sigPL (i : Nat) : Source.V n := fun j =>
  scatL z z' i j * z.P0pm i j + scat z i j * z'.P0pm i j

/-- `sigma_m_l`, src/xrtm_mem_bvp_x.c:468, 470-473. -/
noncomputable def sigML (i : Nat) : Source.V n := fun j =>
  let s := -scatL z z' i j * z.P0mm i j + -scat z i j * z'.P0mm i j
  if 1 < j.val % z.ns then -s else s

/-- `v3`, src/xrtm_mem_bvp_x.c:491-497. -/
noncomputable def vcL (i : Nat) : Fin n → K :=
  x11L v z' i *ᵥ up (sigP z i) + x11 v i *ᵥ up (sigPL z z' i) + x12L v z' i *ᵥ up (sigM z i) +
    x12 v i *ᵥ up (sigML z z' i)

/-- `v3`, src/xrtm_mem_bvp_x.c:513-519. -/
noncomputable def vdL (i : Nat) : Fin n → K :=
  x12L v z' i *ᵥ up (sigP z i) + x12 v i *ᵥ up (sigPL z z' i) + x11L v z' i *ᵥ up (sigM z i) +
    x11 v i *ᵥ up (sigML z z' i)

/-- What is added to the rows `ii` of a layer, src/xrtm_mem_bvp_x.c:389-411, 481-501. -/
noncomputable def upL (B : Nat → K) (i : Nat) (j : Fin n) : K :=
  let p0 := (at_ (n := n) B i).1
  let m0 := (at_ (n := n) B i).2
  let p1 := (at_ (n := n) B (i + 1)).1
  let m1 := (at_ (n := n) B (i + 1)).2
  on (fl.lay i) (-(-(x11L v z' i *ᵥ p1) j) -
      (alphaL ex z z' i j * (x11 v i *ᵥ p0) j + alpha ex z i j * (x11L v z' i *ᵥ p0) j) -
      -(x12L v z' i *ᵥ m1) j -
      (alphaL ex z z' i j * (x12 v i *ᵥ m0) j + alpha ex z i j * (x12L v z' i *ᵥ m0) j)) +
    on (fl.beam i) (beta1L ex z z' fl i j * ((x11 v i *ᵥ up (sigP z i)) j + (x12 v i *ᵥ up (sigM z i)) j)) +
    on (fl.lay i) (beta1 ex z i j * vcL z v z' i j)

/-- What is added to the rows `ii + n_quad_v` of a layer, src/xrtm_mem_bvp_x.c:414-436,
503-523. -/
noncomputable def dnL (B : Nat → K) (i : Nat) (j : Fin n) : K :=
  let p0 := (at_ (n := n) B i).1
  let m0 := (at_ (n := n) B i).2
  let p1 := (at_ (n := n) B (i + 1)).1
  let m1 := (at_ (n := n) B (i + 1)).2
  on (fl.lay i) (-(-(x11L v z' i *ᵥ m0) j) -
      (alphaL ex z z' i j * (x11 v i *ᵥ m1) j + alpha ex z i j * (x11L v z' i *ᵥ m1) j) -
      -(x12L v z' i *ᵥ p0) j -
      (alphaL ex z z' i j * (x12 v i *ᵥ p1) j + alpha ex z i j * (x12L v z' i *ᵥ p1) j)) -
    on (fl.beam i) (beta2L ex z z' fl i j * ((x12 v i *ᵥ up (sigP z i)) j + (x11 v i *ᵥ up (sigM z i)) j)) -
    on (fl.lay i) (beta2 ex z i j * vdL z v z' i j)

/-- The right hand side for the derivative, src/xrtm_mem_bvp_x.c:334-528. -/
noncomputable def rhsL (B : Nat → K) : Nat → K :=
  let nc := nComp z
  let R : Nat → K := fun _ => 0
  let R := each n (fun i R => put R i.val 0) R
  let R := each n (fun i R => put R (nc - n + i) (z'.Inp i : K)) R
  let R := if z.surface && fl.lay z.L then
      each n (fun i R => bump R (nc - n + i) (∑ k : Fin n, (z'.Rs i k : K) * B (nc - n + k))) R
    else R
  forN z.L (fun i R =>
    let R := each n (fun j R => bump R (n + 2 * n * i + j) (upL ex z v z' fl B i j)) R
    each n (fun j R => bump R (n + 2 * n * i + n + j) (dnL ex z v z' fl B i j)) R) R

/-- The derivatives of the unknowns, src/xrtm_mem_bvp_x.c:332-544. -/
noncomputable def solveL (inv? : {N : Nat} → Matrix (Fin N) (Fin N) K → Option (Matrix (Fin N) (Fin N) K))
    (B : Nat → K) : Option (Nat → K) :=
  let v := inverses z inv?
  match inv? ((system ex z v).read (nDiags n) (nComp z)) with
  | none => none
  | some x => some (solved (nComp z) x (rhsL ex z v z' fl B))

/-- The derivatives of the radiances at a level, src/xrtm_mem_bvp_x.c:581-586. -/
def levelL (B' : Nat → K) (lev : Nat) : Source.V n × Source.V n := level B' lev

/-- The derivatives of `a` and `b`, src/xrtm_mem_bvp_x.c:777-797. -/
def vaL (B B' : Nat → K) (ii : Nat) : Fin n → K :=
  x11 v ii *ᵥ (at_ B' ii).1 + x12 v ii *ᵥ (at_ B' ii).2 +
    (fun j => on (fl.lay ii) ((x11L v z' ii *ᵥ (at_ B ii).1) j + (x12L v z' ii *ᵥ (at_ B ii).2) j))
def vbL (B B' : Nat → K) (ii : Nat) : Fin n → K :=
  x12 v ii *ᵥ (at_ B' (ii + 1)).1 + x11 v ii *ᵥ (at_ B' (ii + 1)).2 +
    (fun j => on (fl.lay ii) ((x12L v z' ii *ᵥ (at_ B (ii + 1)).1) j + (x11L v z' ii *ᵥ (at_ B (ii + 1)).2) j))

/-- `aa`, src/xrtm_mem_bvp_x.c:848; `x'` is `x_l`. -/
noncomputable def beamAtL (ii : Nat) (x x' : ℝ) : K :=
  (((-x' / z.ltau ii + x * z'.ltau ii / (z.ltau ii * z.ltau ii)) * z.btau ii + (1 - x / z.ltau ii) * z'.btau ii +
    (x' / z.ltau ii - x * z'.ltau ii / (z.ltau ii * z.ltau ii)) * z.btau (ii + 1) +
    x / z.ltau ii * z'.btau (ii + 1) : ℝ) : K) * beamAt ex z ii x

/-- `a3`, src/xrtm_mem_bvp_x.c:851-860. -/
noncomputable def beta1AtL (ii : Nat) (x x' : ℝ) (j : Fin n) : K :=
  let y1 := (z.m ii).nu j * (x : K)
  let y2 := on (fl.lay ii) ((z'.m ii).nu j * (x : K) + (z.m ii).nu j * (x' : K))
  let bb := (-(z'.btau ii : K) - y2) * ex (-((z.btau ii : K) + y1)) + beamAtL ex z z' ii x x'
  let cc := (z'.btau (ii + 1) : K) - (z'.btau ii : K) -
    on (fl.lay ii) ((z'.m ii).nu j * (z.ltau ii : K) + (z.m ii).nu j * (z'.ltau ii : K))
  (bb - beta1At ex z ii x j * cc) / den1 z ii j

/-- `a4`, src/xrtm_mem_bvp_x.c:862-871. -/
noncomputable def beta2AtL (ii : Nat) (x x' : ℝ) (j : Fin n) : K :=
  let y1 := (z.m ii).nu j * ((z.ltau ii - x : ℝ) : K)
  let y2 := on (fl.lay ii) ((z'.m ii).nu j * ((z.ltau ii - x : ℝ) : K) +
    (z.m ii).nu j * ((z'.ltau ii - x' : ℝ) : K))
  let bb := (-(z'.btau (ii + 1) : K) - y2) * ex (-((z.btau (ii + 1) : K) + y1)) + beamAtL ex z z' ii x x'
  let cc := (z'.btau ii : K) - (z'.btau (ii + 1) : K) -
    on (fl.lay ii) ((z'.m ii).nu j * (z.ltau ii : K) + (z.m ii).nu j * (z'.ltau ii : K))
  (bb - beta2At ex z ii x j * cc) / den2 z ii j

/-- `v3`, src/xrtm_mem_bvp_x.c:804-811, 838, 873. -/
noncomputable def gpoL (B B' : Nat → K) (ii : Nat) (x x' : ℝ) (j : Fin n) : K :=
  alpha1 ex z ii x j * vaL v z' fl B B' ii j +
    on (fl.lay ii) (-((z'.m ii).nu j * (x : K) + (z.m ii).nu j * (x' : K)) * alpha1 ex z ii x j * va v B ii j) +
    on (fl.lay ii) (-beta1At ex z ii x j * vcL z v z' ii j) +
    on (fl.beam ii) (-beta1AtL ex z z' fl ii x x' j * vc z v ii j)

/-- `v4`, src/xrtm_mem_bvp_x.c:805-812, 839, 874. -/
noncomputable def hppL (B B' : Nat → K) (ii : Nat) (x x' : ℝ) (j : Fin n) : K :=
  alpha2 ex z ii x j * -vbL v z' fl B B' ii j +
    on (fl.lay ii) (-((z'.m ii).nu j * ((z.ltau ii - x : ℝ) : K) + (z.m ii).nu j * ((z'.ltau ii - x' : ℝ) : K)) *
      alpha2 ex z ii x j * -vb v B ii j) +
    on (fl.lay ii) (beta2At ex z ii x j * -vdL z v z' ii j) +
    on (fl.beam ii) (beta2AtL ex z z' fl ii x x' j * -vd z v ii j)

/-- The derivatives of the radiances at a depth, src/xrtm_mem_bvp_x.c:772-909. -/
noncomputable def atTauL (B B' : Nat → K) (ii : Nat) (x : ℝ) : Source.V n × Source.V n :=
  let x' := x * z'.ltau ii / z.ltau ii
  let g := gpo ex z v B ii x
  let h := hpp ex z v B ii x
  let g' := gpoL ex z v z' fl B B' ii x x'
  let h' := hppL ex z v z' fl B B' ii x x'
  (fun j => RCLike.re (((z.m ii).Xp *ᵥ g') j + ((z.m ii).Xm *ᵥ h') j) +
      on (fl.lay ii) (RCLike.re (((z'.m ii).Xp *ᵥ g) j) + RCLike.re (((z'.m ii).Xm *ᵥ h) j)),
   fun j => -RCLike.re (((z.m ii).Xm *ᵥ g') j + ((z.m ii).Xp *ᵥ h') j) -
      on (fl.lay ii) (RCLike.re (((z'.m ii).Xm *ᵥ g) j) + RCLike.re (((z'.m ii).Xp *ᵥ h) j)))

end Xrtm.MemBvp
