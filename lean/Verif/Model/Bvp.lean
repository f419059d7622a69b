import Verif.Model.Eig
import Verif.Model.Loops

/-!
# The eigenmatrix solver for the whole atmosphere

src/xrtm_eig_bvp_x.c:31-1078, src/xrtm_eig_bvp.c:136-1000,
src/xrtm_matrix.c:1044-1247.

`K` is the real numbers for the scalar path (`solve_bvp`) and the complex numbers
for the vector path (`solve_bvp2`); the two are one text included twice, with
`LEGACY_MODE` and the band solver.  Indices of layers are natural numbers, the
array of the unknowns is indexed as in the code, and the band array carries
whether all writes were inside of it.  Simplified: running indices (`ii++`) are
written as their values; one parameter to be differentiated by at a time; the
modes and the particular solutions are inputs here (`Model/Eig`, `Model/Source`).
The source function integration (`sfi`), and what is saved for the adjoint, are
not here.
-/

namespace Xrtm.Bvp
open Matrix Xrtm.Loops Xrtm.Eig

variable {n : Nat} {K : Type} [RCLike K]

/-- A loop over the directions. -/
def each {σ : Type*} (n : Nat) (body : Fin n → σ → σ) (s : σ) : σ :=
  forN n (fun i s => if h : i < n then body ⟨i, h⟩ s else s) s

/-- The array for the band solver, the column first, and whether all writes to
it were inside. -/
structure Band (K : Type) where
  A : Nat → Int → K
  ok : Bool

/-- `a[c][s] = x` for an array of `nc` times `mc`. -/
def Band.store (b : Band K) (nc mc c : Nat) (s : Int) (x : K) : Band K :=
  ⟨fun c' s' => if c' = c ∧ s' = s then x else b.A c' s',
    b.ok && decide (c < nc ∧ 0 ≤ s ∧ s < mc)⟩

/-- `insert_matrix_band_storage1_d`, src/xrtm_matrix.c:1044-1091, for `m = n`, `kl = ku`. -/
def insert1 (nc mc kd i1 j1 : Nat) (alpha : K) (X : Matrix (Fin n) (Fin n) K) (b : Band K) : Band K :=
  each n (fun i b => each n (fun j b =>
    b.store nc mc (j1 * n + j) (((i1 * n + (kd + kd + 1) + i : Nat) : Int) - 1 - ((j1 * n + j : Nat) : Int))
      (alpha * X i j)) b) b

/-- `insert_matrix_band_storage2_d`, src/xrtm_matrix.c:1095-1142. -/
def insert2 (nc mc kd i1 j1 : Nat) (alpha : K) (d : Fin n → K) (X : Matrix (Fin n) (Fin n) K) (b : Band K) :
    Band K :=
  each n (fun i b => each n (fun j b =>
    b.store nc mc (j1 * n + j) (((i1 * n + (kd + kd + 1) + i : Nat) : Int) - 1 - ((j1 * n + j : Nat) : Int))
      (alpha * d j * X i j)) b) b

/-- The matrix that `dgbtrf` takes to be in the array. -/
def Band.read (b : Band K) (kd N : Nat) : Matrix (Fin N) (Fin N) K := fun r c =>
  if (r.val : Int) - c.val ≤ kd ∧ (c.val : Int) - r.val ≤ kd then
    b.A c.val (kd + kd + (r.val : Int) - c.val) else 0

/-- What goes into `SOLVE_BVP`. -/
structure Inp (n : Nat) (K : Type) where
  L : Nat
  m : Nat → Modes n K
  ltau : Nat → ℝ
  atran : Nat → ℝ
  Fsp : Nat → Source.V n
  Fsm : Nat → Source.V n
  Fs1p : Nat → Source.V n
  Fs1m : Nat → Source.V n
  Ft0p : Nat → Source.V n
  Ft0m : Nat → Source.V n
  Ft1p : Nat → Source.V n
  Ft1m : Nat → Source.V n
  Rs : Source.M n
  I1m : Source.V n
  Inp : Source.V n
  surface : Bool
  solar : Bool
  thermal : Bool

variable (ex : K → K) (z : Inp n K)

/-- `lambda`, src/xrtm_eig_bvp_x.c:131-135. -/
def lam (i : Nat) (k : Fin n) : K := ex (-(z.m i).nu k * (z.ltau i : K))

/-- `n_comp`, src/xrtm_eig_bvp_x.c:99. -/
def nComp : Nat := 2 * n * z.L

/-- `n_diags`, src/xrtm_eig_bvp_x.c:96. -/
def nDiags (n : Nat) : Nat := 3 * n - 1

/-- `m_comp`, src/xrtm_eig_bvp_x.c:97. -/
def mComp (n : Nat) : Nat := 3 * nDiags n + 1

/-- The unknowns at the bottom that decay, src/xrtm_eig_bvp_x.c:205-220. -/
def bottomA : Matrix (Fin n) (Fin n) K := fun j k =>
  let i := z.L - 1
  if z.surface then
    ((z.m i).Xp j k - ∑ l, (z.Rs j l : K) * -(z.m i).Xm l k) * lam ex z i k
  else (z.m i).Xp j k * lam ex z i k

/-- The unknowns at the bottom that grow, src/xrtm_eig_bvp_x.c:246-261. -/
def bottomB : Matrix (Fin n) (Fin n) K := fun j k =>
  let i := z.L - 1
  if z.surface then (z.m i).Xm j k - ∑ l, (z.Rs j l : K) * -(z.m i).Xp l k
  else (z.m i).Xm j k

/-- One interface, src/xrtm_eig_bvp_x.c:174-194, with `ii = 1 + 2 i`, `jj = 2 i`. -/
def interface (i : Nat) (b : Band K) : Band K :=
  let nc := nComp z
  let mc := mComp n
  let kd := nDiags n
  let b := insert2 nc mc kd (1 + 2 * i) (2 * i) 1 (lam ex z i) (z.m i).Xp b
  let b := insert1 nc mc kd (1 + 2 * i) (2 * i + 1) 1 (z.m i).Xm b
  let b := insert1 nc mc kd (1 + 2 * i) (2 * i + 2) (-1) (z.m (i + 1)).Xp b
  let b := insert2 nc mc kd (1 + 2 * i) (2 * i + 3) (-1) (lam ex z (i + 1)) (z.m (i + 1)).Xm b
  let b := insert2 nc mc kd (2 + 2 * i) (2 * i) (-1) (lam ex z i) (z.m i).Xm b
  let b := insert1 nc mc kd (2 + 2 * i) (2 * i + 1) (-1) (z.m i).Xp b
  let b := insert1 nc mc kd (2 + 2 * i) (2 * i + 2) 1 (z.m (i + 1)).Xm b
  insert2 nc mc kd (2 + 2 * i) (2 * i + 3) 1 (lam ex z (i + 1)) (z.m (i + 1)).Xp b

/-- The matrix of the system, src/xrtm_eig_bvp_x.c:146-285. -/
def system : Band K :=
  let nc := nComp z
  let mc := mComp n
  let kd := nDiags n
  let b : Band K := ⟨fun _ _ => 0, true⟩
  let b := insert1 nc mc kd 0 0 (-1) (z.m 0).Xm b
  let b := insert2 nc mc kd 0 1 (-1) (lam ex z 0) (z.m 0).Xp b
  let b := forN (z.L - 1) (interface ex z) b
  let ii := (z.L - 1) * 2
  let b := insert1 nc mc kd (ii + 1) ii 1 (bottomA ex z) b
  insert1 nc mc kd (ii + 1) (ii + 1) 1 (bottomB z) b

/-- `B[i] += top[i]`, `B[ii++] += up[j]`, `B[ii++] += dn[j]` at each interface, and
`B[n_comp - n_quad_v + j] += bot[j]`. -/
def addRows (nc L : Nat) (top : Fin n → K) (up dn : Nat → Fin n → K) (bot : Fin n → K) (B : Nat → K) :
    Nat → K :=
  let B := each n (fun i B => bump B i.val (top i)) B
  let B := forN (L - 1) (fun i B =>
    let B := each n (fun j B => bump B (n + 2 * n * i + j) (up i j)) B
    each n (fun j B => bump B (n + 2 * n * i + n + j) (dn i j)) B) B
  each n (fun j B => bump B (nc - n + j) (bot j)) B

/-- The right hand side, src/xrtm_eig_bvp_x.c:308-386. -/
def rhs : Nat → K :=
  let nc := nComp z
  let il := z.L - 1
  let B : Nat → K := fun _ => 0
  let B := each n (fun i B => bump B i.val (z.I1m i : K)) B
  let B := each n (fun j B => bump B (nc - n + j) (z.Inp j : K)) B
  let B := if z.solar then
      addRows nc z.L (fun i => -(z.Fsm 0 i : K))
        (fun i j => (z.Fsp (i + 1) j : K) - (z.Fs1p i j : K) * (z.atran i : K))
        (fun i j => (z.Fsm (i + 1) j : K) - (z.Fs1m i j : K) * (z.atran i : K))
        (fun j => -(z.Fs1p il j : K) * (z.atran il : K) +
          if z.surface then (∑ k, (z.Rs j k : K) * (z.Fs1m il k : K)) * (z.atran il : K) else 0) B
    else B
  if z.thermal then
    addRows nc z.L (fun i => -(z.Ft0m 0 i : K))
      (fun i j => (z.Ft0p (i + 1) j : K) - (z.Ft1p i j : K))
      (fun i j => (z.Ft0m (i + 1) j : K) - (z.Ft1m i j : K))
      (fun j => -(z.Ft1p il j : K) + if z.surface then ∑ k, (z.Rs j k : K) * (z.Ft1m il k : K) else 0) B
  else B

/-- The solution of the system with the factorised matrix, in an array. -/
def solved (N : Nat) (x : Matrix (Fin N) (Fin N) K) (B : Nat → K) : Nat → K := fun r =>
  if h : r < N then (x *ᵥ fun c => B c.val) ⟨r, h⟩ else B r

/-- `SOLVE_BVP`, src/xrtm_eig_bvp_x.c:31-404: the unknowns, unless the matrix is
singular (`exit(1)`) or the band array was left. -/
def solveBvp (inv? : {N : Nat} → Matrix (Fin N) (Fin N) K → Option (Matrix (Fin N) (Fin N) K)) :
    Option (Nat → K) :=
  let b := system ex z
  if b.ok then
    match inv? (b.read (nDiags n) (nComp z)) with
    | none => none
    | some x => some (solved (nComp z) x (rhs z))
  else none

/-! ## The radiances -/

/-- `CALC_RADIANCE_LEVELS`, src/xrtm_eig_bvp_x.c:656-759: `I_p` and `I_m` at one
level. -/
def level (B : Nat → K) (lev : Nat) : Source.V n × Source.V n :=
  if lev ≠ z.L then
    let ii := lev
    let iii := ii * (n * 2)
    (fun j => RCLike.re (∑ k : Fin n, (B (iii + k) * (z.m ii).Xp j k +
          B (iii + k + n) * (z.m ii).Xm j k * lam ex z ii k)) +
        (if z.solar then z.Fsp ii j else 0) + (if z.thermal then z.Ft0p ii j else 0),
     fun j => RCLike.re (∑ k : Fin n, (B (iii + k) * -(z.m ii).Xm j k +
          B (iii + k + n) * -(z.m ii).Xp j k * lam ex z ii k)) +
        (if z.solar then z.Fsm ii j else 0) + (if z.thermal then z.Ft0m ii j else 0))
  else
    let ii := z.L - 1
    let iii := ii * (n * 2)
    (fun j => RCLike.re (∑ k : Fin n, (B (iii + k) * (z.m ii).Xp j k * lam ex z ii k +
          B (iii + k + n) * (z.m ii).Xm j k)) +
        (if z.solar then z.Fs1p ii j * z.atran ii else 0) + (if z.thermal then z.Ft1p ii j else 0),
     fun j => RCLike.re (∑ k : Fin n, (B (iii + k) * -(z.m ii).Xm j k * lam ex z ii k +
          B (iii + k + n) * -(z.m ii).Xp j k)) +
        (if z.solar then z.Fs1m ii j * z.atran ii else 0) + (if z.thermal then z.Ft1m ii j else 0))

/-- `CALC_RADIANCE_TAUS`, src/xrtm_eig_bvp_x.c:957-1009: `I_p` and `I_m` at the depth
`t` in the layer `ii`; `as0` is the dimming of the beam there. -/
noncomputable def atTau (as0 : ℝ) (B : Nat → K) (ii : Nat) (t : ℝ) : Source.V n × Source.V n :=
  let lp : Fin n → K := fun j => ex (-(z.m ii).nu j * ((t - 0 : ℝ) : K))
  let lm : Fin n → K := fun j => ex (-(z.m ii).nu j * ((z.ltau ii - t : ℝ) : K))
  let iii := ii * (n * 2)
  (fun j => RCLike.re (∑ k : Fin n, (B (iii + k) * (z.m ii).Xp j k * lp k +
        B (iii + k + n) * (z.m ii).Xm j k * lm k)) +
      (if z.solar then z.Fsp ii j * Real.exp (-t * as0) else 0),
   fun j => RCLike.re (∑ k : Fin n, (B (iii + k) * -(z.m ii).Xm j k * lp k +
        B (iii + k + n) * -(z.m ii).Xp j k * lm k)) +
      (if z.solar then z.Fsm ii j * Real.exp (-t * as0) else 0))

/-- What is given back, src/xrtm_eig_bvp.c:988-999: the light down is turned (only
for `vector`; otherwise `ns` is one). -/
def output (ns : Nat) (I : Source.V n × Source.V n) : Source.V n × Source.V n := (I.1, Source.turn ns I.2)

/-! ## Derivatives -/

/-- Which of the values have a derivative. -/
structure Flags where
  lay : Nat → Bool
  beam : Nat → Bool
  heat : Nat → Bool

variable (z' : Inp n K) (fl : Flags)

/-- `lambda_l`, src/xrtm_eig_bvp_x.c:412-418. -/
def lamL (i : Nat) (k : Fin n) : K :=
  -((z'.m i).nu k * (z.ltau i : K) + (z.m i).nu k * (z'.ltau i : K)) * lam ex z i k

/-- `a = x` if the flag is set. -/
def on (c : Bool) (x : K) : K := if c then x else 0

/-- src/xrtm_eig_bvp_x.c:421-433. -/
def topL (B : Nat → K) (i : Fin n) : K :=
  -on (z.solar && fl.beam 0) (z'.Fsm 0 i : K) - on (z.thermal && fl.heat 0) (z'.Ft0m 0 i : K) -
    on (fl.lay 0) (∑ j : Fin n, (B j * -(z'.m 0).Xm i j +
      B (j + n) * (lamL ex z z' 0 j * -(z.m 0).Xp i j + lam ex z 0 j * -(z'.m 0).Xp i j))) +
    (z'.I1m i : K)

/-- src/xrtm_eig_bvp_x.c:440-460. -/
def upL (B : Nat → K) (i : Nat) (j : Fin n) : K :=
  let ii := i * (2 * n)
  0 - on (z.solar && fl.beam i) ((z'.Fs1p i j : K) * (z.atran i : K) + (z.Fs1p i j : K) * (z'.atran i : K)) +
    on (z.solar && fl.beam (i + 1)) (z'.Fsp (i + 1) j : K) -
    on (z.thermal && fl.heat i) (z'.Ft1p i j : K) +
    on (z.thermal && fl.heat (i + 1)) (z'.Ft0p (i + 1) j : K) +
    ∑ k : Fin n,
      (-on (fl.lay i) (B (ii + k) * (lamL ex z z' i k * (z.m i).Xp j k + lam ex z i k * (z'.m i).Xp j k) +
          B (ii + k + n) * (z'.m i).Xm j k) +
        on (fl.lay (i + 1)) (B (ii + k + 3 * n) * (lamL ex z z' (i + 1) k * (z.m (i + 1)).Xm j k +
            lam ex z (i + 1) k * (z'.m (i + 1)).Xm j k) + B (ii + k + 2 * n) * (z'.m (i + 1)).Xp j k))

/-- src/xrtm_eig_bvp_x.c:462-482. -/
def dnL (B : Nat → K) (i : Nat) (j : Fin n) : K :=
  let ii := i * (2 * n)
  0 - on (z.solar && fl.beam i) ((z'.Fs1m i j : K) * (z.atran i : K) + (z.Fs1m i j : K) * (z'.atran i : K)) +
    on (z.solar && fl.beam (i + 1)) (z'.Fsm (i + 1) j : K) -
    on (z.thermal && fl.heat i) (z'.Ft1m i j : K) +
    on (z.thermal && fl.heat (i + 1)) (z'.Ft0m (i + 1) j : K) +
    ∑ k : Fin n,
      (-on (fl.lay i) (B (ii + k) * (lamL ex z z' i k * -(z.m i).Xm j k + lam ex z i k * -(z'.m i).Xm j k) +
          B (ii + k + n) * -(z'.m i).Xp j k) +
        on (fl.lay (i + 1)) (B (ii + k + 3 * n) * (lamL ex z z' (i + 1) k * -(z.m (i + 1)).Xp j k +
            lam ex z (i + 1) k * -(z'.m (i + 1)).Xp j k) + B (ii + k + 2 * n) * -(z'.m (i + 1)).Xm j k))

/-- src/xrtm_eig_bvp_x.c:485-546. -/
def botL (B : Nat → K) (j : Fin n) : K :=
  let i := z.L - 1
  let ii := nComp z - 2 * n
  0 - on (z.solar && fl.beam i) ((z'.Fs1p i j : K) * (z.atran i : K) + (z.Fs1p i j : K) * (z'.atran i : K)) -
    on (z.thermal && fl.heat i) (z'.Ft1p i j : K) +
    on z.surface ((∑ k : Fin n,
        (on (z.solar && fl.beam i) ((z.Rs j k : K) *
            ((z'.Fs1m i k : K) * (z.atran i : K) + (z.Fs1m i k : K) * (z'.atran i : K))) +
          on (z.solar && fl.lay (i + 1)) ((z'.Rs j k : K) * (z.Fs1m i k : K) * (z.atran i : K)) +
          on (z.thermal && fl.heat i) ((z.Rs j k : K) * (z'.Ft1m i k : K)) +
          on (z.thermal && fl.lay (i + 1)) ((z'.Rs j k : K) * (z.Ft1m i k : K)))) +
      (z'.Inp j : K)) +
    ∑ k : Fin n,
      (-on (fl.lay i) (B (ii + k) * (lamL ex z z' i k * (z.m i).Xp j k + lam ex z i k * (z'.m i).Xp j k) +
          B (ii + k + n) * (z'.m i).Xm j k) +
        on z.surface
          (let c := ∑ l : Fin n, (z.Rs j l : K) * -(z.m i).Xm l k
           let d := ∑ l : Fin n, (on (fl.lay i) ((z.Rs j l : K) * -(z'.m i).Xm l k) +
             on (fl.lay (i + 1)) ((z'.Rs j l : K) * -(z.m i).Xm l k))
           let e := ∑ l : Fin n, (on (fl.lay i) ((z.Rs j l : K) * -(z'.m i).Xp l k) +
             on (fl.lay (i + 1)) ((z'.Rs j l : K) * -(z.m i).Xp l k))
           0 - on (fl.lay i) (B (ii + k) * lamL ex z z' i k * -c) -
             (B (ii + k) * lam ex z i k * -d + B (ii + k + n) * -e)))

/-- The right hand side for the derivative, src/xrtm_eig_bvp_x.c:420-546: each
element of `B_l` is assigned once. -/
def rhsL (B : Nat → K) : Nat → K :=
  let R : Nat → K := fun _ => 0
  let R := each n (fun i R => put R i.val (topL ex z z' fl B i)) R
  let R := forN (z.L - 1) (fun i R =>
    let R := each n (fun j R => put R (n + 2 * n * i + j) (upL ex z z' fl B i j)) R
    each n (fun j R => put R (n + 2 * n * i + n + j) (dnL ex z z' fl B i j)) R) R
  each n (fun j R => put R (nComp z - n + j) (botL ex z z' fl B j)) R

/-- The derivatives of the unknowns, src/xrtm_eig_bvp_x.c:410-562. -/
def solveBvpL (inv? : {N : Nat} → Matrix (Fin N) (Fin N) K → Option (Matrix (Fin N) (Fin N) K))
    (B : Nat → K) : Option (Nat → K) :=
  match inv? ((system ex z).read (nDiags n) (nComp z)) with
  | none => none
  | some x => some (solved (nComp z) x (rhsL ex z z' fl B))

/-- The derivatives of the radiances at a level, src/xrtm_eig_bvp_x.c:774-876. -/
def levelL (B B' : Nat → K) (lev : Nat) : Source.V n × Source.V n :=
  if lev ≠ z.L then
    let ii := lev
    let iii := ii * (n * 2)
    (fun j => RCLike.re (∑ k : Fin n, (B' (iii + k) * (z.m ii).Xp j k +
          B' (iii + k + n) * (z.m ii).Xm j k * lam ex z ii k +
          on (fl.lay ii) (B (iii + k) * (z'.m ii).Xp j k +
            B (iii + k + n) * ((z'.m ii).Xm j k * lam ex z ii k + (z.m ii).Xm j k * lamL ex z z' ii k)))) +
        (if z.solar && fl.beam ii then z'.Fsp ii j else 0) + (if z.thermal && fl.heat ii then z'.Ft0p ii j else 0),
     fun j => RCLike.re (∑ k : Fin n, (B' (iii + k) * -(z.m ii).Xm j k +
          B' (iii + k + n) * -(z.m ii).Xp j k * lam ex z ii k +
          on (fl.lay ii) (B (iii + k) * -(z'.m ii).Xm j k +
            B (iii + k + n) * (-(z'.m ii).Xp j k * lam ex z ii k + -(z.m ii).Xp j k * lamL ex z z' ii k)))) +
        (if z.solar && fl.beam ii then z'.Fsm ii j else 0) + (if z.thermal && fl.heat ii then z'.Ft0m ii j else 0))
  else
    let ii := z.L - 1
    let iii := ii * (n * 2)
    (fun j => RCLike.re (∑ k : Fin n, (B' (iii + k) * (z.m ii).Xp j k * lam ex z ii k +
          B' (iii + k + n) * (z.m ii).Xm j k +
          on (fl.lay ii) (B (iii + k) * ((z'.m ii).Xp j k * lam ex z ii k + (z.m ii).Xp j k * lamL ex z z' ii k) +
            B (iii + k + n) * (z'.m ii).Xm j k))) +
        (if z.solar && fl.beam ii then z'.Fs1p ii j * z.atran ii + z.Fs1p ii j * z'.atran ii else 0) +
        (if z.thermal && fl.heat ii then z'.Ft1p ii j else 0),
     fun j => RCLike.re (∑ k : Fin n, (B' (iii + k) * -(z.m ii).Xm j k * lam ex z ii k +
          B' (iii + k + n) * -(z.m ii).Xp j k +
          on (fl.lay ii) (B (iii + k) * (-(z'.m ii).Xm j k * lam ex z ii k + -(z.m ii).Xm j k * lamL ex z z' ii k) +
            B (iii + k + n) * -(z'.m ii).Xp j k))) +
        (if z.solar && fl.beam ii then z'.Fs1m ii j * z.atran ii + z.Fs1m ii j * z'.atran ii else 0) +
        (if z.thermal && fl.heat ii then z'.Ft1m ii j else 0))

/-- The derivatives of the radiances at a depth, src/xrtm_eig_bvp_x.c:1024-1077; the
depth keeps its share of the layer (`utau_l`). -/
noncomputable def atTauL (as0 as0' : ℝ) (B B' : Nat → K) (ii : Nat) (t : ℝ) : Source.V n × Source.V n :=
  let lp : Fin n → K := fun j => ex (-(z.m ii).nu j * ((t - 0 : ℝ) : K))
  let lm : Fin n → K := fun j => ex (-(z.m ii).nu j * ((z.ltau ii - t : ℝ) : K))
  let iii := ii * (n * 2)
  let t' := t * z'.ltau ii / z.ltau ii
  let lp' : Fin n → K := fun k => -((z'.m ii).nu k * ((t - 0 : ℝ) : K) + (z.m ii).nu k * (t' : K)) * lp k
  let lm' : Fin n → K := fun k =>
    -((z'.m ii).nu k * ((z.ltau ii - t : ℝ) : K) + (z.m ii).nu k * ((z'.ltau ii - t' : ℝ) : K)) * lm k
  (fun j => RCLike.re (∑ k : Fin n, (B' (iii + k) * (z.m ii).Xp j k * lp k +
        B' (iii + k + n) * (z.m ii).Xm j k * lm k +
        on (fl.lay ii) (B (iii + k) * ((z'.m ii).Xp j k * lp k + (z.m ii).Xp j k * lp' k) +
          B (iii + k + n) * ((z'.m ii).Xm j k * lm k + (z.m ii).Xm j k * lm' k)))) +
      (if z.solar && fl.beam ii then z'.Fsp ii j * Real.exp (-t * as0) +
        z.Fsp ii j * -(t' * as0 + t * as0') * Real.exp (-t * as0) else 0),
   fun j => RCLike.re (∑ k : Fin n, (B' (iii + k) * -(z.m ii).Xm j k * lp k +
        B' (iii + k + n) * -(z.m ii).Xp j k * lm k +
        on (fl.lay ii) (B (iii + k) * (-(z'.m ii).Xm j k * lp k + -(z.m ii).Xm j k * lp' k) +
          B (iii + k + n) * (-(z'.m ii).Xp j k * lm k + -(z.m ii).Xp j k * lm' k)))) +
      (if z.solar && fl.beam ii then z'.Fsm ii j * Real.exp (-t * as0) +
        z.Fsm ii j * -(t' * as0 + t * as0') * Real.exp (-t * as0) else 0))

end Xrtm.Bvp
