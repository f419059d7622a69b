import Verif.Model.Source
import Mathlib.Analysis.RCLike.Basic
import Mathlib.Analysis.Complex.Exponential

/-!
# The eigenmatrix solver of a layer

src/xrtm_eig_util.c:39-111, 245-295, 329-355, 490-565, 654-717, 798-935,
src/xrtm_eig_rts_x.c:77-142, 203-308, src/xrtm_eig_rts.c:311-352,
src/xrtm_scatter.c:1297-1331.

`K` is the real numbers for the scalar path (`calc_global_r_and_t`) and the
complex numbers for the vector path (`calc_global_r_and_t2`); the two are one
text included twice.  Simplified as in `Model/Source`.  The library routines that
find eigenvalues (`dgeev`, `asymtx`, `rg`) are not modelled: what they give is an
input.  The unknowns of the bordered system are numbered with the eigenvalue last
instead of first.
-/

namespace Xrtm.Eig
open Matrix

variable {n : Nat} {K : Type} [Field K]

/-- The solver of linear systems finds the inverse wherever there is one. -/
def Exact {ι : Type} [Fintype ι] [DecidableEq ι] (inv? : Matrix ι ι K → Option (Matrix ι ι K)) : Prop :=
  ∀ a b, inv? a = some b ↔ a * b = 1

/-- Eigenvalues and eigenvectors of the transfer equation. -/
structure Modes (n : Nat) (K : Type) where
  nu : Fin n → K
  Xp : Matrix (Fin n) (Fin n) K
  Xm : Matrix (Fin n) (Fin n) K

/-- `nu[i] = sqrt(fabs(evals[i]))`, src/xrtm_eig_util.c:664-665. -/
noncomputable def realNu (evals : Fin n → ℝ) (i : Fin n) : ℝ := Real.sqrt |evals i|

/-- `eig_1n_to_2n_real`, src/xrtm_eig_util.c:667-681, and the same for the complex
one, 816-832, 868-897 (there `nu` is `csqrt` of the eigenvalue, 798-799). -/
def modes (tpr : Matrix (Fin n) (Fin n) K) (nu : Fin n → K) (evecs : Matrix (Fin n) (Fin n) K) : Modes n K :=
  let w1 : Matrix (Fin n) (Fin n) K := fun i j => (tpr * evecs) i j / nu j
  ⟨nu, fun i j => 1 / 2 * (evecs i j + w1 i j), fun i j => 1 / 2 * (evecs i j - w1 i j)⟩

/-- The linearised values, src/xrtm_eig_util.c:691-711. -/
def modesL (tpr tpr' : Matrix (Fin n) (Fin n) K) (nu nu' : Fin n → K)
    (evecs evecs' : Matrix (Fin n) (Fin n) K) : Modes n K :=
  let w1 : Matrix (Fin n) (Fin n) K := fun i j => (tpr * evecs) i j / nu j
  let w2 := tpr' * evecs + tpr * evecs'
  let w3 : Matrix (Fin n) (Fin n) K := fun i j => w1 i j * nu' j
  let w2 : Matrix (Fin n) (Fin n) K := fun i j => (w2 i j - w3 i j) / nu j
  ⟨nu', fun i j => 1 / 2 * (evecs' i j + w2 i j), fun i j => 1 / 2 * (evecs' i j - w2 i j)⟩

/-- What `CALC_GLOBAL_R_AND_T` keeps and gives back. -/
structure RT (n : Nat) (K : Type) where
  lam : Fin n → K
  a : Matrix (Fin n) (Fin n) K
  b : Matrix (Fin n) (Fin n) K
  c : Matrix (Fin n) (Fin n) K
  d : Matrix (Fin n) (Fin n) K
  e : Matrix (Fin n) (Fin n) K
  R : Matrix (Fin n) (Fin n) K
  T : Matrix (Fin n) (Fin n) K

/-- `CALC_GLOBAL_R_AND_T`, src/xrtm_eig_rts_x.c:77-142; `ex` is the exponential.
The real parts the complex one takes at the end are in `layerM`. -/
def calcRT (ex : K → K) (inv? : Matrix (Fin n) (Fin n) K → Option (Matrix (Fin n) (Fin n) K)) (ltau : K)
    (m : Modes n K) : Option (RT n K) :=
  let lam : Fin n → K := fun i => ex (-m.nu i * ltau)
  let a := m.Xp * Matrix.diagonal lam
  match inv? m.Xm with
  | none => none
  | some x =>
    let b := a * x
    let c := m.Xm - b * a
    match inv? c with
    | none => none
    | some y =>
      let d := m.Xp * y
      let e := m.Xm * Matrix.diagonal lam * y
      some ⟨lam, a, b, c, d, e, e * b - d, e - d * b⟩

/-- The linearised values, src/xrtm_eig_rts_x.c:203-308 (`REAL` is never defined). -/
def calcRTL (inv? : Matrix (Fin n) (Fin n) K → Option (Matrix (Fin n) (Fin n) K)) (ltau ltau' : K)
    (m m' : Modes n K) (o : RT n K) : Option (Matrix (Fin n) (Fin n) K × Matrix (Fin n) (Fin n) K) :=
  match inv? m.Xm, inv? o.c with
  | some x, some y =>
    let lam' : Fin n → K := fun j => -(m'.nu j * ltau + m.nu j * ltau') * o.lam j
    let f := m'.Xp * Matrix.diagonal o.lam + m.Xp * Matrix.diagonal lam'
    let g := (f - o.b * m'.Xm) * x
    let h := m'.Xm - g * o.a - o.b * f
    let p := (m'.Xp - o.d * h) * y
    let q := (m'.Xm * Matrix.diagonal o.lam + m.Xm * Matrix.diagonal lam' - o.e * h) * y
    some (q * o.b + o.e * g - p, q - p * o.b - o.d * g)
  | _, _ => none

/-! ## Derivatives of eigenvalues and eigenvectors -/

/-- The system of `eigen_derivatives_real`, src/xrtm_eig_util.c:253-267; the
complex one, 515-529, is the same.  `eval` is the eigenvalue, `root` its root,
`v` the eigenvector; the last unknown is the derivative of the root. -/
def bordered (gamma : Matrix (Fin n) (Fin n) K) (eval root : K) (v : Fin n → K) :
    Matrix (Fin n ⊕ Unit) (Fin n ⊕ Unit) K
  | .inl j, .inl k => -gamma j k + if j = k then eval else 0
  | .inl j, .inr _ => root * 2 * v j
  | .inr _, .inl k => v k
  | .inr _, .inr _ => 0

/-- `eigen_derivatives_real`, src/xrtm_eig_util.c:272-293: the derivatives of the
root and of the eigenvector. -/
def eigenL (inv? : Matrix (Fin n ⊕ Unit) (Fin n ⊕ Unit) K → Option (Matrix (Fin n ⊕ Unit) (Fin n ⊕ Unit) K))
    (gamma gamma' : Matrix (Fin n) (Fin n) K) (eval root : K) (v : Fin n → K) : Option (K × (Fin n → K)) :=
  match inv? (bordered gamma eval root v) with
  | none => none
  | some x =>
    let B := x *ᵥ fun i => match i with
      | .inl j => (gamma' *ᵥ v) j
      | .inr _ => 0
    some (B (.inr ()), fun k => B (.inl k))

/-- `is_trivial_eigenvector`, src/xrtm_eig_util.c:39-54; `eps` is `DBL_EPSILON`. -/
noncomputable def isTrivial (eps : ℝ) (evecs : Matrix (Fin n) (Fin n) ℝ) (i : Fin n) : Bool :=
  if n = 1 then false
  else decide ((Finset.univ.filter fun j => eps < |evecs j i|).card = 1)

/-- `eig_1n_gen_real`, src/xrtm_eig_util.c:339-347, one column: zeros for a trivial
eigenvector (`zero_eigen_derivs`, 95-111). -/
noncomputable def columnL
    (inv? : Matrix (Fin n ⊕ Unit) (Fin n ⊕ Unit) ℝ → Option (Matrix (Fin n ⊕ Unit) (Fin n ⊕ Unit) ℝ))
    (eps : ℝ) (gamma gamma' : Matrix (Fin n) (Fin n) ℝ) (evals : Fin n → ℝ)
    (evecs : Matrix (Fin n) (Fin n) ℝ) (i : Fin n) : Option (ℝ × (Fin n → ℝ)) :=
  if isTrivial eps evecs i then some (0, 0)
  else eigenL inv? gamma gamma' (evals i) (Real.sqrt (evals i)) fun j => evecs j i

/-! ## The layer -/

/-- `phase_matrix_symmetry_ldx3` for `f = 1`, src/xrtm_scatter.c:1318-1331: what the
opposite side sees. -/
def otherSide (ns : Nat) (A : Source.M n) : Source.M n :=
  fun i j => ((1 * if 2 ≤ i.val % ns then -1 else 1) * if 2 ≤ j.val % ns then -1 else 1) * A i j

/-- The real parts of a matrix, src/xrtm_eig_rts_x.c:128-141. -/
def reals {K : Type} [RCLike K] (A : Matrix (Fin n) (Fin n) K) : Source.M n := fun i j => RCLike.re (A i j)

/-- `R_p`, `T_p`, `R_m`, `T_m` of the vector path, src/xrtm_eig_rts.c:336-341; the scalar path,
323-328, leaves `R_m`, `T_m` to be `R_p`, `T_p`. -/
def layerM {K : Type} [RCLike K] (ns : Nat) (o : RT n K) :
    Source.M n × Source.M n × Source.M n × Source.M n :=
  let Rp := Source.turnM ns (reals o.R)
  let Tp := reals o.T
  (Rp, Tp, otherSide ns Rp, otherSide ns Tp)

end Xrtm.Eig
