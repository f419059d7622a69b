import Verif.Model.Eig

/-!
# Reverse mode of the eigenvalue solver of a layer

src/xrtm_eig_rts_x_a.c:59-187 (real and complex), src/xrtm_eig_util_a.c:24-82,
115-141, 300-354, 578-606 (real).

Simplified: exact numbers; `inv?` stands for the saved factors, `xmat_getrs2` with
`'t'` multiplies each row by the transpose of what the forward call multiplied
with; `save->flag`, that keeps the factors of the bordered matrix for a second
reverse sweep, is left out (both sweeps factor the same matrix).  Of `lambda_a`
only the diagonal is read.
-/

namespace Xrtm.EigA
open Matrix Xrtm.Eig

variable {n : Nat} {K : Type} [Field K]

/-- Weights of the thickness of the layer and of its modes. -/
structure RTW (n : Nat) (K : Type) where
  ltau : K
  m : Modes n K

/-- `CALC_GLOBAL_R_AND_T_A`, src/xrtm_eig_rts_x_a.c:110-186: weights `Ra`, `Ta` of
reflection and transmission.  `XREAL` (174) is taken outside. -/
def calcRTA (inv? : Matrix (Fin n) (Fin n) K → Option (Matrix (Fin n) (Fin n) K)) (ltau : K) (m : Modes n K)
    (o : RT n K) (Ra Ta : Matrix (Fin n) (Fin n) K) (w : RTW n K) : Option (RTW n K) :=
  match inv? m.Xm, inv? o.c with
  | some x, some y =>
    let qa := Ta + Ra * o.bᵀ
    let pa := -(Ta * o.bᵀ) - Ra
    let ga1 := -(o.dᵀ * Ta) + o.eᵀ * Ra
    let t1 := qa * yᵀ
    let Xma1 := w.m.Xm + t1 * Matrix.diagonal o.lam
    let la1 := m.Xmᵀ * t1
    let ha1 := -(o.eᵀ * t1)
    let t2 := pa * yᵀ
    let Xpa1 := w.m.Xp + t2
    let ha2 := ha1 - o.dᵀ * t2
    let Xma2 := Xma1 + ha2
    let ga2 := ga1 - ha2 * o.aᵀ
    let fa1 := -(o.bᵀ * ha2)
    let t3 := ga2 * xᵀ
    let fa2 := fa1 + t3
    let Xma3 := Xma2 - o.bᵀ * t3
    let Xpa2 := Xpa1 + fa2 * Matrix.diagonal o.lam
    let la2 := la1 + m.Xpᵀ * fa2
    let t4 := la2 * Matrix.diagonal o.lam
    some ⟨w.ltau + ∑ i, -(m.nu i * t4 i i), fun i => w.m.nu i - t4 i i * ltau, Xpa2, Xma3⟩
  | _, _ => none

/-- `eig_1n_to_2n_real_a`, src/xrtm_eig_util_a.c:325-353: weights of `tpr`, of the
roots and of the eigenvectors of `gamma`. -/
def modesA (tpr : Matrix (Fin n) (Fin n) K) (nu : Fin n → K) (evecs : Matrix (Fin n) (Fin n) K) (a : Modes n K)
    (w : Matrix (Fin n) (Fin n) K × (Fin n → K) × Matrix (Fin n) (Fin n) K) :
    Matrix (Fin n) (Fin n) K × (Fin n → K) × Matrix (Fin n) (Fin n) K :=
  let b : Matrix (Fin n) (Fin n) K := fun i j => (tpr * evecs) i j / nu j
  let va1 : Matrix (Fin n) (Fin n) K := fun i j => w.2.2 i j + 1 / 2 * (a.Xp i j + a.Xm i j)
  let w1 : Matrix (Fin n) (Fin n) K := fun i j => 1 / 2 * (a.Xp i j - a.Xm i j) / nu j
  (w.1 + w1 * evecsᵀ, fun i => w.2.1 i + (a.nu i - ∑ j, b j i * w1 j i), va1 + tprᵀ * w1)

/-- `is_degenerate_eigenvalue`, src/xrtm_eig_util.c:76-90; `eps` is `DBL_EPSILON`. -/
noncomputable def isDegenerate (eps : ℝ) (evals : Fin n → ℝ) (i : Fin n) : Bool :=
  decide (∃ j, i ≠ j ∧ |evals i - evals j| ≤ eps * 100)

/-- `eigen_derivatives_real_a`, src/xrtm_eig_util_a.c:32-81: what column `i` adds to
the weights of `gamma`; `ea`, `va` the weights of root and eigenvector. -/
noncomputable def columnA
    (inv? : Matrix (Fin n ⊕ Unit) (Fin n ⊕ Unit) ℝ → Option (Matrix (Fin n ⊕ Unit) (Fin n ⊕ Unit) ℝ))
    (eps : ℝ) (gamma : Matrix (Fin n) (Fin n) ℝ) (evals : Fin n → ℝ) (evecs : Matrix (Fin n) (Fin n) ℝ)
    (ea : Fin n → ℝ) (va : Matrix (Fin n) (Fin n) ℝ) (g : Matrix (Fin n) (Fin n) ℝ) (i : Fin n) :
    Option (Matrix (Fin n) (Fin n) ℝ) :=
  if isTrivial eps evecs i then some g
  else if isDegenerate eps evals i then some g
  else match inv? (bordered gamma (evals i) (Real.sqrt (evals i)) fun j => evecs j i) with
    | none => none
    | some x =>
      let B := xᵀ *ᵥ fun r => match r with
        | .inl j => va j i
        | .inr _ => ea i
      some fun j k => g j k + B (.inl j) * evecs k i

/-- `eig_1n_gen_real_a`, src/xrtm_eig_util_a.c:138-139. -/
noncomputable def eigenA
    (inv? : Matrix (Fin n ⊕ Unit) (Fin n ⊕ Unit) ℝ → Option (Matrix (Fin n ⊕ Unit) (Fin n ⊕ Unit) ℝ))
    (eps : ℝ) (gamma : Matrix (Fin n) (Fin n) ℝ) (evals : Fin n → ℝ) (evecs : Matrix (Fin n) (Fin n) ℝ)
    (ea : Fin n → ℝ) (va : Matrix (Fin n) (Fin n) ℝ) (g : Matrix (Fin n) (Fin n) ℝ) :
    Option (Matrix (Fin n) (Fin n) ℝ) :=
  (List.finRange n).foldlM (columnA inv? eps gamma evals evecs ea va) g

/-- `eig_1n_gen_complex`, src/xrtm_eig_util.c:493-501, a column with a real
eigenvalue: zeros for an eigenvalue close to another; trivial eigenvectors are not
looked for.  In reverse the column is `columnA`, src/xrtm_eig_util_a.c:216-218. -/
noncomputable def columnRL
    (inv? : Matrix (Fin n ⊕ Unit) (Fin n ⊕ Unit) ℝ → Option (Matrix (Fin n ⊕ Unit) (Fin n ⊕ Unit) ℝ))
    (eps : ℝ) (gamma gamma' : Matrix (Fin n) (Fin n) ℝ) (evals : Fin n → ℝ)
    (evecs : Matrix (Fin n) (Fin n) ℝ) (i : Fin n) : Option (ℝ × (Fin n → ℝ)) :=
  if isDegenerate eps evals i then some (0, 0)
  else eigenL inv? gamma gamma' (evals i) (Real.sqrt (evals i)) fun j => evecs j i

/-- `calc_global_r_and_t_a` and `eig_2n_gen_real_a` as the scalar path of
`rtm_eig_rts_a` calls them, src/xrtm_eig_rts_a.c:320-323: weights of `ltau`, `tpr`,
`gamma`; those of modes and eigenvectors start from zero (302-304,
xrtm_eig_util_a.c:600-601). -/
noncomputable def layerA
    (inv? : Matrix (Fin n) (Fin n) ℝ → Option (Matrix (Fin n) (Fin n) ℝ))
    (inv2? : Matrix (Fin n ⊕ Unit) (Fin n ⊕ Unit) ℝ → Option (Matrix (Fin n ⊕ Unit) (Fin n ⊕ Unit) ℝ))
    (eps ltau : ℝ) (tpr gamma : Matrix (Fin n) (Fin n) ℝ) (evals : Fin n → ℝ) (evecs : Matrix (Fin n) (Fin n) ℝ)
    (o : RT n ℝ) (Ra Ta : Matrix (Fin n) (Fin n) ℝ) (w : ℝ × Matrix (Fin n) (Fin n) ℝ × Matrix (Fin n) (Fin n) ℝ) :
    Option (ℝ × Matrix (Fin n) (Fin n) ℝ × Matrix (Fin n) (Fin n) ℝ) :=
  match calcRTA inv? ltau (modes tpr (realNu evals) evecs) o Ra Ta ⟨w.1, 0, 0, 0⟩ with
  | none => none
  | some a =>
    let r := modesA tpr (realNu evals) evecs a.m (w.2.1, 0, 0)
    match eigenA inv2? eps gamma evals evecs r.2.1 r.2.2 w.2.2 with
    | none => none
    | some g => some (a.ltau, r.1, g)

/-! ## Pairs of complex eigenvalues

The weights of a complex number `z` are a complex number `a` so that the answer
grows by the real part of `a z'`.  Of a pair of columns the code keeps real and
imaginary parts of the first eigenvector (`evecs[.][i]`, `evecs[.][i+1]`); here it
is one complex vector, and so are its weights. -/

/-- A real matrix as a complex one. -/
def cplx (a : Matrix (Fin n) (Fin n) ℝ) : Matrix (Fin n) (Fin n) ℂ := a.map (fun x => (x : ℂ))

/-- `eig_1n_gen_complex_a`, src/xrtm_eig_util_a.c:220-256: what a pair of columns adds
to the weights of `gamma`; `ea1`, `ea2` the weights of the two roots. -/
noncomputable def pairA
    (inv? : Matrix (Fin n ⊕ Unit) (Fin n ⊕ Unit) ℂ → Option (Matrix (Fin n ⊕ Unit) (Fin n ⊕ Unit) ℂ))
    (gamma : Matrix (Fin n) (Fin n) ℝ) (eval root : ℂ) (v : Fin n → ℂ) (ea1 ea2 : ℂ) (va : Fin n → ℂ)
    (g : Matrix (Fin n) (Fin n) ℝ) : Option (Matrix (Fin n) (Fin n) ℝ) :=
  match inv? (bordered (cplx gamma) eval root v) with
  | none => none
  | some x =>
    let B := xᵀ *ᵥ fun r => match r with
      | .inl j => va j
      | .inr _ => ea1 + star ea2
    some fun j k => g j k + (B (.inl j) * v k).re

/-- Weights of `tpr`, of the two roots and of the first eigenvector. -/
structure PairW (n : Nat) where
  tpr : Matrix (Fin n) (Fin n) ℝ
  ea1 : ℂ
  ea2 : ℂ
  va : Fin n → ℂ

/-- `eig_1n_to_2n_complex_a`, src/xrtm_eig_util_a.c:478-546, a pair of columns:
`Xp1`, `Xm1`, `Xp2`, `Xm2` are the weights of the modes of the two columns, `n1`,
`n2` those of `nu`. -/
noncomputable def pairModesA (tpr : Matrix (Fin n) (Fin n) ℝ) (nu1 nu2 : ℂ) (v : Fin n → ℂ) (Xp1 Xm1 Xp2 Xm2 : Fin n → ℂ) (n1 n2 : ℂ)
    (w : PairW n) : PairW n :=
  let vc1 := fun j => 1 / 2 * (Xp1 j + Xm1 j)
  let vc3 := fun j => 1 / 2 * (Xp1 j - Xm1 j)
  let vc2 := fun j => 1 / 2 * (Xp2 j + Xm2 j)
  let vc4 := fun j => 1 / 2 * (Xp2 j - Xm2 j)
  -- saved: vr3 + i vr4
  let b := cplx tpr *ᵥ v
  let ac1 := ∑ j, vc3 j * b j
  let ac2 := ∑ j, vc4 j * star (b j)
  -- vr5_a, vr6_a
  let r5 := fun j => (1 / nu1 * vc3 j).re + (1 / nu2 * vc4 j).re
  let r6 := fun j => (1 / nu1 * vc3 j).im + -(1 / nu2 * vc4 j).im
  let n1' := n1 - ac1 / (nu1 * nu1)
  let n2' := n2 - ac2 / (nu2 * nu2)
  -- vr7_a, vr8_a
  let r7 := tprᵀ *ᵥ r5
  let r8 := tprᵀ *ᵥ r6
  { tpr := fun j k => w.tpr j k + r5 j * (v k).re + r6 j * -(v k).im
    va := fun j => w.va j + (⟨r7 j, r8 j⟩ : ℂ) + (⟨(vc1 j).re + (vc2 j).re, (vc1 j).im - (vc2 j).im⟩ : ℂ)
    ea1 := w.ea1 + n1'
    ea2 := w.ea2 + n2' }

/-! ## All columns of a polarised layer -/

/-- The columns one round of the loops works on: one with a real eigenvalue, two
with a pair. -/
inductive Cols (n : Nat) where
  | one (i : Fin n)
  | two (i1 i2 : Fin n)

def Cols.list : Cols n → List (Fin n)
  | .one i => [i]
  | .two i1 i2 => [i1, i2]

/-- `eig_1n_to_2n_complex_a`, src/xrtm_eig_util_a.c:453-476, a column with a real
eigenvalue: weights of `tpr`, of the root and of the eigenvector. -/
noncomputable def oneModesA (tpr : Matrix (Fin n) (Fin n) ℝ) (nu : ℂ) (v : Fin n → ℝ) (Xp Xm : Fin n → ℂ) (n1 : ℂ)
    (t : Matrix (Fin n) (Fin n) ℝ) : Matrix (Fin n) (Fin n) ℝ × ℝ × (Fin n → ℝ) :=
  let b := fun j => (tpr *ᵥ v) j / nu.re
  let d := fun j => 1 / nu.re * (1 / 2 * (Xp j - Xm j).re)
  (fun j k => t j k + d j * v k, (n1 - ((∑ j, b j * d j : ℝ) : ℂ)).re,
    fun j => 1 / 2 * (Xp j + Xm j).re + (tprᵀ *ᵥ d) j)

/-- What the forward call of a polarised layer has left: `tpr`, `gamma`, the
eigenvalues (`re`, `im`), `nu`, and the eigenvectors as the code keeps them. -/
structure Pol (n : Nat) where
  tpr : Matrix (Fin n) (Fin n) ℝ
  gamma : Matrix (Fin n) (Fin n) ℝ
  re : Fin n → ℝ
  im : Fin n → ℝ
  nu : Fin n → ℂ
  E : Matrix (Fin n) (Fin n) ℝ

/-- The first of a pair of eigenvectors. -/
def Pol.vec (p : Pol n) (i1 i2 : Fin n) : Fin n → ℂ := fun k => ⟨p.E k i1, p.E k i2⟩

/-- One round of the loop of `eig_1n_to_2n_complex_a`, src/xrtm_eig_util_a.c:452-547:
weights of `tpr`; `a` are those of the modes. -/
noncomputable def colTpr (p : Pol n) (a : Modes n ℂ) (t : Matrix (Fin n) (Fin n) ℝ) : Cols n → Matrix (Fin n) (Fin n) ℝ
  | .one i => (oneModesA p.tpr (p.nu i) (fun k => p.E k i) (fun k => a.Xp k i) (fun k => a.Xm k i) (a.nu i) t).1
  | .two i1 i2 => (pairModesA p.tpr (p.nu i1) (p.nu i2) (p.vec i1 i2) (fun k => a.Xp k i1) (fun k => a.Xm k i1)
      (fun k => a.Xp k i2) (fun k => a.Xm k i2) (a.nu i1) (a.nu i2) ⟨t, 0, 0, 0⟩).tpr

/-- One round of the loop of `eig_1n_gen_complex_a`, src/xrtm_eig_util_a.c:216-257,
with the weights of roots and eigenvectors the call before has left (they start
from zero and no other column adds to them). -/
noncomputable def colGamma
    (inv? : Matrix (Fin n ⊕ Unit) (Fin n ⊕ Unit) ℝ → Option (Matrix (Fin n ⊕ Unit) (Fin n ⊕ Unit) ℝ))
    (invC? : Matrix (Fin n ⊕ Unit) (Fin n ⊕ Unit) ℂ → Option (Matrix (Fin n ⊕ Unit) (Fin n ⊕ Unit) ℂ))
    (eps : ℝ) (p : Pol n) (a : Modes n ℂ) (g : Matrix (Fin n) (Fin n) ℝ) : Cols n → Option (Matrix (Fin n) (Fin n) ℝ)
  | .one i =>
    let r := oneModesA p.tpr (p.nu i) (fun k => p.E k i) (fun k => a.Xp k i) (fun k => a.Xm k i) (a.nu i) 0
    columnA inv? eps p.gamma p.re p.E (fun _ => r.2.1) (fun j _ => r.2.2 j) g i
  | .two i1 i2 =>
    let r := pairModesA p.tpr (p.nu i1) (p.nu i2) (p.vec i1 i2) (fun k => a.Xp k i1) (fun k => a.Xm k i1)
      (fun k => a.Xp k i2) (fun k => a.Xm k i2) (a.nu i1) (a.nu i2) ⟨0, 0, 0, 0⟩
    pairA invC? p.gamma ⟨p.re i1, p.im i1⟩ (p.nu i1) (p.vec i1 i2) r.ea1 r.ea2 r.va g

/-- `calc_global_r_and_t_a2` and `eig_2n_gen_complex_a` as `rtm_eig_rts_a` calls them,
src/xrtm_eig_rts_a.c:329-331: weights of `ltau`, `tpr`, `gamma`.  `l` are the rounds
of the loops over the columns. -/
noncomputable def polLayerA (inv1? : Matrix (Fin n) (Fin n) ℂ → Option (Matrix (Fin n) (Fin n) ℂ))
    (inv? : Matrix (Fin n ⊕ Unit) (Fin n ⊕ Unit) ℝ → Option (Matrix (Fin n ⊕ Unit) (Fin n ⊕ Unit) ℝ))
    (invC? : Matrix (Fin n ⊕ Unit) (Fin n ⊕ Unit) ℂ → Option (Matrix (Fin n ⊕ Unit) (Fin n ⊕ Unit) ℂ))
    (eps ltau : ℝ) (p : Pol n) (m : Modes n ℂ) (o : RT n ℂ) (l : List (Cols n)) (Ra Ta : Matrix (Fin n) (Fin n) ℝ)
    (w : ℝ × Matrix (Fin n) (Fin n) ℝ × Matrix (Fin n) (Fin n) ℝ) :
    Option (ℝ × Matrix (Fin n) (Fin n) ℝ × Matrix (Fin n) (Fin n) ℝ) :=
  match calcRTA inv1? ltau m o (cplx Ra) (cplx Ta) ⟨0, 0, 0, 0⟩ with
  | none => none
  | some a =>
    match l.foldlM (colGamma inv? invC? eps p a.m) w.2.2 with
    | none => none
    | some g => some (w.1 + a.ltau.re, l.foldl (colTpr p a.m) w.2.1, g)

/-- What `eig_1n_gen_complex` and `eig_1n_to_2n_complex` leave for one round,
src/xrtm_eig_util.c:493-557, 798-812: derivatives `nu'`, `V'` of the roots and
eigenvectors in the direction `gamma'`; `V` the eigenvectors as complex columns. -/
def Pol.Linear (p : Pol n) (gamma' : Matrix (Fin n) (Fin n) ℝ)
    (inv? : Matrix (Fin n ⊕ Unit) (Fin n ⊕ Unit) ℝ → Option (Matrix (Fin n ⊕ Unit) (Fin n ⊕ Unit) ℝ))
    (invC? : Matrix (Fin n ⊕ Unit) (Fin n ⊕ Unit) ℂ → Option (Matrix (Fin n ⊕ Unit) (Fin n ⊕ Unit) ℂ))
    (eps : ℝ) (V : Matrix (Fin n) (Fin n) ℂ) (nu' : Fin n → ℂ) (V' : Matrix (Fin n) (Fin n) ℂ) : Cols n → Prop
  | .one i => (p.nu i).im = 0 ∧ (∀ k, V k i = p.E k i) ∧
      ∃ c, columnRL inv? eps p.gamma gamma' p.re p.E i = some c ∧ nu' i = c.1 ∧ ∀ k, V' k i = c.2 k
  | .two i1 i2 => (∀ k, V k i1 = p.vec i1 i2 k) ∧ (∀ k, V k i2 = star (V k i1)) ∧
      eigenL invC? (cplx p.gamma) (cplx gamma') ⟨p.re i1, p.im i1⟩ (p.nu i1) (p.vec i1 i2) =
        some (nu' i1, fun k => V' k i1) ∧ nu' i2 = star (nu' i1) ∧ ∀ k, V' k i2 = star (V' k i1)

end Xrtm.EigA
