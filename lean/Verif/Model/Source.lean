import Verif.Spec.Adding
import Mathlib.Data.Matrix.Block
import Mathlib.Analysis.Real.Pi.Bounds

/-!
# Local reflection and transmission, particular solutions, layer sources

src/xrtm_utility.c:925-1119, 1187-1283, src/xrtm_source.c:23-236, 404-647,
654-753, 821-1041.

Simplified: reals for doubles; the calls on vectors and matrices are written as
what they compute (the arrays that results of products go to are scratch arrays
of their own, C20).  `inv?` stands for the factorisation, `none` for a singular
matrix, at which the process exits.  Not here: `build_source_vectors_solar_classic_2n`,
that is not compiled in (`CLASSICAL_PARTICULAR_SOLUTION_USE_2D` is 0), and the
solution by the Green's function.
-/

namespace Xrtm.Source
open Matrix

variable {n : Nat}

abbrev M (n : Nat) := Matrix (Fin n) (Fin n) ℝ
abbrev V (n : Nat) := Fin n → ℝ

/-- The solver of linear systems finds the inverse wherever there is one. -/
def Exact {ι : Type} [Fintype ι] [DecidableEq ι] (inv? : Matrix ι ι ℝ → Option (Matrix ι ι ℝ)) : Prop :=
  ∀ a b, inv? a = some b ↔ a * b = 1

/-- `dm_v_mul_D_A`, src/xrtm_utility.c:1187-1226: the sign of the third and
fourth Stokes parameter is turned. -/
def turn (ns : Nat) (a : V n) : V n := fun j => if 2 ≤ j.val % ns then -a j else a j

/-- `dmat_mul_D_A`, src/xrtm_utility.c:1230-1283. -/
def turnM (ns : Nat) (a : M n) : M n := fun j k => if 2 ≤ j.val % ns then -a j k else a j k

/-- `build_local_r_or_t_mat`, src/xrtm_utility.c:981-987; `sg` is `a`, `first`
is `i_four == 0`. -/
noncomputable def localMat (first : Bool) (mu w : V n) (sg om : ℝ) (P : M n) : M n :=
  fun i j => sg * (1 + if first then 1 else 0) / 4 * om * (1 / mu i * P i j * w j)

/-- The linearised values, src/xrtm_utility.c:996-1002. -/
noncomputable def localMatL (first : Bool) (mu w : V n) (sg om om' : ℝ) (P P' : M n) : M n :=
  fun i j => 1 / mu i * (sg * (1 + if first then 1 else 0) / 4 * om' * P i j +
    sg * (1 + if first then 1 else 0) / 4 * om * P' i j) * w j

/-- `build_local_r_and_t`, src/xrtm_utility.c:1010-1031: `r` and `t`. -/
noncomputable def localRT (first : Bool) (mu w : V n) (om : ℝ) (Pp Pm : M n) : M n × M n :=
  (localMat first mu w (-1) om Pm,
   localMat first mu w 1 om Pp - Matrix.diagonal fun i => 1 / mu i)

/-- The linearised values. -/
noncomputable def localRTL (first : Bool) (mu w : V n) (om om' : ℝ) (Pp Pm Pp' Pm' : M n) : M n × M n :=
  (localMatL first mu w (-1) om om' Pm Pm', localMatL first mu w 1 om om' Pp Pp')

/-- `build_txr`, src/xrtm_utility.c:1038-1080: `tpr` and `tmr`. -/
def txr (ns : Nat) (r t : M n) : M n × M n :=
  if ns ≤ 2 then (t + r, t - r) else (t + turnM ns r, t - turnM ns r)

/-- `build_gamma`, src/xrtm_utility.c:1091-1115. -/
def gammaOf (tpr tmr : M n) : M n := tmr * tpr

/-- The linearised `gamma`. -/
def gammaL (tpr tmr tpr' tmr' : M n) : M n := tmr * tpr' + tmr' * tpr

/-! ## The particular solution for the beam -/

/-- What goes into `build_source_vectors_solar_classic_1n`. -/
structure Sun (n : Nat) where
  om : ℝ
  as0 : ℝ
  Pmm : V n
  Ppm : V n
  tpr : M n
  tmr : M n
  gamma : M n

/-- What it keeps and gives back. -/
structure SunOut (n : Nat) where
  f : M n
  d : V n
  e : V n
  p : V n
  h : V n
  Fp : V n
  Fm : V n

/-- `build_source_vectors_solar_classic_1n`, src/xrtm_source.c:100-142. -/
noncomputable def sun (inv? : M n → Option (M n)) (ns : Nat) (mu : V n) (F0 : ℝ) (z : Sun n) :
    Option (SunOut n) :=
  let f := z.gamma - Matrix.diagonal fun _ => z.as0 * z.as0
  match inv? f with
  | none => none
  | some x =>
    let aa := F0 / (4 * Real.pi)
    let bb := aa * z.om
    let v1 : V n := fun i => bb / mu i * z.Ppm i
    let v2 : V n := turn ns fun i => bb / mu i * z.Pmm i
    let d := v1 + v2
    let e := v1 - v2
    let p := x *ᵥ ((-z.as0) • d - z.tmr *ᵥ e)
    let h := z.tpr *ᵥ p + e
    let Fp := (1 / 2 : ℝ) • ((1 / z.as0) • h + p)
    some ⟨f, d, e, p, h, Fp, turn ns (Fp - p)⟩

/-- The linearised values for a derivative that is active in the layer,
src/xrtm_source.c:166-209. -/
noncomputable def sunLayerL (inv? : M n → Option (M n)) (ns : Nat) (mu : V n) (F0 : ℝ) (z z' : Sun n)
    (o : SunOut n) : Option (V n × V n) :=
  match inv? o.f with
  | none => none
  | some x =>
    let aa := F0 / (4 * Real.pi)
    let bb := aa * z.om
    let cc := aa * z'.om
    let v1 : V n := fun i => (cc * z.Ppm i + bb * z'.Ppm i) / mu i
    let v2 : V n := turn ns fun i => (cc * z.Pmm i + bb * z'.Pmm i) / mu i
    let dl := v1 + v2
    let el := v1 - v2
    let pl := x *ᵥ ((2 * z.as0 * z'.as0) • o.p - z'.gamma *ᵥ o.p - z'.tmr *ᵥ o.e - z.tmr *ᵥ el -
      z'.as0 • o.d - z.as0 • dl)
    let hl := z'.tpr *ᵥ o.p + z.tpr *ᵥ pl + el
    let Fpl := (1 / 2 : ℝ) • ((-z'.as0 / (z.as0 * z.as0)) • o.h + (1 / z.as0) • hl + pl)
    some (Fpl, turn ns (Fpl - pl))

/-- For one that is active in the beam only, src/xrtm_source.c:210-233. -/
noncomputable def sunBeamL (inv? : M n → Option (M n)) (ns : Nat) (z : Sun n) (as0' : ℝ) (o : SunOut n) :
    Option (V n × V n) :=
  if as0' ≠ 0 then
    match inv? o.f with
    | none => none
    | some x =>
      let pl := x *ᵥ ((2 * z.as0 * as0') • o.p - as0' • o.d)
      let hl := z.tpr *ᵥ pl
      let Fpl := (1 / 2 : ℝ) • ((-as0' / (z.as0 * z.as0)) • o.h + (1 / z.as0) • hl + pl)
      some (Fpl, turn ns (Fpl - pl))
  else some (0, 0)

/-! ## The particular solution for the thermal source -/

/-- What goes into `build_thermal_source_coefficients`. -/
structure Heat (n : Nat) where
  b0 : ℝ
  b1 : ℝ
  om : ℝ
  ltau : ℝ
  rp : M n
  tp : M n
  rm : M n
  tm : M n

/-- The matrix, src/xrtm_source.c:456-467. -/
def heatMat (mu : V n) (rp tp rm tm : M n) : Matrix (Fin n ⊕ Fin n) (Fin n ⊕ Fin n) ℝ :=
  Matrix.fromBlocks (fun i j => -tp i j * mu i) (fun i j => rm i j * mu i)
    (fun i j => -rp i j * -mu i) (fun i j => tm i j * -mu i)

/-- Multiplication by the cosines with the sign of the direction,
src/xrtm_source.c:489-494. -/
def withMu (mu : V n) (a : Fin n ⊕ Fin n → ℝ) : Fin n ⊕ Fin n → ℝ
  | .inl j => a (.inl j) * mu j
  | .inr j => a (.inr j) * -mu j

/-- `build_thermal_source_coefficients`, src/xrtm_source.c:453-504: `a[0]` and
`a[1]`, each with the upward directions first. -/
noncomputable def heat (inv? : Matrix (Fin n ⊕ Fin n) (Fin n ⊕ Fin n) ℝ →
      Option (Matrix (Fin n ⊕ Fin n) (Fin n ⊕ Fin n) ℝ)) (mu : V n) (z : Heat n) :
    Option ((Fin n ⊕ Fin n → ℝ) × (Fin n ⊕ Fin n → ℝ)) :=
  match inv? (heatMat mu z.rp z.tp z.rm z.tm) with
  | none => none
  | some x =>
    let c0 := z.b0
    let c1 := (z.b1 - z.b0) / z.ltau
    let aa := 1 - z.om
    let a1 := x *ᵥ fun _ => aa * c1
    let a0 := x *ᵥ ((fun _ => aa * c0) + withMu mu a1)
    some (a0, a1)

/-- The linearised values for a derivative that is active in the layer,
src/xrtm_source.c:516-577. -/
noncomputable def heatLayerL (inv? : Matrix (Fin n ⊕ Fin n) (Fin n ⊕ Fin n) ℝ →
      Option (Matrix (Fin n ⊕ Fin n) (Fin n ⊕ Fin n) ℝ)) (mu : V n) (z z' : Heat n)
    (a : (Fin n ⊕ Fin n → ℝ) × (Fin n ⊕ Fin n → ℝ)) :
    Option ((Fin n ⊕ Fin n → ℝ) × (Fin n ⊕ Fin n → ℝ)) :=
  match inv? (heatMat mu z.rp z.tp z.rm z.tm) with
  | none => none
  | some x =>
    let c0 := z.b0
    let c1 := (z.b1 - z.b0) / z.ltau
    let c0' := z'.b0
    let c1' := ((z'.b1 - z'.b0) - c1 * z'.ltau) / z.ltau
    let w2 := heatMat mu z'.rp z'.tp z'.rm z'.tm
    let al1 := x *ᵥ ((fun _ => -z'.om * c1 + (1 - z.om) * c1') - w2 *ᵥ a.2)
    let al0 := x *ᵥ ((fun _ => -z'.om * c0 + (1 - z.om) * c0') - w2 *ᵥ a.1 + withMu mu al1)
    some (al0, al1)

/-- For one that is active in the thermal source only,
src/xrtm_source.c:579-643. -/
noncomputable def heatOnlyL (inv? : Matrix (Fin n ⊕ Fin n) (Fin n ⊕ Fin n) ℝ →
      Option (Matrix (Fin n ⊕ Fin n) (Fin n ⊕ Fin n) ℝ)) (mu : V n) (z z' : Heat n) :
    Option ((Fin n ⊕ Fin n → ℝ) × (Fin n ⊕ Fin n → ℝ)) :=
  match inv? (heatMat mu z.rp z.tp z.rm z.tm) with
  | none => none
  | some x =>
    let c0' := z'.b0
    let c1' := (z'.b1 - z'.b0) / z.ltau
    let al1 := x *ᵥ fun _ => (1 - z.om) * c1'
    let al0 := x *ᵥ ((fun _ => (1 - z.om) * c0') + withMu mu al1)
    some (al0, al1)

/-- `build_source_vectors_thermal`, src/xrtm_source.c:677-698: the solution at
the top and at the bottom (`pow(0., 0)` is one). -/
noncomputable def heatEnds (ltau : ℝ) (a : (Fin n ⊕ Fin n → ℝ) × (Fin n ⊕ Fin n → ℝ)) :
    (Fin n ⊕ Fin n → ℝ) × (Fin n ⊕ Fin n → ℝ) :=
  ((0 : ℝ) ^ 0 • a.1 + (0 : ℝ) ^ 1 • a.2, ltau ^ 0 • a.1 + ltau ^ 1 • a.2)

/-- The linearised values, src/xrtm_source.c:700-752; for a derivative that is
active in the thermal source only `ltau'` is not read, it is zero. -/
noncomputable def heatEndsL (ltau ltau' : ℝ) (a al : (Fin n ⊕ Fin n → ℝ) × (Fin n ⊕ Fin n → ℝ)) :
    (Fin n ⊕ Fin n → ℝ) × (Fin n ⊕ Fin n → ℝ) :=
  ((0 : ℝ) ^ 0 • al.1 + (0 : ℝ) ^ 1 • al.2,
   ltau ^ 0 • al.1 + (0 * ltau' * ltau ^ (-1 : ℤ)) • a.1 +
    (ltau ^ 1 • al.2 + (1 * ltau' * ltau ^ 0) • a.2))

/-! ## Sources of the layer -/

/-- `build_global_source_solar2`, src/xrtm_source.c:852-872, for `atran >= 0`:
`S_p` and `S_m`. -/
def global (atran : ℝ) (Rp Tp Rm Tm : M n) (Fp Fm : V n) : V n × V n :=
  (Fp - atran • Tp *ᵥ Fp - Rm *ᵥ Fm, atran • (Fm - Rp *ᵥ Fp) - Tm *ᵥ Fm)

/-- The linearised values for a derivative that is active in the layer,
src/xrtm_source.c:878-928. -/
def globalLayerL (atran atran' : ℝ) (Rp Tp Rm Tm Rp' Tp' Rm' Tm' : M n) (Fp Fm Fp' Fm' : V n) :
    V n × V n :=
  let A := atran • Fp' + atran' • Fp
  (Fp' - atran • Tp' *ᵥ Fp - Tp *ᵥ A - Rm' *ᵥ Fm - Rm *ᵥ Fm',
   (atran • Fm' + atran' • Fm) - Tm' *ᵥ Fm - Tm *ᵥ Fm' - atran • Rp' *ᵥ Fp - Rp *ᵥ A)

/-- For one that is active in the beam only, src/xrtm_source.c:930-964. -/
noncomputable def globalBeamL (atran atran' : ℝ) (Rp Tp Rm Tm : M n) (Fp Fm Fp' Fm' : V n) : V n × V n :=
  if atran' ≠ 0 then
    let A := atran • Fp' + atran' • Fp
    (Fp' - Tp *ᵥ A - Rm *ᵥ Fm', (atran • Fm' + atran' • Fm) - Tm *ᵥ Fm' - Rp *ᵥ A)
  else (0, 0)

/-- `build_global_source_thermal`, src/xrtm_source.c:998-1006. -/
def globalHeat (Rp Tp Rm Tm : M n) (F0p F0m F1p F1m : V n) : V n × V n :=
  (F0p - Tp *ᵥ F1p - Rm *ᵥ F0m, F1m - Rp *ᵥ F1p - Tm *ᵥ F0m)

/-- The linearised values, src/xrtm_source.c:1008-1040; for a derivative that is
active in the thermal source only the terms with primed matrices are left out. -/
def globalHeatL (lay : Bool) (Rp Tp Rm Tm Rp' Tp' Rm' Tm' : M n) (F0p F0m F1p F1m F0p' F0m' F1p' F1m' : V n) :
    V n × V n :=
  if lay then
    (F0p' - Tp' *ᵥ F1p - Tp *ᵥ F1p' - Rm' *ᵥ F0m - Rm *ᵥ F0m',
     F1m' - Rp' *ᵥ F1p - Rp *ᵥ F1p' - Tm' *ᵥ F0m - Tm *ᵥ F0m')
  else
    (F0p' - Tp *ᵥ F1p' - Rm *ᵥ F0m', F1m' - Rp *ᵥ F1p' - Tm *ᵥ F0m')

end Xrtm.Source
