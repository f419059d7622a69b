import Verif.Model.Single

/-!
# Single scattering in reverse mode: `src/xrtm_single_a.c`

`ssr_up_layer_a` (45-127), `single_scattered_radiance_up_a` (134-259), `ssr_dn_layer_a` (266-339),
`single_scattered_radiance_dn_a` (346-475), `n_t_tms_correction_up_a`, `n_t_tms_correction_dn_a` (482-525).

The arrays `·_a` hold weights: how much the sum that is differentiated changes with each input. Numbers are the reals.
Arrays are functions; cells beyond `n_umus_v` are not there and are given as zero. A cell of a layer function adds to
several sums; the additions to one sum are written as one. What the forward routines save (`save->I`,
`src/xrtm_single.c:260-261`, `551-552`) is computed with the forward layer functions. Not modelled: the arguments that are
not used (`I_ss`, `atran`, `atran_a`, `I_in`).
-/

namespace Xrtm.SingleA

open Single

/-- The weights of the inputs: `omega_a`, `ltau_a`, `btran_a`, `as_0_a`, `P_a`. -/
structure Wt where
  omega : Nat → ℝ
  ltau : Nat → ℝ
  btran : Nat → ℝ
  as0 : Nat → ℝ
  P : Nat → Nat → ℝ

/-- `f[k] += x` -/
def addAt (f : Nat → ℝ) (k : Nat) (x : ℝ) : Nat → ℝ := fun k' => if k' = k then f k' + x else f k'

/-- What one cell of a layer function adds to the sums. -/
structure Inc where
  omega : ℝ
  ltau : ℝ
  btran : ℝ
  as0 : ℝ
  P : ℝ
  utau : ℝ
  inp : ℝ

/-- What a layer function works on: the weights, `utau_a`, `I_a`, `I_ss_a`. -/
structure LSt where
  w : Wt
  utau : ℝ
  inp : Nat → ℝ
  out : Nat → ℝ

/-- The additions of one cell of layer `n`, and `I_ss_a[jj] = 0.` (85-122; 300-333). -/
def cellA (n : Nat) (inc : Inc) (s : LSt) (kk : Nat) : LSt where
  w :=
    { omega := addAt s.w.omega n inc.omega
      ltau := addAt s.w.ltau n inc.ltau
      btran := addAt s.w.btran n inc.btran
      as0 := addAt s.w.as0 n inc.as0
      P := fun n' => if n' = n then addAt (s.w.P n') kk inc.P else s.w.P n' }
  utau := s.utau + inc.utau
  inp := addAt s.inp kk inc.inp
  out := fun k => if k = kk then 0 else s.out k

variable (p : Prof ℝ)

/-- `ssr_up_layer_a`, 69-122: what the cell `kk` of angle `i` adds, given the radiance `I` and the weight `x` of the result. -/
noncomputable def upInc (n : Nat) (utau : ℝ) (I : Nat → ℝ) (i kk : Nat) (x : ℝ) : Inc :=
  let a := Real.exp (-utau * p.as0 n)
  let c := p.ltau n - utau
  let d := Real.exp (-c * p.as0 n)
  let e := Real.exp (-c / p.umus i)
  let a_save := (1 - e * d) / (1 / p.umus i + p.as0 n)
  let a_save_a := x * p.btran n * a * p.omega n * p.P n kk
  let t := a_save_a / (1 / p.umus i + p.as0 n)
  { inp := x * e
    btran := x * a * p.omega n * p.P n kk * a_save
    omega := x * p.btran n * a * p.P n kk * a_save
    P := x * p.btran n * a * p.omega n * a_save
    as0 := -(x * p.btran n * utau * a * p.omega n * p.P n kk * a_save) + t * e * c * d - t * a_save
    ltau := -(I kk * x / p.umus i * e) + t / p.umus i * e * d + t * e * p.as0 n * d
    utau := I kk * x / p.umus i * e - x * p.btran n * p.as0 n * a * p.omega n * p.P n kk * a_save -
      t / p.umus i * e * d - t * e * p.as0 n * d }

/-- `ssr_dn_layer_a`, 289-333. -/
noncomputable def dnInc (n : Nat) (utau : ℝ) (I : Nat → ℝ) (i kk : Nat) (x : ℝ) : Inc :=
  let b := Real.exp (-utau * p.as0 n)
  let c := Real.exp (-utau / p.umus i)
  let c_save := (c - b) / (p.as0 n - 1 / p.umus i)
  let c_save_a := x * p.btran n * p.omega n * p.P n kk
  let t := c_save_a / (p.as0 n - 1 / p.umus i)
  { inp := x * c
    btran := x * p.omega n * p.P n kk * c_save
    omega := x * p.btran n * p.P n kk * c_save
    P := x * p.btran n * p.omega n * c_save
    as0 := t * utau * b - t * c_save
    ltau := 0
    utau := -(I kk * x / p.umus i * c) - t / p.umus i * c + t * p.as0 n * b }

/-- The loops over angles and components, and the last line (126, 338). -/
noncomputable def layerA (inc : Nat → Nat → ℝ → Inc) (n : Nat) (utau : ℝ) (w : Wt) (inp out : Nat → ℝ) : LSt :=
  let s := (List.range p.nUmus).foldl
    (fun s i => (List.range p.nStokes).foldl
      (fun s k => cellA n (inc i (i * p.nStokes + k) (s.out (i * p.nStokes + k))) s (i * p.nStokes + k)) s)
    { w := w, utau := 0, inp := inp, out := out }
  { s with w := { s.w with ltau := addAt s.w.ltau n (s.utau * utau / p.ltau n) } }

/-- `ssr_up_layer_a` -/
noncomputable def upLayerA (n : Nat) (utau : ℝ) (I : Nat → ℝ) (w : Wt) (inp out : Nat → ℝ) : LSt :=
  layerA p (upInc p n utau I) n utau w inp out

/-- `ssr_dn_layer_a` -/
noncomputable def dnLayerA (n : Nat) (utau : ℝ) (I : Nat → ℝ) (w : Wt) (inp out : Nat → ℝ) : LSt :=
  layerA p (dnInc p n utau I) n utau w inp out

/-- The weights, `I_a`, and the weights of the results `I_ss_a`. -/
structure RSt where
  w : Wt
  inp : Nat → ℝ
  out : Nat → Nat → ℝ

/-- `I_a[j] += I_ss_a[i_ulevel][j]` (207-208, 233-234, 423-424, 449-450). -/
def takeOut (m : Nat) (s : RSt) : RSt :=
  { s with inp := fun kk => if kk < p.nUv then s.inp kk + s.out m kk else s.inp kk }

/-- `save->I[i]` of `single_scattered_radiance_up`: `d` layers have been passed, from the bottom. -/
noncomputable def upSaved (st : Buf ℝ) : Nat → Buf ℝ
  | 0 => st
  | d + 1 => upLayer p (p.nLayers - 1 - d) Arith.zero none (upSaved st d)

/-- `save->I[i]` of `single_scattered_radiance_dn`: `d` layers have been passed, from the top. -/
noncomputable def dnSaved (st : Buf ℝ) : Nat → Buf ℝ
  | 0 => st
  | d + 1 => dnLayer p d (p.ltau d) none (dnSaved st d)

variable (q : Req ℝ)

/-- A whole layer: `I_a2` is cleared, and takes the place of `I_a` (213-217, 429-433). -/
noncomputable def passLayer (l : Wt → (Nat → ℝ) → (Nat → ℝ) → LSt) (s : RSt) : RSt :=
  let r := l s.w (fun _ => 0) s.inp
  { s with w := r.w, inp := r.inp }

/-- An output inside a layer (221, 437). -/
noncomputable def passOut (l : Wt → (Nat → ℝ) → (Nat → ℝ) → LSt) (m : Nat) (s : RSt) : RSt :=
  let r := l s.w s.inp (s.out m)
  { w := r.w, inp := r.inp, out := fun k => if k = m then r.out else s.out k }

/-- 219-225: the outputs inside layer `n`; `r` are left, so `i_ulevel = n_ulevels - r`. -/
noncomputable def upWhileA (n : Nat) (I : Nat → ℝ) : Nat → RSt → Nat × RSt
  | 0, s => (0, s)
  | r + 1, s =>
      if n = q.ul (q.nUl - (r + 1)) then
        upWhileA n I r (passOut (upLayerA p n (q.ut (q.nUl - (r + 1))) I) (q.nUl - (r + 1)) s)
      else (r + 1, s)

/-- 206-211: the output at the top of layer `n`. -/
noncomputable def upMarkA (n : Nat) : Nat → RSt → Nat × RSt
  | 0, s => (0, s)
  | r + 1, s => if n = q.ul (q.nUl - (r + 1)) then (r, takeOut p (q.nUl - (r + 1)) s) else (r + 1, s)

/-- 205-226: `k` layers, from layer `n` on. -/
noncomputable def upLoopA (saved : Nat → Nat → ℝ) : Nat → Nat → Nat → RSt → Nat × RSt
  | 0, _, r, s => (r, s)
  | k + 1, n, r, s =>
      let (r, s) := if q.tau then (r, s) else upMarkA p q n r s
      let s := passLayer (upLayerA p n 0 (saved n)) s
      let (r, s) := if q.tau then upWhileA p q n (saved n) r s else (r, s)
      upLoopA saved k (n + 1) r s

/-- 232-237: the output at the bottom. -/
noncomputable def upLastA : Nat → RSt → RSt
  | 0, s => s
  | r + 1, s => if atBottom p q (q.nUl - (r + 1)) then takeOut p (q.nUl - (r + 1)) s else s

/-- The weights of all inputs: of the atmosphere, of the incoming radiance `I_in_a`, and of the results. -/
structure Res where
  w : Wt
  inA : Nat → ℝ
  out : Nat → Nat → ℝ

/-- `I_ss_a[i][ii + k] *= b` (180-190, 393-403). -/
noncomputable def scaleOut (out : Nat → Nat → ℝ) : Nat → Nat → ℝ :=
  fun k kk => if k < q.nUl ∧ kk < p.nUv then out k kk * scale p kk else out k kk

/-- `single_scattered_radiance_up_a`. Without a sun the forward routine has returned before it saved anything
(`src/xrtm_single.c:161-166`): what is read was never written, and `I_a[jj] / b` is `0. / 0.`. -/
noncomputable def upA (saved : Nat → Nat → ℝ) (x : Res) : Option Res :=
  if SNum.isZero p.F0 then none
  else
    let (r, s) := upLoopA p q saved (p.nLayers - q.ul 0) (q.ul 0) q.nUl
      { w := x.w, inp := fun _ => 0, out := scaleOut p q x.out }
    let s := upLastA p q r s
    some { w := s.w
           inA := fun kk => if kk < p.nUv then x.inA kk + s.inp kk / scale p kk else x.inA kk
           out := fun k kk => if k < q.nUl ∧ kk < p.nUv then 0 else s.out k kk }

/-- 435-441: the outputs inside layer `n`; `r` are left, so `i_ulevel = r - 1`. -/
noncomputable def dnWhileA (n : Nat) (I : Nat → ℝ) : Nat → RSt → Nat × RSt
  | 0, s => (0, s)
  | r + 1, s =>
      if n = q.ul r then dnWhileA n I r (passOut (dnLayerA p n (q.ut r) I) r s) else (r + 1, s)

/-- 422-427: the output at the bottom of layer `n`. -/
noncomputable def dnMarkA (n : Nat) : Nat → RSt → Nat × RSt
  | 0, s => (0, s)
  | r + 1, s => if n + 1 = q.ul r then (r, takeOut p r s) else (r + 1, s)

/-- 421-442: the layers from `k - 1` up to 0. The first component of the result: was `ulevels[-1]` read? Line 435 has
`i_ulevel < n_ulevels` where the others have `i_ulevel >= 0`. What is read does not matter, as line 436 looks again. -/
noncomputable def dnLoopA (saved : Nat → Nat → ℝ) : Nat → Nat → RSt → Bool × Nat × RSt
  | 0, r, s => (false, r, s)
  | k + 1, r, s =>
      let (r, s) := if q.tau then (r, s) else dnMarkA p q k r s
      let s := passLayer (dnLayerA p k (p.ltau k) (saved k)) s
      let bad := q.tau && r == 0
      let (r, s) := if q.tau then dnWhileA p q k (saved k) r s else (r, s)
      let (bad', r, s) := dnLoopA saved k r s
      (bad || bad', r, s)

/-- 448-453: the output at the top. -/
noncomputable def dnLastA : Nat → RSt → RSt
  | 0, s => s
  | r + 1, s =>
      if (!q.tau && 0 == q.ul r) || (q.tau && 0 == q.ul r && SNum.isZero (q.ut r)) then takeOut p r s else s

/-- `single_scattered_radiance_dn_a`. The last loop (459-468) has `I_in_a[jj] = `, where the way up has `+=`. -/
noncomputable def dnA (saved : Nat → Nat → ℝ) (x : Res) : Option (Bool × Res) :=
  if SNum.isZero p.F0 then none
  else
    let (bad, r, s) := dnLoopA p q saved (if q.tau then q.ul (q.nUl - 1) + 1 else q.ul (q.nUl - 1)) q.nUl
      { w := x.w, inp := fun _ => 0, out := scaleOut p q x.out }
    let s := dnLastA p q r s
    some (bad, { w := s.w
                 inA := fun kk => if kk < p.nUv then s.inp kk / scale p kk else x.inA kk
                 out := fun k kk => if k < q.nUl ∧ kk < p.nUv then 0 else s.out k kk })

/-- The weights of the correction: `omega_a`, `omega2_a`, `P_trun_a`, `P_full_a` and what both parts share. -/
structure TRes where
  omega : Nat → ℝ
  omega2 : Nat → ℝ
  ltau : Nat → ℝ
  btran : Nat → ℝ
  as0 : Nat → ℝ
  Ptrun : Nat → Nat → ℝ
  Pfull : Nat → Nat → ℝ
  inA : Nat → ℝ
  out : Nat → Nat → ℝ

/-- The arguments of the first call (492-496, 517-521). -/
def TRes.trun (x : TRes) : Res :=
  ⟨⟨x.omega, x.ltau, x.btran, x.as0, x.Ptrun⟩, x.inA, fun k kk => -1 * x.out k kk⟩

/-- The arguments of the second (499, 524), after `y`. -/
def TRes.full (x : TRes) (y : Res) : Res := ⟨⟨x.omega2, y.w.ltau, y.w.btran, y.w.as0, x.Pfull⟩, y.inA, x.out⟩

/-- What is left after both. -/
def TRes.after (y z : Res) : TRes :=
  ⟨y.w.omega, z.w.omega, z.w.ltau, z.w.btran, z.w.as0, y.w.P, z.w.P, z.inA, z.out⟩

/-- `n_t_tms_correction_up_a` -/
noncomputable def tmsUpA (pt pf : Prof ℝ) (q : Req ℝ) (savedT savedF : Nat → Nat → ℝ) (x : TRes) : Option TRes :=
  match upA pt q savedT x.trun with
  | none => none
  | some y => match upA pf q savedF (x.full y) with
    | none => none
    | some z => some (TRes.after y z)

/-- `n_t_tms_correction_dn_a` -/
noncomputable def tmsDnA (pt pf : Prof ℝ) (q : Req ℝ) (savedT savedF : Nat → Nat → ℝ) (x : TRes) : Option TRes :=
  match dnA pt q savedT x.trun with
  | none => none
  | some (_, y) => match dnA pf q savedF (x.full y) with
    | none => none
    | some (_, z) => some (TRes.after y z)

end Xrtm.SingleA
