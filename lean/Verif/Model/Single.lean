import Verif.Model.Arith
import Mathlib.Analysis.Real.Pi.Bounds

/-!
# Single scattering: `src/xrtm_single.c`

`ssr_up_layer` (23-108), `single_scattered_radiance_up` (114-310), `ssr_dn_layer` (317-396),
`single_scattered_radiance_dn` (402-602), `n_t_tms_correction_up`, `n_t_tms_correction_dn` (608-762).

The numbers are any type with the operations of C, so nothing is assumed about rounding. The layer
functions are called with the same arrays as input and output, which is modelled: a read sees what was
written before. The other loops write each cell once from arrays they do not change, and are given as
functions of the cell. Not modelled: the copies kept for the adjoint code (`save->I`), and the
`USE_AD_FOR_TL_…` branches, which are not compiled.
-/

namespace Xrtm.Single

/-- Numbers with the test `== 0.` and the constant `4. * PI`. -/
class SNum (F : Type) extends Arith F where
  isZero : F → Bool
  fourPi : F

section
variable {F : Type} [SNum F]

local instance : Add F := ⟨Arith.add⟩
local instance : Sub F := ⟨Arith.sub⟩
local instance : Mul F := ⟨Arith.mul⟩
local instance : Div F := ⟨Arith.div⟩
local instance : Neg F := ⟨Arith.neg⟩

/-- The arguments that describe the atmosphere and the viewing angles. -/
structure Prof (F : Type) where
  nStokes : Nat
  nDerivs : Nat
  nLayers : Nat
  nUmus : Nat
  F0 : F
  umus : Nat → F
  omega : Nat → F
  omegaL : Nat → Nat → F
  ltau : Nat → F
  ltauL : Nat → Nat → F
  /-- `P[i_layer][kk]` -/
  P : Nat → Nat → F
  /-- `P_l[i_layer][i_deriv][kk]` -/
  PL : Nat → Nat → Nat → F
  btran : Nat → F
  btranL : Nat → Nat → F
  as0 : Nat → F
  as0L : Nat → Nat → F
  /-- `derivs_layers[i_layer][i_deriv]` -/
  flag : Nat → Nat → Bool

/-- A radiance array and the array of its derivatives. -/
structure Buf (F : Type) where
  v : Nat → F
  l : Nat → Nat → F

def Buf.setV (b : Buf F) (kk : Nat) (x : F) : Buf F := ⟨fun k => if k = kk then x else b.v k, b.l⟩

def Buf.setL (b : Buf F) (j kk : Nat) (x : F) : Buf F :=
  ⟨b.v, fun j' k => if j' = j ∧ k = kk then x else b.l j' k⟩

/-- The factors of a layer for one viewing angle: `I_ss = att * I + src * P`,
`I_ss_l = attL * I + att * I_l + P * srcL [+ pre * P_l * fac]`. -/
structure Fac (F : Type) where
  att : F
  src : F
  attL : Nat → F
  srcL : Nat → F
  pre : F
  fac : F

variable (p : Prof F)

/-- `ssr_up_layer`, 65-96, for angle `i` of layer `n`. -/
def upFac (n : Nat) (utau : F) (i : Nat) : Fac F :=
  let a := Arith.exp (-utau * p.as0 n)
  let b := p.btran n * a * p.omega n
  let c := p.ltau n - utau
  let d := Arith.exp (-c * p.as0 n)
  let utau_l := fun j => utau * p.ltauL n j / p.ltau n
  let b_l := fun j => (p.btranL n j + p.btran n * (-utau_l j * p.as0 n - utau * p.as0L n j)) * (a * p.omega n) +
    p.btran n * a * p.omegaL n j
  let c_l := fun j => p.ltauL n j - utau_l j
  let d_l := fun j => (-c_l j * p.as0 n - c * p.as0L n j) * d
  let e := Arith.exp (-c / p.umus i)
  let f := Arith.one / p.umus i + p.as0 n
  let g := (Arith.one - e * d) / f
  let e_l := fun j => -c_l j * (e / p.umus i)
  { att := e, src := b * g, attL := e_l
    srcL := fun j => g * b_l j + b * (-e_l j * d - e * d_l j - g * p.as0L n j) / f
    pre := b, fac := g }

/-- `ssr_dn_layer`, 355-381, for angle `i` of layer `n`. -/
def dnFac (n : Nat) (utau : F) (i : Nat) : Fac F :=
  let a := p.btran n * p.omega n
  let b := Arith.exp (-utau * p.as0 n)
  let utau_l := fun j => utau * p.ltauL n j / p.ltau n
  let a_l := fun j => p.btranL n j * p.omega n + p.btran n * p.omegaL n j
  let b_l := fun j => (-utau_l j * p.as0 n - utau * p.as0L n j) * b
  let c := Arith.exp (-utau / p.umus i)
  let d := p.as0 n - Arith.one / p.umus i
  let e := (c - b) / d
  let c_l := fun j => -utau_l j * (c / p.umus i)
  { att := c, src := a * e, attL := c_l
    srcL := fun j => e * a_l j + a * (c_l j - b_l j - e * p.as0L n j) / d
    pre := a, fac := e }

/-- What a layer function reads: its input, or its output so far if they are the same array. -/
def rd (src : Option (Buf F)) (dst : Buf F) : Buf F := src.getD dst

/-- 92-99 (377-384): a derivative of one component. -/
def cellL (n j : Nat) (f : Fac F) (src : Option (Buf F)) (dst : Buf F) (kk : Nat) : Buf F :=
  let r := rd src dst
  let dst := dst.setL j kk (f.attL j * r.v kk + f.att * r.l j kk + p.P n kk * f.srcL j)
  if p.flag n j then dst.setL j kk (dst.l j kk + f.pre * p.PL n j kk * f.fac) else dst

/-- 103-106 (388-391): one component. -/
def cellV (n : Nat) (f : Fac F) (src : Option (Buf F)) (dst : Buf F) (kk : Nat) : Buf F :=
  dst.setV kk (f.att * (rd src dst).v kk + f.src * p.P n kk)

/-- The body of the loop over angles, 80-107 (365-393). -/
def angle (n : Nat) (f : Fac F) (src : Option (Buf F)) (dst : Buf F) (i : Nat) : Buf F :=
  let dst := (List.range p.nDerivs).foldl
    (fun dst j => (List.range p.nStokes).foldl (fun dst k => cellL p n j f src dst (i * p.nStokes + k)) dst) dst
  (List.range p.nStokes).foldl (fun dst k => cellV p n f src dst (i * p.nStokes + k)) dst

/-- `ssr_up_layer`; `src = none` if the output arrays are the input arrays. -/
def upLayer (n : Nat) (utau : F) (src : Option (Buf F)) (dst : Buf F) : Buf F :=
  (List.range p.nUmus).foldl (fun dst i => angle p n (upFac p n utau i) src dst i) dst

/-- `ssr_dn_layer`. -/
def dnLayer (n : Nat) (utau : F) (src : Option (Buf F)) (dst : Buf F) : Buf F :=
  (List.range p.nUmus).foldl (fun dst i => angle p n (dnFac p n utau i) src dst i) dst

/-- What is asked for: `n_ulevels`, `ulevels`, `utaus`, `utau_output`. -/
structure Req (F : Type) where
  nUl : Nat
  ul : Nat → Nat
  ut : Nat → F
  tau : Bool

/-- `n_umus_v` -/
def Prof.nUv : Nat := p.nUmus * p.nStokes

/-- `b` for the angle of a component (196, 292). -/
def scale (kk : Nat) : F := Arith.one / p.umus (kk / p.nStokes) * (p.F0 / SNum.fourPi)

/-- Copy of a radiance and its derivatives (223-229 and similar). -/
def copy (src dst : Buf F) : Buf F where
  v kk := if kk < p.nUv then src.v kk else dst.v kk
  l j kk := if j < p.nDerivs ∧ kk < p.nUv then src.l j kk else dst.l j kk

/-- The incoming radiance in units of the source (193-209); `w` is what the work arrays held. -/
def start (inp w : Buf F) : Buf F where
  v kk := if kk < p.nUv then inp.v kk / scale p kk else w.v kk
  l j kk := if j < p.nDerivs ∧ kk < p.nUv then inp.l j kk / scale p kk else w.l j kk

/-- Back to the units asked for (287-303). -/
def scaled (b : Buf F) : Buf F where
  v kk := if kk < p.nUv then b.v kk * scale p kk else b.v kk
  l j kk := if j < p.nDerivs ∧ kk < p.nUv then b.l j kk * scale p kk else b.l j kk

/-- No sun: zeros (155-160). -/
def zeros (b : Buf F) : Buf F where
  v kk := if kk < p.nUv then Arith.zero else b.v kk
  l j kk := if j < p.nDerivs ∧ kk < p.nUv then Arith.zero else b.l j kk

/-- The first `n_ulevels` output arrays. -/
def each (q : Req F) (f : Buf F → Buf F) (o : Nat → Buf F) : Nat → Buf F := fun k => if k < q.nUl then f (o k) else o k

/-- An output array replaced. -/
def put (o : Nat → Buf F) (k : Nat) (b : Buf F) : Nat → Buf F := fun k' => if k' = k then b else o k'

variable (q : Req F)

/-- 237-255: the outputs inside layer `n`; `m` is `i_ulevel + 1`. -/
def upWhile (n : Nat) (I : Buf F) : Nat → (Nat → Buf F) → Nat × (Nat → Buf F)
  | 0, o => (0, o)
  | m + 1, o =>
      if n = q.ul m then upWhile n I m (put o m (upLayer p n (q.ut m) (some I) (o m)))
      else (m + 1, o)

/-- 270-280: the output at the top of layer `n`. Without an output left, `ulevels[-1]` is read. -/
def upMark (n : Nat) (I : Buf F) : Nat → (Nat → Buf F) → Option (Nat × (Nat → Buf F))
  | 0, _ => none
  | m + 1, o => if n = q.ul m then some (m, put o m (copy p I (o m))) else some (m + 1, o)

/-- 236-281: the layers from `i2 + k - 1` up to `i2`. -/
def upLoop (i2 : Nat) : Nat → Buf F → Nat → (Nat → Buf F) → Option (Nat → Buf F)
  | 0, _, _, o => some o
  | k + 1, I, m, o =>
      let n := i2 + k
      let (m, o) := if q.tau then upWhile p q n I m o else (m, o)
      let I := upLayer p n Arith.zero none I
      if q.tau then upLoop i2 k I m o
      else match upMark p q n I m o with
        | none => none
        | some (m, o) => upLoop i2 k I m o

/-- 222: is the last output at the bottom? -/
def atBottom (m : Nat) : Bool :=
  (!q.tau && p.nLayers == q.ul m) || (q.tau && p.nLayers == q.ul m && SNum.isZero (q.ut m))

/-- `single_scattered_radiance_up`. -/
def up (inp w : Buf F) (o : Nat → Buf F) : Option (Nat → Buf F) :=
  if SNum.isZero p.F0 then some (each q (zeros p) o)
  else match q.nUl with
    | 0 => none
    | m + 1 =>
        let I := start p inp w
        let (k, o) := if atBottom p q m then (m, put o m (copy p I (o m))) else (m + 1, o)
        (upLoop p q (q.ul 0) (p.nLayers - q.ul 0) I k o).map (each q (scaled p))

/-- 530-548: the outputs inside layer `n`; `m` outputs are left, so `i_ulevel = n_ulevels - m`. -/
def dnWhile (n : Nat) (I : Buf F) : Nat → (Nat → Buf F) → Nat × (Nat → Buf F)
  | 0, o => (0, o)
  | m + 1, o =>
      let k := q.nUl - (m + 1)
      if n = q.ul k then dnWhile n I m (put o k (dnLayer p n (q.ut k) (some I) (o k)))
      else (m + 1, o)

/-- 563-573: the output at the bottom of layer `n`. Without an output left, `ulevels[n_ulevels]` is read. -/
def dnMark (n : Nat) (I : Buf F) : Nat → (Nat → Buf F) → Option (Nat × (Nat → Buf F))
  | 0, _ => none
  | m + 1, o =>
      let k := q.nUl - (m + 1)
      if n + 1 = q.ul k then some (m, put o k (copy p I (o k))) else some (m + 1, o)

/-- 529-574: `k` layers, from layer `n` on. -/
def dnLoop : Nat → Nat → Buf F → Nat → (Nat → Buf F) → Option (Nat → Buf F)
  | 0, _, _, _, o => some o
  | k + 1, n, I, m, o =>
      let (m, o) := if q.tau then dnWhile p q n I m o else (m, o)
      let I := dnLayer p n (p.ltau n) none I
      if q.tau then dnLoop k (n + 1) I m o
      else match dnMark p q n I m o with
        | none => none
        | some (m, o) => dnLoop k (n + 1) I m o

/-- 513: is the first output at the top? -/
def atTop : Bool := (!q.tau && 0 == q.ul 0) || (q.tau && 0 == q.ul 0 && SNum.isZero (q.ut 0))

/-- `single_scattered_radiance_dn`. -/
def dn (inp w : Buf F) (o : Nat → Buf F) : Option (Nat → Buf F) :=
  if SNum.isZero p.F0 then some (each q (zeros p) o)
  else match q.nUl with
    | 0 => none
    | m + 1 =>
        let I := start p inp w
        let (k, o) := if atTop q then (m, put o 0 (copy p I (o 0))) else (m + 1, o)
        (dnLoop p q (if q.tau then q.ul m + 1 else q.ul m) 0 I k o).map (each q (scaled p))

/-- `I_c - a` (677-681). -/
def minus (b a : Buf F) : Buf F where
  v kk := if kk < p.nUv then b.v kk - a.v kk else b.v kk
  l j kk := if j < p.nDerivs ∧ kk < p.nUv then b.l j kk - a.l j kk else b.l j kk

/-- `n_t_tms_correction_up`: with the truncated phase functions and the scaled albedos of `pt`, and with
the full ones and the albedos `omega2` of `pf`. `w1`, `w2`, `a` are work arrays. -/
def tmsUp (pt pf : Prof F) (inp w1 w2 : Buf F) (a o : Nat → Buf F) : Option (Nat → Buf F) :=
  match up pt q inp w1 a with
  | none => none
  | some a => match up pf q inp w2 o with
    | none => none
    | some o => some fun k => if k < q.nUl then minus pf (o k) (a k) else o k

/-- `n_t_tms_correction_dn`. -/
def tmsDn (pt pf : Prof F) (inp w1 w2 : Buf F) (a o : Nat → Buf F) : Option (Nat → Buf F) :=
  match dn pt q inp w1 a with
  | none => none
  | some a => match dn pf q inp w2 o with
    | none => none
    | some o => some fun k => if k < q.nUl then minus pf (o k) (a k) else o k

end

noncomputable instance snumReal : SNum ℝ := { arithReal with isZero := fun x => decide (x = 0), fourPi := 4 * Real.pi }

/-- Reals and "not a finite number": what a division by zero gives, and what any operation on it gives.
This is true of C for the expressions here: infinities and NaNs made by a division are only added,
subtracted and multiplied afterwards, and divided by finite numbers. -/
noncomputable instance snumOpt : SNum (Option ℝ) where
  zero := some 0
  one := some 1
  add a b := a.bind fun x => b.map (x + ·)
  sub a b := a.bind fun x => b.map (x - ·)
  mul a b := a.bind fun x => b.map (x * ·)
  div a b := a.bind fun x => b.bind fun y => if y = 0 then none else some (x / y)
  neg a := a.map (- ·)
  exp a := a.map Real.exp
  isZero a := decide (a = some 0)
  fourPi := some (4 * Real.pi)

end Xrtm.Single
