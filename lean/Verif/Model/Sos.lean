import Mathlib.Algebra.Order.Floor.Ring
import Mathlib.Data.Matrix.Mul

/-!
# Successive orders of scattering

`rtm_sos` (`src/xrtm_sos.c:21-540`).  The arrays over the sublayers and the levels are functions on `Nat`, written
where the code writes them and zero elsewhere.  One derivative is carried at a time.  `exp` and `pi` are parameters.

Simplified: `DBL_MAX` (394) is `none`; the conversion `(int) a` (121, 149), undefined for values beyond the type, is a
distinct outcome only in `count?`; the output levels are the top and the bottom, which is all that the caller accepts
for this solver (`xrtm_interface.c:659`, `3164`).
-/

namespace Xrtm.Sos

variable {n : Nat} {K : Type} [Field K] [LinearOrder K] [FloorRing K]

abbrev V (n : Nat) (K : Type) := Fin n → K
abbrev M (n : Nat) (K : Type) := Matrix (Fin n) (Fin n) K

/-- The arguments, 21-37.  `ns` is the number of Stokes parameters, `n` that of all components. -/
structure Args (n : Nat) (K : Type) where
  first : Bool
  ns : Nat
  L : Nat
  F0 : K
  qx : V n K
  qw : V n K
  omega : Nat → K
  ltau : Nat → K
  btran : Nat → K
  as0 : Nat → K
  P0mm : Nat → V n K
  P0pm : Nat → V n K
  Ppp : Nat → M n K
  Pmp : Nat → M n K
  Pmm : Nat → M n K
  Ppm : Nat → M n K
  Rs : M n K
  I1m : V n K
  Inp : V n K
  maxOs : Nat
  maxTau : K
  tol : K
  surface : Bool
  vector : Bool

/-! ## Cutting the layers, 115-170 -/

/-- 117-121, 145-149: the number of pieces of a layer. -/
def pieces (maxTau ltau : K) : Nat :=
  let a := ltau / maxTau
  1 + (if 1 < a then ⌊a⌋₊ else 0)

/-- 115-124: the number of all pieces, `none` where an `int` overflows. -/
def count? (z : Args n K) : Option Nat :=
  (List.range z.L).foldl (fun s i => s.bind fun m =>
    let c := m + pieces z.maxTau (z.ltau i)
    if c < 2 ^ 31 then some c else none) (some 0)

/-- A piece: its layer, its thickness, the beam at its top. -/
structure Piece (K : Type) where
  index : Nat
  ltau : K
  btran : K

/-- 145-165: the pieces of layer `i`. -/
def cut (exp : K → K) (z : Args n K) (i : Nat) : List (Piece K) :=
  let m := pieces z.maxTau (z.ltau i)
  let a := z.ltau i / m
  (List.range m).map fun j : Nat => ⟨i, a, z.btran i * exp ((j : K) * -a * z.as0 i)⟩

/-- 143-166: the arrays `index`, `ltau2`, `btran2`, in the order they are written. -/
def cuts (exp : K → K) (z : Args n K) : List (Piece K) := (List.range z.L).flatMap (cut exp z)

/-- What the loops over the orders read: the pieces and 168. -/
structure Grid (K : Type) where
  N : Nat
  index : Nat → Nat
  ltau : Nat → K
  btran : Nat → K

/-- 143-168. -/
def grid (exp : K → K) (z : Args n K) : Grid K where
  N := (cuts exp z).length
  index j := ((cuts exp z)[j]?.map Piece.index).getD 0
  ltau j := ((cuts exp z)[j]?.map Piece.ltau).getD 0
  btran j := ((cuts exp z)[j]?.map Piece.btran).getD (z.btran z.L)

/-! ## The sweeps -/

/-- 206. -/
def T (exp : K → K) (z : Args n K) (g : Grid K) (j : Nat) : V n K := fun k => exp (-g.ltau j / z.qx k)

/-- 207. -/
def E (exp : K → K) (z : Args n K) (g : Grid K) (j : Nat) : V n K := fun k => 1 - T exp z g j k

/-- The loops upwards, 246-264 and 415-450, `d` pieces up from the bottom of `N`: `T` times the level below and what
piece `N - 1 - d` adds. -/
def rise (T q : Nat → V n K) (N : Nat) (bot : V n K) : Nat → V n K
  | 0 => bot
  | d + 1 => fun k => T (N - 1 - d) k * rise T q N bot d k + q (N - 1 - d) k

/-- The loops downwards, 275-293 and 474-509. -/
def fall (T q : Nat → V n K) (top : V n K) : Nat → V n K
  | 0 => top
  | j + 1 => fun k => T j k * fall T q top j k + q j k

/-- A buffer: radiances up and down at the levels, 186-187. -/
structure Buf (n : Nat) (K : Type) where
  ip : Nat → V n K
  im : Nat → V n K

/-- One sweep up and one down, as left in a buffer. -/
def sweep (T qp qm : Nat → V n K) (N : Nat) (bot top : V n K) : Buf n K :=
  ⟨fun j => rise T qp N bot (N - j), fall T qm top⟩

/-- 249, 278. -/
def beam (pi : K) (z : Args n K) (g : Grid K) (j : Nat) : K :=
  z.F0 / (4 * pi) / 2 * z.omega (g.index j) * (g.btran j + g.btran (j + 1))

/-- 240-293: the first order. -/
def first (exp : K → K) (pi : K) (z : Args n K) (g : Grid K) : Buf n K :=
  sweep (T exp z g) (fun j k => beam pi z g j * E exp z g j k * z.P0pm (g.index j) k)
    (fun j k => beam pi z g j * E exp z g j k * z.P0mm (g.index j) k) g.N z.Inp z.I1m

/-- 334-341. -/
def share (z : Args n K) (g : Grid K) (j : Nat) : V n K := fun k =>
  ((1 + (if z.first then 1 else 0)) / 4 / 2 * z.omega (g.index j)) * z.qw k

/-- 343. -/
def rp (z : Args n K) (g : Grid K) (j : Nat) : M n K := Matrix.of fun a b => z.Pmp (g.index j) a b * share z g j b

/-- 345. -/
def tp (z : Args n K) (g : Grid K) (j : Nat) : M n K := Matrix.of fun a b => z.Ppp (g.index j) a b * share z g j b

/-- 306-307, 366. -/
def rm (z : Args n K) (g : Grid K) (j : Nat) : M n K :=
  if z.vector then Matrix.of fun a b => z.Ppm (g.index j) a b * share z g j b else rp z g j

/-- 308, 368. -/
def tm (z : Args n K) (g : Grid K) (j : Nat) : M n K :=
  if z.vector then Matrix.of fun a b => z.Pmm (g.index j) a b * share z g j b else tp z g j

/-- 418-426: what piece `j` adds to the light upwards, from the order in the other buffer. -/
def addUp (exp : K → K) (z : Args n K) (g : Grid K) (o : Buf n K) (j : Nat) : V n K := fun k =>
  E exp z g j k *
    ((tp z g j).mulVec (o.ip j + o.ip (j + 1)) k + (rm z g j).mulVec (o.im j + o.im (j + 1)) k)

/-- 477-485. -/
def addDn (exp : K → K) (z : Args n K) (g : Grid K) (o : Buf n K) (j : Nat) : V n K := fun k =>
  E exp z g j k *
    ((rp z g j).mulVec (o.ip j + o.ip (j + 1)) k + (tm z g j).mulVec (o.im j + o.im (j + 1)) k)

/-- 398-404, 470 and the sweeps: one order from the one before. -/
def next (exp : K → K) (z : Args n K) (g : Grid K) (o : Buf n K) : Buf n K :=
  sweep (T exp z g) (addUp exp z g o) (addDn exp z g o) g.N
    (if z.surface then z.Rs.mulVec (o.im g.N) else 0) z.I1m

/-- 452, 456-457. -/
def larger (v : V n K) (b : Option K) (i : Fin n) : Option K :=
  match b with
  | none => some (v i)
  | some b => some (if b < v i then v i else b)

/-- 452-459, 511-518: the largest of the first Stokes parameters, `none` where there is no component. -/
def largest (ns : Nat) (v : V n K) : Option K :=
  ((List.finRange n).filter fun i => i.val % ns = 0).foldl (larger v) none

/-- 520: `none` stands for `DBL_MAX` on the left, and for no component on the right. -/
def least (a b c : Option K) : Option K :=
  match b, c with
  | some b, some c => some (match a with | none => max b c | some a => min a (max b c))
  | _, _ => a

/-- The state of the loop, 394-396: the two buffers, the one to be written, the smallest measure so far, and the
sums `I_p[0]`, `I_m[i_last_ulevel]`. -/
structure Run (n : Nat) (K : Type) where
  buf : Bool → Buf n K
  i : Bool
  a : Option K
  Ip : V n K
  Im : V n K

/-- 398-529: the body of the loop but for 531-534. -/
def body (exp : K → K) (z : Args n K) (g : Grid K) (s : Run n K) : Run n K :=
  let o := next exp z g (s.buf (!s.i))
  { s with
    buf := fun c => if c = s.i then o else s.buf c
    a := least s.a (largest z.ns (o.ip 0)) (largest z.ns (o.im g.N))
    Ip := s.Ip + o.ip 0
    Im := s.Im + o.im g.N }

/-- 531. -/
def stop (tol : K) (a : Option K) : Bool :=
  match a with
  | none => false
  | some a => decide (a < tol)

/-- 397-535, with `m` orders left. -/
def loop (exp : K → K) (z : Args n K) (g : Grid K) : Nat → Run n K → Run n K
  | 0, s => s
  | m + 1, s =>
    let s := body exp z g s
    if stop z.tol s.a then s else loop exp z g m { s with i := !s.i }

/-- 240-298, 394-396: the state before the loop. -/
def start (exp : K → K) (pi : K) (z : Args n K) (g : Grid K) : Run n K where
  buf c := if c then ⟨0, 0⟩ else first exp pi z g
  i := true
  a := none
  Ip := (first exp pi z g).ip 0
  Im := (first exp pi z g).im g.N

/-- The whole routine. -/
def run (exp : K → K) (pi : K) (z : Args n K) : Run n K :=
  let g := grid exp z
  loop exp z g (z.maxOs - 1) (start exp pi z g)

/-- The output at level `lev`, zero or `L`, 224-227, 265-266, 294-295, 460-466, 521-527. -/
def outUp (exp : K → K) (pi : K) (z : Args n K) (lev : Nat) : V n K := if lev = 0 then (run exp pi z).Ip else 0

def outDn (exp : K → K) (pi : K) (z : Args n K) (lev : Nat) : V n K := if lev = z.L then (run exp pi z).Im else 0

/-! ## One derivative -/

/-- The arguments `_l` of one derivative, and its flags `derivs->layers`. -/
structure Lin (n : Nat) (K : Type) where
  omega : Nat → K
  ltau : Nat → K
  btran : Nat → K
  as0 : Nat → K
  P0mm : Nat → V n K
  P0pm : Nat → V n K
  Ppp : Nat → M n K
  Pmp : Nat → M n K
  Pmm : Nat → M n K
  Ppm : Nat → M n K
  Rs : M n K
  I1m : V n K
  Inp : V n K
  layers : Nat → Bool

/-- 152-163: `ltau_l2`, `btran_l2` of the pieces of layer `i`. -/
def cutL (exp : K → K) (z : Args n K) (l : Lin n K) (i : Nat) : List (Piece K) :=
  let m := pieces z.maxTau (z.ltau i)
  let a := z.ltau i / m
  let al := l.ltau i / m
  (List.range m).map fun j : Nat =>
    ⟨i, al, (l.btran i + z.btran i * (j : K) * (-al * z.as0 i - a * l.as0 i)) * exp ((j : K) * -a * z.as0 i)⟩

/-- 143-170. -/
def cutsL (exp : K → K) (z : Args n K) (l : Lin n K) : List (Piece K) := (List.range z.L).flatMap (cutL exp z l)

def gridL (exp : K → K) (z : Args n K) (l : Lin n K) : Grid K where
  N := (cutsL exp z l).length
  index j := ((cutsL exp z l)[j]?.map Piece.index).getD 0
  ltau j := ((cutsL exp z l)[j]?.map Piece.ltau).getD 0
  btran j := ((cutsL exp z l)[j]?.map Piece.btran).getD (l.btran z.L)

/-- 212. -/
def W (exp : K → K) (z : Args n K) (g gl : Grid K) (j : Nat) : V n K := fun k =>
  -gl.ltau j / z.qx k * T exp z g j k

/-- 213. -/
def F (exp : K → K) (z : Args n K) (g gl : Grid K) (j : Nat) : V n K := fun k => -W exp z g gl j k

/-- 254-263, 428-449: the loops upwards of the derivative, beside those of the values. -/
def riseL (T W q ql : Nat → V n K) (N : Nat) (bot botl : V n K) : Nat → V n K
  | 0 => botl
  | d + 1 => fun k => W (N - 1 - d) k * rise T q N bot d k + T (N - 1 - d) k * riseL T W q ql N bot botl d k +
      ql (N - 1 - d) k

/-- 283-292, 487-508. -/
def fallL (T W q ql : Nat → V n K) (top topl : V n K) : Nat → V n K
  | 0 => topl
  | j + 1 => fun k => W j k * fall T q top j k + T j k * fallL T W q ql top topl j k + ql j k

def sweepL (T W qp qm qpl qml : Nat → V n K) (N : Nat) (bot top botl topl : V n K) : Buf n K :=
  ⟨fun j => riseL T W qp qpl N bot botl (N - j), fallL T W qm qml top topl⟩

/-- 255, 284. -/
def beamL (pi : K) (z : Args n K) (l : Lin n K) (g gl : Grid K) (j : Nat) : K :=
  z.F0 / (4 * pi) / 2 * (l.omega (g.index j) * (g.btran j + g.btran (j + 1)) +
    z.omega (g.index j) * (gl.btran j + gl.btran (j + 1)))

/-- 258-261, 287-290: what is added, for the phase vector `P` and its derivative. -/
def firstL1 (exp : K → K) (pi : K) (z : Args n K) (l : Lin n K) (g gl : Grid K) (P Pl : Nat → V n K) (j : Nat) :
    V n K := fun k =>
  (beamL pi z l g gl j * E exp z g j k + beam pi z g j * F exp z g gl j k) * P (g.index j) k +
    (if l.layers (g.index j) then beam pi z g j * E exp z g j k * Pl (g.index j) k else 0)

/-- 240-297. -/
def firstL (exp : K → K) (pi : K) (z : Args n K) (l : Lin n K) (g gl : Grid K) : Buf n K :=
  sweepL (T exp z g) (W exp z g gl) (fun j k => beam pi z g j * E exp z g j k * z.P0pm (g.index j) k)
    (fun j k => beam pi z g j * E exp z g j k * z.P0mm (g.index j) k)
    (firstL1 exp pi z l g gl z.P0pm l.P0pm) (firstL1 exp pi z l g gl z.P0mm l.P0mm) g.N z.Inp z.I1m l.Inp l.I1m

/-- 348-350. -/
def shareL (z : Args n K) (l : Lin n K) (g : Grid K) (j : Nat) : V n K := fun k =>
  ((1 + (if z.first then 1 else 0)) / 4 / 2 * l.omega (g.index j)) * z.qw k

/-- 352-362, 371-385: for the phase matrix `P` and its derivative. -/
def matL (z : Args n K) (l : Lin n K) (g : Grid K) (P Pl : Nat → M n K) (j : Nat) : M n K := Matrix.of fun a b =>
  P (g.index j) a b * shareL z l g j b +
    (if l.layers (g.index j) then Pl (g.index j) a b * share z g j b else 0)

def rpL (z : Args n K) (l : Lin n K) (g : Grid K) : Nat → M n K := matL z l g z.Pmp l.Pmp
def tpL (z : Args n K) (l : Lin n K) (g : Grid K) : Nat → M n K := matL z l g z.Ppp l.Ppp
def rmL (z : Args n K) (l : Lin n K) (g : Grid K) : Nat → M n K :=
  if z.vector then matL z l g z.Ppm l.Ppm else rpL z l g
def tmL (z : Args n K) (l : Lin n K) (g : Grid K) : Nat → M n K :=
  if z.vector then matL z l g z.Pmm l.Pmm else tpL z l g

/-- 433-448. -/
def addUpL (exp : K → K) (z : Args n K) (l : Lin n K) (g gl : Grid K) (o ol : Buf n K) (j : Nat) : V n K := fun k =>
  F exp z g gl j k *
      ((tp z g j).mulVec (o.ip j + o.ip (j + 1)) k + (rm z g j).mulVec (o.im j + o.im (j + 1)) k) +
    E exp z g j k *
      ((tpL z l g j).mulVec (o.ip j + o.ip (j + 1)) k + (tp z g j).mulVec (ol.ip j + ol.ip (j + 1)) k +
        (rmL z l g j).mulVec (o.im j + o.im (j + 1)) k + (rm z g j).mulVec (ol.im j + ol.im (j + 1)) k)

/-- 492-507. -/
def addDnL (exp : K → K) (z : Args n K) (l : Lin n K) (g gl : Grid K) (o ol : Buf n K) (j : Nat) : V n K := fun k =>
  F exp z g gl j k *
      ((rp z g j).mulVec (o.ip j + o.ip (j + 1)) k + (tm z g j).mulVec (o.im j + o.im (j + 1)) k) +
    E exp z g j k *
      ((rpL z l g j).mulVec (o.ip j + o.ip (j + 1)) k + (rp z g j).mulVec (ol.ip j + ol.ip (j + 1)) k +
        (tmL z l g j).mulVec (o.im j + o.im (j + 1)) k + (tm z g j).mulVec (ol.im j + ol.im (j + 1)) k)

/-- 400-411: the light at the ground. -/
def groundL (z : Args n K) (l : Lin n K) (g : Grid K) (o ol : Buf n K) : V n K :=
  if z.surface then
    z.Rs.mulVec (ol.im g.N) + (if l.layers z.L then l.Rs.mulVec (o.im g.N) else 0)
  else 0

/-- One order of the derivative from the one before. -/
def nextL (exp : K → K) (z : Args n K) (l : Lin n K) (g gl : Grid K) (o ol : Buf n K) : Buf n K :=
  sweepL (T exp z g) (W exp z g gl) (addUp exp z g o) (addDn exp z g o) (addUpL exp z l g gl o ol)
    (addDnL exp z l g gl o ol) g.N (if z.surface then z.Rs.mulVec (o.im g.N) else 0) z.I1m (groundL z l g o ol) l.I1m

/-- The loop for values and derivative together; the derivative does not take part in 531. -/
structure RunL (n : Nat) (K : Type) where
  val : Run n K
  bufL : Bool → Buf n K
  IpL : V n K
  ImL : V n K

def bodyL (exp : K → K) (z : Args n K) (l : Lin n K) (g gl : Grid K) (s : RunL n K) : RunL n K :=
  let ol := nextL exp z l g gl (s.val.buf (!s.val.i)) (s.bufL (!s.val.i))
  ⟨body exp z g s.val, fun c => if c = s.val.i then ol else s.bufL c, s.IpL + ol.ip 0, s.ImL + ol.im g.N⟩

def loopL (exp : K → K) (z : Args n K) (l : Lin n K) (g gl : Grid K) : Nat → RunL n K → RunL n K
  | 0, s => s
  | m + 1, s =>
    let s := bodyL exp z l g gl s
    if stop z.tol s.val.a then s else loopL exp z l g gl m { s with val := { s.val with i := !s.val.i } }

def startL (exp : K → K) (pi : K) (z : Args n K) (l : Lin n K) (g gl : Grid K) : RunL n K where
  val := start exp pi z g
  bufL c := if c then ⟨0, 0⟩ else firstL exp pi z l g gl
  IpL := (firstL exp pi z l g gl).ip 0
  ImL := (firstL exp pi z l g gl).im g.N

def runL (exp : K → K) (pi : K) (z : Args n K) (l : Lin n K) : RunL n K :=
  let g := grid exp z
  loopL exp z l g (gridL exp z l) (z.maxOs - 1) (startL exp pi z l g (gridL exp z l))

end Xrtm.Sos
