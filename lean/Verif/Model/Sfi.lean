import Verif.Model.Bvp

/-!
# The source function integration: radiances in further directions

src/xrtm_sfi_x.c:1-153, 283-1514, src/sfi_block.h, src/xrtm_eig_bvp.c:783-999.

`K` is the real numbers for `sfi_up`, `sfi_dn` and the complex numbers for
`sfi_up2`, `sfi_dn2`; the two are one text included twice.  In the first the signs
of the third and fourth Stokes parameters are not turned, there `ns` is one.  One
direction and one parameter to be differentiated by at a time: the loops over them
are independent but for the emission of the ground, where it is kept.  A value that
is divided by zero in the code is `none` here, and with it all that is made of it.
The beam by Green's functions (155-280) is not here.
-/

namespace Xrtm.Sfi
open Xrtm.Loops Xrtm.Eig Xrtm.Bvp

variable {n m : Nat} {K : Type} [RCLike K]

/-- What all directions share. -/
structure Env (n : Nat) (K : Type) where
  z : Inp n K
  first : Bool
  w : Source.V n
  F0 : ℝ
  om : Nat → ℝ
  as0 : Nat → ℝ
  btran : Nat → ℝ
  pd0 : Nat → ℝ
  pd1 : Nat → ℝ
  At0p : Nat → Source.V n
  At0m : Nat → Source.V n
  At1p : Nat → Source.V n
  At1m : Nat → Source.V n
  single : Bool

/-- What belongs to a direction in a layer: `P_uq_pp`, `P_uq_mp` and `P_u0_pm` as they
are passed to `SFI_LAYER`. -/
structure Row (n : Nat) where
  pp : Source.V n
  mp : Source.V n
  p0 : ℝ

variable (ex : K → K) (e : Env n K) (down : Bool) (mu : ℝ)

/-- `A`, src/xrtm_sfi_x.c:594-596. -/
noncomputable def wts (j : Fin n) : ℝ := (1 + if e.first then 1 else 0) / 4 * e.w j

/-- `e1`, src/xrtm_sfi_x.c:599-604. -/
noncomputable def e1 (T t : ℝ) : ℝ := if !down then Real.exp (-(T - t) / mu) else Real.exp (-t / mu)

/-- `e3`, `e4`, `e5`, src/xrtm_sfi_x.c:639-643. -/
def e3 (i : Nat) (t : ℝ) (k : Fin n) : K := ex (-(e.z.m i).nu k * (t : K))
def e4 (i : Nat) (k : Fin n) : K := ex (-(e.z.m i).nu k * (e.z.ltau i : K))
def e5 (i : Nat) (t : ℝ) (k : Fin n) : K := ex (-(e.z.m i).nu k * ((e.z.ltau i - t : ℝ) : K))

/-- `Xu_p`, `Xu_m`, src/xrtm_sfi_x.c:644-678. -/
noncomputable def xuP (r : Row n) (i : Nat) (k : Fin n) : K :=
  ∑ j, (r.pp j : K) * ((wts e j : K) * (e.z.m i).Xp j k) - ∑ j, (r.mp j : K) * ((wts e j : K) * (e.z.m i).Xm j k)
noncomputable def xuM (r : Row n) (i : Nat) (k : Fin n) : K :=
  ∑ j, (r.pp j : K) * ((wts e j : K) * (e.z.m i).Xm j k) - ∑ j, (r.mp j : K) * ((wts e j : K) * (e.z.m i).Xp j k)

/-- `Eu_p`, `Eu_m`, src/xrtm_sfi_x.c:746-759. -/
noncomputable def euP (i : Nat) (t : ℝ) (k : Fin n) : K :=
  if !down then (e3 ex e i t k - e4 ex e i k * (e1 down mu (e.z.ltau i) t : K)) / (1 + (mu : K) * (e.z.m i).nu k)
  else (e3 ex e i t k - (e1 down mu (e.z.ltau i) t : K)) / (1 - (mu : K) * (e.z.m i).nu k)
noncomputable def euM (i : Nat) (t : ℝ) (k : Fin n) : K :=
  if !down then (e5 ex e i t k - (e1 down mu (e.z.ltau i) t : K)) / (1 - (mu : K) * (e.z.m i).nu k)
  else (e5 ex e i t k - e4 ex e i k * (e1 down mu (e.z.ltau i) t : K)) / (1 + (mu : K) * (e.z.m i).nu k)

/-- `u1` of the beam, src/xrtm_sfi_x.c:74-86. -/
noncomputable def beamIn (r : Row n) (i : Nat) : ℝ :=
  ∑ j, r.pp j * (wts e j * e.z.Fsp i j) + ∑ j, r.mp j * (wts e j * e.z.Fsm i j) +
    if e.single then e.btran i * (e.F0 / (4 * Real.pi)) * r.p0 else 0

/-- `Fu_0`, src/xrtm_sfi_x.c:87. -/
noncomputable def fu0 (r : Row n) (i : Nat) : ℝ := e.om i * beamIn e r i

/-- `e2`, src/xrtm_sfi_x.c:684. -/
noncomputable def e2 (i : Nat) (t : ℝ) : ℝ := Real.exp (-t * e.as0 i)

/-- `Eu_0`, src/xrtm_sfi_x.c:90-95. -/
noncomputable def eu0 (i : Nat) (t : ℝ) : ℝ :=
  if !down then (e2 e i t - e.z.atran i * e1 down mu (e.z.ltau i) t) / (1 + mu * e.as0 i)
  else (e2 e i t - e1 down mu (e.z.ltau i) t) / (1 - mu * e.as0 i)

/-- `u21`, src/xrtm_sfi_x.c:362-367. -/
def u21 (r : Row n) (p q : Source.V n) : ℝ := ∑ j, r.pp j * (e.w j * p j) + ∑ j, r.mp j * (e.w j * q j)

/-- `u22`, src/xrtm_sfi_x.c:369-377. -/
noncomputable def u22 (r : Row n) (i : Nat) (p q : Source.V n) (pd : ℝ) : ℝ :=
  1 / 2 * e.om i * u21 e r p q + (1 - e.om i) * pd

/-- `tau0` and `umus_sign`, src/xrtm_sfi_x.c:351-358. -/
def tau0 (T : ℝ) : ℝ := if !down then T else 0
def sgn : ℝ := if !down then 1 else -1

/-- `u24[0]`, `u24[1]`, src/xrtm_sfi_x.c:379-382. -/
noncomputable def u240 (i : Nat) (t : ℝ) : ℝ := 1 - e1 down mu (e.z.ltau i) t
noncomputable def u241 (i : Nat) (t : ℝ) : ℝ :=
  t - tau0 down (e.z.ltau i) * e1 down mu (e.z.ltau i) t + 1 * sgn down * mu * u240 e down mu i t

/-- `SFI_SOURCE_THERMAL`, src/xrtm_sfi_x.c:360-386. -/
noncomputable def heat (r : Row n) (i : Nat) (t : ℝ) : ℝ :=
  u22 e r i (e.At0p i) (e.At0m i) (e.pd0 i) * u240 e down mu i t +
    u22 e r i (e.At1p i) (e.At1m i) (e.pd1 i) * u241 e down mu i t

/-- `SFI_LAYER`, src/xrtm_sfi_x.c:472-880, where all is a number: the light at the depth
`t` in the layer `i` of the light `I0` where it comes in. -/
noncomputable def value (B : Nat → K) (r : Row n) (i : Nat) (t I0 : ℝ) : ℝ :=
  let ii := i * n * 2
  I0 * e1 down mu (e.z.ltau i) t + (if e.z.solar then fu0 e r i * eu0 e down mu i t else 0) +
    (if e.z.thermal && e.first then heat e down mu r i t else 0) +
    ∑ k : Fin n, e.om i * RCLike.re (B (ii + k) * xuP e r i k * euP ex e down mu i t k +
      B (ii + k + n) * xuM e r i k * euM ex e down mu i t k)

/-- Nothing is divided by zero. -/
def Safe (i : Nat) : Prop :=
  mu ≠ 0 ∧ (∀ k : Fin n, 1 + (mu : K) * (e.z.m i).nu k ≠ 0 ∧ 1 - (mu : K) * (e.z.m i).nu k ≠ 0) ∧
    (e.z.solar = true → if !down then 1 + mu * e.as0 i ≠ 0 else 1 - mu * e.as0 i ≠ 0)

open Classical in
/-- `SFI_LAYER`. -/
noncomputable def layer (B : Nat → K) (r : Row n) (i : Nat) (t : ℝ) (I0 : Option ℝ) : Option ℝ :=
  I0.bind fun I0 => if Safe e down mu i then some (value ex e down mu B r i t I0) else none

/-! ## Where the light starts -/

/-- What the directions have of the ground and the sky. -/
structure Ends (m n : Nat) where
  isoTop : ℝ
  isoBot : ℝ
  qf : ℝ
  mu0 : ℝ
  glow : ℝ
  Rsq : Matrix (Fin m) (Fin n) ℝ
  Rs0 : Fin m → ℝ

/-- `a` in the loop over the directions, src/xrtm_sfi_x.c:1264-1269: the part of the ground
that reflects. -/
def refl (ns : Nat) (g : Ends m n) (u : Fin m) : ℝ := ∑ j : Fin n, if j.val % ns = 0 then g.Rsq u j else 0

/-- `I_0` of `SFI_UP`, src/xrtm_sfi_x.c:1176-1273; `Im` is the light down on the ground. -/
noncomputable def startUp (ns : Nat) (g : Ends m n) (Im : Source.V n) (u : Fin m) : ℝ :=
  (if e.first ∧ u.val % ns = 0 then g.isoBot else 0) +
    (if e.z.surface then ∑ j, g.Rsq u j * Im j else 0) +
    (if e.z.surface && e.z.solar && e.single then
      g.qf * g.mu0 * e.F0 / Real.pi * e.btran e.z.L * g.Rs0 u else 0) +
    if (e.z.surface && e.z.thermal && e.first) = true ∧ u.val % ns = 0 then g.glow * (1 - refl ns g u) else 0

/-- `I_0` of `SFI_DN`, src/xrtm_sfi_x.c:1418-1444. -/
def startDn (ns : Nat) (g : Ends m n) (u : Fin m) : ℝ := if e.first ∧ u.val % ns = 0 then g.isoTop else 0

/-! ## The sweep -/

/-- The running light `I_0`, the array of the outputs, and `i_out_level`. -/
structure St (σ : Type) where
  cur : σ
  out : Nat → Option σ
  io : Int

variable {σ : Type} (taus : Bool) (nU : Nat) (ulev : Nat → Nat) (utau : Nat → ℝ) (step : Nat → ℝ → σ → σ)

/-- `ulevels[i_out_level]`; `none` is a read outside of the array. -/
def rd (io : Int) : Option Nat := if 0 ≤ io ∧ io < nU then some (ulev io.toNat) else none

/-- `inc`. -/
def inc : Int := if !down then -1 else 1

/-- `I_u[i_out_level] = x; i_out_level += inc`. -/
def St.emit (s : St σ) (x : σ) : St σ :=
  ⟨s.cur, fun j => if (j : Int) = s.io then some x else s.out j, s.io + inc down⟩

/-- The output before the loop, src/xrtm_sfi_x.c:974-985. -/
noncomputable def before (L : Nat) (s : St σ) : Option (St σ) :=
  match rd nU ulev s.io with
  | none => none
  | some v =>
    if (if !down then (if !taus then decide (L = v) else decide (L = v ∧ utau s.io.toNat = 0))
        else (if !taus then decide (0 = v) else decide (0 = v ∧ utau s.io.toNat = 0))) = true
    then some (s.emit down s.cur) else some s

/-- The `while` loop, src/xrtm_sfi_x.c:996-1011; `fuel` bounds its turns. -/
def inside (i : Nat) : Nat → St σ → St σ
  | 0, s => s
  | fuel + 1, s =>
    match rd nU ulev s.io with
    | none => s
    | some v => if i = v then inside i fuel (s.emit down (step i (utau s.io.toNat) s.cur)) else s

/-- One layer, src/xrtm_sfi_x.c:995-1041. -/
def body (T : Nat → ℝ) (i : Nat) (s : St σ) : Option (St σ) :=
  let s' : Option (St σ) :=
    if taus then
      match rd nU ulev s.io with
      | none => none
      | some v => if i = v then some (inside down nU ulev utau step i (nU + 1) s) else some s
    else some s
  s'.bind fun s =>
    let s : St σ := ⟨step i (if !down then 0 else T i) s.cur, s.out, s.io⟩
    if taus then some s
    else
      match rd nU ulev s.io with
      | none => none
      | some v => if (if !down then i else i + 1) = v then some (s.emit down s.cur) else some s

/-- The first turns of the loop, src/xrtm_sfi_x.c:993. -/
def loop (L : Nat) (T : Nat → ℝ) : Nat → St σ → Option (St σ)
  | 0, s => some s
  | c + 1, s => (loop L T c s).bind (body down taus nU ulev utau step T (if !down then L - 1 - c else c))

/-- How often it turns: from `i1` to `i2`, src/xrtm_sfi_x.c:941-955. -/
def turns (L : Nat) : Nat :=
  if !down then L - ulev 0 else if !taus then ulev (nU - 1) else ulev (nU - 1) + 1

/-- `SFI`, src/xrtm_sfi_x.c:886-1105: what is written to the outputs; `none` if a read
leaves `ulevels`. -/
noncomputable def sweep (L : Nat) (T : Nat → ℝ) (start : σ) : Option (Nat → Option σ) :=
  ((before down taus nU ulev utau L ⟨start, fun _ => none, if !down then nU - 1 else 0⟩).bind
    (loop down taus nU ulev utau step L T (turns down taus nU ulev L))).map St.out

/-! ## All of it -/

/-- The matrices and vectors of the further directions. -/
structure Dirs (m n : Nat) where
  mu : Fin m → ℝ
  Ppp : Nat → Matrix (Fin m) (Fin n) ℝ
  Pmp : Nat → Matrix (Fin m) (Fin n) ℝ
  P0pm : Nat → Fin m → ℝ
  P0mm : Nat → Fin m → ℝ

/-- Minus for the third and fourth Stokes parameter. -/
def flip (ns : Nat) (u : Fin m) (a : ℝ) : ℝ := if 2 ≤ u.val % ns then -a else a

/-- What `SFI_UP` passes on, src/xrtm_sfi_x.c:1285-1338. -/
def rowUp (ns : Nat) (d : Dirs m n) (u : Fin m) (i : Nat) : Row n :=
  ⟨d.Ppp i u, fun j => flip ns u (d.Pmp i u j), d.P0pm i u⟩

/-- What `SFI_DN` passes on, src/xrtm_sfi_x.c:1434-1492. -/
def rowDn (ns : Nat) (d : Dirs m n) (u : Fin m) (i : Nat) : Row n :=
  ⟨fun j => flip ns u (d.Pmp i u j), d.Ppp i u, flip ns u (d.P0mm i u)⟩

/-- `sfi_up` for the unknowns `B`, with the light on the ground of
src/xrtm_eig_bvp.c:791-822. -/
noncomputable def up (ns : Nat) (d : Dirs m n) (g : Ends m n) (B : Nat → K) (u : Fin m) :
    Option (Nat → Option (Option ℝ)) :=
  sweep false taus nU ulev utau (fun i t => layer ex e false (d.mu u) B (rowUp ns d u i) i t) e.z.L e.z.ltau
    (some (startUp e ns g (Bvp.level ex e.z B e.z.L).2 u))

/-- `sfi_dn`, and the turning back of src/xrtm_eig_bvp.c:988-999. -/
noncomputable def dn (ns : Nat) (d : Dirs m n) (g : Ends m n) (B : Nat → K) (u : Fin m) :
    Option (Nat → Option (Option ℝ)) :=
  (sweep true taus nU ulev utau (fun i t => layer ex e true (d.mu u) B (rowDn ns d u i) i t) e.z.L e.z.ltau
    (some (startDn e ns g u))).map fun o j => (o j).map fun x => x.map (flip ns u)

/-! ## Derivatives -/

variable (e' : Env n K) (fl : Flags)

/-- `ptau_l`, src/xrtm_sfi_x.c:608. -/
noncomputable def tL (i : Nat) (t : ℝ) : ℝ := t * e'.z.ltau i / e.z.ltau i

/-- `e1_l`, src/xrtm_sfi_x.c:610-615. -/
noncomputable def e1L (i : Nat) (t : ℝ) : ℝ :=
  if !down then -(e'.z.ltau i - tL e e' i t) / mu * e1 down mu (e.z.ltau i) t
  else -tL e e' i t / mu * e1 down mu (e.z.ltau i) t

/-- `e3_l`, `e4_l`, `e5_l`, src/xrtm_sfi_x.c:830-834. -/
noncomputable def e3L (i : Nat) (t : ℝ) (k : Fin n) : K :=
  (-(e'.z.m i).nu k * (t : K) - (e.z.m i).nu k * (tL e e' i t : K)) * e3 ex e i t k
noncomputable def e4L (i : Nat) (k : Fin n) : K :=
  (-(e'.z.m i).nu k * (e.z.ltau i : K) - (e.z.m i).nu k * (e'.z.ltau i : K)) * e4 ex e i k
noncomputable def e5L (i : Nat) (t : ℝ) (k : Fin n) : K :=
  (-(e'.z.m i).nu k * ((e.z.ltau i - t : ℝ) : K) -
    (e.z.m i).nu k * ((e'.z.ltau i - tL e e' i t : ℝ) : K)) * e5 ex e i t k

/-- `Xu_p_l`, `Xu_m_l`, src/xrtm_sfi_x.c:763-829. -/
noncomputable def xuPL (r r' : Row n) (i : Nat) (k : Fin n) : K :=
  ∑ j, (r'.pp j : K) * ((wts e j : K) * (e.z.m i).Xp j k) - ∑ j, (r'.mp j : K) * ((wts e j : K) * (e.z.m i).Xm j k) +
    ∑ j, (r.pp j : K) * ((wts e j : K) * (e'.z.m i).Xp j k) - ∑ j, (r.mp j : K) * ((wts e j : K) * (e'.z.m i).Xm j k)
noncomputable def xuML (r r' : Row n) (i : Nat) (k : Fin n) : K :=
  ∑ j, (r'.pp j : K) * ((wts e j : K) * (e.z.m i).Xm j k) - ∑ j, (r'.mp j : K) * ((wts e j : K) * (e.z.m i).Xp j k) +
    ∑ j, (r.pp j : K) * ((wts e j : K) * (e'.z.m i).Xm j k) - ∑ j, (r.mp j : K) * ((wts e j : K) * (e'.z.m i).Xp j k)

/-- `Eu_p_l`, `Eu_m_l`, src/xrtm_sfi_x.c:854-865 (843-852 is the same). -/
noncomputable def euPL (i : Nat) (t : ℝ) (k : Fin n) : K :=
  let x1 : K := (mu : K) * (e.z.m i).nu k
  let x1' : K := (mu : K) * (e'.z.m i).nu k
  if !down then
    ((e3L ex e e' i t k - (e4L ex e e' i k * (e1 down mu (e.z.ltau i) t : K) + e4 ex e i k * (e1L e down mu e' i t : K))) +
      euP ex e down mu i t k * -x1') / (1 + x1)
  else ((e3L ex e e' i t k - (e1L e down mu e' i t : K)) + euP ex e down mu i t k * x1') / (1 - x1)
noncomputable def euML (i : Nat) (t : ℝ) (k : Fin n) : K :=
  let x1 : K := (mu : K) * (e.z.m i).nu k
  let x1' : K := (mu : K) * (e'.z.m i).nu k
  if !down then ((e5L ex e e' i t k - (e1L e down mu e' i t : K)) + euM ex e down mu i t k * x1') / (1 - x1)
  else
    ((e5L ex e e' i t k - (e4L ex e e' i k * (e1 down mu (e.z.ltau i) t : K) + e4 ex e i k * (e1L e down mu e' i t : K))) +
      euM ex e down mu i t k * -x1') / (1 + x1)

/-- `Fu_0_l`, src/xrtm_sfi_x.c:97-129. -/
noncomputable def fu0L (r r' : Row n) (i : Nat) : ℝ :=
  (if fl.lay i then e'.om i * beamIn e r i + e.om i * (∑ j, r'.pp j * (wts e j * e.z.Fsp i j) +
      ∑ j, r'.mp j * (wts e j * e.z.Fsm i j) +
      if e.single then e.btran i * (e.F0 / (4 * Real.pi)) * r'.p0 else 0) else 0) +
    if fl.beam i then e.om i * (∑ j, r.pp j * (wts e j * e'.z.Fsp i j) + ∑ j, r.mp j * (wts e j * e'.z.Fsm i j) +
      if e.single then e'.btran i * (e.F0 / (4 * Real.pi)) * r.p0 else 0) else 0

/-- `Eu_0_l`, src/xrtm_sfi_x.c:131-142. -/
noncomputable def eu0L (i : Nat) (t : ℝ) : ℝ :=
  let e2' := (-tL e e' i t * e.as0 i - t * e'.as0 i) * e2 e i t
  if !down then
    ((e2' - e'.z.atran i * e1 down mu (e.z.ltau i) t - e.z.atran i * e1L e down mu e' i t) -
      eu0 e down mu i t * (mu * e'.as0 i)) / (1 + mu * e.as0 i)
  else ((e2' - e1L e down mu e' i t) - eu0 e down mu i t * (-mu * e'.as0 i)) / (1 - mu * e.as0 i)

/-- The derivative of `u22`, src/xrtm_sfi_x.c:397-425 and 436. -/
noncomputable def u22L (r r' : Row n) (i : Nat) (p q p' q' : Source.V n) (pd pd' : ℝ) : ℝ :=
  1 / 2 * e.om i * ((if fl.lay i then ∑ j, r'.pp j * (e.w j * p j) else 0) +
      (if fl.heat i then ∑ j, r.pp j * (e.w j * p' j) else 0) +
      (if fl.lay i then ∑ j, r'.mp j * (e.w j * q j) else 0) +
      (if fl.heat i then ∑ j, r.mp j * (e.w j * q' j) else 0)) +
    1 / 2 * e'.om i * u21 e r p q + (if fl.heat i then -e'.om i * pd + (1 - e.om i) * pd' else 0)

/-- `u4`, src/xrtm_sfi_x.c:389-392, 427-444. -/
noncomputable def u40 (i : Nat) (t : ℝ) : ℝ := -e1L e down mu e' i t
noncomputable def u41 (i : Nat) (t : ℝ) : ℝ :=
  let t' := if !fl.lay i then 0 else tL e e' i t * 1
  let tau0' := (if !down then e'.z.ltau i else 0) * 1
  t' - tau0' * e1 down mu (e.z.ltau i) t - tau0 down (e.z.ltau i) * e1L e down mu e' i t +
    1 * sgn down * mu * u40 e down mu e' i t

/-- `u5`, src/xrtm_sfi_x.c:388-449. -/
noncomputable def heatL (r r' : Row n) (i : Nat) (t : ℝ) : ℝ :=
  u22L e e' fl r r' i (e.At0p i) (e.At0m i) (e'.At0p i) (e'.At0m i) (e.pd0 i) (e'.pd0 i) * u240 e down mu i t +
    (if fl.lay i then u22 e r i (e.At0p i) (e.At0m i) (e.pd0 i) * u40 e down mu e' i t else 0) +
    (u22L e e' fl r r' i (e.At1p i) (e.At1m i) (e'.At1p i) (e'.At1m i) (e.pd1 i) (e'.pd1 i) * u241 e down mu i t +
      if fl.lay i then u22 e r i (e.At1p i) (e.At1m i) (e.pd1 i) * u41 e down mu e' fl i t else 0)

/-- The derivative of `SFI_LAYER`, src/xrtm_sfi_x.c:606-630, 97-147, 761-872. -/
noncomputable def valueL (B B' : Nat → K) (r r' : Row n) (i : Nat) (t I0 I0' : ℝ) : ℝ :=
  let ii := i * n * 2
  I0' * e1 down mu (e.z.ltau i) t + (if fl.lay i then I0 * e1L e down mu e' i t else 0) +
    (if e.z.solar then (if fl.beam i then fu0L e e' fl r r' i * eu0 e down mu i t else 0) +
      if fl.lay i then fu0 e r i * eu0L e down mu e' i t else 0 else 0) +
    (if e.z.thermal && e.first then heatL e down mu e' fl r r' i t else 0) +
    ∑ k : Fin n,
      (e'.om i * RCLike.re (B (ii + k) * xuP e r i k * euP ex e down mu i t k +
          B (ii + k + n) * xuM e r i k * euM ex e down mu i t k) +
        e.om i * RCLike.re (B' (ii + k) * xuP e r i k * euP ex e down mu i t k +
          B' (ii + k + n) * xuM e r i k * euM ex e down mu i t k) +
        if fl.lay i then e.om i * RCLike.re (B (ii + k) * xuPL e e' r r' i k * euP ex e down mu i t k +
          B (ii + k) * xuP e r i k * euPL ex e down mu e' i t k +
          B (ii + k + n) * xuML e e' r r' i k * euM ex e down mu i t k +
          B (ii + k + n) * xuM e r i k * euML ex e down mu e' i t k) else 0)

/-- `I_0_l` of `SFI_UP`, src/xrtm_sfi_x.c:1179-1295; `a` is left from the last of the
directions. -/
noncomputable def startUpL (ns : Nat) (g g' : Ends m n) (Im Im' : Source.V n) (u : Fin m) (last : Fin m) : ℝ :=
  (if e.first ∧ u.val % ns = 0 then g'.isoBot else 0) +
    (if e.z.surface then (if fl.lay e.z.L then ∑ j, g'.Rsq u j * Im j else 0) + ∑ j, g.Rsq u j * Im' j else 0) +
    (if e.z.surface && e.z.solar && e.single then
      (if fl.lay e.z.L then g.qf * g.mu0 * e.F0 / Real.pi * e.btran e.z.L * g'.Rs0 u else 0) +
        (if fl.beam e.z.L then g.qf * g.mu0 * e.F0 / Real.pi * e'.btran e.z.L * g.Rs0 u else 0) else 0) +
    if (e.z.surface && e.z.thermal && e.first) = true ∧ u.val % ns = 0 then
      g'.glow * (1 - refl ns g last) + g.glow * -(if fl.lay e.z.L then refl ns g' u else 0) else 0

open Classical in
/-- `SFI_LAYER` with the derivative, src/xrtm_sfi_x.c:472-880: the light before it is kept
until the derivative is made. -/
noncomputable def layerD (B B' : Nat → K) (r r' : Row n) (i : Nat) (t : ℝ) (I0 : Option (ℝ × ℝ)) : Option (ℝ × ℝ) :=
  I0.bind fun I0 => if Safe e down mu i then
    some (value ex e down mu B r i t I0.1, valueL ex e down mu e' fl B B' r r' i t I0.1 I0.2) else none

/-- `sfi_up` with the derivative. -/
noncomputable def upD (ns : Nat) (d d' : Dirs m n) (g g' : Ends m n) (B B' : Nat → K) (u last : Fin m) :
    Option (Nat → Option (Option (ℝ × ℝ))) :=
  sweep false taus nU ulev utau
    (fun i t => layerD ex e false (d.mu u) e' fl B B' (rowUp ns d u i) (rowUp ns d' u i) i t) e.z.L e.z.ltau
    (some (startUp e ns g (Bvp.level ex e.z B e.z.L).2 u,
      startUpL e e' fl ns g g' (Bvp.level ex e.z B e.z.L).2 (Bvp.levelL ex e.z e'.z fl B B' e.z.L).2 u last))

/-- `sfi_dn` with the derivative, src/xrtm_sfi_x.c:1418-1444, and the turning back of
src/xrtm_eig_bvp.c:988-999. -/
noncomputable def dnD (ns : Nat) (d d' : Dirs m n) (g g' : Ends m n) (B B' : Nat → K) (u : Fin m) :
    Option (Nat → Option (Option (ℝ × ℝ))) :=
  (sweep true taus nU ulev utau
    (fun i t => layerD ex e true (d.mu u) e' fl B B' (rowDn ns d u i) (rowDn ns d' u i) i t) e.z.L e.z.ltau
    (some (startDn e ns g u, startDn e ns g' u))).map fun o j => (o j).map fun x =>
      x.map fun p => (flip ns u p.1, flip ns u p.2)

end Xrtm.Sfi
