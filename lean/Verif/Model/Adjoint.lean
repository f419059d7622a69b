import Verif.Model.Adding
import Verif.Model.Total

/-!
# The reverse-mode adding routines

`layer_add_ref_a` and `layer_add_all_a` (`src/xrtm_adding_a.c`) and their helpers: programs of matrix calls as in
`Model/Adding`, on a memory with one cell for every argument. Both callers (`src/xrtm_model_a.c:1401`, `1621`) pass
arrays that are all different (fields of a save record, and `get_work1` arrays), which is why arguments are named here
and not given by address. The factors `P`, `A`, `B`, `C` are the ones the forward routine saved
(`src/xrtm_adding.c:637-643`, `1584-1590`, `1690-1696`).

`d = false`: the first half (`31`) and `layer_add_ref_a`; `d = true`: the second half (`13`), for which the arguments
are exchanged (`12 ↔ 32`, `21 ↔ 23`, `13 ↔ 31`, lines 1017-1025).
-/

namespace Xrtm.Adjoint

open Mat Adding

/-- Matrix arrays. -/
inductive MC
  /-- The argument `R12`, ... -/
  | op (x : MArg)
  /-- Its adjoint `R12_a`, ... -/
  | adj (x : MArg)
  /-- `PXX`, `AXX`, `BXX` of the save record: `P13`, `A13`, `B31` of `layer_add_ref`, `P31`, `A31`, `B13` of the
  first and `P13`, `A13`, `B31` of the second half of `layer_add_all`. -/
  | P (d : Bool)
  | A (d : Bool)
  | B (d : Bool)
  /-- `w1`, `w2`, `w3`, `DXX`, `DXX_a`, `EXX_a`: arrays from `get_work1`. -/
  | w1 | w2 | w3 | D | Da | Ea
deriving DecidableEq

/-- Vector arrays. -/
inductive VC
  | op (x : VArg)
  | adj (x : VArg)
  /-- `CXX`. -/
  | C (d : Bool)
  | v1 | v2
deriving DecidableEq

structure AMem (n : Nat) (K : Type) where
  m : MC → M n K
  v : VC → V n K
  /-- `*atran_a`. -/
  tr : K

variable {K : Type} {n : Nat}

def AMem.setM (s : AMem n K) (c : MC) (x : M n K) : AMem n K := { s with m := fun c' => if c' = c then x else s.m c' }

def AMem.setV (s : AMem n K) (c : VC) (x : V n K) : AMem n K := { s with v := fun c' => if c' = c then x else s.v c' }

/-- The calls used, arguments in the order of the C calls. -/
inductive AInstr (K : Type)
  /-- `dmat_trans(a, c, n, n)`. -/
  | trans (a c : MC)
  /-- `dmat_mul(a, b, n, n, n, c)`. -/
  | mul (a b c : MC)
  /-- `dmat_gxgxmx(ta, a, tb, b, 1., c, acc, n, n, n)`: `c = a' b' + acc c`, `misc/gmatrix.h:438-530`, where `a'` is
  `a` or its transpose. `acc` is `1.` or `0.`. -/
  | gg (ta : Bool) (a : MC) (tb : Bool) (b c : MC) (acc : Bool)
  /-- `dmat_add(a, b, c, n, n)`. -/
  | add (a b c : MC)
  /-- `dmat_copy(c, a, n, n)`. -/
  | copy (c a : MC)
  /-- `dmat_zero(c, n, n)`. -/
  | zero (c : MC)
  /-- `dmat_getrs2('t', a, b, n, n, ipiv)`, `misc/gmatrix.h:1026-1037`: afterwards `aᵀ bᵀ` is the old `bᵀ`, that is
  `b` is multiplied by the inverse of `a` from the right. -/
  | getrsT (a b : MC)
  /-- `dm_v_mul(a, b, n, n, c)`. -/
  | mulV (a : MC) (b c : VC)
  /-- `dmat_gxvxmx(1, a, b, 1., c, acc, n, n)`: `c = aᵀ b + acc c`, 360-400. -/
  | gv (a : MC) (b c : VC) (acc : Bool)
  /-- `dvec_add(a, b, c, n)`. -/
  | addV (a b c : VC)
  /-- `dvec_scale(t, b, c, n)`. -/
  | scaleV (t : K) (b c : VC)
  /-- `dvec_zero(c, n)`. -/
  | zeroV (c : VC)
  /-- `dmat_vxvtmx(a, b, 1., c, 1., n, n)`: `c = a bᵀ + c`, 690-720. -/
  | outer (a b : VC) (c : MC)
  /-- `*atran_a += dvec_dot(a, b, n)`. -/
  | dot (a b : VC)

variable [CommRing K] (inv? : M n K → Option (M n K))

/-- A matrix or its transpose. -/
def tp (t : Bool) (a : M n K) : M n K := if t then a.transpose else a

/-- One call. A result that overlaps what is still read is a fault. -/
def step (s : AMem n K) : AInstr K → Except Fault (AMem n K)
  | .trans a c => if c = a then .error .overlap else .ok (s.setM c (s.m a).transpose)
  | .mul a b c => if c = a ∨ c = b then .error .overlap else .ok (s.setM c (s.m a * s.m b))
  | .gg ta a tb b c acc =>
      if c = a ∨ c = b then .error .overlap
      else .ok (s.setM c (tp ta (s.m a) * tp tb (s.m b) + if acc then s.m c else 0))
  | .add a b c => .ok (s.setM c (s.m a + s.m b))
  | .copy c a => .ok (s.setM c (s.m a))
  | .zero c => .ok (s.setM c 0)
  | .getrsT a b =>
      if a = b then .error .overlap else
      match inv? (s.m a) with
      | some x => .ok (s.setM b (s.m b * x))
      | none => .error .singular
  | .mulV a b c => if c = b then .error .overlap else .ok (s.setV c ((s.m a).mulVec (s.v b)))
  | .gv a b c acc =>
      if c = b then .error .overlap
      else .ok (s.setV c ((s.m a).transpose.mulVec (s.v b) + if acc then s.v c else 0))
  | .addV a b c => .ok (s.setV c (s.v a + s.v b))
  | .scaleV t b c => .ok (s.setV c (t • s.v b))
  | .zeroV c => .ok (s.setV c 0)
  | .outer a b c => .ok (s.setM c (Matrix.vecMulVec (s.v a) (s.v b) + s.m c))
  | .dot a b => .ok { s with tr := s.tr + s.v a ⬝ᵥ s.v b }

def run : List (AInstr K) → AMem n K → Except Fault (AMem n K)
  | [], s => .ok s
  | i :: is, s =>
      match step inv? s i with
      | .ok s' => run is s'
      | .error e => .error e

/-- How a half finds its arguments. -/
def ms (d : Bool) (x : MArg) : MArg := if d then x.swap else x
def vs (d : Bool) (x : VArg) : VArg := if d then x.swap else x

section helpers
variable (d : Bool) (t : K)

local notation "o" => fun x => MC.op (ms d x)
local notation "a" => fun x => MC.adj (ms d x)
local notation "ov" => fun x => VC.op (vs d x)
local notation "av" => fun x => VC.adj (vs d x)

/-- `add_ref_u_p_a`, `src/xrtm_adding_a.c:25-33`. -/
def refUPa : List (AInstr K) :=
  [.trans (.A d) .w1, .mulV .w1 (av .S31) .v1, .scaleV t .v1 .v1, .addV (av .S32) .v1 (av .S32), .zeroV (av .S31)]

/-- `add_ref_p_u_a`, 37-40. -/
def refPUa : List (AInstr K) := [.zeroV (av .S31)]

/-- `add_ref_p_p_a`, 44-59. -/
def refPPa : List (AInstr K) :=
  [.addV (av .S21) (av .S31) (av .S21), .trans (.A d) .w1, .mulV .w1 (av .S31) .v1, .scaleV t .v1 .v2,
   .addV (av .S32) .v2 (av .S32), .trans (o .R23) .w1, .mulV .w1 .v1 .v2, .addV (av .S12) .v2 (av .S12),
   .zeroV (av .S31)]

/-- `add_ref_u_l_a`, 63-103. -/
def refULa : List (AInstr K) :=
  [.trans (.B d) .w1, .mul (a .R13) .w1 .Ea, .trans (o .T12) .w1, .mul (a .R13) .w1 .Da,
   .outer (av .S31) (.C d) .Ea, .trans (.A d) .w1, .mulV .w1 (av .S31) .v1, .scaleV t .v1 .v2,
   .addV (av .S32) .v2 (av .S32), .outer .v1 (ov .S12) (a .R23), .copy .w1 .Ea, .getrsT (.P d) .w1,
   .trans (o .R21) .w2, .mul .w1 .w2 .w3, .add .Da .w3 .Da, .trans (.A d) .w1, .mul .w1 .Da .w2,
   .add (a .R23) .w2 (a .R23), .zero (a .R13), .zeroV (av .S31)]

/-- `add_ref_l_u_a`, 107-111. -/
def refLUa : List (AInstr K) := [.zero (a .R13), .zeroV (av .S31)]

/-- `add_ref_p_l_a`, 115-161. -/
def refPLa : List (AInstr K) :=
  [.trans (.B d) .w1, .mul (a .R13) .w1 .Ea, .trans (o .T12) .w1, .mul (a .R13) .w1 .Da,
   .addV (av .S21) (av .S31) (av .S21), .outer (av .S31) (.C d) .Ea, .trans (.A d) .w1,
   .mulV .w1 (av .S31) .v1, .scaleV t .v1 .v2, .addV (av .S32) .v2 (av .S32), .outer .v1 (ov .S12) (a .R23),
   .trans (o .R23) .w1, .mulV .w1 .v1 .v2, .addV (av .S12) .v2 (av .S12), .copy .w1 .Ea, .getrsT (.P d) .w1,
   .trans (o .R21) .w2, .mul .w1 .w2 .w3, .add .Da .w3 .Da, .trans (.A d) .w1, .mul .w1 .Da .w2,
   .add (a .R23) .w2 (a .R23), .zero (a .R13), .zeroV (av .S31)]

/-- `add_ref_l_p_a`, 165-221. -/
def refLPa : List (AInstr K) :=
  [.add (a .R12) (a .R13) (a .R12), .gg false (a .R13) true (.B d) .Ea false,
   .gg true .D false (a .R13) (a .T12) true, .addV (av .S21) (av .S31) (av .S21),
   .outer (av .S31) (.C d) .Ea, .gv (.A d) (av .S31) .v1 false, .scaleV t .v1 .v2,
   .addV (av .S32) .v2 (av .S32), .dot (ov .S32) .v1, .gv (o .R23) .v1 (av .S12) true, .copy .w1 .Ea,
   .getrsT (.P d) .w1, .add (a .T21) .w1 (a .T21), .gg true .D false .w1 (a .R21) true, .zero (a .R13),
   .zeroV (av .S31)]

/-- `add_ref_l_l_a`, 225-305. -/
def refLLa : List (AInstr K) :=
  [.add (a .R12) (a .R13) (a .R12), .gg false (a .R13) true (.B d) .Da false,
   .gg true (.A d) false (a .R13) .w2 false, .gg false .w2 true (o .T12) (a .R23) true,
   .gg true (o .R23) false .w2 (a .T12) true, .addV (av .S21) (av .S31) (av .S21),
   .outer (av .S31) (.C d) .Da, .gv (.A d) (av .S31) .v1 false, .scaleV t .v1 .v2,
   .addV (av .S32) .v2 (av .S32), .dot (ov .S32) .v1, .outer .v1 (ov .S12) (a .R23),
   .gv (o .R23) .v1 (av .S12) true, .copy .w1 .Da, .getrsT (.P d) .w1, .add (a .T21) .w1 (a .T21),
   .gg true (.A d) false .w1 .w2 false, .gg false .w2 true (o .R21) (a .R23) true,
   .gg true (o .R23) false .w2 (a .R21) true, .zero (a .R13), .zeroV (av .S31)]

/-- `add_all_u_l_up_a`, 481-545. -/
def allULa : List (AInstr K) :=
  [.gg false (a .T31) true (o .T32) .Ea false, .gg true (.A d) false (a .T31) (a .T32) true,
   .gg false (a .R13) true (.B d) .Ea true, .gg false (a .R13) true (o .T12) .Da false,
   .outer (av .S31) (.C d) .Ea, .gv (.A d) (av .S31) .v1 false, .scaleV t .v1 .v2,
   .addV (av .S32) .v2 (av .S32), .outer .v1 (ov .S12) (a .R23), .copy .w1 .Ea, .getrsT (.P d) .w1,
   .gg false .w1 true (o .R21) .Da true, .gg true (.A d) false .Da (a .R23) true, .zero (a .R13),
   .zero (a .T31), .zeroV (av .S31)]

/-- `add_all_l_u_up_a`, 549-609. -/
def allLUa : List (AInstr K) :=
  [.gg false (a .T31) true (o .T32) .Ea false, .add (a .R12) (a .R13) (a .R12),
   .gg false (a .R13) true (.B d) .Ea true, .gg true .D false (a .R13) (a .T12) true,
   .addV (av .S21) (av .S31) (av .S21), .outer (av .S31) (.C d) .Ea, .gv (.A d) (av .S31) .v1 false,
   .dot (ov .S32) .v1, .gv (o .R23) .v1 (av .S12) true, .copy .w1 .Ea, .getrsT (.P d) .w1,
   .add (a .T21) .w1 (a .T21), .gg true .D false .w1 (a .R21) true, .zero (a .R13), .zero (a .T31),
   .zeroV (av .S31)]

/-- `add_all_p_l_up_a`, 613-685. -/
def allPLa : List (AInstr K) :=
  [.gg false (a .T31) true (o .T32) .Ea false, .gg true (.A d) false (a .T31) (a .T32) true,
   .gg false (a .R13) true (.B d) .Ea true, .gg false (a .R13) true (o .T12) .Da false,
   .addV (av .S21) (av .S31) (av .S21), .outer (av .S31) (.C d) .Ea, .gv (.A d) (av .S31) .v1 false,
   .scaleV t .v1 .v2, .addV (av .S32) .v2 (av .S32), .outer .v1 (ov .S12) (a .R23),
   .gv (o .R23) .v1 (av .S12) true, .copy .w1 .Ea, .getrsT (.P d) .w1,
   .gg false .w1 true (o .R21) .Da true, .gg true (.A d) false .Da (a .R23) true, .zero (a .R13),
   .zero (a .T31), .zeroV (av .S31)]

/-- `add_all_l_p_up_a`, 689-752. -/
def allLPa : List (AInstr K) :=
  [.gg false (a .T31) true (o .T32) .Ea false, .add (a .R12) (a .R13) (a .R12),
   .gg false (a .R13) true (.B d) .Ea true, .gg true .D false (a .R13) (a .T12) true,
   .addV (av .S21) (av .S31) (av .S21), .outer (av .S31) (.C d) .Ea, .gv (.A d) (av .S31) .v1 false,
   .scaleV t .v1 .v2, .addV (av .S32) .v2 (av .S32), .dot (ov .S32) .v1, .gv (o .R23) .v1 (av .S12) true,
   .copy .w1 .Ea, .getrsT (.P d) .w1, .add (a .T21) .w1 (a .T21), .gg true .D false .w1 (a .R21) true,
   .zero (a .R13), .zero (a .T31), .zeroV (av .S31)]

/-- `add_all_l_l_up_a`, 756-851. -/
def allLLa : List (AInstr K) :=
  [.gg false (a .T31) true (o .T32) .Da false, .gg true (.A d) false (a .T31) (a .T32) true,
   .add (a .R12) (a .R13) (a .R12), .gg false (a .R13) true (.B d) .Da true,
   .gg true (.A d) false (a .R13) .w2 false, .gg false .w2 true (o .T12) (a .R23) true,
   .gg true (o .R23) false .w2 (a .T12) true, .addV (av .S21) (av .S31) (av .S21),
   .outer (av .S31) (.C d) .Da, .gv (.A d) (av .S31) .v1 false, .scaleV t .v1 .v2,
   .addV (av .S32) .v2 (av .S32), .gv (.A d) (av .S31) .v1 false, .dot (ov .S32) .v1,
   .outer .v1 (ov .S12) (a .R23), .gv (o .R23) .v1 (av .S12) true, .copy .w1 .Da, .getrsT (.P d) .w1,
   .add (a .T21) .w1 (a .T21), .gg true (.A d) false .w1 .w2 false, .gg false .w2 true (o .R21) (a .R23) true,
   .gg true (o .R23) false .w2 (a .R21) true, .zero (a .R13), .zero (a .T31), .zeroV (av .S31)]

/-- The first lines of both routines: `dmat_mul(AXX, R23, DXX)`, 404, 965, 1002. -/
def preDa : List (AInstr K) := [.mul (.A d) (o .R23) .D]

end helpers

/-- The choice of a helper in `layer_add_ref_a`, 410-432, for the code with upper activity `u` and lower activity
`l` (with `flag` the code is read the other way round). Codes that match no case: nothing happens. -/
def refCase (t : K) : (u l : Act) → List (AInstr K)
  | .U, .S => refUPa false t
  | .S, .U => refPUa false
  | .S, .S => refPPa false t
  | .U, .B => refULa false t
  | .B, .U => refLUa false
  | .S, .B => refPLa false t
  | .B, .S => refLPa false t
  | .B, .B => refLLa false t
  | _, _ => []

/-- `layer_add_ref_a`, 343-433. -/
def layerAddRefA (t : K) (flag : Bool) (c : Act × Act) : List (AInstr K) :=
  preDa false ++ (if flag then refCase t c.2 c.1 else refCase t c.1 c.2)

/-- First half of `layer_add_all_a`, 979-988. -/
def allUp (t : K) : (u l : Act) → List (AInstr K)
  | .U, .B => allULa false t
  | .B, .S => allLPa false t
  | _, _ => allLLa false t

/-- Second half, 1016-1025. -/
def allDown (t : K) : (u l : Act) → List (AInstr K)
  | .U, .B => allLUa true
  | .B, .S => allPLa true t
  | _, _ => allLLa true t

/-- `layer_add_all_a`, 901-1026. -/
def layerAddAllA (t : K) (c : Act × Act) : List (AInstr K) :=
  preDa false ++ allUp t c.1 c.2 ++ (preDa true ++ allDown t c.1 c.2)

/-- One step of the loop of `get_total_TOA_R_S_U_V_a` (`src/xrtm_model_a.c:1390-1420`): the arrays the forward
routine saved for layer `i` (`save->R2_m[i]`, ..., `save->R1_m[i]`, `save->S1_p[i]`, and the record of
`layer_add_ref`), and `derivs_adding_up_union[i]`. -/
structure TStep (n : Nat) (K : Type) where
  R12 : M n K
  T12 : M n K
  S12 : V n K
  R21 : M n K
  T21 : M n K
  S21 : V n K
  R23 : M n K
  S32 : V n K
  P : M n K
  A : M n K
  B : M n K
  C : V n K
  code : Act × Act

/-- The arguments of the call at 1401. The adjoints of the layer and of what is below it are zero: zeroed before the
loop (1344-1357), and in every round by what consumes them (`layer_zero_ref`, `scale_source_vectors_a` and
`get_layer_R_T_S_U_W_V_a`, which are not modelled here). -/
def TStep.mem (e : TStep n K) (R : M n K) (S : V n K) : AMem n K where
  m
    | .op .R12 => e.R12 | .op .T12 => e.T12 | .op .R21 => e.R21 | .op .T21 => e.T21 | .op .R23 => e.R23
    | .adj .R13 => R
    | .P _ => e.P | .A _ => e.A | .B _ => e.B
    | _ => 0
  v
    | .op .S12 => e.S12 | .op .S21 => e.S21 | .op .S32 => e.S32
    | .adj .S31 => S
    | .C _ => e.C
    | _ => 0
  tr := 0

/-- The adjoints of a layer. -/
structure LayerA (n : Nat) (K : Type) where
  R12 : M n K
  T12 : M n K
  S12 : V n K
  R21 : M n K
  T21 : M n K
  S21 : V n K

def AMem.layerA (s : AMem n K) : LayerA n K :=
  ⟨s.m (.adj .R12), s.m (.adj .T12), s.v (.adj .S12), s.m (.adj .R21), s.m (.adj .T21), s.v (.adj .S21)⟩

/-- The loop with a surface: from the top down; `R1_m_a`, `S1_p_a` are replaced by `R3_m_a`, `S4_p_a` after every call
(1403-1404). Result: what every layer receives, and what is added to `Rs_qq_a`, `S_s_a` (1423-1426). -/
def totalToaA : List (TStep n K) → M n K → V n K → Except Fault (List (LayerA n K) × M n K × V n K)
  | [], R, S => .ok ([], R, S)
  | e :: es, R, S =>
      match run inv? (layerAddRefA 1 false e.code) (e.mem R S) with
      | .error x => .error x
      | .ok s =>
          match totalToaA es (s.m (.adj .R23)) (s.v (.adj .S32)) with
          | .error x => .error x
          | .ok (ls, R', S') => .ok (s.layerA :: ls, R', S')

end Xrtm.Adjoint
