import Verif.Model.MatProg

/-!
# Adding of two layers

`src/xrtm_adding.c`. Level 1 is the top of the upper layer, 2 the interface, 3 the bottom of the lower layer. `R12`,
`T12`, `S12`: reflection and transmission of light that comes down on the upper layer, and the light it emits
downward; `R21`, `T21`, `S21` the same for light that comes up from below; and so on.

Every routine is a list of matrix calls (`Model/MatProg`) on the arrays the caller names. Not modelled: the saved
intermediate results for the adjoint (`save_tree`, C18), the branch `USE_AD_FOR_TL_LAYER_ADD_ALL`, and the
`printf` before `exit(1)`.
-/

namespace Xrtm.Adding

open Mat

variable {K : Type}

/-- The matrix arguments of `layer_add_all`. -/
inductive MArg
  | R12 | T12 | R21 | T21 | R23 | T23 | R32 | T32 | R13 | T13 | R31 | T31
deriving DecidableEq

/-- The vector arguments. -/
inductive VArg
  | S12 | S21 | S23 | S32 | S13 | S31
deriving DecidableEq

/-- Where the arguments are: `m`, `v` the operators, `ml i`, `vl i` their derivatives number `i`. -/
structure Fr where
  m : MArg → MCell
  v : VArg → VCell
  ml : Nat → MArg → MCell
  vl : Nat → VArg → VCell
  /-- Arrays for the factors of `1 - R23 R21`, `A31`, `B13`: scratch, or `P31`, `A31`, `B13` of a
  `layer_add_aux_data` that outlives the call. -/
  P : MCell
  A : MCell
  B : MCell
  /-- The same for the second half: `P13`, `A13`, `B31`. -/
  P' : MCell
  A' : MCell
  B' : MCell

/-- The exchange of up and down: how the second half of `layer_add_all` passes its arguments to the helpers
written for the first half (for example 1541-1597). -/
def MArg.swap : MArg → MArg
  | .R12 => .R32 | .T12 => .T32 | .R21 => .R23 | .T21 => .T23 | .R23 => .R21 | .T23 => .T21 | .R32 => .R12
  | .T32 => .T12 | .R13 => .R31 | .T13 => .T31 | .R31 => .R13 | .T31 => .T13

def VArg.swap : VArg → VArg
  | .S12 => .S32 | .S21 => .S23 | .S23 => .S21 | .S32 => .S12 | .S13 => .S31 | .S31 => .S13

def Fr.swap (f : Fr) : Fr where
  m x := f.m x.swap
  v x := f.v x.swap
  ml i x := f.ml i x.swap
  vl i x := f.vl i x.swap
  P := f.P'
  A := f.A'
  B := f.B'
  P' := f.P
  A' := f.A
  B' := f.B

/-! Scratch arrays of the routines; 0, 1 and 2 are `PXX`, `AXX`, `BXX` where there is no auxiliary record. -/
def w1 : MCell := .scratch 3
def w2 : MCell := .scratch 4
def DXX : MCell := .scratch 5
def D : MCell := .scratch 6
def E : MCell := .scratch 7
def C : VCell := .scratch 0
def v1 : VCell := .scratch 1
def v2 : VCell := .scratch 2

/-- The activity of a derivative in the two layers, `src/xrtm_adding.h:31-46`. The first of the two letters is the
upper layer: U nothing, S the sources, L reflection and transmission, B both. -/
inductive Act
  | U | S | L | B
deriving DecidableEq

/-- What a routine does for one derivative: calls; nothing at all because no case matches (with `DEBUG` an
`exit(1)`); or `exit(1)`. -/
inductive Do (K : Type)
  | calls (p : List (Instr K))
  | nothing
  | exit

section helpers
variable (f : Fr) (i : Nat) (t tl : K)

/-- `add_ref_u_s`, 144-149; `add_all_u_s_up`, 894-899, is the same. -/
def refUS : List (Instr K) :=
  [.scaleV t (f.vl i .S32) v1, .mulV f.A v1 (f.vl i .S31)]

/-- `add_ref_s_u`, 153-161; `add_all_s_u_up`, 903-911, is the same. -/
def refSU : List (Instr K) :=
  [.mulV (f.m .R23) (f.vl i .S12) v1, .mulV f.A v1 v2, .addV (f.vl i .S21) v2 (f.vl i .S31)]

/-- `add_ref_s_s`, 165-175; `add_all_s_s_up`, 915-925, is the same. -/
def refSS : List (Instr K) :=
  [.scaleV t (f.vl i .S32) v1, .mulV (f.m .R23) (f.vl i .S12) v2, .addV v1 v2 v1, .mulV f.A v1 v2,
   .addV (f.vl i .S21) v2 (f.vl i .S31)]

/-- `add_ref_u_l`, 179-198: `R13_l` only. -/
def refUL : List (Instr K) :=
  [.mul f.A (f.ml i .R23) D, .mul D (f.m .R21) E, .getrs f.P E, .mul E f.B w1, .mul D (f.m .T12) w2,
   .add w1 w2 (f.ml i .R13)]

/-- `add_ref_l_u`, 202-223: `R13_l` only. -/
def refLU : List (Instr K) :=
  [.mul f.A (f.m .R23) D, .mul D (f.ml i .R21) E, .add (f.ml i .T21) E E, .getrs f.P E, .mul E f.B w1,
   .mul D (f.ml i .T12) w2, .add w1 w2 w1, .add (f.ml i .R12) w1 (f.ml i .R13)]

/-- `add_ref_l_l`, 227-251: `R13_l` only. -/
def refLL : List (Instr K) :=
  [.mul (f.ml i .R23) (f.m .R21) w1, .mul (f.m .R23) (f.ml i .R21) w2, .add w1 w2 w1, .mul f.A w1 w2,
   .add (f.ml i .T21) w2 D, .getrs f.P D, .mul (f.ml i .R23) (f.m .T12) w1,
   .mul (f.m .R23) (f.ml i .T12) w2, .add w1 w2 w1, .mul f.A w1 w2, .add (f.ml i .R12) w2 w1,
   .mul D f.B w2, .add w1 w2 (f.ml i .R13)]

/-- `add_ref_u_b`, 255-284. -/
def refUB : List (Instr K) :=
  [.mul f.A (f.ml i .R23) D, .mul D (f.m .R21) E, .getrs f.P E, .scaleV t (f.vl i .S32) v1,
   .mulV (f.ml i .R23) (f.v .S12) v2, .addV v1 v2 v1, .mulV f.A v1 v2, .mulV E C v1,
   .addV v1 v2 (f.vl i .S31), .mul E f.B w1, .mul D (f.m .T12) w2, .add w1 w2 (f.ml i .R13)]

/-- `add_ref_b_u`, 288-321. -/
def refBU : List (Instr K) :=
  [.mul f.A (f.m .R23) D, .mul D (f.ml i .R21) E, .add (f.ml i .T21) E E, .getrs f.P E,
   .scaleV tl (f.v .S32) v1, .mulV (f.m .R23) (f.vl i .S12) v2, .addV v1 v2 v1, .mulV f.A v1 v2,
   .addV (f.vl i .S21) v2 v1, .mulV E C v2, .addV v1 v2 (f.vl i .S31), .mul E f.B w1,
   .mul D (f.ml i .T12) w2, .add w1 w2 w1, .add (f.ml i .R12) w1 (f.ml i .R13)]

/-- `add_ref_s_b`, 325-358. -/
def refSB : List (Instr K) :=
  [.mul f.A (f.ml i .R23) D, .mul D (f.m .R21) E, .getrs f.P E, .scaleV t (f.vl i .S32) v1,
   .mulV (f.ml i .R23) (f.v .S12) v2, .addV v1 v2 v1, .mulV (f.m .R23) (f.vl i .S12) v2, .addV v1 v2 v1,
   .mulV f.A v1 v2, .addV (f.vl i .S21) v2 v1, .mulV E C v2, .addV v1 v2 (f.vl i .S31), .mul E f.B w1,
   .mul D (f.m .T12) w2, .add w1 w2 (f.ml i .R13)]

/-- `add_ref_b_s`, 362-398. -/
def refBS : List (Instr K) :=
  [.mul f.A (f.m .R23) D, .mul D (f.ml i .R21) E, .add (f.ml i .T21) E E, .getrs f.P E,
   .scaleV t (f.vl i .S32) v1, .scaleV tl (f.v .S32) v2, .addV v1 v2 v1, .mulV (f.m .R23) (f.vl i .S12) v2,
   .addV v1 v2 v1, .mulV f.A v1 v2, .addV (f.vl i .S21) v2 v1, .mulV E C v2, .addV v1 v2 (f.vl i .S31),
   .mul E f.B w1, .mul D (f.ml i .T12) w2, .add w1 w2 w1, .add (f.ml i .R12) w1 (f.ml i .R13)]

/-- `add_ref_b_l`, 401-439. -/
def refBL : List (Instr K) :=
  [.mul (f.ml i .R23) (f.m .R21) w1, .mul (f.m .R23) (f.ml i .R21) w2, .add w1 w2 w1, .mul f.A w1 w2,
   .add (f.ml i .T21) w2 D, .getrs f.P D, .scaleV tl (f.v .S32) v1, .mulV (f.ml i .R23) (f.v .S12) v2,
   .addV v1 v2 v1, .mulV (f.m .R23) (f.vl i .S12) v2, .addV v1 v2 v1, .mulV f.A v1 v2,
   .addV (f.vl i .S21) v2 v1, .mulV D C v2, .addV v1 v2 (f.vl i .S31), .mul (f.ml i .R23) (f.m .T12) w1,
   .mul (f.m .R23) (f.ml i .T12) w2, .add w1 w2 w1, .mul f.A w1 w2, .add (f.ml i .R12) w2 w1,
   .mul D f.B w2, .add w1 w2 (f.ml i .R13)]

/-- `add_ref_b_b`, 443-484. -/
def refBB : List (Instr K) :=
  [.mul (f.ml i .R23) (f.m .R21) w1, .mul (f.m .R23) (f.ml i .R21) w2, .add w1 w2 w1, .mul f.A w1 w2,
   .add (f.ml i .T21) w2 D, .getrs f.P D, .scaleV t (f.vl i .S32) v1, .scaleV tl (f.v .S32) v2,
   .addV v1 v2 v1, .mulV (f.ml i .R23) (f.v .S12) v2, .addV v1 v2 v1, .mulV (f.m .R23) (f.vl i .S12) v2,
   .addV v1 v2 v1, .mulV f.A v1 v2, .addV (f.vl i .S21) v2 v1, .mulV D C v2, .addV v1 v2 (f.vl i .S31),
   .mul (f.ml i .R23) (f.m .T12) w1, .mul (f.m .R23) (f.ml i .T12) w2, .add w1 w2 w1, .mul f.A w1 w2,
   .add (f.ml i .R12) w2 w1, .mul D f.B w2, .add w1 w2 (f.ml i .R13)]

/-- `add_all_u_l_up`, 929-953: `R13_l`, `T31_l` only. -/
def allUL : List (Instr K) :=
  [.mul f.A (f.ml i .R23) D, .mul D (f.m .R21) E, .getrs f.P E, .mul E f.B w1, .mul D (f.m .T12) w2,
   .add w1 w2 (f.ml i .R13), .mul E (f.m .T32) w1, .mul f.A (f.ml i .T32) w2, .add w1 w2 (f.ml i .T31)]

/-- `add_all_l_u_up`, 957-984: `A31 R23` is passed in (`DXX`). -/
def allLU : List (Instr K) :=
  [.mul DXX (f.ml i .R21) E, .add (f.ml i .T21) E E, .getrs f.P E, .mul E f.B w1,
   .mul DXX (f.ml i .T12) w2, .add w1 w2 w1, .add (f.ml i .R12) w1 (f.ml i .R13),
   .mul E (f.m .T32) (f.ml i .T31)]

/-- `add_all_l_l_up`, 988-1017. -/
def allLL : List (Instr K) :=
  [.mul (f.ml i .R23) (f.m .R21) w1, .mul (f.m .R23) (f.ml i .R21) w2, .add w1 w2 w1, .mul f.A w1 w2,
   .add (f.ml i .T21) w2 D, .getrs f.P D, .mul (f.ml i .R23) (f.m .T12) w1,
   .mul (f.m .R23) (f.ml i .T12) w2, .add w1 w2 w1, .mul f.A w1 w2, .add (f.ml i .R12) w2 w1,
   .mul D f.B w2, .add w1 w2 (f.ml i .R13), .mul D (f.m .T32) w1, .mul f.A (f.ml i .T32) w2,
   .add w1 w2 (f.ml i .T31)]

/-- `add_all_u_b_up`, 1021-1055. -/
def allUB : List (Instr K) :=
  [.mul f.A (f.ml i .R23) D, .mul D (f.m .R21) E, .getrs f.P E, .scaleV t (f.vl i .S32) v1,
   .mulV (f.ml i .R23) (f.v .S12) v2, .addV v1 v2 v1, .mulV f.A v1 v2, .mulV E C v1,
   .addV v1 v2 (f.vl i .S31), .mul E f.B w1, .mul D (f.m .T12) w2, .add w1 w2 (f.ml i .R13),
   .mul E (f.m .T32) w1, .mul f.A (f.ml i .T32) w2, .add w1 w2 (f.ml i .T31)]

/-- `add_all_b_u_up`, 1059-1098. -/
def allBU : List (Instr K) :=
  [.mul DXX (f.ml i .R21) E, .add (f.ml i .T21) E E, .getrs f.P E, .scaleV tl (f.v .S32) v1,
   .mulV (f.m .R23) (f.vl i .S12) v2, .addV v1 v2 v1, .mulV f.A v1 v2, .addV (f.vl i .S21) v2 v1,
   .mulV E C v2, .addV v1 v2 (f.vl i .S31), .mul E f.B w1, .mul DXX (f.ml i .T12) w2, .add w1 w2 w1,
   .add (f.ml i .R12) w1 (f.ml i .R13), .mul E (f.m .T32) (f.ml i .T31)]

/-- `add_all_s_b_up`, 1102-1140. -/
def allSB : List (Instr K) :=
  [.mul f.A (f.ml i .R23) D, .mul D (f.m .R21) E, .getrs f.P E, .scaleV t (f.vl i .S32) v1,
   .mulV (f.ml i .R23) (f.v .S12) v2, .addV v1 v2 v1, .mulV (f.m .R23) (f.vl i .S12) v2, .addV v1 v2 v1,
   .mulV f.A v1 v2, .addV (f.vl i .S21) v2 (f.vl i .S31), .mulV E C v1,
   .addV (f.vl i .S31) v1 (f.vl i .S31), .mul E f.B w1, .mul D (f.m .T12) w2, .add w1 w2 (f.ml i .R13),
   .mul E (f.m .T32) w1, .mul f.A (f.ml i .T32) w2, .add w1 w2 (f.ml i .T31)]

/-- `add_all_b_s_up`, 1144-1186. -/
def allBS : List (Instr K) :=
  [.mul DXX (f.ml i .R21) E, .add (f.ml i .T21) E E, .getrs f.P E, .scaleV t (f.vl i .S32) v1,
   .scaleV tl (f.v .S32) v2, .addV v1 v2 v1, .mulV (f.m .R23) (f.vl i .S12) v2, .addV v1 v2 v1,
   .mulV f.A v1 v2, .addV (f.vl i .S21) v2 (f.vl i .S31), .mulV E C v1,
   .addV (f.vl i .S31) v1 (f.vl i .S31), .mul E f.B w1, .mul DXX (f.ml i .T12) w2, .add w1 w2 w1,
   .add (f.ml i .R12) w1 (f.ml i .R13), .mul E (f.m .T32) (f.ml i .T31)]

/-- `add_all_b_b_up`, 1190-1232. -/
def allBB : List (Instr K) :=
  [.mul (f.ml i .R23) (f.m .R21) w1, .mul (f.m .R23) (f.ml i .R21) w2, .add w1 w2 w1, .mul f.A w1 w2,
   .add (f.ml i .T21) w2 D, .getrs f.P D, .scaleV t (f.vl i .S32) v1, .scaleV tl (f.v .S32) v2,
   .addV v1 v2 v1, .mulV (f.ml i .R23) (f.v .S12) v2, .addV v1 v2 v1, .mulV (f.m .R23) (f.vl i .S12) v2,
   .addV v1 v2 v1, .mulV f.A v1 v2, .addV (f.vl i .S21) v2 v1, .mulV D C v2, .addV v1 v2 (f.vl i .S31),
   .mul (f.ml i .R23) (f.m .T12) w1, .mul (f.m .R23) (f.ml i .T12) w2, .add w1 w2 w1, .mul f.A w1 w2,
   .add (f.ml i .R12) w2 w1, .mul D f.B w2, .add w1 w2 (f.ml i .R13), .mul D (f.m .T32) w1,
   .mul f.A (f.ml i .T32) w2, .add w1 w2 (f.ml i .T31)]

end helpers

/-! ## The routines -/

/-- The common beginning, for example `layer_add_ref` 555-566: the factors of `(1 - R23 R21)ᵀ`, `A31`, `B13`. -/
def factors (f : Fr) : List (Instr K) :=
  [.mul (f.m .R23) (f.m .R21) f.P, .isub f.P w1, .trans w1 f.P, .getrf f.P,
   .copy f.A (f.m .T21), .getrs f.P f.A,
   .mul (f.m .R23) (f.m .T12) f.B]

/-- `C31 = S32 t + R23 S12`, 568-571. -/
def sourceUp (f : Fr) (t : K) : List (Instr K) :=
  [.scaleV t (f.v .S32) v1, .mulV (f.m .R23) (f.v .S12) v2, .addV v1 v2 C]

/-- `C13 = S12 + R21 S32 t`, 1609-1612 (in the swapped frame `S32` is `S12`). -/
def sourceDown (f : Fr) (t : K) : List (Instr K) :=
  [.mulV (f.m .R23) (f.v .S12) v1, .scaleV t v1 v1, .addV (f.v .S32) v1 C]

/-- `DXX = A31 R23`, 1515-1516, only if there are derivatives. -/
def preD (f : Fr) (nd : Nat) : List (Instr K) := if nd = 0 then [] else [.mul f.A (f.m .R23) DXX]

/-- `S31 = S21 + A31 C31; R13 = R12 + A31 B13`, 624-632. -/
def tailRef (f : Fr) : List (Instr K) :=
  [.mulV f.A C v1, .addV (f.v .S21) v1 (f.v .S31),
   .mul f.A f.B w1, .add (f.m .R12) w1 (f.m .R13)]

/-- ... and `T31 = A31 T32`, 1577-1578. -/
def tailUp (f : Fr) : List (Instr K) := tailRef f ++ [.mul f.A (f.m .T32) (f.m .T31)]

/-- `S13 = S23 t + A13 C13; R31 = R32 + A13 B31; T13 = A13 T12`, 1669-1684 (swapped frame). -/
def tailDown (f : Fr) (t : K) : List (Instr K) :=
  [.mulV f.A C v2, .scaleV t (f.v .S21) v1, .addV v1 v2 (f.v .S31),
   .mul f.A f.B w1, .add (f.m .R12) w1 (f.m .R13),
   .mul f.A (f.m .T32) w1, .copy (f.m .T31) w1]

section dispatch
variable (f : Fr) (i : Nat) (t tl : K)

/-- The `else if`s of `layer_add_ref`, 573-628. With `flag` the roles of upper and lower are exchanged, except in
the cases `L_B` and `B_L`; `L_S` and `S_L` are missing. -/
def refDo (flag : Bool) (a b : Act) : Do K :=
  match if flag then (b, a) else (a, b) with
  | (.U, .U) => .calls []
  | (.U, .S) => .calls (refUS f i t)
  | (.S, .U) => .calls (refSU f i)
  | (.S, .S) => .calls (refSS f i t)
  | (.U, .L) => .calls (refUL f i)
  | (.L, .U) => .calls (refLU f i)
  | (.L, .L) => .calls (refLL f i)
  | (.U, .B) => .calls (refUB f i t)
  | (.B, .U) => .calls (refBU f i tl)
  | (.S, .B) => .calls (refSB f i t)
  | (.B, .S) => .calls (refBS f i t tl)
  | (.B, .B) => .calls (refBB f i t tl)
  | _ =>
      match a, b with
      | .L, .B => .exit
      | .B, .L => .calls (refBL f i tl)
      | _, _ => .nothing

/-- `layer_add_ref2`, 723-768: without `U_L`, `L_U`, `L_L`; `B_L` exits. -/
def ref2Do (flag : Bool) (a b : Act) : Do K :=
  match a, b with
  | .U, .L | .L, .U | .L, .L => .nothing
  | .B, .L => .exit
  | _, _ => refDo f i t tl flag a b

/-- First half of `layer_add_all`, 1518-1569: `S_U`, `L_S` and `S_L` are missing. -/
def allDo (a b : Act) : Do K :=
  match a, b with
  | .U, .U => .calls []
  | .U, .S => .calls (refUS f i t)
  | .S, .S => .calls (refSS f i t)
  | .U, .L => .calls (allUL f i)
  | .L, .U => .calls (allLU f i)
  | .L, .L => .calls (allLL f i)
  | .U, .B => .calls (allUB f i t)
  | .B, .U => .calls (allBU f i tl)
  | .S, .B => .calls (allSB f i t)
  | .B, .S => .calls (allBS f i t tl)
  | .L, .B => .exit
  | .B, .L => .exit
  | .B, .B => .calls (allBB f i t tl)
  | .S, .U | .L, .S | .S, .L => .nothing

/-- Second half of `layer_add_all`, 1617-1668, on the swapped frame: the same helpers with upper and lower
exchanged. -/
def allDoDown (a b : Act) : Do K :=
  match a, b with
  | .U, .U => .calls []
  | .U, .S => .calls (refSU f i)
  | .S, .S => .calls (refSS f i t)
  | .U, .L => .calls (allLU f i)
  | .L, .U => .calls (allUL f i)
  | .L, .L => .calls (allLL f i)
  | .U, .B => .calls (allBU f i tl)
  | .B, .U => .calls (allUB f i t)
  | .S, .B => .calls (allBS f i t tl)
  | .B, .S => .calls (allSB f i t)
  | .L, .B => .exit
  | .B, .L => .exit
  | .B, .B => .calls (allBB f i t tl)
  | .S, .U | .L, .S | .S, .L => .nothing

/-- `layer_add_all2`, 1931-1958 and 2002-2029: only `U_U`, `U_S`, `S_S`, `U_B`, `B_U`, `B_S`, `B_B`. -/
def all2Has (a b : Act) : Bool :=
  match a, b with
  | .U, .U | .U, .S | .S, .S | .U, .B | .B, .U | .B, .S | .B, .B => true
  | _, _ => false

def all2Do (a b : Act) : Do K := if all2Has a b then allDo f i t tl a b else .nothing
def all2DoDown (a b : Act) : Do K := if all2Has a b then allDoDown f i t tl a b else .nothing

/-- `source_add_all`, `source_add_all2`, 1302-1316: only `U_U`, `U_S`, `S_S`. -/
def srcHas (a b : Act) : Bool :=
  match a, b with
  | .U, .U | .U, .S | .S, .S => true
  | _, _ => false

def srcDo (a b : Act) : Do K := if srcHas a b then allDo f i t tl a b else .nothing
def srcDoDown (a b : Act) : Do K := if srcHas a b then allDoDown f i t tl a b else .nothing

end dispatch

/-- The loop over the derivatives. -/
def derivLoop (nd : Nat) (act : Nat → Act × Act) (body : Nat → Act → Act → Do K) : List (Do K) :=
  (List.range nd).map fun i => body i (act i).1 (act i).2

/-- `layer_add_ref`, 490-646. `flag2`: also the operators themselves. -/
def layerAddRef (f : Fr) (nd : Nat) (t : K) (tl : Nat → K) (act : Nat → Act × Act) (flag flag2 : Bool) : List (Do K) :=
  .calls (factors f ++ sourceUp f t) ::
    derivLoop nd act (fun i => refDo f i t (tl i) flag) ++
    [.calls (if flag2 then tailRef f else [])]

/-- `layer_add_ref2`, 651-780. `fresh`: no auxiliary record is given, or `flag3` asks for the factors to be
computed (708). -/
def layerAddRef2 (f : Fr) (nd : Nat) (t : K) (tl : Nat → K) (act : Nat → Act × Act) (flag flag2 fresh : Bool) :
    List (Do K) :=
  .calls ((if fresh then factors f else []) ++ sourceUp f t) ::
    derivLoop nd act (fun i => ref2Do f i t (tl i) flag) ++
    [.calls (if flag2 then tailRef f else [])]

/-- `layer_add_all`, 1372-1702. -/
def layerAddAll (f : Fr) (nd : Nat) (t : K) (tl : Nat → K) (act : Nat → Act × Act) (flag : Bool) : List (Do K) :=
  (.calls (factors f ++ sourceUp f t ++ preD f nd) ::
    derivLoop nd act (fun i => allDo f i t (tl i)) ++
    [.calls (if flag then tailUp f else [])]) ++
  (.calls (factors f.swap ++ sourceDown f.swap t ++ preD f.swap nd) ::
    derivLoop nd act (fun i => allDoDown f.swap i t (tl i)) ++
    [.calls (if flag then tailDown f.swap t else [])])

/-- `layer_add_all2`, 1848-2045. -/
def layerAddAll2 (f : Fr) (nd : Nat) (t : K) (tl : Nat → K) (act : Nat → Act × Act) (flag fresh : Bool) :
    List (Do K) :=
  (.calls ((if fresh then factors f else []) ++ sourceUp f t ++ preD f nd) ::
    derivLoop nd act (fun i => all2Do f i t (tl i)) ++
    [.calls (if flag then tailUp f else [])]) ++
  (.calls ((if fresh then factors f.swap else []) ++ sourceDown f.swap t ++ preD f.swap nd) ::
    derivLoop nd act (fun i => all2DoDown f.swap i t (tl i)) ++
    [.calls (if flag then tailDown f.swap t else [])])

/-- The factors without `B13`, `source_add_all` 1286-1294. -/
def srcFactors (f : Fr) : List (Instr K) :=
  [.mul (f.m .R23) (f.m .R21) f.P, .isub f.P w1, .trans w1 f.P, .getrf f.P,
   .copy f.A (f.m .T21), .getrs f.P f.A]

/-- `source_add_all`, 1242-1365 (`two` false, `fresh` true), and `source_add_all2`, 1707-1842 (`two`): the sources
only. The first computes `C31` only with `flag`. -/
def sourceAddAll (f : Fr) (nd : Nat) (t : K) (tl : Nat → K) (act : Nat → Act × Act) (flag fresh two : Bool) :
    List (Do K) :=
  (.calls ((if fresh then srcFactors f else []) ++ (if two || flag then sourceUp f t else [])) ::
    derivLoop nd act (fun i => srcDo f i t (tl i)) ++
    [.calls (if flag then [.mulV f.A C v1, .addV (f.v .S21) v1 (f.v .S31)] else [])]) ++
  (.calls ((if fresh then srcFactors f.swap else []) ++ (if two || flag then sourceDown f.swap t else [])) ::
    derivLoop nd act (fun i => srcDoDown f.swap i t (tl i)) ++
    [.calls (if flag then
      [.mulV f.swap.A C v2, .scaleV t (f.swap.v .S21) v1, .addV v1 v2 (f.swap.v .S31)] else [])])

variable [CommRing K] {n : Nat} (inv? : M n K → Option (M n K))

/-- Run what is done. `exit`: the process ends. -/
def runDo : List (Do K) → Mem n K → Except Fault (Mem n K)
  | [], s => .ok s
  | .calls p :: ds, s =>
      match run inv? p s with
      | .ok s' => runDo ds s'
      | .error e => .error e
  | .nothing :: ds, s => runDo ds s
  | .exit :: _, _ => .error .exit

end Xrtm.Adding
