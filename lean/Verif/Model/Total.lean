import Verif.Model.Adding

/-!
# The loops that add all layers

`get_total_R_T_S_U_W_V`, `get_total_TOA_R_S_U_V`, `get_total_BOA_R_S_U_V` (`src/xrtm_model.c:2530-3490`).

What a layer is (`get_layer_R_T_S_U_W_V`, `scale_add_source_vectors`) is given from outside. Simplified: the arrays of
the current layer are always the same cells; in the code they may be saved arrays, different ones for every layer. The
routines only read them.
-/

namespace Xrtm.Adding

open Mat

variable {K : Type} {n : Nat}

/-- Reflection, transmission and sources of one layer, `_m` and `_p`. -/
structure Ops (n : Nat) (K : Type) where
  Rm : M n K
  Tm : M n K
  Sm : V n K
  Rp : M n K
  Tp : M n K
  Sp : V n K

/-- One layer as the loop gets it: operators, derivatives, and the row of `derivs.adding_down` or
`derivs.adding_up`. -/
structure LayerIn (n : Nat) (K : Type) where
  ops : Ops n K
  dops : Nat → Ops n K
  act : Nat → Act × Act

/-! Array numbers: eight for the operators, eight for each derivative. -/
def cellM (i k : Nat) : MCell := .ext (8 * i + k)
def cellV (i k : Nat) : VCell := .ext (8 * i + k)

/-- `layer_add_all(R1_m, T1_m, S1_m, R1_p, T1_p, S1_p, R2_m, T2_m, S3_m, R2_p, T2_p, S3_p, R1_m, ...)`, 3462-3471:
the result replaces the upper layer. -/
def allM : MArg → Nat
  | .R12 | .R13 => 0
  | .T12 | .T13 => 1
  | .R21 | .R31 => 2
  | .T21 | .T31 => 3
  | .R23 => 4
  | .T23 => 5
  | .R32 => 6
  | .T32 => 7

def allV : VArg → Nat
  | .S12 | .S13 => 0
  | .S21 | .S31 => 1
  | .S23 => 2
  | .S32 => 3

/-- `PXX`, `AXX`, `BXX` serve both halves. -/
def frameAll : Fr where
  m x := cellM 0 (allM x)
  v x := cellV 0 (allV x)
  ml i x := cellM (i + 1) (allM x)
  vl i x := cellV (i + 1) (allV x)
  P := .scratch 0
  A := .scratch 1
  B := .scratch 2
  P' := .scratch 0
  A' := .scratch 1
  B' := .scratch 2

/-- `layer_add_ref(R2_m, T2_m, S3_m, R2_p, T2_p, S3_p, R1_m, S1_p, R1_m, S1_p, ...)`, 2915, and with `p` and `m`
exchanged, 2700: the result replaces what is below. -/
def refM : MArg → Nat
  | .R12 => 0
  | .T12 => 1
  | .R21 => 2
  | .T21 => 3
  | .R23 | .R13 => 4
  | .T32 | .T31 => 5
  | .T23 | .T13 => 6
  | .R32 | .R31 => 7

def refV : VArg → Nat
  | .S12 => 0
  | .S21 => 1
  | .S32 | .S31 => 2
  | .S23 | .S13 => 3

def frameRef : Fr where
  m x := cellM 0 (refM x)
  v x := cellV 0 (refV x)
  ml i x := cellM (i + 1) (refM x)
  vl i x := cellV (i + 1) (refV x)
  P := .scratch 0
  A := .scratch 1
  B := .scratch 2
  P' := .scratch 0
  A' := .scratch 1
  B' := .scratch 2

def Act.hasL : Act → Bool
  | .L | .B => true
  | _ => false

def Act.hasS : Act → Bool
  | .S | .B => true
  | _ => false

def Act.ofBits : (l s : Bool) → Act
  | false, false => .U
  | false, true => .S
  | true, false => .L
  | true, true => .B

/-- The codes of `src/xrtm_adding.h:20-46`: `DERIV_TOP_L` 8, `DERIV_TOP_S` 4, `DERIV_BOTTOM_L` 2, `DERIV_BOTTOM_S`
1. -/
def decode (c : Nat) : Act × Act :=
  (.ofBits (c.testBit 3) (c.testBit 2), .ofBits (c.testBit 1) (c.testBit 0))

/-- Put a layer into its arrays. Derivatives only where the layer has any (`derivs.layers[i]`, `derivs.sources[i]`);
the rest keeps whatever was there. `slotM`, `slotV`: which of the eight arrays are which operators. -/
def load (nd : Nat) (slotM : Ops n K → Nat → Option (M n K)) (slotV : Ops n K → Nat → Option (V n K))
    (o : Ops n K) (ol : Nat → Ops n K) (al : Nat → Act) (s : Mem n K) : Mem n K where
  m
    | .scratch k => s.m (.scratch k)
    | .ext a =>
        if a / 8 = 0 then (slotM o (a % 8)).getD (s.m (.ext a))
        else if a / 8 - 1 < nd ∧ (al (a / 8 - 1)).hasL then (slotM (ol (a / 8 - 1)) (a % 8)).getD (s.m (.ext a))
        else s.m (.ext a)
  v
    | .scratch k => s.v (.scratch k)
    | .ext a =>
        if a / 8 = 0 then (slotV o (a % 8)).getD (s.v (.ext a))
        else if a / 8 - 1 < nd ∧ (al (a / 8 - 1)).hasS then (slotV (ol (a / 8 - 1)) (a % 8)).getD (s.v (.ext a))
        else s.v (.ext a)

/-- The layer as lower layer of `frameAll`. -/
def lowM (o : Ops n K) : Nat → Option (M n K)
  | 4 => some o.Rm
  | 5 => some o.Tm
  | 6 => some o.Rp
  | 7 => some o.Tp
  | _ => none

def lowV (o : Ops n K) : Nat → Option (V n K)
  | 2 => some o.Sm
  | 3 => some o.Sp
  | _ => none

/-- The layer as upper layer of `frameRef`, seen from above (2915). -/
def aboveM (o : Ops n K) : Nat → Option (M n K)
  | 0 => some o.Rm
  | 1 => some o.Tm
  | 2 => some o.Rp
  | 3 => some o.Tp
  | _ => none

def aboveV (o : Ops n K) : Nat → Option (V n K)
  | 0 => some o.Sm
  | 1 => some o.Sp
  | _ => none

/-- ... seen from below (2700). -/
def belowM (o : Ops n K) : Nat → Option (M n K)
  | 0 => some o.Rp
  | 1 => some o.Tp
  | 2 => some o.Rm
  | 3 => some o.Tm
  | _ => none

def belowV (o : Ops n K) : Nat → Option (V n K)
  | 0 => some o.Sp
  | 1 => some o.Sm
  | _ => none

/-- `layer_copy_all_l`, `src/xrtm_adding.c:846-889`: only for `U_S`, `U_L`, `U_B`. -/
def copyAllL (f : Fr) (nd : Nat) (act : Nat → Act × Act) : List (Do K) :=
  .calls [.copy (f.m .R13) (f.m .R23), .copy (f.m .T13) (f.m .T23), .copyV (f.v .S13) (f.v .S23),
    .copy (f.m .R31) (f.m .R32), .copy (f.m .T31) (f.m .T32), .copyV (f.v .S31) (f.v .S32)] ::
  derivLoop nd act (fun i a b =>
    match a, b with
    | .U, .S => .calls [.copyV (f.vl i .S13) (f.vl i .S23), .copyV (f.vl i .S31) (f.vl i .S32)]
    | .U, .L => .calls [.copy (f.ml i .R13) (f.ml i .R23), .copy (f.ml i .T13) (f.ml i .T23),
        .copy (f.ml i .R31) (f.ml i .R32), .copy (f.ml i .T31) (f.ml i .T32)]
    | .U, .B => .calls [.copy (f.ml i .R13) (f.ml i .R23), .copy (f.ml i .T13) (f.ml i .T23),
        .copyV (f.vl i .S13) (f.vl i .S23),
        .copy (f.ml i .R31) (f.ml i .R32), .copy (f.ml i .T31) (f.ml i .T32), .copyV (f.vl i .S31) (f.vl i .S32)]
    | _, _ => .nothing)

/-- `layer_copy_ref_l`, `src/xrtm_adding.c:120-137`. -/
def copyRefL (f : Fr) (nd : Nat) (al : Nat → Act) : List (Do K) :=
  .calls [.copy (f.m .R13) (f.m .R12), .copyV (f.v .S31) (f.v .S21)] ::
  (List.range nd).map fun i => .calls ((if (al i).hasL then [.copy (f.ml i .R13) (f.ml i .R12)] else []) ++
    (if (al i).hasS then [.copyV (f.vl i .S31) (f.vl i .S21)] else []))

variable [CommRing K] (inv? : M n K → Option (M n K))

/-- The loop of `get_total_R_T_S_U_W_V`, 3417-3472, from the top down. -/
def totalLoop (nd : Nat) : Bool → List (LayerIn n K) → Mem n K → Except Fault (Mem n K)
  | _, [], s => .ok s
  | first, l :: ls, s =>
      match runDo inv? (if first then copyAllL frameAll nd l.act else layerAddAll frameAll nd 1 (fun _ => 0) l.act true)
          (load nd lowM lowV l.ops l.dops (fun j => (l.act j).2) s) with
      | .ok s' => totalLoop nd false ls s'
      | .error e => .error e

/-- The loop of `get_total_TOA_R_S_U_V`, 2868-2916: `ls` from the bottom up. `first`: no surface and this is the
lowest layer. Rows of `derivs.adding_up`: this layer first. -/
def toaLoop (nd : Nat) : Bool → List (LayerIn n K) → Mem n K → Except Fault (Mem n K)
  | _, [], s => .ok s
  | first, l :: ls, s =>
      match runDo inv? (if first then copyRefL frameRef nd (fun j => (l.act j).1)
            else layerAddRef frameRef nd 1 (fun _ => 0) l.act false true)
          (load nd aboveM aboveV l.ops l.dops (fun j => (l.act j).1) s) with
      | .ok s' => toaLoop nd false ls s'
      | .error e => .error e

/-- The surface, 2854-2866. -/
def loadSurface (nd : Nat) (R : M n K) (S : V n K) (Rl : Nat → M n K) (Sl : Nat → V n K) (al : Nat → Act) (s : Mem n K) :
    Mem n K :=
  load nd (fun o k => if k = 4 then some o.Rm else none) (fun o k => if k = 2 then some o.Sp else none)
    ⟨R, 0, 0, 0, 0, S⟩ (fun j => ⟨Rl j, 0, 0, 0, 0, Sl j⟩) al s

/-- `get_total_TOA_R_S_U_V` with a surface. -/
def toaSurface (nd : Nat) (R : M n K) (S : V n K) (Rl : Nat → M n K) (Sl : Nat → V n K) (al : Nat → Act)
    (ls : List (LayerIn n K)) (s : Mem n K) : Except Fault (Mem n K) :=
  toaLoop inv? nd false ls.reverse (loadSurface nd R S Rl Sl al s)

/-- ... without. -/
def toaBare (nd : Nat) (ls : List (LayerIn n K)) (s : Mem n K) : Except Fault (Mem n K) :=
  toaLoop inv? nd true ls.reverse s

/-- The loop of `get_total_BOA_R_S_U_V`, 2667-2701, from the top down. Rows of `derivs.adding_down`: this layer
second, and `flag` is 1. -/
def boaLoop (nd : Nat) : Bool → List (LayerIn n K) → Mem n K → Except Fault (Mem n K)
  | _, [], s => .ok s
  | first, l :: ls, s =>
      match runDo inv? (if first then copyRefL frameRef nd (fun j => (l.act j).2)
            else layerAddRef frameRef nd 1 (fun _ => 0) l.act true true)
          (load nd belowM belowV l.ops l.dops (fun j => (l.act j).2) s) with
      | .ok s' => boaLoop nd false ls s'
      | .error e => .error e

end Xrtm.Adding
