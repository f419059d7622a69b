import Verif.Model.Total

/-!
# Radiances from operators

`src/xrtm_radiance.c`, and the ends of the three ways through the adding solvers, `fourier_get_add_top_down`,
`fourier_get_add_bottom_up`, `fourier_get_add_both_ways` (`src/xrtm_model.c:4496-4950`).

The arrays of a call are all different, as they are in the calls of `xrtm_model.c`. Not modelled: the saved intermediate
results for the adjoint.
-/

namespace Xrtm.Radiance

open Mat Adding

variable {K : Type} {n : Nat}

/-! Arrays: block 0 the values, block `i + 1` derivative `i`. `x` is what the reflection acts on, `y` what the transmission
acts on: `I1_m`, `I2_p` in `radiance_slab`; `I3_p`, `I1_m` in `radiance_boa_all`. -/
def cR (b : Nat) : MCell := cellM b 0
def cT (b : Nat) : MCell := cellM b 1
/-- `R23_m`, the surface. -/
def cG (b : Nat) : MCell := cellM b 2
def cS (b : Nat) : VCell := cellV b 0
def cX (b : Nat) : VCell := cellV b 1
def cY (b : Nat) : VCell := cellV b 2
/-- Results: `I1_p`, or `I2_p` ... -/
def cP (b : Nat) : VCell := cellV b 3
/-- ... and `I2_m`. -/
def cM (b : Nat) : VCell := cellV b 4

def w3 : MCell := .scratch 5

/-- `radiance_slab`, 34-37. -/
def slabV : List (Instr K) :=
  [.mulV (cR 0) (cX 0) (cP 0), .mulV (cT 0) (cY 0) v1, .addV (cP 0) v1 (cP 0), .addV (cP 0) (cS 0) (cP 0)]

/-- 40-70: the cases look at `DERIV_TOP_S`, `DERIV_TOP_L` only. `j` is the block of the derivative. -/
def slabD (j : Nat) (a _b : Act) : Do K :=
  match a with
  | .U => .calls [.mulV (cR 0) (cX j) (cP j), .mulV (cT 0) (cY j) v1, .addV (cP j) v1 (cP j)]
  | .S => .calls [.mulV (cR 0) (cX j) (cP j), .mulV (cT 0) (cY j) v1, .addV (cP j) v1 (cP j),
      .addV (cP j) (cS j) (cP j)]
  | .L => .calls [.mulV (cR j) (cX 0) (cP j), .mulV (cR 0) (cX j) v1, .addV (cP j) v1 (cP j),
      .mulV (cT j) (cY 0) v1, .addV (cP j) v1 (cP j), .mulV (cT 0) (cY j) v1, .addV (cP j) v1 (cP j)]
  | .B => .calls [.mulV (cR j) (cX 0) (cP j), .mulV (cR 0) (cX j) v1, .addV (cP j) v1 (cP j),
      .mulV (cT j) (cY 0) v1, .addV (cP j) v1 (cP j), .mulV (cT 0) (cY j) v1, .addV (cP j) v1 (cP j),
      .addV (cP j) (cS j) (cP j)]

def slab (nd : Nat) (act : Nat → Act × Act) : List (Do K) :=
  .calls slabV :: derivLoop nd act fun i => slabD (i + 1)

/-- `radiance_toa_ref`, 106-107. -/
def toaRefV : List (Instr K) := [.mulV (cR 0) (cX 0) (cP 0), .addV (cP 0) (cS 0) (cP 0)]

/-- 110-134: the cases ask whether either of the two letters has the sources, the operators. -/
def toaRefD (j : Nat) (a b : Act) : Do K :=
  match a.hasS || b.hasS, a.hasL || b.hasL with
  | false, false => .calls [.mulV (cR 0) (cX j) (cP j)]
  | true, false => .calls [.mulV (cR 0) (cX j) (cP j), .addV (cP j) (cS j) (cP j)]
  | false, true => .calls [.mulV (cR j) (cX 0) (cP j), .mulV (cR 0) (cX j) v1, .addV (cP j) v1 (cP j)]
  | true, true => .calls [.mulV (cR j) (cX 0) (cP j), .mulV (cR 0) (cX j) v1, .addV (cP j) v1 (cP j),
      .addV (cP j) (cS j) (cP j)]

def toaRef (nd : Nat) (act : Nat → Act × Act) : List (Do K) :=
  .calls toaRefV :: derivLoop nd act fun i => toaRefD (i + 1)

/-! ### Above a surface -/

/-- The end of every case that knows nothing of a varied surface, for example 195-199: solve, reflect, add `I3_p_l`. -/
def tailU (j : Nat) : List (Instr K) :=
  [.getrsV w1 (cM j), .mulV (cG 0) (cM j) (cP j), .addV (cP j) (cX j) (cP j)]

/-- ... of every case with a varied surface, for example 211-217. -/
def tailG (j : Nat) : List (Instr K) :=
  [.getrsV w1 (cM j), .mulV (cG j) (cM 0) v1, .mulV (cG 0) (cM j) v2, .addV v1 v2 (cP j), .addV (cP j) (cX j) (cP j)]

/-- `radiance_boa_ref`, 172-182. -/
def boaRefV : List (Instr K) :=
  [.mul (cR 0) (cG 0) w1, .isub w1 w1, .getrf w1,
   .mulV (cR 0) (cX 0) (cM 0), .addV (cM 0) (cS 0) (cM 0), .getrsV w1 (cM 0),
   .mulV (cG 0) (cM 0) (cP 0), .addV (cP 0) (cX 0) (cP 0)]

/-- 189-290. -/
def boaRefD (j : Nat) (a b : Act) : Do K :=
  match a, b with
  | .U, .U => .calls (.mulV (cR 0) (cX j) (cM j) :: tailU j)
  | .U, .L | .U, .B => .calls ([.mul (cR 0) (cG j) w2, .mulV w2 (cM 0) v1, .mulV (cR 0) (cX j) v2,
      .addV v1 v2 (cM j)] ++ tailG j)
  | .L, .U => .calls ([.mul (cR j) (cG 0) w2, .mulV w2 (cM 0) v1, .mulV (cR j) (cX 0) v2, .addV v1 v2 v1,
      .mulV (cR 0) (cX j) v2, .addV v1 v2 (cM j)] ++ tailU j)
  | .L, .L => .calls ([.mul (cR j) (cG 0) w2, .mul (cR 0) (cG j) w3, .add w2 w3 w2, .mulV w2 (cM 0) v1,
      .mulV (cR j) (cX 0) v2, .addV v1 v2 v1, .mulV (cR 0) (cX j) v2, .addV v1 v2 (cM j)] ++ tailG j)
  | .B, .U | .B, .S => .calls ([.mul (cR j) (cG 0) w2, .mulV w2 (cM 0) v1, .mulV (cR j) (cX 0) v2, .addV v1 v2 v1,
      .mulV (cR 0) (cX j) v2, .addV v1 v2 v1, .addV v1 (cS j) (cM j)] ++ tailU j)
  | .B, .L | .B, .B => .calls ([.mul (cR j) (cG 0) w2, .mul (cR 0) (cG j) w3, .add w2 w3 w2, .mulV w2 (cM 0) v1,
      .mulV (cR j) (cX 0) v2, .addV v1 v2 v1, .mulV (cR 0) (cX j) v2, .addV v1 v2 v1, .addV v1 (cS j) (cM j)] ++ tailG j)
  | _, _ => .nothing

def boaRef (nd : Nat) (act : Nat → Act × Act) : List (Do K) :=
  .calls boaRefV :: derivLoop nd act fun i => boaRefD (i + 1)

/-- `radiance_boa_all`, 378-395. -/
def boaAllV : List (Instr K) :=
  [.mul (cR 0) (cG 0) w1, .isub w1 w1, .getrf w1,
   .mulV (cR 0) (cX 0) v1, .mulV (cT 0) (cY 0) v2, .addV v1 v2 (cM 0), .addV (cM 0) (cS 0) (cM 0), .getrsV w1 (cM 0),
   .mulV (cG 0) (cM 0) (cP 0), .addV (cP 0) (cX 0) (cP 0)]

/-- 402-560. -/
def boaAllD (j : Nat) (a b : Act) : Do K :=
  match a, b with
  | .U, .U | .U, .S => .calls ([.mulV (cR 0) (cX j) v1, .mulV (cT 0) (cY j) v2, .addV v1 v2 (cM j)] ++ tailU j)
  | .U, .L | .U, .B => .calls ([.mul (cR 0) (cG j) w2, .mulV w2 (cM 0) v1, .mulV (cR 0) (cX j) v2, .addV v1 v2 v1,
      .mulV (cT 0) (cY j) v2, .addV v1 v2 (cM j)] ++ tailG j)
  | .S, .U => .calls [.copyV (cM j) (cS j), .getrsV w1 (cM j), .mulV (cG 0) (cM j) (cP j)]
  | .L, .U => .calls ([.mul (cR j) (cG 0) w2, .mulV w2 (cM 0) v1, .mulV (cR j) (cX 0) v2, .addV v1 v2 v1,
      .mulV (cR 0) (cX j) v2, .addV v1 v2 v1, .mulV (cT j) (cY 0) v2, .addV v1 v2 v1,
      .mulV (cT 0) (cY j) v2, .addV v1 v2 (cM j)] ++ tailU j)
  | .L, .L => .calls [.mul (cR j) (cG 0) w2, .mul (cR 0) (cG j) w3, .add w2 w3 w2, .mulV w2 (cM 0) v1,
      .mulV (cR j) (cX 0) v2, .addV v1 v2 v1, .mulV (cT j) (cY 0) v2, .addV v1 v2 v1,
      .mulV (cT 0) (cY j) v2, .addV v1 v2 (cM j), .getrsV w1 (cM j), .mulV (cG j) (cM 0) v1,
      .mulV (cG 0) (cM j) v2, .addV v1 v2 (cP j)]
  | .B, .U | .B, .S => .calls ([.mul (cR j) (cG 0) w2, .mulV w2 (cM 0) v1, .mulV (cR j) (cX 0) v2, .addV v1 v2 v1,
      .mulV (cR 0) (cX j) v2, .addV v1 v2 v1, .mulV (cT j) (cY 0) v2, .addV v1 v2 v1,
      .mulV (cT 0) (cY j) v2, .addV v1 v2 v1, .addV v1 (cS j) (cM j)] ++ tailU j)
  | .B, .L | .B, .B => .calls ([.mul (cR j) (cG 0) w2, .mul (cR 0) (cG j) w3, .add w2 w3 w2, .mulV w2 (cM 0) v1,
      .mulV (cR j) (cX 0) v2, .addV v1 v2 v1, .mulV (cR 0) (cX j) v2, .addV v1 v2 v1, .mulV (cT j) (cY 0) v2,
      .addV v1 v2 v1, .mulV (cT 0) (cY j) v2, .addV v1 v2 v1, .addV v1 (cS j) (cM j)] ++ tailG j)
  | _, _ => .nothing

def boaAll (nd : Nat) (act : Nat → Act × Act) : List (Do K) :=
  .calls boaAllV :: derivLoop nd act fun i => boaAllD (i + 1)

/-! ### The ends of the three ways -/

/-- Radiance at a level: up and down. -/
abbrev Pair (n : Nat) (K : Type) := V n K × V n K

/-- What a call gets: the values (block 0) or a derivative. -/
structure Arg (n : Nat) (K : Type) where
  R : M n K
  T : M n K
  G : M n K
  S : V n K
  x : V n K
  y : V n K

variable [CommRing K]

/-- The memory at the call of a routine: arguments `a`, derivatives `d i`; `old`: what the result arrays hold. -/
def call (a : Arg n K) (d : Nat → Arg n K) (old : Nat → Pair n K) : Mem n K where
  m
    | .scratch _ => 0
    | .ext c => let r := if c / 8 = 0 then a else d (c / 8 - 1)
        match c % 8 with
        | 0 => r.R
        | 1 => r.T
        | 2 => r.G
        | _ => 0
  v
    | .scratch _ => 0
    | .ext c => let r := if c / 8 = 0 then a else d (c / 8 - 1)
        match c % 8 with
        | 0 => r.S
        | 1 => r.x
        | 2 => r.y
        | 3 => (old (c / 8)).1
        | 4 => (old (c / 8)).2
        | _ => 0

/-- The results: block 0 the values. -/
def results (s : Mem n K) (b : Nat) : Pair n K := (s.v (cP b), s.v (cM b))

/-- The atmosphere and what comes in: values or a derivative. `Rp` … are the totals, `Rs` the surface, `In` the light that
starts upward at the bottom (`In_p`), `I1` the light that comes in at the top (`I1_m`). -/
structure Atm (n : Nat) (K : Type) where
  Rp : M n K
  Tp : M n K
  Rm : M n K
  Tm : M n K
  Sp : V n K
  Sm : V n K
  Rs : M n K
  In : V n K
  I1 : V n K

variable (inv? : M n K → Option (M n K))

/-- The end of `fourier_get_add_top_down`, 4577-4599: radiance at the bottom, block 0 and derivatives. -/
def topDown (nd : Nat) (act : Nat → Act × Act) (surface : Bool) (a : Atm n K) (d : Nat → Atm n K) (old : Nat → Pair n K) :
    Except Fault (Nat → Pair n K) :=
  if surface then
    (runDo inv? (boaRef nd act) (call ⟨a.Rp, 0, a.Rs, a.Sm, a.In, 0⟩ (fun i => ⟨(d i).Rp, 0, (d i).Rs, (d i).Sm, (d i).In, 0⟩) old)).map
      results
  else .ok fun
    | 0 => (0, a.Sm)
    | i + 1 => if i < nd then (0, if (act i).1.hasS then (d i).Sm else 0) else old (i + 1)

/-- The end of `fourier_get_add_bottom_up`, 4696-4716: radiance at the top; `S` and `R` are those of
`get_total_TOA_R_S_U_V`. -/
def bottomUp (nd : Nat) (act : Nat → Act × Act) (R : M n K) (S : V n K) (Rl : Nat → M n K) (Sl : Nat → V n K)
    (I1 : V n K) (I1l : Nat → V n K) (old : Nat → Pair n K) : Except Fault (Nat → Pair n K) :=
  (runDo inv? (toaRef nd act) (call ⟨R, 0, 0, S, I1, 0⟩ (fun i => ⟨Rl i, 0, 0, Sl i, I1l i, 0⟩) old)).map fun s b =>
    ((results s b).1, match b with
      | 0 => I1
      | i + 1 => if i < nd then I1l i else (old b).2)

/-- The call of `radiance_slab` for light up at the top, 4854, also in `radiance_toa_all`: `up` is what comes up at the
bottom; with the copy of what comes in. -/
def atTop (nd : Nat) (act : Nat → Act × Act) (a : Atm n K) (d : Nat → Atm n K) (up : Nat → V n K) (old : Nat → Pair n K) :
    Except Fault (Nat → Pair n K) :=
  (runDo inv? (slab nd act) (call ⟨a.Rm, a.Tp, 0, a.Sp, a.I1, up 0⟩
      (fun i => ⟨(d i).Rm, (d i).Tp, 0, (d i).Sp, (d i).I1, up (i + 1)⟩) old)).map fun s b =>
    ((results s b).1, match b with
      | 0 => a.I1
      | i + 1 => if i < nd then (d i).I1 else (old b).2)

/-- ... for light down at the bottom without a surface, 4869. -/
def atBottom (nd : Nat) (act : Nat → Act × Act) (a : Atm n K) (d : Nat → Atm n K) (old : Nat → Pair n K) :
    Except Fault (Nat → Pair n K) :=
  (runDo inv? (slab nd act) (call ⟨a.Rp, a.Tm, 0, a.Sm, a.In, a.I1⟩
      (fun i => ⟨(d i).Rp, (d i).Tm, 0, (d i).Sm, (d i).In, (d i).I1⟩) fun b => ((old b).2, (old b).1))).map fun s b =>
    (match b with
      | 0 => a.In
      | i + 1 => if i < nd then (d i).In else (old b).1, (results s b).1)

/-- `radiance_boa_all`, 4915. -/
def onSurface (nd : Nat) (act : Nat → Act × Act) (a : Atm n K) (d : Nat → Atm n K) (old : Nat → Pair n K) :
    Except Fault (Nat → Pair n K) :=
  (runDo inv? (boaAll nd act) (call ⟨a.Rp, a.Tm, a.Rs, a.Sm, a.In, a.I1⟩
      (fun i => ⟨(d i).Rp, (d i).Tm, (d i).Rs, (d i).Sm, (d i).In, (d i).I1⟩) old)).map results

/-- The end of `fourier_get_add_both_ways`, 4845-4925: what is written to each of the output levels `ul` (the results in the
order of the levels). `old k b`: what the arrays of output `k` hold; `work b`: the work arrays of 4907-4912. A level that is
neither top nor bottom is left alone. -/
def bothWays (nd nLayers : Nat) (act : Nat → Act × Act) (surface : Bool) (ul : List Nat) (a : Atm n K) (d : Nat → Atm n K)
    (old : Nat → Nat → Pair n K) (work : Nat → Pair n K) : Except Fault (Nat → Nat → Pair n K) :=
  if surface then
    -- 4888-4912: where the radiance at the bottom goes
    let k : Option Nat := if ul[0]? = some nLayers then some 0 else if ul[1]? = some nLayers then some 1 else none
    match onSurface inv? nd act a d ((k.map old).getD work) with
    | .error e => .error e
    | .ok bot =>
      let out := fun i => if some i = k then bot else old i
      if ul[0]? = some 0 then
        match atTop inv? nd act a d (fun b => (bot b).1) (out 0) with
        | .error e => .error e
        | .ok top => .ok fun i => if i = 0 then top else out i
      else .ok out
  else
    ul.zipIdx.foldlM (init := old) fun out p =>
      if p.1 = 0 then (atTop inv? nd act a d (fun b => if b = 0 then a.In else (d (b - 1)).In) (out p.2)).map fun r i =>
        if i = p.2 then r else out i
      else if p.1 = nLayers then (atBottom inv? nd act a d (out p.2)).map fun r i => if i = p.2 then r else out i
      else .ok out

end Xrtm.Radiance
