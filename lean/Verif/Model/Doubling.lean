import Verif.Model.Total
import Mathlib.Analysis.SpecialFunctions.Log.Basic

/-!
# Doubling of a layer

`layer_double`, `layer_double_l` (`src/xrtm_doubling.c`) and the loop that calls them in `rtm_doub_rts`
(`src/xrtm_doub_rts.c:281-325`), as programs of matrix calls. The arrays of one call are separate allocations, so their
places are fixed here: matrices `R`, `T` and per derivative `R_l[i]`, `T_l[i]`, vectors `Se_m, Se_p, Sl_m, Sl_p, L_m, L_p`
and per derivative the same. The start values of the thin layer (`xrtm_doub_rts.c:25-278`) are plain formulas. Not modelled:
the variants with `_s` for the symmetric form (off at compile time, `xrtm.h:34`), the branches for
`DOUB_RTS_USE_PARTICULAR_SOLUTION` (0, `xrtm.h:51`).
-/

namespace Xrtm.Doubling

open Mat

def R : MCell := .ext 0
def T : MCell := .ext 1
def Rl (i : Nat) : MCell := .ext (2 * i + 2)
def Tl (i : Nat) : MCell := .ext (2 * i + 3)

def Sem : VCell := .ext 0
def Sep : VCell := .ext 1
def Slm : VCell := .ext 2
def Slp : VCell := .ext 3
def Lm : VCell := .ext 4
def Lp : VCell := .ext 5
def Seml (i : Nat) : VCell := .ext (6 * i + 6)
def Sepl (i : Nat) : VCell := .ext (6 * i + 7)
def Slml (i : Nat) : VCell := .ext (6 * i + 8)
def Slpl (i : Nat) : VCell := .ext (6 * i + 9)
def Lml (i : Nat) : VCell := .ext (6 * i + 10)
def Lpl (i : Nat) : VCell := .ext (6 * i + 11)

def w1 : MCell := .scratch 0
def w2 : MCell := .scratch 1
def P : MCell := .scratch 2
def A : MCell := .scratch 3
def B : MCell := .scratch 4
def Al : MCell := .scratch 5

def v1 : VCell := .scratch 1
def v2 : VCell := .scratch 2
def v3 : VCell := .scratch 3
def v4 : VCell := .scratch 4
def v5 : VCell := .scratch 5
def a : VCell := .scratch 10
def b : VCell := .scratch 11
def c : VCell := .scratch 12
def d : VCell := .scratch 13
def e : VCell := .scratch 14
def f : VCell := .scratch 15

section
variable {K : Type}

/-! ## `layer_double`, `xrtm_doubling.c:31-165` -/

/-- 66-74. -/
def head : List (Instr K) :=
  [.mul R R w1, .isub w1 w1, .trans w1 w2, .getrf w2, .copy A T, .getrs w2 A]

/-- 80-98, `atran` is `t`. -/
def solar (t : K) : List (Instr K) :=
  [.mulV R Sem v1, .scaleV t Sep v2, .addV v1 v2 v2, .mulV A v2 v1,
   .mulV R Sep v2, .scaleV t v2 v2, .addV v2 Sem v3, .mulV A v3 v2,
   .addV v1 Sep Sep, .scaleV t Sem Sem, .addV v2 Sem Sem]

/-- 105-108. -/
def initL : List (Instr K) := [.copyV Lp Slp, .copyV Lm Slm]

/-- 110-145, `lin_fac` is `g`. -/
def thermal (g : K) : List (Instr K) :=
  [.mulV R Slm v1, .addV v1 Slp v1, .scaleV g Lp v2, .addV v1 v2 v2, .mulV A v2 v1,
   .scaleV g Lp v2, .addV Slp v2 v2, .mulV R v2 v3, .addV v3 Slm v3, .mulV A v3 v2,
   .addV v1 Slp Slp, .addV v2 Slm Slm, .scaleV g Lm v1, .addV Slm v1 Slm]
  ++ [.mulV R Lm v1, .addV v1 Lp v2, .mulV A v2 v1,
   .mulV R Lp v2, .addV v2 Lm v3, .mulV A v3 v2,
   .addV v1 Lp Lp, .addV v2 Lm Lm]

/-- 152-164. -/
def tail : List (Instr K) := [.mul A R w1, .gemm w1 T R, .mul A T w1, .copy T w1]

def layerDouble (t g : K) (sol th init : Bool) : List (Instr K) :=
  head ++ (if sol then solar t else []) ++ (if th then (if init then initL else []) ++ thermal g else []) ++ tail

/-! ## `layer_double_l`, 296-735 -/

/-- 358-370. -/
def headL : List (Instr K) :=
  [.mul R R P, .isub P w1, .trans w1 P, .getrf P, .copy A T, .getrs P A, .mul R T B]

/-- 372-382. -/
def preSolar (t : K) : List (Instr K) :=
  [.mulV R Sem v1, .scaleV t Sep v2, .addV v1 v2 a, .mulV R Sep v1, .scaleV t v1 v1, .addV v1 Sem b]

/-- 390-410. -/
def preThermal (g : K) : List (Instr K) :=
  [.mulV R Slm v1, .addV v1 Slp v1, .scaleV g Lp v2, .addV v1 v2 e,
   .scaleV g Lp v1, .addV Slp v1 v1, .mulV R v1 v2, .addV v2 Slm f,
   .mulV R Lm v1, .addV v1 Lp c, .mulV R Lp v1, .addV v1 Lm d]

/-- 420-430. -/
def derivA (i : Nat) : List (Instr K) :=
  [.copy Al (Tl i), .getrs P Al, .mul (Rl i) R w1, .mul R (Rl i) w2, .add w1 w2 w1, .getrs P w1, .mul A w1 w2,
   .add Al w2 Al]

/-- 436-477. -/
def solarL (i : Nat) (t tl : K) : List (Instr K) :=
  [.mulV Al a v1, .mulV (Rl i) Sem v2, .mulV R (Seml i) v3, .addV v2 v3 v2, .scaleV t (Sepl i) v3, .addV v2 v3 v2,
   .scaleV tl Sep v3, .addV v2 v3 v2, .mulV A v2 v3, .addV v1 v3 v1]
  ++ [.mulV Al b v2, .scaleV t (Sepl i) v3, .scaleV tl Sep v4, .addV v3 v4 v3, .mulV R v3 v4, .mulV (Rl i) Sep v3,
   .scaleV t v3 v3, .addV v3 v4 v3, .addV v3 (Seml i) v3, .mulV A v3 v4, .addV v2 v4 v2]
  ++ [.addV v1 (Sepl i) (Sepl i), .scaleV t (Seml i) v3, .addV v2 v3 v2, .scaleV tl Sem v3, .addV v2 v3 (Seml i)]

/-- 484-487. -/
def initLl (i : Nat) : List (Instr K) := [.copyV (Lpl i) (Slpl i), .copyV (Lml i) (Slml i)]

/-- 489-533: the first part of the thermal sources. -/
def thermalL1 (i : Nat) (g gl : K) : List (Instr K) :=
  [.mulV Al e v1, .mulV (Rl i) Slm v2, .mulV R (Slml i) v3, .addV v2 v3 v2, .addV v2 (Slpl i) v2, .scaleV g (Lpl i) v3,
   .addV v2 v3 v2, .scaleV gl Lp v3, .addV v2 v3 v2, .mulV A v2 v3, .addV v1 v3 v1]
  ++ [.mulV Al f v2, .scaleV g Lp v3, .addV Slp v3 v3, .mulV (Rl i) v3 v4,
   .scaleV g (Lpl i) v3, .addV (Slpl i) v3 v3, .scaleV gl Lp v5, .addV v3 v5 v3, .mulV R v3 v5,
   .addV v4 v5 v3, .addV v3 (Slml i) v3, .mulV A v3 v4, .addV v2 v4 v2]
  ++ [.addV v1 (Slpl i) (Slpl i), .addV v2 (Slml i) (Slml i), .scaleV g (Lml i) v2, .addV (Slml i) v2 (Slml i),
   .scaleV gl Lm v2, .addV (Slml i) v2 (Slml i)]

/-- 536-563: the second. -/
def thermalL2 (i : Nat) : List (Instr K) :=
  [.mulV Al c v1, .mulV (Rl i) Lm v2, .mulV R (Lml i) v3, .addV v2 v3 v2, .addV v2 (Lpl i) v2, .mulV A v2 v3, .addV v1 v3 v1,
   .mulV Al d v2, .mulV (Rl i) Lp v3, .mulV R (Lpl i) v4, .addV v3 v4 v3, .addV v3 (Lml i) v3, .mulV A v3 v4, .addV v2 v4 v2,
   .addV v1 (Lpl i) (Lpl i), .addV v2 (Lml i) (Lml i)]

/-- 571-588. -/
def derivRT (i : Nat) : List (Instr K) :=
  [.mul (Rl i) T w1, .mul R (Tl i) w2, .add w1 w2 w1, .mul A w1 w2, .add (Rl i) w2 (Rl i), .mul Al B w1,
   .add (Rl i) w1 (Rl i), .mul Al T w1, .mul A (Tl i) w2, .add w1 w2 (Tl i)]

/-- 596-627: the layer itself does not vary. -/
def solarS (i : Nat) (t tl : K) : List (Instr K) :=
  [.mulV R (Seml i) v1, .scaleV t (Sepl i) v2, .addV v1 v2 v1, .scaleV tl Sep v2, .addV v1 v2 v2, .mulV A v2 v1,
   .scaleV t (Sepl i) v2, .scaleV tl Sep v3, .addV v2 v3 v2, .mulV R v2 v3, .addV v3 (Seml i) v3, .mulV A v3 v2,
   .addV v1 (Sepl i) (Sepl i), .scaleV t (Seml i) v3, .addV v2 v3 v2, .scaleV tl Sem v3, .addV v2 v3 (Seml i)]

/-- 639-668. -/
def thermalS1 (i : Nat) (g gl : K) : List (Instr K) :=
  [.mulV R (Slml i) v2, .addV v2 (Slpl i) v2, .scaleV g (Lpl i) v3, .addV v2 v3 v2, .scaleV gl Lp v3, .addV v2 v3 v2,
   .mulV A v2 v1,
   .scaleV g (Lpl i) v3, .addV (Slpl i) v3 v3, .scaleV gl Lp v5, .addV v3 v5 v3, .mulV R v3 v5, .addV v5 (Slml i) v3,
   .mulV A v3 v2,
   .addV v1 (Slpl i) (Slpl i), .addV v2 (Slml i) (Slml i), .scaleV g (Lml i) v2, .addV (Slml i) v2 (Slml i),
   .scaleV gl Lm v2, .addV (Slml i) v2 (Slml i)]

/-- 671-687. -/
def thermalS2 (i : Nat) : List (Instr K) :=
  [.mulV R (Lml i) v2, .addV v2 (Lpl i) v2, .mulV A v2 v1, .mulV R (Lpl i) v3, .addV v3 (Lml i) v3, .mulV A v3 v2,
   .addV v1 (Lpl i) (Lpl i), .addV v2 (Lml i) (Lml i)]

/-- The scalars of one call: `atran`, `atran_l`, `lin_fac`, `lin_fac_l`. -/
structure Scal (K : Type) where
  t : K
  tl : Nat → K
  g : K
  gl : Nat → K

/-- The three rows of activity flags. -/
structure Flags where
  lay : Nat → Bool
  beam : Nat → Bool
  therm : Nat → Bool

/-- One turn of the loop over the derivatives, 417-690. -/
def deriv (x : Scal K) (fl : Flags) (sol th init : Bool) (i : Nat) : List (Instr K) :=
  if fl.lay i then
    derivA i ++ (if sol && fl.beam i then solarL i x.t (x.tl i) else []) ++
      (if th && fl.therm i then (if init then initLl i else []) ++ thermalL1 i x.g (x.gl i) ++ thermalL2 i else []) ++ derivRT i
  else
    (if sol && fl.beam i then solarS i x.t (x.tl i) else []) ++
      (if th && fl.therm i then (if init then initLl i else []) ++ thermalS1 i x.g (x.gl i) ++ thermalS2 i else [])

def derivs (x : Scal K) (fl : Flags) (sol th init : Bool) : Nat → List (Instr K)
  | 0 => []
  | k + 1 => derivs x fl sol th init k ++ deriv x fl sol th init k

/-- 696-704. -/
def postSolar (t : K) : List (Instr K) :=
  [.mulV A a v1, .addV v1 Sep Sep, .mulV A b v1, .scaleV t Sem Sem, .addV v1 Sem Sem]

/-- 711-727. -/
def postThermal (g : K) : List (Instr K) :=
  [.mulV A e v1, .addV v1 Slp Slp, .mulV A f v1, .addV v1 Slm Slm, .scaleV g Lm v1, .addV Slm v1 Slm,
   .mulV A c v1, .addV v1 Lp Lp, .mulV A d v1, .addV v1 Lm Lm]

/-- 733-740. -/
def tailL : List (Instr K) := [.mul A B w1, .add R w1 R, .mul A T w1, .copy T w1]

def layerDoubleL (nd : Nat) (x : Scal K) (fl : Flags) (sol th init : Bool) : List (Instr K) :=
  headL ++ (if sol then preSolar x.t else []) ++ (if th then (if init then initL else []) ++ preThermal x.g else []) ++
    derivs x fl sol th init nd ++
    (if sol then postSolar x.t else []) ++ (if th then postThermal x.g else []) ++ tailL

end

section
variable {n : Nat} {K : Type} [CommRing K]

/-- The scalars after a turn of the loop: 297-322. `c` counts the thin layers, `path` is `d_path_l`. -/
def Scal.next (x : Scal K) (c : K) (path : Nat → K) (nd : Nat) (fl : Flags) (sol th : Bool) : Scal K where
  t := if sol then x.t * x.t else x.t
  tl j := if sol && decide (j < nd) && fl.beam j then path j * (x.t * x.t) * (c * 2) else x.tl j
  g := if th then x.g * 2 else x.g
  gl j := if th && decide (j < nd) && fl.therm j then x.gl j * 2 else x.gl j

/-- Whether the routine without derivatives is called: 284. -/
def plain (nd : Nat) (fl : Flags) (sol th : Bool) : Bool :=
  !((List.range nd).any fl.lay) && !(sol && (List.range nd).any fl.beam) && !(th && (List.range nd).any fl.therm)

/-- The loop of `rtm_doub_rts`, 281-325: `k` turns to go, `init` in the first. (In the code `c` is doubled only if some
beam flag is set; it is read only then.) -/
def loop (inv? : M n K → Option (M n K)) (nd : Nat) (fl : Flags) (sol th : Bool) (path : Nat → K) :
    Nat → Bool → Scal K → K → Mem n K → Except Fault (Mem n K × Scal K)
  | 0, _, x, _, s => .ok (s, x)
  | k + 1, init, x, c, s =>
      match run inv? (if plain nd fl sol th then layerDouble x.t x.g sol th init else layerDoubleL nd x fl sol th init) s with
      | .ok s' => loop inv? nd fl sol th path k false (x.next c path nd fl sol th) (c * 2) s'
      | .error e => .error e

end

/-! ## The thin layer, `xrtm_doub_rts.c:136-278` -/

section
variable {n : Nat} {K : Type} [Field K] [DecidableEq K]

/-- What the thin layer depends on: `r_p`, `t_p`, `P_q0_pm`, `P_q0_mm`, `omega`, `d_tau`, `as_0`, `planck0`, `planck1`. -/
structure In (n : Nat) (K : Type) where
  r : M n K
  t : M n K
  pm : V n K
  mm : V n K
  om : K
  dt : K
  as0 : K
  b0 : K
  b1 : K

/-- What no derivative is taken of: `F_0 / 4 PI`, `1 / qx_v`, the signs `D` (the identity unless `vector`), `exp`. -/
structure Env0 (n : Nat) (K : Type) where
  a : K
  w : V n K
  D : M n K
  exp : K → K

/-- `dm_v_dinv_mul(qx_v, ...)`. -/
def over (o : Env0 n K) (v : V n K) : V n K := fun j => o.w j * v j

/-- 168. -/
def tran (o : Env0 n K) (z : In n K) : K := o.exp (-z.dt * z.as0)

/-- 172, 178. -/
def path (lay : Bool) (z z' : In n K) : K := if lay then -z'.dt * z.as0 - z.dt * z'.as0 else -z.dt * z'.as0

/-- 186. -/
def amp (o : Env0 n K) (z : In n K) : K := o.a * z.om * tran o z * z.dt

/-- 226-228 (`d_tran_l` is `path * tran`). -/
def ampL (o : Env0 n K) (z z' : In n K) : K :=
  o.a * (z'.om * tran o z * z.dt + z.om * (path true z z' * tran o z) * z.dt + z.om * tran o z * z'.dt)

/-- 215, 252-254. -/
def emit (z : In n K) : K := (1 - z.om) * z.b0 * z.dt
def emitL (lay : Bool) (z z' : In n K) : K :=
  if lay then -z'.om * z.b0 * z.dt + (1 - z.om) * z'.b0 * z.dt + (1 - z.om) * z.b0 * z'.dt else (1 - z.om) * z'.b0 * z.dt

/-- 200-213, `k` is `n_doub`. -/
def linFac (k : Nat) (z : In n K) : K := if z.b0 = 0 then 0 else (z.b1 / z.b0 - 1) / 2 ^ k
def linFacL (k : Nat) (z z' : In n K) : K :=
  if z.b0 = 0 then 0 else (z'.b1 - z.b1 * z'.b0 / z.b0) / z.b0 / 2 ^ k

/-- The scalars at the start. -/
def scal0 (o : Env0 n K) (k : Nat) (fl : Flags) (z : In n K) (dz : Nat → In n K) : Scal K where
  t := tran o z
  tl i := path (fl.lay i) z (dz i) * tran o z
  g := linFac k z
  gl i := linFacL k z (dz i)

/-- The arrays at the start: 136-160, 188-197, 215-221, 224-277. Cells not set by the code keep `0`. -/
def mem0 (o : Env0 n K) (fl : Flags) (z : In n K) (dz : Nat → In n K) : Mem n K where
  m c := match c with
    | .ext 0 => o.D * (-z.dt • z.r)
    | .ext 1 => 1 - -z.dt • z.t
    | .ext (k + 2) =>
        let z' := dz (k / 2)
        if fl.lay (k / 2) = false then 0
        else if k % 2 = 0 then o.D * (-z.dt • z'.r + -z'.dt • z.r) else z.dt • z'.t + z'.dt • z.t
    | .scratch _ => 0
  v c := match c with
    | .ext 0 => o.D.mulVec (amp o z • over o z.mm)
    | .ext 1 => amp o z • over o z.pm
    | .ext 2 => over o fun _ => emit z
    | .ext 3 => over o fun _ => emit z
    | .ext 4 => 0
    | .ext 5 => 0
    | .ext (k + 6) =>
        let z' := dz (k / 6)
        match k % 6 with
        | 0 => if fl.lay (k / 6) then o.D.mulVec (over o (ampL o z z' • z.mm + amp o z • z'.mm)) else 0
        | 1 => if fl.lay (k / 6) then over o (ampL o z z' • z.pm + amp o z • z'.pm) else 0
        | 2 => over o fun _ => emitL (fl.lay (k / 6)) z z'
        | 3 => over o fun _ => emitL (fl.lay (k / 6)) z z'
        | _ => 0
    | .scratch _ => 0

/-- `rtm_doub_rts` for `k` doublings: the loop from these values (`xrtm_doub_rts.c:136-325`). -/
def doub (inv? : M n K → Option (M n K)) (o : Env0 n K) (k nd : Nat) (fl : Flags) (sol th : Bool) (z : In n K)
    (dz : Nat → In n K) : Except Fault (Mem n K × Scal K) :=
  loop inv? nd fl sol th (fun i => path (fl.lay i) z (dz i)) k true (scal0 o k fl z dz) 1 (mem0 o fl z dz)

end

/-! ## The number of doublings, `calc_doub_params`, `xrtm_doub_rts.c:25-45` -/

/-- `n_doub` and the thickness of the thin layer, in real arithmetic (the cast to `int` truncates, its argument is at
least 1 here). -/
noncomputable def doubParams (ltau dTau : ℝ) : Nat × ℝ :=
  let d := min ltau dTau
  let k := ⌊Real.log (ltau / d) / Real.log 2 + 1⌋₊
  (k, ltau / 2 ^ k)

end Xrtm.Doubling
