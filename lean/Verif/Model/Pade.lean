import Verif.Model.Doubling
import Verif.Model.Eig
import Mathlib.Analysis.SpecialFunctions.Log.Basic

/-!
# The solver of a layer by Padé approximants

src/xrtm_pade_rts.c:34-110, 193-397, 460-721, 776-1081, 1829-2275, 2282-2665, src/pade_table.h, src/pade_table_l.h,
src/xrtm_interface.c:2869-2891.

Simplified: real numbers for `double`; the solver of linear systems is a
parameter that gives an inverse or nothing; the symmetric form
(`use_symmetric_form`, `calc_n_d_sym_3`) is not modelled.  The rows of the extra
directions, kept as `d1` and `d2`, are rows of one matrix here; that the
operations on them are those on the matrix is a theorem about `Rows`.  Sources
are those of `Model/Source`.
-/

namespace Xrtm.Pade
open Matrix Source

/-! ## The parameters -/

/-- Column 1 of `pade_table_s` and `pade_table_r`, src/pade_table.h:78-183. -/
def table : List (Nat × Nat) :=
  [(0, 2), (0, 2), (0, 2), (0, 2), (0, 2), (0, 2), (0, 2), (0, 2), (0, 3), (0, 3),
   (0, 3), (0, 3), (0, 5), (0, 5), (0, 5), (0, 5), (0, 5), (0, 5), (0, 5), (0, 7),
   (0, 7), (0, 7), (0, 7), (0, 9), (0, 9), (0, 9), (0, 13), (1, 7), (1, 7), (1, 9),
   (2, 5), (2, 7), (2, 7), (2, 9), (3, 5), (3, 7), (3, 7), (4, 5), (4, 5), (4, 7),
   (4, 7), (5, 5), (5, 5), (5, 5), (5, 7), (6, 5), (6, 5), (6, 5), (7, 3), (7, 3)]

/-- Column 1 of `pade_table_s_l` and `pade_table_r_l`, src/pade_table_l.h:58-163. -/
def tableL : List (Nat × Nat) :=
  [(0, 2), (0, 2), (0, 2), (0, 2), (0, 2), (0, 3), (0, 3), (0, 3), (0, 3), (0, 3),
   (0, 5), (0, 5), (0, 5), (0, 5), (0, 5), (0, 5), (0, 7), (0, 7), (0, 7), (0, 7),
   (0, 9), (0, 9), (0, 9), (0, 9), (0, 9), (0, 13), (0, 13), (1, 7), (1, 7), (1, 9),
   (2, 5), (2, 7), (2, 7), (2, 9), (3, 5), (3, 7), (3, 7), (4, 5), (4, 5), (4, 7),
   (4, 7), (5, 5), (5, 5), (5, 5), (5, 7), (6, 5), (6, 5), (6, 5), (7, 3), (7, 3)]

/-- `dmat_p_one_norm_A`, src/xrtm_matrix.c:116-134 (a sum is not negative, so that 0 serves for `-DBL_MAX`). -/
noncomputable def oneNorm {n : Nat} (r t : M n) : ℝ :=
  (List.finRange n).foldl (fun m j => let s := ∑ i, (|t i j| + |r i j|); if m < s then s else m) 0

/-- What becomes of the choice of `s` and `r`. -/
inductive Choice
  | use (s r : Nat)
  /-- A read beyond the table. -/
  | outside
  /-- `exit(1)`. -/
  | exits
  deriving DecidableEq

/-- `a`, src/xrtm_pade_rts.c:55; `pade_table_norm0`, src/pade_table.h:15. -/
noncomputable def thickness {n : Nat} (r t : M n) (ltau : ℝ) : ℝ := oneNorm r t / 189.8268 * ltau

/-- `pade_get_s_and_r`, src/xrtm_pade_rts.c:34-85.  `angle` is 1 as no direction asked for is negative, so that the column is 1:
40-51, 68-76. -/
noncomputable def lookup (derivs : Bool) (a : ℝ) : Choice :=
  let i := 25 + ⌈Real.log a / 0.24⌉
  if i < 0 then
    match (if derivs then tableL else table)[0]? with
    | some (s, r) => .use s r
    | none => .outside
  else if 50 < i then .exits
  else
    match (if derivs then tableL else table)[i.toNat]? with
    | some (s, r) => .use s r
    | none => .outside

/-- Which values are used, src/xrtm_pade_rts.c:2391-2392.  `xrtm_set_pade_params` takes any, src/xrtm_interface.c:2869-2891. -/
noncomputable def choose (ps pr : ℤ) (derivs : Bool) (a : ℝ) : Choice :=
  if ps < 0 ∨ pr ≤ 0 then lookup derivs a else .use ps.toNat pr.toNat

/-- `pade_coefs_x` for `f = 1`, src/xrtm_pade_rts.c:92-110: the value left at `i`. -/
noncomputable def coef (p : Nat) : Nat → ℝ
  | 0 => 1
  | i + 1 => coef p i * (((p : ℝ) - i) / ((2 * p - i) * (i + 1)))

/-- The indices written, 97 and 104. -/
def written (p : Nat) : List Nat := 0 :: (List.range p).map (· + 1)

/-- `MAX_PADE_R`, src/xrtm_pade_rts.h:21. -/
def maxR : Nat := 32

/-! ## The numerator -/

section poly
variable {A : Type} [Ring A] [Algebra ℝ A]

/-- One power of `w` with what has been summed: `w11[j]`, `N11`, `D11` (or `w22[j]`, `N22`, `D22`). -/
structure Sum (A : Type) where
  x : A
  N : A
  D : A

/-- The first terms, src/xrtm_pade_rts.c:1020-1029. -/
noncomputable def first (c : Nat → ℝ) (r : Nat) (w : A) : Sum A :=
  ⟨w, c 0 • 1 + c 2 • w, c 1 • 1 + (if 2 < r then c 3 else 0) • w⟩

/-- One turn, 1049, `add_u_v_term_3_d2` 460-487. -/
noncomputable def step (c : Nat → ℝ) (r : Nat) (w : A) (i : Nat) (s : Sum A) : Sum A :=
  ⟨s.x * w, s.N + c i • (s.x * w), s.D + (if i < r then c (i + 1) else 0) • (s.x * w)⟩

/-- `k` turns from `i = 4`, 1047-1059. -/
noncomputable def turns (c : Nat → ℝ) (r : Nat) (w : A) : Nat → Sum A
  | 0 => first c r w
  | k + 1 => step c r w (4 + 2 * k) (turns c r w k)

/-- The general case, 1019-1060: `i` goes from 4 to `pade_r` in steps of 2. -/
noncomputable def series (c : Nat → ℝ) (r : Nat) (w : A) : A × A :=
  let s := turns c r w (r / 2 - 1)
  (s.N, s.D)

/-- The case of 12 and 13, 910-1013: `N12` and `D12` hold the sums that are multiplied by the third power. -/
noncomputable def high (c : Nat → ℝ) (r : Nat) (w : A) : A × A :=
  let c3 := if 2 < r then c 3 else 0
  let c5 := if 4 < r then c 5 else 0
  let c9 := if 8 < r then c 9 else 0
  let c11 := if 10 < r then c 11 else 0
  let c13 := if 12 < r then c 13 else 0
  let x2 := w * w
  let x3 := x2 * w
  let N := c 0 • (1 : A) + c 2 • w + c 4 • x2
  let D := c 1 • (1 : A) + c3 • w + c5 • x2
  let N' := c 6 • (1 : A) + c 8 • w + c 10 • x2 + c 12 • x3
  let D' := c 7 • (1 : A) + c9 • w + c11 • x2 + c13 • x3
  (x3 * N' + N, x3 * D' + D)

/-- Two by two blocks. -/
@[ext] structure Blocks (A : Type) where
  b11 : A
  b12 : A
  b21 : A
  b22 : A

/-- `calc_n_d_gen_3`, src/xrtm_pade_rts.c:776-1081, without derivatives. -/
noncomputable def numer (c : Nat → ℝ) (r : Nat) (A12 A21 : A) : Blocks A :=
  if r = 1 then ⟨c 0 • 1, c 1 • A12, c 1 • A21, c 0 • 1⟩
  else if r = 2 then ⟨c 0 • 1 + c 2 • (A12 * A21), c 1 • A12, c 1 • A21, c 0 • 1 + c 2 • (A21 * A12)⟩
  else
    let p := if r = 12 ∨ r = 13 then high c r (A12 * A21) else series c r (A12 * A21)
    let q := if r = 12 ∨ r = 13 then high c r (A21 * A12) else series c r (A21 * A12)
    ⟨p.1, A12 * q.2, A21 * p.2, q.1⟩

/-! ### Derivatives -/

/-- Derivatives: 1031-1045. -/
noncomputable def firstL (c : Nat → ℝ) (r : Nat) (w' : A) : Sum A :=
  ⟨w', 0 + c 2 • w', 0 + (if 2 < r then c 3 else 0) • w'⟩

/-- 1051-1056, `add_u_v_term_l_3_d2` 491-526. -/
noncomputable def turnL (c : Nat → ℝ) (r : Nat) (w w' : A) (i : Nat) (s s' : Sum A) : Sum A :=
  let y := s'.x * w + s.x * w'
  ⟨y, s'.N + c i • y, s'.D + (if i < r then c (i + 1) else 0) • y⟩

noncomputable def turnsL (c : Nat → ℝ) (r : Nat) (w w' : A) : Nat → Sum A
  | 0 => firstL c r w'
  | k + 1 => turnL c r w w' (4 + 2 * k) (turns c r w k) (turnsL c r w w' k)

noncomputable def seriesL (c : Nat → ℝ) (r : Nat) (w w' : A) : A × A :=
  let s := turnsL c r w w' (r / 2 - 1)
  (s.N, s.D)

/-- 928-1012. -/
noncomputable def highL (c : Nat → ℝ) (r : Nat) (w w' : A) : A × A :=
  let c3 := if 2 < r then c 3 else 0
  let c5 := if 4 < r then c 5 else 0
  let c9 := if 8 < r then c 9 else 0
  let c11 := if 10 < r then c 11 else 0
  let c13 := if 12 < r then c 13 else 0
  let x2 := w * w
  let y2 := w' * w + w * w'
  let x3 := x2 * w
  let y3 := y2 * w + x2 * w'
  let N' := c 6 • (1 : A) + c 8 • w + c 10 • x2 + c 12 • x3
  let D' := c 7 • (1 : A) + c9 • w + c11 • x2 + c13 • x3
  let O := 0 + c 2 • w' + c 4 • y2
  let E := 0 + c3 • w' + c5 • y2
  let O' := 0 + c 8 • w' + c 10 • y2 + c 12 • y3
  let E' := 0 + c9 • w' + c11 • y2 + c13 • y3
  (x3 * O' + (y3 * N' + O), x3 * E' + (y3 * D' + E))

/-- `calc_n_d_gen_3`, the derivatives: to 1012 for the cases of their own, 1031-1056, 1069-1080. -/
noncomputable def numerL (c : Nat → ℝ) (r : Nat) (A12 A21 B12 B21 : A) : Blocks A :=
  if r = 1 then ⟨0 • 1, c 1 • B12, c 1 • B21, 0 • 1⟩
  else if r = 2 then
    ⟨0 • 1 + c 2 • (B12 * A21 + A12 * B21), c 1 • B12, c 1 • B21, 0 • 1 + c 2 • (B21 * A12 + A21 * B12)⟩
  else
    let p := if r = 12 ∨ r = 13 then high c r (A12 * A21) else series c r (A12 * A21)
    let q := if r = 12 ∨ r = 13 then high c r (A21 * A12) else series c r (A21 * A12)
    let w1' := B12 * A21 + A12 * B21
    let w2' := B21 * A12 + A21 * B12
    let p' := if r = 12 ∨ r = 13 then highL c r (A12 * A21) w1' else seriesL c r (A12 * A21) w1'
    let q' := if r = 12 ∨ r = 13 then highL c r (A21 * A12) w2' else seriesL c r (A21 * A12) w2'
    ⟨p'.1, B12 * q.2 + A12 * q'.2, B21 * p.2 + A21 * p'.2, q'.1⟩

/-- `reduced_recover`, src/xrtm_pade_rts.c:533-721 (696-720 for the rows of the extra directions). -/
noncomputable def recover (n : Blocks A) : Blocks A :=
  let a := (1 / 2 : ℝ) • (n.b11 + n.b21)
  let b := (1 / 2 : ℝ) • (n.b11 - n.b21)
  let c := (1 / 2 : ℝ) • (n.b12 + n.b22)
  let d := (1 / 2 : ℝ) • (n.b12 - n.b22)
  ⟨a + c, a - c, b + d, b - d⟩

end poly

/-! ## Reflection and transmission of the thin layer -/

section thin
variable {n : Nat}

/-- What `pade_calc_R_and_T_2` finds and keeps. -/
structure Thin (n : Nat) where
  x : M n
  y : M n
  c : M n
  d : M n
  R : M n
  T : M n

/-- `pade_calc_R_and_T_2` with `reduced`, not symmetric, src/xrtm_pade_rts.c:1940-2002; `x` and `y` stand for the factors `lu1`
and `lu2`. -/
def calcRT (inv? : M n → Option (M n)) (N : Blocks (M n)) : Option (Thin n) :=
  let D22 := N.b11
  let D21 := N.b12
  let D12 := N.b21
  let D11 := N.b22
  match inv? D11 with
  | none => none
  | some x =>
    let c := x * N.b12
    let d := x * D12
    match inv? (D21 * c - N.b22) with
    | none => none
    | some y =>
      let b := D21 * d - D22
      let T := y * b
      some ⟨x, y, c, d, c * T - d, T⟩

/-- The derivatives, 2066-2161. -/
def calcRTL (N O : Blocks (M n)) (o : Thin n) : M n × M n :=
  let D21 := N.b12
  let E22 := O.b11
  let E21 := O.b12
  let E12 := O.b21
  let E11 := O.b22
  let c' := o.x * (O.b12 - E11 * o.c)
  let d' := o.x * (E12 - E11 * o.d)
  let a' := E21 * o.c + D21 * c' - O.b22
  let b' := E21 * o.d + D21 * d' - E22
  let T' := o.y * (b' - a' * o.T)
  (c' * o.T + o.c * T' - d', T')

/-! ## The layer -/

/-- What the layer depends on: `r_p`, `t_p`, `ltau`. -/
structure In (n : Nat) where
  r : M n
  t : M n
  ltau : ℝ

/-- `A12` and `A21`, src/xrtm_pade_rts.c:2490-2516. -/
noncomputable def scaled (ns s : Nat) (z : In n) : M n × M n :=
  let x := txr ns z.r z.t
  let a := z.ltau / (2 ^ s : Nat)
  (a • x.1, a • x.2)

/-- `B12` and `B21`, 2518-2550. -/
noncomputable def scaledL (ns s : Nat) (z z' : In n) : M n × M n :=
  let x := txr ns z.r z.t
  let x' := txr ns z'.r z'.t
  let a := z.ltau / (2 ^ s : Nat)
  let b := z'.ltau / (2 ^ s : Nat)
  (a • x'.1 + b • x.1, a • x'.2 + b • x.2)

/-- The thin layer: 2556-2615. -/
noncomputable def thin (inv? : M n → Option (M n)) (ns s r : Nat) (z : In n) : Option (Thin n) :=
  let a := scaled ns s z
  calcRT inv? (recover (numer (coef r) r a.1 a.2))

noncomputable def thinL (ns s r : Nat) (z z' : In n) (o : Thin n) : M n × M n :=
  let a := scaled ns s z
  let b := scaledL ns s z z'
  calcRTL (recover (numer (coef r) r a.1 a.2)) (recover (numerL (coef r) r a.1 a.2 b.1 b.2)) o

/-- The arrays before the doubling, 2608-2630.  Cells not set by the code keep `0`. -/
noncomputable def mem0 (ns s r : Nat) (fl : Doubling.Flags) (z : In n) (dz : Nat → In n) (o : Thin n) : Mat.Mem n ℝ where
  m c := match c with
    | .ext 0 => o.R
    | .ext 1 => o.T
    | .ext (k + 2) =>
        if fl.lay (k / 2) = false then 0
        else if k % 2 = 0 then (thinL ns s r z (dz (k / 2)) o).1 else (thinL ns s r z (dz (k / 2)) o).2
    | .scratch _ => 0
  v _ := 0

/-- What becomes of a call. -/
inductive Outcome (n : Nat)
  | ok (s : Mat.Mem n ℝ)
  | singular
  /-- The coefficients are written beyond `pade_c`. -/
  | overrun
  /-- `1 << pade_s` has no value. -/
  | shift
  | outside
  | exits

/-- `rtm_pade_rts2` up to the doubling, src/xrtm_pade_rts.c:2391-2645, for `s` and `r` chosen. -/
noncomputable def layer (inv? : M n → Option (M n)) (ns s r nd : Nat) (fl : Doubling.Flags) (z : In n) (dz : Nat → In n) :
    Outcome n :=
  if (written r).any (fun i => decide (maxR ≤ i)) then .overrun
  else if 31 ≤ s then .shift
  else
    match thin inv? ns s r z with
    | none => .singular
    | some o =>
      match Doubling.loop inv? nd fl false false (fun _ => 0) s true ⟨0, fun _ => 0, 0, fun _ => 0⟩ 1
          (mem0 ns s r fl z dz o) with
      | .ok (m, _) => .ok m
      | .error _ => .singular

/-- The call: `ps`, `pr` as given by the user. -/
noncomputable def pade (inv? : M n → Option (M n)) (ns : Nat) (ps pr : ℤ) (nd : Nat) (fl : Doubling.Flags) (z : In n)
    (dz : Nat → In n) : Outcome n :=
  match choose ps pr ((List.range nd).any fl.lay) (thickness z.r z.t z.ltau) with
  | .use s r => layer inv? ns s r nd fl z dz
  | .outside => .outside
  | .exits => .exits

/-- `R_p`, `T_p`, `R_m`, `T_m`, src/xrtm_pade_rts.c:2647-2664; without polarisation `R_m`, `T_m` are `R_p`, `T_p`. -/
def sides (ns : Nat) (m : Mat.Mem n ℝ) : M n × M n × M n × M n :=
  let Rp := turnM ns (m.m Doubling.R)
  let Tp := m.m Doubling.T
  (Rp, Tp, Eig.otherSide ns Rp, Eig.otherSide ns Tp)

end thin

/-! ## The rows of the extra directions -/

section rows
variable {q u : Type} [Fintype q] [Fintype u] [DecidableEq q] [DecidableEq u]

/-- `matd1d2`: the square matrix of the streams and, for each extra direction, a row and the element on the diagonal. -/
structure Rows (q u : Type) where
  a : Matrix q q ℝ
  d1 : Matrix u q ℝ
  d2 : u → ℝ

/-- `matd1d2_to_matrix`, src/xrtm_pade_rts.c:193-223. -/
def Rows.full (m : Rows q u) : Matrix (q ⊕ u) (q ⊕ u) ℝ := fromBlocks m.a 0 m.d1 (diagonal m.d2)

/-- `dmat_init_d2`, 248-262. -/
def Rows.init (c : ℝ) : Rows q u := ⟨c • 1, 0, fun _ => c⟩

/-- `dmat_add_d2`, 284-298. -/
def Rows.add (x y : Rows q u) : Rows q u := ⟨x.a + y.a, x.d1 + y.d1, x.d2 + y.d2⟩

/-- `dmat_sub_d2`, 302-316. -/
def Rows.sub (x y : Rows q u) : Rows q u := ⟨x.a - y.a, x.d1 - y.d1, x.d2 - y.d2⟩

/-- `dmat_scale_d2`, 320-334. -/
def Rows.scale (c : ℝ) (x : Rows q u) : Rows q u := ⟨c • x.a, c • x.d1, c • x.d2⟩

/-- `dmat_scale_add_d2`, 338-352. -/
def Rows.scaleAdd (x y : Rows q u) (c : ℝ) : Rows q u := ⟨x.a + c • y.a, x.d1 + c • y.d1, x.d2 + c • y.d2⟩

/-- `dmat_mul_d2`, 356-379. -/
def Rows.mul (x y : Rows q u) : Rows q u :=
  ⟨x.a * y.a, x.d1 * y.a + diagonal x.d2 * y.d1, fun i => x.d2 i * y.d2 i⟩

/-- `dmat_inv_mul_d`, 383-397, with the product of the square parts, `a_inv_b`, found before. -/
noncomputable def Rows.invMul (c : Matrix q q ℝ) (x y : Rows q u) : Rows q u :=
  ⟨c, fun i j => (y.d1 i j - (x.d1 * c) i j) / x.d2 i, fun i => y.d2 i / x.d2 i⟩

end rows

end Xrtm.Pade
