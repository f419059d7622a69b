import Verif.Model.Legendre

/-!
# Phase matrices with polarisation

src/xrtm_scatter.c:358-384, 503-765, 772-1018, 1026-1082, 1287-1390,
misc/rtutil_math.c:859-1016, src/xrtm_model.c:649-741, 880-900, 1109-1125,
1343.

Simplified: reals for doubles; arrays are functions of the index, one direction
at a time; the matrices are given by their elements for two directions and two
Stokes parameters; products of matrices are sums; `factorial` is the factorial.
The functions of `gen_spher_funcs_prt` that only `build_scat_matrix_gc` reads are
left out, as is `build_scat_matrix_gc`, which nobody calls.
-/

namespace Xrtm.PhaseVec
open Loops Legendre

/-- An array of small matrices, one for each degree. -/
abbrev Tab := Nat → Nat → Nat → ℝ

/-- `A[i][r][c] = v`. -/
def wr (A : Tab) (i r c : Nat) (v : ℝ) : Tab :=
  fun i' r' c' => if i' = i ∧ r' = r ∧ c' = c then v else A i' r' c'

/-- `iteration1`, src/xrtm_scatter.c:508-532. -/
noncomputable def iter1 (ns : Nat) (mu : ℝ) (i : Nat) (A : Tab) : Tab :=
  let a : ℝ := (i : ℝ) + 1
  let b : ℝ := √(((i : ℝ) + 3) * ((i : ℝ) - 1))
  let c : ℝ := √((i : ℝ) * i - 4)
  let f : ℝ := (2 * (i : ℝ) + 1) * mu
  let A := wr A (i + 1) 0 0 ((f * A i 0 0 - i * A (i - 1) 0 0) / a)
  let A := if 3 ≤ ns then
      let A := wr A (i + 1) 1 1 ((f * A i 1 1 - c * A (i - 1) 1 1) / b)
      wr A (i + 1) 2 2 ((f * A i 2 2 - c * A (i - 1) 2 2) / b)
    else A
  if 4 ≤ ns then wr A (i + 1) 3 3 ((f * A i 3 3 - i * A (i - 1) 3 3) / a) else A

/-- `iteration2`, src/xrtm_scatter.c:536-569. -/
noncomputable def iter2 (m ns : Nat) (mu : ℝ) (i : Nat) (A : Tab) : Tab :=
  let a : ℝ := (i : ℝ) + 1 - m
  let g : ℝ := 2 * (i : ℝ) + 1
  let b : ℝ := a / ((i : ℝ) + 1) * √(((i : ℝ) + 3) * ((i : ℝ) - 1))
  let e : ℝ := 2 * m * g / (i * ((i : ℝ) + 1))
  let f : ℝ := g * mu
  let A := wr A (i + 1) 0 0 ((f * A i 0 0) / a)
  let A := if 3 ≤ ns then
      let A := wr A (i + 1) 1 1 ((f * A i 1 1 + e * A i 2 1) / b)
      let A := wr A (i + 1) 2 2 ((f * A i 2 2 + e * A i 1 2) / b)
      let A := wr A (i + 1) 1 2 ((f * A i 1 2 + e * A i 2 2) / b)
      wr A (i + 1) 2 1 (A (i + 1) 1 2)
    else A
  if 4 ≤ ns then wr A (i + 1) 3 3 ((f * A i 3 3) / a) else A

/-- `iteration3`, src/xrtm_scatter.c:573-612. -/
noncomputable def iter3 (m ns : Nat) (mu : ℝ) (i : Nat) (A : Tab) : Tab :=
  let a : ℝ := (i : ℝ) + 1 - m
  let c : ℝ := (i : ℝ) + m
  let g : ℝ := 2 * (i : ℝ) + 1
  let b : ℝ := a / ((i : ℝ) + 1) * √(((i : ℝ) + 3) * ((i : ℝ) - 1))
  let d : ℝ := c / i * √((i : ℝ) * i - 4)
  let e : ℝ := 2 * m * g / (i * ((i : ℝ) + 1))
  let f : ℝ := g * mu
  let A := wr A (i + 1) 0 0 ((f * A i 0 0 - c * A (i - 1) 0 0) / a)
  let A := if 3 ≤ ns then
      let A := wr A (i + 1) 1 1 ((f * A i 1 1 - d * A (i - 1) 1 1 + e * A i 2 1) / b)
      let A := wr A (i + 1) 2 2 ((f * A i 2 2 - d * A (i - 1) 2 2 + e * A i 1 2) / b)
      let A := wr A (i + 1) 1 2 ((f * A i 1 2 - d * A (i - 1) 1 2 + e * A i 2 2) / b)
      wr A (i + 1) 2 1 (A (i + 1) 1 2)
    else A
  if 4 ≤ ns then wr A (i + 1) 3 3 ((f * A i 3 3 - c * A (i - 1) 3 3) / a) else A

/-- `init_array3_d(A + i_four, n_coef - i_four, n_stokes, n_stokes, 0.)`,
src/xrtm_scatter.c:632. -/
def cleared (m n ns : Nat) (A : Tab) : Tab :=
  fun i r c => if m ≤ i ∧ i < n ∧ r < ns ∧ c < ns then 0 else A i r c

/-- The odd factors, `for (i = 3; i <= 2 * i_four - 1; i += 2) b *= i`,
src/xrtm_scatter.c:709-711: `t` turns. -/
def odds : Nat → ℝ
  | 0 => 1
  | t + 1 => odds t * (2 * (t : ℝ) + 3)

/-- The part of `basic_matrix` for the first Fourier term,
src/xrtm_scatter.c:634-661. -/
noncomputable def basic0 (n ns : Nat) (mu : ℝ) (A : Tab) : Tab :=
  let A := wr A 0 0 0 1
  let A := if 4 ≤ ns then wr A 0 3 3 1 else A
  let A := wr A 1 0 0 mu
  let A := if 4 ≤ ns then wr A 1 3 3 mu else A
  if 3 ≤ n then
    let P := legPoly 3 mu (fun _ => 0)
    let a := √6 / 4 * (1 - mu * mu)
    let A := wr A 2 0 0 (P 2)
    let A := if 3 ≤ ns then wr (wr A 2 1 1 a) 2 2 2 a else A
    let A := if 4 ≤ ns then wr A 2 3 3 (P 2) else A
    forN (n - 1 - 2) (fun t A => iter1 ns mu (2 + t) A) A
  else A

/-- For the second, src/xrtm_scatter.c:663-688. -/
noncomputable def basic1 (n ns : Nat) (mu : ℝ) (A : Tab) : Tab :=
  let a := √(1 - mu * mu)
  let A := wr A 1 0 0 a
  let A := if 4 ≤ ns then wr A 1 3 3 a else A
  if 3 ≤ n then
    let b := 3 * mu * a
    let a := a * √6
    let c := -(1 / 2) * mu * a
    let d := -(1 / 2) * a
    let A := wr A 2 0 0 b
    let A := if 3 ≤ ns then wr (wr (wr (wr A 2 1 1 c) 2 1 2 (-d)) 2 2 1 (-d)) 2 2 2 c else A
    let A := if 4 ≤ ns then wr A 2 3 3 b else A
    forN (n - 1 - 2) (fun t A => iter3 1 ns mu (2 + t) A) A
  else A

/-- For the others, src/xrtm_scatter.c:690-748. -/
noncomputable def basic2 (m n ns : Nat) (mu : ℝ) (A : Tab) : Tab :=
  let a := mu * mu
  let f := (1 - a) ^ (((m : ℝ) - 2) / 2)
  let b := odds (m - 1) * (f * (1 - a))
  let c := 2 ^ m * √(((m - 2).factorial : ℝ) * ((m + 2).factorial : ℝ))
  let c := f * (1 / c * ((2 * m).factorial : ℝ))
  let d := c * (1 + a)
  let e := c * 2 * mu
  let A := wr A m 0 0 b
  let A := if 3 ≤ ns then wr (wr (wr (wr A m 1 1 d) m 1 2 (-e)) m 2 1 (-e)) m 2 2 d else A
  let A := if 4 ≤ ns then wr A m 3 3 b else A
  if m < n - 1 then
    forN (n - 1 - (m + 1)) (fun t A => iter3 m ns mu (m + 1 + t) A) (iter2 m ns mu m A)
  else A

/-- `basic_matrix`, src/xrtm_scatter.c:616-749. -/
noncomputable def basic (m n ns : Nat) (mu : ℝ) (A : Tab) : Tab :=
  if n ≤ m then A
  else
    let A := cleared m n ns A
    if m = 0 then basic0 n ns mu A else if m = 1 then basic1 n ns mu A else basic2 m n ns mu A

/-- The degrees `basic_matrix` writes to besides the ones it clears, in order;
the array has room for the degrees less than `n`. -/
def writes (m n : Nat) : List Nat :=
  if n ≤ m then []
  else if m = 0 then 0 :: 1 :: (if 3 ≤ n then 2 :: (List.range (n - 3)).map (fun t => 3 + t) else [])
  else if m = 1 then 1 :: (if 3 ≤ n then 2 :: (List.range (n - 3)).map (fun t => 3 + t) else [])
  else m :: (if m < n - 1 then (List.range (n - 1 - m)).map (fun t => m + 1 + t) else [])

/-- `gc_to_B` into a cleared matrix, src/xrtm_scatter.c:754-765 and 846. -/
def gcToB (ns : Nat) (gc : Nat → Nat → ℝ) (i : Nat) (c : ℝ) : Nat → Nat → ℝ
  | 0, 0 => c * gc 0 i
  | 1, 1 => if 3 ≤ ns then c * gc 1 i else 0
  | 0, 1 => if 3 ≤ ns then c * -gc 4 i else 0
  | 1, 0 => if 3 ≤ ns then c * -gc 4 i else 0
  | 2, 2 => if 3 ≤ ns then c * gc 2 i else 0
  | 3, 3 => if 4 ≤ ns then c * gc 3 i else 0
  | 2, 3 => if 4 ≤ ns then c * gc 5 i else 0
  | 3, 2 => if 4 ≤ ns then c * -gc 5 i else 0
  | _, _ => 0

/-- `n_stokes2`, src/xrtm_scatter.c:801-808 and 926-933. -/
def ns2 (ns : Nat) : Nat := if ns = 2 then 3 else ns

/-- `D`, src/xrtm_scatter.c:788 and 911, and the signs of `dm_v_mul_D_A` and
`dmat_mul_D_A2` for one element. -/
def turn (s : Nat) : ℝ := if s < 2 then 1 else -1

/-- What the loop over the degrees carries: `a`, `b` and an element of `P_pp`
and of `P_mp`. -/
structure Acc where
  a : ℝ
  b : ℝ
  pp : ℝ
  mp : ℝ

/-- The body of the loops over the degrees, src/xrtm_scatter.c:854-875 and
985-1008, for one element: `row` is the row of `ll` of the direction left in,
`col` the one of `l0` or `ll2` of the direction come from. -/
noncomputable def phaseStep (m ns : Nat) (gc : Nat → Nat → ℝ) (row col : Nat → Nat → ℝ) (i : Nat)
    (s : Acc) : Acc :=
  let c : ℝ := 2 - (if m = 0 then 1 else 0)
  let w := fun k => ∑ j ∈ Finset.range (ns2 ns), row i j * gcToB (ns2 ns) gc i (s.b * c) j k
  let pp := ∑ k ∈ Finset.range (ns2 ns), w k * col i k
  let mp := ∑ k ∈ Finset.range (ns2 ns), w k * turn k * col i k
  { a := s.a * -1
    b := s.b * (((i : ℝ) + 1 - m) / ((i : ℝ) + 1 + m))
    pp := s.pp + pp
    mp := if 0 < s.a then s.mp + mp else s.mp - mp }

/-- An element of `P_pp` and of `P_mp` before the signs of the rows. -/
noncomputable def phaseSum (m n ns : Nat) (gc : Nat → Nat → ℝ) (row col : Nat → Nat → ℝ) : Acc :=
  forN (n - m) (fun t s => phaseStep m ns gc row col (m + t) s)
    ⟨1, 1 / ((2 * m).factorial : ℝ), 0, 0⟩

/-- `build_phase_vecs_vector_gc`, src/xrtm_scatter.c:772-881, for the direction
`mu` and the Stokes parameter `s`: `P_pp` and `P_mp`.  `A` is what is in the
working memory. -/
noncomputable def phaseVec (m n ns : Nat) (mu mu0 : ℝ) (gc : Nat → Nat → ℝ) (A : Tab) (s : Nat) :
    ℝ × ℝ :=
  if n ≤ m then (0, 0)
  else
    let ll := basic m n (ns2 ns) mu A
    let l0 := basic m n 1 mu0 ll
    let r := phaseSum m n ns gc (fun i k => ll i s k) (fun i k => if k = 0 then l0 i 0 0 else 0)
    (r.pp, turn s * r.mp)

/-- An element of the four matrices. -/
structure Four where
  pp : ℝ
  mp : ℝ
  mm : ℝ
  pm : ℝ

/-- `build_phase_mats_vector_gc`, src/xrtm_scatter.c:888-1018, and
`phase_matrix_symmetry3`, 1287-1390: directions `mu1`, `mu2`, Stokes parameters
`s`, `t`. -/
noncomputable def phaseMat (m n ns : Nat) (mu1 mu2 : ℝ) (gc : Nat → Nat → ℝ) (A : Tab) (s t : Nat) :
    Four :=
  if n ≤ m then ⟨0, 0, 0, 0⟩
  else
    let ll := basic m n (ns2 ns) mu1 A
    let ll2 := basic m n (ns2 ns) mu2 ll
    let r := phaseSum m n ns gc (fun i k => ll i s k) (fun i k => ll2 i t k)
    let mp := turn s * r.mp
    ⟨r.pp, mp, turn s * turn t * r.pp, turn s * turn t * mp⟩

/-! ## The phase function of the angle -/

/-- The rows `p00` and `p0p2` of `gen_spher_funcs_prt`,
misc/rtutil_math.c:958-1016. -/
noncomputable def prt (n : Nat) (mu : ℝ) (p : (Nat → ℝ) × (Nat → ℝ)) : (Nat → ℝ) × (Nat → ℝ) :=
  let p := if 0 < n then (put p.1 0 1, put p.2 0 0) else p
  let p := if 1 < n then (put p.1 1 mu, put p.2 1 0) else p
  let p := if 2 < n then
      (put p.1 2 ((3 * (mu * mu) - 1) / 2), put p.2 2 (1 / 4 * √6 * (mu * mu - 1))) else p
  forN (n - 1 - 2) (fun t p =>
    let j := 2 + t
    (put p.1 (j + 1) (((2 * (j : ℝ) + 1) * mu * p.1 j - j * p.1 (j - 1)) / ((j : ℝ) + 1)),
     put p.2 (j + 1) (((2 * (j : ℝ) + 1) * mu * p.2 j - √((j : ℝ) * j - 4) * p.2 (j - 1)) /
       √(((j : ℝ) + 1) * ((j : ℝ) + 1) - 4)))) p

/-- `build_scat_vector_gc`, src/xrtm_scatter.c:358-383. -/
noncomputable def scatVec (n ns : Nat) (p : (Nat → ℝ) × (Nat → ℝ)) (gc : Nat → Nat → ℝ) (s : Nat) : ℝ :=
  if s = 0 then forN n (fun i F => F + gc 0 i * p.1 i) 0
  else if s = 1 ∧ 1 < ns then forN (n - 2) (fun t F => F + gc 4 (2 + t) * p.2 (2 + t)) 0
  else 0

/-- `cos_sig1` of `scat_vector_rotate_hovenier`, src/xrtm_scatter.c:1049-1063. -/
noncomputable def cosSig (mu mu' MU dphi : ℝ) : ℝ :=
  if √(1 - MU * MU) = 0 then 0
  else if √(1 - mu' * mu') = 0 then Real.cos dphi
  else (mu - mu' * MU) / (√(1 - mu' * mu') * √(1 - MU * MU))

/-- `scat_vector_rotate_hovenier`, src/xrtm_scatter.c:1026-1082, with the
difference of azimuths in radians. -/
noncomputable def rotate (ns : Nat) (mu mu' MU dphi : ℝ) (P : Nat → ℝ) (s : Nat) : ℝ :=
  if s = 0 then P 0
  else
    let c := cosSig mu mu' MU dphi
    let C1 := 2 * (c * c) - 1
    let S1 := if 1 - c * c < 0 then 0 else 2 * √(1 - c * c) * c
    if s = 1 then P 1 * C1 else if s = 2 then -(P 1) * S1 else 0

/-- `phase_func_get` after `phase_polys_get`, for a phase matrix:
src/xrtm_model.c:649-676 and 699-703.  `mu` is positive downwards. -/
noncomputable def fullVec (n ns : Nat) (mu mu0 dphi : ℝ) (gc : Nat → Nat → ℝ)
    (p : (Nat → ℝ) × (Nat → ℝ)) (s : Nat) : ℝ :=
  let MU := scatAngle mu0 mu dphi
  rotate ns mu0 mu MU dphi (scatVec n ns (prt n MU p) gc) s

/-- `P_q0_pm` and `P_q0_mm`, src/xrtm_model.c:895 and 1122: the beam goes down,
and the routine is told the direction `-mu_0`. -/
noncomputable def q0 (m n ns : Nat) (mu mu0 : ℝ) (gc : Nat → Nat → ℝ) (A : Tab) (s : Nat) : ℝ × ℝ :=
  phaseVec m n ns mu (-mu0) gc A s

/-- The factor of the Fourier term `m` for the Stokes parameter `s`
(`azimuth_modes`, src/xrtm_model.c:6060-6095). -/
noncomputable def wave (m s : Nat) (dphi : ℝ) : ℝ :=
  if s < 2 then Real.cos (m * dphi) else Real.sin (m * dphi)

end Xrtm.PhaseVec
