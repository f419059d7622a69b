import Verif.Proof.SosRun
import Mathlib.Analysis.Calculus.Deriv.Add
import Mathlib.Analysis.Calculus.Deriv.Mul

/-! # Successive orders: the derivatives -/

namespace Xrtm.Sos
open Xrtm.Transfer Xrtm.Spec Filter Topology

variable {n : Nat}

/-- `l` is the derivative at `x` of the arguments; a derivative whose flag is not set for a layer does not touch its
phase matrices, nor, for the last flag, the ground. -/
structure Along (z : ℝ → Args n ℝ) (l : Lin n ℝ) (x : ℝ) : Prop where
  first : ∀ y, (z y).first = (z x).first
  ns : ∀ y, (z y).ns = (z x).ns
  L : ∀ y, (z y).L = (z x).L
  F0 : ∀ y, (z y).F0 = (z x).F0
  qx : ∀ y, (z y).qx = (z x).qx
  qw : ∀ y, (z y).qw = (z x).qw
  surface : ∀ y, (z y).surface = (z x).surface
  vector : ∀ y, (z y).vector = (z x).vector
  maxTau : ∀ y, (z y).maxTau = (z x).maxTau
  omega : ∀ i, HasDerivAt (fun y => (z y).omega i) (l.omega i) x
  ltau : ∀ i, HasDerivAt (fun y => (z y).ltau i) (l.ltau i) x
  btran : ∀ i, HasDerivAt (fun y => (z y).btran i) (l.btran i) x
  as0 : ∀ i, HasDerivAt (fun y => (z y).as0 i) (l.as0 i) x
  P0mm : ∀ i, VDeriv (fun y => (z y).P0mm i) (if l.layers i then l.P0mm i else 0) x
  P0pm : ∀ i, VDeriv (fun y => (z y).P0pm i) (if l.layers i then l.P0pm i else 0) x
  Ppp : ∀ i, MDeriv (fun y => (z y).Ppp i) (if l.layers i then l.Ppp i else 0) x
  Pmp : ∀ i, MDeriv (fun y => (z y).Pmp i) (if l.layers i then l.Pmp i else 0) x
  Pmm : ∀ i, MDeriv (fun y => (z y).Pmm i) (if l.layers i then l.Pmm i else 0) x
  Ppm : ∀ i, MDeriv (fun y => (z y).Ppm i) (if l.layers i then l.Ppm i else 0) x
  Rs : MDeriv (fun y => (z y).Rs) (if l.layers (z x).L then l.Rs else 0) x
  I1m : VDeriv (fun y => (z y).I1m) l.I1m x
  Inp : VDeriv (fun y => (z y).Inp) l.Inp x

/-- `gl` is the derivative at `x` of the pieces. -/
structure GAlong (g : ℝ → Grid ℝ) (gl : Grid ℝ) (x : ℝ) : Prop where
  N : ∀ y, (g y).N = (g x).N
  index : ∀ y, (g y).index = (g x).index
  ltau : ∀ j, HasDerivAt (fun y => (g y).ltau j) (gl.ltau j) x
  btran : ∀ j, HasDerivAt (fun y => (g y).btran j) (gl.btran j) x

/-- `ol` is the derivative of the buffer. -/
def BDeriv (o : ℝ → Buf n ℝ) (ol : Buf n ℝ) (x : ℝ) : Prop :=
  ∀ j, VDeriv (fun y => (o y).ip j) (ol.ip j) x ∧ VDeriv (fun y => (o y).im j) (ol.im j) x

theorem rise_deriv {T q : ℝ → Nat → Fin n → ℝ} {W ql : Nat → Fin n → ℝ} {bot : ℝ → Fin n → ℝ} {botl : Fin n → ℝ} {x : ℝ}
    (hT : ∀ j k, HasDerivAt (fun y => T y j k) (W j k) x) (hq : ∀ j k, HasDerivAt (fun y => q y j k) (ql j k) x)
    (hb : VDeriv bot botl x) (N : Nat) :
    ∀ d, VDeriv (fun y => rise (T y) (q y) N (bot y) d) (riseL (T x) W (q x) ql N (bot x) botl d) x
  | 0 => hb
  | d + 1 => fun k => ((hT (N - 1 - d) k).mul (rise_deriv hT hq hb N d k)).add (hq (N - 1 - d) k)

theorem fall_deriv {T q : ℝ → Nat → Fin n → ℝ} {W ql : Nat → Fin n → ℝ} {top : ℝ → Fin n → ℝ} {topl : Fin n → ℝ} {x : ℝ}
    (hT : ∀ j k, HasDerivAt (fun y => T y j k) (W j k) x) (hq : ∀ j k, HasDerivAt (fun y => q y j k) (ql j k) x)
    (hb : VDeriv top topl x) :
    ∀ d, VDeriv (fun y => fall (T y) (q y) (top y) d) (fallL (T x) W (q x) ql (top x) topl d) x
  | 0 => hb
  | d + 1 => fun k => ((hT d k).mul (fall_deriv hT hq hb d k)).add (hq d k)

theorem sweep_deriv {T qp qm : ℝ → Nat → Fin n → ℝ} {W qpl qml : Nat → Fin n → ℝ} {bot top : ℝ → Fin n → ℝ}
    {botl topl : Fin n → ℝ} {x : ℝ} {N : ℝ → Nat} (hN : ∀ y, N y = N x)
    (hT : ∀ j k, HasDerivAt (fun y => T y j k) (W j k) x) (hp : ∀ j k, HasDerivAt (fun y => qp y j k) (qpl j k) x)
    (hm : ∀ j k, HasDerivAt (fun y => qm y j k) (qml j k) x) (hb : VDeriv bot botl x) (ht : VDeriv top topl x) :
    BDeriv (fun y => sweep (T y) (qp y) (qm y) (N y) (bot y) (top y))
      (sweepL (T x) W (qp x) (qm x) qpl qml (N x) (bot x) (top x) botl topl) x := by
  intro j
  refine ⟨?_, fall_deriv hT hm ht j⟩
  simp only [sweep, hN]
  exact rise_deriv hT hp hb (N x) (N x - j)

theorem mulVec_deriv {A : ℝ → Matrix (Fin n) (Fin n) ℝ} {A' : Matrix (Fin n) (Fin n) ℝ} {v : ℝ → Fin n → ℝ}
    {v' : Fin n → ℝ} {x : ℝ} (hA : MDeriv A A' x) (hv : VDeriv v v' x) :
    VDeriv (fun y => (A y).mulVec (v y)) (A'.mulVec (v x) + (A x).mulVec v') x := by
  intro i
  have := HasDerivAt.fun_sum (u := Finset.univ) fun j (_ : j ∈ Finset.univ) => (hA i j).mul (hv j)
  refine this.congr_deriv ?_
  simp only [Pi.add_apply, Matrix.mulVec, dotProduct]
  rw [← Finset.sum_add_distrib]

variable {z : ℝ → Args n ℝ} {l : Lin n ℝ} {x : ℝ} {g : ℝ → Grid ℝ} {gl : Grid ℝ}

theorem T_deriv (h : Along z l x) (hg : GAlong g gl x) (j : Nat) (k : Fin n) :
    HasDerivAt (fun y => T Real.exp (z y) (g y) j k) (W Real.exp (z x) (g x) gl j k) x := by
  simp only [T, W, h.qx]
  refine (((hg.ltau j).neg.div_const ((z x).qx k)).exp).congr_deriv ?_
  simp only [Pi.neg_apply]
  ring

theorem E_deriv (h : Along z l x) (hg : GAlong g gl x) (j : Nat) (k : Fin n) :
    HasDerivAt (fun y => E Real.exp (z y) (g y) j k) (F Real.exp (z x) (g x) gl j k) x :=
  (T_deriv h hg j k).const_sub 1

theorem beam_deriv (h : Along z l x) (hg : GAlong g gl x) (j : Nat) :
    HasDerivAt (fun y => beam Real.pi (z y) (g y) j) (beamL Real.pi (z x) l (g x) gl j) x := by
  simp only [beam, beamL, h.F0, hg.index]
  refine (((h.omega _).const_mul ((z x).F0 / (4 * Real.pi) / 2)).mul ((hg.btran j).add (hg.btran (j + 1)))).congr_deriv ?_
  simp only [Pi.add_apply]
  ring

theorem put_deriv (h : Along z l x) (hg : GAlong g gl x) {P : Args n ℝ → Nat → Fin n → ℝ} {Pl : Nat → Fin n → ℝ}
    (hP : ∀ i, VDeriv (fun y => P (z y) i) (if l.layers i then Pl i else 0) x) (j : Nat) (k : Fin n) :
    HasDerivAt (fun y => beam Real.pi (z y) (g y) j * E Real.exp (z y) (g y) j k * P (z y) ((g y).index j) k)
      (firstL1 Real.exp Real.pi (z x) l (g x) gl (P (z x)) Pl j k) x := by
  simp only [hg.index, firstL1]
  refine (((beam_deriv h hg j).mul (E_deriv h hg j k)).mul (hP _ k)).congr_deriv ?_
  simp only [Pi.mul_apply]
  split_ifs
  · ring
  · simp

theorem first_deriv (h : Along z l x) (hg : GAlong g gl x) :
    BDeriv (fun y => first Real.exp Real.pi (z y) (g y)) (firstL Real.exp Real.pi (z x) l (g x) gl) x :=
  sweep_deriv (N := fun y => (g y).N) hg.N (T_deriv h hg) (put_deriv h hg (P := Args.P0pm) h.P0pm)
    (put_deriv h hg (P := Args.P0mm) h.P0mm) h.Inp h.I1m

theorem share_deriv (h : Along z l x) (hg : GAlong g gl x) (j : Nat) (k : Fin n) :
    HasDerivAt (fun y => share (z y) (g y) j k) (shareL (z x) l (g x) j k) x := by
  simp only [share, shareL, h.first, h.qw, hg.index]
  exact ((h.omega _).const_mul _).mul_const _

theorem mat_deriv (h : Along z l x) (hg : GAlong g gl x) {P : Args n ℝ → Nat → Matrix (Fin n) (Fin n) ℝ}
    {Pl : Nat → Matrix (Fin n) (Fin n) ℝ} (hP : ∀ i, MDeriv (fun y => P (z y) i) (if l.layers i then Pl i else 0) x) (j : Nat) :
    MDeriv (fun y => Matrix.of fun a b => P (z y) ((g y).index j) a b * share (z y) (g y) j b)
      (matL (z x) l (g x) (P (z x)) Pl j) x := by
  intro a b
  simp only [hg.index, matL, Matrix.of_apply]
  refine ((hP _ a b).mul (share_deriv h hg j b)).congr_deriv ?_
  split_ifs
  · ring
  · simp

theorem tp_deriv (h : Along z l x) (hg : GAlong g gl x) (j : Nat) :
    MDeriv (fun y => tp (z y) (g y) j) (tpL (z x) l (g x) j) x := mat_deriv h hg (P := Args.Ppp) h.Ppp j

theorem rp_deriv (h : Along z l x) (hg : GAlong g gl x) (j : Nat) :
    MDeriv (fun y => rp (z y) (g y) j) (rpL (z x) l (g x) j) x := mat_deriv h hg (P := Args.Pmp) h.Pmp j

theorem rm_deriv (h : Along z l x) (hg : GAlong g gl x) (j : Nat) :
    MDeriv (fun y => rm (z y) (g y) j) (rmL (z x) l (g x) j) x := by
  simp only [rm, rmL, h.vector]
  cases (z x).vector
  · exact rp_deriv h hg j
  · exact mat_deriv h hg (P := Args.Ppm) h.Ppm j

theorem tm_deriv (h : Along z l x) (hg : GAlong g gl x) (j : Nat) :
    MDeriv (fun y => tm (z y) (g y) j) (tmL (z x) l (g x) j) x := by
  simp only [tm, tmL, h.vector]
  cases (z x).vector
  · exact tp_deriv h hg j
  · exact mat_deriv h hg (P := Args.Pmm) h.Pmm j

theorem vadd_deriv {u v : ℝ → Fin n → ℝ} {u' v' : Fin n → ℝ} (hu : VDeriv u u' x) (hv : VDeriv v v' x) :
    VDeriv (fun y => u y + v y) (u' + v') x := fun k => (hu k).add (hv k)

theorem addUp_deriv (h : Along z l x) (hg : GAlong g gl x) {o : ℝ → Buf n ℝ} {ol : Buf n ℝ} (ho : BDeriv o ol x) (j : Nat)
    (k : Fin n) :
    HasDerivAt (fun y => addUp Real.exp (z y) (g y) (o y) j k) (addUpL Real.exp (z x) l (g x) gl (o x) ol j k) x := by
  have a := mulVec_deriv (tp_deriv h hg j) (vadd_deriv (ho j).1 (ho (j + 1)).1) k
  have b := mulVec_deriv (rm_deriv h hg j) (vadd_deriv (ho j).2 (ho (j + 1)).2) k
  refine ((E_deriv h hg j k).mul (a.add b)).congr_deriv ?_
  simp only [addUpL, Pi.add_apply]
  ring

theorem addDn_deriv (h : Along z l x) (hg : GAlong g gl x) {o : ℝ → Buf n ℝ} {ol : Buf n ℝ} (ho : BDeriv o ol x) (j : Nat)
    (k : Fin n) :
    HasDerivAt (fun y => addDn Real.exp (z y) (g y) (o y) j k) (addDnL Real.exp (z x) l (g x) gl (o x) ol j k) x := by
  have a := mulVec_deriv (rp_deriv h hg j) (vadd_deriv (ho j).1 (ho (j + 1)).1) k
  have b := mulVec_deriv (tm_deriv h hg j) (vadd_deriv (ho j).2 (ho (j + 1)).2) k
  refine ((E_deriv h hg j k).mul (a.add b)).congr_deriv ?_
  simp only [addDnL, Pi.add_apply]
  ring

theorem ground_deriv (h : Along z l x) (hg : GAlong g gl x) {o : ℝ → Buf n ℝ} {ol : Buf n ℝ} (ho : BDeriv o ol x) :
    VDeriv (fun y => if (z y).surface then (z y).Rs.mulVec ((o y).im (g y).N) else 0) (groundL (z x) l (g x) (o x) ol) x := by
  simp only [h.surface, groundL, hg.N]
  cases (z x).surface
  · intro k; exact hasDerivAt_const x (0 : ℝ)
  · intro k
    refine (mulVec_deriv h.Rs (ho (g x).N).2 k).congr_deriv ?_
    simp only [if_true, Pi.add_apply]
    split_ifs
    · ring
    · simp

theorem next_deriv (h : Along z l x) (hg : GAlong g gl x) {o : ℝ → Buf n ℝ} {ol : Buf n ℝ} (ho : BDeriv o ol x) :
    BDeriv (fun y => next Real.exp (z y) (g y) (o y)) (nextL Real.exp (z x) l (g x) gl (o x) ol) x :=
  sweep_deriv (N := fun y => (g y).N) hg.N (T_deriv h hg) (addUp_deriv h hg ho) (addDn_deriv h hg ho)
    (ground_deriv h hg ho) h.I1m

/-- The orders of the derivative. -/
noncomputable def ordL (z : Args n ℝ) (l : Lin n ℝ) (g gl : Grid ℝ) : Nat → Buf n ℝ
  | 0 => firstL Real.exp Real.pi z l g gl
  | p + 1 => nextL Real.exp z l g gl (ord z g p) (ordL z l g gl p)

theorem ord_deriv (h : Along z l x) (hg : GAlong g gl x) (p : Nat) :
    BDeriv (fun y => ord (z y) (g y) p) (ordL (z x) l (g x) gl p) x := by
  induction p with
  | zero => exact first_deriv h hg
  | succ p ih => exact next_deriv h hg ih

/-! ## The cut -/

/-- Which piece of which layer comes when. -/
def plan (c : Nat → Nat) (L : Nat) : List (Nat × Nat) := (List.range L).flatMap fun i => (List.range (c i)).map fun j => (i, j)

noncomputable def pieceOf (c : Nat → Nat) (z : Args n ℝ) (e : Nat × Nat) : Piece ℝ :=
  ⟨e.1, z.ltau e.1 / c e.1, z.btran e.1 * Real.exp ((e.2 : ℝ) * -(z.ltau e.1 / c e.1) * z.as0 e.1)⟩

noncomputable def pieceOfL (c : Nat → Nat) (z : Args n ℝ) (l : Lin n ℝ) (e : Nat × Nat) : Piece ℝ :=
  ⟨e.1, l.ltau e.1 / c e.1, (l.btran e.1 + z.btran e.1 * (e.2 : ℝ) * (-(l.ltau e.1 / c e.1) * z.as0 e.1 -
    z.ltau e.1 / c e.1 * l.as0 e.1)) * Real.exp ((e.2 : ℝ) * -(z.ltau e.1 / c e.1) * z.as0 e.1)⟩

theorem cuts_plan (z : Args n ℝ) {c : Nat → Nat} (hc : ∀ i, i < z.L → pieces z.maxTau (z.ltau i) = c i) :
    cuts Real.exp z = (plan c z.L).map (pieceOf c z) := by
  unfold cuts plan
  rw [List.map_flatMap]
  refine List.flatMap_congr fun i hi => ?_
  simp [cut, hc i (List.mem_range.1 hi), pieceOf, Function.comp_def]

theorem cutsL_plan (z : Args n ℝ) (l : Lin n ℝ) {c : Nat → Nat} (hc : ∀ i, i < z.L → pieces z.maxTau (z.ltau i) = c i) :
    cutsL Real.exp z l = (plan c z.L).map (pieceOfL c z l) := by
  unfold cutsL plan
  rw [List.map_flatMap]
  refine List.flatMap_congr fun i hi => ?_
  simp [cutL, hc i (List.mem_range.1 hi), pieceOfL, Function.comp_def]

/-- The pieces with the numbers `c`. -/
noncomputable def gridOf (c : Nat → Nat) (z : Args n ℝ) : Grid ℝ where
  N := (plan c z.L).length
  index j := ((plan c z.L)[j]?.map Prod.fst).getD 0
  ltau j := ((plan c z.L)[j]?.map fun e => (pieceOf c z e).ltau).getD 0
  btran j := ((plan c z.L)[j]?.map fun e => (pieceOf c z e).btran).getD (z.btran z.L)

theorem grid_of (z : Args n ℝ) {c : Nat → Nat} (hc : ∀ i, i < z.L → pieces z.maxTau (z.ltau i) = c i) :
    grid Real.exp z = gridOf c z := by
  unfold grid gridOf
  rw [cuts_plan z hc]
  simp [List.getElem?_map, Option.map_map, Function.comp_def, pieceOf]

theorem gridL_eq (z : Args n ℝ) (l : Lin n ℝ) {c : Nat → Nat} (hc : ∀ i, i < z.L → pieces z.maxTau (z.ltau i) = c i) (j : Nat) :
    (gridL Real.exp z l).ltau j = ((plan c z.L)[j]?.map fun e => (pieceOfL c z l e).ltau).getD 0 ∧
    (gridL Real.exp z l).btran j = ((plan c z.L)[j]?.map fun e => (pieceOfL c z l e).btran).getD (l.btran z.L) := by
  unfold gridL
  rw [cutsL_plan z l hc]
  simp [List.getElem?_map, Option.map_map, Function.comp_def]

theorem grid_along (h : Along z l x) :
    GAlong (fun y => gridOf (fun i => pieces (z x).maxTau ((z x).ltau i)) (z y)) (gridL Real.exp (z x) l) x := by
  set c : Nat → Nat := fun i => pieces (z x).maxTau ((z x).ltau i) with hc
  have hl := fun j => gridL_eq (z x) l (c := c) (fun i _ => rfl) j
  refine ⟨fun y => by simp only [gridOf, h.L y], fun y => by simp only [gridOf, h.L y], fun j => ?_, fun j => ?_⟩
  · rw [(hl j).1]
    simp only [gridOf, h.L]
    cases (plan c (z x).L)[j]? with
    | none => exact hasDerivAt_const x (0 : ℝ)
    | some e => exact (h.ltau e.1).div_const _
  · rw [(hl j).2]
    simp only [gridOf, h.L]
    cases (plan c (z x).L)[j]? with
    | none => exact h.btran _
    | some e =>
      have e1 := (((h.ltau e.1).div_const (c e.1 : ℝ)).neg.const_mul (e.2 : ℝ)).mul (h.as0 e.1)
      refine ((h.btran e.1).mul e1.exp).congr_deriv ?_
      simp only [Option.map_some, Option.getD_some, pieceOfL, Pi.mul_apply, Pi.neg_apply]
      ring

/-- Away from whole multiples of the limit the number of pieces stays as it is. -/
theorem pieces_near {f : ℝ → ℝ} {m x : ℝ} (hf : ContinuousAt f x) (h : ∀ k : ℕ, 1 ≤ k → f x / m ≠ k) :
    ∀ᶠ y in 𝓝 x, pieces m (f y) = pieces m (f x) := by
  have hc : ContinuousAt (fun y => f y / m) x := hf.div_const m
  by_cases h1 : 1 < f x / m
  · have a : (⌊f x / m⌋₊ : ℝ) < f x / m := lt_of_le_of_ne (Nat.floor_le (by linarith)) fun e =>
      h _ ((Nat.one_le_floor_iff _).2 h1.le) e.symm
    have b := Nat.lt_floor_add_one (f x / m)
    filter_upwards [hc.eventually (lt_mem_nhds a), hc.eventually (gt_mem_nhds b), hc.eventually (lt_mem_nhds h1)] with y h2 h3 h4
    unfold pieces
    dsimp only
    rw [if_pos h4, if_pos h1]
    congr 1
    exact (Nat.floor_eq_iff (by linarith)).2 ⟨h2.le, h3⟩
  · have h2 : f x / m < 1 := lt_of_le_of_ne (not_lt.1 h1) fun e => h 1 le_rfl (by simpa using e)
    filter_upwards [hc.eventually (gt_mem_nhds h2)] with y h3
    unfold pieces
    dsimp only
    rw [if_neg h1, if_neg (not_lt.2 h3.le)]

theorem run_ord_deriv (h : Along z l x) (hk : ∀ i, i < (z x).L → ∀ k : ℕ, 1 ≤ k → (z x).ltau i / (z x).maxTau ≠ k) (p : Nat) :
    (∀ k, HasDerivAt (fun y => (ord (z y) (grid Real.exp (z y)) p).ip 0 k)
      ((ordL (z x) l (grid Real.exp (z x)) (gridL Real.exp (z x) l) p).ip 0 k) x) ∧
    ∀ k, HasDerivAt (fun y => (ord (z y) (grid Real.exp (z y)) p).im (grid Real.exp (z y)).N k)
      ((ordL (z x) l (grid Real.exp (z x)) (gridL Real.exp (z x) l) p).im (grid Real.exp (z x)).N k) x := by
  set c : Nat → Nat := fun i => pieces (z x).maxTau ((z x).ltau i) with hc
  have hev : ∀ᶠ y in 𝓝 x, grid Real.exp (z y) = gridOf c (z y) := by
    have : ∀ᶠ y in 𝓝 x, ∀ i ∈ Finset.range (z x).L, pieces (z x).maxTau ((z y).ltau i) = c i :=
      (Filter.eventually_all_finset _).2 fun i hi =>
        pieces_near (h.ltau i).continuousAt (hk i (Finset.mem_range.1 hi))
    filter_upwards [this] with y hy
    refine grid_of (z y) fun i hi => ?_
    rw [h.maxTau]
    rw [h.L] at hi
    exact hy i (Finset.mem_range.2 hi)
  have e : grid Real.exp (z x) = gridOf c (z x) := hev.self_of_nhds
  have d := ord_deriv h (grid_along h) p
  rw [e]
  refine ⟨fun k => ((d 0).1 k).congr_of_eventuallyEq ?_, fun k => ((d (gridOf c (z x)).N).2 k).congr_of_eventuallyEq ?_⟩
  · filter_upwards [hev] with y hy
    rw [hy]
  · filter_upwards [hev] with y hy
    have hN : (gridOf c (z y)).N = (gridOf c (z x)).N := by simp only [gridOf, h.L]
    rw [hy, hN]

/-! ## The loop -/

variable {w : Args n ℝ} {gr : Grid ℝ}

structure InvL (w : Args n ℝ) (l : Lin n ℝ) (gr gl : Grid ℝ) (p : Nat) (s : RunL n ℝ) : Prop where
  val : Inv w gr p s.val
  other : s.bufL (!s.val.i) = ordL w l gr gl p
  Ip : s.IpL = ∑ q ∈ Finset.range (p + 1), (ordL w l gr gl q).ip 0
  Im : s.ImL = ∑ q ∈ Finset.range (p + 1), (ordL w l gr gl q).im gr.N

theorem bodyL_inv {p : Nat} {s : RunL n ℝ} (h : InvL w l gr gl p s) :
    InvL w l gr gl (p + 1) { bodyL Real.exp w l gr gl s with
      val := { (bodyL Real.exp w l gr gl s).val with i := !(bodyL Real.exp w l gr gl s).val.i } } where
  val := body_inv h.val
  other := by
    simp only [bodyL, body, Bool.not_not, if_true]
    rw [h.other, h.val.other]
    rfl
  Ip := by
    simp only [bodyL]
    rw [h.other, h.val.other, h.Ip, Finset.sum_range_succ _ (p + 1)]
    rfl
  Im := by
    simp only [bodyL]
    rw [h.other, h.val.other, h.Im, Finset.sum_range_succ _ (p + 1)]
    rfl

theorem loopL_done (m : Nat) : ∀ {p : Nat} {s : RunL n ℝ}, InvL w l gr gl p s →
    (loopL Real.exp w l gr gl m s).val = loop Real.exp w gr m s.val ∧
    ∃ q, p ≤ q ∧ q ≤ p + m ∧ (loop Real.exp w gr m s.val).Ip = ∑ r ∈ Finset.range (q + 1), (ord w gr r).ip 0 ∧
      (loop Real.exp w gr m s.val).Im = ∑ r ∈ Finset.range (q + 1), (ord w gr r).im gr.N ∧
      (loopL Real.exp w l gr gl m s).IpL = ∑ r ∈ Finset.range (q + 1), (ordL w l gr gl r).ip 0 ∧
      (loopL Real.exp w l gr gl m s).ImL = ∑ r ∈ Finset.range (q + 1), (ordL w l gr gl r).im gr.N := by
  induction m with
  | zero =>
    intro p s h
    exact ⟨rfl, p, le_rfl, le_rfl, h.val.Ip, h.val.Im, h.Ip, h.Im⟩
  | succ m ih =>
    intro p s h
    have hb := bodyL_inv h
    unfold loopL loop
    dsimp only
    have e : (bodyL Real.exp w l gr gl s).val = body Real.exp w gr s.val := rfl
    rw [e]
    by_cases hst : stop w.tol (body Real.exp w gr s.val).a = true
    · simp only [if_pos hst]
      exact ⟨rfl, p + 1, by omega, by omega, hb.val.Ip, hb.val.Im, hb.Ip, hb.Im⟩
    · simp only [if_neg hst]
      obtain ⟨a, q, b, c, d⟩ := ih hb
      exact ⟨a, q, by omega, by omega, d⟩

theorem startL_inv : InvL w l gr gl 0 (startL Real.exp Real.pi w l gr gl) where
  val := start_inv
  other := by simp [startL, start, ordL]
  Ip := by simp [startL, ordL]
  Im := by simp [startL, ordL]

end Xrtm.Sos
