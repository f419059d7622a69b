import Verif.Proof.TwoStreamSing
import Mathlib.Analysis.SpecialFunctions.Sqrt

/-! The derivatives of the two stream solver are those of the boundary value solver. -/

namespace Xrtm.TwoStream
open Xrtm.Loops Filter Topology

variable (z z' : Inp) (fl : Flags) (junk : Vars)

/-- The derivatives for the boundary value solver. -/
noncomputable def toBvpL : Bvp.Inp 1 ℝ where
  L := z.L
  m := fun i => ⟨fun _ => nuL z z' i, fun _ _ => XpL z z' i, fun _ _ => 0⟩
  ltau := z'.ltau
  atran := z'.atran
  Fsp := fun i _ => (FL z z' fl junk i).1
  Fsm := fun i _ => (FL z z' fl junk i).2
  Fs1p := fun i _ => (FL z z' fl junk i).1
  Fs1m := fun i _ => (FL z z' fl junk i).2
  Ft0p := 0
  Ft0m := 0
  Ft1p := 0
  Ft1m := 0
  Rs := fun _ _ => z'.Rqq
  I1m := 0
  Inp := fun _ => if z.solar && z.surface then
    solfac z * (on (fl.beam z.L) (z'.btran z.L * z.Rq0) + on (fl.lay z.L) (z.btran z.L * z'.Rq0)) else 0
  surface := z.surface
  solar := z.solar
  thermal := false

/-- Its flags. -/
def toFlags : Bvp.Flags := ⟨fl.lay, fl.beam, fun _ => false⟩

theorem on_eq (c : Bool) (x : ℝ) : Bvp.on c x = on c x := rfl

theorem lamL_eq (i : Nat) (k : Fin 1) :
    Bvp.lamL Real.exp (toBvp z) (toBvpL z z' fl junk) i k = LamL z z' i := by
  unfold Bvp.lamL LamL
  rw [lam_eq]
  simp only [toBvp, toBvpL, RCLike.ofReal_real_eq_id, id]
  ring

theorem on_false (x : ℝ) : on false x = 0 := rfl
theorem on_true (x : ℝ) : on true x = x := rfl

theorem rhsL_eq (hL : 1 ≤ z.L) (hat : fl.beam (z.L - 1) = false → z'.atran (z.L - 1) = 0) {x B : Nat → ℝ}
    (hx : ∀ r, r < 2 * z.L → B r = x r) (r : Nat) (hr : r < 2 * z.L) :
    rhsL z z' fl junk x r = Bvp.rhsL Real.exp (toBvp z) (toBvpL z z' fl junk) (toFlags fl) B r := by
  obtain ⟨b0, bu, bd, bb⟩ := Bvp.rhsL_row Real.exp (toBvp z) (toBvpL z z' fl junk) (toFlags fl) hL B 0
  have hl : (toBvp z).L = z.L := rfl
  simp only [Nat.mul_one, Nat.add_zero, Fin.val_zero, hl] at b0 bu bd bb
  obtain ⟨h0, hu, hd, hb⟩ := rows_put z.L hL (topL z z' fl junk x)
    (fun k => upL z z' fl junk x (k + 1)) (fun k => dnL z z' fl junk x (k + 1)) (botL z z' fl junk x) (fun _ => 0)
  have e : rhsL z z' fl junk x = put (forN (z.L - 1) (fun k b =>
      put (put b (2 * k + 1) (upL z z' fl junk x (k + 1))) (2 * k + 1 + 1) (dnL z z' fl junk x (k + 1)))
      (put (fun _ => 0) 0 (topL z z' fl junk x))) (2 * z.L - 1) (botL z z' fl junk x) := rfl
  have s : (toBvp z).solar = z.solar := rfl
  have th : (toBvp z).thermal = false := rfl
  have sf : (toBvp z).surface = z.surface := rfl
  have e1 : ∀ i, ((toBvp z).m i).Xp = fun _ _ => Xp z i := fun _ => rfl
  have e2 : ∀ i, ((toBvp z).m i).Xm = fun _ _ => 1 := fun _ => rfl
  have e3 : ∀ i, ((toBvpL z z' fl junk).m i).Xp = fun _ _ => XpL z z' i := fun _ => rfl
  have e4 : ∀ i, ((toBvpL z z' fl junk).m i).Xm = fun _ _ => 0 := fun _ => rfl
  have f1 : (toBvp z).Fs1p = fun i _ => Fp z i := rfl
  have f2 : (toBvp z).Fs1m = fun i _ => Fm z i := rfl
  have f3 : (toBvpL z z' fl junk).Fsp = fun i _ => (FL z z' fl junk i).1 := rfl
  have f4 : (toBvpL z z' fl junk).Fsm = fun i _ => (FL z z' fl junk i).2 := rfl
  have f5 : (toBvpL z z' fl junk).Fs1p = fun i _ => (FL z z' fl junk i).1 := rfl
  have f6 : (toBvpL z z' fl junk).Fs1m = fun i _ => (FL z z' fl junk i).2 := rfl
  have g1 : (toBvp z).atran = z.atran := rfl
  have g2 : (toBvpL z z' fl junk).atran = z'.atran := rfl
  have g3 : (toFlags fl).lay = fl.lay := rfl
  have g4 : (toFlags fl).beam = fl.beam := rfl
  have g5 : (toBvpL z z' fl junk).I1m = 0 := rfl
  have g6 : (toBvp z).Rs = fun _ _ => z.Rqq := rfl
  have g7 : (toBvpL z z' fl junk).Rs = fun _ _ => z'.Rqq := rfl
  have g8 : (toBvpL z z' fl junk).Inp = fun _ => if z.solar && z.surface then
    solfac z * (on (fl.beam z.L) (z'.btran z.L * z.Rq0) + on (fl.lay z.L) (z.btran z.L * z'.Rq0)) else 0 := rfl
  rw [e]
  rcases Bvp.kinds hr with rfl | ⟨i, hi, rfl⟩ | ⟨i, hi, rfl⟩ | rfl
  · rw [h0, b0]
    have x0 := hx 0 (by omega)
    have x1 := hx 1 (by omega)
    unfold topL Bvp.topL
    simp only [on_eq, s, th, e1, e2, e3, e4, f4, g3, g4, g5, lam_eq, lamL_eq, Finset.univ_unique, Fin.default_eq_zero,
      Finset.sum_singleton, Fin.val_zero, Nat.zero_add, x0, x1, XmL, Bool.false_and, on_false,
      RCLike.ofReal_real_eq_id, id, Pi.zero_apply]
    cases z.solar <;> cases fl.beam 0 <;> cases fl.lay 0 <;> simp [on] <;> ring
  · rw [hu i hi, bu i hi]
    have x0 := hx (2 * i) (by omega)
    have x1 := hx (2 * i + 1) (by omega)
    have x2 := hx (2 * i + 2) (by omega)
    have x3 := hx (2 * i + 3) (by omega)
    unfold upL Bvp.upL
    simp only [on_eq, s, th, e1, e2, e3, e4, f1, f3, f5, g1, g2, g3, g4, lam_eq, lamL_eq, Finset.univ_unique,
      Fin.default_eq_zero, Finset.sum_singleton, Fin.val_zero, Nat.mul_one, Nat.add_zero, Nat.add_sub_cancel,
      mul_comm i 2, x0, x1, x2, x3, XmL, Xm, Bool.false_and, on_false, RCLike.ofReal_real_eq_id, id]
    generalize on (z.solar && fl.beam (i + 1)) (FL z z' fl junk (i + 1)).1 = w
    cases z.solar && fl.beam i <;> cases fl.lay i <;> cases fl.lay (i + 1) <;> simp [on] <;> ring
  · rw [hd i hi, bd i hi]
    have x0 := hx (2 * i) (by omega)
    have x1 := hx (2 * i + 1) (by omega)
    have x2 := hx (2 * i + 2) (by omega)
    have x3 := hx (2 * i + 3) (by omega)
    unfold dnL Bvp.dnL
    simp only [on_eq, s, th, e1, e2, e3, e4, f2, f4, f6, g1, g2, g3, g4, lam_eq, lamL_eq, Finset.univ_unique,
      Fin.default_eq_zero, Finset.sum_singleton, Fin.val_zero, Nat.mul_one, Nat.add_zero, Nat.add_sub_cancel,
      mul_comm i 2, x0, x1, x2, x3, XmL, Xm, Bool.false_and, on_false, RCLike.ofReal_real_eq_id, id]
    generalize on (z.solar && fl.beam (i + 1)) (FL z z' fl junk (i + 1)).2 = w
    cases z.solar && fl.beam i <;> cases fl.lay i <;> cases fl.lay (i + 1) <;> simp [on] <;> ring
  · rw [hb, bb]
    have x0 := hx (2 * z.L - 2) (by omega)
    have x1 := hx (2 * z.L - 1) (by omega)
    have n1 : Bvp.nComp (toBvp z) - 2 = 2 * z.L - 2 := rfl
    have n2 : 2 * z.L - 2 + 1 = 2 * z.L - 1 := by omega
    have n3 : z.L - 1 + 1 = z.L := by omega
    have n4 : 2 * z.L - 1 - 1 = 2 * z.L - 2 := by omega
    unfold botL Bvp.botL
    simp only [on_eq, s, th, sf, hl, e1, e2, e3, e4, f1, f2, f5, f6, g1, g2, g3, g4, g6, g7, g8, lam_eq, lamL_eq,
      Finset.univ_unique, Fin.default_eq_zero, Finset.sum_singleton, Fin.val_zero, Nat.mul_one, Nat.add_zero,
      n1, n2, n3, n4, x0, x1, XmL, Xm, Bool.false_and, on_false, RCLike.ofReal_real_eq_id, id]
    unfold a12 Vp
    have hat' := hat
    generalize FL z z' fl junk (z.L - 1) = w
    generalize on (fl.beam z.L) (z'.btran z.L * z.Rq0) = w1
    generalize z'.atran (z.L - 1) = w2 at hat' ⊢
    cases hsf : z.surface <;> cases hso : z.solar <;> cases hbe : fl.beam (z.L - 1) <;>
      cases fl.lay (z.L - 1) <;> cases fl.lay z.L <;> simp [on, Xm] <;>
      first
      | ring1
      | (have h0 := hat' hbe; rw [h0]; ring1)
      | (have h0 := hat' hbe; simp [h0])

variable {inv? : {N : Nat} → Matrix (Fin N) (Fin N) ℝ → Option (Matrix (Fin N) (Fin N) ℝ)}

theorem solveL_bvp (hL : 1 ≤ z.L) (hat : fl.beam (z.L - 1) = false → z'.atran (z.L - 1) = 0) {x B x' : Nat → ℝ}
    (hx : ∀ r, r < 2 * z.L → B r = x r) (h : solveL z z' fl junk inv? x = some x') :
    ∃ B', Bvp.solveBvpL Real.exp (toBvp z) (toBvpL z z' fl junk) (toFlags fl) inv? B = some B' ∧
      ∀ r, r < 2 * z.L → B' r = x' r := by
  have hM := congrArg (fun M => inv? (N := 2 * z.L) M) (matrix_eq z hL)
  unfold solveL at h
  unfold Bvp.solveBvpL
  cases hi : inv? ((system z).read (2 * z.L)) with
  | none => simp only [hi] at h; cases h
  | some X =>
    simp only [hi, Option.some.injEq] at h
    have hi2 : inv? ((Bvp.system Real.exp (toBvp z)).read (Bvp.nDiags 1) (Bvp.nComp (toBvp z))) = some X :=
      hM.symm.trans hi
    refine ⟨Bvp.solved (Bvp.nComp (toBvp z)) X
      (Bvp.rhsL Real.exp (toBvp z) (toBvpL z z' fl junk) (toFlags fl) B), by simp only [hi2], fun r hr => ?_⟩
    rw [← h]
    unfold Bvp.solved solved
    rw [dif_pos hr]
    have hr' : r < Bvp.nComp (toBvp z) := hr
    rw [dif_pos hr']
    have : (fun c : Fin (2 * z.L) => rhsL z z' fl junk x c.val) =
        fun c => Bvp.rhsL Real.exp (toBvp z) (toBvpL z z' fl junk) (toFlags fl) B c.val :=
      funext fun c => rhsL_eq z z' fl junk hL hat hx c.val c.isLt
    rw [this]
    rfl

/-- Without the sun, and no layer that changes, there is nothing in `F_p_l`. -/
theorem FL_dark {i : Nat} (hs : z.solar = false) (hf : fl.lay i = false) : FL z z' fl junk i = (0, 0) := by
  unfold FL; simp [hs, hf]

theorem levelL_bvp (hL : 1 ≤ z.L) (hsun : z.solar = true ∨ ∀ i, i < z.L → fl.lay i = false) {x x' B B' : Nat → ℝ}
    (h : ∀ r, r < 2 * z.L → B r = x r) (h' : ∀ r, r < 2 * z.L → B' r = x' r) (lev : Nat) (hlev : lev ≤ z.L) :
    Bvp.levelL Real.exp (toBvp z) (toBvpL z z' fl junk) (toFlags fl) B B' lev =
      (fun _ => (levelL z z' fl junk x x' lev).1, fun _ => (levelL z z' fl junk x x' lev).2) := by
  have hl : (toBvp z).L = z.L := rfl
  have s : (toBvp z).solar = z.solar := rfl
  have th : (toBvp z).thermal = false := rfl
  have e1 : ∀ i, ((toBvp z).m i).Xp = fun _ _ => Xp z i := fun _ => rfl
  have e2 : ∀ i, ((toBvp z).m i).Xm = fun _ _ => 1 := fun _ => rfl
  have e3 : ∀ i, ((toBvpL z z' fl junk).m i).Xp = fun _ _ => XpL z z' i := fun _ => rfl
  have e4 : ∀ i, ((toBvpL z z' fl junk).m i).Xm = fun _ _ => 0 := fun _ => rfl
  have f1 : (toBvp z).Fs1p = fun i _ => Fp z i := rfl
  have f2 : (toBvp z).Fs1m = fun i _ => Fm z i := rfl
  have f3 : (toBvpL z z' fl junk).Fsp = fun i _ => (FL z z' fl junk i).1 := rfl
  have f4 : (toBvpL z z' fl junk).Fsm = fun i _ => (FL z z' fl junk i).2 := rfl
  have f5 : (toBvpL z z' fl junk).Fs1p = fun i _ => (FL z z' fl junk i).1 := rfl
  have f6 : (toBvpL z z' fl junk).Fs1m = fun i _ => (FL z z' fl junk i).2 := rfl
  have g1 : (toBvp z).atran = z.atran := rfl
  have g2 : (toBvpL z z' fl junk).atran = z'.atran := rfl
  have g3 : (toFlags fl).lay = fl.lay := rfl
  have g4 : (toFlags fl).beam = fl.beam := rfl
  have hF : ∀ i, i < z.L → z.solar = false → FL z z' fl junk i = (0, 0) ∧ Fp z i = 0 ∧ Fm z i = 0 := by
    intro i hi hs
    refine ⟨?_, F_dark z hs i⟩
    rcases hsun with h | h
    · rw [hs] at h; cases h
    · exact FL_dark z z' fl junk hs (h i hi)
  unfold Bvp.levelL levelL
  by_cases hv : lev ≠ z.L
  · rw [if_pos (by rw [hl]; exact hv), if_pos hv]
    have h1 := h (lev * 2) (by omega)
    have h2 := h (lev * 2 + 1) (by omega)
    have h3 := h' (lev * 2) (by omega)
    have h4 := h' (lev * 2 + 1) (by omega)
    have hF' := hF lev (by omega)
    simp only [on_eq, s, th, e1, e2, e3, e4, f3, f4, g3, g4, lam_eq, lamL_eq, Finset.univ_unique,
      Fin.default_eq_zero, Finset.sum_singleton, Fin.val_zero, Nat.one_mul, Nat.add_zero, h1, h2, h3, h4, XmL, Xm,
      RCLike.re_to_real, Bool.false_and]
    generalize FL z z' fl junk lev = w at hF' ⊢
    ext j <;> cases hs : z.solar <;> cases fl.beam lev <;> cases fl.lay lev <;> simp [on] <;>
      first
      | ring1
      | (simp only [(hF' hs).1]; ring1)
      | simp [(hF' hs).1]
  · rw [if_neg (by rw [hl]; exact hv), if_neg hv]
    have h1 := h ((z.L - 1) * 2) (by omega)
    have h2 := h ((z.L - 1) * 2 + 1) (by omega)
    have h3 := h' ((z.L - 1) * 2) (by omega)
    have h4 := h' ((z.L - 1) * 2 + 1) (by omega)
    have hF' := hF (z.L - 1) (by omega)
    simp only [on_eq, s, th, hl, e1, e2, e3, e4, f1, f2, f5, f6, g1, g2, g3, g4, lam_eq, lamL_eq, Finset.univ_unique,
      Fin.default_eq_zero, Finset.sum_singleton, Fin.val_zero, Nat.one_mul, Nat.add_zero, h1, h2, h3, h4, XmL, Xm,
      RCLike.re_to_real, Bool.false_and]
    generalize FL z z' fl junk (z.L - 1) = w at hF' ⊢
    ext j <;> cases hs : z.solar <;> cases fl.beam (z.L - 1) <;> cases fl.lay (z.L - 1) <;> simp [on] <;>
      first
      | ring1
      | (simp only [(hF' hs).1, (hF' hs).2.1, (hF' hs).2.2]; ring1)
      | simp [(hF' hs).1, (hF' hs).2.1, (hF' hs).2.2]

theorem tauL_bvp (hsun : z.solar = true ∨ ∀ i, i < z.L → fl.lay i = false) {x x' B B' : Nat → ℝ}
    (h : ∀ r, r < 2 * z.L → B r = x r) (h' : ∀ r, r < 2 * z.L → B' r = x' r) (i : Nat) (hi : i < z.L) (t : ℝ) :
    Bvp.atTauL Real.exp (toBvp z) (toBvpL z z' fl junk) (toFlags fl) (z.as0 i) (z'.as0 i) B B' i t =
      (fun _ => (atTauL z z' fl junk x x' i t).1, fun _ => (atTauL z z' fl junk x x' i t).2) := by
  have s : (toBvp z).solar = z.solar := rfl
  have n0 : ((toBvp z).m i).nu = fun _ => nu z i := rfl
  have n1 : ((toBvpL z z' fl junk).m i).nu = fun _ => nuL z z' i := rfl
  have e1 : ((toBvp z).m i).Xp = fun _ _ => Xp z i := rfl
  have e2 : ((toBvp z).m i).Xm = fun _ _ => 1 := rfl
  have e3 : ((toBvpL z z' fl junk).m i).Xp = fun _ _ => XpL z z' i := rfl
  have e4 : ((toBvpL z z' fl junk).m i).Xm = fun _ _ => 0 := rfl
  have f1 : (toBvp z).Fsp = fun i _ => Fp z i := rfl
  have f2 : (toBvp z).Fsm = fun i _ => Fm z i := rfl
  have f3 : (toBvpL z z' fl junk).Fsp = fun i _ => (FL z z' fl junk i).1 := rfl
  have f4 : (toBvpL z z' fl junk).Fsm = fun i _ => (FL z z' fl junk i).2 := rfl
  have g1 : (toBvp z).ltau = z.ltau := rfl
  have g2 : (toBvpL z z' fl junk).ltau = z'.ltau := rfl
  have g3 : (toFlags fl).lay = fl.lay := rfl
  have g4 : (toFlags fl).beam = fl.beam := rfl
  have hF' : z.solar = false → FL z z' fl junk i = (0, 0) ∧ Fp z i = 0 ∧ Fm z i = 0 := by
    intro hs
    refine ⟨?_, F_dark z hs i⟩
    rcases hsun with h | h
    · rw [hs] at h; cases h
    · exact FL_dark z z' fl junk hs (h i hi)
  have h1 := h (i * 2) (by omega)
  have h2 := h (i * 2 + 1) (by omega)
  have h3 := h' (i * 2) (by omega)
  have h4 := h' (i * 2 + 1) (by omega)
  unfold Bvp.atTauL atTauL
  simp only [on_eq, s, n0, n1, e1, e2, e3, e4, f1, f2, f3, f4, g1, g2, g3, g4, Finset.univ_unique,
    Fin.default_eq_zero, Finset.sum_singleton, Fin.val_zero, Nat.one_mul, Nat.add_zero, h1, h2, h3, h4, XmL, Xm,
    RCLike.re_to_real, RCLike.ofReal_real_eq_id, id]
  generalize FL z z' fl junk i = w at hF' ⊢
  generalize t * z'.ltau i / z.ltau i = t'
  generalize Real.exp (-nu z i * (t - 0)) = ep
  generalize Real.exp (-nu z i * (z.ltau i - t)) = em
  generalize Real.exp (-t * z.as0 i) = ea
  ext j <;> cases hs : z.solar <;> cases fl.beam i <;> cases fl.lay i <;> simp [on] <;>
    first
    | ring1
    | (simp only [(hF' hs).1, (hF' hs).2.1, (hF' hs).2.2]; ring1)
    | simp [(hF' hs).1, (hF' hs).2.1, (hF' hs).2.2]

end Xrtm.TwoStream
