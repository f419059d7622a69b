import Verif.Spec.TwoStream
import Verif.Proof.TwoStreamSing
import Verif.Proof.LegendreMath
import Verif.Props.Bvp

/-! The problem that is set up is the one of the atmosphere. -/

namespace Xrtm.TwoStream
open Xrtm.Transfer Xrtm.Legendre.Spec Xrtm.TwoStream.Spec Matrix

theorem Y00 (x : ℝ) : Y 0 0 x = 1 := by simp [Y, legendre]

theorem Y01 (x : ℝ) : Y 0 1 x = x := by
  simp [Y, legendre]; ring

theorem Y11 (x : ℝ) : Y 1 1 x = -(√(1 / 2) * √(1 - x ^ 2)) := by
  simp [Y, legendre]; ring

theorem phase_first (g x y : ℝ) : phase true g x y = 1 + g * (x * y) := by
  simp [phase, eps, Finset.sum_range_succ, Y00, Y01]

theorem phase_second (g x y : ℝ) : phase false g x y = g * (√(1 - x ^ 2) * √(1 - y ^ 2)) := by
  have h : √(1 / 2) * √(1 / 2) = (1 / 2 : ℝ) := Real.mul_self_sqrt (by norm_num)
  simp only [phase, eps, Finset.sum_range_succ, Y11, Legendre.Y_zero 1 0 Nat.one_pos, Bool.false_eq_true,
    if_false, if_true, Finset.sum_range_zero, one_ne_zero]
  linear_combination 2 * g * (√(1 - x ^ 2) * √(1 - y ^ 2)) * h

theorem mul1 (A B : Matrix (Fin 1) (Fin 1) ℝ) (a b : Fin 1) : (A * B) a b = A a 0 * B 0 b := by
  rw [Matrix.mul_apply, Fin.sum_univ_one]

variable {z : Inp}

/-- The phase matrices of the solver are the Fourier terms. -/
theorem Pqq_phase (hq : z.qx ^ 2 ≤ 1) (i : Nat) :
    Pqq z i = (phase z.first (z.g i) z.qx z.qx, phase z.first (z.g i) (-z.qx) z.qx) := by
  unfold Pqq
  cases h : z.first with
  | true => simp only [if_true, phase_first]; exact Prod.ext rfl (by dsimp only; ring)
  | false =>
    have e := Real.mul_self_sqrt (show 0 ≤ 1 - z.qx ^ 2 by linarith)
    simp only [Bool.false_eq_true, if_false, phase_second, neg_sq]
    rw [e, sq]

theorem Pq0_phase (i : Nat) : Pq0 z i = (phase z.first (z.g i) (-z.qx) (-z.mu0), phase z.first (z.g i) z.qx (-z.mu0)) := by
  unfold Pq0
  cases h : z.first with
  | true => simp only [if_true, phase_first]; exact Prod.ext (by dsimp only; ring) (by dsimp only; ring)
  | false => simp only [Bool.false_eq_true, if_false, phase_second, neg_sq]; rw [sq, sq]

/-- What is in a layer, with its mode. -/
noncomputable def content (z : Inp) (i : Nat) : Bvp.Content 1 ℝ where
  om := z.om i
  Ppp := fun _ _ => phase z.first (z.g i) z.qx z.qx
  Pmp := fun _ _ => phase z.first (z.g i) (-z.qx) z.qx
  Pmm := fun _ _ => phase z.first (z.g i) (-z.qx) (-z.qx)
  Ppm := fun _ _ => phase z.first (z.g i) z.qx (-z.qx)
  nu := fun _ => nu z i
  V := fun _ _ => 2 * nu z i / (nu z i - a9 z i)

theorem phase_neg (f : Bool) (g x y : ℝ) : phase f g (-x) (-y) = phase f g x y := by
  cases f <;> simp [phase_first, phase_second]

theorem phase_neg2 (f : Bool) (g x y : ℝ) : phase f g x (-y) = phase f g (-x) y := by
  cases f <;> simp [phase_first, phase_second]

theorem local_eq (hq : z.qx ^ 2 ≤ 1) (i : Nat) :
    Source.localRT z.first (fun _ : Fin 1 => z.qx) (fun _ => 1) (content z i).om (content z i).Ppp (content z i).Pmp =
      (fun _ _ => beta z i, fun _ _ => alpha z i) := by
  have h1 := congrArg Prod.fst (Pqq_phase hq i)
  have h2 := congrArg Prod.snd (Pqq_phase hq i)
  dsimp only at h1 h2
  refine Prod.ext (funext fun a => funext fun b => ?_) (funext fun a => funext fun b => ?_)
  · unfold beta a6
    rw [h2]
    simp only [Source.localRT, Source.localMat, content]
    cases z.first <;> simp <;> ring
  · unfold alpha a6
    rw [h1]
    fin_cases a; fin_cases b
    simp only [Source.localRT, Source.localMat, content, Matrix.sub_apply]
    cases z.first <;> simp <;> ring

theorem txr_eq (hq : z.qx ^ 2 ≤ 1) (i : Nat) :
    Source.txr 1 (Source.localRT z.first (fun _ : Fin 1 => z.qx) (fun _ => 1) (content z i).om (content z i).Ppp (content z i).Pmp).1
      (Source.localRT z.first (fun _ : Fin 1 => z.qx) (fun _ => 1) (content z i).om (content z i).Ppp (content z i).Pmp).2 =
      ((fun _ _ => alpha z i + beta z i : Matrix (Fin 1) (Fin 1) ℝ), (fun _ _ => alpha z i - beta z i : Matrix (Fin 1) (Fin 1) ℝ)) := by
  rw [local_eq hq]
  unfold Source.txr
  rw [if_pos (by norm_num)]
  rfl

/-- The light the beam makes. -/
noncomputable def su (z : Inp) (i : Nat) (τ : ℝ) : Source.V 1 := fun _ => Fp z i * Real.exp (-τ * z.as0 i)

noncomputable def sd (z : Inp) (i : Nat) (τ : ℝ) : Source.V 1 := fun _ => Fm z i * Real.exp (-τ * z.as0 i)

theorem intoUp_eq (hq : z.qx ^ 2 ≤ 1) (h0 : z.qx ≠ 0) (i : Nat) (u d : Fin 1 → ℝ) (j : Fin 1) :
    u j - (Spec.medium z i).intoUp u d j = z.qx * (-alpha z i * u j + beta z i * d j) := by
  have h1 := congrArg Prod.fst (Pqq_phase hq i)
  have h2 := congrArg Prod.snd (Pqq_phase hq i)
  dsimp only at h1 h2
  unfold alpha beta a6
  rw [h1, h2]
  fin_cases j
  simp only [Medium.intoUp, Spec.medium, Medium.of, Fin.sum_univ_one, phase_neg2]
  have hp := Real.pi_ne_zero
  cases z.first <;> simp <;> field_simp <;> ring

theorem intoDn_eq (hq : z.qx ^ 2 ≤ 1) (h0 : z.qx ≠ 0) (i : Nat) (u d : Fin 1 → ℝ) (j : Fin 1) :
    d j - (Spec.medium z i).intoDn u d j = z.qx * (-alpha z i * d j + beta z i * u j) := by
  have h1 := congrArg Prod.fst (Pqq_phase hq i)
  have h2 := congrArg Prod.snd (Pqq_phase hq i)
  dsimp only at h1 h2
  unfold alpha beta a6
  rw [h1, h2]
  fin_cases j
  simp only [Medium.intoDn, Spec.medium, Medium.of, Fin.sum_univ_one, phase_neg2, phase_neg]
  have hp := Real.pi_ne_zero
  cases z.first <;> simp <;> field_simp <;> ring

theorem part_eq (h : Fine z) (hn : Numbers z) {i : Nat} (hi : i < z.L) (τ : ℝ) {j : Fin 1} :
    z.qx * (Fp z i * (-z.as0 i * Real.exp (-τ * z.as0 i))) =
        z.qx * (-alpha z i * su z i τ j + beta z i * sd z i τ j) - (Spec.stack z).qp i τ j ∧
      -(z.qx * (Fm z i * (-z.as0 i * Real.exp (-τ * z.as0 i)))) =
        z.qx * (-alpha z i * sd z i τ j + beta z i * su z i τ j) - (Spec.stack z).qm i τ j := by
  cases hs : z.solar with
  | false => simp [su, sd, Fp, Fm, Spec.stack, hs]
  | true =>
    have h15 := (hn i hi).2.2 hs
    have e1 := congrArg Prod.fst (Pq0_phase (z := z) i)
    have e2 := congrArg Prod.snd (Pq0_phase (z := z) i)
    dsimp only at e1 e2
    have hc : -z.as0 i * τ = -τ * z.as0 i := by ring
    unfold su sd Fp Fm Spec.stack beamSource
    simp only [hs, if_true, ← e1, ← e2, hc]
    unfold vars at h15 ⊢
    simp only [hs, if_true] at h15 ⊢
    have hq := h.q0
    have hp := Real.pi_ne_zero
    generalize Real.exp (-τ * z.as0 i) = E
    generalize (Pq0 z i).1 = p
    generalize (Pq0 z i).2 = r
    generalize alpha z i = a at h15 ⊢
    generalize beta z i = b at h15 ⊢
    have hD : ((z.as0 i + a) * (z.as0 i - a) + b * b)⁻¹ * ((z.as0 i + a) * (z.as0 i - a) + b * b) = 1 :=
      inv_mul_cancel₀ h15
    simp only [div_eq_mul_inv]
    generalize ((z.as0 i + a) * (z.as0 i - a) + b * b)⁻¹ = D at hD
    have hQ := mul_inv_cancel₀ hq
    generalize (z.qx)⁻¹ = Q at hQ
    generalize (4 * Real.pi)⁻¹ = W
    constructor
    · linear_combination (z.F0 * z.om i * z.btran i * r * W * E) * (-1 * hQ - Q * z.qx * hD)
    · linear_combination (z.F0 * z.om i * z.btran i * p * W * E) * (-1 * hQ - Q * z.qx * hD)

theorem posed (h : Fine z) (hn : Numbers z) (hnu : ∀ i, i < z.L → nu z i ≠ 0) :
    Bvp.Posed z.first 1 (fun _ : Fin 1 => z.qx) (fun _ => 1) (content z) (su z) (sd z) (toBvp z) (Spec.stack z) where
  one := h.one
  L := rfl
  hns := Nat.one_pos
  hmu := fun _ => h.q0
  med := fun _ _ => rfl
  mirrored := fun i _ k l => by
    rw [Bvp.sign_one, Bvp.sign_one, one_mul, one_mul, one_mul]
    exact ⟨phase_neg _ _ _ _, phase_neg2 _ _ _ _⟩
  solved := fun i hi => by
    refine ⟨?_, fun _ => hnu i hi, ?_⟩
    · rw [Matrix.det_fin_one]
      exact div_ne_zero (mul_ne_zero two_ne_zero (hnu i hi)) (hn i hi).2.1
    · dsimp only
      rw [txr_eq h.q1]
      funext a b
      obtain rfl := Subsingleton.elim a 0
      obtain rfl := Subsingleton.elim b 0
      have e : nu z i ^ 2 = alpha z i * alpha z i - beta z i * beta z i := Real.sq_sqrt (hn i hi).1
      rw [mul1, mul1, Matrix.map_apply, Source.gammaOf, mul1, Matrix.diagonal_apply_eq]
      simp only [RCLike.ofReal_real_eq_id, id]
      change (alpha z i - beta z i) * (alpha z i + beta z i) * (content z i).V 0 0 = (content z i).V 0 0 * nu z i ^ 2
      rw [e]; ring
  modes := fun i hi => by
    unfold Bvp.Content.modes
    dsimp only
    rw [txr_eq h.q1]
    unfold toBvp Eig.modes
    dsimp only
    have h1 := hnu i hi
    have h2 := (hn i hi).2.1
    congr 1
    · funext a b
      rw [mul1]
      change Xp z i = 1 / 2 * ((content z i).V a b + (alpha z i + beta z i) * (content z i).V 0 b / (content z i).nu b)
      simp only [Xp, content]
      unfold a9 at h2 ⊢
      field_simp
    · funext a b
      rw [mul1]
      change 1 = 1 / 2 * ((content z i).V a b - (alpha z i + beta z i) * (content z i).V 0 b / (content z i).nu b)
      simp only [content]
      unfold a9 at h2 ⊢
      field_simp
  T := fun _ _ => rfl
  part := fun i hi τ j => by
    have hd : HasDerivAt (fun s : ℝ => Real.exp (-s * z.as0 i)) (-z.as0 i * Real.exp (-τ * z.as0 i)) τ := by
      have := (((hasDerivAt_id τ).fun_neg).mul_const (z.as0 i)).exp
      refine this.congr_deriv ?_
      simp; ring
    refine ⟨Fp z i * (-z.as0 i * Real.exp (-τ * z.as0 i)), Fm z i * (-z.as0 i * Real.exp (-τ * z.as0 i)),
      hd.const_mul _, hd.const_mul _, ?_, ?_⟩
    · change z.qx * _ = su z i τ j - (Spec.medium z i).intoUp _ _ _ - _
      rw [intoUp_eq h.q1 h.q0]
      exact (part_eq h hn hi τ).1
    · change -(z.qx * _) = sd z i τ j - (Spec.medium z i).intoDn _ _ _ - _
      rw [intoDn_eq h.q1 h.q0]
      exact (part_eq h hn hi τ).2
  p0p := fun i _ => by
    funext j
    unfold su Bvp.P0p toBvp
    cases hs : z.solar <;> simp [Fp, hs]
  p0m := fun i _ => by
    funext j
    unfold sd Bvp.P0m toBvp
    cases hs : z.solar <;> simp [Bvp.turn_one, Fm, hs]
  p1p := fun i hi => by
    funext j
    unfold su Bvp.P1p toBvp
    cases hs : z.solar <;> simp [Fp, hs, h.decay i hi, mul_comm]
  p1m := fun i hi => by
    funext j
    unfold sd Bvp.P1m toBvp
    cases hs : z.solar <;> simp [Bvp.turn_one, Fm, hs, h.decay i hi, mul_comm]
  top := by rw [Bvp.turn_one]; rfl
  bot := by unfold Spec.stack toBvp solfac; rfl
  refl := fun g => by
    rw [Bvp.turn_one]
    unfold Spec.stack toBvp
    funext j
    cases z.surface <;> simp [Matrix.mulVec, dotProduct]

end Xrtm.TwoStream
