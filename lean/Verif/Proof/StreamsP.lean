import Verif.Spec.Streams
import Verif.Proof.Streams
import Verif.Proof.Legendre
import Verif.Props.Bvp

/-! The problem that is set up is the one of the atmosphere. -/

namespace Xrtm.Streams
open Matrix Xrtm.Transfer Xrtm.Legendre Xrtm.Legendre.Spec Xrtm.Streams.Spec

variable {n : Nat}

/-- The sign `calc_Y_x` gives a function. -/
def sg (m l : Nat) : ℝ := if m % 2 = 1 ∧ 4 ≤ l then -1 else 1

theorem sg_sq (m l : Nat) : sg m l * sg m l = 1 := by unfold sg; split <;> norm_num

theorem calcY_sg (m l : Nat) (hm : m ≤ l) (hl : l ≤ 5) (x : ℝ) (hx : x ^ 2 ≤ 1) :
    calcY m x l = sg m l * Y m l x := by
  unfold sg
  interval_cases l <;> interval_cases m <;> norm_num
  · exact closed_00 x hx
  · exact closed_01 x hx
  · exact closed_11 x hx
  · exact closed_02 x hx
  · exact closed_12 x hx
  · exact closed_22 x hx
  · exact closed_03 x hx
  · exact closed_13 x hx
  · exact closed_23 x hx
  · exact closed_33 x hx
  · exact closed_04 x hx
  · exact closed_14 x hx
  · exact closed_24 x hx
  · exact closed_34 x hx
  · exact closed_44 x hx
  · exact closed_05 x hx
  · exact closed_15 x hx
  · exact closed_25 x hx
  · exact closed_35 x hx
  · exact closed_45 x hx
  · exact closed_55 x hx

/-- The functions of the directions the tables give. -/
noncomputable def dir (k : Kind n) (m : Nat) (j : Fin n) (l : Nat) : ℝ := sg m l * k.Y j m l

theorem sum_Ico (m N : Nat) (t : Nat → ℝ) :
    ∑ l ∈ Finset.range N, (if m ≤ l then t l else 0) = ∑ l ∈ Finset.Ico m N, t l := by
  rw [← Finset.sum_filter]
  refine Finset.sum_congr ?_ fun _ _ => rfl
  ext l
  simp only [Finset.mem_filter, Finset.mem_range, Finset.mem_Ico]
  omega

variable (k : Kind n) (z : Inp n)

theorem Pqq_eq (i : Nat) (a b : Fin n) :
    Pqq k z i a b = (same z.m (2 * n) (z.coef i) (dir k z.m a) (dir k z.m b),
      other z.m (2 * n) (z.coef i) (dir k z.m a) (dir k z.m b)) := by
  have := phaseElem_eq z.m (2 * n) (k.Y a z.m) (k.Y b z.m) (z.coef i)
  have e : Pqq k z i a b = phaseElem z.m (2 * n) (k.Y a z.m) (k.Y b z.m) (z.coef i) := rfl
  rw [e, this, sum_Ico, sum_Ico]
  unfold same other dir
  refine Prod.ext ?_ ?_
  · dsimp only
    congr 1
    refine Finset.sum_congr rfl fun l _ => ?_
    linear_combination (-(z.coef i l * k.Y a z.m l * k.Y b z.m l)) * sg_sq z.m l
  · dsimp only
    congr 1
    refine Finset.sum_congr rfl fun l _ => ?_
    linear_combination (-((-1) ^ (l + z.m) * (z.coef i l * k.Y a z.m l * k.Y b z.m l))) * sg_sq z.m l

theorem Pq0_eq (hn : n ≤ 3) (hm : z.mu0 ^ 2 ≤ 1) (i : Nat) (j : Fin n) :
    Pq0 k z i j = (same z.m (2 * n) (z.coef i) (dir k z.m j) (fun l => Y z.m l (-z.mu0)),
      other z.m (2 * n) (z.coef i) (dir k z.m j) (fun l => Y z.m l (-z.mu0))) := by
  have := phaseElem_eq z.m (2 * n) (calcY z.m (-z.mu0)) (k.Y j z.m) (z.coef i)
  have e : Pq0 k z i j = phaseElem z.m (2 * n) (calcY z.m (-z.mu0)) (k.Y j z.m) (z.coef i) := rfl
  rw [e, this, sum_Ico, sum_Ico]
  unfold same other dir
  refine Prod.ext ?_ ?_
  · dsimp only
    congr 1
    refine Finset.sum_congr rfl fun l hl => ?_
    rw [Finset.mem_Ico] at hl
    rw [calcY_sg z.m l hl.1 (by omega) _ (by rw [neg_sq]; exact hm)]
    ring
  · dsimp only
    congr 1
    refine Finset.sum_congr rfl fun l hl => ?_
    rw [Finset.mem_Ico] at hl
    rw [calcY_sg z.m l hl.1 (by omega) _ (by rw [neg_sq]; exact hm)]
    ring

/-- What the closed forms are to be: eigenvalues with independent vectors, and an
inverse. -/
structure Laws (k : Kind n) (simple : Source.M n → Prop) : Prop where
  eig : ∀ g, k.eigOk g → simple g → g * k.evecs g = k.evecs g * diagonal (k.evals g)
  indep : ∀ g, k.eigOk g → simple g → (k.evecs g).det ≠ 0
  inv : ∀ g, k.det g ≠ 0 → g * k.inv g = 1

/-- What is in a layer, with its modes. -/
noncomputable def content (i : Nat) : Bvp.Content n ℝ where
  om := z.om i
  Ppp := fun a b => same z.m (2 * n) (z.coef i) (dir k z.m a) (dir k z.m b)
  Pmp := fun a b => other z.m (2 * n) (z.coef i) (dir k z.m a) (dir k z.m b)
  Pmm := fun a b => same z.m (2 * n) (z.coef i) (dir k z.m a) (dir k z.m b)
  Ppm := fun a b => other z.m (2 * n) (z.coef i) (dir k z.m a) (dir k z.m b)
  nu := nu k z i
  V := k.evecs (gamma k z i)

theorem first_eq : (if (z.m == 0) = true then (1 : ℝ) else 0) = if z.m = 0 then 1 else 0 := by
  by_cases h : z.m = 0 <;> simp [h]

theorem local_eq (i : Nat) :
    Source.localRT (z.m == 0) z.qx z.qw (content k z i).om (content k z i).Ppp (content k z i).Pmp =
      (beta k z i, alpha k z i) := by
  have h := Pqq_eq k z i
  refine Prod.ext (funext fun a => funext fun b => ?_) (funext fun a => funext fun b => ?_)
  · dsimp only [beta, wom]
    rw [h a b]
    simp only [Source.localRT, Source.localMat, content, first_eq]
    ring
  · dsimp only [alpha, wom]
    rw [h a b]
    simp only [Source.localRT, Source.localMat, content, Matrix.sub_apply, first_eq, Matrix.diagonal_apply]
    by_cases hab : a = b
    · rw [if_pos hab, if_pos hab]; ring
    · rw [if_neg hab, if_neg hab]; ring

theorem txr_eq (i : Nat) :
    Source.txr 1 (Source.localRT (z.m == 0) z.qx z.qw (content k z i).om (content k z i).Ppp (content k z i).Pmp).1
      (Source.localRT (z.m == 0) z.qx z.qw (content k z i).om (content k z i).Ppp (content k z i).Pmp).2 =
      (apb k z i, amb k z i) := by
  rw [local_eq]
  unfold Source.txr
  rw [if_pos (by norm_num)]
  rfl

theorem gamma_eq (i : Nat) : Source.gammaOf (apb k z i) (amb k z i) = gamma k z i := by
  unfold Source.gammaOf gamma
  ext a b
  rw [Matrix.mul_apply]

variable (junk : Nat → Source.V n × Source.V n)

/-- The light the beam makes. -/
noncomputable def su (i : Nat) (τ : ℝ) : Source.V n := fun j => (F k z junk i).1 j * Real.exp (-τ * z.as0 i)

noncomputable def sd (i : Nat) (τ : ℝ) : Source.V n := fun j => (F k z junk i).2 j * Real.exp (-τ * z.as0 i)

theorem into_eq (h0 : ∀ j, z.qx j ≠ 0) (i : Nat) (u d : Fin n → ℝ) (j : Fin n) :
    u j - (Spec.medium (dir k z.m) z i).intoUp u d j = z.qx j * (∑ l, (-alpha k z i j l * u l + beta k z i j l * d l)) ∧
    d j - (Spec.medium (dir k z.m) z i).intoDn u d j = z.qx j * (∑ l, (-alpha k z i j l * d l + beta k z i j l * u l)) := by
  have h := Pqq_eq k z i
  have hp := Real.pi_ne_zero
  have key : ∀ u d : Fin n → ℝ, u j - (z.om i / (4 * Real.pi) * (if (z.m == 0) = true then 2 * Real.pi else Real.pi)) *
      ∑ l, z.qw l * (same z.m (2 * n) (z.coef i) (dir k z.m j) (dir k z.m l) * u l +
        other z.m (2 * n) (z.coef i) (dir k z.m j) (dir k z.m l) * d l) =
      z.qx j * (∑ l, (-alpha k z i j l * u l + beta k z i j l * d l)) := by
    intro u d
    have e1 : ∀ l, z.qx j * alpha k z i j l = (if j = l then -1 else 0) +
        wom z i l * same z.m (2 * n) (z.coef i) (dir k z.m j) (dir k z.m l) := by
      intro l
      unfold alpha
      rw [h j l]
      have := h0 j
      by_cases hj : j = l
      · rw [if_pos hj, if_pos hj]; field_simp
      · rw [if_neg hj, if_neg hj]; field_simp; ring
    have e2 : ∀ l, z.qx j * beta k z i j l =
        -wom z i l * other z.m (2 * n) (z.coef i) (dir k z.m j) (dir k z.m l) := by
      intro l
      unfold beta
      rw [h j l]
      have := h0 j
      field_simp
    have e3 : u j = ∑ l, (if j = l then u l else 0) := by simp
    rw [Finset.mul_sum, Finset.mul_sum]
    conv_lhs => rw [e3]
    rw [← Finset.sum_sub_distrib]
    refine Finset.sum_congr rfl fun l _ => ?_
    have e4 : z.qx j * (-alpha k z i j l * u l + beta k z i j l * d l) =
      -(z.qx j * alpha k z i j l) * u l + z.qx j * beta k z i j l * d l := by ring
    rw [e4, e1, e2]
    unfold wom
    by_cases hm : z.m = 0
    · simp only [hm, beq_self_eq_true, if_true]
      by_cases hj : j = l
      · rw [if_pos hj, if_pos hj]; field_simp; ring
      · rw [if_neg hj, if_neg hj]; field_simp; ring
    · simp only [beq_iff_eq, hm, if_false]
      by_cases hj : j = l
      · rw [if_pos hj, if_pos hj]; field_simp; ring
      · rw [if_neg hj, if_neg hj]; field_simp; ring
  constructor
  · simp only [Medium.intoUp, Spec.medium, Medium.of]
    exact key u d
  · simp only [Medium.intoDn, Spec.medium, Medium.of]
    rw [← key d u]
    congr 2
    refine Finset.sum_congr rfl fun l _ => ?_
    ring

/-- The light the beam makes obeys the equations. -/
theorem part_eq {simple : Source.M n → Prop} (laws : Laws k simple) (hn3 : n ≤ 3) (h : Fine z) {i : Nat} (hi : i < z.L)
    (hd : k.det (gammaS k z i) ≠ 0) (j : Fin n) (τ : ℝ) :
    z.qx j * ((F k z junk i).1 j * (-z.as0 i * Real.exp (-τ * z.as0 i))) =
        z.qx j * (∑ l, (-alpha k z i j l * su k z junk i τ l + beta k z i j l * sd k z junk i τ l)) -
          (Spec.stack (dir k z.m) z).qp i τ j ∧
      -(z.qx j * ((F k z junk i).2 j * (-z.as0 i * Real.exp (-τ * z.as0 i)))) =
        z.qx j * (∑ l, (-alpha k z i j l * sd k z junk i τ l + beta k z i j l * su k z junk i τ l)) -
          (Spec.stack (dir k z.m) z).qm i τ j := by
  have ha : z.as0 i ≠ 0 := fun e => by have := h.plane i hi; rw [e, zero_mul] at this; exact zero_ne_one this
  -- the equation of `p`
  have e1 : ∀ j, ∑ l, gammaS k z i j l * pp k z i l = gg k z i j := by
    intro j
    have := congrFun (congrArg (fun M : Source.M n => M *ᵥ gg k z i) (laws.inv _ hd)) j
    rw [Matrix.one_mulVec] at this
    refine Eq.trans ?_ this
    change _ = ((gammaS k z i * k.inv (gammaS k z i)) *ᵥ gg k z i) j
    rw [← Matrix.mulVec_mulVec]
    rfl
  have e2 : ∀ j, (∑ l, amb k z i j l * (hh k z i l - ee k z i l)) - z.as0 i * z.as0 i * pp k z i j = gg k z i j := by
    intro j
    rw [← e1]
    have g1 : ∀ l, gammaS k z i j l = gamma k z i j l - if j = l then z.as0 i * z.as0 i else 0 := by
      intro l
      unfold gammaS
      by_cases hj : j = l
      · rw [if_pos hj, if_pos hj]
      · rw [if_neg hj, if_neg hj, sub_zero]
    simp only [g1, sub_mul, Finset.sum_sub_distrib, ite_mul, zero_mul, Finset.sum_ite_eq, Finset.mem_univ, if_true]
    congr 1
    unfold hh gamma
    simp only [add_sub_cancel_right, Finset.mul_sum, Finset.sum_mul]
    rw [Finset.sum_comm]
    refine Finset.sum_congr rfl fun a _ => Finset.sum_congr rfl fun b _ => ?_
    ring
  have e3 : ∀ j, ∑ l, amb k z i j l * hh k z i l = z.as0 i * z.as0 i * pp k z i j - z.as0 i * dd k z i j := by
    intro j
    have := e2 j
    simp only [mul_sub, Finset.sum_sub_distrib] at this
    unfold gg at this
    linear_combination this
  have hF : F k z junk i = (fun j => z.btran i * ((z.mu0 * hh k z i j + pp k z i j) / 2),
      fun j => z.btran i * ((z.mu0 * hh k z i j + pp k z i j) / 2 - pp k z i j)) := by
    unfold F
    rw [if_neg (by simp [h.sun])]
  have hmu : ∀ j, z.as0 i * (z.mu0 * hh k z i j) = hh k z i j := fun j => by rw [← mul_assoc, h.plane i hi, one_mul]
  -- sums of `alpha` and `beta`
  have s1 : ∑ l, (alpha k z i j l + beta k z i j l) * pp k z i l = hh k z i j - ee k z i j := by
    unfold hh
    rw [add_sub_cancel_right]
    rfl
  have s2 : ∑ l, (alpha k z i j l - beta k z i j l) * (z.mu0 * hh k z i l) = z.as0 i * pp k z i j - dd k z i j := by
    have := e3 j
    apply mul_left_cancel₀ ha
    rw [Finset.mul_sum]
    calc _ = ∑ l, amb k z i j l * hh k z i l := by
          refine Finset.sum_congr rfl fun l _ => ?_
          unfold amb
          linear_combination (alpha k z i j l - beta k z i j l) * hmu l
      _ = _ := by rw [this]; ring
  have hP := Pq0_eq k z hn3 h.m1 i j
  have hq := h.q0 j
  have hp := Real.pi_ne_zero
  have hc : -z.as0 i * τ = -τ * z.as0 i := by ring
  have hds : z.qx j * ((dd k z i j + ee k z i j) / 2) = z.F0 * z.om i / (4 * Real.pi) * (Pq0 k z i j).1 := by
    unfold dd ee; field_simp; ring
  have hdm : z.qx j * ((dd k z i j - ee k z i j) / 2) = z.F0 * z.om i / (4 * Real.pi) * (Pq0 k z i j).2 := by
    unfold dd ee; field_simp; ring
  rw [hP] at hds hdm
  dsimp only at hds hdm
  unfold su sd Spec.stack beamSource
  rw [hF]
  dsimp only
  rw [hc]
  generalize Real.exp (-τ * z.as0 i) = E
  have t1 : ∑ l, (-alpha k z i j l * (z.btran i * ((z.mu0 * hh k z i l + pp k z i l) / 2) * E) +
      beta k z i j l * (z.btran i * ((z.mu0 * hh k z i l + pp k z i l) / 2 - pp k z i l) * E)) =
      z.btran i * E / 2 * (-(∑ l, (alpha k z i j l - beta k z i j l) * (z.mu0 * hh k z i l)) -
        ∑ l, (alpha k z i j l + beta k z i j l) * pp k z i l) := by
    rw [← Finset.sum_neg_distrib, ← Finset.sum_sub_distrib, Finset.mul_sum]
    refine Finset.sum_congr rfl fun l _ => ?_
    ring
  have t2 : ∑ l, (-alpha k z i j l * (z.btran i * ((z.mu0 * hh k z i l + pp k z i l) / 2 - pp k z i l) * E) +
      beta k z i j l * (z.btran i * ((z.mu0 * hh k z i l + pp k z i l) / 2) * E)) =
      z.btran i * E / 2 * (-(∑ l, (alpha k z i j l - beta k z i j l) * (z.mu0 * hh k z i l)) +
        ∑ l, (alpha k z i j l + beta k z i j l) * pp k z i l) := by
    rw [← Finset.sum_neg_distrib, ← Finset.sum_add_distrib, Finset.mul_sum]
    refine Finset.sum_congr rfl fun l _ => ?_
    ring
  rw [t1, t2, s1, s2]
  have hm := hmu j
  generalize hh k z i j = H at *
  generalize pp k z i j = P at *
  constructor
  · linear_combination (-(z.btran i * E)) * hds - z.qx j * z.btran i * E / 2 * hm
  · linear_combination (-(z.btran i * E)) * hdm + z.qx j * z.btran i * E / 2 * hm

/-- The problem that is set up is that of the atmosphere. -/
theorem posed {simple : Source.M n → Prop} (laws : Laws k simple) (hn3 : n ≤ 3) (h : Fine z) (hn : Numbers k z)
    (hs : ∀ i, i < z.L → simple (gamma k z i)) :
    Bvp.Posed (z.m == 0) 1 z.qx z.qw (content k z) (su k z junk) (sd k z junk) (toBvp k z junk)
      (Spec.stack (dir k z.m) z) where
  one := h.one
  L := rfl
  hns := Nat.one_pos
  hmu := h.q0
  med := fun _ _ => rfl
  mirrored := fun i _ a b => by
    rw [Bvp.sign_one, Bvp.sign_one, one_mul, one_mul, one_mul]
    exact ⟨rfl, rfl⟩
  solved := fun i hi => by
    obtain ⟨h1, h2, h3, -⟩ := hn i hi
    refine ⟨laws.indep _ h1 (hs i hi), h3, ?_⟩
    dsimp only
    rw [txr_eq, gamma_eq]
    have e : (gamma k z i).map (RCLike.ofReal : ℝ → ℝ) = gamma k z i := by
      ext a b; simp
    have e2 : (diagonal fun j => (content k z i).nu j ^ 2) = diagonal (k.evals (gamma k z i)) := by
      congr 1
      funext j
      exact Real.sq_sqrt (h2 j)
    rw [e, e2]
    exact laws.eig _ h1 (hs i hi)
  modes := fun i hi => by
    unfold Bvp.Content.modes
    dsimp only
    rw [txr_eq]
    unfold toBvp Eig.modes
    dsimp only
    congr 1
    · funext a b
      unfold Xp W1
      simp only [Matrix.mul_apply, Matrix.map_apply, RCLike.ofReal_real_eq_id, id, content]
      ring
    · funext a b
      unfold Xm W1
      simp only [Matrix.mul_apply, Matrix.map_apply, RCLike.ofReal_real_eq_id, id, content]
      ring
  T := fun _ _ => rfl
  part := fun i hi τ j => by
    have hd : HasDerivAt (fun s : ℝ => Real.exp (-s * z.as0 i)) (-z.as0 i * Real.exp (-τ * z.as0 i)) τ := by
      have := (((hasDerivAt_id τ).fun_neg).mul_const (z.as0 i)).exp
      refine this.congr_deriv ?_
      simp; ring
    have hdet := (hn i hi).2.2.2 (by simp [h.sun])
    have hp := part_eq k z junk laws hn3 h hi hdet j τ
    refine ⟨(F k z junk i).1 j * (-z.as0 i * Real.exp (-τ * z.as0 i)),
      (F k z junk i).2 j * (-z.as0 i * Real.exp (-τ * z.as0 i)), hd.const_mul _, hd.const_mul _, ?_, ?_⟩
    · change z.qx j * _ = su k z junk i τ j - (Spec.medium (dir k z.m) z i).intoUp _ _ _ - _
      rw [(into_eq k z h.q0 i _ _ j).1]
      exact hp.1
    · change -(z.qx j * _) = sd k z junk i τ j - (Spec.medium (dir k z.m) z i).intoDn _ _ _ - _
      rw [(into_eq k z h.q0 i _ _ j).2]
      exact hp.2
  p0p := fun i _ => by
    funext j
    unfold su Bvp.P0p toBvp
    simp
  p0m := fun i _ => by
    funext j
    unfold sd Bvp.P0m toBvp
    simp [Bvp.turn_one]
  p1p := fun i hi => by
    funext j
    unfold su Bvp.P1p toBvp
    simp [h.decay i hi, mul_comm]
  p1m := fun i hi => by
    funext j
    unfold sd Bvp.P1m toBvp
    simp [Bvp.turn_one, h.decay i hi, mul_comm]
  top := by rw [Bvp.turn_one]; exact h.sky.symm
  bot := by
    unfold Spec.stack toBvp
    dsimp only
    cases hz : z.surface with
    | true => rfl
    | false => exact (h.ground hz).symm
  refl := fun g => by
    rw [Bvp.turn_one]
    unfold Spec.stack toBvp
    funext j
    cases z.surface <;> simp [Matrix.mulVec, dotProduct]

end Xrtm.Streams
