import Verif.Proof.StreamsL

/-! In shells the source is not that of the beam. -/

namespace Xrtm.Streams
open Matrix Xrtm.Transfer Xrtm.Legendre.Spec Xrtm.Streams.Spec

variable {n : Nat} {k : Kind n} {z : Inp n} {junk : Nat → Source.V n × Source.V n} {simple : Source.M n → Prop}

theorem pp_eq (laws : Laws k simple) (i : Nat) (hd : k.det (gammaS k z i) ≠ 0) (j : Fin n) :
    ∑ l, amb k z i j l * hh k z i l = z.as0 i * z.as0 i * pp k z i j - z.as0 i * dd k z i j := by
  have e1 : ∑ l, gammaS k z i j l * pp k z i l = gg k z i j := by
    have := congrFun (congrArg (fun M : Source.M n => M *ᵥ gg k z i) (laws.inv _ hd)) j
    rw [Matrix.one_mulVec] at this
    refine Eq.trans ?_ this
    rw [← Matrix.mulVec_mulVec]
    rfl
  have g1 : ∀ l, gammaS k z i j l = gamma k z i j l - if j = l then z.as0 i * z.as0 i else 0 := by
    intro l
    unfold gammaS
    by_cases hj : j = l
    · rw [if_pos hj, if_pos hj]
    · rw [if_neg hj, if_neg hj, sub_zero]
  have e2 : (∑ l, amb k z i j l * (hh k z i l - ee k z i l)) - z.as0 i * z.as0 i * pp k z i j = gg k z i j := by
    rw [← e1]
    simp only [g1, sub_mul, Finset.sum_sub_distrib, ite_mul, zero_mul, Finset.sum_ite_eq, Finset.mem_univ, if_true]
    congr 1
    unfold hh gamma
    simp only [add_sub_cancel_right, Finset.mul_sum, Finset.sum_mul]
    rw [Finset.sum_comm]
    refine Finset.sum_congr rfl fun a _ => Finset.sum_congr rfl fun b _ => ?_
    ring
  simp only [mul_sub, Finset.sum_sub_distrib] at e2
  unfold gg at e2
  linear_combination e2

/-- If the source of a layer were light in it, the layer would be plane or there would be
nothing to scatter. -/
theorem shell_source (laws : Laws k simple) (hn3 : n ≤ 3) (h0 : ∀ j, z.qx j ≠ 0) (hm : z.mu0 ^ 2 ≤ 1)
    (hsun : z.solar = true) {i : Nat} (hd : k.det (gammaS k z i) ≠ 0) (hb : z.btran i ≠ 0)
    (hsh : z.as0 i * z.mu0 ≠ 1)
    (hc : (Spec.medium (dir k z.m) z i).Carries ((Spec.stack (dir k z.m) z).qp i) ((Spec.stack (dir k z.m) z).qm i)
      (su k z junk i) (sd k z junk i)) (j : Fin n) : hh k z i j = 0 := by
  have hF : F k z junk i = (fun j => z.btran i * ((z.mu0 * hh k z i j + pp k z i j) / 2),
      fun j => z.btran i * ((z.mu0 * hh k z i j + pp k z i j) / 2 - pp k z i j)) := by
    unfold F
    rw [if_neg (by simp [hsun])]
  obtain ⟨u, d, hu, hdn, eu, ed⟩ := hc 0 j
  have hx : HasDerivAt (fun s : ℝ => Real.exp (-s * z.as0 i)) (-z.as0 i) 0 := by
    have := (((hasDerivAt_id (0 : ℝ)).fun_neg).mul_const (z.as0 i)).exp
    refine this.congr_deriv ?_
    simp
  have u1 := hu.unique (hx.const_mul ((F k z junk i).1 j))
  have d1 := hdn.unique (hx.const_mul ((F k z junk i).2 j))
  have hP := Pq0_eq k z hn3 hm i j
  have hq := h0 j
  have hp := Real.pi_ne_zero
  have hds : z.qx j * ((dd k z i j + ee k z i j) / 2) = z.F0 * z.om i / (4 * Real.pi) * (Pq0 k z i j).1 := by
    unfold dd ee; field_simp; ring
  have hdm : z.qx j * ((dd k z i j - ee k z i j) / 2) = z.F0 * z.om i / (4 * Real.pi) * (Pq0 k z i j).2 := by
    unfold dd ee; field_simp; ring
  rw [hP] at hds hdm
  dsimp only at hds hdm
  have i1 := (into_eq k z h0 i (su k z junk i 0) (sd k z junk i 0) j).1
  have i2 := (into_eq k z h0 i (su k z junk i 0) (sd k z junk i 0) j).2
  rw [i1] at eu
  rw [i2] at ed
  change z.qx j * u = _ at eu
  change -(z.qx j * d) = _ at ed
  rw [u1] at eu
  rw [d1] at ed
  unfold su sd Spec.stack beamSource at eu ed
  rw [hF] at eu ed
  simp only [neg_zero, zero_mul, mul_zero, Real.exp_zero, mul_one] at eu ed
  have t1 : ∑ l, (-alpha k z i j l * (z.btran i * ((z.mu0 * hh k z i l + pp k z i l) / 2)) +
      beta k z i j l * (z.btran i * ((z.mu0 * hh k z i l + pp k z i l) / 2 - pp k z i l))) =
      z.btran i / 2 * (-z.mu0 * (∑ l, amb k z i j l * hh k z i l) - ∑ l, apb k z i j l * pp k z i l) := by
    rw [Finset.mul_sum, ← Finset.sum_sub_distrib, Finset.mul_sum]
    refine Finset.sum_congr rfl fun l _ => ?_
    unfold amb apb
    ring
  have t2 : ∑ l, (-alpha k z i j l * (z.btran i * ((z.mu0 * hh k z i l + pp k z i l) / 2 - pp k z i l)) +
      beta k z i j l * (z.btran i * ((z.mu0 * hh k z i l + pp k z i l) / 2))) =
      z.btran i / 2 * (-z.mu0 * (∑ l, amb k z i j l * hh k z i l) + ∑ l, apb k z i j l * pp k z i l) := by
    rw [Finset.mul_sum, ← Finset.sum_add_distrib, Finset.mul_sum]
    refine Finset.sum_congr rfl fun l _ => ?_
    unfold amb apb
    ring
  have s1 : ∑ l, apb k z i j l * pp k z i l = hh k z i j - ee k z i j := by
    unfold hh
    rw [add_sub_cancel_right]
  rw [t1, s1, pp_eq laws i hd j] at eu
  rw [t2, s1, pp_eq laws i hd j] at ed
  have hr : z.as0 i * z.mu0 - 1 ≠ 0 := sub_ne_zero.2 hsh
  have r : (z.as0 i * z.mu0 - 1) * (z.btran i * z.qx j * hh k z i j) = 0 := by
    linear_combination ed - eu - z.btran i * (hds - hdm)
  exact (mul_eq_zero.1 ((mul_eq_zero.1 r).resolve_left hr)).resolve_left (mul_ne_zero hb hq)

theorem shell_tau (laws : Laws k simple) (hn3 : n ≤ 3) (h0 : ∀ j, z.qx j ≠ 0) (hm : z.mu0 ^ 2 ≤ 1)
    (hsun : z.solar = true) (hn : Numbers k z) {i : Nat} (hi : i < z.L) (hs : simple (gamma k z i)) (hb : z.btran i ≠ 0)
    (hsh : z.as0 i * z.mu0 ≠ 1) {up dn : ℝ → Fin n → ℝ}
    (hc : (Spec.medium (dir k z.m) z i).Carries ((Spec.stack (dir k z.m) z).qp i) ((Spec.stack (dir k z.m) z).qm i) up dn)
    (x : Nat → ℝ) (h : ∀ t, atTau k z junk x i t = (up t, dn t)) (j : Fin n) : hh k z i j = 0 := by
  obtain ⟨h1, h2, h3, h4⟩ := hn i hi
  have hd : k.det (gammaS k z i) ≠ 0 := h4 (by simp [hsun])
  have hmir : (Medium.of (z.m == 0) z.qx z.qw (content k z i).om (content k z i).Ppp (content k z i).Pmp
      (content k z i).Pmm (content k z i).Ppm).Mirrored 1 := fun a b => by
    rw [Bvp.sign_one, Bvp.sign_one, one_mul, one_mul, one_mul]
    exact ⟨rfl, rfl⟩
  have hE : let y := Source.localRT (z.m == 0) z.qx z.qw (content k z i).om (content k z i).Ppp (content k z i).Pmp
      let x := Source.txr 1 y.1 y.2
      ((Source.gammaOf x.1 x.2).map fun y : ℝ => (y : ℝ)) * (content k z i).V =
        (content k z i).V * diagonal fun j => (content k z i).nu j ^ 2 := by
    dsimp only
    rw [txr_eq, gamma_eq]
    have e : (gamma k z i).map (fun y : ℝ => (y : ℝ)) = gamma k z i := by
      ext a b; simp
    have e2 : (diagonal fun j => (content k z i).nu j ^ 2) = diagonal (k.evals (gamma k z i)) := by
      congr 1
      funext j
      exact Real.sq_sqrt (h2 j)
    rw [e, e2]
    exact laws.eig _ h1 hs
  have hl := Eig.layer_made (K := ℝ) Eig.exp_real (z.ltau i) Nat.one_pos h0 hmir (nu := (content k z i).nu) h3 hE
    (fun l => x (i * n * 2 + l)) fun l => x (i * n * 2 + l + n)
  dsimp only at hl
  rw [txr_eq] at hl
  dsimp only at hl
  have hx : ∀ a b, (Eig.modes ((apb k z i).map fun y : ℝ => (y : ℝ)) (content k z i).nu (content k z i).V).Xp a b = Xp k z i a b ∧
      (Eig.modes ((apb k z i).map fun y : ℝ => (y : ℝ)) (content k z i).nu (content k z i).V).Xm a b = Xm k z i a b := by
    intro a b
    unfold Eig.modes
    dsimp only
    constructor
    · unfold Xp W1
      simp only [Matrix.mul_apply, Matrix.map_apply, content]
      ring
    · unfold Xm W1
      simp only [Matrix.mul_apply, Matrix.map_apply, content]
      ring
  have hsub := Bvp.carries_add2 hc (Bvp.carries_smul (-1) hl)
  have e1 : ∀ t j, (F k z junk i).1 j * Real.exp (-t * z.as0 i) = up t j - Eig.sumUp Real.exp
      (Eig.modes ((apb k z i).map fun y : ℝ => (y : ℝ)) (content k z i).nu (content k z i).V) (z.ltau i)
      (fun l => x (i * n * 2 + l)) (fun l => x (i * n * 2 + l + n)) t j := by
    intro t j
    have : (atTau k z junk x i t).1 j = up t j := congrFun (congrArg Prod.fst (h t)) j
    rw [← this]
    unfold atTau Eig.sumUp
    simp only [hx]
    rw [eq_sub_iff_add_eq, add_comm]
    congr 1
    refine Finset.sum_congr rfl fun l _ => ?_
    change _ * Real.exp (-nu k z i l * t) + _ * Real.exp (-nu k z i l * (z.ltau i - t)) = _
    rw [sub_zero]
    ring
  have e2 : ∀ t j, (F k z junk i).2 j * Real.exp (-t * z.as0 i) = dn t j - Eig.sumDn Real.exp
      (Eig.modes ((apb k z i).map fun y : ℝ => (y : ℝ)) (content k z i).nu (content k z i).V) (z.ltau i)
      (fun l => x (i * n * 2 + l)) (fun l => x (i * n * 2 + l + n)) t j := by
    intro t j
    have : (atTau k z junk x i t).2 j = dn t j := congrFun (congrArg Prod.snd (h t)) j
    rw [← this]
    unfold atTau Eig.sumDn
    simp only [hx]
    rw [eq_sub_iff_add_eq, add_comm]
    congr 1
    refine Finset.sum_congr rfl fun l _ => ?_
    change _ * Real.exp (-nu k z i l * t) + _ * Real.exp (-nu k z i l * (z.ltau i - t)) = _
    rw [sub_zero]
    ring
  refine shell_source (junk := junk) laws hn3 h0 hm hsun hd hb hsh ?_ j
  have f1 : su k z junk i = fun t => up t + (-1 : ℝ) • fun j => RCLike.re (Eig.sumUp Real.exp
      (Eig.modes ((apb k z i).map fun y : ℝ => (y : ℝ)) (content k z i).nu (content k z i).V) (z.ltau i)
      (fun l => x (i * n * 2 + l)) (fun l => x (i * n * 2 + l + n)) t j) := by
    funext t j
    refine (e1 t j).trans ?_
    simp only [Pi.add_apply, Pi.smul_apply, smul_eq_mul, RCLike.re_to_real]
    ring
  have f2 : sd k z junk i = fun t => dn t + (-1 : ℝ) • Source.turn 1 fun j => RCLike.re (Eig.sumDn Real.exp
      (Eig.modes ((apb k z i).map fun y : ℝ => (y : ℝ)) (content k z i).nu (content k z i).V) (z.ltau i)
      (fun l => x (i * n * 2 + l)) (fun l => x (i * n * 2 + l + n)) t j) := by
    funext t j
    refine (e2 t j).trans ?_
    rw [Bvp.turn_one]
    simp only [Pi.add_apply, Pi.smul_apply, smul_eq_mul, RCLike.re_to_real]
    ring
  rw [f1, f2]
  intro t j
  obtain ⟨u, d, hu, hdn, eu, ed⟩ := hsub t j
  refine ⟨u, d, hu, hdn, eu.trans ?_, ed.trans ?_⟩
  · simp only [Pi.zero_apply, mul_zero, add_zero]
    rfl
  · simp only [Pi.zero_apply, mul_zero, add_zero]
    rfl

end Xrtm.Streams
