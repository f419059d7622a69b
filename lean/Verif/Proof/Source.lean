import Verif.Model.Source
import Verif.Spec.Transfer
import Verif.Proof.AddingG
import Mathlib.LinearAlgebra.Matrix.ToLinearEquiv
import Mathlib.Tactic.FieldSimp
import Mathlib.Tactic.LinearCombination

/-! Particular solutions and layer sources. -/

namespace Xrtm.Source
open Matrix Filter Topology Xrtm.Spec Xrtm.Transfer

variable {n : Nat}

/-! ## Signs -/

theorem sign_sq (ns i : Nat) : stokesSign ns i * stokesSign ns i = 1 := by
  unfold stokesSign; split_ifs <;> norm_num

theorem turn_apply (ns : Nat) (a : V n) (i : Fin n) : turn ns a i = stokesSign ns i * a i := by
  unfold turn stokesSign; split_ifs <;> simp

theorem turnM_apply (ns : Nat) (a : M n) (i j : Fin n) : turnM ns a i j = stokesSign ns i * a i j := by
  unfold turnM stokesSign; split_ifs <;> simp

theorem sign_small {ns : Nat} (h0 : 0 < ns) (h : ns ≤ 2) (i : Nat) : stokesSign ns i = 1 := by
  have : ¬ 2 ≤ i % ns := by have := Nat.mod_lt i h0; omega
  unfold stokesSign; rw [if_neg this]

theorem txr_eq {ns : Nat} (h0 : 0 < ns) (r t : M n) :
    txr ns r t = (t + turnM ns r, t - turnM ns r) := by
  unfold txr
  split_ifs with h
  · have : turnM ns r = r := by
      funext i j; rw [turnM_apply, sign_small h0 h, one_mul]
    rw [this]
  · rfl

/-! ## Local matrices -/

variable {first : Bool} {mu w : V n} {om : ℝ} {Ppp Pmp Pmm Ppm : M n}

theorem k_eq (first : Bool) (om : ℝ) : om / (4 * Real.pi) * (if first then 2 * Real.pi else Real.pi) =
    (1 + if first then 1 else 0) / 4 * om := by
  have := Real.pi_ne_zero
  cases first <;> simp <;> field_simp <;> ring

theorem up_eq (hmu : ∀ i, mu i ≠ 0) (up dn : V n) (i : Fin n) :
    up i - (Medium.of first mu w om Ppp Pmp Pmm Ppm).intoUp up dn i =
      mu i * (-((localRT first mu w om Ppp Pmp).2 *ᵥ up) i + ((localRT first mu w om Pmm Ppm).1 *ᵥ dn) i) := by
  have h := hmu i
  simp only [Medium.intoUp, Medium.of, k_eq, localRT, Matrix.sub_mulVec, Pi.sub_apply, Matrix.mulVec_diagonal]
  simp only [Matrix.mulVec, dotProduct, localMat]
  have e1 : ∑ j, 1 * (1 + if first then 1 else 0) / 4 * om * (1 / mu i * Ppp i j * w j) * up j =
      (1 + if first then 1 else 0) / 4 * om / mu i * ∑ j, w j * (Ppp i j * up j) := by
    rw [Finset.mul_sum]; exact Finset.sum_congr rfl fun j _ => by ring
  have e2 : ∑ j, -1 * (1 + if first then 1 else 0) / 4 * om * (1 / mu i * Ppm i j * w j) * dn j =
      -((1 + if first then 1 else 0) / 4 * om / mu i * ∑ j, w j * (Ppm i j * dn j)) := by
    rw [Finset.mul_sum, ← Finset.sum_neg_distrib]; exact Finset.sum_congr rfl fun j _ => by ring
  rw [e1, e2]
  simp only [mul_add, Finset.sum_add_distrib]
  field_simp
  ring

theorem dn_eq (hmu : ∀ i, mu i ≠ 0) (up dn : V n) (i : Fin n) :
    dn i - (Medium.of first mu w om Ppp Pmp Pmm Ppm).intoDn up dn i =
      mu i * (-((localRT first mu w om Pmm Ppm).2 *ᵥ dn) i + ((localRT first mu w om Ppp Pmp).1 *ᵥ up) i) := by
  have h := hmu i
  simp only [Medium.intoDn, Medium.of, k_eq, localRT, Matrix.sub_mulVec, Pi.sub_apply, Matrix.mulVec_diagonal]
  simp only [Matrix.mulVec, dotProduct, localMat]
  have e1 : ∑ j, 1 * (1 + if first then 1 else 0) / 4 * om * (1 / mu i * Pmm i j * w j) * dn j =
      (1 + if first then 1 else 0) / 4 * om / mu i * ∑ j, w j * (Pmm i j * dn j) := by
    rw [Finset.mul_sum]; exact Finset.sum_congr rfl fun j _ => by ring
  have e2 : ∑ j, -1 * (1 + if first then 1 else 0) / 4 * om * (1 / mu i * Pmp i j * w j) * up j =
      -((1 + if first then 1 else 0) / 4 * om / mu i * ∑ j, w j * (Pmp i j * up j)) := by
    rw [Finset.mul_sum, ← Finset.sum_neg_distrib]; exact Finset.sum_congr rfl fun j _ => by ring
  rw [e1, e2]
  simp only [mul_add, Finset.sum_add_distrib]
  field_simp
  ring

/-- The equation of transfer in the local matrices. -/
theorem carries_iff (hmu : ∀ i, mu i ≠ 0) (qp qm up dn : ℝ → V n) :
    (Medium.of first mu w om Ppp Pmp Pmm Ppm).Carries qp qm up dn ↔
      ∀ τ i, HasDerivAt (fun s => up s i) (-((localRT first mu w om Ppp Pmp).2 *ᵥ up τ) i +
          ((localRT first mu w om Pmm Ppm).1 *ᵥ dn τ) i - qp τ i / mu i) τ ∧
        HasDerivAt (fun s => dn s i) (-((localRT first mu w om Ppp Pmp).1 *ᵥ up τ) i +
          ((localRT first mu w om Pmm Ppm).2 *ᵥ dn τ) i + qm τ i / mu i) τ := by
  constructor
  · intro h τ i
    obtain ⟨u, d, hu, hd, eu, ed⟩ := h τ i
    rw [up_eq hmu] at eu
    rw [dn_eq hmu] at ed
    have h := hmu i
    have e3 : (Medium.of first mu w om Ppp Pmp Pmm Ppm).mu i = mu i := rfl
    rw [e3] at eu ed
    refine ⟨hu.congr_deriv ?_, hd.congr_deriv ?_⟩
    · field_simp; linear_combination eu
    · field_simp; linear_combination -ed
  · intro h τ i
    refine ⟨_, _, (h τ i).1, (h τ i).2, ?_, ?_⟩
    · rw [up_eq hmu]
      have h := hmu i
      show mu i * _ = _
      field_simp
    · rw [dn_eq hmu]
      have h := hmu i
      show -(mu i * _) = _
      field_simp
      ring

/-! ## Superposition -/

theorem carries_sub {m : Medium n} {qp qm up dn up' dn' : ℝ → V n} (h : m.Carries qp qm up dn)
    (h' : m.Carries qp qm up' dn') :
    m.Carries 0 0 (fun τ => up τ - up' τ) (fun τ => dn τ - dn' τ) := by
  intro τ i
  obtain ⟨u, d, hu, hd, eu, ed⟩ := h τ i
  obtain ⟨u', d', hu', hd', eu', ed'⟩ := h' τ i
  have a1 : m.intoUp (up τ - up' τ) (dn τ - dn' τ) i =
      m.intoUp (up τ) (dn τ) i - m.intoUp (up' τ) (dn' τ) i := by
    simp only [Medium.intoUp, Pi.sub_apply, ← mul_sub, ← Finset.sum_sub_distrib]
    congr 1; exact Finset.sum_congr rfl fun j _ => by ring
  have a2 : m.intoDn (up τ - up' τ) (dn τ - dn' τ) i =
      m.intoDn (up τ) (dn τ) i - m.intoDn (up' τ) (dn' τ) i := by
    simp only [Medium.intoDn, Pi.sub_apply, ← mul_sub, ← Finset.sum_sub_distrib]
    congr 1; exact Finset.sum_congr rfl fun j _ => by ring
  refine ⟨u - u', d - d', hu.fun_sub hu', hd.fun_sub hd', ?_, ?_⟩
  · rw [a1]; simp only [Pi.sub_apply, Pi.zero_apply]; linear_combination eu - eu'
  · rw [a2]; simp only [Pi.sub_apply, Pi.zero_apply]; linear_combination ed - ed'

/-- The layer with sources from the one without and one solution. -/
theorem fills_of {m : Medium n} {qp qm up' dn' : ℝ → V n} {T : ℝ} {Rm Tm Rp Tp : M n}
    (h : m.Fills 0 0 T ⟨Rm, Tm, 0, Rp, Tp, 0⟩) (h' : m.Carries qp qm up' dn') :
    m.Fills qp qm T ⟨Rm, Tm, dn' T - Rp *ᵥ up' T - Tm *ᵥ dn' 0, Rp, Tp,
      up' 0 - Tp *ᵥ up' T - Rm *ᵥ dn' 0⟩ := by
  intro up dn hc
  obtain ⟨e1, e2⟩ := h _ _ (carries_sub hc h')
  simp only [Matrix.mulVec_sub, add_zero] at e1 e2
  constructor
  · funext i
    have := congrFun e1 i
    simp only [Pi.sub_apply, Pi.add_apply] at this ⊢
    linear_combination this
  · funext i
    have := congrFun e2 i
    simp only [Pi.sub_apply, Pi.add_apply] at this ⊢
    linear_combination this

/-! ## The beam -/

variable {inv? : M n → Option (M n)}

/-- The equations the particular solution solves. -/
theorem sun_solves (hex : Exact inv?) {ns : Nat} {F0 : ℝ} {z : Sun n} {o : SunOut n}
    (hg : z.gamma = gammaOf z.tpr z.tmr) (ha : z.as0 ≠ 0) (h : sun inv? ns mu F0 z = some o) :
    let v1 : V n := fun i => F0 / (4 * Real.pi) * z.om / mu i * z.Ppm i
    let v2 : V n := turn ns fun i => F0 / (4 * Real.pi) * z.om / mu i * z.Pmm i
    let G := o.Fp - o.p
    o.Fm = turn ns G ∧ z.as0 • (o.Fp + G) = z.tpr *ᵥ (o.Fp - G) + (v1 - v2) ∧
      z.as0 • (o.Fp - G) = z.tmr *ᵥ (o.Fp + G) + (v1 + v2) := by
  unfold sun at h
  dsimp only at h
  split at h
  · cases h
  · rename_i x hx
    injection h with h
    subst h
    dsimp only
    have hx := (hex _ _).1 hx
    set v1 : V n := fun i => F0 / (4 * Real.pi) * z.om / mu i * z.Ppm i
    set v2 : V n := turn ns fun i => F0 / (4 * Real.pi) * z.om / mu i * z.Pmm i
    set p := x *ᵥ ((-z.as0) • (v1 + v2) - z.tmr *ᵥ (v1 - v2)) with hp
    set hh := z.tpr *ᵥ p + (v1 - v2) with hhh
    have e1 : (1 / 2 : ℝ) • ((1 / z.as0) • hh + p) + ((1 / 2 : ℝ) • ((1 / z.as0) • hh + p) - p) =
        (1 / z.as0) • hh := by
      funext i; simp only [Pi.add_apply, Pi.sub_apply, Pi.smul_apply, smul_eq_mul]; ring
    have e2 : (1 / 2 : ℝ) • ((1 / z.as0) • hh + p) - ((1 / 2 : ℝ) • ((1 / z.as0) • hh + p) - p) = p := by
      funext i; simp only [Pi.add_apply, Pi.sub_apply, Pi.smul_apply, smul_eq_mul]; ring
    refine ⟨rfl, ?_, ?_⟩
    · rw [e1, e2, smul_smul, mul_one_div, div_self ha, one_smul]
    · rw [e1, e2, Matrix.mulVec_smul]
      have e3 : (z.gamma - Matrix.diagonal fun _ => z.as0 * z.as0) *ᵥ p =
          (-z.as0) • (v1 + v2) - z.tmr *ᵥ (v1 - v2) := by
        rw [hp, Matrix.mulVec_mulVec, hx, Matrix.one_mulVec]
      rw [Matrix.sub_mulVec, hg, gammaOf, ← Matrix.mulVec_mulVec] at e3
      have e4 : z.tmr *ᵥ hh = z.tmr *ᵥ z.tpr *ᵥ p + z.tmr *ᵥ (v1 - v2) := by
        rw [hhh, Matrix.mulVec_add]
      funext i
      have e3 := congrFun e3 i
      have e4 := congrFun e4 i
      simp only [Pi.add_apply, Pi.sub_apply, Pi.smul_apply, smul_eq_mul, Matrix.mulVec_diagonal] at e3 e4 ⊢
      rw [e4]
      field_simp
      linear_combination -e3

theorem localRT_mirror {ns : Nat} (hm : (Medium.of first mu w om Ppp Pmp Pmm Ppm).Mirrored ns) (i j : Fin n) :
    (localRT first mu w om Pmm Ppm).1 i j =
        stokesSign ns i * stokesSign ns j * (localRT first mu w om Ppp Pmp).1 i j ∧
      (localRT first mu w om Pmm Ppm).2 i j =
        stokesSign ns i * stokesSign ns j * (localRT first mu w om Ppp Pmp).2 i j := by
  have h := hm i j
  simp only [Medium.of] at h
  constructor
  · simp only [localRT, localMat, h.2]; ring
  · simp only [localRT, localMat, Matrix.sub_apply, h.1]
    rcases eq_or_ne i j with rfl | hij
    · rw [Matrix.diagonal_apply_eq]
      linear_combination (1 / mu i) * (sign_sq ns i)
    · rw [Matrix.diagonal_apply_ne _ hij]
      ring

theorem mulVec_turn (ns : Nat) {A B : M n} (h : ∀ i j, B i j = stokesSign ns i * stokesSign ns j * A i j)
    (g : V n) (i : Fin n) : (B *ᵥ turn ns g) i = stokesSign ns i * (A *ᵥ g) i := by
  simp only [Matrix.mulVec, dotProduct, Finset.mul_sum]
  refine Finset.sum_congr rfl fun j _ => ?_
  rw [h, turn_apply]
  linear_combination (stokesSign ns i * A i j * g j) * sign_sq ns j

theorem turnM_mulVec (ns : Nat) (A : M n) (g : V n) (i : Fin n) :
    (turnM ns A *ᵥ g) i = stokesSign ns i * (A *ᵥ g) i := by
  simp only [Matrix.mulVec, dotProduct, Finset.mul_sum]
  exact Finset.sum_congr rfl fun j _ => by rw [turnM_apply]; ring

theorem sun_carries (hex : Exact inv?) {ns : Nat} (hns : 0 < ns) {F0 as0 : ℝ} {P0mm P0pm : V n}
    (hmu : ∀ i, mu i ≠ 0) (hm : (Medium.of first mu w om Ppp Pmp Pmm Ppm).Mirrored ns) (ha : as0 ≠ 0)
    {o : SunOut n}
    (h : sun inv? ns mu F0 (let rt := localRT first mu w om Ppp Pmp; let x := txr ns rt.1 rt.2;
      ⟨om, as0, P0mm, P0pm, x.1, x.2, gammaOf x.1 x.2⟩) = some o) :
    (Medium.of first mu w om Ppp Pmp Pmm Ppm).Carries (beamSource F0 om as0 P0pm) (beamSource F0 om as0 P0mm)
      (fun τ => Real.exp (-as0 * τ) • o.Fp) (fun τ => Real.exp (-as0 * τ) • o.Fm) := by
  rw [carries_iff hmu]
  obtain ⟨h0, h1, h2⟩ := sun_solves hex rfl ha h
  dsimp only at h1 h2
  rw [txr_eq hns] at h1 h2
  dsimp only at h1 h2
  set rp := (localRT first mu w om Ppp Pmp).1
  set tp := (localRT first mu w om Ppp Pmp).2
  set rm := (localRT first mu w om Pmm Ppm).1
  set tm := (localRT first mu w om Pmm Ppm).2
  set G := o.Fp - o.p
  intro τ i
  have hi := hmu i
  have h1 := congrFun h1 i
  have h2 := congrFun h2 i
  simp only [Matrix.add_mulVec, Matrix.sub_mulVec, Matrix.mulVec_add, Matrix.mulVec_sub, Pi.add_apply,
    Pi.sub_apply, Pi.smul_apply, smul_eq_mul, turnM_mulVec, turn_apply] at h1 h2
  have r1 : (rm *ᵥ o.Fm) i = stokesSign ns i * (rp *ᵥ G) i := by
    rw [h0]; exact mulVec_turn ns (fun i j => (localRT_mirror hm i j).1) G i
  have r2 : (tm *ᵥ o.Fm) i = stokesSign ns i * (tp *ᵥ G) i := by
    rw [h0]; exact mulVec_turn ns (fun i j => (localRT_mirror hm i j).2) G i
  have r3 : o.Fm i = stokesSign ns i * G i := by rw [h0, turn_apply]
  have s2 := sign_sq ns i
  have de : HasDerivAt (fun s => Real.exp (-as0 * s)) (Real.exp (-as0 * τ) * -as0) τ := by
    have := ((hasDerivAt_id τ).const_mul (-as0)).exp
    simpa using this
  constructor
  · have := de.mul_const (o.Fp i)
    refine this.congr_deriv ?_
    simp only [Matrix.mulVec_smul, Pi.smul_apply, smul_eq_mul, beamSource, r1]
    have key : -as0 * o.Fp i = -(tp *ᵥ o.Fp) i + stokesSign ns i * (rp *ᵥ G) i -
        F0 / (4 * Real.pi) * om * P0pm i / mu i := by
      linear_combination -(1/2) * h1 - (1/2) * h2
    linear_combination Real.exp (-as0 * τ) * key
  · have := de.mul_const (o.Fm i)
    refine this.congr_deriv ?_
    simp only [Matrix.mulVec_smul, Pi.smul_apply, smul_eq_mul, beamSource, r2]
    have key : -as0 * o.Fm i = -(rp *ᵥ o.Fp) i + stokesSign ns i * (tp *ᵥ G) i +
        F0 / (4 * Real.pi) * om * P0mm i / mu i := by
      rw [r3]
      linear_combination (stokesSign ns i / 2) * (h2 - h1) +
        (-(rp *ᵥ o.Fp) i + F0 / (4 * Real.pi) * om * P0mm i / mu i) * s2
    linear_combination Real.exp (-as0 * τ) * key

/-! ## Thermal -/

variable {inv2? : Matrix (Fin n ⊕ Fin n) (Fin n ⊕ Fin n) ℝ → Option (Matrix (Fin n ⊕ Fin n) (Fin n ⊕ Fin n) ℝ)}

theorem heatMat_up (rp tp rm tm : M n) (a : Fin n ⊕ Fin n → ℝ) (i : Fin n) :
    (heatMat mu rp tp rm tm *ᵥ a) (.inl i) =
      mu i * (-(tp *ᵥ fun j => a (.inl j)) i + (rm *ᵥ fun j => a (.inr j)) i) := by
  simp only [heatMat, Matrix.mulVec, dotProduct, Fintype.sum_sum_type, mul_add, mul_neg, Finset.mul_sum,
    ← Finset.sum_neg_distrib]
  change ∑ j, (-tp i j * mu i) * a (.inl j) + ∑ j, (rm i j * mu i) * a (.inr j) = _
  congr 1 <;> exact Finset.sum_congr rfl fun j _ => by ring

theorem heatMat_dn (rp tp rm tm : M n) (a : Fin n ⊕ Fin n → ℝ) (i : Fin n) :
    (heatMat mu rp tp rm tm *ᵥ a) (.inr i) =
      mu i * ((rp *ᵥ fun j => a (.inl j)) i - (tm *ᵥ fun j => a (.inr j)) i) := by
  simp only [heatMat, Matrix.mulVec, dotProduct, Fintype.sum_sum_type]
  change ∑ j, (-rp i j * -mu i) * a (.inl j) + ∑ j, (tm i j * -mu i) * a (.inr j) = _
  simp only [sub_eq_add_neg, mul_add, ← Finset.sum_neg_distrib, Finset.mul_sum]
  congr 1 <;> exact Finset.sum_congr rfl fun j _ => by ring

theorem heat_carries (hex : Exact inv2?) {b0 b1 T : ℝ} (hmu : ∀ i, mu i ≠ 0)
    {a : (Fin n ⊕ Fin n → ℝ) × (Fin n ⊕ Fin n → ℝ)}
    (h : heat inv2? mu (let p := localRT first mu w om Ppp Pmp; let m := localRT first mu w om Pmm Ppm;
      ⟨b0, b1, om, T, p.1, p.2, m.1, m.2⟩) = some a) :
    (Medium.of first mu w om Ppp Pmp Pmm Ppm).Carries (thermalSource 1 om b0 b1 T) (thermalSource 1 om b0 b1 T)
      (fun τ i => a.1 (.inl i) + τ * a.2 (.inl i)) (fun τ i => a.1 (.inr i) + τ * a.2 (.inr i)) := by
  rw [carries_iff hmu]
  unfold heat at h
  dsimp only at h
  split at h
  · cases h
  · rename_i x hx
    injection h with h
    have hx := (hex _ _).1 hx
    set rp := (localRT first mu w om Ppp Pmp).1
    set tp := (localRT first mu w om Ppp Pmp).2
    set rm := (localRT first mu w om Pmm Ppm).1
    set tm := (localRT first mu w om Pmm Ppm).2
    have e1 : heatMat mu rp tp rm tm *ᵥ a.2 = fun _ => (1 - om) * ((b1 - b0) / T) := by
      rw [← h]; dsimp only; rw [Matrix.mulVec_mulVec, hx, Matrix.one_mulVec]
    have e0 : heatMat mu rp tp rm tm *ᵥ a.1 = (fun _ => (1 - om) * b0) + withMu mu a.2 := by
      rw [← h]; dsimp only; rw [Matrix.mulVec_mulVec, hx, Matrix.one_mulVec]
    have hs : ∀ (A : M n) (u v : V n) (s : ℝ) (i : Fin n),
        (A *ᵥ fun j => u j + s * v j) i = (A *ᵥ u) i + s * (A *ᵥ v) i := by
      intro A u v s i
      simp only [Matrix.mulVec, dotProduct, mul_add, Finset.sum_add_distrib, Finset.mul_sum]
      congr 1; exact Finset.sum_congr rfl fun j _ => by ring
    have hlin : ∀ (c d : ℝ) τ, HasDerivAt (fun s : ℝ => c + s * d) d τ := fun c d τ => by
      simpa using ((hasDerivAt_id τ).mul_const d).const_add c
    intro τ i
    have hi := hmu i
    have u0 := congrFun e0 (.inl i)
    have d0 := congrFun e0 (.inr i)
    have u1 := congrFun e1 (.inl i)
    have d1 := congrFun e1 (.inr i)
    rw [heatMat_up] at u0 u1
    rw [heatMat_dn] at d0 d1
    simp only [Pi.add_apply, withMu] at u0 d0
    refine ⟨(hlin _ _ τ).congr_deriv ?_, (hlin _ _ τ).congr_deriv ?_⟩
    · simp only [hs, thermalSource, Nat.mod_one, if_true]
      field_simp
      linear_combination -u0 - τ * u1
    · simp only [hs, thermalSource, Nat.mod_one, if_true]
      field_simp
      linear_combination d0 + τ * d1

end Xrtm.Source
