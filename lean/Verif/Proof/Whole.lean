import Verif.Model.Whole
import Verif.Props.Bvp
import Verif.Props.Radiance
import Mathlib.Analysis.ODE.ExistUnique
import Mathlib.Topology.Algebra.Module.FiniteDimension

/-!
# Layers put together are the stack
-/

namespace Xrtm.Whole

open Matrix Xrtm.Source Xrtm.Transfer Xrtm.Spec Xrtm.Bvp

variable {n : Nat}

/-- A layer without its own light. -/
def hush (l : Layer n ℝ) : Layer n ℝ := { l with Sm := 0, Sp := 0 }

theorem obeys_sub {l : Layer n ℝ} {a b c d a' b' c' d' : Fin n → ℝ} (h : l.Obeys a b c d) (h' : l.Obeys a' b' c' d') :
    (hush l).Obeys (a - a') (b - b') (c - c') (d - d') := by
  obtain ⟨h1, h2⟩ := h
  obtain ⟨h3, h4⟩ := h'
  refine ⟨?_, ?_⟩
  · change b - b' = l.Rm *ᵥ (a - a') + l.Tp *ᵥ (d - d') + 0
    rw [h1, h3, mulVec_sub, mulVec_sub]; abel
  · change c - c' = l.Tm *ᵥ (a - a') + l.Rp *ᵥ (d - d') + 0
    rw [h2, h4, mulVec_sub, mulVec_sub]; abel

theorem obeys_add {l : Layer n ℝ} {a b c d a' b' c' d' : Fin n → ℝ} (h : (hush l).Obeys a b c d)
    (h' : l.Obeys a' b' c' d') : l.Obeys (a + a') (b + b') (c + c') (d + d') := by
  obtain ⟨h1, h2⟩ := h
  obtain ⟨h3, h4⟩ := h'
  change b = l.Rm *ᵥ a + l.Tp *ᵥ d + 0 at h1
  change c = l.Tm *ᵥ a + l.Rp *ᵥ d + 0 at h2
  refine ⟨?_, ?_⟩
  · rw [h1, h3, mulVec_add, mulVec_add]; abel
  · rw [h2, h4, mulVec_add, mulVec_add]; abel

theorem through_add : ∀ {ls : List (Layer n ℝ)} {a b c d a' b' c' d' : Fin n → ℝ}, Through (ls.map hush) a b c d →
    Through ls a' b' c' d' → Through ls (a + a') (b + b') (c + c') (d + d')
  | [], _, _, _, _, _, _, _, _, h, h' => by
      obtain ⟨rfl, rfl⟩ := h
      obtain ⟨rfl, rfl⟩ := h'
      exact ⟨rfl, rfl⟩
  | _ :: _, _, _, _, _, _, _, _, _, ⟨x, y, h1, h2⟩, ⟨x', y', h1', h2'⟩ =>
      ⟨x + x', y + y', obeys_add h1 h1', through_add h2 h2'⟩

/-- The layers together, without their light, are the layers without it together. -/
theorem joined_hush {ls : List (Layer n ℝ)} {r : Layer n ℝ} (h : Joined ls r) {a b c d : Fin n → ℝ}
    (ht : Through (ls.map hush) a b c d) : (hush r).Obeys a b c d := by
  have h0 : r.Obeys 0 r.Sp r.Sm 0 := by constructor <;> simp
  have h1 := (h _ _ _ _).2 (through_add ht ((h _ _ _ _).1 h0))
  have := obeys_sub h1 h0
  simpa using this

/-- Light in a stack, level by level. -/
theorem lit_through {S : Stack n} {lay : Nat → Layer n ℝ} {up dn : Nat → ℝ → Fin n → ℝ}
    (hf : ∀ i, i < S.L → (S.med i).Fills (S.qp i) (S.qm i) (S.T i) (lay i))
    (h1 : ∀ i, i < S.L → (S.med i).Carries (S.qp i) (S.qm i) (up i) (dn i))
    (h2 : ∀ i, i + 1 < S.L → up i (S.T i) = up (i + 1) 0 ∧ dn i (S.T i) = dn (i + 1) 0) :
    ∀ m i, i + (m + 1) = S.L → Through ((List.range' i (m + 1)).map lay) (dn i 0) (up i 0)
      (dn (S.L - 1) (S.T (S.L - 1))) (up (S.L - 1) (S.T (S.L - 1)))
  | 0, i, hi => by
      refine ⟨_, _, hf i (by omega) _ _ (h1 i (by omega)), ?_⟩
      have : S.L - 1 = i := by omega
      rw [this]
      exact ⟨rfl, rfl⟩
  | m + 1, i, hi => by
      refine ⟨_, _, hf i (by omega) _ _ (h1 i (by omega)), ?_⟩
      have := lit_through hf h1 h2 m (i + 1) (by omega)
      rw [(h2 i (by omega)).1, (h2 i (by omega)).2]
      exact this

theorem lit_spec {S : Stack n} (hL : 1 ≤ S.L) {lay : Nat → Layer n ℝ} {up dn : Nat → ℝ → Fin n → ℝ}
    (hf : ∀ i, i < S.L → (S.med i).Fills (S.qp i) (S.qm i) (S.T i) (lay i)) (h : S.Lit up dn) :
    Spec.Lit ((List.range S.L).map lay) ⟨S.Rs, S.bot⟩ S.top (S.on up 0) (S.on dn S.L) (S.on up S.L) := by
  have e0 : S.on up 0 = up 0 0 := by unfold Stack.on; rw [if_pos (by omega)]
  have e1 : ∀ f, S.on f S.L = f (S.L - 1) (S.T (S.L - 1)) := fun f => by unfold Stack.on; rw [if_neg (by omega)]
  rw [e0, e1, e1]
  refine ⟨?_, ?_⟩
  · have := lit_through hf h.layer h.meet (S.L - 1) 0 (by omega)
    rw [h.sky, show S.L - 1 + 1 = S.L from by omega, ← List.range_eq_range'] at this
    exact this
  · change _ = S.Rs *ᵥ _ + S.bot
    rw [h.ground, add_comm]

/-! ### Light that is nothing at one depth is nothing -/

/-- The equation of transfer as one map. -/
noncomputable def flow (m : Medium n) : (Fin n ⊕ Fin n → ℝ) →ₗ[ℝ] (Fin n ⊕ Fin n → ℝ) where
  toFun f := Sum.elim (fun i => (f (.inl i) - m.intoUp (fun j => f (.inl j)) (fun j => f (.inr j)) i) / m.mu i)
    fun i => -((f (.inr i) - m.intoDn (fun j => f (.inl j)) (fun j => f (.inr j)) i) / m.mu i)
  map_add' f g := by
    funext k
    rcases k with i | i
    · simp only [Sum.elim_inl, Pi.add_apply, Medium.intoUp, mul_add, Finset.sum_add_distrib]; ring
    · simp only [Sum.elim_inr, Pi.add_apply, Medium.intoDn, mul_add, Finset.sum_add_distrib]; ring
  map_smul' c f := by
    funext k
    rcases k with i | i
    · simp only [Sum.elim_inl, Pi.smul_apply, smul_eq_mul, Medium.intoUp, RingHom.id_apply, Finset.mul_sum]
      rw [← mul_div_assoc, mul_sub, Finset.mul_sum]
      congr 2; exact Finset.sum_congr rfl fun j _ => by ring
    · simp only [Sum.elim_inr, Pi.smul_apply, smul_eq_mul, Medium.intoDn, RingHom.id_apply, Finset.mul_sum]
      rw [mul_neg, ← mul_div_assoc, mul_sub, Finset.mul_sum]
      congr 3; exact Finset.sum_congr rfl fun j _ => by ring

theorem carries_zero_of {m : Medium n} (hmu : ∀ i, m.mu i ≠ 0) {up dn : ℝ → Fin n → ℝ} (h : m.Carries 0 0 up dn) {t : ℝ}
    (hu : up t = 0) (hd : dn t = 0) : up = 0 ∧ dn = 0 := by
  set f : ℝ → Fin n ⊕ Fin n → ℝ := fun s => Sum.elim (up s) (dn s) with hf
  have hder : ∀ s, HasDerivAt f (flow m (f s)) s := fun s => by
    rw [hasDerivAt_pi]
    rintro (i | i)
    · obtain ⟨u, d, h1, h2, h3, h4⟩ := h s i
      refine h1.congr_deriv ?_
      change u = (up s i - m.intoUp (up s) (dn s) i) / m.mu i
      rw [eq_div_iff (hmu i), mul_comm, h3]; simp
    · obtain ⟨u, d, h1, h2, h3, h4⟩ := h s i
      refine h2.congr_deriv ?_
      change d = -((dn s i - m.intoDn (up s) (dn s) i) / m.mu i)
      rw [eq_neg_iff_add_eq_zero, ← sub_neg_eq_add, sub_eq_zero, ← mul_right_inj' (hmu i)]
      rw [mul_neg, mul_div_cancel₀ _ (hmu i)]
      simp only [Pi.zero_apply, sub_zero] at h4
      linarith
  obtain ⟨C, hC⟩ : ∃ C, LipschitzWith C (flow m) := ⟨_, (flow m).toContinuousLinearMap.lipschitz⟩
  have key : f = fun _ => 0 := by
    refine ODE_solution_unique_univ (v := fun _ => flow m) (s := fun _ => Set.univ) (K := C) (t₀ := t)
      (fun _ => hC.lipschitzOnWith) (fun s => ⟨hder s, trivial⟩) (fun s => ⟨?_, trivial⟩) ?_
    · have := hasDerivAt_const s (0 : Fin n ⊕ Fin n → ℝ)
      rw [map_zero]; exact this
    · change Sum.elim (up t) (dn t) = 0
      rw [hu, hd]
      funext k; rcases k with k | k <;> rfl
  constructor
  · funext s i; exact congrFun (congrFun key s) (.inl i)
  · funext s i; exact congrFun (congrFun key s) (.inr i)

/-- Layers that can be added to one another and to the ground keep no light. -/
theorem no_dark {S : Stack n} (hL : 1 ≤ S.L) (hmu : ∀ i, i < S.L → ∀ j, (S.med i).mu j ≠ 0) {lay : Nat → Layer n ℝ}
    (hf : ∀ i, i < S.L → (S.med i).Fills 0 0 (S.T i) (hush (lay i))) {r : Layer n ℝ}
    (hj : Joined ((List.range S.L).map lay) r) (hr : Regular r.Rp S.Rs) {up dn : Nat → ℝ → Fin n → ℝ}
    (hl : Stack.Lit { S with qp := 0, qm := 0, top := 0, bot := 0 } up dn) :
    ∀ i, i < S.L → up i = 0 ∧ dn i = 0 := by
  have hlit := lit_spec (S := { S with qp := 0, qm := 0, top := 0, bot := 0 }) hL (lay := fun i => hush (lay i)) hf hl
  obtain ⟨ht, hb⟩ := hlit
  change Through ((List.range S.L).map fun i => hush (lay i)) 0 _ _ _ at ht
  have ht' := joined_hush hj (by rw [List.map_map]; exact ht)
  obtain ⟨e1, e2⟩ := ht'
  change _ = S.Rs *ᵥ _ + 0 at hb
  rw [hb] at e1 e2
  generalize Stack.on { S with qp := 0, qm := 0, top := 0, bot := 0 } dn S.L = D at e1 e2
  change D = r.Tm *ᵥ 0 + r.Rp *ᵥ (S.Rs *ᵥ D + 0) + 0 at e2
  rw [mulVec_zero, zero_add, add_zero, add_zero, mulVec_mulVec] at e2
  have hD : D = 0 := by
    obtain ⟨q, hq⟩ := hr
    have : (1 - r.Rp * S.Rs) *ᵥ D = 0 := by rw [sub_mulVec, one_mulVec, ← e2, sub_self]
    have := congrArg (q *ᵥ ·) this
    simpa [hq] using this
  have hU : up 0 0 = 0 := by
    have e0 : Stack.on { S with qp := 0, qm := 0, top := 0, bot := 0 } up 0 = up 0 0 := by
      unfold Stack.on; rw [if_pos (by change 0 < S.L; omega)]
    rw [← e0, e1, hD]
    change r.Rm *ᵥ 0 + r.Tp *ᵥ (S.Rs *ᵥ 0 + 0) + 0 = 0
    simp
  have hDn : dn 0 0 = 0 := hl.sky
  intro i
  induction i with
  | zero => intro hi; exact carries_zero_of (hmu 0 hi) (hl.layer 0 hi) hU hDn
  | succ i ih =>
    intro hi
    obtain ⟨h1, h2⟩ := ih (by omega)
    obtain ⟨m1, m2⟩ := hl.meet i hi
    refine carries_zero_of (hmu _ hi) (hl.layer _ hi) (t := 0) ?_ ?_
    · rw [← m1, h1]; rfl
    · rw [← m2, h2]; rfl

/-! ### The layers of the code -/

variable {K : Type} [RCLike K] {mu w : V n} {first : Bool}

/-- A medium that does not scatter. -/
theorem clear_fills {m : Medium n} (hmu : ∀ i, m.mu i ≠ 0) (hup : ∀ u d i, m.intoUp u d i = 0)
    (hdn : ∀ u d i, m.intoDn u d i = 0) (T : ℝ) :
    m.Fills 0 0 T ⟨0, NoScatter.trans Real.exp m.mu T, 0, 0, NoScatter.trans Real.exp m.mu T, 0⟩ := by
  intro up dn h
  have cst : ∀ g : ℝ → ℝ, (∀ s, HasDerivAt g 0 s) → g 0 = g T := fun g hg =>
    is_const_of_deriv_eq_zero (fun s => (hg s).differentiableAt) (fun s => (hg s).deriv) 0 T
  have key : ∀ i, up 0 i = Real.exp (-T / m.mu i) * up T i ∧ dn T i = Real.exp (-T / m.mu i) * dn 0 i := fun i => by
    constructor
    · have := cst (fun s => up s i * Real.exp (-s / m.mu i)) fun s => by
        obtain ⟨u, d, h1, -, h3, -⟩ := h s i
        have he : HasDerivAt (fun s => Real.exp (-s / m.mu i)) (Real.exp (-s / m.mu i) * (-1 / m.mu i)) s :=
          (((hasDerivAt_id s).neg).div_const _).exp
        refine (h1.mul he).congr_deriv ?_
        rw [hup] at h3
        simp only [Pi.zero_apply, sub_zero] at h3
        rw [← h3]
        have := hmu i
        field_simp
        ring
      simp only [neg_zero, zero_div, Real.exp_zero, mul_one] at this
      rw [this, mul_comm]
    · have := cst (fun s => dn s i * Real.exp (s / m.mu i)) fun s => by
        obtain ⟨u, d, -, h2, -, h4⟩ := h s i
        have he : HasDerivAt (fun s => Real.exp (s / m.mu i)) (Real.exp (s / m.mu i) * (1 / m.mu i)) s :=
          ((hasDerivAt_id s).div_const _).exp
        refine (h2.mul he).congr_deriv ?_
        rw [hdn] at h4
        simp only [Pi.zero_apply, sub_zero] at h4
        rw [← h4]
        have := hmu i
        field_simp
        ring
      simp only [zero_div, Real.exp_zero, mul_one] at this
      rw [this, neg_div, Real.exp_neg, mul_comm, mul_assoc, mul_inv_cancel₀ (Real.exp_ne_zero _), mul_one]
  constructor
  · funext i
    simp only [NoScatter.trans, zero_mulVec, zero_add, add_zero, mulVec_diagonal]
    exact (key i).1
  · funext i
    simp only [NoScatter.trans, zero_mulVec, add_zero, mulVec_diagonal]
    exact (key i).2

end Xrtm.Whole
