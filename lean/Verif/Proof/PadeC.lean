import Verif.Proof.PadeB
import Verif.Proof.BvpModes
import Mathlib.Analysis.Normed.Algebra.MatrixExponential
import Mathlib.Analysis.SpecialFunctions.Exponential
import Mathlib.Analysis.Normed.Module.FiniteDimension

/-! Padé solver: the exponential carries the light; the results against the layer. -/

namespace Xrtm.Pade
open Matrix Filter Topology Xrtm.Spec Xrtm.Transfer
open scoped Matrix.Norms.Operator

variable {n : Nat}

/-! ## The loop -/

theorem loop_runs {inv? : Source.M n → Option (Source.M n)} (hinv : Mat.Exact inv?) {nd : Nat} {fl : Doubling.Flags} {pth : Nat → ℝ} {k : Nat}
    {init : Bool} {x x' : Doubling.Scal ℝ} {c : ℝ} {s s' : Mat.Mem n ℝ}
    (h : Doubling.loop inv? nd fl false false pth k init x c s = .ok (s', x')) {E : MM n}
    (hE : Runs E (s.m Doubling.R) (s.m Doubling.T)) : Runs (E ^ 2 ^ k) (s'.m Doubling.R) (s'.m Doubling.T) := by
  induction k generalizing init x c s E with
  | zero =>
      simp only [Doubling.loop, Except.ok.injEq, Prod.mk.injEq] at h
      obtain ⟨rfl, rfl⟩ := h
      simpa using hE
  | succ k ih =>
      obtain ⟨s1, h1, h2⟩ := Doubling.loop_succ h
      obtain ⟨q, hq, hv, -⟩ := Doubling.step_ok hinv h1
      have := ih h2 (E := E * E) (by rw [hv.hr, hv.ht]; exact hE.double hq)
      rwa [← pow_two, ← pow_mul, ← pow_succ'] at this

/-! ## The exponential -/

theorem swap_exp (r t : Source.M n) (h : ℝ) :
    swap n * NormedSpace.exp (h • along r t) * swap n * NormedSpace.exp (h • along r t) = 1 := by
  have e := Matrix.exp_units_conj' (swapU n) (h • along r t)
  rw [swap_along] at e
  change _ = swap n * NormedSpace.exp (h • along r t) * swap n at e
  rw [← e, ← Matrix.exp_add_of_commute _ _ ((Commute.refl (h • along r t)).neg_left), neg_add_cancel, NormedSpace.exp_zero]

/-- The light that starts with any values at the top. -/
theorem exp_carries {first : Bool} {ns : Nat} {mu w : Source.V n} {om : ℝ} {Ppp Pmp Pmm Ppm : Source.M n}
    (hmu : ∀ i, mu i ≠ 0) (hm : (Medium.of first mu w om Ppp Pmp Pmm Ppm).Mirrored ns) (y : Fin n ⊕ Fin n → ℝ) :
    let z := Source.localRT first mu w om Ppp Pmp
    let Z := along (Source.turnM ns z.1) z.2
    (Medium.of first mu w om Ppp Pmp Pmm Ppm).Carries 0 0 (fun s i => (NormedSpace.exp (s • Z) *ᵥ y) (.inr i))
      (fun s => Source.turn ns fun i => (NormedSpace.exp (s • Z) *ᵥ y) (.inl i)) := by
  intro z Z
  rw [Eig.carries_turn hmu hm]
  dsimp only
  intro τ i
  have key : ∀ k, HasDerivAt (fun s : ℝ => (NormedSpace.exp (s • Z) *ᵥ y) k) ((Z *ᵥ (NormedSpace.exp (τ • Z) *ᵥ y)) k) τ := by
    intro k
    have h := hasDerivAt_exp_smul_const' (𝕂 := ℝ) Z τ
    let L : MM n →ₗ[ℝ] ℝ :=
      { toFun := fun a => (a *ᵥ y) k
        map_add' := fun a b => by rw [Matrix.add_mulVec]; rfl
        map_smul' := fun c a => by rw [Matrix.smul_mulVec]; rfl }
    have h2 := (LinearMap.toContinuousLinearMap L).hasFDerivAt.comp_hasDerivAt τ h
    rw [Matrix.mulVec_mulVec]
    exact h2
  have split : ∀ v : Fin n ⊕ Fin n → ℝ, Z *ᵥ v = Sum.elim
      (z.2 *ᵥ (v ∘ Sum.inl) + (-Source.turnM ns z.1) *ᵥ (v ∘ Sum.inr))
      (Source.turnM ns z.1 *ᵥ (v ∘ Sum.inl) + (-z.2) *ᵥ (v ∘ Sum.inr)) := by
    intro v
    exact Matrix.fromBlocks_mulVec _ _ _ _ _
  constructor
  · refine (key (.inr i)).congr_deriv ?_
    rw [split, Eig.turn_turn]
    simp only [Sum.elim_inr, Pi.add_apply, Matrix.neg_mulVec, Pi.neg_apply]
    rw [add_comm]; rfl
  · simp only [Eig.turn_turn]
    refine (key (.inl i)).congr_deriv ?_
    rw [split]
    simp only [Sum.elim_inl, Pi.add_apply, Matrix.neg_mulVec, Pi.neg_apply]
    rw [add_comm]; rfl

theorem turnM_turnM (ns : Nat) (A : Source.M n) : Source.turnM ns (Source.turnM ns A) = A := by
  funext i j; rw [Source.turnM_apply, Source.turnM_apply, ← mul_assoc, Source.sign_sq, one_mul]

/-- The layer that the medium fills, in the terms of the solver. -/
theorem fills_runs {first : Bool} {ns : Nat} {mu w : Source.V n} {om : ℝ} {Ppp Pmp Pmm Ppm : Source.M n}
    (hmu : ∀ i, mu i ≠ 0) (hm : (Medium.of first mu w om Ppp Pmp Pmm Ppm).Mirrored ns) {T : ℝ} {l : Layer n ℝ}
    (hl : (Medium.of first mu w om Ppp Pmp Pmm Ppm).Fills 0 0 T l) :
    let z := Source.localRT first mu w om Ppp Pmp
    let Z := along (Source.turnM ns z.1) z.2
    Runs (NormedSpace.exp (T • Z)) (Source.turnM ns l.Rp) l.Tp ∧ l.Rm = Eig.otherSide ns l.Rp ∧ l.Tm = Eig.otherSide ns l.Tp ∧
      l.Sp = 0 ∧ l.Sm = 0 := by
  intro z Z
  obtain ⟨F, hF⟩ : ∃ F : MM n, F = NormedSpace.exp (T • Z) := ⟨_, rfl⟩
  have ob : ∀ g f : Source.V n, f = l.Rm *ᵥ Source.turn ns g + l.Tp *ᵥ (F.toBlocks₂₁ *ᵥ g + F.toBlocks₂₂ *ᵥ f) + l.Sp ∧
      Source.turn ns (F.toBlocks₁₁ *ᵥ g + F.toBlocks₁₂ *ᵥ f) =
        l.Tm *ᵥ Source.turn ns g + l.Rp *ᵥ (F.toBlocks₂₁ *ᵥ g + F.toBlocks₂₂ *ᵥ f) + l.Sm := by
    intro g f
    have h := hl _ _ (exp_carries hmu hm (Sum.elim g f))
    have e : F *ᵥ Sum.elim g f = Sum.elim (F.toBlocks₁₁ *ᵥ g + F.toBlocks₁₂ *ᵥ f) (F.toBlocks₂₁ *ᵥ g + F.toBlocks₂₂ *ᵥ f) := by
      conv_lhs => rw [← Matrix.fromBlocks_toBlocks F, Matrix.fromBlocks_mulVec]
      rfl
    have h0 : NormedSpace.exp ((0 : ℝ) • Z) = 1 := by rw [zero_smul, NormedSpace.exp_zero]
    change l.Obeys (Source.turn ns fun i => (NormedSpace.exp ((0 : ℝ) • Z) *ᵥ Sum.elim g f) (.inl i))
      (fun i => (NormedSpace.exp ((0 : ℝ) • Z) *ᵥ Sum.elim g f) (.inr i))
      (Source.turn ns fun i => (NormedSpace.exp (T • Z) *ᵥ Sum.elim g f) (.inl i))
      (fun i => (NormedSpace.exp (T • Z) *ᵥ Sum.elim g f) (.inr i)) at h
    rw [h0, ← hF, e, Matrix.one_mulVec] at h
    exact h
  have z0 : Source.turn ns (0 : Source.V n) = 0 := by funext i; rw [Source.turn_apply]; simp
  have hS := ob 0 0
  simp only [z0, Matrix.mulVec_zero, add_zero, zero_add] at hS
  have hSp : l.Sp = 0 := hS.1.symm
  have hSm : l.Sm = 0 := by rw [← hS.2]
  have ext : ∀ {A B : Source.M n}, (∀ v, A *ᵥ v = B *ᵥ v) → A = B := fun h => Matrix.ext_of_mulVec_single fun i => h _
  have turnA : ∀ (A : Source.M n) v, Source.turn ns (A *ᵥ v) = Source.turnM ns A *ᵥ v := by
    intro A v; funext i; rw [Source.turn_apply, Source.turnM_mulVec]
  -- the four blocks
  have b1 : l.Tp * F.toBlocks₂₂ = 1 := ext fun f => by
    have := (ob 0 f).1
    simp only [z0, Matrix.mulVec_zero, zero_add, hSp, add_zero] at this
    rw [← Matrix.mulVec_mulVec, ← this, Matrix.one_mulVec]
  have b2 : F.toBlocks₁₂ = Source.turnM ns l.Rp * F.toBlocks₂₂ := ext fun f => by
    have := (ob 0 f).2
    simp only [z0, Matrix.mulVec_zero, zero_add, hSm, add_zero] at this
    have := congrArg (Source.turn ns) this
    rw [Eig.turn_turn, turnA] at this
    rw [this, Matrix.mulVec_mulVec]
  have b3 : ∀ g, l.Rm *ᵥ Source.turn ns g = -((l.Tp * F.toBlocks₂₁) *ᵥ g) := fun g => by
    have := (ob g 0).1
    simp only [Matrix.mulVec_zero, hSp, add_zero] at this
    rw [← Matrix.mulVec_mulVec]
    exact eq_neg_of_add_eq_zero_left this.symm
  have b4 : ∀ g, l.Tm *ᵥ Source.turn ns g = Source.turn ns ((F.toBlocks₁₁ - Source.turnM ns l.Rp * F.toBlocks₂₁) *ᵥ g) := fun g => by
    have := (ob g 0).2
    simp only [Matrix.mulVec_zero, hSm, add_zero] at this
    rw [Matrix.sub_mulVec, ← Matrix.mulVec_mulVec, ← turnA]
    funext i
    have h2 := congrFun this i
    rw [Pi.add_apply] at h2
    rw [Source.turn_apply, Pi.sub_apply, Source.turn_apply, mul_sub, ← mul_assoc, Source.sign_sq, one_mul, ← Source.turn_apply, h2]
    ring
  have b1' : F.toBlocks₂₂ * l.Tp = 1 := mul_eq_one_comm.mp b1
  -- the symmetry
  have sw := swap_exp (Source.turnM ns z.1) z.2 T
  change swap n * NormedSpace.exp (T • Z) * swap n * NormedSpace.exp (T • Z) = 1 at sw
  rw [← hF, ← Matrix.fromBlocks_toBlocks F, swap, fromBlocks_multiply, fromBlocks_multiply, fromBlocks_multiply, ← fromBlocks_one] at sw
  simp only [zero_mul, mul_zero, one_mul, mul_one, add_zero, zero_add] at sw
  obtain ⟨s1, s2, s3, s4⟩ := Matrix.fromBlocks_inj.1 sw
  have c1 : Source.turnM ns l.Rp = -(l.Tp * F.toBlocks₂₁) := by
    have : l.Tp * (F.toBlocks₂₂ * F.toBlocks₁₂ + F.toBlocks₂₁ * F.toBlocks₂₂) * l.Tp = 0 := by rw [s2, mul_zero, zero_mul]
    have e : l.Tp * (F.toBlocks₂₂ * F.toBlocks₁₂ + F.toBlocks₂₁ * F.toBlocks₂₂) * l.Tp =
        (l.Tp * F.toBlocks₂₂) * F.toBlocks₁₂ * l.Tp + l.Tp * F.toBlocks₂₁ * (F.toBlocks₂₂ * l.Tp) := by noncomm_ring
    rw [e, b1, b1', one_mul, mul_one, b2, mul_assoc, b1', mul_one] at this
    exact eq_neg_of_add_eq_zero_left this
  have c2 : F.toBlocks₁₁ - Source.turnM ns l.Rp * F.toBlocks₂₁ = l.Tp := by
    have : l.Tp * (F.toBlocks₂₂ * F.toBlocks₁₁ + F.toBlocks₂₁ * F.toBlocks₂₁) = l.Tp := by rw [s1, mul_one]
    rw [mul_add, ← mul_assoc, b1, one_mul] at this
    rw [c1, neg_mul, sub_neg_eq_add, mul_assoc]; exact this
  have other : ∀ (A : Source.M n) (g : Source.V n), Eig.otherSide ns A *ᵥ g = Source.turn ns (A *ᵥ Source.turn ns g) := by
    intro A g; funext i
    rw [Source.turn_apply]
    simp only [Matrix.mulVec, dotProduct, Finset.mul_sum]
    exact Finset.sum_congr rfl fun j _ => by rw [Eig.otherSide_apply, Source.turn_apply]; ring
  refine ⟨?_, ?_, ?_, hSp, hSm⟩
  · rw [← hF, Runs]
    conv_lhs => rw [← Matrix.fromBlocks_toBlocks F, fromBlocks_multiply]
    simp only [zero_mul, mul_zero, one_mul, mul_one, add_zero, zero_add]
    congr 1
    · rw [b2, mul_assoc, b1', mul_one]
    · conv_rhs => rw [← c2]
      rw [b2, c1]
      have : l.Tp * F.toBlocks₂₁ * F.toBlocks₂₂ * (l.Tp * F.toBlocks₂₁) = l.Tp * F.toBlocks₂₁ * (F.toBlocks₂₂ * l.Tp) * F.toBlocks₂₁ := by
        noncomm_ring
      rw [b1', mul_one] at this
      rw [neg_mul, neg_mul_neg, this, neg_mul, sub_neg_eq_add]
    · rw [c1, mul_neg, ← mul_assoc, b1', one_mul, add_neg_cancel]
  · refine ext fun g => ?_
    rw [other]
    have := b3 (Source.turn ns g)
    rw [Eig.turn_turn] at this
    rw [this, turnA, c1, Matrix.neg_mulVec]
  · refine ext fun g => ?_
    rw [other]
    have := b4 (Source.turn ns g)
    rw [Eig.turn_turn, c2] at this
    exact this

/-! ## Nearness -/

theorem entry_le (A : Source.M n) (i j : Fin n) : |A i j| ≤ ‖A‖ := by
  have h1 : ‖A i j‖₊ ≤ ∑ k, ‖A i k‖₊ := Finset.single_le_sum (f := fun k => ‖A i k‖₊) (fun _ _ => bot_le) (Finset.mem_univ j)
  have h2 : ∑ k, ‖A i k‖₊ ≤ ‖A‖₊ := by
    rw [Matrix.linfty_opNNNorm_def]
    exact Finset.le_sup (f := fun i => ∑ k, ‖A i k‖₊) (Finset.mem_univ i)
  exact_mod_cast h1.trans h2

theorem norm_le {A : Source.M n} {b : ℝ} (hb : 0 ≤ b) (h : ∀ i, ∑ j, |A i j| ≤ b) : ‖A‖ ≤ b := by
  lift b to NNReal using hb
  have : ‖A‖₊ ≤ b := by
    rw [Matrix.linfty_opNNNorm_def]
    refine Finset.sup_le fun i _ => ?_
    have := h i
    rw [← NNReal.coe_le_coe]
    push_cast
    simpa using this
  exact_mod_cast this

theorem block_le (B : MM n) : ‖B.toBlocks₁₂‖ ≤ ‖B‖ ∧ ‖B.toBlocks₂₂‖ ≤ ‖B‖ := by
  have h : ∀ i, ∑ j, ‖B i j‖₊ ≤ ‖B‖₊ := fun i => by
    rw [Matrix.linfty_opNNNorm_def]
    exact Finset.le_sup (f := fun i => ∑ k, ‖B i k‖₊) (Finset.mem_univ i)
  have key : ∀ r : Fin n → Fin n ⊕ Fin n, ‖(Matrix.of fun i j => B (r i) (.inr j) : Source.M n)‖₊ ≤ ‖B‖₊ := by
    intro r
    rw [Matrix.linfty_opNNNorm_def]
    refine Finset.sup_le (α := NNReal) fun i _ => ?_
    refine le_trans (b := ∑ j, ‖B (r i) j‖₊) ?_ (h (r i))
    rw [Fintype.sum_sum_type]
    exact le_add_of_nonneg_left bot_le
  have k1 : ‖B.toBlocks₁₂‖₊ ≤ ‖B‖₊ := key .inl
  have k2 : ‖B.toBlocks₂₂‖₊ ≤ ‖B‖₊ := key .inr
  exact ⟨k1, k2⟩

theorem near_runs {E F : MM n} {R T R' T' : Source.M n} (hE : Runs E R T) (hF : Runs F R' T') {b ρ e : ℝ} (hb : 0 ≤ b)
    (h1 : ‖T'‖ ≤ b) (h2 : ‖R'‖ ≤ ρ) (he : ‖E - F‖ ≤ e) (hs : b * e ≤ 1 / 2) :
    ‖T - T'‖ ≤ 2 * b ^ 2 * e ∧ ‖R - R'‖ ≤ 2 * b * (1 + ρ) * e := by
  have he0 : 0 ≤ e := (norm_nonneg _).trans he
  have hρ : 0 ≤ ρ := (norm_nonneg _).trans h2
  rw [Runs, ← Matrix.fromBlocks_toBlocks E, fromBlocks_multiply] at hE
  rw [Runs, ← Matrix.fromBlocks_toBlocks F, fromBlocks_multiply] at hF
  simp only [mul_zero, mul_one, zero_add] at hE hF
  obtain ⟨e1, -, e2, -⟩ := Matrix.fromBlocks_inj.1 hE
  obtain ⟨f1, -, f2, -⟩ := Matrix.fromBlocks_inj.1 hF
  have f2' : T' * F.toBlocks₂₂ = 1 := mul_eq_one_comm.mp f2
  have n22 : ‖E.toBlocks₂₂ - F.toBlocks₂₂‖ ≤ e := ((block_le (E - F)).2).trans he
  have n12 : ‖E.toBlocks₁₂ - F.toBlocks₁₂‖ ≤ e := ((block_le (E - F)).1).trans he
  have d1 : T - T' = -(T' * (E.toBlocks₂₂ - F.toBlocks₂₂) * T) := by
    have : T' * (E.toBlocks₂₂ - F.toBlocks₂₂) * T = T' * (E.toBlocks₂₂ * T) - (T' * F.toBlocks₂₂) * T := by noncomm_ring
    rw [this, e2, f2', mul_one, one_mul, neg_sub]
  have d2 : R - R' = (E.toBlocks₁₂ - F.toBlocks₁₂) * T - R' * (E.toBlocks₂₂ - F.toBlocks₂₂) * T := by
    have hR' : R' * F.toBlocks₂₂ = F.toBlocks₁₂ := by rw [← f1, mul_assoc, f2', mul_one]
    have : (E.toBlocks₁₂ - F.toBlocks₁₂) * T - R' * (E.toBlocks₂₂ - F.toBlocks₂₂) * T =
      E.toBlocks₁₂ * T - F.toBlocks₁₂ * T - R' * (E.toBlocks₂₂ * T) + (R' * F.toBlocks₂₂) * T := by noncomm_ring
    rw [this, e1, e2, hR', mul_one]; abel
  have bT : ‖T‖ ≤ 2 * b := by
    have h3 : ‖T - T'‖ ≤ b * e * ‖T‖ := by
      rw [d1, norm_neg]
      refine (norm_mul_le _ _).trans ?_
      gcongr
      exact (norm_mul_le _ _).trans (by gcongr)
    have h4 : ‖T‖ ≤ ‖T'‖ + ‖T - T'‖ := by
      have := norm_add_le T' (T - T'); rwa [add_sub_cancel] at this
    have h5 : b * e * ‖T‖ ≤ 1 / 2 * ‖T‖ := by gcongr
    linarith
  constructor
  · rw [d1, norm_neg]
    calc _ ≤ ‖T'‖ * ‖E.toBlocks₂₂ - F.toBlocks₂₂‖ * ‖T‖ := (norm_mul_le _ _).trans (by gcongr; exact norm_mul_le _ _)
      _ ≤ b * e * (2 * b) := by gcongr
      _ = _ := by ring
  · rw [d2]
    calc _ ≤ ‖(E.toBlocks₁₂ - F.toBlocks₁₂) * T‖ + ‖R' * (E.toBlocks₂₂ - F.toBlocks₂₂) * T‖ := norm_sub_le _ _
      _ ≤ ‖E.toBlocks₁₂ - F.toBlocks₁₂‖ * ‖T‖ + ‖R'‖ * ‖E.toBlocks₂₂ - F.toBlocks₂₂‖ * ‖T‖ :=
          add_le_add (norm_mul_le _ _) ((norm_mul_le _ _).trans (by gcongr; exact norm_mul_le _ _))
      _ ≤ e * (2 * b) + ρ * e * (2 * b) := by gcongr
      _ = _ := by ring

/-! ## The whole layer -/

/-- The thin layer and the approximant. -/
theorem thin_runs {inv? : Source.M n → Option (Source.M n)} (hinv : Mat.Exact inv?) {ns s r : Nat} (hns : 0 < ns) (hr : 1 ≤ r) {z : In n}
    {o : Thin n} (h : thin inv? ns s r z = some o) {E : MM n}
    (hu : IsUnit (pad (coef r) r (-((z.ltau / 2 ^ s) • along (Source.turnM ns z.r) z.t))))
    (hE : pad (coef r) r (-((z.ltau / 2 ^ s) • along (Source.turnM ns z.r) z.t)) * E =
      pad (coef r) r ((z.ltau / 2 ^ s) • along (Source.turnM ns z.r) z.t)) : Runs E o.R o.T := by
  unfold thin scaled at h
  dsimp only at h
  rw [Source.txr_eq hns] at h
  dsimp only at h
  have hp := thin_poly (fun a b => (hinv a b).1) h
  have e1 : (recover (numer (coef r) r ((z.ltau / (2 ^ s : Nat)) • (z.t + Source.turnM ns z.r))
      ((z.ltau / (2 ^ s : Nat)) • (z.t - Source.turnM ns z.r)))).mat =
      pad (coef r) r ((z.ltau / 2 ^ s) • along (Source.turnM ns z.r) z.t) := by
    rw [recover_mat, numer_mat hr fun k hk => coef_zero_of_lt hk, pad_conj, half_conj]
    push_cast; rfl
  have e2 : swap n * pad (coef r) r ((z.ltau / 2 ^ s) • along (Source.turnM ns z.r) z.t) * swap n =
      pad (coef r) r (-((z.ltau / 2 ^ s) • along (Source.turnM ns z.r) z.t)) := by
    have := pad_conj (coef r) r (swapU n) ((z.ltau / 2 ^ s) • along (Source.turnM ns z.r) z.t)
    rw [swap_along] at this
    exact this
  rw [e1, e2, ← hE, mul_assoc] at hp
  exact (hu.mul_left_cancel hp).symm

/-- What a call of the layer gives. -/
theorem layer_ok {inv? : Source.M n → Option (Source.M n)} {ns s r nd : Nat} {fl : Doubling.Flags} {z : In n} {dz : Nat → In n}
    {m : Mat.Mem n ℝ} (h : layer inv? ns s r nd fl z dz = .ok m) :
    r < maxR ∧ s < 31 ∧ ∃ o x, thin inv? ns s r z = some o ∧
      Doubling.loop inv? nd fl false false (fun _ => 0) s true ⟨0, fun _ => 0, 0, fun _ => 0⟩ 1 (mem0 ns s r fl z dz o) = .ok (m, x) := by
  unfold layer at h
  split_ifs at h with h1 h2
  have hr : r < maxR := by
    by_contra hc
    apply h1
    rw [List.any_eq_true]
    refine ⟨r, ?_, by simpa using hc⟩
    cases r with
    | zero => simp [written]
    | succ r => simp [written]
  refine ⟨hr, by omega, ?_⟩
  split at h
  · simp at h
  · rename_i o ho
    split at h
    · rename_i m' x hx
      simp only [Outcome.ok.injEq] at h
      subst h
      exact ⟨o, x, ho, hx⟩
    · simp at h

end Xrtm.Pade
