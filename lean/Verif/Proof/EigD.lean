import Verif.Proof.Eig

/-! Derivatives of the eigenmatrix solver. -/

namespace Xrtm.Eig
open Matrix Filter Topology

variable {n : Nat} {K : Type} [RCLike K] {x : ℝ}

section general
variable {ι κ : Type} [Fintype ι] [DecidableEq ι]

/-- `A'` is the derivative at `x` of the matrix `A`, entry by entry. -/
def MD (A : ℝ → Matrix ι κ K) (A' : Matrix ι κ K) (x : ℝ) : Prop :=
  ∀ i j, HasDerivAt (fun y => A y i j) (A' i j) x

theorem MD.add {A B : ℝ → Matrix ι κ K} {A' B' : Matrix ι κ K} (hA : MD A A' x) (hB : MD B B' x) :
    MD (fun y => A y + B y) (A' + B') x := fun i j => (hA i j).fun_add (hB i j)

theorem MD.sub {A B : ℝ → Matrix ι κ K} {A' B' : Matrix ι κ K} (hA : MD A A' x) (hB : MD B B' x) :
    MD (fun y => A y - B y) (A' - B') x := fun i j => (hA i j).fun_sub (hB i j)

theorem MD.mul {A B : ℝ → Matrix ι ι K} {A' B' : Matrix ι ι K} (hA : MD A A' x) (hB : MD B B' x) :
    MD (fun y => A y * B y) (A' * B x + A x * B') x := fun i j => by
  simp only [Matrix.mul_apply, Matrix.add_apply, ← Finset.sum_add_distrib]
  exact HasDerivAt.fun_sum fun k _ => (hA i k).fun_mul (hB k j)

theorem MD.congr {A : ℝ → Matrix ι κ K} {A' B' : Matrix ι κ K} (hA : MD A A' x) (h : A' = B') : MD A B' x :=
  h ▸ hA

theorem MD.eventually {A B : ℝ → Matrix ι κ K} {A' : Matrix ι κ K} (hA : MD A A' x)
    (h : ∀ᶠ y in 𝓝 x, B y = A y) : MD B A' x := fun i j =>
  (hA i j).congr_of_eventuallyEq (h.mono fun y hy => by simp [hy])

theorem MD.unique {A : ℝ → Matrix ι κ K} {A' B' : Matrix ι κ K} (hA : MD A A' x) (hB : MD A B' x) : A' = B' := by
  funext i j; exact (hA i j).unique (hB i j)

theorem det_diffK {A : ℝ → Matrix ι ι K} (hA : ∀ i j, DifferentiableAt ℝ (fun y => A y i j) x) :
    DifferentiableAt ℝ (fun y => (A y).det) x := by
  simp only [Matrix.det_apply]
  refine DifferentiableAt.fun_sum fun σ _ => ?_
  refine DifferentiableAt.fun_const_smul ?_ _
  exact DifferentiableAt.fun_finsetProd fun i _ => hA _ _

theorem inv_diffK {A : ℝ → Matrix ι ι K} (hA : ∀ i j, DifferentiableAt ℝ (fun y => A y i j) x)
    (h : (A x).det ≠ 0) (i j : ι) : DifferentiableAt ℝ (fun y => (A y)⁻¹ i j) x := by
  have e : (fun y => (A y)⁻¹ i j) = fun y => ((A y).det)⁻¹ * (A y).adjugate i j := by
    funext y
    rw [Matrix.inv_def, Ring.inverse_eq_inv', Matrix.smul_apply, smul_eq_mul]
  rw [e]
  refine ((det_diffK hA).fun_inv h).fun_mul ?_
  simp only [Matrix.adjugate_apply]
  refine det_diffK fun k l => ?_
  simp only [Matrix.updateRow_apply]
  by_cases h : k = j
  · simp [h]
  · simpa [h] using hA k l

theorem det_ne_of {A X : Matrix ι ι K} (hX : A * X = 1) : A.det ≠ 0 := fun h0 => by
  have := congrArg Matrix.det hX
  rw [Matrix.det_mul, h0, zero_mul, Matrix.det_one] at this
  exact zero_ne_one this

/-- The solution `p` of `p B = A` along a curve. -/
theorem MD.solve {p A B : ℝ → Matrix ι ι K} {A' B' X : Matrix ι ι K} (hA : MD A A' x) (hB : MD B B' x)
    (hX : B x * X = 1) (hp : ∀ᶠ y in 𝓝 x, p y * B y = A y) : MD p ((A' - p x * B') * X) x := by
  have hd := det_ne_of hX
  have hdiff : ∀ i j, DifferentiableAt ℝ (fun y => B y i j) x := fun i j => (hB i j).differentiableAt
  have hnear : ∀ᶠ y in 𝓝 x, (B y).det ≠ 0 := (det_diffK hdiff).continuousAt.eventually_ne hd
  have heq : ∀ᶠ y in 𝓝 x, p y = A y * (B y)⁻¹ := by
    filter_upwards [hp, hnear] with y h1 h2
    rw [← h1, Matrix.mul_assoc, Matrix.mul_nonsing_inv _ (isUnit_iff_ne_zero.2 h2), Matrix.mul_one]
  have pd : ∀ i j, ∃ d, HasDerivAt (fun y => p y i j) d x := by
    intro i j
    have : DifferentiableAt ℝ (fun y => (A y * (B y)⁻¹) i j) x := by
      simp only [Matrix.mul_apply]
      exact DifferentiableAt.fun_sum fun k _ => (hA i k).differentiableAt.fun_mul (inv_diffK hdiff hd k j)
    exact ⟨_, (this.hasDerivAt).congr_of_eventuallyEq (heq.mono fun y hy => by simp [hy])⟩
  obtain ⟨p', hp'⟩ : ∃ p' : Matrix ι ι K, MD p p' x := by
    choose p' hp' using pd
    exact ⟨p', hp'⟩
  have e : p' * B x + p x * B' = A' := (hp'.mul hB).unique (hA.eventually hp)
  have e3 : p' = (A' - p x * B') * X := by
    rw [← e, add_sub_cancel_right, Matrix.mul_assoc, hX, Matrix.mul_one]
  exact e3 ▸ hp'

theorem MD.diag {v : ℝ → ι → K} {v' : ι → K} (hv : ∀ i, HasDerivAt (fun y => v y i) (v' i) x) :
    MD (fun y => diagonal (v y)) (diagonal v') x := fun i j => by
  rcases eq_or_ne i j with rfl | h
  · simpa using hv i
  · simpa [h] using hasDerivAt_const x (0 : K)

end general

/-- `m'` is the derivative of the modes at `x`. -/
structure ModesDeriv (m : ℝ → Modes n K) (m' : Modes n K) (x : ℝ) : Prop where
  nu : ∀ i, HasDerivAt (fun y => (m y).nu i) (m'.nu i) x
  Xp : MD (fun y => (m y).Xp) m'.Xp x
  Xm : MD (fun y => (m y).Xm) m'.Xm x

theorem rt_deriv {ex : K → K} (he : IsExp ex)
    {inv? : Matrix (Fin n) (Fin n) K → Option (Matrix (Fin n) (Fin n) K)} (hex : Eig.Exact inv?)
    {ltau : ℝ → K} {ltau' : K} {m : ℝ → Modes n K} {m' : Modes n K} {o : ℝ → RT n K}
    {g : Matrix (Fin n) (Fin n) K × Matrix (Fin n) (Fin n) K} (hm : ModesDeriv m m' x)
    (hl : HasDerivAt ltau ltau' x) (h : ∀ᶠ y in 𝓝 x, calcRT ex inv? (ltau y) (m y) = some (o y))
    (hg : calcRTL inv? (ltau x) ltau' (m x) m' (o x) = some g) :
    MD (fun y => (o y).R) g.1 x ∧ MD (fun y => (o y).T) g.2 x := by
  have hs := h.mono fun y hy => calcRT_some hex hy
  have hx := hs.self_of_nhds
  unfold calcRTL at hg
  split at hg
  · next X Y hX hY =>
    replace hX := (hex _ _).1 hX
    replace hY := (hex _ _).1 hY
    set lam' : Fin n → K := fun j => -(m'.nu j * ltau x + (m x).nu j * ltau') * (o x).lam j with hlam'
    have dl : MD (fun y => diagonal (o y).lam) (diagonal lam') x := by
      refine MD.diag fun i => ?_
      have := he.along (((hm.nu i).fun_neg).fun_mul hl)
      refine (this.congr_of_eventuallyEq (hs.mono fun y hy => hy.1 i)).congr_deriv ?_
      rw [hlam']; simp only; rw [hx.1 i]; ring
    have da := (hm.Xp.mul dl).eventually (hs.mono fun y hy => hy.2.1)
    have db := da.solve hm.Xm hX (hs.mono fun y hy => hy.2.2.1)
    have dc := (hm.Xm.sub (db.mul da)).eventually (hs.mono fun y hy => hy.2.2.2.1)
    have dd := hm.Xp.solve dc hY (hs.mono fun y hy => hy.2.2.2.2.1)
    have de := (hm.Xm.mul dl).solve dc hY (hs.mono fun y hy => hy.2.2.2.2.2.1)
    have dR := ((de.mul db).sub dd).eventually (hs.mono fun y hy => hy.2.2.2.2.2.2.1)
    have dT := (de.sub (dd.mul db)).eventually (hs.mono fun y hy => hy.2.2.2.2.2.2.2)
    simp only [← sub_sub] at dR dT
    cases hg
    exact ⟨dR, dT⟩
  · cases hg

theorem modes_deriv {tpr V : ℝ → Matrix (Fin n) (Fin n) K} {tpr' V' : Matrix (Fin n) (Fin n) K}
    {nu : ℝ → Fin n → K} {nu' : Fin n → K} (ht : MD tpr tpr' x) (hV : MD V V' x)
    (hnu : ∀ i, HasDerivAt (fun y => nu y i) (nu' i) x) (h0 : ∀ i, nu x i ≠ 0) :
    ModesDeriv (fun y => modes (tpr y) (nu y) (V y)) (modesL (tpr x) tpr' (nu x) nu' (V x) V') x := by
  have dw : ∀ i j, HasDerivAt (fun y => (tpr y * V y) i j / nu y j)
      (((tpr' * V x + tpr x * V') i j - (tpr x * V x) i j / nu x j * nu' j) / nu x j) x := by
    intro i j
    have h := h0 j
    refine (((ht.mul hV) i j).fun_div (hnu j) (h0 j)).congr_deriv ?_
    field_simp
  exact ⟨hnu, fun i j => ((hV i j).fun_add (dw i j)).const_mul (1 / 2 : K),
    fun i j => ((hV i j).fun_sub (dw i j)).const_mul (1 / 2 : K)⟩

theorem eigen_deriv
    {inv? : Matrix (Fin n ⊕ Unit) (Fin n ⊕ Unit) K → Option (Matrix (Fin n ⊕ Unit) (Fin n ⊕ Unit) K)}
    (hex : Eig.Exact inv?) {gamma : ℝ → Matrix (Fin n) (Fin n) K} {gamma' : Matrix (Fin n) (Fin n) K}
    {v : ℝ → Fin n → K} {nu : ℝ → K} (hg : MD gamma gamma' x)
    (hv : ∀ i, DifferentiableAt ℝ (fun y => v y i) x) (hnu : DifferentiableAt ℝ nu x)
    (hE : ∀ᶠ y in 𝓝 x, gamma y *ᵥ v y = nu y ^ 2 • v y) (c : K)
    (hc : ∀ᶠ y in 𝓝 x, ∑ i, v y i * v y i = c) {r : K × (Fin n → K)}
    (h : eigenL inv? (gamma x) gamma' (nu x ^ 2) (nu x) (v x) = some r) :
    HasDerivAt nu r.1 x ∧ ∀ i, HasDerivAt (fun y => v y i) (r.2 i) x := by
  unfold eigenL at h
  split at h
  · cases h
  · next X hX =>
    replace hX := mul_eq_one_comm.1 ((hex _ _).1 hX)
    obtain ⟨nu', dnu⟩ : ∃ d, HasDerivAt nu d x := ⟨_, hnu.hasDerivAt⟩
    choose v' dv using fun i => (⟨_, (hv i).hasDerivAt⟩ : ∃ d, HasDerivAt (fun y => v y i) d x)
    have e1 : ∀ i, (gamma' *ᵥ v x) i + (gamma x *ᵥ v') i =
        2 * nu x * nu' * v x i + nu x ^ 2 * v' i := by
      intro i
      have a : HasDerivAt (fun y => (gamma y *ᵥ v y) i) ((gamma' *ᵥ v x) i + (gamma x *ᵥ v') i) x := by
        simp only [mulVec, dotProduct, ← Finset.sum_add_distrib]
        exact HasDerivAt.fun_sum fun k _ => (hg i k).fun_mul (dv k)
      have b : HasDerivAt (fun y => nu y ^ 2 * v y i) (2 * nu x * nu' * v x i + nu x ^ 2 * v' i) x := by
        refine ((dnu.fun_pow 2).fun_mul (dv i)).congr_deriv ?_
        simp
      exact a.unique (b.congr_of_eventuallyEq (hE.mono fun y hy => by
        have := congrFun hy i; simpa using this))
    have e2 : ∑ i, v x i * v' i = 0 := by
      have a : HasDerivAt (fun y => ∑ i, v y i * v y i) (∑ i, (v' i * v x i + v x i * v' i)) x :=
        HasDerivAt.fun_sum fun i _ => (dv i).fun_mul (dv i)
      have := a.unique ((hasDerivAt_const x c).congr_of_eventuallyEq hc)
      have two : (∑ i, (v' i * v x i + v x i * v' i)) = 2 * ∑ i, v x i * v' i := by
        rw [Finset.mul_sum]; exact Finset.sum_congr rfl fun i _ => by ring
      rw [two] at this
      simpa using this
    set z : Fin n ⊕ Unit → K := fun i => match i with
      | .inl j => v' j
      | .inr _ => nu' with hz
    set rhs : Fin n ⊕ Unit → K := fun i => match i with
      | .inl j => (gamma' *ᵥ v x) j
      | .inr _ => 0 with hrhs
    have e3 : bordered (gamma x) (nu x ^ 2) (nu x) (v x) *ᵥ z = rhs := by
      funext i
      rcases i with i | u
      · change (∑ k : Fin n ⊕ Unit, bordered (gamma x) (nu x ^ 2) (nu x) (v x) (.inl i) k * z k) = _
        rw [Fintype.sum_sum_type]
        change (∑ k, (-gamma x i k + if i = k then nu x ^ 2 else 0) * v' k) + (∑ _ : Unit, nu x * 2 * v x i * nu') =
          (gamma' *ᵥ v x) i
        have : (∑ k, (-gamma x i k + if i = k then nu x ^ 2 else 0) * v' k) =
            -(gamma x *ᵥ v') i + nu x ^ 2 * v' i := by
          simp only [add_mul, Finset.sum_add_distrib, ite_mul, zero_mul, Finset.sum_ite_eq, Finset.mem_univ,
            if_true, neg_mul, Finset.sum_neg_distrib]
          rfl
        rw [this]
        simp only [Finset.univ_unique, Finset.sum_const, Finset.card_singleton, one_smul]
        linear_combination -(e1 i)
      · change (∑ k : Fin n ⊕ Unit, bordered (gamma x) (nu x ^ 2) (nu x) (v x) (.inr u) k * z k) = _
        rw [Fintype.sum_sum_type]
        change (∑ k, v x k * v' k) + (∑ _ : Unit, (0 : K) * nu') = 0
        rw [e2]; simp
    have e4 : X *ᵥ rhs = z := by
      rw [← e3, mulVec_mulVec, hX, one_mulVec]
    cases h
    refine ⟨dnu.congr_deriv ?_, fun i => (dv i).congr_deriv ?_⟩
    · exact (congrFun e4 (.inr ())).symm
    · exact (congrFun e4 (.inl i)).symm

/-- A simple eigenvalue gives a system that can be solved. -/
theorem bordered_det {gamma V : Matrix (Fin n) (Fin n) K} {nu : Fin n → K} (hV : V.det ≠ 0)
    (hE : gamma * V = V * diagonal fun i => nu i ^ 2) (i : Fin n) (h0 : nu i ≠ 0)
    (hs : ∀ j, j ≠ i → nu j ^ 2 ≠ nu i ^ 2) (hn : ∑ j, V j i * V j i ≠ 0) :
    (bordered gamma (nu i ^ 2) (nu i) fun j => V j i).det ≠ 0 := by
  intro hd
  obtain ⟨z, hz, hker⟩ := (Matrix.exists_mulVec_eq_zero_iff).2 hd
  apply hz
  set w : Fin n → K := fun j => z (.inl j) with hw
  set s : K := z (.inr ()) with hs'
  have r1 : ∀ j, -(gamma *ᵥ w) j + nu i ^ 2 * w j + nu i * 2 * V j i * s = 0 := by
    intro j
    have := congrFun hker (.inl j)
    change (∑ k : Fin n ⊕ Unit, bordered gamma (nu i ^ 2) (nu i) (fun j => V j i) (.inl j) k * z k) = 0 at this
    rw [Fintype.sum_sum_type] at this
    change (∑ k, (-gamma j k + if j = k then nu i ^ 2 else 0) * w k) + (∑ _ : Unit, nu i * 2 * V j i * s) = 0 at this
    have e : (∑ k, (-gamma j k + if j = k then nu i ^ 2 else 0) * w k) = -(gamma *ᵥ w) j + nu i ^ 2 * w j := by
      simp only [add_mul, Finset.sum_add_distrib, ite_mul, zero_mul, Finset.sum_ite_eq, Finset.mem_univ,
        if_true, neg_mul, Finset.sum_neg_distrib]
      rfl
    rw [e] at this
    simpa using this
  have r2 : ∑ k, V k i * w k = 0 := by
    have := congrFun hker (.inr ())
    change (∑ k : Fin n ⊕ Unit, bordered gamma (nu i ^ 2) (nu i) (fun j => V j i) (.inr ()) k * z k) = 0 at this
    rw [Fintype.sum_sum_type] at this
    change (∑ k, V k i * w k) + (∑ _ : Unit, (0 : K) * s) = 0 at this
    simpa using this
  have hVY : V * V⁻¹ = 1 := mul_nonsing_inv _ (isUnit_iff_ne_zero.2 hV)
  have hYV : V⁻¹ * V = 1 := mul_eq_one_comm.1 hVY
  set q : Fin n → K := V⁻¹ *ᵥ w with hq
  have hwq : w = V *ᵥ q := by rw [hq, mulVec_mulVec, hVY, one_mulVec]
  have col : (fun j => V j i) = V *ᵥ Pi.single i 1 := by
    funext j; rw [mulVec_single_one]; rfl
  have r3 : V *ᵥ (fun j => -(nu j ^ 2 * q j) + nu i ^ 2 * q j + nu i * 2 * s * (Pi.single i 1 : Fin n → K) j) = 0 := by
    funext j
    have a := r1 j
    have b : (gamma *ᵥ w) = V *ᵥ (fun j => nu j ^ 2 * q j) := by
      rw [hwq, mulVec_mulVec, hE, ← mulVec_mulVec]
      congr 1
      funext k; rw [mulVec_diagonal]
    have c : V j i = (V *ᵥ Pi.single i 1) j := congrFun col j
    rw [b, c] at a
    rw [hwq] at a
    simp only [mulVec, dotProduct, Pi.zero_apply] at a ⊢
    rw [← a, Finset.mul_sum, Finset.mul_sum, Finset.sum_mul, ← Finset.sum_neg_distrib, ← Finset.sum_add_distrib,
      ← Finset.sum_add_distrib]
    exact Finset.sum_congr rfl fun k _ => by ring
  have r4 : ∀ j, -(nu j ^ 2 * q j) + nu i ^ 2 * q j + nu i * 2 * s * (Pi.single i 1 : Fin n → K) j = 0 := by
    intro j
    have := congrArg (fun u => (V⁻¹ *ᵥ u) j) r3
    simp only [mulVec_mulVec, hYV, one_mulVec, mulVec_zero, Pi.zero_apply] at this
    exact this
  have hs0 : s = 0 := by
    have := r4 i
    rw [Pi.single_eq_same] at this
    have e : nu i * 2 * s = 0 := by linear_combination this
    rcases mul_eq_zero.1 e with h | h
    · rcases mul_eq_zero.1 h with h | h
      · exact absurd h h0
      · exact absurd h two_ne_zero
    · exact h
  have hqj : ∀ j, j ≠ i → q j = 0 := by
    intro j hj
    have := r4 j
    rw [Pi.single_eq_of_ne hj] at this
    have e : (nu i ^ 2 - nu j ^ 2) * q j = 0 := by linear_combination this
    rcases mul_eq_zero.1 e with h | h
    · exact absurd (sub_eq_zero.1 h).symm (hs j hj)
    · exact h
  have hwi : ∀ k, w k = V k i * q i := by
    intro k
    rw [hwq]
    simp only [mulVec, dotProduct]
    rw [Finset.sum_eq_single i]
    · intro j _ hj; rw [hqj j hj, mul_zero]
    · intro h; exact absurd (Finset.mem_univ i) h
  have hqi : q i = 0 := by
    have e : (∑ j, V j i * V j i) * q i = 0 := by
      rw [← r2, Finset.sum_mul]
      exact Finset.sum_congr rfl fun k _ => by rw [hwi]; ring
    rcases mul_eq_zero.1 e with h | h
    · exact absurd h hn
    · exact h
  funext k
  rcases k with k | u
  · change w k = 0; rw [hwi, hqi, mul_zero]
  · exact hs0

end Xrtm.Eig

namespace Xrtm.Eig
open Matrix Filter Topology

variable {n : Nat} {K : Type} [RCLike K] {x : ℝ}

theorem exact_det {ι : Type} [Fintype ι] [DecidableEq ι] {inv? : Matrix ι ι K → Option (Matrix ι ι K)}
    (hex : Eig.Exact inv?) {A : Matrix ι ι K} (h : A.det ≠ 0) : inv? A = some A⁻¹ :=
  (hex _ _).2 (mul_nonsing_inv _ (isUnit_iff_ne_zero.2 h))

/-- The solver that works at a point works near it. -/
theorem calcRT_near {ex : K → K} (he : IsExp ex)
    {inv? : Matrix (Fin n) (Fin n) K → Option (Matrix (Fin n) (Fin n) K)} (hex : Eig.Exact inv?)
    {ltau : ℝ → K} {ltau' : K} {m : ℝ → Modes n K} {m' : Modes n K} {o : RT n K} (hm : ModesDeriv m m' x)
    (hl : HasDerivAt ltau ltau' x) (h : calcRT ex inv? (ltau x) (m x) = some o) :
    ∀ᶠ y in 𝓝 x, ∃ o, calcRT ex inv? (ltau y) (m y) = some o := by
  have h2 := h
  unfold calcRT at h
  cases hx : inv? (m x).Xm with
  | none => simp [hx] at h
  | some X =>
    simp only [hx] at h
    have hX := (hex _ _).1 hx
    have d1 : ∀ᶠ y in 𝓝 x, (m y).Xm.det ≠ 0 :=
      (det_diffK fun i j => (hm.Xm i j).differentiableAt).continuousAt.eventually_ne (det_ne_of hX)
    have dX := MD.solve (p := fun y => (m y).Xm⁻¹) (A := fun _ => 1) (A' := 0)
      (fun i j => hasDerivAt_const x _) hm.Xm hX
      (d1.mono fun y hy => nonsing_inv_mul _ (isUnit_iff_ne_zero.2 hy))
    have dl : MD (fun y => diagonal fun i => ex (-(m y).nu i * ltau y)) _ x :=
      MD.diag fun i => he.along (((hm.nu i).fun_neg).fun_mul hl)
    have da := hm.Xp.mul dl
    have dc := hm.Xm.sub ((da.mul dX).mul da)
    split at h
    · cases h
    · next Y hY =>
      have hX' : (m x).Xm⁻¹ = X := inv_eq_right_inv hX
      have hY := (hex _ _).1 hY
      rw [← hX'] at hY
      have d2 : ∀ᶠ y in 𝓝 x, ((m y).Xm - (m y).Xp * (diagonal fun i => ex (-(m y).nu i * ltau y)) * (m y).Xm⁻¹ *
          ((m y).Xp * (diagonal fun i => ex (-(m y).nu i * ltau y)))).det ≠ 0 :=
        (det_diffK fun i j => (dc i j).differentiableAt).continuousAt.eventually_ne (det_ne_of hY)
      filter_upwards [d1, d2] with y e1 e2
      unfold calcRT
      simp only [exact_det hex e1, exact_det hex e2]
      exact ⟨_, rfl⟩

/-- What the linearised `R` is where the layer is clear. -/
theorem clear_deriv {ex : K → K}
    {inv? : Matrix (Fin n) (Fin n) K → Option (Matrix (Fin n) (Fin n) K)} (hex : Eig.Exact inv?)
    {ltau ltau' : K} {m m' : Modes n K} (hp : m.Xp = 0) (hm : m.Xm = 1) :
    ∃ o, calcRT ex inv? ltau m = some o ∧ ∃ g, calcRTL inv? ltau ltau' m m' o = some g ∧
      g.1 = diagonal (fun i => ex (-m.nu i * ltau)) * (m'.Xp * diagonal fun i => ex (-m.nu i * ltau)) - m'.Xp := by
  have h1 : inv? 1 = some 1 := (hex _ _).2 (one_mul 1)
  refine ⟨_, by unfold calcRT; simp only [hp, hm, h1, Matrix.zero_mul, sub_zero, Matrix.one_mul, Matrix.mul_one]; rfl, ?_⟩
  refine ⟨_, by unfold calcRTL; simp only [hm, h1]; rfl, ?_⟩
  simp [hp]

end Xrtm.Eig
