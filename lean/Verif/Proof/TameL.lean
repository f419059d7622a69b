import Verif.Proof.Tame

/-!
# The eigenmatrix solver does not fail for a layer that makes no light
-/

namespace Xrtm.Eig

open Matrix Xrtm.Source Xrtm.Transfer Xrtm.Whole Filter Topology

variable {n : Nat} {K : Type} [RCLike K]

theorem IsExp.size {ex : K → K} (he : IsExp ex) (c : K) (s : ℝ) :
    ‖ex (-c * s)‖ ^ 2 = Real.exp (-(2 * RCLike.re c) * s) := by
  have h1 : ∀ s : ℝ, HasDerivAt (fun s : ℝ => ex (-c * s)) (-c * ex (-c * s)) s := fun s => by
    refine (he.along ((cast_deriv (K := K) s).const_mul (-c))).congr_deriv ?_
    ring
  have him : ∀ s : ℝ, HasDerivAt (fun s : ℝ => RCLike.im (ex (-c * s))) (RCLike.im (-c * ex (-c * s))) s := fun s => by
    have := (RCLike.imCLM (K := K)).hasFDerivAt.comp_hasDerivAt s (h1 s)
    simp only [RCLike.imCLM_apply] at this
    exact this
  have h2 : ∀ s, HasDerivAt (fun s : ℝ => (RCLike.re (ex (-c * s)) ^ 2 + RCLike.im (ex (-c * s)) ^ 2) *
      Real.exp (2 * RCLike.re c * s)) 0 s := fun s => by
    have e : HasDerivAt (fun s : ℝ => Real.exp (2 * RCLike.re c * s))
        (Real.exp (2 * RCLike.re c * s) * (2 * RCLike.re c)) s := by
      have := ((hasDerivAt_id s).const_mul (2 * RCLike.re c)).exp
      simpa using this
    refine ((((re_hasDeriv (h1 s)).fun_pow 2).fun_add ((him s).fun_pow 2)).fun_mul e).congr_deriv ?_
    simp only [neg_mul, map_neg, RCLike.mul_re, RCLike.mul_im]
    push_cast
    ring
  have := is_const_of_deriv_eq_zero (fun y => (h2 y).differentiableAt) (fun y => (h2 y).deriv) s 0
  simp only [RCLike.ofReal_zero, mul_zero, he.zero, RCLike.one_re, RCLike.one_im, Real.exp_zero] at this
  rw [RCLike.norm_sq_eq_def, show -(2 * RCLike.re c) * s = -(2 * RCLike.re c * s) by ring, Real.exp_neg]
  refine eq_inv_of_mul_eq_one_left ?_
  linarith [this]

theorem IsExp.fades {ex : K → K} (he : IsExp ex) {c : K} (hc : 0 < RCLike.re c) :
    Tendsto (fun s : ℝ => ex (-c * s)) atTop (𝓝 0) := by
  rw [tendsto_zero_iff_norm_tendsto_zero]
  have : Tendsto (fun s : ℝ => ‖ex (-c * s)‖ ^ 2) atTop (𝓝 0) := by
    simp only [he.size]
    refine Real.tendsto_exp_atBot.comp ?_
    exact tendsto_id.const_mul_atTop_of_neg (by linarith)
  have := this.sqrt
  simpa using this

theorem sumUp_smul (ex : K → K) (m : Modes n K) (T : ℝ) (z : K) (a b : Fin n → K) (s : ℝ) (j : Fin n) :
    sumUp ex m T (fun k => z * a k) (fun k => z * b k) s j = z * sumUp ex m T a b s j := by
  unfold sumUp
  rw [Finset.mul_sum]
  exact Finset.sum_congr rfl fun k _ => by ring

theorem sumDn_smul (ex : K → K) (m : Modes n K) (T : ℝ) (z : K) (a b : Fin n → K) (s : ℝ) (j : Fin n) :
    sumDn ex m T (fun k => z * a k) (fun k => z * b k) s j = z * sumDn ex m T a b s j := by
  unfold sumDn
  rw [Finset.mul_sum]
  exact Finset.sum_congr rfl fun k _ => by ring

theorem re_I_mul (z : K) : RCLike.re (RCLike.I * z) = -RCLike.im z := by
  rw [RCLike.mul_re, RCLike.I_re, zero_mul, zero_sub, RCLike.I_im']

theorem turn_zero (ns : Nat) : turn ns (0 : Source.V n) = 0 := by
  funext j; simp [turn_apply]

/-- Light in a layer with none from outside. -/
theorem no_light {m : Medium n} (hmu : ∀ j, 0 < m.mu j) (hw : ∀ j, 0 < m.w j) (hm : m.Passive) {up dn : ℝ → Fin n → ℝ}
    (hc : m.Carries 0 0 up dn) (h0 : dn 0 = 0)
    (h1 : (∃ T, 0 ≤ T ∧ up T = 0) ∨ ∀ j, Tendsto (fun s => up s j) atTop (𝓝 0) ∧ Tendsto (fun s => dn s j) atTop (𝓝 0)) :
    up = 0 ∧ dn = 0 := by
  have hf := flux_mono hm hc
  have hz : flux m.mu m.w (up 0) (dn 0) ≤ 0 := by
    rcases h1 with ⟨T, hT, hu⟩ | h1
    · refine (hf hT).trans ?_
      change ∑ j, m.w j * m.mu j * (up T j ^ 2 - dn T j ^ 2) ≤ 0
      rw [hu]
      refine Finset.sum_nonpos fun j _ => ?_
      have := mul_nonneg (mul_pos (hw j) (hmu j)).le (sq_nonneg (dn T j))
      simp only [Pi.zero_apply]
      nlinarith
    · have : Tendsto (fun s => flux m.mu m.w (up s) (dn s)) atTop (𝓝 0) := by
        unfold flux
        rw [show (0 : ℝ) = ∑ j, m.w j * m.mu j * (0 ^ 2 - 0 ^ 2) by simp]
        exact tendsto_finsetSum _ fun j _ => (((h1 j).1.pow 2).sub ((h1 j).2.pow 2)).const_mul _
      exact hf.ge_of_tendsto this 0
  refine carries_zero_of (fun j => (hmu j).ne') hc (t := 0) ?_ h0
  refine power_zero hmu hw (le_of_eq_of_le ?_ hz)
  unfold power flux
  rw [h0]
  simp

variable {first : Bool} {ns : Nat} {mu w : Source.V n} {om : ℝ} {Ppp Pmp Pmm Ppm : M n}

theorem rt_passive {ex : K → K} (he : IsExp ex)
    {inv? : Matrix (Fin n) (Fin n) K → Option (Matrix (Fin n) (Fin n) K)} (hex : Eig.Exact inv?) {T : ℝ} (hT : 0 ≤ T)
    (hns : 0 < ns) (hmu : ∀ i, 0 < mu i) (hw : ∀ j, 0 < (Medium.of first mu w om Ppp Pmp Pmm Ppm).w j)
    (hm : (Medium.of first mu w om Ppp Pmp Pmm Ppm).Mirrored ns)
    (hp : (Medium.of first mu w om Ppp Pmp Pmm Ppm).Passive)
    {V : Matrix (Fin n) (Fin n) K} {nu : Fin n → K} (hs : Solved first ns mu w om Ppp Pmp nu V)
    (hre : ∀ i, 0 < RCLike.re (nu i)) : ∃ o, solver ex inv? first ns mu w om T Ppp Pmp nu V = some o := by
  obtain ⟨hV, hnu, hE⟩ := hs
  have hmu0 : ∀ i, mu i ≠ 0 := fun i => (hmu i).ne'
  set A := (txr ns (localRT first mu w om Ppp Pmp).1 (localRT first mu w om Ppp Pmp).2).1 with hA
  set B := (txr ns (localRT first mu w om Ppp Pmp).1 (localRT first mu w om Ppp Pmp).2).2 with hB
  set tpr : Matrix (Fin n) (Fin n) K := A.map fun z : ℝ => (z : K) with htpr
  set md := modes tpr nu V with hmd
  have made : ∀ a b, (Medium.of first mu w om Ppp Pmp Pmm Ppm).Carries 0 0 (fun s j => RCLike.re (sumUp ex md T a b s j))
      (fun s => turn ns fun j => RCLike.re (sumDn ex md T a b s j)) := fun a b =>
    layer_made he T hns hmu0 hm hnu hE a b
  -- light made of modes with none from outside is none
  have dark : ∀ a b : Fin n → K, (∀ j, sumDn ex md T a b 0 j = 0) →
      ((∀ j, sumUp ex md T a b T j = 0) ∨ b = 0) → ∀ j, sumUp ex md T a b 0 j = 0 := by
    have half : ∀ a b : Fin n → K, (∀ j, sumDn ex md T a b 0 j = 0) →
        ((∀ j, sumUp ex md T a b T j = 0) ∨ b = 0) → ∀ j, RCLike.re (sumUp ex md T a b 0 j) = 0 := by
      intro a b h0 h1 j
      have := no_light (m := Medium.of first mu w om Ppp Pmp Pmm Ppm) hmu hw hp (made a b) (by
        simp only [h0, map_zero]; exact turn_zero ns) (by
        rcases h1 with h1 | rfl
        · left
          exact ⟨T, hT, by funext j; simp [h1]⟩
        · right
          intro j
          have lu : ∀ j, Tendsto (fun s => sumUp ex md T a 0 s j) atTop (𝓝 0) := fun j => by
            unfold sumUp
            rw [show (0 : K) = ∑ k, (a k * md.Xp j k * 0 + 0) by simp]
            refine tendsto_finsetSum _ fun k _ => ?_
            simp only [Pi.zero_apply, zero_mul]
            exact ((he.fades (hre k)).const_mul _).add_const _
          have ld : ∀ j, Tendsto (fun s => sumDn ex md T a 0 s j) atTop (𝓝 0) := fun j => by
            unfold sumDn
            rw [show (0 : K) = ∑ k, (a k * -md.Xm j k * 0 + 0) by simp]
            refine tendsto_finsetSum _ fun k _ => ?_
            simp only [Pi.zero_apply, zero_mul]
            exact ((he.fades (hre k)).const_mul _).add_const _
          constructor
          · have := (RCLike.continuous_re.tendsto (0 : K)).comp (lu j)
            simpa [Function.comp_def] using this
          · have := ((RCLike.continuous_re.tendsto (0 : K)).comp (ld j)).const_mul (stokesSign ns j)
            simpa [Function.comp_def, turn_apply] using this)
      exact congrFun (congrFun this.1 0) j
    intro a b h0 h1 j
    have r1 := half a b h0 h1 j
    have r2 := half (fun k => RCLike.I * a k) (fun k => RCLike.I * b k) (fun j => by rw [sumDn_smul, h0, mul_zero])
      (by
        rcases h1 with h1 | rfl
        · left; intro j; rw [sumUp_smul, h1, mul_zero]
        · right; funext k; simp) j
    rw [sumUp_smul, re_I_mul, neg_eq_zero] at r2
    exact RCLike.ext (by simpa using r1) (by simpa using r2)
  -- sums of modes at the ends
  have up0 : ∀ a b, sumUp ex md T a b 0 = md.Xp *ᵥ a + md.Xm *ᵥ fun k => ex (-nu k * (T : K)) * b k := fun a b => by
    funext j
    simp only [sumUp, Pi.add_apply, mulVec, dotProduct, ← Finset.sum_add_distrib]
    refine Finset.sum_congr rfl fun k _ => ?_
    rw [RCLike.ofReal_zero, mul_zero, he.zero, sub_zero]
    change _ + b k * md.Xm j k * ex (-nu k * _) = _
    ring
  have dn0 : ∀ a b, sumDn ex md T a b 0 = -(md.Xm *ᵥ a + md.Xp *ᵥ fun k => ex (-nu k * (T : K)) * b k) := fun a b => by
    funext j
    simp only [sumDn, Pi.neg_apply, Pi.add_apply, mulVec, dotProduct, ← Finset.sum_add_distrib, ← Finset.sum_neg_distrib]
    refine Finset.sum_congr rfl fun k _ => ?_
    rw [RCLike.ofReal_zero, mul_zero, he.zero, sub_zero]
    change _ + b k * -md.Xp j k * ex (-nu k * _) = _
    ring
  have upT : ∀ a b, sumUp ex md T a b T = (md.Xp *ᵥ fun k => ex (-nu k * (T : K)) * a k) + md.Xm *ᵥ b := fun a b => by
    funext j
    simp only [sumUp, Pi.add_apply, mulVec, dotProduct, ← Finset.sum_add_distrib]
    refine Finset.sum_congr rfl fun k _ => ?_
    rw [sub_self, RCLike.ofReal_zero, mul_zero, he.zero]
    change a k * md.Xp j k * ex (-nu k * _) + _ = _
    ring
  have hsum : md.Xp + md.Xm = V := by
    funext i j
    change 1 / 2 * (V i j + (tpr * V) i j / nu j) + 1 / 2 * (V i j - (tpr * V) i j / nu j) = V i j
    ring
  have hVi : ∀ v : Fin n → K, V *ᵥ v = 0 → v = 0 := fun v hv => by
    by_contra hne
    exact hV (exists_mulVec_eq_zero_iff.1 ⟨v, hne, hv⟩)
  have hdif : ∀ v, (md.Xp - md.Xm) *ᵥ v = tpr *ᵥ (V *ᵥ fun k => v k / nu k) := fun v => by
    funext j
    rw [mulVec_mulVec]
    simp only [mulVec, dotProduct]
    refine Finset.sum_congr rfl fun k _ => ?_
    change (1 / 2 * (V j k + (tpr * V) j k / nu k) - 1 / 2 * (V j k - (tpr * V) j k / nu k)) * v k = _
    ring
  have hti : ∀ v : Fin n → K, (md.Xp - md.Xm) *ᵥ v = 0 → v = 0 := fun v hv => by
    rw [hdif] at hv
    have h1 : ((B.map fun z : ℝ => (z : K)) * tpr) * V = V * diagonal fun i => nu i ^ 2 := by
      rw [htpr, gamma_map]; exact hE
    have h2 : (V * diagonal fun i => nu i ^ 2) *ᵥ (fun k => v k / nu k) = 0 := by
      rw [← h1, ← mulVec_mulVec, ← mulVec_mulVec, hv, mulVec_zero]
    rw [← mulVec_mulVec] at h2
    have h3 := hVi _ h2
    funext k
    have h4 := congrFun h3 k
    rw [mulVec_diagonal, Pi.zero_apply] at h4
    have := hnu k
    have h5 := (mul_eq_zero.1 h4).resolve_left (pow_ne_zero 2 this)
    exact (div_eq_zero_iff.1 h5).resolve_right this
  have get : ∀ M : Matrix (Fin n) (Fin n) K, (∀ v, M *ᵥ v = 0 → v = 0) → ∃ y, inv? M = some y ∧ y * M = 1 := by
    intro M hM
    have hd : M.det ≠ 0 := fun hd => by
      obtain ⟨v, hv, e⟩ := exists_mulVec_eq_zero_iff.2 hd
      exact hv (hM v e)
    have hu : IsUnit M.det := isUnit_iff_ne_zero.2 hd
    exact ⟨M⁻¹, (hex M M⁻¹).2 (mul_nonsing_inv M hu), nonsing_inv_mul M hu⟩
  obtain ⟨x, hx, hx1⟩ := get md.Xm fun v hv => by
    have h := dark v 0 (fun j => by
      rw [dn0, hv]
      simp only [Pi.zero_apply, mul_zero]
      change -(0 + md.Xp *ᵥ (0 : Fin n → K)) j = 0
      simp) (.inr rfl)
    have h' : md.Xp *ᵥ v = 0 := by
      have e := up0 v 0
      simp only [Pi.zero_apply, mul_zero] at e
      change _ = _ + md.Xm *ᵥ (0 : Fin n → K) at e
      rw [mulVec_zero, add_zero] at e
      rw [← e]; funext j; exact h j
    exact hVi v (by rw [← hsum, add_mulVec, h', hv, add_zero])
  unfold solver
  change ∃ o, calcRT ex inv? (T : K) md = some o
  unfold calcRT
  simp only [hx]
  set lam : Fin n → K := fun i => ex (-md.nu i * (T : K)) with hlam
  have hl : ∀ v : Fin n → K, diagonal lam *ᵥ v = fun k => ex (-nu k * (T : K)) * v k := fun v => by
    funext k; rw [mulVec_diagonal]; rfl
  obtain ⟨y, hy, -⟩ := get (md.Xm - md.Xp * diagonal lam * x * (md.Xp * diagonal lam)) fun v hv => by
    set z := x *ᵥ (md.Xp *ᵥ (diagonal lam *ᵥ v)) with hz
    have e1 : md.Xm *ᵥ v = md.Xp *ᵥ (diagonal lam *ᵥ z) := by
      rw [sub_mulVec, sub_eq_zero] at hv
      rw [hv, hz]
      simp only [mulVec_mulVec, Matrix.mul_assoc]
    have hx2 : md.Xm * x = 1 := (hex _ _).1 hx
    have e2 : md.Xm *ᵥ z = md.Xp *ᵥ (diagonal lam *ᵥ v) := by
      rw [hz, mulVec_mulVec, hx2, one_mulVec]
    have d0 : sumDn ex md T v (-z) 0 = 0 := by
      rw [dn0]
      simp only [Pi.neg_apply, mul_neg]
      have : (fun k => -(ex (-nu k * (T : K)) * z k)) = -(diagonal lam *ᵥ z) := by rw [hl]; rfl
      rw [this, mulVec_neg, e1, add_neg_cancel, neg_zero]
    have uT : sumUp ex md T v (-z) T = 0 := by
      rw [upT, mulVec_neg, e2, hl, add_neg_cancel]
    have u0 := dark v (-z) (fun j => congrFun d0 j) (.inl fun j => congrFun uT j)
    have u0' : sumUp ex md T v (-z) 0 = 0 := funext u0
    rw [up0] at u0'
    simp only [Pi.neg_apply, mul_neg] at u0'
    have ez : (fun k => -(ex (-nu k * (T : K)) * z k)) = -(diagonal lam *ᵥ z) := by rw [hl]; rfl
    rw [ez, mulVec_neg, ← sub_eq_add_neg, sub_eq_zero] at u0'
    have s1 : v - diagonal lam *ᵥ z = 0 := hVi _ (by
      rw [← hsum, add_mulVec, mulVec_sub, mulVec_sub, u0', e1]; abel)
    have s2 : v + diagonal lam *ᵥ z = 0 := hti _ (by
      rw [sub_mulVec, mulVec_add, mulVec_add, u0', e1]; abel)
    have s3 : (2 : K) • v = 0 := by
      rw [two_smul]
      calc v + v = (v - diagonal lam *ᵥ z) + (v + diagonal lam *ᵥ z) := by abel
        _ = 0 := by rw [s1, s2, add_zero]
    exact (smul_eq_zero.1 s3).resolve_left two_ne_zero
  rw [hy]
  exact ⟨_, rfl⟩

end Xrtm.Eig
