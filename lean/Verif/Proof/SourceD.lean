import Verif.Proof.Source

/-! Derivatives of the particular solutions and the layer sources. -/

namespace Xrtm.Source
open Matrix Filter Topology Xrtm.Spec Xrtm.Transfer

variable {n : Nat} {x : ℝ}

section solve
variable {ι : Type} [Fintype ι] [DecidableEq ι]

theorem detι {A : ℝ → Matrix ι ι ℝ} (hA : ∀ i j, DifferentiableAt ℝ (fun y => A y i j) x) :
    DifferentiableAt ℝ (fun y => (A y).det) x := by
  simp only [Matrix.det_apply]
  refine DifferentiableAt.fun_sum fun σ _ => ?_
  refine DifferentiableAt.fun_const_smul ?_ _
  exact DifferentiableAt.fun_finsetProd fun i _ => hA _ _

theorem invι {A : ℝ → Matrix ι ι ℝ} (hA : ∀ i j, DifferentiableAt ℝ (fun y => A y i j) x)
    (h : (A x).det ≠ 0) (i j : ι) : DifferentiableAt ℝ (fun y => (A y)⁻¹ i j) x := by
  have e : (fun y => (A y)⁻¹ i j) = fun y => ((A y).det)⁻¹ * (A y).adjugate i j := by
    funext y
    rw [Matrix.inv_def, Ring.inverse_eq_inv', Matrix.smul_apply, smul_eq_mul]
  rw [e]
  refine ((detι hA).fun_inv h).fun_mul ?_
  simp only [Matrix.adjugate_apply]
  refine detι fun k l => ?_
  simp only [Matrix.updateRow_apply]
  by_cases h : k = j
  · simp [h]
  · simpa [h] using hA k l

theorem mulVecι {A : ℝ → Matrix ι ι ℝ} {A' : Matrix ι ι ℝ} {b : ℝ → ι → ℝ} {b' : ι → ℝ}
    (hA : ∀ i j, HasDerivAt (fun y => A y i j) (A' i j) x) (hb : ∀ i, HasDerivAt (fun y => b y i) (b' i) x)
    (i : ι) : HasDerivAt (fun y => (A y *ᵥ b y) i) ((A' *ᵥ b x) i + (A x *ᵥ b') i) x := by
  simp only [Matrix.mulVec, dotProduct, ← Finset.sum_add_distrib]
  exact HasDerivAt.fun_sum fun k _ => (hA i k).fun_mul (hb k)

/-- The solution of a linear system along a curve. -/
theorem solve_deriv {A : ℝ → Matrix ι ι ℝ} {A' X : Matrix ι ι ℝ} {b p : ℝ → ι → ℝ} {b' : ι → ℝ}
    (hA : ∀ i j, HasDerivAt (fun y => A y i j) (A' i j) x) (hb : ∀ i, HasDerivAt (fun y => b y i) (b' i) x)
    (hX : A x * X = 1) (hp : ∀ᶠ y in 𝓝 x, A y *ᵥ p y = b y) (i : ι) :
    HasDerivAt (fun y => p y i) ((X *ᵥ (b' - A' *ᵥ p x)) i) x := by
  have hd : (A x).det ≠ 0 := fun h0 => by
    have := congrArg Matrix.det hX
    rw [Matrix.det_mul, h0, zero_mul, Matrix.det_one] at this
    exact zero_ne_one this
  have hdiff : ∀ i j, DifferentiableAt ℝ (fun y => A y i j) x := fun i j => (hA i j).differentiableAt
  have hnear : ∀ᶠ y in 𝓝 x, (A y).det ≠ 0 := (detι hdiff).continuousAt.eventually_ne hd
  have heq : ∀ᶠ y in 𝓝 x, p y = (A y)⁻¹ *ᵥ b y := by
    filter_upwards [hp, hnear] with y h1 h2
    rw [← h1, Matrix.mulVec_mulVec, Matrix.nonsing_inv_mul _ (isUnit_iff_ne_zero.2 h2), Matrix.one_mulVec]
  have pd : ∀ i, ∃ d, HasDerivAt (fun y => p y i) d x := by
    intro i
    have : DifferentiableAt ℝ (fun y => ((A y)⁻¹ *ᵥ b y) i) x := by
      simp only [Matrix.mulVec, dotProduct]
      exact DifferentiableAt.fun_sum fun k _ => (invι hdiff hd i k).fun_mul (hb k).differentiableAt
    exact ⟨_, (this.hasDerivAt).congr_of_eventuallyEq (heq.mono fun y hy => by simp [hy])⟩
  choose p' hp' using pd
  have e : ∀ i, (A' *ᵥ p x) i + (A x *ᵥ p') i = b' i := fun i =>
    ((mulVecι hA hp' i).unique (((hb i)).congr_of_eventuallyEq (hp.mono fun y hy => by simp [hy])))
  have e2 : A x *ᵥ p' = b' - A' *ᵥ p x := by
    funext i; rw [Pi.sub_apply, ← e i]; ring
  have e3 : p' = X *ᵥ (b' - A' *ᵥ p x) := by
    rw [← e2, Matrix.mulVec_mulVec, mul_eq_one_comm.1 hX, Matrix.one_mulVec]
  exact (hp' i).congr_deriv (congrFun e3 i)

end solve

/-! ## Derivatives of the inputs -/

/-- `z'` is the derivative at `x` of a curve of inputs for the beam. -/
structure SunDeriv (z : ℝ → Sun n) (z' : Sun n) (x : ℝ) : Prop where
  om : HasDerivAt (fun y => (z y).om) z'.om x
  as0 : HasDerivAt (fun y => (z y).as0) z'.as0 x
  Pmm : VDeriv (fun y => (z y).Pmm) z'.Pmm x
  Ppm : VDeriv (fun y => (z y).Ppm) z'.Ppm x
  tpr : MDeriv (fun y => (z y).tpr) z'.tpr x
  tmr : MDeriv (fun y => (z y).tmr) z'.tmr x
  gamma : MDeriv (fun y => (z y).gamma) z'.gamma x

/-- The same for the thermal source. -/
structure HeatDeriv (z : ℝ → Heat n) (z' : Heat n) (x : ℝ) : Prop where
  b0 : HasDerivAt (fun y => (z y).b0) z'.b0 x
  b1 : HasDerivAt (fun y => (z y).b1) z'.b1 x
  om : HasDerivAt (fun y => (z y).om) z'.om x
  ltau : HasDerivAt (fun y => (z y).ltau) z'.ltau x
  rp : MDeriv (fun y => (z y).rp) z'.rp x
  tp : MDeriv (fun y => (z y).tp) z'.tp x
  rm : MDeriv (fun y => (z y).rm) z'.rm x
  tm : MDeriv (fun y => (z y).tm) z'.tm x

theorem VDeriv.subv {u v : ℝ → V n} {u' v' : V n} (hu : VDeriv u u' x) (hv : VDeriv v v' x) :
    VDeriv (fun y => u y - v y) (u' - v') x := fun i => (hu i).fun_sub (hv i)

theorem VDeriv.smulv {c : ℝ → ℝ} {c' : ℝ} {v : ℝ → V n} {v' : V n} (hc : HasDerivAt c c' x)
    (hv : VDeriv v v' x) : VDeriv (fun y => c y • v y) (c' • v x + c x • v') x := fun i => by
  simpa using hc.fun_mul (hv i)

theorem VDeriv.turnv (ns : Nat) {v : ℝ → V n} {v' : V n} (hv : VDeriv v v' x) :
    VDeriv (fun y => turn ns (v y)) (turn ns v') x := fun i => by
  simp only [turn_apply]
  exact (hv i).const_mul _

theorem MDeriv.turnm (ns : Nat) {v : ℝ → M n} {v' : M n} (hv : MDeriv v v' x) :
    MDeriv (fun y => turnM ns (v y)) (turnM ns v') x := fun i j => by
  simp only [turnM_apply]
  exact (hv i j).const_mul _

theorem localMat_deriv {first : Bool} {mu w : V n} {sg : ℝ} {om : ℝ → ℝ} {om' : ℝ} {P : ℝ → M n} {P' : M n}
    (ho : HasDerivAt om om' x) (hP : MDeriv P P' x) :
    MDeriv (fun y => localMat first mu w sg (om y) (P y)) (localMatL first mu w sg (om x) om' (P x) P') x := by
  intro i j
  simp only [localMat, localMatL]
  have := (ho.const_mul (sg * (1 + if first then (1:ℝ) else 0) / 4)).fun_mul
    (((hP i j).const_mul (1 / mu i)).mul_const (w j))
  refine this.congr_deriv ?_
  ring

theorem localRT_deriv {first : Bool} {mu w : V n} {om : ℝ → ℝ} {om' : ℝ} {Pp Pm : ℝ → M n} {Pp' Pm' : M n}
    (ho : HasDerivAt om om' x) (hp : MDeriv Pp Pp' x) (hm : MDeriv Pm Pm' x) :
    MDeriv (fun y => (localRT first mu w (om y) (Pp y) (Pm y)).1)
        (localRTL first mu w (om x) om' (Pp x) (Pm x) Pp' Pm').1 x ∧
      MDeriv (fun y => (localRT first mu w (om y) (Pp y) (Pm y)).2)
        (localRTL first mu w (om x) om' (Pp x) (Pm x) Pp' Pm').2 x :=
  ⟨localMat_deriv ho hm, ((localMat_deriv ho hp).sub (MDeriv.const _)).congr (by simp [localRTL])⟩

theorem txr_deriv (ns : Nat) {r t : ℝ → M n} {r' t' : M n} (hr : MDeriv r r' x) (ht : MDeriv t t' x) :
    MDeriv (fun y => (txr ns (r y) (t y)).1) (txr ns r' t').1 x ∧
      MDeriv (fun y => (txr ns (r y) (t y)).2) (txr ns r' t').2 x := by
  unfold txr
  split_ifs
  · exact ⟨ht.add hr, ht.sub hr⟩
  · exact ⟨ht.add (MDeriv.turnm ns hr), ht.sub (MDeriv.turnm ns hr)⟩

theorem gamma_deriv {p m : ℝ → M n} {p' m' : M n} (hp : MDeriv p p' x) (hm : MDeriv m m' x) :
    MDeriv (fun y => gammaOf (p y) (m y)) (gammaL (p x) (m x) p' m') x :=
  (hm.mul hp).congr (by unfold gammaL; rw [add_comm])

/-! ## The beam -/

variable {inv? : M n → Option (M n)} {mu : V n}

theorem sun_parts (hex : Exact inv?) {ns : Nat} {F0 : ℝ} {z : Sun n} {o : SunOut n}
    (h : sun inv? ns mu F0 z = some o) :
    o.f = z.gamma - (Matrix.diagonal fun _ => z.as0 * z.as0) ∧
    o.d = (fun i => F0 / (4 * Real.pi) * z.om / mu i * z.Ppm i) +
      turn ns (fun i => F0 / (4 * Real.pi) * z.om / mu i * z.Pmm i) ∧
    o.e = (fun i => F0 / (4 * Real.pi) * z.om / mu i * z.Ppm i) -
      turn ns (fun i => F0 / (4 * Real.pi) * z.om / mu i * z.Pmm i) ∧
    o.f *ᵥ o.p = (-z.as0) • o.d - z.tmr *ᵥ o.e ∧ o.h = z.tpr *ᵥ o.p + o.e ∧
    o.Fp = (1 / 2 : ℝ) • ((1 / z.as0) • o.h + o.p) ∧ o.Fm = turn ns (o.Fp - o.p) := by
  unfold sun at h
  dsimp only at h
  split at h
  · cases h
  · rename_i X hX
    injection h with h
    subst h
    refine ⟨rfl, rfl, rfl, ?_, rfl, rfl, rfl⟩
    dsimp only
    rw [Matrix.mulVec_mulVec, (hex _ _).1 hX, Matrix.one_mulVec]

theorem sunLayerL_deriv (hex : Exact inv?) {ns : Nat} {F0 : ℝ} {z : ℝ → Sun n} {z' : Sun n} {o : ℝ → SunOut n}
    {L : V n × V n} (hz : SunDeriv z z' x) (ha : (z x).as0 ≠ 0)
    (ho : ∀ᶠ y in 𝓝 x, sun inv? ns mu F0 (z y) = some (o y))
    (hL : sunLayerL inv? ns mu F0 (z x) z' (o x) = some L) :
    VDeriv (fun y => (o y).Fp) L.1 x ∧ VDeriv (fun y => (o y).Fm) L.2 x := by
  have hs := ho.mono fun y hy => sun_parts hex hy
  have hs0 := hs.self_of_nhds
  unfold sunLayerL at hL
  dsimp only at hL
  split at hL
  · cases hL
  rename_i X hX
  injection hL with hL
  have hX := (hex _ _).1 hX
  set aa := F0 / (4 * Real.pi) with haa
  set bb := aa * (z x).om with hbb
  set cc := aa * z'.om with hcc
  set v1 : V n := fun i => (cc * (z x).Ppm i + bb * z'.Ppm i) / mu i with hv1
  set v2 : V n := turn ns fun i => (cc * (z x).Pmm i + bb * z'.Pmm i) / mu i with hv2
  have d1 : VDeriv (fun y i => aa * (z y).om / mu i * (z y).Ppm i) v1 x := fun i => by
    have := (((hz.om.const_mul aa).div_const (mu i)).fun_mul (hz.Ppm i))
    exact this.congr_deriv (by simp only [hv1, hbb, hcc]; ring)
  have d2 : VDeriv (fun y => turn ns fun i => aa * (z y).om / mu i * (z y).Pmm i) v2 x := by
    refine VDeriv.turnv ns fun i => ?_
    have := (((hz.om.const_mul aa).div_const (mu i)).fun_mul (hz.Pmm i))
    exact this.congr_deriv (by simp only [hbb, hcc]; ring)
  have dd : VDeriv (fun y => (o y).d) (v1 + v2) x :=
    (VDeriv.add d1 d2).eventually (hs.mono fun y hy => hy.2.1)
  have de : VDeriv (fun y => (o y).e) (v1 - v2) x :=
    (VDeriv.subv d1 d2).eventually (hs.mono fun y hy => hy.2.2.1)
  have df : MDeriv (fun y => (o y).f) (z'.gamma - Matrix.diagonal fun _ => 2 * (z x).as0 * z'.as0) x := by
    refine MDeriv.eventually (A := fun y => (z y).gamma - Matrix.diagonal fun _ => (z y).as0 * (z y).as0)
      (MDeriv.sub hz.gamma fun i j => ?_) (hs.mono fun y hy => hy.1)
    rcases eq_or_ne i j with rfl | hij
    · simp only [Matrix.diagonal_apply_eq]
      exact (hz.as0.fun_mul hz.as0).congr_deriv (by ring)
    · simp only [Matrix.diagonal_apply_ne _ hij]
      exact hasDerivAt_const _ _
  have dr : VDeriv (fun y => (-(z y).as0) • (o y).d - (z y).tmr *ᵥ (o y).e)
      ((-z'.as0) • (o x).d + (-(z x).as0) • (v1 + v2) - (z'.tmr *ᵥ (o x).e + (z x).tmr *ᵥ (v1 - v2))) x :=
    VDeriv.subv (VDeriv.smulv hz.as0.fun_neg dd) (VDeriv.mulVec hz.tmr de)
  have dp := solve_deriv df dr hX (hs.mono fun y hy => hy.2.2.2.1)
  set pl := X *ᵥ ((2 * (z x).as0 * z'.as0) • (o x).p - z'.gamma *ᵥ (o x).p - z'.tmr *ᵥ (o x).e -
    (z x).tmr *ᵥ (v1 - v2) - z'.as0 • (o x).d - (z x).as0 • (v1 + v2)) with hpl
  have epl : X *ᵥ ((-z'.as0) • (o x).d + (-(z x).as0) • (v1 + v2) - (z'.tmr *ᵥ (o x).e +
      (z x).tmr *ᵥ (v1 - v2)) - (z'.gamma - Matrix.diagonal fun _ => 2 * (z x).as0 * z'.as0) *ᵥ (o x).p) = pl := by
    rw [hpl]
    congr 1
    funext i
    simp only [Matrix.sub_mulVec, Pi.sub_apply, Pi.add_apply, Pi.smul_apply, smul_eq_mul,
      Matrix.mulVec_diagonal]
    ring
  rw [epl] at dp
  have dp : VDeriv (fun y => (o y).p) pl x := dp
  have dh : VDeriv (fun y => (o y).h) (z'.tpr *ᵥ (o x).p + (z x).tpr *ᵥ pl + (v1 - v2)) x :=
    (VDeriv.add (VDeriv.mulVec hz.tpr dp) de).eventually (hs.mono fun y hy => hy.2.2.2.2.1)
  have di : HasDerivAt (fun y => 1 / (z y).as0) (-z'.as0 / ((z x).as0 * (z x).as0)) x := by
    have := hz.as0.fun_inv ha
    simp only [one_div]
    exact this.congr_deriv (by rw [pow_two])
  set hl := z'.tpr *ᵥ (o x).p + (z x).tpr *ᵥ pl + (v1 - v2) with hhl
  have dFp : VDeriv (fun y => (o y).Fp)
      ((1 / 2 : ℝ) • ((-z'.as0 / ((z x).as0 * (z x).as0)) • (o x).h + (1 / (z x).as0) • hl + pl)) x := by
    have h1 := VDeriv.add (VDeriv.smulv di dh) dp
    have h2 : VDeriv (fun y => (1 / 2 : ℝ) • ((1 / (z y).as0) • (o y).h + (o y).p))
        ((1 / 2 : ℝ) • ((-z'.as0 / ((z x).as0 * (z x).as0)) • (o x).h + (1 / (z x).as0) • hl + pl)) x :=
      fun i => (h1 i).const_mul (1 / 2 : ℝ)
    exact h2.eventually (hs.mono fun y hy => hy.2.2.2.2.2.1)
  have dFm := (VDeriv.turnv ns (VDeriv.subv dFp dp)).eventually (hs.mono fun y hy => hy.2.2.2.2.2.2)
  subst hL
  exact ⟨dFp, dFm⟩

theorem mulVec_zeroM (v : V n) : (0 : M n) *ᵥ v = 0 := Matrix.zero_mulVec v

/-- The branch for the beam alone is the other with everything else zero. -/
theorem sunBeamL_eq (inv? : M n → Option (M n)) (ns : Nat) (mu : V n) (F0 : ℝ) (z : Sun n) {as0' : ℝ}
    (h : as0' ≠ 0) (o : SunOut n) :
    sunBeamL inv? ns z as0' o = sunLayerL inv? ns mu F0 z ⟨0, as0', 0, 0, 0, 0, 0⟩ o := by
  unfold sunBeamL sunLayerL
  rw [if_pos h]
  have tz : turn ns (0 : V n) = 0 := by funext i; simp [turn]
  cases inv? o.f with
  | none => rfl
  | some X =>
    dsimp only
    have e0 : (fun i => (F0 / (4 * Real.pi) * 0 * z.Ppm i + F0 / (4 * Real.pi) * z.om * (0 : V n) i) / mu i) =
        (0 : V n) := by funext i; simp
    have e1 : (fun i => (F0 / (4 * Real.pi) * 0 * z.Pmm i + F0 / (4 * Real.pi) * z.om * (0 : V n) i) / mu i) =
        (0 : V n) := by funext i; simp
    rw [e0, e1, tz]
    simp only [Matrix.zero_mulVec, Matrix.mulVec_zero, sub_zero, add_zero, smul_zero, zero_add]

theorem sunBeamL_deriv (hex : Exact inv?) {ns : Nat} {F0 : ℝ} {z : Sun n} {as0 : ℝ → ℝ} {as0' : ℝ}
    {o : ℝ → SunOut n} {L : V n × V n} (hz : HasDerivAt as0 as0' x) (ha : as0 x ≠ 0)
    (ho : ∀ᶠ y in 𝓝 x, sun inv? ns mu F0 { z with as0 := as0 y } = some (o y))
    (hL : sunBeamL inv? ns { z with as0 := as0 x } as0' (o x) = some L) :
    VDeriv (fun y => (o y).Fp) L.1 x ∧ VDeriv (fun y => (o y).Fm) L.2 x := by
  have hzd : SunDeriv (fun y => { z with as0 := as0 y }) ⟨0, as0', 0, 0, 0, 0, 0⟩ x :=
    ⟨hasDerivAt_const _ _, hz, fun i => hasDerivAt_const _ _, fun i => hasDerivAt_const _ _,
      MDeriv.const _, MDeriv.const _, MDeriv.const _⟩
  by_cases h : as0' = 0
  · subst h
    have hL' : L = (0, 0) := by
      unfold sunBeamL at hL
      rw [if_neg (by simp)] at hL
      exact (Option.some.inj hL).symm
    subst hL'
    have hs0 := ho.self_of_nhds
    obtain ⟨X, hX⟩ : ∃ X, inv? (o x).f = some X := by
      rw [(sun_parts hex hs0).1]
      unfold sun at hs0
      dsimp only at hs0
      cases hi : inv? (z.gamma - Matrix.diagonal fun _ => as0 x * as0 x) with
      | none => rw [hi] at hs0; cases hs0
      | some X => exact ⟨X, rfl⟩
    have tz : turn ns (0 : V n) = 0 := by funext i; simp [turn]
    have e0 : (fun i => (F0 / (4 * Real.pi) * 0 * z.Ppm i + F0 / (4 * Real.pi) * z.om * (0 : V n) i) / mu i) =
        (0 : V n) := by funext i; simp
    have e1 : (fun i => (F0 / (4 * Real.pi) * 0 * z.Pmm i + F0 / (4 * Real.pi) * z.om * (0 : V n) i) / mu i) =
        (0 : V n) := by funext i; simp
    have : sunLayerL inv? ns mu F0 { z with as0 := as0 x } ⟨0, 0, 0, 0, 0, 0, 0⟩ (o x) = some (0, 0) := by
      unfold sunLayerL
      rw [hX]
      dsimp only
      rw [e0, e1, tz]
      simp only [Matrix.zero_mulVec, Matrix.mulVec_zero, sub_zero, add_zero, smul_zero, zero_add, mul_zero,
        zero_smul, neg_zero, zero_div, tz]
    exact sunLayerL_deriv hex hzd ha ho this
  · rw [sunBeamL_eq inv? ns mu F0 _ h] at hL
    exact sunLayerL_deriv hex hzd ha ho hL

/-! ## Thermal -/

variable {inv2? : Matrix (Fin n ⊕ Fin n) (Fin n ⊕ Fin n) ℝ → Option (Matrix (Fin n ⊕ Fin n) (Fin n ⊕ Fin n) ℝ)}

theorem heatMat_deriv {rp tp rm tm : ℝ → M n} {rp' tp' rm' tm' : M n} (h1 : MDeriv rp rp' x)
    (h2 : MDeriv tp tp' x) (h3 : MDeriv rm rm' x) (h4 : MDeriv tm tm' x) (i j : Fin n ⊕ Fin n) :
    HasDerivAt (fun y => heatMat mu (rp y) (tp y) (rm y) (tm y) i j) (heatMat mu rp' tp' rm' tm' i j) x := by
  rcases i with i | i <;> rcases j with j | j
  · exact ((h2 i j).fun_neg).mul_const (mu i)
  · exact (h3 i j).mul_const (mu i)
  · exact ((h1 i j).fun_neg).mul_const (-mu i)
  · exact (h4 i j).mul_const (-mu i)

theorem withMu_deriv {a : ℝ → Fin n ⊕ Fin n → ℝ} {a' : Fin n ⊕ Fin n → ℝ}
    (h : ∀ i, HasDerivAt (fun y => a y i) (a' i) x) (i : Fin n ⊕ Fin n) :
    HasDerivAt (fun y => withMu mu (a y) i) (withMu mu a' i) x := by
  rcases i with i | i
  · exact (h (.inl i)).mul_const _
  · exact (h (.inr i)).mul_const _

theorem heat_parts (hex : Exact inv2?) {z : Heat n} {a : (Fin n ⊕ Fin n → ℝ) × (Fin n ⊕ Fin n → ℝ)}
    (h : heat inv2? mu z = some a) :
    heatMat mu z.rp z.tp z.rm z.tm *ᵥ a.2 = (fun _ => (1 - z.om) * ((z.b1 - z.b0) / z.ltau)) ∧
    heatMat mu z.rp z.tp z.rm z.tm *ᵥ a.1 = (fun _ => (1 - z.om) * z.b0) + withMu mu a.2 := by
  unfold heat at h
  dsimp only at h
  split at h
  · cases h
  · rename_i X hX
    injection h with h
    have hX := (hex _ _).1 hX
    rw [← h]
    dsimp only
    rw [Matrix.mulVec_mulVec, Matrix.mulVec_mulVec, hX, Matrix.one_mulVec, Matrix.one_mulVec]
    exact ⟨rfl, rfl⟩

theorem heatLayerL_deriv (hex : Exact inv2?) {z : ℝ → Heat n} {z' : Heat n}
    {a : ℝ → (Fin n ⊕ Fin n → ℝ) × (Fin n ⊕ Fin n → ℝ)} {L : (Fin n ⊕ Fin n → ℝ) × (Fin n ⊕ Fin n → ℝ)}
    (hz : HeatDeriv z z' x) (hl : (z x).ltau ≠ 0) (ho : ∀ᶠ y in 𝓝 x, heat inv2? mu (z y) = some (a y))
    (hL : heatLayerL inv2? mu (z x) z' (a x) = some L) :
    (∀ i, HasDerivAt (fun y => (a y).1 i) (L.1 i) x) ∧ ∀ i, HasDerivAt (fun y => (a y).2 i) (L.2 i) x := by
  have hs := ho.mono fun y hy => heat_parts hex hy
  unfold heatLayerL at hL
  dsimp only at hL
  split at hL
  · cases hL
  rename_i X hX
  injection hL with hL
  have hX := (hex _ _).1 hX
  have dA := heatMat_deriv (mu := mu) hz.rp hz.tp hz.rm hz.tm
  have dc1 : HasDerivAt (fun y => ((z y).b1 - (z y).b0) / (z y).ltau)
      (((z'.b1 - z'.b0) - ((z x).b1 - (z x).b0) / (z x).ltau * z'.ltau) / (z x).ltau) x := by
    refine ((hz.b1.fun_sub hz.b0).fun_div hz.ltau hl).congr_deriv ?_
    field_simp
  have dom : HasDerivAt (fun y => 1 - (z y).om) (-z'.om) x := by simpa using hz.om.const_sub 1
  have d1 := solve_deriv dA (fun _ => dom.fun_mul dc1) hX (hs.mono fun y hy => hy.1)
  have d0 := solve_deriv dA (fun i => ((dom.fun_mul hz.b0).fun_add (withMu_deriv (mu := mu) d1 i))) hX
    (hs.mono fun y hy => hy.2)
  subst hL
  refine ⟨fun i => (d0 i).congr_deriv ?_, fun i => (d1 i).congr_deriv ?_⟩
  · refine congrFun (congrArg (X *ᵥ ·) ?_) i
    funext i
    simp only [Pi.sub_apply, Pi.add_apply]
    have : ∀ u v : Fin n ⊕ Fin n → ℝ, u = v → withMu mu (X *ᵥ u) i = withMu mu (X *ᵥ v) i :=
      fun u v h => by rw [h]
    rw [this _ ((fun _ => -z'.om * (((z x).b1 - (z x).b0) / (z x).ltau) + (1 - (z x).om) *
      (((z'.b1 - z'.b0) - ((z x).b1 - (z x).b0) / (z x).ltau * z'.ltau) / (z x).ltau)) -
      heatMat mu z'.rp z'.tp z'.rm z'.tm *ᵥ (a x).2) rfl]
    ring
  · rfl

theorem heatOnlyL_deriv (hex : Exact inv2?) {z : Heat n} {b0 b1 : ℝ → ℝ} {b0' b1' : ℝ} {z' : Heat n}
    (e0 : z'.b0 = b0') (e1 : z'.b1 = b1')
    {a : ℝ → (Fin n ⊕ Fin n → ℝ) × (Fin n ⊕ Fin n → ℝ)} {L : (Fin n ⊕ Fin n → ℝ) × (Fin n ⊕ Fin n → ℝ)}
    (h0 : HasDerivAt b0 b0' x) (h1 : HasDerivAt b1 b1' x) (hl : z.ltau ≠ 0)
    (ho : ∀ᶠ y in 𝓝 x, heat inv2? mu { z with b0 := b0 y, b1 := b1 y } = some (a y))
    (hL : heatOnlyL inv2? mu { z with b0 := b0 x, b1 := b1 x } z' = some L) :
    (∀ i, HasDerivAt (fun y => (a y).1 i) (L.1 i) x) ∧ ∀ i, HasDerivAt (fun y => (a y).2 i) (L.2 i) x := by
  have hzd : HeatDeriv (fun y => { z with b0 := b0 y, b1 := b1 y }) ⟨b0', b1', 0, 0, 0, 0, 0, 0⟩ x :=
    ⟨h0, h1, hasDerivAt_const _ _, hasDerivAt_const _ _, MDeriv.const _, MDeriv.const _, MDeriv.const _,
      MDeriv.const _⟩
  refine heatLayerL_deriv hex hzd hl ho ?_
  rw [← hL]
  unfold heatLayerL heatOnlyL
  dsimp only
  have hm : heatMat mu (0 : M n) 0 0 0 = 0 := by
    funext i j; rcases i with i | i <;> rcases j with j | j <;> simp [heatMat, Matrix.fromBlocks]
  rw [hm, e0, e1]
  cases inv2? (heatMat mu z.rp z.tp z.rm z.tm) with
  | none => rfl
  | some X => simp only [Matrix.zero_mulVec, sub_zero, mul_zero, neg_zero, zero_mul, zero_add]

theorem heatEnds_eq (ltau : ℝ) (a : (Fin n ⊕ Fin n → ℝ) × (Fin n ⊕ Fin n → ℝ)) :
    heatEnds ltau a = (a.1, a.1 + ltau • a.2) := by
  simp [heatEnds]

theorem heatEndsL_eq (ltau ltau' : ℝ) (a al : (Fin n ⊕ Fin n → ℝ) × (Fin n ⊕ Fin n → ℝ)) :
    heatEndsL ltau ltau' a al = (al.1, al.1 + (ltau • al.2 + ltau' • a.2)) := by
  simp [heatEndsL]

theorem heatEnds_deriv {ltau : ℝ → ℝ} {ltau' : ℝ} {a : ℝ → (Fin n ⊕ Fin n → ℝ) × (Fin n ⊕ Fin n → ℝ)}
    {al : (Fin n ⊕ Fin n → ℝ) × (Fin n ⊕ Fin n → ℝ)} (hl : HasDerivAt ltau ltau' x)
    (h0 : ∀ i, HasDerivAt (fun y => (a y).1 i) (al.1 i) x) (h1 : ∀ i, HasDerivAt (fun y => (a y).2 i) (al.2 i) x) :
    (∀ i, HasDerivAt (fun y => (heatEnds (ltau y) (a y)).1 i) ((heatEndsL (ltau x) ltau' (a x) al).1 i) x) ∧
    ∀ i, HasDerivAt (fun y => (heatEnds (ltau y) (a y)).2 i) ((heatEndsL (ltau x) ltau' (a x) al).2 i) x := by
  simp only [heatEnds_eq, heatEndsL_eq]
  refine ⟨h0, fun i => ?_⟩
  refine ((h0 i).fun_add (hl.fun_mul (h1 i))).congr_deriv ?_
  simp only [Pi.add_apply, Pi.smul_apply, smul_eq_mul]
  ring

/-! ## Sources of the layer -/

theorem globalLayerL_deriv {t : ℝ → ℝ} {t' : ℝ} {Rp Tp Rm Tm : ℝ → M n} {Rp' Tp' Rm' Tm' : M n}
    {Fp Fm : ℝ → V n} {Fp' Fm' : V n} (ht : HasDerivAt t t' x) (h1 : MDeriv Rp Rp' x) (h2 : MDeriv Tp Tp' x)
    (h3 : MDeriv Rm Rm' x) (h4 : MDeriv Tm Tm' x) (hp : VDeriv Fp Fp' x) (hm : VDeriv Fm Fm' x) :
    VDeriv (fun y => (global (t y) (Rp y) (Tp y) (Rm y) (Tm y) (Fp y) (Fm y)).1)
      (globalLayerL (t x) t' (Rp x) (Tp x) (Rm x) (Tm x) Rp' Tp' Rm' Tm' (Fp x) (Fm x) Fp' Fm').1 x ∧
    VDeriv (fun y => (global (t y) (Rp y) (Tp y) (Rm y) (Tm y) (Fp y) (Fm y)).2)
      (globalLayerL (t x) t' (Rp x) (Tp x) (Rm x) (Tm x) Rp' Tp' Rm' Tm' (Fp x) (Fm x) Fp' Fm').2 x := by
  constructor
  · refine (VDeriv.subv (VDeriv.subv hp (VDeriv.smulv ht (VDeriv.mulVec h2 hp))) (VDeriv.mulVec h3 hm)).congr ?_
    funext i
    simp only [globalLayerL, Matrix.mulVec_add, Matrix.mulVec_smul, Pi.sub_apply, Pi.add_apply, Pi.smul_apply,
      smul_eq_mul]
    ring
  · refine (VDeriv.subv (VDeriv.smulv ht (VDeriv.subv hm (VDeriv.mulVec h1 hp))) (VDeriv.mulVec h4 hm)).congr ?_
    funext i
    simp only [globalLayerL, Matrix.mulVec_add, Matrix.mulVec_smul, Pi.sub_apply, Pi.add_apply, Pi.smul_apply,
      smul_eq_mul]
    ring

theorem globalBeamL_eq {t t' : ℝ} (Rp Tp Rm Tm : M n) (Fp Fm Fp' Fm' : V n)
    (h : t' = 0 → Fp' = 0 ∧ Fm' = 0) :
    globalBeamL t t' Rp Tp Rm Tm Fp Fm Fp' Fm' = globalLayerL t t' Rp Tp Rm Tm 0 0 0 0 Fp Fm Fp' Fm' := by
  unfold globalBeamL globalLayerL
  by_cases ht : t' = 0
  · obtain ⟨rfl, rfl⟩ := h ht
    subst ht
    rw [if_neg (by simp)]
    simp
  · rw [if_pos ht]
    simp

theorem globalHeatL_deriv {lay : Bool} {Rp Tp Rm Tm : ℝ → M n} {Rp' Tp' Rm' Tm' : M n}
    {F0p F0m F1p F1m : ℝ → V n} {F0p' F0m' F1p' F1m' : V n} (h1 : MDeriv Rp Rp' x) (h2 : MDeriv Tp Tp' x)
    (h3 : MDeriv Rm Rm' x) (h4 : MDeriv Tm Tm' x)
    (hlay : lay = false → Rp' = 0 ∧ Tp' = 0 ∧ Rm' = 0 ∧ Tm' = 0)
    (f0p : VDeriv F0p F0p' x) (f0m : VDeriv F0m F0m' x) (f1p : VDeriv F1p F1p' x) (f1m : VDeriv F1m F1m' x) :
    VDeriv (fun y => (globalHeat (Rp y) (Tp y) (Rm y) (Tm y) (F0p y) (F0m y) (F1p y) (F1m y)).1)
      (globalHeatL lay (Rp x) (Tp x) (Rm x) (Tm x) Rp' Tp' Rm' Tm' (F0p x) (F0m x) (F1p x) (F1m x)
        F0p' F0m' F1p' F1m').1 x ∧
    VDeriv (fun y => (globalHeat (Rp y) (Tp y) (Rm y) (Tm y) (F0p y) (F0m y) (F1p y) (F1m y)).2)
      (globalHeatL lay (Rp x) (Tp x) (Rm x) (Tm x) Rp' Tp' Rm' Tm' (F0p x) (F0m x) (F1p x) (F1m x)
        F0p' F0m' F1p' F1m').2 x := by
  have a1 := VDeriv.subv (VDeriv.subv f0p (VDeriv.mulVec h2 f1p)) (VDeriv.mulVec h3 f0m)
  have a2 := VDeriv.subv (VDeriv.subv f1m (VDeriv.mulVec h1 f1p)) (VDeriv.mulVec h4 f0m)
  cases lay with
  | true =>
    refine ⟨a1.congr ?_, a2.congr ?_⟩ <;>
    · funext i
      simp only [globalHeatL, if_true, Pi.sub_apply, Pi.add_apply]
      ring
  | false =>
    obtain ⟨rfl, rfl, rfl, rfl⟩ := hlay rfl
    refine ⟨a1.congr ?_, a2.congr ?_⟩ <;>
    · funext i
      simp only [globalHeatL, Pi.sub_apply, Pi.add_apply, Matrix.zero_mulVec, Pi.zero_apply]
      simp

end Xrtm.Source
