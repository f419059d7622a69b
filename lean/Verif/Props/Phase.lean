import Verif.Proof.PhaseEig
import Verif.Props.Loss
import Verif.Props.Brdf
import Verif.Props.Gauss

/-!
# C64: phase functions and grounds as the user gives them make no light, and no solver fails for
them
-/

namespace Xrtm.Phase
open Matrix Transfer Source Legendre Legendre.Spec Bvp Xrtm.Eig

variable {n : Nat}

/-! ### The phase matrices -/

/-- The elements of the phase matrices are the Fourier terms of the phase function of the angle of
scattering, for both sides. -/
theorem C64_term (m nc : Nat) (coef : Nat → ℝ) (x y : ℝ) (hx : x ^ 2 ≤ 1) (hy : y ^ 2 ≤ 1) (y1 y2 : Nat → ℝ)
    (h1 : ∀ k < nc, y1 k = Y m k x) (h2 : ∀ k < nc, y2 k = Y m k y) :
    phaseElem m nc y1 y2 coef = (fourier m nc coef x y, fourier m nc coef (-x) y) := by
  rw [C48_phase m nc x y y1 y2 coef h1 h2, fourier_eq m nc coef x y hx hy,
    fourier_eq m nc coef (-x) y (by rwa [neg_sq]) hy]

example (coef : Nat → ℝ) : phaseElem 1 3 (fun k => Y 1 k (1 / 2)) (fun k => Y 1 k (1 / 3)) coef =
    (fourier 1 3 coef (1 / 2) (1 / 3), fourier 1 3 coef (-(1 / 2)) (1 / 3)) :=
  C64_term 1 3 coef (1 / 2) (1 / 3) (by norm_num) (by norm_num) _ _ (fun _ _ => rfl) fun _ _ => rfl

/-- Both rules of quadrature are good enough for as many coefficients as the interface admits
(src/xrtm_interface.c:1011-1025). -/
theorem C64_rules {n nc : Nat} (hn : 0 < n) (hnc : nc ≤ 2 * n) (s : (Nat → ℝ) × (Nat → ℝ)) :
    (∀ pt : Nat → ℝ × ℝ, (∀ i < (n + 1) / 2, Gauss.Found n pt i) →
      Rule n nc (fun j => (Gauss.fillDouble n pt s).1 j) fun j => (Gauss.fillDouble n pt s).2 j) ∧
    ∀ pt : Nat → ℝ × ℝ, (∀ i, n ≤ i → i < 2 * n → Gauss.Found (2 * n) pt i) →
      Rule n nc (fun j => (Gauss.fillNorm n pt s).1 j) fun j => (Gauss.fillNorm n pt s).2 j :=
  ⟨fun pt hp => rule_double hn hnc pt hp s, fun pt hp => rule_norm hn hnc pt hp s⟩

example (s : (Nat → ℝ) × (Nat → ℝ)) : ∃ pt : Nat → ℝ × ℝ,
    Rule 3 6 (fun j => (Gauss.fillNorm 3 pt s).1 j) fun j => (Gauss.fillNorm 3 pt s).2 j := by
  obtain ⟨pt, h⟩ := Gauss.found_exists 6
  exact ⟨pt, (C64_rules (n := 3) (nc := 6) (by norm_num) le_rfl s).2 pt fun i _ hi => h i hi⟩

/-- What is scattered out of a direction, over both hemispheres of the rule, is all of it. -/
theorem C64_total {n nc : Nat} {x w : Fin n → ℝ} (hr : Rule n nc x w) (coef : Nat → ℝ) (hnc : 0 < nc) (h0 : coef 0 = 1)
    {y : ℝ} (hy : y ^ 2 ≤ 1) : ∑ j, w j * (fourier 0 nc coef y (x j) + fourier 0 nc coef (-y) (x j)) = 2 :=
  fourier_total hr coef hnc h0 hy

/-- A phase function that is not negative scatters no more than the albedo of the light, in any
Fourier term. -/
theorem C64_scattered {nc : Nat} {coef : Nat → ℝ} (hp : ∀ c, -1 ≤ c → c ≤ 1 → 0 ≤ func nc coef c) (hnc : 0 < nc)
    (h0 : coef 0 = 1) {x w : Fin n → ℝ} (hr : Rule n nc x w) {om : ℝ} (hom : 0 ≤ om) (m : Nat) (u d : Fin n → ℝ) :
    scattered (air m nc coef x w om) u d ≤ om * ∑ j, w j * (u j ^ 2 + d j ^ 2) :=
  air_scattered hp hnc h0 hr hom m u d

/-- With an albedo of at most one it makes no light. -/
theorem C64_passive {nc : Nat} {coef : Nat → ℝ} (hp : ∀ c, -1 ≤ c → c ≤ 1 → 0 ≤ func nc coef c) (hnc : 0 < nc)
    (h0 : coef 0 = 1) {x w : Fin n → ℝ} (hr : Rule n nc x w) {om : ℝ} (hom : 0 ≤ om) (hom1 : om ≤ 1) (m : Nat) :
    (air m nc coef x w om).Passive :=
  passive_of_scattered (m := air m nc coef x w om) (fun j => (hr.weight j).le) hom1 (air_scattered hp hnc h0 hr hom m)

/-! ### The ground -/

/-- A ground that reflects `rho` both ways alike, and no more than it gets, makes no light. -/
theorem C64_ground {x w : Fin n → ℝ} (hx : ∀ j, 0 < x j) (hw : ∀ j, 0 < w j) {qf : ℝ} (hq : 0 ≤ qf) (rho : Fin n → Fin n → ℝ)
    (hpos : ∀ i j, 0 ≤ rho i j) (hsym : ∀ i j, rho i j = rho j i) (hone : ∀ i, ∑ j, rho i j * (2 * qf * x j * w j) ≤ 1)
    (d : Fin n → ℝ) :
    ∑ i, w i * x i * ((Matrix.of fun i j => rho i j * (2 * qf * x j * w j)) *ᵥ d) i ^ 2 ≤ ∑ i, w i * x i * d i ^ 2 := by
  set p : Fin n → Fin n → ℝ := fun i j => rho i j * (2 * qf * x j * w j) with hp
  have p0 : ∀ i j, 0 ≤ p i j := fun i j => by
    have := hpos i j; have := (hx j).le; have := (hw j).le
    simp only [hp]; positivity
  have back : ∀ i j, w i * x i * p i j = w j * x j * p j i := fun i j => by
    simp only [hp]; rw [hsym i j]; ring
  calc ∑ i, w i * x i * ((Matrix.of p) *ᵥ d) i ^ 2 ≤ ∑ i, w i * x i * ∑ j, p i j * d j ^ 2 := by
        refine Finset.sum_le_sum fun i _ => mul_le_mul_of_nonneg_left ?_ (mul_nonneg (hw i).le (hx i).le)
        have h1 : (∑ j, p i j * d j) ^ 2 ≤ (∑ j, p i j) * ∑ j, p i j * d j ^ 2 :=
          Finset.sum_sq_le_sum_mul_sum_of_sq_eq_mul _ (fun j _ => p0 i j) (fun j _ => mul_nonneg (p0 i j) (sq_nonneg _))
            fun j _ => by ring
        have h2 : 0 ≤ ∑ j, p i j * d j ^ 2 := Finset.sum_nonneg fun j _ => mul_nonneg (p0 i j) (sq_nonneg _)
        calc ((Matrix.of p) *ᵥ d) i ^ 2 = (∑ j, p i j * d j) ^ 2 := rfl
          _ ≤ _ := h1
          _ ≤ 1 * ∑ j, p i j * d j ^ 2 := mul_le_mul_of_nonneg_right (hone i) h2
          _ = _ := one_mul _
    _ = ∑ j, ∑ i, w j * x j * p j i * d j ^ 2 := by
        simp only [Finset.mul_sum]
        rw [Finset.sum_comm]
        refine Finset.sum_congr rfl fun j _ => Finset.sum_congr rfl fun i _ => ?_
        rw [← mul_assoc, back i j]
    _ ≤ _ := by
        refine Finset.sum_le_sum fun j _ => ?_
        rw [← Finset.sum_mul, ← Finset.mul_sum]
        have h1 := hone j
        have h2 : 0 ≤ w j * x j * d j ^ 2 := mul_nonneg (mul_nonneg (hw j).le (hx j).le) (sq_nonneg _)
        calc (w j * x j * ∑ i, p j i) * d j ^ 2 = (∑ i, p j i) * (w j * x j * d j ^ 2) := by ring
          _ ≤ 1 * (w j * x j * d j ^ 2) := mul_le_mul_of_nonneg_right h1 h2
          _ = _ := one_mul _

example (d : Fin 1 → ℝ) : ∑ i : Fin 1, (1 : ℝ) * (1 / 2) *
      ((Matrix.of fun _ _ => 2 / 3 * (2 * 1 * (1 / 2) * 1) : M 1) *ᵥ d) i ^ 2 ≤ ∑ i : Fin 1, 1 * (1 / 2) * d i ^ 2 :=
  C64_ground (n := 1) (x := fun _ => 1 / 2) (w := fun _ => 1) (fun _ => by norm_num) (fun _ => by norm_num) (qf := 1) zero_le_one
    (fun _ _ => 2 / 3) (fun _ _ => by norm_num) (fun _ _ => rfl) (fun _ => by norm_num) d

/-- The matrix the code makes of a Lambertian ground, with the factor that goes with the rule. -/
theorem C64_lambert (E : Brdf.Env) (iOff n1 jOff n2 : Nat) (g₀ : Nat → ℝ) (t : Brdf.Term) (ht : t.kern = .lambertian)
    (qf qx qw : ℝ) (jj kk : Nat) (hj : jj < n1) (hk : kk < n2) :
    Brdf.refMat E (Brdf.needsFourier [t]) qf qx qw 0 ((Brdf.mats E iOff n1 jOff n2 g₀ [t]).1 jj kk).f =
      t.amp * (2 * qf * qx * qw) := by
  rw [Brdf.C46_mat E iOff n1 jOff n2 g₀ [t] qf qx qw 0 jj kk hj hk (.inl rfl), if_pos rfl]
  unfold Brdf.Spec.term Brdf.Spec.average
  rw [Finset.sum_eq_zero (fun k _ => by
    have : ∀ i j k ph, Brdf.Spec.uneven E [t] i j k ph = 0 := fun i j k ph => by
      simp [Brdf.Spec.uneven, ht, Brdf.Kernel.needsFourier]
    simp only [this]; ring)]
  simp [Brdf.Spec.even, ht, Brdf.Kernel.needsFourier, Brdf.kernelValue]

/-! ### The atmosphere of the user -/

variable {K : Type} [RCLike K]

/-- An atmosphere of phase functions `coef i` that are not negative, of albedos below one, over a
Lambertian ground or nothing. -/
structure Natural (A : Air n K) (m nc : Nat) (coef : Nat → Nat → ℝ) (x w : Fin n → ℝ) : Prop where
  one : 1 ≤ A.L
  few : 0 < nc
  rule : Rule n nc x w
  pos : ∀ i, i < A.L → ∀ c, -1 ≤ c → c ≤ 1 → 0 ≤ func nc (coef i) c
  unit : ∀ i, i < A.L → coef i 0 = 1
  albedo : ∀ i, i < A.L → 0 ≤ (A.c i).om ∧ (A.c i).om < 1
  thick : ∀ i, i < A.L → 0 ≤ A.T i
  mats : ∀ i, i < A.L → ∀ a b,
    ((A.c i).Ppp a b, (A.c i).Pmp a b) = phaseElem m nc (fun k => Y m k (x a)) (fun k => Y m k (x b)) (coef i)
  sides : ∀ i, i < A.L → (A.c i).Pmm = (A.c i).Ppp ∧ (A.c i).Ppm = (A.c i).Pmp
  ground : A.surface = true → ∃ (t : Brdf.Term) (E : Brdf.Env) (g₀ : Nat → ℝ) (qf : ℝ), t.kern = .lambertian ∧
    0 ≤ t.amp ∧ t.amp ≤ 1 ∧ qf = 1 / 2 / ∑ j, x j * w j ∧ m = 0 ∧
    ∀ a b : Fin n, A.Rs a b = Brdf.refMat E (Brdf.needsFourier [t]) qf (x b) (w b) 0 ((Brdf.mats E 0 n 0 n g₀ [t]).1 a b).f

section natural
variable {A : Air n K} {m nc : Nat} {coef : Nat → Nat → ℝ} {x w : Fin n → ℝ}

theorem natural_P (h : Natural A m nc coef x w) {i : Nat} (hi : i < A.L) :
    (A.c i).Ppp = (fun a b => fourier m nc (coef i) (x a) (x b)) ∧
      (A.c i).Pmp = fun a b => fourier m nc (coef i) (-x a) (x b) := by
  have hx : ∀ j, x j ^ 2 ≤ 1 := fun j => by nlinarith [(h.rule.cos j).1, (h.rule.cos j).2]
  have e := fun a b => (h.mats i hi a b).trans
    (C64_term m nc (coef i) (x a) (x b) (hx a) (hx b) _ _ (fun _ _ => rfl) fun _ _ => rfl)
  exact ⟨funext fun a => funext fun b => congrArg Prod.fst (e a b), funext fun a => funext fun b => congrArg Prod.snd (e a b)⟩

theorem natural_medium (h : Natural A m nc coef x w) {i : Nat} (hi : i < A.L) :
    (A.c i).medium (decide (m = 0)) x w = air m nc (coef i) x w (A.c i).om := by
  unfold Content.medium air
  rw [(h.sides i hi).1, (h.sides i hi).2, (natural_P h hi).1, (natural_P h hi).2]

/-- Such an atmosphere makes no light. -/
theorem C64_natural (h : Natural A m nc coef x w) : (A.stack (decide (m = 0)) 1 x w).Passive x w := by
  refine ⟨fun j => (h.rule.cos j).1, h.rule.weight, h.thick, fun i hi => ⟨rfl, rfl⟩, fun i hi => ?_, fun d => ?_⟩
  · change ((A.c i).medium (decide (m = 0)) x w).Passive
    rw [natural_medium h hi]
    exact C64_passive (h.pos i hi) h.few (h.unit i hi) h.rule (h.albedo i hi).1 (h.albedo i hi).2.le m
  · cases hs : A.surface with
    | false =>
      have : (A.stack (decide (m = 0)) 1 x w).Rs = 0 := by simp [Air.stack, hs]
      rw [this]
      simp only [zero_mulVec, Pi.zero_apply]
      rw [Finset.sum_eq_zero fun j _ => by norm_num]
      exact Finset.sum_nonneg fun j _ => mul_nonneg (mul_nonneg (h.rule.weight j).le (h.rule.cos j).1.le) (sq_nonneg _)
    | true =>
      obtain ⟨t, E, g₀, qf, ht, t0, t1, hq, -, hR⟩ := h.ground hs
      have hxw : ∀ j, 0 < x j * w j := fun j => mul_pos (h.rule.cos j).1 (h.rule.weight j)
      have hs0 : 0 < ∑ j, x j * w j := by
        rcases Nat.eq_zero_or_pos n with h0 | h0
        · subst h0
          have := h.rule.one
          simp at this
        · exact Finset.sum_pos (fun j _ => hxw j) ⟨⟨0, h0⟩, Finset.mem_univ _⟩
      have : (A.stack (decide (m = 0)) 1 x w).Rs = Matrix.of fun i j => (fun _ _ => t.amp) i j * (2 * qf * x j * w j) := by
        change (if A.surface then Matrix.of fun i j : Fin n => A.Rs i j * stokesSign 1 j else 0) = _
        rw [hs, if_pos rfl]
        ext a b
        change A.Rs a b * stokesSign 1 b = t.amp * (2 * qf * x b * w b)
        rw [Bvp.sign_one, mul_one, hR a b, C64_lambert E 0 n 0 n g₀ t ht qf (x b) (w b) a b a.2 b.2]
      rw [this]
      refine C64_ground (fun j => (h.rule.cos j).1) h.rule.weight (by rw [hq]; positivity) (fun _ _ => t.amp) (fun _ _ => t0)
        (fun _ _ => rfl) (fun i => ?_) d
      have e : ∑ j, t.amp * (2 * qf * x j * w j) = t.amp * (2 * qf * ∑ j, x j * w j) := by
        rw [Finset.mul_sum, Finset.mul_sum]
        exact Finset.sum_congr rfl fun j _ => by ring
      rw [e, hq]
      have : 2 * (1 / 2 / ∑ j, x j * w j) * ∑ j, x j * w j = 1 := by field_simp
      rw [this, mul_one]
      exact t1

theorem natural_scattered (h : Natural A m nc coef x w) {i : Nat} (hi : i < A.L) (u d : Fin n → ℝ) :
    scattered (Medium.of (decide (m = 0)) x w (A.c i).om (A.c i).Ppp (A.c i).Pmp (A.c i).Ppp (A.c i).Pmp) u d ≤
      (A.c i).om * ∑ j, w j * (u j ^ 2 + d j ^ 2) := by
  rw [(natural_P h hi).1, (natural_P h hi).2]
  exact air_scattered (h.pos i hi) h.few (h.unit i hi) h.rule (h.albedo i hi).1 m u d

theorem natural_symm (h : Natural A m nc coef x w) {i : Nat} (hi : i < A.L) :
    (∀ a b, (A.c i).Ppp a b = (A.c i).Ppp b a) ∧ ∀ a b, (A.c i).Pmp a b = (A.c i).Pmp b a := by
  have hx : ∀ j, x j ^ 2 ≤ 1 := fun j => by nlinarith [(h.rule.cos j).1, (h.rule.cos j).2]
  rw [(natural_P h hi).1, (natural_P h hi).2]
  exact ⟨fun a b => fourier_symm m nc _ (hx a) (hx b), fun a b => fourier_sides m nc _ (hx a) (hx b)⟩

/-- The matrix of a layer whose eigenvalues are sought. -/
noncomputable def gammaAt (A : Air n K) (m : Nat) (x w : Fin n → ℝ) (i : Nat) : M n :=
  gammaOf (txr 1 (localRT (decide (m = 0)) x w (A.c i).om (A.c i).Ppp (A.c i).Pmp).1
      (localRT (decide (m = 0)) x w (A.c i).om (A.c i).Ppp (A.c i).Pmp).2).1
    (txr 1 (localRT (decide (m = 0)) x w (A.c i).om (A.c i).Ppp (A.c i).Pmp).1
      (localRT (decide (m = 0)) x w (A.c i).om (A.c i).Ppp (A.c i).Pmp).2).2

/-- All eigenvalues are real and positive, so that their roots are real and not zero: the branch of
the solver for complex ones is not needed. -/
theorem C64_eigen (h : Natural A m nc coef x w) {i : Nat} (hi : i < A.L) {V : Matrix (Fin n) (Fin n) K} (hV : V.det ≠ 0)
    {l : Fin n → K} (he : ((gammaAt A m x w i).map fun z : ℝ => (z : K)) * V = V * diagonal l) (k : Fin n) :
    (∃ r : ℝ, 0 < r ∧ l k = (r : K)) ∧ ∀ z : K, z ^ 2 = l k → RCLike.im z = 0 ∧ RCLike.re z ≠ 0 := by
  obtain ⟨r, hr, e⟩ := scalar_eigen (decide (m = 0)) (fun j => (h.rule.cos j).1) h.rule.weight (natural_symm h hi).1
    (natural_symm h hi).2 (h.albedo i hi).2 (natural_scattered h hi) hV he k
  exact ⟨⟨r, hr, e⟩, fun z hz => root_pos hr (hz.trans e)⟩

/-- There always is a full set of eigenvectors. -/
theorem C64_eigen_exists (h : Natural A m nc coef x w) {i : Nat} (hi : i < A.L) :
    ∃ (nu : Fin n → ℝ) (V : M n), (∀ k, 0 < nu k) ∧ V.det ≠ 0 ∧ gammaAt A m x w i * V = V * diagonal fun k => nu k ^ 2 :=
  scalar_exists (decide (m = 0)) (fun j => (h.rule.cos j).1) h.rule.weight (natural_symm h hi).1 (natural_symm h hi).2
    (h.albedo i hi).2 (natural_scattered h hi)

/-- The solution for thermal emission always is found. -/
theorem C64_heat (h : Natural A m nc coef x w)
    {inv2? : Matrix (Fin n ⊕ Fin n) (Fin n ⊕ Fin n) ℝ → Option (Matrix (Fin n ⊕ Fin n) (Fin n ⊕ Fin n) ℝ)}
    (hex2 : Source.Exact inv2?) {i : Nat} (hi : i < A.L) (b0 b1 : ℝ) :
    ∃ a, Source.heat inv2? x (heatOf (decide (m = 0)) x w b0 b1 (A.c i).om (A.T i) (A.c i).Ppp (A.c i).Pmp (A.c i).Ppp
      (A.c i).Pmp) = some a := by
  have hd := scalar_heat (decide (m = 0)) (fun j => (h.rule.cos j).1) h.rule.weight (h.albedo i hi).2 (natural_scattered h hi)
  unfold Source.heat heatOf
  dsimp only
  rw [(hex2 _ _).2 (Matrix.mul_nonsing_inv _ (isUnit_iff_ne_zero.2 hd))]
  exact ⟨_, rfl⟩

/-- What is still asked: eigenvalues and eigenvectors (of which there are some, `C64_eigen_exists`),
and that the beam is not in resonance with one of them. -/
theorem natural_fine (h : Natural A m nc coef x w) {o : Nat → SunOut n} {inv1? : M n → Option (M n)}
    {inv2? : Matrix (Fin n ⊕ Fin n) (Fin n ⊕ Fin n) ℝ → Option (Matrix (Fin n ⊕ Fin n) (Fin n ⊕ Fin n) ℝ)}
    (hex2 : Source.Exact inv2?)
    (heig : ∀ i, i < A.L → (A.c i).V.det ≠ 0 ∧
      ((gammaAt A m x w i).map fun z : ℝ => (z : K)) * (A.c i).V = (A.c i).V * diagonal fun k => (A.c i).nu k ^ 2)
    (hdec : ∀ i, i < A.L → A.as0 i ≠ 0)
    (hsun : A.solar = true → ∀ i, i < A.L → Source.sun inv1? 1 x A.F0
      (sunOf (decide (m = 0)) 1 x w (A.c i).om (A.as0 i) (A.c i).Ppp (A.c i).Pmp (A.P0mm i) (A.P0pm i)) = some (o i)) :
    ∃ a, A.Fine (decide (m = 0)) 1 x w o a inv1? inv2? := by
  have ha : ∀ i, ∃ a, i < A.L → Source.heat inv2? x (heatOf (decide (m = 0)) x w (A.planck i) (A.planck (i + 1)) (A.c i).om
      (A.T i) (A.c i).Ppp (A.c i).Pmp (A.c i).Ppp (A.c i).Pmp) = some a := fun i => by
    by_cases hi : i < A.L
    · obtain ⟨a, e⟩ := C64_heat h hex2 hi (A.planck i) (A.planck (i + 1))
      exact ⟨a, fun _ => e⟩
    · exact ⟨0, fun h => absurd h hi⟩
  choose a ha using ha
  refine ⟨a, h.one, one_pos, fun j => (h.rule.cos j).1.ne', fun i hi => ?_, fun i hi => ?_, hdec, hsun, fun _ => ⟨rfl, ha⟩⟩
  · intro a b
    change (A.c i).Pmm a b = stokesSign 1 a * stokesSign 1 b * (A.c i).Ppp a b ∧
      (A.c i).Ppm a b = stokesSign 1 a * stokesSign 1 b * (A.c i).Pmp a b
    rw [Bvp.sign_one, Bvp.sign_one, (h.sides i hi).1, (h.sides i hi).2, one_mul, one_mul, one_mul]
    exact ⟨rfl, rfl⟩
  · refine ⟨(heig i hi).1, fun k h0 => ?_, (heig i hi).2⟩
    have := ((C64_eigen h hi (heig i hi).1 (heig i hi).2 k).2 ((A.c i).nu k) rfl).2
    rw [h0] at this
    simp at this

variable {ex : K → K} {inv? : {N : Nat} → Matrix (Fin N) (Fin N) K → Option (Matrix (Fin N) (Fin N) K)} {o : Nat → SunOut n}
  {inv1? : M n → Option (M n)}
  {inv2? : Matrix (Fin n ⊕ Fin n) (Fin n ⊕ Fin n) ℝ → Option (Matrix (Fin n ⊕ Fin n) (Fin n ⊕ Fin n) ℝ)}

/-- The boundary value solver for such an atmosphere finds the light, the only one there is. -/
theorem C64_bvp (h : Natural A m nc coef x w) (he : IsExp ex) (hex : ExactAll inv?) (hex1 : Source.Exact inv1?)
    (hex2 : Source.Exact inv2?)
    (heig : ∀ i, i < A.L → (A.c i).V.det ≠ 0 ∧
      ((gammaAt A m x w i).map fun z : ℝ => (z : K)) * (A.c i).V = (A.c i).V * diagonal fun k => (A.c i).nu k ^ 2)
    (hdec : ∀ i, i < A.L → A.as0 i ≠ 0)
    (hsun : A.solar = true → ∀ i, i < A.L → Source.sun inv1? 1 x A.F0
      (sunOf (decide (m = 0)) 1 x w (A.c i).om (A.as0 i) (A.c i).Ppp (A.c i).Pmp (A.P0mm i) (A.P0pm i)) = some (o i)) :
    ∃ a, A.Fine (decide (m = 0)) 1 x w o a inv1? inv2? ∧
    ∃ B, solveBvp ex (A.inp (decide (m = 0)) 1 x w o a) inv? = some B ∧
      ∃ up dn, (A.stack (decide (m = 0)) 1 x w).Lit up dn ∧
        (∀ lev, lev ≤ A.L → output 1 (level ex (A.inp (decide (m = 0)) 1 x w o a) B lev) =
          ((A.stack (decide (m = 0)) 1 x w).on up lev, (A.stack (decide (m = 0)) 1 x w).on dn lev)) ∧
        ∀ up' dn', (A.stack (decide (m = 0)) 1 x w).Lit up' dn' → ∀ i, i < A.L → up' i = up i ∧ dn' i = dn i := by
  obtain ⟨a, hf⟩ := natural_fine h hex2 heig hdec hsun
  exact ⟨a, hf, Whole.C62_bvp he hex hex1 hex2 hf (C64_natural h)⟩

open Xrtm.Adding (Act LayerIn layersOf allExits totalLoop both vals frameAll) in
open Xrtm.Radiance (Atm bothWays Pair) in
/-- So does the adding of layers of the eigenmatrix solver; the roots are to be taken on the right
side. -/
theorem C64_adding (h : Natural A m nc coef x w) (he : IsExp ex) (hex : ExactAll inv?) (hex1 : Source.Exact inv1?)
    (hex2 : Source.Exact inv2?)
    (heig : ∀ i, i < A.L → (A.c i).V.det ≠ 0 ∧
      ((gammaAt A m x w i).map fun z : ℝ => (z : K)) * (A.c i).V = (A.c i).V * diagonal fun k => (A.c i).nu k ^ 2)
    (hroot : ∀ i, i < A.L → ∀ k, 0 ≤ RCLike.re ((A.c i).nu k))
    (hdec : ∀ i, i < A.L → A.as0 i ≠ 0)
    (hsun : A.solar = true → ∀ i, i < A.L → Source.sun inv1? 1 x A.F0
      (sunOf (decide (m = 0)) 1 x w (A.c i).om (A.as0 i) (A.c i).Ppp (A.c i).Pmp (A.P0mm i) (A.P0pm i)) = some (o i))
    {iFour : Nat} {nCoef : Nat → Nat} (hbe : Whole.Beyond A iFour nCoef)
    (hth : A.thermal = true → ∀ i, i < A.L → (A.c i).om ≠ 0 ∧ iFour < nCoef i) {invA? : M n → Option (M n)}
    (hinv : Mat.Exact invA?) :
    ∃ a, ∃ lays : Nat → Spec.Layer n ℝ,
      (∀ i, i < A.L → Whole.lay ex inv? A (decide (m = 0)) 1 x w iFour nCoef o a i = some (lays i)) ∧
      ∀ (nd : Nat) (l : LayerIn n ℝ) (ls : List (LayerIn n ℝ)), (∀ l ∈ ls, ∀ i, i < nd → allExits (l.act i) = false) →
      layersOf (l :: ls) = (List.range A.L).map lays → ∀ s : Mat.Mem n ℝ,
      ∃ s', totalLoop invA? nd true (l :: ls) s = .ok s' ∧
        ∀ z : Atm n ℝ, z.layer = both (vals frameAll s') → z.Rs = A.Rs → z.In = A.ground → z.I1 = A.above →
        ∀ (act : Nat → Act × Act) (d : Nat → Atm n ℝ) (old : Nat → Nat → Pair n ℝ) (work : Nat → Pair n ℝ),
        ∃ out up dn, bothWays invA? nd A.L act A.surface [0, A.L] z d old work = .ok out ∧
          (A.stack (decide (m = 0)) 1 x w).Lit up dn ∧
          out 0 0 = ((A.stack (decide (m = 0)) 1 x w).on up 0, (A.stack (decide (m = 0)) 1 x w).on dn 0) ∧
          out 1 0 = ((A.stack (decide (m = 0)) 1 x w).on up A.L, (A.stack (decide (m = 0)) 1 x w).on dn A.L) := by
  obtain ⟨a, hf⟩ := natural_fine h hex2 heig hdec hsun
  refine ⟨a, Whole.C62_adding he hex hex1 hex2 hf hbe (C64_natural h) (fun i hi k => ?_) hth
    (fun i j => by rw [Bvp.sign_one, mul_one]) hinv⟩
  exact lt_of_le_of_ne (hroot i hi k) (Ne.symm ((C64_eigen h hi (heig i hi).1 (heig i hi).2 k).2 _ rfl).2)

end natural

/-! ### Three warm layers over a ground that reflects a third, with any number of streams -/

/-- A phase function that favours the forward direction. -/
noncomputable def forward (k : Nat) : ℝ := if k = 0 then 1 else if k = 1 then 1 / 2 else 0

theorem forward_pos (nc : Nat) (hnc : 1 < nc) (c : ℝ) (h1 : -1 ≤ c) : 0 ≤ func nc forward c := by
  unfold func
  obtain ⟨k, rfl⟩ := Nat.exists_eq_add_of_le hnc
  rw [show 0 + 1 + 1 + k = 2 + k by omega, Finset.sum_range_add, Finset.sum_eq_zero (s := Finset.range k) fun j _ => by
    rw [forward, if_neg (by omega), if_neg (by omega), zero_mul]]
  simp [Finset.sum_range_succ, forward, legendre_zero, legendre_one]
  linarith

noncomputable def third : Brdf.Term :=
  { kern := .lambertian, amp := 1 / 3, p := fun _ => 0, ampL := fun _ => 0, pL := fun _ _ => 0, U := Brdf.exUser }

noncomputable def warmAir (nc : Nat) (x w : Fin n → ℝ) (nu : Fin n → ℝ) (V : M n) : Air n ℝ where
  L := 3
  c := fun _ => ⟨9 / 10, fun a b => (phaseElem 0 nc (fun k => Y 0 k (x a)) (fun k => Y 0 k (x b)) forward).1,
    fun a b => (phaseElem 0 nc (fun k => Y 0 k (x a)) (fun k => Y 0 k (x b)) forward).2,
    fun a b => (phaseElem 0 nc (fun k => Y 0 k (x a)) (fun k => Y 0 k (x b)) forward).1,
    fun a b => (phaseElem 0 nc (fun k => Y 0 k (x a)) (fun k => Y 0 k (x b)) forward).2, nu, V⟩
  T := fun i => 1 / (i + 1)
  as0 := fun _ => 2
  btran := fun _ => 1
  F0 := 0
  P0mm := fun _ _ => 0
  P0pm := fun _ _ => 0
  planck := fun i => 1 + i
  above := fun _ => 1
  ground := fun _ => 2
  Rs := fun a b => Brdf.refMat Brdf.exEnv (Brdf.needsFourier [third]) (1 / 2 / ∑ j, x j * w j) (x b) (w b) 0
    ((Brdf.mats Brdf.exEnv 0 n 0 n (fun _ => 0) [third]).1 a b).f
  surface := true
  solar := false
  thermal := true

theorem warm_natural (nc : Nat) (hnc : 1 < nc) {x w : Fin n → ℝ} (hr : Rule n nc x w) (nu : Fin n → ℝ) (V : M n) :
    Natural (warmAir nc x w nu V) 0 nc (fun _ => forward) x w where
  one := by norm_num [warmAir]
  few := by omega
  rule := hr
  pos := fun i _ c h1 _ => forward_pos nc hnc c h1
  unit := fun i _ => rfl
  albedo := fun i _ => by norm_num [warmAir]
  thick := fun i _ => by simp only [warmAir]; positivity
  mats := fun i _ a b => rfl
  sides := fun i _ => ⟨rfl, rfl⟩
  ground := fun _ => ⟨third, Brdf.exEnv, fun _ => 0, _, rfl, by norm_num [third], by norm_num [third], rfl, rfl, fun a b => rfl⟩

/-- The layers, the ground and the solvers of the last two theorems, with the double quadrature of any number of streams. -/
example (n : Nat) (hn : 0 < n) : ∃ (x w : Fin n → ℝ) (A : Air n ℝ) (o : Nat → SunOut n)
    (a : Nat → (Fin n ⊕ Fin n → ℝ) × (Fin n ⊕ Fin n → ℝ)) (B : _) (lays : Nat → Spec.Layer n ℝ), A.L = 3 ∧
    solveBvp Real.exp (A.inp true 1 x w o a) inverseK = some B ∧
    ∀ i, i < 3 → Whole.lay Real.exp inverseK A true 1 x w 0 (fun _ => 1) o a i = some (lays i) := by
  obtain ⟨pt, hp⟩ := Gauss.found_exists n
  have hr := (C64_rules hn (nc := 2 * n) le_rfl (fun _ => 0, fun _ => 0)).1 pt fun i hi => hp i (by omega)
  set x : Fin n → ℝ := fun j => (Gauss.fillDouble n pt (fun _ => 0, fun _ => 0)).1 j
  set w : Fin n → ℝ := fun j => (Gauss.fillDouble n pt (fun _ => 0, fun _ => 0)).2 j
  obtain ⟨nu, V, hnu, hV, hg⟩ := C64_eigen_exists (warm_natural (2 * n) (by omega) hr 0 0) (i := 0) (by norm_num [warmAir])
  have hN := warm_natural (2 * n) (by omega) hr nu V
  have heig : ∀ i, i < (warmAir (2 * n) x w nu V).L → ((warmAir (2 * n) x w nu V).c i).V.det ≠ 0 ∧
      ((gammaAt (warmAir (2 * n) x w nu V) 0 x w i).map fun z : ℝ => (z : ℝ)) * ((warmAir (2 * n) x w nu V).c i).V =
        ((warmAir (2 * n) x w nu V).c i).V * diagonal fun k => ((warmAir (2 * n) x w nu V).c i).nu k ^ 2 := fun i _ => ⟨hV, by
    rw [Matrix.map_id']
    exact hg⟩
  obtain ⟨a, hf⟩ := natural_fine hN (inv1? := inverse) (inv2? := inverse) (o := fun _ => ⟨0, 0, 0, 0, 0, 0, 0⟩) inverse_exact heig
    (fun i _ => two_ne_zero) (fun h => absurd h (by simp [warmAir]))
  obtain ⟨B, hB, -⟩ := Whole.C62_bvp exp_real (inv? := inverseK) (fun N => inverseK_exact) inverse_exact inverse_exact hf
    (C64_natural hN)
  obtain ⟨lays, hl, -⟩ := Whole.C62_adding exp_real (inv? := inverseK) (fun N => inverseK_exact) inverse_exact inverse_exact hf
    (iFour := 0) (nCoef := fun _ => 1) (fun i _ h => absurd h (by norm_num)) (C64_natural hN) (fun i _ k => hnu k)
    (fun _ i _ => ⟨by norm_num [warmAir], Nat.zero_lt_one⟩) (fun i j => by rw [Bvp.sign_one, mul_one])
    (invA? := Adding.idealInv) Adding.idealInv_exact
  exact ⟨x, w, _, _, a, B, lays, rfl, hB, hl⟩

/-- The bound on the phase function is needed: one that is negative somewhere can make light, though it is as normal as any. -/
example : Rule 1 2 (fun _ => 1 / 2) (fun _ => 1) ∧
    ¬ (air 0 2 (fun k => if k = 0 then 1 else 8) (fun _ : Fin 1 => 1 / 2) (fun _ => 1) 1).Passive := by
  refine ⟨⟨fun _ => by norm_num, fun _ => one_pos, by simp, fun k h1 h2 => by omega⟩, fun h => ?_⟩
  have h1 := h (fun _ => 1) fun _ => -1
  have k := air_k 0 2 (fun k => if k = 0 then 1 else 8) (fun _ : Fin 1 => (1 / 2 : ℝ)) (fun _ => 1) 1
  have e0 : eps 0 = 1 := rfl
  have p1 : fourier 0 2 (fun k => if k = 0 then 1 else 8) (1 / 2) (1 / 2) = 3 := by
    rw [fourier_eq 0 2 _ _ _ (by norm_num) (by norm_num), e0]
    simp [Finset.sum_range_succ, Y_zero_order, legendre_zero, legendre_one]
    norm_num
  have p2 : fourier 0 2 (fun k => if k = 0 then 1 else 8) (-(1 / 2)) (1 / 2) = -1 := by
    rw [fourier_eq 0 2 _ _ _ (by norm_num) (by norm_num), e0]
    simp [Finset.sum_range_succ, Y_zero_order, legendre_zero, legendre_one]
    norm_num
  unfold Medium.intoUp Medium.intoDn at h1
  rw [k, e0] at h1
  simp only [Fin.sum_univ_one, air, Medium.of] at h1
  rw [p1, p2] at h1
  norm_num at h1

end Xrtm.Phase
