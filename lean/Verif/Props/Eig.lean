import Verif.Proof.EigD
import Verif.Props.Source
import Mathlib.Analysis.SpecialFunctions.ExpDeriv

/-!
# C50: the eigenmatrix solver gives the layer of the medium, and its derivative
unless an eigenvector has a single component
-/

namespace Xrtm.Eig
open Matrix Filter Topology Xrtm.Spec Xrtm.Transfer Xrtm.Source

variable {n : Nat} {K : Type} [RCLike K] {x : ℝ}

/-- An exact solver there is. -/
noncomputable def inverseK {ι : Type} [Fintype ι] [DecidableEq ι] (a : Matrix ι ι K) : Option (Matrix ι ι K) :=
  letI := Classical.dec (a.det = 0)
  if a.det = 0 then none else some a⁻¹

theorem inverseK_exact {ι : Type} [Fintype ι] [DecidableEq ι] : Eig.Exact (inverseK (K := K) (ι := ι)) := by
  intro a b
  unfold inverseK
  constructor
  · intro h
    split_ifs at h with hd
    rw [← Option.some.inj h]; exact Matrix.mul_nonsing_inv _ (isUnit_iff_ne_zero.2 hd)
  · intro h
    rw [if_neg (det_ne_of h), Matrix.inv_eq_right_inv h]

theorem exp_real : IsExp Real.exp := ⟨Real.exp_zero, Real.hasDerivAt_exp⟩

theorem exp_complex : IsExp Complex.exp := ⟨Complex.exp_zero, Complex.hasDerivAt_exp⟩

/-- The eigenvalues and eigenvectors of `gamma`, for a layer. -/
def Solved (first : Bool) (ns : Nat) (mu w : Source.V n) (om : ℝ) (Ppp Pmp : M n) (nu : Fin n → K)
    (V : Matrix (Fin n) (Fin n) K) : Prop :=
  V.det ≠ 0 ∧ (∀ i, nu i ≠ 0) ∧
    let z := localRT first mu w om Ppp Pmp
    let x := txr ns z.1 z.2
    ((gammaOf x.1 x.2).map fun z : ℝ => (z : K)) * V = V * diagonal fun i => nu i ^ 2

/-- What the solver makes of them. -/
noncomputable def solver (ex : K → K) (inv? : Matrix (Fin n) (Fin n) K → Option (Matrix (Fin n) (Fin n) K))
    (first : Bool) (ns : Nat) (mu w : Source.V n) (om T : ℝ) (Ppp Pmp : M n) (nu : Fin n → K)
    (V : Matrix (Fin n) (Fin n) K) : Option (RT n K) :=
  let z := localRT first mu w om Ppp Pmp
  let x := txr ns z.1 z.2
  calcRT ex inv? (T : K) (modes (x.1.map fun z : ℝ => (z : K)) nu V)

/-- Whatever the eigenvectors are, in the reals or in the complex numbers, the
reflection and transmission matrices are those of the layer: all light in it
obeys them. -/
theorem C50_layer {ex : K → K} (he : IsExp ex)
    {inv? : Matrix (Fin n) (Fin n) K → Option (Matrix (Fin n) (Fin n) K)} (hex : Eig.Exact inv?)
    (first : Bool) (ns : Nat) (hns : 0 < ns) (mu w : Source.V n) (om T : ℝ) (Ppp Pmp Pmm Ppm : M n)
    (hmu : ∀ i, mu i ≠ 0) (hm : (Medium.of first mu w om Ppp Pmp Pmm Ppm).Mirrored ns)
    (nu : Fin n → K) (V : Matrix (Fin n) (Fin n) K) (hs : Solved first ns mu w om Ppp Pmp nu V) (o : RT n K)
    (h : solver ex inv? first ns mu w om T Ppp Pmp nu V = some o) :
    (Medium.of first mu w om Ppp Pmp Pmm Ppm).Fills 0 0 T
      ⟨(layerM ns o).2.2.1, (layerM ns o).2.2.2, 0, (layerM ns o).1, (layerM ns o).2.1, 0⟩ :=
  rt_fills he hex hns hmu hm hs.1 hs.2.1 hs.2.2 h

/-- With the solution for the beam it is the layer under the sun. -/
theorem C50_layer_sun {ex : K → K} (he : IsExp ex)
    {inv? : Matrix (Fin n) (Fin n) K → Option (Matrix (Fin n) (Fin n) K)} (hex : Eig.Exact inv?)
    {inv1? : M n → Option (M n)} (hex1 : Source.Exact inv1?)
    (first : Bool) (ns : Nat) (hns : 0 < ns) (mu w : Source.V n) (om as0 F0 T : ℝ) (Ppp Pmp Pmm Ppm : M n)
    (P0mm P0pm : Source.V n)
    (hmu : ∀ i, mu i ≠ 0) (hm : (Medium.of first mu w om Ppp Pmp Pmm Ppm).Mirrored ns) (ha : as0 ≠ 0)
    (nu : Fin n → K) (V : Matrix (Fin n) (Fin n) K) (hs : Solved first ns mu w om Ppp Pmp nu V) (o : RT n K)
    (h : solver ex inv? first ns mu w om T Ppp Pmp nu V = some o) (s : SunOut n)
    (hsun : sun inv1? ns mu F0 (sunOf first ns mu w om as0 Ppp Pmp P0mm P0pm) = some s) :
    let L := layerM ns o
    let S := global (Real.exp (-as0 * T)) L.1 L.2.1 L.2.2.1 L.2.2.2 s.Fp s.Fm
    (Medium.of first mu w om Ppp Pmp Pmm Ppm).Fills (beamSource F0 om as0 P0pm) (beamSource F0 om as0 P0mm) T
      ⟨L.2.2.1, L.2.2.2, S.2, L.1, L.2.1, S.1⟩ :=
  C49_sun_layer hex1 first ns hns mu w om as0 F0 T Ppp Pmp Pmm Ppm P0mm P0pm hmu hm ha s hsun _ _ _ _
    (C50_layer he hex first ns hns mu w om T Ppp Pmp Pmm Ppm hmu hm nu V hs o h)

/-- The length of the eigenvectors does not matter. -/
theorem C50_scale {ex : K → K} {inv? : Matrix (Fin n) (Fin n) K → Option (Matrix (Fin n) (Fin n) K)}
    (hex : Eig.Exact inv?) (ltau : K) (tpr V : Matrix (Fin n) (Fin n) K) (nu s : Fin n → K) (o : RT n K)
    (hs : ∀ i, s i ≠ 0) (h : calcRT ex inv? ltau (modes tpr nu V) = some o) :
    ∃ o', calcRT ex inv? ltau (modes tpr nu (V * diagonal s)) = some o' ∧ o'.R = o.R ∧ o'.T = o.T :=
  rt_scale hex hs h

/-! ### A layer that is solved -/

/-- A matrix of one number. -/
def num (c : ℝ) : M 1 := diagonal fun _ => c

theorem num_ext {A : M 1} {c : ℝ} (h : A 0 0 = c) : A = num c := by
  funext i j; fin_cases i; fin_cases j; simpa [num] using h

theorem num_mul (a b : ℝ) : num a * num b = num (a * b) := diagonal_mul_diagonal _ _

theorem num_sub (a b : ℝ) : num a - num b = num (a - b) := diagonal_sub _ _

theorem num_inv {a : ℝ} (h : a ≠ 0) : inverseK (num a) = some (num a⁻¹) :=
  (inverseK_exact _ _).2 (by rw [num_mul, mul_inv_cancel₀ h]; exact diagonal_one)

theorem demo_tpr (om : ℝ) : (txr 1 (localRT true (fun _ : Fin 1 => (1:ℝ) / 2) (fun _ => 1) om 1 1).1
    (localRT true (fun _ : Fin 1 => (1:ℝ) / 2) (fun _ => 1) om 1 1).2).1 = num (-2) := by
  refine num_ext ?_
  simp [txr, localRT, localMat]
  ring

theorem demo_gamma : gammaOf (txr 1 (localRT true (fun _ : Fin 1 => (1:ℝ) / 2) (fun _ => 1) (3 / 4) 1 1).1
    (localRT true (fun _ : Fin 1 => (1:ℝ) / 2) (fun _ => 1) (3 / 4) 1 1).2).1
    (txr 1 (localRT true (fun _ : Fin 1 => (1:ℝ) / 2) (fun _ => 1) (3 / 4) 1 1).1
    (localRT true (fun _ : Fin 1 => (1:ℝ) / 2) (fun _ => 1) (3 / 4) 1 1).2).2 = 1 := by
  have := gamma_one (3 / 4) 2 0 0
  simp only [sunOf] at this
  rw [this]
  refine (num_ext (c := 1) ?_).trans diagonal_one
  norm_num

theorem demo_solved : Solved (K := K) true 1 (fun _ : Fin 1 => (1:ℝ) / 2) (fun _ => 1) (3 / 4) 1 1 (fun _ => 1) 1 := by
  refine ⟨by simp, fun _ => one_ne_zero, ?_⟩
  simp only [demo_gamma, Matrix.mul_one, Matrix.one_mul]
  funext i j
  fin_cases i; fin_cases j
  simp [Matrix.map_apply]

/-- The solver finds `R` and `T` of it. -/
theorem demo_solver (T : ℝ) (hT : 0 ≤ T) : ∃ o, solver Real.exp inverseK true 1 (fun _ : Fin 1 => (1:ℝ) / 2)
    (fun _ => 1) (3 / 4) T 1 1 (fun _ => 1) 1 = some o := by
  have hXm : (modes (num (-2)) (fun _ => 1) 1).Xm = num (3 / 2) := by
    refine num_ext ?_
    simp [modes, num]; norm_num
  have hXp : (modes (num (-2)) (fun _ => 1) 1).Xp = num (-1 / 2) := by
    refine num_ext ?_
    simp [modes, num]; norm_num
  unfold solver
  simp only [demo_tpr]
  change ∃ o, calcRT Real.exp inverseK T (modes (num (-2)) (fun _ => 1) 1) = some o
  have hnu : (modes (num (-2)) (fun _ => 1) 1).nu = fun _ => 1 := rfl
  have hdia : (diagonal fun _ : Fin 1 => Real.exp (-1 * T)) = num (Real.exp (-1 * T)) := rfl
  have e1 : Real.exp (-1 * T) ≤ 1 := Real.exp_le_one_iff.2 (by linarith)
  have e0 := Real.exp_pos (-1 * T)
  have h2 : 3 / 2 - -1 / 2 * Real.exp (-1 * T) * (3 / 2)⁻¹ * (-1 / 2 * Real.exp (-1 * T)) ≠ 0 := by
    nlinarith
  unfold calcRT
  simp only [hXm, hXp, hnu, hdia, num_mul, num_sub, num_inv (show (3 / 2 : ℝ) ≠ 0 by norm_num), num_inv h2]
  exact ⟨_, rfl⟩

example : ∃ R T : M 1, (Medium.of true (fun _ : Fin 1 => (1:ℝ) / 2) (fun _ => 1) (3 / 4) 1 1 1 1).Fills 0 0 2
    ⟨otherSide 1 R, otherSide 1 T, 0, R, T, 0⟩ := by
  obtain ⟨o, ho⟩ := demo_solver 2 (by norm_num)
  exact ⟨_, _, C50_layer exp_real inverseK_exact true 1 one_pos _ _ _ 2 1 1 1 1 (fun _ => by norm_num)
    (demo_mirrored _) _ _ demo_solved o ho⟩

/-! ## Derivatives -/

/-- The linearised `R` and `T` are derivatives if those of the modes and of the
thickness are. -/
theorem C50_rt_deriv {ex : K → K} (he : IsExp ex)
    {inv? : Matrix (Fin n) (Fin n) K → Option (Matrix (Fin n) (Fin n) K)} (hex : Eig.Exact inv?)
    (ltau : ℝ → K) (ltau' : K) (m : ℝ → Modes n K) (m' : Modes n K) (o : ℝ → RT n K)
    (g : Matrix (Fin n) (Fin n) K × Matrix (Fin n) (Fin n) K) (hm : ModesDeriv m m' x)
    (hl : HasDerivAt ltau ltau' x) (h : ∀ᶠ y in 𝓝 x, calcRT ex inv? (ltau y) (m y) = some (o y))
    (hg : calcRTL inv? (ltau x) ltau' (m x) m' (o x) = some g) :
    MD (fun y => (o y).R) g.1 x ∧ MD (fun y => (o y).T) g.2 x :=
  rt_deriv he hex hm hl h hg

/-- Wherever `R` and `T` are found, so are their derivatives. -/
theorem C50_together {ex : K → K} {inv? : Matrix (Fin n) (Fin n) K → Option (Matrix (Fin n) (Fin n) K)}
    (ltau ltau' : K) (m m' : Modes n K) (o : RT n K) (h : calcRT ex inv? ltau m = some o) :
    ∃ g, calcRTL inv? ltau ltau' m m' o = some g := by
  unfold calcRT at h
  cases hX : inv? m.Xm with
  | none => simp [hX] at h
  | some X =>
    simp only [hX] at h
    split at h
    · cases h
    · next Y hY =>
      have e : o.c = _ := congrArg RT.c (Option.some.inj h).symm
      unfold calcRTL
      rw [e]
      simp only [hX, hY]
      exact ⟨_, rfl⟩

/-- If `R` and `T` are found at a point they are found near it. -/
theorem C50_near {ex : K → K} (he : IsExp ex)
    {inv? : Matrix (Fin n) (Fin n) K → Option (Matrix (Fin n) (Fin n) K)} (hex : Eig.Exact inv?)
    (ltau : ℝ → K) (ltau' : K) (m : ℝ → Modes n K) (m' : Modes n K) (o : RT n K) (hm : ModesDeriv m m' x)
    (hl : HasDerivAt ltau ltau' x) (h : calcRT ex inv? (ltau x) (m x) = some o) :
    ∀ᶠ y in 𝓝 x, ∃ o, calcRT ex inv? (ltau y) (m y) = some o :=
  calcRT_near he hex hm hl h

/-- The linearised modes are derivatives if those of the eigenvalues and of the
eigenvectors are. -/
theorem C50_modes_deriv (tpr V : ℝ → Matrix (Fin n) (Fin n) K) (tpr' V' : Matrix (Fin n) (Fin n) K)
    (nu : ℝ → Fin n → K) (nu' : Fin n → K) (ht : MD tpr tpr' x) (hV : MD V V' x)
    (hnu : ∀ i, HasDerivAt (fun y => nu y i) (nu' i) x) (h0 : ∀ i, nu x i ≠ 0) :
    ModesDeriv (fun y => modes (tpr y) (nu y) (V y)) (modesL (tpr x) tpr' (nu x) nu' (V x) V') x :=
  modes_deriv ht hV hnu h0

/-- What the bordered system gives is the derivative of the eigenvalue's root and
of the eigenvector, for eigenvectors kept at one length. -/
theorem C50_eigen_deriv
    {inv? : Matrix (Fin n ⊕ Unit) (Fin n ⊕ Unit) K → Option (Matrix (Fin n ⊕ Unit) (Fin n ⊕ Unit) K)}
    (hex : Eig.Exact inv?) (gamma : ℝ → Matrix (Fin n) (Fin n) K) (gamma' : Matrix (Fin n) (Fin n) K)
    (v : ℝ → Fin n → K) (nu : ℝ → K) (hg : MD gamma gamma' x)
    (hv : ∀ i, DifferentiableAt ℝ (fun y => v y i) x) (hnu : DifferentiableAt ℝ nu x)
    (hE : ∀ᶠ y in 𝓝 x, gamma y *ᵥ v y = nu y ^ 2 • v y) (c : K)
    (hc : ∀ᶠ y in 𝓝 x, ∑ i, v y i * v y i = c) (r : K × (Fin n → K))
    (h : eigenL inv? (gamma x) gamma' (nu x ^ 2) (nu x) (v x) = some r) :
    HasDerivAt nu r.1 x ∧ ∀ i, HasDerivAt (fun y => v y i) (r.2 i) x :=
  eigen_deriv hex hg hv hnu hE c hc h

/-- The bordered system has a solution for a simple eigenvalue. -/
theorem C50_eigen_simple
    {inv? : Matrix (Fin n ⊕ Unit) (Fin n ⊕ Unit) K → Option (Matrix (Fin n ⊕ Unit) (Fin n ⊕ Unit) K)}
    (hex : Eig.Exact inv?) (gamma gamma' V : Matrix (Fin n) (Fin n) K) (nu : Fin n → K) (hV : V.det ≠ 0)
    (hE : gamma * V = V * diagonal fun i => nu i ^ 2) (i : Fin n) (h0 : nu i ≠ 0)
    (hs : ∀ j, j ≠ i → nu j ^ 2 ≠ nu i ^ 2) (hn : ∑ j, V j i * V j i ≠ 0) :
    ∃ r, eigenL inv? gamma gamma' (nu i ^ 2) (nu i) (fun j => V j i) = some r := by
  unfold eigenL
  rw [exact_det hex (bordered_det hV hE i h0 hs hn)]
  exact ⟨_, rfl⟩

/-- It has none for an eigenvalue that is there twice. -/
theorem C50_eigen_double
    {inv? : Matrix (Fin n ⊕ Unit) (Fin n ⊕ Unit) K → Option (Matrix (Fin n ⊕ Unit) (Fin n ⊕ Unit) K)}
    (hex : Eig.Exact inv?) (gamma gamma' V : Matrix (Fin n) (Fin n) K) (nu : Fin n → K) (hV : V.det ≠ 0)
    (hE : gamma * V = V * diagonal fun i => nu i ^ 2) (i j : Fin n) (hij : j ≠ i) (hs : nu j ^ 2 = nu i ^ 2)
    (hn : ∑ k, V k i * V k i ≠ 0) : eigenL inv? gamma gamma' (nu i ^ 2) (nu i) (fun j => V j i) = none := by
  unfold eigenL
  cases hi : inv? (bordered gamma (nu i ^ 2) (nu i) fun j => V j i) with
  | none => rfl
  | some X =>
    exfalso
    refine det_ne_of ((hex _ _).1 hi) (Matrix.exists_mulVec_eq_zero_iff.1 ?_)
    set a := ∑ k, V k i * V k i with ha
    set b := ∑ k, V k i * V k j with hb
    set q : Fin n → K := fun k => if k = j then a else if k = i then -b else 0 with hq
    have hqi : q i = -b := by rw [hq]; simp [hij.symm]
    have hqj : q j = a := by rw [hq]; simp
    have hw : ∀ k, (V *ᵥ q) k = V k j * a - V k i * b := by
      intro k
      simp only [mulVec, dotProduct]
      rw [← Finset.sum_subset (Finset.subset_univ {j, i}), Finset.sum_pair hij, hqi, hqj]
      · ring
      · intro l _ hl
        simp only [Finset.mem_insert, Finset.mem_singleton, not_or] at hl
        rw [hq]; simp [hl.1, hl.2]
    have hgw : gamma *ᵥ (V *ᵥ q) = nu i ^ 2 • (V *ᵥ q) := by
      rw [mulVec_mulVec, hE, ← mulVec_mulVec, ← mulVec_smul]
      congr 1
      funext k
      rw [mulVec_diagonal, Pi.smul_apply, smul_eq_mul, hq]
      by_cases h1 : k = j
      · rw [h1, hs]
      · by_cases h2 : k = i
        · rw [h2]
        · simp [h1, h2]
    refine ⟨fun l => match l with
      | .inl k => (V *ᵥ q) k
      | .inr _ => 0, fun hz => ?_, ?_⟩
    · have hVq : V *ᵥ q = 0 := by
        funext k; exact congrFun hz (.inl k)
      have : q = 0 := by
        by_contra hne
        exact hV (Matrix.exists_mulVec_eq_zero_iff.1 ⟨q, hne, hVq⟩)
      exact hn (by rw [← hqj, this]; rfl)
    · funext l
      rcases l with l | u
      · change (∑ k : Fin n ⊕ Unit, bordered gamma (nu i ^ 2) (nu i) (fun j => V j i) (.inl l) k * _) = 0
        rw [Fintype.sum_sum_type]
        change (∑ k, (-gamma l k + if l = k then nu i ^ 2 else 0) * (V *ᵥ q) k) +
          (∑ _ : Unit, nu i * 2 * V l i * 0) = 0
        have e : (∑ k, (-gamma l k + if l = k then nu i ^ 2 else 0) * (V *ᵥ q) k) =
            -(gamma *ᵥ (V *ᵥ q)) l + nu i ^ 2 * (V *ᵥ q) l := by
          simp only [add_mul, Finset.sum_add_distrib, ite_mul, zero_mul, Finset.sum_ite_eq, Finset.mem_univ,
            if_true, neg_mul, Finset.sum_neg_distrib]
          rfl
        rw [e, hgw]; simp
      · change (∑ k : Fin n ⊕ Unit, bordered gamma (nu i ^ 2) (nu i) (fun j => V j i) (.inr u) k * _) = 0
        rw [Fintype.sum_sum_type]
        change (∑ k, V k i * (V *ᵥ q) k) + (∑ _ : Unit, (0 : K) * 0) = 0
        have e : (∑ k, V k i * (V *ᵥ q) k) = b * a - a * b := by
          simp only [hw, mul_sub, Finset.sum_sub_distrib]
          congr 1
          · rw [hb, Finset.sum_mul]; exact Finset.sum_congr rfl fun k _ => by ring
          · rw [ha, Finset.sum_mul]; exact Finset.sum_congr rfl fun k _ => by ring
        rw [e]; simp [mul_comm]

/-- All of the scalar path together: the linearised `R` and `T` are derivatives
along every curve of layers with eigenvectors of one length that can be
differentiated, provided that the eigenvectors with a single component, and
their eigenvalues, do not change.  Full statement: without that provision; it is
false, see `C50_violated_trivial`. -/
theorem C50_grad_partial {inv? : M n → Option (M n)} (hex : Eig.Exact inv?)
    {inv1? : Matrix (Fin n ⊕ Unit) (Fin n ⊕ Unit) ℝ → Option (Matrix (Fin n ⊕ Unit) (Fin n ⊕ Unit) ℝ)}
    (hex1 : Eig.Exact inv1?) (eps : ℝ) (tpr tmr V : ℝ → M n) (tpr' tmr' V' : M n) (nu : ℝ → Fin n → ℝ)
    (nu' : Fin n → ℝ) (ltau : ℝ → ℝ) (ltau' : ℝ) (o : ℝ → RT n ℝ) (g : M n × M n)
    (htp : MD tpr tpr' x) (htm : MD tmr tmr' x) (hl : HasDerivAt ltau ltau' x)
    (hV : ∀ i j, DifferentiableAt ℝ (fun y => V y i j) x) (hnu : ∀ i, DifferentiableAt ℝ (fun y => nu y i) x)
    (h0 : ∀ i, 0 < nu x i)
    (hE : ∀ᶠ y in 𝓝 x, gammaOf (tpr y) (tmr y) * V y = V y * diagonal fun i => nu y i ^ 2)
    (hlen : ∀ i, ∃ c, ∀ᶠ y in 𝓝 x, ∑ j, V y j i * V y j i = c)
    (htriv : ∀ i, isTrivial eps (V x) i → HasDerivAt (fun y => nu y i) 0 x ∧
      ∀ j, HasDerivAt (fun y => V y j i) 0 x)
    (hcol : ∀ i, columnL inv1? eps (gammaOf (tpr x) (tmr x)) (gammaL (tpr x) (tmr x) tpr' tmr')
      (fun i => nu x i ^ 2) (V x) i = some (nu' i, fun j => V' j i))
    (h : ∀ᶠ y in 𝓝 x, calcRT Real.exp inv? (ltau y) (modes (tpr y) (nu y) (V y)) = some (o y))
    (hg : calcRTL inv? (ltau x) ltau' (modes (tpr x) (nu x) (V x)) (modesL (tpr x) tpr' (nu x) nu' (V x) V') (o x) =
      some g) :
    MD (fun y => (o y).R) g.1 x ∧ MD (fun y => (o y).T) g.2 x := by
  have dg : MD (fun y => gammaOf (tpr y) (tmr y)) (gammaL (tpr x) (tmr x) tpr' tmr') x :=
    (htm.mul htp).congr (by unfold gammaL; rw [add_comm])
  have key : ∀ i, HasDerivAt (fun y => nu y i) (nu' i) x ∧ ∀ j, HasDerivAt (fun y => V y j i) (V' j i) x := by
    intro i
    have hi := hcol i
    unfold columnL at hi
    split_ifs at hi with ht
    · simp only [Option.some.injEq, Prod.mk.injEq] at hi
      obtain ⟨e1, e2⟩ := hi
      obtain ⟨d1, d2⟩ := htriv i ht
      exact ⟨e1 ▸ d1, fun j => (d2 j).congr_deriv (congrFun e2 j)⟩
    · obtain ⟨c, hc⟩ := hlen i
      rw [Real.sqrt_sq (h0 i).le] at hi
      exact eigen_deriv hex1 (v := fun y j => V y j i) (nu := fun y => nu y i) dg (fun j => hV j i) (hnu i)
        (hE.mono fun y hy => by
          funext j
          have e := congrFun (congrFun hy j) i
          rw [mul_diagonal] at e
          rw [Pi.smul_apply, smul_eq_mul, mul_comm, ← e]
          rfl) c hc hi
  exact rt_deriv exp_real hex (modes_deriv htp (fun i j => (key j).2 i) (fun i => (key i).1)
    fun i => (h0 i).ne') hl h hg

/-- Such a curve: one direction, `gamma = y`. -/
example : ∃ (o : ℝ → RT 1 ℝ) (g : M 1 × M 1),
    MD (fun y => (o y).R) g.1 1 ∧ MD (fun y => (o y).T) g.2 1 := by
  have hE : ∀ᶠ y : ℝ in 𝓝 1, gammaOf (num (-2)) (num (-y / 2)) * (1 : M 1) =
      1 * diagonal fun _ => Real.sqrt y ^ 2 := by
    filter_upwards [lt_mem_nhds (show (0:ℝ) < 1 by norm_num)] with y hy
    rw [Matrix.mul_one, Matrix.one_mul, Real.sq_sqrt hy.le, gammaOf, num_mul]
    change num _ = num _
    congr 1; ring
  have dtm : MD (fun y : ℝ => num (-y / 2)) (num (-1 / 2)) 1 :=
    MD.diag fun _ => ((hasDerivAt_id (1:ℝ)).neg).div_const 2
  have dtp : MD (fun _ : ℝ => num (-2)) 0 1 := fun i j => hasDerivAt_const _ _
  have dnu : ∀ i : Fin 1, HasDerivAt (fun y : ℝ => (fun _ : Fin 1 => Real.sqrt y) i) (1 / (2 * Real.sqrt 1)) 1 :=
    fun _ => Real.hasDerivAt_sqrt one_ne_zero
  have hx := hE.self_of_nhds
  obtain ⟨r, hr⟩ := C50_eigen_simple (inverseK_exact (K := ℝ)) (gammaOf (num (-2)) (num (-1 / 2)))
    (gammaL (num (-2)) (num (-1 / 2)) 0 (num (-1 / 2))) 1 (fun _ : Fin 1 => Real.sqrt 1) (by simp) hx 0 (by simp)
    (fun j hj => absurd (Subsingleton.elim j 0) hj) (by simp)
  have hmod : modes (num (-2)) (fun _ => Real.sqrt 1) 1 = modes (num (-2)) (fun _ => 1) 1 := by
    rw [Real.sqrt_one]
  obtain ⟨o1, ho1⟩ := demo_solver 2 (by norm_num)
  have ho1 : calcRT Real.exp inverseK 2 (modes (num (-2)) (fun _ => Real.sqrt 1) 1) = some o1 := by
    rw [hmod, ← ho1]
    unfold solver
    simp only [demo_tpr]
    rfl
  have dm := C50_modes_deriv (x := 1) (fun _ : ℝ => num (-2)) (fun _ => (1 : M 1)) 0 0 (fun y _ => Real.sqrt y)
    (fun _ => 1 / (2 * Real.sqrt 1)) dtp (fun i j => hasDerivAt_const _ _) dnu (fun _ => by simp)
  obtain ⟨o, ho⟩ := (C50_near exp_real inverseK_exact (fun _ => 2) 0 _ _ o1 dm (hasDerivAt_const _ _) ho1).choice
  have h1 := ho.self_of_nhds
  have ⟨g, hg⟩ : ∃ g, calcRTL inverseK 2 0 (modes (num (-2)) (fun _ => Real.sqrt 1) 1)
      (modesL (num (-2)) 0 (fun _ => Real.sqrt 1) (fun _ => r.1) 1 (fun j _ => r.2 j)) (o 1) = some g := C50_together _ _ _ _ _ h1
  refine ⟨o, g, C50_grad_partial inverseK_exact inverseK_exact (1 / 1000) (fun _ => num (-2)) (fun y => num (-y / 2))
    (fun _ => 1) 0 (num (-1 / 2)) (fun j _ => r.2 j) (fun y _ => Real.sqrt y) (fun _ => r.1) (fun _ => 2) 0 o g dtp dtm
    (hasDerivAt_const _ _) (fun i j => differentiableAt_const _) (fun i => (dnu i).differentiableAt)
    (fun i => by simp) hE (fun i => ⟨1, Eventually.of_forall fun y => ?_⟩) (fun i h => ?_) (fun i => ?_) ho hg⟩
  · have hi : i = 0 := Subsingleton.elim _ _
    subst hi
    simp
  · simp [isTrivial] at h
  · have hi : i = 0 := Subsingleton.elim _ _
    subst hi
    unfold columnL
    rw [if_neg (by simp [isTrivial]), Real.sqrt_sq (Real.sqrt_nonneg 1)]
    exact hr

/-! ## Eigenvectors with a single component -/

section trivial

/-- Two directions of which the second is only looked at: it has no weight. -/
noncomputable def vMu : Source.V 2 := fun i => if i = 0 then 1 / 2 else 1 / 4

def vW : Source.V 2 := fun i => if i = 0 then 1 else 0

/-- The term `y` of the phase matrix, of one sign up and down. -/
def vP (s : Source.V 2) (y : ℝ) : M 2 := fun i j => y * (s i * s j)

/-- The local matrices of a layer that scatters half of the light, of a Fourier
term that is not the first. -/
noncomputable def vX (s : Source.V 2) (y : ℝ) : M 2 × M 2 :=
  let z := localRT false vMu vW (1 / 2) (vP s y) (vP s y)
  txr 1 z.1 z.2

/-- Their derivatives with respect to `y`. -/
noncomputable def vX' (s : Source.V 2) : M 2 × M 2 :=
  let z := localRTL false vMu vW (1 / 2) 0 (vP s 0) (vP s 0) (vP s 1) (vP s 1)
  txr 1 z.1 z.2

theorem vX_fst (s : Source.V 2) (y : ℝ) : (vX s y).1 = !![-2, 0; 0, -4] := by
  funext i j
  fin_cases i <;> fin_cases j <;> simp [vX, txr, localRT, localMat, vMu, vW, vP] <;> ring

theorem vX_snd (s : Source.V 2) (y : ℝ) :
    (vX s y).2 = !![y * s 0 ^ 2 / 2 - 2, 0; y * (s 0 * s 1), -4] := by
  funext i j
  fin_cases i <;> fin_cases j <;> simp [vX, txr, localRT, localMat, vMu, vW, vP] <;> ring

theorem vX'_fst (s : Source.V 2) : (vX' s).1 = 0 := by
  funext i j
  fin_cases i <;> fin_cases j <;> simp [vX', txr, localRTL, localMatL, vMu, vW, vP] <;> ring

noncomputable def vNu (s : Source.V 2) (y : ℝ) : Source.V 2 :=
  fun i => if i = 0 then Real.sqrt (4 - y * s 0 ^ 2) else 4

noncomputable def vV (s : Source.V 2) (y : ℝ) : M 2 :=
  !![1, 0; 2 * y * (s 0 * s 1) / (12 + y * s 0 ^ 2), 1]

theorem vV_zero (s : Source.V 2) : vV s 0 = 1 := by
  funext i j
  fin_cases i <;> fin_cases j <;> simp [vV]

theorem vNu_zero (s : Source.V 2) : vNu s 0 = fun i => if i = 0 then 2 else 4 := by
  have : Real.sqrt 4 = 2 := by rw [show (4:ℝ) = 2 ^ 2 by norm_num, Real.sqrt_sq (by norm_num)]
  funext i
  fin_cases i <;> simp [vNu, this]

theorem vSolved (s : Source.V 2) : ∀ᶠ y in 𝓝 (0 : ℝ),
    Solved false 1 vMu vW (1 / 2) (vP s y) (vP s y) (vNu s y) (vV s y) := by
  have c1 : ContinuousAt (fun y : ℝ => 4 - y * s 0 ^ 2) 0 := by fun_prop
  have c2 : ContinuousAt (fun y : ℝ => 12 + y * s 0 ^ 2) 0 := by fun_prop
  filter_upwards [c1.eventually (lt_mem_nhds (show (0:ℝ) < 4 - 0 * s 0 ^ 2 by norm_num)),
    c2.eventually (lt_mem_nhds (show (0:ℝ) < 12 + 0 * s 0 ^ 2 by norm_num))] with y h1 h2
  refine ⟨by simp [vV, Matrix.det_fin_two], fun i => ?_, ?_⟩
  · fin_cases i
    · simpa [vNu] using (Real.sqrt_pos.2 h1).ne'
    · simp [vNu]
  · change gammaOf (vX s y).1 (vX s y).2 * _ = _
    rw [vX_fst, vX_snd]
    funext i j
    have := h2.ne'
    fin_cases i <;> fin_cases j <;>
      simp [gammaOf, vV, vNu, Matrix.mul_apply, Fin.sum_univ_two, Real.sq_sqrt h1.le]
    · ring
    · field_simp; ring
    · norm_num

theorem vModes (s : Source.V 2) : (modes (vX s 0).1 (vNu s 0) (vV s 0)).Xp = 0 ∧
    (modes (vX s 0).1 (vNu s 0) (vV s 0)).Xm = 1 := by
  rw [vX_fst, vV_zero, vNu_zero]
  constructor
  · funext i j
    fin_cases i <;> fin_cases j <;> norm_num [modes]
  · funext i j
    fin_cases i <;> fin_cases j <;> norm_num [modes]

/-- Where a Fourier term of the phase function vanishes the eigenvectors have a
single component each, and their derivatives with respect to the coefficient of
that term are set to zero.  They are not zero: the linearised `R` is zero though
`R` has a derivative that is not.  For every layer (with one direction of
integration at least). -/
theorem C50_violated_trivial {inv? : M 2 → Option (M 2)} (hex : Eig.Exact inv?)
    {inv1? : Matrix (Fin 2 ⊕ Unit) (Fin 2 ⊕ Unit) ℝ → Option (Matrix (Fin 2 ⊕ Unit) (Fin 2 ⊕ Unit) ℝ)}
    (eps : ℝ) (h0 : 0 ≤ eps) (h1 : eps < 1) (s : Source.V 2) (hs : s 0 ≠ 0) (T : ℝ) (hT : 0 < T) :
    ∃ (nu : ℝ → Source.V 2) (V : ℝ → M 2) (o : ℝ → RT 2 ℝ) (g : M 2 × M 2) (d : ℝ),
      (∀ᶠ y in 𝓝 (0 : ℝ), Solved false 1 vMu vW (1 / 2) (vP s y) (vP s y) (nu y) (V y) ∧
        solver Real.exp inv? false 1 vMu vW (1 / 2) T (vP s y) (vP s y) (nu y) (V y) = some (o y)) ∧
      (∀ i, columnL inv1? eps (gammaOf (vX s 0).1 (vX s 0).2)
        (gammaL (vX s 0).1 (vX s 0).2 (vX' s).1 (vX' s).2) (fun i => nu 0 i ^ 2) (V 0) i = some (0, 0)) ∧
      calcRTL inv? T 0 (modes (vX s 0).1 (nu 0) (V 0)) (modesL (vX s 0).1 (vX' s).1 (nu 0) 0 (V 0) 0) (o 0) =
        some g ∧ g.1 = 0 ∧ HasDerivAt (fun y => (o y).R 0 0) d 0 ∧ d ≠ 0 := by
  obtain ⟨hXp, hXm⟩ := vModes s
  have dnu : ∀ i, HasDerivAt (fun y => vNu s y i) (if i = 0 then -(s 0 ^ 2) / 4 else 0) 0 := by
    intro i
    fin_cases i
    · have hd : HasDerivAt (fun y : ℝ => 4 - y * s 0 ^ 2) (-(s 0 ^ 2)) 0 := by
        have := ((hasDerivAt_id (0:ℝ)).mul_const (s 0 ^ 2)).const_sub 4
        simpa using this
      have e4 : Real.sqrt (4 - 0 * s 0 ^ 2) = 2 := by
        rw [zero_mul, sub_zero, show (4:ℝ) = 2 ^ 2 by norm_num, Real.sqrt_sq (by norm_num)]
      have := hd.sqrt (by norm_num)
      rw [e4] at this
      simp only [vNu]
      refine this.congr_deriv ?_
      norm_num
    · simpa [vNu] using hasDerivAt_const (0:ℝ) (4:ℝ)
  have dV : MD (vV s) !![0, 0; s 0 * s 1 / 6, 0] 0 := by
    intro i j
    fin_cases i <;> fin_cases j
    · simpa [vV] using hasDerivAt_const (0:ℝ) (1:ℝ)
    · simpa [vV] using hasDerivAt_const (0:ℝ) (0:ℝ)
    · have a : HasDerivAt (fun y : ℝ => 2 * y * (s 0 * s 1)) (2 * (s 0 * s 1)) 0 := by
        have := ((hasDerivAt_id (0:ℝ)).const_mul 2).mul_const (s 0 * s 1)
        simpa using this
      have b : HasDerivAt (fun y : ℝ => 12 + y * s 0 ^ 2) (s 0 ^ 2) 0 := by
        have := ((hasDerivAt_id (0:ℝ)).mul_const (s 0 ^ 2)).const_add 12
        simpa using this
      have := a.fun_div b (by norm_num)
      simp only [vV]
      refine this.congr_deriv ?_
      simp; ring
    · simpa [vV] using hasDerivAt_const (0:ℝ) (1:ℝ)
  have dt : MD (fun y => (vX s y).1) 0 0 := by
    intro i j
    simp only [vX_fst]
    exact hasDerivAt_const _ _
  have hnu0 : ∀ i, vNu s 0 i ≠ 0 := by
    intro i; rw [vNu_zero]; fin_cases i <;> simp
  have dm := C50_modes_deriv (fun y => (vX s y).1) (vV s) 0 _ (vNu s) _ dt dV dnu hnu0
  obtain ⟨o1, ho1, -⟩ := clear_deriv (ex := Real.exp) (ltau := T) (ltau' := 0) hex hXp hXm
    (m' := modesL (vX s 0).1 0 (vNu s 0) 0 (vV s 0) 0)
  have hsome := C50_near exp_real hex (fun _ => T) 0 _ _ o1 dm (hasDerivAt_const _ _) ho1
  obtain ⟨o, ho⟩ := hsome.choice
  have hox := ho.self_of_nhds
  have code := clear_deriv (ex := Real.exp) (ltau := T) (ltau' := 0) hex hXp hXm
    (m' := modesL (vX s 0).1 (vX' s).1 (vNu s 0) 0 (vV s 0) 0)
  obtain ⟨o2, ho2, g, hg, eg⟩ := code
  have e2 : o2 = o 0 := Option.some.inj (ho2.symm.trans hox)
  obtain ⟨o3, ho3, t, ht, et⟩ := clear_deriv (ex := Real.exp) (ltau := T) (ltau' := 0) hex hXp hXm
    (m' := modesL (vX s 0).1 0 (vNu s 0) (fun i => if i = 0 then -(s 0 ^ 2) / 4 else 0) (vV s 0)
      !![0, 0; s 0 * s 1 / 6, 0])
  have e3 : o3 = o 0 := Option.some.inj (ho3.symm.trans hox)
  rw [e2] at hg
  rw [e3] at ht
  refine ⟨vNu s, vV s, o, g, t.1 0 0, (vSolved s).and ho, fun i => ?_, hg, ?_, ?_, ?_⟩
  · unfold columnL
    rw [if_pos]
    rw [vV_zero]
    have : ∀ i : Fin 2, (Finset.univ.filter fun j => eps < |(1 : M 2) j i|) = {i} := by
      intro i; ext j
      rw [Finset.mem_filter, Finset.mem_singleton, Matrix.one_apply]
      by_cases hji : j = i
      · simpa [hji] using h1
      · simpa [hji] using h0
    simp [isTrivial, this]
  · have z : (modesL (vX s 0).1 (vX' s).1 (vNu s 0) 0 (vV s 0) 0).Xp = 0 := by
      rw [vX'_fst]; funext i j; simp [modesL]
    rw [eg, z]; simp
  · exact (C50_rt_deriv exp_real hex (fun _ => T) 0 _ _ o t dm (hasDerivAt_const _ _) ho ht).1 0 0
  · rw [et]
    have z : (modesL (vX s 0).1 0 (vNu s 0) (fun i => if i = 0 then -(s 0 ^ 2) / 4 else 0) (vV s 0)
        !![0, 0; s 0 * s 1 / 6, 0]).Xp 0 0 = -(s 0 ^ 2) / 16 := by
      rw [vX_fst, vV_zero, vNu_zero]
      simp [modesL, Matrix.mul_apply, Fin.sum_univ_two]; ring
    have nu0 : (modes (vX s 0).1 (vNu s 0) (vV s 0)).nu 0 = 2 := by
      change vNu s 0 0 = 2
      rw [vNu_zero]; simp
    rw [Matrix.sub_apply, diagonal_mul, mul_diagonal, z, nu0]
    have hlt : Real.exp (-2 * T) < 1 := by rw [← Real.exp_zero]; exact Real.exp_lt_exp.2 (by linarith)
    have hpos := Real.exp_pos (-2 * T)
    have : Real.exp (-2 * T) * (-(s 0 ^ 2) / 16 * Real.exp (-2 * T)) - -(s 0 ^ 2) / 16 =
        s 0 ^ 2 / 16 * (1 - Real.exp (-2 * T) ^ 2) := by ring
    rw [this]
    have h2 : 0 < 1 - Real.exp (-2 * T) ^ 2 := by nlinarith
    have h3 : 0 < s 0 ^ 2 := by positivity
    positivity

end trivial

end Xrtm.Eig
