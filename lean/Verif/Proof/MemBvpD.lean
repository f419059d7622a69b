import Verif.Proof.MemBvpStack

/-! Derivatives of the matrix exponential solver. -/

namespace Xrtm.MemBvp
open Matrix Filter Topology Xrtm.Eig Xrtm.Bvp

variable {n : Nat} {K : Type} [RCLike K] {ex : K → K} {x : ℝ}
  {inv? : {N : Nat} → Matrix (Fin N) (Fin N) K → Option (Matrix (Fin N) (Fin N) K)}

/-- The inputs along a curve with the derivatives `d`. -/
structure InpDeriv (z : ℝ → Inp n K) (d : Inp n K) (x : ℝ) : Prop where
  L : ∀ y, (z y).L = (z x).L
  ns : ∀ y, (z y).ns = (z x).ns
  F0 : ∀ y, (z y).F0 = (z x).F0
  qx : ∀ y, (z y).qx = (z x).qx
  surface : ∀ y, (z y).surface = (z x).surface
  m : ∀ i, i < (z x).L → ModesDeriv (fun y => (z y).m i) (d.m i) x
  omega : ∀ i, i < (z x).L → HasDerivAt (fun y => (z y).omega i) (d.omega i) x
  ltau : ∀ i, i < (z x).L → HasDerivAt (fun y => (z y).ltau i) (d.ltau i) x
  btau : ∀ i, i ≤ (z x).L → HasDerivAt (fun y => (z y).btau i) (d.btau i) x
  btran : ∀ y i, i ≤ (z x).L → (z y).btran i = Real.exp (-(z y).btau i)
  P0mm : ∀ i, i < (z x).L → ∀ j, HasDerivAt (fun y => (z y).P0mm i j) (d.P0mm i j) x
  P0pm : ∀ i, i < (z x).L → ∀ j, HasDerivAt (fun y => (z y).P0pm i j) (d.P0pm i j) x
  Rs : ∀ i j, HasDerivAt (fun y => (z y).Rs i j) (d.Rs i j) x
  Inp : ∀ i, HasDerivAt (fun y => (z y).Inp i) (d.Inp i) x

/-- What has no flag has no derivative; a layer that varies, varies the beam. -/
structure Honest (L : Nat) (fl : Flags) (d : Inp n K) : Prop where
  modes : ∀ i, i < L → fl.lay i = false → d.m i = ⟨0, 0, 0⟩
  omega : ∀ i, i < L → fl.lay i = false → d.omega i = 0
  ltau : ∀ i, i < L → fl.lay i = false → d.ltau i = 0
  P0mm : ∀ i, i < L → fl.lay i = false → d.P0mm i = 0
  P0pm : ∀ i, i < L → fl.lay i = false → d.P0pm i = 0
  btau : ∀ i, i < L → fl.beam i = false → d.btau i = 0 ∧ d.btau (i + 1) = 0
  both : ∀ i, i < L → fl.lay i = true → fl.beam i = true
  Rs : fl.lay L = false → d.Rs = 0

variable {z : ℝ → Inp n K} {d : Inp n K} {fl : Flags}

theorem on_eq (c : Bool) {a : K} (h : c = false → a = 0) : on c a = a := by
  unfold on; cases c
  · simp [h rfl]
  · simp

/-! ### The pieces -/

theorem inv_deriv (hex : ExactAll inv?) (hz : InpDeriv z d x) (hs : ∀ᶠ y in 𝓝 x, Safe (z y) inv?) {i : Nat}
    (hi' : i < (z x).L) :
    MD (fun y => (inverses (z y) inv?).a i) (-(invL (inverses (z x) inv?) d i).1) x ∧
    MD (fun y => (inverses (z y) inv?).b i) (-(invL (inverses (z x) inv?) d i).2) x := by
  have hx := inverses_ok hex hs.self_of_nhds hi'
  have hm := hz.m i hi'
  have hone : MD (fun _ : ℝ => (1 : Matrix (Fin n) (Fin n) K)) 0 x := fun i j => by
    simpa using hasDerivAt_const x ((1 : Matrix (Fin n) (Fin n) K) i j)
  constructor
  · refine (MD.solve hone (hm.Xp.sub hm.Xm) hx.1 ?_).congr ?_
    · filter_upwards [hs] with y hy
      exact mul_eq_one_comm.1 (inverses_ok hex hy (by rw [hz.L]; exact hi')).1
    · unfold invL; simp only [zero_sub, neg_mul]
  · refine (MD.solve hone (hm.Xp.add hm.Xm) hx.2 ?_).congr ?_
    · filter_upwards [hs] with y hy
      exact mul_eq_one_comm.1 (inverses_ok hex hy (by rw [hz.L]; exact hi')).2
    · unfold invL; simp only [zero_sub, neg_mul]

theorem MD_smul {A : ℝ → Matrix (Fin n) (Fin n) K} {A' : Matrix (Fin n) (Fin n) K} (c : K) (h : MD A A' x) :
    MD (fun y => c • A y) (c • A') x := fun i j => by
  simpa only [Matrix.smul_apply, smul_eq_mul] using (h i j).const_mul c

theorem x_deriv (hex : ExactAll inv?) (hz : InpDeriv z d x) (hs : ∀ᶠ y in 𝓝 x, Safe (z y) inv?) {i : Nat}
    (hi' : i < (z x).L) :
    MD (fun y => x11 (inverses (z y) inv?) i) (x11L (inverses (z x) inv?) d i) x ∧
    MD (fun y => x12 (inverses (z y) inv?) i) (x12L (inverses (z x) inv?) d i) x := by
  obtain ⟨h1, h2⟩ := inv_deriv hex hz hs hi'
  constructor
  · refine (MD_smul (1 / 2 : K) (h1.add h2)).congr ?_
    unfold x11L; module
  · refine (MD_smul (1 / 2 : K) (h1.sub h2)).congr ?_
    unfold x12L; module

theorem MV {A : ℝ → Matrix (Fin n) (Fin n) K} {A' : Matrix (Fin n) (Fin n) K} {f : ℝ → Fin n → K} {f' : Fin n → K}
    (hA : MD A A' x) (hf : ∀ k, HasDerivAt (fun y => f y k) (f' k) x) (j : Fin n) :
    HasDerivAt (fun y => (A y *ᵥ f y) j) ((A' *ᵥ f x) j + (A x *ᵥ f') j) x := by
  simp only [mulVec, dotProduct, ← Finset.sum_add_distrib]
  exact HasDerivAt.fun_sum fun k _ => (hA j k).fun_mul (hf k)

theorem alpha_deriv (he : IsExp ex) (hz : InpDeriv z d x) {i : Nat} (hi' : i < (z x).L) (j : Fin n) :
    HasDerivAt (fun y => alpha ex (z y) i j) (alphaL ex (z x) d i j) x := by
  unfold alpha alphaL
  have h1 := ((hz.m i hi').nu j).fun_neg.fun_mul (cast_hasDeriv (K := K) (hz.ltau i hi'))
  refine (he.along h1).congr_deriv ?_
  unfold alpha; ring

theorem btran_deriv (hz : InpDeriv z d x) {i : Nat} (hi' : i ≤ (z x).L) :
    HasDerivAt (fun y => (((z y).btran i : ℝ) : K)) (-(d.btau i : K) * ((z x).btran i : K)) x := by
  have h1 := cast_hasDeriv (K := K) (hz.btau i hi').fun_neg.exp
  have e : (fun y => (((z y).btran i : ℝ) : K)) = fun y => ((Real.exp (-(z y).btau i) : ℝ) : K) := by
    funext y; rw [hz.btran y i hi']
  rw [e, hz.btran x i hi']
  refine h1.congr_deriv ?_
  push_cast; ring

theorem quotient {F : Type} [Field F] {D : F} (h : D ≠ 0) (p q s : F) :
    (p * D - q * s) / D ^ 2 = (p - q / D * s) / D := by
  field_simp

theorem rate_eq (hh : Honest (z x).L fl d) {i : Nat} (hi' : i < (z x).L) (j : Fin n) :
    rateL (z x) d fl i j = ((z x).m i).nu j * (d.ltau i : K) + (d.m i).nu j * ((z x).ltau i : K) := by
  unfold rateL
  rw [on_eq _ fun h => by rw [hh.modes i hi' h]; simp]

theorem den_deriv (hz : InpDeriv z d x) {i : Nat} (hi' : i < (z x).L) (j : Fin n) :
    HasDerivAt (fun y => den1 (z y) i j) ((d.btau (i + 1) : K) - (d.btau i : K) -
      (((z x).m i).nu j * (d.ltau i : K) + (d.m i).nu j * ((z x).ltau i : K))) x ∧
    HasDerivAt (fun y => den2 (z y) i j) ((d.btau i : K) - (d.btau (i + 1) : K) -
      (((z x).m i).nu j * (d.ltau i : K) + (d.m i).nu j * ((z x).ltau i : K))) x := by
  have b0 := cast_hasDeriv (K := K) (hz.btau i hi'.le)
  have b1 := cast_hasDeriv (K := K) (hz.btau (i + 1) hi')
  have r := ((hz.m i hi').nu j).fun_mul (cast_hasDeriv (K := K) (hz.ltau i hi'))
  unfold den1 den2
  exact ⟨((b1.fun_sub b0).fun_sub r).congr_deriv (by ring), ((b0.fun_sub b1).fun_sub r).congr_deriv (by ring)⟩

theorem beta_deriv (he : IsExp ex) (hz : InpDeriv z d x) (hh : Honest (z x).L fl d) (hs : Safe (z x) inv?) {i : Nat}
    (hi' : i < (z x).L) (j : Fin n) :
    HasDerivAt (fun y => beta1 ex (z y) i j) (beta1L ex (z x) d fl i j) x ∧
    HasDerivAt (fun y => beta2 ex (z y) i j) (beta2L ex (z x) d fl i j) x := by
  obtain ⟨n1, n2⟩ := (hs i hi').2.2 j
  obtain ⟨d1, d2⟩ := den_deriv hz hi' j
  have t0 := btran_deriv (K := K) hz hi'.le
  have t1 := btran_deriv (K := K) hz (i := i + 1) hi'
  have a := alpha_deriv he hz hi' j
  unfold beta1 beta2 beta1L beta2L
  dsimp only
  rw [rate_eq hh hi']
  constructor
  · refine (((t0.fun_mul a).fun_sub t1).fun_div d1 n1).congr_deriv ?_
    rw [quotient n1]
    unfold beta1 alphaL
    ring
  · refine (((t1.fun_mul a).fun_sub t0).fun_div d2 n2).congr_deriv ?_
    rw [quotient n2]
    unfold beta2 alphaL
    ring

theorem sig_deriv (hz : InpDeriv z d x) {i : Nat} (hi' : i < (z x).L) (j : Fin n) :
    HasDerivAt (fun y => (up (sigP (z y) i) j : K)) (up (sigPL (z x) d i) j) x ∧
    HasDerivAt (fun y => (up (sigM (z y) i) j : K)) (up (sigML (z x) d i) j) x := by
  have sc : HasDerivAt (fun y => scat (z y) i j) (scatL (z x) d i j) x := by
    unfold scat scatL
    simp only [hz.F0, hz.qx]
    have h1 := (((hz.omega i hi').const_mul ((z x).F0 / (4 * Real.pi))).fun_mul (hz.ltau i hi')).div_const ((z x).qx j)
    exact h1.congr_deriv (by ring)
  constructor
  · refine cast_hasDeriv (K := K) ?_
    unfold sigP sigPL
    exact (sc.fun_mul (hz.P0pm i hi' j)).congr_deriv (by ring)
  · refine cast_hasDeriv (K := K) ?_
    unfold sigM sigML
    dsimp only
    simp only [hz.ns]
    have h1 := (sc.fun_neg.fun_mul (hz.P0mm i hi' j)).congr_deriv
      (g' := -scatL (z x) d i j * (z x).P0mm i j + -scat (z x) i j * d.P0mm i j) (by ring)
    split_ifs
    · exact h1.fun_neg
    · exact h1

theorem vcd_deriv (hex : ExactAll inv?) (hz : InpDeriv z d x) (hs : ∀ᶠ y in 𝓝 x, Safe (z y) inv?) {i : Nat}
    (hi' : i < (z x).L) (j : Fin n) :
    HasDerivAt (fun y => vc (z y) (inverses (z y) inv?) i j) (vcL (z x) (inverses (z x) inv?) d i j) x ∧
    HasDerivAt (fun y => vd (z y) (inverses (z y) inv?) i j) (vdL (z x) (inverses (z x) inv?) d i j) x := by
  obtain ⟨h1, h2⟩ := x_deriv hex hz hs hi'
  have sp := fun k => (sig_deriv hz hi' k).1
  have sm := fun k => (sig_deriv hz hi' k).2
  unfold vc vd vcL vdL
  simp only [Pi.add_apply]
  exact ⟨((MV h1 sp j).fun_add (MV h2 sm j)).congr_deriv (by ring),
    ((MV h1 sm j).fun_add (MV h2 sp j)).congr_deriv (by ring)⟩

theorem lohi_deriv (hex : ExactAll inv?) (hz : InpDeriv z d x) (hs : ∀ᶠ y in 𝓝 x, Safe (z y) inv?) {i : Nat}
    (hi' : i < (z x).L) {p m : ℝ → Fin n → K} {p' m' : Fin n → K} (hp : ∀ k, HasDerivAt (fun y => p y k) (p' k) x)
    (hm : ∀ k, HasDerivAt (fun y => m y k) (m' k) x) (j : Fin n) :
    let v := inverses (z x) inv?
    HasDerivAt (fun y => lo (inverses (z y) inv?) (p y) (m y) i j)
      (lo v p' m' i j + ((x11L v d i *ᵥ p x) j + (x12L v d i *ᵥ m x) j)) x ∧
    HasDerivAt (fun y => hi (inverses (z y) inv?) (p y) (m y) i j)
      (hi v p' m' i j + ((x12L v d i *ᵥ p x) j + (x11L v d i *ᵥ m x) j)) x := by
  obtain ⟨h1, h2⟩ := x_deriv hex hz hs hi'
  unfold lo hi
  simp only [Pi.add_apply]
  exact ⟨((MV h1 hp j).fun_add (MV h2 hm j)).congr_deriv (by ring),
    ((MV h2 hp j).fun_add (MV h1 hm j)).congr_deriv (by ring)⟩

theorem refl_deriv (hz : InpDeriv z d x) {g : ℝ → Fin n → K} {g' : Fin n → K}
    (hg : ∀ l, HasDerivAt (fun y => g y l) (g' l) x) (j : Fin n) :
    HasDerivAt (fun y => refl (z y) (g y) j)
      (refl (z x) g' j + on (z x).surface (∑ l, (d.Rs j l : K) * g x l)) x := by
  unfold refl on
  simp only [hz.surface]
  split_ifs
  · rw [← Finset.sum_add_distrib]
    exact HasDerivAt.fun_sum fun l _ => ((cast_hasDeriv (hz.Rs j l)).fun_mul (hg l)).congr_deriv (by ring)
  · simpa using hasDerivAt_const x (0 : K)

/-! ### Flags that are not set -/

theorem off_lay (hh : Honest (z x).L fl d) {i : Nat} (hi' : i < (z x).L) (h : fl.lay i = false) (v : Inv n K) :
    x11L v d i = 0 ∧ x12L v d i = 0 ∧ vcL (z x) v d i = 0 ∧ vdL (z x) v d i = 0 ∧
      ∀ j, alphaL ex (z x) d i j = 0 := by
  have hm := hh.modes i hi' h
  have a : x11L v d i = 0 := by unfold x11L invL; simp [hm]
  have b : x12L v d i = 0 := by unfold x12L invL; simp [hm]
  have s : ∀ j, scatL (z x) d i j = 0 := fun j => by unfold scatL; simp [hh.omega i hi' h, hh.ltau i hi' h]
  have p : up (sigPL (z x) d i) = (0 : Fin n → K) := by
    funext j; unfold up sigPL; simp [s j, hh.P0pm i hi' h]
  have q : up (sigML (z x) d i) = (0 : Fin n → K) := by
    funext j; unfold up sigML; simp [s j, hh.P0mm i hi' h]
  refine ⟨a, b, ?_, ?_, fun j => ?_⟩
  · unfold vcL; simp [a, b, p, q]
  · unfold vdL; simp [a, b, p, q]
  · unfold alphaL; simp [hm, hh.ltau i hi' h]

theorem off_beam (hh : Honest (z x).L fl d) {i : Nat} (hi' : i < (z x).L) (h : fl.beam i = false) (j : Fin n) :
    beta1L ex (z x) d fl i j = 0 ∧ beta2L ex (z x) d fl i j = 0 := by
  have hl : fl.lay i = false := by
    cases hl : fl.lay i
    · rfl
    · rw [hh.both i hi' hl] at h; cases h
  obtain ⟨b0, b1⟩ := hh.btau i hi' h
  have r : rateL (z x) d fl i j = 0 := by
    rw [rate_eq hh hi', hh.modes i hi' hl, hh.ltau i hi' hl]; simp
  unfold beta1L beta2L
  simp [r, b0, b1]

/-- The linearised rows. -/
theorem upL_eq (hh : Honest (z x).L fl d) {i : Nat} (hi' : i < (z x).L) (v : Inv n K) (B : Nat → K) (j : Fin n) :
    upL ex (z x) v d fl B i j = beta1L ex (z x) d fl i j * vc (z x) v i j + beta1 ex (z x) i j * vcL (z x) v d i j -
      (alphaL ex (z x) d i j * lo v (at_ B i).1 (at_ B i).2 i j +
        alpha ex (z x) i j * ((x11L v d i *ᵥ (at_ B i).1) j + (x12L v d i *ᵥ (at_ B i).2) j)) +
      ((x11L v d i *ᵥ (at_ B (i + 1)).1) j + (x12L v d i *ᵥ (at_ B (i + 1)).2) j) := by
  unfold upL
  dsimp only
  rw [on_eq (fl.lay i) fun h => ?_, on_eq (fl.beam i) fun h => ?_, on_eq (fl.lay i) fun h => ?_]
  · unfold vc lo; simp only [Pi.add_apply]; ring
  · rw [(off_lay (ex := ex) hh hi' h v).2.2.1]; simp
  · rw [(off_beam hh hi' h j).1, zero_mul]
  · obtain ⟨a, b, -, -, c⟩ := off_lay (ex := ex) hh hi' h v
    rw [a, b, c]; simp

theorem dnL_eq (hh : Honest (z x).L fl d) {i : Nat} (hi' : i < (z x).L) (v : Inv n K) (B : Nat → K) (j : Fin n) :
    dnL ex (z x) v d fl B i j = -(beta2L ex (z x) d fl i j * vd (z x) v i j + beta2 ex (z x) i j * vdL (z x) v d i j) -
      (alphaL ex (z x) d i j * hi v (at_ B (i + 1)).1 (at_ B (i + 1)).2 i j +
        alpha ex (z x) i j * ((x12L v d i *ᵥ (at_ B (i + 1)).1) j + (x11L v d i *ᵥ (at_ B (i + 1)).2) j)) +
      ((x12L v d i *ᵥ (at_ B i).1) j + (x11L v d i *ᵥ (at_ B i).2) j) := by
  unfold dnL
  dsimp only
  rw [on_eq (fl.lay i) fun h => ?_, on_eq (fl.beam i) fun h => ?_, on_eq (fl.lay i) fun h => ?_]
  · unfold vd hi; simp only [Pi.add_apply]; ring
  · rw [(off_lay (ex := ex) hh hi' h v).2.2.2.1]; simp
  · rw [(off_beam hh hi' h j).2, zero_mul]
  · obtain ⟨a, b, -, -, c⟩ := off_lay (ex := ex) hh hi' h v
    rw [a, b, c]; simp

/-! ### The unknowns -/

theorem tab_diff (he : IsExp ex) (hex : ExactAll inv?) (hz : InpDeriv z d x) (hs : ∀ᶠ y in 𝓝 x, Safe (z y) inv?)
    (I J : Nat) (hI : I < 2 * ((z x).L + 1)) (j k : Fin n) :
    DifferentiableAt ℝ (fun y => tab ex (z y) (inverses (z y) inv?) I J j k) x := by
  have h1 := fun {i} (hi' : i < (z x).L) => ((x_deriv hex hz hs hi').1 j k).differentiableAt
  have h2 := fun {i} (hi' : i < (z x).L) => ((x_deriv hex hz hs hi').2 j k).differentiableAt
  have a := fun {i} (hi' : i < (z x).L) => (alpha_deriv he hz hi' j).differentiableAt
  unfold tab
  simp only [hz.L, hz.surface]
  split_ifs
  · exact (cast_hasDeriv (hz.Rs j k)).differentiableAt.fun_neg
  all_goals first
    | exact differentiableAt_const _
    | exact (h2 (by omega)).fun_neg
    | exact (h1 (by omega)).fun_neg
    | exact (a (by omega)).fun_mul (h2 (by omega))
    | exact (a (by omega)).fun_mul (h1 (by omega))

theorem read_diff (he : IsExp ex) (hex : ExactAll inv?) (hz : InpDeriv z d x) (hs : ∀ᶠ y in 𝓝 x, Safe (z y) inv?)
    (r c : Fin (nComp (z x))) :
    DifferentiableAt ℝ (fun y => (system ex (z y) (inverses (z y) inv?)).read (nDiags n) (nComp (z x)) r c) x := by
  obtain ⟨I, hI, j, hr⟩ := split_index (L := (z x).L + 1) rfl r
  obtain ⟨J, hJ, k, hc⟩ := split_index (L := (z x).L + 1) rfl c
  unfold Band.read
  split_ifs
  · have : (fun y => (system ex (z y) (inverses (z y) inv?)).A c.val
        (nDiags n + nDiags n + ((r.val : Nat) : Int) - ((c.val : Nat) : Int))) =
        fun y => tab ex (z y) (inverses (z y) inv?) I J j k := by
      funext y
      rw [← system_blk ex (z y) _ I J (by rw [hz.L]; exact hI)]
      unfold blk
      rw [hr, hc]
    rw [this]
    exact tab_diff he hex hz hs I J hI j k
  · exact differentiableAt_const _

theorem rhs_diff (he : IsExp ex) (hex : ExactAll inv?) (hz : InpDeriv z d x) (hh : Honest (z x).L fl d)
    (hs : ∀ᶠ y in 𝓝 x, Safe (z y) inv?) (B0 : ℝ → Nat → K) (r : Fin (nComp (z x))) :
    DifferentiableAt ℝ (fun y => rhs ex (z y) (inverses (z y) inv?) (B0 y) r.val) x := by
  obtain ⟨I, hI, j, hr⟩ := split_index (L := (z x).L + 1) rfl r
  rw [hr]
  have row := fun y => rhs_row ex (z y) (inverses (z y) inv?) (B0 y) j
  rcases kinds hI with rfl | ⟨i, hi', rfl⟩ | ⟨i, hi', rfl⟩ | hI'
  · simp only [Nat.zero_mul, Nat.zero_add]
    simp only [fun y => (row y).1]
    exact differentiableAt_const _
  · simp only [fun y => (row y).2.1 i (by rw [hz.L]; omega)]
    exact (beta_deriv he hz hh hs.self_of_nhds (by omega) j).1.differentiableAt.fun_mul
      (vcd_deriv hex hz hs (by omega) j).1.differentiableAt
  · simp only [fun y => (row y).2.2.1 i (by rw [hz.L]; omega)]
    exact ((beta_deriv he hz hh hs.self_of_nhds (by omega) j).2.differentiableAt.fun_mul
      (vcd_deriv hex hz hs (by omega) j).2.differentiableAt).fun_neg
  · have e : I = 2 * (z x).L + 1 := by omega
    subst e
    have : (fun y => rhs ex (z y) (inverses (z y) inv?) (B0 y) ((2 * (z x).L + 1) * n + j.val)) =
        fun y => ((z y).Inp j : K) := by
      funext y
      have := (row y).2.2.2
      rw [hz.L y] at this
      exact this
    rw [this]
    exact (cast_hasDeriv (hz.Inp j)).differentiableAt

theorem rows_iff' (ex : K → K) (z : Inp n K) (v : Inv n K) {N : Nat} (hN : N = nComp z) (B0 B : Nat → K)
    (hm : Meets ex z v B) :
    ((system ex z v).read (nDiags n) N *ᵥ fun c => B c.val) = (fun c => rhs ex z v B0 c.val) := by
  subst hN
  exact (meets_iff ex z v B0 B).2 hm

theorem found_diff (he : IsExp ex) (hex : ExactAll inv?) (hz : InpDeriv z d x) (hh : Honest (z x).L fl d)
    {B0 B : ℝ → Nat → K} (h : ∀ᶠ y in 𝓝 x, solve ex (z y) inv? (B0 y) = some (B y)) (r : Nat)
    (hr : r < nComp (z x)) : DifferentiableAt ℝ (fun y => B y r) x := by
  have hx := h.self_of_nhds
  have hs : ∀ᶠ y in 𝓝 x, Safe (z y) inv? := h.mono fun y hy => solve_safe hy
  rw [solve_eq (solve_safe hx)] at hx
  cases hi : inv? ((system ex (z x) (inverses (z x) inv?)).read (nDiags n) (nComp (z x))) with
  | none => simp [hi] at hx
  | some X =>
    have hX := (hex _ _ _).1 hi
    refine vec_solve_diff (A := fun y => (system ex (z y) (inverses (z y) inv?)).read (nDiags n) (nComp (z x)))
      (b := fun y c => B y c.val) (R := fun y c => rhs ex (z y) (inverses (z y) inv?) (B0 y) c.val)
      (fun i j => read_diff he hex hz hs i j) (fun i => rhs_diff he hex hz hh hs B0 i) (det_ne_of hX) ?_ ⟨r, hr⟩
    filter_upwards [h] with y hy
    exact rows_iff' ex (z y) _ (by unfold nComp; rw [hz.L y]) (B0 y) (B y) (solve_meets hex hy).1

theorem at_deriv {B : ℝ → Nat → K} {B' : Nat → K} {w : Inp n K}
    (hB : ∀ r, r < nComp w → HasDerivAt (fun y => B y r) (B' r) x) {lev : Nat} (h : lev ≤ w.L) (k : Fin n) :
    HasDerivAt (fun y => (at_ (n := n) (B y) lev).1 k) ((at_ (n := n) B' lev).1 k) x ∧
    HasDerivAt (fun y => (at_ (n := n) (B y) lev).2 k) ((at_ (n := n) B' lev).2 k) x := by
  have hlt : lev * (n * 2) + k.val + n < nComp w := by
    unfold nComp
    have hk := k.isLt
    have := Nat.mul_le_mul_right (n * 2) h
    nlinarith
  exact ⟨hB _ (by omega), hB _ hlt⟩

/-- The derivatives of the unknowns meet the linearised conditions. -/
theorem meets_deriv (he : IsExp ex) (hex : ExactAll inv?) (hz : InpDeriv z d x) (hh : Honest (z x).L fl d)
    (hs : ∀ᶠ y in 𝓝 x, Safe (z y) inv?) {B : ℝ → Nat → K} {B' : Nat → K}
    (hB : ∀ r, r < nComp (z x) → HasDerivAt (fun y => B y r) (B' r) x)
    (h : ∀ᶠ y in 𝓝 x, Meets ex (z y) (inverses (z y) inv?) (B y)) :
    ((system ex (z x) (inverses (z x) inv?)).read (nDiags n) (nComp (z x)) *ᵥ fun c => B' c.val) =
      (fun c => rhsL ex (z x) (inverses (z x) inv?) d fl (B x) c.val) := by
  have row := rhsL_row ex (z x) (inverses (z x) inv?) d fl (B x)
  have ad := fun {lev} (hl : lev ≤ (z x).L) k => at_deriv hB hl k
  refine (rows_iff ex (z x) _ B' (rhsL ex (z x) (inverses (z x) inv?) d fl (B x))).2
    ⟨fun j => ?_, fun i hi' j => ?_, fun i hi' j => ?_, fun j => ?_⟩
  · rw [(row j).1]
    have e1 := (ad (lev := 0) (by omega) j).2
    have e2 := (hasDerivAt_const x (0 : K)).congr_of_eventuallyEq (h.mono fun y hy => hy.top j)
    exact e1.unique e2
  · rw [(row j).2.1 i hi', upL_eq hh hi']
    have l0 := (lohi_deriv hex hz hs hi' (fun k => (ad (lev := i) hi'.le k).1) (fun k => (ad (lev := i) hi'.le k).2) j).1
    have l1 := (lohi_deriv hex hz hs hi' (fun k => (ad (lev := i + 1) hi' k).1) (fun k => (ad (lev := i + 1) hi' k).2) j).1
    have e1 := ((alpha_deriv he hz hi' j).fun_mul l0).fun_sub l1
    have e2 := (beta_deriv he hz hh hs.self_of_nhds hi' j).1.fun_mul (vcd_deriv hex hz hs hi' j).1
    have e3 := e2.congr_of_eventuallyEq (h.mono fun y hy => hy.up i (by rw [hz.L]; exact hi') j)
    linear_combination e1.unique e3
  · rw [(row j).2.2.1 i hi', dnL_eq hh hi']
    have l0 := (lohi_deriv hex hz hs hi' (fun k => (ad (lev := i) hi'.le k).1) (fun k => (ad (lev := i) hi'.le k).2) j).2
    have l1 := (lohi_deriv hex hz hs hi' (fun k => (ad (lev := i + 1) hi' k).1) (fun k => (ad (lev := i + 1) hi' k).2) j).2
    have e1 := ((alpha_deriv he hz hi' j).fun_mul l1).fun_sub l0
    have e2 := ((beta_deriv he hz hh hs.self_of_nhds hi' j).2.fun_mul (vcd_deriv hex hz hs hi' j).2).fun_neg
    have e3 := e2.congr_of_eventuallyEq (h.mono fun y hy => hy.dn i (by rw [hz.L]; exact hi') j)
    linear_combination e1.unique e3
  · rw [(row j).2.2.2]
    have hg := fun k => (ad (lev := (z x).L) le_rfl k).2
    have e1 := (ad (lev := (z x).L) le_rfl j).1.fun_sub (refl_deriv hz hg j)
    have e3 := (cast_hasDeriv (K := K) (hz.Inp j)).congr_of_eventuallyEq
      (f₁ := fun y => (at_ (n := n) (B y) (z x).L).1 j - refl (z y) (at_ (B y) (z x).L).2 j)
      (h.mono fun y hy => by
        have := hy.bot j
        rw [hz.L y] at this
        exact this)
    have e4 : on ((z x).surface && fl.lay (z x).L) (∑ k : Fin n, (d.Rs j k : K) * (at_ (n := n) (B x) (z x).L).2 k) =
        on (z x).surface (∑ l, (d.Rs j l : K) * (at_ (n := n) (B x) (z x).L).2 l) := by
      rw [on_and, on_eq (fl.lay (z x).L) fun hf => by rw [hh.Rs hf]; simp]
    rw [e4]
    linear_combination e1.unique e3

theorem found_deriv (he : IsExp ex) (hex : ExactAll inv?) (hz : InpDeriv z d x) (hh : Honest (z x).L fl d)
    {B0 B : ℝ → Nat → K} {B' : Nat → K} (h : ∀ᶠ y in 𝓝 x, solve ex (z y) inv? (B0 y) = some (B y))
    (hl : solveL ex (z x) d fl inv? (B x) = some B') (r : Nat) (hr : r < nComp (z x)) :
    HasDerivAt (fun y => B y r) (B' r) x := by
  have hd := found_diff he hex hz hh h
  have hs : ∀ᶠ y in 𝓝 x, Safe (z y) inv? := h.mono fun y hy => solve_safe hy
  have hm := meets_deriv he hex hz hh hs (B' := fun r => deriv (fun y => B y r) x)
    (fun r hr => (hd r hr).hasDerivAt) (h.mono fun y hy => (solve_meets hex hy).1)
  unfold solveL at hl
  dsimp only at hl
  cases hi : inv? ((system ex (z x) (inverses (z x) inv?)).read (nDiags n) (nComp (z x))) with
  | none => simp [hi] at hl
  | some X =>
    simp only [hi] at hl
    have hX := mul_eq_one_comm.1 ((hex _ _ _).1 hi)
    injection hl with hl
    have e : (fun c : Fin (nComp (z x)) => B' c.val) = fun c => deriv (fun y => B y c.val) x := by
      have e1 : (fun c : Fin (nComp (z x)) => B' c.val) =
          X *ᵥ fun c => rhsL ex (z x) (inverses (z x) inv?) d fl (B x) c.val := by
        rw [← hl]; exact solved_eq _ _
      rw [e1, ← hm, mulVec_mulVec, hX, one_mulVec]
    have := congrFun e ⟨r, hr⟩
    simp only at this
    rw [this]
    exact (hd r hr).hasDerivAt

theorem level_deriv {B : ℝ → Nat → K} {B' : Nat → K} {w : Inp n K}
    (hB : ∀ r, r < nComp w → HasDerivAt (fun y => B y r) (B' r) x) (lev : Nat) (h : lev ≤ w.L) (j : Fin n) :
    HasDerivAt (fun y => (level (n := n) (B y) lev).1 j) ((levelL (n := n) B' lev).1 j) x ∧
    HasDerivAt (fun y => (level (n := n) (B y) lev).2 j) ((levelL (n := n) B' lev).2 j) x :=
  ⟨re_deriv (at_deriv hB h j).1, re_deriv (at_deriv hB h j).2⟩

/-! ### Within a layer -/

section tau
variable {t : ℝ → ℝ} {i : Nat}

theorem tau_pieces (he : IsExp ex) (hz : InpDeriv z d x) (hh : Honest (z x).L fl d) (hs : Safe (z x) inv?)
    (hi' : i < (z x).L) (hT : (z x).ltau i ≠ 0) (ht : HasDerivAt t (t x * d.ltau i / (z x).ltau i) x) (j : Fin n) :
    let x' := t x * d.ltau i / (z x).ltau i
    HasDerivAt (fun y => alpha1 ex (z y) i (t y) j) (-((d.m i).nu j * (t x : K) + ((z x).m i).nu j * (x' : K)) *
      alpha1 ex (z x) i (t x) j) x ∧
    HasDerivAt (fun y => alpha2 ex (z y) i (t y) j) (-((d.m i).nu j * (((z x).ltau i - t x : ℝ) : K) +
      ((z x).m i).nu j * ((d.ltau i - x' : ℝ) : K)) * alpha2 ex (z x) i (t x) j) x ∧
    HasDerivAt (fun y => beta1At ex (z y) i (t y) j) (beta1AtL ex (z x) d fl i (t x) x' j) x ∧
    HasDerivAt (fun y => beta2At ex (z y) i (t y) j) (beta2AtL ex (z x) d fl i (t x) x' j) x := by
  intro x'
  obtain ⟨n1, n2⟩ := (hs i hi').2.2 j
  obtain ⟨d1, d2⟩ := den_deriv hz hi' j
  have nu := (hz.m i hi').nu j
  have tk := cast_hasDeriv (K := K) ht
  have Tk := cast_hasDeriv (K := K) (hz.ltau i hi')
  have rk := cast_hasDeriv (K := K) ((hz.ltau i hi').fun_sub ht)
  have b0 := cast_hasDeriv (K := K) (hz.btau i hi'.le)
  have b1 := cast_hasDeriv (K := K) (hz.btau (i + 1) hi')
  have hTk : ((z x).ltau i : K) ≠ 0 := by exact_mod_cast hT
  have beam : HasDerivAt (fun y => beamAt ex (z y) i (t y)) (-beamAtL ex (z x) d i (t x) x') x := by
    unfold beamAt beamAtL
    have q := tk.fun_div Tk hTk
    have h1 := (((q.const_sub 1).fun_mul b0).fun_add (q.fun_mul b1)).fun_neg
    refine (he.along h1).congr_deriv ?_
    unfold beamAt
    generalize ex _ = E
    simp only [x']
    push_cast
    field_simp
    ring
  have cc : on (fl.lay i) ((d.m i).nu j * ((z x).ltau i : K) + ((z x).m i).nu j * (d.ltau i : K)) =
      (d.m i).nu j * ((z x).ltau i : K) + ((z x).m i).nu j * (d.ltau i : K) :=
    on_eq _ fun h => by rw [hh.modes i hi' h, hh.ltau i hi' h]; simp
  have hx0 : fl.lay i = false → x' = 0 := fun h => by simp [x', hh.ltau i hi' h]
  have y1 : on (fl.lay i) ((d.m i).nu j * (t x : K) + ((z x).m i).nu j * (x' : K)) =
      (d.m i).nu j * (t x : K) + ((z x).m i).nu j * (x' : K) :=
    on_eq _ fun h => by rw [hh.modes i hi' h, hx0 h]; simp
  have y2 : on (fl.lay i) ((d.m i).nu j * (((z x).ltau i - t x : ℝ) : K) +
      ((z x).m i).nu j * ((d.ltau i - x' : ℝ) : K)) =
      (d.m i).nu j * (((z x).ltau i - t x : ℝ) : K) + ((z x).m i).nu j * ((d.ltau i - x' : ℝ) : K) :=
    on_eq _ fun h => by rw [hh.modes i hi' h, hx0 h, hh.ltau i hi' h]; simp
  refine ⟨?_, ?_, ?_, ?_⟩
  · unfold alpha1
    exact (he.along (nu.fun_neg.fun_mul tk)).congr_deriv (by ring)
  · unfold alpha2
    exact (he.along (nu.fun_neg.fun_mul rk)).congr_deriv (by ring)
  · unfold beta1At beta1AtL
    dsimp only
    rw [cc, y1]
    have e := he.along (b0.fun_add (nu.fun_mul tk)).fun_neg
    refine ((e.fun_sub beam).fun_div d1 n1).congr_deriv ?_
    rw [quotient n1]
    unfold beta1At
    ring
  · unfold beta2At beta2AtL
    dsimp only
    rw [cc, y2]
    have e := he.along (b1.fun_add (nu.fun_mul rk)).fun_neg
    refine ((e.fun_sub beam).fun_div d2 n2).congr_deriv ?_
    rw [quotient n2]
    unfold beta2At
    ring

theorem off_beamAt (hh : Honest (z x).L fl d) (hi' : i < (z x).L) (h : fl.beam i = false) (s : ℝ) (j : Fin n) :
    beta1AtL ex (z x) d fl i s (s * d.ltau i / (z x).ltau i) j = 0 ∧
    beta2AtL ex (z x) d fl i s (s * d.ltau i / (z x).ltau i) j = 0 := by
  have hl : fl.lay i = false := by
    cases hl : fl.lay i
    · rfl
    · rw [hh.both i hi' hl] at h; cases h
  obtain ⟨b0, b1⟩ := hh.btau i hi' h
  unfold beta1AtL beta2AtL beamAtL on
  simp [hl, b0, b1, hh.ltau i hi' hl]

theorem tau_deriv (he : IsExp ex) (hex : ExactAll inv?) (hz : InpDeriv z d x) (hh : Honest (z x).L fl d)
    (hs : ∀ᶠ y in 𝓝 x, Safe (z y) inv?) {B : ℝ → Nat → K} {B' : Nat → K}
    (hB : ∀ r, r < nComp (z x) → HasDerivAt (fun y => B y r) (B' r) x)
    (hi' : i < (z x).L) (hT : (z x).ltau i ≠ 0) (ht : HasDerivAt t (t x * d.ltau i / (z x).ltau i) x) (j : Fin n) :
    HasDerivAt (fun y => (atTau ex (z y) (inverses (z y) inv?) (B y) i (t y)).1 j)
      ((atTauL ex (z x) (inverses (z x) inv?) d fl (B x) B' i (t x)).1 j) x ∧
    HasDerivAt (fun y => (atTau ex (z y) (inverses (z y) inv?) (B y) i (t y)).2 j)
      ((atTauL ex (z x) (inverses (z x) inv?) d fl (B x) B' i (t x)).2 j) x := by
  set v := inverses (z x) inv? with hv
  have pc := tau_pieces he hz hh hs.self_of_nhds hi' hT ht
  set x' := t x * d.ltau i / (z x).ltau i with hx'
  have ad := fun {lev} (hl : lev ≤ (z x).L) k => at_deriv hB hl k
  have hx0 : fl.lay i = false → x' = 0 := fun h => by simp [hx', hh.ltau i hi' h]
  have da : ∀ j, HasDerivAt (fun y => va (inverses (z y) inv?) (B y) i j) (vaL v d fl (B x) B' i j) x := fun j => by
    have := (lohi_deriv hex hz hs hi' (fun k => (ad (lev := i) hi'.le k).1) (fun k => (ad (lev := i) hi'.le k).2) j).1
    refine this.congr_deriv ?_
    unfold vaL
    simp only [Pi.add_apply]
    rw [on_eq (fl.lay i) fun h => by
      obtain ⟨a, b, -, -, -⟩ := off_lay (ex := ex) hh hi' h v; rw [a, b]; simp]
    rfl
  have db : ∀ j, HasDerivAt (fun y => vb (inverses (z y) inv?) (B y) i j) (vbL v d fl (B x) B' i j) x := fun j => by
    have := (lohi_deriv hex hz hs hi' (fun k => (ad (lev := i + 1) hi' k).1)
      (fun k => (ad (lev := i + 1) hi' k).2) j).2
    refine this.congr_deriv ?_
    unfold vbL
    simp only [Pi.add_apply]
    rw [on_eq (fl.lay i) fun h => by
      obtain ⟨a, b, -, -, -⟩ := off_lay (ex := ex) hh hi' h v; rw [a, b]; simp]
    rfl
  have dg : ∀ k, HasDerivAt (fun y => gpo ex (z y) (inverses (z y) inv?) (B y) i (t y) k)
      (gpoL ex (z x) v d fl (B x) B' i (t x) x' k) x := fun k => by
    unfold gpo gpoL
    rw [on_eq (fl.lay i) fun h => ?_, on_eq (fl.lay i) fun h => ?_, on_eq (fl.beam i) fun h => ?_]
    · have := ((pc k).1.fun_mul (da k)).fun_add ((pc k).2.2.1.fun_neg.fun_mul (vcd_deriv hex hz hs hi' k).1)
      exact this.congr_deriv (by ring)
    · rw [(off_beamAt hh hi' h (t x) k).1]; simp
    · rw [(off_lay (ex := ex) hh hi' h v).2.2.1]; simp
    · rw [hh.modes i hi' h, hx0 h]; simp
  have dh : ∀ k, HasDerivAt (fun y => hpp ex (z y) (inverses (z y) inv?) (B y) i (t y) k)
      (hppL ex (z x) v d fl (B x) B' i (t x) x' k) x := fun k => by
    unfold hpp hppL
    rw [on_eq (fl.lay i) fun h => ?_, on_eq (fl.lay i) fun h => ?_, on_eq (fl.beam i) fun h => ?_]
    · have := ((pc k).2.1.fun_mul (db k).fun_neg).fun_add ((pc k).2.2.2.fun_mul (vcd_deriv hex hz hs hi' k).2.fun_neg)
      exact this.congr_deriv (by ring)
    · rw [(off_beamAt hh hi' h (t x) k).2]; simp
    · rw [(off_lay (ex := ex) hh hi' h v).2.2.2.1]; simp
    · rw [hh.modes i hi' h, hx0 h, hh.ltau i hi' h]; simp
  have hm := hz.m i hi'
  unfold atTau atTauL
  dsimp only
  constructor
  · refine (re_deriv ((MV hm.Xp dg j).fun_add (MV hm.Xm dh j))).congr_deriv ?_
    have e : (on (fl.lay i) (RCLike.re (((d.m i).Xp *ᵥ gpo ex (z x) v (B x) i (t x)) j) +
        RCLike.re (((d.m i).Xm *ᵥ hpp ex (z x) v (B x) i (t x)) j)) : ℝ) =
        RCLike.re (((d.m i).Xp *ᵥ gpo ex (z x) v (B x) i (t x)) j) +
        RCLike.re (((d.m i).Xm *ᵥ hpp ex (z x) v (B x) i (t x)) j) :=
      on_eq (K := ℝ) (fl.lay i) fun h => by rw [hh.modes i hi' h]; simp
    rw [e]
    simp only [map_add]
    ring
  · refine (re_deriv ((MV hm.Xm dg j).fun_add (MV hm.Xp dh j))).fun_neg.congr_deriv ?_
    have e : (on (fl.lay i) (RCLike.re (((d.m i).Xm *ᵥ gpo ex (z x) v (B x) i (t x)) j) +
        RCLike.re (((d.m i).Xp *ᵥ hpp ex (z x) v (B x) i (t x)) j)) : ℝ) =
        RCLike.re (((d.m i).Xm *ᵥ gpo ex (z x) v (B x) i (t x)) j) +
        RCLike.re (((d.m i).Xp *ᵥ hpp ex (z x) v (B x) i (t x)) j) :=
      on_eq (K := ℝ) (fl.lay i) fun h => by rw [hh.modes i hi' h]; simp
    rw [e]
    simp only [map_add]
    ring

end tau

/-! ### Near a point where the unknowns are found they are found -/

theorem safe_near (hex : ExactAll inv?) (hz : InpDeriv z d x) (hs : Safe (z x) inv?) :
    ∀ᶠ y in 𝓝 x, Safe (z y) inv? := by
  have key : ∀ i, i < (z x).L → ∀ᶠ y in 𝓝 x, (inv? (((z y).m i).Xp - ((z y).m i).Xm)).isSome ∧
      (inv? (((z y).m i).Xp + ((z y).m i).Xm)).isSome ∧ ∀ j, den1 (z y) i j ≠ 0 ∧ den2 (z y) i j ≠ 0 := fun i hi' => by
    have hm := hz.m i hi'
    have ok := inverses_ok hex hs hi'
    have h1 : ∀ᶠ y in 𝓝 x, (((z y).m i).Xp - ((z y).m i).Xm).det ≠ 0 :=
      (det_diffK fun a b => (hm.Xp.sub hm.Xm a b).differentiableAt).continuousAt.eventually_ne (det_ne_of ok.1)
    have h2 : ∀ᶠ y in 𝓝 x, (((z y).m i).Xp + ((z y).m i).Xm).det ≠ 0 :=
      (det_diffK fun a b => (hm.Xp.add hm.Xm a b).differentiableAt).continuousAt.eventually_ne (det_ne_of ok.2)
    have h3 : ∀ j, ∀ᶠ y in 𝓝 x, den1 (z y) i j ≠ 0 ∧ den2 (z y) i j ≠ 0 := fun j =>
      ((den_deriv hz hi' j).1.continuousAt.eventually_ne ((hs i hi').2.2 j).1).and
        ((den_deriv hz hi' j).2.continuousAt.eventually_ne ((hs i hi').2.2 j).2)
    filter_upwards [h1, h2, eventually_all.2 h3] with y e1 e2 e3
    have f1 : inv? (((z y).m i).Xp - ((z y).m i).Xm) = some _ := exact_det (hex _) e1
    have f2 : inv? (((z y).m i).Xp + ((z y).m i).Xm) = some _ := exact_det (hex _) e2
    exact ⟨Option.isSome_iff_exists.2 ⟨_, f1⟩, Option.isSome_iff_exists.2 ⟨_, f2⟩, e3⟩
  have : ∀ᶠ y in 𝓝 x, ∀ i : Fin (z x).L, (inv? (((z y).m i).Xp - ((z y).m i).Xm)).isSome ∧
      (inv? (((z y).m i).Xp + ((z y).m i).Xm)).isSome ∧ ∀ j, den1 (z y) i j ≠ 0 ∧ den2 (z y) i j ≠ 0 :=
    eventually_all.2 fun i => key i i.isLt
  filter_upwards [this] with y hy i hi'
  rw [hz.L] at hi'
  exact hy ⟨i, hi'⟩

theorem solve_near (he : IsExp ex) (hex : ExactAll inv?) (hz : InpDeriv z d x) {B0 : Nat → K} {B : Nat → K}
    (h : solve ex (z x) inv? B0 = some B) (B0' : ℝ → Nat → K) :
    ∀ᶠ y in 𝓝 x, ∃ B, solve ex (z y) inv? (B0' y) = some B := by
  have hsx := solve_safe h
  have hs := safe_near hex hz hsx
  have hd : ((system ex (z x) (inverses (z x) inv?)).read (nDiags n) (nComp (z x))).det ≠ 0 := by
    rw [solve_eq hsx] at h
    cases hi : inv? ((system ex (z x) (inverses (z x) inv?)).read (nDiags n) (nComp (z x))) with
    | none => simp [hi] at h
    | some X => exact det_ne_of ((hex _ _ _).1 hi)
  have hn : ∀ᶠ y in 𝓝 x, ((system ex (z y) (inverses (z y) inv?)).read (nDiags n) (nComp (z x))).det ≠ 0 :=
    (det_diffK fun a b => read_diff he hex hz hs a b).continuousAt.eventually_ne hd
  filter_upwards [hs, hn] with y hy hdy
  rw [solve_eq hy]
  have e : nComp (z x) = nComp (z y) := by unfold nComp; rw [hz.L y]
  rw [e] at hdy
  have f : inv? ((system ex (z y) (inverses (z y) inv?)).read (nDiags n) (nComp (z y))) = some _ := exact_det (hex _) hdy
  rw [f]
  exact ⟨_, rfl⟩

end Xrtm.MemBvp
