import Verif.Proof.TwoStreamP
import Verif.Proof.TwoStreamI

/-!
# C55: the two stream solver gives the light in an atmosphere with one direction up
and one down, and its derivatives
-/

namespace Xrtm.TwoStream
open Matrix Filter Topology Xrtm.Loops Xrtm.Transfer Xrtm.TwoStream.Spec

variable {z : Inp} {inv? : {N : Nat} → Matrix (Fin N) (Fin N) ℝ → Option (Matrix (Fin N) (Fin N) ℝ)}

/-- No write leaves the matrix, whatever the inputs. -/
theorem C55_in_bounds (z : Inp) (hL : 1 ≤ z.L) : (system z).ok = true := system_inside z hL

/-- The phase matrices are the Fourier terms of the phase function. -/
theorem C55_phase (hq : z.qx ^ 2 ≤ 1) (i : Nat) :
    Pqq z i = (phase z.first (z.g i) z.qx z.qx, phase z.first (z.g i) (-z.qx) z.qx) ∧
    Pq0 z i = (phase z.first (z.g i) (-z.qx) (-z.mu0), phase z.first (z.g i) z.qx (-z.mu0)) :=
  ⟨Pqq_phase hq i, Pq0_phase i⟩

theorem solve_nu (hex : Bvp.ExactAll inv?) (hL : 1 ≤ z.L) {x : Nat → ℝ} (h : solve z inv? = .ok x) {i : Nat}
    (hi : i < z.L) : nu z i ≠ 0 := fun h0 => by
  obtain ⟨hn, B, hB, -⟩ := solve_bvp hL h
  have hd := det_of_nu z hL hi h0 (hn i hi).2.1
  unfold solve at h
  rw [if_pos hn, if_pos (system_inside z hL)] at h
  cases hI : inv? ((system z).read (2 * z.L)) with
  | none => simp only [hI] at h; cases h
  | some X =>
    have e := (hex _ _ _).1 hI
    have := congrArg Matrix.det e
    rw [Matrix.det_mul, hd, zero_mul, Matrix.det_one] at this
    exact one_ne_zero this.symm

/-- All light in the atmosphere is, at the levels, what the solver gives. -/
theorem C55_levels (hex : Bvp.ExactAll inv?) (hf : Fine z) {x : Nat → ℝ} (h : solve z inv? = .ok x)
    {up dn : Nat → ℝ → Fin 1 → ℝ} (hl : (stack z).Lit up dn) (lev : Nat) (hlev : lev ≤ z.L) :
    level z x lev = ((stack z).on up lev 0, (stack z).on dn lev 0) := by
  obtain ⟨hn, B, hB, hBx⟩ := solve_bvp hf.one h
  have := Bvp.lit_level Eig.exp_real hex (posed hf hn fun i hi => solve_nu hex hf.one h hi) hB hl lev hlev
  rw [level_bvp z hf.one hBx lev hlev] at this
  unfold Bvp.output at this
  rw [Bvp.turn_one] at this
  exact Prod.ext (congrFun (congrArg Prod.fst this) 0) (congrFun (congrArg Prod.snd this) 0)

/-- And within the layers. -/
theorem C55_taus (hex : Bvp.ExactAll inv?) (hf : Fine z) {x : Nat → ℝ} (h : solve z inv? = .ok x)
    {up dn : Nat → ℝ → Fin 1 → ℝ} (hl : (stack z).Lit up dn) (i : Nat) (hi : i < z.L) (t : ℝ) :
    atTau z x i t = (up i t 0, dn i t 0) := by
  obtain ⟨hn, B, hB, hBx⟩ := solve_bvp hf.one h
  have := Bvp.lit_tau Eig.exp_real hex (posed hf hn fun i hi => solve_nu hex hf.one h hi) hB hl i hi (z.as0 i) t
    (by
      unfold su toBvp
      funext j
      cases hs : z.solar <;> simp [Fp, hs, mul_comm])
    (by
      rw [Bvp.turn_one]
      unfold sd toBvp
      funext j
      cases hs : z.solar <;> simp [Fm, hs, mul_comm])
  rw [tau_bvp z hBx i hi t] at this
  unfold Bvp.output at this
  rw [Bvp.turn_one] at this
  exact Prod.ext (congrFun (congrArg Prod.fst this) 0) (congrFun (congrArg Prod.snd this) 0)

/-- There is such light. -/
theorem C55_exists (hex : Bvp.ExactAll inv?) (hf : Fine z) {x : Nat → ℝ} (h : solve z inv? = .ok x) :
    ∃ up dn, (stack z).Lit up dn := by
  obtain ⟨hn, B, hB, -⟩ := solve_bvp hf.one h
  exact ⟨_, _, Bvp.found_lit Eig.exp_real hex (posed hf hn fun i hi => solve_nu hex hf.one h hi) hB⟩

/-- It finds the unknowns if every layer loses light, the ground gives back no more
than it gets, and the beam does not fall off as a mode does. -/
theorem C55_solves (hex : Bvp.ExactAll inv?) (hL : 1 ≤ z.L) (hp : ∀ i, i < z.L → Lossy z i)
    (ht : ∀ i, i < z.L → 0 ≤ z.ltau i) (hR : z.surface = true → z.Rqq ^ 2 ≤ 1)
    (hs : z.solar = true → ∀ i, i < z.L → z.as0 i ^ 2 ≠ alpha z i ^ 2 - beta z i ^ 2) :
    ∃ x, solve z inv? = .ok x := by
  have hn : Numbers z := fun i hi => by
    refine ⟨(hp i hi).pos.le, ?_, fun h e => hs h i hi ?_⟩
    · have := (hp i hi).nu_pos
      have := (hp i hi).a9_neg
      intro; linarith
    · unfold vars at e
      simp only [h, if_true] at e
      linear_combination e
  unfold solve
  rw [if_pos hn, if_pos (system_inside z hL)]
  have hi := Eig.exact_det (hex _) (det_ne z hL hp ht hR)
  simp only [hi]
  exact ⟨_, rfl⟩

/-- Layers lose light: with a node of Gauss always, with the one of double Gauss in
the first term always, and else if the part that is scattered forward is not too
large. -/
theorem C55_lossy (i : Nat) (hq : 0 < z.qx) (h0 : 0 ≤ z.om i) (h1 : z.om i < 1) (hg : z.g i ≤ 3)
    (hn : z.qx ^ 2 = 1 / 3 ∨ z.qx = 1 / 2 ∧ (z.first = true ∨ z.om i * z.g i < 8 / 3)) : Lossy z i := by
  have hq1 : z.qx ^ 2 ≤ 1 / 3 := by
    rcases hn with h | ⟨h, -⟩
    · exact h.le
    · rw [h]; norm_num
  have hog : z.om i * z.g i * z.qx ^ 2 < 1 := by
    rcases le_or_gt (z.g i) 0 with h | h
    · nlinarith [mul_nonneg h0 (neg_nonneg.2 h), sq_nonneg z.qx, mul_nonneg (mul_nonneg h0 (neg_nonneg.2 h)) (sq_nonneg z.qx)]
    · have a : z.om i * z.g i < 3 := by nlinarith
      have b : 0 ≤ z.om i * z.g i := mul_nonneg h0 h.le
      nlinarith
  have key : ∀ a, a < 1 → -(1 - a) / z.qx < 0 := fun a ha => by
    apply div_neg_of_neg_of_pos _ hq; linarith
  constructor
  · unfold alpha beta a6 Pqq
    cases hf : z.first with
    | true =>
      simp only [if_true]
      refine lt_of_eq_of_lt ?_ (key _ hog)
      field_simp; ring
    | false =>
      simp only [Bool.false_eq_true, if_false]
      refine lt_of_eq_of_lt ?_ (key 0 one_pos)
      field_simp; ring
  · unfold alpha beta a6 Pqq
    cases hf : z.first with
    | true =>
      simp only [if_true]
      refine lt_of_eq_of_lt ?_ (key _ h1)
      field_simp; ring
    | false =>
      simp only [Bool.false_eq_true, if_false]
      have : z.om i * z.g i * (1 - z.qx ^ 2) / 2 < 1 := by
        rcases hn with h | ⟨h, h2⟩
        · rw [h]
          rcases le_or_gt (z.g i) 0 with h | h <;> nlinarith [mul_nonneg h0 (abs_nonneg (z.g i))]
        · rw [hf] at h2
          rcases h2 with h2 | h2
          · cases h2
          · rw [h]; linarith
      refine lt_of_eq_of_lt ?_ (key _ this)
      field_simp; ring

/-- The answer is one of three: no number, a matrix that has no inverse, or the light. -/
theorem C55_outcomes (hL : 1 ≤ z.L) : solve z inv? ≠ .out := by
  unfold solve
  split_ifs with h1 h2
  · split <;> simp
  · exact absurd (system_inside z hL) h2
  · simp

/-! ### Derivatives -/

theorem near_numbers {z : ℝ → Inp} {z' : Inp} {fl : Flags} {x : ℝ} (hz : Along z z' fl x) (hn : Numbers (z x))
    (h0 : ∀ i, i < (z x).L → nu (z x) i ≠ 0) : ∀ᶠ y in 𝓝 x, Numbers (z y) := by
  have : ∀ i, i < (z x).L → ∀ᶠ y in 𝓝 x, 0 ≤ alpha (z y) i * alpha (z y) i - beta (z y) i * beta (z y) i ∧
      nu (z y) i - a9 (z y) i ≠ 0 ∧ ((z y).solar = true → (vars (z y) i ⟨0, 0, 0, 0, 0, 0, 0⟩).a15 ≠ 0) := by
    intro i hi
    have ha := (alpha_deriv hz hi).continuousAt
    have hb := (beta_deriv hz hi).continuousAt
    have hc := (hz.as0 i hi).continuousAt
    have hpos : 0 < alpha (z x) i * alpha (z x) i - beta (z x) i * beta (z x) i := by
      refine lt_of_le_of_ne (hn i hi).1 fun e => h0 i hi ?_
      unfold nu; rw [← e, Real.sqrt_zero]
    have c1 : ContinuousAt (fun y => alpha (z y) i * alpha (z y) i - beta (z y) i * beta (z y) i) x :=
      (ha.mul ha).sub (hb.mul hb)
    have c2 : ContinuousAt (fun y => nu (z y) i - a9 (z y) i) x := c1.sqrt.sub (ha.add hb)
    have e1 := c1.eventually (lt_mem_nhds hpos)
    have e2 := c2.eventually_ne (hn i hi).2.1
    cases hs : (z x).solar with
    | false =>
      filter_upwards [e1, e2] with y h1 h2
      refine ⟨h1.le, h2, fun h => ?_⟩
      rw [hz.solar, hs] at h; cases h
    | true =>
      have h15 := (hn i hi).2.2 hs
      have hv : ∀ y, (vars (z y) i ⟨0, 0, 0, 0, 0, 0, 0⟩).a15 =
          ((z y).as0 i + alpha (z y) i) * ((z y).as0 i - alpha (z y) i) + beta (z y) i * beta (z y) i := fun y => by
        unfold vars
        rw [hz.solar, hs]
        rfl
      rw [hv] at h15
      have e3 := ContinuousAt.eventually_ne (((hc.add ha).mul (hc.sub ha)).add (hb.mul hb)) h15
      filter_upwards [e1, e2, e3] with y h1 h2 h3
      exact ⟨h1.le, h2, fun _ => by rw [hv]; exact h3⟩
  have h := (Filter.eventually_all_finset (Finset.range (z x).L)).2 fun i hi => this i (Finset.mem_range.1 hi)
  filter_upwards [h] with y hy i hi
  exact hy i (Finset.mem_range.2 (by rw [← hz.L y]; exact hi))

theorem deriv_core (hex : Bvp.ExactAll inv?) {z : ℝ → Inp} {z' : Inp} {fl : Flags} {x : ℝ} (hz : Along z z' fl x)
    (hL : 1 ≤ (z x).L) (hsun : (z x).solar = true) (hat : fl.beam ((z x).L - 1) = false → z'.atran ((z x).L - 1) = 0)
    (junk : Vars) {X : ℝ → Nat → ℝ} (h : ∀ᶠ y in 𝓝 x, solve (z y) inv? = .ok (X y)) :
    ∃ (x' : Nat → ℝ) (B : ℝ → Nat → ℝ) (B' : Nat → ℝ), solveL (z x) z' fl junk inv? (X x) = some x' ∧
      Bvp.InpDeriv (fun y => toBvp (z y)) (Bvp.masked (z x).L (toFlags fl) (toBvpL (z x) z' fl junk)) x ∧
      (∀ᶠ y in 𝓝 x, ∀ r, r < 2 * (z x).L → B y r = X y r) ∧ (∀ r, r < 2 * (z x).L → B x r = X x r) ∧
      (∀ r, r < 2 * (z x).L → B' r = x' r) ∧
      ∀ r, r < 2 * (z x).L → HasDerivAt (fun y => B y r) (B' r) x := by
  have hx := h.self_of_nhds
  have hz1 := bvp_along hz junk (solve_bvp hL hx).1 (fun i hi => solve_nu hex hL hx hi) (.inl hsun)
  have hB : ∀ᶠ y in 𝓝 x, ∃ B, Bvp.solveBvp Real.exp (toBvp (z y)) inv? = some B ∧ ∀ r, r < 2 * (z x).L → B r = X y r := by
    filter_upwards [h] with y hy
    have := (solve_bvp (by rw [hz.L]; exact hL) hy).2
    rw [hz.L] at this
    exact this
  choose! B hB1 using fun y (hy : ∃ B, Bvp.solveBvp Real.exp (toBvp (z y)) inv? = some B ∧
    ∀ r, r < 2 * (z x).L → B r = X y r) => hy
  have hBx := hB1 x hB.self_of_nhds
  obtain ⟨x', hx'⟩ : ∃ x', solveL (z x) z' fl junk inv? (X x) = some x' := by
    unfold solve at hx
    rw [if_pos (solve_bvp hL h.self_of_nhds).1, if_pos (system_inside _ hL)] at hx
    unfold solveL
    cases hI : inv? ((system (z x)).read (2 * (z x).L)) with
    | none => simp only [hI] at hx; cases hx
    | some Y => simp only [hI]; exact ⟨_, rfl⟩
  obtain ⟨B', hB', hBx'⟩ := solveL_bvp (z x) z' fl junk hL hat hBx.2 hx'
  refine ⟨x', B, B', hx', hz1, ?_, hBx.2, hBx', fun r hr => ?_⟩
  · filter_upwards [hB] with y hy using (hB1 y hy).2
  · refine Bvp.found_deriv Eig.exp_real hex hz1 hL ?_ (by filter_upwards [hB] with y hy using (hB1 y hy).1) hB' r ?_
    · cases hs : (z x).surface with
      | true => exact .inl hs
      | false => refine .inr ?_; unfold toBvpL; funext j; simp [hs]
    · exact hr

/-- The linearised radiances at the levels are the derivatives of the radiances; the
unknowns are found around a point if they are at it. -/
theorem C55_levels_deriv (hex : Bvp.ExactAll inv?) {z : ℝ → Inp} {z' : Inp} {fl : Flags} {x : ℝ}
    (hz : Along z z' fl x) (hL : 1 ≤ (z x).L) (hsun : (z x).solar = true)
    (hat : fl.beam ((z x).L - 1) = false → z'.atran ((z x).L - 1) = 0) (junk : Vars) {X : ℝ → Nat → ℝ}
    (h : ∀ᶠ y in 𝓝 x, solve (z y) inv? = .ok (X y)) :
    ∃ x', solveL (z x) z' fl junk inv? (X x) = some x' ∧ ∀ lev, lev ≤ (z x).L →
      ∃ p, levelL? (z x) z' fl junk (X x) x' lev = some p ∧
        HasDerivAt (fun y => (level (z y) (X y) lev).1) p.1 x ∧ HasDerivAt (fun y => (level (z y) (X y) lev).2) p.2 x := by
  obtain ⟨x', B, B', hx', hz1, hB, hBx, hBx', hd⟩ := deriv_core hex hz hL hsun hat junk h
  refine ⟨x', hx', fun lev hlev => ⟨levelL (z x) z' fl junk (X x) x' lev, by unfold levelL?; rw [if_pos hsun], ?_⟩⟩
  have := Bvp.level_deriv Eig.exp_real hz1 hL hd lev hlev 0
  have e := levelL_bvp (z x) z' fl junk hL (.inl hsun) hBx hBx' lev hlev
  rw [show Bvp.levelL Real.exp (toBvp (z x)) (toBvpL (z x) z' fl junk) (toFlags fl) (B x) B' lev = _ from e] at this
  have ev : ∀ᶠ y in 𝓝 x, Bvp.level Real.exp (toBvp (z y)) (B y) lev =
      (fun _ => (level (z y) (X y) lev).1, fun _ => (level (z y) (X y) lev).2) := by
    filter_upwards [hB] with y hy
    exact level_bvp (z y) (by rw [hz.L]; exact hL) (by rw [hz.L]; exact hy) lev (by rw [hz.L]; exact hlev)
  exact ⟨this.1.congr_of_eventuallyEq (by filter_upwards [ev] with y hy; rw [hy]),
    this.2.congr_of_eventuallyEq (by filter_upwards [ev] with y hy; rw [hy])⟩

/-- And those at depths that keep their share of the layer. -/
theorem C55_taus_deriv (hex : Bvp.ExactAll inv?) {z : ℝ → Inp} {z' : Inp} {fl : Flags} {x : ℝ}
    (hz : Along z z' fl x) (hL : 1 ≤ (z x).L) (hsun : (z x).solar = true)
    (hat : fl.beam ((z x).L - 1) = false → z'.atran ((z x).L - 1) = 0) (junk : Vars) {X : ℝ → Nat → ℝ}
    (h : ∀ᶠ y in 𝓝 x, solve (z y) inv? = .ok (X y)) {i : Nat} (hi : i < (z x).L) {t : ℝ → ℝ}
    (ht : HasDerivAt t (t x * z'.ltau i / (z x).ltau i) x) (hlay : fl.lay i = false → z'.ltau i = 0) :
    ∃ x' p, solveL (z x) z' fl junk inv? (X x) = some x' ∧ atTauL? (z x) z' fl junk (X x) x' i (t x) = some p ∧
      HasDerivAt (fun y => (atTau (z y) (X y) i (t y)).1) p.1 x ∧
      HasDerivAt (fun y => (atTau (z y) (X y) i (t y)).2) p.2 x := by
  obtain ⟨x', B, B', hx', hz1, hB, hBx, hBx', hd⟩ := deriv_core hex hz hL hsun hat junk h
  refine ⟨x', atTauL (z x) z' fl junk (X x) x' i (t x), hx', by unfold atTauL?; rw [if_pos hsun], ?_⟩
  have hs : HasDerivAt (fun y => (z y).as0 i) (if (toFlags fl).beam i then z'.as0 i else 0) x := hz.as0 i hi
  have := Bvp.tau_deriv Eig.exp_real hz1 hd hi (as0 := fun y => (z y).as0 i) (as0' := z'.as0 i) (t := t) ht hs
    hlay (fun _ => hz.flags i hi) 0
  have e := tauL_bvp (z x) z' fl junk (.inl hsun) hBx hBx' i hi (t x)
  rw [show Bvp.atTauL Real.exp (toBvp (z x)) (toBvpL (z x) z' fl junk) (toFlags fl) ((z x).as0 i) (z'.as0 i) (B x) B' i
    (t x) = _ from e] at this
  have ev : ∀ᶠ y in 𝓝 x, Bvp.atTau Real.exp (toBvp (z y)) ((z y).as0 i) (B y) i (t y) =
      (fun _ => (atTau (z y) (X y) i (t y)).1, fun _ => (atTau (z y) (X y) i (t y)).2) := by
    filter_upwards [hB] with y hy
    exact tau_bvp (z y) (by rw [hz.L]; exact hy) i (by rw [hz.L]; exact hi) (t y)
  exact ⟨this.1.congr_of_eventuallyEq (by filter_upwards [ev] with y hy; rw [hy]),
    this.2.congr_of_eventuallyEq (by filter_upwards [ev] with y hy; rw [hy])⟩

/-- If the unknowns are found at a point they are found near it. -/
theorem C55_near (hex : Bvp.ExactAll inv?) {z : ℝ → Inp} {z' : Inp} {fl : Flags} {x : ℝ}
    (hz : Along z z' fl x) (hL : 1 ≤ (z x).L) (hsun : (z x).solar = true) {X : Nat → ℝ}
    (h : solve (z x) inv? = .ok X) : ∀ᶠ y in 𝓝 x, ∃ X, solve (z y) inv? = .ok X := by
  obtain ⟨hn, B, hB, -⟩ := solve_bvp hL h
  have hnu := fun i hi => solve_nu hex hL h (i := i) hi
  have hz1 := bvp_along hz ⟨0, 0, 0, 0, 0, 0, 0⟩ hn hnu (.inl hsun)
  filter_upwards [Bvp.solve_near Eig.exp_real hex hz1 hL hB, near_numbers hz hn hnu] with y hy hny
  obtain ⟨B, hB⟩ := hy
  exact bvp_solve (by rw [hz.L]; exact hL) hny hB

/-! ### The same light as the boundary value solver with one direction gives -/

/-- The atmosphere as that solver has it. -/
noncomputable def airOf (z : Inp) : Bvp.Air 1 ℝ where
  L := z.L
  c := content z
  T := z.ltau
  as0 := z.as0
  btran := z.btran
  F0 := z.F0
  P0mm := fun i _ => phase z.first (z.g i) (-z.qx) (-z.mu0)
  P0pm := fun i _ => phase z.first (z.g i) z.qx (-z.mu0)
  planck := 0
  above := 0
  ground := fun _ => if z.solar && z.surface then z.F0 * z.mu0 / Real.pi * z.btran z.L * z.Rq0 else 0
  Rs := fun _ _ => z.Rqq
  surface := z.surface
  solar := z.solar
  thermal := false

theorem air_stack (z : Inp) : (airOf z).stack z.first 1 (fun _ => z.qx) (fun _ => 1) = stack z := by
  unfold Bvp.Air.stack airOf stack
  simp only [Bool.false_eq_true, if_false, add_zero]
  congr 1
  funext i j
  cases z.surface
  · rfl
  · change z.Rqq * stokesSign 1 j = z.Rqq
    rw [Bvp.sign_one, mul_one]

theorem air_fine (hex : Bvp.ExactAll inv?) (hf : Fine z) {x : Nat → ℝ} (h : solve z inv? = .ok x)
    (h0 : ∀ i, i < z.L → z.as0 i ≠ 0) :
    ∃ o, (airOf z).Fine z.first 1 (fun _ => z.qx) (fun _ => 1) o 0 Source.inverse Source.inverse := by
  have hn := (solve_bvp hf.one h).1
  have hp := posed hf hn fun i hi => solve_nu hex hf.one h hi
  have hs : ∀ i, ∃ o, z.solar = true → i < z.L → Source.sun Source.inverse 1 (fun _ : Fin 1 => z.qx) z.F0
      (Source.sunOf z.first 1 (fun _ => z.qx) (fun _ => 1) (content z i).om (z.as0 i) (content z i).Ppp (content z i).Pmp
        (fun _ => phase z.first (z.g i) (-z.qx) (-z.mu0)) fun _ => phase z.first (z.g i) z.qx (-z.mu0)) = some o := by
    intro i
    cases ho : Source.sun Source.inverse 1 (fun _ : Fin 1 => z.qx) z.F0
      (Source.sunOf z.first 1 (fun _ => z.qx) (fun _ => 1) (content z i).om (z.as0 i) (content z i).Ppp (content z i).Pmp
        (fun _ => phase z.first (z.g i) (-z.qx) (-z.mu0)) fun _ => phase z.first (z.g i) z.qx (-z.mu0)) with
    | some o => exact ⟨o, fun _ _ => rfl⟩
    | none =>
      refine ⟨⟨0, 0, 0, 0, 0, 0, 0⟩, fun hsol hi => ?_⟩
      exfalso
      obtain ⟨v, hv, e⟩ := (Source.C49_sun_none Source.inverse_exact _ _ _ _).1 ho
      have e := congrFun e 0
      have h15 := (hn i hi).2.2 hsol
      unfold Source.sunOf at e
      dsimp only at e
      rw [txr_eq hf.q1] at e
      unfold vars at h15
      simp only [hsol, if_true] at h15
      have e : (alpha z i - beta z i) * (alpha z i + beta z i) * v 0 = z.as0 i ^ 2 * v 0 := by
        change (∑ j : Fin 1, Source.gammaOf (fun _ _ => alpha z i + beta z i) (fun _ _ => alpha z i - beta z i) 0 j * v j) =
          z.as0 i ^ 2 * v 0 at e
        rw [Fin.sum_univ_one] at e
        rw [← e]
        exact congrArg (· * v 0) (mul1 (fun _ _ => alpha z i - beta z i) (fun _ _ => alpha z i + beta z i) 0 0).symm
      have hv0 : v 0 ≠ 0 := fun h => hv (funext fun j => by rw [Subsingleton.elim j 0, h]; rfl)
      have := mul_right_cancel₀ hv0 e
      exact h15 (by linear_combination -1 * this)
  choose o ho using hs
  exact ⟨o, hf.one, one_pos, fun _ => hf.q0, hp.mirrored, hp.solved, h0, fun hs i hi => ho i hs hi,
    fun h => by cases h⟩

/-- The boundary value solver finds the same light. -/
theorem C55_same {inv1? : {N : Nat} → Matrix (Fin N) (Fin N) ℝ → Option (Matrix (Fin N) (Fin N) ℝ)}
    (hex : Bvp.ExactAll inv?) (hex1 : Bvp.ExactAll inv1?) (hf : Fine z) {x : Nat → ℝ} (h : solve z inv? = .ok x)
    (h0 : ∀ i, i < z.L → z.as0 i ≠ 0) :
    ∃ o B, (airOf z).Fine z.first 1 (fun _ => z.qx) (fun _ => 1) o 0 Source.inverse Source.inverse ∧
      Bvp.solveBvp Real.exp ((airOf z).inp z.first 1 (fun _ => z.qx) (fun _ => 1) o 0) inv1? = some B ∧
      ∀ lev, lev ≤ z.L → Bvp.output 1 (Bvp.level Real.exp ((airOf z).inp z.first 1 (fun _ => z.qx) (fun _ => 1) o 0) B lev) =
        (fun _ => (level z x lev).1, fun _ => (level z x lev).2) := by
  obtain ⟨o, ho⟩ := air_fine hex hf h h0
  have hn := (solve_bvp hf.one h).1
  have hp := posed hf hn fun i hi => solve_nu hex hf.one h hi
  obtain ⟨B, hB⟩ : ∃ B, Bvp.solveBvp Real.exp ((airOf z).inp z.first 1 (fun _ => z.qx) (fun _ => 1) o 0) inv1? = some B := by
    rw [← Option.ne_none_iff_exists']
    intro hnone
    have := (Bvp.C51_singular Eig.exp_real hex1 Source.inverse_exact Source.inverse_exact ho).1 hnone
    rw [air_stack] at this
    have := (Bvp.solve_dark Eig.exp_real hex hp).2 this
    obtain ⟨-, B, hB, -⟩ := solve_bvp hf.one h
    rw [this] at hB; cases hB
  refine ⟨o, B, ho, hB, fun lev hlev => ?_⟩
  obtain ⟨up, dn, hl⟩ := C55_exists hex hf h
  rw [C55_levels hex hf h hl lev hlev,
    Bvp.C51_levels Eig.exp_real hex1 Source.inverse_exact Source.inverse_exact ho hB (by rw [air_stack]; exact hl) lev hlev,
    air_stack]
  refine Prod.ext (funext fun j => ?_) (funext fun j => ?_) <;> rw [Subsingleton.elim j 0]

/-! ### What goes wrong -/

/-- With the node of double Gauss a layer that scatters strongly forward gives no
number for the second term. -/
theorem C55_violated_nan (hq : z.qx = 1 / 2) (hf : z.first = false) {i : Nat} (hi : i < z.L)
    (hg : 8 / 3 < z.om i * z.g i) : solve z inv? = .nan := by
  unfold solve
  rw [if_neg]
  intro hn
  have h := (hn i hi).1
  unfold alpha beta a6 Pqq at h
  simp only [hf, hq, Bool.false_eq_true, if_false] at h
  nlinarith

/-- So does a beam that falls off as a mode does. -/
theorem C55_violated_resonance (hs : z.solar = true) {i : Nat} (hi : i < z.L)
    (h : z.as0 i ^ 2 = alpha z i ^ 2 - beta z i ^ 2) : solve z inv? = .nan := by
  unfold solve
  rw [if_neg]
  intro hn
  have h2 := (hn i hi).2.2 hs
  unfold vars at h2
  simp only [hs, if_true] at h2
  exact h2 (by linear_combination h)

/-- And a layer that neither absorbs nor spreads light over the sides. -/
theorem C55_violated_still (hex : Bvp.ExactAll inv?) (hL : 1 ≤ z.L) {i : Nat} (hi : i < z.L)
    (h : alpha z i ^ 2 = beta z i ^ 2) : ∀ x, solve z inv? ≠ .ok x := fun x hx => by
  refine solve_nu hex hL hx hi ?_
  unfold nu
  rw [Real.sqrt_eq_zero']
  nlinarith

/-- Light from the sky (`xrtm_set_F_iso_top`) does not come in: none is found at the
top. -/
theorem C55_violated_sky (hex : Bvp.ExactAll inv?) (hf : Fine z) {x : Nat → ℝ} (h : solve z inv? = .ok x) :
    (level z x 0).2 = 0 := by
  obtain ⟨up, dn, hl⟩ := C55_exists hex hf h
  rw [C55_levels hex hf h hl 0 (Nat.zero_le _)]
  unfold Stack.on
  have hL : 0 < (stack z).L := hf.one
  rw [if_pos hL, if_pos hL, hl.sky]
  rfl

/-- If fewer than two coefficients are given for a layer the second one is the one
given before. -/
theorem C55_violated_stale (n nCoef : Nat) (hn : n ≤ 1) (h : 1 < nCoef) (c coef : Nat → ℝ) :
    coefOf nCoef (setCoef n c coef) = some (coef 1) := by
  unfold coefOf setCoef
  rw [if_pos h]
  interval_cases n <;> simp [forN, put]

/-- With two or more it is the one that is given. -/
theorem C55_coef (n nCoef : Nat) (hn : 2 ≤ n) (h : n ≤ nCoef) (c coef : Nat → ℝ) :
    coefOf nCoef (setCoef n c coef) = some (c 1) := by
  unfold coefOf
  rw [if_pos (by omega)]
  congr 1
  unfold setCoef
  refine forN_ind_lt n (fun k a => 2 ≤ k → a 1 = c 1) (fun k a => put a k (c k)) coef (fun h => by omega) ?_ hn
  intro k hk a ih h2
  unfold put
  by_cases h : 1 = k
  · subst h; simp
  · simp only [h, if_false]; exact ih (by omega)

/-- A model for one coefficient is read beyond its row. -/
theorem C55_violated_row (n : Nat) (c coef : Nat → ℝ) : coefOf 1 (setCoef n c coef) = none := rfl

/-- Without the sun derivatives are not got: their flags are read from an address that
is none. -/
theorem C55_violated_wild (hs : z.solar = false) (z' : Inp) (fl : Flags) (junk : Vars) (x x' : Nat → ℝ) (lev : Nat) :
    levelL? z z' fl junk x x' lev = none := by
  unfold levelL?; rw [hs]; rfl

/-! ### Such atmospheres -/

/-- Two layers that scatter some light, more forward than back, under the sun, over a
ground that reflects some. -/
noncomputable def demo (om : ℝ) : Inp where
  first := true
  L := 2
  qx := 1 / 2
  F0 := 1
  mu0 := 1 / 2
  g := fun _ => 1
  om := fun i => if i = 0 then om else 1 / 2
  ltau := fun _ => 1
  btran := fun i => Real.exp (-2 * i)
  as0 := fun _ => 2
  atran := fun _ => Real.exp (-1 * 2)
  Rq0 := 1 / 4
  Rqq := 1 / 4
  solar := true
  surface := true

theorem demo_fine (om : ℝ) : Fine (demo om) where
  one := one_le_two
  q0 := by norm_num [demo]
  q1 := by norm_num [demo]
  m1 := by norm_num [demo]
  decay := fun _ _ => rfl

theorem demo_lossy {om : ℝ} (h0 : 0 ≤ om) (h1 : om < 1) (i : Nat) : Lossy (demo om) i := by
  refine C55_lossy i (by norm_num [demo]) ?_ ?_ (by norm_num [demo]) (.inr ⟨rfl, .inl rfl⟩) <;>
  · unfold demo
    dsimp only
    split_ifs <;> linarith

theorem demo_solves {om : ℝ} (h0 : 0 < om) (h1 : om < 1) : ∃ x, solve (demo om) Eig.inverseK = .ok x := by
  refine C55_solves (fun N => Eig.inverseK_exact) one_le_two (fun i _ => demo_lossy h0.le h1 i)
    (fun _ _ => by norm_num [demo]) (fun _ => by norm_num [demo]) fun _ i _ => ?_
  unfold alpha beta a6 Pqq demo
  dsimp only
  simp only [if_true]
  split_ifs <;> intro h <;> nlinarith

example : ∃ x, solve (demo (3 / 4)) Eig.inverseK = .ok x ∧
    ∃ up dn, (stack (demo (3 / 4))).Lit up dn ∧
      level (demo (3 / 4)) x 2 = ((stack (demo (3 / 4))).on up 2 0, (stack (demo (3 / 4))).on dn 2 0) ∧
      atTau (demo (3 / 4)) x 1 (1 / 3) = (up 1 (1 / 3) 0, dn 1 (1 / 3) 0) := by
  obtain ⟨x, hx⟩ := demo_solves (om := 3 / 4) (by norm_num) (by norm_num)
  have hex : Bvp.ExactAll (K := ℝ) Eig.inverseK := fun N => Eig.inverseK_exact
  obtain ⟨up, dn, hl⟩ := C55_exists hex (demo_fine _) hx
  exact ⟨x, hx, up, dn, hl, C55_levels hex (demo_fine _) hx hl 2 le_rfl, C55_taus hex (demo_fine _) hx hl 1 one_lt_two _⟩

example : ∃ x, solve (demo (3 / 4)) Eig.inverseK = .ok x ∧ ∃ o B,
    (airOf (demo (3 / 4))).Fine true 1 (fun _ => 1 / 2) (fun _ => 1) o 0 Source.inverse Source.inverse ∧
      Bvp.solveBvp Real.exp ((airOf (demo (3 / 4))).inp true 1 (fun _ => 1 / 2) (fun _ => 1) o 0) Eig.inverseK = some B := by
  obtain ⟨x, hx⟩ := demo_solves (om := 3 / 4) (by norm_num) (by norm_num)
  obtain ⟨o, B, h1, h2, -⟩ := C55_same (inv1? := Eig.inverseK) (fun N => Eig.inverseK_exact) (fun N => Eig.inverseK_exact)
    (demo_fine _) hx (fun i _ => two_ne_zero)
  exact ⟨x, hx, o, B, h1, h2⟩

/-- Only the share that the first layer scatters moves. -/
noncomputable def demoD : Inp :=
  { demo 0 with
    g := 0, om := fun i => if i = 0 then 1 else 0, ltau := 0, btran := 0, as0 := 0, atran := 0, Rq0 := 0, Rqq := 0 }

def demoFl : Flags := ⟨fun i => i == 0, fun _ => true⟩

theorem demo_along (x : ℝ) : Along demo demoD demoFl x where
  first := fun _ => rfl
  L := fun _ => rfl
  qx := fun _ => rfl
  F0 := fun _ => rfl
  mu0 := fun _ => rfl
  solar := fun _ => rfl
  surface := fun _ => rfl
  g := fun i _ => (hasDerivAt_const x _).congr_deriv (by unfold on; split_ifs <;> rfl)
  om := fun i _ => by
    unfold demo demoD demoFl on
    by_cases h : i = 0
    · subst h; simp only [if_true, beq_self_eq_true]; exact hasDerivAt_id x
    · simp only [h, if_false, beq_iff_eq]; exact hasDerivAt_const x _
  ltau := fun i _ => (hasDerivAt_const x _).congr_deriv (by unfold on; split_ifs <;> rfl)
  as0 := fun i _ => (hasDerivAt_const x _).congr_deriv (by unfold on; split_ifs <;> rfl)
  atran := fun i _ => (hasDerivAt_const x _).congr_deriv (by unfold on; split_ifs <;> rfl)
  btran := fun i _ => (hasDerivAt_const x _).congr_deriv (by unfold on; split_ifs <;> rfl)
  Rq0 := (hasDerivAt_const x _).congr_deriv (by unfold on; split_ifs <;> rfl)
  Rqq := (hasDerivAt_const x _).congr_deriv (by unfold on; split_ifs <;> rfl)
  flags := fun _ _ _ => rfl

example (junk : Vars) : ∃ X : ℝ → Nat → ℝ, (∀ᶠ y in 𝓝 (3 / 4), solve (demo y) Eig.inverseK = .ok (X y)) ∧
    ∃ p : ℝ × ℝ, HasDerivAt (fun y => (level (demo y) (X y) 0).1) p.1 (3 / 4) ∧
      ∃ q : ℝ × ℝ, HasDerivAt (fun y => (atTau (demo y) (X y) 1 (1 / 3)).2) q.2 (3 / 4) := by
  have hex : Bvp.ExactAll (K := ℝ) Eig.inverseK := fun N => Eig.inverseK_exact
  obtain ⟨x, hx⟩ := demo_solves (om := 3 / 4) (by norm_num) (by norm_num)
  have hn := C55_near hex (demo_along _) (show 1 ≤ 2 from one_le_two) rfl hx
  choose! X hX using fun y (hy : ∃ X, solve (demo y) Eig.inverseK = .ok X) => hy
  have hev : ∀ᶠ y in 𝓝 (3 / 4), solve (demo y) Eig.inverseK = .ok (X y) := by filter_upwards [hn] with y hy using hX y hy
  obtain ⟨x', -, h⟩ := C55_levels_deriv hex (demo_along (3 / 4)) (show 1 ≤ 2 from one_le_two) rfl (fun h => by cases h) junk hev
  obtain ⟨p, -, hp, -⟩ := h 0 (Nat.zero_le _)
  obtain ⟨-, q, -, -, -, hq⟩ := C55_taus_deriv hex (demo_along (3 / 4)) (show 1 ≤ 2 from one_le_two) rfl (fun h => by cases h) junk
    hev (i := 1) (show 1 < 2 from one_lt_two) (t := fun _ => 1 / 3)
    ((hasDerivAt_const _ _).congr_deriv (by simp [demoD])) (fun _ => rfl)
  exact ⟨X, hev, p, hp, q, hq⟩

/-- A cloud. -/
example : solve { demo 1 with first := false, om := fun _ => 99 / 100, g := fun _ => 27 / 10 } Eig.inverseK = .nan :=
  C55_violated_nan rfl rfl (i := 0) (show 0 < 2 from two_pos) (by norm_num)

/-- Air that does not scatter, with the sun in the direction of the node. -/
theorem C55_violated_dark_air : solve { demo 0 with om := fun _ => 0, surface := false } inv? = .nan ∧
    (stack { demo 0 with om := fun _ => 0, surface := false }).Lit 0 0 := by
  constructor
  · refine C55_violated_resonance rfl (i := 0) (show 0 < 2 from two_pos) ?_
    norm_num [alpha, beta, demo]
  · refine ⟨fun i _ τ j => ⟨0, 0, hasDerivAt_const _ _, hasDerivAt_const _ _, ?_, ?_⟩, fun i _ => ⟨rfl, rfl⟩, rfl, ?_⟩
    · simp [Medium.intoUp, stack, demo, beamSource]
    · simp [Medium.intoDn, stack, demo, beamSource]
    · funext j; simp [stack, demo, Matrix.mulVec, dotProduct]

example (junk : Vars) : levelL? { demo 1 with solar := false } demoD demoFl junk 0 0 0 = none :=
  C55_violated_wild rfl _ _ _ _ _ _

end Xrtm.TwoStream
