import Verif.Proof.TwoOs

/-!
# Two orders of scattering: the light exists, and the derivatives
-/

namespace Xrtm.TwoOs
open Xrtm.Transfer

variable {m n : Nat}

/-! ## Light of both orders exists -/

/-- A ray with a given source and a given end. -/
theorem ray {f : ℝ → ℝ} (hf : Continuous f) (y T c : ℝ) :
    ∃ U : ℝ → ℝ, (∀ τ, HasDerivAt U (y * (U τ - f τ)) τ) ∧ U T = c := by
  have hc : Continuous fun s => Real.exp (-y * s) * f s := by fun_prop
  refine ⟨fun τ => Real.exp (y * τ) * (c * Real.exp (-y * T) - y * ∫ s in T..τ, Real.exp (-y * s) * f s), fun τ => ?_, ?_⟩
  · have d1 := decay (-y) τ
    rw [neg_neg] at d1
    have d2 := intervalIntegral.integral_hasDerivAt_right (hc.intervalIntegrable T τ)
      (hc.stronglyMeasurableAtFilter _ _) hc.continuousAt
    refine (d1.mul ((d2.const_mul y).const_sub (c * Real.exp (-y * T)))).congr_deriv ?_
    have e : Real.exp (y * τ) * Real.exp (-y * τ) = 1 := by rw [← Real.exp_add]; ring_nf; simp
    linear_combination (-y * f τ) * e
  · have e : Real.exp (y * T) * Real.exp (-y * T) = 1 := by rw [← Real.exp_add]; ring_nf; simp
    simp only [intervalIntegral.integral_same, mul_zero, sub_zero]
    linear_combination c * e

/-- Rays through all layers, from the ground. -/
theorem rays_up {k : Nat} {f : Nat → Fin k → ℝ → ℝ} (hf : ∀ i l, Continuous (f i l)) (y : Fin k → ℝ) (T : Nat → ℝ)
    (L : Nat) (b : Fin k → ℝ) : ∃ u : Nat → ℝ → Fin k → ℝ,
      (∀ i l τ, HasDerivAt (fun t => u i t l) (y l * (u i τ l - f i l τ)) τ) ∧
      (∀ i, i + 1 < L → u i (T i) = u (i + 1) 0) ∧ u (L - 1) (T (L - 1)) = b := by
  choose R hR hT using fun i l c => ray (hf i l) (y l) (T i) c
  let lev : Nat → Fin k → ℝ := fun c => c.rec b fun c v l => R (L - 1 - c) l (v l) 0
  refine ⟨fun i τ l => R i l (lev (L - 1 - i) l) τ, fun i l τ => hR i l _ τ, fun i hi => ?_, ?_⟩
  · funext l
    dsimp only; rw [hT]
    have e : L - 1 - i = (L - 1 - (i + 1)) + 1 := by omega
    rw [e]
    show R (L - 1 - (L - 1 - (i + 1))) l (lev (L - 1 - (i + 1)) l) 0 = _
    rw [show L - 1 - (L - 1 - (i + 1)) = i + 1 by omega]
  · funext l
    dsimp only; rw [hT, Nat.sub_self]; rfl

/-- From the top. -/
theorem rays_dn {k : Nat} {f : Nat → Fin k → ℝ → ℝ} (hf : ∀ i l, Continuous (f i l)) (y : Fin k → ℝ) (T : Nat → ℝ)
    (b : Fin k → ℝ) : ∃ u : Nat → ℝ → Fin k → ℝ,
      (∀ i l τ, HasDerivAt (fun t => u i t l) (y l * (u i τ l - f i l τ)) τ) ∧
      (∀ i, u i (T i) = u (i + 1) 0) ∧ u 0 0 = b := by
  choose R hR hT using fun i l c => ray (hf i l) (y l) 0 c
  let lev : Nat → Fin k → ℝ := fun c => c.rec b fun c v l => R c l (v l) (T c)
  refine ⟨fun i τ l => R i l (lev i l) τ, fun i l τ => hR i l _ τ, fun i => ?_, ?_⟩
  · funext l
    dsimp only; rw [hT]
  · funext l
    dsimp only; rw [hT]; rfl

variable {z : Inp m n} {btran : Nat → ℝ} {qf : ℝ} {Pmm : Nat → Matrix (Fin m) (Fin n) ℝ}

theorem once_exists (hq : ∀ l, z.qx l ≠ 0) : ∃ up dn, (once z qf btran).Lit up dn ∧
    (∀ i l, Continuous fun τ => up i τ l) ∧ ∀ i l, Continuous fun τ => dn i τ l := by
  have hc : ∀ (P : Nat → Fin n → ℝ) (i : Nat) (l : Fin n),
      Continuous fun τ => btran i * beamSource z.F0 (z.om i) (z.as0 i) (P i) τ l := fun P i l => by
    unfold beamSource
    fun_prop
  obtain ⟨up, hu, mu, gu⟩ := rays_up (hc z.P0pm) (x z) z.ltau z.L (once z qf btran).bot
  obtain ⟨dn, hd, md, gd⟩ := rays_dn (hc z.P0mm) (fun l => -x z l) z.ltau 0
  refine ⟨up, dn, ⟨fun i hi τ l => ?_, fun i hi => ⟨mu i hi, md i⟩, gd, ?_⟩, fun i l => ?_, fun i l => ?_⟩
  · refine ⟨_, _, hu i l τ, hd i l τ, ?_, ?_⟩
    all_goals
      have := hq l
      simp only [once, Medium.intoUp, Medium.intoDn, Matrix.zero_apply, zero_mul, add_zero, mul_zero,
        Finset.sum_const_zero, sub_zero, x]
      field_simp
  · rw [show (once z qf btran).Rs = 0 from rfl, Matrix.zero_mulVec, add_zero]
    exact gu
  · exact continuous_iff_continuousAt.2 fun τ => (hu i l τ).continuousAt
  · exact continuous_iff_continuousAt.2 fun τ => (hd i l τ).continuousAt

theorem twice_exists {up dn : Nat → ℝ → Fin n → ℝ} (hq : ∀ k, z.mu k ≠ 0) (hu : ∀ i l, Continuous fun τ => up i τ l)
    (hd : ∀ i l, Continuous fun τ => dn i τ l) : ∃ U D, (twice z Pmm).Seen (once z qf btran) up dn U D := by
  have hc : ∀ (P Q : Nat → Matrix (Fin m) (Fin n) ℝ) (i : Nat) (k : Fin m),
      Continuous fun τ => ((once z qf btran).med i).k * ∑ l, z.qw l * (P i k l * up i τ l + Q i k l * dn i τ l) :=
    fun P Q i k => by
      have h1 := hu i
      have h2 := hd i
      fun_prop
  obtain ⟨U, hU, mU, gU⟩ := rays_up (hc z.Ppp z.Ppm) (y z) z.ltau z.L
    ((if z.surface then z.Rs else 0).mulVec (dn (z.L - 1) (z.ltau (z.L - 1))))
  obtain ⟨D, hD, mD, gD⟩ := rays_dn (hc z.Pmp Pmm) (fun k => -y z k) z.ltau 0
  refine ⟨U, D, ⟨fun i hi τ k => ?_, fun i hi => ⟨mU i hi, mD i⟩, gD, ?_⟩⟩
  · refine ⟨_, _, hU i k τ, hD i k τ, ?_, ?_⟩
    all_goals
      have := hq k
      simp only [once, twice, Pi.zero_apply, sub_zero, y]
      field_simp
  · simp only [twice, once, zero_add]
    exact gU

/-! ## What leaves the top -/

theorem top_light {up dn : Nat → ℝ → Fin n → ℝ} {U D : Nat → ℝ → Fin m → ℝ} (h : Sound z btran)
    (hq : z.surface = true → qf = 1) (hl : (once z qf btran).Lit up dn)
    (hs : (twice z Pmm).Seen (once z qf btran) up dn U D) (k : Fin m) :
    U 0 0 k = z.F0 * z.mu0 / Real.pi * up2With z (fun _ => 1 / z.mu0) z.L k := by
  have e := second_up h hq hl hs z.L le_rfl k
  rw [Nat.sub_self, on_at (s := once z qf btran) U h.L, on_at (s := once z qf btran) dn h.L, h.top] at e
  have e0 : dn 0 0 = 0 := hl.sky
  simp only [e0, Pi.zero_apply, mul_zero, Finset.sum_const_zero, add_zero, mul_one] at e
  exact e

theorem up2_plane (hp : ∀ i, i < z.L → z.as0 i = 1 / z.mu0) : ∀ c, c ≤ z.L →
    up2With z z.as0 c = up2With z (fun _ => 1 / z.mu0) c := by
  intro c
  induction c with
  | zero => exact fun _ => rfl
  | succ c ih =>
    intro hc
    funext k
    simp only [up2With, turn, ih (by omega), hp (z.L - 1 - c) (by omega)]

/-- The second order downwards. -/
theorem twice_down {up dn : Nat → ℝ → Fin n → ℝ} {U D : Nat → ℝ → Fin m → ℝ} (h : Sound z btran)
    (hs : (twice z Pmm).Seen (once z qf btran) up dn U D) {i : Nat} (hi : i < z.L) (k : Fin m) (τ : ℝ) :
    HasDerivAt (fun t => D i t k) (-y z k * (D i τ k - share z i *
      ∑ l, z.qw l * (z.Pmp i k l * up i τ l + Pmm i k l * dn i τ l))) τ := by
  obtain ⟨a, b, ha, hb, ea, eb⟩ := hs.layer i hi τ k
  have hq := (h.mu k).ne'
  simp only [once, twice, Pi.zero_apply, sub_zero] at eb
  refine hb.congr_deriv ?_
  unfold share
  rw [← eb]
  unfold y
  field_simp

/-- Light that is fed grows from nothing. -/
theorem grows {v f : ℝ → ℝ} {x : ℝ} (hx : 0 < x) (h : ∀ τ, HasDerivAt v (-x * (v τ - f τ)) τ) (h0 : v 0 = 0)
    (hf : ∀ τ, 0 < τ → 0 < f τ) {T : ℝ} (hT : 0 < T) : 0 < v T := by
  have hd : ∀ τ, HasDerivAt (fun t => v t * Real.exp (-(-x) * t)) (x * f τ * Real.exp (-(-x) * τ)) τ := fun τ =>
    ((h τ).fun_mul (decay (-x) τ)).congr_deriv (by ring)
  have hm : StrictMonoOn (fun t => v t * Real.exp (-(-x) * t)) (Set.Ici 0) :=
    strictMonoOn_of_deriv_pos (convex_Ici 0) (fun τ _ => (hd τ).continuousAt.continuousWithinAt) fun τ hτ => by
      rw [(hd τ).deriv]
      rw [interior_Ici] at hτ
      exact mul_pos (mul_pos hx (hf τ hτ)) (Real.exp_pos _)
  have := hm (Set.mem_Ici.2 le_rfl) (Set.mem_Ici.2 hT.le) hT
  simp only [h0, zero_mul] at this
  exact (mul_pos_iff_of_pos_right (Real.exp_pos _)).1 this

/-! ## Derivatives -/

/-- The inputs on a curve; the sun and the directions stay. -/
noncomputable def along (z : Inp m n) (c : ℝ → Inp m n) (t : ℝ) : Inp m n :=
  { z with
    om := (c t).om
    ltau := (c t).ltau
    atran := fun i => Real.exp (-z.as0 i * (c t).ltau i)
    Rs0 := (c t).Rs0
    Rs := (c t).Rs
    P0mm := (c t).P0mm
    P0pm := (c t).P0pm
    Ppp := (c t).Ppp
    Pmp := (c t).Pmp
    Ppm := (c t).Ppm }

/-- `z'` is how the inputs change at `s`, and `lay` names the layers that do. -/
structure Varies (z : Inp m n) (c : ℝ → Inp m n) (z' : Inp m n) (lay : Nat → Bool) (s : ℝ) : Prop where
  om : ∀ i, HasDerivAt (fun t => (c t).om i) (z'.om i) s
  ltau : ∀ i, HasDerivAt (fun t => (c t).ltau i) (z'.ltau i) s
  Rs0 : ∀ l, HasDerivAt (fun t => (c t).Rs0 l) (z'.Rs0 l) s
  Rs : ∀ k l, HasDerivAt (fun t => (c t).Rs k l) (z'.Rs k l) s
  P0mm : ∀ i l, HasDerivAt (fun t => (c t).P0mm i l) (z'.P0mm i l) s
  P0pm : ∀ i l, HasDerivAt (fun t => (c t).P0pm i l) (z'.P0pm i l) s
  Ppp : ∀ i k l, HasDerivAt (fun t => (c t).Ppp i k l) (z'.Ppp i k l) s
  Pmp : ∀ i k l, HasDerivAt (fun t => (c t).Pmp i k l) (z'.Pmp i k l) s
  Ppm : ∀ i k l, HasDerivAt (fun t => (c t).Ppm i k l) (z'.Ppm i k l) s
  sun : ∀ i, z'.as0 i = 0
  still : ∀ i, i < z.L → lay i = false → z'.om i = 0 ∧ z'.ltau i = 0 ∧ z'.P0mm i = 0 ∧ z'.P0pm i = 0 ∧ z'.Ppp i = 0 ∧
    z'.Pmp i = 0 ∧ z'.Ppm i = 0
  ground : lay z.L = false → z'.Rs0 = 0 ∧ z'.Rs = 0

section deriv
variable {c : ℝ → Inp m n} {z' : Inp m n} {lay : Nat → Bool} {s : ℝ}

theorem r0_deriv (h : Varies z c z' lay s) {i : Nat} (hi : i < z.L) (l : Fin n) :
    HasDerivAt (fun t => r0 (along z c t) i l) (r0L (along z c s) z' lay i l) s := by
  refine ((h.om i).fun_mul (h.P0pm i l)).congr_deriv ?_
  unfold r0L
  cases hl : lay i with
  | true => simp [along]
  | false =>
    obtain ⟨e1, e2, e3, e4, -⟩ := h.still i hi hl
    simp [along, e4]

theorem t0_deriv (h : Varies z c z' lay s) {i : Nat} (hi : i < z.L) (l : Fin n) :
    HasDerivAt (fun t => t0 (along z c t) i l) (t0L (along z c s) z' lay i l) s := by
  refine ((h.om i).fun_mul (h.P0mm i l)).congr_deriv ?_
  unfold t0L
  cases hl : lay i with
  | true => simp [along]
  | false =>
    obtain ⟨e1, e2, e3, e4, -⟩ := h.still i hi hl
    simp [along, e3]

theorem r0L_still (h : Varies z c z' lay s) {i : Nat} (hi : i < z.L) (hl : lay i = false) (l : Fin n) :
    r0L (along z c s) z' lay i l = 0 := by
  simp [r0L, hl, (h.still i hi hl).1]

theorem t0L_still (h : Varies z c z' lay s) {i : Nat} (hi : i < z.L) (hl : lay i = false) (l : Fin n) :
    t0L (along z c s) z' lay i l = 0 := by
  simp [t0L, hl, (h.still i hi hl).1]

theorem alpha_deriv (h : Varies z c z' lay s) (i : Nat) (l : Fin n) :
    HasDerivAt (fun t => alpha (along z c t) i l) (-z'.ltau i * x z l * alpha (along z c s) i l) s := by
  refine ((h.ltau i).fun_neg.mul_const (x z l)).exp.congr_deriv ?_
  show Real.exp _ * _ = _ * Real.exp _
  rw [mul_comm]; rfl

theorem beta_deriv (h : Varies z c z' lay s) (i : Nat) (k : Fin m) :
    HasDerivAt (fun t => beta (along z c t) i k) (-z'.ltau i * y z k * beta (along z c s) i k) s := by
  refine ((h.ltau i).fun_neg.mul_const (y z k)).exp.congr_deriv ?_
  show Real.exp _ * _ = _ * Real.exp _
  rw [mul_comm]; rfl

theorem atran_deriv (h : Varies z c z' lay s) (i : Nat) :
    HasDerivAt (fun t => (along z c t).atran i) (-z.as0 i * z'.ltau i * (along z c s).atran i) s := by
  refine ((h.ltau i).const_mul (-z.as0 i)).exp.congr_deriv ?_
  show Real.exp _ * _ = _ * Real.exp _
  rw [mul_comm]

theorem psiX_deriv (h : Varies z c z' lay s) (i : Nat) (l : Fin n) :
    HasDerivAt (fun t => psiX (along z c t) i l) (psiXL (along z c s) z' i l) s := by
  refine ((alpha_deriv h i l).fun_mul (atran_deriv h i)).congr_deriv ?_
  unfold psiXL psiX
  rw [h.sun, show x (along z c s) l = x z l from rfl, show (along z c s).as0 i = z.as0 i from rfl]
  ring

theorem psiY_deriv (h : Varies z c z' lay s) (i : Nat) (k : Fin m) :
    HasDerivAt (fun t => psiY (along z c t) i k) (psiYL (along z c s) z' i k) s := by
  refine ((beta_deriv h i k).fun_mul (atran_deriv h i)).congr_deriv ?_
  unfold psiYL psiY
  rw [h.sun, show y (along z c s) k = y z k from rfl, show (along z c s).as0 i = z.as0 i from rfl]
  ring

theorem psi3_deriv (h : Varies z c z' lay s) (i : Nat) (k : Fin m) (l : Fin n) :
    HasDerivAt (fun t => psi3 (along z c t) i k l) (psi3L (along z c s) z' i k l) s := by
  refine ((beta_deriv h i k).fun_mul (alpha_deriv h i l)).congr_deriv ?_
  unfold psi3L psi3
  rw [show y (along z c s) k = y z k from rfl, show x (along z c s) l = x z l from rfl]
  ring

theorem rm_deriv (h : Varies z c z' lay s) {i : Nat} (hi : i < z.L) (k : Fin m) (l : Fin n) :
    HasDerivAt (fun t => rm (along z c t) i k l) (rmL (along z c s) z' lay i k l) s := by
  have hp : HasDerivAt (fun t => Pin (along z c t) i k l) (if !z.vector then z'.Pmp i k l else z'.Ppm i k l) s := by
    unfold Pin
    cases hv : z.vector with
    | true => simpa [along, hv] using h.Ppm i k l
    | false => simpa [along, hv] using h.Pmp i k l
  refine (hp.fun_mul (((h.om i).const_mul ((1 + if z.first then 1 else 0) / 4)).mul_const (z.qw l))).congr_deriv ?_
  unfold rmL
  cases hl : lay i with
  | true =>
    rw [if_pos rfl, show (along z c s).vector = z.vector from rfl, show (along z c s).first = z.first from rfl,
      show (along z c s).qw l = z.qw l from rfl]
    unfold share
    rw [show (along z c s).first = z.first from rfl, show (along z c s).om = (c s).om from rfl]
    ring
  | false =>
    obtain ⟨e1, e2, e3, e4, e5, e6, e7⟩ := h.still i hi hl
    rw [e6, e7, e1]
    simp

theorem tp_deriv (h : Varies z c z' lay s) {i : Nat} (hi : i < z.L) (k : Fin m) (l : Fin n) :
    HasDerivAt (fun t => tp (along z c t) i k l) (tpL (along z c s) z' lay i k l) s := by
  refine ((h.Ppp i k l).fun_mul (((h.om i).const_mul ((1 + if z.first then 1 else 0) / 4)).mul_const (z.qw l))).congr_deriv ?_
  unfold tpL
  cases hl : lay i with
  | true =>
    rw [if_pos rfl, show (along z c s).first = z.first from rfl, show (along z c s).qw l = z.qw l from rfl]
    unfold share
    rw [show (along z c s).first = z.first from rfl, show (along z c s).om = (c s).om from rfl,
      show (along z c s).Ppp = (c s).Ppp from rfl]
    ring
  | false =>
    obtain ⟨e1, e2, e3, e4, e5, e6, e7⟩ := h.still i hi hl
    rw [e5, e1]
    simp

theorem up1_deriv (h : Varies z c z' lay s) : ∀ c', c' ≤ z.L → ∀ l,
    HasDerivAt (fun t => up1 (along z c t) c' l) (up1L (along z c s) z' lay c' l) s := by
  intro c'
  induction c' with
  | zero =>
    intro _ l
    show HasDerivAt (fun t => if z.surface = true then (c t).Rs0 l else 0)
      (if z.surface = true then (if lay z.L = true then z'.Rs0 l else 0) else 0) s
    cases hs : z.surface with
    | false => simpa using hasDerivAt_const s (0 : ℝ)
    | true =>
      refine (show HasDerivAt _ _ s from h.Rs0 l).congr_deriv ?_
      cases hl : lay z.L with
      | true => rfl
      | false => rw [(h.ground hl).1]; rfl
  | succ c' ih =>
    intro hc l
    have hj : z.L - 1 - c' < z.L := by omega
    have e := ((psiX_deriv h (z.L - 1 - c') l).fun_mul (ih (by omega) l)).fun_add
      (((((psiX_deriv h (z.L - 1 - c') l).const_sub 1).const_mul (gain z (z.L - 1 - c') l)).const_mul (1 / 4)).fun_mul
        (r0_deriv h hj l))
    refine (show HasDerivAt _ _ s from e).congr_deriv ?_
    show _ = _ + 1 / 4 * _
    rw [show (along z c s).L = z.L from rfl, h.sun]
    rw [show gain (along z c s) (z.L - 1 - c') l = gain z (z.L - 1 - c') l from rfl]
    cases hl : lay (z.L - 1 - c') with
    | true => rw [if_pos rfl]; ring
    | false => rw [if_neg (by decide), r0L_still h hj hl]; ring

theorem refl_deriv (h : Varies z c z' lay s) : ∀ c', c' ≤ z.L → ∀ k l,
    HasDerivAt (fun t => refl (along z c t) c' k l) (reflL (along z c s) z' lay c' k l) s := by
  intro c'
  induction c' with
  | zero =>
    intro _ k l
    show HasDerivAt (fun t => if z.surface = true then (c t).Rs k l * x z l else 0)
      (if z.surface = true then (if lay z.L = true then z'.Rs k l * x z l else 0) else 0) s
    cases hs : z.surface with
    | false => simpa using hasDerivAt_const s (0 : ℝ)
    | true =>
      refine (show HasDerivAt _ _ s from (h.Rs k l).mul_const (x z l)).congr_deriv ?_
      cases hl : lay z.L with
      | true => rfl
      | false => rw [(h.ground hl).2]; simp
  | succ c' ih =>
    intro hc k l
    have hj : z.L - 1 - c' < z.L := by omega
    have e := ((ih (by omega) k l).fun_mul (psi3_deriv h (z.L - 1 - c') k l)).fun_add
      ((((psi3_deriv h (z.L - 1 - c') k l).const_sub 1).const_mul (both z k l)).fun_mul (rm_deriv h hj k l))
    refine (show HasDerivAt _ _ s from e).congr_deriv ?_
    show _ = _ + _ * psi3L (along z c s) z' (z.L - 1 - c') k l + both z k l * _
    rw [show (along z c s).L = z.L from rfl]
    ring

theorem phi2_deriv (h : Varies z c z' lay s) (j : Nat) (k : Fin m) (l : Fin n) :
    HasDerivAt (fun t => phi2 (along z c t) j k l) (phi2L (along z c s) z' j k l) s := by
  have b := (beta_deriv h j k).fun_mul (atran_deriv h j)
  have a := (alpha_deriv h j l).fun_mul (atran_deriv h j)
  unfold phi2 phi2L
  dsimp only
  by_cases hy : y z k = x z l
  · simp only [show ∀ t, y (along z c t) k = y z k from fun _ => rfl, show ∀ t, x (along z c t) l = x z l from fun _ => rfl, if_pos hy]
    refine ((h.ltau j).fun_mul b).congr_deriv ?_
    rw [h.sun, show (along z c s).as0 j = z.as0 j from rfl, show (along z c s).ltau = (c s).ltau from rfl]
    ring
  · simp only [show ∀ t, y (along z c t) k = y z k from fun _ => rfl, show ∀ t, x (along z c t) l = x z l from fun _ => rfl, if_neg hy]
    refine ((b.fun_sub a).div_const _).congr_deriv ?_
    rw [h.sun, show (along z c s).as0 j = z.as0 j from rfl]
    ring

theorem phi3_deriv (h : Varies z c z' lay s) (j : Nat) (k : Fin m) (l : Fin n) (hx : z.as0 j ≠ x z l) :
    HasDerivAt (fun t => phi3 (along z c t) j k l) (phi3L (along z c s) z' j k l) s := by
  have b := (beta_deriv h j k).fun_mul (alpha_deriv h j l)
  have a := (atran_deriv h j).fun_mul (beta_deriv h j k)
  unfold phi3 phi3L
  dsimp only
  simp only [show ∀ t, (along z c t).as0 j = z.as0 j from fun _ => rfl, show ∀ t, x (along z c t) l = x z l from fun _ => rfl, if_neg hx]
  refine ((b.fun_sub a).div_const _).congr_deriv ?_
  rw [h.sun, show y (along z c s) k = y z k from rfl]
  ring

theorem w2u_deriv (h : Varies z c z' lay s) (j : Nat) (k : Fin m) (l : Fin n) :
    HasDerivAt (fun t => w2u (along z c t) j k l)
      (-psiYL (along z c s) z' j k - (y z k + z.as0 j) * phi2L (along z c s) z' j k l) s :=
  (show HasDerivAt _ _ s from ((psiY_deriv h j k).const_sub 1).fun_sub ((phi2_deriv h j k l).const_mul (y z k + z.as0 j)))

theorem w2d_deriv (h : Varies z c z' lay s) (j : Nat) (k : Fin m) (l : Fin n) (hx : z.as0 j ≠ x z l) :
    HasDerivAt (fun t => w2d (along z c t) j k l)
      (-psiYL (along z c s) z' j k - (y z k + z.as0 j) * phi3L (along z c s) z' j k l) s :=
  (show HasDerivAt _ _ s from
    ((psiY_deriv h j k).const_sub 1).fun_sub ((phi3_deriv h j k l hx).const_mul (y z k + z.as0 j)))

theorem fromUp_deriv (h : Varies z c z' lay s) {j : Nat} (hj : j < z.L) {b : ℝ → Fin n → ℝ} {b' : Fin n → ℝ}
    (hb : ∀ l, HasDerivAt (fun t => b t l) (b' l) s) (k : Fin m) :
    HasDerivAt (fun t => fromUp (along z c t) j (b t) k) (fromUpL (along z c s) z' lay j (b s) b' k) s := by
  refine (show HasDerivAt _ _ s from HasDerivAt.fun_sum fun l _ => (tp_deriv h hj k l).fun_mul
    (((phi2_deriv h j k l).fun_mul (hb l)).fun_add ((r0_deriv h hj l).fun_mul
      ((w2u_deriv h j k l).const_mul (w1u z j k l))))).congr_deriv ?_
  unfold fromUpL
  refine Finset.sum_congr rfl fun l _ => ?_
  rw [h.sun, show w1u (along z c s) j k l = w1u z j k l from rfl, show y (along z c s) k = y z k from rfl,
    show (along z c s).as0 j = z.as0 j from rfl]
  cases hl : lay j with
  | true => rw [if_pos rfl]; ring
  | false => rw [if_neg (by decide), r0L_still h hj hl]; ring

theorem fromDn_deriv (h : Varies z c z' lay s) {j : Nat} (hj : j < z.L) (hx : ∀ l, z.as0 j ≠ x z l)
    {R : ℝ → Fin m → Fin n → ℝ} {R' : Fin m → Fin n → ℝ}
    (hR : ∀ k l, HasDerivAt (fun t => R t k l) (R' k l) s) (k : Fin m) :
    HasDerivAt (fun t => fromDn (along z c t) j (R t) k) (fromDnL (along z c s) z' lay j (R s) R' k) s := by
  refine (show HasDerivAt _ _ s from HasDerivAt.fun_sum fun l _ =>
    (((phi3_deriv h j k l (hx l)).fun_mul (hR k l)).fun_add ((rm_deriv h hj k l).fun_mul
      ((w2d_deriv h j k l (hx l)).const_mul (w1d z j k l)))).fun_mul (t0_deriv h hj l)).congr_deriv ?_
  unfold fromDnL
  refine Finset.sum_congr rfl fun l _ => ?_
  rw [h.sun, show w1d (along z c s) j k l = w1d z j k l from rfl, show y (along z c s) k = y z k from rfl,
    show (along z c s).as0 j = z.as0 j from rfl]
  cases hl : lay j with
  | true => rw [if_pos rfl]; ring
  | false => rw [if_neg (by decide), t0L_still h hj hl]; ring

theorem up2_deriv (h : Varies z c z' lay s) (hx : ∀ j l, j < z.L → z.as0 j ≠ x z l) : ∀ c', c' ≤ z.L → ∀ k,
    HasDerivAt (fun t => up2 (along z c t) c' k) (up2L (along z c s) z' lay c' k) s := by
  intro c'
  induction c' with
  | zero => exact fun _ k => hasDerivAt_const s (0 : ℝ)
  | succ c' ih =>
    intro hc k
    have hj : z.L - 1 - c' < z.L := by omega
    have e := (((psiY_deriv h (z.L - 1 - c') k).fun_mul (ih (by omega) k)).fun_add
      ((fromUp_deriv h hj (up1_deriv h c' (by omega)) k).const_mul (y z k))).fun_add
      ((fromDn_deriv h hj (fun l => hx _ l hj) (refl_deriv h c' (by omega)) k).const_mul (z.as0 (z.L - 1 - c') / 4))
    refine (show HasDerivAt _ _ s from e).congr_deriv ?_
    show _ = _ + (z'.as0 (z.L - 1 - c') * _ + z.as0 (z.L - 1 - c') * _) / 4
    rw [show (along z c s).L = z.L from rfl, h.sun, show y (along z c s) k = y z k from rfl]
    ring

end deriv

end Xrtm.TwoOs
