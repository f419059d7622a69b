import Verif.Proof.TwoOsD
import Mathlib.Tactic.NormNum

/-!
# C58: the solver of two orders of scattering gives the light scattered twice

`once` is the light the beam gives when scattered once, in the layers or by the ground, and
`twice` what that gives when scattered once more into a direction asked for; both are
stated with the equation of transfer alone.
-/

namespace Xrtm.TwoOs
open Xrtm.Transfer

variable {m n : Nat}

/-- **C58.**  Light of both orders exists. -/
theorem C58_exists {z : Inp m n} {btran : Nat → ℝ} (h : Sound z btran) (qf : ℝ) (Pmm : Nat → Matrix (Fin m) (Fin n) ℝ) :
    ∃ up dn U D, (once z qf btran).Lit up dn ∧ (twice z Pmm).Seen (once z qf btran) up dn U D := by
  obtain ⟨up, dn, hl, hu, hd⟩ := once_exists (z := z) (btran := btran) (qf := qf) fun l => (h.qx l).ne'
  obtain ⟨U, D, hs⟩ := twice_exists (z := z) (btran := btran) (qf := qf) (Pmm := Pmm) (fun k => (h.mu k).ne') hu hd
  exact ⟨up, dn, U, D, hl, hs⟩

/-- **C58.**  In plane layers the solver returns the light that leaves the top after two
scatterings.  Full claim: in shells too, whatever `qf`, at the levels and depths asked for,
and the light downwards. -/
theorem C58_top_partial {z : Inp m n} {btran : Nat → ℝ} {qf : ℝ} {Pmm : Nat → Matrix (Fin m) (Fin n) ℝ}
    {up dn : Nat → ℝ → Fin n → ℝ} {U D : Nat → ℝ → Fin m → ℝ} (h : Sound z btran)
    (hp : ∀ i, i < z.L → z.as0 i = 1 / z.mu0) (hq : z.surface = true → qf = 1)
    (hl : (once z qf btran).Lit up dn) (hs : (twice z Pmm).Seen (once z qf btran) up dn U D) (k : Fin m) :
    outUp z 0 k = U 0 0 k := by
  rw [top_light h hq hl hs, ← up2_plane hp z.L le_rfl]
  unfold outUp up2
  rw [if_pos rfl]
  ring

/-- **C58.**  Whatever the weights add up to, it is the light over a ground that reflects
the beam by `qf` more. -/
theorem C58_top_scaled {z : Inp m n} {btran : Nat → ℝ} {qf : ℝ} {Pmm : Nat → Matrix (Fin m) (Fin n) ℝ}
    {up dn : Nat → ℝ → Fin n → ℝ} {U D : Nat → ℝ → Fin m → ℝ} (h : Sound z btran)
    (hp : ∀ i, i < z.L → z.as0 i = 1 / z.mu0)
    (hl : (once z qf btran).Lit up dn) (hs : (twice z Pmm).Seen (once z qf btran) up dn U D) (k : Fin m) :
    outUp { z with Rs0 := fun l => qf * z.Rs0 l } 0 k = U 0 0 k := by
  have e : once { z with Rs0 := fun l => qf * z.Rs0 l } 1 btran = once z qf btran := by
    unfold once
    congr 1
    funext l
    dsimp only
    split_ifs
    · ring
    · rfl
  refine C58_top_partial (z := { z with Rs0 := fun l => qf * z.Rs0 l }) (qf := 1) (btran := btran) (Pmm := Pmm) (up := up) (dn := dn) (D := D)
    ⟨h.L, h.qx, h.mu, h.mu0, h.as0, h.scalar, h.atran, h.top, h.btran⟩ hp (fun _ => rfl) ?_ ?_ k
  · rw [e]; exact hl
  · rw [e]; exact hs

/-- **C58.**  In shells the error is this: the light sent down by the beam and then up again
counts with the slant of the layer for that of the top. -/
theorem C58_shell_error {z : Inp m n} {btran : Nat → ℝ} {qf : ℝ} {Pmm : Nat → Matrix (Fin m) (Fin n) ℝ}
    {up dn : Nat → ℝ → Fin n → ℝ} {U D : Nat → ℝ → Fin m → ℝ} (h : Sound z btran)
    (h1 : z.L = 1) (hq : z.surface = true → qf = 1)
    (hl : (once z qf btran).Lit up dn) (hs : (twice z Pmm).Seen (once z qf btran) up dn U D) (k : Fin m) :
    outUp z 0 k - U 0 0 k =
      z.F0 * z.mu0 / Real.pi * ((z.as0 0 - 1 / z.mu0) / 4 * fromDn z 0 (refl z 0) k) := by
  rw [top_light h hq hl hs]
  unfold outUp up2
  rw [if_pos rfl, h1]
  simp only [up2With, turn, h1]
  ring

/-! ## Examples and violations -/

/-- One layer of optical thickness `log 2`, one stream at `1/2`, one direction straight up,
the beam with slant 3. -/
noncomputable def demo (mu0 : ℝ) (sf : Bool) (p0 pp pm : ℝ) : Inp 1 1 where
  L := 1
  first := false
  vector := false
  surface := sf
  F0 := 1
  mu0 := mu0
  qx := fun _ => 1 / 2
  qw := fun _ => 1 / 2
  mu := fun _ => 1
  om := fun _ => 1
  ltau := fun _ => Real.log 2
  as0 := fun _ => 3
  atran := fun _ => 1 / 8
  Rs0 := fun _ => 1
  Rs := fun _ _ => 1
  P0mm := fun _ _ => p0
  P0pm := fun _ _ => p0
  Ppp := fun _ _ _ => pp
  Pmp := fun _ _ _ => pm
  Ppm := fun _ _ _ => pm

theorem exp_half : Real.exp (-Real.log 2) = 1 / 2 := by
  rw [Real.exp_neg, Real.exp_log two_pos, one_div]

theorem exp_eighth : Real.exp (-3 * Real.log 2) = 1 / 8 := by
  have : -3 * Real.log 2 = -Real.log 2 + (-Real.log 2 + -Real.log 2) := by ring
  rw [this, Real.exp_add, Real.exp_add, exp_half]
  norm_num

theorem exp_fourth : Real.exp (-Real.log 2 * 2) = 1 / 4 := by
  have : -Real.log 2 * 2 = -Real.log 2 + -Real.log 2 := by ring
  rw [this, Real.exp_add, exp_half]
  norm_num

theorem demo_sound {mu0 : ℝ} (h0 : 0 < mu0) (sf : Bool) (p0 pp pm : ℝ) :
    Sound (demo mu0 sf p0 pp pm) fun i => (1 / 8) ^ i where
  L := Nat.one_pos
  qx := fun _ => by norm_num [demo]
  mu := fun _ => by norm_num [demo]
  mu0 := h0
  as0 := fun _ _ => by norm_num [demo]
  scalar := fun _ _ => rfl
  atran := fun _ _ => exp_eighth.symm
  top := pow_zero _
  btran := fun _ _ => pow_succ _ _

theorem demo_parts (mu0 : ℝ) (sf : Bool) (p0 pp pm : ℝ) :
    x (demo mu0 sf p0 pp pm) 0 = 2 ∧ y (demo mu0 sf p0 pp pm) 0 = 1 ∧
      phi2 (demo mu0 sf p0 pp pm) 0 0 0 = 1 / 32 ∧ phi3 (demo mu0 sf p0 pp pm) 0 0 0 = 1 / 16 ∧
      psiY (demo mu0 sf p0 pp pm) 0 0 = 1 / 16 := by
  have hx : x (demo mu0 sf p0 pp pm) 0 = 2 := by norm_num [x, demo]
  have hy : y (demo mu0 sf p0 pp pm) 0 = 1 := by norm_num [y, demo]
  have ha : alpha (demo mu0 sf p0 pp pm) 0 0 = 1 / 4 := by
    unfold alpha
    rw [hx]
    exact exp_fourth
  have hb : beta (demo mu0 sf p0 pp pm) 0 0 = 1 / 2 := by
    unfold beta
    rw [hy, mul_one]
    exact exp_half
  have e8 : (demo mu0 sf p0 pp pm).atran 0 = 1 / 8 := rfl
  have e3 : (demo mu0 sf p0 pp pm).as0 0 = 3 := rfl
  refine ⟨hx, hy, ?_, ?_, ?_⟩
  · unfold phi2
    rw [hx, hy, ha, hb, e8]
    norm_num
  · unfold phi3
    rw [hx, ha, hb, e8, e3]
    norm_num
  · unfold psiY
    rw [hb, e8]
    norm_num

theorem demo_dn (mu0 : ℝ) (sf : Bool) (p0 pp pm : ℝ) :
    fromDn (demo mu0 sf p0 pp pm) 0 (refl (demo mu0 sf p0 pp pm) 0) 0 =
      (1 / 16 * (if sf then 2 else 0) + 11 / 768 * pm) * p0 := by
  obtain ⟨hx, hy, h2, h3, h1⟩ := demo_parts mu0 sf p0 pp pm
  have hr : refl (demo mu0 sf p0 pp pm) 0 0 0 = if sf then 2 else 0 := by
    show (if sf = true then (1 : ℝ) * x (demo mu0 sf p0 pp pm) 0 else 0) = _
    rw [hx, one_mul]
  unfold fromDn
  rw [Fintype.sum_unique, Fin.default_eq_zero, hr, h3]
  unfold w1d w2d rm
  rw [hx, hy, h1, h3]
  simp only [demo, t0, Pin, share]
  norm_num
  left
  simp
  ring

theorem demo_up (mu0 : ℝ) (sf : Bool) (p0 pp pm : ℝ) :
    fromUp (demo mu0 sf p0 pp pm) 0 (up1 (demo mu0 sf p0 pp pm) 0) 0 =
      pp / 8 * (1 / 32 * (if sf then 1 else 0) + p0 * (1 / mu0 / 40 * (13 / 16))) := by
  obtain ⟨hx, hy, h2, h3, h1⟩ := demo_parts mu0 sf p0 pp pm
  have hr : up1 (demo mu0 sf p0 pp pm) 0 0 = if sf then 1 else 0 := rfl
  unfold fromUp
  rw [Fintype.sum_unique, Fin.default_eq_zero, hr, h2]
  unfold w1u w2u tp
  rw [hx, hy, h1, h2]
  simp only [demo, r0, share]
  by_cases h0 : mu0 = 0
  · subst h0; simp; ring
  · cases sf
    all_goals
      simp only [if_true, Bool.false_eq_true, if_false]
      field_simp
      norm_num
      ring

theorem demo_out (mu0 : ℝ) (sf : Bool) (p0 pp pm : ℝ) :
    outUp (demo mu0 sf p0 pp pm) 0 0 =
      (pp / 8 * (1 / 32 * (if sf then 1 else 0) + p0 * (1 / mu0 / 40 * (13 / 16))) +
        3 / 4 * ((1 / 16 * (if sf then 2 else 0) + 11 / 768 * pm) * p0)) * (mu0 / Real.pi) := by
  unfold outUp
  rw [if_pos rfl]
  show (psiY (demo mu0 sf p0 pp pm) 0 0 * 0 + y (demo mu0 sf p0 pp pm) 0 * fromUp (demo mu0 sf p0 pp pm) 0 _ 0 +
    3 / 4 * fromDn (demo mu0 sf p0 pp pm) 0 _ 0) * (1 * mu0 / Real.pi) = _
  rw [show up1 (demo mu0 sf p0 pp pm) 0 = up1 (demo mu0 sf p0 pp pm) 0 from rfl, demo_up, demo_dn,
    (demo_parts mu0 sf p0 pp pm).2.1]
  ring

example : ∃ up dn U D, (once (demo (1 / 3) true 1 1 1) 1 fun i => (1 / 8) ^ i).Lit up dn ∧
    (twice (demo (1 / 3) true 1 1 1) fun _ _ _ => 1).Seen (once (demo (1 / 3) true 1 1 1) 1 fun i => (1 / 8) ^ i) up dn U D :=
  C58_exists (demo_sound (by norm_num) _ _ _ _) _ _

example {up dn U D} (hl : (once (demo (1 / 3) true 1 1 1) 1 fun i => (1 / 8) ^ i).Lit up dn)
    (hs : (twice (demo (1 / 3) true 1 1 1) fun _ _ _ => 1).Seen (once (demo (1 / 3) true 1 1 1) 1 fun i => (1 / 8) ^ i)
      up dn U D) : U 0 0 0 = 99 / (2560 * Real.pi) := by
  rw [← C58_top_partial (demo_sound (by norm_num) _ _ _ _) (fun _ _ => by norm_num [demo]) (fun _ => rfl) hl hs, demo_out]
  have := Real.pi_ne_zero
  simp only [if_true]
  field_simp
  norm_num

example {up dn U D} (hl : (once (demo (1 / 3) true 1 1 1) 2 fun i => (1 / 8) ^ i).Lit up dn)
    (hs : (twice (demo (1 / 3) true 1 1 1) fun _ _ _ => 1).Seen (once (demo (1 / 3) true 1 1 1) 2 fun i => (1 / 8) ^ i)
      up dn U D) : outUp { demo (1 / 3) true 1 1 1 with Rs0 := fun _ => 2 * 1 } 0 0 = U 0 0 0 :=
  C58_top_scaled (z := demo (1 / 3) true 1 1 1) (demo_sound (by norm_num) _ _ _ _) (fun _ _ => by norm_num [demo]) hl hs 0

/-- **C58 violated** in shells: `as_0[j]` at src/xrtm_two_os.c:737 is not the `1. / mu_0` of
385 and 685. -/
theorem C58_violated_shell : ∃ (z : Inp 1 1) (btran : Nat → ℝ), Sound z btran ∧ z.as0 0 < 1 / z.mu0 ∧
    ∀ Pmm up dn U D, (once z 1 btran).Lit up dn → (twice z Pmm).Seen (once z 1 btran) up dn U D →
      outUp z 0 0 < U 0 0 0 := by
  refine ⟨demo (1 / 4) false 1 1 1, _, demo_sound (by norm_num) _ _ _ _, by norm_num [demo], fun Pmm up dn U D hl hs => ?_⟩
  have e := C58_shell_error (demo_sound (by norm_num) _ _ _ _) rfl (fun _ => rfl) hl hs 0
  rw [demo_dn] at e
  have hpi := Real.pi_pos
  have : (1 : ℝ) * (1 / 4) / Real.pi * ((3 - 1 / (1 / 4)) / 4 * ((1 / 16 * (if false = true then 2 else 0) + 11 / 768 * 1) * 1)) < 0 := by
    have : 0 < 1 / Real.pi := one_div_pos.2 hpi
    norm_num
    exact hpi
  have e' : outUp (demo (1 / 4) false 1 1 1) 0 0 - U 0 0 0 = _ := e
  linarith [e'.symm ▸ this]

/-- **C58 violated** when the weights do not add up to one half: the ground sends the beam
up without `qf`. -/
theorem C58_violated_ground : ∃ (z : Inp 1 1) (btran : Nat → ℝ), Sound z btran ∧ (∀ i, z.as0 i = 1 / z.mu0) ∧
    ∀ Pmm up dn U D qf, qf ≠ 1 → (once z qf btran).Lit up dn → (twice z Pmm).Seen (once z qf btran) up dn U D →
      outUp z 0 0 ≠ U 0 0 0 := by
  refine ⟨demo (1 / 3) true 0 1 1, _, demo_sound (by norm_num) _ _ _ _, fun _ => by norm_num [demo],
    fun Pmm up dn U D qf h1 hl hs e => h1 ?_⟩
  have e1 := C58_top_scaled (demo_sound (by norm_num) _ _ _ _) (fun _ _ => by norm_num [demo]) hl hs 0
  have e2 : outUp { demo (1 / 3) true 0 1 1 with Rs0 := fun l => qf * (demo (1 / 3) true 0 1 1).Rs0 l } 0 0 =
      qf * (1 / (768 * Real.pi)) := by
    obtain ⟨hx, hy, h2, -⟩ := demo_parts (1 / 3) true 0 1 1
    have hu : up2With { demo (1 / 3) true 0 1 1 with Rs0 := fun l => qf * (demo (1 / 3) true 0 1 1).Rs0 l } (fun _ => 3) 1 0 =
        psiY (demo (1 / 3) true 0 1 1) 0 0 * 0 + y (demo (1 / 3) true 0 1 1) 0 *
          (∑ l, tp (demo (1 / 3) true 0 1 1) 0 0 l * (phi2 (demo (1 / 3) true 0 1 1) 0 0 l * (qf * 1) +
            (1 * 0) * (w1u (demo (1 / 3) true 0 1 1) 0 0 l * w2u (demo (1 / 3) true 0 1 1) 0 0 l))) +
          3 / 4 * ∑ l, (phi3 (demo (1 / 3) true 0 1 1) 0 0 l * refl (demo (1 / 3) true 0 1 1) 0 0 l +
            rm (demo (1 / 3) true 0 1 1) 0 0 l * (w1d (demo (1 / 3) true 0 1 1) 0 0 l * w2d (demo (1 / 3) true 0 1 1) 0 0 l)) *
              (1 * 0) := rfl
    unfold outUp
    rw [if_pos rfl]
    refine (congrArg (fun v : ℝ => v * (1 * (1 / 3) / Real.pi)) hu).trans ?_
    simp only [Fintype.sum_unique, Fin.default_eq_zero, hy, h2, mul_zero, zero_mul, add_zero, zero_add, tp, share]
    simp only [demo]
    have := Real.pi_ne_zero
    field_simp
    norm_num
    ring
  rw [← e, e2, demo_out] at e1
  have hpi := Real.pi_ne_zero
  simp only [if_true] at e1
  field_simp at e1
  linarith

/-- **C58 violated** at levels: `out_levels` is not looked at; where the bottom is asked for,
and no light comes from there, the light of the top is returned, and the light that comes
down is returned as zero. -/
theorem C58_violated_levels : ∃ (z : Inp 1 1) (btran : Nat → ℝ), Sound z btran ∧ (∀ i, z.as0 i = 1 / z.mu0) ∧
    ∀ up dn U D, (once z 1 btran).Lit up dn → (twice z fun _ _ _ => 1).Seen (once z 1 btran) up dn U D →
      View.on (once z 1 btran) U z.L 0 = 0 ∧ 0 < outUp z 0 0 ∧ outDn (m := 1) 0 0 < View.on (once z 1 btran) D z.L 0 := by
  refine ⟨demo (1 / 3) false 1 1 0, _, demo_sound (by norm_num) _ _ _ _, fun _ => by norm_num [demo],
    fun up dn U D hl hs => ⟨?_, ?_, ?_⟩⟩
  · show U 0 (Real.log 2) 0 = 0
    have := congrFun hs.ground 0
    simp only [twice, demo, Matrix.mulVec, dotProduct, Pi.add_apply, Pi.zero_apply, zero_add] at this
    refine Eq.trans this ?_
    simp
  · rw [demo_out]
    have := Real.pi_pos
    norm_num
    exact this
  · show 0 < D 0 (Real.log 2) 0
    have h2 : 0 < Real.log 2 := Real.log_pos (by norm_num)
    have hpi := Real.pi_pos
    have hr := fun τ => once_rays (demo_sound (by norm_num) _ _ _ _) hl Nat.one_pos 0 τ
    refine grows (x := y (demo (1 / 3) false 1 1 0) 0) (by rw [(demo_parts _ _ _ _ _).2.1]; norm_num)
      (fun τ => twice_down (demo_sound (by norm_num) _ _ _ _) hs Nat.one_pos 0 τ) (congrFun hs.sky 0) (fun τ hτ => ?_) h2
    have hd : 0 < dn 0 τ 0 := grows (x := x (demo (1 / 3) false 1 1 0) 0) (by rw [(demo_parts _ _ _ _ _).1]; norm_num)
      (fun τ => (hr τ).2) (congrFun hl.sky 0) (fun τ _ => by simp only [demo, t0]; positivity) hτ
    simp only [Fintype.sum_unique, Fin.default_eq_zero, share, demo]
    norm_num
    exact hd

/-! ## Derivatives -/

/-- **C58.**  In plane layers what is computed as its derivative is its derivative, along any
curve of inputs and for any parameters with the layers named that change. -/
theorem C58_deriv_partial {z : Inp m n} {c : ℝ → Inp m n} {z' : Inp m n} {lay : Nat → Bool} {s : ℝ}
    (h : Varies z c z' lay s) (hx : ∀ j l, j < z.L → z.as0 j ≠ 1 / z.qx l) (io : Nat) (k : Fin m) :
    HasDerivAt (fun t => outUp (along z c t) io k) (outUpL (along z c s) z' lay io k) s := by
  unfold outUp outUpL
  by_cases h0 : io = 0
  · simp only [if_pos h0]
    exact (show HasDerivAt _ _ s from (up2_deriv h hx z.L le_rfl k).mul_const (z.F0 * z.mu0 / Real.pi))
  · simp only [if_neg h0]
    exact hasDerivAt_const s 0

example : HasDerivAt (fun t => outUp (along (demo (1 / 3) true 1 1 1)
      (fun t => { demo (1 / 3) true 1 1 1 with ltau := fun _ => Real.log 2 + t }) t) 0 0)
    (outUpL (along (demo (1 / 3) true 1 1 1) (fun t => { demo (1 / 3) true 1 1 1 with ltau := fun _ => Real.log 2 + t }) 0)
      { demo 0 true 0 0 0 with om := 0, ltau := 1, as0 := 0, Rs0 := 0, Rs := 0 } (fun i => i == 0) 0 0) 0 := by
  refine C58_deriv_partial (z := demo (1 / 3) true 1 1 1) ⟨fun _ => hasDerivAt_const _ _,
    fun _ => (hasDerivAt_id _).const_add _, fun _ => hasDerivAt_const _ _, fun _ _ => hasDerivAt_const _ _,
    fun _ _ => hasDerivAt_const _ _, fun _ _ => hasDerivAt_const _ _, fun _ _ _ => hasDerivAt_const _ _,
    fun _ _ _ => hasDerivAt_const _ _, fun _ _ _ => hasDerivAt_const _ _, fun _ => rfl, fun i hi hl => ?_,
    fun _ => ⟨rfl, rfl⟩⟩ (fun _ _ _ => by norm_num [demo]) 0 0
  have : i = 0 := Nat.lt_one_iff.1 hi
  subst this
  exact absurd hl (by decide)

/-- The slant of the beam in the layer on a curve. -/
noncomputable def slant (t : ℝ) : Inp 1 1 :=
  { demo (1 / 4) false 1 0 1 with as0 := fun _ => 3 + t, atran := fun _ => Real.exp (-(3 + t) * Real.log 2) }

/-- **C58 violated** where the slant changes with a parameter: the sign at
src/xrtm_two_os.c:745 is wrong. -/
theorem C58_violated_deriv (lay : Nat → Bool) : ¬ HasDerivAt (fun t => outUp (slant t) 0 0)
    (outUpL (slant 0) { demo 0 false 0 0 0 with om := 0, ltau := 0, as0 := 1, Rs0 := 0, Rs := 0 } lay 0 0) 0 := by
  have hE : HasDerivAt (fun t : ℝ => Real.exp (-(3 + t) * Real.log 2)) (-(Real.log 2) / 8) 0 := by
    have := (((hasDerivAt_id (0 : ℝ)).const_add 3).fun_neg.mul_const (Real.log 2)).exp
    refine this.congr_deriv ?_
    simp only [id, add_zero, exp_eighth]
    ring
  have h1 : HasDerivAt (fun t : ℝ => 1 + t) 1 0 := (hasDerivAt_id _).const_add _
  have h3 : HasDerivAt (fun t : ℝ => 3 + t) 1 0 := (hasDerivAt_id _).const_add _
  have h4 : HasDerivAt (fun t : ℝ => 4 + t) 1 0 := (hasDerivAt_id _).const_add _
  have hd := ((h3.div_const 4).fun_mul (((hasDerivAt_const (0 : ℝ) (2 : ℝ)).fun_div (h4.mul_const 3) (by norm_num)).fun_mul
    (((hE.const_mul (1 / 2)).const_sub 1).fun_sub (h4.fun_mul ((((hE.div_const 2).const_sub (1 / 8)).fun_div h1 (by norm_num))))))).mul_const
    (1 / 8 * (1 * (1 / 4) / Real.pi))
  intro hc
  have hx : ∀ t, x (slant t) 0 = 2 := fun t => (demo_parts (1 / 4) false 1 0 1).1
  have hy : ∀ t, y (slant t) 0 = 1 := fun t => (demo_parts (1 / 4) false 1 0 1).2.1
  have ha : ∀ t, alpha (slant t) 0 0 = 1 / 4 := fun t => by unfold alpha; rw [hx]; exact exp_fourth
  have hb : ∀ t, beta (slant t) 0 0 = 1 / 2 := fun t => by unfold beta; rw [hy, mul_one]; exact exp_half
  have hrm : ∀ t, rm (slant t) 0 0 0 = 1 / 8 := fun t => by
    show (1 : ℝ) * ((1 + if false = true then 1 else 0) / 4 * 1 * (1 / 2)) = 1 / 8
    norm_num
  have htp : ∀ t, tp (slant t) 0 0 0 = 0 := fun t => zero_mul _
  have hrf : ∀ t, refl (slant t) 0 0 0 = 0 := fun t => rfl
  have ho : ∀ t, outUp (slant t) 0 0 = (psiY (slant t) 0 0 * 0 + y (slant t) 0 * fromUp (slant t) 0 (up1 (slant t) 0) 0 +
      (3 + t) / 4 * fromDn (slant t) 0 (refl (slant t) 0) 0) * (1 * (1 / 4) / Real.pi) := fun t => rfl
  have hu : ∀ t, fromUp (slant t) 0 (up1 (slant t) 0) 0 = 0 := fun t => by
    unfold fromUp
    rw [Fintype.sum_unique, Fin.default_eq_zero, htp, zero_mul]
  have hn : ∀ t, 3 + t ≠ 2 → outUp (slant t) 0 0 = (3 + t) / 4 * (2 / ((4 + t) * 3) * (1 - 1 / 2 * Real.exp (-(3 + t) * Real.log 2) -
      (4 + t) * ((1 / 8 - Real.exp (-(3 + t) * Real.log 2) / 2) / (1 + t)))) * (1 / 8 * (1 * (1 / 4) / Real.pi)) := fun t ht => by
    rw [ho, hu]
    unfold fromDn
    rw [Fintype.sum_unique, Fin.default_eq_zero, hrf, hrm]
    unfold w1d w2d phi3 psiY
    rw [hx, hy, ha, hb]
    show (_ + (3 + t) / 4 * ((_ + 1 / 8 * (2 * 1 / ((1 + (3 + t)) * (2 + 1)) * (1 - 1 / 2 * Real.exp (-(3 + t) * Real.log 2) -
      (1 + (3 + t)) * (if 3 + t = 2 then _ else _)))) * (1 * 1))) * _ = _
    rw [if_neg ht]
    show (_ + (3 + t) / 4 * ((_ + 1 / 8 * (2 * 1 / ((1 + (3 + t)) * (2 + 1)) * (1 - 1 / 2 * Real.exp (-(3 + t) * Real.log 2) -
      (1 + (3 + t)) * ((1 / 2 * (1 / 4) - Real.exp (-(3 + t) * Real.log 2) * (1 / 2)) / (3 + t - 2))))) * (1 * 1))) * _ = _
    rw [show 1 + (3 + t) = 4 + t by ring, show 3 + t - 2 = 1 + t by ring]
    ring
  have he : (fun t => outUp (slant t) 0 0) =ᶠ[nhds 0] fun t => (3 + t) / 4 * (2 / ((4 + t) * 3) *
      (1 - 1 / 2 * Real.exp (-(3 + t) * Real.log 2) -
      (4 + t) * ((1 / 8 - Real.exp (-(3 + t) * Real.log 2) / 2) / (1 + t)))) * (1 / 8 * (1 * (1 / 4) / Real.pi)) := by
    filter_upwards [lt_mem_nhds (show (-1 : ℝ) < 0 by norm_num)] with t ht
    exact hn t (by intro; linarith)
  have e := (he.hasDerivAt_iff.1 hc).unique hd
  have hp3 : phi3 (slant 0) 0 0 0 = 1 / 16 := by
    unfold phi3
    rw [hx, ha, hb]
    show (if (3 : ℝ) + 0 = 2 then _ else (1 / 2 * (1 / 4) - Real.exp (-(3 + 0) * Real.log 2) * (1 / 2)) / (3 + 0 - 2)) = _
    rw [if_neg (by norm_num), add_zero, exp_eighth]
    norm_num
  have hps : psiY (slant 0) 0 0 = 1 / 16 := by
    unfold psiY
    rw [hb]
    show 1 / 2 * Real.exp (-(3 + 0) * Real.log 2) = _
    rw [add_zero, exp_eighth]
    norm_num
  have hw : w1d (slant 0) 0 0 0 * w2d (slant 0) 0 0 0 = 11 / 96 := by
    unfold w1d w2d
    rw [hx, hy, hp3, hps]
    show 2 * 1 / ((1 + (3 + 0)) * (2 + 1)) * (1 - 1 / 16 - (1 + (3 + 0)) * (1 / 16)) = _
    norm_num
  have hw1 : w1d (slant 0) 0 0 0 = 1 / 6 := by
    unfold w1d
    rw [hx, hy]
    show 2 * 1 / ((1 + ((3 : ℝ) + 0)) * (2 + 1)) = _
    norm_num
  have hw2 : w2d (slant 0) 0 0 0 = 11 / 16 := by
    rw [hw1] at hw
    linarith
  generalize hW : ({ demo 0 false 0 0 0 with om := 0, ltau := 0, as0 := 1, Rs0 := 0, Rs := 0 } : Inp 1 1) = W at e
  have hrmL : rmL (slant 0) W lay 0 0 0 = 0 := by
    subst hW
    show _ * (_ * (0 : ℝ) * _) + (if lay 0 = true then 0 * _ else 0) = 0
    simp
  have htpL : tpL (slant 0) W lay 0 0 0 = 0 := by
    subst hW
    show _ * (_ * (0 : ℝ) * _) + (if lay 0 = true then 0 * _ else 0) = 0
    simp
  have ht0L : t0L (slant 0) W lay 0 0 = 0 := by
    subst hW
    show (0 : ℝ) * _ + (if lay 0 = true then _ * 0 else 0) = 0
    simp
  have hpsL : psiYL (slant 0) W 0 0 = -Real.log 2 / 16 := by
    subst hW
    unfold psiYL
    rw [hps]
    show (-(0 : ℝ) * _ - Real.log 2 * 1) * _ = _
    ring
  have hp3L : phi3L (slant 0) W 0 0 0 = Real.log 2 / 16 - 1 / 16 := by
    unfold phi3L
    dsimp only
    rw [if_neg (by rw [hx]; show (3 : ℝ) + 0 ≠ 2; norm_num), hp3, hx, hb]
    subst hW
    show ((-(0 : ℝ) * _ * _ - (-(0 : ℝ) * _ - Real.log 2 * 1) * (Real.exp (-(3 + 0) * Real.log 2) * _)) - _ * 1) / (3 + 0 - 2) = _
    rw [add_zero, exp_eighth]
    ring
  have hW1 : W.as0 0 = 1 := by subst hW; rfl
  have hfd : fromDn (slant 0) 0 (refl (slant 0) 0) 0 = 11 / 768 := by
    unfold fromDn
    rw [Fintype.sum_unique, Fin.default_eq_zero, hrf, hrm, hw]
    show (_ * 0 + 1 / 8 * (11 / 96)) * ((1 : ℝ) * 1) = _
    norm_num
  have hfdL : fromDnL (slant 0) W lay 0 (refl (slant 0) 0) (reflL (slant 0) W lay 0) 0 =
      1 / 8 * (1 / 6) / 4 * (11 / 16) + 1 / 8 * (1 / 6) * (3 / 16 - 3 / 16 * Real.log 2) := by
    unfold fromDnL
    rw [Fintype.sum_unique, Fin.default_eq_zero, hrf, hrm, hw1, hw2, hrmL, ht0L, hp3L, hpsL, hp3, hx, hy, hW1]
    have hR : reflL (slant 0) W lay 0 0 0 = 0 := rfl
    have hT : t0 (slant 0) 0 0 = 1 := by show (1 : ℝ) * 1 = 1; norm_num
    have hA : (slant 0).as0 0 = 3 := by show (3 : ℝ) + 0 = 3; norm_num
    rw [hR, hT, hA]
    split_ifs <;> ring
  have hfu : fromUpL (slant 0) W lay 0 (up1 (slant 0) 0) (up1L (slant 0) W lay 0) 0 = 0 := by
    unfold fromUpL
    rw [Fintype.sum_unique, Fin.default_eq_zero, htp, htpL, zero_mul, zero_mul, add_zero]
  have hL : outUpL (slant 0) W lay 0 0 = (psiYL (slant 0) W 0 0 * 0 + psiY (slant 0) 0 0 * 0 +
      y (slant 0) 0 * fromUpL (slant 0) W lay 0 (up1 (slant 0) 0) (up1L (slant 0) W lay 0) 0 +
      (W.as0 0 * fromDn (slant 0) 0 (refl (slant 0) 0) 0 +
        (3 + 0) * fromDnL (slant 0) W lay 0 (refl (slant 0) 0) (reflL (slant 0) W lay 0) 0) / 4) *
      (1 * (1 / 4) / Real.pi) := rfl
  rw [hL, hfu, hfd, hfdL, hW1] at e
  simp only [add_zero, exp_eighth] at e
  have hpi := Real.pi_ne_zero
  generalize Real.log 2 = q at e
  field_simp at e
  ring_nf at e
  linarith

theorem log_two_ne : Real.log 2 ≠ 1 := fun h => by
  have h1 : (2 : ℝ) = Real.exp 1 := by rw [← h, Real.exp_log (by norm_num)]
  have := Real.add_one_lt_exp (show (1 : ℝ) ≠ 0 by norm_num)
  linarith

/-- **C58 violated** where a direction looked into is one of the directions of light and the
slant changes: src/xrtm_two_os.c:658 lacks a factor `ltau`. -/
theorem C58_violated_deriv_same :
    let z : ℝ → Inp 1 1 := fun t => { slant t with mu := fun _ => 1 / 2 }
    y (z 0) 0 = x (z 0) 0 ∧ ¬ HasDerivAt (fun t => phi2 (z t) 0 0 0)
      (phi2L (z 0) { demo 0 false 0 0 0 with ltau := 0, as0 := 1 } 0 0 0) 0 := by
  intro z
  have hy : ∀ t, y (z t) 0 = 2 := fun t => by show (1 : ℝ) / (1 / 2) = 2; norm_num
  have hx : ∀ t, x (z t) 0 = 2 := fun t => (demo_parts (1 / 4) false 1 0 1).1
  have hb : ∀ t, beta (z t) 0 0 = 1 / 4 := fun t => by unfold beta; rw [hy]; exact exp_fourth
  refine ⟨by rw [hy, hx], fun hc => ?_⟩
  have hE : HasDerivAt (fun t : ℝ => Real.exp (-(3 + t) * Real.log 2)) (-(Real.log 2) / 8) 0 := by
    have := (((hasDerivAt_id (0 : ℝ)).const_add 3).fun_neg.mul_const (Real.log 2)).exp
    refine this.congr_deriv ?_
    simp only [id, add_zero, exp_eighth]
    ring
  have hf : (fun t => phi2 (z t) 0 0 0) = fun t => Real.log 2 * (1 / 4 * Real.exp (-(3 + t) * Real.log 2)) := by
    funext t
    unfold phi2
    rw [if_pos ((hy t).trans (hx t).symm), hb]
    rfl
  rw [hf] at hc
  have e := hc.unique ((hE.const_mul (1 / 4)).const_mul (Real.log 2))
  unfold phi2L at e
  dsimp only at e
  rw [if_pos ((hy 0).trans (hx 0).symm), hb, hy] at e
  have e' : ((0 : ℝ) + Real.log 2 * (-0 * (2 + (3 + 0)) - 1)) * (1 / 4 * Real.exp (-(3 + 0) * Real.log 2)) =
      Real.log 2 * (1 / 4 * (-Real.log 2 / 8)) := e
  rw [add_zero, exp_eighth] at e'
  have hl : Real.log 2 ≠ 0 := (Real.log_pos (by norm_num)).ne'
  refine log_two_ne (mul_left_cancel₀ hl ?_)
  linarith

/-- **C58 violated** where the beam stands in one of the directions of light: at
src/xrtm_two_os.c:662 stands `-ltau` where its derivative belongs. -/
theorem C58_violated_deriv_sun :
    let z : Inp 1 1 := { demo (1 / 2) false 1 0 1 with as0 := fun _ => 2 }
    let c : ℝ → Inp 1 1 := fun t => { z with ltau := fun _ => Real.log 2 + t }
    z.as0 0 = x z 0 ∧ ¬ HasDerivAt (fun t => phi3 (along z c t) 0 0 0)
      (phi3L (along z c 0) { demo 0 false 0 0 0 with ltau := 1, as0 := 0 } 0 0 0) 0 := by
  intro z c
  have hx : ∀ t, x (along z c t) 0 = 2 := fun t => (demo_parts (1 / 2) false 1 0 1).1
  have hy : ∀ t, y (along z c t) 0 = 1 := fun t => (demo_parts (1 / 2) false 1 0 1).2.1
  have ha : ∀ t, (along z c t).as0 0 = x (along z c t) 0 := fun t => (hx t).symm
  refine ⟨(hx 0).symm, fun hc => ?_⟩
  have h1 : HasDerivAt (fun t : ℝ => Real.log 2 + t) 1 0 := (hasDerivAt_id _).const_add _
  have hf : (fun t => phi3 (along z c t) 0 0 0) = fun t => (Real.log 2 + t) *
      (Real.exp (-(Real.log 2 + t) * 1) * Real.exp (-(Real.log 2 + t) * 2)) := by
    funext t
    unfold phi3 beta alpha
    rw [if_pos (ha t), hx, hy]
    rfl
  rw [hf] at hc
  have e := hc.unique (h1.fun_mul ((h1.fun_neg.mul_const 1).exp.fun_mul (h1.fun_neg.mul_const 2).exp))
  unfold phi3L beta alpha at e
  dsimp only at e
  rw [if_pos (ha 0), hx, hy] at e
  have e' : ((1 : ℝ) + (Real.log 2 + 0) * -(Real.log 2 + 0) * (2 + 1)) *
      (Real.exp (-(Real.log 2 + 0) * 1) * Real.exp (-(Real.log 2 + 0) * 2)) = _ := e
  simp only [add_zero, mul_one, exp_half, exp_fourth] at e'
  have hl : Real.log 2 ≠ 0 := (Real.log_pos (by norm_num)).ne'
  refine log_two_ne (mul_left_cancel₀ hl ?_)
  linarith

end Xrtm.TwoOs
