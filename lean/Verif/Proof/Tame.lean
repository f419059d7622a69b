import Verif.Proof.Loss
import Mathlib.Analysis.SpecialFunctions.Exponential
import Mathlib.LinearAlgebra.FiniteDimensional.Basic

/-!
# Layers that make no light can be added
-/

namespace Xrtm.Whole

open Matrix Xrtm.Transfer Xrtm.Spec

variable {n : Nat}

/-! ### There is light in a medium -/

theorem carries_exists {m : Medium n} (hmu : ∀ i, m.mu i ≠ 0) (u d : Fin n → ℝ) :
    ∃ up dn, m.Carries 0 0 up dn ∧ up 0 = u ∧ dn 0 = d := by
  let E := Fin n ⊕ Fin n → ℝ
  let A : E →L[ℝ] E := LinearMap.toContinuousLinearMap (flow m)
  let y : ℝ → E := fun t => NormedSpace.exp (t • A) (Sum.elim u d)
  have hy : ∀ t, HasDerivAt y (flow m (y t)) t := fun t => by
    have h := hasDerivAt_exp_smul_const' (𝕂 := ℝ) A t
    exact h.clm_apply (hasDerivAt_const t (Sum.elim u d)) |>.congr_deriv (by simp [y, A])
  refine ⟨fun t i => y t (.inl i), fun t i => y t (.inr i), ?_, ?_, ?_⟩
  · intro τ i
    have h := hasDerivAt_pi.1 (hy τ)
    refine ⟨_, _, h (.inl i), h (.inr i), ?_, ?_⟩
    · change m.mu i * ((y τ (.inl i) - _) / m.mu i) = y τ (.inl i) - _ - 0
      rw [mul_div_cancel₀ _ (hmu i), sub_zero]
    · change -(m.mu i * -((y τ (.inr i) - _) / m.mu i)) = y τ (.inr i) - _ - 0
      rw [mul_neg, neg_neg, mul_div_cancel₀ _ (hmu i), sub_zero]
  · funext i; simp [y]
  · funext i; simp [y]

theorem carries_sum {m : Medium n} {u d u' d' : ℝ → Fin n → ℝ} (h : m.Carries 0 0 u d) (h' : m.Carries 0 0 u' d') :
    m.Carries 0 0 (fun t => u t + u' t) fun t => d t + d' t := by
  intro τ i
  obtain ⟨a, b, h1, h2, h3, h4⟩ := h τ i
  obtain ⟨a', b', h1', h2', h3', h4'⟩ := h' τ i
  refine ⟨_, _, h1.add h1', h2.add h2', ?_, ?_⟩
  · have : m.intoUp (u τ + u' τ) (d τ + d' τ) i = m.intoUp (u τ) (d τ) i + m.intoUp (u' τ) (d' τ) i := by
      simp only [Pi.add_apply, Medium.intoUp, mul_add, Finset.sum_add_distrib]; ring
    simp only [Pi.zero_apply, Pi.add_apply] at *
    rw [this]; linarith
  · have : m.intoDn (u τ + u' τ) (d τ + d' τ) i = m.intoDn (u τ) (d τ) i + m.intoDn (u' τ) (d' τ) i := by
      simp only [Pi.add_apply, Medium.intoDn, mul_add, Finset.sum_add_distrib]; ring
    simp only [Pi.zero_apply, Pi.add_apply] at *
    rw [this]; linarith

theorem carries_times {m : Medium n} {u d : ℝ → Fin n → ℝ} (c : ℝ) (h : m.Carries 0 0 u d) :
    m.Carries 0 0 (fun t => c • u t) fun t => c • d t := by
  intro τ i
  obtain ⟨a, b, h1, h2, h3, h4⟩ := h τ i
  refine ⟨_, _, h1.const_mul c, h2.const_mul c, ?_, ?_⟩
  · have : m.intoUp (c • u τ) (c • d τ) i = c * m.intoUp (u τ) (d τ) i := by
      simp only [Pi.smul_apply, smul_eq_mul, Medium.intoUp]
      rw [mul_left_comm c]
      congr 1; rw [Finset.mul_sum]; exact Finset.sum_congr rfl fun j _ => by ring
    simp only [Pi.zero_apply, Pi.smul_apply, smul_eq_mul] at *
    rw [this]; linear_combination c * h3
  · have : m.intoDn (c • u τ) (c • d τ) i = c * m.intoDn (u τ) (d τ) i := by
      simp only [Pi.smul_apply, smul_eq_mul, Medium.intoDn]
      rw [mul_left_comm c]
      congr 1; rw [Finset.mul_sum]; exact Finset.sum_congr rfl fun j _ => by ring
    simp only [Pi.zero_apply, Pi.smul_apply, smul_eq_mul] at *
    rw [this]; linear_combination c * h4

/-- All light in a medium. -/
def lights (m : Medium n) : Submodule ℝ (ℝ → (Fin n → ℝ) × (Fin n → ℝ)) where
  carrier := {f | m.Carries 0 0 (fun t => (f t).1) fun t => (f t).2}
  add_mem' h h' := carries_sum h h'
  zero_mem' := by
    intro τ i
    refine ⟨0, 0, hasDerivAt_const _ _, hasDerivAt_const _ _, ?_, ?_⟩ <;> simp [Medium.intoUp, Medium.intoDn]
  smul_mem' c _ h := carries_times c h

/-- A layer lets light in from both sides. -/
theorem fills_onto {m : Medium n} (hmu : ∀ i, m.mu i ≠ 0) {T : ℝ} {l : Layer n ℝ} (h : m.Fills 0 0 T (hush l))
    (a b : Fin n → ℝ) : ∃ up dn, m.Carries 0 0 up dn ∧ dn 0 = a ∧ up T = b := by
  let ev : lights m →ₗ[ℝ] (Fin n → ℝ) × (Fin n → ℝ) :=
    { toFun := fun f => f.1 0, map_add' := fun _ _ => rfl, map_smul' := fun _ _ => rfl }
  have inj : Function.Injective ev := by
    rw [← LinearMap.ker_eq_bot, LinearMap.ker_eq_bot']
    rintro ⟨f, hf⟩ e
    change f 0 = 0 at e
    have := carries_zero_of hmu hf (t := 0) (congrArg Prod.fst e) (congrArg Prod.snd e)
    ext t : 2
    exact Prod.ext (congrFun this.1 t) (congrFun this.2 t)
  have surj : Function.Surjective ev := by
    rintro ⟨u, d⟩
    obtain ⟨up, dn, hc, rfl, rfl⟩ := carries_exists hmu u d
    exact ⟨⟨fun t => (up t, dn t), hc⟩, rfl⟩
  let e := LinearEquiv.ofBijective ev ⟨inj, surj⟩
  let io : lights m →ₗ[ℝ] (Fin n → ℝ) × (Fin n → ℝ) :=
    { toFun := fun f => ((f.1 0).2, (f.1 T).1), map_add' := fun _ _ => rfl, map_smul' := fun _ _ => rfl }
  have inj1 : Function.Injective io := by
    rw [← LinearMap.ker_eq_bot, LinearMap.ker_eq_bot']
    rintro ⟨f, hf⟩ e
    have e1 : (f 0).2 = 0 := congrArg Prod.fst e
    have e2 : (f T).1 = 0 := congrArg Prod.snd e
    have h1 : (f 0).1 = l.Rm *ᵥ (f 0).2 + l.Tp *ᵥ (f T).1 + 0 := (h _ _ hf).1
    rw [e1, e2, mulVec_zero, mulVec_zero, add_zero, add_zero] at h1
    have := carries_zero_of hmu hf (t := 0) h1 e1
    ext t : 2
    exact Prod.ext (congrFun this.1 t) (congrFun this.2 t)
  have inj2 : Function.Injective (io ∘ₗ e.symm.toLinearMap) := by
    rw [LinearMap.coe_comp]
    exact inj1.comp e.symm.injective
  have surj2 : Function.Surjective (io ∘ₗ e.symm.toLinearMap) := LinearMap.surjective_of_injective inj2
  obtain ⟨x, hx⟩ := surj2 (a, b)
  let g : lights m := e.symm x
  have hx' : io g = (a, b) := hx
  exact ⟨fun t => (g.1 t).1, fun t => (g.1 t).2, g.2, congrArg Prod.fst hx', congrArg Prod.snd hx'⟩

/-! ### Light that gets lost -/

/-- The flux of the square of light in one direction. -/
noncomputable def power (mu w v : Fin n → ℝ) : ℝ := ∑ j, w j * mu j * v j ^ 2

theorem power_nonneg {mu w : Fin n → ℝ} (hmu : ∀ j, 0 < mu j) (hw : ∀ j, 0 < w j) (v : Fin n → ℝ) : 0 ≤ power mu w v :=
  Finset.sum_nonneg fun j _ => mul_nonneg (mul_nonneg (hw j).le (hmu j).le) (sq_nonneg _)

theorem power_zero {mu w : Fin n → ℝ} (hmu : ∀ j, 0 < mu j) (hw : ∀ j, 0 < w j) {v : Fin n → ℝ} (h : power mu w v ≤ 0) :
    v = 0 := by
  have hn : ∀ j ∈ Finset.univ, 0 ≤ w j * mu j * v j ^ 2 := fun j _ =>
    mul_nonneg (mul_nonneg (hw j).le (hmu j).le) (sq_nonneg _)
  have := (Finset.sum_eq_zero_iff_of_nonneg hn).1 (le_antisymm h (Finset.sum_nonneg hn))
  funext j
  have hj := this j (Finset.mem_univ j)
  exact pow_eq_zero_iff two_ne_zero |>.1 ((mul_eq_zero.1 hj).resolve_left (mul_pos (hw j) (hmu j)).ne')

theorem power_of_zero {mu w : Fin n → ℝ} : power mu w 0 = 0 := by simp [power]

/-- No more comes out than goes in, and something gets through. -/
structure Tame (mu w : Fin n → ℝ) (l : Layer n ℝ) : Prop where
  loss : ∀ a b c d, (hush l).Obeys a b c d → power mu w b + power mu w c ≤ power mu w a + power mu w d
  down : ∀ a, l.Tm *ᵥ a = 0 → a = 0
  up : ∀ a, l.Tp *ᵥ a = 0 → a = 0

theorem fills_tame {m : Medium n} {mu w : Fin n → ℝ} (em : m.mu = mu) (ew : m.w = w) (hmu : ∀ j, 0 < mu j)
    (hm : m.Passive) {T : ℝ} (hT : 0 ≤ T) {l : Layer n ℝ} (h : m.Fills 0 0 T (hush l)) : Tame mu w l := by
  have hmu' : ∀ j, m.mu j ≠ 0 := fun j => by rw [em]; exact (hmu j).ne'
  have get : ∀ a b c d, (hush l).Obeys a b c d →
      ∃ up dn, m.Carries 0 0 up dn ∧ dn 0 = a ∧ up 0 = b ∧ dn T = c ∧ up T = d := by
    intro a b c d hl
    obtain ⟨up, dn, hc, rfl, rfl⟩ := fills_onto hmu' h a d
    obtain ⟨h1, h2⟩ := h _ _ hc
    exact ⟨up, dn, hc, rfl, h1.trans hl.1.symm, h2.trans hl.2.symm, rfl⟩
  refine ⟨fun a b c d hl => ?_, fun a ha => ?_, fun a ha => ?_⟩
  · obtain ⟨up, dn, hc, rfl, rfl, rfl, rfl⟩ := get a b c d hl
    have := flux_mono hm hc hT
    simp only [em, ew, flux, mul_sub, Finset.sum_sub_distrib] at this
    unfold power
    linarith
  · obtain ⟨up, dn, hc, e1, e2, e3, e4⟩ := get a (l.Rm *ᵥ a) 0 0 (by
      constructor <;> simp [hush, ha])
    have := (carries_zero_of hmu' hc (t := T) e4 e3).2
    rw [← e1, this]; rfl
  · obtain ⟨up, dn, hc, e1, e2, e3, e4⟩ := get 0 0 (l.Rp *ᵥ a) a (by
      constructor <;> simp [hush, ha])
    have := (carries_zero_of hmu' hc (t := 0) e2 e1).1
    rw [← e4, this]; rfl

theorem regular_of {A B : Matrix (Fin n) (Fin n) ℝ} (h : ∀ v, A *ᵥ (B *ᵥ v) = v → v = 0) : Regular A B := by
  have hi : Function.Injective (1 - A * B).mulVec := by
    intro x y hxy
    have : (1 - A * B) *ᵥ (x - y) = 0 := by rw [mulVec_sub, sub_eq_zero]; exact hxy
    rw [sub_mulVec, one_mulVec, ← mulVec_mulVec, sub_eq_zero] at this
    exact sub_eq_zero.1 (h _ this.symm)
  have hu := mulVec_injective_iff_isUnit.1 hi
  obtain ⟨q, hq⟩ := hu.exists_left_inv
  exact ⟨q, hq⟩

variable {mu w : Fin n → ℝ}

theorem Tame.rp (hmu : ∀ j, 0 < mu j) (hw : ∀ j, 0 < w j) {l : Layer n ℝ} (h : Tame mu w l) (v : Fin n → ℝ) :
    power mu w (l.Rp *ᵥ v) ≤ power mu w v ∧ (power mu w v ≤ power mu w (l.Rp *ᵥ v) → v = 0) := by
  have := h.loss 0 (l.Tp *ᵥ v) (l.Rp *ᵥ v) v (by constructor <;> simp [hush])
  rw [power_of_zero, zero_add] at this
  have h0 := power_nonneg hmu hw (l.Tp *ᵥ v)
  exact ⟨by linarith, fun h1 => h.up v (power_zero hmu hw (by linarith))⟩

theorem Tame.rm (hmu : ∀ j, 0 < mu j) (hw : ∀ j, 0 < w j) {l : Layer n ℝ} (h : Tame mu w l) (v : Fin n → ℝ) :
    power mu w (l.Rm *ᵥ v) ≤ power mu w v := by
  have := h.loss v (l.Rm *ᵥ v) (l.Tm *ᵥ v) 0 (by constructor <;> simp [hush])
  rw [power_of_zero, add_zero] at this
  have h0 := power_nonneg hmu hw (l.Tm *ᵥ v)
  linarith

/-- A mirror that makes no light, below a layer that makes none. -/
theorem tame_mirror (hmu : ∀ j, 0 < mu j) (hw : ∀ j, 0 < w j) {l : Layer n ℝ} (h : Tame mu w l)
    {R : Matrix (Fin n) (Fin n) ℝ} (hR : ∀ v, power mu w (R *ᵥ v) ≤ power mu w v) : Regular R l.Rp := by
  refine regular_of fun v hv => (h.rp hmu hw v).2 ?_
  have := hR (l.Rp *ᵥ v)
  rwa [hv] at this

theorem tame_mirror' (hmu : ∀ j, 0 < mu j) (hw : ∀ j, 0 < w j) {l : Layer n ℝ} (h : Tame mu w l)
    {R : Matrix (Fin n) (Fin n) ℝ} (hR : ∀ v, power mu w (R *ᵥ v) ≤ power mu w v) : Regular l.Rp R := by
  refine regular_of fun v hv => ?_
  have h0 := hR v
  have h1 := (h.rp hmu hw (R *ᵥ v)).2 (by rw [hv]; exact h0)
  rw [h1, mulVec_zero] at hv
  exact hv.symm

theorem hush_obeys {l : Layer n ℝ} {a b c d : Fin n → ℝ} :
    (hush l).Obeys a b c d ↔ b = l.Rm *ᵥ a + l.Tp *ᵥ d ∧ c = l.Tm *ᵥ a + l.Rp *ᵥ d := by
  unfold Layer.Obeys hush
  simp

/-- Light through two layers that make none of their own. -/
theorem stacked_hush {top bot r : Layer n ℝ} (h : Stacked top bot r) {a b c d : Fin n → ℝ} :
    (hush r).Obeys a b c d ↔ ∃ x y, (hush top).Obeys a b x y ∧ (hush bot).Obeys x y c d := by
  obtain ⟨x0, y0, t0, b0⟩ := (h 0 r.Sp r.Sm 0).1 (by constructor <;> simp)
  constructor
  · intro hr
    have h0 : r.Obeys 0 r.Sp r.Sm 0 := by constructor <;> simp
    obtain ⟨x, y, t1, b1⟩ := (h _ _ _ _).1 (obeys_add hr h0)
    have q1 := obeys_sub t1 t0
    have q2 := obeys_sub b1 b0
    simp only [add_sub_cancel_right] at q1 q2
    exact ⟨_, _, q1, q2⟩
  · rintro ⟨x, y, t1, b1⟩
    have := (h _ _ _ _).2 ⟨_, _, obeys_add t1 t0, obeys_add b1 b0⟩
    have h0 : r.Obeys 0 r.Sp r.Sm 0 := by constructor <;> simp
    have := obeys_sub this h0
    simpa only [add_sub_cancel_right] using this

theorem stacked_tame {top bot r : Layer n ℝ} (ht : Tame mu w top) (hb : Tame mu w bot) (h : Stacked top bot r) :
    Tame mu w r := by
  refine ⟨fun a b c d hr => ?_, fun a ha => ?_, fun a ha => ?_⟩
  · obtain ⟨x, y, h1, h2⟩ := (stacked_hush h).1 hr
    have := ht.loss _ _ _ _ h1
    have := hb.loss _ _ _ _ h2
    linarith
  · obtain ⟨x, y, h1, h2⟩ := (stacked_hush h (a := a) (b := r.Rm *ᵥ a) (c := 0) (d := 0)).1
      (hush_obeys.2 ⟨by simp, by simp [ha]⟩)
    rw [hush_obeys] at h1 h2
    simp only [mulVec_zero, add_zero] at h2
    have hx := hb.down x h2.2.symm
    rw [hx, mulVec_zero] at h2
    simp only [hx, h2.1, mulVec_zero, add_zero] at h1
    exact ht.down a h1.2.symm
  · obtain ⟨x, y, h1, h2⟩ := (stacked_hush h (a := 0) (b := 0) (c := r.Rp *ᵥ a) (d := a)).1
      (hush_obeys.2 ⟨by simp [ha], by simp⟩)
    rw [hush_obeys] at h1 h2
    simp only [mulVec_zero, zero_add] at h1
    have hy := ht.up y h1.1.symm
    rw [hy, mulVec_zero] at h1
    simp only [hy, h1.2, mulVec_zero, zero_add] at h2
    exact hb.up a h2.1.symm

theorem tame_clearDown (hmu : ∀ j, 0 < mu j) (hw : ∀ j, 0 < w j) :
    ∀ {r : Layer n ℝ} {ls : List (Layer n ℝ)}, Tame mu w r → (∀ l ∈ ls, Tame mu w l) → ClearDown r ls
  | _, [], _, _ => trivial
  | _, b :: _, hr, hl =>
    ⟨tame_mirror hmu hw hr fun v => (hl b (by simp)).rm hmu hw v,
      fun _ h' => tame_clearDown hmu hw (stacked_tame hr (hl b (by simp)) h') fun l h => hl l (by simp [h])⟩

/-- A mirror that makes no light. -/
def Dull (mu w : Fin n → ℝ) (m : Mirror n ℝ) : Prop := ∀ v, power mu w (m.R *ᵥ v) ≤ power mu w v

theorem backed_dull (hmu : ∀ j, 0 < mu j) (hw : ∀ j, 0 < w j) {l : Layer n ℝ} (hl : Tame mu w l) {m m' : Mirror n ℝ}
    (hm : Dull mu w m) (h : Backed l m m') : Dull mu w m' := by
  intro v
  obtain ⟨x0, y0, t0, b0⟩ := (h 0 m'.S).1 (by change _ = _; simp)
  obtain ⟨x, y, t1, b1⟩ := (h v (m'.R *ᵥ v + m'.S)).1 rfl
  have q1 := obeys_sub t1 t0
  simp only [add_sub_cancel_right, sub_zero] at q1
  have q2 : y - y0 = m.R *ᵥ (x - x0) := by
    change y = _ at b1
    change y0 = _ at b0
    rw [b1, b0, mulVec_sub]; abel
  have l1 := hl.loss _ _ _ _ q1
  have l2 := hm (x - x0)
  rw [← q2] at l2
  linarith

theorem tame_clearUp (hmu : ∀ j, 0 < mu j) (hw : ∀ j, 0 < w j) :
    ∀ {m : Mirror n ℝ} {ls : List (Layer n ℝ)}, Dull mu w m → (∀ l ∈ ls, Tame mu w l) → ClearUp m ls
  | _, [], _, _ => trivial
  | _, b :: _, hm, hl =>
    ⟨tame_mirror hmu hw (hl b (by simp)) hm,
      fun _ h' => tame_clearUp hmu hw (backed_dull hmu hw (hl b (by simp)) hm h') fun l h => hl l (by simp [h])⟩

theorem Tame.flip {l : Layer n ℝ} (h : Tame mu w l) : Tame mu w l.flip := by
  refine ⟨fun a b c d hl => ?_, h.up, h.down⟩
  rw [hush_obeys] at hl
  have := h.loss d c b a (hush_obeys.2 ⟨by rw [hl.2]; exact add_comm _ _, by rw [hl.1]; exact add_comm _ _⟩)
  linarith

theorem through_sub : ∀ {ls : List (Layer n ℝ)} {a b c d a' b' c' d' : Fin n → ℝ}, Through ls a b c d →
    Through ls a' b' c' d' → Through (ls.map hush) (a - a') (b - b') (c - c') (d - d')
  | [], _, _, _, _, _, _, _, _, h, h' => by
      obtain ⟨rfl, rfl⟩ := h
      obtain ⟨rfl, rfl⟩ := h'
      exact ⟨rfl, rfl⟩
  | _ :: _, _, _, _, _, _, _, _, _, ⟨x, y, h1, h2⟩, ⟨x', y', h1', h2'⟩ =>
      ⟨x - x', y - y', obeys_sub h1 h1', through_sub h2 h2'⟩

theorem joined_through {ls : List (Layer n ℝ)} {r : Layer n ℝ} (h : Joined ls r) {a b c d : Fin n → ℝ}
    (hr : (hush r).Obeys a b c d) : Through (ls.map hush) a b c d := by
  have h0 : r.Obeys 0 r.Sp r.Sm 0 := by constructor <;> simp
  have := through_sub ((h _ _ _ _).1 (obeys_add hr h0)) ((h _ _ _ _).1 h0)
  simpa only [add_sub_cancel_right] using this

theorem joined_tame {ls : List (Layer n ℝ)} (hl : ∀ l ∈ ls, Tame mu w l) {r : Layer n ℝ} (h : Joined ls r) :
    Tame mu w r := by
  have loss : ∀ ls : List (Layer n ℝ), (∀ l ∈ ls, Tame mu w l) → ∀ a b c d, Through (ls.map hush) a b c d →
      power mu w b + power mu w c ≤ power mu w a + power mu w d := by
    intro ls
    induction ls with
    | nil => rintro - a b c d ⟨rfl, rfl⟩; linarith
    | cons l ls ih =>
      rintro hl a b c d ⟨x, y, h1, h2⟩
      have := (hl l (by simp)).loss _ _ _ _ h1
      have := ih (fun l h => hl l (by simp [h])) _ _ _ _ h2
      linarith
  have down : ∀ ls : List (Layer n ℝ), (∀ l ∈ ls, Tame mu w l) → ∀ a b, Through (ls.map hush) a b 0 0 → a = 0 ∧ b = 0 := by
    intro ls
    induction ls with
    | nil => rintro - a b ⟨h1, h2⟩; exact ⟨h1.symm, h2.symm⟩
    | cons l ls ih =>
      rintro hl a b ⟨x, y, h1, h2⟩
      obtain ⟨rfl, rfl⟩ := ih (fun l h => hl l (by simp [h])) _ _ h2
      rw [hush_obeys] at h1
      simp only [mulVec_zero, add_zero] at h1
      have := (hl l (by simp)).down a h1.2.symm
      rw [this, mulVec_zero] at h1
      exact ⟨this, h1.1⟩
  have up : ∀ ls : List (Layer n ℝ), (∀ l ∈ ls, Tame mu w l) → ∀ c d, Through (ls.map hush) 0 0 c d → c = 0 ∧ d = 0 := by
    intro ls
    induction ls with
    | nil => rintro - c d ⟨h1, h2⟩; exact ⟨h1, h2⟩
    | cons l ls ih =>
      rintro hl c d ⟨x, y, h1, h2⟩
      rw [hush_obeys] at h1
      simp only [mulVec_zero, zero_add] at h1
      have := (hl l (by simp)).up y h1.1.symm
      rw [this, mulVec_zero] at h1
      rw [this, h1.2, mulVec_zero] at h2
      exact ih (fun l h => hl l (by simp [h])) _ _ h2
  refine ⟨fun a b c d hr => loss ls hl a b c d (joined_through h hr), fun a ha => ?_, fun a ha => ?_⟩
  · exact (down ls hl a (r.Rm *ᵥ a) (joined_through h (hush_obeys.2 ⟨by simp, by simp [ha]⟩))).1
  · exact (up ls hl (r.Rp *ᵥ a) a (joined_through h (hush_obeys.2 ⟨by simp [ha], by simp⟩))).2

end Xrtm.Whole
