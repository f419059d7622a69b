import Verif.Model.TwoOs
import Verif.Spec.View
import Mathlib.Analysis.Calculus.MeanValue
import Mathlib.MeasureTheory.Integral.IntervalIntegral.FundThmCalculus

/-!
# Two orders of scattering: one ray at a time, and the climb through the layers
-/

namespace Xrtm.TwoOs
open Xrtm.Transfer

variable {m n : Nat}

theorem same_of_flat {f : ℝ → ℝ} (h : ∀ τ, HasDerivAt f 0 τ) (a b : ℝ) : f a = f b :=
  is_const_of_deriv_eq_zero (fun τ => (h τ).differentiableAt) (fun τ => (h τ).deriv) a b

theorem decay (a τ : ℝ) : HasDerivAt (fun t => Real.exp (-a * t)) (-a * Real.exp (-a * τ)) τ := by
  have := ((hasDerivAt_id τ).const_mul (-a)).exp
  simpa [mul_comm] using this

section ray
variable {u v : ℝ → ℝ} {x y a S T : ℝ}

/-- Light upwards that a beam feeds. -/
theorem up_all (h : ∀ τ, HasDerivAt u (x * (u τ - S * Real.exp (-a * τ))) τ) (hx : x + a ≠ 0) (T τ : ℝ) :
    u τ = (u T - x * S / (x + a) * Real.exp (-a * T)) * Real.exp (-x * (T - τ)) +
      x * S / (x + a) * Real.exp (-a * τ) := by
  have hf : ∀ τ, HasDerivAt (fun t => (u t - x * S / (x + a) * Real.exp (-a * t)) * Real.exp (-x * t)) 0 τ := fun τ => by
    refine (((h τ).sub ((decay a τ).const_mul _)).mul (decay x τ)).congr_deriv ?_
    simp only [Pi.sub_apply]
    field_simp
    ring
  have e := same_of_flat hf τ T
  have e1 : Real.exp (-x * (T - τ)) = Real.exp (-x * T) / Real.exp (-x * τ) := by
    rw [← Real.exp_sub]; ring_nf
  have e2 := Real.exp_pos (-x * τ)
  rw [e1]
  have : u τ - x * S / (x + a) * Real.exp (-a * τ) =
      (u T - x * S / (x + a) * Real.exp (-a * T)) * Real.exp (-x * T) / Real.exp (-x * τ) := by
    rw [eq_div_iff e2.ne', e]
  rw [← mul_div_assoc, ← this]
  ring

theorem up_end (h : ∀ τ, HasDerivAt u (x * (u τ - S * Real.exp (-a * τ))) τ) (hx : x + a ≠ 0) (T : ℝ) :
    u 0 = Real.exp (-x * T) * u T + x * S / (x + a) * (1 - Real.exp (-x * T) * Real.exp (-a * T)) := by
  rw [up_all h hx T 0]
  simp
  ring

open Classical in
/-- The light along a direction `y` that is made of it. -/
theorem up_int (h : ∀ τ, HasDerivAt u (x * (u τ - S * Real.exp (-a * τ))) τ) (hx : x + a ≠ 0) (hy : y + a ≠ 0) (T : ℝ) :
    ∃ G : ℝ → ℝ, (∀ τ, HasDerivAt G (u τ * Real.exp (-y * τ)) τ) ∧
      G T - G 0 = (if y = x then T * Real.exp (-y * T) else (Real.exp (-y * T) - Real.exp (-x * T)) / (x - y)) * u T +
        x * S / ((x + a) * (y + a)) * (1 - Real.exp (-y * T) * Real.exp (-a * T) - (y + a) *
          ((if y = x then T * Real.exp (-y * T) else (Real.exp (-y * T) - Real.exp (-x * T)) / (x - y)) *
            Real.exp (-a * T))) := by
  set K := (u T - x * S / (x + a) * Real.exp (-a * T)) * Real.exp (-x * T) with hK
  have hu : ∀ τ, u τ * Real.exp (-y * τ) = K * Real.exp ((x - y) * τ) + x * S / (x + a) * Real.exp (-(a + y) * τ) := by
    intro τ
    rw [up_all h hx T τ, hK]
    have e1 : Real.exp (-x * (T - τ)) = Real.exp (-x * T) * Real.exp (x * τ) := by rw [← Real.exp_add]; ring_nf
    have e2 : Real.exp ((x - y) * τ) = Real.exp (x * τ) * Real.exp (-y * τ) := by rw [← Real.exp_add]; ring_nf
    have e3 : Real.exp (-(a + y) * τ) = Real.exp (-a * τ) * Real.exp (-y * τ) := by rw [← Real.exp_add]; ring_nf
    rw [e1, e2, e3]
    ring
  have hay : a + y ≠ 0 := by rwa [add_comm]
  have e3 : Real.exp (-(a + y) * T) = Real.exp (-a * T) * Real.exp (-y * T) := by rw [← Real.exp_add]; ring_nf
  by_cases hxy : y = x
  · refine ⟨fun τ => K * τ - x * S / (x + a) / (a + y) * Real.exp (-(a + y) * τ), fun τ => ?_, ?_⟩
    · rw [hu τ]
      refine (((hasDerivAt_id τ).const_mul K).sub ((decay (a + y) τ).const_mul _)).congr_deriv ?_
      rw [hxy, sub_self, zero_mul, Real.exp_zero]
      rw [hxy] at hay
      field_simp
      ring
    · dsimp only
      rw [if_pos hxy, e3, hK]
      rw [hxy] at hay ⊢
      simp only [mul_zero, Real.exp_zero]
      generalize Real.exp (-x * T) = X
      generalize Real.exp (-a * T) = A
      have := hx
      rw [add_comm] at hay
      rw [add_comm a x]
      field_simp
      ring
  · have hd : x - y ≠ 0 := sub_ne_zero.2 (Ne.symm hxy)
    refine ⟨fun τ => K / (x - y) * Real.exp ((x - y) * τ) - x * S / (x + a) / (a + y) * Real.exp (-(a + y) * τ), fun τ => ?_, ?_⟩
    · rw [hu τ]
      have d1 := (decay (-(x - y)) τ).const_mul (K / (x - y))
      rw [neg_neg] at d1
      refine (d1.sub ((decay (a + y) τ).const_mul _)).congr_deriv ?_
      field_simp
      ring
    · dsimp only
      rw [if_neg hxy, e3, hK]
      have e4 : Real.exp (-y * T) = Real.exp (-x * T) * Real.exp ((x - y) * T) := by rw [← Real.exp_add]; ring_nf
      rw [e4]
      simp only [mul_zero, Real.exp_zero]
      generalize Real.exp (-x * T) = X
      generalize Real.exp (-a * T) = A
      generalize Real.exp ((x - y) * T) = Y
      rw [add_comm a y]
      field_simp
      ring

open Classical in
/-- Light downwards that a beam feeds. -/
theorem dn_end (h : ∀ τ, HasDerivAt v (-x * (v τ - S * Real.exp (-a * τ))) τ) (T : ℝ) :
    v T = v 0 * Real.exp (-x * T) + x * S *
      if a = x then T * Real.exp (-x * T) else (Real.exp (-x * T) - Real.exp (-a * T)) / (a - x) := by
  have e2 := Real.exp_pos (-x * T)
  have g : ∀ τ, HasDerivAt (fun t => Real.exp (x * t)) (x * Real.exp (x * τ)) τ := fun τ => by
    have := decay (-x) τ
    rwa [neg_neg] at this
  have e1 : Real.exp (x * T) * Real.exp (-x * T) = 1 := by rw [← Real.exp_add]; ring_nf; simp
  by_cases hax : a = x
  · rw [if_pos hax]
    have hf : ∀ τ, HasDerivAt (fun t => v t * Real.exp (x * t) - x * S * t) 0 τ := fun τ => by
      refine (((h τ).mul (g τ)).sub ((hasDerivAt_id τ).const_mul _)).congr_deriv ?_
      have : Real.exp (-a * τ) * Real.exp (x * τ) = 1 := by rw [← Real.exp_add, hax]; ring_nf; simp
      linear_combination (x * S) * this
    have e := same_of_flat hf T 0
    simp only [mul_zero, Real.exp_zero, mul_one, sub_zero] at e
    linear_combination Real.exp (-x * T) * e - v T * e1
  · rw [if_neg hax]
    have hd : a - x ≠ 0 := sub_ne_zero.2 hax
    have hf : ∀ τ, HasDerivAt (fun t => (v t + x * S / (a - x) * Real.exp (-a * t)) * Real.exp (x * t)) 0 τ := fun τ => by
      refine (((h τ).add ((decay a τ).const_mul _)).mul (g τ)).congr_deriv ?_
      simp only [Pi.add_apply]
      field_simp
      ring
    have e := same_of_flat hf T 0
    simp only [mul_zero, Real.exp_zero, mul_one] at e
    have : v T + x * S / (a - x) * Real.exp (-a * T) = (v 0 + x * S / (a - x)) * Real.exp (-x * T) := by
      linear_combination Real.exp (-x * T) * e - (v T + x * S / (a - x) * Real.exp (-a * T)) * e1
    have e5 : v T = (v 0 + x * S / (a - x)) * Real.exp (-x * T) - x * S / (a - x) * Real.exp (-a * T) := by linarith
    rw [e5]
    field_simp
    ring

/-- The light along a direction `y` that is made of it. -/
theorem dn_int (h : ∀ τ, HasDerivAt v (-x * (v τ - S * Real.exp (-a * τ))) τ) (hy : y + a ≠ 0) (hxy : x + y ≠ 0) (T : ℝ) :
    ∃ G : ℝ → ℝ, (∀ τ, HasDerivAt G (v τ * Real.exp (-y * τ)) τ) ∧
      G T - G 0 = (v 0 - v T * Real.exp (-y * T) +
        x * S / (y + a) * (1 - Real.exp (-y * T) * Real.exp (-a * T))) / (x + y) := by
  have e3 : ∀ τ, Real.exp (-(y + a) * τ) = Real.exp (-y * τ) * Real.exp (-a * τ) := fun τ => by
    rw [← Real.exp_add]; ring_nf
  refine ⟨fun τ => -(v τ * Real.exp (-y * τ) + x * S / (y + a) * Real.exp (-(y + a) * τ)) / (x + y), fun τ => ?_, ?_⟩
  · refine ((((h τ).mul (decay y τ)).add ((decay (y + a) τ).const_mul _)).neg.div_const _).congr_deriv ?_
    rw [e3]
    field_simp
    ring
  · dsimp only
    rw [e3]
    simp only [mul_zero, Real.exp_zero, mul_one]
    ring

/-- Light in a direction made of such light. -/
theorem ray_end {k : Nat} {U : ℝ → ℝ} {f G : Fin k → ℝ → ℝ} (hU : ∀ τ, HasDerivAt U (y * (U τ - ∑ l, f l τ)) τ)
    (hG : ∀ l τ, HasDerivAt (G l) (f l τ * Real.exp (-y * τ)) τ) (T : ℝ) :
    U 0 = Real.exp (-y * T) * U T + y * ∑ l, (G l T - G l 0) := by
  have hf : ∀ τ, HasDerivAt (fun t => U t * Real.exp (-y * t) + y * ∑ l, G l t) 0 τ := fun τ => by
    refine (((hU τ).mul (decay y τ)).add ((HasDerivAt.fun_sum fun l _ => hG l τ).const_mul y)).congr_deriv ?_
    rw [← Finset.sum_mul]
    ring
  have e := same_of_flat hf 0 T
  simp only [mul_zero, Real.exp_zero, mul_one] at e
  rw [Finset.sum_sub_distrib]
  linear_combination e

end ray

/-! ## The climb -/

/-- The first order of light in the layers: the beam scattered once, and what the ground
sends up of it. -/
noncomputable def once (z : Inp m n) (qf : ℝ) (btran : Nat → ℝ) : Stack n where
  L := z.L
  med := fun i => ⟨z.qx, z.qw, (1 + if z.first then 1 else 0) / 4 * z.om i, 0, 0, 0, 0⟩
  T := z.ltau
  qp := fun i τ l => btran i * beamSource z.F0 (z.om i) (z.as0 i) (z.P0pm i) τ l
  qm := fun i τ l => btran i * beamSource z.F0 (z.om i) (z.as0 i) (z.P0mm i) τ l
  top := 0
  bot := fun l => if z.surface then qf * z.mu0 * z.F0 / Real.pi * btran z.L * z.Rs0 l else 0
  Rs := 0

/-- What is scattered once more into the directions asked for. -/
noncomputable def twice (z : Inp m n) (Pmm : Nat → Matrix (Fin m) (Fin n) ℝ) : View m n where
  mu := z.mu
  Ppp := z.Ppp
  Pmp := z.Pmp
  Pmm := Pmm
  Ppm := z.Ppm
  qp := 0
  qm := 0
  top := 0
  bot := 0
  Rs := if z.surface then z.Rs else 0

/-- What a caller may pass. -/
structure Sound (z : Inp m n) (btran : Nat → ℝ) : Prop where
  L : 0 < z.L
  qx : ∀ l, 0 < z.qx l
  mu : ∀ k, 0 < z.mu k
  mu0 : 0 < z.mu0
  as0 : ∀ i, i < z.L → 0 ≤ z.as0 i
  scalar : z.vector = false → ∀ i, z.Ppm i = z.Pmp i
  atran : ∀ i, i < z.L → z.atran i = Real.exp (-z.as0 i * z.ltau i)
  top : btran 0 = 1
  btran : ∀ i, i < z.L → btran (i + 1) = btran i * z.atran i

section climb
variable {z : Inp m n} {btran : Nat → ℝ} {qf : ℝ} {Pmm : Nat → Matrix (Fin m) (Fin n) ℝ}
  {up dn : Nat → ℝ → Fin n → ℝ} {U D : Nat → ℝ → Fin m → ℝ}

theorem Sound.x (h : Sound z btran) (l : Fin n) : 0 < x z l := one_div_pos.2 (h.qx l)
theorem Sound.y (h : Sound z btran) (k : Fin m) : 0 < y z k := one_div_pos.2 (h.mu k)

theorem Pin_eq (h : Sound z btran) (i : Nat) : Pin z i = z.Ppm i := by
  unfold Pin
  cases hv : z.vector with
  | true => rfl
  | false => exact (h.scalar hv i).symm

/-- The rays of the first order. -/
theorem once_rays (h : Sound z btran) (hl : (once z qf btran).Lit up dn) {i : Nat} (hi : i < z.L) (l : Fin n) (τ : ℝ) :
    HasDerivAt (fun t => up i t l)
      (x z l * (up i τ l - btran i * (z.F0 / (4 * Real.pi)) * r0 z i l * Real.exp (-z.as0 i * τ))) τ ∧
    HasDerivAt (fun t => dn i t l)
      (-x z l * (dn i τ l - btran i * (z.F0 / (4 * Real.pi)) * t0 z i l * Real.exp (-z.as0 i * τ))) τ := by
  obtain ⟨a, b, ha, hb, ea, eb⟩ := hl.layer i hi τ l
  have hq := (h.qx l).ne'
  simp only [once, Medium.intoUp, Medium.intoDn, beamSource, Matrix.zero_apply, zero_mul, add_zero, mul_zero,
    Finset.sum_const_zero, sub_zero] at ea eb
  constructor
  · refine ha.congr_deriv ?_
    unfold x r0
    field_simp
    field_simp at ea
    linear_combination ea
  · refine hb.congr_deriv ?_
    unfold x t0
    field_simp
    field_simp at eb
    linear_combination -eb

/-- The rays of the second. -/
theorem twice_rays (h : Sound z btran) (hs : (twice z Pmm).Seen (once z qf btran) up dn U D) {i : Nat} (hi : i < z.L)
    (k : Fin m) (τ : ℝ) :
    HasDerivAt (fun t => U i t k)
      (y z k * (U i τ k - ∑ l, (tp z i k l * up i τ l + rm z i k l * dn i τ l))) τ := by
  obtain ⟨a, b, ha, hb, ea, eb⟩ := hs.layer i hi τ k
  have hq := (h.mu k).ne'
  simp only [once, twice, Pi.zero_apply, sub_zero] at ea
  refine ha.congr_deriv ?_
  have e : ∑ l, (tp z i k l * up i τ l + rm z i k l * dn i τ l) =
      (1 + if z.first then 1 else 0) / 4 * z.om i * ∑ l, z.qw l * (z.Ppp i k l * up i τ l + z.Ppm i k l * dn i τ l) := by
    rw [Finset.mul_sum]
    refine Finset.sum_congr rfl fun l _ => ?_
    unfold tp rm share
    rw [Pin_eq h]
    ring
  rw [e, ← ea]
  unfold y
  field_simp

theorem on_below {s : Stack n} {k : Nat} {f : Nat → ℝ → Fin k → ℝ}
    (meet : ∀ i, i + 1 < s.L → f i (s.T i) = f (i + 1) 0) {j : Nat} (hj : j < s.L) :
    f j (s.T j) = View.on s f (j + 1) := by
  unfold View.on
  by_cases h : j + 1 < s.L
  · rw [if_pos h, meet j h]
  · rw [if_neg h, show s.L - 1 = j by omega]

theorem on_at {s : Stack n} {k : Nat} (f : Nat → ℝ → Fin k → ℝ) {j : Nat} (hj : j < s.L) :
    View.on s f j = f j 0 := if_pos hj

/-- The first order upwards. -/
theorem first_up (h : Sound z btran) (hq : z.surface = true → qf = 1) (hl : (once z qf btran).Lit up dn) :
    ∀ c, c ≤ z.L → ∀ l, View.on (once z qf btran) up (z.L - c) l =
      z.F0 * z.mu0 / Real.pi * btran (z.L - c) * up1 z c l := by
  intro c
  induction c with
  | zero =>
    intro _ l
    unfold View.on
    rw [if_neg (by simp [once]), hl.ground]
    simp only [once, Matrix.zero_mulVec, add_zero, up1, climb, Nat.sub_zero]
    by_cases hs : z.surface = true
    · rw [if_pos hs, if_pos hs, hq hs]; ring
    · rw [if_neg hs, if_neg hs, mul_zero]
  | succ c ih =>
    intro hc l
    have hj : z.L - 1 - c < z.L := by omega
    have ej : z.L - (c + 1) = z.L - 1 - c := by omega
    have ej1 : z.L - 1 - c + 1 = z.L - c := by omega
    have e := up_end (fun τ => (once_rays h hl hj l τ).1) (add_pos_of_pos_of_nonneg (h.x l) (h.as0 _ hj)).ne'
      (z.ltau (z.L - 1 - c))
    have eb : up (z.L - 1 - c) (z.ltau (z.L - 1 - c)) l = View.on (once z qf btran) up (z.L - c) l := by
      rw [← ej1]
      exact congrFun (on_below (s := once z qf btran) (fun i hi => (hl.meet i hi).1) hj) l
    rw [ej, on_at (s := once z qf btran) up hj, e, eb, ih (by omega) l]
    have hb := h.btran _ hj
    rw [ej1] at hb
    show _ = _ * (psiX z (z.L - 1 - c) l * up1 z c l +
      1 / 4 * (gain z (z.L - 1 - c) l * (1 - psiX z (z.L - 1 - c) l)) * r0 z (z.L - 1 - c) l)
    have ea : alpha z (z.L - 1 - c) l = Real.exp (-x z l * z.ltau (z.L - 1 - c)) := by unfold alpha; ring_nf
    unfold psiX gain
    rw [hb, ea, h.atran _ hj]
    have h1 := (add_pos_of_pos_of_nonneg (h.x l) (h.as0 _ hj)).ne'
    have h2 := h.mu0.ne'
    generalize Real.exp (-x z l * _) = X
    generalize Real.exp _ = A
    field_simp

/-- The second order upwards, with one over the cosine of the sun where the code has `as_0`. -/
theorem second_up (h : Sound z btran) (hq : z.surface = true → qf = 1) (hl : (once z qf btran).Lit up dn)
    (hs : (twice z Pmm).Seen (once z qf btran) up dn U D) :
    ∀ c, c ≤ z.L → ∀ k, View.on (once z qf btran) U (z.L - c) k =
      z.F0 * z.mu0 / Real.pi * btran (z.L - c) * up2With z (fun _ => 1 / z.mu0) c k +
        ∑ l, refl z c k l * z.qx l * View.on (once z qf btran) dn (z.L - c) l := by
  intro c
  induction c with
  | zero =>
    intro _ k
    have e : ∀ (j : Nat) (f : Nat → ℝ → Fin j → ℝ), View.on (once z qf btran) f (z.L - 0) = f (z.L - 1) (z.ltau (z.L - 1)) :=
      fun j f => by unfold View.on; rw [if_neg (by simp [once])]; rfl
    rw [e, e]
    have := congrFun hs.ground k
    simp only [once, twice, Pi.add_apply, Pi.zero_apply, zero_add] at this
    rw [this]
    simp only [up2With, mul_zero, zero_add, refl, climb, Matrix.mulVec, dotProduct]
    refine Finset.sum_congr rfl fun l _ => ?_
    have hx := (h.qx l).ne'
    by_cases hsf : z.surface = true
    · rw [if_pos hsf, if_pos hsf]
      unfold x
      field_simp
    · rw [if_neg hsf, if_neg hsf]
      simp
  | succ c ih =>
    intro hc k
    have hj : z.L - 1 - c < z.L := by omega
    have ej : z.L - (c + 1) = z.L - 1 - c := by omega
    have ej1 : z.L - 1 - c + 1 = z.L - c := by omega
    have hb := h.btran _ hj
    rw [ej1] at hb
    have hfu := first_up h hq hl c (by omega)
    rw [ej, on_at (s := once z qf btran) U hj, on_at (s := once z qf btran) dn hj]
    have eU : U (z.L - 1 - c) (z.ltau (z.L - 1 - c)) k = View.on (once z qf btran) U (z.L - c) k := by
      rw [← ej1]
      exact congrFun (on_below (s := once z qf btran) (fun i hi => (hs.meet i hi).1) hj) k
    have eu : ∀ l, up (z.L - 1 - c) (z.ltau (z.L - 1 - c)) l = View.on (once z qf btran) up (z.L - c) l := fun l => by
      rw [← ej1]
      exact congrFun (on_below (s := once z qf btran) (fun i hi => (hl.meet i hi).1) hj) l
    have ed : ∀ l, dn (z.L - 1 - c) (z.ltau (z.L - 1 - c)) l = View.on (once z qf btran) dn (z.L - c) l := fun l => by
      rw [← ej1]
      exact congrFun (on_below (s := once z qf btran) (fun i hi => (hl.meet i hi).2) hj) l
    generalize hJ : z.L - 1 - c = j at *
    have hy : y z k + z.as0 j ≠ 0 := (add_pos_of_pos_of_nonneg (h.y k) (h.as0 _ hj)).ne'
    have hx : ∀ l, x z l + z.as0 j ≠ 0 := fun l => (add_pos_of_pos_of_nonneg (h.x l) (h.as0 _ hj)).ne'
    have hxy : ∀ l, x z l + y z k ≠ 0 := fun l => (add_pos (h.x l) (h.y k)).ne'
    choose G hG hGv using fun l => up_int (y := y z k) (fun τ => (once_rays h hl hj l τ).1) (hx l) hy (z.ltau j)
    choose H hH hHv using fun l => dn_int (y := y z k) (fun τ => (once_rays h hl hj l τ).2) hy (hxy l) (z.ltau j)
    have hr := ray_end (y := y z k) (U := fun t => U j t k)
      (f := fun l t => tp z j k l * up j t l + rm z j k l * dn j t l)
      (G := fun l t => tp z j k l * G l t + rm z j k l * H l t) (twice_rays h hs hj k)
      (fun l τ => (((hG l τ).const_mul _).add ((hH l τ).const_mul _)).congr_deriv (by ring)) (z.ltau j)
    rw [hr, eU, ih (by omega) k]
    show _ = _ * turn z (fun _ => 1 / z.mu0) c (z.L - 1 - c) (up2With z (fun _ => 1 / z.mu0) c) k + _
    rw [hJ]
    have er : ∀ k l, refl z (c + 1) k l = refl z c k l * psi3 z j k l + both z k l * (1 - psi3 z j k l) * rm z j k l :=
      fun k l => by
        show refl z c k l * psi3 z (z.L - 1 - c) k l + _ = _
        rw [hJ]
    unfold turn
    have ebt : beta z j k = Real.exp (-y z k * z.ltau j) := by unfold beta; ring_nf
    have eal : ∀ l, alpha z j l = Real.exp (-x z l * z.ltau j) := fun l => by unfold alpha; ring_nf
    have eat := h.atran _ hj
    -- term by term
    have et : ∀ l, y z k * ((tp z j k l * G l (z.ltau j) + rm z j k l * H l (z.ltau j)) -
          (tp z j k l * G l 0 + rm z j k l * H l 0)) +
        Real.exp (-y z k * z.ltau j) * (refl z c k l * z.qx l * View.on (once z qf btran) dn (z.L - c) l) =
        z.F0 * z.mu0 / Real.pi * btran j *
          (y z k * (tp z j k l * (phi2 z j k l * up1 z c l + r0 z j l * (w1u z j k l * w2u z j k l))) +
            1 / z.mu0 / 4 * ((phi3 z j k l * refl z c k l + rm z j k l * (w1d z j k l * w2d z j k l)) * t0 z j l)) +
          refl z (c + 1) k l * z.qx l * dn j 0 l := by
      intro l
      have e1 := hGv l
      have e2 := hHv l
      have e3 := dn_end (fun τ => (once_rays h hl hj l τ).2) (z.ltau j)
      rw [eu l, hfu l] at e1
      rw [← ed l]
      have p2 : phi2 z j k l = (if y z k = x z l then z.ltau j * Real.exp (-y z k * z.ltau j) else
          (Real.exp (-y z k * z.ltau j) - Real.exp (-x z l * z.ltau j)) / (x z l - y z k)) *
            Real.exp (-z.as0 j * z.ltau j) := by
        unfold phi2
        rw [ebt, eal l, eat]
        split_ifs <;> ring
      have p3 : phi3 z j k l = Real.exp (-y z k * z.ltau j) * (if z.as0 j = x z l then z.ltau j * Real.exp (-x z l * z.ltau j)
          else (Real.exp (-x z l * z.ltau j) - Real.exp (-z.as0 j * z.ltau j)) / (z.as0 j - x z l)) := by
        unfold phi3
        rw [ebt, eal l, eat]
        split_ifs <;> ring
      generalize (if y z k = x z l then z.ltau j * Real.exp (-y z k * z.ltau j) else
          (Real.exp (-y z k * z.ltau j) - Real.exp (-x z l * z.ltau j)) / (x z l - y z k)) = A2 at e1 p2
      generalize (if z.as0 j = x z l then z.ltau j * Real.exp (-x z l * z.ltau j)
          else (Real.exp (-x z l * z.ltau j) - Real.exp (-z.as0 j * z.ltau j)) / (z.as0 j - x z l)) = A3 at e3 p3
      rw [er, hb] at *
      rw [e3] at e2 ⊢
      unfold w1u w2u w1d w2d psiY psi3 both
      rw [p2, p3, ebt, eal l, eat]
      rw [eat] at e1
      have hqx : z.qx l * x z l = 1 := by unfold x; field_simp [(h.qx l).ne']
      have e4 : (tp z j k l * G l (z.ltau j) + rm z j k l * H l (z.ltau j)) -
          (tp z j k l * G l 0 + rm z j k l * H l 0) = tp z j k l * (G l (z.ltau j) - G l 0) +
            rm z j k l * (H l (z.ltau j) - H l 0) := by ring
      rw [e4, e1, e2]
      have hx' := hx l
      have hxy' := hxy l
      have hyx' : y z k + x z l ≠ 0 := by rw [add_comm]; exact hxy'
      have hmu := h.mu0.ne'
      have hpi := Real.pi_ne_zero
      generalize Real.exp (-y z k * z.ltau j) = Y at *
      generalize Real.exp (-x z l * z.ltau j) = X at *
      generalize Real.exp (-z.as0 j * z.ltau j) = A at *
      generalize tp z j k l = t at *
      generalize rm z j k l = r at *
      generalize refl z c k l = R at *
      generalize dn j 0 l = d at *
      generalize up1 z c l = u1 at *
      generalize r0 z j l = rr at *
      generalize t0 z j l = tt at *
      have hqe : z.qx l = 1 / x z l := by unfold x; rw [one_div_one_div]
      have hx0 := (h.x l).ne'
      rw [hqe]
      generalize x z l = xx at *
      generalize y z k = yy at *
      rw [add_comm yy xx]
      field_simp
      ring
    have es := Finset.sum_congr rfl fun l (_ : l ∈ Finset.univ) => et l
    rw [Finset.sum_add_distrib, Finset.sum_add_distrib, ← Finset.mul_sum, ← Finset.mul_sum, ← Finset.mul_sum,
      Finset.sum_add_distrib, ← Finset.mul_sum, ← Finset.mul_sum] at es
    unfold fromUp fromDn psiY
    rw [hb, ebt]
    rw [eat] at *
    linear_combination es

end climb

end Xrtm.TwoOs
