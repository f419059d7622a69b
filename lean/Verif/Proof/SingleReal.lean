import Verif.Proof.Single
import Verif.Spec.Single
import Mathlib.Tactic.Ring
import Mathlib.Tactic.FieldSimp
import Mathlib.Tactic.Linarith

/-! The single scattering code over the reals: closed forms and derivatives. -/

namespace Xrtm.Single

open Spec

/-! ### Integrals -/

theorem int_up (bt as mu D u L : ℝ) (hf : 1 / mu + as ≠ 0) :
    ∫ t in u..L, bt * Real.exp (-as * t) * Real.exp (-(D + t - u) / mu) =
      Real.exp (-D / mu) * (bt * Real.exp (-u * as)) *
        ((1 - Real.exp (-(L - u) / mu) * Real.exp (-(L - u) * as)) / (1 / mu + as)) := by
  have hd : ∀ t ∈ Set.uIcc u L, HasDerivAt
      (fun t : ℝ => -(Real.exp (-D / mu) * bt / (1 / mu + as)) * Real.exp (-as * t + -(t - u) / mu))
      (bt * Real.exp (-as * t) * Real.exp (-(D + t - u) / mu)) t := by
    intro t _
    have h1 : HasDerivAt (fun t : ℝ => -as * t + -(t - u) / mu) (-as * 1 + -(1 : ℝ) / mu) t :=
      ((hasDerivAt_id t).const_mul (-as)).add ((((hasDerivAt_id t).sub_const u).fun_neg).div_const mu)
    refine (h1.exp.const_mul _).congr_deriv ?_
    have e : Real.exp (-as * t) * Real.exp (-(D + t - u) / mu) =
        Real.exp (-D / mu) * Real.exp (-as * t + -(t - u) / mu) := by
      rw [← Real.exp_add, ← Real.exp_add]; congr 1; ring
    rw [mul_assoc bt, e]
    have : -as * 1 + -1 / mu = -(1 / mu + as) := by ring
    rw [this]
    field_simp
  rw [intervalIntegral.integral_eq_sub_of_hasDerivAt hd (Continuous.intervalIntegrable (by fun_prop) _ _)]
  have e1 : Real.exp (-as * L + -(L - u) / mu) =
      Real.exp (-u * as) * (Real.exp (-(L - u) / mu) * Real.exp (-(L - u) * as)) := by
    rw [← Real.exp_add, ← Real.exp_add]; congr 1; ring
  have e2 : Real.exp (-as * u + -(u - u) / mu) = Real.exp (-u * as) := by congr 1; ring
  rw [e1, e2]
  field_simp
  ring

theorem int_dn (bt as mu D u : ℝ) (hf : as - 1 / mu ≠ 0) :
    ∫ t in (0 : ℝ)..u, bt * Real.exp (-as * t) * Real.exp (-(D + u - t) / mu) =
      Real.exp (-D / mu) * bt * ((Real.exp (-u / mu) - Real.exp (-u * as)) / (as - 1 / mu)) := by
  have hd : ∀ t ∈ Set.uIcc 0 u, HasDerivAt
      (fun t : ℝ => -(Real.exp (-D / mu) * bt / (as - 1 / mu)) * Real.exp (-as * t + -(u - t) / mu))
      (bt * Real.exp (-as * t) * Real.exp (-(D + u - t) / mu)) t := by
    intro t _
    have h1 : HasDerivAt (fun t : ℝ => -as * t + -(u - t) / mu) (-as * 1 + -(-(1 : ℝ)) / mu) t :=
      ((hasDerivAt_id t).const_mul (-as)).add ((((hasDerivAt_id t).const_sub u).fun_neg).div_const mu)
    refine (h1.exp.const_mul _).congr_deriv ?_
    have e : Real.exp (-as * t) * Real.exp (-(D + u - t) / mu) =
        Real.exp (-D / mu) * Real.exp (-as * t + -(u - t) / mu) := by
      rw [← Real.exp_add, ← Real.exp_add]; congr 1; ring
    rw [mul_assoc bt, e]
    have : -as * 1 + -(-1) / mu = -(as - 1 / mu) := by ring
    rw [this]
    field_simp
  rw [intervalIntegral.integral_eq_sub_of_hasDerivAt hd (Continuous.intervalIntegrable (by fun_prop) _ _)]
  have e1 : Real.exp (-as * u + -(u - u) / mu) = Real.exp (-u * as) := by congr 1; ring
  have e2 : Real.exp (-as * 0 + -(u - 0) / mu) = Real.exp (-u / mu) := by congr 1; ring
  rw [e1, e2]
  field_simp
  ring

/-! ### Recurrences of the closed forms -/

theorem thick_succ (s : Sky) {a b : Nat} (h : a < b) : s.thick a b = s.ltau a + s.thick (a + 1) b :=
  Finset.sum_eq_sum_Ico_succ_bot h _

theorem thick_top (s : Sky) {a b : Nat} (h : a ≤ b) : s.thick a (b + 1) = s.thick a b + s.ltau b :=
  Finset.sum_Ico_succ_top h _

theorem upAt_bottom (s : Sky) (Iin : ℝ) : upAt s Iin s.n 0 = Iin := by
  simp [upAt, Sky.thick]

theorem upAt_step (s : Sky) (Iin : ℝ) {l : Nat} (hl : l < s.n) (u : ℝ) (hf : 1 / s.mu + s.as0 l ≠ 0) :
    upAt s Iin l u = Real.exp (-(s.ltau l - u) / s.mu) * upAt s Iin (l + 1) 0 +
      s.F0 / (4 * Real.pi) / s.mu * (s.btran l * Real.exp (-u * s.as0 l) * s.omega l *
        ((1 - Real.exp (-(s.ltau l - u) / s.mu) * Real.exp (-(s.ltau l - u) * s.as0 l)) / (1 / s.mu + s.as0 l)) * s.P l) := by
  unfold upAt
  rw [Finset.sum_eq_sum_Ico_succ_bot hl, if_pos rfl]
  have e0 : s.thick l l = 0 := by simp [Sky.thick]
  have h0 : (∫ t in u..s.ltau l, s.beam l t * Real.exp (-(s.thick l l + t - u) / s.mu)) =
      s.btran l * Real.exp (-u * s.as0 l) *
        ((1 - Real.exp (-(s.ltau l - u) / s.mu) * Real.exp (-(s.ltau l - u) * s.as0 l)) / (1 / s.mu + s.as0 l)) := by
    rw [e0]
    have := int_up (s.btran l) (s.as0 l) s.mu 0 u (s.ltau l) hf
    simp only [neg_zero, zero_div, Real.exp_zero, one_mul] at this
    exact this
  have h1 : ∀ i ∈ Finset.Ico (l + 1) s.n,
      s.omega i * s.P i * (∫ t in (if i = l then u else 0)..s.ltau i, s.beam i t * Real.exp (-(s.thick l i + t - u) / s.mu)) =
      Real.exp (-(s.ltau l - u) / s.mu) * (s.omega i * s.P i *
        ∫ t in (if i = l + 1 then 0 else 0)..s.ltau i, s.beam i t * Real.exp (-(s.thick (l + 1) i + t - 0) / s.mu)) := by
    intro i hi
    have hi' := Finset.mem_Ico.1 hi
    rw [if_neg (by omega), ite_self]
    have : (fun t => s.beam i t * Real.exp (-(s.thick l i + t - u) / s.mu)) =
        fun t => Real.exp (-(s.ltau l - u) / s.mu) * (s.beam i t * Real.exp (-(s.thick (l + 1) i + t - 0) / s.mu)) := by
      funext t
      rw [thick_succ s (by omega : l < i)]
      have : Real.exp (-(s.ltau l + s.thick (l + 1) i + t - u) / s.mu) =
          Real.exp (-(s.ltau l - u) / s.mu) * Real.exp (-(s.thick (l + 1) i + t - 0) / s.mu) := by
        rw [← Real.exp_add]; congr 1; ring
      rw [this]; ring
    rw [this, intervalIntegral.integral_const_mul]
    ring
  rw [h0, Finset.sum_congr rfl h1, ← Finset.mul_sum, thick_succ s hl]
  have : Real.exp (-(s.ltau l + s.thick (l + 1) s.n - u) / s.mu) =
      Real.exp (-(s.ltau l - u) / s.mu) * Real.exp (-(s.thick (l + 1) s.n - 0) / s.mu) := by
    rw [← Real.exp_add]; congr 1; ring
  rw [this]
  ring

theorem dnAt_top (s : Sky) (Iin : ℝ) : dnAt s Iin 0 0 = Iin := by
  simp [dnAt, Sky.thick]

theorem dnAt_level (s : Sky) (Iin : ℝ) (l : Nat) : dnAt s Iin (l + 1) 0 = dnAt s Iin l (s.ltau l) := by
  unfold dnAt
  rw [Finset.sum_range_succ, if_pos rfl, intervalIntegral.integral_same, mul_zero, add_zero, add_zero,
    thick_top s (Nat.zero_le l)]
  congr 2
  apply Finset.sum_congr rfl
  intro i hi
  have hi' := Finset.mem_range.1 hi
  rw [if_neg (by omega)]
  by_cases h : i = l
  · subst h
    rw [if_pos rfl, thick_top s (Nat.le_refl _)]
    simp only [Sky.thick, Finset.Ico_self, Finset.sum_empty, zero_add, add_zero]
  · rw [if_neg h, thick_top s (by omega)]
    simp only [add_zero]

theorem dnAt_step (s : Sky) (Iin : ℝ) (l : Nat) (u : ℝ) (hf : s.as0 l - 1 / s.mu ≠ 0) :
    dnAt s Iin l u = Real.exp (-u / s.mu) * dnAt s Iin l 0 +
      s.F0 / (4 * Real.pi) / s.mu * (s.btran l * s.omega l *
        ((Real.exp (-u / s.mu) - Real.exp (-u * s.as0 l)) / (s.as0 l - 1 / s.mu)) * s.P l) := by
  unfold dnAt
  rw [Finset.sum_range_succ, Finset.sum_range_succ, if_pos rfl, if_pos rfl, intervalIntegral.integral_same,
    mul_zero, add_zero]
  have e0 : s.thick l l = 0 := by simp [Sky.thick]
  have h0 : (∫ t in (0 : ℝ)..u, s.beam l t * Real.exp (-(s.thick l l + u - t) / s.mu)) =
      s.btran l * ((Real.exp (-u / s.mu) - Real.exp (-u * s.as0 l)) / (s.as0 l - 1 / s.mu)) := by
    rw [e0]
    have := int_dn (s.btran l) (s.as0 l) s.mu 0 u hf
    simp only [neg_zero, zero_div, Real.exp_zero, one_mul] at this
    exact this
  have h1 : ∀ i ∈ Finset.range l,
      s.omega i * s.P i * (∫ t in (0 : ℝ)..(if i = l then u else s.ltau i), s.beam i t * Real.exp (-(s.thick i l + u - t) / s.mu)) =
      Real.exp (-u / s.mu) * (s.omega i * s.P i *
        ∫ t in (0 : ℝ)..(if i = l then 0 else s.ltau i), s.beam i t * Real.exp (-(s.thick i l + 0 - t) / s.mu)) := by
    intro i hi
    have hi' := Finset.mem_range.1 hi
    rw [if_neg (by omega), if_neg (by omega)]
    have : (fun t => s.beam i t * Real.exp (-(s.thick i l + u - t) / s.mu)) =
        fun t => Real.exp (-u / s.mu) * (s.beam i t * Real.exp (-(s.thick i l + 0 - t) / s.mu)) := by
      funext t
      have : Real.exp (-(s.thick i l + u - t) / s.mu) =
          Real.exp (-u / s.mu) * Real.exp (-(s.thick i l + 0 - t) / s.mu) := by
        rw [← Real.exp_add]; congr 1; ring
      rw [this]; ring
    rw [this, intervalIntegral.integral_const_mul]
    ring
  rw [h0, Finset.sum_congr rfl h1, ← Finset.mul_sum]
  have : Real.exp (-(s.thick 0 l + u) / s.mu) = Real.exp (-u / s.mu) * Real.exp (-(s.thick 0 l + 0) / s.mu) := by
    rw [← Real.exp_add]; congr 1; ring
  rw [this]
  ring

/-! ### The code -/

/-- The sky seen in component `kk`. -/
def skyOf (p : Prof ℝ) (kk : Nat) : Sky where
  n := p.nLayers
  F0 := p.F0
  mu := p.umus (kk / p.nStokes)
  ltau := p.ltau
  omega := p.omega
  P := fun i => p.P i kk
  btran := p.btran
  as0 := p.as0

theorem scale_real (p : Prof ℝ) (kk : Nat) :
    scale p kk = p.F0 / (4 * Real.pi) / p.umus (kk / p.nStokes) := by
  show 1 / p.umus (kk / p.nStokes) * (p.F0 / (4 * Real.pi)) = _
  ring

theorem scale_ne {p : Prof ℝ} {kk : Nat} (hF : p.F0 ≠ 0) (hm : p.umus (kk / p.nStokes) ≠ 0) : scale p kk ≠ 0 := by
  rw [scale_real]
  have := Real.pi_ne_zero
  positivity

theorem Wv_up (p : Prof ℝ) (n : Nat) (u : ℝ) (i : Nat) (r : Buf ℝ) (kk : Nat) :
    Wv p n (upFac p n u i) r kk = Real.exp (-(p.ltau n - u) / p.umus i) * r.v kk +
      p.btran n * Real.exp (-u * p.as0 n) * p.omega n *
        ((1 - Real.exp (-(p.ltau n - u) / p.umus i) * Real.exp (-(p.ltau n - u) * p.as0 n)) /
          (1 / p.umus i + p.as0 n)) * p.P n kk := rfl

theorem Wv_dn (p : Prof ℝ) (n : Nat) (u : ℝ) (i : Nat) (r : Buf ℝ) (kk : Nat) :
    Wv p n (dnFac p n u i) r kk = Real.exp (-u / p.umus i) * r.v kk +
      p.btran n * p.omega n *
        ((Real.exp (-u / p.umus i) - Real.exp (-u * p.as0 n)) / (p.as0 n - 1 / p.umus i)) * p.P n kk := rfl

theorem up_layer_real {p : Prof ℝ} {kk : Nat} {r : Buf ℝ} {Iin : ℝ} {l : Nat} (hl : l < p.nLayers) (u : ℝ)
    (hf : 1 / p.umus (kk / p.nStokes) + p.as0 l ≠ 0)
    (hr : r.v kk * scale p kk = upAt (skyOf p kk) Iin (l + 1) 0) :
    (after p (upFac p l u) l r).v kk * scale p kk = upAt (skyOf p kk) Iin l u := by
  rw [upAt_step (skyOf p kk) Iin hl u hf, ← hr]
  show Wv p l (upFac p l u (kk / p.nStokes)) r kk * scale p kk = _
  rw [Wv_up, scale_real]
  simp only [skyOf]
  ring

theorem dn_layer_real {p : Prof ℝ} {kk : Nat} {r : Buf ℝ} {Iin : ℝ} {l : Nat} (u : ℝ)
    (hf : p.as0 l - 1 / p.umus (kk / p.nStokes) ≠ 0)
    (hr : r.v kk * scale p kk = dnAt (skyOf p kk) Iin l 0) :
    (after p (dnFac p l u) l r).v kk * scale p kk = dnAt (skyOf p kk) Iin l u := by
  rw [dnAt_step (skyOf p kk) Iin l u hf, ← hr]
  show Wv p l (dnFac p l u (kk / p.nStokes)) r kk * scale p kk = _
  rw [Wv_dn, scale_real]
  simp only [skyOf]
  ring

theorem upStage_real {p : Prof ℝ} {kk : Nat} {st : Buf ℝ} {Iin : ℝ} (hst : st.v kk * scale p kk = Iin) : ∀ d, d ≤ p.nLayers →
    (∀ i, p.nLayers - d ≤ i → i < p.nLayers → 1 / p.umus (kk / p.nStokes) + p.as0 i ≠ 0) →
    (upStage p st d).v kk * scale p kk = upAt (skyOf p kk) Iin (p.nLayers - d) 0
  | 0, _, _ => by
      rw [Nat.sub_zero]
      exact hst.trans (upAt_bottom (skyOf p kk) Iin).symm
  | d + 1, hd, hf => by
      have ih := upStage_real hst d (by omega) (fun i h1 h2 => hf i (by omega) h2)
      have e : p.nLayers - d = p.nLayers - (d + 1) + 1 := by omega
      rw [e] at ih
      have e2 : p.nLayers - 1 - d = p.nLayers - (d + 1) := by omega
      show (after p (upFac p (p.nLayers - 1 - d) (Arith.zero : ℝ)) (p.nLayers - 1 - d) (upStage p st d)).v kk * _ = _
      rw [e2]
      exact up_layer_real (by omega) 0 (hf _ (Nat.le_refl _) (by omega)) ih

theorem dnStage_real {p : Prof ℝ} {kk : Nat} {st : Buf ℝ} {Iin : ℝ} (hst : st.v kk * scale p kk = Iin) : ∀ d,
    (∀ i, i < d → p.as0 i - 1 / p.umus (kk / p.nStokes) ≠ 0) →
    (dnStage p st d).v kk * scale p kk = dnAt (skyOf p kk) Iin d 0
  | 0, _ => hst.trans (dnAt_top (skyOf p kk) Iin).symm
  | d + 1, hf => by
      have ih := dnStage_real hst d (fun i h => hf i (by omega))
      rw [dnAt_level]
      exact dn_layer_real (p.ltau d) (hf d (by omega)) ih

/-- Where an output is, as a layer and a depth in it. -/
noncomputable def Req.depth (q : Req ℝ) (k : Nat) : ℝ := if q.tau then q.ut k else 0

theorem start_real {p : Prof ℝ} {kk : Nat} (hk : kk < p.nUv) (hF : p.F0 ≠ 0) (hm : p.umus (kk / p.nStokes) ≠ 0) (inp w : Buf ℝ) :
    (start p inp w).v kk * scale p kk = inp.v kk := by
  show (if kk < p.nUv then inp.v kk / scale p kk else w.v kk) * scale p kk = _
  rw [if_pos hk]
  exact div_mul_cancel₀ _ (scale_ne hF hm)

theorem upTarget_real {p : Prof ℝ} {q : Req ℝ} (hq : q.Ok p.nLayers) {kk k : Nat} (hkk : kk < p.nUv) (hk : k < q.nUl)
    (hF : p.F0 ≠ 0) (hm : p.umus (kk / p.nStokes) ≠ 0)
    (hf : ∀ i, q.ul k ≤ i → i < p.nLayers → 1 / p.umus (kk / p.nStokes) + p.as0 i ≠ 0) (inp w : Buf ℝ) :
    (scaled p (upTarget p q (start p inp w) k)).v kk = upAt (skyOf p kk) (inp.v kk) (q.ul k) (q.depth k) := by
  show (if kk < p.nUv then _ * scale p kk else _) = _
  rw [if_pos hkk]
  unfold upTarget Req.depth
  cases ht : q.tau
  · have hl := (hq.levels ht).1 k hk
    simp only [Bool.false_eq_true, if_false]
    have := upStage_real (start_real hkk hF hm inp w) (p.nLayers - q.ul k) (by omega) (fun i h1 h2 => hf i (by omega) h2)
    rwa [Nat.sub_sub_self hl] at this
  · have hl := (hq.taus ht).1 k hk
    simp only [if_true]
    have := upStage_real (start_real hkk hF hm inp w) (p.nLayers - (q.ul k + 1)) (by omega)
      (fun i h1 h2 => hf i (by omega) h2)
    rw [Nat.sub_sub_self hl] at this
    exact up_layer_real hl _ (hf _ (Nat.le_refl _) hl) this

theorem dnTarget_real {p : Prof ℝ} {q : Req ℝ} {kk k : Nat} (hkk : kk < p.nUv)
    (hF : p.F0 ≠ 0) (hm : p.umus (kk / p.nStokes) ≠ 0)
    (hf : ∀ i, (i < q.ul k ∨ q.tau = true ∧ i = q.ul k) → p.as0 i - 1 / p.umus (kk / p.nStokes) ≠ 0) (inp w : Buf ℝ) :
    (scaled p (dnTarget p q (start p inp w) k)).v kk = dnAt (skyOf p kk) (inp.v kk) (q.ul k) (q.depth k) := by
  show (if kk < p.nUv then _ * scale p kk else _) = _
  rw [if_pos hkk]
  unfold dnTarget Req.depth
  have h0 := dnStage_real (start_real hkk hF hm inp w) (q.ul k) (fun i h => hf i (Or.inl h))
  cases ht : q.tau
  · simp only [Bool.false_eq_true, if_false]
    exact h0
  · simp only [if_true]
    by_cases hz : q.ul k = 0 ∧ SNum.isZero (q.ut k) = true
    · rw [if_pos hz]
      have : q.ut k = 0 := of_decide_eq_true hz.2
      rw [hz.1] at h0
      rw [this, hz.1]
      exact h0
    · rw [if_neg hz]
      exact dn_layer_real _ (hf _ (Or.inr ⟨ht, rfl⟩)) h0

/-! ### Derivatives -/

section
variable {lt as om bt P I u : ℝ → ℝ} {lt' as' om' bt' P' I' u' mu t : ℝ}

theorem up_deriv (hlt : HasDerivAt lt lt' t) (has : HasDerivAt as as' t) (hom : HasDerivAt om om' t)
    (hbt : HasDerivAt bt bt' t) (hP : HasDerivAt P P' t) (hI : HasDerivAt I I' t) (hu : HasDerivAt u u' t)
    (hf : 1 / mu + as t ≠ 0) :
    HasDerivAt (fun t => Real.exp (-(lt t - u t) / mu) * I t + bt t * Real.exp (-u t * as t) * om t *
        ((1 - Real.exp (-(lt t - u t) / mu) * Real.exp (-(lt t - u t) * as t)) / (1 / mu + as t)) * P t)
      (let a := Real.exp (-u t * as t)
       let b := bt t * a * om t
       let c := lt t - u t
       let d := Real.exp (-c * as t)
       let b_l := (bt' + bt t * (-u' * as t - u t * as')) * (a * om t) + bt t * a * om'
       let c_l := lt' - u'
       let d_l := (-c_l * as t - c * as') * d
       let e := Real.exp (-c / mu)
       let f := 1 / mu + as t
       let g := (1 - e * d) / f
       let e_l := -c_l * (e / mu)
       e_l * I t + e * I' + P t * (g * b_l + b * (-e_l * d - e * d_l - g * as') / f) + b * P' * g) t := by
  have hc : HasDerivAt (fun t => -(lt t - u t)) (-(lt' - u')) t := (hlt.fun_sub hu).fun_neg
  have he := (hc.div_const mu).exp
  have hd := (hc.fun_mul has).exp
  have ha := (hu.fun_neg.fun_mul has).exp
  have hfd : HasDerivAt (fun t => 1 / mu + as t) as' t := has.const_add _
  have hg := ((he.fun_mul hd).const_sub 1).fun_div hfd hf
  refine ((he.fun_mul hI).fun_add ((((hbt.fun_mul ha).fun_mul hom).fun_mul hg).fun_mul hP)).congr_deriv ?_
  dsimp only
  generalize hF : 1 / mu + as t = f at *
  field_simp
  ring

theorem dn_deriv (has : HasDerivAt as as' t) (hom : HasDerivAt om om' t)
    (hbt : HasDerivAt bt bt' t) (hP : HasDerivAt P P' t) (hI : HasDerivAt I I' t) (hu : HasDerivAt u u' t)
    (hf : as t - 1 / mu ≠ 0) :
    HasDerivAt (fun t => Real.exp (-u t / mu) * I t + bt t * om t *
        ((Real.exp (-u t / mu) - Real.exp (-u t * as t)) / (as t - 1 / mu)) * P t)
      (let a := bt t * om t
       let b := Real.exp (-u t * as t)
       let a_l := bt' * om t + bt t * om'
       let b_l := (-u' * as t - u t * as') * b
       let c := Real.exp (-u t / mu)
       let d := as t - 1 / mu
       let e := (c - b) / d
       let c_l := -u' * (c / mu)
       c_l * I t + c * I' + P t * (e * a_l + a * (c_l - b_l - e * as') / d) + a * P' * e) t := by
  have hc := (hu.fun_neg.div_const mu).exp
  have hb := (hu.fun_neg.fun_mul has).exp
  have hd : HasDerivAt (fun t => as t - 1 / mu) as' t := has.sub_const _
  have he := (hc.fun_sub hb).fun_div hd hf
  refine ((hc.fun_mul hI).fun_add (((hbt.fun_mul hom).fun_mul he).fun_mul hP)).congr_deriv ?_
  dsimp only
  generalize hF : as t - 1 / mu = f at *
  field_simp
  ring

end

/-! ### The linearised code -/

/-- A way to vary an atmosphere. -/
structure Path where
  ltau : ℝ → Nat → ℝ
  omega : ℝ → Nat → ℝ
  btran : ℝ → Nat → ℝ
  as0 : ℝ → Nat → ℝ
  P : ℝ → Nat → Nat → ℝ

/-- The varied atmosphere. -/
def Path.at (c : Path) (p : Prof ℝ) (t : ℝ) : Prof ℝ :=
  { p with ltau := c.ltau t, omega := c.omega t, btran := c.btran t, as0 := c.as0 t, P := c.P t }

/-- The linearised inputs `·_l[·][j]` are the rates of change along the way; the phase function of a layer
that is not flagged does not change. -/
structure Path.Rates (c : Path) (p : Prof ℝ) (j : Nat) : Prop where
  start : c.ltau 0 = p.ltau ∧ c.omega 0 = p.omega ∧ c.btran 0 = p.btran ∧ c.as0 0 = p.as0 ∧ c.P 0 = p.P
  ltau : ∀ i, i < p.nLayers → HasDerivAt (fun t => c.ltau t i) (p.ltauL i j) 0
  omega : ∀ i, i < p.nLayers → HasDerivAt (fun t => c.omega t i) (p.omegaL i j) 0
  btran : ∀ i, i < p.nLayers → HasDerivAt (fun t => c.btran t i) (p.btranL i j) 0
  as0 : ∀ i, i < p.nLayers → HasDerivAt (fun t => c.as0 t i) (p.as0L i j) 0
  P : ∀ i kk, i < p.nLayers → kk < p.nUv →
    HasDerivAt (fun t => c.P t i kk) (if p.flag i j = true then p.PL i j kk else 0) 0
  pos : ∀ t i, i < p.nLayers → 0 < c.ltau t i

/-- `r` takes the value of `r0` in a cell, and changes at the rate `r0` says. -/
def Tracks (r : ℝ → Buf ℝ) (r0 : Buf ℝ) (j kk : Nat) : Prop :=
  (r 0).v kk = r0.v kk ∧ HasDerivAt (fun t => (r t).v kk) (r0.l j kk) 0

variable {c : Path} {p : Prof ℝ} {j kk : Nat}

theorem up_layer_tracks (hc : c.Rates p j) (hkk : kk < p.nUv) {n : Nat} (hn : n < p.nLayers) {u : ℝ → ℝ}
    (hu : HasDerivAt u (u 0 * p.ltauL n j / p.ltau n) 0)
    (hf : 1 / p.umus (kk / p.nStokes) + p.as0 n ≠ 0) {r : ℝ → Buf ℝ} {r0 : Buf ℝ} (hr : Tracks r r0 j kk) :
    Tracks (fun t => after (c.at p t) (upFac (c.at p t) n (u t)) n (r t)) (after p (upFac p n (u 0)) n r0) j kk := by
  obtain ⟨s1, s2, s3, s4, s5⟩ := hc.start
  obtain ⟨r1, r2⟩ := hr
  refine ⟨?_, ?_⟩
  · show Wv (c.at p 0) n (upFac (c.at p 0) n (u 0) (kk / p.nStokes)) (r 0) kk = Wv p n (upFac p n (u 0) (kk / p.nStokes)) r0 kk
    rw [Wv_up, Wv_up, r1]
    simp only [Path.at, s1, s2, s3, s4, s5]
  · have h := up_deriv (mu := p.umus (kk / p.nStokes)) (hc.ltau n hn) (hc.as0 n hn) (hc.omega n hn) (hc.btran n hn) (hc.P n kk hn hkk) r2 hu
      (by rw [s4]; exact hf)
    refine h.congr_deriv ?_
    dsimp only
    rw [s1, s2, s3, s4, s5, r1]
    show _ = Wl p n (upFac p n (u 0) (kk / p.nStokes)) r0 j kk
    unfold Wl
    by_cases hfl : p.flag n j = true
    · rw [if_pos hfl, if_pos hfl]
      rfl
    · rw [if_neg hfl, if_neg hfl, mul_zero, zero_mul, add_zero]
      rfl

theorem dn_layer_tracks (hc : c.Rates p j) (hkk : kk < p.nUv) {n : Nat} (hn : n < p.nLayers) {u : ℝ → ℝ}
    (hu : HasDerivAt u (u 0 * p.ltauL n j / p.ltau n) 0)
    (hf : p.as0 n - 1 / p.umus (kk / p.nStokes) ≠ 0) {r : ℝ → Buf ℝ} {r0 : Buf ℝ} (hr : Tracks r r0 j kk) :
    Tracks (fun t => after (c.at p t) (dnFac (c.at p t) n (u t)) n (r t)) (after p (dnFac p n (u 0)) n r0) j kk := by
  obtain ⟨s1, s2, s3, s4, s5⟩ := hc.start
  obtain ⟨r1, r2⟩ := hr
  refine ⟨?_, ?_⟩
  · show Wv (c.at p 0) n (dnFac (c.at p 0) n (u 0) (kk / p.nStokes)) (r 0) kk = Wv p n (dnFac p n (u 0) (kk / p.nStokes)) r0 kk
    rw [Wv_dn, Wv_dn, r1]
    simp only [Path.at, s2, s3, s4, s5]
  · have h := dn_deriv (mu := p.umus (kk / p.nStokes)) (hc.as0 n hn) (hc.omega n hn) (hc.btran n hn) (hc.P n kk hn hkk) r2 hu
      (by rw [s4]; exact hf)
    refine h.congr_deriv ?_
    dsimp only
    rw [s2, s3, s4, s5, r1]
    show _ = Wl p n (dnFac p n (u 0) (kk / p.nStokes)) r0 j kk
    unfold Wl
    by_cases hfl : p.flag n j = true
    · rw [if_pos hfl, if_pos hfl]
      rfl
    · rw [if_neg hfl, if_neg hfl, mul_zero, zero_mul, add_zero]
      rfl

theorem zero_rate (n : Nat) : HasDerivAt (fun _ : ℝ => (0 : ℝ)) ((fun _ : ℝ => (0 : ℝ)) 0 * p.ltauL n j / p.ltau n) 0 := by
  rw [zero_mul, zero_div]; exact hasDerivAt_const _ _

theorem full_rate (hc : c.Rates p j) {n : Nat} (hn : n < p.nLayers) :
    HasDerivAt (fun t => c.ltau t n) ((fun t => c.ltau t n) 0 * p.ltauL n j / p.ltau n) 0 := by
  refine (hc.ltau n hn).congr_deriv ?_
  have := hc.pos 0 n hn
  rw [hc.start.1] at this
  dsimp only
  rw [hc.start.1, mul_div_assoc, mul_comm, div_mul_cancel₀ _ (ne_of_gt this)]

theorem part_rate (hc : c.Rates p j) {n : Nat} (hn : n < p.nLayers) (x : ℝ) :
    HasDerivAt (fun t => x * (c.ltau t n / p.ltau n)) ((fun t => x * (c.ltau t n / p.ltau n)) 0 * p.ltauL n j / p.ltau n) 0 := by
  refine (((hc.ltau n hn).div_const _).const_mul x).congr_deriv ?_
  have := hc.pos 0 n hn
  rw [hc.start.1] at this
  dsimp only
  rw [hc.start.1, div_self (ne_of_gt this)]
  ring

theorem upStage_tracks (hc : c.Rates p j) (hkk : kk < p.nUv) {st : ℝ → Buf ℝ} {st0 : Buf ℝ} (hst : Tracks st st0 j kk) :
    ∀ d, d ≤ p.nLayers → (∀ i, p.nLayers - d ≤ i → i < p.nLayers → 1 / p.umus (kk / p.nStokes) + p.as0 i ≠ 0) →
    Tracks (fun t => upStage (c.at p t) (st t) d) (upStage p st0 d) j kk
  | 0, _, _ => hst
  | d + 1, hd, hf =>
      up_layer_tracks hc hkk (show p.nLayers - 1 - d < p.nLayers by omega) (u := fun _ => 0) (zero_rate _)
        (hf _ (by omega) (by omega)) (upStage_tracks hc hkk hst d (by omega) (fun i h1 h2 => hf i (by omega) h2))

theorem dnStage_tracks (hc : c.Rates p j) (hkk : kk < p.nUv) {st : ℝ → Buf ℝ} {st0 : Buf ℝ} (hst : Tracks st st0 j kk) :
    ∀ d, d ≤ p.nLayers → (∀ i, i < d → p.as0 i - 1 / p.umus (kk / p.nStokes) ≠ 0) →
    Tracks (fun t => dnStage (c.at p t) (st t) d) (dnStage p st0 d) j kk
  | 0, _, _ => hst
  | d + 1, hd, hf => by
      have := dn_layer_tracks hc hkk (show d < p.nLayers by omega) (u := fun t => c.ltau t d) (full_rate hc (by omega))
        (hf _ (by omega)) (dnStage_tracks hc hkk hst d (by omega) (fun i h => hf i (by omega)))
      rw [show c.ltau 0 d = p.ltau d from congrFun hc.start.1 d] at this
      exact this

/-- The request along the way: levels stay, positions keep their relative depth in their layer. -/
noncomputable def Req.move (q : Req ℝ) (c : Path) (p : Prof ℝ) (t : ℝ) : Req ℝ :=
  { q with ut := fun k => q.ut k * (c.ltau t (q.ul k) / p.ltau (q.ul k)) }

theorem move_ok {q : Req ℝ} (hc : c.Rates p j) (hq : q.Ok p.nLayers) (t : ℝ) : (q.move c p t).Ok p.nLayers where
  some := hq.some
  levels := hq.levels
  taus := fun h => by
    obtain ⟨h1, h2, h3⟩ := hq.taus h
    refine ⟨h1, h2, fun k a b => ?_⟩
    rintro ⟨h4, h5⟩
    apply h3 k a b
    refine ⟨h4, ?_⟩
    have h6 : q.ut k * (c.ltau t (q.ul k) / p.ltau (q.ul k)) = 0 := of_decide_eq_true h5
    have h7 := hc.pos t _ (h1 k b)
    have h8 := hc.pos 0 _ (h1 k b)
    rw [hc.start.1] at h8
    have h9 : c.ltau t (q.ul k) / p.ltau (q.ul k) ≠ 0 := (div_pos h7 h8).ne'
    exact decide_eq_true ((mul_eq_zero.1 h6).resolve_right h9)

theorem start_tracks {inp : ℝ → Buf ℝ} {inp0 w : Buf ℝ} (hj : j < p.nDerivs) (hkk : kk < p.nUv) (hi : Tracks inp inp0 j kk) :
    Tracks (fun t => start (c.at p t) (inp t) w) (start p inp0 w) j kk := by
  refine ⟨?_, ?_⟩
  · show (if kk < p.nUv then (inp 0).v kk / scale p kk else _) = if kk < p.nUv then inp0.v kk / scale p kk else _
    rw [if_pos hkk, if_pos hkk, hi.1]
  · show HasDerivAt (fun t => if kk < p.nUv then (inp t).v kk / scale p kk else w.v kk)
      (if j < p.nDerivs ∧ kk < p.nUv then inp0.l j kk / scale p kk else _) 0
    rw [if_pos ⟨hj, hkk⟩]
    simp only [if_pos hkk]
    exact hi.2.div_const _

theorem scaled_tracks {r : ℝ → Buf ℝ} {r0 : Buf ℝ} (hj : j < p.nDerivs) (hkk : kk < p.nUv) (hi : Tracks r r0 j kk) :
    Tracks (fun t => scaled (c.at p t) (r t)) (scaled p r0) j kk := by
  refine ⟨?_, ?_⟩
  · show (if kk < p.nUv then (r 0).v kk * scale p kk else _) = if kk < p.nUv then r0.v kk * scale p kk else _
    rw [if_pos hkk, if_pos hkk, hi.1]
  · show HasDerivAt (fun t => if kk < p.nUv then (r t).v kk * scale p kk else (r t).v kk)
      (if j < p.nDerivs ∧ kk < p.nUv then r0.l j kk * scale p kk else _) 0
    rw [if_pos ⟨hj, hkk⟩]
    simp only [if_pos hkk]
    exact hi.2.mul_const _

theorem upTarget_tracks {q : Req ℝ} (hq : q.Ok p.nLayers) (hc : c.Rates p j) (hkk : kk < p.nUv) {k : Nat} (hk : k < q.nUl)
    (hf : ∀ i, q.ul k ≤ i → i < p.nLayers → 1 / p.umus (kk / p.nStokes) + p.as0 i ≠ 0)
    {st : ℝ → Buf ℝ} {st0 : Buf ℝ} (hst : Tracks st st0 j kk) :
    Tracks (fun t => upTarget (c.at p t) (q.move c p t) (st t) k) (upTarget p q st0 k) j kk := by
  have hm : ∀ t, (q.move c p t).tau = q.tau := fun _ => rfl
  unfold upTarget
  simp only [hm]
  cases ht : q.tau
  · have hl := (hq.levels ht).1 k hk
    simp only [Bool.false_eq_true, if_false]
    exact upStage_tracks hc hkk hst (p.nLayers - q.ul k) (by omega) (fun i h1 h2 => hf i (by omega) h2)
  · have hl := (hq.taus ht).1 k hk
    simp only [if_true]
    have h := up_layer_tracks hc hkk hl (u := fun t => q.ut k * (c.ltau t (q.ul k) / p.ltau (q.ul k))) (part_rate hc hl _)
      (hf _ (Nat.le_refl _) hl)
      (upStage_tracks hc hkk hst (p.nLayers - (q.ul k + 1)) (by omega) (fun i h1 h2 => hf i (by omega) h2))
    have h8 := hc.pos 0 _ hl
    rw [hc.start.1] at h8
    have e : q.ut k * (c.ltau 0 (q.ul k) / p.ltau (q.ul k)) = q.ut k := by
      rw [hc.start.1, div_self h8.ne', mul_one]
    rw [e] at h
    exact h

theorem dnTarget_tracks {q : Req ℝ} (hq : q.Ok p.nLayers) (hc : c.Rates p j) (hkk : kk < p.nUv) {k : Nat} (hk : k < q.nUl)
    (hf : ∀ i, (i < q.ul k ∨ q.tau = true ∧ i = q.ul k) → p.as0 i - 1 / p.umus (kk / p.nStokes) ≠ 0)
    {st : ℝ → Buf ℝ} {st0 : Buf ℝ} (hst : Tracks st st0 j kk) :
    Tracks (fun t => dnTarget (c.at p t) (q.move c p t) (st t) k) (dnTarget p q st0 k) j kk := by
  have hm : ∀ t, (q.move c p t).tau = q.tau := fun _ => rfl
  unfold dnTarget
  simp only [hm]
  cases ht : q.tau
  · have hl := (hq.levels ht).1 k hk
    simp only [Bool.false_eq_true, if_false]
    exact dnStage_tracks hc hkk hst _ hl (fun i h => hf i (Or.inl h))
  · have hl := (hq.taus ht).1 k hk
    simp only [if_true]
    have h8 := hc.pos 0 _ hl
    rw [hc.start.1] at h8
    have hz : ∀ t, ((q.move c p t).ul k = 0 ∧ SNum.isZero ((q.move c p t).ut k) = true) ↔
        (q.ul k = 0 ∧ SNum.isZero (q.ut k) = true) := by
      intro t
      have h9 : c.ltau t (q.ul k) / p.ltau (q.ul k) ≠ 0 := (div_pos (hc.pos t _ hl) h8).ne'
      show (q.ul k = 0 ∧ decide (q.ut k * (c.ltau t (q.ul k) / p.ltau (q.ul k)) = 0) = true) ↔
        (q.ul k = 0 ∧ decide (q.ut k = 0) = true)
      simp [h9]
    simp only [hz]
    by_cases hzz : q.ul k = 0 ∧ SNum.isZero (q.ut k) = true
    · simp only [if_pos hzz]
      exact hst
    · simp only [if_neg hzz]
      have h := dn_layer_tracks hc hkk hl (u := fun t => q.ut k * (c.ltau t (q.ul k) / p.ltau (q.ul k))) (part_rate hc hl _)
        (hf _ (Or.inr ⟨ht, rfl⟩)) (dnStage_tracks hc hkk hst (q.ul k) (by omega) (fun i h => hf i (Or.inl h)))
      have e : q.ut k * (c.ltau 0 (q.ul k) / p.ltau (q.ul k)) = q.ut k := by
        rw [hc.start.1, div_self h8.ne', mul_one]
      rw [e] at h
      exact h

/-! ### Numbers that may fail to be finite -/

noncomputable local instance : Add (Option ℝ) := ⟨Arith.add⟩
noncomputable local instance : Sub (Option ℝ) := ⟨Arith.sub⟩
noncomputable local instance : Mul (Option ℝ) := ⟨Arith.mul⟩
noncomputable local instance : Div (Option ℝ) := ⟨Arith.div⟩
noncomputable local instance : Neg (Option ℝ) := ⟨Arith.neg⟩

theorem o_add (a b : ℝ) : (some a : Option ℝ) + some b = some (a + b) := rfl
theorem o_sub (a b : ℝ) : (some a : Option ℝ) - some b = some (a - b) := rfl
theorem o_mul (a b : ℝ) : (some a : Option ℝ) * some b = some (a * b) := rfl
theorem o_neg (a : ℝ) : -(some a : Option ℝ) = some (-a) := rfl
theorem o_exp (a : ℝ) : Arith.exp (some a : Option ℝ) = some (Real.exp a) := rfl
theorem o_one : (Arith.one : Option ℝ) = some 1 := rfl
theorem o_zero : (Arith.zero : Option ℝ) = some 0 := rfl
theorem o_div (a : ℝ) {b : ℝ} (h : b ≠ 0) : (some a : Option ℝ) / some b = some (a / b) := if_neg h
theorem o_div0 (a : Option ℝ) : a / some 0 = none := by
  cases a
  · rfl
  · exact if_pos rfl

/-- The same inputs, as numbers that may fail to be finite. -/
def Prof.lift (p : Prof ℝ) : Prof (Option ℝ) where
  nStokes := p.nStokes
  nDerivs := p.nDerivs
  nLayers := p.nLayers
  nUmus := p.nUmus
  F0 := some p.F0
  umus i := some (p.umus i)
  omega i := some (p.omega i)
  omegaL i j := some (p.omegaL i j)
  ltau i := some (p.ltau i)
  ltauL i j := some (p.ltauL i j)
  P i kk := some (p.P i kk)
  PL i j kk := some (p.PL i j kk)
  btran i := some (p.btran i)
  btranL i j := some (p.btranL i j)
  as0 i := some (p.as0 i)
  as0L i j := some (p.as0L i j)
  flag := p.flag

def Buf.lift (b : Buf ℝ) : Buf (Option ℝ) := ⟨fun kk => some (b.v kk), fun j kk => some (b.l j kk)⟩

def Req.lift (q : Req ℝ) : Req (Option ℝ) := ⟨q.nUl, q.ul, fun k => some (q.ut k), q.tau⟩

theorem lift_ok {q : Req ℝ} {n : Nat} (hq : q.Ok n) : q.lift.Ok n where
  some := hq.some
  levels := hq.levels
  taus := fun h => by
    obtain ⟨h1, h2, h3⟩ := hq.taus h
    refine ⟨h1, h2, fun k a b => ?_⟩
    rintro ⟨h4, h5⟩
    refine h3 k a b ⟨h4, ?_⟩
    have : (some (q.ut k) : Option ℝ) = some 0 := of_decide_eq_true h5
    exact decide_eq_true (Option.some.inj this)

theorem up_layer_lift {p : Prof ℝ} {n : Nat} (u : ℝ) (r : Buf ℝ) (hm : ∀ i, i < p.nUmus → p.umus i ≠ 0)
    (hf : ∀ i, i < p.nUmus → 1 / p.umus i + p.as0 n ≠ 0) (hl : 0 < p.nDerivs → p.ltau n ≠ 0) :
    Agree p.lift (after p.lift (upFac p.lift n (some u)) n r.lift) (after p (upFac p n u) n r).lift := by
  intro kk hk
  have hi : kk / p.nStokes < p.nUmus := by
    apply Nat.div_lt_of_lt_mul
    rw [Nat.mul_comm]; exact hk
  have h1 := hm _ hi
  have h2 := hf _ hi
  refine ⟨?_, fun j hj => ?_⟩
  · show Wv p.lift n (upFac p.lift n (some u) (kk / p.nStokes)) r.lift kk = some (Wv p n (upFac p n u (kk / p.nStokes)) r kk)
    simp only [Wv, upFac, Prof.lift, Buf.lift, o_add, o_sub, o_mul, o_neg, o_exp, o_one, o_div _ h1, o_div _ h2]
    rfl
  · have h3 := hl (Nat.lt_of_le_of_lt (Nat.zero_le _) hj)
    show Wl p.lift n (upFac p.lift n (some u) (kk / p.nStokes)) r.lift j kk = some (Wl p n (upFac p n u (kk / p.nStokes)) r j kk)
    simp only [Wl, upFac, Prof.lift, Buf.lift, o_add, o_sub, o_mul, o_neg, o_exp, o_one, o_div _ h1, o_div _ h2, o_div _ h3]
    by_cases hfl : p.flag n j = true
    · rw [if_pos hfl, if_pos hfl]; rfl
    · rw [if_neg hfl, if_neg hfl]; rfl

theorem dn_layer_lift {p : Prof ℝ} {n : Nat} (u : ℝ) (r : Buf ℝ) (hm : ∀ i, i < p.nUmus → p.umus i ≠ 0)
    (hf : ∀ i, i < p.nUmus → p.as0 n - 1 / p.umus i ≠ 0) (hl : 0 < p.nDerivs → p.ltau n ≠ 0) :
    Agree p.lift (after p.lift (dnFac p.lift n (some u)) n r.lift) (after p (dnFac p n u) n r).lift := by
  intro kk hk
  have hi : kk / p.nStokes < p.nUmus := by
    apply Nat.div_lt_of_lt_mul
    rw [Nat.mul_comm]; exact hk
  have h1 := hm _ hi
  have h2 := hf _ hi
  refine ⟨?_, fun j hj => ?_⟩
  · show Wv p.lift n (dnFac p.lift n (some u) (kk / p.nStokes)) r.lift kk = some (Wv p n (dnFac p n u (kk / p.nStokes)) r kk)
    simp only [Wv, dnFac, Prof.lift, Buf.lift, o_add, o_sub, o_mul, o_neg, o_exp, o_one, o_div _ h1, o_div _ h2]
    rfl
  · have h3 := hl (Nat.lt_of_le_of_lt (Nat.zero_le _) hj)
    show Wl p.lift n (dnFac p.lift n (some u) (kk / p.nStokes)) r.lift j kk = some (Wl p n (dnFac p n u (kk / p.nStokes)) r j kk)
    simp only [Wl, dnFac, Prof.lift, Buf.lift, o_add, o_sub, o_mul, o_neg, o_exp, o_one, o_div _ h1, o_div _ h2, o_div _ h3]
    by_cases hfl : p.flag n j = true
    · rw [if_pos hfl, if_pos hfl]; rfl
    · rw [if_neg hfl, if_neg hfl]; rfl

theorem scale_lift {p : Prof ℝ} {kk : Nat} (hm : p.umus (kk / p.nStokes) ≠ 0) : scale p.lift kk = some (scale p kk) := by
  have hpi : 4 * Real.pi ≠ 0 := by have := Real.pi_pos; positivity
  show (Arith.one : Option ℝ) / some (p.umus (kk / p.nStokes)) * (some p.F0 / some (4 * Real.pi)) = _
  rw [o_one, o_div _ hm, o_div _ hpi, o_mul]
  rfl

theorem cell_angle {p : Prof ℝ} {kk : Nat} (hk : kk < p.nUv) : kk / p.nStokes < p.nUmus := by
  apply Nat.div_lt_of_lt_mul
  rw [Nat.mul_comm]; exact hk

theorem start_lift {p : Prof ℝ} (hF : p.F0 ≠ 0) (hm : ∀ i, i < p.nUmus → p.umus i ≠ 0) (inp w : Buf ℝ) (w' : Buf (Option ℝ)) :
    Agree p.lift (start p.lift inp.lift w') (start p inp w).lift := by
  intro kk hk
  replace hk : kk < p.nUv := hk
  have h1 := hm _ (cell_angle (p := p) hk)
  have h2 := scale_ne hF h1
  refine ⟨?_, fun j hj => ?_⟩
  · show (if kk < p.nUv then some (inp.v kk) / scale p.lift kk else _) = some (if kk < p.nUv then inp.v kk / scale p kk else _)
    rw [if_pos hk, if_pos hk, scale_lift h1, o_div _ h2]
  · show (if j < p.nDerivs ∧ kk < p.nUv then some (inp.l j kk) / scale p.lift kk else _) =
      some (if j < p.nDerivs ∧ kk < p.nUv then inp.l j kk / scale p kk else _)
    rw [if_pos ⟨hj, hk⟩, if_pos ⟨hj, hk⟩, scale_lift h1, o_div _ h2]

theorem scaled_lift {p : Prof ℝ} (hm : ∀ i, i < p.nUmus → p.umus i ≠ 0) {r' : Buf (Option ℝ)} {r : Buf ℝ}
    (h : Agree p.lift r' r.lift) : Agree p.lift (scaled p.lift r') (scaled p r).lift := by
  refine (scaled_congr h).trans ?_
  intro kk hk
  replace hk : kk < p.nUv := hk
  have h1 := hm _ (cell_angle (p := p) hk)
  refine ⟨?_, fun j hj => ?_⟩
  · show (if kk < p.nUv then some (r.v kk) * scale p.lift kk else _) = some (if kk < p.nUv then r.v kk * scale p kk else _)
    rw [if_pos hk, if_pos hk, scale_lift h1, o_mul]
  · show (if j < p.nDerivs ∧ kk < p.nUv then some (r.l j kk) * scale p.lift kk else _) =
      some (if j < p.nDerivs ∧ kk < p.nUv then r.l j kk * scale p kk else _)
    rw [if_pos ⟨hj, hk⟩, if_pos ⟨hj, hk⟩, scale_lift h1, o_mul]

theorem upStage_lift {p : Prof ℝ} (hm : ∀ i, i < p.nUmus → p.umus i ≠ 0)
    (hf : ∀ n i, n < p.nLayers → i < p.nUmus → 1 / p.umus i + p.as0 n ≠ 0)
    (hl : 0 < p.nDerivs → ∀ n, n < p.nLayers → p.ltau n ≠ 0) {st' : Buf (Option ℝ)} {st : Buf ℝ}
    (h : Agree p.lift st' st.lift) : ∀ d, d ≤ p.nLayers → Agree p.lift (upStage p.lift st' d) (upStage p st d).lift
  | 0, _ => h
  | d + 1, hd => (after_congr (upStage_lift hm hf hl h d (by omega))).trans
      (up_layer_lift (n := p.nLayers - 1 - d) 0 _ hm (fun i => hf _ i (by omega)) (fun h => hl h _ (by omega)))

theorem dnStage_lift {p : Prof ℝ} (hm : ∀ i, i < p.nUmus → p.umus i ≠ 0)
    (hf : ∀ n i, n < p.nLayers → i < p.nUmus → p.as0 n - 1 / p.umus i ≠ 0)
    (hl : 0 < p.nDerivs → ∀ n, n < p.nLayers → p.ltau n ≠ 0) {st' : Buf (Option ℝ)} {st : Buf ℝ}
    (h : Agree p.lift st' st.lift) : ∀ d, d ≤ p.nLayers → Agree p.lift (dnStage p.lift st' d) (dnStage p st d).lift
  | 0, _ => h
  | d + 1, hd => (after_congr (dnStage_lift hm hf hl h d (by omega))).trans
      (dn_layer_lift (p.ltau d) _ hm (fun i => hf _ i (by omega)) (fun h => hl h _ (by omega)))

theorem upTarget_lift {p : Prof ℝ} {q : Req ℝ} (hq : q.Ok p.nLayers) (hm : ∀ i, i < p.nUmus → p.umus i ≠ 0)
    (hf : ∀ n i, n < p.nLayers → i < p.nUmus → 1 / p.umus i + p.as0 n ≠ 0)
    (hl : 0 < p.nDerivs → ∀ n, n < p.nLayers → p.ltau n ≠ 0) {st' : Buf (Option ℝ)} {st : Buf ℝ}
    (h : Agree p.lift st' st.lift) {k : Nat} (hk : k < q.nUl) :
    Agree p.lift (upTarget p.lift q.lift st' k) (upTarget p q st k).lift := by
  have hm' : q.lift.tau = q.tau := rfl
  unfold upTarget
  rw [hm']
  cases ht : q.tau
  · simp only [Bool.false_eq_true, if_false]
    exact upStage_lift hm hf hl h (p.nLayers - q.ul k) (by omega)
  · have hlt := (hq.taus ht).1 k hk
    simp only [if_true]
    exact (after_congr (upStage_lift hm hf hl h (p.nLayers - (q.ul k + 1)) (by omega))).trans
      (up_layer_lift (q.ut k) _ hm (fun i => hf _ i hlt) (fun h => hl h _ hlt))

theorem dnTarget_lift {p : Prof ℝ} {q : Req ℝ} (hq : q.Ok p.nLayers) (hm : ∀ i, i < p.nUmus → p.umus i ≠ 0)
    (hf : ∀ n i, n < p.nLayers → i < p.nUmus → p.as0 n - 1 / p.umus i ≠ 0)
    (hl : 0 < p.nDerivs → ∀ n, n < p.nLayers → p.ltau n ≠ 0) {st' : Buf (Option ℝ)} {st : Buf ℝ}
    (h : Agree p.lift st' st.lift) {k : Nat} (hk : k < q.nUl) :
    Agree p.lift (dnTarget p.lift q.lift st' k) (dnTarget p q st k).lift := by
  have hm' : q.lift.tau = q.tau := rfl
  unfold dnTarget
  rw [hm']
  cases ht : q.tau
  · have hlt := (hq.levels ht).1 k hk
    simp only [Bool.false_eq_true, if_false]
    exact dnStage_lift hm hf hl h (q.ul k) hlt
  · have hlt := (hq.taus ht).1 k hk
    simp only [if_true]
    have hz : (q.lift.ul k = 0 ∧ SNum.isZero (q.lift.ut k) = true) ↔ (q.ul k = 0 ∧ SNum.isZero (q.ut k) = true) := by
      show (q.ul k = 0 ∧ decide ((some (q.ut k) : Option ℝ) = some 0) = true) ↔ (q.ul k = 0 ∧ decide (q.ut k = 0) = true)
      simp
    by_cases hzz : q.ul k = 0 ∧ SNum.isZero (q.ut k) = true
    · rw [if_pos hzz, if_pos (hz.2 hzz)]
      exact h
    · rw [if_neg hzz, if_neg (fun h => hzz (hz.1 h))]
      exact (after_congr (dnStage_lift hm hf hl h (q.ul k) (by omega))).trans
        (dn_layer_lift (q.ut k) _ hm (fun i => hf _ i hlt) (fun h => hl h _ hlt))

end Xrtm.Single
