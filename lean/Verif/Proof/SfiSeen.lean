import Verif.Proof.SfiAir
import Mathlib.MeasureTheory.Integral.IntervalIntegral.FundThmCalculus

/-! # There is light in further directions, whatever they are -/

namespace Xrtm.Sfi
open Matrix Xrtm.Loops Xrtm.Eig Xrtm.Transfer

variable {m n : Nat}

theorem light_exists {s mu : ℝ} {S : ℝ → ℝ} (hS : Continuous S) (t0 v : ℝ) :
    ∃ f : ℝ → ℝ, f t0 = v ∧ ∀ t, HasDerivAt f (s * (f t - S t) / mu) t := by
  set k := s / mu with hk
  set G : ℝ → ℝ := fun r => k * S r * Real.exp (-(k * r)) with hG
  have hc : Continuous G := by fun_prop
  refine ⟨fun t => Real.exp (k * t) * (v * Real.exp (-(k * t0)) - ∫ r in t0..t, G r), ?_, fun t => ?_⟩
  · simp only [intervalIntegral.integral_same, sub_zero]
    rw [mul_left_comm, ← Real.exp_add]; simp
  · have h1 : HasDerivAt (fun t => ∫ r in t0..t, G r) (G t) t :=
      intervalIntegral.integral_hasDerivAt_right (hc.intervalIntegrable _ _) (hc.stronglyMeasurableAtFilter _ _) hc.continuousAt
    have h2 := ((hasDerivAt_id t).const_mul k).exp
    refine (h2.fun_mul (h1.const_sub (v * Real.exp (-(k * t0))))).congr_deriv ?_
    have h3 : Real.exp (k * t) * Real.exp (-(k * t)) = 1 := by rw [← Real.exp_add]; simp
    simp only [id, hG]
    rw [mul_div_right_comm, ← hk]
    linear_combination (-k * S t) * h3

/-- One light after the other, downwards. -/
theorem chain_exists (Q : Nat → (ℝ → ℝ) → Prop) (a b : Nat → ℝ) (hQ : ∀ i v, ∃ f : ℝ → ℝ, f (a i) = v ∧ Q i f) (v : ℝ) :
    ∃ f : Nat → ℝ → ℝ, f 0 (a 0) = v ∧ ∀ i, Q i (f i) ∧ f i (b i) = f (i + 1) (a (i + 1)) := by
  choose F hF using hQ
  let g : Nat → ℝ := fun i => Nat.rec v (fun i w => F i w (b i)) i
  exact ⟨fun i => F i (g i), (hF 0 v).1, fun i => ⟨(hF i (g i)).2, ((hF (i + 1) (g (i + 1))).1).symm⟩⟩

/-- Light in a stack is seen in any further directions but the level ones. -/
theorem seen_exists {s : Stack n} {v : View m n} (hmu : ∀ u, v.mu u ≠ 0) (hL : 1 ≤ s.L) {up dn : Nat → ℝ → Source.V n}
    (hl : s.Lit up dn) (hqp : ∀ i u, Continuous fun t => v.qp i t u) (hqm : ∀ i u, Continuous fun t => v.qm i t u) :
    ∃ U D, v.Seen s up dn U D := by
  have hcu : ∀ i, i < s.L → ∀ j, Continuous fun t => up i t j := fun i hi j => continuous_iff_continuousAt.2 fun t => by
    obtain ⟨p, q, h1, -⟩ := hl.layer i hi t j; exact h1.continuousAt
  have hcd : ∀ i, i < s.L → ∀ j, Continuous fun t => dn i t j := fun i hi j => continuous_iff_continuousAt.2 fun t => by
    obtain ⟨p, q, -, h1, -⟩ := hl.layer i hi t j; exact h1.continuousAt
  set Su : Nat → Fin m → ℝ → ℝ := fun i u τ =>
    (s.med i).k * ∑ j, (s.med i).w j * (v.Ppp i u j * up i τ j + v.Ppm i u j * dn i τ j) + v.qp i τ u with hSu
  set Sd : Nat → Fin m → ℝ → ℝ := fun i u τ =>
    (s.med i).k * ∑ j, (s.med i).w j * (v.Pmp i u j * up i τ j + v.Pmm i u j * dn i τ j) + v.qm i τ u with hSd
  have hSuc : ∀ i, i < s.L → ∀ u, Continuous (Su i u) := fun i hi u => by
    have := hcu i hi; have := hcd i hi; have := hqp i u
    refine ((continuous_finsetSum _ fun j _ => ?_).const_mul _).add this
    exact (((hcu i hi j).const_mul _).add ((hcd i hi j).const_mul _)).const_mul _
  have hSdc : ∀ i, i < s.L → ∀ u, Continuous (Sd i u) := fun i hi u => by
    have := hqm i u
    refine ((continuous_finsetSum _ fun j _ => ?_).const_mul _).add this
    exact (((hcu i hi j).const_mul _).add ((hcd i hi j).const_mul _)).const_mul _
  have hd := fun u => chain_exists
    (fun i f => i < s.L → ∀ t, HasDerivAt f (-1 * (f t - Sd i u t) / v.mu u) t) (fun _ => 0) s.T
    (fun i w => by
      by_cases hi : i < s.L
      · obtain ⟨f, h1, h2⟩ := light_exists (s := -1) (mu := v.mu u) (hSdc i hi u) 0 w
        exact ⟨f, h1, fun _ => h2⟩
      · exact ⟨fun _ => w, rfl, fun h => absurd h hi⟩) (v.top u)
  have hu := fun u => chain_exists
    (fun c f => c < s.L → ∀ t, HasDerivAt f (1 * (f t - Su (s.L - 1 - c) u t) / v.mu u) t)
    (fun c => s.T (s.L - 1 - c)) (fun _ => 0)
    (fun c w => by
      by_cases hi : c < s.L
      · obtain ⟨f, h1, h2⟩ := light_exists (s := 1) (mu := v.mu u) (hSuc (s.L - 1 - c) (by omega) u) (s.T (s.L - 1 - c)) w
        exact ⟨f, h1, fun _ => h2⟩
      · exact ⟨fun _ => w, rfl, fun h => absurd h hi⟩)
    (v.bot u + mulVec v.Rs (dn (s.L - 1) (s.T (s.L - 1))) u)
  choose D hD0 hD using hd
  choose U hU0 hU using hu
  refine ⟨fun i t u => U u (s.L - 1 - i) t, fun i t u => D u i t, ?_, ?_, ?_, ?_⟩
  · intro i hi t u
    have h1 := (hU u (s.L - 1 - i)).1 (by omega) t
    have h2 := (hD u i).1 hi t
    rw [show s.L - 1 - (s.L - 1 - i) = i by omega] at h1
    refine ⟨_, _, h1, h2, ?_, ?_⟩
    · rw [mul_div_cancel₀ _ (hmu u), hSu]; ring
    · rw [mul_div_cancel₀ _ (hmu u), hSd]; ring
  · intro i hi
    refine ⟨funext fun u => ?_, funext fun u => (hD u i).2⟩
    have h := (hU u (s.L - 1 - (i + 1))).2
    have e1 : s.L - 1 - (i + 1) + 1 = s.L - 1 - i := by omega
    have e2 : s.L - 1 - (s.L - 1 - i) = i := by omega
    rw [e1, e2] at h
    exact h.symm
  · exact funext fun u => hD0 u
  · funext u
    have h := hU0 u
    rw [Nat.sub_zero] at h
    rw [Nat.sub_self, h]
    rfl

end Xrtm.Sfi
