import Verif.Proof.StreamsV
import Verif.Proof.StreamsT

/-! Atmospheres that scatter alike in all directions, to show that what is asked can be
met; bounds for the tables; layers that only absorb. -/

namespace Xrtm.Streams
open Matrix Xrtm.Transfer Xrtm.Legendre Xrtm.Legendre.Spec Xrtm.Streams.Spec

variable {n : Nat}

/-- Two layers that scatter alike in all directions half of what they take. -/
noncomputable def iso (qx qw : Source.V n) (as0 : ℝ) (sf : Bool) : Inp n where
  m := 0
  L := 2
  qx := qx
  qw := qw
  F0 := 1
  mu0 := 1 / 2
  nCoef := 2 * n
  coef := fun _ l => if l = 0 then 1 else 0
  om := fun _ => 1 / 2
  ltau := fun _ => 1
  btran := fun i => Real.exp (-i * as0)
  as0 := fun _ => as0
  atran := fun _ => Real.exp (-1 * as0)
  Rs := 0
  I1m := 0
  Inp := 0
  solar := true
  surface := sf

variable {qx qw : Source.V n} {as0 : ℝ} {sf : Bool} {k : Kind n}

theorem iso_same (hn : 0 < n) (f g : Nat → ℝ) (hf : f 0 = 1) (hg : g 0 = 1) :
    same 0 (2 * n) (fun l => if l = 0 then 1 else 0) f g = 1 ∧ other 0 (2 * n) (fun l => if l = 0 then 1 else 0) f g = 1 := by
  unfold same other eps
  rw [if_pos rfl, ← Finset.range_eq_Ico]
  constructor
  · rw [Finset.sum_eq_single 0]
    · simp [hf, hg]
    · intro l _ hl; simp [hl]
    · intro h; exact absurd (Finset.mem_range.2 (by omega)) h
  · rw [Finset.sum_eq_single 0]
    · simp [hf, hg]
    · intro l _ hl; simp [hl]
    · intro h; exact absurd (Finset.mem_range.2 (by omega)) h

theorem iso_dir (hY : ∀ j, k.Y j 0 0 = 1) (j : Fin n) : dir k 0 j 0 = 1 := by
  unfold dir sg
  rw [hY, if_neg (by norm_num), one_mul]

theorem iso_Pqq (hY : ∀ j, k.Y j 0 0 = 1) (i : Nat) (a b : Fin n) : Pqq k (iso qx qw as0 sf) i a b = (1, 1) := by
  rw [Pqq_eq]
  have hn : 0 < n := Fin.pos a
  have := iso_same hn _ _ (iso_dir hY a) (iso_dir hY b)
  exact Prod.ext this.1 this.2

theorem iso_Y0 (x : ℝ) : Y 0 0 x = 1 := by
  rw [Y_eq, (T_values x).1, nrm_inv 0 0 1 (by norm_num)]
  norm_num

theorem iso_Pq0 (hn3 : n ≤ 3) (hY : ∀ j, k.Y j 0 0 = 1) (i : Nat) (j : Fin n) :
    Pq0 k (iso qx qw as0 sf) i j = (1, 1) := by
  rw [Pq0_eq k _ hn3 (by change (1 / 2 : ℝ) ^ 2 ≤ 1; norm_num)]
  have := iso_same (Fin.pos j) _ (fun l => Y 0 l (-(1 / 2))) (iso_dir hY j) (iso_Y0 _)
  exact Prod.ext this.1 this.2

theorem iso_wom (i : Nat) (b : Fin n) : wom (iso qx qw as0 sf) i b = qw b / 4 := by
  unfold wom iso
  norm_num
  ring

theorem iso_apb (hY : ∀ j, k.Y j 0 0 = 1) (i : Nat) (a b : Fin n) :
    apb k (iso qx qw as0 sf) i a b = if a = b then -1 / qx a else 0 := by
  unfold apb alpha beta
  rw [iso_Pqq hY, iso_wom]
  change (if a = b then (-1 + qw b / 4 * 1) / qx a else qw b / 4 * 1 / qx a) + -(qw b / 4) * 1 / qx a = _
  split <;> ring

theorem iso_amb (hY : ∀ j, k.Y j 0 0 = 1) (i : Nat) (a b : Fin n) :
    amb k (iso qx qw as0 sf) i a b = ((if a = b then -1 else 0) + qw b / 2) / qx a := by
  unfold amb alpha beta
  rw [iso_Pqq hY, iso_wom]
  change (if a = b then (-1 + qw b / 4 * 1) / qx a else qw b / 4 * 1 / qx a) - -(qw b / 4) * 1 / qx a = _
  split <;> ring

theorem iso_gamma (hY : ∀ j, k.Y j 0 0 = 1) (i : Nat) :
    gamma k (iso qx qw as0 sf) i = fun a b => -((if a = b then -1 else 0) + qw b / 2) / (qx a * qx b) := by
  funext a b
  unfold gamma
  simp only [iso_amb hY, iso_apb hY, mul_ite, mul_zero, Finset.sum_ite_eq', Finset.mem_univ, if_true]
  by_cases h : a = b
  · rw [if_pos h]; ring
  · rw [if_neg h]; ring

theorem iso_hh (hn3 : n ≤ 3) (hY : ∀ j, k.Y j 0 0 = 1) (i : Nat) (j : Fin n) :
    hh k (iso qx qw as0 sf) i j = -1 / qx j * pp k (iso qx qw as0 sf) i j := by
  have he : ∀ l, ee k (iso qx qw as0 sf) i l = 0 := fun l => by unfold ee; rw [iso_Pq0 hn3 hY]; simp
  unfold hh
  rw [he, add_zero]
  simp only [iso_apb hY, ite_mul, zero_mul, Finset.sum_ite_eq, Finset.mem_univ, if_true]

theorem iso_dd (hn3 : n ≤ 3) (hY : ∀ j, k.Y j 0 0 = 1) (i : Nat) (j : Fin n) :
    dd k (iso qx qw as0 sf) i j = 1 / (4 * Real.pi) / qx j := by
  unfold dd
  rw [iso_Pq0 hn3 hY]
  change 1 * (1 / 2 : ℝ) / (4 * Real.pi) / qx j * (1 + 1) = _
  ring

/-- Not all of it is nothing. -/
theorem iso_hh_ne {simple : Source.M n → Prop} (laws : Laws k simple) (hn3 : n ≤ 3) (hY : ∀ j, k.Y j 0 0 = 1)
    (h0 : ∀ j, qx j ≠ 0) (ha : as0 ≠ 0) (i : Nat) (hd : k.det (gammaS k (iso qx qw as0 sf) i) ≠ 0) (j : Fin n)
    (hz : ∀ j, hh k (iso qx qw as0 sf) i j = 0) : False := by
  have hp : pp k (iso qx qw as0 sf) i j = 0 := by
    have := hz j
    rw [iso_hh hn3 hY] at this
    exact (mul_eq_zero.1 this).resolve_left (div_ne_zero (by norm_num) (h0 j))
  have := pp_eq (z := iso qx qw as0 sf) laws i hd j
  simp only [hz, mul_zero, Finset.sum_const_zero, hp, zero_sub] at this
  rw [iso_dd hn3 hY] at this
  have h1 : (1 : ℝ) / (4 * Real.pi) / qx j ≠ 0 := by
    have := Real.pi_ne_zero
    have := h0 j
    positivity
  exact mul_ne_zero (show (iso qx qw as0 sf).as0 i ≠ 0 from ha) h1 (neg_eq_zero.1 this.symm)

theorem iso_fine (h0 : ∀ j, qx j ≠ 0) : Fine (iso qx qw 2 sf) where
  one := by change 1 ≤ 2; norm_num
  q0 := h0
  m1 := by change (1 / 2 : ℝ) ^ 2 ≤ 1; norm_num
  decay := fun _ _ => rfl
  plane := fun _ _ => by change (2 : ℝ) * (1 / 2) = 1; norm_num
  sun := rfl
  sky := rfl
  ground := fun _ => rfl

theorem iso_passive (hY : ∀ j, k.Y j 0 0 = 1) (h0 : ∀ j, 0 < qx j) (hw : ∀ j, 0 < qw j) (hs : ∑ j, qw j = 1) :
    (stack (dir k 0) (iso qx qw as0 sf)).Passive qx qw where
  cos := h0
  weight := hw
  thick := fun _ _ => by change (0 : ℝ) ≤ 1; norm_num
  dirs := fun _ _ => ⟨rfl, rfl⟩
  layer := fun i _ => by
    change (medium (dir k 0) (iso qx qw as0 sf) i).Passive
    refine Medium.Normal.passive ?_
    have hP : ∀ a b : Fin n, same 0 (2 * n) (fun l => if l = 0 then 1 else 0) (dir k 0 a) (dir k 0 b) = 1 ∧
        other 0 (2 * n) (fun l => if l = 0 then 1 else 0) (dir k 0 a) (dir k 0 b) = 1 := fun a b =>
      iso_same (Fin.pos a) _ _ (iso_dir hY a) (iso_dir hY b)
    have ek : (medium (dir k 0) (iso qx qw as0 sf) i).k = 1 / 4 := by
      change (1 / 2 : ℝ) / (4 * Real.pi) * (2 * Real.pi) = 1 / 4
      have := Real.pi_ne_zero
      field_simp
    have e1 : ∀ a b, (medium (dir k 0) (iso qx qw as0 sf) i).Ppp a b = 1 := fun a b => (hP a b).1
    have e2 : ∀ a b, (medium (dir k 0) (iso qx qw as0 sf) i).Pmp a b = 1 := fun a b => (hP a b).2
    have e3 : ∀ a b, (medium (dir k 0) (iso qx qw as0 sf) i).Pmm a b = 1 := fun a b => (hP a b).1
    have e4 : ∀ a b, (medium (dir k 0) (iso qx qw as0 sf) i).Ppm a b = 1 := fun a b => (hP a b).2
    have ew : (medium (dir k 0) (iso qx qw as0 sf) i).w = qw := rfl
    refine ⟨by rw [ek]; norm_num, fun j => (hw j).le, fun a b => ?_, fun a b => ?_, fun a => ?_, fun a => ?_⟩
    · rw [e1, e2, e3, e4]; norm_num
    · simp only [e1, e2, e3, e4, and_self]
    · simp only [ek, e1, e4, ew]
      rw [← Finset.sum_mul, hs]; norm_num
    · simp only [ek, e2, e3, ew]
      rw [← Finset.sum_mul, hs]; norm_num
  ground := fun d => by
    have : (stack (dir k 0) (iso qx qw as0 sf)).Rs = 0 := by
      change (if sf then (0 : Source.M n) else 0) = 0
      split <;> rfl
    rw [this]
    simp only [Matrix.zero_mulVec, Pi.zero_apply]
    refine Finset.sum_le_sum fun j _ => ?_
    have := h0 j
    have := hw j
    have : 0 ≤ qw j * qx j * d j ^ 2 := by positivity
    linarith

/-! ## Four -/

noncomputable def iso4 (as0 : ℝ) (sf : Bool) : Inp 2 := iso ![1 / 4, 3 / 4] ![1 / 2, 1 / 2] as0 sf

theorem four_Y (j : Fin 2) : four.Y j 0 0 = 1 := by
  obtain rfl | rfl : j = 0 ∨ j = 1 := by omega
  · change (1.0000000000000000 : ℝ) = 1; norm_num
  · change (1.0000000000000000 : ℝ) = 1; norm_num

theorem iso4_gamma (as0 : ℝ) (sf : Bool) (i : Nat) : gamma four (iso4 as0 sf) i = !![12, -4 / 3; -4 / 3, 4 / 3] := by
  unfold iso4
  rw [iso_gamma four_Y]
  ext a b
  fin_cases a <;> fin_cases b <;> norm_num

theorem iso4_gammaS (as0 : ℝ) (sf : Bool) (i : Nat) :
    four.det (gammaS four (iso4 as0 sf) i) = (12 - as0 * as0) * (4 / 3 - as0 * as0) - 16 / 9 := by
  change det2 _ = _
  unfold det2 gammaS
  rw [iso4_gamma]
  have : ∀ i, (iso4 as0 sf).as0 i = as0 := fun _ => rfl
  simp [this]
  ring

theorem iso4_simple (as0 : ℝ) (sf : Bool) (i : Nat) : disc2 (gamma four (iso4 as0 sf) i) ≠ 0 := by
  rw [iso4_gamma]
  unfold disc2
  simp
  norm_num

theorem iso4_numbers (as0 : ℝ) (sf : Bool) (h : (12 - as0 * as0) * (4 / 3 - as0 * as0) - 16 / 9 ≠ 0) :
    Numbers four (iso4 as0 sf) := by
  intro i _
  have e : √(disc2 (gamma four (iso4 as0 sf) i)) = √(1088 / 9) := by
    rw [iso4_gamma]
    unfold disc2
    simp
    norm_num
  have b1 : (10.9 : ℝ) < √(1088 / 9) := Real.lt_sqrt_of_sq_lt (by norm_num)
  have b2 : √(1088 / 9) < (11 : ℝ) := (Real.sqrt_lt' (by norm_num)).2 (by norm_num)
  have ev := evals4_eq (gamma four (iso4 as0 sf) i)
  rw [e] at ev
  rw [iso4_gamma] at ev
  have v0 : four.evals (gamma four (iso4 as0 sf) i) 0 = (12 + 4 / 3 + √(1088 / 9)) / 2 := by
    rw [iso4_gamma]
    change evals4 _ 0 = _
    rw [ev]; simp
  have v1 : four.evals (gamma four (iso4 as0 sf) i) 1 = (12 + 4 / 3 - √(1088 / 9)) / 2 := by
    rw [iso4_gamma]
    change evals4 _ 1 = _
    rw [ev]; simp
  have pos : ∀ j, 0 < four.evals (gamma four (iso4 as0 sf) i) j := by
    intro j
    obtain rfl | rfl : j = 0 ∨ j = 1 := by omega
    · rw [v0]; linarith
    · rw [v1]; linarith
  refine ⟨⟨?_, ?_, ?_⟩, fun j => (pos j).le, fun j => (Real.sqrt_pos.2 (pos j)).ne', fun _ => ?_⟩
  · rw [iso4_gamma]; simp; norm_num
  · change four.evals (gamma four (iso4 as0 sf) i) 1 - _ ≠ 0
    rw [v1, show gamma four (iso4 as0 sf) i 0 0 = 12 by rw [iso4_gamma]; rfl]
    intro hc; linarith
  · change four.evals (gamma four (iso4 as0 sf) i) 0 - _ ≠ 0
    rw [v0, show gamma four (iso4 as0 sf) i 1 1 = 4 / 3 by rw [iso4_gamma]; rfl]
    intro hc; linarith
  · rw [iso4_gammaS]; exact h

/-! ## Six -/

noncomputable def iso6 (as0 : ℝ) (sf : Bool) : Inp 3 := iso ![1 / 4, 1 / 2, 3 / 4] ![1 / 3, 1 / 3, 1 / 3] as0 sf

theorem six_Y (j : Fin 3) : six.Y j 0 0 = 1 := by
  obtain rfl | rfl | rfl : j = 0 ∨ j = 1 ∨ j = 2 := by omega
  · change (1.0000000000000000 : ℝ) = 1; norm_num
  · change (1.0000000000000000 : ℝ) = 1; norm_num
  · change (1.0000000000000000 : ℝ) = 1; norm_num

noncomputable def g6 : Source.M 3 := !![40 / 3, -4 / 3, -8 / 9; -4 / 3, 10 / 3, -4 / 9; -8 / 9, -4 / 9, 40 / 27]

theorem iso6_gamma (as0 : ℝ) (sf : Bool) (i : Nat) : gamma six (iso6 as0 sf) i = g6 := by
  unfold iso6 g6
  rw [iso_gamma six_Y]
  ext a b
  fin_cases a <;> fin_cases b <;> norm_num

theorem g6_at : g6 0 0 = 40 / 3 ∧ g6 0 1 = -4 / 3 ∧ g6 0 2 = -8 / 9 ∧ g6 1 0 = -4 / 3 ∧ g6 1 1 = 10 / 3 ∧
    g6 1 2 = -4 / 9 ∧ g6 2 0 = -8 / 9 ∧ g6 2 1 = -4 / 9 ∧ g6 2 2 = 40 / 27 := by
  unfold g6; simp

theorem iso6_simple (as0 : ℝ) (sf : Bool) (i : Nat) : simple6 (gamma six (iso6 as0 sf) i) := by
  rw [iso6_gamma]
  obtain ⟨h1, h2, h3, h4, h5, h6, h7, h8, h9⟩ := g6_at
  unfold simple6 disc3 bb3 cc3 det3
  rw [h1, h2, h3, h4, h5, h6, h7, h8, h9]
  norm_num

theorem iso6_gammaS (as0 : ℝ) (sf : Bool) (i : Nat) : six.det (gammaS six (iso6 as0 sf) i) =
    (40 / 3 - as0 * as0) * (10 / 3 - as0 * as0) * (40 / 27 - as0 * as0) - 2 * (4 / 3 * (4 / 9) * (8 / 9)) -
      (8 / 9) ^ 2 * (10 / 3 - as0 * as0) - (4 / 9) ^ 2 * (40 / 3 - as0 * as0) - (4 / 3) ^ 2 * (40 / 27 - as0 * as0) := by
  change det3 _ = _
  unfold det3 gammaS
  rw [iso6_gamma]
  obtain ⟨h1, h2, h3, h4, h5, h6, h7, h8, h9⟩ := g6_at
  have : ∀ i, (iso6 as0 sf).as0 i = as0 := fun _ => rfl
  simp [this, h1, h2, h3, h4, h5, h6, h7, h8, h9]
  ring

theorem iso6_numbers (as0 : ℝ) (sf : Bool) (h : (40 / 3 - as0 * as0) * (10 / 3 - as0 * as0) * (40 / 27 - as0 * as0) -
    2 * (4 / 3 * (4 / 9) * (8 / 9)) - (8 / 9) ^ 2 * (10 / 3 - as0 * as0) - (4 / 9) ^ 2 * (40 / 3 - as0 * as0) -
    (4 / 3) ^ 2 * (40 / 27 - as0 * as0) ≠ 0) : Numbers six (iso6 as0 sf) := by
  intro i _
  have hs := iso6_simple as0 sf i
  rw [iso6_gamma] at hs
  have hz := fun j => evals6_zero hs j
  obtain ⟨h1, h2, h3, h4, h5, h6, h7, h8, h9⟩ := g6_at
  rw [h1, h2, h3, h4, h5, h6, h7, h8, h9] at hz
  have facts : ∀ j, 0 < evals6 g6 j ∧ evals6 g6 j ≠ 4 ∧ evals6 g6 j ≠ 16 ∧ evals6 g6 j ≠ 16 / 9 := by
    intro j
    have := hz j
    refine ⟨?_, ?_, ?_, ?_⟩
    · by_contra hc
      push Not at hc
      set e := evals6 g6 j
      nlinarith [mul_nonneg (neg_nonneg.2 hc) (neg_nonneg.2 hc), mul_nonneg (mul_nonneg (neg_nonneg.2 hc) (neg_nonneg.2 hc)) (neg_nonneg.2 hc)]
    · intro e; rw [e] at this; norm_num at this
    · intro e; rw [e] at this; norm_num at this
    · intro e; rw [e] at this; norm_num at this
  rw [iso6_gamma]
  refine ⟨?_, fun j => (facts j).1.le, fun j => ?_, fun _ => ?_⟩
  · have a01 : ∀ j, n01 g6 (evals6 g6 j) ≠ 0 := fun j hc => by
      unfold n01 at hc
      rw [h2, h3, h5, h6] at hc
      exact (facts j).2.1 (by linarith)
    have a10 : ∀ j, n10 g6 (evals6 g6 j) ≠ 0 := fun j hc => by
      unfold n10 at hc
      rw [h1, h3, h4, h6] at hc
      exact (facts j).2.2.1 (by linarith)
    have a02 : ∀ j, n02 g6 (evals6 g6 j) ≠ 0 := fun j hc => by
      unfold n02 at hc
      rw [h2, h3, h8, h9] at hc
      exact (facts j).2.2.2 (by linarith)
    have a20 : ∀ j, n20 g6 (evals6 g6 j) ≠ 0 := fun j hc => by
      unfold n20 at hc
      rw [h1, h2, h7, h8] at hc
      exact (facts j).2.2.1 (by linarith)
    exact ⟨a10 1, a20 2, a01 0, a01 2, a02 0, a02 1⟩
  · unfold nu
    rw [iso6_gamma]
    exact (Real.sqrt_pos.2 (facts j).1).ne'
  · rw [iso6_gammaS]; exact h

/-! ## Tables -/

theorem Y4_le (j m l : Nat) : |Y4 j m l| ≤ 1 := by
  unfold Y4
  split <;> (rw [abs_le]; norm_num)

theorem Y6_le (j m l : Nat) : |Y6 j m l| ≤ 1 := by
  unfold Y6
  split <;> (rw [abs_le]; norm_num)

theorem prod_near {f g f' g' : ℝ} (hf : |f| ≤ 1) (hg : |g| ≤ 1) (h1 : |f - f'| ≤ 1 / 10 ^ 15) (h2 : |g - g'| ≤ 1 / 10 ^ 15) :
    |f * g - f' * g'| ≤ 3 / 10 ^ 15 := by
  have e : f * g - f' * g' = f * (g - g') + (f - f') * g - (f - f') * (g - g') := by ring
  rw [e]
  have a1 : |f * (g - g')| ≤ 1 * (1 / 10 ^ 15) := by
    rw [abs_mul]; exact mul_le_mul hf h2 (abs_nonneg _) zero_le_one
  have a2 : |(f - f') * g| ≤ 1 / 10 ^ 15 * 1 := by
    rw [abs_mul]; exact mul_le_mul h1 hg (abs_nonneg _) (by positivity)
  have a3 : |(f - f') * (g - g')| ≤ 1 / 10 ^ 15 * (1 / 10 ^ 15) := by
    rw [abs_mul]; exact mul_le_mul h1 h2 (abs_nonneg _) (by positivity)
  have := abs_sub (f * (g - g') + (f - f') * g) ((f - f') * (g - g'))
  have := abs_add_le (f * (g - g')) ((f - f') * g)
  norm_num at *
  linarith

theorem same_near (m N : Nat) (c f g f' g' : Nat → ℝ)
    (h : ∀ l, m ≤ l → l < N → |f l * g l - f' l * g' l| ≤ 3 / 10 ^ 15) :
    |same m N c f g - same m N c f' g'| ≤ 2 * (∑ l ∈ Finset.Ico m N, |c l|) * (3 / 10 ^ 15) ∧
    |other m N c f g - other m N c f' g'| ≤ 2 * (∑ l ∈ Finset.Ico m N, |c l|) * (3 / 10 ^ 15) := by
  have he : 0 ≤ eps m ∧ eps m ≤ 2 := by unfold eps; split <;> norm_num
  unfold same other
  constructor
  · rw [← mul_sub, ← Finset.sum_sub_distrib, abs_mul, abs_of_nonneg he.1, mul_assoc 2, Finset.sum_mul]
    refine mul_le_mul he.2 ((Finset.abs_sum_le_sum_abs _ _).trans (Finset.sum_le_sum fun l hl => ?_)) (abs_nonneg _) (by norm_num)
    rw [Finset.mem_Ico] at hl
    rw [← mul_sub, abs_mul]
    exact mul_le_mul_of_nonneg_left (h l hl.1 hl.2) (abs_nonneg _)
  · rw [← mul_sub, ← Finset.sum_sub_distrib, abs_mul, abs_of_nonneg he.1, mul_assoc 2, Finset.sum_mul]
    refine mul_le_mul he.2 ((Finset.abs_sum_le_sum_abs _ _).trans (Finset.sum_le_sum fun l hl => ?_)) (abs_nonneg _) (by norm_num)
    rw [Finset.mem_Ico] at hl
    rw [← mul_sub, ← mul_sub, abs_mul, abs_mul, abs_pow, abs_neg, abs_one, one_pow, one_mul]
    exact mul_le_mul_of_nonneg_left (h l hl.1 hl.2) (abs_nonneg _)

theorem dir_le (hY : ∀ j m l, |k.Y j m l| ≤ 1) (m : Nat) (j : Fin n) (l : Nat) : |dir k m j l| ≤ 1 := by
  unfold dir sg
  rw [abs_mul]
  split
  · rw [abs_neg, abs_one, one_mul]; exact hY j m l
  · rw [abs_one, one_mul]; exact hY j m l

/-! ## Layers that only absorb -/

theorem gamma_diag {z : Inp n} {i : Nat} (h : z.om i = 0) (a b : Fin n) (hab : a ≠ b) : gamma k z i a b = 0 := by
  have hw : ∀ b, wom z i b = 0 := fun b => by unfold wom; rw [h, mul_zero]
  have h1 : ∀ a b, a ≠ b → apb k z i a b = 0 ∧ amb k z i a b = 0 := fun a b hab => by
    unfold apb amb alpha beta
    rw [if_neg hab, hw]
    simp
  unfold gamma
  refine Finset.sum_eq_zero fun l _ => ?_
  by_cases hl : a = l
  · rw [(h1 l b (hl ▸ hab)).1, mul_zero]
  · rw [(h1 a l hl).2, zero_mul]

end Xrtm.Streams
