import Verif.Proof.StreamsP
import Mathlib.LinearAlgebra.Eigenspace.Basic
import Mathlib.LinearAlgebra.Matrix.ToLin
import Mathlib.LinearAlgebra.Matrix.NonsingularInverse

/-! The closed forms: the eigenvalues and vectors of two and three rows. -/

namespace Xrtm.Streams
open Matrix

/-! ## Two rows -/

/-- What the eigenvalues are apart, squared. -/
def disc2 (g : Source.M 2) : ℝ := (g 0 0 - g 1 1) * (g 0 0 - g 1 1) + 4 * g 0 1 * g 1 0

theorem evals4_eq (g : Source.M 2) :
    evals4 g = ![(g 0 0 + g 1 1 + √(disc2 g)) / 2, (g 0 0 + g 1 1 - √(disc2 g)) / 2] := by
  have e : (g 0 0 - g 1 1) * (g 0 0 - g 1 1) + 4 * g 1 0 * g 0 1 = disc2 g := by unfold disc2; ring
  unfold evals4
  simp only [e]
  rfl

theorem evals4_facts {g : Source.M 2} (h0 : 0 ≤ disc2 g) : ∃ a b, evals4 g = ![a, b] ∧ a + b = g 0 0 + g 1 1 ∧
    (a - g 0 0) * (a - g 1 1) = g 0 1 * g 1 0 ∧ (b - g 0 0) * (b - g 1 1) = g 0 1 * g 1 0 ∧ a - b = √(disc2 g) := by
  have hs : √(disc2 g) * √(disc2 g) = (g 0 0 - g 1 1) * (g 0 0 - g 1 1) + 4 * g 0 1 * g 1 0 := Real.mul_self_sqrt h0
  refine ⟨_, _, evals4_eq g, by ring, ?_, ?_, by ring⟩
  · linear_combination 1 / 4 * hs
  · linear_combination 1 / 4 * hs

theorem four_laws : Laws four fun g => disc2 g ≠ 0 where
  eig := fun g ⟨h0, h1, h2⟩ _ => by
    obtain ⟨x, y, e, h3, h4, h5, -⟩ := evals4_facts h0
    change g * evecs4 g = evecs4 g * diagonal (evals4 g)
    unfold evecs4
    rw [e] at h1 h2 ⊢
    replace h1 : y - g 0 0 ≠ 0 := h1
    replace h2 : x - g 1 1 ≠ 0 := h2
    simp only [Matrix.cons_val_zero, Matrix.cons_val_one]
    ext a b
    fin_cases a <;> fin_cases b <;> simp [Matrix.mul_apply, Fin.sum_univ_two, Matrix.diagonal_apply]
    · field_simp; linear_combination -h4
    · field_simp; ring
    · field_simp; ring
    · field_simp; linear_combination -h5
  indep := fun g ⟨h0, h1, h2⟩ hd => by
    obtain ⟨x, y, e, h3, h4, h5, h6⟩ := evals4_facts h0
    have hs0 : √(disc2 g) ≠ 0 := (Real.sqrt_ne_zero h0).2 hd
    change (evecs4 g).det ≠ 0
    unfold evecs4
    rw [e] at h1 h2 ⊢
    replace h1 : y - g 0 0 ≠ 0 := h1
    replace h2 : x - g 1 1 ≠ 0 := h2
    simp only [Matrix.cons_val_zero, Matrix.cons_val_one]
    rw [Matrix.det_fin_two_of]
    intro h
    rw [div_mul_div_comm, one_mul, sub_eq_zero, eq_comm, div_eq_one_iff_eq (mul_ne_zero h1 h2)] at h
    rw [← h6] at hs0
    exact mul_ne_zero hs0 h2 (by linear_combination h4 + h)
  inv := fun g hd => by
    change g * !![g 1 1 / det2 g, -g 0 1 / det2 g; -g 1 0 / det2 g, g 0 0 / det2 g] = 1
    have hd : det2 g ≠ 0 := hd
    have he : det2 g = g 0 0 * g 1 1 - g 0 1 * g 1 0 := rfl
    ext a b
    fin_cases a <;> fin_cases b <;>
      simp [Matrix.mul_apply, Fin.sum_univ_two] <;> field_simp <;> rw [he] <;> ring

/-! ## Three rows -/

/-- The discriminant of a cubic, up to a factor below zero. -/
def disc3 (b c d : ℝ) : ℝ :=
  (2 * b ^ 3 - 9 * c * b + 27 * d) ^ 2 - 4 * (b ^ 2 - 3 * c) ^ 3

theorem cubic_roots (b c d : ℝ) (h : disc3 b c d < 0) :
    ∃ p q : ℝ, cubic b c d = ((-b - 2 * p) / 3, (-b + p - √3 * q) / 3, (-b + p + √3 * q) / 3) ∧
      q ≠ 0 ∧ q ^ 2 ≠ 3 * p ^ 2 ∧ p ^ 2 + q ^ 2 = b ^ 2 - 3 * c ∧
      2 * (p ^ 3 - 3 * p * q ^ 2) = 2 * b ^ 3 - 9 * c * b + 27 * d := by
  unfold cubic
  have e1 : (2 * b ^ 3 - 9 * c * b + 27 * d) * (2 * b ^ 3 - 9 * c * b + 27 * d) -
      4 * (b * b - 3 * (1 * c)) * (b * b - 3 * (1 * c)) * (b * b - 3 * (1 * c)) = disc3 b c d := by
    unfold disc3; ring
  have e2 : 2 * (b * b * b) - 9 * (1 * c) * b + 27 * 1 * 1 * d = 2 * b ^ 3 - 9 * c * b + 27 * d := by ring
  simp only [e2]
  simp only [e1]
  have hr : disc3 b c d = (2 * b ^ 3 - 9 * c * b + 27 * d) ^ 2 - 4 * (b ^ 2 - 3 * c) ^ 3 := rfl
  generalize disc3 b c d = D at *
  generalize 2 * b ^ 3 - 9 * c * b + 27 * d = r2 at *
  have hc3 : ((D : ℂ) ^ (1 / 2 : ℂ)) ^ 2 = D := by
    rw [one_div]
    exact_mod_cast Complex.cpow_nat_inv_pow (D : ℂ) two_ne_zero
  generalize (D : ℂ) ^ (1 / 2 : ℂ) = c3 at *
  have hre := congrArg Complex.re hc3
  have him := congrArg Complex.im hc3
  simp only [pow_two, Complex.mul_re, Complex.mul_im, Complex.ofReal_re, Complex.ofReal_im] at hre him
  have h3r : c3.re = 0 := by
    by_contra h0
    have : c3.im = 0 := by
      have : c3.re * c3.im = 0 := by linarith
      exact (mul_eq_zero.1 this).resolve_left h0
    rw [this] at hre
    nlinarith [mul_self_nonneg c3.re]
  have h3i : c3.im ≠ 0 := fun h0 => by rw [h3r, h0] at hre; linarith
  have hu : (starRingEnd ℂ) (((r2 : ℂ) + c3) / 2) = ((r2 : ℂ) - c3) / 2 := by
    apply Complex.ext
    · simp [h3r, Complex.conj_ofNat]
    · simp [Complex.conj_ofNat]
  have harg : (((r2 : ℂ) + c3) / 2).arg ≠ Real.pi := by
    intro ha
    have := (Complex.arg_eq_pi_iff.1 ha).2
    simp at this
    exact h3i this
  have hc2 : (((r2 : ℂ) - c3) / 2) ^ (1 / 3 : ℂ) = (starRingEnd ℂ) ((((r2 : ℂ) + c3) / 2) ^ (1 / 3 : ℂ)) := by
    rw [← hu, Complex.conj_cpow _ _ harg]
    congr 2
    simp [Complex.conj_ofNat]
  have hc1 : ((((r2 : ℂ) + c3) / 2) ^ (1 / 3 : ℂ)) ^ 3 = ((r2 : ℂ) + c3) / 2 := by
    rw [one_div]
    exact_mod_cast Complex.cpow_nat_inv_pow _ three_ne_zero
  rw [hc2]
  generalize (((r2 : ℂ) + c3) / 2) ^ (1 / 3 : ℂ) = c1 at *
  have k1 := congrArg Complex.re hc1
  have k2 := congrArg Complex.im hc1
  simp [pow_succ, h3r] at k1 k2
  have hp : 2 * (c1.re ^ 3 - 3 * c1.re * c1.im ^ 2) = r2 := by linear_combination 2 * k1
  have hq : 2 * (3 * c1.re ^ 2 * c1.im - c1.im ^ 3) = c3.im := by linear_combination 2 * k2
  refine ⟨c1.re, c1.im, ?_, ?_, ?_, ?_, hp⟩
  · refine Prod.ext ?_ (Prod.ext ?_ ?_)
    · have : ((-(b : ℂ) - (c1 + (starRingEnd ℂ) c1)) / (3 * 1 : ℂ)) = (((-b - 2 * c1.re) / 3 : ℝ) : ℂ) := by
        rw [Complex.add_conj]; push_cast; ring
      dsimp only
      rw [this, Complex.ofReal_re]
    · simp; ring
    · simp; ring
  · intro h0; rw [h0] at hq; apply h3i; rw [← hq]; ring
  · intro h0; apply h3i; rw [← hq]
    have : c1.im ^ 3 = 3 * c1.re ^ 2 * c1.im := by rw [pow_succ, h0]
    rw [this]; ring
  · have hcube : (c1.re ^ 2 + c1.im ^ 2) ^ 3 = (b ^ 2 - 3 * c) ^ 3 := by
      have : 4 * (c1.re ^ 2 + c1.im ^ 2) ^ 3 = r2 ^ 2 + c3.im ^ 2 := by rw [← hp, ← hq]; ring
      rw [h3r] at hre
      linear_combination 1 / 4 * this - 1 / 4 * hre - 1 / 4 * hr
    exact (Odd.strictMono_pow (by decide : Odd 3)).injective hcube

theorem cubic_zero {b c d : ℝ} (h : disc3 b c d < 0) :
    (∀ x ∈ [(cubic b c d).1, (cubic b c d).2.1, (cubic b c d).2.2], x ^ 3 + b * x ^ 2 + c * x + d = 0) ∧
    (cubic b c d).1 ≠ (cubic b c d).2.1 ∧ (cubic b c d).1 ≠ (cubic b c d).2.2 ∧
    (cubic b c d).2.1 ≠ (cubic b c d).2.2 := by
  obtain ⟨p, q, e, hq, hpq, h1, h2⟩ := cubic_roots b c d h
  rw [e]
  have h3 : √3 * √3 = (3 : ℝ) := Real.mul_self_sqrt (by norm_num)
  have h30 : √3 ≠ (0 : ℝ) := by positivity
  generalize √3 = s at *
  refine ⟨fun x hx => ?_, fun h0 => hpq ?_, fun h0 => hpq ?_, fun h0 => ?_⟩
  · have key : ∀ t : ℝ, t ^ 3 - 3 * (p ^ 2 + q ^ 2) * t = 2 * (p ^ 3 - 3 * p * q ^ 2) →
        ((-b - t) / 3) ^ 3 + b * ((-b - t) / 3) ^ 2 + c * ((-b - t) / 3) + d = 0 := by
      intro t ht
      rw [h1, h2] at ht
      linear_combination (-1 / 27) * ht
    simp only [List.mem_cons, List.not_mem_nil, or_false] at hx
    rcases hx with rfl | rfl | rfl
    · exact key (2 * p) (by ring)
    · have := key (-p + s * q) (by
        linear_combination ((-3 * p * q ^ 2) + s * q ^ 3) * h3)
      rw [← this]; ring
    · have := key (-p - s * q) (by
        linear_combination ((-3 * p * q ^ 2) - s * q ^ 3) * h3)
      rw [← this]; ring
  · dsimp only at h0
    have : s * q = 3 * p := by linarith
    have h4 : s * q * (s * q) = 3 * p * (3 * p) := by rw [this]
    linear_combination 1 / 3 * h4 - q ^ 2 / 3 * h3
  · dsimp only at h0
    have : s * q = -(3 * p) := by linarith
    have h4 : s * q * (s * q) = -(3 * p) * -(3 * p) := by rw [this]
    linear_combination 1 / 3 * h4 - q ^ 2 / 3 * h3
  · dsimp only at h0
    have : s * q = 0 := by linarith
    exact (mul_ne_zero h30 hq) this

/-- The eigenvalues differ. -/
def simple6 (g : Source.M 3) : Prop := disc3 (bb3 g) (cc3 g) (det3 g) < 0

theorem evals6_zero {g : Source.M 3} (h : simple6 g) (j : Fin 3) :
    (g 0 0 - evals6 g j) * (g 1 1 - evals6 g j) * (g 2 2 - evals6 g j) + g 0 1 * g 1 2 * g 2 0 + g 0 2 * g 1 0 * g 2 1 -
      g 0 2 * (g 1 1 - evals6 g j) * g 2 0 - (g 0 0 - evals6 g j) * g 1 2 * g 2 1 -
      g 0 1 * g 1 0 * (g 2 2 - evals6 g j) = 0 := by
  have hz := (cubic_zero h).1
  unfold evals6
  generalize cubic (bb3 g) (cc3 g) (det3 g) = x at hz
  have : ∀ y, y ^ 3 + bb3 g * y ^ 2 + cc3 g * y + det3 g = 0 → ∀ e, e = y * -1 →
      (g 0 0 - e) * (g 1 1 - e) * (g 2 2 - e) + g 0 1 * g 1 2 * g 2 0 + g 0 2 * g 1 0 * g 2 1 -
      g 0 2 * (g 1 1 - e) * g 2 0 - (g 0 0 - e) * g 1 2 * g 2 1 - g 0 1 * g 1 0 * (g 2 2 - e) = 0 := by
    intro y hy e he
    subst he
    unfold bb3 cc3 det3 at hy
    linear_combination hy
  fin_cases j
  · exact this _ (hz _ (by simp)) _ rfl
  · exact this _ (hz _ (by simp)) _ rfl
  · exact this _ (hz _ (by simp)) _ rfl

theorem evals6_inj {g : Source.M 3} (h : simple6 g) : Function.Injective (evals6 g) := by
  obtain ⟨-, h1, h2, h3⟩ := cubic_zero h
  have key : ∀ x y : ℝ, x ≠ y → x * -1 ≠ y * -1 := fun x y hxy he => hxy (by linarith)
  intro a b hab
  unfold evals6 at hab
  generalize cubic (bb3 g) (cc3 g) (det3 g) = x at *
  fin_cases a <;> fin_cases b <;> first
    | rfl
    | exact absurd hab (key _ _ h1)
    | exact absurd hab (key _ _ h2)
    | exact absurd hab (key _ _ h3)
    | exact absurd hab (key _ _ h1.symm)
    | exact absurd hab (key _ _ h2.symm)
    | exact absurd hab (key _ _ h3.symm)

theorem eig_col (g : Source.M 3) (e a b c : ℝ)
    (hz : (g 0 0 - e) * (g 1 1 - e) * (g 2 2 - e) + g 0 1 * g 1 2 * g 2 0 + g 0 2 * g 1 0 * g 2 1 -
      g 0 2 * (g 1 1 - e) * g 2 0 - (g 0 0 - e) * g 1 2 * g 2 1 - g 0 1 * g 1 0 * (g 2 2 - e) = 0)
    (h1 : n01 g e ≠ 0) (h2 : n02 g e ≠ 0) (hb : b * n01 g e = n10 g e * a) (hc : c * n02 g e = n20 g e * a) :
    g 0 0 * a + g 0 1 * b + g 0 2 * c = a * e ∧ g 1 0 * a + g 1 1 * b + g 1 2 * c = b * e ∧
    g 2 0 * a + g 2 1 * b + g 2 2 * c = c * e := by
  unfold n01 n02 n10 n20 at *
  -- the third part of the first product, and the second of the other
  have hc' : c * (g 1 2 * g 0 1 - g 0 2 * (g 1 1 - e)) = ((g 0 0 - e) * (g 1 1 - e) - g 0 1 * g 1 0) * a := by
    apply mul_right_cancel₀ h2
    linear_combination (g 1 2 * g 0 1 - g 0 2 * (g 1 1 - e)) * hc + a * g 0 1 * hz
  have r0 : (g 0 0 - e) * a + g 0 1 * b + g 0 2 * c = 0 := by
    apply mul_right_cancel₀ h1
    linear_combination g 0 1 * hb + g 0 2 * hc'
  have r1 : g 1 0 * a + (g 1 1 - e) * b + g 1 2 * c = 0 := by
    apply mul_right_cancel₀ h1
    linear_combination (g 1 1 - e) * hb + g 1 2 * hc'
  have r2 : g 2 0 * a + g 2 1 * b + (g 2 2 - e) * c = 0 := by
    apply mul_right_cancel₀ h1
    linear_combination g 2 1 * hb + (g 2 2 - e) * hc' + a * hz
  exact ⟨by linear_combination r0, by linear_combination r1, by linear_combination r2⟩

theorem six_cols {g : Source.M 3} (ho : six.eigOk g) (h : simple6 g) (j : Fin 3) :
    (∀ i, ∑ l, g i l * evecs6 g l j = evecs6 g i j * evals6 g j) ∧ evecs6 g j j = 1 := by
  obtain ⟨o1, o2, o3, o4, o5, o6⟩ := ho
  have hz := evals6_zero h j
  have key : ∀ a b c : ℝ, n01 g (evals6 g j) ≠ 0 → n02 g (evals6 g j) ≠ 0 → b * n01 g (evals6 g j) = n10 g (evals6 g j) * a →
      c * n02 g (evals6 g j) = n20 g (evals6 g j) * a → evecs6 g 0 j = a → evecs6 g 1 j = b → evecs6 g 2 j = c →
      ∀ i, ∑ l, g i l * evecs6 g l j = evecs6 g i j * evals6 g j := by
    intro a b c h1 h2 hb hc ea eb ec i
    have := eig_col g _ a b c hz h1 h2 hb hc
    rw [Fin.sum_univ_three, ea, eb, ec]
    fin_cases i
    · exact this.1.trans (by rw [← ea]; rfl)
    · exact this.2.1.trans (by rw [← eb]; rfl)
    · exact this.2.2.trans (by rw [← ec]; rfl)
  obtain rfl | rfl | rfl : j = 0 ∨ j = 1 ∨ j = 2 := by fin_cases j <;> simp
  · refine ⟨key 1 (n10 g (evals6 g 0) / n01 g (evals6 g 0)) (n20 g (evals6 g 0) / n02 g (evals6 g 0)) o3 o5 ?_ ?_ rfl rfl rfl, rfl⟩
    · exact (div_mul_cancel₀ _ o3).trans (mul_one _).symm
    · exact (div_mul_cancel₀ _ o5).trans (mul_one _).symm
  · have h1 : n01 g (evals6 g 1) ≠ 0 := by
      intro h0
      have : n10 g (evals6 g 1) * n02 g (evals6 g 1) = 0 := by
        have e : n10 g (evals6 g 1) * n02 g (evals6 g 1) =
            n01 g (evals6 g 1) * ((g 0 0 - evals6 g 1) * (g 2 2 - evals6 g 1) - g 0 2 * g 2 0) := by
          unfold n10 n02 n01
          linear_combination g 0 2 * hz
        rw [e, h0, zero_mul]
      exact mul_ne_zero o1 o6 this
    refine ⟨key (n01 g (evals6 g 1) / n10 g (evals6 g 1)) 1
      (n20 g (evals6 g 1) / n02 g (evals6 g 1) * (n01 g (evals6 g 1) / n10 g (evals6 g 1))) h1 o6 ?_ ?_ rfl rfl rfl, rfl⟩
    · exact (one_mul _).trans (mul_div_cancel₀ _ o1).symm
    · change _ * n02 g (evals6 g 1) = n20 g (evals6 g 1) * _
      field_simp
  · have h2 : n02 g (evals6 g 2) ≠ 0 := by
      intro h0
      have : n01 g (evals6 g 2) * n20 g (evals6 g 2) = 0 := by
        have e : n01 g (evals6 g 2) * n20 g (evals6 g 2) =
            n02 g (evals6 g 2) * ((g 0 0 - evals6 g 2) * (g 1 1 - evals6 g 2) - g 0 1 * g 1 0) := by
          unfold n20 n02 n01
          linear_combination g 0 1 * hz
        rw [e, h0, zero_mul]
      exact mul_ne_zero o4 o2 this
    refine ⟨key (n02 g (evals6 g 2) / n20 g (evals6 g 2))
      (n10 g (evals6 g 2) / n01 g (evals6 g 2) * (n02 g (evals6 g 2) / n20 g (evals6 g 2))) 1 o4 h2 ?_ ?_ rfl rfl rfl, rfl⟩
    · change _ * n01 g (evals6 g 2) = n10 g (evals6 g 2) * _
      field_simp
    · exact (one_mul _).trans (mul_div_cancel₀ _ o2).symm

theorem six_laws : Laws six simple6 where
  eig := fun g ho h => by
    change g * evecs6 g = evecs6 g * diagonal (evals6 g)
    ext i j
    rw [Matrix.mul_diagonal, Matrix.mul_apply]
    exact (six_cols ho h j).1 i
  indep := fun g ho h => by
    change (evecs6 g).det ≠ 0
    have hli : LinearIndependent ℝ (evecs6 g).col := by
      refine Module.End.eigenvectors_linearIndependent' (Matrix.toLin' g) (evals6 g) (evals6_inj h) _ fun j => ?_
      refine ⟨Module.End.mem_eigenspace_iff.2 ?_, fun h0 => ?_⟩
      · rw [Matrix.toLin'_apply]
        funext i
        have := (six_cols ho h j).1 i
        change ∑ l, g i l * evecs6 g l j = evals6 g j * evecs6 g i j
        rw [this, mul_comm]
      · have := congrFun h0 j
        change evecs6 g j j = 0 at this
        rw [(six_cols ho h j).2] at this
        exact one_ne_zero this
    exact ((Matrix.isUnit_iff_isUnit_det _).1 (Matrix.linearIndependent_cols_iff_isUnit.1 hli)).ne_zero
  inv := fun g hd => by
    have hd : det3 g ≠ 0 := hd
    have he : det3 g = g 0 0 * g 1 1 * g 2 2 + g 0 1 * g 1 2 * g 2 0 + g 0 2 * g 1 0 * g 2 1 - g 0 2 * g 1 1 * g 2 0 -
      g 0 0 * g 1 2 * g 2 1 - g 0 1 * g 1 0 * g 2 2 := rfl
    ext a b
    fin_cases a <;> fin_cases b <;>
      simp [six, Matrix.mul_apply, Fin.sum_univ_three] <;> field_simp <;> rw [he] <;> ring

end Xrtm.Streams
