import Verif.Model.Rules
import Verif.Spec.Quad
import Verif.Proof.Gauss

/-!
# Rules of quadrature with equal steps, and moved rules
-/

namespace Xrtm.Gauss
open Loops Polynomial

theorem put_hit {K : Type*} (p : Nat → Nat) (hp : Function.Injective p) (g : Nat → K) (A : Nat → K) :
    ∀ {n i : Nat}, i < n → forN n (fun i A => put A (p i) (g i)) A (p i) = g i
  | 0, _, h => absurd h (Nat.not_lt_zero _)
  | n + 1, i, h => by
    rw [forN_succ]
    by_cases hi : i = n
    · subst hi; exact put_same _ _ _
    · rw [put_other _ _ fun e => hi (hp e)]
      exact put_hit p hp g A (by omega)

theorem put_miss {K : Type*} (p : Nat → Nat) (g : Nat → K) (A : Nat → K) {j : Nat} :
    ∀ {n : Nat}, (∀ i < n, j ≠ p i) → forN n (fun i A => put A (p i) (g i)) A j = A j
  | 0, _ => rfl
  | n + 1, h => by
    rw [forN_succ, put_other _ _ (h n (by omega))]
    exact put_miss p g A fun i hi => h i (by omega)

/-- The integral of a polynomial of degree three. -/
theorem cubic_integral (c0 c1 c2 c3 a b : ℝ) :
    ∫ t in a..b, (c0 + c1 * t + c2 * t ^ 2 + c3 * t ^ 3) =
      (c0 * b + c1 * b ^ 2 / 2 + c2 * b ^ 3 / 3 + c3 * b ^ 4 / 4) -
      (c0 * a + c1 * a ^ 2 / 2 + c2 * a ^ 3 / 3 + c3 * a ^ 4 / 4) := by
  refine intervalIntegral.integral_eq_sub_of_hasDerivAt
    (f := fun t => c0 * t + c1 * t ^ 2 / 2 + c2 * t ^ 3 / 3 + c3 * t ^ 4 / 4) (fun t _ => ?_)
    (Continuous.intervalIntegrable (by fun_prop) _ _)
  have h := ((((hasDerivAt_id t).const_mul c0).add (((hasDerivAt_pow 2 t).const_mul c1).div_const 2)).add
    (((hasDerivAt_pow 3 t).const_mul c2).div_const 3)).add (((hasDerivAt_pow 4 t).const_mul c3).div_const 4)
  refine h.congr_deriv ?_
  norm_num
  ring

theorem cubic_eval {f : ℝ[X]} (h : f.natDegree < 4) (t : ℝ) :
    f.eval t = f.coeff 0 + f.coeff 1 * t + f.coeff 2 * t ^ 2 + f.coeff 3 * t ^ 3 := by
  rw [eval_eq_sum_range' h]
  simp [Finset.sum_range_succ]

theorem trapezoid_eq (m : Nat) (a b : ℝ) (s : (Nat → ℝ) × (Nat → ℝ)) {i : Nat} (hi : i < m + 2) :
    (trapezoid (m + 2) a b s).1 i = a + i * ((b - a) / (m + 1)) ∧
    (trapezoid (m + 2) a b s).2 i = (b - a) / (m + 1) * (1 - (if i = 0 then 1 / 2 else 0) - if i = m + 1 then 1 / 2 else 0) := by
  have e : (((m + 2 : Nat) : ℝ) - 1) = m + 1 := by push_cast; ring
  unfold trapezoid
  dsimp only
  rw [e]
  constructor
  · exact put_hit id Function.injective_id (fun i => a + (i : ℝ) * ((b - a) / (m + 1))) s.1 hi
  · by_cases h : i = 0 ∨ i = m + 1
    · rw [put_miss (fun i => i + 1) _ _ (by omega)]
      rcases h with rfl | rfl
      · rw [put_other _ _ (by omega), put_same]; simp; ring
      · rw [show m + 2 - 1 = m + 1 from rfl, put_same]; simp; ring
    · obtain ⟨k, rfl⟩ : ∃ k, i = k + 1 := ⟨i - 1, by omega⟩
      rw [put_hit (fun i => i + 1) (fun x y h => by simpa using h) (fun _ => (b - a) / ((m : ℝ) + 1)) _ (by omega), if_neg (by omega),
        if_neg (by omega)]
      ring

theorem trapezoid_sum (g : Nat → ℝ) (h : ℝ) (m : Nat) :
    ∑ i ∈ Finset.range (m + 2), h * (1 - (if i = 0 then 1 / 2 else 0) - if i = m + 1 then 1 / 2 else 0) * g i =
      h * ∑ i ∈ Finset.range (m + 2), g i - h / 2 * (g 0 + g (m + 1)) := by
  have : ∀ i, h * (1 - (if i = 0 then 1 / 2 else 0) - if i = m + 1 then 1 / 2 else 0) * g i =
      h * g i - (if i = 0 then h / 2 * g 0 else 0) - if i = m + 1 then h / 2 * g (m + 1) else 0 := by
    intro i
    split_ifs with h1 h2 h2
    · omega
    · rw [h1]; ring
    · rw [h2]; ring
    · ring
  simp only [this, Finset.sum_sub_distrib, Finset.sum_ite_eq', Finset.mem_range, ← Finset.mul_sum]
  rw [if_pos (by omega), if_pos (by omega)]
  ring

theorem trapezoid_steps (c0 c1 a h : ℝ) (m : Nat) :
    h * ∑ i ∈ Finset.range (m + 1), (c0 + c1 * (a + i * h)) - h / 2 * ((c0 + c1 * a) + (c0 + c1 * (a + m * h))) =
      (c0 * (a + m * h) + c1 * (a + m * h) ^ 2 / 2) - (c0 * a + c1 * a ^ 2 / 2) := by
  induction m with
  | zero => simp; ring
  | succ m ih =>
    rw [Finset.sum_range_succ, mul_add]
    push_cast
    linear_combination ih

theorem simpson_eq (m : Nat) (a b : ℝ) (s : (Nat → ℝ) × (Nat → ℝ)) :
    ∃ r, simpson (2 * m + 3) a b s = some r ∧ ∀ i < 2 * m + 3, r.1 i = a + i * ((b - a) / (2 * m + 2)) ∧
      r.2 i = (b - a) / (2 * m + 2) * ((if i % 2 = 1 then 4 / 3 else 2 / 3) - (if i = 0 then 1 / 3 else 0) -
        if i = 2 * m + 2 then 1 / 3 else 0) := by
  have e : (((2 * m + 3 : Nat) : ℝ) - 1) = 2 * m + 2 := by push_cast; ring
  unfold simpson
  rw [if_neg (by omega)]
  refine ⟨_, rfl, fun i hi => ?_⟩
  dsimp only
  rw [e]
  have e1 : (2 * m + 3 - 1) / 2 = m + 1 := by omega
  rw [e1]
  constructor
  · exact put_hit id Function.injective_id (fun i => a + (i : ℝ) * ((b - a) / (2 * m + 2))) s.1 hi
  · by_cases h2 : i % 2 = 1
    · obtain ⟨k, rfl⟩ : ∃ k, i = 1 + 2 * k := ⟨i / 2, by omega⟩
      rw [put_miss (fun i => 2 + 2 * i) _ _ (by omega),
        put_hit (fun i => 1 + 2 * i) (fun x y h => by simpa using h) (fun _ => 4 * ((b - a) / (2 * (m : ℝ) + 2)) / 3) _ (by omega),
        if_pos h2, if_neg (by omega), if_neg (by omega)]
      ring
    · rw [if_neg h2]
      by_cases h : i = 0 ∨ i = 2 * m + 2
      · rw [put_miss (fun i => 2 + 2 * i) _ _ (by omega), put_miss (fun i => 1 + 2 * i) _ _ (by omega)]
        rcases h with rfl | rfl
        · rw [put_other _ _ (by omega), put_same]; simp; ring
        · rw [show 2 * m + 3 - 1 = 2 * m + 2 from rfl, put_same]; simp; ring
      · obtain ⟨k, rfl⟩ : ∃ k, i = 2 + 2 * k := ⟨i / 2 - 1, by omega⟩
        rw [put_hit (fun i => 2 + 2 * i) (fun x y h => by simpa using h) (fun _ => 2 * ((b - a) / (2 * (m : ℝ) + 2)) / 3) _ (by omega),
          if_neg (by omega), if_neg (by omega)]
        ring

theorem simpson_sum (g : Nat → ℝ) (h : ℝ) (m : Nat) :
    ∑ i ∈ Finset.range (2 * m + 3), h * ((if i % 2 = 1 then 4 / 3 else 2 / 3) - (if i = 0 then 1 / 3 else 0) -
        if i = 2 * m + 2 then 1 / 3 else 0) * g i =
      h * ∑ i ∈ Finset.range (2 * m + 3), (if i % 2 = 1 then 4 / 3 else 2 / 3) * g i - h / 3 * (g 0 + g (2 * m + 2)) := by
  have : ∀ i, h * ((if i % 2 = 1 then 4 / 3 else 2 / 3) - (if i = 0 then 1 / 3 else 0) -
        if i = 2 * m + 2 then 1 / 3 else 0) * g i =
      h * ((if i % 2 = 1 then 4 / 3 else 2 / 3) * g i) - (if i = 0 then h / 3 * g 0 else 0) -
        if i = 2 * m + 2 then h / 3 * g (2 * m + 2) else 0 := by
    intro i
    split_ifs with h1 h2 h3 h2 h3 h3 <;> first | omega | (subst_vars; ring)
  simp only [this, Finset.sum_sub_distrib, Finset.sum_ite_eq', Finset.mem_range, ← Finset.mul_sum]
  rw [if_pos (by omega), if_pos (by omega)]
  ring

theorem simpson_steps (c0 c1 c2 c3 a h : ℝ) (m : Nat) :
    h * ∑ i ∈ Finset.range (2 * m + 1), (if i % 2 = 1 then 4 / 3 else 2 / 3) *
        (c0 + c1 * (a + i * h) + c2 * (a + i * h) ^ 2 + c3 * (a + i * h) ^ 3) -
      h / 3 * ((c0 + c1 * a + c2 * a ^ 2 + c3 * a ^ 3) +
        (c0 + c1 * (a + 2 * m * h) + c2 * (a + 2 * m * h) ^ 2 + c3 * (a + 2 * m * h) ^ 3)) =
      (c0 * (a + 2 * m * h) + c1 * (a + 2 * m * h) ^ 2 / 2 + c2 * (a + 2 * m * h) ^ 3 / 3 + c3 * (a + 2 * m * h) ^ 4 / 4) -
      (c0 * a + c1 * a ^ 2 / 2 + c2 * a ^ 3 / 3 + c3 * a ^ 4 / 4) := by
  induction m with
  | zero => simp; ring
  | succ m ih =>
    rw [show 2 * (m + 1) + 1 = 2 * m + 1 + 1 + 1 by ring, Finset.sum_range_succ, Finset.sum_range_succ, if_pos (by omega),
      if_neg (by omega)]
    push_cast
    linear_combination ih

theorem extended_eq (m : Nat) (a b : ℝ) (s : (Nat → ℝ) × (Nat → ℝ)) {i : Nat} (hi : i < m + 2) :
    (extended (m + 2) a b s).1 i = (if i = 0 then a else if i = m + 1 then b else a + (i - 1) * ((b - a) / (m + 1))) ∧
    (extended (m + 2) a b s).2 i = (trapezoid (m + 2) a b s).2 i := by
  have e : (((m + 2 : Nat) : ℝ) - 1) = m + 1 := by push_cast; ring
  rw [(trapezoid_eq m a b s hi).2]
  unfold extended
  rw [if_neg (by omega)]
  dsimp only
  rw [e]
  by_cases h1 : i = m + 1
  · subst h1
    constructor
    · rw [show m + 2 - 1 = m + 1 from rfl, put_same, if_neg (by omega), if_pos rfl]
    · rw [show m + 2 - 1 = m + 1 from rfl, put_same, if_neg (by omega), if_pos rfl]; ring
  rw [put_other _ _ (by omega), put_other _ _ (by omega)]
  by_cases h0 : i = 0
  · subst h0
    constructor
    · rw [put_miss (fun i => i + 1) _ _ (by omega), put_same, if_pos rfl]
    · rw [put_miss (fun i => i + 1) _ _ (by omega), put_same, if_pos rfl, if_neg (by omega)]; ring
  · obtain ⟨k, rfl⟩ : ∃ k, i = k + 1 := ⟨i - 1, by omega⟩
    have hj : Function.Injective fun i : Nat => i + 1 := fun x y h => by simpa using h
    constructor
    · rw [put_hit (fun i => i + 1) hj (fun i => a + (((i + 1 : Nat) : ℝ) - 1) * ((b - a) / (m + 1))) _ (by omega), if_neg h0, if_neg h1]
    · rw [put_hit (fun i => i + 1) hj (fun _ => (b - a) / ((m : ℝ) + 1)) _ (by omega), if_neg h0, if_neg h1]
      ring

/-- A moved rule, point for point. -/
theorem fit_eq (n : Nat) (x1 x2 x1l x2l : ℝ) (a s : Lin) (hx : ∀ i < n, a.x i = -a.x (n - 1 - i))
    (hw : ∀ i < n, a.w i = a.w (n - 1 - i)) (hxl : ∀ i < n, a.xl i = -a.xl (n - 1 - i))
    (hwl : ∀ i < n, a.wl i = a.wl (n - 1 - i)) :
    ∀ m ≤ (n + 1) / 2, ∀ j < n, (j < m ∨ n - 1 - j < m) →
      let r := forN m (fun i s =>
        let ii := n - 1 - i
        let dd := (x2 - x1) / 2 * a.x ii
        let w := put s.w i (a.w i * ((x2 - x1) / 2))
        let ddl := (x2l - x1l) / 2 * a.x ii + (x2 - x1) / 2 * a.xl ii
        let wl := put s.wl i (a.wl i * ((x2 - x1) / 2) + a.w i * ((x2l - x1l) / 2))
        (⟨put (put s.x i ((x1 + x2) / 2 - dd)) ii ((x1 + x2) / 2 + dd), put w ii (w i),
         put (put s.xl i ((x1l + x2l) / 2 - ddl)) ii ((x1l + x2l) / 2 + ddl), put wl ii (wl i)⟩ : Lin)) s
      r.x j = (x1 + x2) / 2 + (x2 - x1) / 2 * a.x j ∧ r.w j = (x2 - x1) / 2 * a.w j ∧
      r.xl j = (x1l + x2l) / 2 + ((x2l - x1l) / 2 * a.x j + (x2 - x1) / 2 * a.xl j) ∧
      r.wl j = (x2l - x1l) / 2 * a.w j + (x2 - x1) / 2 * a.wl j := by
  intro m
  induction m with
  | zero => intro _ j _ h; omega
  | succ m ih =>
    intro hm j hj h
    have ih := ih (by omega) j hj
    dsimp only at ih ⊢
    rw [forN_succ]
    dsimp only
    by_cases h1 : j = n - 1 - m
    · subst h1
      simp only [put_same]
      rw [hw m (by omega), hwl m (by omega)]
      refine ⟨trivial, by ring, trivial, by ring⟩
    · rw [put_other _ _ h1, put_other _ _ h1, put_other _ _ h1, put_other _ _ h1]
      by_cases h2 : j = m
      · subst h2
        simp only [put_same]
        rw [hx j hj, hxl j hj]
        refine ⟨by ring, by ring, by ring, by ring⟩
      · rw [put_other _ _ h2, put_other _ _ h2, put_other _ _ h2, put_other _ _ h2]
        exact ih (by omega)

/-- A rule that looks the same from both ends. -/
structure Mirror (n : Nat) (a : Lin) : Prop where
  x : ∀ i < n, a.x i = -a.x (n - 1 - i)
  w : ∀ i < n, a.w i = a.w (n - 1 - i)
  xl : ∀ i < n, a.xl i = -a.xl (n - 1 - i)
  wl : ∀ i < n, a.wl i = a.wl (n - 1 - i)

theorem fit_point {n : Nat} {a : Lin} (h : Mirror n a) (x1 x2 x1l x2l : ℝ) (s : Lin) {j : Nat} (hj : j < n) :
    (fit n x1 x2 x1l x2l a s).x j = (x1 + x2) / 2 + (x2 - x1) / 2 * a.x j ∧
    (fit n x1 x2 x1l x2l a s).w j = (x2 - x1) / 2 * a.w j ∧
    (fit n x1 x2 x1l x2l a s).xl j = (x1l + x2l) / 2 + ((x2l - x1l) / 2 * a.x j + (x2 - x1) / 2 * a.xl j) ∧
    (fit n x1 x2 x1l x2l a s).wl j = (x2l - x1l) / 2 * a.w j + (x2 - x1) / 2 * a.wl j :=
  fit_eq n x1 x2 x1l x2l a s h.x h.w h.xl h.wl _ le_rfl j hj (by omega)

/-- What a rule moved to another interval integrates. -/
theorem moved_integrates {n d : Nat} {x w : Nat → ℝ} (h : ∀ f : ℝ[X], f.natDegree < d → Integrates n x w (-1) 1 f)
    {x1 x2 : ℝ} {x' w' : Nat → ℝ} (hx : ∀ j < n, x' j = (x1 + x2) / 2 + (x2 - x1) / 2 * x j)
    (hw : ∀ j < n, w' j = (x2 - x1) / 2 * w j) {f : ℝ[X]} (hf : f.natDegree < d) : Integrates n x' w' x1 x2 f := by
  unfold Integrates
  set l : ℝ[X] := C ((x2 - x1) / 2) * X + C ((x1 + x2) / 2) with hl
  have hle : ∀ t, l.eval t = (x1 + x2) / 2 + (x2 - x1) / 2 * t := fun t => by simp [hl]; ring
  have hd : (C ((x2 - x1) / 2) * f.comp l).natDegree < d := by
    refine lt_of_le_of_lt (natDegree_C_mul_le _ _) ?_
    refine lt_of_le_of_lt natDegree_comp_le ?_
    have : l.natDegree ≤ 1 := natDegree_linear_le
    calc f.natDegree * l.natDegree ≤ f.natDegree * 1 := by gcongr
      _ < d := by omega
  have hg := h _ hd
  unfold Integrates at hg
  have e1 : ∀ j ∈ Finset.range n, w' j * f.eval (x' j) = w j * (C ((x2 - x1) / 2) * f.comp l).eval (x j) := by
    intro j hj
    rw [hx j (Finset.mem_range.1 hj), hw j (Finset.mem_range.1 hj), eval_mul, eval_C, eval_comp, hle]
    ring
  rw [Finset.sum_congr rfl e1, hg]
  simp only [eval_mul, eval_C, eval_comp, hle]
  rw [intervalIntegral.integral_const_mul]
  have := intervalIntegral.mul_integral_comp_add_mul (a := (-1 : ℝ)) (b := 1) (f := fun t => f.eval t) ((x2 - x1) / 2) ((x1 + x2) / 2)
  rw [this]
  congr 1 <;> ring

theorem pieces_point {n : Nat} {t : Lin} (h : Mirror n t) (m : Nat) (r1 r2 r1l r2l : ℝ) (s : Lin) {i j : Nat} (hi : i < m)
    (hj : j < n) :
    let a := (r2 - r1) / m
    let al := (r2l - r1l) / m
    let r := pieces m n r1 r2 r1l r2l t s
    r.x (i * n + j) = ((r1 + i * a) + (r1 + i * a + a)) / 2 + (r1 + i * a + a - (r1 + i * a)) / 2 * t.x j ∧
    r.w (i * n + j) = (r1 + i * a + a - (r1 + i * a)) / 2 * t.w j ∧
    r.xl (i * n + j) = ((r1l + i * al) + (r1l + i * al + al)) / 2 +
      ((r1l + i * al + al - (r1l + i * al)) / 2 * t.x j + (r1 + i * a + a - (r1 + i * a)) / 2 * t.xl j) ∧
    r.wl (i * n + j) = (r1l + i * al + al - (r1l + i * al)) / 2 * t.w j + (r1 + i * a + a - (r1 + i * a)) / 2 * t.wl j := by
  intro a al
  unfold pieces
  refine forN_ind_lt m (fun k r => i < k →
    r.x (i * n + j) = ((r1 + i * a) + (r1 + i * a + a)) / 2 + (r1 + i * a + a - (r1 + i * a)) / 2 * t.x j ∧
    r.w (i * n + j) = (r1 + i * a + a - (r1 + i * a)) / 2 * t.w j ∧
    r.xl (i * n + j) = ((r1l + i * al) + (r1l + i * al + al)) / 2 +
      ((r1l + i * al + al - (r1l + i * al)) / 2 * t.x j + (r1 + i * a + a - (r1 + i * a)) / 2 * t.xl j) ∧
    r.wl (i * n + j) = (r1l + i * al + al - (r1l + i * al)) / 2 * t.w j + (r1 + i * a + a - (r1 + i * a)) / 2 * t.wl j)
    _ s (fun h => absurd h (Nat.not_lt_zero _)) (fun k r hk ih hik => ?_) hi
  by_cases e : i = k
  · subst e
    simp only [Lin.paste]
    rw [if_pos (Nat.le_add_right _ _), if_pos (Nat.le_add_right _ _), if_pos (Nat.le_add_right _ _),
      if_pos (Nat.le_add_right _ _), Nat.add_sub_cancel_left]
    exact fit_point h _ _ _ _ _ hj
  · have hlt : ¬ k * n ≤ i * n + j := by
      have : (i + 1) * n ≤ k * n := Nat.mul_le_mul_right n (by omega)
      rw [Nat.succ_mul] at this
      omega
    simp only [Lin.paste, if_neg hlt]
    exact ih (by omega)

/-- The rule the code begins with looks the same from both ends. -/
theorem between_mirror (n : Nat) (pt : Nat → ℝ × ℝ) (hp : ∀ i < (n + 1) / 2, Found n pt i) (s : Lin) :
    Mirror n (fillBetween n (-1) 1 0 0 pt s) := by
  have h := between_zero n (-1) 1 0 0 pt hp s
  have hz := spread_zero n (fun i => (pt i).1) (fun i hi => (hp i hi).1)
  have hs : ∀ i < n, spread n (fun i => (pt i).1) (n - 1 - i) = -spread n (fun i => (pt i).1) i := fun i hi =>
    isZero_unique (hz _ (by omega)) (hz i hi).neg.2
  have hb : ∀ i < n, n - 1 - (n - 1 - i) = i := fun i hi => by omega
  refine ⟨fun i hi => ?_, fun i hi => ?_, fun i hi => ?_, fun i hi => ?_⟩
  · rw [(h i hi).1, (h (n - 1 - i) (by omega)).1, hb i hi, hs i hi]; ring
  · rw [(h i hi).2.2.1, (h (n - 1 - i) (by omega)).2.2.1, hb i hi, hs i hi, weight_neg]
  · rw [(h i hi).2.1, (h (n - 1 - i) (by omega)).2.1, hb i hi, hs i hi]; ring
  · rw [(h i hi).2.2.2, (h (n - 1 - i) (by omega)).2.2.2]; ring

end Xrtm.Gauss
