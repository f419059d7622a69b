import Verif.Proof.Gauss

/-!
# C63: the points and weights of quadrature
-/

namespace Xrtm.Gauss
open Loops Polynomial Xrtm.Legendre.Spec

/-- The Legendre polynomial of degree `n` has `n` zeros, each between minus one
and one: for every number below `n` there is one zero with so many greater, and
only one. -/
theorem C63_zeros {n i : Nat} (hi : i < n) : (∃! z, IsZero n i z) ∧ ∀ z, IsZero n i z → 0 < 1 - z ^ 2 := by
  obtain ⟨z, hz⟩ := isZero_exists hi
  exact ⟨⟨z, hz, fun y hy => isZero_unique hy hz⟩, fun y hy => zero_inside n hy.1⟩

example : ∃! z, IsZero 7 3 z := (C63_zeros (by norm_num)).1

/-- The recurrence of the search gives the polynomial and the one before it. -/
theorem C63_climb (n : Nat) (y : ℝ) : climb (n + 1) y = ((legendre (n + 1)).eval y, (legendre n).eval y) := climb_eq n y

example : (climb 1 (1 / 3)).1 = 1 / 3 := by
  rw [C63_climb 0]
  simp [Legendre.legendre_one]

/-- A turn of the search is the step of third order with the true first and
second derivatives of the polynomial. -/
theorem C63_turn (n : Nat) (hn : 0 < n) (y : ℝ) (hy : 1 - y ^ 2 ≠ 0) :
    let p := legendre n
    turn n (n * (n + 1)) y = y - p.eval y / (derivative p).eval y *
      (1 + p.eval y / (derivative p).eval y * (derivative (derivative p)).eval y / (2 * (derivative p).eval y)) :=
  turn_eq n hn y hy

example : turn 1 2 (1 / 2) = 0 := by
  have h := C63_turn 1 one_pos (1 / 2) (by norm_num)
  simp only [Legendre.legendre_one, eval_X, derivative_X, derivative_one, eval_one, eval_zero] at h
  rw [show (1 * (1 + 1) : ℕ) = 2 from rfl] at h
  rw [h]
  norm_num

/-- About each zero there is a reach from within which the search ends, whatever
the bound on the last step: the point returned is as near the zero as a constant
times the cube of the bound, and the other number returned is the value of the
polynomial before at a point within twice the bound. -/
theorem C63_search (n i : Nat) (z : ℝ) (hz : IsZero n i z) :
    ∃ δ M : ℝ, 0 < δ ∧ 0 < M ∧ ∀ eps y0, 0 < eps → |y0 - z| < δ →
      ∃ y y2, search n (n * (n + 1)) eps y0 = some (y, (legendre (n - 1)).eval y2) ∧
        |y2 - z| ≤ 2 * eps ∧ |y - z| ≤ M * eps ^ 3 ∧ |y - z| ≤ eps :=
  search_near n (Nat.lt_of_le_of_lt (Nat.zero_le i) hz.neg.1) hz.1

example : ∃ z, IsZero 9 4 z ∧ ∃ δ > 0, ∀ y0, |y0 - z| < δ → (search 9 90 (1 / 1000) y0).isSome := by
  obtain ⟨z, hz⟩ := isZero_exists (show 4 < 9 by norm_num)
  obtain ⟨δ, M, hδ, _, h⟩ := C63_search 9 4 z hz
  refine ⟨z, hz, δ, hδ, fun y0 h0 => ?_⟩
  obtain ⟨y, y2, e, _⟩ := h (1 / 1000) y0 (by norm_num) h0
  rw [show (90 : ℕ) = 9 * (9 + 1) by norm_num, e]
  rfl

/-- So if each search begins within the reach of its zero, `gauss_leg_quad2`
ends, and its points are those of the zeros to the cube of the bound. -/
theorem C63_ends (n : Nat) (z : Nat → ℝ) (hz : ∀ i < (n + 1) / 2, IsZero n i (z i)) (s : (Nat → ℝ) × (Nat → ℝ)) :
    ∃ δ M : Nat → ℝ, (∀ i < (n + 1) / 2, 0 < δ i ∧ 0 < M i) ∧ ∀ eps, 0 < eps →
      (∀ i < (n + 1) / 2, |start i (4 * n + 2) ((n - 1) / (8 * (n : ℝ) ^ 3)) - z i| < δ i) →
      ∃ r, gaussDouble eps n s = some r ∧ ∀ i < n / 2,
        |r.1 i - (1 / 2 - z i / 2)| ≤ M i * eps ^ 3 ∧ |r.1 (n - 1 - i) - (1 / 2 + z i / 2)| ≤ M i * eps ^ 3 := by
  have hall : ∀ i, ∃ δ M : ℝ, i < (n + 1) / 2 → (0 < δ ∧ 0 < M ∧ ∀ eps y0, 0 < eps → |y0 - z i| < δ →
      ∃ y y2, search n (n * (n + 1)) eps y0 = some (y, (legendre (n - 1)).eval y2) ∧
        |y2 - z i| ≤ 2 * eps ∧ |y - z i| ≤ M * eps ^ 3 ∧ |y - z i| ≤ eps) := by
    intro i
    by_cases hi : i < (n + 1) / 2
    · obtain ⟨δ, M, h⟩ := C63_search n i (z i) (hz i hi)
      exact ⟨δ, M, fun _ => h⟩
    · exact ⟨0, 0, fun h => absurd h hi⟩
  choose δ M h using hall
  refine ⟨δ, M, fun i hi => ⟨(h i hi).1, (h i hi).2.1⟩, fun eps he hs => ?_⟩
  have hp : ∀ i < (n + 1) / 2, ∃ y p2, point eps n i (4 * n + 2) (n * (n + 1)) ((n - 1) / (8 * (n : ℝ) ^ 3)) = some (y, p2) ∧
      |y - z i| ≤ M i * eps ^ 3 := by
    intro i hi
    obtain ⟨y, y2, e, _, h3, _⟩ := (h i hi).2.2 eps _ he (hs i hi)
    exact ⟨y, _, e, h3⟩
  have hsome : ∀ i < (n + 1) / 2, (point eps n i (4 * n + 2) (n * (n + 1)) ((n - 1) / (8 * (n : ℝ) ^ 3))).isSome := by
    intro i hi
    obtain ⟨y, p2, e, _⟩ := hp i hi
    rw [e]; rfl
  refine ⟨_, by unfold gaussDouble; rw [if_pos hsome], fun i hi => ?_⟩
  obtain ⟨y, p2, e, hy⟩ := hp i (by omega)
  rw [double_eq n _ s ⟨s.1, s.2, s.1, s.2⟩ rfl rfl]
  have b1 := (between_eq n 0 1 0 0 (fun i => (point eps n i (4 * n + 2) (n * (n + 1)) ((n - 1) / (8 * (n : ℝ) ^ 3))).getD 0)
    ⟨s.1, s.2, s.1, s.2⟩ i (by omega)).1
  have b2 := (between_eq n 0 1 0 0 (fun i => (point eps n i (4 * n + 2) (n * (n + 1)) ((n - 1) / (8 * (n : ℝ) ^ 3))).getD 0)
    ⟨s.1, s.2, s.1, s.2⟩ (n - 1 - i) (by omega)).1
  have c1 : ¬ n - 1 - i < (n + 1) / 2 := by omega
  have c2 : n - 1 - (n - 1 - i) < (n + 1) / 2 := by omega
  have c3 : n - 1 - (n - 1 - i) = i := by omega
  simp only [if_neg c1, e, Option.getD_some] at b1
  simp only [if_pos c2, c3, e, Option.getD_some] at b2
  have hi' : i < (n + 1) / 2 := by omega
  simp only [if_pos hi', e, Option.getD_some] at b2
  simp only
  rw [b1, b2]
  have hM : 0 ≤ M i * eps ^ 3 := (abs_nonneg _).trans hy
  have a1 : |((0 : ℝ) + 1) / 2 + (1 - 0) / 2 * -y - (1 / 2 - z i / 2)| = 1 / 2 * |y - z i| := by
    rw [show ((0 : ℝ) + 1) / 2 + (1 - 0) / 2 * -y - (1 / 2 - z i / 2) = -(1 / 2 * (y - z i)) by ring, abs_neg, abs_mul]
    norm_num
  have a2 : |((0 : ℝ) + 1) / 2 + (1 - 0) / 2 * y - (1 / 2 + z i / 2)| = 1 / 2 * |y - z i| := by
    rw [show ((0 : ℝ) + 1) / 2 + (1 - 0) / 2 * y - (1 / 2 + z i / 2) = 1 / 2 * (y - z i) by ring, abs_mul]
    norm_num
  rw [a1, a2]
  constructor <;> linarith

/-- For one point all is as told: the search begins at the zero and
`gauss_leg_quad2` gives the middle, with weight one, whatever the arrays held. -/
theorem C63_one (eps : ℝ) (he : 0 ≤ eps) (s : (Nat → ℝ) × (Nat → ℝ)) :
    ∃ r, gaussDouble eps 1 s = some r ∧ r.1 0 = 1 / 2 ∧ r.2 0 = 1 := by
  have h0 : start 0 (4 * 1 + 2) (((1 : ℕ) - 1 : ℝ) / (8 * ((1 : ℕ) : ℝ) ^ 3)) = 0 := by
    unfold start
    have : ((4 : ℝ) * ((0 : ℕ) : ℝ) + 3) / ((4 * 1 + 2 : ℕ) : ℝ) * Real.pi = Real.pi / 2 := by push_cast; ring
    simp only [this]
    simp
  have ht : turn 1 (1 * (1 + 1)) 0 = 0 := by
    rw [C63_turn 1 one_pos 0 (by norm_num)]
    simp [Legendre.legendre_one]
  have hp : point eps 1 0 (4 * 1 + 2) (1 * (1 + 1)) (((1 : ℕ) - 1 : ℝ) / (8 * ((1 : ℕ) : ℝ) ^ 3)) = some (0, 1) := by
    unfold point search
    rw [h0]
    have hit : ∀ k, (turn 1 (1 * (1 + 1)))^[k] 0 = 0 := fun k => Function.iterate_fixed ht k
    have hex : ∃ k, ¬ eps < |(turn 1 (1 * (1 + 1)))^[k + 1] 0 - (turn 1 (1 * (1 + 1)))^[k] 0| :=
      ⟨0, by rw [hit, hit]; simpa using he⟩
    rw [dif_pos hex, hit, hit, C63_climb 0]
    simp [Legendre.legendre_zero]
  have hs : ∀ i < (1 + 1) / 2, (point eps 1 i (4 * 1 + 2) (1 * (1 + 1)) (((1 : ℕ) - 1 : ℝ) / (8 * ((1 : ℕ) : ℝ) ^ 3))).isSome := by
    intro i hi
    have : i = 0 := by omega
    rw [this, hp]
    rfl
  refine ⟨_, by unfold gaussDouble; rw [if_pos hs], ?_, ?_⟩
  · simp only [fillDouble, show (1 + 1) / 2 = 1 from rfl, forN, hp, Option.getD_some, put_same]
    norm_num
  · simp only [fillDouble, show (1 + 1) / 2 = 1 from rfl, forN, hp, Option.getD_some, put_same]
    norm_num

example : ∃ r, gaussDouble (1 / 2 ^ 52) 1 (fun _ => 7, fun _ => 7) = some r ∧ r.1 0 = 1 / 2 ∧ r.2 0 = 1 :=
  C63_one _ (by positivity) _

/-- The points found, the weights are positive and the points inside, and
`gauss_leg_quadx_l` sums every polynomial of degree below twice the number of
points to its integral over the interval. -/
theorem C63_between (n : Nat) (hn : 0 < n) (x1 x2 x1l x2l : ℝ) (pt : Nat → ℝ × ℝ)
    (hp : ∀ i < (n + 1) / 2, Found n pt i) (s : Lin) :
    (∀ f : ℝ[X], f.natDegree < 2 * n →
      Integrates n (fillBetween n x1 x2 x1l x2l pt s).x (fillBetween n x1 x2 x1l x2l pt s).w x1 x2 f) ∧
    (x1 < x2 → ∀ j < n, 0 < (fillBetween n x1 x2 x1l x2l pt s).w j ∧
      x1 < (fillBetween n x1 x2 x1l x2l pt s).x j ∧ (fillBetween n x1 x2 x1l x2l pt s).x j < x2) := by
  refine ⟨fun f hf => between_integrates n hn x1 x2 x1l x2l pt hp s f hf, fun hx j hj => ?_⟩
  have h := between_zero n x1 x2 x1l x2l pt hp s j hj
  have hz := spread_zero n (fun i => (pt i).1) (fun i hi => (hp i hi).1) (n - 1 - j) (by omega)
  simp only at h
  rw [h.1, h.2.2.1]
  have hin := zero_inside n hz.1
  have ha : |spread n (fun i => (pt i).1) (n - 1 - j)| < 1 := by
    rw [← sq_lt_one_iff_abs_lt_one]; linarith
  rw [abs_lt] at ha
  refine ⟨mul_pos (by linarith) (weight_pos n hz.1), ?_, ?_⟩ <;> nlinarith [ha.1, ha.2]

/-- The zeros can be found: the hypothesis is met for every number of points. -/
theorem found_exists (n : Nat) : ∃ pt : Nat → ℝ × ℝ, ∀ i < n, Found n pt i := by
  have : ∀ i, ∃ z, i < n → IsZero n i z := fun i => by
    by_cases hi : i < n
    · obtain ⟨z, hz⟩ := isZero_exists hi
      exact ⟨z, fun _ => hz⟩
    · exact ⟨0, fun h => absurd h hi⟩
  choose z hz using this
  exact ⟨fun i => (z i, (legendre (n - 1)).eval (z i)), fun i hi => ⟨hz i hi, rfl⟩⟩

example (s : Lin) : ∃ pt, Integrates 5 (fillBetween 5 2 7 0 0 pt s).x (fillBetween 5 2 7 0 0 pt s).w 2 7 (X ^ 9) := by
  obtain ⟨pt, h⟩ := found_exists 5
  exact ⟨pt, (C63_between 5 (by norm_num) 2 7 0 0 pt (fun i hi => h i (by omega)) s).1 _ (by simp)⟩

/-- Its derivatives are those of its points and weights. -/
theorem C63_between_deriv (n : Nat) (x1 x2 : ℝ → ℝ) (t x1l x2l : ℝ) (h1 : HasDerivAt x1 x1l t) (h2 : HasDerivAt x2 x2l t)
    (pt : Nat → ℝ × ℝ) (s : Lin) (j : Nat) (hj : j < n) :
    HasDerivAt (fun u => (fillBetween n (x1 u) (x2 u) x1l x2l pt s).x j) ((fillBetween n (x1 t) (x2 t) x1l x2l pt s).xl j) t ∧
    HasDerivAt (fun u => (fillBetween n (x1 u) (x2 u) x1l x2l pt s).w j) ((fillBetween n (x1 t) (x2 t) x1l x2l pt s).wl j) t := by
  have e := fun u => between_eq n (x1 u) (x2 u) x1l x2l pt s j hj
  simp only at e
  rw [(e t).2.1, (e t).2.2.2]
  refine ⟨HasDerivAt.congr_of_eventuallyEq ?_ (Filter.Eventually.of_forall fun u => (e u).1),
    HasDerivAt.congr_of_eventuallyEq ?_ (Filter.Eventually.of_forall fun u => (e u).2.2.1)⟩
  · exact ((h1.fun_add h2).div_const 2).fun_add (((h2.fun_sub h1).div_const 2).mul_const _)
  · exact ((h2.fun_sub h1).div_const 2).mul_const _

example (pt : Nat → ℝ × ℝ) (s : Lin) :
    HasDerivAt (fun u => (fillBetween 4 u (3 * u) 1 3 pt s).x 2) ((fillBetween 4 5 (3 * 5) 1 3 pt s).xl 2) 5 :=
  (C63_between_deriv 4 (fun u => u) (fun u => 3 * u) 5 1 3 (hasDerivAt_id 5) (by simpa using (hasDerivAt_id (5 : ℝ)).const_mul 3)
    pt s 2 (by norm_num)).1

/-- The rule of the option for double Gauss quadrature: every polynomial of
degree below twice the number of streams is integrated over the hemisphere,
the cosines are between nought and one and the weights positive; so the weights
sum to one, the cosines to a half, and the factor of the ground is one. -/
theorem C63_double (n : Nat) (hn : 0 < n) (pt : Nat → ℝ × ℝ) (hp : ∀ i < (n + 1) / 2, Found n pt i)
    (s : (Nat → ℝ) × (Nat → ℝ)) :
    let r := fillDouble n pt s
    (∀ f : ℝ[X], f.natDegree < 2 * n → Integrates n r.1 r.2 0 1 f) ∧
    (∀ j < n, 0 < r.2 j ∧ 0 < r.1 j ∧ r.1 j < 1) ∧
    ∑ j ∈ Finset.range n, r.2 j = 1 ∧ ∑ j ∈ Finset.range n, r.1 j * r.2 j = 1 / 2 ∧ qf n r.1 r.2 = 1 := by
  intro r
  have e : r = _ := double_eq n pt s ⟨s.1, s.2, s.1, s.2⟩ rfl rfl
  have h := C63_between n hn 0 1 0 0 pt hp ⟨s.1, s.2, s.1, s.2⟩
  have hI : ∀ f : ℝ[X], f.natDegree < 2 * n → Integrates n r.1 r.2 0 1 f := fun f hf => by rw [e]; exact h.1 f hf
  have h2 : ∑ j ∈ Finset.range n, r.1 j * r.2 j = 1 / 2 := by
    have := hI X (by rw [natDegree_X]; omega)
    unfold Integrates at this
    simp only [eval_X, integral_id] at this
    rw [← Finset.sum_congr rfl fun j _ => mul_comm (r.2 j) (r.1 j), this]
    norm_num
  refine ⟨hI, fun j hj => by rw [e]; exact h.2 one_pos j hj, ?_, h2, ?_⟩
  · have := hI 1 (by simp; omega)
    unfold Integrates at this
    simpa using this
  · unfold qf
    rw [forN_sum, h2]
    norm_num

example (s : (Nat → ℝ) × (Nat → ℝ)) : ∃ pt, qf 8 (fillDouble 8 pt s).1 (fillDouble 8 pt s).2 = 1 := by
  obtain ⟨pt, h⟩ := found_exists 8
  exact ⟨pt, (C63_double 8 (by norm_num) pt (fun i hi => h i (by omega)) s).2.2.2.2⟩

/-- The rule of the option for Gauss quadrature over the sphere: every even
polynomial of degree below four times the number of streams is integrated over
the hemisphere, the cosines are inside and the weights positive. -/
theorem C63_norm (n : Nat) (hn : 0 < n) (pt : Nat → ℝ × ℝ) (hp : ∀ i, n ≤ i → i < 2 * n → Found (2 * n) pt i)
    (s : (Nat → ℝ) × (Nat → ℝ)) :
    let r := fillNorm n pt s
    (∀ f : ℝ[X], f.natDegree < 4 * n → Even f → Integrates n r.1 r.2 0 1 f) ∧
    (∀ j < n, 0 < r.2 j ∧ 0 < r.1 j ∧ r.1 j < 1) ∧ ∑ j ∈ Finset.range n, r.2 j = 1 := by
  intro r
  have hI : ∀ f : ℝ[X], f.natDegree < 4 * n → Even f → Integrates n r.1 r.2 0 1 f :=
    fun f hf he => norm_integrates n hn pt hp s f hf he
  refine ⟨hI, fun j hj => ?_, ?_⟩
  · have h := norm_eq n pt s j hj
    have hF := hp (n + j) (by omega) (by omega)
    rw [h.1, h.2, hF.2]
    have hw := weight_pos (2 * n) hF.1.1
    have hin := zero_inside (2 * n) hF.1.1
    have ha : |(pt (n + j)).1| < 1 := by rw [← sq_lt_one_iff_abs_lt_one]; linarith
    rw [abs_lt] at ha
    refine ⟨hw, ?_, by linarith [ha.1]⟩
    -- more than half of the zeros are greater, so it is below its mirror
    by_contra hneg
    have hneg : 0 ≤ (pt (n + j)).1 := by linarith
    have hm := hF.1.neg.2
    have hsub : ((legendre (2 * n)).roots.toFinset.filter fun t => (pt (n + j)).1 < t) ⊆
        ((legendre (2 * n)).roots.toFinset.filter fun t => -(pt (n + j)).1 < t) := by
      intro t ht
      rw [Finset.mem_filter] at ht ⊢
      exact ⟨ht.1, by linarith [ht.2]⟩
    have := Finset.card_le_card hsub
    rw [hF.1.2, hm.2] at this
    omega
  · have := hI 1 (by simp; omega) (fun t => by simp)
    unfold Integrates at this
    simpa using this

example (s : (Nat → ℝ) × (Nat → ℝ)) :
    ∃ pt, Integrates 3 (fillNorm 3 pt s).1 (fillNorm 3 pt s).2 0 1 (X ^ 10) := by
  obtain ⟨pt, h⟩ := found_exists 6
  refine ⟨pt, (C63_norm 3 (by norm_num) pt (fun i _ hi => h i hi) s).1 _ (by simp) fun t => ?_⟩
  simp only [eval_pow, eval_X]
  ring

/-- This second rule does not integrate the cosine over the hemisphere: for one
stream the sum is the root of a third and not a half, and the factor of the
ground, which makes up for it, is not one. -/
theorem C63_norm_cosine_violated (pt : Nat → ℝ × ℝ) (hp : Found 2 pt 1) (s : (Nat → ℝ) × (Nat → ℝ)) :
    ¬ Integrates 1 (fillNorm 1 pt s).1 (fillNorm 1 pt s).2 0 1 X ∧
      3 * (∑ j ∈ Finset.range 1, (fillNorm 1 pt s).1 j * (fillNorm 1 pt s).2 j) ^ 2 = 1 ∧
      qf 1 (fillNorm 1 pt s).1 (fillNorm 1 pt s).2 ≠ 1 := by
  have h := norm_eq 1 pt s 0 one_pos
  have hz : 3 * (pt 1).1 ^ 2 = 1 := by
    have h1 := hp.1.1
    have hb := congrArg (eval (pt 1).1) (Legendre.bonnet 0)
    simp only [eval_C, eval_sub, eval_mul, eval_X, Legendre.legendre_zero, Legendre.legendre_one, eval_one, zero_add] at hb
    rw [h1] at hb
    push_cast at hb
    linarith
  have hw : (fillNorm 1 pt s).2 0 = 1 := by
    rw [h.2, hp.2]
    simp only [Legendre.legendre_one, eval_X, show 2 - 1 = 1 from rfl, show 1 + 0 = 1 from rfl]
    push_cast
    have : (2 * (pt 1).1) ^ 2 = 4 / 3 := by linarith
    rw [this]
    linarith
  have hx : (fillNorm 1 pt s).1 0 = -(pt 1).1 := h.1
  have hs : (-(pt 1).1) ≠ 1 / 2 := fun e => by
    have : (-(pt 1).1) ^ 2 = 1 / 4 := by rw [e]; norm_num
    linarith
  refine ⟨fun hI => ?_, ?_, fun hq => ?_⟩
  · unfold Integrates at hI
    simp only [Finset.sum_range_one, eval_X, integral_id, hw, hx] at hI
    exact hs (by linarith)
  · simp only [Finset.sum_range_one, hw, hx]
    linarith
  · unfold qf at hq
    rw [forN_sum] at hq
    simp only [Finset.sum_range_one, hw, hx, zero_add, mul_one] at hq
    have h0 : (-(pt 1).1) ≠ 0 := fun e => by
      have : (pt 1).1 = 0 := by linarith
      rw [this] at hz
      norm_num at hz
    rw [div_eq_iff h0] at hq
    exact hs (by linarith)

example (s : (Nat → ℝ) × (Nat → ℝ)) : ∃ pt, qf 1 (fillNorm 1 pt s).1 (fillNorm 1 pt s).2 ≠ 1 := by
  obtain ⟨pt, h⟩ := found_exists 2
  exact ⟨pt, (C63_norm_cosine_violated pt (h 1 (by norm_num)) s).2.2⟩

/-- Whatever the rule, with the factor the cosines integrate to a half. -/
theorem C63_factor (n : Nat) (x w : Nat → ℝ) (h : ∑ j ∈ Finset.range n, x j * w j ≠ 0) :
    ∑ j ∈ Finset.range n, x j * (qf n x w * w j) = 1 / 2 := by
  have : ∀ j ∈ Finset.range n, x j * (qf n x w * w j) = qf n x w * (x j * w j) := fun j _ => by ring
  rw [Finset.sum_congr rfl this, ← Finset.mul_sum]
  unfold qf
  rw [forN_sum, zero_add]
  field_simp

example : ∑ j ∈ Finset.range 1, (fun _ => (3 : ℝ)) j * (qf 1 (fun _ => 3) (fun _ => 5) * (fun _ => 5) j) = 1 / 2 :=
  C63_factor 1 _ _ (by norm_num)

end Xrtm.Gauss
