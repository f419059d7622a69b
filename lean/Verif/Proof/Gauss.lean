import Verif.Model.Gauss
import Verif.Spec.Quad
import Verif.Proof.GaussMath

/-!
# The rules of quadrature: what the loops write
-/

namespace Xrtm.Gauss
open Loops Polynomial Xrtm.Legendre Xrtm.Legendre.Spec

theorem climb_succ (n : Nat) (y : ℝ) :
    climb (n + 1) y = ((n : ℝ) / (n + 1) * (y * (climb n y).1 - (climb n y).2) + y * (climb n y).1, (climb n y).1) := rfl

theorem climb_eq (n : Nat) (y : ℝ) : climb (n + 1) y = ((legendre (n + 1)).eval y, (legendre n).eval y) := by
  induction n with
  | zero => simp [climb, forN, legendre_zero, legendre_one]
  | succ n ih =>
    rw [climb_succ, ih]
    have hb := congrArg (eval y) (bonnet n)
    simp only [eval_C, eval_sub, eval_mul, eval_X] at hb
    ext
    · push_cast
      have h0 : ((n : ℝ) + 2) ≠ 0 := by positivity
      have h1 : ((n : ℝ) + 1 + 1) ≠ 0 := by positivity
      rw [← mul_right_inj' h0, hb]
      field_simp
      ring
    · rfl

theorem climb_p1 (n : Nat) (y : ℝ) : (climb n y).1 = (legendre n).eval y := by
  rcases n with _ | n
  · simp [climb, legendre_zero]
  · rw [climb_eq]

theorem turn_eq (n : Nat) (hn : 0 < n) (y : ℝ) (hy : 1 - y ^ 2 ≠ 0) :
    turn n (n * (n + 1)) y = y - (legendre n).eval y / (derivative (legendre n)).eval y *
      (1 + (legendre n).eval y / (derivative (legendre n)).eval y * (derivative (derivative (legendre n))).eval y /
        (2 * (derivative (legendre n)).eval y)) := by
  obtain ⟨m, rfl⟩ : ∃ m, n = m + 1 := ⟨n - 1, by omega⟩
  have hd : (1 : ℝ) - y * y ≠ 0 := by rwa [← pow_two]
  have e1 : ((m + 1 : ℕ) : ℝ) * ((legendre m).eval y - y * (legendre (m + 1)).eval y) / (1 - y * y) =
      (derivative (legendre (m + 1))).eval y := by
    rw [div_eq_iff hd]
    have := slope m y
    push_cast
    linear_combination -this
  have e2 : (2 * y * (derivative (legendre (m + 1))).eval y - ((m + 1) * (m + 1 + 1) : ℕ) * (legendre (m + 1)).eval y) / (1 - y * y) =
      (derivative (derivative (legendre (m + 1)))).eval y := by
    rw [div_eq_iff hd]
    have := curve (m + 1) y
    push_cast at this ⊢
    linear_combination -this
  unfold turn
  simp only [climb_eq]
  rw [e1, e2]

/-- The error of a turn, exactly. -/
theorem turn_error (n : Nat) (hn : 0 < n) {z : ℝ} (hz : (legendre n).eval z = 0) (q : ℝ[X])
    (hq : legendre n = (X - C z) * q) (y : ℝ) (hy : 1 - y ^ 2 ≠ 0) (hp : (derivative (legendre n)).eval y ≠ 0) :
    turn n (n * (n + 1)) y - z = (y - z) ^ 3 *
      ((2 * (derivative q).eval y * (2 * q.eval y * (derivative q).eval y + (y - z) * (derivative q).eval y ^ 2) -
        q.eval y ^ 2 * (derivative (derivative q)).eval y) / (2 * (derivative (legendre n)).eval y ^ 3)) := by
  rw [turn_eq n hn y hy]
  have e0 : (legendre n).eval y = (y - z) * q.eval y := by rw [hq]; simp
  have e1 : (derivative (legendre n)).eval y = q.eval y + (y - z) * (derivative q).eval y := by rw [hq]; simp
  have e2 : (derivative (derivative (legendre n))).eval y = 2 * (derivative q).eval y + (y - z) * (derivative (derivative q)).eval y := by
    rw [hq]; simp; ring
  rw [e1] at hp
  rw [e0, e1, e2]
  field_simp
  ring

theorem basin (n : Nat) (hn : 0 < n) {z : ℝ} (hz : (legendre n).eval z = 0) :
    ∃ δ M : ℝ, 0 < δ ∧ 0 < M ∧ M * δ ^ 2 ≤ 1 / 2 ∧ ∀ y, |y - z| < δ →
      |turn n (n * (n + 1)) y - z| ≤ M * |y - z| ^ 3 := by
  obtain ⟨q, hq⟩ := dvd_iff_isRoot.2 (show IsRoot (legendre n) z from hz)
  have hs := slope_ne n hz
  have hin := zero_inside n hz
  set g : ℝ → ℝ := fun y => (2 * (derivative q).eval y * (2 * q.eval y * (derivative q).eval y + (y - z) * (derivative q).eval y ^ 2) -
        q.eval y ^ 2 * (derivative (derivative q)).eval y) / (2 * (derivative (legendre n)).eval y ^ 3) with hg
  have c1 : ContinuousAt g z := by
    refine ContinuousAt.div ?_ ?_ ?_
    · exact (by fun_prop : Continuous fun y => 2 * (derivative q).eval y * (2 * q.eval y * (derivative q).eval y +
        (y - z) * (derivative q).eval y ^ 2) - q.eval y ^ 2 * (derivative (derivative q)).eval y).continuousAt
    · exact (by fun_prop : Continuous fun y => 2 * (derivative (legendre n)).eval y ^ 3).continuousAt
    · exact mul_ne_zero two_ne_zero (pow_ne_zero _ hs)
  have n1 : ∀ᶠ y in nhds z, |g y| < |g z| + 1 := c1.abs.eventually_lt continuousAt_const (by linarith)
  have n2 : ∀ᶠ y in nhds z, (derivative (legendre n)).eval y ≠ 0 :=
    (by fun_prop : Continuous fun y => (derivative (legendre n)).eval y).continuousAt.eventually_ne hs
  have n3 : ∀ᶠ y in nhds z, 1 - y ^ 2 ≠ 0 :=
    (by fun_prop : Continuous fun y : ℝ => 1 - y ^ 2).continuousAt.eventually_ne hin.ne'
  obtain ⟨d, hd, hb⟩ := Metric.eventually_nhds_iff.1 (n1.and (n2.and n3))
  have hM : 0 < |g z| + 1 := by positivity
  refine ⟨min d (min 1 (1 / (2 * (|g z| + 1)))), |g z| + 1, by positivity, hM, ?_, fun y hy => ?_⟩
  · set δ := min d (min 1 (1 / (2 * (|g z| + 1)))) with hδ
    have h0 : 0 < δ := by positivity
    have h1 : δ ≤ 1 := (min_le_right _ _).trans (min_le_left _ _)
    have h2 : δ ≤ 1 / (2 * (|g z| + 1)) := (min_le_right _ _).trans (min_le_right _ _)
    have h3 : δ ^ 2 ≤ δ := by nlinarith
    calc (|g z| + 1) * δ ^ 2 ≤ (|g z| + 1) * (1 / (2 * (|g z| + 1))) := by gcongr; exact h3.trans h2
      _ = 1 / 2 := by field_simp
  · have h := hb (show dist y z < d by rw [Real.dist_eq]; exact lt_of_lt_of_le hy (min_le_left _ _))
    rw [turn_error n hn hz q hq y h.2.2 h.2.1, abs_mul, abs_pow, mul_comm]
    gcongr
    exact h.1.le

theorem near (M δ : ℝ) (hM : 0 < M) (hMd : M * δ ^ 2 ≤ 1 / 2) (t : ℝ → ℝ) (z : ℝ)
    (h : ∀ y, |y - z| < δ → |t y - z| ≤ M * |y - z| ^ 3) (y0 : ℝ) (h0 : |y0 - z| < δ) (k : Nat) :
    |t^[k] y0 - z| < δ ∧ |t^[k] y0 - z| ≤ (1 / 2) ^ k * |y0 - z| ∧ |t^[k + 1] y0 - z| ≤ 1 / 2 * |t^[k] y0 - z| := by
  have half : ∀ y, |y - z| < δ → |t y - z| ≤ 1 / 2 * |y - z| := by
    intro y hy
    refine (h y hy).trans ?_
    have ha := abs_nonneg (y - z)
    have : |y - z| ^ 2 ≤ δ ^ 2 := by gcongr
    calc M * |y - z| ^ 3 = M * |y - z| ^ 2 * |y - z| := by ring
      _ ≤ M * δ ^ 2 * |y - z| := by gcongr
      _ ≤ 1 / 2 * |y - z| := by gcongr
  have base : |t^[k] y0 - z| < δ ∧ |t^[k] y0 - z| ≤ (1 / 2) ^ k * |y0 - z| := by
    induction k with
    | zero => simpa using h0
    | succ k ih =>
      rw [Function.iterate_succ_apply']
      have := half _ ih.1
      have ha := abs_nonneg (t^[k] y0 - z)
      refine ⟨by linarith [ih.1], this.trans ?_⟩
      rw [pow_succ]
      linarith [ih.2]
  refine ⟨base.1, base.2, ?_⟩
  rw [Function.iterate_succ_apply']
  exact half _ base.1

theorem search_near (n : Nat) (hn : 0 < n) {z : ℝ} (hz : (legendre n).eval z = 0) :
    ∃ δ M : ℝ, 0 < δ ∧ 0 < M ∧ ∀ eps y0, 0 < eps → |y0 - z| < δ →
      ∃ y y2, search n (n * (n + 1)) eps y0 = some (y, (legendre (n - 1)).eval y2) ∧
        |y2 - z| ≤ 2 * eps ∧ |y - z| ≤ M * eps ^ 3 ∧ |y - z| ≤ eps := by
  obtain ⟨δ, M, hδ, hM, hMd, hb⟩ := basin n hn hz
  refine ⟨δ, 8 * M, hδ, by positivity, fun eps y0 he h0 => ?_⟩
  have N := near M δ hM hMd (turn n (n * (n + 1))) z hb y0 h0
  have hex : ∃ k, ¬ eps < |(turn n (n * (n + 1)))^[k + 1] y0 - (turn n (n * (n + 1)))^[k] y0| := by
    have ht : Filter.Tendsto (fun k : ℕ => 2 * ((1 / 2 : ℝ) ^ k * |y0 - z|)) Filter.atTop (nhds (2 * (0 * |y0 - z|))) :=
      ((tendsto_pow_atTop_nhds_zero_of_lt_one (by norm_num) (by norm_num)).mul_const _).const_mul _
    have hev := ht.eventually (gt_mem_nhds (show 2 * (0 * |y0 - z|) < eps by simpa using he))
    obtain ⟨k, hk⟩ := hev.exists
    refine ⟨k, not_lt.2 ?_⟩
    have h1 := (N k).2.1
    have h2 := (N k).2.2
    have h3 : |(turn n (n * (n + 1)))^[k + 1] y0 - (turn n (n * (n + 1)))^[k] y0| ≤
        |(turn n (n * (n + 1)))^[k + 1] y0 - z| + |(turn n (n * (n + 1)))^[k] y0 - z| := by
      rw [abs_sub_comm ((turn n (n * (n + 1)))^[k] y0) z]
      exact abs_sub_le _ _ _
    have := abs_nonneg ((turn n (n * (n + 1)))^[k] y0 - z)
    linarith
  refine ⟨(turn n (n * (n + 1)))^[Nat.find hex + 1] y0, (turn n (n * (n + 1)))^[Nat.find hex] y0, ?_, ?_⟩
  · unfold search
    rw [dif_pos hex]
    obtain ⟨m, rfl⟩ : ∃ m, n = m + 1 := ⟨n - 1, by omega⟩
    rw [climb_eq]
    rfl
  · have hk := not_lt.1 (Nat.find_spec hex)
    set k := Nat.find hex
    set a := (turn n (n * (n + 1)))^[k] y0
    have e : (turn n (n * (n + 1)))^[k + 1] y0 = turn n (n * (n + 1)) a := Function.iterate_succ_apply' _ _ _
    rw [e] at hk ⊢
    have h2 := (N k).2.2
    rw [e] at h2
    have h3 : |a - z| ≤ |turn n (n * (n + 1)) a - a| + |turn n (n * (n + 1)) a - z| := by
      rw [abs_sub_comm (turn n (n * (n + 1)) a) a]
      exact abs_sub_le _ _ _
    have h4 : |a - z| ≤ 2 * eps := by
      change |turn n (n * (n + 1)) a - z| ≤ 1 / 2 * |a - z| at h2
      linarith
    have h5 := hb a (N k).1
    have h2' : |turn n (n * (n + 1)) a - z| ≤ 1 / 2 * |a - z| := h2
    refine ⟨h4, h5.trans ?_, by linarith⟩
    have : |a - z| ^ 3 ≤ (2 * eps) ^ 3 := by gcongr
    calc M * |a - z| ^ 3 ≤ M * (2 * eps) ^ 3 := by gcongr
      _ = 8 * M * eps ^ 3 := by ring

/-! ### The zeros and their order -/

theorem neg_zero_iff (n : Nat) (z : ℝ) : (legendre n).eval (-z) = 0 ↔ (legendre n).eval z = 0 := by
  have hn := T_neg 0 n z
  simp only [T, Function.iterate_zero, id] at hn
  rw [hn]
  simp

theorem mem_zeros (n : Nat) (z : ℝ) : z ∈ (legendre n).roots.toFinset ↔ (legendre n).eval z = 0 := by
  rw [Multiset.mem_toFinset, mem_roots (legendre_ne n), IsRoot.def]

theorem IsZero.neg {n i : Nat} {z : ℝ} (h : IsZero n i z) : i < n ∧ IsZero n (n - 1 - i) (-z) := by
  classical
  set R := (legendre n).roots.toFinset with hR
  have hm := (mem_zeros n z).2 h.1
  have hsplit : (R.filter fun t => z < t).card + (R.filter fun t => t < z).card + 1 = n := by
    have h1 : R = (R.filter fun t => z < t) ∪ (R.filter fun t => t < z) ∪ {z} := by
      ext t
      simp only [Finset.mem_union, Finset.mem_filter, Finset.mem_singleton]
      constructor
      · intro ht
        rcases lt_trichotomy z t with h | h | h
        · exact Or.inl (Or.inl ⟨ht, h⟩)
        · exact Or.inr h.symm
        · exact Or.inl (Or.inr ⟨ht, h⟩)
      · rintro ((h | h) | h)
        · exact h.1
        · exact h.1
        · rw [h]; exact hm
    have h2 := zeros_card n
    rw [← hR, h1, Finset.card_union_of_disjoint, Finset.card_union_of_disjoint, Finset.card_singleton] at h2
    · exact h2
    · rw [Finset.disjoint_left]
      intro t ha hb
      have := (Finset.mem_filter.1 ha).2
      have := (Finset.mem_filter.1 hb).2
      linarith
    · rw [Finset.disjoint_left]
      intro t ha hb
      rw [Finset.mem_singleton] at hb
      rw [hb] at ha
      rcases Finset.mem_union.1 ha with h | h
      · exact lt_irrefl _ (Finset.mem_filter.1 h).2
      · exact lt_irrefl _ (Finset.mem_filter.1 h).2
  have hi := h.2
  rw [← hR] at hi
  refine ⟨by omega, (neg_zero_iff n z).2 h.1, ?_⟩
  rw [← hR]
  have hflip : (R.filter fun t => -z < t).card = (R.filter fun t => t < z).card := by
    refine Finset.card_bij (fun t _ => -t) ?_ ?_ ?_
    · intro t ht
      rw [Finset.mem_filter] at ht ⊢
      exact ⟨(mem_zeros n _).2 ((neg_zero_iff n t).2 ((mem_zeros n t).1 ht.1)), by linarith [ht.2]⟩
    · intro a _ b _ hab; linarith
    · intro t ht
      rw [Finset.mem_filter] at ht
      exact ⟨-t, Finset.mem_filter.2 ⟨(mem_zeros n _).2 ((neg_zero_iff n t).2 ((mem_zeros n t).1 ht.1)), by linarith [ht.2]⟩, by ring⟩
  rw [hflip]
  omega

/-- There is one such zero for each number below the degree, and no other. -/
theorem isZero_unique {n i : Nat} {a b : ℝ} (ha : IsZero n i a) (hb : IsZero n i b) : a = b := by
  classical
  by_contra h
  have key : ∀ {a b : ℝ}, IsZero n i a → IsZero n i b → a < b → False := by
    intro a b ha hb hab
    have hsub : ((legendre n).roots.toFinset.filter fun t => b < t) ⊂ ((legendre n).roots.toFinset.filter fun t => a < t) := by
      rw [Finset.ssubset_iff_of_subset]
      · exact ⟨b, Finset.mem_filter.2 ⟨(mem_zeros n b).2 hb.1, hab⟩, fun h => lt_irrefl _ (Finset.mem_filter.1 h).2⟩
      · intro t ht
        rw [Finset.mem_filter] at ht ⊢
        exact ⟨ht.1, hab.trans ht.2⟩
    have := Finset.card_lt_card hsub
    rw [ha.2, hb.2] at this
    exact lt_irrefl _ this
  rcases lt_or_gt_of_ne h with h | h
  · exact key ha hb h
  · exact key hb ha h

theorem isZero_exists {n i : Nat} (hi : i < n) : ∃ z, IsZero n i z := by
  classical
  set R := (legendre n).roots.toFinset with hR
  have hc : R.card = n := zeros_card n
  -- the count is injective on the zeros and below the degree
  have hmaps : Set.MapsTo (fun z => (R.filter fun t => z < t).card) (R : Set ℝ) (Finset.range n : Set ℕ) := by
    intro z hz
    rw [Finset.mem_coe, Finset.mem_range, ← hc]
    refine Finset.card_lt_card ?_
    rw [Finset.ssubset_iff_of_subset (Finset.filter_subset _ _)]
    exact ⟨z, hz, fun h => lt_irrefl _ (Finset.mem_filter.1 h).2⟩
  have hinj : Set.InjOn (fun z => (R.filter fun t => z < t).card) (R : Set ℝ) := by
    intro a ha b hb hab
    exact isZero_unique (n := n) ⟨(mem_zeros n a).1 ha, rfl⟩ ⟨(mem_zeros n b).1 hb, hab.symm⟩
  have hsurj := Finset.surjOn_of_injOn_of_card_le _ hmaps hinj (by rw [hc, Finset.card_range])
  obtain ⟨z, hz, hzi⟩ := hsurj (Finset.mem_coe.2 (Finset.mem_range.2 hi))
  exact ⟨z, (mem_zeros n z).1 hz, hzi⟩

/-! ### The sums -/

/-- The weight that belongs to a zero, on an interval of length two. -/
noncomputable def weight (n : Nat) (z : ℝ) : ℝ := 2 * (1 - z ^ 2) / (n * (legendre (n - 1)).eval z) ^ 2

theorem weight_neg (n : Nat) (z : ℝ) : weight n (-z) = weight n z := by
  have hn := T_neg 0 (n - 1) z
  simp only [T, Function.iterate_zero, id] at hn
  unfold weight
  rw [hn]
  congr 1
  · ring
  · rw [mul_pow, mul_pow, mul_pow, ← pow_mul, mul_comm (n - 1 + 0) 2, pow_mul]
    simp

theorem weight_pos (n : Nat) {z : ℝ} (hz : (legendre n).eval z = 0) : 0 < weight n z := by
  rcases n with _ | n
  · simp [legendre_zero] at hz
  have h1 := ker_self n z hz
  have h2 := ker_pos n z
  have h3 := zero_inside _ hz
  have h4 : 0 < (((n : ℝ) + 1) * (legendre n).eval z) ^ 2 := by rw [← h1]; exact mul_pos (by linarith) h3
  unfold weight
  simp only [Nat.add_sub_cancel]
  push_cast
  positivity

theorem gauss_range (n : Nat) (hn : 0 < n) (z : Nat → ℝ) (hz : ∀ i < n, IsZero n i (z i)) (f : ℝ[X])
    (hf : f.natDegree < 2 * n) :
    ∑ i ∈ Finset.range n, weight n (z i) * f.eval (z i) = ∫ t in (-1 : ℝ)..1, f.eval t := by
  obtain ⟨m, rfl⟩ : ∃ m, n = m + 1 := ⟨n - 1, by omega⟩
  have h := gauss m (fun i : Fin (m + 1) => z i) (fun i => (hz i i.2).1) (fun a b hab => by
    have h1 := (hz a a.2).2
    have h2 := (hz b b.2).2
    simp only at hab
    rw [hab, h2] at h1
    exact Fin.ext h1.symm) f hf
  change _ = I f
  rw [← h, Finset.sum_range fun i => weight (m + 1) (z i) * f.eval (z i)]
  refine Finset.sum_congr rfl fun i _ => ?_
  unfold weight
  simp only [Nat.add_sub_cancel]
  push_cast
  rfl

/-- The zeros from those of the upper half. -/
noncomputable def spread (n : Nat) (y : Nat → ℝ) (j : Nat) : ℝ :=
  if j < (n + 1) / 2 then y j else -y (n - 1 - j)

theorem spread_zero (n : Nat) (y : Nat → ℝ) (hy : ∀ i < (n + 1) / 2, IsZero n i (y i)) (j : Nat) (hj : j < n) :
    IsZero n j (spread n y j) := by
  unfold spread
  split
  · exact hy j ‹_›
  · have h := (hy (n - 1 - j) (by omega)).neg.2
    rwa [show n - 1 - (n - 1 - j) = j by omega] at h

theorem between_loop (n : Nat) (x1 x2 x1l x2l : ℝ) (pt : Nat → ℝ × ℝ) (s : Lin) (m : Nat) (hm : m ≤ (n + 1) / 2) (j : Nat)
    (hj : j < n) (hjm : j < m ∨ n - 1 - j < m) :
    let r := forN m (fun i (s : Lin) =>
      let ii := n - 1 - i
      let y1 := (pt i).1
      let p2 := (pt i).2
      let dd := (x2 - x1) / 2 * y1
      let de := n * p2
      let de := 2 / (de * de)
      let w := put s.w i (((x2 - x1) / 2 - dd * y1) * de)
      let ddl := (x2l - x1l) / 2 * y1
      let wl := put s.wl i (((x2l - x1l) / 2 - ddl * y1) * de)
      (⟨put (put s.x i ((x1 + x2) / 2 - dd)) ii ((x1 + x2) / 2 + dd), put w ii (w i),
       put (put s.xl i ((x1l + x2l) / 2 - ddl)) ii ((x1l + x2l) / 2 + ddl), put wl ii (wl i)⟩ : Lin)) s
    let k := if n - 1 - j < m then n - 1 - j else j
    let g : ℝ := if n - 1 - j < m then (pt k).1 else -(pt k).1
    r.x j = (x1 + x2) / 2 + (x2 - x1) / 2 * g ∧
    r.xl j = (x1l + x2l) / 2 + (x2l - x1l) / 2 * g ∧
    r.w j = (x2 - x1) / 2 * (2 * (1 - g ^ 2) / (n * (pt k).2) ^ 2) ∧
    r.wl j = (x2l - x1l) / 2 * (2 * (1 - g ^ 2) / (n * (pt k).2) ^ 2) := by
  induction m with
  | zero => omega
  | succ m ih =>
    intro r
    have hr : r = _ := rfl
    by_cases h1 : n - 1 - j = m
    · have e : j = n - 1 - m := by omega
      simp only [r, forN_succ, e, put_same]
      have h2 : n - 1 - (n - 1 - m) < m + 1 := by omega
      have h3 : n - 1 - (n - 1 - m) = m := by omega
      have h4 : m < m + 1 := by omega
      simp only [h3, if_pos h4]
      refine ⟨trivial, trivial, ?_, ?_⟩ <;> ring
    by_cases h2 : j = m
    · have hne : j ≠ n - 1 - m := by omega
      have h3 : ¬ n - 1 - j < m + 1 := by omega
      simp only [r, forN_succ, put_other _ _ hne, h2, put_same, if_neg (h2 ▸ h3)]
      have hne' : m ≠ n - 1 - m := by omega
      simp only [put_other _ _ hne', put_same]
      refine ⟨?_, ?_, ?_, ?_⟩ <;> ring
    · have hne : j ≠ n - 1 - m := by omega
      have h := ih (by omega) (by omega)
      have hiff : (n - 1 - j < m + 1) ↔ (n - 1 - j < m) := by omega
      simp only [r, forN_succ, put_other _ _ hne, put_other _ _ h2, hiff]
      exact h

theorem between_eq (n : Nat) (x1 x2 x1l x2l : ℝ) (pt : Nat → ℝ × ℝ) (s : Lin) (j : Nat) (hj : j < n) :
    let r := fillBetween n x1 x2 x1l x2l pt s
    let k := if n - 1 - j < (n + 1) / 2 then n - 1 - j else j
    let g : ℝ := if n - 1 - j < (n + 1) / 2 then (pt k).1 else -(pt k).1
    r.x j = (x1 + x2) / 2 + (x2 - x1) / 2 * g ∧
    r.xl j = (x1l + x2l) / 2 + (x2l - x1l) / 2 * g ∧
    r.w j = (x2 - x1) / 2 * (2 * (1 - g ^ 2) / (n * (pt k).2) ^ 2) ∧
    r.wl j = (x2l - x1l) / 2 * (2 * (1 - g ^ 2) / (n * (pt k).2) ^ 2) :=
  between_loop n x1 x2 x1l x2l pt s _ le_rfl j hj (by omega)

/-- The points found are the zeros. -/
def Found (n : Nat) (pt : Nat → ℝ × ℝ) (i : Nat) : Prop :=
  IsZero n i (pt i).1 ∧ (pt i).2 = (legendre (n - 1)).eval (pt i).1

theorem between_zero (n : Nat) (x1 x2 x1l x2l : ℝ) (pt : Nat → ℝ × ℝ) (hp : ∀ i < (n + 1) / 2, Found n pt i) (s : Lin)
    (j : Nat) (hj : j < n) :
    let z := spread n (fun i => (pt i).1) (n - 1 - j)
    let r := fillBetween n x1 x2 x1l x2l pt s
    r.x j = (x1 + x2) / 2 + (x2 - x1) / 2 * z ∧ r.xl j = (x1l + x2l) / 2 + (x2l - x1l) / 2 * z ∧
      r.w j = (x2 - x1) / 2 * weight n z ∧ r.wl j = (x2l - x1l) / 2 * weight n z := by
  have h := between_eq n x1 x2 x1l x2l pt s j hj
  simp only at h ⊢
  unfold spread
  by_cases hc : n - 1 - j < (n + 1) / 2
  · simp only [if_pos hc] at h ⊢
    rw [(hp _ hc).2] at h
    exact h
  · have hj2 : j < (n + 1) / 2 := by omega
    simp only [if_neg hc] at h ⊢
    rw [show n - 1 - (n - 1 - j) = j by omega, weight_neg]
    rw [(hp _ hj2).2, neg_sq] at h
    exact h

theorem between_integrates (n : Nat) (hn : 0 < n) (x1 x2 x1l x2l : ℝ) (pt : Nat → ℝ × ℝ)
    (hp : ∀ i < (n + 1) / 2, Found n pt i) (s : Lin) (f : ℝ[X]) (hf : f.natDegree < 2 * n) :
    Integrates n (fillBetween n x1 x2 x1l x2l pt s).x (fillBetween n x1 x2 x1l x2l pt s).w x1 x2 f := by
  unfold Integrates
  set z := spread n (fun i => (pt i).1) with hzdef
  have hz : ∀ i < n, IsZero n i (z i) := spread_zero n _ fun i hi => (hp i hi).1
  set l : ℝ[X] := C ((x2 - x1) / 2) * X + C ((x1 + x2) / 2) with hl
  have hle : ∀ t, l.eval t = (x1 + x2) / 2 + (x2 - x1) / 2 * t := fun t => by simp [hl]; ring
  have hd : (C ((x2 - x1) / 2) * f.comp l).natDegree < 2 * n := by
    refine lt_of_le_of_lt (natDegree_C_mul_le _ _) ?_
    refine lt_of_le_of_lt natDegree_comp_le ?_
    have : l.natDegree ≤ 1 := natDegree_linear_le
    calc f.natDegree * l.natDegree ≤ f.natDegree * 1 := by gcongr
      _ < 2 * n := by omega
  have hg := gauss_range n hn z hz _ hd
  rw [← Finset.sum_range_reflect] at hg
  have e1 : ∀ j ∈ Finset.range n, (fillBetween n x1 x2 x1l x2l pt s).w j * f.eval ((fillBetween n x1 x2 x1l x2l pt s).x j) =
      weight n (z (n - 1 - j)) * (C ((x2 - x1) / 2) * f.comp l).eval (z (n - 1 - j)) := by
    intro j hj
    have := between_zero n x1 x2 x1l x2l pt hp s j (Finset.mem_range.1 hj)
    simp only at this
    rw [this.1, this.2.2.1, eval_mul, eval_C, eval_comp, hle]
    ring
  rw [Finset.sum_congr rfl e1, hg]
  simp only [eval_mul, eval_C, eval_comp, hle]
  rw [intervalIntegral.integral_const_mul]
  have := intervalIntegral.mul_integral_comp_add_mul (a := (-1 : ℝ)) (b := 1) (f := fun t => f.eval t) ((x2 - x1) / 2) ((x1 + x2) / 2)
  rw [this]
  congr 1 <;> ring

theorem double_eq (n : Nat) (pt : Nat → ℝ × ℝ) (s : (Nat → ℝ) × (Nat → ℝ)) (s' : Lin) (h1 : s'.x = s.1) (h2 : s'.w = s.2) :
    fillDouble n pt s = ((fillBetween n 0 1 0 0 pt s').x, (fillBetween n 0 1 0 0 pt s').w) := by
  unfold fillDouble fillBetween
  generalize (n + 1) / 2 = m
  induction m with
  | zero => simp [h1, h2]
  | succ m ih =>
    simp only [forN_succ] at ih ⊢
    rw [ih]
    refine Prod.ext ?_ ?_
    · simp only
      congr 1
      · congr 1; ring
      · ring
    · simp only [put_same]
      congr 1
      · congr 1; ring
      · ring

theorem norm_eq (n : Nat) (pt : Nat → ℝ × ℝ) (s : (Nat → ℝ) × (Nat → ℝ)) (j : Nat) (hj : j < n) :
    (fillNorm n pt s).1 j = -(pt (n + j)).1 ∧
      (fillNorm n pt s).2 j = 2 * (1 - (pt (n + j)).1 ^ 2) / (((2 * n : ℕ) : ℝ) * (pt (n + j)).2) ^ 2 := by
  have key : ∀ m, j < m → m ≤ n → (forN m (fun ii (s : (Nat → ℝ) × (Nat → ℝ)) =>
      let y1 := (pt (n + ii)).1
      let p2 := (pt (n + ii)).2
      let dd := ((2 * n : ℕ) : ℝ) * p2
      (put s.1 ii (-y1), put s.2 ii (2 * (1 - y1 * y1) / (dd * dd)))) s).1 j = -(pt (n + j)).1 ∧ (forN m (fun ii (s : (Nat → ℝ) × (Nat → ℝ)) =>
      let y1 := (pt (n + ii)).1
      let p2 := (pt (n + ii)).2
      let dd := ((2 * n : ℕ) : ℝ) * p2
      (put s.1 ii (-y1), put s.2 ii (2 * (1 - y1 * y1) / (dd * dd)))) s).2 j =
      2 * (1 - (pt (n + j)).1 ^ 2) / (((2 * n : ℕ) : ℝ) * (pt (n + j)).2) ^ 2 := by
    intro m
    induction m with
    | zero => omega
    | succ m ih =>
      intro h1 h2
      by_cases h : j = m
      · simp only [forN_succ, h, put_same]
        refine ⟨trivial, ?_⟩
        rw [pow_two, pow_two]
      · simp only [forN_succ, put_other _ _ h]
        exact ih (by omega) (by omega)
  exact key n hj le_rfl

theorem norm_integrates (n : Nat) (hn : 0 < n) (pt : Nat → ℝ × ℝ) (hp : ∀ i, n ≤ i → i < 2 * n → Found (2 * n) pt i)
    (s : (Nat → ℝ) × (Nat → ℝ)) (f : ℝ[X]) (hf : f.natDegree < 4 * n) (he : Even f) :
    Integrates n (fillNorm n pt s).1 (fillNorm n pt s).2 0 1 f := by
  unfold Integrates
  set z : ℕ → ℝ := fun j => if j < n then -(pt (2 * n - 1 - j)).1 else (pt j).1 with hzd
  have hz : ∀ i < 2 * n, IsZero (2 * n) i (z i) := by
    intro i hi
    simp only [hzd]
    split
    · have h := ((hp (2 * n - 1 - i) (by omega) (by omega)).1).neg.2
      rwa [show 2 * n - 1 - (2 * n - 1 - i) = i by omega] at h
    · exact (hp i (by omega) hi).1
  have hg := gauss_range (2 * n) (by omega) z hz f (by omega)
  rw [two_mul, Finset.sum_range_add] at hg
  set F : ℕ → ℝ := fun j => weight (n + n) (-(pt (n + j)).1) * f.eval (-(pt (n + j)).1) with hF
  have a1 : ∑ j ∈ Finset.range n, weight (n + n) (z (n + j)) * f.eval (z (n + j)) = ∑ j ∈ Finset.range n, F j := by
    refine Finset.sum_congr rfl fun j _ => ?_
    have : z (n + j) = (pt (n + j)).1 := by simp [hzd]
    rw [this, hF]
    simp only
    rw [weight_neg, he]
  have a2 : ∑ j ∈ Finset.range n, weight (n + n) (z j) * f.eval (z j) = ∑ j ∈ Finset.range n, F j := by
    rw [← Finset.sum_range_reflect F]
    refine Finset.sum_congr rfl fun j hj => ?_
    have hj := Finset.mem_range.1 hj
    have : z j = -(pt (n + (n - 1 - j))).1 := by
      simp only [hzd, if_pos hj]
      rw [show 2 * n - 1 - j = n + (n - 1 - j) by omega]
    rw [this]
  rw [a1, a2] at hg
  have a3 : ∑ i ∈ Finset.range n, (fillNorm n pt s).2 i * f.eval ((fillNorm n pt s).1 i) = ∑ j ∈ Finset.range n, F j := by
    refine Finset.sum_congr rfl fun j hj => ?_
    have hj := Finset.mem_range.1 hj
    have h := norm_eq n pt s j hj
    rw [h.1, h.2, (hp (n + j) (by omega) (by omega)).2, hF]
    simp only
    rw [weight_neg, ← two_mul]
    rfl
  rw [a3]
  have a4 : (∫ t in (-1 : ℝ)..0, f.eval t) = ∫ t in (0 : ℝ)..1, f.eval t := by
    have := intervalIntegral.integral_comp_neg (a := (0 : ℝ)) (b := 1) fun t => f.eval t
    rw [neg_zero] at this
    rw [← this]
    exact intervalIntegral.integral_congr fun t _ => he t
  have a5 := intervalIntegral.integral_add_adjacent_intervals (poly_int f (-1) 0) (poly_int f 0 1)
  rw [a4] at a5
  linarith

end Xrtm.Gauss
