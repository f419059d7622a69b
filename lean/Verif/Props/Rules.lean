import Verif.Proof.Rules
import Verif.Props.Gauss

/-!
# C71: rules of quadrature with equal steps, moved rules, and rules on pieces of an interval
-/

namespace Xrtm.Gauss
open Loops Polynomial

/-- The trapezoidal rule with two points or more integrates polynomials of degree one. -/
theorem C71_trapezoid (m : Nat) (a b : ℝ) (s : (Nat → ℝ) × (Nat → ℝ)) (f : ℝ[X]) (hf : f.natDegree < 2) :
    Integrates (m + 2) (trapezoid (m + 2) a b s).1 (trapezoid (m + 2) a b s).2 a b f := by
  unfold Integrates
  have h0 : (m : ℝ) + 1 ≠ 0 := by positivity
  have c2 : f.coeff 2 = 0 := coeff_eq_zero_of_natDegree_lt hf
  have c3 : f.coeff 3 = 0 := coeff_eq_zero_of_natDegree_lt (by omega)
  have he : ∀ t, f.eval t = f.coeff 0 + f.coeff 1 * t + 0 * t ^ 2 + 0 * t ^ 3 := fun t => by
    rw [cubic_eval (by omega), c2, c3]
  simp only [he]
  rw [cubic_integral]
  rw [Finset.sum_congr rfl fun i hi => by
    rw [(trapezoid_eq m a b s (Finset.mem_range.1 hi)).1, (trapezoid_eq m a b s (Finset.mem_range.1 hi)).2]]
  rw [trapezoid_sum (fun i => f.coeff 0 + f.coeff 1 * (a + i * ((b - a) / (m + 1))) + 0 * (a + i * ((b - a) / (m + 1))) ^ 2 +
    0 * (a + i * ((b - a) / (m + 1))) ^ 3)]
  have k := trapezoid_steps (f.coeff 0) (f.coeff 1) a ((b - a) / (m + 1)) (m + 1)
  have hb : a + ((m + 1 : Nat) : ℝ) * ((b - a) / (m + 1)) = b := by push_cast; field_simp; ring
  rw [hb] at k ⊢
  simp only [zero_mul, add_zero, Nat.cast_zero, zero_div]
  exact k

example : ∑ i ∈ Finset.range 5, (trapezoid 5 1 3 0).2 i * (X : ℝ[X]).eval ((trapezoid 5 1 3 0).1 i) = 4 := by
  have h := C71_trapezoid 3 1 3 0 X (by simp)
  unfold Integrates at h
  rw [h]
  simp
  norm_num

/-- Simpson's rule with three points or more, if it does not refuse, integrates polynomials of degree three. -/
theorem C71_simpson {n : Nat} (hn : 1 < n) {a b : ℝ} {s r : (Nat → ℝ) × (Nat → ℝ)} (h : simpson n a b s = some r) (f : ℝ[X])
    (hf : f.natDegree < 4) : Integrates n r.1 r.2 a b f := by
  by_cases hp : n % 2 = 0
  · unfold simpson at h
    rw [if_pos hp] at h
    cases h
  obtain ⟨m, rfl⟩ : ∃ m, n = 2 * m + 3 := ⟨(n - 3) / 2, by omega⟩
  obtain ⟨r', h', hr⟩ := simpson_eq m a b s
  obtain rfl : r = r' := Option.some.inj (h.symm.trans h')
  unfold Integrates
  have h0 : (2 * m : ℝ) + 2 ≠ 0 := by positivity
  simp only [cubic_eval hf]
  rw [cubic_integral]
  rw [Finset.sum_congr rfl fun i hi => by
    rw [(hr i (Finset.mem_range.1 hi)).1, (hr i (Finset.mem_range.1 hi)).2]]
  rw [simpson_sum (fun i => f.coeff 0 + f.coeff 1 * (a + i * ((b - a) / (2 * m + 2))) +
    f.coeff 2 * (a + i * ((b - a) / (2 * m + 2))) ^ 2 + f.coeff 3 * (a + i * ((b - a) / (2 * m + 2))) ^ 3)]
  have k := simpson_steps (f.coeff 0) (f.coeff 1) (f.coeff 2) (f.coeff 3) a ((b - a) / (2 * m + 2)) (m + 1)
  have hb : a + ((2 * m + 2 : Nat) : ℝ) * ((b - a) / (2 * m + 2)) = b := by push_cast; field_simp; ring
  have hb' : a + 2 * ((m + 1 : Nat) : ℝ) * ((b - a) / (2 * m + 2)) = b := by push_cast; field_simp; ring
  rw [hb'] at k
  rw [hb]
  simp only [zero_mul, add_zero, Nat.cast_zero]
  exact k

/-- It refuses even numbers of points only. -/
theorem C71_simpson_refuses (n : Nat) (a b : ℝ) (s : (Nat → ℝ) × (Nat → ℝ)) : simpson n a b s = none ↔ n % 2 = 0 := by
  unfold simpson
  split_ifs with h
  · simp [h]
  · simp [h]

example : ∃ r, simpson 5 0 2 0 = some r ∧ ∑ i ∈ Finset.range 5, r.2 i * (X ^ 3 : ℝ[X]).eval (r.1 i) = 4 := by
  obtain ⟨r, hr⟩ : ∃ r, simpson 5 0 2 0 = some r :=
    Option.ne_none_iff_exists'.1 fun h => absurd ((C71_simpson_refuses 5 0 2 0).1 h) (by norm_num)
  have h := C71_simpson (by norm_num) hr (X ^ 3) (by simp)
  unfold Integrates at h
  refine ⟨r, hr, ?_⟩
  rw [h]
  simp
  norm_num

/-- The extended trapezoidal rule has the weights of the trapezoidal one, and with two points the points as well.
Full statement: it integrates polynomials of degree one, with any number of points; it is false, see
`C71_violated_extended` and `C71_violated_single`. -/
theorem C71_extended_partial (a b : ℝ) (s : (Nat → ℝ) × (Nat → ℝ)) :
    (∀ m : Nat, ∀ i < m + 2, (extended (m + 2) a b s).2 i = (trapezoid (m + 2) a b s).2 i) ∧
    ∀ f : ℝ[X], f.natDegree < 2 → Integrates 2 (extended 2 a b s).1 (extended 2 a b s).2 a b f := by
  refine ⟨fun m i hi => (extended_eq m a b s hi).2, fun f hf => ?_⟩
  have h := C71_trapezoid 0 a b s f hf
  unfold Integrates at h ⊢
  rw [← h]
  refine Finset.sum_congr rfl fun i hi => ?_
  have hi := Finset.mem_range.1 hi
  rw [(extended_eq 0 a b s hi).2, (extended_eq 0 a b s hi).1, (trapezoid_eq 0 a b s hi).1]
  congr 2
  have : i = 0 ∨ i = 1 := by omega
  rcases this with rfl | rfl <;> simp

example : (extended 4 0 3 0).2 1 = (trapezoid 4 0 3 0).2 1 := (C71_extended_partial 0 3 0).1 2 1 (by norm_num)

/-- **Violated** with three points or more: the points inside stand one step too low (`misc/rtutil_math.c` 59), so the
rule does not integrate the polynomial `x`. -/
theorem C71_violated_extended (m : Nat) {a b : ℝ} (hab : a ≠ b) (s : (Nat → ℝ) × (Nat → ℝ)) :
    (extended (m + 3) a b s).1 1 = (extended (m + 3) a b s).1 0 ∧
      ¬ Integrates (m + 3) (extended (m + 3) a b s).1 (extended (m + 3) a b s).2 a b X := by
  constructor
  · rw [(extended_eq (m + 1) a b s (by omega)).1, (extended_eq (m + 1) a b s (by omega)).1, if_neg (by omega), if_neg (by omega),
      if_pos rfl]
    simp
  · intro h
    have ht := C71_trapezoid (m + 1) a b s X (by simp)
    unfold Integrates at h ht
    rw [← ht, ← sub_eq_zero, ← Finset.sum_sub_distrib] at h
    set d := (b - a) / (((m + 1 : Nat) : ℝ) + 1) with hd
    have e : ∀ i ∈ Finset.range (m + 3), (extended (m + 1 + 2) a b s).2 i * (X : ℝ[X]).eval ((extended (m + 1 + 2) a b s).1 i) -
        (trapezoid (m + 1 + 2) a b s).2 i * (X : ℝ[X]).eval ((trapezoid (m + 1 + 2) a b s).1 i) =
        -(d * d) * (1 - (if i = 0 then 1 else 0) - if i = m + 2 then 1 else 0) := by
      intro i hi
      have hi := Finset.mem_range.1 hi
      rw [(extended_eq (m + 1) a b s hi).2, (extended_eq (m + 1) a b s hi).1, (trapezoid_eq (m + 1) a b s hi).1,
        (trapezoid_eq (m + 1) a b s hi).2, ← hd]
      simp only [eval_X]
      by_cases h0 : i = 0
      · subst h0; simp
      by_cases h1 : i = m + 1 + 1
      · subst h1
        have hb : a + ((m + 1 + 1 : Nat) : ℝ) * d = b := by
          have : ((m + 1 : Nat) : ℝ) + 1 ≠ 0 := by positivity
          rw [hd]; push_cast at this ⊢; field_simp; ring
        simp only [if_neg h0, if_pos (show m + 1 + 1 = m + 2 from rfl), hb, if_true]
        ring
      · simp only [if_neg h0, if_neg h1, if_neg (show ¬ i = m + 2 from h1)]; ring
    rw [Finset.sum_congr rfl e, ← Finset.mul_sum, Finset.sum_sub_distrib, Finset.sum_sub_distrib] at h
    simp only [Finset.sum_const, Finset.card_range, Finset.sum_ite_eq', Finset.mem_range] at h
    rw [if_pos (by omega), if_pos (by omega)] at h
    have hd0 : d ≠ 0 := div_ne_zero (sub_ne_zero.2 hab.symm) (by positivity)
    have hm : ((m : ℝ) + 1) ≠ 0 := by positivity
    have : d * d * ((m : ℝ) + 1) = 0 := by
      simp only [nsmul_eq_mul, mul_one] at h
      push_cast at h
      linarith
    exact mul_ne_zero (mul_ne_zero hd0 hd0) hm this

example : ¬ Integrates 3 (extended 3 0 1 0).1 (extended 3 0 1 0).2 0 1 X := (C71_violated_extended 0 (by norm_num) 0).2

/-- **Violated** with a single point: its weight is one, whatever the length of the interval
(`misc/rtutil_math.c` 48-51). -/
theorem C71_violated_single {a b : ℝ} (hab : b - a ≠ 1) (s : (Nat → ℝ) × (Nat → ℝ)) :
    ¬ Integrates 1 (extended 1 a b s).1 (extended 1 a b s).2 a b 1 := by
  unfold Integrates extended
  simp
  exact fun h => hab h.symm

example : ¬ Integrates 1 (extended 1 0 2 0).1 (extended 1 0 2 0).2 0 2 1 := C71_violated_single (by norm_num) 0

/-- A rule that looks the same from both ends integrates, moved to another interval, the degrees it did. -/
theorem C71_fit {n d : Nat} {t : Lin} (h : Mirror n t) (ht : ∀ f : ℝ[X], f.natDegree < d → Integrates n t.x t.w (-1) 1 f)
    (x1 x2 x1l x2l : ℝ) (s : Lin) (f : ℝ[X]) (hf : f.natDegree < d) :
    Integrates n (fit n x1 x2 x1l x2l t s).x (fit n x1 x2 x1l x2l t s).w x1 x2 f :=
  moved_integrates ht (fun _ hj => (fit_point h x1 x2 x1l x2l s hj).1) (fun _ hj => (fit_point h x1 x2 x1l x2l s hj).2.1) hf

example : ∃ t : Lin, ∀ (s : Lin) (f : ℝ[X]), f.natDegree < 6 → Integrates 3 (fit 3 2 5 0 0 t s).x (fit 3 2 5 0 0 t s).w 2 5 f := by
  obtain ⟨pt, hp⟩ := found_exists 3
  have hp : ∀ i < (3 + 1) / 2, Found 3 pt i := fun i hi => hp i (by omega)
  exact ⟨fillBetween 3 (-1) 1 0 0 pt ⟨0, 0, 0, 0⟩, fun s f hf => C71_fit (between_mirror 3 pt hp _)
    (fun g hg => (C63_between 3 (by norm_num) (-1) 1 0 0 pt hp _).1 g hg) 2 5 0 0 s f hf⟩

/-- The linearised points and weights of a moved rule are derivatives. -/
theorem C71_fit_deriv {n : Nat} {t : ℝ → Lin} {u : ℝ} (h : ∀ v, Mirror n (t v)) {x1 x2 : ℝ → ℝ} {x1l x2l : ℝ}
    (h1 : HasDerivAt x1 x1l u) (h2 : HasDerivAt x2 x2l u) {j : Nat} (hj : j < n)
    (hx : HasDerivAt (fun v => (t v).x j) ((t u).xl j) u) (hw : HasDerivAt (fun v => (t v).w j) ((t u).wl j) u) (s : Lin) :
    HasDerivAt (fun v => (fit n (x1 v) (x2 v) x1l x2l (t v) s).x j) ((fit n (x1 u) (x2 u) x1l x2l (t u) s).xl j) u ∧
    HasDerivAt (fun v => (fit n (x1 v) (x2 v) x1l x2l (t v) s).w j) ((fit n (x1 u) (x2 u) x1l x2l (t u) s).wl j) u := by
  have e := fun v => fit_point (h v) (x1 v) (x2 v) x1l x2l s hj
  rw [(e u).2.2.1, (e u).2.2.2, funext fun v => (e v).1, funext fun v => (e v).2.1]
  exact ⟨((h1.add h2).div_const 2).add (((h2.sub h1).div_const 2).mul hx), ((h2.sub h1).div_const 2).mul hw⟩

/-- A single point in the middle, the upper end moves. -/
example : HasDerivAt (fun v => (fit 1 0 v 0 1 ⟨0, 2, 0, 0⟩ ⟨0, 0, 0, 0⟩).x 0) ((fit 1 0 3 0 1 ⟨0, 2, 0, 0⟩ ⟨0, 0, 0, 0⟩).xl 0) 3 :=
  (C71_fit_deriv (t := fun _ => ⟨0, 2, 0, 0⟩) (x1 := fun _ => 0) (x2 := fun v => v)
    (fun _ => ⟨fun i hi => by simp, fun i hi => rfl, fun i hi => by simp, fun i hi => rfl⟩) (hasDerivAt_const _ _)
    (hasDerivAt_id _) (by norm_num) (hasDerivAt_const _ _) (hasDerivAt_const _ _) _).1

/-- On equal pieces of an interval: the points and weights `get_particle_dist_quad` writes, for all pieces together,
integrate from one end to the other what the rule of a piece does. -/
theorem C71_pieces {n d m : Nat} (hm : 0 < m) {t : Lin} (h : Mirror n t)
    (ht : ∀ f : ℝ[X], f.natDegree < d → Integrates n t.x t.w (-1) 1 f) (r1 r2 r1l r2l : ℝ) (s : Lin) (f : ℝ[X])
    (hf : f.natDegree < d) :
    Integrates (m * n) (pieces m n r1 r2 r1l r2l t s).x (pieces m n r1 r2 r1l r2l t s).w r1 r2 f := by
  set r := pieces m n r1 r2 r1l r2l t s with hr
  set a := (r2 - r1) / (m : ℝ) with ha
  have one : ∀ i < m, ∑ j ∈ Finset.range n, r.w (i * n + j) * f.eval (r.x (i * n + j)) =
      ∫ u in (r1 + i * a)..(r1 + ((i + 1 : Nat) : ℝ) * a), f.eval u := by
    intro i hi
    have k := moved_integrates (x1 := r1 + i * a) (x2 := r1 + i * a + a) (x' := fun j => r.x (i * n + j))
      (w' := fun j => r.w (i * n + j)) ht (fun _ hj => (pieces_point h m r1 r2 r1l r2l s hi hj).1)
      (fun _ hj => (pieces_point h m r1 r2 r1l r2l s hi hj).2.1) hf
    unfold Integrates at k
    rw [k]
    congr 1
    push_cast
    ring
  have all : ∀ k ≤ m, ∑ j ∈ Finset.range (k * n), r.w j * f.eval (r.x j) =
      ∑ i ∈ Finset.range k, ∫ u in (r1 + i * a)..(r1 + ((i + 1 : Nat) : ℝ) * a), f.eval u := by
    intro k
    induction k with
    | zero => simp
    | succ k ih =>
      intro hk
      rw [Nat.succ_mul, Finset.sum_range_add, ih (by omega), one k (by omega), Finset.sum_range_succ]
  unfold Integrates
  rw [all m le_rfl, intervalIntegral.sum_integral_adjacent_intervals (a := fun i : Nat => r1 + (i : ℝ) * a)
    (fun k _ => f.continuous.intervalIntegrable _ _)]
  have hm' : (m : ℝ) ≠ 0 := by positivity
  congr 1
  · simp
  · rw [ha]; field_simp; ring

/-- With the points of the search at the zeros, all polynomials of degree below `2n`. -/
theorem C71_gauss {n m : Nat} (hn : 0 < n) (hm : 0 < m) (pt : Nat → ℝ × ℝ) (hp : ∀ i < (n + 1) / 2, Found n pt i)
    (r1 r2 r1l r2l : ℝ) (s0 s : Lin) (f : ℝ[X]) (hf : f.natDegree < 2 * n) :
    let t := fillBetween n (-1) 1 0 0 pt s0
    Integrates (m * n) (pieces m n r1 r2 r1l r2l t s).x (pieces m n r1 r2 r1l r2l t s).w r1 r2 f :=
  C71_pieces hm (between_mirror n pt hp s0) (fun g hg => (C63_between n hn (-1) 1 0 0 pt hp s0).1 g hg) r1 r2 r1l r2l s f hf

/-- Their linearised points and weights are derivatives. -/
theorem C71_gauss_deriv {n m : Nat} (pt : Nat → ℝ × ℝ) (hp : ∀ i < (n + 1) / 2, Found n pt i) {r1 r2 : ℝ → ℝ} {u r1l r2l : ℝ}
    (h1 : HasDerivAt r1 r1l u) (h2 : HasDerivAt r2 r2l u) (s0 s : Lin) {i j : Nat} (hi : i < m) (hj : j < n) :
    let t := fillBetween n (-1) 1 0 0 pt s0
    HasDerivAt (fun v => (pieces m n (r1 v) (r2 v) r1l r2l t s).x (i * n + j))
      ((pieces m n (r1 u) (r2 u) r1l r2l t s).xl (i * n + j)) u ∧
    HasDerivAt (fun v => (pieces m n (r1 v) (r2 v) r1l r2l t s).w (i * n + j))
      ((pieces m n (r1 u) (r2 u) r1l r2l t s).wl (i * n + j)) u := by
  intro t
  have e := fun v => pieces_point (between_mirror n pt hp s0) m (r1 v) (r2 v) r1l r2l s hi hj
  dsimp only at e
  have z : t.xl j = 0 ∧ t.wl j = 0 := by
    have k := between_zero n (-1) 1 0 0 pt hp s0 j hj
    dsimp only at k
    exact ⟨by rw [k.2.1]; ring, by rw [k.2.2.2]; ring⟩
  rw [(e u).2.2.1, (e u).2.2.2, funext fun v => (e v).1, funext fun v => (e v).2.1]
  change HasDerivAt _ (_ + (_ + _ * t.xl j)) u ∧ HasDerivAt _ (_ + _ * t.wl j) u
  rw [z.1, z.2, mul_zero, add_zero, add_zero]
  have da := (h2.sub h1).div_const (m : ℝ)
  have db := h1.add (da.const_mul (i : ℝ))
  have dc := db.add da
  exact ⟨((db.add dc).div_const 2).add (((dc.sub db).div_const 2).mul_const _), ((dc.sub db).div_const 2).mul_const _⟩

example : ∃ pt : Nat → ℝ × ℝ, ∀ (s : Lin) (f : ℝ[X]), f.natDegree < 8 →
    Integrates (3 * 4) (pieces 3 4 1 7 0 1 (fillBetween 4 (-1) 1 0 0 pt s) s).x
      (pieces 3 4 1 7 0 1 (fillBetween 4 (-1) 1 0 0 pt s) s).w 1 7 f := by
  obtain ⟨pt, hp⟩ := found_exists 4
  exact ⟨pt, fun s f hf => C71_gauss (by norm_num) (by norm_num) pt (fun i hi => hp i (by omega)) 1 7 0 1 s s f hf⟩

end Xrtm.Gauss
