import Verif.Proof.PhaseVec
import Mathlib.Analysis.Calculus.Deriv.Polynomial

/-!
# Closed forms are the second derivatives; the theorem of addition with
polarisation
-/

namespace Xrtm.PhaseVec
open Loops Legendre Legendre.Spec Spec Polynomial

theorem T_hasDerivAt (m l : ℕ) (x : ℝ) : HasDerivAt (T m l) (T (m + 1) l x) x := by
  have := (derivative^[m] (legendre l)).hasDerivAt x
  rw [← Function.iterate_succ_apply' derivative m (legendre l)] at this
  exact this

theorem pat_eq (m l : ℕ) (θ : ℝ) : pat m l θ = Real.sin θ ^ m * T m l (Real.cos θ) := rfl

theorem Tcos_hasDerivAt (m l : ℕ) (θ : ℝ) :
    HasDerivAt (fun t => T m l (Real.cos t)) (-(Real.sin θ) * T (m + 1) l (Real.cos θ)) θ := by
  have := (T_hasDerivAt m l (Real.cos θ)).comp θ (Real.hasDerivAt_cos θ)
  refine this.congr_deriv ?_
  ring

/-- The first derivative. -/
noncomputable def P1 (m l : ℕ) (θ : ℝ) : ℝ :=
  m * Real.sin θ ^ (m - 1) * Real.cos θ * T m l (Real.cos θ) -
    Real.sin θ ^ (m + 1) * T (m + 1) l (Real.cos θ)

/-- The second. -/
noncomputable def P2 (m l : ℕ) (θ : ℝ) : ℝ :=
  m * ((m - 1 : ℕ) : ℝ) * Real.sin θ ^ (m - 1 - 1) * Real.cos θ ^ 2 * T m l (Real.cos θ) -
    m * Real.sin θ ^ (m - 1) * Real.sin θ * T m l (Real.cos θ) -
    m * Real.sin θ ^ (m - 1) * Real.cos θ * Real.sin θ * T (m + 1) l (Real.cos θ) -
    (m + 1) * Real.sin θ ^ m * Real.cos θ * T (m + 1) l (Real.cos θ) +
    Real.sin θ ^ (m + 1) * Real.sin θ * T (m + 2) l (Real.cos θ)

theorem pat_d1 (m l : ℕ) (θ : ℝ) : HasDerivAt (pat m l) (P1 m l θ) θ := by
  have h := ((Real.hasDerivAt_sin θ).pow m).mul (Tcos_hasDerivAt m l θ)
  refine h.congr_deriv ?_
  simp only [P1, Pi.pow_apply]
  ring

theorem pat_d2 (m l : ℕ) (θ : ℝ) : HasDerivAt (P1 m l) (P2 m l θ) θ := by
  have h1 := ((((Real.hasDerivAt_sin θ).fun_pow (m - 1)).const_mul (m : ℝ)).fun_mul
    (Real.hasDerivAt_cos θ)).fun_mul (Tcos_hasDerivAt m l θ)
  have h2 := ((Real.hasDerivAt_sin θ).fun_pow (m + 1)).fun_mul (Tcos_hasDerivAt (m + 1) l θ)
  refine (h1.fun_sub h2).congr_deriv ?_
  simp only [P2]
  rw [Nat.add_sub_cancel]
  push_cast
  ring

theorem along_eq (m l : ℕ) (θ : ℝ) : along m l θ = norm2 l * (P2 m l θ -
    Real.cos θ / Real.sin θ * P1 m l θ + (m : ℝ) ^ 2 / Real.sin θ ^ 2 * pat m l θ) := by
  have : deriv (pat m l) = P1 m l := funext fun t => (pat_d1 m l t).deriv
  unfold along
  rw [this, (pat_d2 m l θ).deriv]

theorem across_eq (m l : ℕ) (θ : ℝ) (h : Real.sin θ ≠ 0) : across m l θ = norm2 l * (-2 * m *
    ((P1 m l θ * Real.sin θ - pat m l θ * Real.cos θ) / Real.sin θ ^ 2)) := by
  unfold across
  rw [((pat_d1 m l θ).fun_div (Real.hasDerivAt_sin θ) h).deriv]

theorem root_sin (θ : ℝ) (h0 : 0 ≤ Real.sin θ) : √(1 - Real.cos θ ^ 2) = Real.sin θ := by
  rw [← Real.sin_sq]; exact Real.sqrt_sq h0

theorem along_Rt (m k : ℕ) (θ : ℝ) (h : 0 < Real.sin θ) :
    along m (k + 1) θ = norm2 (k + 1) * Rt m (k + 1) (Real.cos θ) := by
  rw [along_eq]
  congr 1
  have hs := Real.sin_sq_add_cos_sq θ
  have o := ode m k (Real.cos θ)
  have hr := root_sin θ h.le
  rw [pat_eq]
  unfold P1 P2
  generalize Real.sin θ = s at *
  generalize Real.cos θ = x at *
  have h0 : s ≠ 0 := h.ne'
  match m with
  | 0 =>
    simp only [Rt]
    rw [zero_add] at o
    push_cast at o ⊢
    field_simp
    simp only [zero_add, pow_zero, one_mul, pow_one, mul_zero, zero_mul] at o ⊢
    linear_combination s ^ 2 * o + s ^ 2 * T 2 (k + 1) x * hs
  | 1 =>
    simp only [Rt, hr]
    push_cast at o ⊢
    simp only [Nat.sub_self, pow_zero, pow_one, CharP.cast_eq_zero]
    field_simp
    norm_num at o ⊢
    linear_combination s ^ 2 * o + (s ^ 2 * T 3 (k + 1) x - T 1 (k + 1) x) * hs
  | m + 2 =>
    simp only [Rt, hr]
    rw [show m + 2 - 1 = m + 1 by omega, show m + 1 - 1 = m by omega]
    push_cast at o ⊢
    simp only [pow_succ]
    field_simp
    linear_combination s ^ 2 * o + ((4 * m + (m : ℝ) ^ 2 + 2 - 3 * k - (k : ℝ) ^ 2) * T (m + 2) (k + 1) x +
      2 * x * T (m + 3) (k + 1) x + s ^ 2 * T (m + 4) (k + 1) x) * hs

theorem across_Tt (m l : ℕ) (θ : ℝ) (h : 0 < Real.sin θ) :
    across m l θ = norm2 l * Tt m l (Real.cos θ) := by
  rw [across_eq m l θ h.ne']
  congr 1
  have hs := Real.sin_sq_add_cos_sq θ
  have hr := root_sin θ h.le
  rw [pat_eq]
  unfold P1
  generalize Real.sin θ = s at *
  generalize Real.cos θ = x at *
  have h0 : s ≠ 0 := h.ne'
  match m with
  | 0 => simp [Tt]
  | 1 =>
    simp only [Tt, hr]
    simp only [Nat.sub_self, pow_zero, pow_one]
    push_cast
    field_simp
    ring
  | m + 2 =>
    simp only [Tt, hr]
    rw [show m + 2 - 1 = m + 1 by omega]
    push_cast
    simp only [pow_succ]
    field_simp
    linear_combination T (m + 3) l x * hs

theorem ent_kernel (ns m l : ℕ) (θ : ℝ) (h : 0 < Real.sin θ) (r c : ℕ) (hr : r < ns) (hc : c < ns)
    (hns : Few ns) : ent ns m l (Real.cos θ) r c = kernel m l θ r c := by
  have hl : ∀ l, 2 ≤ l → along m l θ = norm2 l * Rt m l (Real.cos θ) := by
    intro l h2
    obtain ⟨k, rfl⟩ : ∃ k, l = k + 1 := ⟨l - 1, by omega⟩
    exact along_Rt m k θ h
  have hx : ∀ v : ℝ → ℝ, ∀ w : ℝ, 1 < ns → (2 ≤ l → norm2 l * v (Real.cos θ) = w) →
      (if 3 ≤ ns ∧ 2 ≤ l then norm2 l * v (Real.cos θ) else 0) = if l < 2 then 0 else w := by
    intro v w h1 hv
    have h3 : 3 ≤ ns := by rcases hns with e | e | e <;> omega
    by_cases h2 : 2 ≤ l
    · rw [if_pos ⟨h3, h2⟩, if_neg (by omega), hv h2]
    · rw [if_neg (by omega), if_pos (by omega)]
  have hd : √(1 - Real.cos θ ^ 2) ^ m * T m l (Real.cos θ) = pat m l θ := by
    rw [root_sin θ h.le]; rfl
  unfold ent kernel
  split
  · exact hd
  · exact hx (Rt m l) _ (by omega) fun h2 => (hl l h2).symm
  · exact hx (Tt m l) _ (by omega) fun _ => (across_Tt m l θ h).symm
  · exact hx (Tt m l) _ (by omega) fun _ => (across_Tt m l θ h).symm
  · exact hx (Rt m l) _ (by omega) fun h2 => (hl l h2).symm
  · rw [if_pos (by omega)]; exact hd
  · split <;> first | rfl | (exfalso; simp_all)

/-! ## The sums over the degrees -/

/-- The weight of a degree. -/
noncomputable def wt (m l : ℕ) : ℝ := ((l - m).factorial : ℝ) / ((l + m).factorial : ℝ)

theorem wt_next (m t : ℕ) : wt m (m + t + 1) =
    wt m (m + t) * ((((m + t : ℕ) : ℝ) + 1 - m) / (((m + t : ℕ) : ℝ) + 1 + m)) := by
  unfold wt
  rw [show m + t + 1 - m = t + 1 by omega, show m + t - m = t by omega,
    show m + t + 1 + m = (m + t + m) + 1 by omega, Nat.factorial_succ, Nat.factorial_succ]
  have h1 : ((m + t + m).factorial : ℝ) ≠ 0 := by positivity
  have h2 : ((m : ℝ) + t + m + 1) ≠ 0 := by positivity
  have h3 : ((m : ℝ) + t + 1 + m) ≠ 0 := by positivity
  push_cast
  field_simp
  ring

theorem gcToB_lin (ns : ℕ) (gc : ℕ → ℕ → ℝ) (i : ℕ) (c : ℝ) (j k : ℕ) :
    gcToB ns gc i c j k = c * gcToB ns gc i 1 j k := by
  unfold gcToB
  split <;> simp only [mul_ite, mul_zero, one_mul]

theorem gcToB_turn (ns : ℕ) (gc : ℕ → ℕ → ℝ) (i : ℕ) (c : ℝ) (j k : ℕ) :
    turn j * gcToB ns gc i c j k = gcToB ns gc i c j k * turn k := by
  unfold gcToB
  split <;> simp only [turn] <;> norm_num <;> split <;> simp

/-- One degree of the sum. -/
noncomputable def deg (ns : ℕ) (gc row col : ℕ → ℕ → ℝ) (i : ℕ) : ℝ :=
  ∑ k ∈ Finset.range (ns2 ns), ∑ j ∈ Finset.range (ns2 ns),
    row i j * gcToB (ns2 ns) gc i 1 j k * col i k

theorem deg_pull (ns : ℕ) (gc row col : ℕ → ℕ → ℝ) (i : ℕ) (c : ℝ) (v : ℕ → ℝ) :
    ∑ k ∈ Finset.range (ns2 ns), (∑ j ∈ Finset.range (ns2 ns), row i j * gcToB (ns2 ns) gc i c j k) *
      v k * col i k = c * deg ns gc row (fun i k => v k * col i k) i := by
  unfold deg
  rw [Finset.mul_sum]
  refine Finset.sum_congr rfl fun k _ => ?_
  rw [Finset.mul_sum, Finset.sum_mul, Finset.sum_mul]
  refine Finset.sum_congr rfl fun j _ => ?_
  rw [gcToB_lin]
  ring

theorem eps_eq (m : ℕ) : (2 - (if m = 0 then 1 else 0) : ℝ) = eps m := by
  unfold eps; split <;> norm_num

theorem phaseSum_eq (m n ns : ℕ) (gc row col : ℕ → ℕ → ℝ) :
    (phaseSum m n ns gc row col).pp = ∑ t ∈ Finset.range (n - m), wt m (m + t) * eps m *
      deg ns gc row col (m + t) ∧
    (phaseSum m n ns gc row col).mp = ∑ t ∈ Finset.range (n - m), wt m (m + t) * eps m *
      ((-1) ^ t * deg ns gc row (fun i k => turn k * col i k) (m + t)) := by
  unfold phaseSum
  have key := forN_ind (fun t (s : Acc) => s.a = (-1) ^ t ∧ s.b = wt m (m + t) ∧
    s.pp = ∑ t ∈ Finset.range t, wt m (m + t) * eps m * deg ns gc row col (m + t) ∧
    s.mp = ∑ t ∈ Finset.range t, wt m (m + t) * eps m *
      ((-1) ^ t * deg ns gc row (fun i k => turn k * col i k) (m + t)))
    (fun t s => phaseStep m ns gc row col (m + t) s) ⟨1, 1 / ((2 * m).factorial : ℝ), 0, 0⟩ ?_ ?_ (n - m)
  · exact ⟨key.2.2.1, key.2.2.2⟩
  · refine ⟨by simp, ?_, by simp, by simp⟩
    unfold wt
    rw [add_zero, Nat.sub_self, Nat.factorial_zero, two_mul]
    simp
  · rintro t s ⟨ha, hb, hp, hm⟩
    have e1 := deg_pull ns gc row col (m + t) (s.b * eps m) (fun _ => 1)
    have e2 := deg_pull ns gc row col (m + t) (s.b * eps m) turn
    simp only [mul_one, one_mul] at e1
    unfold phaseStep
    dsimp only
    rw [eps_eq, e1, e2, Finset.sum_range_succ, Finset.sum_range_succ]
    refine ⟨by rw [ha, pow_succ], ?_, ?_, ?_⟩
    · rw [hb, ← add_assoc, wt_next]
    · rw [hp, hb]
    · rw [hm, hb, ha]
      rcases neg_one_pow_eq_or ℝ t with e | e <;> rw [e]
      · rw [if_pos one_pos]; ring
      · rw [if_neg (by norm_num)]; ring

/-- The rows of a direction in the sums. -/
noncomputable def rowOf (ns m : ℕ) (x : ℝ) (s : ℕ) (i k : ℕ) : ℝ := ent (ns2 ns) m i x s k

/-- The sum over the degrees with the rows of two directions. -/
noncomputable def Z (m n ns : ℕ) (x y : ℝ) (gc : ℕ → ℕ → ℝ) (s t : ℕ) : ℝ :=
  ∑ d ∈ Finset.range (n - m), wt m (m + d) * eps m *
    deg ns gc (rowOf ns m x s) (rowOf ns m y t) (m + d)

/-- The number of Stokes parameters of the library. -/
def Some4 (ns : ℕ) : Prop := ns = 1 ∨ ns = 2 ∨ ns = 3 ∨ ns = 4

theorem few_ns2 (ns : ℕ) (h : Some4 ns) : Few (ns2 ns) ∧ ns ≤ ns2 ns := by
  unfold Few ns2
  rcases h with rfl | rfl | rfl | rfl <;> simp

theorem deg_congr (ns : ℕ) (gc row col row' col' : ℕ → ℕ → ℝ) (i : ℕ)
    (h1 : ∀ j, j < ns2 ns → row i j = row' i j) (h2 : ∀ j, j < ns2 ns → col i j = col' i j) :
    deg ns gc row col i = deg ns gc row' col' i := by
  unfold deg
  refine Finset.sum_congr rfl fun k hk => Finset.sum_congr rfl fun j hj => ?_
  rw [h1 j (Finset.mem_range.1 hj), h2 k (Finset.mem_range.1 hk)]

theorem turn_sq (s : ℕ) : turn s * turn s = 1 := by unfold turn; split <;> norm_num

/-- The signs carry over from the columns to the direction. -/
theorem deg_neg (m n ns : ℕ) (x : ℝ) (gc col : ℕ → ℕ → ℝ) (s t : ℕ) :
    turn s * ((-1) ^ t * deg ns gc (rowOf ns m x s) (fun i k => turn k * col i k) (m + t)) =
      deg ns gc (rowOf ns m (-x) s) col (m + t) := by
  unfold deg
  rw [Finset.mul_sum, Finset.mul_sum]
  refine Finset.sum_congr rfl fun k _ => ?_
  rw [Finset.mul_sum, Finset.mul_sum]
  refine Finset.sum_congr rfl fun j _ => ?_
  unfold rowOf
  rw [ent_neg]
  have h := gcToB_turn (ns2 ns) gc (m + t) 1 j k
  have e : ((-1 : ℝ)) ^ (m + t + m) = (-1) ^ t := by
    rw [show m + t + m = t + 2 * m by ring, pow_add, pow_mul]; norm_num
  rw [e]
  linear_combination (-(turn s * (-1) ^ t * ent (ns2 ns) m (m + t) x s j * col (m + t) k)) * h

theorem deg_neg2 (m n ns : ℕ) (x y : ℝ) (gc : ℕ → ℕ → ℝ) (s u t : ℕ) :
    deg ns gc (rowOf ns m (-x) s) (rowOf ns m (-y) u) (m + t) =
      turn s * turn u * deg ns gc (rowOf ns m x s) (rowOf ns m y u) (m + t) := by
  rw [← deg_neg m n ns x gc (rowOf ns m (-y) u) s t]
  unfold deg
  rw [Finset.mul_sum, Finset.mul_sum, Finset.mul_sum]
  refine Finset.sum_congr rfl fun k _ => ?_
  rw [Finset.mul_sum, Finset.mul_sum, Finset.mul_sum]
  refine Finset.sum_congr rfl fun j _ => ?_
  unfold rowOf
  dsimp only
  rw [ent_neg]
  have e : ((-1 : ℝ)) ^ (m + t + m) = (-1) ^ t := by
    rw [show m + t + m = t + 2 * m by ring, pow_add, pow_mul]; norm_num
  have e2 : ((-1 : ℝ)) ^ t * (-1) ^ t = 1 := by rw [← mul_pow]; norm_num
  have e3 := turn_sq k
  rw [e]
  linear_combination (turn s * turn u * ent (ns2 ns) m (m + t) x s j *
    gcToB (ns2 ns) gc (m + t) 1 j k * ent (ns2 ns) m (m + t) y u k) * (turn k * turn k * e2 + e3)

theorem Z_low (m n ns : ℕ) (h : n ≤ m) (x y : ℝ) (gc : ℕ → ℕ → ℝ) (s t : ℕ) :
    Z m n ns x y gc s t = 0 := by
  unfold Z
  rw [show n - m = 0 by omega, Finset.range_zero, Finset.sum_empty]

theorem phaseMat_eq (m n ns : ℕ) (hns : Some4 ns) (x y : ℝ) (hx : x ^ 2 ≤ 1) (hy : y ^ 2 ≤ 1)
    (gc : ℕ → ℕ → ℝ) (A : Tab) (s t : ℕ) (hs : s < ns) (ht : t < ns) :
    phaseMat m n ns x y gc A s t =
      ⟨Z m n ns x y gc s t, Z m n ns (-x) y gc s t, Z m n ns (-x) (-y) gc s t,
        Z m n ns x (-y) gc s t⟩ := by
  obtain ⟨hf, hle⟩ := few_ns2 ns hns
  unfold phaseMat
  by_cases h : n ≤ m
  · rw [if_pos h, Z_low _ _ _ h, Z_low _ _ _ h, Z_low _ _ _ h, Z_low _ _ _ h]
  rw [if_neg h]
  dsimp only
  have cg : ∀ (v : ℕ → ℝ) (d : ℕ), d < n - m → deg ns gc
      (fun i k => basic m n (ns2 ns) x A i s k)
      (fun i k => v k * basic m n (ns2 ns) y (basic m n (ns2 ns) x A) i t k) (m + d) =
      deg ns gc (rowOf ns m x s) (fun i k => v k * rowOf ns m y t i k) (m + d) := by
    intro v d hd
    refine deg_congr _ _ _ _ _ _ _ (fun j hj => ?_) (fun j hj => ?_)
    · exact basic_eq m n (ns2 ns) hf x hx A (m + d) s j (by omega) (by omega) (by omega) hj
    · rw [basic_eq m n (ns2 ns) hf y hy _ (m + d) t j (by omega) (by omega) (by omega) hj]
      rfl
  have pp : (phaseSum m n ns gc (fun i k => basic m n (ns2 ns) x A i s k)
      (fun i k => basic m n (ns2 ns) y (basic m n (ns2 ns) x A) i t k)).pp = Z m n ns x y gc s t := by
    rw [(phaseSum_eq m n ns gc _ _).1]
    refine Finset.sum_congr rfl fun d hd => ?_
    have := cg (fun _ => 1) d (Finset.mem_range.1 hd)
    simp only [one_mul] at this
    rw [this]
  have mp : turn s * (phaseSum m n ns gc (fun i k => basic m n (ns2 ns) x A i s k)
      (fun i k => basic m n (ns2 ns) y (basic m n (ns2 ns) x A) i t k)).mp = Z m n ns (-x) y gc s t := by
    rw [(phaseSum_eq m n ns gc _ _).2, Finset.mul_sum]
    refine Finset.sum_congr rfl fun d hd => ?_
    rw [cg turn d (Finset.mem_range.1 hd)]
    have := deg_neg m n ns x gc (rowOf ns m y t) s d
    rw [← this]; ring
  have tw : ∀ x y, Z m n ns (-x) (-y) gc s t = turn s * turn t * Z m n ns x y gc s t := by
    intro x y
    unfold Z
    rw [Finset.mul_sum]
    refine Finset.sum_congr rfl fun d _ => ?_
    rw [deg_neg2 m n]; ring
  rw [pp, mp, tw x y]
  have := tw (-x) y
  rw [neg_neg] at this
  rw [this]

theorem phaseVec_eq (m n ns : ℕ) (hns : Some4 ns) (x y : ℝ) (hx : x ^ 2 ≤ 1) (hy : y ^ 2 ≤ 1)
    (gc : ℕ → ℕ → ℝ) (A : Tab) (s : ℕ) (hs : s < ns) :
    phaseVec m n ns x y gc A s = (Z m n ns x y gc s 0, Z m n ns (-x) y gc s 0) := by
  obtain ⟨hf, hle⟩ := few_ns2 ns hns
  unfold phaseVec
  by_cases h : n ≤ m
  · rw [if_pos h, Z_low _ _ _ h, Z_low _ _ _ h]
  rw [if_neg h]
  dsimp only
  have h0 : 0 < ns2 ns := by omega
  have cg : ∀ (v : ℕ → ℝ) (d : ℕ), d < n - m → deg ns gc
      (fun i k => basic m n (ns2 ns) x A i s k)
      (fun i k => v k * if k = 0 then basic m n 1 y (basic m n (ns2 ns) x A) i 0 0 else 0) (m + d) =
      deg ns gc (rowOf ns m x s) (fun i k => v k * rowOf ns m y 0 i k) (m + d) := by
    intro v d hd
    refine deg_congr _ _ _ _ _ _ _ (fun j hj => ?_) (fun j hj => ?_)
    · exact basic_eq m n (ns2 ns) hf x hx A (m + d) s j (by omega) (by omega) (by omega) hj
    · rw [basic_eq m n 1 (Or.inl rfl) y hy _ (m + d) 0 0 (by omega) (by omega) (by omega) (by omega)]
      unfold rowOf
      match j with
      | 0 => rw [if_pos rfl]; rfl
      | j + 1 => rw [if_neg (by omega)]; rfl
  have pp := (phaseSum_eq m n ns gc (fun i k => basic m n (ns2 ns) x A i s k)
      (fun i k => if k = 0 then basic m n 1 y (basic m n (ns2 ns) x A) i 0 0 else 0)).1
  have mp := (phaseSum_eq m n ns gc (fun i k => basic m n (ns2 ns) x A i s k)
      (fun i k => if k = 0 then basic m n 1 y (basic m n (ns2 ns) x A) i 0 0 else 0)).2
  rw [pp, mp]
  refine Prod.ext ?_ ?_
  · dsimp only
    refine Finset.sum_congr rfl fun d hd => ?_
    have := cg (fun _ => 1) d (Finset.mem_range.1 hd)
    simp only [one_mul] at this
    rw [this]
  · dsimp only
    rw [Finset.mul_sum]
    refine Finset.sum_congr rfl fun d hd => ?_
    rw [cg turn d (Finset.mem_range.1 hd)]
    have := deg_neg m n ns x gc (rowOf ns m y 0) s d
    rw [← this]; ring

end Xrtm.PhaseVec
