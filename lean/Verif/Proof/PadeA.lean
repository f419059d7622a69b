import Verif.Model.Pade
import Verif.Proof.DoublingE
import Mathlib.Data.Nat.Choose.Sum
import Mathlib.Tactic.NoncommRing
import Mathlib.Tactic.Module
import Mathlib.Algebra.BigOperators.Field
import Mathlib.Algebra.Polynomial.AlgebraMap

/-! Padé solver: the coefficients, the numerator as a polynomial, the thin layer and its doubling. -/

namespace Xrtm.Pade
open Matrix Finset

/-! ## Coefficients -/

theorem coef_zero_of_lt {p k : Nat} (h : p < k) : coef p k = 0 := by
  induction k with
  | zero => omega
  | succ k ih =>
      rw [coef]
      rcases Nat.lt_or_ge p k with h1 | h1
      · rw [ih h1, zero_mul]
      · have : p = k := by omega
        subst this
        simp

theorem coef_fact {p k : Nat} (h : k ≤ p) :
    coef p k * ((2 * p).factorial * (k.factorial * (p - k).factorial)) = p.factorial * (2 * p - k).factorial := by
  induction k with
  | zero => simp [coef]; ring
  | succ k ih =>
      have ih := ih (by omega)
      obtain ⟨m, rfl⟩ : ∃ m, p = k + 1 + m := ⟨p - (k + 1), by omega⟩
      have e1 : k + 1 + m - k = m + 1 := by omega
      have e2 : k + 1 + m - (k + 1) = m := by omega
      have e3 : 2 * (k + 1 + m) - k = (k + 1 + 2 * m) + 1 := by omega
      have e4 : 2 * (k + 1 + m) - (k + 1) = k + 1 + 2 * m := by omega
      rw [e1, e3, Nat.factorial_succ m, Nat.factorial_succ (k + 1 + 2 * m)] at ih
      rw [e2, e4, coef, Nat.factorial_succ k]
      push_cast at ih ⊢
      have h3 : (2 * ((k : ℝ) + 1 + m) - k) = k + 1 + 2 * m + 1 := by ring
      have h4 : ((k : ℝ) + 1 + m - k) = m + 1 := by ring
      rw [h3, h4]
      have h1 : ((k : ℝ) + 1 + 2 * m + 1) ≠ 0 := by positivity
      have h2 : ((k : ℝ) + 1) ≠ 0 := by positivity
      field_simp
      linear_combination ih

/-- The coefficient as a number of choices. -/
theorem coef_choose (p k : Nat) (h : k ≤ 2 * p) :
    coef p k = p.choose k * (2 * p - k).factorial / (2 * p).factorial := by
  rcases Nat.lt_or_ge p k with h1 | h1
  · rw [coef_zero_of_lt h1, Nat.choose_eq_zero_of_lt h1]; simp
  · have e := coef_fact h1
    have c := Nat.choose_mul_factorial_mul_factorial h1
    have f1 : ((2 * p).factorial : ℝ) ≠ 0 := by positivity
    have f2 : (k.factorial : ℝ) ≠ 0 := by positivity
    have f3 : ((p - k).factorial : ℝ) ≠ 0 := by positivity
    rw [eq_div_iff f1]
    have c' : (p.choose k : ℝ) * k.factorial * (p - k).factorial = p.factorial := by exact_mod_cast c
    rw [← c'] at e
    have : (k.factorial : ℝ) * (p - k).factorial ≠ 0 := mul_ne_zero f2 f3
    apply mul_right_cancel₀ this
    linear_combination e

/-- Choices that avoid some of the things. -/
theorem choose_avoid (m : Nat) : ∀ N k, m ≤ N →
    ∑ j ∈ range (k + 1), (-1 : ℤ) ^ j * m.choose j * (N - j).choose (k - j) = (N - m).choose k := by
  induction m with
  | zero =>
      intro N k _
      rw [sum_eq_single 0]
      · simp
      · intro j _ hj
        obtain ⟨i, rfl⟩ := Nat.exists_eq_succ_of_ne_zero hj
        simp
      · simp
  | succ m ih =>
      intro N k h
      obtain ⟨N, rfl⟩ : ∃ M, N = M + 1 := ⟨N - 1, by omega⟩
      cases k with
      | zero => simp
      | succ k =>
          have e1 := ih (N + 1) (k + 1) (by omega)
          have e2 := ih N k (by omega)
          rw [sum_range_succ'] at e1 ⊢
          simp only [Nat.choose_zero_right, pow_zero, Nat.sub_zero, Nat.succ_sub_succ_eq_sub, Nat.cast_one, one_mul, mul_one] at e1 ⊢
          have e3 : ∑ j ∈ range (k + 1), (-1 : ℤ) ^ (j + 1) * (m + 1).choose (j + 1) * (N - j).choose (k - j) =
              ∑ j ∈ range (k + 1), (-1 : ℤ) ^ (j + 1) * m.choose (j + 1) * (N - j).choose (k - j) -
              ∑ j ∈ range (k + 1), (-1 : ℤ) ^ j * m.choose j * (N - j).choose (k - j) := by
            rw [← sum_sub_distrib]
            refine sum_congr rfl fun j _ => ?_
            rw [Nat.choose_succ_succ]
            push_cast
            ring
          rw [e3, e2]
          have e4 : N + 1 - m = (N - m) + 1 := by omega
          have e5 : (((N - m) + 1).choose (k + 1) : ℤ) = (N - m).choose k + (N - m).choose (k + 1) := by
            rw [Nat.choose_succ_succ]; push_cast; rfl
          rw [e4, e5] at e1
          linarith

/-- The product of the denominator with the exponential series has the coefficients of the numerator up to the order `2 p`. -/
theorem coef_order {p k : Nat} (h : k ≤ 2 * p) :
    ∑ j ∈ range (k + 1), (-1 : ℝ) ^ j * coef p j * ((k - j).factorial : ℝ)⁻¹ = coef p k := by
  have e := choose_avoid p (2 * p) k (by omega)
  have e' : ∑ j ∈ range (k + 1), (-1 : ℝ) ^ j * p.choose j * (2 * p - j).choose (k - j) = (2 * p - p).choose k := by
    exact_mod_cast e
  have h2 : 2 * p - p = p := by omega
  rw [h2] at e'
  rw [coef_choose p k h, ← e', sum_mul, Finset.sum_div]
  refine sum_congr rfl fun j hj => ?_
  have hj : j ≤ k := by simpa [Nat.lt_succ_iff] using hj
  rw [coef_choose p j (by omega)]
  have c := Nat.choose_mul_factorial_mul_factorial (n := 2 * p - j) (k := k - j) (by omega)
  have e5 : 2 * p - j - (k - j) = 2 * p - k := by omega
  rw [e5] at c
  have c' : ((2 * p - j).choose (k - j) : ℝ) * (k - j).factorial * (2 * p - k).factorial = (2 * p - j).factorial := by
    exact_mod_cast c
  have f1 : ((2 * p).factorial : ℝ) ≠ 0 := by positivity
  have f2 : ((k - j).factorial : ℝ) ≠ 0 := by positivity
  rw [← c']
  field_simp

/-! ## The numerator -/

section poly
variable {A : Type} [Ring A] [Algebra ℝ A]

/-- The polynomial. -/
noncomputable def pad (c : Nat → ℝ) (r : Nat) (x : A) : A := ∑ k ∈ range (r + 1), c k • x ^ k

noncomputable def evens (c : Nat → ℝ) (m : Nat) (w : A) : A := ∑ l ∈ range m, c (2 * l) • w ^ l
noncomputable def odds (c : Nat → ℝ) (m : Nat) (w : A) : A := ∑ l ∈ range m, c (2 * l + 1) • w ^ l

theorem turns_eq {c : Nat → ℝ} {r : Nat} (hc : ∀ k, r < k → c k = 0) (w : A) (k : Nat) :
    turns c r w k = ⟨w ^ (k + 1), evens c (k + 2) w, odds c (k + 2) w⟩ := by
  induction k with
  | zero =>
      simp only [turns, first, evens, odds, sum_range_succ, sum_range_zero, zero_add, pow_zero, pow_one, Nat.mul_zero, Nat.mul_one,
        Nat.reduceAdd, Nat.reduceMul]
      congr 2
      split_ifs with h
      · rfl
      · rw [hc 3 (by omega)]
  | succ k ih =>
      have e : 2 * (k + 2) = 4 + 2 * k := by ring
      simp only [turns, step, ih]
      rw [evens, evens, sum_range_succ _ (k + 2), odds, odds, sum_range_succ _ (k + 2), ← pow_succ, e]
      congr 2
      split_ifs with h
      · rfl
      · rw [hc (4 + 2 * k + 1) (by omega)]

theorem series_eq {c : Nat → ℝ} {r : Nat} (hr : 2 ≤ r) (hc : ∀ k, r < k → c k = 0) (w : A) :
    series c r w = (evens c (r / 2 + 1) w, odds c (r / 2 + 1) w) := by
  have e : r / 2 - 1 + 2 = r / 2 + 1 := by omega
  simp only [series, turns_eq hc, e]

theorem high_eq {c : Nat → ℝ} {r : Nat} (hr : r = 12 ∨ r = 13) (hc : ∀ k, r < k → c k = 0) (w : A) :
    high c r w = (evens c (r / 2 + 1) w, odds c (r / 2 + 1) w) := by
  have e : r / 2 + 1 = 7 := by omega
  have h13 : (if 12 < r then c 13 else 0) = c 13 := by
    split_ifs with h
    · rfl
    · rw [hc 13 (by omega)]
  rw [e]
  simp only [high, h13, if_pos (show 2 < r by omega), if_pos (show 4 < r by omega), if_pos (show 8 < r by omega),
    if_pos (show 10 < r by omega)]
  simp only [evens, odds, sum_range_succ, sum_range_zero, zero_add, pow_zero, pow_one, Nat.reduceMul, Nat.reduceAdd, Nat.mul_zero,
    Nat.mul_one]
  refine Prod.ext ?_ ?_ <;>
  · simp only [mul_add, mul_smul_comm, mul_one, pow_succ, pow_zero, one_mul, mul_assoc]
    abel

/-- In every case the blocks are the even and the odd part. -/
theorem numer_eq {c : Nat → ℝ} {r : Nat} (hr : 1 ≤ r) (hc : ∀ k, r < k → c k = 0) (A12 A21 : A) :
    numer c r A12 A21 = ⟨evens c (r / 2 + 1) (A12 * A21), A12 * odds c (r / 2 + 1) (A21 * A12),
      A21 * odds c (r / 2 + 1) (A12 * A21), evens c (r / 2 + 1) (A21 * A12)⟩ := by
  unfold numer
  split_ifs with h1 h2 h3
  · subst h1
    simp [evens, odds]
  · subst h2
    simp [evens, odds, sum_range_succ, hc 3 (by omega)]
  · simp only [high_eq h3 hc]
  · simp only [series_eq (show 2 ≤ r by omega) hc]

end poly

/-! ## As matrices -/

section mat
variable {n : Nat}

abbrev MM (n : Nat) := Matrix (Fin n ⊕ Fin n) (Fin n ⊕ Fin n) ℝ

/-- The blocks as one matrix. -/
def Blocks.mat (b : Blocks (Source.M n)) : MM n := fromBlocks b.b11 b.b12 b.b21 b.b22

theorem even_pow (A B : Source.M n) (l : Nat) :
    (fromBlocks 0 A B 0 : MM n) ^ (2 * l) = fromBlocks ((A * B) ^ l) 0 0 ((B * A) ^ l) := by
  induction l with
  | zero => simp
  | succ l ih =>
      rw [Nat.mul_add, Nat.mul_one, pow_add, ih, pow_two, fromBlocks_multiply, fromBlocks_multiply]
      simp [pow_succ]

theorem odd_pow (A B : Source.M n) (l : Nat) :
    (fromBlocks 0 A B 0 : MM n) ^ (2 * l + 1) = fromBlocks 0 (A * (B * A) ^ l) (B * (A * B) ^ l) 0 := by
  rw [pow_succ', even_pow, fromBlocks_multiply]
  simp

theorem sum_pairs {E : Type} [AddCommMonoid E] (f : Nat → E) (m : Nat) :
    ∑ k ∈ range (2 * m), f k = ∑ l ∈ range m, (f (2 * l) + f (2 * l + 1)) := by
  induction m with
  | zero => simp
  | succ m ih => rw [Nat.mul_add, Nat.mul_one, sum_range_succ, sum_range_succ, ih, sum_range_succ, add_assoc]

theorem pad_long {A : Type} [Ring A] [Algebra ℝ A] {c : Nat → ℝ} {r : Nat} (hc : ∀ k, r < k → c k = 0) (x : A) :
    pad c r x = ∑ k ∈ range (2 * (r / 2 + 1)), c k • x ^ k := by
  unfold pad
  refine sum_subset (fun k hk => ?_) fun k _ hk => ?_
  · simp only [mem_range] at hk ⊢; omega
  · rw [hc k (by simpa [Nat.lt_succ_iff] using hk), zero_smul]

theorem fromBlocks_sum {ι : Type} (s : Finset ι) (a b c d : ι → Source.M n) :
    ∑ i ∈ s, (fromBlocks (a i) (b i) (c i) (d i) : MM n) =
      fromBlocks (∑ i ∈ s, a i) (∑ i ∈ s, b i) (∑ i ∈ s, c i) (∑ i ∈ s, d i) := by
  classical
  induction s using Finset.induction_on with
  | empty => simp
  | insert i s hi ih => simp only [sum_insert hi, ih, fromBlocks_add]

/-- The numerator is the polynomial of the matrix. -/
theorem numer_mat {c : Nat → ℝ} {r : Nat} (hr : 1 ≤ r) (hc : ∀ k, r < k → c k = 0) (A B : Source.M n) :
    (numer c r A B).mat = pad c r (fromBlocks 0 A B 0 : MM n) := by
  rw [numer_eq hr hc, pad_long hc, sum_pairs]
  simp only [even_pow, odd_pow, fromBlocks_smul, fromBlocks_add, smul_zero, add_zero, zero_add]
  rw [fromBlocks_sum]
  simp only [Blocks.mat, evens, odds, mul_sum, mul_smul_comm]

/-- Half sums and differences. -/
def half (n : Nat) : MM n := fromBlocks 1 1 1 (-1)

theorem half_sq : (half n) * half n = (2 : ℝ) • 1 := by
  rw [half, fromBlocks_multiply, ← fromBlocks_one, fromBlocks_smul]
  simp [two_smul, one_add_one_eq_two]

noncomputable def halfU (n : Nat) : (MM n)ˣ where
  val := half n
  inv := (1 / 2 : ℝ) • half n
  val_inv := by rw [mul_smul_comm, half_sq, smul_smul]; norm_num
  inv_val := by rw [smul_mul_assoc, half_sq, smul_smul]; norm_num

theorem recover_mat (b : Blocks (Source.M n)) : (recover b).mat = ((halfU n)⁻¹ : (MM n)ˣ) * b.mat * (halfU n : MM n) := by
  change _ = (1 / 2 : ℝ) • half n * b.mat * half n
  rw [Blocks.mat, Blocks.mat, half, smul_mul_assoc, fromBlocks_multiply, smul_mul_assoc, fromBlocks_multiply, fromBlocks_smul]
  simp only [recover, one_mul, mul_one, mul_neg, neg_mul]
  congr 1 <;> module

theorem pad_conj (c : Nat → ℝ) (r : Nat) (u : (MM n)ˣ) (x : MM n) :
    (u⁻¹ : (MM n)ˣ) * pad c r x * (u : MM n) = pad c r ((u⁻¹ : (MM n)ˣ) * x * (u : MM n)) := by
  simp only [pad, mul_sum, sum_mul, mul_smul_comm, smul_mul_assoc]
  refine sum_congr rfl fun k _ => ?_
  rw [Units.conj_pow']

/-- The change of light along the depth, down and up, from the local reflection and transmission. -/
def along (r t : Source.M n) : MM n := fromBlocks t (-r) r (-t)

theorem half_conj (r t : Source.M n) (h : ℝ) :
    ((halfU n)⁻¹ : (MM n)ˣ) * (fromBlocks 0 (h • (t + r)) (h • (t - r)) 0 : MM n) * (halfU n : MM n) = h • along r t := by
  change (1 / 2 : ℝ) • half n * _ * half n = _
  rw [half, smul_mul_assoc, fromBlocks_multiply, smul_mul_assoc, fromBlocks_multiply, fromBlocks_smul, along, fromBlocks_smul]
  simp only [zero_mul, mul_zero, one_mul, mul_one, mul_neg, neg_mul, add_zero, zero_add]
  congr 1 <;> module

/-- Up and down exchanged. -/
def swap (n : Nat) : MM n := fromBlocks 0 1 1 0

theorem swap_sq : swap n * swap n = 1 := by
  rw [swap, fromBlocks_multiply, ← fromBlocks_one]; simp

def swapU (n : Nat) : (MM n)ˣ := ⟨swap n, swap n, swap_sq, swap_sq⟩

theorem swap_along (r t : Source.M n) (h : ℝ) : ((swapU n)⁻¹ : (MM n)ˣ) * (h • along r t) * (swapU n : MM n) = -(h • along r t) := by
  change swap n * _ * swap n = _
  rw [along, fromBlocks_smul, swap, fromBlocks_multiply, fromBlocks_multiply, fromBlocks_neg]
  simp

theorem swap_mat (b : Blocks (Source.M n)) : swap n * b.mat * swap n = (⟨b.b22, b.b21, b.b12, b.b11⟩ : Blocks (Source.M n)).mat := by
  rw [swap, Blocks.mat, fromBlocks_multiply, fromBlocks_multiply]
  simp [Blocks.mat]

/-- `E` takes the light at the top of a layer with `R` and `T` to that at the bottom. -/
def Runs (E : MM n) (R T : Source.M n) : Prop := E * fromBlocks 0 1 T R = fromBlocks R T 1 0

/-- Two layers that are the same. -/
theorem Runs.double {E : MM n} {R T q : Source.M n} (h : Runs E R T) (hq : q * (1 - R * R) = 1) :
    Runs (E * E) (Doubling.oR R T q) (Doubling.oT T q) := by
  have hq' : (1 - R * R) * q = 1 := mul_eq_one_comm.mp hq
  have hqR : q * R = R * q := by
    have : q * (R * (1 - R * R)) * q = q * ((1 - R * R) * R) * q := by congr 2; noncomm_ring
    calc q * R = q * R * ((1 - R * R) * q) := by rw [hq', mul_one]
      _ = q * (R * (1 - R * R)) * q := by noncomm_ring
      _ = q * ((1 - R * R) * R) * q := this
      _ = (q * (1 - R * R)) * R * q := by noncomm_ring
      _ = R * q := by rw [hq, one_mul]
  have e1 : q = 1 + R * q * R := by
    have : q - q * (R * R) = 1 := by rw [← hq]; noncomm_ring
    rw [← hqR, mul_assoc, ← this]; abel
  have e2 : q = 1 + R * R * q := by rw [mul_assoc, ← hqR, ← mul_assoc]; exact e1
  unfold Runs at h ⊢
  have f1 : (fromBlocks 0 1 (Doubling.oT T q) (Doubling.oR R T q) : MM n) =
      fromBlocks 0 1 T R * fromBlocks (q * T) (q * (R * T)) 0 1 := by
    rw [fromBlocks_multiply]
    simp only [zero_mul, mul_zero, one_mul, mul_one, add_zero, zero_add, Doubling.oR, Doubling.oT, ← mul_assoc]
    rw [add_comm R]
  have f2 : (fromBlocks R T 1 0 * fromBlocks (q * T) (q * (R * T)) 0 1 : MM n) =
      fromBlocks 0 1 T R * fromBlocks 1 0 (R * q * T) (q * T) := by
    rw [fromBlocks_multiply, fromBlocks_multiply]
    simp only [zero_mul, mul_zero, one_mul, mul_one, add_zero, zero_add]
    congr 1
    · rw [mul_assoc]
    · conv_rhs => rw [e1]
      noncomm_ring
    · conv_lhs => rw [e2]
      noncomm_ring
    · rw [← mul_assoc, ← mul_assoc, hqR]
  have f3 : (fromBlocks R T 1 0 * fromBlocks 1 0 (R * q * T) (q * T) : MM n) =
      fromBlocks (Doubling.oR R T q) (Doubling.oT T q) 1 0 := by
    rw [fromBlocks_multiply]
    simp only [zero_mul, mul_zero, one_mul, mul_one, add_zero, zero_add, Doubling.oR, Doubling.oT]
    congr 1
    · rw [← hqR]; noncomm_ring
    · noncomm_ring
  rw [f1, mul_assoc, ← mul_assoc E (fromBlocks 0 1 T R), h, f2, ← mul_assoc, h, f3]

/-- What the thin layer satisfies. -/
theorem calcRT_ok {inv? : Source.M n → Option (Source.M n)} (hinv : ∀ a b, inv? a = some b → a * b = 1) {N : Blocks (Source.M n)} {o : Thin n}
    (h : calcRT inv? N = some o) :
    N.b22 * o.R + N.b21 = N.b12 * o.T ∧ N.b12 * o.R + N.b11 = N.b22 * o.T := by
  unfold calcRT at h
  dsimp only at h
  split at h
  · simp at h
  · rename_i x hx
    split at h
    · simp at h
    · rename_i y hy
      have hx := hinv _ _ hx
      have hy := hinv _ _ hy
      cases h
      dsimp only
      constructor
      · rw [mul_sub, ← mul_assoc N.b22 (x * N.b12), ← mul_assoc N.b22 x N.b12, hx, one_mul, ← mul_assoc N.b22 x, hx, one_mul,
          sub_add_cancel]
      · have : (N.b12 * (x * N.b12) - N.b22) * (y * (N.b12 * (x * N.b21) - N.b11)) = N.b12 * (x * N.b21) - N.b11 := by
          rw [← mul_assoc, hy, one_mul]
        rw [sub_mul, sub_eq_iff_eq_add] at this
        rw [mul_sub, ← mul_assoc N.b12 (x * N.b12), this]
        abel

/-- The thin layer against the two polynomials. -/
theorem thin_poly {inv? : Source.M n → Option (Source.M n)} (hinv : ∀ a b, inv? a = some b → a * b = 1) {N : Blocks (Source.M n)} {o : Thin n}
    (h : calcRT inv? N = some o) :
    swap n * N.mat * swap n * fromBlocks o.R o.T 1 0 = N.mat * fromBlocks 0 1 o.T o.R := by
  obtain ⟨h1, h2⟩ := calcRT_ok hinv h
  rw [swap_mat, Blocks.mat, Blocks.mat, fromBlocks_multiply, fromBlocks_multiply]
  simp only [mul_one, mul_zero, zero_add, add_zero]
  congr 1
  · rw [add_comm, ← h2, add_comm]
  · rw [add_comm, h1]

end mat

/-! ## Rows -/

section rows
variable {q u : Type} [Fintype q] [Fintype u] [DecidableEq q] [DecidableEq u]

theorem Rows.full_mul (x y : Rows q u) : (x.mul y).full = x.full * y.full := by
  rw [Rows.full, Rows.full, Rows.full, fromBlocks_multiply]
  simp [Rows.mul, diagonal_mul_diagonal]

theorem Rows.full_add (x y : Rows q u) : (x.add y).full = x.full + y.full := by
  rw [Rows.full, Rows.full, Rows.full, fromBlocks_add]
  simp [Rows.add, diagonal_add]

theorem Rows.full_sub (x y : Rows q u) : (x.sub y).full = x.full - y.full := by
  rw [Rows.full, Rows.full, Rows.full, sub_eq_add_neg, fromBlocks_neg, fromBlocks_add]
  simp only [Rows.sub, neg_zero, add_zero, ← sub_eq_add_neg, diagonal_sub]
  rfl

theorem Rows.full_scale (c : ℝ) (x : Rows q u) : (x.scale c).full = c • x.full := by
  rw [Rows.full, Rows.full, fromBlocks_smul]
  simp [Rows.scale, diagonal_smul]

theorem Rows.full_scaleAdd (c : ℝ) (x y : Rows q u) : (x.scaleAdd y c).full = x.full + c • y.full := by
  rw [Rows.full, Rows.full, Rows.full, fromBlocks_smul, fromBlocks_add]
  simp only [Rows.scaleAdd, smul_zero, add_zero, ← diagonal_smul, diagonal_add]
  rfl

theorem Rows.full_init (c : ℝ) : (Rows.init c : Rows q u).full = c • 1 := by
  rw [Rows.full, Rows.init, ← fromBlocks_one, fromBlocks_smul]
  simp only [smul_zero]
  congr 1
  rw [← diagonal_one, ← diagonal_smul]
  congr 1
  funext i
  simp

theorem Rows.full_invMul {c : Matrix q q ℝ} {x y : Rows q u} (hc : x.a * c = y.a) (hx : ∀ i, x.d2 i ≠ 0) :
    x.full * (Rows.invMul c x y).full = y.full := by
  rw [Rows.full, Rows.full, Rows.full, fromBlocks_multiply]
  have e1 : x.d1 * c + diagonal x.d2 * (Matrix.of fun i j => (y.d1 i j - (x.d1 * c) i j) / x.d2 i) = y.d1 := by
    ext i j
    rw [Matrix.add_apply, diagonal_mul, Matrix.of_apply, mul_div_cancel₀ _ (hx i)]
    ring
  have e2 : (fun i => x.d2 i * (y.d2 i / x.d2 i)) = y.d2 := by
    funext i
    rw [mul_div_cancel₀ _ (hx i)]
  change fromBlocks (x.a * c + 0 * _) (x.a * 0 + 0 * _)
    (x.d1 * c + diagonal x.d2 * (Matrix.of fun i j => (y.d1 i j - (x.d1 * c) i j) / x.d2 i))
    (x.d1 * 0 + diagonal x.d2 * diagonal fun i => y.d2 i / x.d2 i) = _
  rw [e1, diagonal_mul_diagonal, e2, Matrix.zero_mul, Matrix.mul_zero, Matrix.mul_zero, Matrix.zero_mul, hc]
  simp

end rows

end Xrtm.Pade
