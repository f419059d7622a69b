import Mathlib.Algebra.BigOperators.Group.Finset.Basic
import Mathlib.Algebra.BigOperators.Intervals

/-!
# Counted loops over arrays

`for (i = 0; i < n; ++i)` loops whose body changes a state, and arrays as functions of the
index. Bounds of arrays are not part of this model; the properties that are about bounds
have their own models.
-/

namespace Xrtm.Loops

/-- `for (i = 0; i < n; ++i) body(i)`. -/
def forN {σ : Type*} : Nat → (Nat → σ → σ) → σ → σ
  | 0, _, s => s
  | n + 1, body, s => body n (forN n body s)

/-- `A[i] = x`. -/
def put {K : Type*} (A : Nat → K) (i : Nat) (x : K) : Nat → K :=
  fun j => if j = i then x else A j

/-- `A[i] += x`. -/
def bump {K : Type*} [Add K] (A : Nat → K) (i : Nat) (x : K) : Nat → K :=
  put A i (A i + x)

section
variable {K : Type*} {σ τ : Type*}

@[simp] theorem forN_zero (b : Nat → σ → σ) (s : σ) : forN 0 b s = s := rfl
theorem forN_succ (n : Nat) (b : Nat → σ → σ) (s : σ) :
    forN (n + 1) b s = b n (forN n b s) := rfl

/-- What a loop keeps, if each turn keeps it. -/
theorem forN_ind (P : Nat → σ → Prop) (b : Nat → σ → σ) (s : σ) (h0 : P 0 s)
    (hs : ∀ i s, P i s → P (i + 1) (b i s)) : ∀ n, P n (forN n b s)
  | 0 => h0
  | n + 1 => hs n _ (forN_ind P b s h0 hs n)

/-- As `forN_ind`, with the bound at hand. -/
theorem forN_ind_lt (n : Nat) (P : Nat → σ → Prop) (b : Nat → σ → σ) (s : σ) (h0 : P 0 s)
    (hs : ∀ i s, i < n → P i s → P (i + 1) (b i s)) : P n (forN n b s) := by
  have : ∀ m, m ≤ n → P m (forN m b s) := by
    intro m
    induction m with
    | zero => intro _; exact h0
    | succ m ih => intro hm; exact hs m _ (by omega) (ih (by omega))
  exact this n le_rfl

theorem forN_congr (n : Nat) (b c : Nat → σ → σ) (s : σ) (h : ∀ i s, i < n → b i s = c i s) :
    forN n b s = forN n c s := by
  induction n with
  | zero => rfl
  | succ n ih =>
    rw [forN_succ, forN_succ, ih (fun i s hi => h i s (by omega)), h n _ (by omega)]

@[simp] theorem put_same (A : Nat → K) (i : Nat) (x : K) : put A i x i = x := by simp [put]
theorem put_other (A : Nat → K) {i j : Nat} (x : K) (h : j ≠ i) : put A i x j = A j := by
  simp [put, h]
@[simp] theorem bump_same [Add K] (A : Nat → K) (i : Nat) (x : K) : bump A i x i = A i + x := by
  simp [bump]
theorem bump_other [Add K] (A : Nat → K) {i j : Nat} (x : K) (h : j ≠ i) :
    bump A i x j = A j := by
  simp [bump, put_other A _ h]

/-- An accumulator. -/
theorem forN_sum [AddCommMonoid K] (n : Nat) (g : Nat → K) (s : K) :
    forN n (fun i a => a + g i) s = s + ∑ i ∈ Finset.range n, g i := by
  induction n with
  | zero => simp
  | succ n ih => rw [forN_succ, ih, Finset.sum_range_succ, add_assoc]

/-- Distinct elements of an array, each increased once: an element that is met. -/
theorem forN_bump_hit [Add K] (n : Nat) (p : Nat → Nat) (g : Nat → K) (A : Nat → K)
    (hp : Function.Injective p) {i : Nat} (hi : i < n) :
    forN n (fun i A => bump A (p i) (g i)) A (p i) = A (p i) + g i := by
  induction n with
  | zero => omega
  | succ n ih =>
    rw [forN_succ]
    by_cases h : i = n
    · subst h
      rw [bump_same]
      have : ∀ m, m ≤ i → forN m (fun i A => bump A (p i) (g i)) A (p i) = A (p i) := by
        intro m
        induction m with
        | zero => intro _; rfl
        | succ m ih2 =>
          intro hm
          rw [forN_succ, bump_other _ _ (fun e => by have := hp e; omega), ih2 (by omega)]
      rw [this i le_rfl]
    · rw [bump_other _ _ (fun e => h (hp e)), ih (by omega)]

/-- An element that is not met. -/
theorem forN_bump_miss [Add K] (n : Nat) (p : Nat → Nat) (g : Nat → K) (A : Nat → K) (j : Nat)
    (h : ∀ i, i < n → j ≠ p i) :
    forN n (fun i A => bump A (p i) (g i)) A j = A j := by
  induction n with
  | zero => rfl
  | succ n ih =>
    rw [forN_succ, bump_other _ _ (h n (by omega)), ih (fun i hi => h i (by omega))]

/-- Two loops in one. -/
theorem forN_fst (n : Nat) (b : Nat → σ → σ) (c : Nat → σ → τ → τ) (s : σ) (t : τ) :
    (forN n (fun i (x : σ × τ) => (b i x.1, c i x.1 x.2)) (s, t)).1 = forN n b s := by
  induction n with
  | zero => rfl
  | succ n ih => rw [forN_succ, forN_succ, ← ih]
end

end Xrtm.Loops
