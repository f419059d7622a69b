import Verif.Model.PhaseVec
import Verif.Proof.PhaseVecMath

/-!
# The tables of `basic_matrix` hold the closed forms
-/

namespace Xrtm.PhaseVec
open Loops Legendre Legendre.Spec Spec

/-- What is in the table for the degree `l`. -/
noncomputable def ent (ns m l : ℕ) (x : ℝ) : ℕ → ℕ → ℝ
  | 0, 0 => √(1 - x ^ 2) ^ m * T m l x
  | 1, 1 => if 3 ≤ ns ∧ 2 ≤ l then norm2 l * Rt m l x else 0
  | 1, 2 => if 3 ≤ ns ∧ 2 ≤ l then norm2 l * Tt m l x else 0
  | 2, 1 => if 3 ≤ ns ∧ 2 ≤ l then norm2 l * Tt m l x else 0
  | 2, 2 => if 3 ≤ ns ∧ 2 ≤ l then norm2 l * Rt m l x else 0
  | 3, 3 => if 4 ≤ ns then √(1 - x ^ 2) ^ m * T m l x else 0
  | _, _ => 0

/-- The table is filled for the degrees less than `lim`. -/
def Upto (m n ns : ℕ) (x : ℝ) (lim : ℕ) (A : Tab) : Prop :=
  ∀ l r c, m ≤ l → l < n → r < ns → c < ns → A l r c = if l < lim then ent ns m l x r c else 0

/-- The numbers of Stokes parameters the routine is called with. -/
def Few (ns : ℕ) : Prop := ns = 1 ∨ ns = 3 ∨ ns = 4

theorem iter1_off (ns i : ℕ) (x : ℝ) (A : Tab) (l r c : ℕ) (h : l ≠ i + 1) :
    iter1 ns x i A l r c = A l r c := by
  unfold iter1
  dsimp only
  split <;> split <;> simp [wr, h]

theorem iter2_off (m ns i : ℕ) (x : ℝ) (A : Tab) (l r c : ℕ) (h : l ≠ i + 1) :
    iter2 m ns x i A l r c = A l r c := by
  unfold iter2
  dsimp only
  split <;> split <;> simp [wr, h]

theorem iter3_off (m ns i : ℕ) (x : ℝ) (A : Tab) (l r c : ℕ) (h : l ≠ i + 1) :
    iter3 m ns x i A l r c = A l r c := by
  unfold iter3
  dsimp only
  split <;> split <;> simp [wr, h]

theorem ent_rec0 (m k : ℕ) (hm : m ≤ k + 1) (x : ℝ) :
    ((2 * (((k + 1 : ℕ) : ℝ)) + 1) * x * (√(1 - x ^ 2) ^ m * T m (k + 1) x) -
      (((k + 1 : ℕ) : ℝ) + m) * (√(1 - x ^ 2) ^ m * T m k x)) / (((k + 1 : ℕ) : ℝ) + 1 - m) =
      √(1 - x ^ 2) ^ m * T m (k + 2) x := by
  have hm' : (m : ℝ) ≤ k + 1 := by exact_mod_cast hm
  push_cast
  have : (k : ℝ) + 1 + 1 - m ≠ 0 := by
    have : (0 : ℝ) < (k : ℝ) + 1 + 1 - m := by linarith
    exact this.ne'
  rw [div_eq_iff this]
  have h := T_recur m k x
  linear_combination (-(√(1 - x ^ 2) ^ m)) * h

/-- Elements that are never written. -/
def Bare (r c : ℕ) : Prop :=
  ¬(r = 0 ∧ c = 0) ∧ ¬(r = 1 ∧ c = 1) ∧ ¬(r = 2 ∧ c = 2) ∧ ¬(r = 1 ∧ c = 2) ∧ ¬(r = 2 ∧ c = 1) ∧
    ¬(r = 3 ∧ c = 3)

theorem ent_bare (ns m l : ℕ) (x : ℝ) (r c : ℕ) (h : Bare r c) : ent ns m l x r c = 0 := by
  obtain ⟨h1, h2, h3, h4, h5, h6⟩ := h
  unfold ent
  split <;> simp_all

theorem iter3_vals (m ns i : ℕ) (hi : 1 ≤ i) (x : ℝ) (A : Tab) :
    (iter3 m ns x i A (i + 1) 0 0 = ((2 * (i : ℝ) + 1) * x * A i 0 0 - ((i : ℝ) + m) * A (i - 1) 0 0) /
      ((i : ℝ) + 1 - m)) ∧
    (3 ≤ ns → iter3 m ns x i A (i + 1) 1 1 = ((2 * (i : ℝ) + 1) * x * A i 1 1 -
      ((i : ℝ) + m) / i * √((i : ℝ) * i - 4) * A (i - 1) 1 1 +
      2 * m * (2 * (i : ℝ) + 1) / (i * ((i : ℝ) + 1)) * A i 2 1) /
      (((i : ℝ) + 1 - m) / ((i : ℝ) + 1) * √(((i : ℝ) + 3) * ((i : ℝ) - 1)))) ∧
    (3 ≤ ns → iter3 m ns x i A (i + 1) 2 2 = ((2 * (i : ℝ) + 1) * x * A i 2 2 -
      ((i : ℝ) + m) / i * √((i : ℝ) * i - 4) * A (i - 1) 2 2 +
      2 * m * (2 * (i : ℝ) + 1) / (i * ((i : ℝ) + 1)) * A i 1 2) /
      (((i : ℝ) + 1 - m) / ((i : ℝ) + 1) * √(((i : ℝ) + 3) * ((i : ℝ) - 1)))) ∧
    (3 ≤ ns → iter3 m ns x i A (i + 1) 1 2 = ((2 * (i : ℝ) + 1) * x * A i 1 2 -
      ((i : ℝ) + m) / i * √((i : ℝ) * i - 4) * A (i - 1) 1 2 +
      2 * m * (2 * (i : ℝ) + 1) / (i * ((i : ℝ) + 1)) * A i 2 2) /
      (((i : ℝ) + 1 - m) / ((i : ℝ) + 1) * √(((i : ℝ) + 3) * ((i : ℝ) - 1)))) ∧
    (3 ≤ ns → iter3 m ns x i A (i + 1) 2 1 = iter3 m ns x i A (i + 1) 1 2) ∧
    (4 ≤ ns → iter3 m ns x i A (i + 1) 3 3 =
      ((2 * (i : ℝ) + 1) * x * A i 3 3 - ((i : ℝ) + m) * A (i - 1) 3 3) / ((i : ℝ) + 1 - m)) ∧
    (∀ r c, Bare r c → iter3 m ns x i A (i + 1) r c = A (i + 1) r c) := by
  have hi' : i - 1 ≠ i + 1 := by omega
  refine ⟨?_, fun h => ?_, fun h => ?_, fun h => ?_, fun h => ?_, fun h => ?_, fun r c hb => ?_⟩
  · unfold iter3
    dsimp only
    split <;> split <;> simp [wr]
  · unfold iter3
    dsimp only
    rw [if_pos h]
    split <;> simp [wr, hi']
  · unfold iter3
    dsimp only
    rw [if_pos h]
    split <;> simp [wr, hi']
  · unfold iter3
    dsimp only
    rw [if_pos h]
    split <;> simp [wr, hi']
  · unfold iter3
    dsimp only
    rw [if_pos h]
    split <;> simp [wr, hi']
  · unfold iter3
    dsimp only
    rw [if_pos h, if_pos (by omega)]
    simp [wr, hi']
  · obtain ⟨h1, h2, h3, h4, h5, h6⟩ := hb
    unfold iter3
    dsimp only
    split <;> split <;> simp [wr, h1, h2, h3, h4, h5, h6]

/-- If the new elements are right, the table is filled one degree further. -/
theorem upto_next (m n ns i : ℕ) (hns : Few ns) (x : ℝ) (A B : Tab) 
    (h : Upto m n ns x i A) (off : ∀ l r c, l ≠ i → B l r c = A l r c)
    (h00 : B (i) 0 0 = ent ns m (i) x 0 0)
    (h11 : 3 ≤ ns → B (i) 1 1 = ent ns m (i) x 1 1)
    (h22 : 3 ≤ ns → B (i) 2 2 = ent ns m (i) x 2 2)
    (h12 : 3 ≤ ns → B (i) 1 2 = ent ns m (i) x 1 2)
    (h21 : 3 ≤ ns → B (i) 2 1 = ent ns m (i) x 2 1)
    (h33 : 4 ≤ ns → B (i) 3 3 = ent ns m (i) x 3 3)
    (hb : ∀ r c, r < ns → c < ns → Bare r c → B (i) r c = A (i) r c) :
    Upto m n ns x (i + 1) B := by
  intro l r c h1 h2 h3 h4
  by_cases hl : l = i
  · subst hl
    rw [if_pos (Nat.lt_succ_self _)]
    by_cases b : Bare r c
    · rw [hb r c h3 h4 b, ent_bare _ _ _ _ _ _ b, h _ r c h1 h2 h3 h4, if_neg (by omega)]
    · have : (r = 0 ∧ c = 0) ∨ (r = 1 ∧ c = 1) ∨ (r = 2 ∧ c = 2) ∨ (r = 1 ∧ c = 2) ∨ (r = 2 ∧ c = 1) ∨
          (r = 3 ∧ c = 3) := by
        by_contra hc
        simp only [not_or] at hc
        exact b hc
      have k3 : ns ≠ 1 → 3 ≤ ns := by rcases hns with rfl | rfl | rfl <;> omega
      rcases this with ⟨rfl, rfl⟩ | ⟨rfl, rfl⟩ | ⟨rfl, rfl⟩ | ⟨rfl, rfl⟩ | ⟨rfl, rfl⟩ | ⟨rfl, rfl⟩
      · exact h00
      · exact h11 (k3 (by omega))
      · exact h22 (k3 (by omega))
      · exact h12 (k3 (by omega))
      · exact h21 (k3 (by omega))
      · exact h33 (by omega)
  · rw [off l r c hl, h l r c h1 h2 h3 h4]
    by_cases h5 : l < i
    · rw [if_pos h5, if_pos (by omega)]
    · rw [if_neg h5, if_neg (by omega)]

theorem iter3_step' (m n ns k : ℕ) (hns : Few ns) (x : ℝ) (A : Tab) (hm : m ≤ k + 2) (hn : k + 3 < n)
    (h : Upto m n ns x (k + 3) A)
    (hp : ∀ r c, r < ns → c < ns → A (k + 1) r c = ent ns m (k + 1) x r c) :
    Upto m n ns x (k + 4) (iter3 m ns x (k + 2) A) := by
  have r0 := ent_rec0 m (k + 1) (by omega) x
  have r1 := rooted m k (by omega) x (fun l => Rt m l x)
    (fun l => Tt m l x) (Rt_one m x) (fun j => Rt_recur m j x)
  have r2 := rooted m k (by omega) x (fun l => Tt m l x)
    (fun l => Rt m l x) (Tt_one m x) (fun j => Tt_recur m j x)
  have g : ∀ r c, r < ns → c < ns → A (k + 2) r c = ent ns m (k + 2) x r c := by
    intro r c d e
    rw [h (k + 2) r c hm (by omega) d e, if_pos (by omega)]
  obtain ⟨v00, v11, v22, v12, v21, v33, vb⟩ := iter3_vals m ns (k + 2) (by omega) x A
  have n0 : 0 < ns := by rcases hns with rfl | rfl | rfl <;> omega
  have e12 : 3 ≤ ns → iter3 m ns x (k + 2) A (k + 2 + 1) 1 2 = ent ns m (k + 2 + 1) x 1 2 := by
    intro h3
    rw [v12 h3, g 1 2 (by omega) (by omega),
      g 2 2 (by omega) (by omega), show k + 2 - 1 = k + 1 by omega,
      hp 1 2 (by omega) (by omega)]
    simpa [ent, h3] using r2
  refine upto_next m n ns (k + 3) hns x A _ h
    (fun l r c hl => iter3_off _ _ _ _ _ _ _ _ hl) ?_ ?_ ?_ e12 ?_ ?_ (fun r c _ _ hb => vb r c hb)
  · rw [v00, g 0 0 n0 n0, show k + 2 - 1 = k + 1 by omega, hp 0 0 n0 n0]
    exact r0
  · intro h3
    rw [v11 h3, g 1 1 (by omega) (by omega),
      g 2 1 (by omega) (by omega), show k + 2 - 1 = k + 1 by omega,
      hp 1 1 (by omega) (by omega)]
    simpa [ent, h3] using r1
  · intro h3
    rw [v22 h3, g 2 2 (by omega) (by omega),
      g 1 2 (by omega) (by omega), show k + 2 - 1 = k + 1 by omega,
      hp 2 2 (by omega) (by omega)]
    simpa [ent, h3] using r1
  · intro h3
    rw [v21 h3, e12 h3]
    rfl
  · intro h4
    rw [v33 h4, g 3 3 (by omega) (by omega), show k + 2 - 1 = k + 1 by omega,
      hp 3 3 (by omega) (by omega)]
    simp only [ent, if_pos h4]
    exact r0

theorem iter3_step (m n ns k : ℕ) (hns : Few ns) (x : ℝ) (A : Tab) (hm : m ≤ k + 1) (hn : k + 3 < n)
    (h : Upto m n ns x (k + 3) A) : Upto m n ns x (k + 4) (iter3 m ns x (k + 2) A) :=
  iter3_step' m n ns k hns x A (by omega) hn h fun r c d e => by
    rw [h (k + 1) r c hm (by omega) d e, if_pos (by omega)]

theorem iter1_vals (ns i : ℕ) (hi : 1 ≤ i) (x : ℝ) (A : Tab) :
    (iter1 ns x i A (i + 1) 0 0 = ((2 * (i : ℝ) + 1) * x * A i 0 0 - (i : ℝ) * A (i - 1) 0 0) /
      ((i : ℝ) + 1)) ∧
    (3 ≤ ns → iter1 ns x i A (i + 1) 1 1 = ((2 * (i : ℝ) + 1) * x * A i 1 1 -
      √((i : ℝ) * i - 4) * A (i - 1) 1 1) / √(((i : ℝ) + 3) * ((i : ℝ) - 1))) ∧
    (3 ≤ ns → iter1 ns x i A (i + 1) 2 2 = ((2 * (i : ℝ) + 1) * x * A i 2 2 -
      √((i : ℝ) * i - 4) * A (i - 1) 2 2) / √(((i : ℝ) + 3) * ((i : ℝ) - 1))) ∧
    (4 ≤ ns → iter1 ns x i A (i + 1) 3 3 =
      ((2 * (i : ℝ) + 1) * x * A i 3 3 - (i : ℝ) * A (i - 1) 3 3) / ((i : ℝ) + 1)) ∧
    (∀ r c, ¬(r = 0 ∧ c = 0) → ¬(r = 1 ∧ c = 1) → ¬(r = 2 ∧ c = 2) → ¬(r = 3 ∧ c = 3) →
      iter1 ns x i A (i + 1) r c = A (i + 1) r c) := by
  have hi' : i - 1 ≠ i + 1 := by omega
  refine ⟨?_, fun h => ?_, fun h => ?_, fun h => ?_, fun r c h1 h2 h3 h4 => ?_⟩
  · unfold iter1
    dsimp only
    split <;> split <;> simp [wr]
  · unfold iter1
    dsimp only
    rw [if_pos h]
    split <;> simp [wr, hi']
  · unfold iter1
    dsimp only
    rw [if_pos h]
    split <;> simp [wr, hi']
  · unfold iter1
    dsimp only
    rw [if_pos h, if_pos (by omega)]
    simp [wr, hi']
  · unfold iter1
    dsimp only
    split <;> split <;> simp [wr, h1, h2, h3, h4]

theorem iter1_step (n ns k : ℕ) (hns : Few ns) (x : ℝ) (A : Tab) (hn : k + 3 < n)
    (h : Upto 0 n ns x (k + 3) A) : Upto 0 n ns x (k + 4) (iter1 ns x (k + 2) A) := by
  have r0 := ent_rec0 0 (k + 1) (by omega) x
  have r1 := rooted 0 k (by omega) x (fun l => Rt 0 l x)
    (fun l => Tt 0 l x) (Rt_one 0 x) (fun j => Rt_recur 0 j x)
  have c2 : ((k + 2 : ℕ) : ℝ) ≠ 0 := by positivity
  have c3 : ((k + 2 : ℕ) : ℝ) + 1 ≠ 0 := by positivity
  rw [Nat.cast_zero, add_zero, sub_zero, div_self c2, div_self c3, one_mul, one_mul, mul_zero, zero_mul,
    zero_div, zero_mul, add_zero] at r1
  rw [Nat.cast_zero, add_zero, sub_zero] at r0
  have g : ∀ l r c, l ≤ k + 2 → r < ns → c < ns → A l r c = ent ns 0 l x r c := by
    intro l r c b d e
    rw [h l r c (by omega) (by omega) d e, if_pos (by omega)]
  obtain ⟨v00, v11, v22, v33, vb⟩ := iter1_vals ns (k + 2) (by omega) x A
  have n0 : 0 < ns := by rcases hns with rfl | rfl | rfl <;> omega
  have t0 : ∀ l, Tt 0 l x = 0 := fun _ => rfl
  have z : ∀ r c, r < ns → c < ns → A (k + 2 + 1) r c = 0 := by
    intro r c a b
    rw [h _ r c (by omega) (by omega) a b, if_neg (by omega)]
  refine upto_next 0 n ns (k + 3) hns x A _ h
    (fun l r c hl => iter1_off _ _ _ _ _ _ _ hl) ?_ ?_ ?_ ?_ ?_ ?_
    (fun r c _ _ hb => vb r c hb.1 hb.2.1 hb.2.2.1 hb.2.2.2.2.2)
  · rw [v00, g (k + 2) 0 0 le_rfl n0 n0, show k + 2 - 1 = k + 1 by omega,
      g (k + 1) 0 0 (by omega) n0 n0]
    exact r0
  · intro h3
    rw [v11 h3, g (k + 2) 1 1 le_rfl (by omega) (by omega), show k + 2 - 1 = k + 1 by omega,
      g (k + 1) 1 1 (by omega) (by omega) (by omega)]
    simpa [ent, h3] using r1
  · intro h3
    rw [v22 h3, g (k + 2) 2 2 le_rfl (by omega) (by omega), show k + 2 - 1 = k + 1 by omega,
      g (k + 1) 2 2 (by omega) (by omega) (by omega)]
    simpa [ent, h3] using r1
  · intro h3
    rw [vb 1 2 (by omega) (by omega) (by omega) (by omega), z 1 2 (by omega) (by omega)]
    simp [ent, t0]
  · intro h3
    rw [vb 2 1 (by omega) (by omega) (by omega) (by omega), z 2 1 (by omega) (by omega)]
    simp [ent, t0]
  · intro h4
    rw [v33 h4, g (k + 2) 3 3 le_rfl (by omega) (by omega), show k + 2 - 1 = k + 1 by omega,
      g (k + 1) 3 3 (by omega) (by omega) (by omega)]
    simp only [ent, if_pos h4]
    exact r0

theorem ent_low (ns m l : ℕ) (h : l < m) (x : ℝ) (r c : ℕ) : ent ns m l x r c = 0 := by
  unfold ent
  split <;> simp [T_zero m l h, Rt_low m l h, Tt_low m l h]

theorem iter2_step (m n ns : ℕ) (hns : Few ns) (x : ℝ) (A : Tab) (hm : 2 ≤ m) (hn : m + 1 < n)
    (h : Upto m n ns x (m + 1) A) : Upto m n ns x (m + 2) (iter2 m ns x m A) := by
  obtain ⟨k, rfl⟩ : ∃ k, m = k + 2 := ⟨m - 2, by omega⟩
  have hB := iter3_step' (k + 2) n ns k hns x (fun l r c => if l < k + 2 then 0 else A l r c) le_rfl hn
    (fun l r c h1 h2 h3 h4 => by
      dsimp only
      rw [if_neg (by omega)]; exact h l r c h1 h2 h3 h4)
    (fun r c _ _ => by
      rw [if_pos (by omega), ent_low _ _ _ (by omega)])
  intro l r c h1 h2 h3 h4
  rw [← hB l r c h1 h2 h3 h4]
  unfold iter2 iter3
  dsimp only
  have e : ¬ l < k + 2 := by omega
  split <;> split <;> simp [wr, e]

theorem few_pos {ns : ℕ} (hns : Few ns) : 0 < ns := by rcases hns with rfl | rfl | rfl <;> omega

theorem cleared_upto (m n ns : ℕ) (x : ℝ) (A : Tab) : Upto m n ns x m (cleared m n ns A) := by
  intro l r c h1 h2 h3 h4
  rw [if_neg (by omega)]
  exact if_pos ⟨h1, h2, h3, h4⟩

theorem norm2_two : norm2 2 = √6 / 12 := by
  unfold norm2
  rw [show (√6 / 12 : ℝ) = √(6 / 144) by
    rw [Real.sqrt_div (by norm_num), show (144 : ℝ) = 12 ^ 2 by norm_num,
      Real.sqrt_sq (by norm_num)]]
  congr 1
  norm_num [Nat.factorial]

theorem T_12 (x : ℝ) : T 1 2 x = 3 * x := by
  have := T_C 0 1 x
  rw [zero_add, T_11, T_01] at this
  rw [this]; push_cast; ring

theorem T_02 (x : ℝ) : T 0 2 x = (3 * x ^ 2 - 1) / 2 := by
  have := T_recur 0 0 x
  rw [zero_add, T_01, T_00] at this
  push_cast at this
  linarith

theorem T_22 (x : ℝ) : T 2 2 x = 3 := by
  rw [T_diag, T_11]; norm_num

/-- The matrices of a degree written in one go: all the writes of the starts. -/
def block (ns : ℕ) (A : Tab) (i : ℕ) (a p q : ℝ) : Tab := fun l r c =>
  if l = i then
    if r = 0 ∧ c = 0 then a
    else if 3 ≤ ns ∧ (r = 1 ∧ c = 1 ∨ r = 2 ∧ c = 2) then p
    else if 3 ≤ ns ∧ (r = 1 ∧ c = 2 ∨ r = 2 ∧ c = 1) then q
    else if 4 ≤ ns ∧ r = 3 ∧ c = 3 then a
    else A l r c
  else A l r c

theorem block_upto (m n ns i : ℕ) (hns : Few ns) (x : ℝ) (A : Tab) (a p q : ℝ) (h : Upto m n ns x i A)
    (ha : a = √(1 - x ^ 2) ^ m * T m i x) (hp : p = if 2 ≤ i then norm2 i * Rt m i x else 0)
    (hq : q = if 2 ≤ i then norm2 i * Tt m i x else 0) : Upto m n ns x (i + 1) (block ns A i a p q) := by
  refine upto_next m n ns i hns x A _ h ?_ ?_ ?_ ?_ ?_ ?_ ?_ ?_
  · intro l r c hl
    simp [block, hl]
  · simp [block, ent, ha]
  · intro h3
    simp [block, ent, h3, hp]
  · intro h3
    simp [block, ent, h3, hp]
  · intro h3
    simp [block, ent, h3, hq]
  · intro h3
    simp [block, ent, h3, hq]
  · intro h3
    simp [block, ent, h3, ha]
  · intro r c _ _ ⟨h1, h2, h3, h4, h5, h6⟩
    simp [block, h1, h2, h3, h4, h5, h6]

/-- Where nothing is written, nothing need be. -/
theorem upto_same (m n ns i : ℕ) (x : ℝ) (A B : Tab) (h : Upto m n ns x i A)
    (e : ∀ l r c, m ≤ l → l < n → r < ns → c < ns → B l r c = A l r c) : Upto m n ns x i B := by
  intro l r c h1 h2 h3 h4
  rw [e l r c h1 h2 h3 h4, h l r c h1 h2 h3 h4]

theorem upto_grow (m n ns i j : ℕ) (x : ℝ) (A : Tab) (hi : n ≤ i) (hj : n ≤ j) (h : Upto m n ns x i A) :
    Upto m n ns x j A := by
  intro l r c h1 h2 h3 h4
  rw [h l r c h1 h2 h3 h4, if_pos (by omega), if_pos (by omega)]

theorem start0 (n ns : ℕ) (hns : Few ns) (x : ℝ) (C : Tab)
    (zero : ∀ l r c, l < n → r < ns → c < ns → C l r c = 0) (l r c : ℕ) (h2 : l < n) (h3 : r < ns)
    (h4 : c < ns) :
    (if 4 ≤ ns then wr (wr (if 4 ≤ ns then wr (wr C 0 0 0 1) 0 3 3 1 else wr C 0 0 0 1) 1 0 0 x) 1 3 3 x
        else wr (if 4 ≤ ns then wr (wr C 0 0 0 1) 0 3 3 1 else wr C 0 0 0 1) 1 0 0 x) l r c =
      block ns (block ns C 0 1 0 0) 1 x 0 0 l r c := by
  have z := zero l r c h2 h3 h4
  rcases hns with rfl | rfl | rfl
  · obtain rfl : r = 0 := by omega
    obtain rfl : c = 0 := by omega
    simp [wr, block]
  · interval_cases r <;> interval_cases c <;> simp [wr, block, z]
  · interval_cases r <;> interval_cases c <;> simp [wr, block, z] <;> split_ifs <;> simp_all

theorem start (ns : ℕ) (hns : Few ns) (C : Tab) (i : ℕ) (a p q : ℝ) (l r c : ℕ) (h3 : r < ns)
    (h4 : c < ns) :
    (if 4 ≤ ns then wr (if 3 ≤ ns then wr (wr (wr (wr (wr C i 0 0 a) i 1 1 p) i 1 2 q) i 2 1 q) i 2 2 p
        else wr C i 0 0 a) i 3 3 a
      else (if 3 ≤ ns then wr (wr (wr (wr (wr C i 0 0 a) i 1 1 p) i 1 2 q) i 2 1 q) i 2 2 p
        else wr C i 0 0 a)) l r c = block ns C i a p q l r c := by
  rcases hns with rfl | rfl | rfl
  · obtain rfl : r = 0 := by omega
    obtain rfl : c = 0 := by omega
    simp [wr, block]
  · interval_cases r <;> interval_cases c <;> simp [wr, block]
  · interval_cases r <;> interval_cases c <;> simp [wr, block]

theorem start1 (ns : ℕ) (hns : Few ns) (C : Tab) (i : ℕ) (a p : ℝ) (l r c : ℕ) (h3 : r < ns)
    (h4 : c < ns) (z : r < ns → c < ns → ¬(r = 0 ∧ c = 0) → C i r c = 0) :
    (if 4 ≤ ns then wr (if 3 ≤ ns then wr (wr (wr C i 0 0 a) i 1 1 p) i 2 2 p
        else wr C i 0 0 a) i 3 3 a
      else (if 3 ≤ ns then wr (wr (wr C i 0 0 a) i 1 1 p) i 2 2 p
        else wr C i 0 0 a)) l r c = block ns C i a p 0 l r c := by
  rcases hns with rfl | rfl | rfl
  · obtain rfl : r = 0 := by omega
    obtain rfl : c = 0 := by omega
    simp [wr, block]
  · interval_cases r <;> interval_cases c <;> simp [wr, block] <;>
      (intro h; subst h; exact z (by omega) (by omega) (by omega))
  · interval_cases r <;> interval_cases c <;> simp [wr, block] <;>
      (intro h; subst h; exact z (by omega) (by omega) (by omega))

theorem basic0_eq (n ns : ℕ) (hns : Few ns) (hn : 0 < n) (x : ℝ) (A : Tab) :
    Upto 0 n ns x n (basic0 n ns x (cleared 0 n ns A)) := by
  have c0 := cleared_upto 0 n ns x A
  unfold basic0
  generalize cleared 0 n ns A = C at c0 ⊢
  have c1 := block_upto 0 n ns 0 hns x C 1 0 0 c0 (by simp [T_00]) (by simp) (by simp)
  have c2 := block_upto 0 n ns 1 hns x _ x 0 0 c1 (by simp [T_01]) (by simp) (by simp)
  have zero : ∀ l r c, l < n → r < ns → c < ns → C l r c = 0 := fun l r c h2 h3 h4 => by
    rw [c0 l r c (by omega) h2 h3 h4, if_neg (by omega)]
  have c3 := upto_same 0 n ns 2 x _ _ c2 (fun l r c _ h2 h3 h4 => start0 n ns hns x C zero l r c h2 h3 h4)
  dsimp only
  generalize (if 4 ≤ ns then wr (wr (if 4 ≤ ns then wr (wr C 0 0 0 1) 0 3 3 1 else wr C 0 0 0 1) 1 0 0 x)
    1 3 3 x else wr (if 4 ≤ ns then wr (wr C 0 0 0 1) 0 3 3 1 else wr C 0 0 0 1) 1 0 0 x) = D at c3 ⊢
  by_cases h3n : 3 ≤ n
  · rw [if_pos h3n]
    have hP : legPoly 3 x (fun _ => 0) 2 = T 0 2 x := by
      rw [legPoly_eq 3 x _ 2 (by omega)]; rfl
    have c4 := block_upto 0 n ns 2 hns x D (legPoly 3 x (fun _ => 0) 2) (√6 / 4 * (1 - x * x)) 0 c3
      (by rw [hP]; simp) (by
        rw [if_pos le_rfl, norm2_two]
        simp only [Rt, T_12, T_02]
        push_cast
        ring) (by simp [Tt])
    have c5 := upto_same 0 n ns 3 x _ _ c4 (fun l r c _ h2 h3 h4 =>
      start1 ns hns D 2 (legPoly 3 x (fun _ => 0) 2) (√6 / 4 * (1 - x * x)) l r c h3 h4
        (fun a b _ => by rw [c3 2 r c (by omega) (by omega) a b, if_neg (by omega)]))
    generalize (if 4 ≤ ns then _ else _ : Tab) = E at c5 ⊢
    have := forN_ind_lt (n - 1 - 2) (fun t B => Upto 0 n ns x (t + 3) B)
      (fun t A => iter1 ns x (2 + t) A) E c5 (fun t B ht hB => by
        have := iter1_step n ns t hns x B (by omega) hB
        rw [show 2 + t = t + 2 by omega]
        exact this)
    rw [show n - 1 - 2 + 3 = n by omega] at this
    exact this
  · rw [if_neg h3n]
    exact upto_grow 0 n ns 2 n x D (by omega) le_rfl c3

theorem start2 (ns : ℕ) (hns : Few ns) (C : Tab) (i : ℕ) (a : ℝ) (l r c : ℕ) (h3 : r < ns)
    (h4 : c < ns) (z : r < ns → c < ns → ¬(r = 0 ∧ c = 0) → C i r c = 0) :
    (if 4 ≤ ns then wr (wr C i 0 0 a) i 3 3 a else wr C i 0 0 a) l r c = block ns C i a 0 0 l r c := by
  rcases hns with rfl | rfl | rfl
  · obtain rfl : r = 0 := by omega
    obtain rfl : c = 0 := by omega
    simp [wr, block]
  · interval_cases r <;> interval_cases c <;> simp [wr, block] <;>
      (intro h; subst h; exact z (by omega) (by omega) (by omega))
  · interval_cases r <;> interval_cases c <;> simp [wr, block] <;>
      (intro h; subst h; exact z (by omega) (by omega) (by omega))

theorem basic1_eq (n ns : ℕ) (hns : Few ns) (hn : 1 < n) (x : ℝ) (A : Tab) :
    Upto 1 n ns x n (basic1 n ns x (cleared 1 n ns A)) := by
  have c0 := cleared_upto 1 n ns x A
  unfold basic1
  generalize cleared 1 n ns A = C at c0 ⊢
  have c1 := block_upto 1 n ns 1 hns x C (√(1 - x * x)) 0 0 c0
    (by rw [T_11, ← pow_two]; simp) (by simp) (by simp)
  have c3 := upto_same 1 n ns 2 x _ _ c1 (fun l r c _ h2 h3 h4 =>
    start2 ns hns C 1 (√(1 - x * x)) l r c h3 h4
        (fun a b _ => by rw [c0 1 r c (by omega) (by omega) a b, if_neg (by omega)]))
  dsimp only
  generalize (if 4 ≤ ns then wr (wr C 1 0 0 (√(1 - x * x))) 1 3 3 (√(1 - x * x)) else
    wr C 1 0 0 (√(1 - x * x))) = D at c3 ⊢
  by_cases h3n : 3 ≤ n
  · rw [if_pos h3n]
    have c4 := block_upto 1 n ns 2 hns x D (3 * x * √(1 - x * x)) (-(1 / 2) * x * (√(1 - x * x) * √6))
      (-(-(1 / 2) * (√(1 - x * x) * √6))) c3
      (by rw [T_12, ← pow_two]; ring) (by
        rw [if_pos le_rfl, norm2_two, ← pow_two]
        simp only [Rt, T_12, T_22]
        push_cast
        ring) (by
        rw [if_pos le_rfl, norm2_two, ← pow_two]
        simp only [Tt, T_22]
        ring)
    have c5 := upto_same 1 n ns 3 x _ _ c4 (fun l r c _ h2 h3 h4 =>
      start ns hns D 2 (3 * x * √(1 - x * x)) (-(1 / 2) * x * (√(1 - x * x) * √6))
        (-(-(1 / 2) * (√(1 - x * x) * √6))) l r c h3 h4)
    generalize (if 4 ≤ ns then _ else _ : Tab) = E at c5 ⊢
    have := forN_ind_lt (n - 1 - 2) (fun t B => Upto 1 n ns x (t + 3) B)
      (fun t A => iter3 1 ns x (2 + t) A) E c5 (fun t B ht hB => by
        have := iter3_step 1 n ns t hns x B (by omega) (by omega) hB
        rw [show 2 + t = t + 2 by omega]
        exact this)
    rw [show n - 1 - 2 + 3 = n by omega] at this
    exact this
  · rw [if_neg h3n]
    exact upto_grow 1 n ns 2 n x D (by omega) le_rfl c3

theorem T_mm (m : ℕ) (x : ℝ) : T m m x * (2 ^ m * (m.factorial : ℝ)) = ((2 * m).factorial : ℝ) := by
  induction m with
  | zero => simp [T_00]
  | succ m ih =>
    rw [T_diag, show 2 * (m + 1) = 2 * m + 1 + 1 by ring, Nat.factorial_succ (2 * m + 1), Nat.factorial_succ (2 * m),
      Nat.factorial_succ m, pow_succ]
    push_cast
    rw [← ih]
    ring

theorem odds_eq (m : ℕ) (x : ℝ) : odds m = T (m + 1) (m + 1) x := by
  induction m with
  | zero => rw [T_11]; rfl
  | succ m ih =>
    rw [T_diag, ← ih, odds]
    push_cast
    ring

theorem head (k : ℕ) (x : ℝ) :
    1 / (2 ^ (k + 2) * √((k.factorial : ℝ) * ((k + 4).factorial : ℝ))) * ((2 * (k + 2)).factorial : ℝ) =
      norm2 (k + 2) * ((k + 2) * (k + 1) * T (k + 2) (k + 2) x) := by
  rw [← T_mm (k + 2) x]
  have h1 : norm2 (k + 2) * √((k.factorial : ℝ) * ((k + 4).factorial : ℝ)) = (k.factorial : ℝ) := by
    unfold norm2
    rw [show k + 2 - 2 = k by omega, show k + 2 + 2 = k + 4 by omega, ← Real.sqrt_mul (by positivity)]
    have : ((k + 4).factorial : ℝ) ≠ 0 := by positivity
    rw [show (k.factorial : ℝ) / ((k + 4).factorial : ℝ) * ((k.factorial : ℝ) * ((k + 4).factorial : ℝ)) =
      (k.factorial : ℝ) ^ 2 by field_simp]
    exact Real.sqrt_sq (by positivity)
  have h2 : (0 : ℝ) < √((k.factorial : ℝ) * ((k + 4).factorial : ℝ)) := Real.sqrt_pos.2 (by positivity)
  have h3 : ((k + 2).factorial : ℝ) = (k + 2) * (k + 1) * (k.factorial : ℝ) := by
    rw [Nat.factorial_succ, Nat.factorial_succ]; push_cast; ring
  generalize √((k.factorial : ℝ) * ((k + 4).factorial : ℝ)) = w at h1 h2 ⊢
  rw [h3, ← h1]
  field_simp

theorem basic2_eq (m n ns : ℕ) (hns : Few ns) (hm : 2 ≤ m) (hn : m < n) (x : ℝ) (hx : x ^ 2 ≤ 1) (A : Tab) :
    Upto m n ns x n (basic2 m n ns x (cleared m n ns A)) := by
  have c0 := cleared_upto m n ns x A
  unfold basic2
  generalize cleared m n ns A = C at c0 ⊢
  obtain ⟨k, rfl⟩ : ∃ k, m = k + 2 := ⟨m - 2, by omega⟩
  have hf : (1 - x * x) ^ ((((k + 2 : ℕ) : ℝ) - 2) / 2) = √(1 - x ^ 2) ^ k := by
    rw [← pow_two, show (((k + 2 : ℕ) : ℝ) - 2) / 2 = (k : ℝ) / 2 by push_cast; ring]
    exact rpow_half k _ (by linarith)
  have hs : √(1 - x ^ 2) ^ 2 = 1 - x ^ 2 := Real.sq_sqrt (by linarith)
  have hh := head k x
  dsimp only
  rw [show k + 2 - 1 = k + 1 by omega, show k + 2 - 2 = k by omega, show k + 2 + 2 = k + 4 by omega,
    odds_eq (k + 1) x, hf, hh]
  set b := T (k + 1 + 1) (k + 1 + 1) x * (√(1 - x ^ 2) ^ k * (1 - x * x)) with hb
  set cc := √(1 - x ^ 2) ^ k * (norm2 (k + 2) * ((k + 2) * (k + 1) * T (k + 2) (k + 2) x)) with hcc
  have c4 := block_upto (k + 2) n ns (k + 2) hns x C b (cc * (1 + x * x)) (-(cc * 2 * x)) c0
    (by
      rw [hb, pow_add, hs]
      ring)
    (by
      rw [if_pos (by omega), hcc]
      simp only [Rt, T_zero (k + 3) (k + 2) (by omega)]
      push_cast
      ring)
    (by
      rw [if_pos (by omega), hcc]
      simp only [Tt, T_zero (k + 3) (k + 2) (by omega)]
      ring)
  have c5 := upto_same (k + 2) n ns (k + 3) x _ _ c4 (fun l r c _ h2 h3 h4 =>
    start ns hns C (k + 2) b (cc * (1 + x * x)) (-(cc * 2 * x)) l r c h3 h4)
  generalize (if 4 ≤ ns then _ else _ : Tab) = E at c5 ⊢
  by_cases hl : k + 2 < n - 1
  · rw [if_pos hl]
    have c6 := iter2_step (k + 2) n ns hns x E (by omega) (by omega) c5
    have := forN_ind_lt (n - 1 - (k + 2 + 1)) (fun t B => Upto (k + 2) n ns x (t + (k + 4)) B)
      (fun t A => iter3 (k + 2) ns x (k + 2 + 1 + t) A) (iter2 (k + 2) ns x (k + 2) E)
      (by rw [zero_add]; exact c6) (fun t B ht hB => by
        have := iter3_step (k + 2) n ns (k + t + 1) hns x B (by omega) (by omega)
          (by rw [show k + t + 1 + 3 = t + (k + 4) by omega]; exact hB)
        rw [show k + 2 + 1 + t = k + t + 1 + 2 by omega, show t + 1 + (k + 4) = k + t + 1 + 4 by omega]
        exact this)
    rw [show n - 1 - (k + 2 + 1) + (k + 4) = n by omega] at this
    exact this
  · rw [if_neg hl]
    exact upto_grow (k + 2) n ns (k + 3) n x E (by omega) le_rfl c5

theorem basic_eq (m n ns : ℕ) (hns : Few ns) (x : ℝ) (hx : x ^ 2 ≤ 1) (A : Tab) (l r c : ℕ)
    (h1 : m ≤ l) (h2 : l < n) (h3 : r < ns) (h4 : c < ns) :
    basic m n ns x A l r c = ent ns m l x r c := by
  have key : ∀ B : Tab, Upto m n ns x n B → B l r c = ent ns m l x r c := fun B hB => by
    rw [hB l r c h1 h2 h3 h4, if_pos h2]
  unfold basic
  rw [if_neg (by omega)]
  by_cases m0 : m = 0
  · rw [if_pos m0]; subst m0
    exact key _ (basic0_eq n ns hns (by omega) x A)
  · rw [if_neg m0]
    by_cases m1 : m = 1
    · rw [if_pos m1]; subst m1
      exact key _ (basic1_eq n ns hns (by omega) x A)
    · rw [if_neg m1]
      exact key _ (basic2_eq m n ns hns (by omega) (by omega) x hx A)

/-! ## The other side -/

theorem Rt_neg (m l : ℕ) (x : ℝ) : Rt m l (-x) = (-1) ^ (l + m) * Rt m l x := by
  match m with
  | 0 => simp only [Rt, T_neg, neg_sq, pow_add]; ring
  | 1 => simp only [Rt, T_neg, neg_sq, pow_add]; ring
  | m + 2 => simp only [Rt, T_neg, neg_sq, pow_add]; ring

theorem Tt_neg (m l : ℕ) (x : ℝ) : Tt m l (-x) = -((-1) ^ (l + m) * Tt m l x) := by
  match m with
  | 0 => simp [Tt]
  | 1 => simp only [Tt, T_neg, neg_sq, pow_add]; ring
  | m + 2 => simp only [Tt, T_neg, neg_sq, pow_add]; ring

theorem ent_neg (ns m l : ℕ) (x : ℝ) (r c : ℕ) :
    ent ns m l (-x) r c = (-1) ^ (l + m) * (turn r * turn c * ent ns m l x r c) := by
  unfold ent
  split <;> simp only [turn, Rt_neg, Tt_neg, T_neg, neg_sq] <;> norm_num <;>
    first
    | ring
    | (split <;> ring)

end Xrtm.PhaseVec
