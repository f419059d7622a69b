import Verif.Model.EigRounds
import Mathlib.Data.Complex.Basic
import Mathlib.Tactic.Linarith

/-!
# Proofs for the rounds of the loops over the columns
-/

namespace Xrtm.EigA

variable {n : Nat} {s : Fin n → ℝ}

theorem drop_cons {i : Nat} (h : i < n) : (List.finRange n).drop i = ⟨i, h⟩ :: (List.finRange n).drop (i + 1) := by
  rw [List.drop_eq_getElem_cons (by simpa using h)]
  simp

theorem rounds_from (h1 : ∀ i, 0 < s i → ∃ j : Fin n, j.1 = i.1 + 1 ∧ s j < 0)
    (h2 : ∀ i, s i < 0 → ∃ j : Fin n, j.1 + 1 = i.1 ∧ 0 < s j) :
    ∀ k i, i + k = n → (∀ h : i < n, 0 ≤ s ⟨i, h⟩) →
      ∃ r, rounds s ((List.finRange n).drop i) = some r ∧ r.flatMap Cols.list = (List.finRange n).drop i := by
  intro k
  induction k using Nat.strong_induction_on with
  | _ k ih =>
    intro i hi hs
    rcases Nat.eq_zero_or_pos k with rfl | hk
    · have : (List.finRange n).drop i = [] := by rw [List.drop_eq_nil_iff]; simp; omega
      rw [this]
      exact ⟨[], rfl, rfl⟩
    · have hin : i < n := by omega
      rcases (hs hin).lt_or_eq with hp | h0
      · obtain ⟨⟨j, hj⟩, e, hn⟩ := h1 _ hp
        obtain rfl : j = i + 1 := e
        obtain ⟨r, hr, hf⟩ := ih (k - 2) (by omega) (i + 2) (by omega) (fun h => by
          by_contra hc
          obtain ⟨⟨j, hj'⟩, e, hp'⟩ := h2 _ (not_le.1 hc)
          obtain rfl : j = i + 1 := by simpa using e
          linarith)
        rw [drop_cons hin, drop_cons hj]
        refine ⟨.two ⟨i, hin⟩ ⟨i + 1, hj⟩ :: r, ?_, ?_⟩
        · simp only [rounds]
          rw [hr]
          simp only [if_neg hn.ne, if_neg (not_lt.2 hn.le), if_neg hp.ne', if_pos hp, dif_pos hj]
        · rw [List.flatMap_cons, hf]
          rfl
      · obtain ⟨r, hr, hf⟩ := ih (k - 1) (by omega) (i + 1) (by omega) (fun h => by
          by_contra hc
          obtain ⟨⟨j, hj'⟩, e, hp'⟩ := h2 _ (not_le.1 hc)
          obtain rfl : j = i := by simpa using e
          linarith)
        rw [drop_cons hin]
        refine ⟨.one ⟨i, hin⟩ :: r, ?_, ?_⟩
        · simp only [rounds]
          rw [hr]
          simp only [if_pos h0.symm]
        · rw [List.flatMap_cons, hf]
          rfl

theorem rounds_all (h1 : ∀ i, 0 < s i → ∃ j : Fin n, j.1 = i.1 + 1 ∧ s j < 0)
    (h2 : ∀ i, s i < 0 → ∃ j : Fin n, j.1 + 1 = i.1 ∧ 0 < s j) :
    ∃ r, rounds s (List.finRange n) = some r ∧ r.flatMap Cols.list = List.finRange n := by
  have := rounds_from h1 h2 n 0 (by omega) (fun h => by
    by_contra hc
    obtain ⟨j, e, _⟩ := h2 _ (not_le.1 hc)
    simp at e)
  simpa using this

theorem rounds_congr {t : Fin n → ℝ} (h0 : ∀ i, s i = 0 ↔ t i = 0) (hp : ∀ i, 0 < s i ↔ 0 < t i) (l : List (Fin n)) :
    rounds s l = rounds t l := by
  induction l with
  | nil => rfl
  | cons i l ih => simp only [rounds, ih, h0, hp]

/-- The imaginary part of a root with a real part that is not negative. -/
theorem root_sign {z w : ℂ} (h : w ^ 2 = z) (hre : 0 ≤ w.re) (hz : z.im ≠ 0 ∨ 0 < z.re) :
    (w.im = 0 ↔ z.im = 0) ∧ (0 < w.im ↔ 0 < z.im) := by
  have e1 : z.re = w.re ^ 2 - w.im ^ 2 := by rw [← h, pow_two, Complex.mul_re]; ring
  have e2 : z.im = 2 * w.re * w.im := by rw [← h, pow_two, Complex.mul_im]; ring
  have hpos : 0 < w.re := by
    rcases hre.lt_or_eq with h | h
    · exact h
    · exfalso
      rw [← h] at e1 e2
      rcases hz with hz | hz
      · exact hz (by rw [e2]; ring)
      · nlinarith [sq_nonneg w.im]
  constructor
  · rw [e2]
    constructor
    · intro h; rw [h, mul_zero]
    · intro h
      rcases mul_eq_zero.1 h with h | h
      · linarith
      · exact h
  · rw [e2]
    exact ⟨fun h => by positivity, fun h => by
      by_contra hc
      nlinarith [mul_nonneg (by linarith : (0:ℝ) ≤ 2 * w.re) (sub_nonneg.2 (not_lt.1 hc))]⟩

end Xrtm.EigA
