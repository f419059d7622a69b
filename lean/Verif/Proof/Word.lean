import Verif.Model.Word

namespace Xrtm

theorem has_bit (w : Word) (k : Nat) (hk : k < 32) : has w (bit k) = w.getLsbD k := by
  unfold has bit
  have h : (w &&& BitVec.twoPow 32 k) = if w.getLsbD k then BitVec.twoPow 32 k else 0#32 := by
    exact BitVec.and_twoPow w k
  rw [h]
  cases hb : w.getLsbD k
  · simp
  · simp only [if_true, bne_iff_ne, ne_eq]
    intro h0
    have := congrArg (fun x => BitVec.getLsbD x k) h0
    simp [hk] at this

theorem bit_getLsbD (k j : Nat) (hj : j < 32) : (bit k).getLsbD j = decide (k = j) := by
  unfold bit
  rw [BitVec.getLsbD_twoPow]
  by_cases h : k = j
  · subst h; simp [hj]
  · simp [h]

theorem has_iff (w m : Word) : has w m = true ↔ ∃ k, k < 32 ∧ w.getLsbD k ∧ m.getLsbD k := by
  unfold has
  rw [bne_iff_ne, ne_eq]
  constructor
  · intro h
    by_contra hc
    push Not at hc
    apply h
    apply BitVec.eq_of_getLsbD_eq
    intro i hi
    have := hc i hi
    simp only [BitVec.getLsbD_and, BitVec.getLsbD_zero, Bool.and_eq_false_iff]
    cases h1 : w.getLsbD i <;> simp_all
  · rintro ⟨k, hk, h1, h2⟩ h
    have := congrArg (fun x => BitVec.getLsbD x k) h
    simp [h1, h2] at this

theorem has_or (w a b : Word) : has w (a ||| b) = (has w a || has w b) := by
  rw [Bool.eq_iff_iff, Bool.or_eq_true, has_iff, has_iff, has_iff]
  simp only [BitVec.getLsbD_or, Bool.or_eq_true]
  constructor
  · rintro ⟨k, hk, h1, h2 | h2⟩
    · exact .inl ⟨k, hk, h1, h2⟩
    · exact .inr ⟨k, hk, h1, h2⟩
  · rintro (⟨k, hk, h1, h2⟩ | ⟨k, hk, h1, h2⟩)
    · exact ⟨k, hk, h1, .inl h2⟩
    · exact ⟨k, hk, h1, .inr h2⟩

theorem bnot_iff (a : Bool) : ((!a) = true) ↔ ¬ (a = true) := by cases a <;> simp

theorem ite_err (c : Bool) (e k : Int) (he : e ≠ 0) :
    ((if c = true then e else k) = 0) ↔ (¬ (c = true) ∧ k = 0) := by
  cases c <;> simp [he]

theorem xrtmIntError_ne : xrtmIntError ≠ 0 := by decide

end Xrtm
