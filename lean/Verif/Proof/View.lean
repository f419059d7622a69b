import Verif.Spec.View

/-! # Further directions are directions of no weight -/

namespace Xrtm.Transfer

variable {m n : Nat}

theorem below_l (A : Matrix (Fin n) (Fin n) ℝ) (B : Matrix (Fin m) (Fin n) ℝ) (Q) (i j : Fin n) :
    below A B Q (Fin.castAdd m i) (Fin.castAdd m j) = A i j := by simp [below]
theorem below_r (A : Matrix (Fin n) (Fin n) ℝ) (B : Matrix (Fin m) (Fin n) ℝ) (Q) (i : Fin m) (j : Fin n) :
    below A B Q (Fin.natAdd n i) (Fin.castAdd m j) = B i j := by simp [below]

theorem append_eq {f f' : Fin n → ℝ} {g g' : Fin m → ℝ} : Fin.append f g = Fin.append f' g' ↔ f = f' ∧ g = g' := by
  constructor
  · intro h
    refine ⟨funext fun i => ?_, funext fun i => ?_⟩
    · simpa using congrFun h (Fin.castAdd m i)
    · simpa using congrFun h (Fin.natAdd n i)
  · rintro ⟨rfl, rfl⟩; rfl

theorem append_add (f f' : Fin n → ℝ) (g g' : Fin m → ℝ) :
    Fin.append f g + Fin.append f' g' = Fin.append (f + f') (g + g') := by
  funext i
  refine Fin.addCases (fun i => ?_) (fun i => ?_) i <;> simp

theorem below_mulVec (A : Matrix (Fin n) (Fin n) ℝ) (B : Matrix (Fin m) (Fin n) ℝ) (f : Fin n → ℝ) (g : Fin m → ℝ) :
    Matrix.mulVec (below A B 0) (Fin.append f g) = Fin.append (Matrix.mulVec A f) (Matrix.mulVec B f) := by
  funext i
  refine Fin.addCases (fun i => ?_) (fun i => ?_) i <;>
    simp [Matrix.mulVec, dotProduct, Fin.sum_univ_add, below]

theorem seen_more (s : Stack n) (v : View m n) (Q : Nat → Matrix (Fin (n + m)) (Fin m) ℝ)
    (up dn : Nat → ℝ → Fin n → ℝ) (U D : Nat → ℝ → Fin m → ℝ) :
    (s.more v Q).Lit (fun i t => Fin.append (up i t) (U i t)) (fun i t => Fin.append (dn i t) (D i t)) ↔
      s.Lit up dn ∧ v.Seen s up dn U D := by
  constructor
  · intro h
    refine ⟨⟨fun i hi τ j => ?_, fun i hi => ?_, ?_, ?_⟩, ⟨fun i hi τ u => ?_, fun i hi => ?_, ?_, ?_⟩⟩
    · obtain ⟨a, b, h1, h2, h3, h4⟩ := h.layer i hi τ (Fin.castAdd m j)
      refine ⟨a, b, by simpa using h1, by simpa using h2, ?_, ?_⟩
      · simpa [Stack.more, Medium.intoUp, Fin.sum_univ_add, below] using h3
      · simpa [Stack.more, Medium.intoDn, Fin.sum_univ_add, below] using h4
    · have := h.meet i hi
      exact ⟨(append_eq.1 this.1).1, (append_eq.1 this.2).1⟩
    · exact (append_eq.1 h.sky).1
    · have := h.ground
      simp only [Stack.more, below_mulVec, append_add] at this
      exact (append_eq.1 this).1
    · obtain ⟨a, b, h1, h2, h3, h4⟩ := h.layer i hi τ (Fin.natAdd n u)
      refine ⟨a, b, by simpa using h1, by simpa using h2, ?_, ?_⟩
      · simpa [Stack.more, Medium.intoUp, Fin.sum_univ_add, below] using h3
      · simpa [Stack.more, Medium.intoDn, Fin.sum_univ_add, below] using h4
    · have := h.meet i hi
      exact ⟨(append_eq.1 this.1).2, (append_eq.1 this.2).2⟩
    · exact (append_eq.1 h.sky).2
    · have := h.ground
      simp only [Stack.more, below_mulVec, append_add] at this
      exact (append_eq.1 this).2
  · rintro ⟨h, k⟩
    refine ⟨fun i hi τ j => ?_, fun i hi => ?_, ?_, ?_⟩
    · refine Fin.addCases (fun j => ?_) (fun u => ?_) j
      · obtain ⟨a, b, h1, h2, h3, h4⟩ := h.layer i hi τ j
        refine ⟨a, b, by simpa using h1, by simpa using h2, ?_, ?_⟩
        · simpa [Stack.more, Medium.intoUp, Fin.sum_univ_add, below] using h3
        · simpa [Stack.more, Medium.intoDn, Fin.sum_univ_add, below] using h4
      · obtain ⟨a, b, h1, h2, h3, h4⟩ := k.layer i hi τ u
        refine ⟨a, b, by simpa using h1, by simpa using h2, ?_, ?_⟩
        · simpa [Stack.more, Medium.intoUp, Fin.sum_univ_add, below] using h3
        · simpa [Stack.more, Medium.intoDn, Fin.sum_univ_add, below] using h4
    · exact ⟨append_eq.2 ⟨(h.meet i hi).1, (k.meet i hi).1⟩, append_eq.2 ⟨(h.meet i hi).2, (k.meet i hi).2⟩⟩
    · exact append_eq.2 ⟨h.sky, k.sky⟩
    · simp only [Stack.more, below_mulVec, append_add]
      exact append_eq.2 ⟨h.ground, k.ground⟩

end Xrtm.Transfer
