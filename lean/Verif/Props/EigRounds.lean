import Verif.Proof.EigRounds
import Verif.Props.EigA

/-!
# C70: the loops over the columns of a polarised layer work on every column once,
unless an eigenvalue is real and negative
-/

namespace Xrtm.EigA
open Matrix Xrtm.Spec Xrtm.Eig

variable {n : Nat}

/-- If conjugate eigenvalues stand side by side, the one with the positive imaginary
part first (as the eigenvalue solvers return them), no round reads a column that is
not there, and every column belongs to one round. -/
theorem C70_rounds {s : Fin n → ℝ} (h1 : ∀ i, 0 < s i → ∃ j : Fin n, j.1 = i.1 + 1 ∧ s j < 0)
    (h2 : ∀ i, s i < 0 → ∃ j : Fin n, j.1 + 1 = i.1 ∧ 0 < s j) :
    ∃ r, rounds s (List.finRange n) = some r ∧ r.flatMap Cols.list = List.finRange n :=
  rounds_all h1 h2

/-- Three columns, the last two a pair. -/
example : ∃ r, rounds (![0, 2, -2] : Fin 3 → ℝ) (List.finRange 3) = some r ∧
    r.flatMap Cols.list = List.finRange 3 := by
  refine C70_rounds (fun i hi => ?_) (fun i hi => ?_)
  · fin_cases i
    · simp at hi
    · exact ⟨2, rfl, by simp⟩
    · simp at hi; linarith
  · fin_cases i
    · simp at hi
    · simp at hi; linarith
    · exact ⟨1, rfl, by simp⟩

/-- The loops that look at the imaginary parts of the roots have the same rounds as
those that look at the imaginary parts of the eigenvalues, if no real eigenvalue is
zero or negative.  Full statement: without that; it is false, see
`C70_violated_negative`. -/
theorem C70_same_partial {z w : Fin n → ℂ} (hw : ∀ i, w i ^ 2 = z i) (hre : ∀ i, 0 ≤ (w i).re)
    (hz : ∀ i, (z i).im ≠ 0 ∨ 0 < (z i).re) (l : List (Fin n)) :
    rounds (fun i => (w i).im) l = rounds (fun i => (z i).im) l :=
  rounds_congr (fun i => (root_sign (hw i) (hre i) (hz i)).1) (fun i => (root_sign (hw i) (hre i) (hz i)).2) l

/-- The eigenvalues `2i`, `-2i` with roots `1 + i`, `1 - i`. -/
example : rounds (fun i => (pNu i).im) (List.finRange 2) = rounds (fun i => (pNu i ^ 2).im) (List.finRange 2) := by
  refine C70_same_partial (fun _ => rfl) (fun i => ?_) (fun i => Or.inl ?_) _
  · fin_cases i <;> simp [pNu]
  · fin_cases i <;> simp [pNu, pow_two]

theorem rounds_out {s : Fin n → ℝ} {i : Fin n} (hi : i.1 + 1 = n) (hs : 0 < s i) :
    ∀ l : List (Fin n), i ∈ l → rounds s l = none := by
  intro l
  induction l with
  | nil => intro h; cases h
  | cons j l ih =>
    intro h
    rcases List.mem_cons.1 h with rfl | h
    · simp only [rounds]
      cases rounds s l with
      | none => rfl
      | some r =>
        simp only [if_neg hs.ne', if_pos hs]
        rw [dif_neg (by omega)]
    · simp only [rounds, ih h]

/-- **Violated** for a real eigenvalue that is negative: its root has a positive
imaginary part, so the loops over the roots take it for the first of a pair where the
loops over the eigenvalues take it for a column by itself.  In the last column they
read a column that is not there. -/
theorem C70_violated_negative {z w : Fin n → ℂ} {i : Fin n} (hi : i.1 + 1 = n) (hz : (z i).im = 0) (hneg : (z i).re < 0)
    (hw : w i ^ 2 = z i) (him : 0 ≤ (w i).im) (r : List (Cols n)) :
    rounds (fun i => (w i).im) (List.finRange n) = none ∧
      (rounds (fun i => (z i).im) (List.finRange n) = some r → Cols.one i ∈ r) := by
  constructor
  · refine rounds_out (i := i) hi ?_ _ (List.mem_finRange i)
    have e1 : (z i).re = (w i).re ^ 2 - (w i).im ^ 2 := by rw [← hw, pow_two, Complex.mul_re]; ring
    rcases him.lt_or_eq with h | h
    · exact h
    · rw [← h] at e1
      nlinarith [sq_nonneg (w i).re]
  · have key : ∀ l : List (Fin n), i ∈ l → ∀ r, rounds (fun i => (z i).im) l = some r → Cols.one i ∈ r := by
      intro l
      induction l with
      | nil => intro h; cases h
      | cons j l ih =>
        intro h r hr
        simp only [rounds] at hr
        cases hl : rounds (fun i => (z i).im) l with
        | none => rw [hl] at hr; cases hr
        | some r' =>
          rw [hl] at hr
          dsimp only at hr
          rcases List.mem_cons.1 h with rfl | h
          · rw [if_pos hz] at hr
            obtain rfl := Option.some.inj hr
            simp
          · have hm := ih h r' hl
            split_ifs at hr
            · obtain rfl := Option.some.inj hr; simp [hm]
            · obtain rfl := Option.some.inj hr; simp [hm]
            · obtain rfl := Option.some.inj hr; exact hm
    exact key _ (List.mem_finRange i) r

/-- The eigenvalue -1. -/
example : rounds (fun _ : Fin 1 => Complex.I.im) (List.finRange 1) = none :=
  (C70_violated_negative (n := 1) (z := fun _ => -1) (w := fun _ => Complex.I) (i := 0) rfl (by simp) (by simp)
    (by simp) (by simp) []).1

/-- With the rounds of the loops the reverse mode of a polarised layer keeps what the
weights give (`C69_pol_partial`), if conjugate eigenvalues stand side by side. -/
theorem C70_pol_partial
    {inv? : Matrix (Fin n ⊕ Unit) (Fin n ⊕ Unit) ℝ → Option (Matrix (Fin n ⊕ Unit) (Fin n ⊕ Unit) ℝ)}
    {invC? : Matrix (Fin n ⊕ Unit) (Fin n ⊕ Unit) ℂ → Option (Matrix (Fin n ⊕ Unit) (Fin n ⊕ Unit) ℂ)} {eps : ℝ}
    {p : Pol n} {tpr' gamma' : Matrix (Fin n) (Fin n) ℝ} {V V' : Matrix (Fin n) (Fin n) ℂ} {nu' : Fin n → ℂ}
    (h1 : ∀ i, 0 < p.im i → ∃ j : Fin n, j.1 = i.1 + 1 ∧ p.im j < 0)
    (h2 : ∀ i, p.im i < 0 → ∃ j : Fin n, j.1 + 1 = i.1 ∧ 0 < p.im j)
    (hl : ∀ l, rounds p.im (List.finRange n) = some l → ∀ c ∈ l, p.Linear gamma' inv? invC? eps V nu' V' c)
    (ht : ∀ i, p.im i = 0 → isTrivial eps p.E i = false)
    {inv1? : Matrix (Fin n) (Fin n) ℂ → Option (Matrix (Fin n) (Fin n) ℂ)} {ltau ltau' : ℝ} {m : Modes n ℂ} {o : RT n ℂ}
    (Ra Ta : Matrix (Fin n) (Fin n) ℝ) (w : ℝ × Matrix (Fin n) (Fin n) ℝ × Matrix (Fin n) (Fin n) ℝ)
    {f : Matrix (Fin n) (Fin n) ℂ × Matrix (Fin n) (Fin n) ℂ}
    (hf : calcRTL inv1? (ltau : ℂ) ltau' m (modesL (cplx p.tpr) (cplx tpr') p.nu nu' V V') o = some f) :
    ∃ l r, rounds p.im (List.finRange n) = some l ∧
      polLayerA inv1? inv? invC? eps ltau p m o l Ra Ta w = some r ∧
      r.1 * ltau' + mpair r.2.1 tpr' + mpair r.2.2 gamma' = w.1 * ltau' + mpair w.2.1 tpr' + mpair w.2.2 gamma' +
        mpair Ra (fun i j => (f.1 i j).re) + mpair Ta (fun i j => (f.2 i j).re) := by
  obtain ⟨l, hr, hfl⟩ := rounds_all h1 h2
  have hone : ∀ (l : List (Fin n)) (r : List (Cols n)), rounds p.im l = some r → ∀ i, Cols.one i ∈ r → p.im i = 0 := by
    intro l
    induction l with
    | nil => intro r hr i hi; obtain rfl := Option.some.inj hr; cases hi
    | cons j l ih =>
      intro r hr i hi
      simp only [rounds] at hr
      cases hl : rounds p.im l with
      | none => rw [hl] at hr; cases hr
      | some r' =>
        rw [hl] at hr
        dsimp only at hr
        split_ifs at hr with h0
        · obtain rfl := Option.some.inj hr
          rcases List.mem_cons.1 hi with e | hi
          · cases e; exact h0
          · exact ih r' hl i hi
        · obtain rfl := Option.some.inj hr
          rcases List.mem_cons.1 hi with e | hi
          · cases e
          · exact ih r' hl i hi
        · obtain rfl := Option.some.inj hr
          exact ih r' hl i hi
  obtain ⟨r, h3, h4⟩ := C69_pol_partial (p := p) (tpr' := tpr') (by rw [hfl]) (hl l hr)
    (fun i hi => ht i (hone _ l hr i hi)) Ra Ta w hf
  exact ⟨l, r, hr, h3, h4⟩

example : ∃ l, rounds pPol.im (List.finRange 2) = some l ∧ l.flatMap Cols.list = List.finRange 2 := by
  refine C70_rounds (fun i hi => ?_) (fun i hi => ?_)
  · fin_cases i
    · exact ⟨1, rfl, by simp [pPol]⟩
    · simp [pPol] at hi; linarith
  · fin_cases i
    · simp [pPol] at hi; linarith
    · exact ⟨0, rfl, by simp [pPol]⟩

end Xrtm.EigA
