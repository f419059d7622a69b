import Verif.Spec.FiniteDiff
import Mathlib.Tactic.Ring
import Mathlib.Tactic.FieldSimp
import Mathlib.Algebra.BigOperators.Group.Finset.Basic
import Mathlib.Algebra.BigOperators.Ring.Finset

namespace Xrtm.FiniteDiff
open Spec

variable {K : Type} [Field K] {O : Type}

theorem mem_kernels (s : Shape) (a : In) :
    (∃ c ∈ (List.range s.nKernels).flatMap (kernelCalls s), a ∈ c) ↔
      (∃ i < s.nKernels, a = .amp i) ∨ ∃ i < s.nKernels, ∃ k < s.nParams i, a = .par i k := by
  constructor
  · rintro ⟨c, hc, ha⟩
    obtain ⟨i, hi, hc⟩ := List.mem_flatMap.1 hc
    rw [List.mem_range] at hi
    rcases List.mem_cons.1 hc with rfl | hc
    · exact .inl ⟨i, hi, by simpa using ha⟩
    · obtain ⟨k, hk, rfl⟩ := List.mem_map.1 hc
      exact .inr ⟨i, hi, k, List.mem_range.1 hk, by simpa using ha⟩
  · rintro (⟨i, hi, rfl⟩ | ⟨i, hi, k, hk, rfl⟩)
    · exact ⟨[.amp i], List.mem_flatMap.2 ⟨i, by simpa, by simp [kernelCalls]⟩, by simp⟩
    · exact ⟨[.par i k], List.mem_flatMap.2 ⟨i, by simpa, by simp [kernelCalls, hk]⟩, by simp⟩

/-- Each input of the shape is in one of the calls, and nothing else is. -/
theorem mem_calls (s : Shape) (a : In) : (∃ c ∈ calls s, a ∈ c) ↔ Has s a := by
  unfold calls
  simp only [List.mem_append, or_and_right, exists_or, mem_kernels]
  unfold thermalCalls phaseCalls
  cases ht : s.thermal <;> cases hg : s.useG <;> cases a <;>
    simp [Has, ht, hg, or_and_right, exists_or] <;> try omega

/-- No input is in two calls. -/
theorem calls_disjoint (s : Shape) : (calls s).Pairwise List.Disjoint := by
  unfold calls thermalCalls phaseCalls kernelCalls
  have hr : ∀ n, (List.range n).Pairwise (· ≠ ·) := fun n =>
    List.nodup_range
  simp only [List.pairwise_append, List.pairwise_map, List.pairwise_flatMap]
  refine ⟨⟨⟨⟨?_, ?_, ?_⟩, ?_, ?_⟩, ?_, ?_⟩, ⟨?_, ?_⟩, ?_⟩
  · split <;> simp [List.Disjoint]
  · split <;> simp only [List.pairwise_map]
    · exact (hr _).imp fun h => by simp [List.Disjoint]; omega
    · exact (hr _).imp fun h => by simp [List.Disjoint]; grind
  · split <;> split <;> simp [List.Disjoint]
  · exact (hr _).imp fun h => by simp [List.Disjoint]; omega
  · split <;> split <;> simp [List.Disjoint] <;> grind
  · exact (hr _).imp fun h => by simp [List.Disjoint]; omega
  · split <;> split <;> simp [List.Disjoint] <;> grind
  · intro i _
    simp [List.Disjoint, List.pairwise_map]
    exact (hr _).imp fun h => h
  · exact (hr _).imp fun h => by simp [List.Disjoint]; grind
  · split <;> split <;> simp [List.Disjoint] <;> grind

open Classical in
theorem runCalls_ok (d : Inst K O) (f : K) (p : In → K) (cs : List (List In)) (x : In → K)
    (hd : cs.Pairwise List.Disjoint) (h : (runCalls d f p cs x).ok = true) :
    (runCalls d f p cs x).inputs =
      fun a => if ∃ c ∈ cs, a ∈ c then x a + f * p a else x a := by
  induction cs generalizing x with
  | nil => funext a; simp [runCalls]
  | cons c cs ih =>
    unfold runCalls at h ⊢
    split at h
    · rename_i hc
      rw [if_pos hc, ih _ (List.Pairwise.of_cons hd) h]
      funext a
      have hdis := (List.pairwise_cons.1 hd).1
      simp only [moved]
      by_cases ha : a ∈ c
      · have : ¬ ∃ c' ∈ cs, a ∈ c' := by
          rintro ⟨c', hc', ha'⟩
          exact (hdis c' hc') ha ha'
        rw [if_neg this, if_pos ha, if_pos ⟨c, by simp, ha⟩]
      · by_cases hb : ∃ c' ∈ cs, a ∈ c'
        · rw [if_pos hb, if_neg ha, if_pos]
          obtain ⟨c', hc', ha'⟩ := hb
          exact ⟨c', by simp [hc'], ha'⟩
        · rw [if_neg hb, if_neg ha, if_neg]
          rintro ⟨c', hc', ha'⟩
          rcases List.mem_cons.1 hc' with rfl | h'
          · exact ha ha'
          · exact hb ⟨c', h', ha'⟩
    · exact absurd h (by simp)

theorem perturb_ok (s : Shape) (d : Inst K O) (f : K) (p x : In → K)
    (h : (perturb s d f p x).ok = true) :
    (perturb s d f p x).inputs = along s x p f := by
  unfold perturb at *
  rw [runCalls_ok d f p _ x (calls_disjoint s) h]
  funext a
  unfold along
  by_cases h : Has s a
  · rw [if_pos h, if_pos ((mem_calls s a).2 h)]
  · rw [if_neg h, if_neg fun hc => h ((mem_calls s a).1 hc)]

theorem perturbMem_done (s : Shape) (d : Inst K O) (f : K) (p : In → K) (m m' : Mem K O)
    (h : perturbMem s d f p m = (m', .done)) :
    m' = { m with inputs := along s m.inputs p f } := by
  unfold perturbMem at h
  simp only [Prod.mk.injEq] at h
  obtain ⟨h1, h2⟩ := h
  have hok : (perturb s d f p m.inputs).ok = true := by
    by_contra hc
    rw [if_neg hc] at h2
    exact absurd h2 (by decide)
  rw [← h1, perturb_ok s d f p _ hok]

theorem solveInto_done (d : Inst K O) (w : Ask) (m m' : Mem K O)
    (h : solveInto d w m = (m', .done)) :
    ∃ r, Sol d m.inputs r ∧ w.other = false ∧
      m' = { m with buf := if w.radiance then r else m.buf } := by
  unfold solveInto at h
  cases hs : d.solve m.inputs with
  | none => rw [hs] at h; simp at h
  | some r =>
    rw [hs] at h
    refine ⟨r, hs, ?_⟩
    cases ho : w.other <;> cases hr : w.radiance <;> simp_all

theorem thenDo_done (r : Mem K O × End) (g : Mem K O → Mem K O × End) (m' : Mem K O)
    (h : thenDo r g = (m', .done)) : ∃ m, r = (m, .done) ∧ g m = (m', .done) := by
  rcases r with ⟨m, e⟩
  cases e
  · exact ⟨m, rfl, h⟩
  · simp [thenDo] at h
  · simp [thenDo] at h

theorem along_along (s : Shape) (x p : In → K) (t u : K) :
    along s (along s x p t) p u = along s x p (t + u) := by
  funext a
  simp only [along]
  split <;> ring

theorem along_zero (s : Shape) (x p : In → K) : along s x p 0 = x := by
  funext a
  simp [along]

theorem along_add (s : Shape) (x p q : In → K) (t : K) :
    along s (along s x p t) q t = along s x (fun a => p a + q a) t := by
  funext a
  simp only [along]
  split <;> ring

theorem oneSided_done (s : Shape) (d : Inst K O) (f : K) (p : In → K) (delta : K)
    (base : O → K) (j : Nat) (m m' : Mem K O)
    (h : oneSided s d ⟨true, false⟩ f p delta base j m = (m', .done)) :
    ∃ r, Sol d (along s m.inputs p f) r ∧ m'.inputs = along s m.inputs p f ∧
      m'.table = fun j' => if j' = j then fun o => (r o - base o) / delta else m.table j' := by
  obtain ⟨m1, h1, h⟩ := thenDo_done _ _ _ h
  obtain ⟨m2, h2, h⟩ := thenDo_done _ _ _ h
  have e1 := perturbMem_done _ _ _ _ _ _ h1
  obtain ⟨r, hr, _, e2⟩ := solveInto_done _ _ _ _ h2
  simp only [Prod.mk.injEq, and_true] at h
  subst e1
  subst e2
  subst h
  exact ⟨r, hr, rfl, rfl⟩

theorem twoSided_done (s : Shape) (d : Inst K O) (p : In → K) (delta : K)
    (j : Nat) (m m' : Mem K O)
    (h : twoSided s d ⟨true, false⟩ p delta j m = (m', .done)) :
    ∃ r q, Sol d (along s m.inputs p 1) r ∧ Sol d (along s m.inputs p (-1)) q ∧
      m'.inputs = m.inputs ∧
      m'.table = fun j' => if j' = j then fun o => (r o - q o) / delta else m.table j' := by
  obtain ⟨m1, h1, h⟩ := thenDo_done _ _ _ h
  obtain ⟨m2, h2, h⟩ := thenDo_done _ _ _ h
  obtain ⟨m3, h3, h⟩ := thenDo_done _ _ _ h
  obtain ⟨m4, h4, h⟩ := thenDo_done _ _ _ h
  obtain ⟨m5, h5, h⟩ := thenDo_done _ _ _ h
  obtain ⟨m6, h6, h⟩ := thenDo_done _ _ _ h
  have e1 := perturbMem_done _ _ _ _ _ _ h1
  obtain ⟨r, hr, _, e2⟩ := solveInto_done _ _ _ _ h2
  have e4 := perturbMem_done _ _ _ _ _ _ h4
  obtain ⟨q, hq, _, e5⟩ := solveInto_done _ _ _ _ h5
  have e7 := perturbMem_done _ _ _ _ _ _ h
  simp only [Prod.mk.injEq, and_true] at h3 h6
  subst e1; subst e2; subst h3; subst e4; subst e5; subst h6; subst e7
  simp only [setRow, along_along, if_true] at hr hq ⊢
  refine ⟨r, q, hr, ?_, ?_, ?_⟩
  · have : (1 : K) + -2 = -1 := by ring
    rwa [this] at hq
  · have : (1 : K) + -2 + 1 = 0 := by ring
    rw [this, along_zero]
  · funext j' o
    by_cases hj : j' = j
    · simp [hj, sub_div]
    · simp [hj]

/-- The sum of the steps up to and without `n`. -/
def upTo (p : Nat → In → K) (n : Nat) : In → K := fun a => ∑ k ∈ Finset.range n, p k a

theorem upTo_succ (p : Nat → In → K) (n : Nat) :
    upTo p (n + 1) = fun a => upTo p n a + p n a := by
  funext a
  exact Finset.sum_range_succ _ _

theorem along_upTo_zero (s : Shape) (x : In → K) (p : Nat → In → K) (t : K) :
    along s x (upTo p 0) t = x := by
  funext a
  simp [along, upTo]

def sign : Method → K
  | .backward => -1
  | _ => 1

theorem loop_oneSided (s : Shape) (d : Inst K O) (me : Method) (hme : me ≠ .central)
    (p : Nat → In → K) (delta : Nat → K) (base : O → K) (n : Nat) (m m' : Mem K O)
    (h : loop s d ⟨true, false⟩ me p delta base n m = (m', .done)) :
    m'.inputs = along s m.inputs (upTo p n) (sign me) ∧
    (∀ j < n, ∃ r, Sol d (along s m.inputs (upTo p (j + 1)) (sign me)) r ∧
      m'.table j = fun o => (r o - base o) / delta j) ∧
    ∀ j, n ≤ j → m'.table j = m.table j := by
  induction n generalizing m' with
  | zero =>
    simp only [loop, Prod.mk.injEq, and_true] at h
    subst h
    exact ⟨(along_upTo_zero s _ p _).symm, fun j hj => by omega, fun _ _ => rfl⟩
  | succ n ih =>
    obtain ⟨m1, h1, h⟩ := thenDo_done _ _ _ h
    obtain ⟨e1, e2, e3⟩ := ih m1 h1
    have h' : oneSided s d ⟨true, false⟩ (sign me) (p n) (delta n) base n m1 = (m', .done) := by
      cases me
      · exact h
      · exact h
      · exact absurd rfl hme
    obtain ⟨r, hr, hi, ht⟩ := oneSided_done _ _ _ _ _ _ _ _ _ h'
    have hstep : along s m1.inputs (p n) (sign me) =
        along s m.inputs (upTo p (n + 1)) (sign me) := by
      rw [e1, along_add, upTo_succ]
    rw [hstep] at hr hi
    refine ⟨hi, fun j hj => ?_, fun j hj => ?_⟩
    · rw [ht]
      by_cases hjn : j = n
      · subst hjn
        exact ⟨r, hr, by simp⟩
      · obtain ⟨r', hr', e'⟩ := e2 j (by omega)
        exact ⟨r', hr', by simp [hjn, e']⟩
    · rw [ht]
      have : j ≠ n := by omega
      simp only [this, if_false]
      exact e3 j (by omega)

theorem loop_central (s : Shape) (d : Inst K O)
    (p : Nat → In → K) (delta : Nat → K) (base : O → K) (n : Nat) (m m' : Mem K O)
    (h : loop s d ⟨true, false⟩ .central p delta base n m = (m', .done)) :
    m'.inputs = m.inputs ∧
    (∀ j < n, ∃ r q, Sol d (along s m.inputs (p j) 1) r ∧
      Sol d (along s m.inputs (p j) (-1)) q ∧
      m'.table j = fun o => (r o - q o) / delta j) ∧
    ∀ j, n ≤ j → m'.table j = m.table j := by
  induction n generalizing m' with
  | zero =>
    simp only [loop, Prod.mk.injEq, and_true] at h
    subst h
    exact ⟨rfl, fun j hj => by omega, fun _ _ => rfl⟩
  | succ n ih =>
    obtain ⟨m1, h1, h⟩ := thenDo_done _ _ _ h
    obtain ⟨e1, e2, e3⟩ := ih m1 h1
    obtain ⟨r, q, hr, hq, hi, ht⟩ := twoSided_done _ _ _ _ _ _ _ h
    rw [e1] at hr hq hi
    refine ⟨hi, fun j hj => ?_, fun j hj => ?_⟩
    · rw [ht]
      by_cases hjn : j = n
      · subst hjn
        exact ⟨r, q, hr, hq, by simp⟩
      · obtain ⟨r', q', hr', hq', e'⟩ := e2 j (by omega)
        exact ⟨r', q', hr', hq', by simp [hjn, e']⟩
    · rw [ht]
      have : j ≠ n := by omega
      simp only [this, if_false]
      exact e3 j (by omega)

theorem solution_done (s : Shape) (d : Inst K O) (w : Ask) (me : Method) (n : Nat)
    (p : Nat → In → K) (delta : Nat → K) (x : In → K) (table : Nat → O → K) (buf : O → K)
    (h : (solution s d w me n p delta x table buf).status = .done) :
    ∃ base, Sol d x base ∧ (solution s d w me n p delta x table buf).radiance = some base ∧
      loop s d w me p delta base n ⟨x, table, buf⟩ =
        ((solution s d w me n p delta x table buf).mem, .done) := by
  unfold solution at *
  cases hs : d.solve x with
  | none => rw [hs] at h; simp at h
  | some base =>
    rw [hs] at h
    refine ⟨base, hs, rfl, ?_⟩
    dsimp only at h ⊢
    rw [← h]

end Xrtm.FiniteDiff
