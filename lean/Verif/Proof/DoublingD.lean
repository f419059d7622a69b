import Verif.Proof.DoublingC
import Verif.Proof.AddingI
import Verif.Spec.Doubling

/-! Doubling puts equal layers together. -/

namespace Xrtm.Doubling

open Mat Adding Matrix Spec

variable {K : Type} [CommRing K] {n : Nat} {inv? : M n K → Option (M n K)} {D R0 T0 q : M n K}

theorem stacked_sym (hD : D * D = 1) (hq : q * (1 - R0 * R0) = 1) (p1 m1 p2 m2 : V n K) :
    Stacked (Layer.sym D R0 T0 p1 m1) (Layer.sym D R0 T0 p2 m2)
      (Layer.sym D (oR R0 T0 q) (oT T0 q) (oP R0 T0 q p1 m1 p2) (oM R0 T0 q m1 p2 m2)) := by
  have dd : ∀ X : M n K, D * (D * X) = X := fun X => by rw [← mul_assoc, hD, one_mul]
  have dv : ∀ X : V n K, D *ᵥ (D *ᵥ X) = X := fun X => by rw [mulVec_mulVec, hD, one_mulVec]
  have h1 : q * (1 - (linOf (Layer.sym D R0 T0 p1 m1) (Layer.sym D R0 T0 p2 m2)).m .R23 *
      (linOf (Layer.sym D R0 T0 p1 m1) (Layer.sym D R0 T0 p2 m2)).m .R21) = 1 := by
    simp only [linOf, Layer.sym, mul_assoc, dd, hq]
  have h2 : D * q * D * (1 - (linOf (Layer.sym D R0 T0 p1 m1) (Layer.sym D R0 T0 p2 m2)).m .R21 *
      (linOf (Layer.sym D R0 T0 p1 m1) (Layer.sym D R0 T0 p2 m2)).m .R23) = 1 := by
    simp only [linOf, Layer.sym]
    have e : D * q * D * (1 - D * R0 * (R0 * D)) = D * (q * (1 - R0 * R0)) * D := by
      simp only [mul_sub, sub_mul, mul_one, mul_assoc, dd]
    rw [e, hq, mul_one, hD]
  have h := stacked h1 h2 1
  rw [Layer.dim_one] at h
  have e : sum (linOf (Layer.sym D R0 T0 p1 m1) (Layer.sym D R0 T0 p2 m2)) q (D * q * D) 1 =
      Layer.sym D (oR R0 T0 q) (oT T0 q) (oP R0 T0 q p1 m1 p2) (oM R0 T0 q m1 p2 m2) := by
    simp only [Adding.sum, oR13, oT31, oS13, oS31, oC13, oC31, linOf, Lin.swap, MArg.swap, VArg.swap, Layer.sym, oR, oT, oP, oM,
      one_smul]
    refine Layer.ext ?_ ?_ ?_ ?_ ?_ ?_
    · simp only [mul_add, add_mul, mul_assoc, dd]
    · simp only [mul_assoc, dd]
    · simp only [mulVec_add, ← mulVec_mulVec, dv]; abel
    · simp only [mul_add, mul_assoc, dd]
    · rfl
    · simp only [mulVec_add, ← mulVec_mulVec, dv]; abel
  rw [e] at h
  exact h

/-! ## Pairs of layers -/

theorem through_pairs {f g : Nat → Layer n K} (l : List Nat)
    (h : ∀ i ∈ l, Stacked (g (2 * i)) (g (2 * i + 1)) (f i)) (dn up dn' up' : V n K) :
    Through (l.map f) dn up dn' up' ↔ Through (l.flatMap fun i => [g (2 * i), g (2 * i + 1)]) dn up dn' up' := by
  induction l generalizing dn up with
  | nil => rfl
  | cons i l ih =>
      simp only [List.map_cons, List.flatMap_cons, List.cons_append, List.nil_append, Through]
      have hi := h i (by simp)
      have ih' := fun dn up => ih (fun j hj => h j (by simp [hj])) dn up
      constructor
      · rintro ⟨x, y, h1, h2⟩
        obtain ⟨u, v, h3, h4⟩ := (hi _ _ _ _).1 h1
        exact ⟨u, v, h3, x, y, h4, (ih' _ _).1 h2⟩
      · rintro ⟨u, v, h3, x, y, h4, h5⟩
        exact ⟨x, y, (hi _ _ _ _).2 ⟨u, v, h3, h4⟩, (ih' _ _).2 h5⟩

theorem range_pairs {α : Type} (g : Nat → α) (m : Nat) :
    (List.range (2 * m)).map g = (List.range m).flatMap fun i => [g (2 * i), g (2 * i + 1)] := by
  induction m with
  | zero => rfl
  | succ m ih =>
      rw [show 2 * (m + 1) = 2 * m + 1 + 1 from by ring, List.range_succ, List.range_succ, List.map_append, List.map_append, ih,
        List.range_succ, List.flatMap_append]
      simp

theorem joined_pairs {f g : Nat → Layer n K} {m : Nat} {r : Layer n K}
    (h : ∀ i, i < m → Stacked (g (2 * i)) (g (2 * i + 1)) (f i)) (hj : Joined ((List.range m).map f) r) :
    Joined ((List.range (2 * m)).map g) r := by
  intro a b c d
  rw [range_pairs, ← through_pairs (f := f) _ (fun i hi => h i (List.mem_range.1 hi))]
  exact hj a b c d

/-! ## One turn -/

theorem run_append (p q : List (Instr K)) (s : Mem n K) :
    run inv? (p ++ q) s = (run inv? p s).bind fun s' => run inv? q s' := by
  induction p generalizing s with
  | nil => rfl
  | cons i is ih =>
      simp only [List.cons_append, run]
      cases step inv? s i with
      | ok s1 => exact ih s1
      | error e => rfl

theorem plain_inactive {nd : Nat} {fl : Flags} {sol th : Bool} (h : plain nd fl sol th = true) {i : Nat} (hi : i < nd) :
    fl.lay i = false ∧ (sol = true → fl.beam i = false) ∧ (th = true → fl.therm i = false) := by
  simp only [plain, Bool.and_eq_true, Bool.not_eq_true', List.any_eq_false, List.mem_range, Bool.and_eq_false_iff,
    Bool.not_eq_true] at h
  refine ⟨h.1.1 i hi, fun hs => ?_, fun ht => ?_⟩
  · rcases h.1.2 with h' | h'
    · simp [hs] at h'
    · exact h' i hi
  · rcases h.2 with h' | h'
    · simp [ht] at h'
    · exact h' i hi

theorem step_ok (hinv : Exact inv?) {s s' : Mem n K} {nd : Nat} {x : Scal K} {fl : Flags} {sol th init pl : Bool}
    (h : run inv? (if pl then layerDouble x.t x.g sol th init else layerDoubleL nd x fl sol th init) s = .ok s') :
    ∃ q, q * (1 - s.m R * s.m R) = 1 ∧ Val q x.t x.g sol th init s s' ∧
      (pl = false → ∀ i, i < nd → Out q x fl sol th init i s s s') := by
  by_cases hq : ∃ q, q * (1 - s.m R * s.m R) = 1
  · obtain ⟨q, hq⟩ := hq
    refine ⟨q, hq, ?_⟩
    cases pl with
    | true =>
        have := layerDouble_post hinv hq x.t x.g sol th init
        rw [if_pos rfl] at h
        rw [h] at this
        exact ⟨this.1, fun e => by simp at e⟩
    | false =>
        have := layerDoubleL_post hinv hq nd x fl sol th init
        rw [if_neg (by simp)] at h
        rw [h] at this
        exact ⟨this.1, fun _ => this.2.1⟩
  · exfalso
    cases pl with
    | true =>
        rw [if_pos rfl, layerDouble, List.append_assoc, List.append_assoc, run_append, head_fail hinv hq] at h
        simp [Except.bind] at h
    | false =>
        rw [if_neg (by simp), layerDoubleL] at h
        simp only [List.append_assoc] at h
        rw [run_append, headL_fail hinv hq] at h
        simp [Except.bind] at h

theorem step_fails (hinv : Exact inv?) {s : Mem n K} {nd : Nat} {x : Scal K} {fl : Flags} {sol th init pl : Bool} {err : Fault}
    (h : run inv? (if pl then layerDouble x.t x.g sol th init else layerDoubleL nd x fl sol th init) s = .error err) :
    err = .singular ∧ ¬ Regular (s.m R) (s.m R) := by
  by_cases hq : ∃ q, q * (1 - s.m R * s.m R) = 1
  · exfalso
    obtain ⟨q, hq⟩ := hq
    cases pl with
    | true =>
        have := layerDouble_post hinv hq x.t x.g sol th init
        rw [if_pos rfl] at h
        rw [h] at this
        exact this
    | false =>
        have := layerDoubleL_post hinv hq nd x fl sol th init
        rw [if_neg (by simp)] at h
        rw [h] at this
        exact this
  · refine ⟨?_, hq⟩
    cases pl with
    | true =>
        rw [if_pos rfl, layerDouble, List.append_assoc, List.append_assoc, run_append, head_fail hinv hq] at h
        simp [Except.bind] at h
        exact h.symm
    | false =>
        rw [if_neg (by simp), layerDoubleL] at h
        simp only [List.append_assoc] at h
        rw [run_append, headL_fail hinv hq] at h
        simp [Except.bind] at h
        exact h.symm

/-! ## All turns -/

variable {nd : Nat} {fl : Flags} {sol th : Bool} {pth : Nat → K}

theorem loop_succ {k : Nat} {init : Bool} {x : Scal K} {c : K} {s : Mem n K} {r : Mem n K × Scal K}
    (h : loop inv? nd fl sol th pth (k + 1) init x c s = .ok r) :
    ∃ s1, run inv? (if plain nd fl sol th then layerDouble x.t x.g sol th init else layerDoubleL nd x fl sol th init) s = .ok s1 ∧
      loop inv? nd fl sol th pth k false (x.next c pth nd fl sol th) (c * 2) s1 = .ok r := by
  simp only [loop] at h
  split at h
  · rename_i s1 e
    exact ⟨s1, e, h⟩
  · simp at h

theorem loop_fails (hinv : Exact inv?) {k : Nat} {init : Bool} {x : Scal K} {c : K} {s : Mem n K} {err : Fault}
    (h : loop inv? nd fl sol th pth k init x c s = .error err) : err = .singular := by
  induction k generalizing init x c s with
  | zero => simp [loop] at h
  | succ k ih =>
      simp only [loop] at h
      split at h
      · exact ih h
      · rename_i e he
        rw [← (step_fails hinv he).1]
        injection h with h
        exact h.symm

theorem loop_solar (hinv : Exact inv?) (hD : D * D = 1) (hs : sol = true) {k : Nat} {init : Bool} {x x' : Scal K} {c : K}
    {s s' : Mem n K} (h : loop inv? nd fl sol th pth k init x c s = .ok (s', x')) :
    Joined (dimming (2 ^ k) x.t D (s.m R) (s.m T) (s.v Sep) (s.v Sem))
      (Layer.sym D (s'.m R) (s'.m T) (s'.v Sep) (s'.v Sem)) ∧ x'.t = x.t ^ 2 ^ k := by
  induction k generalizing init x c s with
  | zero =>
      simp only [loop, Except.ok.injEq, Prod.mk.injEq] at h
      obtain ⟨rfl, rfl⟩ := h
      refine ⟨?_, by simp⟩
      simpa [dimming] using Joined.one (Layer.sym D (s.m R) (s.m T) (s.v Sep) (s.v Sem))
  | succ k ih =>
      obtain ⟨s1, h1, h2⟩ := loop_succ h
      obtain ⟨q, hq, hv, -⟩ := step_ok hinv h1
      obtain ⟨j, e⟩ := ih h2
      have ht : (x.next c pth nd fl sol th).t = x.t ^ 2 := by simp [Scal.next, hs, pow_two]
      rw [ht] at j e
      refine ⟨?_, by rw [e, ← pow_mul]; ring_nf⟩
      unfold dimming at j ⊢
      rw [pow_succ, mul_comm]
      refine joined_pairs (fun i _ => ?_) j
      obtain ⟨e1, e2⟩ := hv.se hs
      rw [hv.hr, hv.ht, e1, e2]
      have := stacked_sym (T0 := s.m T) hD hq (x.t ^ (2 * i) • s.v Sep) (x.t ^ (2 * i) • s.v Sem)
        (x.t ^ (2 * i + 1) • s.v Sep) (x.t ^ (2 * i + 1) • s.v Sem)
      refine cast ?_ this
      congr 2
      · simp only [oP, smul_add, mulVec_smul, mulVec_add, smul_smul, ← pow_mul, ← pow_succ]
      · simp only [oM, smul_add, mulVec_smul, mulVec_add, smul_smul, ← pow_mul, ← pow_succ]

theorem loop_thermal (hinv : Exact inv?) (hD : D * D = 1) (ht : th = true) {k : Nat} {init : Bool} {x x' : Scal K} {c : K}
    {s s' : Mem n K} (h : loop inv? nd fl sol th pth k init x c s = .ok (s', x')) :
    Joined (growing (2 ^ k) x.g D (s.m R) (s.m T) (s.v Slp) (s.v Slm) (Lp0 init s) (Lm0 init s))
      (Layer.sym D (s'.m R) (s'.m T) (s'.v Slp) (s'.v Slm)) := by
  induction k generalizing init x c s with
  | zero =>
      simp only [loop, Except.ok.injEq, Prod.mk.injEq] at h
      obtain ⟨rfl, rfl⟩ := h
      simpa [growing] using Joined.one (Layer.sym D (s.m R) (s.m T) (s.v Slp) (s.v Slm))
  | succ k ih =>
      obtain ⟨s1, h1, h2⟩ := loop_succ h
      obtain ⟨q, hq, hv, -⟩ := step_ok hinv h1
      have j := ih h2
      have hg : (x.next c pth nd fl sol th).g = x.g * 2 := by simp [Scal.next, ht]
      rw [hg] at j
      unfold growing at j ⊢
      rw [pow_succ, mul_comm]
      refine joined_pairs (fun i _ => ?_) j
      obtain ⟨e1, e2, e3, e4⟩ := hv.sl ht
      simp only [Lp0, Lm0] at e1 e2 e3 e4 ⊢
      generalize (if init = true then s.v Slp else s.v Lp) = lp at e1 e2 e3 e4 ⊢
      generalize (if init = true then s.v Slm else s.v Lm) = lm at e1 e2 e3 e4 ⊢
      rw [if_neg (by simp), if_neg (by simp), hv.hr, hv.ht, e1, e2, e3, e4]
      have := stacked_sym (T0 := s.m T) hD hq (s.v Slp + (((2 * i : Nat) : K) * x.g) • lp)
        (s.v Slm + (((2 * i : Nat) : K) * x.g) • lm)
        (s.v Slp + (((2 * i + 1 : Nat) : K) * x.g) • lp) (s.v Slm + (((2 * i + 1 : Nat) : K) * x.g) • lm)
      refine cast ?_ this
      have c1 : ((2 * i + 1 : Nat) : K) * x.g = (i : K) * (x.g * 2) + x.g := by push_cast; ring
      have c2 : ((2 * i : Nat) : K) * x.g = (i : K) * (x.g * 2) := by push_cast; ring
      congr 2
      · simp only [oP, smul_add, mulVec_smul, mulVec_add, c1, c2, add_smul]; abel
      · simp only [oM, smul_add, mulVec_smul, mulVec_add, c1, c2, add_smul]; abel

end Xrtm.Doubling
