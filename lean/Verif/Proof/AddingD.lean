import Verif.Spec.Adding
import Verif.Proof.AddingC

/-! The formulas of the adding routines are the layers together. -/

namespace Xrtm.Adding

open Mat Spec Matrix

variable {K : Type} [CommRing K] {n : Nat}

/-- The upper layer, the lower layer, the result among the operators. -/
def upper (o : Lin n K) : Layer n K := ⟨o.m .R12, o.m .T12, o.v .S12, o.m .R21, o.m .T21, o.v .S21⟩
def lower (o : Lin n K) : Layer n K := ⟨o.m .R23, o.m .T23, o.v .S23, o.m .R32, o.m .T32, o.v .S32⟩
def both (o : Lin n K) : Layer n K := ⟨o.m .R13, o.m .T13, o.v .S13, o.m .R31, o.m .T31, o.v .S31⟩

def Lin.swap (o : Lin n K) : Lin n K := ⟨fun x => o.m x.swap, fun x => o.v x.swap⟩

theorem vals_swap (f : Fr) (s : Mem n K) : vals f.swap s = (vals f s).swap := rfl

theorem solve {q W : M n K} (h : q * W = 1) (x b : V n K) : W *ᵥ x = b ↔ x = q *ᵥ b := by
  have h' := mul_eq_one_comm.1 h
  constructor
  · rintro rfl
    rw [mulVec_mulVec, h, one_mulVec]
  · rintro rfl
    rw [mulVec_mulVec, h', one_mulVec]

/-- The inverse for the second half. -/
def inv13 (o : Lin n K) (q : M n K) : M n K := 1 + o.m .R21 * q * o.m .R23

theorem inv13_spec {o : Lin n K} {q : M n K} (h : q * (1 - o.m .R23 * o.m .R21) = 1) :
    inv13 o q * (1 - o.swap.m .R23 * o.swap.m .R21) = 1 := by
  show (1 + o.m .R21 * q * o.m .R23) * (1 - o.m .R21 * o.m .R23) = 1
  have e : (1 + o.m .R21 * q * o.m .R23) * (1 - o.m .R21 * o.m .R23) =
      1 - o.m .R21 * o.m .R23 + o.m .R21 * (q * (1 - o.m .R23 * o.m .R21)) * o.m .R23 := by noncomm_ring
  rw [e, h]
  noncomm_ring

/-- What the two halves compute. -/
def sum (o : Lin n K) (q q' : M n K) (t : K) : Layer n K :=
  ⟨oR13 o q, oT31 o.swap q', oS13 o.swap q' t, oR13 o.swap q', oT31 o q, oS31 o q t⟩

theorem middle {o : Lin n K} {q q' : M n K} (h : q * (1 - o.m .R23 * o.m .R21) = 1)
    (h' : q' * (1 - o.m .R21 * o.m .R23) = 1) (a b x y : V n K) :
    (x = a + o.m .R21 *ᵥ y ∧ y = b + o.m .R23 *ᵥ x) ↔
      (y = q *ᵥ (b + o.m .R23 *ᵥ a) ∧ x = q' *ᵥ (a + o.m .R21 *ᵥ b)) := by
  rw [← solve h, ← solve h', sub_mulVec, sub_mulVec, one_mulVec, one_mulVec, ← mulVec_mulVec, ← mulVec_mulVec]
  constructor
  · rintro ⟨e1, e2⟩
    constructor
    · rw [sub_eq_iff_eq_add]
      conv_lhs => rw [e2, e1]
      rw [mulVec_add]; abel
    · rw [sub_eq_iff_eq_add]
      conv_lhs => rw [e1, e2]
      rw [mulVec_add]; abel
  · rintro ⟨e1, e2⟩
    rw [sub_eq_iff_eq_add] at e1 e2
    have hx : x = a + o.m .R21 *ᵥ y := by
      -- both sides solve the same equation
      have e3 : (1 - o.m .R21 * o.m .R23) *ᵥ (a + o.m .R21 *ᵥ y) = a + o.m .R21 *ᵥ b := by
        have := congrArg (fun z => o.m .R21 *ᵥ z) e1
        simp only [mulVec_add] at this
        rw [sub_mulVec, one_mulVec, ← mulVec_mulVec, mulVec_add, mulVec_add, sub_eq_iff_eq_add]
        conv_lhs => rw [this]
        abel
      have e4 : (1 - o.m .R21 * o.m .R23) *ᵥ x = a + o.m .R21 *ᵥ b := by
        rw [sub_mulVec, one_mulVec, ← mulVec_mulVec, sub_eq_iff_eq_add]; exact e2
      rw [(solve h' _ _).1 e4, (solve h' _ _).1 e3]
    refine ⟨hx, ?_⟩
    rw [hx, mulVec_add]
    rw [e1]
    conv_rhs => rw [← e1]
    abel_nf

theorem up_eq (o : Lin n K) (q : M n K) (t : K) (d1 u3 : V n K) :
    oR13 o q *ᵥ d1 + oT31 o q *ᵥ u3 + oS31 o q t =
      o.m .R12 *ᵥ d1 + o.m .T21 *ᵥ (q *ᵥ (o.m .T32 *ᵥ u3 + t • o.v .S32 + o.m .R23 *ᵥ (o.m .T12 *ᵥ d1 + o.v .S12)))
        + o.v .S21 := by
  simp only [oR13, oT31, oS31, oC31, add_mulVec, mulVec_add, ← mulVec_mulVec, mulVec_smul]
  abel

theorem down_eq (o : Lin n K) (q' : M n K) (t : K) (d1 u3 : V n K) :
    oT31 o.swap q' *ᵥ d1 + oR13 o.swap q' *ᵥ u3 + oS13 o.swap q' t =
      o.m .T23 *ᵥ (q' *ᵥ (o.m .T12 *ᵥ d1 + o.v .S12 + o.m .R21 *ᵥ (o.m .T32 *ᵥ u3 + t • o.v .S32)))
        + o.m .R32 *ᵥ u3 + t • o.v .S23 := by
  simp only [oR13, oT31, oS13, oC13, add_mulVec, mulVec_add, ← mulVec_mulVec, mulVec_smul, Lin.swap, MArg.swap,
    VArg.swap]
  abel

theorem stacked {o : Lin n K} {q q' : M n K} (h : q * (1 - o.m .R23 * o.m .R21) = 1)
    (h' : q' * (1 - o.m .R21 * o.m .R23) = 1) (t : K) :
    Stacked (upper o) ((lower o).dim t) (sum o q q' t) := by
  intro d1 u1 d3 u3
  have hm := middle h h' (o.m .T12 *ᵥ d1 + o.v .S12) (o.m .T32 *ᵥ u3 + t • o.v .S32)
  simp only [Layer.Obeys, upper, lower, Layer.dim, sum, up_eq, down_eq]
  constructor
  · rintro ⟨e1, e2⟩
    obtain ⟨a1, a2⟩ := (hm _ _).2 ⟨rfl, rfl⟩
    refine ⟨_, _, ⟨e1, ?_⟩, ?_, e2⟩
    · rw [a1]; abel
    · rw [a2]; abel
  · rintro ⟨d2, u2, ⟨b1, b2⟩, b3, b4⟩
    obtain ⟨a1, a2⟩ := (hm d2 u2).1 ⟨by rw [b2]; abel, by rw [b3]; abel⟩
    rw [← a1, ← a2]
    exact ⟨b1, b4⟩

/-- Without a layer below the interface: only what is seen from above. -/
theorem backed {o : Lin n K} {q : M n K} (h : q * (1 - o.m .R23 * o.m .R21) = 1) (t : K) :
    Backed (upper o) (Mirror.dim t ⟨o.m .R23, o.v .S32⟩) ⟨oR13 o q, oS31 o q t⟩ := by
  intro d1 u1
  have h' : inv13 o q * (1 - o.m .R21 * o.m .R23) = 1 := inv13_spec h
  have hm := middle h h' (o.m .T12 *ᵥ d1 + o.v .S12) (t • o.v .S32)
  have hu := up_eq o q t d1 0
  simp only [mulVec_zero, add_zero, zero_add] at hu
  simp only [Layer.Obeys, upper, Mirror.Obeys, Mirror.dim, hu]
  constructor
  · rintro e1
    obtain ⟨a1, a2⟩ := (hm _ _).2 ⟨rfl, rfl⟩
    refine ⟨inv13 o q *ᵥ (o.m .T12 *ᵥ d1 + o.v .S12 + o.m .R21 *ᵥ (t • o.v .S32)), _, ⟨e1, ?_⟩, ?_⟩
    · rw [a1]; abel
    · rw [a2]; abel
  · rintro ⟨d2, u2, ⟨b1, b2⟩, b3⟩
    obtain ⟨a1, a2⟩ := (hm d2 u2).1 ⟨by rw [b2]; abel, by rw [b3]; abel⟩
    rw [← a1]
    exact b1

/-- A layer is determined by the light it lets through. -/
theorem Layer.unique {a b : Layer n K}
    (h : ∀ d1 u1 d2 u2, a.Obeys d1 u1 d2 u2 → b.Obeys d1 u1 d2 u2) : a = b := by
  have h0 : ∀ d u, a.Rm *ᵥ d + a.Tp *ᵥ u + a.Sp = b.Rm *ᵥ d + b.Tp *ᵥ u + b.Sp ∧
      a.Tm *ᵥ d + a.Rp *ᵥ u + a.Sm = b.Tm *ᵥ d + b.Rp *ᵥ u + b.Sm := fun d u => h d _ _ u ⟨rfl, rfl⟩
  have hS := h0 0 0
  simp only [mulVec_zero, zero_add] at hS
  have ext : ∀ A B : M n K, (∀ v, A *ᵥ v = B *ᵥ v) → A = B := fun A B hv => Matrix.mulVec_injective (funext hv)
  ext1
  · refine ext _ _ fun v => ?_
    have := (h0 v 0).1
    simpa [hS.1] using this
  · refine ext _ _ fun v => ?_
    have := (h0 v 0).2
    simpa [hS.2] using this
  · exact hS.2
  · refine ext _ _ fun v => ?_
    have := (h0 0 v).2
    simpa [hS.2] using this
  · refine ext _ _ fun v => ?_
    have := (h0 0 v).1
    simpa [hS.1] using this
  · exact hS.1

theorem Mirror.unique {a b : Mirror n K} (h : ∀ d u, a.Obeys d u → b.Obeys d u) : a = b := by
  have h0 : ∀ d, a.R *ᵥ d + a.S = b.R *ᵥ d + b.S := fun d => h d _ rfl
  have hS := h0 0
  simp only [mulVec_zero, zero_add] at hS
  ext1
  · refine Matrix.mulVec_injective (funext fun v => ?_)
    have := h0 v
    simpa [hS] using this
  · exact hS

theorem Stacked.unique {a b r r' : Layer n K} (h : Stacked a b r) (h' : Stacked a b r') : r = r' :=
  Layer.unique fun d u d' u' ho => (h' d u d' u').2 ((h d u d' u').1 ho)

theorem Backed.unique {a : Layer n K} {b r r' : Mirror n K} (h : Backed a b r) (h' : Backed a b r') : r = r' :=
  Mirror.unique fun d u ho => (h' d u).2 ((h d u).1 ho)

end Xrtm.Adding
