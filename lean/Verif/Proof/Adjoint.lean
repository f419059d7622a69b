import Verif.Model.Adjoint
import Verif.Spec.Adjoint
import Verif.Proof.AddingJ
import Mathlib.LinearAlgebra.Matrix.Trace

/-! The reverse adding routines against the derivatives. -/

namespace Xrtm.Adjoint

open Mat Adding Spec Matrix

variable {K : Type} [CommRing K] {n : Nat} {inv? : M n K → Option (M n K)}

section pairing
variable (x y z : M n K) (u v w : V n K)

theorem mpair_eq : mpair x y = (xᵀ * y).trace := by
  simp only [mpair, Matrix.trace, Matrix.diag, Matrix.mul_apply, Matrix.transpose_apply]
  exact Finset.sum_comm

theorem mpair_add_left : mpair (x + y) z = mpair x z + mpair y z := by
  simp [mpair, add_mul, Finset.sum_add_distrib]
theorem mpair_add_right : mpair x (y + z) = mpair x y + mpair x z := by
  simp [mpair, mul_add, Finset.sum_add_distrib]
theorem mpair_zero_left : mpair 0 x = 0 := by simp [mpair]
theorem mpair_zero_right : mpair x 0 = 0 := by simp [mpair]

theorem mpair_tmul : mpair (xᵀ * y) z = mpair y (x * z) := by
  simp [mpair_eq, Matrix.mul_assoc]

theorem mpair_mult : mpair (x * yᵀ) z = mpair x (z * y) := by
  simp only [mpair_eq, transpose_mul, transpose_transpose, Matrix.mul_assoc]
  rw [Matrix.trace_mul_comm, Matrix.mul_assoc]

theorem mpair_outer : mpair (vecMulVec u v) z = vpair u (z *ᵥ v) := by
  simp only [mpair, vecMulVec_apply, vpair, mulVec, dotProduct, Finset.mul_sum]
  refine Finset.sum_congr rfl fun i _ => Finset.sum_congr rfl fun j _ => ?_
  ring

theorem vpair_add_left : vpair (u + v) w = vpair u w + vpair v w := by
  simp [vpair, add_mul, Finset.sum_add_distrib]
theorem vpair_add_right : vpair u (v + w) = vpair u v + vpair u w := by
  simp [vpair, mul_add, Finset.sum_add_distrib]
theorem vpair_zero_left : vpair 0 u = 0 := by simp [vpair]
theorem vpair_zero_right : vpair u 0 = 0 := by simp [vpair]
theorem vpair_smul_left (t : K) : vpair (t • u) v = t * vpair u v := by
  simp [vpair, Finset.mul_sum, mul_assoc]
theorem vpair_smul_right (t : K) : vpair u (t • v) = t * vpair u v := by
  simp only [vpair, Finset.mul_sum, Pi.smul_apply, smul_eq_mul]
  exact Finset.sum_congr rfl fun _ _ => by ring

theorem vpair_tmul : vpair (xᵀ *ᵥ u) v = vpair u (x *ᵥ v) := by
  have e : ∀ a b : V n K, vpair a b = a ⬝ᵥ b := fun _ _ => rfl
  rw [e, e, Matrix.mulVec_transpose, ← Matrix.dotProduct_mulVec]

end pairing

/-- The operators a half sees. -/
def ops (d : Bool) (s : AMem n K) : Lin n K := ⟨fun x => s.m (.op (ms d x)), fun x => s.v (.op (vs d x))⟩

/-- Derivatives as a half sees them. -/
def side (d : Bool) (L : Lin n K) : Lin n K := ⟨fun x => L.m (ms d x), fun x => L.v (vs d x)⟩

/-- The factors the forward routine saved. -/
structure Saved (inv? : M n K → Option (M n K)) (d : Bool) (q : M n K) (c : V n K) (s : AMem n K) : Prop where
  P : inv? (s.m (.P d)) = some qᵀ
  A : s.m (.A d) = s.m (.op (ms d .T21)) * q
  B : s.m (.B d) = s.m (.op (ms d .R23)) * s.m (.op (ms d .T12))
  C : s.v (.C d) = c

/-- The weights of the operators of the two layers applied to their derivatives. -/
def weigh (s : AMem n K) (L : Lin n K) : K :=
  mpair (s.m (.adj .R12)) (L.m .R12) + mpair (s.m (.adj .T12)) (L.m .T12) + vpair (s.v (.adj .S12)) (L.v .S12) +
  mpair (s.m (.adj .R21)) (L.m .R21) + mpair (s.m (.adj .T21)) (L.m .T21) + vpair (s.v (.adj .S21)) (L.v .S21) +
  (mpair (s.m (.adj .R23)) (L.m .R23) + mpair (s.m (.adj .T23)) (L.m .T23) + vpair (s.v (.adj .S23)) (L.v .S23) +
  mpair (s.m (.adj .R32)) (L.m .R32) + mpair (s.m (.adj .T32)) (L.m .T32) + vpair (s.v (.adj .S32)) (L.v .S32))

/-- What a half leaves: the weights of its results are moved, its results are cleared, the operators, the factors and
the results of the other half are as before. `wT`: with the transmission; `wR`: the weights of
the reflection are cleared too. -/
structure Half (wR wT : Bool) (d : Bool) (q : M n K) (c : V n K) (t : K) (L : Lin n K) (s s' : AMem n K) : Prop where
  sum : weigh s' L = weigh s L + (mpair (s.m (.adj (ms d .R13))) (gR13 (ops d s) (side d L) q) +
    (if wT then mpair (s.m (.adj (ms d .T31))) (gT31 (ops d s) (side d L) q) else 0) +
    vpair (s.v (.adj (vs d .S31))) (gS31 (ops d s) (side d L) q c t 0))
  R : s'.m (.adj (ms d .R13)) = if wR then 0 else s.m (.adj (ms d .R13))
  T : s'.m (.adj (ms d .T31)) = if wT then 0 else s.m (.adj (ms d .T31))
  S : s'.v (.adj (vs d .S31)) = 0
  R2 : s'.m (.adj (ms d .R31)) = s.m (.adj (ms d .R31))
  T2 : s'.m (.adj (ms d .T13)) = s.m (.adj (ms d .T13))
  S2 : s'.v (.adj (vs d .S13)) = s.v (.adj (vs d .S13))
  opm : ∀ x, s'.m (.op x) = s.m (.op x)
  opv : ∀ x, s'.v (.op x) = s.v (.op x)
  fP : ∀ d, s'.m (.P d) = s.m (.P d)
  fA : ∀ d, s'.m (.A d) = s.m (.A d)
  fB : ∀ d, s'.m (.B d) = s.m (.B d)
  fC : ∀ d, s'.v (.C d) = s.v (.C d)

theorem run_append (p p' : List (AInstr K)) (s : AMem n K) :
    run inv? (p ++ p') s = (match run inv? p s with | .ok s' => run inv? p' s' | .error e => .error e) := by
  induction p generalizing s with
  | nil => rfl
  | cons i p ih =>
      simp only [List.cons_append, run]
      cases step inv? s i with
      | ok s' => exact ih s'
      | error e => rfl

/-- The upper layer does not vary; only its sources vary. -/
def NoUp (L : Lin n K) : Prop := L.m .R12 = 0 ∧ L.m .T12 = 0 ∧ L.m .R21 = 0 ∧ L.m .T21 = 0
def NoUpS (L : Lin n K) : Prop := L.v .S12 = 0 ∧ L.v .S21 = 0
def NoLo (L : Lin n K) : Prop := L.m .R23 = 0 ∧ L.m .T32 = 0

-- HALVES

theorem refUPa_half {d : Bool} {q : M n K} {c : V n K} {t : K} {L : Lin n K} {s : AMem n K}
    (hS : Saved inv? d q c s) (h1 : NoUp (side d L)) (h2 : NoUpS (side d L)) (h3 : NoLo (side d L)) :
    ∃ s', run inv? (preDa d ++ refUPa d t) s = .ok s' ∧ Half false false d q c t L s s' := by
  rcases hS with ⟨hP, hA, hB, hC⟩
  obtain ⟨z1, z2, z3, z4⟩ := h1
  obtain ⟨z5, z6⟩ := h2
  obtain ⟨z7, z8⟩ := h3
  cases d <;>
  (simp only [ms, vs, side, MArg.swap, VArg.swap, if_true, if_false, Bool.false_eq_true] at hP hA hB hC z1 z2 z3 z4 z5 z6 z7 z8
   refine ⟨_, by
    simp only [refUPa, preDa, run, step, AMem.setM, AMem.setV, ms, vs, MArg.swap, VArg.swap, if_true, if_false,
      List.cons_append, List.nil_append,
      reduceCtorEq, or_self, MC.adj.injEq, VC.adj.injEq, MC.op.injEq, VC.op.injEq, Bool.false_eq_true]; rfl, ?_⟩
   constructor <;>
   simp only [weigh, gR13, gT31, gS31, gA, ops, side, tp, ms, vs, MArg.swap, VArg.swap, if_true, if_false,
      reduceCtorEq, MC.adj.injEq, VC.adj.injEq, MC.op.injEq, VC.op.injEq, hA, hB, hC, Bool.false_eq_true,
      implies_true, z1, z2, z3, z4, z5, z6, z7, z8]
   simp only [mpair_add_left, mpair_add_right, mpair_zero_left, mpair_zero_right, mpair_tmul, mpair_mult, mpair_outer,
      vpair_add_left, vpair_add_right, vpair_zero_left, vpair_zero_right, vpair_smul_left, vpair_smul_right, vpair_tmul,
      mul_add, add_mul, Matrix.mul_zero, Matrix.zero_mul,
      mulVec_add, add_mulVec, mulVec_zero, zero_mulVec, mulVec_smul, ← mulVec_mulVec, zero_smul, add_zero, zero_add]
   try simp only [Matrix.mul_assoc]
   try ring)

theorem refPPa_half {d : Bool} {q : M n K} {c : V n K} {t : K} {L : Lin n K} {s : AMem n K}
    (hS : Saved inv? d q c s) (h1 : NoUp (side d L)) (h3 : NoLo (side d L)) :
    ∃ s', run inv? (preDa d ++ refPPa d t) s = .ok s' ∧ Half false false d q c t L s s' := by
  rcases hS with ⟨hP, hA, hB, hC⟩
  obtain ⟨z1, z2, z3, z4⟩ := h1
  obtain ⟨z7, z8⟩ := h3
  cases d <;>
  (simp only [ms, vs, side, MArg.swap, VArg.swap, if_true, if_false, Bool.false_eq_true] at hP hA hB hC z1 z2 z3 z4 z7 z8
   refine ⟨_, by
    simp only [refPPa, preDa, run, step, AMem.setM, AMem.setV, ms, vs, MArg.swap, VArg.swap, if_true, if_false,
      List.cons_append, List.nil_append,
      reduceCtorEq, or_self, MC.adj.injEq, VC.adj.injEq, MC.op.injEq, VC.op.injEq, Bool.false_eq_true]; rfl, ?_⟩
   constructor <;>
   simp only [weigh, gR13, gT31, gS31, gA, ops, side, tp, ms, vs, MArg.swap, VArg.swap, if_true, if_false,
      reduceCtorEq, MC.adj.injEq, VC.adj.injEq, MC.op.injEq, VC.op.injEq, hA, hB, hC, Bool.false_eq_true,
      implies_true, z1, z2, z3, z4, z7, z8]
   simp only [mpair_add_left, mpair_add_right, mpair_zero_left, mpair_zero_right, mpair_tmul, mpair_mult, mpair_outer,
      vpair_add_left, vpair_add_right, vpair_zero_left, vpair_zero_right, vpair_smul_left, vpair_smul_right, vpair_tmul,
      mul_add, add_mul, Matrix.mul_zero, Matrix.zero_mul,
      mulVec_add, add_mulVec, mulVec_zero, zero_mulVec, mulVec_smul, ← mulVec_mulVec, zero_smul, add_zero, zero_add]
   try simp only [Matrix.mul_assoc]
   try ring)

theorem refULa_half {d : Bool} {q : M n K} {c : V n K} {t : K} {L : Lin n K} {s : AMem n K}
    (hS : Saved inv? d q c s) (h1 : NoUp (side d L)) (h2 : NoUpS (side d L)) :
    ∃ s', run inv? (preDa d ++ refULa d t) s = .ok s' ∧ Half true false d q c t L s s' := by
  rcases hS with ⟨hP, hA, hB, hC⟩
  obtain ⟨z1, z2, z3, z4⟩ := h1
  obtain ⟨z5, z6⟩ := h2
  cases d <;>
  (simp only [ms, vs, side, MArg.swap, VArg.swap, if_true, if_false, Bool.false_eq_true] at hP hA hB hC z1 z2 z3 z4 z5 z6
   refine ⟨_, by
    simp only [refULa, preDa, run, step, AMem.setM, AMem.setV, ms, vs, MArg.swap, VArg.swap, if_true, if_false,
      List.cons_append, List.nil_append,
      reduceCtorEq, or_self, MC.adj.injEq, VC.adj.injEq, MC.op.injEq, VC.op.injEq, hP, Bool.false_eq_true]; rfl, ?_⟩
   constructor <;>
   simp only [weigh, gR13, gT31, gS31, gA, ops, side, tp, ms, vs, MArg.swap, VArg.swap, if_true, if_false,
      reduceCtorEq, MC.adj.injEq, VC.adj.injEq, MC.op.injEq, VC.op.injEq, hA, hB, hC, Bool.false_eq_true,
      implies_true, z1, z2, z3, z4, z5, z6]
   simp only [mpair_add_left, mpair_add_right, mpair_zero_left, mpair_zero_right, mpair_tmul, mpair_mult, mpair_outer,
      vpair_add_left, vpair_add_right, vpair_zero_left, vpair_zero_right, vpair_smul_left, vpair_smul_right, vpair_tmul,
      mul_add, add_mul, Matrix.mul_zero, Matrix.zero_mul,
      mulVec_add, add_mulVec, mulVec_zero, zero_mulVec, mulVec_smul, ← mulVec_mulVec, zero_smul, add_zero, zero_add]
   try simp only [Matrix.mul_assoc]
   try ring)

theorem refPLa_half {d : Bool} {q : M n K} {c : V n K} {t : K} {L : Lin n K} {s : AMem n K}
    (hS : Saved inv? d q c s) (h1 : NoUp (side d L)) :
    ∃ s', run inv? (preDa d ++ refPLa d t) s = .ok s' ∧ Half true false d q c t L s s' := by
  rcases hS with ⟨hP, hA, hB, hC⟩
  obtain ⟨z1, z2, z3, z4⟩ := h1
  cases d <;>
  (simp only [ms, vs, side, MArg.swap, VArg.swap, if_true, if_false, Bool.false_eq_true] at hP hA hB hC z1 z2 z3 z4
   refine ⟨_, by
    simp only [refPLa, preDa, run, step, AMem.setM, AMem.setV, ms, vs, MArg.swap, VArg.swap, if_true, if_false,
      List.cons_append, List.nil_append,
      reduceCtorEq, or_self, MC.adj.injEq, VC.adj.injEq, MC.op.injEq, VC.op.injEq, hP, Bool.false_eq_true]; rfl, ?_⟩
   constructor <;>
   simp only [weigh, gR13, gT31, gS31, gA, ops, side, tp, ms, vs, MArg.swap, VArg.swap, if_true, if_false,
      reduceCtorEq, MC.adj.injEq, VC.adj.injEq, MC.op.injEq, VC.op.injEq, hA, hB, hC, Bool.false_eq_true,
      implies_true, z1, z2, z3, z4]
   simp only [mpair_add_left, mpair_add_right, mpair_zero_left, mpair_zero_right, mpair_tmul, mpair_mult, mpair_outer,
      vpair_add_left, vpair_add_right, vpair_zero_left, vpair_zero_right, vpair_smul_left, vpair_smul_right, vpair_tmul,
      mul_add, add_mul, Matrix.mul_zero, Matrix.zero_mul,
      mulVec_add, add_mulVec, mulVec_zero, zero_mulVec, mulVec_smul, ← mulVec_mulVec, zero_smul, add_zero, zero_add]
   try simp only [Matrix.mul_assoc]
   try ring)

theorem refLPa_half {d : Bool} {q : M n K} {c : V n K} {t : K} {L : Lin n K} {s : AMem n K}
    (hS : Saved inv? d q c s) (h3 : NoLo (side d L)) :
    ∃ s', run inv? (preDa d ++ refLPa d t) s = .ok s' ∧ Half true false d q c t L s s' := by
  rcases hS with ⟨hP, hA, hB, hC⟩
  obtain ⟨z7, z8⟩ := h3
  cases d <;>
  (simp only [ms, vs, side, MArg.swap, VArg.swap, if_true, if_false, Bool.false_eq_true] at hP hA hB hC z7 z8
   refine ⟨_, by
    simp only [refLPa, preDa, run, step, AMem.setM, AMem.setV, ms, vs, MArg.swap, VArg.swap, if_true, if_false,
      List.cons_append, List.nil_append,
      reduceCtorEq, or_self, MC.adj.injEq, VC.adj.injEq, MC.op.injEq, VC.op.injEq, hP, Bool.false_eq_true]; rfl, ?_⟩
   constructor <;>
   simp only [weigh, gR13, gT31, gS31, gA, ops, side, tp, ms, vs, MArg.swap, VArg.swap, if_true, if_false,
      reduceCtorEq, MC.adj.injEq, VC.adj.injEq, MC.op.injEq, VC.op.injEq, hA, hB, hC, Bool.false_eq_true,
      implies_true, z7, z8]
   simp only [mpair_add_left, mpair_add_right, mpair_zero_left, mpair_zero_right, mpair_tmul, mpair_mult, mpair_outer,
      vpair_add_left, vpair_add_right, vpair_zero_left, vpair_zero_right, vpair_smul_left, vpair_smul_right, vpair_tmul,
      mul_add, add_mul, Matrix.mul_zero, Matrix.zero_mul,
      mulVec_add, add_mulVec, mulVec_zero, zero_mulVec, mulVec_smul, ← mulVec_mulVec, zero_smul, add_zero, zero_add]
   try simp only [Matrix.mul_assoc]
   try ring)

theorem refLLa_half {d : Bool} {q : M n K} {c : V n K} {t : K} {L : Lin n K} {s : AMem n K}
    (hS : Saved inv? d q c s) :
    ∃ s', run inv? (preDa d ++ refLLa d t) s = .ok s' ∧ Half true false d q c t L s s' := by
  rcases hS with ⟨hP, hA, hB, hC⟩
  cases d <;>
  (simp only [ms, vs, side, MArg.swap, VArg.swap, if_true, if_false, Bool.false_eq_true] at hP hA hB hC
   refine ⟨_, by
    simp only [refLLa, preDa, run, step, AMem.setM, AMem.setV, ms, vs, MArg.swap, VArg.swap, if_true, if_false,
      List.cons_append, List.nil_append,
      reduceCtorEq, or_self, MC.adj.injEq, VC.adj.injEq, MC.op.injEq, VC.op.injEq, hP, Bool.false_eq_true]; rfl, ?_⟩
   constructor <;>
   simp only [weigh, gR13, gT31, gS31, gA, ops, side, tp, ms, vs, MArg.swap, VArg.swap, if_true, if_false,
      reduceCtorEq, MC.adj.injEq, VC.adj.injEq, MC.op.injEq, VC.op.injEq, hA, hB, hC, Bool.false_eq_true,
      implies_true]
   simp only [mpair_add_left, mpair_add_right, mpair_zero_left, mpair_zero_right, mpair_tmul, mpair_mult, mpair_outer,
      vpair_add_left, vpair_add_right, vpair_zero_left, vpair_zero_right, vpair_smul_left, vpair_smul_right, vpair_tmul,
      mul_add, add_mul, Matrix.mul_zero, Matrix.zero_mul,
      mulVec_add, add_mulVec, mulVec_zero, zero_mulVec, mulVec_smul, ← mulVec_mulVec, zero_smul, add_zero, zero_add]
   try simp only [Matrix.mul_assoc]
   try ring)

theorem allULa_half {d : Bool} {q : M n K} {c : V n K} {t : K} {L : Lin n K} {s : AMem n K}
    (hS : Saved inv? d q c s) (h1 : NoUp (side d L)) (h2 : NoUpS (side d L)) :
    ∃ s', run inv? (preDa d ++ allULa d t) s = .ok s' ∧ Half true true d q c t L s s' := by
  rcases hS with ⟨hP, hA, hB, hC⟩
  obtain ⟨z1, z2, z3, z4⟩ := h1
  obtain ⟨z5, z6⟩ := h2
  cases d <;>
  (simp only [ms, vs, side, MArg.swap, VArg.swap, if_true, if_false, Bool.false_eq_true] at hP hA hB hC z1 z2 z3 z4 z5 z6
   refine ⟨_, by
    simp only [allULa, preDa, run, step, AMem.setM, AMem.setV, ms, vs, MArg.swap, VArg.swap, if_true, if_false,
      List.cons_append, List.nil_append,
      reduceCtorEq, or_self, MC.adj.injEq, VC.adj.injEq, MC.op.injEq, VC.op.injEq, hP, Bool.false_eq_true]; rfl, ?_⟩
   constructor <;>
   simp only [weigh, gR13, gT31, gS31, gA, ops, side, tp, ms, vs, MArg.swap, VArg.swap, if_true, if_false,
      reduceCtorEq, MC.adj.injEq, VC.adj.injEq, MC.op.injEq, VC.op.injEq, hA, hB, hC, Bool.false_eq_true,
      implies_true, z1, z2, z3, z4, z5, z6]
   simp only [mpair_add_left, mpair_add_right, mpair_zero_left, mpair_zero_right, mpair_tmul, mpair_mult, mpair_outer,
      vpair_add_left, vpair_add_right, vpair_zero_left, vpair_zero_right, vpair_smul_left, vpair_smul_right, vpair_tmul,
      mul_add, add_mul, Matrix.mul_zero, Matrix.zero_mul,
      mulVec_add, add_mulVec, mulVec_zero, zero_mulVec, mulVec_smul, ← mulVec_mulVec, zero_smul, add_zero, zero_add]
   try simp only [Matrix.mul_assoc]
   try ring)

theorem allLUa_half {d : Bool} {q : M n K} {c : V n K} {t : K} {L : Lin n K} {s : AMem n K}
    (hS : Saved inv? d q c s) (h3 : NoLo (side d L)) (z9 : (side d L).v .S32 = 0) :
    ∃ s', run inv? (preDa d ++ allLUa d) s = .ok s' ∧ Half true true d q c t L s s' := by
  rcases hS with ⟨hP, hA, hB, hC⟩
  obtain ⟨z7, z8⟩ := h3
  cases d <;>
  (simp only [ms, vs, side, MArg.swap, VArg.swap, if_true, if_false, Bool.false_eq_true] at hP hA hB hC z7 z8 z9
   refine ⟨_, by
    simp only [allLUa, preDa, run, step, AMem.setM, AMem.setV, ms, vs, MArg.swap, VArg.swap, if_true, if_false,
      List.cons_append, List.nil_append,
      reduceCtorEq, or_self, MC.adj.injEq, VC.adj.injEq, MC.op.injEq, VC.op.injEq, hP, Bool.false_eq_true]; rfl, ?_⟩
   constructor <;>
   simp only [weigh, gR13, gT31, gS31, gA, ops, side, tp, ms, vs, MArg.swap, VArg.swap, if_true, if_false,
      reduceCtorEq, MC.adj.injEq, VC.adj.injEq, MC.op.injEq, VC.op.injEq, hA, hB, hC, Bool.false_eq_true,
      implies_true, z7, z8, z9]
   simp only [mpair_add_left, mpair_add_right, mpair_zero_left, mpair_zero_right, mpair_tmul, mpair_mult, mpair_outer,
      vpair_add_left, vpair_add_right, vpair_zero_left, vpair_zero_right, vpair_smul_left, vpair_smul_right, vpair_tmul,
      mul_add, add_mul, Matrix.mul_zero, Matrix.zero_mul,
      mulVec_add, add_mulVec, mulVec_zero, zero_mulVec, mulVec_smul, ← mulVec_mulVec, zero_smul, add_zero, zero_add]
   try simp only [Matrix.mul_assoc]
   try ring)

theorem allPLa_half {d : Bool} {q : M n K} {c : V n K} {t : K} {L : Lin n K} {s : AMem n K}
    (hS : Saved inv? d q c s) (h1 : NoUp (side d L)) :
    ∃ s', run inv? (preDa d ++ allPLa d t) s = .ok s' ∧ Half true true d q c t L s s' := by
  rcases hS with ⟨hP, hA, hB, hC⟩
  obtain ⟨z1, z2, z3, z4⟩ := h1
  cases d <;>
  (simp only [ms, vs, side, MArg.swap, VArg.swap, if_true, if_false, Bool.false_eq_true] at hP hA hB hC z1 z2 z3 z4
   refine ⟨_, by
    simp only [allPLa, preDa, run, step, AMem.setM, AMem.setV, ms, vs, MArg.swap, VArg.swap, if_true, if_false,
      List.cons_append, List.nil_append,
      reduceCtorEq, or_self, MC.adj.injEq, VC.adj.injEq, MC.op.injEq, VC.op.injEq, hP, Bool.false_eq_true]; rfl, ?_⟩
   constructor <;>
   simp only [weigh, gR13, gT31, gS31, gA, ops, side, tp, ms, vs, MArg.swap, VArg.swap, if_true, if_false,
      reduceCtorEq, MC.adj.injEq, VC.adj.injEq, MC.op.injEq, VC.op.injEq, hA, hB, hC, Bool.false_eq_true,
      implies_true, z1, z2, z3, z4]
   simp only [mpair_add_left, mpair_add_right, mpair_zero_left, mpair_zero_right, mpair_tmul, mpair_mult, mpair_outer,
      vpair_add_left, vpair_add_right, vpair_zero_left, vpair_zero_right, vpair_smul_left, vpair_smul_right, vpair_tmul,
      mul_add, add_mul, Matrix.mul_zero, Matrix.zero_mul,
      mulVec_add, add_mulVec, mulVec_zero, zero_mulVec, mulVec_smul, ← mulVec_mulVec, zero_smul, add_zero, zero_add]
   try simp only [Matrix.mul_assoc]
   try ring)

theorem allLPa_half {d : Bool} {q : M n K} {c : V n K} {t : K} {L : Lin n K} {s : AMem n K}
    (hS : Saved inv? d q c s) (h3 : NoLo (side d L)) :
    ∃ s', run inv? (preDa d ++ allLPa d t) s = .ok s' ∧ Half true true d q c t L s s' := by
  rcases hS with ⟨hP, hA, hB, hC⟩
  obtain ⟨z7, z8⟩ := h3
  cases d <;>
  (simp only [ms, vs, side, MArg.swap, VArg.swap, if_true, if_false, Bool.false_eq_true] at hP hA hB hC z7 z8
   refine ⟨_, by
    simp only [allLPa, preDa, run, step, AMem.setM, AMem.setV, ms, vs, MArg.swap, VArg.swap, if_true, if_false,
      List.cons_append, List.nil_append,
      reduceCtorEq, or_self, MC.adj.injEq, VC.adj.injEq, MC.op.injEq, VC.op.injEq, hP, Bool.false_eq_true]; rfl, ?_⟩
   constructor <;>
   simp only [weigh, gR13, gT31, gS31, gA, ops, side, tp, ms, vs, MArg.swap, VArg.swap, if_true, if_false,
      reduceCtorEq, MC.adj.injEq, VC.adj.injEq, MC.op.injEq, VC.op.injEq, hA, hB, hC, Bool.false_eq_true,
      implies_true, z7, z8]
   simp only [mpair_add_left, mpair_add_right, mpair_zero_left, mpair_zero_right, mpair_tmul, mpair_mult, mpair_outer,
      vpair_add_left, vpair_add_right, vpair_zero_left, vpair_zero_right, vpair_smul_left, vpair_smul_right, vpair_tmul,
      mul_add, add_mul, Matrix.mul_zero, Matrix.zero_mul,
      mulVec_add, add_mulVec, mulVec_zero, zero_mulVec, mulVec_smul, ← mulVec_mulVec, zero_smul, add_zero, zero_add]
   try simp only [Matrix.mul_assoc]
   try ring)

theorem allLLa_half {d : Bool} {q : M n K} {c : V n K} {t : K} {L : Lin n K} {s : AMem n K}
    (hS : Saved inv? d q c s) :
    ∃ s', run inv? (preDa d ++ allLLa d t) s = .ok s' ∧ Half true true d q c t L s s' := by
  rcases hS with ⟨hP, hA, hB, hC⟩
  cases d <;>
  (simp only [ms, vs, side, MArg.swap, VArg.swap, if_true, if_false, Bool.false_eq_true] at hP hA hB hC
   refine ⟨_, by
    simp only [allLLa, preDa, run, step, AMem.setM, AMem.setV, ms, vs, MArg.swap, VArg.swap, if_true, if_false,
      List.cons_append, List.nil_append,
      reduceCtorEq, or_self, MC.adj.injEq, VC.adj.injEq, MC.op.injEq, VC.op.injEq, hP, Bool.false_eq_true]; rfl, ?_⟩
   constructor <;>
   simp only [weigh, gR13, gT31, gS31, gA, ops, side, tp, ms, vs, MArg.swap, VArg.swap, if_true, if_false,
      reduceCtorEq, MC.adj.injEq, VC.adj.injEq, MC.op.injEq, VC.op.injEq, hA, hB, hC, Bool.false_eq_true,
      implies_true]
   simp only [mpair_add_left, mpair_add_right, mpair_zero_left, mpair_zero_right, mpair_tmul, mpair_mult, mpair_outer,
      vpair_add_left, vpair_add_right, vpair_zero_left, vpair_zero_right, vpair_smul_left, vpair_smul_right, vpair_tmul,
      mul_add, add_mul, Matrix.mul_zero, Matrix.zero_mul,
      mulVec_add, add_mulVec, mulVec_zero, zero_mulVec, mulVec_smul, ← mulVec_mulVec, zero_smul, add_zero, zero_add]
   try simp only [Matrix.mul_assoc]
   try ring)

-- END HALVES
end Xrtm.Adjoint
