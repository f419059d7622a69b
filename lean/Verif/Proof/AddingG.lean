import Verif.Proof.AddingD
import Mathlib.Analysis.Calculus.Deriv.Mul
import Mathlib.Analysis.Calculus.Deriv.Add
import Mathlib.Analysis.Calculus.Deriv.Inv
import Mathlib.Analysis.Calculus.FDeriv.Mul

/-! Derivatives of layers put together. -/

namespace Xrtm.Spec

open Mat Matrix Filter Topology

variable {n : Nat} {x : ℝ}

section calculus
variable {A B : ℝ → M n ℝ} {A' B' : M n ℝ} {u v : ℝ → V n ℝ} {u' v' : V n ℝ}

theorem MDeriv.add (hA : MDeriv A A' x) (hB : MDeriv B B' x) : MDeriv (fun y => A y + B y) (A' + B') x :=
  fun i j => (hA i j).fun_add (hB i j)

theorem MDeriv.neg (hA : MDeriv A A' x) : MDeriv (fun y => - A y) (- A') x := fun i j => (hA i j).fun_neg

theorem MDeriv.sub (hA : MDeriv A A' x) (hB : MDeriv B B' x) : MDeriv (fun y => A y - B y) (A' - B') x :=
  fun i j => (hA i j).fun_sub (hB i j)

theorem MDeriv.const (C : M n ℝ) : MDeriv (fun _ => C) 0 x := fun i j => hasDerivAt_const x (C i j)

theorem MDeriv.mul (hA : MDeriv A A' x) (hB : MDeriv B B' x) :
    MDeriv (fun y => A y * B y) (A' * B x + A x * B') x := by
  intro i j
  simp only [Matrix.mul_apply, Matrix.add_apply, ← Finset.sum_add_distrib]
  exact HasDerivAt.fun_sum fun k _ => (hA i k).fun_mul (hB k j)

theorem VDeriv.add (hu : VDeriv u u' x) (hv : VDeriv v v' x) : VDeriv (fun y => u y + v y) (u' + v') x :=
  fun i => (hu i).fun_add (hv i)

theorem VDeriv.mulVec (hA : MDeriv A A' x) (hu : VDeriv u u' x) :
    VDeriv (fun y => A y *ᵥ u y) (A' *ᵥ u x + A x *ᵥ u') x := by
  intro i
  simp only [Matrix.mulVec, dotProduct, Pi.add_apply, ← Finset.sum_add_distrib]
  exact HasDerivAt.fun_sum fun k _ => (hA i k).fun_mul (hu k)

theorem MDeriv.congr (hA : MDeriv A A' x) (h : A' = B') : MDeriv A B' x := h ▸ hA

theorem VDeriv.congr (hu : VDeriv u u' x) (h : u' = v') : VDeriv u v' x := h ▸ hu

theorem MDeriv.eventually (hA : MDeriv A A' x) (h : ∀ᶠ y in 𝓝 x, B y = A y) : MDeriv B A' x := fun i j =>
  (hA i j).congr_of_eventuallyEq (h.mono fun y hy => by simp [hy])

theorem VDeriv.eventually (hu : VDeriv u u' x) (h : ∀ᶠ y in 𝓝 x, v y = u y) : VDeriv v u' x := fun i =>
  (hu i).congr_of_eventuallyEq (h.mono fun y hy => by simp [hy])

theorem det_diff {A : ℝ → M n ℝ} (hA : ∀ i j, DifferentiableAt ℝ (fun y => A y i j) x) :
    DifferentiableAt ℝ (fun y => (A y).det) x := by
  simp only [Matrix.det_apply]
  refine DifferentiableAt.fun_sum fun σ _ => ?_
  refine DifferentiableAt.fun_const_smul ?_ _
  exact DifferentiableAt.fun_finsetProd fun i _ => hA _ _

theorem adj_diff {A : ℝ → M n ℝ} (hA : ∀ i j, DifferentiableAt ℝ (fun y => A y i j) x) (i j : Fin n) :
    DifferentiableAt ℝ (fun y => (A y).adjugate i j) x := by
  simp only [Matrix.adjugate_apply]
  refine det_diff fun k l => ?_
  simp only [Matrix.updateRow_apply]
  by_cases h : k = j
  · simp [h]
  · simpa [h] using hA k l

theorem MDeriv.diff (hA : MDeriv A A' x) : ∀ i j, DifferentiableAt ℝ (fun y => A y i j) x :=
  fun i j => (hA i j).differentiableAt

theorem MDeriv.det_near (hA : MDeriv A A' x) (h : (A x).det ≠ 0) : ∀ᶠ y in 𝓝 x, (A y).det ≠ 0 :=
  (det_diff hA.diff).continuousAt.eventually_ne h

theorem MDeriv.inv (hA : MDeriv A A' x) (h : (A x).det ≠ 0) :
    MDeriv (fun y => (A y)⁻¹) (-((A x)⁻¹ * A' * (A x)⁻¹)) x := by
  have hd : ∀ i j, DifferentiableAt ℝ (fun y => (A y)⁻¹ i j) x := by
    intro i j
    have e : (fun y => (A y)⁻¹ i j) = fun y => ((A y).det)⁻¹ * (A y).adjugate i j := by
      funext y
      simp [Matrix.inv_def, Matrix.smul_apply, Ring.inverse_eq_inv']
    rw [e]
    exact ((det_diff hA.diff).fun_inv h).fun_mul (adj_diff hA.diff i j)
  -- the derivative, whatever it is, follows from the product rule
  have hq : MDeriv (fun y => (A y)⁻¹) (Matrix.of fun i j => deriv (fun y => (A y)⁻¹ i j) x) x :=
    fun i j => (hd i j).hasDerivAt
  set Q := Matrix.of fun i j => deriv (fun y => (A y)⁻¹ i j) x with hQ
  have h1 : MDeriv (fun y => (A y)⁻¹ * A y) (Q * A x + (A x)⁻¹ * A') x := hq.mul hA
  have h2 : MDeriv (fun y => (A y)⁻¹ * A y) 0 x :=
    (MDeriv.const (x := x) (1 : M n ℝ)).eventually ((hA.det_near h).mono fun y hy =>
      Matrix.nonsing_inv_mul _ (isUnit_iff_ne_zero.2 hy))
  have h3 : Q * A x + (A x)⁻¹ * A' = 0 := by
    ext i j
    exact (h1 i j).unique (h2 i j)
  have hu : A x * (A x)⁻¹ = 1 := Matrix.mul_nonsing_inv _ (isUnit_iff_ne_zero.2 h)
  have h4 : Q = -((A x)⁻¹ * A' * (A x)⁻¹) := by
    have : Q * A x * (A x)⁻¹ = -((A x)⁻¹ * A') * (A x)⁻¹ := by rw [eq_neg_of_add_eq_zero_left h3]
    rw [Matrix.mul_assoc, hu, Matrix.mul_one] at this
    rw [this, Matrix.neg_mul]
  exact hq.congr h4

end calculus

end Xrtm.Spec

namespace Xrtm.Adding

open Mat Spec Matrix Filter Topology

variable {n : Nat} {x : ℝ}

/-- The operators of two layers. -/
def linOf {K : Type} [CommRing K] (a b : Layer n K) : Lin n K :=
  ⟨fun | .R12 => a.Rm | .T12 => a.Tm | .R21 => a.Rp | .T21 => a.Tp
       | .R23 => b.Rm | .T23 => b.Tm | .R32 => b.Rp | .T32 => b.Tp | _ => 0,
   fun | .S12 => a.Sm | .S21 => a.Sp | .S23 => b.Sm | .S32 => b.Sp | _ => 0⟩

/-- The linearised results. -/
def dsum {K : Type} [CommRing K] (o L : Lin n K) (q q' : M n K) (t tl : K) : Layer n K :=
  ⟨gR13 o L q, gT31 o.swap L.swap q', gS31 o.swap L.swap q' (oC13 o.swap t) t tl,
   gR13 o.swap L.swap q', gT31 o L q, gS31 o L q (oC31 o t) t tl⟩

section half
variable {R12 T12 R21 T21 R23 T32 : ℝ → M n ℝ} {R12' T12' R21' T21' R23' T32' : M n ℝ}
  {S12 S21 S32 : ℝ → V n ℝ} {S12' S21' S32' : V n ℝ}

theorem q_deriv (h1 : MDeriv R23 R23' x) (h2 : MDeriv R21 R21' x) (hd : (1 - R23 x * R21 x).det ≠ 0) :
    MDeriv (fun y => (1 - R23 y * R21 y)⁻¹)
      ((1 - R23 x * R21 x)⁻¹ * (R23' * R21 x + R23 x * R21') * (1 - R23 x * R21 x)⁻¹) x := by
  refine (((MDeriv.const (x := x) 1).sub (h1.mul h2)).inv hd).congr ?_
  noncomm_ring

theorem a_deriv (h1 : MDeriv R23 R23' x) (h2 : MDeriv R21 R21' x) (h3 : MDeriv T21 T21' x)
    (hd : (1 - R23 x * R21 x).det ≠ 0) :
    MDeriv (fun y => T21 y * (1 - R23 y * R21 y)⁻¹)
      ((T21' + T21 x * (1 - R23 x * R21 x)⁻¹ * (R23' * R21 x + R23 x * R21')) * (1 - R23 x * R21 x)⁻¹) x := by
  refine (h3.mul (q_deriv h1 h2 hd)).congr ?_
  noncomm_ring

end half

/-- Derivative of the two layers together, of one layer on a mirror. -/
theorem stacked_deriv {top bot r : ℝ → Layer n ℝ} {top' bot' : Layer n ℝ} (ht : LDeriv top top' x)
    (hb : LDeriv bot bot' x) (hr : ∀ᶠ y in 𝓝 x, Stacked (top y) (bot y) (r y)) {q q' : M n ℝ}
    (hq : q * (1 - (bot x).Rm * (top x).Rp) = 1) (hq' : q' * (1 - (top x).Rp * (bot x).Rm) = 1) :
    LDeriv r (dsum (linOf (top x) (bot x)) (linOf top' bot') q q' 1 0) x := by
  have hd : (1 - (bot x).Rm * (top x).Rp).det ≠ 0 := by
    intro h0
    have := congrArg Matrix.det hq
    simp [h0] at this
  have hd' : (1 - (top x).Rp * (bot x).Rm).det ≠ 0 := by
    intro h0
    have := congrArg Matrix.det hq'
    simp [h0] at this
  have eq : q = (1 - (bot x).Rm * (top x).Rp)⁻¹ := (Matrix.inv_eq_left_inv hq).symm
  have eq' : q' = (1 - (top x).Rp * (bot x).Rm)⁻¹ := (Matrix.inv_eq_left_inv hq').symm
  set Q : ℝ → M n ℝ := fun y => (1 - (bot y).Rm * (top y).Rp)⁻¹ with hQ
  set Q' : ℝ → M n ℝ := fun y => (1 - (top y).Rp * (bot y).Rm)⁻¹ with hQ'
  have hA := a_deriv hb.Rm ht.Rp ht.Tp hd
  have hA' := a_deriv ht.Rp hb.Rm hb.Tm hd'
  rw [← eq] at hA
  rw [← eq'] at hA'
  have ev : ∀ᶠ y in 𝓝 x, r y = sum (linOf (top y) (bot y)) (Q y) (Q' y) 1 := by
    filter_upwards [hr, ((MDeriv.const (x := x) 1).sub (hb.Rm.mul ht.Rp)).det_near hd,
      ((MDeriv.const (x := x) 1).sub (ht.Rp.mul hb.Rm)).det_near hd'] with y h1 h2 h3
    have h4 := stacked (o := linOf (top y) (bot y)) (q := Q y) (q' := Q' y)
      (Matrix.nonsing_inv_mul _ (isUnit_iff_ne_zero.2 h2)) (Matrix.nonsing_inv_mul _ (isUnit_iff_ne_zero.2 h3)) 1
    refine Stacked.unique h1 ?_
    have e1 : upper (linOf (top y) (bot y)) = top y := rfl
    have e2 : (lower (linOf (top y) (bot y))).dim 1 = bot y := by simp [Layer.dim, lower, linOf]
    rwa [e1, e2] at h4
  constructor
  · refine MDeriv.eventually ?_ (ev.mono fun y hy => congrArg Layer.Rm hy)
    simp only [sum, oR13, linOf, dsum, gR13, gA, hQ]
    refine (ht.Rm.add (hA.mul (hb.Rm.mul ht.Tm))).congr ?_
    simp only [← eq]
    noncomm_ring
  · refine MDeriv.eventually ?_ (ev.mono fun y hy => congrArg Layer.Tm hy)
    simp only [sum, oT31, linOf, dsum, gT31, gA, hQ', Lin.swap, MArg.swap]
    refine (hA'.mul ht.Tm).congr ?_
    simp only [← eq']
  · refine VDeriv.eventually ?_ (ev.mono fun y hy => congrArg Layer.Sm hy)
    simp only [sum, oS13, oC13, linOf, dsum, gS31, gA, hQ', Lin.swap, MArg.swap, VArg.swap, one_smul, zero_smul]
    refine (hb.Sm.add (VDeriv.mulVec hA' (ht.Sm.add (VDeriv.mulVec ht.Rp hb.Sp)))).congr ?_
    simp only [← eq', add_zero, add_assoc]
  · refine MDeriv.eventually ?_ (ev.mono fun y hy => congrArg Layer.Rp hy)
    simp only [sum, oR13, linOf, dsum, gR13, gA, hQ', Lin.swap, MArg.swap]
    refine (hb.Rp.add (hA'.mul (ht.Rp.mul hb.Tp))).congr ?_
    simp only [← eq']
    noncomm_ring
  · refine MDeriv.eventually ?_ (ev.mono fun y hy => congrArg Layer.Tp hy)
    simp only [sum, oT31, linOf, dsum, gT31, gA, hQ]
    refine (hA.mul hb.Tp).congr ?_
    simp only [← eq]
  · refine VDeriv.eventually ?_ (ev.mono fun y hy => congrArg Layer.Sp hy)
    simp only [sum, oS31, oC31, linOf, dsum, gS31, gA, hQ, one_smul, zero_smul]
    refine (ht.Sp.add (VDeriv.mulVec hA (hb.Sp.add (VDeriv.mulVec hb.Rm ht.Sm)))).congr ?_
    simp only [← eq, add_zero, add_assoc]

theorem backed_deriv {top : ℝ → Layer n ℝ} {bot r : ℝ → Mirror n ℝ} {top' : Layer n ℝ} {bot' : Mirror n ℝ}
    (ht : LDeriv top top' x) (hb : RDeriv bot bot' x) (hr : ∀ᶠ y in 𝓝 x, Backed (top y) (bot y) (r y)) {q : M n ℝ}
    (hq : q * (1 - (bot x).R * (top x).Rp) = 1) :
    RDeriv r ⟨gR13 (linOf (top x) ⟨(bot x).R, 0, 0, 0, 0, (bot x).S⟩) (linOf top' ⟨bot'.R, 0, 0, 0, 0, bot'.S⟩) q,
      gS31 (linOf (top x) ⟨(bot x).R, 0, 0, 0, 0, (bot x).S⟩) (linOf top' ⟨bot'.R, 0, 0, 0, 0, bot'.S⟩) q
        (oC31 (linOf (top x) ⟨(bot x).R, 0, 0, 0, 0, (bot x).S⟩) 1) 1 0⟩ x := by
  have hd : (1 - (bot x).R * (top x).Rp).det ≠ 0 := by
    intro h0
    have := congrArg Matrix.det hq
    simp [h0] at this
  have eq : q = (1 - (bot x).R * (top x).Rp)⁻¹ := (Matrix.inv_eq_left_inv hq).symm
  set Q : ℝ → M n ℝ := fun y => (1 - (bot y).R * (top y).Rp)⁻¹ with hQ
  have hA := a_deriv hb.R ht.Rp ht.Tp hd
  rw [← eq] at hA
  have ev : ∀ᶠ y in 𝓝 x, r y = ⟨oR13 (linOf (top y) ⟨(bot y).R, 0, 0, 0, 0, (bot y).S⟩) (Q y),
      oS31 (linOf (top y) ⟨(bot y).R, 0, 0, 0, 0, (bot y).S⟩) (Q y) 1⟩ := by
    filter_upwards [hr, ((MDeriv.const (x := x) 1).sub (hb.R.mul ht.Rp)).det_near hd] with y h1 h2
    have h4 := backed (o := linOf (top y) ⟨(bot y).R, 0, 0, 0, 0, (bot y).S⟩) (q := Q y)
      (Matrix.nonsing_inv_mul _ (isUnit_iff_ne_zero.2 h2)) 1
    refine Backed.unique h1 ?_
    have e2 : Mirror.dim (1 : ℝ) ⟨(linOf (top y) ⟨(bot y).R, 0, 0, 0, 0, (bot y).S⟩).m .R23,
        (linOf (top y) ⟨(bot y).R, 0, 0, 0, 0, (bot y).S⟩).v .S32⟩ = bot y := by simp [Mirror.dim, linOf]
    rw [e2] at h4
    exact h4
  constructor
  · refine MDeriv.eventually ?_ (ev.mono fun y hy => congrArg Mirror.R hy)
    simp only [oR13, linOf, gR13, gA, hQ]
    refine (ht.Rm.add (hA.mul (hb.R.mul ht.Tm))).congr ?_
    simp only [← eq]
    noncomm_ring
  · refine VDeriv.eventually ?_ (ev.mono fun y hy => congrArg Mirror.S hy)
    simp only [oS31, oC31, linOf, gS31, gA, hQ, one_smul, zero_smul]
    refine (ht.Sp.add (VDeriv.mulVec hA (hb.S.add (VDeriv.mulVec hb.R ht.Sm)))).congr ?_
    simp only [← eq, add_zero, add_assoc]

end Xrtm.Adding
