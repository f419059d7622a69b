import Verif.Proof.MemBvp
import Verif.Props.Bvp

/-! The unknowns of the matrix exponential solver and the light in the stack. -/

namespace Xrtm.MemBvp
open Matrix Xrtm.Spec Xrtm.Transfer Xrtm.Source Xrtm.Eig Xrtm.Bvp

variable {n : Nat} {K : Type} [RCLike K] {ex : K → K}

/-! ### Equations in one unknown -/

theorem forced (he : IsExp ex) {c a k : K} (hca : c - a ≠ 0) {f : ℝ → K}
    (hf : ∀ y : ℝ, HasDerivAt f (-c * f y + k * ex (-a * (y : K))) y) (s : ℝ) :
    f s = ex (-c * s) * f 0 + k * (ex (-a * s) - ex (-c * s)) / (c - a) := by
  have hg := mode he (c := c) (f := fun y : ℝ => f y - k * ex (-a * (y : K)) / (c - a)) (fun y => by
    have h1 := ((he.along ((cast_deriv (K := K) y).const_mul (-a))).const_mul k).div_const (c - a)
    refine ((hf y).fun_sub h1).congr_deriv ?_
    field_simp
    ring) s
  simp only [RCLike.ofReal_zero, mul_zero, he.zero, mul_one] at hg
  linear_combination hg

theorem ex_real (he : IsExp ex) (s : ℝ) : ex (s : K) = (Real.exp s : K) := by
  have := mode he (c := -1) (f := fun y : ℝ => ((Real.exp y : ℝ) : K)) (fun y => by
    refine (cast_hasDeriv (Real.hasDerivAt_exp y)).congr_deriv ?_
    ring) s
  simp only [Real.exp_zero, RCLike.ofReal_one, mul_one, neg_neg, one_mul] at this
  exact this.symm

theorem ex_shift (he : IsExp ex) (b : ℝ) (c : K) (s : ℝ) :
    ex (-((b : K) + c * s)) = (Real.exp (-b) : K) * ex (-c * s) := by
  have := mode he (c := c) (f := fun y : ℝ => ex (-((b : K) + c * y))) (fun y => by
    have h1 := ((cast_deriv (K := K) y).const_mul c).const_add (b : K)
    refine (he.along h1.fun_neg).congr_deriv ?_
    ring) s
  simp only [RCLike.ofReal_zero, mul_zero, add_zero] at this
  rw [this, mul_comm, ← RCLike.ofReal_neg, ex_real he]

/-! ### The two ends of a layer -/

section layer
variable {v : Inv n K} {i : Nat} {Xp Xm : Matrix (Fin n) (Fin n) K}

theorem lo_eq (v : Inv n K) (p m : Fin n → K) (i : Nat) :
    lo v p m i = (1 / 2 : K) • (v.a i *ᵥ (p + m) + v.b i *ᵥ (p - m)) := by
  unfold lo x11 x12
  rw [smul_mulVec, smul_mulVec, add_mulVec, sub_mulVec, mulVec_add, mulVec_sub]
  module

theorem hi_eq (v : Inv n K) (p m : Fin n → K) (i : Nat) :
    hi v p m i = (1 / 2 : K) • (v.a i *ᵥ (p + m) - v.b i *ᵥ (p - m)) := by
  unfold hi x11 x12
  rw [smul_mulVec, smul_mulVec, add_mulVec, sub_mulVec, mulVec_add, mulVec_sub]
  module

/-- Light from its modes. -/
theorem light_of (ha : (Xp - Xm) * v.a i = 1) (hb : (Xp + Xm) * v.b i = 1) (p m : Fin n → K) :
    Xp *ᵥ lo v p m i + Xm *ᵥ (-hi v p m i) = p ∧ -(Xm *ᵥ lo v p m i + Xp *ᵥ (-hi v p m i)) = m := by
  have e1 : (Xp - Xm) *ᵥ (v.a i *ᵥ (p + m)) = p + m := by rw [mulVec_mulVec, ha, one_mulVec]
  have e2 : (Xp + Xm) *ᵥ (v.b i *ᵥ (p - m)) = p - m := by rw [mulVec_mulVec, hb, one_mulVec]
  rw [sub_mulVec] at e1
  rw [add_mulVec] at e2
  rw [lo_eq, hi_eq]
  simp only [mulVec_neg, mulVec_smul, mulVec_add, mulVec_sub] at *
  constructor
  · funext k
    have k1 := congrFun e1 k
    have k2 := congrFun e2 k
    simp only [Pi.add_apply, Pi.sub_apply, Pi.neg_apply, Pi.smul_apply, smul_eq_mul] at *
    linear_combination (1 / 2 : K) * k1 + (1 / 2 : K) * k2
  · funext k
    have k1 := congrFun e1 k
    have k2 := congrFun e2 k
    simp only [Pi.add_apply, Pi.sub_apply, Pi.neg_apply, Pi.smul_apply, smul_eq_mul] at *
    linear_combination (1 / 2 : K) * k1 - (1 / 2 : K) * k2

/-- Modes from the light. -/
theorem modes_of (ha : v.a i * (Xp - Xm) = 1) (hb : v.b i * (Xp + Xm) = 1) (g h : Fin n → K) :
    lo v (Xp *ᵥ g + Xm *ᵥ h) (-(Xm *ᵥ g + Xp *ᵥ h)) i = g ∧
    hi v (Xp *ᵥ g + Xm *ᵥ h) (-(Xm *ᵥ g + Xp *ᵥ h)) i = -h := by
  have f1 : Xp *ᵥ g + Xm *ᵥ h + -(Xm *ᵥ g + Xp *ᵥ h) = (Xp - Xm) *ᵥ (g - h) := by
    rw [sub_mulVec, mulVec_sub, mulVec_sub]; abel
  have f2 : Xp *ᵥ g + Xm *ᵥ h - -(Xm *ᵥ g + Xp *ᵥ h) = (Xp + Xm) *ᵥ (g + h) := by
    rw [add_mulVec, mulVec_add, mulVec_add]; abel
  rw [lo_eq, hi_eq, f1, f2, mulVec_mulVec, mulVec_mulVec, ha, hb, one_mulVec, one_mulVec]
  constructor <;> module

/-- The modes of light in a layer with sources. -/
theorem layer_forced (he : IsExp ex) {tpr tmr : Matrix (Fin n) (Fin n) K} {nu : Fin n → K}
    (ha : v.a i * (Xp - Xm) = 1) (hb : v.b i * (Xp + Xm) = 1)
    (hW : (Xp - Xm) * diagonal nu = tpr * (Xp + Xm)) (hV : tmr * (Xp - Xm) = (Xp + Xm) * diagonal nu)
    {U D : ℝ → Fin n → K} {sp sm : Fin n → K} {as bt : K} (h1 : ∀ j, nu j - as ≠ 0) (h2 : ∀ j, -nu j - as ≠ 0)
    (hq : ∀ τ j, HasDerivAt (fun s => U s j + D s j)
      (-(tpr *ᵥ (U τ - D τ)) j - bt * ex (-as * (τ : K)) * (sp + sm) j) τ)
    (hp : ∀ τ j, HasDerivAt (fun s => U s j - D s j)
      (-(tmr *ᵥ (U τ + D τ)) j - bt * ex (-as * (τ : K)) * (sp - sm) j) τ) (s : ℝ) (j : Fin n) :
    lo v (U s) (D s) i j = ex (-nu j * s) * lo v (U 0) (D 0) i j -
      bt * lo v sp sm i j * (ex (-as * s) - ex (-nu j * s)) / (nu j - as) ∧
    hi v (U s) (D s) i j = ex (nu j * s) * hi v (U 0) (D 0) i j -
      bt * hi v sp sm i j * (ex (-as * s) - ex (nu j * s)) / (-nu j - as) := by
  have ha' : (Xp - Xm) * v.a i = 1 := mul_eq_one_comm.1 ha
  have hb' : (Xp + Xm) * v.b i = 1 := mul_eq_one_comm.1 hb
  have at_ : v.a i * tpr = diagonal nu * v.b i := by
    calc v.a i * tpr = v.a i * (tpr * (Xp + Xm)) * v.b i := by
          rw [Matrix.mul_assoc, Matrix.mul_assoc, hb', Matrix.mul_one]
      _ = (v.a i * (Xp - Xm)) * diagonal nu * v.b i := by rw [← hW]; simp only [Matrix.mul_assoc]
      _ = diagonal nu * v.b i := by rw [ha, Matrix.one_mul]
  have bt_ : v.b i * tmr = diagonal nu * v.a i := by
    calc v.b i * tmr = v.b i * (tmr * (Xp - Xm)) * v.a i := by
          rw [Matrix.mul_assoc, Matrix.mul_assoc, ha', Matrix.mul_one]
      _ = (v.b i * (Xp + Xm)) * diagonal nu * v.a i := by rw [hV]; simp only [Matrix.mul_assoc]
      _ = diagonal nu * v.a i := by rw [hb, Matrix.one_mul]
  have dA : ∀ τ j, HasDerivAt (fun s => (v.a i *ᵥ (U s + D s)) j)
      (-nu j * (v.b i *ᵥ (U τ - D τ)) j - bt * ex (-as * (τ : K)) * (v.a i *ᵥ (sp + sm)) j) τ := fun τ j => by
    refine (mulVec_deriv (v.a i) (f := fun s => U s + D s)
      (f' := -(tpr *ᵥ (U τ - D τ)) - (bt * ex (-as * (τ : K))) • (sp + sm)) (fun k => hq τ k) j).congr_deriv ?_
    rw [mulVec_sub, mulVec_neg, mulVec_mulVec, at_, ← mulVec_mulVec, mulVec_smul]
    simp only [Pi.sub_apply, Pi.neg_apply, Pi.smul_apply, smul_eq_mul, mulVec_diagonal]
    ring
  have dB : ∀ τ j, HasDerivAt (fun s => (v.b i *ᵥ (U s - D s)) j)
      (-nu j * (v.a i *ᵥ (U τ + D τ)) j - bt * ex (-as * (τ : K)) * (v.b i *ᵥ (sp - sm)) j) τ := fun τ j => by
    refine (mulVec_deriv (v.b i) (f := fun s => U s - D s)
      (f' := -(tmr *ᵥ (U τ + D τ)) - (bt * ex (-as * (τ : K))) • (sp - sm)) (fun k => hp τ k) j).congr_deriv ?_
    rw [mulVec_sub, mulVec_neg, mulVec_mulVec, bt_, ← mulVec_mulVec, mulVec_smul]
    simp only [Pi.sub_apply, Pi.neg_apply, Pi.smul_apply, smul_eq_mul, mulVec_diagonal]
    ring
  constructor
  · have := forced he (h1 j) (k := -(bt * lo v sp sm i j)) (f := fun s => lo v (U s) (D s) i j) (fun y => by
      simp only [lo_eq, Pi.smul_apply, Pi.add_apply, smul_eq_mul]
      refine (((dA y j).fun_add (dB y j)).const_mul (1 / 2 : K)).congr_deriv ?_
      ring) s
    rw [this]; ring
  · have hc : -nu j - as ≠ 0 := h2 j
    have := forced he (c := -nu j) hc (k := -(bt * hi v sp sm i j)) (f := fun s => hi v (U s) (D s) i j) (fun y => by
      simp only [hi_eq, Pi.smul_apply, Pi.sub_apply, smul_eq_mul]
      refine (((dA y j).fun_sub (dB y j)).const_mul (1 / 2 : K)).congr_deriv ?_
      ring) s
    rw [this, neg_neg]; ring

end layer

/-- The equation of transfer with sources and the light down turned. -/
theorem carries_turned {first : Bool} {ns : Nat} {mu w : Source.V n} {om : ℝ} {Ppp Pmp Pmm Ppm : M n}
    (hns : 0 < ns) (hmu : ∀ i, mu i ≠ 0) (hm : (Medium.of first mu w om Ppp Pmp Pmm Ppm).Mirrored ns)
    {qp qm up dn : ℝ → Source.V n} (hc : (Medium.of first mu w om Ppp Pmp Pmm Ppm).Carries qp qm up dn) :
    let z := localRT first mu w om Ppp Pmp
    let x := txr ns z.1 z.2
    let U : ℝ → Fin n → K := fun s j => (up s j : K)
    let D : ℝ → Fin n → K := fun s j => (turn ns (dn s) j : K)
    ∀ τ j, HasDerivAt (fun s => U s j + D s j) (-((x.1.map fun z : ℝ => (z : K)) *ᵥ (U τ - D τ)) j -
        (((qp τ j - turn ns (qm τ) j) / mu j : ℝ) : K)) τ ∧
      HasDerivAt (fun s => U s j - D s j) (-((x.2.map fun z : ℝ => (z : K)) *ᵥ (U τ + D τ)) j -
        (((qp τ j + turn ns (qm τ) j) / mu j : ℝ) : K)) τ := by
  rw [carries_iff hmu] at hc
  intro z x U D τ j
  simp only [x, z]
  rw [txr_eq hns]
  dsimp only
  set r := (localRT first mu w om Ppp Pmp).1
  set t := (localRT first mu w om Ppp Pmp).2
  have hr : ∀ g i, ((localRT first mu w om Pmm Ppm).1 *ᵥ g) i = (turnM ns r *ᵥ turn ns g) i := by
    intro g i
    have e := mulVec_turn ns (fun i j => (localRT_mirror (w := w) hm i j).1) (turn ns g) i
    rw [turn_turn] at e
    rw [e, turnM_mulVec]
  have ht : ∀ g i, ((localRT first mu w om Pmm Ppm).2 *ᵥ g) i = stokesSign ns i * (t *ᵥ turn ns g) i := by
    intro g i
    have e := mulVec_turn ns (fun i j => (localRT_mirror (w := w) hm i j).2) (turn ns g) i
    rwa [turn_turn] at e
  have h1 := (hc τ j).1
  have h2 : HasDerivAt (fun s => turn ns (dn s) j) (-(turnM ns r *ᵥ up τ) j + (t *ᵥ turn ns (dn τ)) j +
      turn ns (qm τ) j / mu j) τ := by
    have := (hc τ j).2.const_mul (stokesSign ns j)
    simp only [turn_apply]
    refine this.congr_deriv ?_
    rw [ht, turnM_mulVec]
    have := sign_sq ns j
    linear_combination ((t *ᵥ turn ns (dn τ)) j) * this
  rw [hr] at h1
  constructor
  · refine ((cast_hasDeriv h1).fun_add (cast_hasDeriv h2)).congr_deriv ?_
    have : U τ - D τ = fun i => ((up τ - turn ns (dn τ)) i : K) := by
      funext j; simp [U, D]
    rw [this, cast_mulVec, ← RCLike.ofReal_add, ← RCLike.ofReal_neg, ← RCLike.ofReal_sub, add_mulVec, mulVec_sub,
      mulVec_sub]
    congr 1
    simp only [Pi.add_apply, Pi.sub_apply]; ring
  · refine ((cast_hasDeriv h1).fun_sub (cast_hasDeriv h2)).congr_deriv ?_
    have : U τ + D τ = fun i => ((up τ + turn ns (dn τ)) i : K) := by
      funext j; simp [U, D]
    rw [this, cast_mulVec, ← RCLike.ofReal_sub, ← RCLike.ofReal_neg, ← RCLike.ofReal_sub, sub_mulVec, mulVec_add,
      mulVec_add]
    congr 1
    simp only [Pi.add_apply, Pi.sub_apply]; ring

/-- The sums and differences of the matrices of a layer. -/
theorem modes_WV {tpr tmr V : Matrix (Fin n) (Fin n) K} {nu : Fin n → K} (hnu : ∀ i, nu i ≠ 0)
    (hE : tmr * tpr * V = V * diagonal fun i => nu i ^ 2) :
    let m := modes tpr nu V
    m.Xp + m.Xm = V ∧ (m.Xp - m.Xm) * diagonal nu = tpr * (m.Xp + m.Xm) ∧
      tmr * (m.Xp - m.Xm) = (m.Xp + m.Xm) * diagonal nu := by
  intro m
  set W : Matrix (Fin n) (Fin n) K := fun i j => (tpr * V) i j / nu j with hW
  have s1 : m.Xp + m.Xm = V := by
    funext i j; change (modes tpr nu V).Xp i j + (modes tpr nu V).Xm i j = _; simp only [modes]; ring
  have s2 : m.Xp - m.Xm = W := by
    funext i j; change (modes tpr nu V).Xp i j - (modes tpr nu V).Xm i j = _; simp only [modes, hW]; ring
  have hWN : W * diagonal nu = tpr * V := by
    funext i j; rw [mul_diagonal, hW]; simp only; rw [div_mul_cancel₀ _ (hnu j)]
  have hWN' : tmr * W = V * diagonal nu := by
    have h1 : tmr * (tpr * V) = V * diagonal fun i => nu i ^ 2 := by rw [← Matrix.mul_assoc, hE]
    have h2 : W = tpr * V * diagonal fun i => (nu i)⁻¹ := by
      funext i j; rw [mul_diagonal]; exact div_eq_mul_inv _ _
    rw [h2, ← Matrix.mul_assoc, h1, Matrix.mul_assoc, diagonal_mul_diagonal]
    congr 2; funext i
    have := hnu i
    field_simp
  rw [s1, s2]
  exact ⟨rfl, hWN, hWN'⟩

end Xrtm.MemBvp
