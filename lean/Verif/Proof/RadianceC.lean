import Verif.Proof.RadianceB
import Verif.Spec.Radiance
import Verif.Proof.DoublingE

/-! The light in an atmosphere: one for what comes in; its derivatives. -/

namespace Xrtm.Radiance

open Mat Adding Matrix Spec Filter Topology

section unique
variable {K : Type} [CommRing K] {n : Nat}

theorem lit_joined {ls : List (Layer n K)} {l : Layer n K} (h : Joined ls l) (base : Mirror n K) (dn1 up1 dn2 up2 : V n K) :
    Lit ls base dn1 up1 dn2 up2 ↔ l.Obeys dn1 up1 dn2 up2 ∧ base.Obeys dn2 up2 := by
  unfold Lit; rw [h]

/-- Over `base`, with a regular interface, the light is given by formulas. -/
theorem lit_iff {ls : List (Layer n K)} {l : Layer n K} (h : Joined ls l) (base : Mirror n K) {q : M n K}
    (hq : q * (1 - l.Rp * base.R) = 1) (dn1 up1 dn2 up2 : V n K) :
    Lit ls base dn1 up1 dn2 up2 ↔ dn2 = q *ᵥ (l.Rp *ᵥ base.S + l.Tm *ᵥ dn1 + l.Sm) ∧ up2 = base.R *ᵥ dn2 + base.S ∧
      up1 = l.Rm *ᵥ dn1 + l.Tp *ᵥ up2 + l.Sp := by
  rw [lit_joined h]
  unfold Layer.Obeys Mirror.Obeys
  have key : ∀ d : V n K, d = l.Tm *ᵥ dn1 + l.Rp *ᵥ (base.R *ᵥ d + base.S) + l.Sm ↔
      d = q *ᵥ (l.Rp *ᵥ base.S + l.Tm *ᵥ dn1 + l.Sm) := by
    intro d
    rw [← solve hq, sub_mulVec, one_mulVec, mulVec_add, mulVec_mulVec, sub_eq_iff_eq_add]
    constructor <;> intro e
    · refine e.trans ?_; abel
    · refine e.trans ?_; abel
  constructor
  · rintro ⟨⟨h1, h2⟩, h3⟩
    rw [h3] at h2
    exact ⟨(key dn2).1 h2, h3, h1⟩
  · rintro ⟨h1, h2, h3⟩
    refine ⟨⟨h3, ?_⟩, h2⟩
    rw [h2]
    exact (key dn2).2 h1

theorem lit_unique {ls : List (Layer n K)} {l : Layer n K} (h : Joined ls l) (base : Mirror n K)
    (hr : Regular l.Rp base.R) (dn1 : V n K) :
    ∃! p : V n K × V n K × V n K, Lit ls base dn1 p.1 p.2.1 p.2.2 := by
  obtain ⟨q, hq⟩ := hr
  let m := q *ᵥ (l.Rp *ᵥ base.S + l.Tm *ᵥ dn1 + l.Sm)
  refine ⟨(l.Rm *ᵥ dn1 + l.Tp *ᵥ (base.R *ᵥ m + base.S) + l.Sp, m, base.R *ᵥ m + base.S), ?_, ?_⟩
  · exact (lit_iff h base hq _ _ _ _).2 ⟨rfl, rfl, rfl⟩
  · rintro ⟨u1, d2, u2⟩ hp
    obtain ⟨h1, h2, h3⟩ := (lit_iff h base hq _ _ _ _).1 hp
    simp only at h1 h2 h3
    subst h1 h2 h3
    rfl
end unique

section deriv
variable {n : Nat} {x : ℝ}

/-- What is varied. -/
theorem lit_deriv {l : ℝ → Layer n ℝ} {l' : Layer n ℝ} {b : ℝ → Mirror n ℝ} {b' : Mirror n ℝ} {dn1 up1 dn2 up2 : ℝ → V n ℝ}
    {dn1' : V n ℝ} (hl : LDeriv l l' x) (hb : RDeriv b b' x) (hd : VDeriv dn1 dn1' x) {q : M n ℝ}
    (hq : q * (1 - (l x).Rp * (b x).R) = 1)
    (h : ∀ᶠ y in 𝓝 x, Lit [l y] (b y) (dn1 y) (up1 y) (dn2 y) (up2 y)) :
    let m := q *ᵥ ((l x).Rp *ᵥ (b x).S + (l x).Tm *ᵥ dn1 x + (l x).Sm)
    let m' := q *ᵥ ((l'.Rp * (b x).R + (l x).Rp * b'.R) *ᵥ m + (l'.Rp *ᵥ (b x).S + (l x).Rp *ᵥ b'.S) +
      (l'.Tm *ᵥ dn1 x + (l x).Tm *ᵥ dn1') + l'.Sm)
    let u := (b x).R *ᵥ m + (b x).S
    let u' := b'.R *ᵥ m + (b x).R *ᵥ m' + b'.S
    VDeriv dn2 m' x ∧ VDeriv up2 u' x ∧
      VDeriv up1 (l'.Rm *ᵥ dn1 x + (l x).Rm *ᵥ dn1' + (l'.Tp *ᵥ u + (l x).Tp *ᵥ u') + l'.Sp) x := by
  intro m m' u u'
  have hd0 : (1 - (l x).Rp * (b x).R).det ≠ 0 := by
    intro h0
    have := congrArg Matrix.det hq
    simp [h0] at this
  have eq : q = (1 - (l x).Rp * (b x).R)⁻¹ := (Matrix.inv_eq_left_inv hq).symm
  have near := ((MDeriv.const (x := x) 1).sub (hl.Rp.mul hb.R)).det_near hd0
  have ev : ∀ᶠ y in 𝓝 x, dn2 y = (1 - (l y).Rp * (b y).R)⁻¹ *ᵥ ((l y).Rp *ᵥ (b y).S + (l y).Tm *ᵥ dn1 y + (l y).Sm) ∧
      up2 y = (b y).R *ᵥ dn2 y + (b y).S ∧ up1 y = (l y).Rm *ᵥ dn1 y + (l y).Tp *ᵥ up2 y + (l y).Sp := by
    filter_upwards [h, near] with y h1 h2
    exact (lit_iff (Joined.one _) _ (Matrix.nonsing_inv_mul _ (isUnit_iff_ne_zero.2 h2)) _ _ _ _).1 h1
  have at0 := ev.self_of_nhds
  have e1 : dn2 x = m := by rw [at0.1, ← eq]
  have e2 : up2 x = u := by rw [at0.2.1, e1]
  have h1 : VDeriv dn2 m' x := by
    refine VDeriv.eventually ?_ (ev.mono fun y hy => hy.1)
    refine (VDeriv.mulVec (q_deriv hl.Rp hb.R hd0) (((VDeriv.mulVec hl.Rp hb.S).add (VDeriv.mulVec hl.Tm hd)).add hl.Sm)).congr ?_
    rw [← eq]
    simp only [m', m]
    rw [← mulVec_mulVec, ← mulVec_mulVec, ← mulVec_add]
    congr 1
    abel
  have h2 : VDeriv up2 u' x := by
    refine VDeriv.eventually ?_ (ev.mono fun y hy => hy.2.1)
    refine ((VDeriv.mulVec hb.R h1).add hb.S).congr ?_
    rw [e1]
  refine ⟨h1, h2, ?_⟩
  refine VDeriv.eventually ?_ (ev.mono fun y hy => hy.2.2)
  refine (((VDeriv.mulVec hl.Rm hd).add (VDeriv.mulVec hl.Tp h2)).add hl.Sp).congr ?_
  rw [e2]

end deriv

end Xrtm.Radiance
