import Verif.Props.EigRounds

/-!
# C69: a polarised layer against derivatives of what the solver computes
-/

namespace Xrtm.EigA
open Matrix Filter Topology Xrtm.Spec Xrtm.Eig Xrtm.Adjoint

variable {n : Nat} {x : ℝ}

/-- Eigenvalues and eigenvectors along a curve: those of a single column stay real,
those of a pair conjugate; single eigenvalues are not close to others. -/
def Pol.Along (p : Pol n) (eps : ℝ) (V : ℝ → Matrix (Fin n) (Fin n) ℂ) (nu : ℝ → Fin n → ℂ) (x : ℝ) : Cols n → Prop
  | .one i => (∀ᶠ y in 𝓝 x, (nu y i).im = 0 ∧ ∀ k, (V y k i).im = 0) ∧ 0 < (nu x i).re ∧ p.re i = (nu x i).re ^ 2 ∧
      ∀ j, i ≠ j → eps * 100 < |p.re i - p.re j|
  | .two i1 i2 => (∀ᶠ y in 𝓝 x, nu y i2 = star (nu y i1) ∧ ∀ k, V y k i2 = star (V y k i1)) ∧
      (⟨p.re i1, p.im i1⟩ : ℂ) = nu x i1 ^ 2

theorem md_cplx {A : ℝ → Matrix (Fin n) (Fin n) ℝ} {A' : Matrix (Fin n) (Fin n) ℝ} (h : MD A A' x) :
    MD (fun y => cplx (A y)) (cplx A') x := fun i j => (h i j).ofReal_comp

theorem re_deriv {f : ℝ → ℂ} {f' : ℂ} (h : HasDerivAt f f' x) : HasDerivAt (fun y => (f y).re) f'.re x := by
  exact Complex.reCLM.hasFDerivAt.comp_hasDerivAt x h

theorem star_deriv {f : ℝ → ℂ} {f' : ℂ} (h : HasDerivAt f f' x) : HasDerivAt (fun y => star (f y)) (star f') x := by
  exact Complex.conjCLE.toContinuousLinearMap.hasFDerivAt.comp_hasDerivAt x h

/-- The derivatives of roots and eigenvectors the forward call computes are
derivatives. -/
theorem col_deriv {inv? : Matrix (Fin n ⊕ Unit) (Fin n ⊕ Unit) ℝ → Option (Matrix (Fin n ⊕ Unit) (Fin n ⊕ Unit) ℝ)}
    (hex : Eig.Exact inv?)
    {invC? : Matrix (Fin n ⊕ Unit) (Fin n ⊕ Unit) ℂ → Option (Matrix (Fin n ⊕ Unit) (Fin n ⊕ Unit) ℂ)}
    (hexC : Eig.Exact invC?) {eps : ℝ} {p : Pol n} {gamma : ℝ → Source.M n} {gamma' : Source.M n}
    {V : ℝ → Matrix (Fin n) (Fin n) ℂ} {V' : Matrix (Fin n) (Fin n) ℂ} {nu : ℝ → Fin n → ℂ} {nu' : Fin n → ℂ}
    (hpg : p.gamma = gamma x) (hpn : p.nu = nu x) (hg : MD gamma gamma' x)
    (hV : ∀ i j, DifferentiableAt ℝ (fun y => V y i j) x) (hnu : ∀ i, DifferentiableAt ℝ (fun y => nu y i) x)
    (hE : ∀ᶠ y in 𝓝 x, cplx (gamma y) * V y = V y * diagonal fun i => nu y i ^ 2)
    (hlen : ∀ i, ∃ c, ∀ᶠ y in 𝓝 x, ∑ j, V y j i * V y j i = c) {c : Cols n}
    (hl : p.Linear gamma' inv? invC? eps (V x) nu' V' c) (ha : p.Along eps V nu x c) :
    ∀ i ∈ c.list, HasDerivAt (fun y => nu y i) (nu' i) x ∧ ∀ k, HasDerivAt (fun y => V y k i) (V' k i) x := by
  have hcol : ∀ i, ∀ᶠ y in 𝓝 x, (cplx (gamma y) *ᵥ fun k => V y k i) = nu y i ^ 2 • fun k => V y k i := fun i =>
    hE.mono fun y hy => by
      funext j
      have e := congrFun (congrFun hy j) i
      rw [mul_diagonal] at e
      rw [Pi.smul_apply, smul_eq_mul, mul_comm, ← e]
      rfl
  cases c with
  | one i =>
    intro i' hi'
    obtain rfl : i' = i := by simpa [Cols.list] using hi'
    obtain ⟨h1, h2, c, h3, h4, h5⟩ := hl
    obtain ⟨a1, a2, a3, a4⟩ := ha
    have hd : isDegenerate eps p.re i' = false := by
      unfold isDegenerate
      simp only [decide_eq_false_iff_not, not_exists, not_and, not_le]
      exact a4
    unfold columnRL at h3
    rw [hd, if_neg (by simp), a3, Real.sqrt_sq a2.le, hpg] at h3
    have hvx : (fun k => p.E k i') = fun k => (V x k i').re := by
      funext k; rw [h2 k, Complex.ofReal_re]
    rw [hvx] at h3
    obtain ⟨cl, hcl⟩ := hlen i'
    have dre : ∀ {f : ℝ → ℂ}, DifferentiableAt ℝ f x → DifferentiableAt ℝ (fun y => (f y).re) x := fun h =>
      (re_deriv h.hasDerivAt).differentiableAt
    have k := C50_eigen_deriv hex gamma gamma' (fun y k => (V y k i').re) (fun y => (nu y i').re) hg
      (fun k => dre (hV k i')) (dre (hnu i'))
      (by
        filter_upwards [hcol i', a1] with y hy hy1
        funext j
        have e := congrArg Complex.re (congrFun hy j)
        rw [Pi.smul_apply, smul_eq_mul] at e
        rw [Pi.smul_apply, smul_eq_mul]
        simp only [Matrix.mulVec, dotProduct, Complex.re_sum, cplx, Matrix.map_apply, Complex.re_ofReal_mul] at e
        simp only [Matrix.mulVec, dotProduct]
        rw [e, Complex.mul_re, hy1.2 j, mul_zero, sub_zero, pow_two, Complex.mul_re, hy1.1, mul_zero, sub_zero, pow_two])
      cl.re
      (by
        filter_upwards [hcl, a1] with y hy hy1
        rw [← hy, Complex.re_sum]
        exact Finset.sum_congr rfl fun k _ => by rw [Complex.mul_re, hy1.2 k, mul_zero, sub_zero])
      c h3
    refine ⟨?_, fun k' => ?_⟩
    · rw [h4]
      refine (k.1.ofReal_comp).congr_of_eventuallyEq ?_
      filter_upwards [a1] with y hy
      apply Complex.ext
      · simp
      · simp [hy.1]
    · rw [h5]
      refine ((k.2 k').ofReal_comp).congr_of_eventuallyEq ?_
      filter_upwards [a1] with y hy
      apply Complex.ext
      · simp
      · simp [hy.2 k']
  | two i1 i2 =>
    obtain ⟨h1, h2, h3, h4, h5⟩ := hl
    obtain ⟨a1, a2⟩ := ha
    have hvx : p.vec i1 i2 = fun k => V x k i1 := funext fun k => (h1 k).symm
    rw [a2, hvx, hpg, hpn] at h3
    obtain ⟨cl, hcl⟩ := hlen i1
    have k := C50_eigen_deriv hexC (fun y => cplx (gamma y)) (cplx gamma') (fun y k => V y k i1) (fun y => nu y i1)
      (md_cplx hg) (fun k => hV k i1) (hnu i1) (hcol i1) cl hcl _ h3
    intro i hi
    have hi : i = i1 ∨ i = i2 := by simpa [Cols.list] using hi
    rcases hi with rfl | rfl
    · exact k
    · refine ⟨?_, fun k' => ?_⟩
      · rw [h4]
        refine (star_deriv k.1).congr_of_eventuallyEq ?_
        filter_upwards [a1] with y hy
        exact hy.1
      · rw [h5]
        refine (star_deriv (k.2 k')).congr_of_eventuallyEq ?_
        filter_upwards [a1] with y hy
        exact hy.2 k'

/-- A polarised layer: the weights that come out give the derivative of what the
weights `Ra`, `Ta` give for the real parts of `R` and `T` of the solver, along every
curve of layers.  Provided that no eigenvector of a real eigenvalue has a single
component and no real eigenvalue is close to another.  Full statement: without these;
it is false for the first, see `C69_violated_vector`, and the second is left out
forward and in reverse alike. -/
theorem C69_pol_grad_partial {inv1? : Matrix (Fin n) (Fin n) ℂ → Option (Matrix (Fin n) (Fin n) ℂ)}
    (hex1 : Eig.Exact inv1?)
    {inv? : Matrix (Fin n ⊕ Unit) (Fin n ⊕ Unit) ℝ → Option (Matrix (Fin n ⊕ Unit) (Fin n ⊕ Unit) ℝ)}
    (hex : Eig.Exact inv?)
    {invC? : Matrix (Fin n ⊕ Unit) (Fin n ⊕ Unit) ℂ → Option (Matrix (Fin n ⊕ Unit) (Fin n ⊕ Unit) ℂ)}
    (hexC : Eig.Exact invC?) {eps : ℝ} {p : Pol n} {tpr tmr : ℝ → Source.M n} {tpr' tmr' : Source.M n}
    {V : ℝ → Matrix (Fin n) (Fin n) ℂ} {V' : Matrix (Fin n) (Fin n) ℂ} {nu : ℝ → Fin n → ℂ} {nu' : Fin n → ℂ}
    {ltau : ℝ → ℝ} {ltau' : ℝ} {o : ℝ → RT n ℂ} {l : List (Cols n)} (Ra Ta : Source.M n)
    (hpt : p.tpr = tpr x) (hpg : p.gamma = tmr x * tpr x) (hpn : p.nu = nu x)
    (htp : MD tpr tpr' x) (htm : MD tmr tmr' x) (htau : HasDerivAt ltau ltau' x)
    (hV : ∀ i j, DifferentiableAt ℝ (fun y => V y i j) x) (hnu : ∀ i, DifferentiableAt ℝ (fun y => nu y i) x)
    (h0 : ∀ i, nu x i ≠ 0)
    (hE : ∀ᶠ y in 𝓝 x, cplx (tmr y * tpr y) * V y = V y * diagonal fun i => nu y i ^ 2)
    (hlen : ∀ i, ∃ c, ∀ᶠ y in 𝓝 x, ∑ j, V y j i * V y j i = c)
    (hp : (l.flatMap Cols.list).Perm (List.finRange n))
    (hl : ∀ c ∈ l, p.Linear (Source.gammaL (tpr x) (tmr x) tpr' tmr') inv? invC? eps (V x) nu' V' c)
    (ha : ∀ c ∈ l, p.Along eps V nu x c)
    (ht : ∀ i, Cols.one i ∈ l → isTrivial eps p.E i = false)
    (h : ∀ᶠ y in 𝓝 x, calcRT Complex.exp inv1? (ltau y : ℂ) (modes (cplx (tpr y)) (nu y) (V y)) = some (o y)) :
    ∃ r, polLayerA inv1? inv? invC? eps (ltau x) p (modes (cplx (tpr x)) (nu x) (V x)) (o x) l Ra Ta (0, 0, 0) = some r ∧
      let a := gammaA (tpr x) (tmr x) r.2.2 r.2.1 0
      HasDerivAt (fun y => mpair Ra (fun i j => ((o y).R i j).re) + mpair Ta (fun i j => ((o y).T i j).re))
        (r.1 * ltau' + mpair a.1 tpr' + mpair a.2 tmr') x := by
  have dg : MD (fun y => tmr y * tpr y) (Source.gammaL (tpr x) (tmr x) tpr' tmr') x :=
    (htm.mul htp).congr (by unfold Source.gammaL; rw [add_comm])
  have key : ∀ i, HasDerivAt (fun y => nu y i) (nu' i) x ∧ ∀ k, HasDerivAt (fun y => V y k i) (V' k i) x := by
    intro i
    obtain ⟨c, hc, hi⟩ := List.mem_flatMap.1 (hp.mem_iff.2 (List.mem_finRange i))
    exact col_deriv hex hexC hpg hpn dg hV hnu hE hlen (hl c hc) (ha c hc) i hi
  have dm := C50_modes_deriv (fun y => cplx (tpr y)) V (cplx tpr') V' nu nu' (md_cplx htp) (fun k i => (key i).2 k)
    (fun i => (key i).1) h0
  obtain ⟨f, hf⟩ := C50_together (ltau x : ℂ) (ltau' : ℂ) _ (modesL (cplx (tpr x)) (cplx tpr') (nu x) nu' (V x) V') _ h.self_of_nhds
  obtain ⟨dR, dT⟩ := C50_rt_deriv exp_complex hex1 (fun y => (ltau y : ℂ)) (ltau' : ℂ) _ _ o f dm htau.ofReal_comp h hf
  obtain ⟨r, hr, k⟩ := C69_pol_partial (tpr' := tpr') hp hl ht Ra Ta (0, 0, 0) (by rw [hpt, hpn]; exact hf)
  refine ⟨r, hr, ?_⟩
  have d : HasDerivAt (fun y => mpair Ra (fun i j => ((o y).R i j).re) + mpair Ta (fun i j => ((o y).T i j).re))
      (mpair Ra (fun i j => (f.1 i j).re) + mpair Ta (fun i j => (f.2 i j).re)) x := by
    unfold mpair
    exact (HasDerivAt.fun_sum fun i _ => HasDerivAt.fun_sum fun j _ => (re_deriv (dR i j)).const_mul _).add
      (HasDerivAt.fun_sum fun i _ => HasDerivAt.fun_sum fun j _ => (re_deriv (dT i j)).const_mul _)
  refine d.congr_deriv ?_
  have kg := C34_gamma (tpr x) (tmr x) r.2.2 r.2.1 0 tpr' tmr'
  have z : ∀ b : Source.M n, mpair 0 b = 0 := m_zeroL
  dsimp only at k ⊢
  rw [z, z] at k
  rw [z] at kg
  have e : Source.gammaL (tpr x) (tmr x) tpr' tmr' = Adjoint.gammaL (tpr x) (tmr x) tpr' tmr' := rfl
  rw [e] at k
  linear_combination -k - kg

section example1

theorem pE : cplx pGamma * pV = pV * diagonal fun i => pNu i ^ 2 := by
  ext i j
  fin_cases i <;> fin_cases j <;>
    simp [cplx, pGamma, pV, pNu, Matrix.mul_apply, Fin.sum_univ_two] <;> ring_nf <;> simp [Complex.I_sq, pow_succ] <;>
    ring_nf <;> simp [Complex.I_sq] <;> ring

theorem pSimple' (g : Source.M 2) :
    ∃ c, eigenL inverseK (cplx pGamma) (cplx g) (pNu 0 ^ 2) (pNu 0) (fun j => pV j 0) = some c :=
  C50_eigen_simple (inverseK_exact (K := ℂ)) (cplx pGamma) (cplx g) pV pNu pDet pE 0
    (by
      intro h
      have := congrArg Complex.im h
      simp [pNu] at this)
    (by
      intro j hj h
      obtain rfl : j = 1 := by omega
      have := congrArg Complex.im h
      simp [pNu, pow_two] at this
      norm_num at this)
    (by
      rw [Fin.sum_univ_two]
      intro h
      have := congrArg Complex.im h
      simp [pV] at this)

theorem pNu_ne (j : Fin 2) : pNu j ≠ 0 ∧ pNu j - 1 ≠ 0 := by
  fin_cases j <;> constructor <;> intro h <;> have := congrArg Complex.im h <;> simp [pNu] at this

/-- The layer of the pair, without thickness: both systems can be solved. -/
theorem pRT : ∃ o, calcRT Complex.exp inverseK 0 (modes (cplx pPol.tpr) pNu pV) = some o := by
  have hx := pXm
  have hp : (modes (cplx pPol.tpr) pNu pV).Xp =
      (modes (cplx pPol.tpr) pNu pV).Xm * diagonal fun j => (pNu j + 1) / (pNu j - 1) := by
    have h1 : cplx pPol.tpr = 1 := by
      ext i j
      simp only [cplx, pPol, Matrix.map_apply]
      by_cases h : i = j
      · rw [h]; simp
      · rw [Matrix.one_apply_ne h, Matrix.one_apply_ne h]; simp
    ext i j
    rw [mul_diagonal, h1]
    obtain ⟨a, b⟩ := pNu_ne j
    simp only [modes, Matrix.one_mul]
    field_simp
  obtain ⟨m, hm⟩ : ∃ m, modes (cplx pPol.tpr) pNu pV = m := ⟨_, rfl⟩
  rw [hm] at hx hp ⊢
  have i1 : inverseK m.Xm = some m.Xm⁻¹ := by
    unfold inverseK
    rw [if_neg hx]
  have hl : (fun i => Complex.exp (-m.nu i * 0)) = fun _ => 1 := by
    funext i; simp
  have hc : (m.Xm - m.Xp * diagonal (fun _ => 1) * m.Xm⁻¹ * (m.Xp * diagonal fun _ => 1)).det ≠ 0 := by
    have e : m.Xm - m.Xp * diagonal (fun _ => 1) * m.Xm⁻¹ * (m.Xp * diagonal fun _ => 1) =
        m.Xm * diagonal fun j => 1 - (pNu j + 1) / (pNu j - 1) * ((pNu j + 1) / (pNu j - 1)) := by
      rw [diagonal_one, mul_one, mul_assoc, hp, ← mul_assoc m.Xm⁻¹,
        nonsing_inv_mul _ (isUnit_iff_ne_zero.2 hx), one_mul, mul_assoc, diagonal_mul_diagonal]
      ext i j
      rw [Matrix.sub_apply, mul_diagonal, mul_diagonal]
      ring
    rw [e, det_mul, det_diagonal]
    refine mul_ne_zero hx (Finset.prod_ne_zero_iff.2 fun j _ => ?_)
    obtain ⟨a, b⟩ := pNu_ne j
    have : 1 - (pNu j + 1) / (pNu j - 1) * ((pNu j + 1) / (pNu j - 1)) = -4 * pNu j / (pNu j - 1) ^ 2 := by
      field_simp
      ring
    rw [this]
    exact div_ne_zero (mul_ne_zero (by norm_num) a) (pow_ne_zero 2 b)
  unfold calcRT
  dsimp only
  rw [hl, i1]
  dsimp only
  have i2 : ∀ c : Matrix (Fin 2) (Fin 2) ℂ, c.det ≠ 0 → inverseK c = some c⁻¹ := fun c h => by
    unfold inverseK
    rw [if_neg h]
  rw [i2 _ hc]
  exact ⟨_, rfl⟩

/-- The local matrix of the pair grows as `y²`, the thickness from nothing. -/
example : ∃ (r : ℝ × Source.M 2 × Source.M 2) (o : ℝ → RT 2 ℂ),
    HasDerivAt (fun y => mpair 1 (fun i j => ((o y).R i j).re) + mpair 1 (fun i j => ((o y).T i j).re))
      (r.1 * 1 + mpair (gammaA 1 ((1 : ℝ) ^ 2 • pGamma) r.2.2 r.2.1 0).1 (0 : Source.M 2) +
        mpair (gammaA 1 ((1 : ℝ) ^ 2 • pGamma) r.2.2 r.2.1 0).2 ((2 : ℝ) • pGamma)) 1 := by
  obtain ⟨c, hc⟩ := pSimple' (Source.gammaL (1 : Source.M 2) ((1 : ℝ) ^ 2 • pGamma) 0 ((2 : ℝ) • pGamma))
  have htm : MD (fun y : ℝ => y ^ 2 • pGamma) ((2 : ℝ) • pGamma) 1 := fun i j => by
    have := ((hasDerivAt_pow 2 (1 : ℝ)).mul_const (pGamma i j))
    simpa using this
  have hnu : ∀ i, HasDerivAt (fun y : ℝ => (y : ℂ) * pNu i) (pNu i) 1 := fun i => by
    have := ((hasDerivAt_id (1 : ℝ)).ofReal_comp).mul_const (pNu i)
    simpa using this
  have e1 : (fun i => ((1 : ℝ) : ℂ) * pNu i) = pNu := by
    funext i; simp
  have dm := C50_modes_deriv (x := 1) (fun _ : ℝ => cplx (1 : Source.M 2)) (fun _ => pV) 0 0 (fun (y : ℝ) i => (y : ℂ) * pNu i) pNu
    (fun i j => hasDerivAt_const _ _) (fun i j => hasDerivAt_const _ _) hnu (fun i => by simpa using (pNu_ne i).1)
  have htau : HasDerivAt (fun y : ℝ => y - 1) 1 1 := (hasDerivAt_id (1 : ℝ)).sub_const 1
  obtain ⟨o1, ho1⟩ := pRT
  obtain ⟨o, ho⟩ := (C50_near exp_complex inverseK_exact (fun y : ℝ => ((y - 1 : ℝ) : ℂ)) ((1 : ℝ) : ℂ) _ _ o1 dm htau.ofReal_comp
    (by
      rw [e1]
      have z : (((1 : ℝ) - 1 : ℝ) : ℂ) = 0 := by simp
      rw [z]
      exact ho1)).choice
  obtain ⟨r, -, h⟩ := C69_pol_grad_partial (x := 1) (inverseK_exact (K := ℂ)) (inverseK_exact (K := ℝ)) (inverseK_exact (K := ℂ))
    (eps := 1 / 1000) (p := pPol) (tpr := fun _ => 1) (tmr := fun y => y ^ 2 • pGamma) (tpr' := 0) (tmr' := (2 : ℝ) • pGamma)
    (V := fun _ => pV) (V' := fun k j => if j = 0 then c.2 k else star (c.2 k)) (nu := fun y i => (y : ℂ) * pNu i)
    (nu' := ![c.1, star c.1]) (ltau := fun y => y - 1) (ltau' := 1) (o := o) (l := [Cols.two 0 1]) 1 1 rfl
    (by simp [pPol]) e1.symm (fun i j => hasDerivAt_const _ _) htm htau
    (fun i j => differentiableAt_const _) (fun i => (hnu i).differentiableAt)
    (fun i => by simpa using (pNu_ne i).1)
    (Eventually.of_forall fun y => by
      have hy : cplx (y ^ 2 • pGamma * 1) = (y : ℂ) ^ 2 • cplx pGamma := by
        ext i j
        simp [cplx]
      rw [hy, Matrix.smul_mul, pE]
      ext i j
      rw [Matrix.smul_apply, mul_diagonal, mul_diagonal, smul_eq_mul]
      ring)
    (fun i => ⟨_, Eventually.of_forall fun y => rfl⟩) (by decide)
    (by
      intro d hd
      rw [List.mem_singleton] at hd
      subst hd
      refine ⟨fun k => congrFun pVec.symm k, fun k => ?_, ?_, rfl, fun k => rfl⟩
      · fin_cases k <;> simp [pV]
      · rw [pSq, pVec]
        exact hc)
    (by
      intro d hd
      rw [List.mem_singleton] at hd
      subst hd
      refine ⟨Eventually.of_forall fun y => ⟨?_, fun k => ?_⟩, ?_⟩
      · simp [pNu, sub_eq_add_neg]
      · fin_cases k <;> simp [pV]
      · rw [pSq]; simp)
    (fun i hi => by simp at hi) ho
  exact ⟨r, o, h⟩

end example1

end Xrtm.EigA
