import Verif.Proof.EigA
import Verif.Props.Eig
import Verif.Props.Adjoint

/-!
# C69: the reverse mode of the eigenmatrix solver gives the weights of the layer,
unless two eigenvalues lie close together
-/

namespace Xrtm.EigA
open Matrix Filter Topology Xrtm.Spec Xrtm.Eig Xrtm.Adjoint

variable {n : Nat} {K : Type} [Field K] {x : ℝ}

/-- From `R` and `T` of the layer to thickness and modes: what the weights give does
not change, over every field (the code does it over the real and over the complex
numbers). -/
theorem C69_rt {inv? : Matrix (Fin n) (Fin n) K → Option (Matrix (Fin n) (Fin n) K)} {ltau ltau' : K} {m m' : Modes n K}
    {o : RT n K} {Ra Ta : Matrix (Fin n) (Fin n) K} {w r : RTW n K}
    {f : Matrix (Fin n) (Fin n) K × Matrix (Fin n) (Fin n) K} (hr : calcRTA inv? ltau m o Ra Ta w = some r)
    (hf : calcRTL inv? ltau ltau' m m' o = some f) :
    r.ltau * ltau' + (vpair r.m.nu m'.nu + mpair r.m.Xp m'.Xp + mpair r.m.Xm m'.Xm) =
      w.ltau * ltau' + (vpair w.m.nu m'.nu + mpair w.m.Xp m'.Xp + mpair w.m.Xm m'.Xm) + mpair Ra f.1 + mpair Ta f.2 :=
  calcRT_keeps hr hf

/-- The reverse step fails only where the derivative forward fails. -/
theorem C69_rt_goes {inv? : Matrix (Fin n) (Fin n) K → Option (Matrix (Fin n) (Fin n) K)} {ltau ltau' : K}
    {m m' : Modes n K} {o : RT n K} (Ra Ta : Matrix (Fin n) (Fin n) K) (w : RTW n K) :
    (calcRTA inv? ltau m o Ra Ta w).isSome = (calcRTL inv? ltau ltau' m m' o).isSome := by
  unfold calcRTA calcRTL
  cases inv? m.Xm <;> cases inv? o.c <;> rfl

/-- From the modes to `tpr`, the roots and the eigenvectors. -/
theorem C69_modes (tpr tpr' : Matrix (Fin n) (Fin n) K) (nu nu' : Fin n → K) (evecs evecs' : Matrix (Fin n) (Fin n) K)
    (a : Modes n K) (w : Matrix (Fin n) (Fin n) K × (Fin n → K) × Matrix (Fin n) (Fin n) K) :
    let r := modesA tpr nu evecs a w
    let m' := modesL tpr tpr' nu nu' evecs evecs'
    mpair r.1 tpr' + vpair r.2.1 nu' + mpair r.2.2 evecs' =
      mpair w.1 tpr' + vpair w.2.1 nu' + mpair w.2.2 evecs' +
        (vpair a.nu m'.nu + mpair a.Xp m'.Xp + mpair a.Xm m'.Xm) :=
  modes_keeps tpr tpr' nu nu' evecs evecs' a w

/-- From roots and eigenvectors to `gamma`, if no two eigenvalues lie close
together.  Full statement: without that; it is false, see `C69_violated_close`. -/
theorem C69_eigen_partial
    {inv? : Matrix (Fin n ⊕ Unit) (Fin n ⊕ Unit) ℝ → Option (Matrix (Fin n ⊕ Unit) (Fin n ⊕ Unit) ℝ)} {eps : ℝ}
    {gamma gamma' evecs va : Matrix (Fin n) (Fin n) ℝ} {evals ea : Fin n → ℝ} {g g' : Matrix (Fin n) (Fin n) ℝ}
    {c : Fin n → ℝ × (Fin n → ℝ)}
    (hd : ∀ i, isTrivial eps evecs i = true ∨ ∀ j, i ≠ j → eps * 100 < |evals i - evals j|)
    (hc : ∀ i, columnL inv? eps gamma gamma' evals evecs i = some (c i))
    (hg : eigenA inv? eps gamma evals evecs ea va g = some g') :
    mpair g' gamma' = mpair g gamma' + vpair ea (fun i => (c i).1) + mpair va (fun j i => (c i).2 j) :=
  eigen_keeps (fun i => (hd i).imp_right fun h => by
    unfold isDegenerate
    simp only [decide_eq_false_iff_not, not_exists, not_and, not_le]
    exact h) hc hg

/-- It fails only where the derivative forward fails. -/
theorem C69_eigen_goes
    {inv? : Matrix (Fin n ⊕ Unit) (Fin n ⊕ Unit) ℝ → Option (Matrix (Fin n ⊕ Unit) (Fin n ⊕ Unit) ℝ)} {eps : ℝ}
    {gamma gamma' evecs va : Matrix (Fin n) (Fin n) ℝ} {evals ea : Fin n → ℝ} {g : Matrix (Fin n) (Fin n) ℝ}
    (hc : ∀ i, ∃ c, columnL inv? eps gamma gamma' evals evecs i = some c) :
    ∃ g', eigenA inv? eps gamma evals evecs ea va g = some g' :=
  eigen_goes hc

theorem realNu_sq {nu : Fin n → ℝ} (h : ∀ i, 0 < nu i) : realNu (fun i => nu i ^ 2) = nu := by
  funext i
  unfold realNu
  rw [abs_of_nonneg (sq_nonneg _), Real.sqrt_sq (h i).le]

/-- All of the scalar path together, down to `tpr` and `tmr`: the weights that come
out give the derivative of what the weights `Ra`, `Ta` give for the layer, along
every curve of layers, under the provision of `C50_grad_partial` and if no two
eigenvalues lie close together.  Full statement: without the two provisions; it is
false, see `C50_violated_trivial` and `C69_violated_close`. -/
theorem C69_grad_partial {inv? : Source.M n → Option (Source.M n)} (hex : Eig.Exact inv?)
    {inv1? : Matrix (Fin n ⊕ Unit) (Fin n ⊕ Unit) ℝ → Option (Matrix (Fin n ⊕ Unit) (Fin n ⊕ Unit) ℝ)}
    (hex1 : Eig.Exact inv1?) (eps : ℝ) (tpr tmr V : ℝ → Source.M n) (tpr' tmr' : Source.M n) (nu : ℝ → Fin n → ℝ)
    (ltau : ℝ → ℝ) (ltau' : ℝ) (o : ℝ → RT n ℝ) (Ra Ta : Source.M n)
    (htp : MD tpr tpr' x) (htm : MD tmr tmr' x) (hl : HasDerivAt ltau ltau' x)
    (hV : ∀ i j, DifferentiableAt ℝ (fun y => V y i j) x) (hnu : ∀ i, DifferentiableAt ℝ (fun y => nu y i) x)
    (h0 : ∀ i, 0 < nu x i)
    (hE : ∀ᶠ y in 𝓝 x, tmr y * tpr y * V y = V y * diagonal fun i => nu y i ^ 2)
    (hdet : (V x).det ≠ 0)
    (hlen : ∀ i, ∃ c, c ≠ 0 ∧ ∀ᶠ y in 𝓝 x, ∑ j, V y j i * V y j i = c)
    (htriv : ∀ i, isTrivial eps (V x) i → HasDerivAt (fun y => nu y i) 0 x ∧
      ∀ j, HasDerivAt (fun y => V y j i) 0 x)
    (heps : 0 ≤ eps) (hd : ∀ i, ∀ j, i ≠ j → eps * 100 < |nu x i ^ 2 - nu x j ^ 2|)
    (h : ∀ᶠ y in 𝓝 x, calcRT Real.exp inv? (ltau y) (modes (tpr y) (nu y) (V y)) = some (o y)) :
    ∃ r, layerA inv? inv1? eps (ltau x) (tpr x) (tmr x * tpr x) (fun i => nu x i ^ 2) (V x) (o x) Ra Ta (0, 0, 0) =
        some r ∧
      let a := gammaA (tpr x) (tmr x) r.2.2 r.2.1 0
      HasDerivAt (fun y => mpair Ra (o y).R + mpair Ta (o y).T)
        (r.1 * ltau' + mpair a.1 tpr' + mpair a.2 tmr') x := by
  have hx := hE.self_of_nhds
  have hcol : ∀ i, ∃ c, columnL inv1? eps (Source.gammaOf (tpr x) (tmr x)) (Source.gammaL (tpr x) (tmr x) tpr' tmr')
      (fun i => nu x i ^ 2) (V x) i = some c := by
    intro i
    unfold columnL
    split_ifs
    · exact ⟨_, rfl⟩
    · rw [Real.sqrt_sq (h0 i).le]
      refine C50_eigen_simple hex1 _ _ (V x) (nu x) hdet hx i (h0 i).ne' (fun j hj he => ?_) ?_
      · have := hd i j hj.symm
        rw [he, sub_self, abs_zero] at this
        linarith
      · obtain ⟨c, hc0, hc⟩ := hlen i
        rw [hc.self_of_nhds]
        exact hc0
  obtain ⟨c, hc⟩ := Classical.axiom_of_choice hcol
  have ⟨f, hf⟩ : ∃ f, calcRTL inv? (ltau x) ltau' (modes (tpr x) (nu x) (V x))
      (modesL (tpr x) tpr' (nu x) (fun i => (c i).1) (V x) fun j i => (c i).2 j) (o x) = some f :=
    C50_together _ _ _ _ _ h.self_of_nhds
  have hsq := realNu_sq h0
  obtain ⟨r, hr⟩ := layer_goes (Ra := Ra) (Ta := Ta) (w := (0, 0, 0)) hcol
    (⟨f, by rw [hsq]; exact hf⟩ : ∃ f, calcRTL inv? (ltau x) ltau' (modes (tpr x) (realNu fun i => nu x i ^ 2) (V x))
      (modesL (tpr x) tpr' (nu x) (fun i => (c i).1) (V x) fun j i => (c i).2 j) (o x) = some f)
  refine ⟨r, hr, ?_⟩
  have k := layer_keeps (f := f) (tpr' := tpr') (ltau' := ltau') (fun i => .inr (by
    unfold isDegenerate
    simp only [decide_eq_false_iff_not, not_exists, not_and, not_le]
    exact hd i)) hc (by rw [hsq]; exact hf) hr
  obtain ⟨dR, dT⟩ := C50_grad_partial hex hex1 eps tpr tmr V tpr' tmr' (fun j i => (c i).2 j) nu (fun i => (c i).1)
    ltau ltau' o f htp htm hl hV hnu h0 hE (fun i => (hlen i).imp fun _ h => h.2) htriv hc h hf
  have d : HasDerivAt (fun y => mpair Ra (o y).R + mpair Ta (o y).T) (mpair Ra f.1 + mpair Ta f.2) x := by
    unfold mpair
    exact (HasDerivAt.fun_sum fun i _ => HasDerivAt.fun_sum fun j _ => (dR i j).const_mul _).add
      (HasDerivAt.fun_sum fun i _ => HasDerivAt.fun_sum fun j _ => (dT i j).const_mul _)
  refine d.congr_deriv ?_
  have kg := C34_gamma (tpr x) (tmr x) r.2.2 r.2.1 0 tpr' tmr'
  have z : ∀ b : Source.M n, mpair 0 b = 0 := m_zeroL
  dsimp only at k ⊢
  rw [z, z] at k
  rw [z] at kg
  have e : Source.gammaL (tpr x) (tmr x) tpr' tmr' = Adjoint.gammaL (tpr x) (tmr x) tpr' tmr' := rfl
  rw [e] at k
  linear_combination -k - kg

/-- Such a curve: one direction, `gamma = y`; and the steps one by one for it. -/
example : ∃ (o : ℝ → RT 1 ℝ) (r : ℝ × Source.M 1 × Source.M 1) (d : ℝ),
    layerA inverseK inverseK (1 / 1000) 2 (num (-2)) (num (-1 / 2) * num (-2)) (fun _ => Real.sqrt 1 ^ 2) 1 (o 1)
      1 (num 3) (0, 0, 0) = some r ∧ HasDerivAt (fun y => mpair 1 (o y).R + mpair (num 3) (o y).T) d 1 := by
  have hE : ∀ᶠ y : ℝ in 𝓝 1, num (-y / 2) * num (-2) * (1 : Source.M 1) = 1 * diagonal fun _ => Real.sqrt y ^ 2 := by
    filter_upwards [lt_mem_nhds (show (0:ℝ) < 1 by norm_num)] with y hy
    rw [Matrix.mul_one, Matrix.one_mul, Real.sq_sqrt hy.le, num_mul]
    change num _ = num _
    congr 1; ring
  have dtm : MD (fun y : ℝ => num (-y / 2)) (num (-1 / 2)) 1 :=
    MD.diag fun _ => ((hasDerivAt_id (1:ℝ)).neg).div_const 2
  have dtp : MD (fun _ : ℝ => num (-2)) 0 1 := fun i j => hasDerivAt_const _ _
  have dnu : ∀ i : Fin 1, HasDerivAt (fun y : ℝ => (fun _ : Fin 1 => Real.sqrt y) i) (1 / (2 * Real.sqrt 1)) 1 :=
    fun _ => Real.hasDerivAt_sqrt one_ne_zero
  have hmod : modes (num (-2)) (fun _ => Real.sqrt 1) 1 = modes (num (-2)) (fun _ => 1) 1 := by
    rw [Real.sqrt_one]
  obtain ⟨o1, ho1⟩ := demo_solver 2 (by norm_num)
  have ho1 : calcRT Real.exp inverseK 2 (modes (num (-2)) (fun _ => Real.sqrt 1) 1) = some o1 := by
    rw [hmod, ← ho1]
    unfold solver
    simp only [demo_tpr]
    rfl
  have dm := C50_modes_deriv (x := 1) (fun _ : ℝ => num (-2)) (fun _ => (1 : Source.M 1)) 0 0 (fun y _ => Real.sqrt y)
    (fun _ => 1 / (2 * Real.sqrt 1)) dtp (fun i j => hasDerivAt_const _ _) dnu (fun _ => by simp)
  obtain ⟨o, ho⟩ := (C50_near exp_real inverseK_exact (fun _ => 2) 0 _ _ o1 dm (hasDerivAt_const _ _) ho1).choice
  obtain ⟨r, hr, hd⟩ := C69_grad_partial inverseK_exact inverseK_exact (1 / 1000) (fun _ => num (-2))
    (fun y => num (-y / 2)) (fun _ => 1) 0 (num (-1 / 2)) (fun y _ => Real.sqrt y) (fun _ => 2) 0 o 1 (num 3) dtp dtm
    (hasDerivAt_const _ _) (fun i j => differentiableAt_const _) (fun i => (dnu i).differentiableAt)
    (fun i => by simp) hE (by simp)
    (fun i => ⟨1, one_ne_zero, Eventually.of_forall fun y => by
      have hi : i = 0 := Subsingleton.elim _ _
      subst hi
      simp⟩)
    (fun i h => by simp [isTrivial] at h) (by norm_num) (fun i j hij => absurd (Subsingleton.elim i j) hij) ho
  exact ⟨o, r, _, hr, hd⟩

/-- Two directions with eigenvalues 1 and 4 that do not lie close together. -/
example : ∀ i, isTrivial (1 / 1000) (!![1, 1; 1, -1] : Source.M 2) i = true ∨ ∀ j : Fin 2, i ≠ j →
    (1 / 1000 : ℝ) * 100 < |(fun i : Fin 2 => if i = 0 then (1:ℝ) else 4) i - (fun i : Fin 2 => if i = 0 then (1:ℝ) else 4) j| := by
  intro i
  right
  intro j hij
  fin_cases i <;> fin_cases j <;> simp at hij ⊢ <;> norm_num [abs_of_neg]

/-- **Violated** where two eigenvalues lie close together: the reverse step then
leaves them out, the step forward does not.  For every `eps` there is a `gamma`
with two eigenvalues of which neither eigenvector is trivial; the derivatives of
the roots, when `1` is added to the diagonal, are positive, and the forward call
gives them; but whatever the weights are nothing is added to those of `gamma`. -/
theorem C69_violated_close {eps : ℝ} (h0 : 0 < eps) (h1 : eps < 1 / 100)
    {inv? : Matrix (Fin 2 ⊕ Unit) (Fin 2 ⊕ Unit) ℝ → Option (Matrix (Fin 2 ⊕ Unit) (Fin 2 ⊕ Unit) ℝ)}
    (hex : Eig.Exact inv?) :
    ∃ (gamma V : Source.M 2) (nu : ℝ → Fin 2 → ℝ),
      (∀ i, isTrivial eps V i = false) ∧ (∀ i j, i ≠ j → nu 0 i ^ 2 ≠ nu 0 j ^ 2) ∧
      (∀ᶠ y in 𝓝 (0 : ℝ), (gamma + y • (1 : Source.M 2)) * V = V * diagonal fun i => nu y i ^ 2) ∧
      ∃ c : Fin 2 → ℝ × (Fin 2 → ℝ),
        (∀ i, columnL inv? eps gamma 1 (fun i => nu 0 i ^ 2) V i = some (c i)) ∧
        (∀ i, HasDerivAt (fun y => nu y i) (c i).1 0 ∧ 0 < (c i).1) ∧
        ∀ ea va g, eigenA inv? eps gamma (fun i => nu 0 i ^ 2) V ea va g = some g := by
  set e : ℝ := 50 * eps with he
  have he0 : 0 < e := by rw [he]; linarith
  have he1 : e < 1 / 2 := by rw [he]; linarith
  set s : Fin 2 → ℝ := fun i => if i = 0 then 1 + e else 1 - e with hs
  have hspos : ∀ i, 0 < s i := by
    intro i; rw [hs]; dsimp only; split_ifs <;> linarith
  have hVt : ∀ i, isTrivial eps (!![1, 1; 1, -1] : Source.M 2) i = false := by
    intro i
    unfold isTrivial
    rw [if_neg (by norm_num)]
    have : (Finset.univ.filter fun j => eps < |(!![1, 1; 1, -1] : Source.M 2) j i|) = Finset.univ := by
      rw [Finset.filter_true_of_mem]
      intro j _
      fin_cases i <;> fin_cases j <;> simp <;> linarith
    rw [this]; decide
  have hE : ∀ᶠ y in 𝓝 (0 : ℝ), ((!![1, e; e, 1] : Source.M 2) + y • (1 : Source.M 2)) * !![1, 1; 1, -1] =
      !![1, 1; 1, -1] * diagonal fun i => Real.sqrt (s i + y) ^ 2 := by
    filter_upwards [lt_mem_nhds (show (-(1/2) : ℝ) < 0 by norm_num)] with y hy
    have hp : ∀ i, 0 ≤ s i + y := by
      intro i; rw [hs]; dsimp only; split_ifs <;> linarith
    have hq : (fun i => Real.sqrt (s i + y) ^ 2) = fun i => s i + y := funext fun i => Real.sq_sqrt (hp i)
    rw [hq]
    ext i j
    fin_cases i <;> fin_cases j <;> simp [hs, Matrix.mul_apply, Fin.sum_univ_two] <;> ring
  have hx := hE.self_of_nhds
  rw [zero_smul, add_zero] at hx
  have hnd : ∀ i, HasDerivAt (fun y => Real.sqrt (s i + y)) (1 / (2 * Real.sqrt (s i))) 0 := by
    intro i
    have d : HasDerivAt (fun y : ℝ => s i + y) 1 0 := (hasDerivAt_id (0:ℝ)).const_add _
    have := d.sqrt (by rw [add_zero]; exact (hspos i).ne')
    rwa [add_zero] at this
  have hdist : ∀ i j, i ≠ j → Real.sqrt (s i + 0) ^ 2 ≠ Real.sqrt (s j + 0) ^ 2 := by
    intro i j hij h
    rw [Real.sq_sqrt (by linarith [hspos i]), Real.sq_sqrt (by linarith [hspos j])] at h
    fin_cases i <;> fin_cases j <;> simp [hs] at hij h <;> linarith
  have hcol : ∀ i, ∃ c, columnL inv? eps !![1, e; e, 1] 1 (fun i => Real.sqrt (s i + 0) ^ 2) !![1, 1; 1, -1] i = some c := by
    intro i
    unfold columnL
    rw [hVt i, if_neg (by simp), Real.sqrt_sq (Real.sqrt_nonneg _)]
    refine C50_eigen_simple hex _ _ !![1, 1; 1, -1] (fun i => Real.sqrt (s i + 0)) ?_ hx i ?_ (fun j hj => hdist j i hj) ?_
    · rw [det_fin_two_of]; norm_num
    · exact (Real.sqrt_pos.2 (by linarith [hspos i])).ne'
    · fin_cases i <;> simp [Fin.sum_univ_two] <;> norm_num
  obtain ⟨c, hc⟩ := Classical.axiom_of_choice hcol
  refine ⟨!![1, e; e, 1], !![1, 1; 1, -1], fun y i => Real.sqrt (s i + y), hVt, hdist, hE, c, hc, fun i => ?_,
    fun ea va g => eigen_stays fun i => ?_⟩
  · have hi := hc i
    unfold columnL at hi
    rw [hVt i, if_neg (by simp), Real.sqrt_sq (Real.sqrt_nonneg _)] at hi
    have dg : MD (fun y : ℝ => (!![1, e; e, 1] : Source.M 2) + y • (1 : Source.M 2)) 1 0 := by
      intro a b
      have d := ((hasDerivAt_id (0:ℝ)).mul_const ((1 : Source.M 2) a b)).const_add ((!![1, e; e, 1] : Source.M 2) a b)
      rw [one_mul] at d
      exact d
    have k := C50_eigen_deriv (x := 0) hex (fun y : ℝ => (!![1, e; e, 1] : Source.M 2) + y • (1 : Source.M 2)) 1
      (fun _ j => (!![1, 1; 1, -1] : Source.M 2) j i) (fun y => Real.sqrt (s i + y)) dg
      (fun _ => differentiableAt_const _) (hnd i).differentiableAt
      (hE.mono fun y hy => by
        funext j
        have e := congrFun (congrFun hy j) i
        rw [mul_diagonal] at e
        rw [Pi.smul_apply, smul_eq_mul, mul_comm, ← e]
        rfl) _ (Eventually.of_forall fun _ => rfl) (c i) (by
          beta_reduce
          rw [zero_smul, add_zero]; exact hi)
    refine ⟨k.1, ?_⟩
    rw [k.1.unique (hnd i)]
    have := Real.sqrt_pos.2 (hspos i)
    positivity
  · unfold isDegenerate
    rw [decide_eq_true_iff]
    have hq : ∀ i, Real.sqrt (s i + 0) ^ 2 = s i := fun i => by
      rw [Real.sq_sqrt (by linarith [hspos i]), add_zero]
    refine ⟨1 - i, by fin_cases i <;> decide, ?_⟩
    beta_reduce
    rw [hq, hq]
    have h2 : |s i - s (1 - i)| = 2 * e := by
      fin_cases i
      · have : s 0 - s 1 = 2 * e := by simp [hs]; ring
        change |s 0 - s 1| = _
        rw [this, abs_of_pos (by linarith)]
      · have : s 1 - s 0 = -(2 * e) := by simp [hs]; ring
        change |s 1 - s 0| = _
        rw [this, abs_neg, abs_of_pos (by linarith)]
    rw [h2, he]; linarith

example : ∃ gamma V : Source.M 2, ∀ ea va g, ∃ evals : Fin 2 → ℝ, eigenA inverseK (1 / 1000) gamma evals V ea va g = some g :=
  have ⟨gamma, V, nu, _, _, _, _, _, _, h⟩ := C69_violated_close (eps := 1 / 1000) (by norm_num) (by norm_num) inverseK_exact
  ⟨gamma, V, fun ea va g => ⟨_, h ea va g⟩⟩

/-- With polarisation, a real eigenvalue: the reverse step keeps what the weights
give, close eigenvalues or not, if the eigenvector has more than one component.
Full statement: without that; it is false, see `C69_violated_vector`. -/
theorem C69_real_column_partial
    {inv? : Matrix (Fin n ⊕ Unit) (Fin n ⊕ Unit) ℝ → Option (Matrix (Fin n ⊕ Unit) (Fin n ⊕ Unit) ℝ)} {eps : ℝ}
    {gamma gamma' evecs va : Matrix (Fin n) (Fin n) ℝ} {evals ea : Fin n → ℝ} {g g' : Matrix (Fin n) (Fin n) ℝ}
    {i : Fin n} {c : ℝ × (Fin n → ℝ)} (ht : isTrivial eps evecs i = false)
    (hc : columnRL inv? eps gamma gamma' evals evecs i = some c)
    (hg : columnA inv? eps gamma evals evecs ea va g i = some g') :
    mpair g' gamma' = mpair g gamma' + (ea i * c.1 + vpair (fun j => va j i) c.2) :=
  column_keeps_real ht hc hg

/-- **Violated** with polarisation for an eigenvector with a single component: the
step forward gives the derivative of the root, the reverse step leaves it out. -/
theorem C69_violated_vector {eps : ℝ} (h0 : 0 < eps) (h1 : eps < 1 / 100)
    {inv? : Matrix (Fin 2 ⊕ Unit) (Fin 2 ⊕ Unit) ℝ → Option (Matrix (Fin 2 ⊕ Unit) (Fin 2 ⊕ Unit) ℝ)}
    (hex : Eig.Exact inv?) (i : Fin 2) :
    let nu : Fin 2 → ℝ := fun i => if i = 0 then 1 else 2
    let gamma : Source.M 2 := diagonal fun i => nu i ^ 2
    (∃ c, columnRL inv? eps gamma 1 (fun i => nu i ^ 2) 1 i = some c ∧ c.1 = 1 / (2 * nu i)) ∧
      ∀ ea va g, columnA inv? eps gamma (fun i => nu i ^ 2) 1 ea va g i = some g := by
  intro nu gamma
  have hpos : ∀ i, 0 < nu i := by
    intro i; change 0 < (if i = 0 then (1:ℝ) else 2); split_ifs <;> norm_num
  have hdist : ∀ i j, i ≠ j → |nu i ^ 2 - nu j ^ 2| = 3 := by
    intro i j hij
    fin_cases i <;> fin_cases j <;> simp [nu] at hij ⊢ <;> norm_num
  have hx : gamma * 1 = 1 * diagonal fun i => nu i ^ 2 := by rw [Matrix.mul_one, Matrix.one_mul]
  obtain ⟨c, hc⟩ := C50_eigen_simple hex gamma 1 1 nu (by simp) hx i (hpos i).ne'
    (fun j hj he => by
      have := hdist j i hj
      rw [he] at this; norm_num at this) (by simp [Matrix.one_apply])
  have hdeg : isDegenerate eps (fun i => nu i ^ 2) i = false := by
    unfold isDegenerate
    simp only [decide_eq_false_iff_not, not_exists, not_and, not_le]
    intro j hij
    rw [hdist i j hij]; linarith
  refine ⟨⟨c, ?_, ?_⟩, fun ea va g => ?_⟩
  · unfold columnRL
    rw [hdeg, if_neg (by simp), Real.sqrt_sq (hpos i).le]
    exact hc
  · have dsq : HasDerivAt (fun y => Real.sqrt (nu i ^ 2 + y)) (1 / (2 * nu i)) 0 := by
      have d : HasDerivAt (fun y : ℝ => nu i ^ 2 + y) 1 0 := (hasDerivAt_id (0:ℝ)).const_add _
      have d2 := d.sqrt (by rw [add_zero]; exact (pow_pos (hpos i) 2).ne')
      rw [add_zero, Real.sqrt_sq (hpos i).le] at d2
      exact d2
    have dg : MD (fun y : ℝ => gamma + y • (1 : Source.M 2)) 1 0 := by
      intro a b
      have d := ((hasDerivAt_id (0:ℝ)).mul_const ((1 : Source.M 2) a b)).const_add (gamma a b)
      rw [one_mul] at d
      exact d
    have k := C50_eigen_deriv (x := 0) hex (fun y : ℝ => gamma + y • (1 : Source.M 2)) 1
      (fun _ j => (1 : Source.M 2) j i) (fun y => Real.sqrt (nu i ^ 2 + y)) dg
      (fun _ => differentiableAt_const _) dsq.differentiableAt
      (by
        filter_upwards [lt_mem_nhds (show -(nu i ^ 2) < 0 by linarith [pow_pos (hpos i) 2])] with y hy
        rw [Real.sq_sqrt (by linarith)]
        funext j
        have : ((gamma + y • (1 : Source.M 2)) *ᵥ fun j => (1 : Source.M 2) j i) j = (gamma + y • (1 : Source.M 2)) j i := by
          have := congrFun (congrFun (Matrix.mul_one (gamma + y • (1 : Source.M 2))) j) i
          exact this
        rw [this, Pi.smul_apply, smul_eq_mul, Matrix.add_apply, Matrix.smul_apply, smul_eq_mul]
        by_cases hji : j = i
        · subst hji
          rw [Matrix.one_apply_eq, show gamma j j = nu j ^ 2 from diagonal_apply_eq _ _]; ring
        · rw [Matrix.one_apply_ne hji, show gamma j i = 0 from diagonal_apply_ne _ hji]; ring)
      _ (Eventually.of_forall fun _ => rfl) c (by
        beta_reduce
        rw [zero_smul, add_zero, add_zero, Real.sqrt_sq (hpos i).le]; exact hc)
    exact k.1.unique dsq
  · have ht : isTrivial eps (1 : Source.M 2) i = true := by
      unfold isTrivial
      rw [if_neg (by norm_num), decide_eq_true_iff]
      have : (Finset.univ.filter fun j => eps < |(1 : Source.M 2) j i|) = {i} := by
        ext j
        simp only [Finset.mem_filter, Finset.mem_univ, true_and, Finset.mem_singleton]
        by_cases hji : j = i
        · subst hji; rw [Matrix.one_apply_eq]; simp; linarith
        · rw [Matrix.one_apply_ne hji]; simp [hji]; linarith
      rw [this]; simp
    unfold columnA
    rw [ht, if_pos rfl]

example : ∃ c, columnRL inverseK (1 / 1000) (diagonal fun i => (fun i : Fin 2 => if i = 0 then (1:ℝ) else 2) i ^ 2) 1
    (fun i => (fun i : Fin 2 => if i = 0 then (1:ℝ) else 2) i ^ 2) 1 1 = some c ∧ c.1 ≠ 0 :=
  have ⟨c, h, e⟩ := (C69_violated_vector (eps := 1 / 1000) (by norm_num) (by norm_num) inverseK_exact 1).1
  ⟨c, h, by rw [e]; norm_num⟩

/-- With polarisation, a pair of complex eigenvalues: the step from roots and
eigenvectors to `gamma`.  The second column is the conjugate of the first. -/
theorem C69_pair {inv? : Matrix (Fin n ⊕ Unit) (Fin n ⊕ Unit) ℂ → Option (Matrix (Fin n ⊕ Unit) (Fin n ⊕ Unit) ℂ)}
    {gamma gamma' g g' : Matrix (Fin n) (Fin n) ℝ} {eval root ea1 ea2 : ℂ} {v va : Fin n → ℂ} {c : ℂ × (Fin n → ℂ)}
    (hc : eigenL inv? (cplx gamma) (cplx gamma') eval root v = some c)
    (hg : pairA inv? gamma eval root v ea1 ea2 va g = some g') :
    mpair g' gamma' = mpair g gamma' + ((ea1 * c.1).re + (ea2 * star c.1).re + ∑ k, (va k * c.2 k).re) :=
  pair_keeps hc hg

/-- It fails only where the derivative forward fails. -/
theorem C69_pair_goes {inv? : Matrix (Fin n ⊕ Unit) (Fin n ⊕ Unit) ℂ → Option (Matrix (Fin n ⊕ Unit) (Fin n ⊕ Unit) ℂ)}
    (gamma gamma' g : Matrix (Fin n) (Fin n) ℝ) (eval root ea1 ea2 : ℂ) (v va : Fin n → ℂ) :
    (pairA inv? gamma eval root v ea1 ea2 va g).isSome = (eigenL inv? (cplx gamma) (cplx gamma') eval root v).isSome := by
  unfold pairA eigenL
  cases inv? (bordered (cplx gamma) eval root v) <;> rfl

/-- ... and the step from the modes of the two columns to `tpr`, the roots and the
eigenvector. -/
theorem C69_pair_modes {tpr tpr' : Matrix (Fin n) (Fin n) ℝ} {nu nu' : Fin n → ℂ}
    {evecs evecs' : Matrix (Fin n) (Fin n) ℂ} {i1 i2 : Fin n} (hv : ∀ k, evecs k i2 = star (evecs k i1))
    (hv' : ∀ k, evecs' k i2 = star (evecs' k i1)) (Xp1 Xm1 Xp2 Xm2 : Fin n → ℂ) (n1 n2 : ℂ) (w : PairW n) :
    let r := pairModesA tpr (nu i1) (nu i2) (fun k => evecs k i1) Xp1 Xm1 Xp2 Xm2 n1 n2 w
    let m' := modesL (cplx tpr) (cplx tpr') nu nu' evecs evecs'
    mpair r.tpr tpr' + (r.ea1 * nu' i1).re + (r.ea2 * nu' i2).re + ∑ k, (r.va k * evecs' k i1).re =
      mpair w.tpr tpr' + (w.ea1 * nu' i1).re + (w.ea2 * nu' i2).re + ∑ k, (w.va k * evecs' k i1).re +
        (∑ k, (Xp1 k * m'.Xp k i1 + Xm1 k * m'.Xm k i1 + Xp2 k * m'.Xp k i2 + Xm2 k * m'.Xm k i2).re +
          (n1 * nu' i1 + n2 * nu' i2).re) :=
  pairModes_keeps hv hv' Xp1 Xm1 Xp2 Xm2 n1 n2 w

/-- The two steps together: from the weights of the modes of a pair to those of
`tpr` and `gamma`. -/
theorem C69_pair_all {inv? : Matrix (Fin n ⊕ Unit) (Fin n ⊕ Unit) ℂ → Option (Matrix (Fin n ⊕ Unit) (Fin n ⊕ Unit) ℂ)}
    {tpr tpr' gamma gamma' g g' : Matrix (Fin n) (Fin n) ℝ} {nu nu' : Fin n → ℂ} {evecs evecs' : Matrix (Fin n) (Fin n) ℂ}
    {i1 i2 : Fin n} {eval : ℂ} (hv : ∀ k, evecs k i2 = star (evecs k i1)) (hv' : ∀ k, evecs' k i2 = star (evecs' k i1))
    (hn : nu' i2 = star (nu' i1))
    (hc : eigenL inv? (cplx gamma) (cplx gamma') eval (nu i1) (fun k => evecs k i1) = some (nu' i1, fun k => evecs' k i1))
    (Xp1 Xm1 Xp2 Xm2 : Fin n → ℂ) (n1 n2 : ℂ) (t : Matrix (Fin n) (Fin n) ℝ)
    (hg : let r := pairModesA tpr (nu i1) (nu i2) (fun k => evecs k i1) Xp1 Xm1 Xp2 Xm2 n1 n2 ⟨t, 0, 0, 0⟩
      pairA inv? gamma eval (nu i1) (fun k => evecs k i1) r.ea1 r.ea2 r.va g = some g') :
    let r := pairModesA tpr (nu i1) (nu i2) (fun k => evecs k i1) Xp1 Xm1 Xp2 Xm2 n1 n2 ⟨t, 0, 0, 0⟩
    let m' := modesL (cplx tpr) (cplx tpr') nu nu' evecs evecs'
    mpair r.tpr tpr' + mpair g' gamma' = mpair t tpr' + mpair g gamma' +
        (∑ k, (Xp1 k * m'.Xp k i1 + Xm1 k * m'.Xm k i1 + Xp2 k * m'.Xp k i2 + Xm2 k * m'.Xm k i2).re +
          (n1 * nu' i1 + n2 * nu' i2).re) := by
  have h1 := pairModes_keeps (tpr := tpr) (tpr' := tpr') (nu := nu) (nu' := nu') hv hv' Xp1 Xm1 Xp2 Xm2 n1 n2 ⟨t, 0, 0, 0⟩
  have h2 := pair_keeps hc hg
  dsimp only at h1 h2 ⊢
  rw [hn] at h1 ⊢
  simp only [zero_mul, Complex.zero_re, Finset.sum_const_zero, add_zero, Pi.zero_apply] at h1
  linarith [h1, h2]

section pairExample

/-- Eigenvalues `2i` and `-2i`, roots `1 + i` and `1 - i`. -/
def pGamma : Source.M 2 := !![2, -4; 2, -2]
noncomputable def pV : Matrix (Fin 2) (Fin 2) ℂ := !![2, 2; 1 - Complex.I, 1 + Complex.I]
noncomputable def pNu : Fin 2 → ℂ := ![1 + Complex.I, 1 - Complex.I]

theorem pDet : pV.det ≠ 0 := by
  rw [pV, det_fin_two_of]
  intro h
  have := congrArg Complex.im h
  simp at this

theorem pSimple : ∃ c, eigenL inverseK (cplx pGamma) (cplx 1) (pNu 0 ^ 2) (pNu 0) (fun j => pV j 0) = some c := by
  have hE : cplx pGamma * pV = pV * diagonal fun i => pNu i ^ 2 := by
    ext i j
    fin_cases i <;> fin_cases j <;>
      simp [cplx, pGamma, pV, pNu, Matrix.mul_apply, Fin.sum_univ_two] <;> ring_nf <;> simp [Complex.I_sq, pow_succ] <;>
      ring_nf <;> simp [Complex.I_sq] <;> ring
  exact C50_eigen_simple (inverseK_exact (K := ℂ)) (cplx pGamma) (cplx 1) pV pNu
    pDet hE 0
    (by
      intro h
      have := congrArg Complex.im h
      simp [pNu] at this)
    (by
      intro j hj h
      obtain rfl : j = 1 := by omega
      have := congrArg Complex.im h
      simp [pNu, pow_two] at this
      norm_num at this)
    (by
      rw [Fin.sum_univ_two]
      intro h
      have := congrArg Complex.im h
      simp [pV] at this)

example : ∃ c g', eigenL inverseK (cplx pGamma) (cplx 1) (pNu 0 ^ 2) (pNu 0) (fun j => pV j 0) = some c ∧
    pairA inverseK pGamma (pNu 0 ^ 2) (pNu 0) (fun j => pV j 0) 1 Complex.I (fun _ => 1) 0 = some g' ∧
    mpair g' (1 : Source.M 2) = mpair (0 : Source.M 2) 1 +
      ((1 * c.1).re + (Complex.I * star c.1).re + ∑ k, ((fun _ => 1 : Fin 2 → ℂ) k * c.2 k).re) := by
  obtain ⟨c, hc⟩ := pSimple
  have hs : (pairA inverseK pGamma (pNu 0 ^ 2) (pNu 0) (fun j => pV j 0) 1 Complex.I (fun _ => 1) 0).isSome := by
    rw [C69_pair_goes pGamma 1, hc]; rfl
  obtain ⟨g', hg⟩ := Option.isSome_iff_exists.1 hs
  exact ⟨c, g', hc, hg, C69_pair hc hg⟩

example : ∀ k, pV k 1 = star (pV k 0) := by
  intro k
  fin_cases k <;> simp [pV]

/-- All columns of a polarised layer: the weights of thickness, `tpr` and `gamma`
give what the weights `Ra`, `Ta` give for the (real parts of the) linearised `R`
and `T`, if every column is looked at once and no eigenvector of a real eigenvalue
has a single component.  Full statement: without the latter; it is false, see
`C69_violated_vector`. -/
theorem C69_pol_partial
    {inv? : Matrix (Fin n ⊕ Unit) (Fin n ⊕ Unit) ℝ → Option (Matrix (Fin n ⊕ Unit) (Fin n ⊕ Unit) ℝ)}
    {invC? : Matrix (Fin n ⊕ Unit) (Fin n ⊕ Unit) ℂ → Option (Matrix (Fin n ⊕ Unit) (Fin n ⊕ Unit) ℂ)} {eps : ℝ}
    {p : Pol n} {tpr' gamma' : Matrix (Fin n) (Fin n) ℝ} {V V' : Matrix (Fin n) (Fin n) ℂ} {nu' : Fin n → ℂ}
    {l : List (Cols n)} (hp : (l.flatMap Cols.list).Perm (List.finRange n))
    (hl : ∀ c ∈ l, p.Linear gamma' inv? invC? eps V nu' V' c)
    (ht : ∀ i, Cols.one i ∈ l → isTrivial eps p.E i = false)
    {inv1? : Matrix (Fin n) (Fin n) ℂ → Option (Matrix (Fin n) (Fin n) ℂ)} {ltau ltau' : ℝ} {m : Modes n ℂ} {o : RT n ℂ}
    (Ra Ta : Matrix (Fin n) (Fin n) ℝ) (w : ℝ × Matrix (Fin n) (Fin n) ℝ × Matrix (Fin n) (Fin n) ℝ)
    {f : Matrix (Fin n) (Fin n) ℂ × Matrix (Fin n) (Fin n) ℂ}
    (hf : calcRTL inv1? (ltau : ℂ) ltau' m (modesL (cplx p.tpr) (cplx tpr') p.nu nu' V V') o = some f) :
    ∃ r, polLayerA inv1? inv? invC? eps ltau p m o l Ra Ta w = some r ∧
      r.1 * ltau' + mpair r.2.1 tpr' + mpair r.2.2 gamma' = w.1 * ltau' + mpair w.2.1 tpr' + mpair w.2.2 gamma' +
        mpair Ra (fun i j => (f.1 i j).re) + mpair Ta (fun i j => (f.2 i j).re) := by
  obtain ⟨r, hr⟩ := polLayer_goes (Ra := Ra) (Ta := Ta) (w := w) hl hf
  exact ⟨r, hr, polLayer_keeps hp hl ht hf hr⟩

/-- The layer of the pair. -/
noncomputable def pPol : Pol 2 := ⟨1, pGamma, ![0, 0], ![2, -2], pNu, !![2, 0; 1, -1]⟩

theorem pVec : pPol.vec 0 1 = fun j => pV j 0 := by
  funext k
  fin_cases k <;> apply Complex.ext <;> simp [pPol, Pol.vec, pV]

theorem pSq : (⟨pPol.re 0, pPol.im 0⟩ : ℂ) = pNu 0 ^ 2 := by
  apply Complex.ext <;> simp [pPol, pNu, pow_two]
  norm_num

/-- The modes of that layer are independent. -/
theorem pXm : (modes (cplx pPol.tpr) pNu pV).Xm.det ≠ 0 := by
  have e : (modes (cplx pPol.tpr) pNu pV).Xm = pV * diagonal fun j => 1 / 2 * (1 - 1 / pNu j) := by
    have h1 : cplx pPol.tpr = 1 := by
      ext i j
      simp only [cplx, pPol, Matrix.map_apply]
      by_cases h : i = j
      · rw [h]; simp
      · rw [Matrix.one_apply_ne h, Matrix.one_apply_ne h]; simp
    ext i j
    rw [mul_diagonal, h1]
    simp only [modes, Matrix.one_mul]
    ring
  rw [e, det_mul, det_diagonal]
  refine mul_ne_zero pDet (Finset.prod_ne_zero_iff.2 fun j _ => ?_)
  have hj : pNu j ≠ 0 ∧ pNu j ≠ 1 := by
    fin_cases j <;> constructor <;> intro h <;> have := congrArg Complex.im h <;> simp [pNu] at this
  have : 1 - 1 / pNu j ≠ 0 := by
    intro h
    apply hj.2
    have h2 := (sub_eq_zero.1 h).symm
    rw [div_eq_one_iff_eq hj.1] at h2
    exact h2.symm
  exact mul_ne_zero (by norm_num) this

example : ∃ r, ∃ f g : Source.M 2, polLayerA inverseK inverseK inverseK (1 / 1000) 1 pPol (modes (cplx pPol.tpr) pNu pV)
      ⟨fun _ => 1, 1, 1, 1, 1, 1, 1, 1⟩ [Cols.two 0 1] 1 1 (0, 0, 0) = some r ∧
    r.1 * 3 + mpair r.2.1 (1 : Source.M 2) + mpair r.2.2 (1 : Source.M 2) =
      0 * 3 + mpair (0 : Source.M 2) 1 + mpair (0 : Source.M 2) 1 + mpair 1 f + mpair 1 g := by
  obtain ⟨c, hc⟩ := pSimple
  have hl : ∀ d ∈ [Cols.two 0 1], pPol.Linear 1 inverseK inverseK (1 / 1000) pV ![c.1, star c.1]
      (fun k j => if j = 0 then c.2 k else star (c.2 k)) d := by
    intro d hd
    rw [List.mem_singleton] at hd
    subst hd
    refine ⟨fun k => congrFun pVec.symm k, fun k => ?_, ?_, rfl, fun k => rfl⟩
    · fin_cases k <;> simp [pV]
    · rw [pSq, pVec]
      exact hc
  have i1 : inverseK (modes (cplx pPol.tpr) pNu pV).Xm = some (modes (cplx pPol.tpr) pNu pV).Xm⁻¹ := by
    unfold inverseK
    rw [if_neg pXm]
  have i2 : inverseK (1 : Matrix (Fin 2) (Fin 2) ℂ) = some (1 : Matrix (Fin 2) (Fin 2) ℂ)⁻¹ := by
    unfold inverseK
    rw [if_neg (by simp)]
  have ⟨f, hf⟩ : ∃ f, calcRTL inverseK ((1 : ℝ) : ℂ) (3 : ℝ) (modes (cplx pPol.tpr) pNu pV)
      (modesL (cplx pPol.tpr) (cplx 1) pPol.nu ![c.1, star c.1] pV (fun k j => if j = 0 then c.2 k else star (c.2 k)))
      ⟨fun _ => 1, 1, 1, 1, 1, 1, 1, 1⟩ = some f := by
    unfold calcRTL
    rw [i1, i2]
    exact ⟨_, rfl⟩
  obtain ⟨r, hr, h⟩ := C69_pol_partial (by decide) hl (fun i hi => by simp at hi) 1 1 (0, 0, 0) hf
  exact ⟨r, _, _, hr, h⟩

end pairExample

end Xrtm.EigA
