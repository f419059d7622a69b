import Verif.Model.EigA
import Verif.Spec.Adjoint

/-!
# Proofs for the reverse mode of the eigenvalue solver
-/

namespace Xrtm.EigA
open Matrix Xrtm.Eig Xrtm.Spec

variable {n : Nat} {K : Type} [Field K]

local notation "Mat" => Matrix (Fin n) (Fin n) K

theorem m_addL (a b c : Mat) : mpair (a + b) c = mpair a c + mpair b c := by
  simp [mpair, add_mul, Finset.sum_add_distrib]
theorem m_subL (a b c : Mat) : mpair (a - b) c = mpair a c - mpair b c := by
  simp [mpair, sub_mul, Finset.sum_sub_distrib]
theorem m_negL (a c : Mat) : mpair (-a) c = -mpair a c := by simp [mpair]
theorem m_addR (a b c : Mat) : mpair a (b + c) = mpair a b + mpair a c := by
  simp [mpair, mul_add, Finset.sum_add_distrib]
theorem m_subR (a b c : Mat) : mpair a (b - c) = mpair a b - mpair a c := by
  simp [mpair, mul_sub, Finset.sum_sub_distrib]
theorem m_zeroL (c : Mat) : mpair 0 c = 0 := by simp [mpair]

theorem m_right (a b c : Mat) : mpair (a * bᵀ) c = mpair a (c * b) := by
  simp only [mpair, Matrix.mul_apply, Matrix.transpose_apply, Finset.sum_mul, Finset.mul_sum]
  refine Finset.sum_congr rfl fun i _ => ?_
  rw [Finset.sum_comm]
  exact Finset.sum_congr rfl fun j _ => Finset.sum_congr rfl fun k _ => by ring

theorem m_left (a b c : Mat) : mpair (aᵀ * b) c = mpair b (a * c) := by
  simp only [mpair, Matrix.mul_apply, Matrix.transpose_apply, Finset.sum_mul, Finset.mul_sum]
  calc ∑ i, ∑ j, ∑ k, a k i * b k j * c i j = ∑ k, ∑ i, ∑ j, a k i * b k j * c i j := by
        rw [Finset.sum_congr rfl fun i _ => Finset.sum_comm, Finset.sum_comm]
    _ = ∑ k, ∑ j, ∑ i, a k i * b k j * c i j := Finset.sum_congr rfl fun k _ => Finset.sum_comm
    _ = _ := Finset.sum_congr rfl fun k _ => Finset.sum_congr rfl fun j _ => Finset.sum_congr rfl fun i _ => by ring

theorem m_diag (a c : Mat) (l : Fin n → K) : mpair (a * Matrix.diagonal l) c = mpair a (c * Matrix.diagonal l) := by
  rw [← m_right, Matrix.diagonal_transpose]

/-- Weights of a diagonal are those on the diagonal. -/
theorem m_onDiag (a c : Mat) (l : Fin n → K) : mpair a (c * Matrix.diagonal l) = ∑ i, (cᵀ * a) i i * l i := by
  simp only [mpair, Matrix.mul_diagonal]
  rw [Finset.sum_comm]
  simp only [Matrix.mul_apply, Matrix.transpose_apply, Finset.sum_mul]
  exact Finset.sum_congr rfl fun i _ => Finset.sum_congr rfl fun j _ => by ring

def modesPair (a b : Modes n K) : K := vpair a.nu b.nu + mpair a.Xp b.Xp + mpair a.Xm b.Xm

theorem calcRT_keeps {inv? : Mat → Option (Mat)} {ltau ltau' : K} {m m' : Modes n K} {o : RT n K} {Ra Ta : Mat}
    {w r : RTW n K} {f : Mat × Mat} (hr : calcRTA inv? ltau m o Ra Ta w = some r)
    (hf : calcRTL inv? ltau ltau' m m' o = some f) :
    r.ltau * ltau' + modesPair r.m m' = w.ltau * ltau' + modesPair w.m m' + mpair Ra f.1 + mpair Ta f.2 := by
  unfold calcRTA at hr
  unfold calcRTL at hf
  rcases hx : inv? m.Xm with _ | x
  · rw [hx] at hr; cases hr
  rcases hy : inv? o.c with _ | y
  · rw [hx, hy] at hr; cases hr
  rw [hx, hy] at hr hf
  obtain rfl := Option.some.inj hr
  obtain rfl := Option.some.inj hf
  clear hr hf hx hy
  dsimp only
  generalize hl : (fun j => -(m'.nu j * ltau + m.nu j * ltau') * o.lam j) = lam'
  generalize hf : m'.Xp * diagonal o.lam + m.Xp * diagonal lam' = f
  generalize hg : (f - o.b * m'.Xm) * x = g
  generalize hh : m'.Xm - g * o.a - o.b * f = h
  generalize hp : (m'.Xp - o.d * h) * y = p
  generalize hq : (m'.Xm * diagonal o.lam + m.Xm * diagonal lam' - o.e * h) * y = q
  -- the steps backward
  generalize hqa : Ta + Ra * o.bᵀ = qa
  generalize hpa : -(Ta * o.bᵀ) - Ra = pa
  generalize hga1 : -(o.dᵀ * Ta) + o.eᵀ * Ra = ga1
  generalize ht1 : qa * yᵀ = t1
  generalize ht2 : pa * yᵀ = t2
  generalize hha : -(o.eᵀ * t1) - o.dᵀ * t2 = ha
  generalize hga : ga1 - ha * o.aᵀ = ga
  generalize ht3 : ga * xᵀ = t3
  generalize hfa : -(o.bᵀ * ha) + t3 = fa
  generalize hla : m.Xmᵀ * t1 + m.Xpᵀ * fa = la
  have s0 : mpair Ra (q * o.b + o.e * g - p) + mpair Ta (q - p * o.b - o.d * g) = mpair qa q + mpair pa p + mpair ga1 g := by
    rw [← hqa, ← hpa, ← hga1]
    simp only [m_addL, m_subL, m_negL, m_addR, m_subR, m_right, m_left]
    ring
  have s1 : mpair qa q = mpair t1 (m'.Xm * diagonal o.lam) + mpair t1 (m.Xm * diagonal lam') - mpair t1 (o.e * h) := by
    rw [← hq, ← m_right, ht1, m_subR, m_addR]
  have s2 : mpair pa p = mpair t2 m'.Xp - mpair t2 (o.d * h) := by
    rw [← hp, ← m_right, ht2, m_subR]
  have s3 : mpair ha h = -mpair t1 (o.e * h) - mpair t2 (o.d * h) := by
    rw [← hha, m_subL, m_negL, m_left, m_left]
  have s4 : mpair ha h = mpair ha m'.Xm - mpair ha (g * o.a) - mpair ha (o.b * f) := by
    rw [← hh, m_subR, m_subR]
  have s5 : mpair ga g = mpair ga1 g - mpair ha (g * o.a) := by
    rw [← hga, m_subL, m_right]
  have s6 : mpair ga g = mpair t3 f - mpair t3 (o.b * m'.Xm) := by
    rw [← hg, ← m_right, ht3, m_subR]
  have s7 : mpair fa f = -mpair ha (o.b * f) + mpair t3 f := by
    rw [← hfa, m_addL, m_negL, m_left]
  have s8 : mpair fa f = mpair fa (m'.Xp * diagonal o.lam) + mpair fa (m.Xp * diagonal lam') := by
    rw [← hf, m_addR]
  have s9 : mpair t1 (m.Xm * diagonal lam') + mpair fa (m.Xp * diagonal lam') =
      ∑ i, -(m.nu i * (la * diagonal o.lam) i i) * ltau' + ∑ i, -((la * diagonal o.lam) i i * ltau) * m'.nu i := by
    rw [m_onDiag, m_onDiag, ← Finset.sum_add_distrib, ← Finset.sum_add_distrib, ← hla, ← hl]
    refine Finset.sum_congr rfl fun i _ => ?_
    simp only [Matrix.mul_diagonal, Matrix.add_apply]
    ring
  have e1 : vpair (fun i => w.m.nu i - (la * diagonal o.lam) i i * ltau) m'.nu =
      vpair w.m.nu m'.nu + ∑ i, -((la * diagonal o.lam) i i * ltau) * m'.nu i := by
    simp only [vpair, ← Finset.sum_add_distrib]
    exact Finset.sum_congr rfl fun i _ => by ring
  dsimp only [modesPair]
  rw [e1]
  simp only [m_addL, m_subL, m_left, m_diag, add_mul, Finset.sum_mul]
  linear_combination -s9 - s0 - s1 - s2 + s3 - s4 + s5 - s6 + s7 - s8

theorem modes_keeps (tpr tpr' : Mat) (nu nu' : Fin n → K) (evecs evecs' : Mat) (a : Modes n K)
    (w : Mat × (Fin n → K) × Mat) :
    mpair (modesA tpr nu evecs a w).1 tpr' + vpair (modesA tpr nu evecs a w).2.1 nu' +
        mpair (modesA tpr nu evecs a w).2.2 evecs' =
      mpair w.1 tpr' + vpair w.2.1 nu' + mpair w.2.2 evecs' + modesPair a (modesL tpr tpr' nu nu' evecs evecs') := by
  dsimp only [modesA, modesL, modesPair]
  obtain ⟨b, hb⟩ : ∃ b : Mat, (fun i j => (tpr * evecs) i j / nu j : Mat) = b := ⟨_, rfl⟩
  obtain ⟨w1, hw⟩ : ∃ w1 : Mat, (fun i j => 1 / 2 * (a.Xp i j - a.Xm i j) / nu j : Mat) = w1 := ⟨_, rfl⟩
  have hb' : ∀ i j, (tpr * evecs) i j / nu j = b i j := fun i j => congrFun (congrFun hb i) j
  have hw' : ∀ i j, 1 / 2 * (a.Xp i j - a.Xm i j) / nu j = w1 i j := fun i j => congrFun (congrFun hw i) j
  simp only [hw]
  simp only [hb', hw']
  generalize hc : tpr' * evecs + tpr * evecs' = c
  have h1 : mpair w1 c = mpair (w1 * evecsᵀ) tpr' + mpair (tprᵀ * w1) evecs' := by
    rw [m_right, m_left, ← hc, m_addR]
  have h2 : vpair (fun i => w.2.1 i + (a.nu i - ∑ j, b j i * w1 j i)) nu' = vpair w.2.1 nu' + vpair a.nu nu' -
      mpair w1 (fun i j => b i j * nu' j) := by
    simp only [vpair, mpair, add_mul, sub_mul, Finset.sum_add_distrib, Finset.sum_sub_distrib, Finset.sum_mul]
    rw [Finset.sum_comm (f := fun i j => b j i * w1 j i * nu' i)]
    have : ∑ y, ∑ x, b y x * w1 y x * nu' x = ∑ x, ∑ j, w1 x j * (b x j * nu' j) :=
      Finset.sum_congr rfl fun i _ => Finset.sum_congr rfl fun j _ => by ring
    rw [this]; ring
  have h3 : mpair a.Xp (fun i j => 1 / 2 * (evecs' i j + (c i j - b i j * nu' j) / nu j)) +
      mpair a.Xm (fun i j => 1 / 2 * (evecs' i j - (c i j - b i j * nu' j) / nu j)) =
      mpair (fun i j => 1 / 2 * (a.Xp i j + a.Xm i j)) evecs' + mpair w1 c - mpair w1 (fun i j => b i j * nu' j) := by
    rw [← hw]
    simp only [mpair, ← Finset.sum_add_distrib, ← Finset.sum_sub_distrib]
    exact Finset.sum_congr rfl fun i _ => Finset.sum_congr rfl fun j _ => by ring
  obtain ⟨va1, hva⟩ : ∃ va1 : Mat, (fun i j => w.2.2 i j + 1 / 2 * (a.Xp i j + a.Xm i j) : Mat) = va1 := ⟨_, rfl⟩
  have h4 : mpair va1 evecs' = mpair w.2.2 evecs' + mpair (fun i j => 1 / 2 * (a.Xp i j + a.Xm i j)) evecs' := by
    rw [← hva]
    exact m_addL w.2.2 (fun i j => 1 / 2 * (a.Xp i j + a.Xm i j)) evecs'
  simp only [hva]
  rw [m_addL, m_addL, h2, h4]
  linear_combination -h3 - h1

section real
variable {eps : ℝ} {gamma gamma' evecs va : Matrix (Fin n) (Fin n) ℝ} {evals ea : Fin n → ℝ}
  {inv? : Matrix (Fin n ⊕ Unit) (Fin n ⊕ Unit) ℝ → Option (Matrix (Fin n ⊕ Unit) (Fin n ⊕ Unit) ℝ)}

theorem column_keeps {g g' : Matrix (Fin n) (Fin n) ℝ} {i : Fin n} {c : ℝ × (Fin n → ℝ)}
    (hd : isTrivial eps evecs i = true ∨ isDegenerate eps evals i = false)
    (hc : columnL inv? eps gamma gamma' evals evecs i = some c)
    (hg : columnA inv? eps gamma evals evecs ea va g i = some g') :
    mpair g' gamma' = mpair g gamma' + (ea i * c.1 + vpair (fun j => va j i) c.2) := by
  unfold columnL at hc
  unfold columnA at hg
  by_cases ht : isTrivial eps evecs i = true
  · rw [if_pos ht] at hc hg
    obtain rfl := Option.some.inj hc
    obtain rfl := Option.some.inj hg
    simp [vpair]
  · have hd : isDegenerate eps evals i = false := hd.resolve_left ht
    rw [if_neg ht] at hc hg
    rw [if_neg (by rw [hd]; simp)] at hg
    unfold eigenL at hc
    cases hx : inv? (bordered gamma (evals i) (Real.sqrt (evals i)) fun j => evecs j i) with
    | none => rw [hx] at hg; cases hg
    | some x =>
      rw [hx] at hc hg
      obtain rfl := Option.some.inj hc
      obtain rfl := Option.some.inj hg
      clear hc hg
      dsimp only
      generalize hb : (fun r => match r with | .inl j => va j i | .inr _ => ea i : Fin n ⊕ Unit → ℝ) = b
      generalize hu : (fun r => match r with | .inl j => (gamma' *ᵥ fun j => evecs j i) j | .inr _ => 0 :
        Fin n ⊕ Unit → ℝ) = u
      have h1 : (xᵀ *ᵥ b) ⬝ᵥ u = b ⬝ᵥ (x *ᵥ u) := by
        rw [Matrix.mulVec_transpose, Matrix.dotProduct_mulVec]
      have h2 : b ⬝ᵥ (x *ᵥ u) = (∑ j, va j i * (x *ᵥ u) (.inl j)) + ea i * (x *ᵥ u) (.inr ()) := by
        rw [dotProduct, Fintype.sum_sum_type, ← hb]; simp
      have h3 : (xᵀ *ᵥ b) ⬝ᵥ u = ∑ j, (xᵀ *ᵥ b) (.inl j) * (gamma' *ᵥ fun j => evecs j i) j := by
        rw [dotProduct, Fintype.sum_sum_type, ← hu]; simp
      have h4 : mpair (fun j k => g j k + (xᵀ *ᵥ b) (.inl j) * evecs k i) gamma' = mpair g gamma' +
          ∑ j, (xᵀ *ᵥ b) (.inl j) * (gamma' *ᵥ fun j => evecs j i) j := by
        simp only [mpair, add_mul, Finset.sum_add_distrib, Matrix.mulVec, dotProduct, Finset.mul_sum]
        congr 1
        exact Finset.sum_congr rfl fun j _ => Finset.sum_congr rfl fun k _ => by ring
      rw [h4, ← h3, h1, h2, vpair]
      ring

theorem column_keeps_real {g g' : Matrix (Fin n) (Fin n) ℝ} {i : Fin n} {c : ℝ × (Fin n → ℝ)}
    (ht : isTrivial eps evecs i = false)
    (hc : columnRL inv? eps gamma gamma' evals evecs i = some c)
    (hg : columnA inv? eps gamma evals evecs ea va g i = some g') :
    mpair g' gamma' = mpair g gamma' + (ea i * c.1 + vpair (fun j => va j i) c.2) := by
  cases hd : isDegenerate eps evals i with
  | true =>
    unfold columnRL at hc
    unfold columnA at hg
    rw [hd, if_pos rfl] at hc
    rw [ht, hd, if_neg (by simp), if_pos rfl] at hg
    obtain rfl := Option.some.inj hc
    obtain rfl := Option.some.inj hg
    simp [vpair]
  | false =>
    refine column_keeps (.inr hd) ?_ hg
    rw [← hc]
    unfold columnL columnRL
    rw [ht, hd]

theorem eigen_keeps {g g' : Matrix (Fin n) (Fin n) ℝ} {c : Fin n → ℝ × (Fin n → ℝ)}
    (hd : ∀ i, isTrivial eps evecs i = true ∨ isDegenerate eps evals i = false)
    (hc : ∀ i, columnL inv? eps gamma gamma' evals evecs i = some (c i))
    (hg : eigenA inv? eps gamma evals evecs ea va g = some g') :
    mpair g' gamma' = mpair g gamma' + vpair ea (fun i => (c i).1) + mpair va (fun j i => (c i).2 j) := by
  have key : ∀ (l : List (Fin n)) (g g' : Matrix (Fin n) (Fin n) ℝ),
      l.foldlM (columnA inv? eps gamma evals evecs ea va) g = some g' →
      mpair g' gamma' = mpair g gamma' + (l.map fun i => ea i * (c i).1 + vpair (fun j => va j i) (c i).2).sum := by
    intro l
    induction l with
    | nil => intro g g' h; simp only [List.foldlM_nil] at h; obtain rfl := Option.some.inj h; simp
    | cons i l ih =>
      intro g g' h
      rw [List.foldlM_cons] at h
      cases h1 : columnA inv? eps gamma evals evecs ea va g i with
      | none => rw [h1] at h; cases h
      | some g1 =>
        rw [h1] at h
        rw [ih g1 g' h, column_keeps (hd i) (hc i) h1, List.map_cons, List.sum_cons]
        ring
  have h := key _ g g' hg
  rw [← Fin.sum_univ_def, Finset.sum_add_distrib] at h
  have h5 : mpair va (fun j i => (c i).2 j) = ∑ i, vpair (fun j => va j i) (c i).2 := by
    unfold mpair
    rw [Finset.sum_comm]; rfl
  rw [h, h5, vpair]
  ring

theorem layer_keeps {inv1? : Matrix (Fin n) (Fin n) ℝ → Option (Matrix (Fin n) (Fin n) ℝ)} {ltau ltau' : ℝ}
    {tpr tpr' : Matrix (Fin n) (Fin n) ℝ} {o : RT n ℝ} {Ra Ta : Matrix (Fin n) (Fin n) ℝ}
    {w r : ℝ × Matrix (Fin n) (Fin n) ℝ × Matrix (Fin n) (Fin n) ℝ} {c : Fin n → ℝ × (Fin n → ℝ)}
    {f : Matrix (Fin n) (Fin n) ℝ × Matrix (Fin n) (Fin n) ℝ}
    (hd : ∀ i, isTrivial eps evecs i = true ∨ isDegenerate eps evals i = false)
    (hc : ∀ i, columnL inv? eps gamma gamma' evals evecs i = some (c i))
    (hf : calcRTL inv1? ltau ltau' (modes tpr (realNu evals) evecs)
      (modesL tpr tpr' (realNu evals) (fun i => (c i).1) evecs fun j i => (c i).2 j) o = some f)
    (hr : layerA inv1? inv? eps ltau tpr gamma evals evecs o Ra Ta w = some r) :
    r.1 * ltau' + mpair r.2.1 tpr' + mpair r.2.2 gamma' =
      w.1 * ltau' + mpair w.2.1 tpr' + mpair w.2.2 gamma' + mpair Ra f.1 + mpair Ta f.2 := by
  unfold layerA at hr
  cases h1 : calcRTA inv1? ltau (modes tpr (realNu evals) evecs) o Ra Ta ⟨w.1, 0, 0, 0⟩ with
  | none => rw [h1] at hr; cases hr
  | some a =>
    rw [h1] at hr
    dsimp only at hr
    cases h2 : eigenA inv? eps gamma evals evecs (modesA tpr (realNu evals) evecs a.m (w.2.1, 0, 0)).2.1
        (modesA tpr (realNu evals) evecs a.m (w.2.1, 0, 0)).2.2 w.2.2 with
    | none => rw [h2] at hr; cases hr
    | some g =>
      rw [h2] at hr
      obtain rfl := Option.some.inj hr
      have k1 := calcRT_keeps h1 hf
      have k2 := modes_keeps tpr tpr' (realNu evals) (fun i => (c i).1) evecs (fun j i => (c i).2 j) a.m (w.2.1, 0, 0)
      have k3 := eigen_keeps hd hc h2
      have z1 : modesPair (⟨0, 0, 0⟩ : Modes n ℝ)
          (modesL tpr tpr' (realNu evals) (fun i => (c i).1) evecs fun j i => (c i).2 j) = 0 := by
        simp [modesPair, vpair, mpair]
      have z2 : vpair (0 : Fin n → ℝ) (fun i => (c i).1) = 0 := by simp [vpair]
      have z3 : mpair (0 : Matrix (Fin n) (Fin n) ℝ) (fun j i => (c i).2 j) = 0 := m_zeroL _
      dsimp only at k1 k2 ⊢
      rw [z1] at k1
      rw [z2, z3] at k2
      linear_combination k1 + k2 + k3

/-- If every inversion of the forward call went well, so do those of the reverse call. -/
theorem eigen_goes {g : Matrix (Fin n) (Fin n) ℝ} (hc : ∀ i, ∃ c, columnL inv? eps gamma gamma' evals evecs i = some c) :
    ∃ g', eigenA inv? eps gamma evals evecs ea va g = some g' := by
  have key : ∀ (l : List (Fin n)) (g : Matrix (Fin n) (Fin n) ℝ),
      ∃ g', l.foldlM (columnA inv? eps gamma evals evecs ea va) g = some g' := by
    intro l
    induction l with
    | nil => exact fun g => ⟨g, rfl⟩
    | cons i l ih =>
      intro g
      have ⟨g1, h1⟩ : ∃ g1, columnA inv? eps gamma evals evecs ea va g i = some g1 := by
        obtain ⟨c, hc⟩ := hc i
        unfold columnL at hc
        unfold columnA
        split_ifs at hc ⊢
        · exact ⟨_, rfl⟩
        · exact ⟨_, rfl⟩
        · unfold eigenL at hc
          cases hx : inv? (bordered gamma (evals i) (Real.sqrt (evals i)) fun j => evecs j i) with
          | none => rw [hx] at hc; cases hc
          | some x => exact ⟨_, rfl⟩
      rw [List.foldlM_cons, h1]
      exact ih g1
  exact key _ g

theorem layer_goes {inv1? : Matrix (Fin n) (Fin n) ℝ → Option (Matrix (Fin n) (Fin n) ℝ)} {ltau ltau' : ℝ}
    {tpr : Matrix (Fin n) (Fin n) ℝ} {m' : Modes n ℝ} {o : RT n ℝ} {Ra Ta : Matrix (Fin n) (Fin n) ℝ}
    {w : ℝ × Matrix (Fin n) (Fin n) ℝ × Matrix (Fin n) (Fin n) ℝ}
    (hc : ∀ i, ∃ c, columnL inv? eps gamma gamma' evals evecs i = some c)
    (hf : ∃ f, calcRTL inv1? ltau ltau' (modes tpr (realNu evals) evecs) m' o = some f) :
    ∃ r, layerA inv1? inv? eps ltau tpr gamma evals evecs o Ra Ta w = some r := by
  obtain ⟨f, hf⟩ := hf
  unfold layerA calcRTA
  unfold calcRTL at hf
  cases hx : inv1? (modes tpr (realNu evals) evecs).Xm with
  | none => rw [hx] at hf; cases hf
  | some x =>
    cases hy : inv1? o.c with
    | none => rw [hx, hy] at hf; cases hf
    | some y =>
      dsimp only
      obtain ⟨g', hg⟩ := eigen_goes (ea := _) (va := _) (g := w.2.2) hc
      rw [hg]
      exact ⟨_, rfl⟩

/-- Eigenvalues that lie together: nothing is added. -/
theorem eigen_stays {g : Matrix (Fin n) (Fin n) ℝ} (hd : ∀ i, isDegenerate eps evals i = true) :
    eigenA inv? eps gamma evals evecs ea va g = some g := by
  have key : ∀ l : List (Fin n), l.foldlM (columnA inv? eps gamma evals evecs ea va) g = some g := by
    intro l
    induction l with
    | nil => rfl
    | cons i l ih =>
      have h1 : columnA inv? eps gamma evals evecs ea va g i = some g := by
        unfold columnA
        rw [hd i]
        simp
      rw [List.foldlM_cons, h1]
      exact ih
  exact key _

end real

section pair

theorem re_mul_star (a z : ℂ) : (a * star z).re = (star a * z).re := by
  simp [Complex.mul_re]

theorem pair_keeps {inv? : Matrix (Fin n ⊕ Unit) (Fin n ⊕ Unit) ℂ → Option (Matrix (Fin n ⊕ Unit) (Fin n ⊕ Unit) ℂ)}
    {gamma gamma' g g' : Matrix (Fin n) (Fin n) ℝ} {eval root ea1 ea2 : ℂ} {v va : Fin n → ℂ} {c : ℂ × (Fin n → ℂ)}
    (hc : eigenL inv? (cplx gamma) (cplx gamma') eval root v = some c)
    (hg : pairA inv? gamma eval root v ea1 ea2 va g = some g') :
    mpair g' gamma' = mpair g gamma' + ((ea1 * c.1).re + (ea2 * star c.1).re + ∑ k, (va k * c.2 k).re) := by
  unfold eigenL at hc
  unfold pairA at hg
  cases hx : inv? (bordered (cplx gamma) eval root v) with
  | none => rw [hx] at hg; cases hg
  | some x =>
    rw [hx] at hc hg
    obtain rfl := Option.some.inj hc
    obtain rfl := Option.some.inj hg
    clear hc hg
    dsimp only
    generalize hb : (fun r => match r with | .inl j => va j | .inr _ => ea1 + star ea2 : Fin n ⊕ Unit → ℂ) = b
    generalize hu : (fun r => match r with | .inl j => (cplx gamma' *ᵥ v) j | .inr _ => 0 : Fin n ⊕ Unit → ℂ) = u
    have h1 : (xᵀ *ᵥ b) ⬝ᵥ u = b ⬝ᵥ (x *ᵥ u) := by
      rw [Matrix.mulVec_transpose, Matrix.dotProduct_mulVec]
    have h2 : b ⬝ᵥ (x *ᵥ u) = (∑ j, va j * (x *ᵥ u) (.inl j)) + (ea1 + star ea2) * (x *ᵥ u) (.inr ()) := by
      rw [dotProduct, Fintype.sum_sum_type, ← hb]; simp
    have h3 : (xᵀ *ᵥ b) ⬝ᵥ u = ∑ j, (xᵀ *ᵥ b) (.inl j) * (cplx gamma' *ᵥ v) j := by
      rw [dotProduct, Fintype.sum_sum_type, ← hu]; simp
    have h4 : mpair (fun j k => g j k + ((xᵀ *ᵥ b) (.inl j) * v k).re) gamma' = mpair g gamma' +
        (∑ j, (xᵀ *ᵥ b) (.inl j) * (cplx gamma' *ᵥ v) j).re := by
      generalize xᵀ *ᵥ b = y
      simp only [mpair, add_mul, Finset.sum_add_distrib, Matrix.mulVec, dotProduct, Finset.mul_sum, Complex.re_sum]
      congr 1
      refine Finset.sum_congr rfl fun j _ => Finset.sum_congr rfl fun k _ => ?_
      rw [show y (.inl j) * (cplx gamma' j k * v k) = ((gamma' j k : ℝ) : ℂ) * (y (.inl j) * v k) by
        simp only [cplx, Matrix.map_apply]; ring, Complex.re_ofReal_mul, mul_comm]
    rw [h4, ← h3, h1, h2, Complex.add_re, add_mul, Complex.add_re, re_mul_star ea2, Complex.re_sum]
    ring

/-- Two columns of modes that belong to a pair. -/
theorem pairModes_keeps {tpr tpr' : Matrix (Fin n) (Fin n) ℝ} {nu nu' : Fin n → ℂ} {evecs evecs' : Matrix (Fin n) (Fin n) ℂ}
    {i1 i2 : Fin n} (hv : ∀ k, evecs k i2 = star (evecs k i1)) (hv' : ∀ k, evecs' k i2 = star (evecs' k i1))
    (Xp1 Xm1 Xp2 Xm2 : Fin n → ℂ) (n1 n2 : ℂ) (w : PairW n) :
    let r := pairModesA tpr (nu i1) (nu i2) (fun k => evecs k i1) Xp1 Xm1 Xp2 Xm2 n1 n2 w
    let m' := modesL (cplx tpr) (cplx tpr') nu nu' evecs evecs'
    mpair r.tpr tpr' + (r.ea1 * nu' i1).re + (r.ea2 * nu' i2).re + ∑ k, (r.va k * evecs' k i1).re =
      mpair w.tpr tpr' + (w.ea1 * nu' i1).re + (w.ea2 * nu' i2).re + ∑ k, (w.va k * evecs' k i1).re +
        (∑ k, (Xp1 k * m'.Xp k i1 + Xm1 k * m'.Xm k i1 + Xp2 k * m'.Xp k i2 + Xm2 k * m'.Xm k i2).re +
          (n1 * nu' i1 + n2 * nu' i2).re) := by
  dsimp only [pairModesA, modesL]
  set v : Fin n → ℂ := fun k => evecs k i1 with hvd
  set v' : Fin n → ℂ := fun k => evecs' k i1 with hvd'
  have c1 : ∀ k, (cplx tpr * evecs) k i1 = (cplx tpr *ᵥ v) k := fun k => rfl
  have c1' : ∀ k, (cplx tpr' * evecs + cplx tpr * evecs') k i1 = (cplx tpr' *ᵥ v) k + (cplx tpr *ᵥ v') k := fun k => rfl
  have cc : ∀ (a : Matrix (Fin n) (Fin n) ℝ) (b : Matrix (Fin n) (Fin n) ℂ), (∀ k, b k i2 = star (b k i1)) → ∀ k,
      (cplx a * b) k i2 = star ((cplx a *ᵥ fun k => b k i1) k) := by
    intro a b hb k
    simp only [Matrix.mul_apply, Matrix.mulVec, dotProduct, star_sum, hb]
    refine Finset.sum_congr rfl fun j _ => ?_
    simp [cplx]
  have c2 : ∀ k, (cplx tpr * evecs) k i2 = star ((cplx tpr *ᵥ v) k) := cc tpr evecs hv
  have c2' : ∀ k, (cplx tpr' * evecs + cplx tpr * evecs') k i2 =
      star ((cplx tpr' *ᵥ v) k + (cplx tpr *ᵥ v') k) := fun k => by
    rw [Matrix.add_apply, cc tpr' evecs hv, cc tpr evecs' hv', star_add]
  simp only [c1, c1', c2, c2', hv']
  set b := cplx tpr *ᵥ v with hbd
  set q := cplx tpr *ᵥ v' with hqd
  set d := cplx tpr' *ᵥ v with hdd
  set a1 := nu i1
  set a2 := nu i2
  -- the weight of `tpr v` as one complex vector
  set r : Fin n → ℂ := fun j => ⟨(1 / a1 * (1 / 2 * (Xp1 j - Xm1 j))).re + (1 / a2 * (1 / 2 * (Xp2 j - Xm2 j))).re,
    (1 / a1 * (1 / 2 * (Xp1 j - Xm1 j))).im + -(1 / a2 * (1 / 2 * (Xp2 j - Xm2 j))).im⟩ with hr
  have r_eq : ∀ j, r j = 1 / a1 * (1 / 2 * (Xp1 j - Xm1 j)) + star (1 / a2 * (1 / 2 * (Xp2 j - Xm2 j))) := by
    intro j
    apply Complex.ext
    · rw [hr, Complex.add_re]; rfl
    · rw [hr, Complex.add_im]; rfl
  have t1 : mpair (fun j k => w.tpr j k + (r j).re * (v k).re + (r j).im * -(v k).im) tpr' =
      mpair w.tpr tpr' + ∑ j, (r j * d j).re := by
    simp only [mpair, add_mul, Finset.sum_add_distrib]
    rw [add_assoc]
    congr 1
    simp only [hdd, Matrix.mulVec, dotProduct, Finset.mul_sum, Complex.re_sum, ← Finset.sum_add_distrib]
    refine Finset.sum_congr rfl fun j _ => Finset.sum_congr rfl fun k _ => ?_
    simp only [cplx, Matrix.map_apply, Complex.mul_re, Complex.mul_im, Complex.ofReal_re, Complex.ofReal_im]
    ring
  have t2 : ∑ k, ((⟨(tprᵀ *ᵥ fun j => (r j).re) k, (tprᵀ *ᵥ fun j => (r j).im) k⟩ : ℂ) * v' k).re =
      ∑ j, (r j * q j).re := by
    simp only [hqd, Matrix.mulVec, dotProduct, Finset.mul_sum, Complex.re_sum, Complex.mul_re, Finset.sum_mul,
      Matrix.transpose_apply, ← Finset.sum_sub_distrib]
    rw [Finset.sum_comm]
    refine Finset.sum_congr rfl fun j _ => Finset.sum_congr rfl fun k _ => ?_
    simp only [cplx, Matrix.map_apply, Complex.mul_re, Complex.mul_im, Complex.ofReal_re, Complex.ofReal_im]
    ring
  set U : Fin n → ℂ := fun k => ⟨(1 / 2 * (Xp1 k + Xm1 k)).re + (1 / 2 * (Xp2 k + Xm2 k)).re,
    (1 / 2 * (Xp1 k + Xm1 k)).im - (1 / 2 * (Xp2 k + Xm2 k)).im⟩ with hU
  have U_eq : ∀ k, U k = 1 / 2 * (Xp1 k + Xm1 k) + star (1 / 2 * (Xp2 k + Xm2 k)) := by
    intro k
    apply Complex.ext <;> simp [hU] <;> ring
  have split : ∀ A B z : ℂ, ((A + star B) * z).re = (A * z + B * star z).re := by
    intro A B z
    rw [add_mul, Complex.add_re, Complex.add_re, re_mul_star B]
  have e : ∀ k, (Xp1 k * (1 / 2 * (v' k + (d k + q k - b k / a1 * nu' i1) / a1)) +
      Xm1 k * (1 / 2 * (v' k - (d k + q k - b k / a1 * nu' i1) / a1)) +
      Xp2 k * (1 / 2 * (star (v' k) + (star (d k + q k) - star (b k) / a2 * nu' i2) / a2)) +
      Xm2 k * (1 / 2 * (star (v' k) - (star (d k + q k) - star (b k) / a2 * nu' i2) / a2))).re =
      (U k * v' k).re + (r k * d k).re + (r k * q k).re - (1 / 2 * (Xp1 k - Xm1 k) * b k / (a1 * a1) * nu' i1).re -
        (1 / 2 * (Xp2 k - Xm2 k) * star (b k) / (a2 * a2) * nu' i2).re := by
    intro k
    rw [U_eq, r_eq, split, split, split, ← Complex.add_re, ← Complex.add_re, ← Complex.sub_re, ← Complex.sub_re]
    congr 1
    rw [star_add]
    simp only [div_eq_mul_inv, mul_inv]
    ring
  have l1 : ∑ k, ((w.va k + (⟨(tprᵀ *ᵥ fun j => (r j).re) k, (tprᵀ *ᵥ fun j => (r j).im) k⟩ : ℂ) + U k) * v' k).re =
      ∑ k, (w.va k * v' k).re + ∑ j, (r j * q j).re + ∑ k, (U k * v' k).re := by
    rw [← t2, ← Finset.sum_add_distrib, ← Finset.sum_add_distrib]
    exact Finset.sum_congr rfl fun k _ => by rw [add_mul, add_mul, Complex.add_re, Complex.add_re]
  have l2 : ∀ (f : Fin n → ℂ) (a z : ℂ), ((∑ j, f j) / a * z).re = ∑ j, (f j / a * z).re := by
    intro f a z
    rw [← Complex.re_sum, div_eq_mul_inv, Finset.sum_mul, Finset.sum_mul]
    simp only [div_eq_mul_inv]
  have l3 : ∀ (wa na s z : ℂ), ((wa + (na - s)) * z).re = (wa * z).re + (na * z).re - (s * z).re := by
    intro wa na s z
    rw [add_mul, sub_mul, Complex.add_re, Complex.sub_re]; ring
  rw [Finset.sum_congr rfl fun k _ => e k]
  simp only [Finset.sum_sub_distrib, Finset.sum_add_distrib]
  rw [l3, l3, l2, l2, Complex.add_re (n1 * nu' i1)]
  have g1 := t1
  have g2 := l1
  linarith [g1, g2]

end pair

section pol

/-- What the weights of column `i` of the modes give. -/
def colPair (a m' : Modes n ℂ) (i : Fin n) : ℝ :=
  ∑ k, (a.Xp k i * m'.Xp k i + a.Xm k i * m'.Xm k i).re + (a.nu i * m'.nu i).re

theorem colPair_sum (a m' : Modes n ℂ) : ∑ i, colPair a m' i = (modesPair a m').re := by
  unfold colPair modesPair vpair mpair
  simp only [Complex.add_re, Complex.re_sum, Finset.sum_add_distrib]
  rw [Finset.sum_comm (f := fun i k => (a.Xp k i * m'.Xp k i).re), Finset.sum_comm (f := fun i k => (a.Xm k i * m'.Xm k i).re)]
  ring

theorem oneModes_keeps {tpr tpr' : Matrix (Fin n) (Fin n) ℝ} {nu nu' : Fin n → ℂ} {evecs evecs' : Matrix (Fin n) (Fin n) ℂ}
    {i : Fin n} {v v' : Fin n → ℝ} {s s' : ℝ} (hn : nu i = s) (hn' : nu' i = s') (hv : ∀ k, evecs k i = v k)
    (hv' : ∀ k, evecs' k i = v' k) (a : Modes n ℂ) (t : Matrix (Fin n) (Fin n) ℝ) :
    let r := oneModesA tpr (nu i) v (fun k => a.Xp k i) (fun k => a.Xm k i) (a.nu i) t
    mpair r.1 tpr' + (r.2.1 * s' + vpair r.2.2 v') =
      mpair t tpr' + colPair a (modesL (cplx tpr) (cplx tpr') nu nu' evecs evecs') i := by
  dsimp only [oneModesA, modesL, colPair]
  have cc : ∀ (x : Matrix (Fin n) (Fin n) ℝ) (y : Matrix (Fin n) (Fin n) ℂ) (z : Fin n → ℝ), (∀ k, y k i = z k) → ∀ k,
      (cplx x * y) k i = (((x *ᵥ z) k : ℝ) : ℂ) := by
    intro x y z h k
    simp only [Matrix.mul_apply, Matrix.mulVec, dotProduct, h, cplx, Matrix.map_apply]
    push_cast
    rfl
  have c1 := cc tpr evecs v hv
  have c2 : ∀ k, (cplx tpr' * evecs + cplx tpr * evecs') k i = (((tpr' *ᵥ v) k + (tpr *ᵥ v') k : ℝ) : ℂ) := by
    intro k
    rw [Matrix.add_apply, cc tpr' evecs v hv, cc tpr evecs' v' hv', Complex.ofReal_add]
  simp only [c1, c2, hn, hn', hv', Complex.ofReal_re]
  set d : Fin n → ℝ := fun j => 1 / s * (1 / 2 * (a.Xp j i - a.Xm j i).re) with hd
  have e : ∀ k, (a.Xp k i * (1 / 2 * ((v' k : ℂ) + ((((tpr' *ᵥ v) k + (tpr *ᵥ v') k : ℝ) : ℂ) -
      (((tpr *ᵥ v) k : ℝ) : ℂ) / s * s') / s)) + a.Xm k i * (1 / 2 * ((v' k : ℂ) - ((((tpr' *ᵥ v) k + (tpr *ᵥ v') k : ℝ) : ℂ) -
      (((tpr *ᵥ v) k : ℝ) : ℂ) / s * s') / s))).re = 1 / 2 * (a.Xp k i + a.Xm k i).re * v' k + d k * (tpr' *ᵥ v) k +
      d k * (tpr *ᵥ v') k - (tpr *ᵥ v) k / s * d k * s' := by
    intro k
    rw [show a.Xp k i * (1 / 2 * ((v' k : ℂ) + ((((tpr' *ᵥ v) k + (tpr *ᵥ v') k : ℝ) : ℂ) -
      (((tpr *ᵥ v) k : ℝ) : ℂ) / s * s') / s)) + a.Xm k i * (1 / 2 * ((v' k : ℂ) - ((((tpr' *ᵥ v) k + (tpr *ᵥ v') k : ℝ) : ℂ) -
      (((tpr *ᵥ v) k : ℝ) : ℂ) / s * s') / s)) = ((1 / 2 * v' k : ℝ) : ℂ) * (a.Xp k i + a.Xm k i) +
        ((1 / 2 * (((tpr' *ᵥ v) k + (tpr *ᵥ v') k) - (tpr *ᵥ v) k / s * s') / s : ℝ) : ℂ) * (a.Xp k i - a.Xm k i) by
      push_cast; ring, Complex.add_re, Complex.re_ofReal_mul, Complex.re_ofReal_mul, hd]
    ring
  rw [Finset.sum_congr rfl fun k _ => e k]
  simp only [Finset.sum_sub_distrib, Finset.sum_add_distrib]
  have t1 : mpair (fun j k => t j k + d j * v k) tpr' = mpair t tpr' + ∑ k, d k * (tpr' *ᵥ v) k := by
    simp only [mpair, add_mul, Finset.sum_add_distrib, Matrix.mulVec, dotProduct, Finset.mul_sum]
    congr 1
    exact Finset.sum_congr rfl fun j _ => Finset.sum_congr rfl fun k _ => by ring
  have t2 : vpair (fun j => 1 / 2 * (a.Xp j i + a.Xm j i).re + (tprᵀ *ᵥ d) j) v' =
      ∑ k, 1 / 2 * (a.Xp k i + a.Xm k i).re * v' k + ∑ k, d k * (tpr *ᵥ v') k := by
    simp only [vpair, add_mul, Finset.sum_add_distrib]
    congr 1
    have := Matrix.dotProduct_mulVec d tpr v'
    rw [← Matrix.mulVec_transpose] at this
    simpa only [dotProduct] using this.symm
  have t3 : (a.nu i - ((∑ j, (tpr *ᵥ v) j / s * d j : ℝ) : ℂ)).re * s' = (a.nu i * (s' : ℂ)).re -
      ∑ k, (tpr *ᵥ v) k / s * d k * s' := by
    rw [Complex.sub_re, Complex.ofReal_re, sub_mul, Finset.sum_mul]
    simp
  rw [t1, t2, t3]
  ring

variable {inv? : Matrix (Fin n ⊕ Unit) (Fin n ⊕ Unit) ℝ → Option (Matrix (Fin n ⊕ Unit) (Fin n ⊕ Unit) ℝ)}
  {invC? : Matrix (Fin n ⊕ Unit) (Fin n ⊕ Unit) ℂ → Option (Matrix (Fin n ⊕ Unit) (Fin n ⊕ Unit) ℂ)} {eps : ℝ}
  {p : Pol n} {tpr' gamma' : Matrix (Fin n) (Fin n) ℝ} {V V' : Matrix (Fin n) (Fin n) ℂ} {nu' : Fin n → ℂ}

theorem col_keeps {c : Cols n} (hl : p.Linear gamma' inv? invC? eps V nu' V' c)
    (ht : ∀ i, c = .one i → isTrivial eps p.E i = false) {a : Modes n ℂ} {t g g' : Matrix (Fin n) (Fin n) ℝ}
    (hg : colGamma inv? invC? eps p a g c = some g') :
    mpair (colTpr p a t c) tpr' + mpair g' gamma' = mpair t tpr' + mpair g gamma' +
      (c.list.map (colPair a (modesL (cplx p.tpr) (cplx tpr') p.nu nu' V V'))).sum := by
  cases c with
  | one i =>
    obtain ⟨h1, h2, c, h3, h4, h5⟩ := hl
    have hnu : p.nu i = ((p.nu i).re : ℂ) := by apply Complex.ext <;> simp [h1]
    have k1 := oneModes_keeps (tpr := p.tpr) (tpr' := tpr') hnu h4 h2 h5 a t
    dsimp only [colGamma] at hg
    have k2 := column_keeps_real (ht i rfl) h3 hg
    have e : (Cols.one i).list.map (colPair a (modesL (cplx p.tpr) (cplx tpr') p.nu nu' V V')) =
        [colPair a (modesL (cplx p.tpr) (cplx tpr') p.nu nu' V V') i] := rfl
    rw [e, List.sum_singleton]
    have d1 : (oneModesA p.tpr (p.nu i) (fun k => p.E k i) (fun k => a.Xp k i) (fun k => a.Xm k i) (a.nu i) 0).2 =
        (oneModesA p.tpr (p.nu i) (fun k => p.E k i) (fun k => a.Xp k i) (fun k => a.Xm k i) (a.nu i) t).2 := rfl
    dsimp only at k1 k2
    rw [d1] at k2
    change mpair (oneModesA p.tpr (p.nu i) (fun k => p.E k i) (fun k => a.Xp k i) (fun k => a.Xm k i) (a.nu i) t).1 tpr' + _ = _
    linarith [k1, k2]
  | two i1 i2 =>
    obtain ⟨h1, h2, h3, h4, h5⟩ := hl
    have hV : (fun k => V k i1) = p.vec i1 i2 := funext h1
    have k1 := pairModes_keeps (tpr := p.tpr) (tpr' := tpr') (nu := p.nu) (nu' := nu') h2 h5 (fun k => a.Xp k i1)
      (fun k => a.Xm k i1) (fun k => a.Xp k i2) (fun k => a.Xm k i2) (a.nu i1) (a.nu i2) ⟨t, 0, 0, 0⟩
    dsimp only [colGamma] at hg
    have k2 := pair_keeps h3 hg
    rw [hV] at k1
    have e : (Cols.two i1 i2).list.map (colPair a (modesL (cplx p.tpr) (cplx tpr') p.nu nu' V V')) =
        [colPair a (modesL (cplx p.tpr) (cplx tpr') p.nu nu' V V') i1,
          colPair a (modesL (cplx p.tpr) (cplx tpr') p.nu nu' V V') i2] := rfl
    rw [e, List.sum_cons, List.sum_singleton]
    unfold colPair
    have z : ∀ x : ℂ, (0 * x).re = 0 := fun x => by rw [zero_mul]; rfl
    have z' : ∑ k, ((0 : Fin n → ℂ) k * V' k i1).re = 0 := by simp
    dsimp only at k1 k2
    rw [z, z, z'] at k1
    change mpair (pairModesA p.tpr (p.nu i1) (p.nu i2) (p.vec i1 i2) (fun k => a.Xp k i1) (fun k => a.Xm k i1)
      (fun k => a.Xp k i2) (fun k => a.Xm k i2) (a.nu i1) (a.nu i2) ⟨t, 0, 0, 0⟩).tpr tpr' + _ = _
    have d1 : ∀ x : Matrix (Fin n) (Fin n) ℝ, (pairModesA p.tpr (p.nu i1) (p.nu i2) (p.vec i1 i2) (fun k => a.Xp k i1) (fun k => a.Xm k i1)
      (fun k => a.Xp k i2) (fun k => a.Xm k i2) (a.nu i1) (a.nu i2) ⟨x, 0, 0, 0⟩).ea1 =
      (pairModesA p.tpr (p.nu i1) (p.nu i2) (p.vec i1 i2) (fun k => a.Xp k i1) (fun k => a.Xm k i1)
      (fun k => a.Xp k i2) (fun k => a.Xm k i2) (a.nu i1) (a.nu i2) ⟨t, 0, 0, 0⟩).ea1 := fun _ => rfl
    have d2 : ∀ x : Matrix (Fin n) (Fin n) ℝ, (pairModesA p.tpr (p.nu i1) (p.nu i2) (p.vec i1 i2) (fun k => a.Xp k i1) (fun k => a.Xm k i1)
      (fun k => a.Xp k i2) (fun k => a.Xm k i2) (a.nu i1) (a.nu i2) ⟨x, 0, 0, 0⟩).ea2 =
      (pairModesA p.tpr (p.nu i1) (p.nu i2) (p.vec i1 i2) (fun k => a.Xp k i1) (fun k => a.Xm k i1)
      (fun k => a.Xp k i2) (fun k => a.Xm k i2) (a.nu i1) (a.nu i2) ⟨t, 0, 0, 0⟩).ea2 := fun _ => rfl
    have d3 : ∀ x : Matrix (Fin n) (Fin n) ℝ, (pairModesA p.tpr (p.nu i1) (p.nu i2) (p.vec i1 i2) (fun k => a.Xp k i1) (fun k => a.Xm k i1)
      (fun k => a.Xp k i2) (fun k => a.Xm k i2) (a.nu i1) (a.nu i2) ⟨x, 0, 0, 0⟩).va =
      (pairModesA p.tpr (p.nu i1) (p.nu i2) (p.vec i1 i2) (fun k => a.Xp k i1) (fun k => a.Xm k i1)
      (fun k => a.Xp k i2) (fun k => a.Xm k i2) (a.nu i1) (a.nu i2) ⟨t, 0, 0, 0⟩).va := fun _ => rfl
    rw [d1 0, d2 0, d3 0] at k2
    generalize pairModesA p.tpr (p.nu i1) (p.nu i2) (p.vec i1 i2) (fun k => a.Xp k i1) (fun k => a.Xm k i1)
      (fun k => a.Xp k i2) (fun k => a.Xm k i2) (a.nu i1) (a.nu i2) ⟨t, 0, 0, 0⟩ = r at k1 k2 ⊢
    have hn : (modesL (cplx p.tpr) (cplx tpr') p.nu nu' V V').nu = nu' := rfl
    rw [hn]
    generalize modesL (cplx p.tpr) (cplx tpr') p.nu nu' V V' = m' at k1 ⊢
    rw [← h4] at k2
    simp only [Complex.add_re, Finset.sum_add_distrib] at k1 ⊢
    linarith

theorem polLayer_keeps {l : List (Cols n)} (hp : (l.flatMap Cols.list).Perm (List.finRange n))
    (hl : ∀ c ∈ l, p.Linear gamma' inv? invC? eps V nu' V' c)
    (ht : ∀ i, Cols.one i ∈ l → isTrivial eps p.E i = false)
    {inv1? : Matrix (Fin n) (Fin n) ℂ → Option (Matrix (Fin n) (Fin n) ℂ)} {ltau ltau' : ℝ} {m : Modes n ℂ} {o : RT n ℂ}
    {Ra Ta : Matrix (Fin n) (Fin n) ℝ} {w r : ℝ × Matrix (Fin n) (Fin n) ℝ × Matrix (Fin n) (Fin n) ℝ}
    {f : Matrix (Fin n) (Fin n) ℂ × Matrix (Fin n) (Fin n) ℂ}
    (hf : calcRTL inv1? (ltau : ℂ) ltau' m (modesL (cplx p.tpr) (cplx tpr') p.nu nu' V V') o = some f)
    (hr : polLayerA inv1? inv? invC? eps ltau p m o l Ra Ta w = some r) :
    r.1 * ltau' + mpair r.2.1 tpr' + mpair r.2.2 gamma' = w.1 * ltau' + mpair w.2.1 tpr' + mpair w.2.2 gamma' +
      mpair Ra (fun i j => (f.1 i j).re) + mpair Ta (fun i j => (f.2 i j).re) := by
  unfold polLayerA at hr
  cases h1 : calcRTA inv1? (ltau : ℂ) m o (cplx Ra) (cplx Ta) ⟨0, 0, 0, 0⟩ with
  | none => rw [h1] at hr; cases hr
  | some a =>
    rw [h1] at hr
    dsimp only at hr
    cases h2 : l.foldlM (colGamma inv? invC? eps p a.m) w.2.2 with
    | none => rw [h2] at hr; cases hr
    | some g =>
      rw [h2] at hr
      obtain rfl := Option.some.inj hr
      have k1 := congrArg Complex.re (calcRT_keeps h1 hf)
      have key : ∀ (l : List (Cols n)), (∀ c ∈ l, p.Linear gamma' inv? invC? eps V nu' V' c) →
          (∀ i, Cols.one i ∈ l → isTrivial eps p.E i = false) → ∀ (t g g' : Matrix (Fin n) (Fin n) ℝ),
          l.foldlM (colGamma inv? invC? eps p a.m) g = some g' →
          mpair (l.foldl (colTpr p a.m) t) tpr' + mpair g' gamma' = mpair t tpr' + mpair g gamma' +
            ((l.flatMap Cols.list).map (colPair a.m (modesL (cplx p.tpr) (cplx tpr') p.nu nu' V V'))).sum := by
        intro l
        induction l with
        | nil =>
          intro _ _ t g g' h
          simp only [List.foldlM_nil] at h
          obtain rfl := Option.some.inj h
          simp
        | cons c l ih =>
          intro hl ht t g g' h
          rw [List.foldlM_cons] at h
          cases h3 : colGamma inv? invC? eps p a.m g c with
          | none => rw [h3] at h; cases h
          | some g1 =>
            rw [h3] at h
            have e1 := col_keeps (tpr' := tpr') (t := t) (hl c (by simp)) (fun i hi => ht i (by simp [hi])) h3
            have e2 := ih (fun c hc => hl c (by simp [hc])) (fun i hi => ht i (by simp [hi])) (colTpr p a.m t c) g1 g' h
            rw [List.foldl_cons, List.flatMap_cons, List.map_append, List.sum_append]
            linarith
      have k2 := key l hl ht w.2.1 w.2.2 g h2
      rw [(hp.map _).sum_eq, ← Fin.sum_univ_def, colPair_sum] at k2
      have z1 : modesPair (⟨0, 0, 0⟩ : Modes n ℂ) (modesL (cplx p.tpr) (cplx tpr') p.nu nu' V V') = 0 := by
        simp [modesPair, vpair, mpair]
      have q : ∀ (A : Matrix (Fin n) (Fin n) ℝ) (B : Matrix (Fin n) (Fin n) ℂ),
          (mpair (cplx A) B).re = mpair A fun i j => (B i j).re := by
        intro A B
        simp [mpair, cplx, Complex.re_sum]
      rw [z1] at k1
      simp only [Complex.add_re, zero_mul, Complex.zero_re, add_zero, zero_add, q] at k1
      have q2 : (a.ltau * (ltau' : ℂ)).re = a.ltau.re * ltau' := by simp
      rw [q2] at k1
      dsimp only
      linarith

theorem col_goes {c : Cols n} (hl : p.Linear gamma' inv? invC? eps V nu' V' c) (a : Modes n ℂ)
    (g : Matrix (Fin n) (Fin n) ℝ) : ∃ g', colGamma inv? invC? eps p a g c = some g' := by
  cases c with
  | one i =>
    obtain ⟨-, -, c, h3, -, -⟩ := hl
    dsimp only [colGamma]
    unfold columnRL at h3
    unfold columnA
    split_ifs at h3 ⊢
    · exact ⟨_, rfl⟩
    · exact ⟨_, rfl⟩
    · exact ⟨_, rfl⟩
    · unfold eigenL at h3
      cases hx : inv? (bordered p.gamma (p.re i) (Real.sqrt (p.re i)) fun j => p.E j i) with
      | none => rw [hx] at h3; cases h3
      | some x => exact ⟨_, rfl⟩
  | two i1 i2 =>
    obtain ⟨-, -, h3, -, -⟩ := hl
    dsimp only [colGamma]
    unfold pairA
    unfold eigenL at h3
    cases hx : invC? (bordered (cplx p.gamma) ⟨p.re i1, p.im i1⟩ (p.nu i1) (p.vec i1 i2)) with
    | none => rw [hx] at h3; cases h3
    | some x => exact ⟨_, rfl⟩

theorem polLayer_goes {l : List (Cols n)} (hl : ∀ c ∈ l, p.Linear gamma' inv? invC? eps V nu' V' c)
    {inv1? : Matrix (Fin n) (Fin n) ℂ → Option (Matrix (Fin n) (Fin n) ℂ)} {ltau : ℝ} {ltau' : ℂ} {m m' : Modes n ℂ} {o : RT n ℂ}
    {Ra Ta : Matrix (Fin n) (Fin n) ℝ} {w : ℝ × Matrix (Fin n) (Fin n) ℝ × Matrix (Fin n) (Fin n) ℝ}
    {f : Matrix (Fin n) (Fin n) ℂ × Matrix (Fin n) (Fin n) ℂ} (hf : calcRTL inv1? (ltau : ℂ) ltau' m m' o = some f) :
    ∃ r, polLayerA inv1? inv? invC? eps ltau p m o l Ra Ta w = some r := by
  unfold polLayerA calcRTA
  unfold calcRTL at hf
  cases hx : inv1? m.Xm with
  | none => rw [hx] at hf; cases hf
  | some x =>
    cases hy : inv1? o.c with
    | none => rw [hx, hy] at hf; cases hf
    | some y =>
      dsimp only
      have key : ∀ (a : Modes n ℂ) (l : List (Cols n)), (∀ c ∈ l, p.Linear gamma' inv? invC? eps V nu' V' c) →
          ∀ g : Matrix (Fin n) (Fin n) ℝ, ∃ g', l.foldlM (colGamma inv? invC? eps p a) g = some g' := by
        intro a l
        induction l with
        | nil => exact fun _ g => ⟨g, rfl⟩
        | cons c l ih =>
          intro hl g
          obtain ⟨g1, h1⟩ := col_goes (hl c (by simp)) a g
          rw [List.foldlM_cons, h1]
          exact ih (fun c hc => hl c (by simp [hc])) g1
      obtain ⟨g', hg⟩ := key _ l hl w.2.2
      rw [hg]
      exact ⟨_, rfl⟩

end pol

end Xrtm.EigA
