import Verif.Proof.Boundary
import Mathlib.Tactic.NormNum

/-!
# C43: the light that enters at the two ends of the medium

Property C43: the upward radiances leaving the surface are the isotropic input, the
attenuated solar beam reflected by the surface and the thermal emission with an emissivity of
one minus the reflection; the downward radiances at the top are the isotropic input; the
linearised arrays hold their derivatives.

The derivative of the emission is only right for directions whose row sum equals that of the
last direction of its group: `C43_derivative_partial` and `C43_violated_emission`.
-/

namespace Xrtm.Boundary

open Loops Spec

variable {K : Type*} [Field K]

/-- C43. All elements of both arrays, for any directions, Stokes elements, Fourier term,
sources and surface, whatever the locals hold at entry. -/
theorem C43_value (D : Dims) (v : Vals K) (l : Nat → Lins K) (ga gb : K) (d s : Nat)
    (hs : s < D.nStokes) (hd : d < D.nQuad + D.nUmus) :
    (update D v l ga gb).inP (d * D.nStokes + s) = up D v d s ∧
    (update D v l ga gb).i1M (d * D.nStokes + s) = down D v s := by
  refine ⟨update_inP D v l ga gb d s hs hd, ?_⟩
  unfold update
  rw [(parts_i1M D v l _).1, iso_i1M D v l _ d s hs hd]
  simp [start, down]

/-- C43. A surface as warm as the light that falls on it: emission and reflection together
send the same light back, in every direction. -/
theorem C43_kirchhoff (D : Dims) (v : Vals K) (l : Nat → Lins K) (ga gb : K) (d : Nat)
    (hst : 0 < D.nStokes) (hd : d < D.nQuad + D.nUmus) (hw : Warm D) (hsol : D.solar = false)
    (hbot : v.isoBot = 0) :
    (update D v l ga gb).inP (d * D.nStokes)
      + ∑ j ∈ Finset.range D.nQuadX, diffuse D v d j * v.surfaceB = v.surfaceB := by
  have h := update_inP D v l ga gb d 0 hst hd
  rw [Nat.add_zero] at h
  rw [h, up, hbot, if_neg (fun e : Lit D => by simp [e.1] at hsol),
    if_pos (show Warm D ∧ 0 = 0 from ⟨hw, rfl⟩),
    ← Finset.sum_mul]
  simp only [ite_self, albedo]
  ring

/-- C43, derivatives at the top, complete. -/
theorem C43_derivative_top (D : Dims) (v : ℝ → Vals ℝ) (l : Nat → Lins ℝ) (ga gb t₀ : ℝ)
    (i : Nat) (hi : i < D.nDerivs) (hl : IsLin v (l i) t₀) (d s : Nat)
    (hs : s < D.nStokes) (hd : d < D.nQuad + D.nUmus) :
    HasDerivAt (fun t => (update D (v t) l ga gb).i1M (d * D.nStokes + s))
      ((update D (v t₀) l ga gb).i1Ml i (d * D.nStokes + s)) t₀ := by
  have e : (update D (v t₀) l ga gb).i1Ml i (d * D.nStokes + s)
      = if D.iFour = 0 ∧ s = 0 then (l i).isoTop else 0 := by
    unfold update
    rw [(parts_i1M D (v t₀) l _).2, iso_i1Ml D (v t₀) l _ d s hs hd i hi]
    simp [start]
  rw [e]
  have f : (fun t => (update D (v t) l ga gb).i1M (d * D.nStokes + s))
      = fun t => if D.iFour = 0 ∧ s = 0 then (v t).isoTop else 0 :=
    funext fun t => (C43_value D (v t) l ga gb d s hs hd).2
  rw [f]
  by_cases h : D.iFour = 0 ∧ s = 0
  · simp only [if_pos h]; exact hl.isoTop
  · simp only [if_neg h]; exact hasDerivAt_const _ _

/-- C43, derivatives at the bottom. Missing: directions that emit differently from the last
direction of their group while the surface temperature varies; there the statement is false
(`C43_violated_emission`). -/
theorem C43_derivative_partial (D : Dims) (v : ℝ → Vals ℝ) (l : Nat → Lins ℝ) (ga gb t₀ : ℝ)
    (i : Nat) (hi : i < D.nDerivs) (hl : IsLin v (l i) t₀) (d s : Nat)
    (hs : s < D.nStokes) (hd : d < D.nQuad + D.nUmus)
    (heq : Warm D → s = 0 → (l i).surfaceB = 0 ∨
      albedo D (v t₀) d = albedo D (v t₀) (if d < D.nQuadX then D.nQuadX - 1
        else D.nQuad + D.nUmus - 1)) :
    HasDerivAt (fun t => (update D (v t) l ga gb).inP (d * D.nStokes + s))
      ((update D (v t₀) l ga gb).inPl i (d * D.nStokes + s)) t₀ := by
  have f : (fun t => (update D (v t) l ga gb).inP (d * D.nStokes + s))
      = fun t => up D (v t) d s :=
    funext fun t => update_inP D (v t) l ga gb d s hs hd
  rw [f]
  have e : (update D (v t₀) l ga gb).inPl i (d * D.nStokes + s) =
      (if D.iFour = 0 ∧ s = 0 then (l i).isoBot else 0)
      + (if Lit D then (v t₀).qf * (v t₀).mu0 * (v t₀).F0 / (v t₀).pi * (l i).btran
            * direct D (v t₀) d s
          + (v t₀).qf * (v t₀).mu0 * (v t₀).F0 / (v t₀).pi * (v t₀).btran * (if (l i).layer then
            (if d < D.nQuadX then (l i).rsQ0 (d * D.nStokes + s)
              else (l i).rsU0 ((d - D.nQuadX) * D.nStokes + s)) else 0) else 0)
      + (if Warm D ∧ s = 0 then (l i).surfaceB * (1 - albedo D (v t₀) (lastRow D d))
          + (v t₀).surfaceB * -(if (l i).layer then ∑ j ∈ Finset.range D.nQuadX,
            (if d < D.nQuadX then (l i).rsQq (d * D.nStokes) (j * D.nStokes)
              else (l i).rsUq ((d - D.nQuadX) * D.nStokes) (j * D.nStokes)) else 0)
        else 0) := by
    unfold update
    rw [thermal_inPl D (v t₀) l _ d s hs hd i hi, solar_inPl D (v t₀) l _ d s hs hd i hi,
      iso_inPl D (v t₀) l _ d s hs hd i hi]
    simp only [start, zero_add]
  rw [e]
  unfold up
  refine HasDerivAt.add (HasDerivAt.add ?_ ?_) ?_
  · by_cases h : D.iFour = 0 ∧ s = 0
    · simp only [if_pos h]; exact hl.isoBot
    · simp only [if_neg h]; exact hasDerivAt_const _ _
  · by_cases h : Lit D
    · simp only [if_pos h, hl.qf, hl.mu0, hl.F0, hl.pi]
      have hdir : HasDerivAt (fun t => direct D (v t) d s) (if (l i).layer then
            (if d < D.nQuadX then (l i).rsQ0 (d * D.nStokes + s)
              else (l i).rsU0 ((d - D.nQuadX) * D.nStokes + s)) else 0) t₀ := by
        unfold direct
        by_cases hq : d < D.nQuadX
        · simp only [if_pos hq]; exact hl.rsQ0 _
        · simp only [if_neg hq]; exact hl.rsU0 _
      exact (hl.btran.const_mul _).mul hdir
    · simp only [if_neg h]; exact hasDerivAt_const _ _
  · by_cases h : Warm D ∧ s = 0
    · simp only [if_pos h]
      have halb : HasDerivAt (fun t => albedo D (v t) d) (if (l i).layer then
          ∑ j ∈ Finset.range D.nQuadX,
            (if d < D.nQuadX then (l i).rsQq (d * D.nStokes) (j * D.nStokes)
              else (l i).rsUq ((d - D.nQuadX) * D.nStokes) (j * D.nStokes)) else 0) t₀ := by
        have := HasDerivAt.fun_sum (u := Finset.range D.nQuadX)
          (A := fun j t => diffuse D (v t) d j)
          (A' := fun j => if (l i).layer then
            (if d < D.nQuadX then (l i).rsQq (d * D.nStokes) (j * D.nStokes)
              else (l i).rsUq ((d - D.nQuadX) * D.nStokes) (j * D.nStokes)) else 0)
          (x := t₀) (fun j _ => by
            unfold diffuse
            by_cases hq : d < D.nQuadX
            · simp only [if_pos hq]; exact hl.rsQq _ _
            · simp only [if_neg hq]; exact hl.rsUq _ _)
        refine this.congr_deriv ?_
        by_cases hy : (l i).layer = true
        · simp only [hy, if_true]
        · simp [hy]
      refine (hl.surfaceB.mul (halb.const_sub 1)).congr_deriv ?_
      have hcase := heq h.1 h.2
      have hlr : lastRow D d = if d < D.nQuadX then D.nQuadX - 1 else D.nQuad + D.nUmus - 1 :=
        rfl
      rw [← hlr] at hcase
      rcases hcase with h0 | h0
      · rw [h0]; ring
      · rw [← h0]
    · simp only [if_neg h]; exact hasDerivAt_const _ _

/-- C43. With no thermal emission, or for the polarised elements, or in the higher Fourier
terms, nothing is missing. -/
theorem C43_derivative_no_emission (D : Dims) (v : ℝ → Vals ℝ) (l : Nat → Lins ℝ)
    (ga gb t₀ : ℝ) (i : Nat) (hi : i < D.nDerivs) (hl : IsLin v (l i) t₀) (d s : Nat)
    (hs : s < D.nStokes) (hd : d < D.nQuad + D.nUmus) (h : ¬ Warm D ∨ s ≠ 0) :
    HasDerivAt (fun t => (update D (v t) l ga gb).inP (d * D.nStokes + s))
      ((update D (v t₀) l ga gb).inPl i (d * D.nStokes + s)) t₀ :=
  C43_derivative_partial D v l ga gb t₀ i hi hl d s hs hd
    (fun hw h0 => absurd h (by simp [hw, h0]))

/-! ### Examples -/

/-- Two quadrature directions, two user angles apart from them, two Stokes elements. -/
def exDims : Dims :=
  { nStokes := 2, nQuad := 2, nUmus := 2, sfi := true, solar := true, thermal := true
    nDerivs := 1, nKernels := 1, needsFourier := true, iFour := 0 }

/-- A surface that sends back less of what goes to the first direction than to the second. -/
noncomputable def exVals (t : ℝ) : Vals ℝ :=
  { qf := 1, mu0 := 1 / 2, F0 := 3, pi := 3, isoTop := t, isoBot := 0, btran := t
    surfaceB := t
    rsQ0 := fun _ => 1 / 5, rsU0 := fun _ => t
    rsQq := fun i _ => if i = 0 then 1 / 4 else 1 / 8
    rsUq := fun i _ => if i = 0 then 1 / 3 else 1 / 6 }

def exLins : Lins ℝ :=
  { isoTop := 1, isoBot := 0, btran := 1, surfaceB := 1, layer := true
    rsQ0 := fun _ => 0, rsU0 := fun _ => 1, rsQq := fun _ _ => 0, rsUq := fun _ _ => 0 }

theorem exIsLin (t₀ : ℝ) : IsLin exVals exLins t₀ where
  qf _ := rfl
  mu0 _ := rfl
  F0 _ := rfl
  pi _ := rfl
  isoTop := hasDerivAt_id t₀
  isoBot := hasDerivAt_const _ _
  btran := hasDerivAt_id t₀
  surfaceB := hasDerivAt_id t₀
  rsQ0 _ := hasDerivAt_const _ _
  rsU0 _ := hasDerivAt_id t₀
  rsQq _ _ := hasDerivAt_const _ _
  rsUq _ _ := hasDerivAt_const _ _

example : Warm exDims ∧ Lit exDims := by decide

/-- In the second quadrature direction all three terms are at work: reflected beam
`1/2 * 2 * 1/5` and emission `2 (1 - 1/4)`. -/
example : (update exDims (exVals 2) (fun _ => exLins) 0 0).inP (1 * 2 + 0) = 17 / 10 := by
  have := (C43_value exDims (exVals 2) (fun _ => exLins) 0 0 1 0 (by decide) (by decide)).1
  rw [show exDims.nStokes = 2 from rfl] at this
  rw [this, up, if_pos (by decide), if_pos (by decide), if_pos (by decide), albedo]
  simp [direct, diffuse, exDims, exVals, Dims.nQuadX, Finset.sum_range_succ]
  norm_num

/-- The hypothesis of the partial theorem holds in the last direction of each group. -/
example : HasDerivAt (fun t => (update exDims (exVals t) (fun _ => exLins) 0 0).inP (3 * 2 + 0))
    ((update exDims (exVals 2) (fun _ => exLins) 0 0).inPl 0 (3 * 2 + 0)) 2 :=
  C43_derivative_partial exDims exVals _ 0 0 2 0 (by decide) (exIsLin 2) 3 0 (by decide)
    (by decide) (fun _ _ => Or.inr rfl)

/-! ### What is wrong -/

/-- C43 is violated: in the first direction the derivative with respect to the temperature of
the surface uses the emissivity of the last direction, for quadrature and user angles alike. -/
theorem C43_violated_emission :
    ∃ (D : Dims) (v : ℝ → Vals ℝ) (l : Nat → Lins ℝ) (t₀ : ℝ), IsLin v (l 0) t₀ ∧
      0 < D.nDerivs ∧ Warm D ∧
      ∀ ga gb, ∀ d, d = 0 ∨ d = D.nQuadX →
      ¬ HasDerivAt (fun t => (update D (v t) l ga gb).inP (d * D.nStokes + 0))
        ((update D (v t₀) l ga gb).inPl 0 (d * D.nStokes + 0)) t₀ := by
  let D : Dims := { exDims with solar := false }
  refine ⟨D, exVals, fun _ => exLins, 2, exIsLin 2, by decide, by decide, ?_⟩
  intro ga gb d hd hbad
  have hlt : d < D.nDirs := by
    rcases hd with rfl | rfl
    · decide
    · decide
  have f : (fun t => (update D (exVals t) (fun _ => exLins) ga gb).inP (d * D.nStokes + 0))
      = fun t => t * (1 - albedo D (exVals 2) d) := by
    funext t
    rw [update_inP D (exVals t) _ ga gb d 0 (by decide) hlt, up, if_pos (by decide),
      if_neg (by decide), if_pos (by decide)]
    simp only [exVals, zero_add, albedo, diffuse]
  have e : (update D (exVals 2) (fun _ => exLins) ga gb).inPl 0 (d * D.nStokes + 0)
      = 1 - albedo D (exVals 2) (lastRow D d) := by
    unfold update
    rw [thermal_inPl D (exVals 2) _ _ d 0 (by decide) hlt 0 (by decide),
      solar_inPl D (exVals 2) _ _ d 0 (by decide) hlt 0 (by decide),
      iso_inPl D (exVals 2) _ _ d 0 (by decide) hlt 0 (by decide),
      if_pos (by decide), if_neg (by decide), if_pos (by decide)]
    simp [start, exLins]
  rw [f, e] at hbad
  have hgood : HasDerivAt (fun t : ℝ => t * (1 - albedo D (exVals 2) d))
      (1 * (1 - albedo D (exVals 2) d)) 2 := (hasDerivAt_id (2 : ℝ)).mul_const _
  have := hbad.unique hgood
  rcases hd with rfl | rfl
  · simp [albedo, diffuse, lastRow, D, exDims, exVals, Dims.nQuadX, Finset.sum_range_succ]
      at this
  · simp [albedo, diffuse, lastRow, D, exDims, exVals, Dims.nQuadX, Dims.nDirs,
      Finset.sum_range_succ] at this

/-- C43. The local `b` is read before it is assigned exactly when the surface emits,
derivatives are asked for, the beam is not reflected and no user angles are kept apart. What
it holds does not enter the results (`C43_value`, `C43_derivative_partial` hold for all). -/
theorem C43_uninitialised_read (D : Dims) (v : Vals K) (l : Nat → Lins K) (ga gb : K) :
    (update D v l ga gb).bad = true ↔
      Warm D ∧ 0 < D.nDerivs ∧ D.solar = false ∧ (D.sfi = false ∨ D.nUmus = 0) := by
  have h1 : (solarPart D v l (iso D v l (start ga gb))).bad = false := by
    unfold solarPart iso start
    split <;> split <;> rfl
  have h2 : (solarPart D v l (iso D v l (start ga gb))).bSet = decide (Lit D) := by
    unfold solarPart
    by_cases h : Lit D
    · rw [if_pos ((lit_iff D).2 h), decide_eq_true h]
    · rw [if_neg (fun e => h ((lit_iff D).1 e)), decide_eq_false h]
      unfold iso start
      split <;> rfl
  have hx : (¬ D.nQuadX < D.nDirs) ↔ (D.sfi = false ∨ D.nUmus = 0) := by
    unfold Dims.nQuadX Dims.nDirs
    cases D.sfi
    · simp
    · simp only [if_true]; simp
  unfold update
  generalize solarPart D v l (iso D v l (start ga gb)) = o at h1 h2
  unfold thermalPart
  by_cases hw : Warm D
  · rw [if_pos ((warm_iff D).2 hw)]
    dsimp only
    have hlit : Lit D ↔ D.solar = true := by
      unfold Lit; exact ⟨fun h => h.1, fun h => ⟨h, hw.2.1, Or.inl hw.2.2⟩⟩
    by_cases hq : D.nQuadX < D.nDirs
    · rw [emitU_snd D v _ hq]
      simp only [h1, Bool.not_true, Bool.and_false, Bool.or_false, Bool.false_eq_true, false_iff]
      rintro ⟨_, _, _, h⟩
      exact hx.2 h hq
    · rw [emitU_none D v _ hq]
      simp only [h1, h2, Bool.false_or, Bool.and_eq_true, decide_eq_true_eq, Bool.not_eq_true',
        decide_eq_false_iff_not, hlit, Bool.not_eq_true]
      exact ⟨fun h => ⟨hw, h.1, h.2, hx.1 hq⟩, fun h => ⟨h.2.1, h.2.2.1⟩⟩
  · rw [if_neg (fun e => hw ((warm_iff D).1 e)), h1]
    simp [hw]

/-- A run that reads it: thermal source only, derivatives, no user angles. -/
example : ∃ D : Dims, ∀ (v : Vals ℚ) l ga gb, (update D v l ga gb).bad = true :=
  ⟨{ exDims with solar := false, nUmus := 0 }, fun v l ga gb =>
    (C43_uninitialised_read _ v l ga gb).2 (by decide)⟩

end Xrtm.Boundary
