import Verif.Proof.Brdf
import Mathlib.Tactic.NormNum
import Mathlib.Tactic.Positivity

/-!
# C46: the reflecting surface

Property C46: the reflection handed to the solvers is, for every pair of directions and every
Fourier term, that of the weighted sum of the kernels; the linearised one is its derivative;
the kernels are reciprocal and even in azimuth.

The derivative is right for the kernels that write their `f_l` (`C46_derivative_partial`);
the eight others use what another kernel or another routine left there
(`C46_violated_stale`, `C46_violated_scratch`).
-/

namespace Xrtm.Brdf

open Loops Spec

/-! ### Values -/

/-- C46. Reflection of the beam, for any list of kernels and any scratch memory. The third
hypothesis is what `solar_surface_for_i_four` asks for. -/
theorem C46_vec (E : Env) (iOff n jOff : Nat) (g₀ : Nat → ℝ) (Ts : List Term) (m jj : Nat)
    (hj : jj < n) (hm : m = 0 ∨ needsFourier Ts = true) :
    refVec E (needsFourier Ts) m ((vecs E iOff n jOff g₀ Ts).1 jj).f
      = term E Ts jOff (iOff + jj) m := by
  unfold refVec term
  rw [fourierTerm_col E Ts jOff (iOff + jj) m _ (fun s => ?_) hm]
  · by_cases h : m = 0 <;> simp [h] <;> ring
  · have := vecs_additive E iOff n jOff g₀ _ _ _ (additive_f E s) Ts (fun _ _ => trivial) jj hj
    rw [this]; simp

/-- C46. Reflection of diffuse light: the same with the factor of the integral over the
incident hemisphere, which is 2 in all Fourier terms. -/
theorem C46_mat (E : Env) (iOff n1 jOff n2 : Nat) (g₀ : Nat → ℝ) (Ts : List Term)
    (qf qx qw : ℝ) (m jj kk : Nat) (hj : jj < n1) (hk : kk < n2)
    (hm : m = 0 ∨ needsFourier Ts = true) :
    refMat E (needsFourier Ts) qf qx qw m ((mats E iOff n1 jOff n2 g₀ Ts).1 jj kk).f
      = term E Ts (jOff + kk) (iOff + jj) m * ((if m = 0 then 2 else 1) * qf * qx * qw) := by
  unfold refMat term
  rw [fourierTerm_col E Ts (jOff + kk) (iOff + jj) m _ (fun s => ?_) hm]
  · by_cases h : m = 0
    · simp only [if_pos h]; ring
    · simp only [if_neg h]; ring
  · have := mats_additive E iOff n1 jOff n2 g₀ _ _ _ (additive_f E s) Ts (fun _ _ => trivial)
      jj kk hj hk
    rw [this]; simp

/-- C46. A surface of azimuth independent kernels asked for a higher Fourier term returns
twice its value, not zero: `brdf_build_ref_vec` relies on its caller not to ask. -/
theorem C46_guard_needed (E : Env) (iOff n jOff : Nat) (g₀ : Nat → ℝ) (Ts : List Term)
    (m jj : Nat) (hj : jj < n) (hm : m ≠ 0) (hT : needsFourier Ts = false) :
    refVec E (needsFourier Ts) m ((vecs E iOff n jOff g₀ Ts).1 jj).f
      = 2 * even E Ts jOff (iOff + jj) := by
  have h0 : ((vecs E iOff n jOff g₀ Ts).1 jj).f 0 = even E Ts jOff (iOff + jj) := by
    have := vecs_additive E iOff n jOff g₀ _ _ _ (additive_f E 0) Ts (fun _ _ => trivial) jj hj
    rw [this, sum_contrib_even]; simp
  unfold refVec fourierTerm
  rw [hT, if_neg (by simp), h0, if_neg hm]
  ring

/-! ### Derivatives -/

/-- Kernels whose `f_l` is written: Lambertian, direct and diffuse, and those of a user who
does their part. -/
def Careful (E : Env) (l : Nat) (t₀ : ℝ) (T : Dep) : Prop :=
  T.kern = .lambertian ∨ T.kern = .directAndDiffuse ∨
    (T.kern = .userDefined ∧ T.UserOk E l t₀)

/-- The derivative of the value of a careful kernel. -/
noncomputable def careL (E : Env) (t₀ : ℝ) (l : Nat) (T : Dep) (i j k : Nat) (phi : ℝ) : ℝ :=
  kernelLin T.U E.g T.kern i j k phi E.act (fun q => T.p q t₀) T.pL (fun _ => 0) l

theorem careL_deriv (E : Env) (l : Nat) (hl : E.act l = true) (t₀ : ℝ) (T : Dep)
    (h : Careful E l t₀ T) (hp : T.IsLin l t₀) (i j k : Nat) (phi : ℝ) :
    HasDerivAt (fun t => kernelValue E.A T.U E.g T.kern i j k phi fun q => T.p q t)
      (careL E t₀ l T i j k phi) t₀ := by
  unfold careL
  rcases h with h | h | ⟨h, hu⟩
  · rw [h]; simp only [kernelValue, kernelLin, hl, if_true]
    exact hasDerivAt_const _ _
  · rw [h]; simp only [kernelValue, kernelLin, hl, if_true]
    cases E.g <;> exact hp.p _
  · rw [h]; simp only [kernelValue, kernelLin]
    exact hu i j k phi _ hl

theorem careful_fills (E : Env) (l : Nat) (hl : E.act l = true) (t₀ : ℝ) (T : Dep)
    (h : Careful E l t₀ T) : Fills E (T.at t₀) l (careL E t₀ l T) := by
  intro i j k phi m
  rcases h with h | h | ⟨h, hu⟩
  · simp [careL, Dep.at, h, kernelLin, hl]
  · simp [careL, Dep.at, h, kernelLin, hl]
  · have h1 := hu i j k phi m hl
    have h2 := hu i j k phi (fun _ => 0) hl
    simp only [careL, Dep.at, h, kernelLin]
    exact h1.unique h2

theorem contrib_deriv (E : Env) (l : Nat) (hl : E.act l = true) (t₀ : ℝ) (T : Dep)
    (h : Careful E l t₀ T) (hp : T.IsLin l t₀) (i j s : Nat) :
    HasDerivAt (fun t => contrib E (T.at t) i j s)
      (contribL E (T.at t₀) l (careL E t₀ l T) i j s) t₀ := by
  have hd := careL_deriv E l hl t₀ T h hp
  have hk : ∀ t, (T.at t).kern = T.kern := fun _ => rfl
  unfold contrib contribL
  simp only [hk]
  split
  · split
    · exact (hd _ _ _ _).mul hp.amp
    · split
      · exact (hd _ _ _ _).mul hp.amp
      · exact hasDerivAt_const _ _
  · split
    · exact (hd _ _ _ _).mul hp.amp
    · exact hasDerivAt_const _ _

theorem sum_contrib_deriv (E : Env) (l : Nat) (hl : E.act l = true) (t₀ : ℝ) (i j s : Nat) :
    ∀ (Ts : List Dep), (∀ T ∈ Ts, Careful E l t₀ T) → (∀ T ∈ Ts, T.IsLin l t₀) →
    HasDerivAt (fun t => (Ts.map fun T => contrib E (T.at t) i j s).sum)
      (Ts.map fun T => contribL E (T.at t₀) l (careL E t₀ l T) i j s).sum t₀
  | [], _, _ => by simpa using hasDerivAt_const t₀ (0 : ℝ)
  | T :: Ts, h, hp => by
    simp only [List.map_cons, List.sum_cons]
    exact (contrib_deriv E l hl t₀ T (h T (List.mem_cons_self ..)) (hp T (List.mem_cons_self ..))
      i j s).add
      (sum_contrib_deriv E l hl t₀ i j s Ts (fun T' hT => h T' (List.mem_cons_of_mem _ hT))
        (fun T' hT => hp T' (List.mem_cons_of_mem _ hT)))

/-- The linearised columns, when all kernels are careful. -/
theorem vecs_fl (E : Env) (iOff n jOff : Nat) (g₀ : Nat → ℝ) (l : Nat) (hl : E.act l = true)
    (t₀ : ℝ) (Ts : List Dep) (h : ∀ T ∈ Ts, Careful E l t₀ T) (jj : Nat) (hj : jj < n)
    (s : Nat) :
    ((vecs E iOff n jOff g₀ (Ts.map fun T => T.at t₀)).1 jj).fl l s
      = (Ts.map fun T => contribL E (T.at t₀) l (careL E t₀ l T) jOff (iOff + jj) s).sum := by
  have hA : Additive E (fun c => c.fl l s)
      (fun T i j => contribL E T l (fun i j k phi =>
        kernelLin T.U E.g T.kern i j k phi E.act T.p T.pL (fun _ => 0) l) i j s)
      (fun T => Fills E T l (fun i j k phi =>
        kernelLin T.U E.g T.kern i j k phi E.act T.p T.pL (fun _ => 0) l)) :=
    additive_fl E l s hl _
  rw [vecs_additive E iOff n jOff g₀ _ _ _ hA _ (by
    intro T hT
    obtain ⟨D, hD, rfl⟩ := List.mem_map.1 hT
    exact careful_fills E l hl t₀ D (h D hD)) jj hj, List.map_map]
  simp only [zero_add]
  rfl

theorem mats_fl (E : Env) (iOff n1 jOff n2 : Nat) (g₀ : Nat → ℝ) (l : Nat)
    (hl : E.act l = true) (t₀ : ℝ) (Ts : List Dep) (h : ∀ T ∈ Ts, Careful E l t₀ T)
    (jj kk : Nat) (hj : jj < n1) (hk : kk < n2) (s : Nat) :
    ((mats E iOff n1 jOff n2 g₀ (Ts.map fun T => T.at t₀)).1 jj kk).fl l s
      = (Ts.map fun T =>
          contribL E (T.at t₀) l (careL E t₀ l T) (jOff + kk) (iOff + jj) s).sum := by
  have hA : Additive E (fun c => c.fl l s)
      (fun T i j => contribL E T l (fun i j k phi =>
        kernelLin T.U E.g T.kern i j k phi E.act T.p T.pL (fun _ => 0) l) i j s)
      (fun T => Fills E T l (fun i j k phi =>
        kernelLin T.U E.g T.kern i j k phi E.act T.p T.pL (fun _ => 0) l)) :=
    additive_fl E l s hl _
  rw [mats_additive E iOff n1 jOff n2 g₀ _ _ _ hA _ (by
    intro T hT
    obtain ⟨D, hD, rfl⟩ := List.mem_map.1 hT
    exact careful_fills E l hl t₀ D (h D hD)) jj kk hj hk, List.map_map]
  simp only [zero_add]
  rfl

/-- C46, derivatives of the reflected beam and of the diffuse reflection, whatever the scratch
memory held. Missing: the eight kernels that do not write `f_l`, for which the statement is
false (`C46_violated_stale`). -/
theorem C46_derivative_partial (E : Env) (iOff n1 jOff n2 : Nat) (g₀ : Nat → ℝ) (l : Nat)
    (hl : E.act l = true) (t₀ : ℝ) (Ts : List Dep) (h : ∀ T ∈ Ts, Careful E l t₀ T)
    (hp : ∀ T ∈ Ts, T.IsLin l t₀) (flag : Bool) (m jj kk : Nat) (hj : jj < n1) (hk : kk < n2)
    (qf qx qw : ℝ) :
    HasDerivAt (fun t => refVec E flag m
        ((vecs E iOff n1 jOff g₀ (Ts.map fun T => T.at t)).1 jj).f)
      (refVec E flag m (((vecs E iOff n1 jOff g₀ (Ts.map fun T => T.at t₀)).1 jj).fl l)) t₀ ∧
    HasDerivAt (fun t => refMat E flag qf qx qw m
        ((mats E iOff n1 jOff n2 g₀ (Ts.map fun T => T.at t)).1 jj kk).f)
      (refMat E flag qf qx qw m
        (((mats E iOff n1 jOff n2 g₀ (Ts.map fun T => T.at t₀)).1 jj kk).fl l)) t₀ := by
  constructor
  · refine HasDerivAt.mul_const (fourierTerm_deriv E flag m _ _ t₀ fun s => ?_) _
    rw [vecs_fl E iOff n1 jOff g₀ l hl t₀ Ts h jj hj]
    have : (fun t => ((vecs E iOff n1 jOff g₀ (Ts.map fun T => T.at t)).1 jj).f s)
        = fun t => (Ts.map fun T => contrib E (T.at t) jOff (iOff + jj) s).sum := by
      funext t
      have := vecs_additive E iOff n1 jOff g₀ _ _ _ (additive_f E s) (Ts.map fun T => T.at t)
        (fun _ _ => trivial) jj hj
      rw [this, List.map_map]
      simp only [zero_add]
      rfl
    rw [this]
    exact sum_contrib_deriv E l hl t₀ _ _ s Ts h hp
  · refine HasDerivAt.mul_const (fourierTerm_deriv E flag m _ _ t₀ fun s => ?_) _
    rw [mats_fl E iOff n1 jOff n2 g₀ l hl t₀ Ts h jj kk hj hk]
    have : (fun t => ((mats E iOff n1 jOff n2 g₀ (Ts.map fun T => T.at t)).1 jj kk).f s)
        = fun t => (Ts.map fun T => contrib E (T.at t) (jOff + kk) (iOff + jj) s).sum := by
      funext t
      have := mats_additive E iOff n1 jOff n2 g₀ _ _ _ (additive_f E s)
        (Ts.map fun T => T.at t) (fun _ _ => trivial) jj kk hj hk
      rw [this, List.map_map]
      simp only [zero_add]
      rfl
    rw [this]
    exact sum_contrib_deriv E l hl t₀ _ _ s Ts h hp

/-! ### Symmetry -/

/-- C46. Exchanging the incident and the reflected direction changes nothing, except for the
two kernels of Li and those of the user. -/
theorem C46_reciprocal (A : Aux) (U : UserFn) (g : Geom) (kern : Kernel) (i j k : Nat)
    (phi : ℝ) (p : Nat → ℝ) (h1 : kern ≠ .liSparse) (h2 : kern ≠ .liDense)
    (h3 : kern ≠ .userDefined) :
    kernelValue A U g kern i j k phi p = kernelValue A U g kern j i k phi p := by
  cases kern with
  | lambertian => rfl
  | directAndDiffuse => rfl
  | roujean =>
    simp only [kernelValue, roujean]
    rw [add_comm (A.tanT i), add_comm (A.tanT2 i), mul_comm (A.tanT i)]
  | liSparse => exact absurd rfl h1
  | liDense => exact absurd rfl h2
  | rossThin =>
    simp only [kernelValue, rossThin]
    rw [mul_comm (A.cosT i), mul_comm (A.sinT i)]
  | rossThick =>
    simp only [kernelValue, rossThick]
    rw [mul_comm (A.cosT i), mul_comm (A.sinT i), add_comm (A.cosT i)]
  | hapke =>
    simp only [kernelValue, hapke]
    rw [mul_comm (A.cosT i), mul_comm (A.sinT i), add_comm (A.cosT i),
      mul_comm ((1 + 2 * A.cosT i) / _)]
  | rahman =>
    simp only [kernelValue, rahman]
    rw [mul_comm (A.cosT i), mul_comm (A.sinT i), add_comm (A.cosT i), add_comm (A.tanT2 i),
      mul_comm (A.tanT i)]
  | coxMunk =>
    simp only [kernelValue, coxMunk]
    rw [mul_comm (A.cosT i), mul_comm (A.sinT i), add_comm (A.cosT i)]
  | userDefined => exact absurd rfl h3

/-- C46. All kernels of the library are even in azimuth, so the two halves of the circle
contribute alike. -/
theorem C46_even_azimuth (A : Aux) (U : UserFn) (g : Geom) (kern : Kernel) (i j k : Nat)
    (phi : ℝ) (p : Nat → ℝ) (h3 : kern ≠ .userDefined) :
    kernelValue A U g kern i j k (-phi) p = kernelValue A U g kern i j k phi p := by
  cases kern with
  | roujean =>
    simp only [kernelValue, roujean]
    rcases lt_trichotomy phi 0 with h | h | h
    · rw [if_neg (by linarith), if_pos h]; ring
    · subst h; simp
    · rw [if_pos (by linarith), if_neg (by linarith)]; ring
  | userDefined => exact absurd rfl h3
  | _ => rfl

/-- How far the sparse kernel of Li is from being reciprocal. -/
theorem li_difference (A : Aux) (p : Nat → ℝ) (i j k : Nat) :
    liSparse A p i j k - liSparse A p j i k
      = 1 / 2 * (1 + (Real.cos (Real.arctan (p 0 * A.tanT i))
            * Real.cos (Real.arctan (p 0 * A.tanT j))
          + Real.sin (Real.arctan (p 0 * A.tanT i)) * Real.sin (Real.arctan (p 0 * A.tanT j))
            * A.cosP k))
        * (1 / Real.cos (Real.arctan (p 0 * A.tanT j))
          - 1 / Real.cos (Real.arctan (p 0 * A.tanT i))) := by
  have hq : (liCommon A p i j k).2.1 = (liCommon A p j i k).2.1 := by
    simp only [liCommon]
    rw [add_comm (1 / Real.cos (Real.arctan (p 0 * A.tanT i))),
      add_comm (p 0 * A.tanT i * (p 0 * A.tanT i)), mul_comm (p 0 * A.tanT i) (p 0 * A.tanT j),
      mul_comm (p 0 * A.tanT i * (p 0 * A.tanT i))]
  have hr : (liCommon A p i j k).2.2 = (liCommon A p j i k).2.2 := by
    simp only [liCommon]; rw [add_comm]
  have h1 : ∀ i j, (liCommon A p i j k).1 = (1 + (Real.cos (Real.arctan (p 0 * A.tanT i))
            * Real.cos (Real.arctan (p 0 * A.tanT j))
          + Real.sin (Real.arctan (p 0 * A.tanT i)) * Real.sin (Real.arctan (p 0 * A.tanT j))
            * A.cosP k)) / Real.cos (Real.arctan (p 0 * A.tanT j)) := fun i j => rfl
  unfold liSparse
  dsimp only
  rw [hq, hr, h1, h1]
  ring

/-- C46, reciprocity is violated by the sparse kernel of Li: with incidence from above and
reflection at `cos = 3/5` against the reverse. (The kernel of Wanner 1995 that the comment in
the code cites is itself not reciprocal.) -/
theorem C46_violated_reciprocity :
    ∃ (mu qx : Nat → ℝ) (p : Nat → ℝ), 0 < mu 0 ∧ mu 0 ≤ 1 ∧ 0 < mu 1 ∧ mu 1 ≤ 1 ∧
      liSparse (auxCalc mu qx) p 0 1 0 ≠ liSparse (auxCalc mu qx) p 1 0 0 := by
  refine ⟨fun i => if i = 0 then 1 else 3 / 5, fun _ => 0, fun _ => 1, by norm_num, by norm_num,
    by norm_num, by norm_num, ?_⟩
  intro h
  have hd := li_difference (auxCalc (fun i => if i = 0 then 1 else 3 / 5) fun _ => 0)
    (fun _ => 1) 0 1 0
  rw [h, sub_self] at hd
  have hs : Real.sqrt (16 / 25) = 4 / 5 := by
    rw [show (16 / 25 : ℝ) = (4 / 5) ^ 2 by norm_num]
    exact Real.sqrt_sq (by norm_num)
  have t0 : (1 : ℝ) * (auxCalc (fun i => if i = 0 then 1 else 3 / 5) fun _ => 0).tanT 0 = 0 := by
    simp [auxCalc]
  have t1 : (1 : ℝ) * (auxCalc (fun i => if i = 0 then 1 else 3 / 5) fun _ => 0).tanT 1
      = 4 / 3 := by
    simp only [auxCalc, one_ne_zero, if_false]
    rw [show (1 - 3 / 5 * (3 / 5) : ℝ) = 16 / 25 by norm_num, hs]
    norm_num
  have hc : Real.cos (Real.arctan (4 / 3)) = 3 / 5 := by
    rw [Real.cos_arctan, show (1 + (4 / 3) ^ 2 : ℝ) = (5 / 3) ^ 2 by norm_num,
      Real.sqrt_sq (by norm_num)]
    norm_num
  rw [t0, t1, hc] at hd
  simp only [Real.arctan_zero, Real.cos_zero, Real.sin_zero] at hd
  norm_num at hd

/-! ### The sea -/

/-- C46. The reflection of a facet is that of Fresnel for an index whose square is the
parameter. -/
theorem C46_facet (n c : ℝ) (hn : 1 ≤ n) (hc : 0 < c) (hc1 : c ≤ 1) :
    facet (n ^ 2) c = fresnel n c := by
  have hn0 : 0 < n := by linarith
  have hx : 0 ≤ 1 - (1 - c ^ 2) / n ^ 2 := by
    rw [sub_nonneg, div_le_one (by positivity)]
    nlinarith
  have hroot : Real.sqrt (n ^ 2 + (c * c - 1)) = n * Real.sqrt (1 - (1 - c ^ 2) / n ^ 2) := by
    rw [show n ^ 2 + (c * c - 1) = n ^ 2 * (1 - (1 - c ^ 2) / n ^ 2) by
      field_simp; ring, Real.sqrt_mul (by positivity), Real.sqrt_sq hn0.le]
  have ht : 0 ≤ Real.sqrt (1 - (1 - c ^ 2) / n ^ 2) := Real.sqrt_nonneg _
  simp only [facet, fresnel, hroot]
  generalize Real.sqrt (1 - (1 - c ^ 2) / n ^ 2) = t at ht
  have e : (n ^ 2 * c - n * t) / (n ^ 2 * c + n * t) = (n * c - t) / (n * c + t) := by
    have h1 : n * c + t ≠ 0 := by positivity
    have h2 : n ^ 2 * c + n * t ≠ 0 := by positivity
    rw [div_eq_div_iff h2 h1]; ring
  rw [e]; ring

/-- C46 is violated for the sea: the comment at `src/xrtm_brdf.c:636-637` makes the second
parameter the index of refraction, but the kernel takes it for its square. Already at normal
incidence every index above one reflects too little. -/
theorem C46_violated_index (n : ℝ) (hn : 1 < n) : facet n 1 < fresnel n 1 := by
  have hs1 : 1 < Real.sqrt n := by
    rw [show (1 : ℝ) = Real.sqrt 1 from Real.sqrt_one.symm]
    exact Real.sqrt_lt_sqrt (by norm_num) hn
  have hsq : Real.sqrt n ^ 2 = n := Real.sq_sqrt (by linarith)
  have h1 : facet n 1 = fresnel (Real.sqrt n) 1 := by
    rw [← C46_facet (Real.sqrt n) 1 hs1.le one_pos le_rfl, hsq]
  have hf : ∀ x : ℝ, 1 < x → fresnel x 1 = ((x - 1) / (x + 1)) ^ 2 := by
    intro x hx
    have hx0 : x ≠ 0 := by linarith
    simp only [fresnel]
    norm_num
    have : (1 - x) / (1 + x) = -((x - 1) / (x + 1)) := by
      rw [← neg_div, neg_sub, add_comm]
    rw [this]; ring
  rw [h1, hf _ hs1, hf n hn]
  have hlt : Real.sqrt n < n := by nlinarith
  have hmono : (Real.sqrt n - 1) / (Real.sqrt n + 1) < (n - 1) / (n + 1) := by
    rw [div_lt_div_iff₀ (by linarith) (by linarith)]
    nlinarith
  have hpos : 0 < (Real.sqrt n - 1) / (Real.sqrt n + 1) := div_pos (by linarith) (by linarith)
  exact pow_lt_pow_left₀ hmono hpos.le (by norm_num)

/-! ### What is wrong with the derivatives -/

/-- The kernels of the library that leave `f_l` alone. -/
def Silent (kern : Kernel) : Prop :=
  kern.needsFourier = true ∧ kern ≠ .userDefined

theorem silent_lin (U : UserFn) (g : Geom) (kern : Kernel) (h : Silent kern) (i j k : Nat)
    (phi : ℝ) (act : Nat → Bool) (p : Nat → ℝ) (pl : Nat → Nat → ℝ) (fl : Nat → ℝ) :
    kernelLin U g kern i j k phi act p pl fl = fl := by
  cases kern with
  | lambertian => exact absurd h.1 (by decide)
  | directAndDiffuse => exact absurd h.1 (by decide)
  | userDefined => exact absurd rfl h.2
  | _ => rfl

/-- What such a kernel adds: what the memory holds, times the amplitude. -/
theorem silent_cell (E : Env) (T : Term) (hT : Silent T.kern) (l : Nat) (hl : E.act l = true)
    (i j : Nat) (c : Col) :
    (cell E T i j c).scratch = c.scratch ∧
    ∀ k, k < E.nQ → (cell E T i j c).fl l (k + 1) = c.fl l (k + 1)
      + (c.scratch l * T.amp
        + kernelValue E.A T.U E.g T.kern i j k (E.qx k) T.p * T.ampL l) := by
  have hs : ∀ k ph slot (c : Col), (sample E T i j k ph slot c).scratch = c.scratch :=
    fun k ph slot c => silent_lin _ _ _ hT _ _ _ _ _ _ _ _
  have hkeep : ∀ m, (forN m (fun k c => sample E T i j k (-E.qx k) (E.nQ + k + 1)
      (sample E T i j k (E.qx k) (k + 1) c)) c).scratch = c.scratch := by
    intro m
    induction m with
    | zero => rfl
    | succ m ih => rw [forN_succ, hs, hs, ih]
  unfold cell
  rw [if_pos hT.1]
  refine ⟨hkeep _, ?_⟩
  intro k hk
  have hfl : ∀ k' ph slot (c' : Col) s, c'.scratch = c.scratch →
      (sample E T i j k' ph slot c').fl l s = c'.fl l s + if s = slot then
        c.scratch l * T.amp + kernelValue E.A T.U E.g T.kern i j k' ph T.p * T.ampL l else 0 := by
    intro k' ph slot c' s hc
    show (if E.act l then bump (c'.fl l) slot _ else c'.fl l) s = _
    rw [if_pos hl, bump_at, silent_lin _ _ _ hT, hc]
  have := forN_ind_lt E.nQ (fun m c' => c'.scratch = c.scratch ∧
      c'.fl l (k + 1) = c.fl l (k + 1) + if k < m then c.scratch l * T.amp
        + kernelValue E.A T.U E.g T.kern i j k (E.qx k) T.p * T.ampL l else 0)
    (fun k c => sample E T i j k (-E.qx k) (E.nQ + k + 1)
      (sample E T i j k (E.qx k) (k + 1) c)) c (by simp)
    (by
      intro m c' hm ih
      refine ⟨by rw [hs, hs, ih.1], ?_⟩
      rw [hfl _ _ _ _ _ (by rw [hs, ih.1]), hfl _ _ _ _ _ ih.1, ih.2,
        if_neg (show ¬ k + 1 = E.nQ + m + 1 by omega)]
      by_cases h1 : k = m
      · subst h1
        rw [if_pos rfl, if_neg (by omega), if_pos (by omega)]; ring
      · rw [if_neg (show ¬ k + 1 = m + 1 by omega)]
        by_cases h2 : k < m
        · rw [if_pos h2, if_pos (show k < m + 1 by omega)]; ring
        · rw [if_neg h2, if_neg (show ¬ k < m + 1 by omega)]; ring)
  rw [this.2, if_pos hk]

/-- C46, for each of the eight kernels used alone: the linearised value is what the scratch
memory happens to hold times the amplitude, plus the part that belongs to the amplitude. The
derivatives of the parameters are not used at all. -/
theorem C46_silent_alone (E : Env) (iOff jOff : Nat) (g₀ : Nat → ℝ) (T : Term)
    (hT : Silent T.kern) (l : Nat) (hl : E.act l = true) (k : Nat) (hk : k < E.nQ) :
    ((vecs E iOff 1 jOff g₀ [T]).1 0).fl l (k + 1) = g₀ l * T.amp
      + kernelValue E.A T.U E.g T.kern jOff iOff k (E.qx k) T.p * T.ampL l := by
  have := (silent_cell E T hT l hl jOff (iOff + 0)
    { f := fun _ => 0, fl := fun _ _ => 0, scratch := g₀ }).2 k hk
  simp only [zero_add, Nat.add_zero] at this
  rw [← this]
  rfl

/-- C46 is violated: the result depends on memory that nobody has written, for every one of
the eight kernels with an amplitude other than zero. -/
theorem C46_violated_scratch (E : Env) (iOff jOff : Nat) (T : Term) (hT : Silent T.kern)
    (ha : T.amp ≠ 0) (l : Nat) (hl : E.act l = true) (hq : 0 < E.nQ) :
    ∃ g₀ g₁ : Nat → ℝ, ((vecs E iOff 1 jOff g₀ [T]).1 0).fl l 1
      ≠ ((vecs E iOff 1 jOff g₁ [T]).1 0).fl l 1 := by
  refine ⟨fun _ => 0, fun _ => 1, ?_⟩
  have h0 := C46_silent_alone E iOff jOff (fun _ => 0) T hT l hl 0 hq
  have h1 := C46_silent_alone E iOff jOff (fun _ => 1) T hT l hl 0 hq
  rw [h0, h1]
  intro h
  apply ha
  linarith

/-- C46 is violated without any foreign memory: after a direct and diffuse kernel, a second
kernel takes over the derivative of its parameter. Here only that parameter varies, and the
kernel of Ross, which has none, is linearised as if it varied with it. -/
theorem C46_violated_stale :
    ∃ (E : Env) (Ts : List Dep) (t₀ : ℝ), (∀ T ∈ Ts, T.IsLin 0 t₀) ∧ E.act 0 = true ∧
      ∀ g₀, ¬ HasDerivAt (fun t => ((vecs E 0 1 1 g₀ (Ts.map fun T => T.at t)).1 0).f 1)
        (((vecs E 0 1 1 g₀ (Ts.map fun T => T.at t₀)).1 0).fl 0 1) t₀ := by
  let U : UserFn := ⟨fun _ _ _ _ _ _ => 0, fun _ _ _ _ _ _ _ _ s => s⟩
  let E : Env := { A := auxCalc (fun _ => 1) (fun _ => 0), g := .q0, nQ := 1
                   qx := fun _ => 0, qw := fun _ => 1, act := fun l => l == 0 }
  let d : Dep := { kern := .directAndDiffuse, amp := fun _ => 1 / 2, p := fun _ t => t
                   ampL := fun _ => 0, pL := fun _ _ => 1, U := U }
  let r : Dep := { kern := .rossThick, amp := fun _ => 1 / 2, p := fun _ _ => 0
                   ampL := fun _ => 0, pL := fun _ _ => 0, U := U }
  refine ⟨E, [d, r], 0, ?_, rfl, ?_⟩
  · intro T hT
    rcases List.mem_cons.1 hT with rfl | hT
    · exact ⟨hasDerivAt_const _ _, fun _ => hasDerivAt_id _⟩
    · rcases List.mem_singleton.1 hT with rfl
      exact ⟨hasDerivAt_const _ _, fun _ => hasDerivAt_const _ _⟩
  · intro g₀ hbad
    have hsil : Silent (r.at 0).kern := ⟨rfl, fun h => nomatch h⟩
    let c₁ : Col := cell E (d.at 0) 1 0 { f := fun _ => 0, fl := fun _ _ => 0, scratch := g₀ }
    have hc1 : c₁.scratch 0 = 1 := rfl
    have hc2 : c₁.fl 0 1 = 0 := by
      have e := cell_slot E (d.at 0) 1 0 { f := fun _ => 0, fl := fun _ _ => 0, scratch := g₀ }
        (fun c s => c.fl 0 s) (fun _ _ => 1 * (1 / 2) + 0 * 0) (fun k ph slot c s => by
          show bump (c.fl 0) slot (1 * (1 / 2) + 0 * 0) s = _
          exact bump_at _ _ _ _) 1
      exact e.trans (by simp [d, Dep.at, Kernel.needsFourier])
    have hv : ((vecs E 0 1 1 g₀ ([d, r].map fun T => T.at 0)).1 0).fl 0 1
        = (cell E (r.at 0) 1 0 c₁).fl 0 1 := rfl
    have h2 := (silent_cell E (r.at 0) hsil 0 rfl 1 0 c₁).2 0 (by decide)
    have hval : ((vecs E 0 1 1 g₀ ([d, r].map fun T => T.at 0)).1 0).fl 0 1 = 1 / 2 := by
      rw [hv]
      refine h2.trans ?_
      rw [hc1, show c₁.fl 0 (0 + 1) = 0 from hc2,
        show (r.at 0).ampL 0 = 0 from rfl, show (r.at 0).amp = 1 / 2 from rfl]
      ring
    have hf : (fun t => ((vecs E 0 1 1 g₀ ([d, r].map fun T => T.at t)).1 0).f 1)
        = fun _ => ((vecs E 0 1 1 g₀ ([d, r].map fun T => T.at 0)).1 0).f 1 := by
      funext t
      have h1 := vecs_additive E 0 1 1 g₀ _ _ _ (additive_f E 1) ([d, r].map fun T => T.at t)
        (fun _ _ => trivial) 0 (by decide)
      have h0 := vecs_additive E 0 1 1 g₀ _ _ _ (additive_f E 1) ([d, r].map fun T => T.at 0)
        (fun _ _ => trivial) 0 (by decide)
      rw [h1, h0]
      rfl
    rw [hval, hf] at hbad
    have := hbad.unique (hasDerivAt_const _ _)
    norm_num at this

/-! ### Examples -/

/-- Three azimuths with weights adding up to one, five directions, one derivative. -/
noncomputable def exEnv : Env :=
  { A := auxCalc (fun i => 1 / (i + 1)) (fun k => k + 1), g := .q0, nQ := 3
    qx := fun k => k + 1, qw := fun _ => 1 / 3, act := fun l => l == 0 }

def exUser : UserFn :=
  { value := fun _ i _ k phi p => p 0 * (phi + i + k)
    lin := fun _ i _ k phi _ _ pl _ l => pl l 0 * (phi + i + k) }

/-- A Lambertian part, a direct and diffuse part that varies, a user kernel that varies. -/
noncomputable def exDeps : List Dep :=
  [{ kern := .lambertian, amp := fun t => t, p := fun _ _ => 0, ampL := fun _ => 1
     pL := fun _ _ => 0, U := exUser },
   { kern := .directAndDiffuse, amp := fun _ => 1 / 2, p := fun _ t => t, ampL := fun _ => 0
     pL := fun _ _ => 1, U := exUser },
   { kern := .userDefined, amp := fun t => t, p := fun _ t => t, ampL := fun _ => 1
     pL := fun _ _ => 1, U := exUser }]

example (t₀ : ℝ) : (∀ T ∈ exDeps, Careful exEnv 0 t₀ T) ∧ (∀ T ∈ exDeps, T.IsLin 0 t₀) ∧
    exEnv.act 0 = true ∧ needsFourier (exDeps.map fun T => T.at t₀) = true := by
  refine ⟨?_, ?_, rfl, rfl⟩
  · intro T hT
    simp only [exDeps, List.mem_cons, List.not_mem_nil, or_false] at hT
    rcases hT with rfl | rfl | rfl
    · exact Or.inl rfl
    · exact Or.inr (Or.inl rfl)
    · refine Or.inr (Or.inr ⟨rfl, ?_⟩)
      intro i j k phi s _
      exact (hasDerivAt_id t₀).mul_const _
  · intro T hT
    simp only [exDeps, List.mem_cons, List.not_mem_nil, or_false] at hT
    rcases hT with rfl | rfl | rfl
    · exact ⟨hasDerivAt_id _, fun _ => hasDerivAt_const _ _⟩
    · exact ⟨hasDerivAt_const _ _, fun _ => hasDerivAt_id _⟩
    · exact ⟨hasDerivAt_id _, fun _ => hasDerivAt_id _⟩

noncomputable def exLambert : Term :=
  { kern := .lambertian, amp := 3 / 10, p := fun _ => 0, ampL := fun _ => 0
    pL := fun _ _ => 0, U := exUser }

/-- A Lambertian surface of albedo 3/10 reflects 3/10 of the beam in term 0. -/
example (g₀ : Nat → ℝ) :
    refVec exEnv false 0 ((vecs exEnv 0 2 4 g₀ [exLambert]).1 1).f
      = 3 / 10 := by
  have := C46_vec exEnv 0 2 4 g₀ [exLambert] 0 1 (by decide)
      (Or.inl rfl)
  rw [show needsFourier [exLambert] = false from rfl] at this
  rw [this]
  unfold term average
  rw [Finset.sum_eq_zero (fun k _ => by
    show _ * (((0 : ℝ) * _ + 0 * _) / 2) = 0
    ring)]
  simp [even, exLambert, Kernel.needsFourier, kernelValue]

example : Silent .roujean ∧ Silent .coxMunk ∧ Silent .liDense :=
  ⟨⟨rfl, fun h => nomatch h⟩, ⟨rfl, fun h => nomatch h⟩, ⟨rfl, fun h => nomatch h⟩⟩

end Xrtm.Brdf
