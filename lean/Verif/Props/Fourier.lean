import Verif.Proof.Fourier
import Verif.Proof.FourierState
import Verif.Props.Access

/-!
# C24, C25, C45: the Fourier series, output levels, mean intensities and fluxes
-/

namespace Xrtm

open Fourier

namespace Fourier.Spec
variable {K : Type} [FNum K]

/-- `Z` is `I` with the outputs of the run set to zero. -/
structure Cleared (c : Cfg K) (I Z : Four K) : Prop where
  p : ∀ j k l s, (Cell c j k l s → Z.p j k l s = FNum.zero) ∧ (¬ Cell c j k l s → Z.p j k l s = I.p j k l s)
  m : ∀ j k l s, (Cell c j k l s → Z.m j k l s = FNum.zero) ∧ (¬ Cell c j k l s → Z.m j k l s = I.m j k l s)
  pl : ∀ j d k l s, (has c.options OPT_CALC_DERIVS = true ∧ d < c.nDerivs ∧ Cell c j k l s → Z.pl j d k l s = FNum.zero) ∧
    (¬ (has c.options OPT_CALC_DERIVS = true ∧ d < c.nDerivs ∧ Cell c j k l s) → Z.pl j d k l s = I.pl j d k l s)
  ml : ∀ j d k l s, (has c.options OPT_CALC_DERIVS = true ∧ d < c.nDerivs ∧ Cell c j k l s → Z.ml j d k l s = FNum.zero) ∧
    (¬ (has c.options OPT_CALC_DERIVS = true ∧ d < c.nDerivs ∧ Cell c j k l s) → Z.ml j d k l s = I.ml j d k l s)

/-- A run asking for radiances: `I0` is what the corrections make of zero, `raw` and `cor` are the
terms. -/
structure Setting (c : Cfg K) (env : Env K) (r0 : Rad K) (o : Out K) (I0 : Four K) (raw cor : Nat → Rad K) : Prop where
  asked : has c.solutions OUTPUT_RADIANCE = true
  start : ∃ Z, Cleared c o.rad Z ∧ env.corrRadiance Z = some I0
  terms : Terms env r0 c.nFour2 raw cor

end Fourier.Spec

namespace Fourier
variable {K : Type} [FNum K]

theorem cleared_eq {c : Cfg K} {I Z : Four K} (h : Spec.Cleared c I Z) : Z = zeroed c I := by
  obtain ⟨zp, zm, zpl, zml⟩ := Z
  obtain ⟨h1, h2, h3, h4⟩ := h
  simp only [zeroed, Four.mk.injEq]
  refine ⟨?_, ?_, ?_, ?_⟩
  · funext j k l s
    by_cases hc : Spec.Cell c j k l s
    · exact ((h1 j k l s).1 hc).trans (if_pos hc).symm
    · exact ((h1 j k l s).2 hc).trans (if_neg hc).symm
  · funext j k l s
    by_cases hc : Spec.Cell c j k l s
    · exact ((h2 j k l s).1 hc).trans (if_pos hc).symm
    · exact ((h2 j k l s).2 hc).trans (if_neg hc).symm
  · funext j d k l s
    by_cases hc : has c.options OPT_CALC_DERIVS = true ∧ d < c.nDerivs ∧ Spec.Cell c j k l s
    · obtain ⟨a, b, e, f, g, i⟩ := hc
      rw [if_pos ⟨a, e, b, f, g, i⟩]; exact (h3 j d k l s).1 ⟨a, b, e, f, g, i⟩
    · rw [if_neg (fun ⟨a, e, b, f, g, i⟩ => hc ⟨a, b, e, f, g, i⟩)]; exact (h3 j d k l s).2 hc
  · funext j d k l s
    by_cases hc : has c.options OPT_CALC_DERIVS = true ∧ d < c.nDerivs ∧ Spec.Cell c j k l s
    · obtain ⟨a, b, e, f, g, i⟩ := hc
      rw [if_pos ⟨a, e, b, f, g, i⟩]; exact (h4 j d k l s).1 ⟨a, b, e, f, g, i⟩
    · rw [if_neg (fun ⟨a, e, b, f, g, i⟩ => hc ⟨a, b, e, f, g, i⟩)]; exact (h4 j d k l s).2 hc

theorem setting_run {c : Cfg K} {env : Env K} {r0 o I0 raw cor} (h : Spec.Setting c env r0 o I0 raw cor) :
    ∃ n, n ≤ c.nFour2 ∧ (n = c.nFour2 ∨ ends c cor I0 n) ∧ (∀ m, m < n → ¬ ends c cor I0 m) ∧
      run c env false r0 o = .ok { outAt c raw cor I0 o n with count := some n } := by
  obtain ⟨Z, hZ, hI⟩ := h.start
  have hr : c.radiance = true := h.asked
  refine run_radiance hr ?_ h.terms
  rw [← hI, cleared_eq hZ]; simp [prepare, hr]

theorem outAt_rad {c : Cfg K} (hr : c.radiance = true) {raw cor I0 o n} :
    (outAt c raw cor I0 o n).rad = sumTo c cor I0 n := by simp [outAt, hr]
end Fourier

variable {K : Type} [FNum K]

/-- **C24**: whatever arithmetic is used, if each term can be computed then the run succeeds, and the
radiances and their derivatives are the corrections plus the first `n` terms in order, where `n` is the
number reported. All terms are there, or at least three. -/
theorem C24_sum {c : Cfg K} {env : Env K} {r0 : Rad K} {o : Fourier.Out K} {I0 : Four K} {raw cor : Nat → Rad K}
    (h : Fourier.Spec.Setting c env r0 o I0 raw cor) :
    ∃ n o', run c env false r0 o = .ok o' ∧ o'.count = some n ∧ n ≤ c.nFour2 ∧ (n = c.nFour2 ∨ 3 ≤ n) ∧
      Fourier.Spec.Summed c I0 cor n o'.rad := by
  obtain ⟨n, h1, h2, _, h4⟩ := setting_run h
  refine ⟨n, _, h4, rfl, h1, h2.imp id (fun h => h.1), ?_⟩
  have := sumTo_summed c cor I0 n
  rwa [← outAt_rad (c := c) h.asked (raw := raw) (o := o)] at this

/-- **C24**: without a tolerance, or with one that is not a number, no term is dropped, whatever the
arithmetic. -/
theorem C24_no_tolerance {c : Cfg K} {env : Env K} {r0 : Rad K} {o : Fourier.Out K} {I0 : Four K} {raw cor : Nat → Rad K}
    (h : Fourier.Spec.Setting c env r0 o I0 raw cor) (ht : FNum.lt FNum.zero c.tol = false) :
    ∃ o', run c env false r0 o = .ok o' ∧ o'.count = some c.nFour2 ∧
      Fourier.Spec.Summed c I0 cor c.nFour2 o'.rad := by
  obtain ⟨n, h1, h2, _, h4⟩ := setting_run h
  have hl : ∀ i, low c cor I0 i = false := by
    intro i; unfold low; rw [addAll_notol ht, ht, Bool.and_false]
  have : n = c.nFour2 := by
    rcases h2 with h2 | ⟨_, h2, _⟩
    · exact h2
    · rw [hl] at h2; cases h2
  subst this
  refine ⟨_, h4, rfl, ?_⟩
  have := sumTo_summed c cor I0 c.nFour2
  rwa [← outAt_rad (c := c) h.asked (raw := raw) (o := o)] at this

/-- **C24**: in exact arithmetic the number of terms is the first at which the last two, neither of them
the first of the series, are below the tolerance everywhere, or all of them. -/
theorem C24_enough {c : Cfg ℝ} {env : Env ℝ} {r0 : Rad ℝ} {o : Fourier.Out ℝ} {I0 : Four ℝ} {raw cor : Nat → Rad ℝ}
    (h : Fourier.Spec.Setting c env r0 o I0 raw cor) (hs : 0 < c.nStokes) :
    ∃ n o', run c env false r0 o = .ok o' ∧ o'.count = some n ∧ Fourier.Spec.Enough c I0 cor c.nFour2 n ∧
      Fourier.Spec.Summed c I0 cor n o'.rad := by
  obtain ⟨n, h1, h2, h3, h4⟩ := setting_run h
  refine ⟨n, _, h4, rfl, ⟨h1, h2.imp id (ends_iff hs cor I0 n).1,
    fun m hm hm' => h3 m hm ((ends_iff hs cor I0 m).2 hm')⟩, ?_⟩
  have := sumTo_summed c cor I0 n
  rwa [← outAt_rad (c := c) h.asked (raw := raw) (o := o)] at this

/-- **C24**: the specification leaves no choice of the number of terms. -/
theorem C24_enough_unique {c : Cfg ℝ} {I0 : Four ℝ} {cor : Nat → Rad ℝ} {avail n m : Nat}
    (hn : Fourier.Spec.Enough c I0 cor avail n) (hm : Fourier.Spec.Enough c I0 cor avail m) : n = m := by
  obtain ⟨a1, a2, a3⟩ := hn
  obtain ⟨b1, b2, b3⟩ := hm
  rcases Nat.lt_trichotomy n m with h | h | h
  · rcases a2 with a2 | a2
    · omega
    · exact absurd a2 (b3 n h)
  · exact h
  · rcases b2 with b2 | b2
    · omega
    · exact absurd b2 (a3 m h)

/-- **C24**: requests without radiances use one term, report one, and leave the radiances alone. -/
theorem C24_integrals_only {c : Cfg K} {env : Env K} {r0 r1 r2 : Rad K} {o : Fourier.Out K}
    (ha : has c.solutions OUTPUT_RADIANCE = false)
    (h1 : env.getFourier 0 r0 = some r1) (h2 : env.corrFourier 0 r1 = some r2) :
    ∃ o', run c env false r0 o = .ok o' ∧ o'.count = some 1 ∧ o'.rad = o.rad :=
  ⟨_, run_integrals ha h1 h2, rfl, sums_radE _ _ _⟩

/-- **C24**: two consecutive terms are asked for because one alone may vanish by the choice of the
azimuth: the factor of a term is zero there. The factors of two consecutive terms never both are. -/
theorem C24_consecutive (a : ℝ) (i : Nat) :
    ¬ (Real.cos (i * a) = 0 ∧ Real.cos ((i + 1 : Nat) * a) = 0) ∧
    ¬ (0 < i ∧ a ≠ 0 ∧ |a| < Real.pi ∧ Real.sin (i * a) = 0 ∧ Real.sin ((i + 1 : Nat) * a) = 0) := by
  have e : ((i + 1 : Nat) : ℝ) * a = i * a + a := by push_cast; ring
  rw [e]
  refine ⟨?_, ?_⟩
  · rintro ⟨h1, h2⟩
    rw [Real.cos_add, h1] at h2
    have h3 := Real.sin_sq_add_cos_sq (i * a)
    rw [h1] at h3
    have h4 : Real.sin (i * a) ≠ 0 := by intro h; rw [h] at h3; norm_num at h3
    have h5 : Real.sin a = 0 := by
      have : Real.sin (i * a) * Real.sin a = 0 := by linarith
      exact (mul_eq_zero.1 this).resolve_left h4
    obtain ⟨z, hz⟩ := Real.sin_eq_zero_iff.1 h5
    rw [← hz] at h4
    apply h4
    rw [show (i : ℝ) * (z * Real.pi) = ((i * z : ℤ) : ℝ) * Real.pi by push_cast; ring]
    exact Real.sin_int_mul_pi _
  · rintro ⟨_, h0, hlt, h1, h2⟩
    rw [Real.sin_add, h1] at h2
    have h3 := Real.sin_sq_add_cos_sq (i * a)
    rw [h1] at h3
    have h4 : Real.cos (i * a) ≠ 0 := by intro h; rw [h] at h3; norm_num at h3
    have h5 : Real.sin a = 0 := by
      have : Real.cos (i * a) * Real.sin a = 0 := by linarith
      exact (mul_eq_zero.1 this).resolve_left h4
    rw [abs_lt] at hlt
    exact h0 ((Real.sin_eq_zero_iff_of_lt_of_lt hlt.1 hlt.2).1 h5)

/-- **C24**: a run that fails leaves the number reported by the run before. -/
theorem C24_failure {c : Cfg K} {env : Env K} {r0 : Rad K} {o o' : Fourier.Out K} {single : Bool}
    (h : run c env single r0 o = .error o') : o'.count = o.count := by
  unfold run at h
  by_cases hs : single = true
  · rw [if_pos hs] at h; cases h
  · rw [if_neg hs] at h
    cases hp : prepare c env o.rad with
    | none => rw [hp] at h; cases h; rfl
    | some I =>
        rw [hp] at h; dsimp only at h
        have := loop_error _ _ _ _ _ _ h
        exact this

/-- **C24, violated**: the single scattering solver does not set the number of terms. It reports the
number of the run before, or nothing at all. It writes no mean intensity and no flux either, asked for or
not. -/
theorem C24_violated_single (c : Cfg K) (env : Env K) (r0 : Rad K) (o : Fourier.Out K) :
    ∃ o', run c env true r0 o = .ok o' ∧ o'.count = o.count ∧ o'.meanP = o.meanP ∧ o'.meanM = o.meanM ∧
      o'.fluxP = o.fluxP ∧ o'.fluxM = o.fluxM := ⟨_, rfl, rfl, rfl, rfl, rfl, rfl⟩

/-! ### Integrated outputs -/

namespace Fourier

/-- Everything but the radiances and the count. -/
def ints (o : Fourier.Out K) : Fourier.Out K := { o with rad := ⟨fun _ _ _ _ => FNum.zero, fun _ _ _ _ => FNum.zero,
  fun _ _ _ _ _ => FNum.zero, fun _ _ _ _ _ => FNum.zero⟩, count := none }

theorem ints_of {o o' : Fourier.Out K} {I : Four K} {n : Option Nat} (h : o' = { o with rad := I, count := n }) :
    ints o' = ints o := by rw [h]; rfl

theorem loop_ints {c : Cfg K} {env : Env K} : ∀ left i count r o o', 0 < i → loop c env left i count r o = .ok o' →
    ints o' = ints o := by
  intro left
  induction left with
  | zero => intro i count r o o' _ h; rw [loop] at h; cases h; rfl
  | succ left ih =>
      intro i count r o o' hi h
      rw [loop] at h
      cases h1 : env.getFourier i r with
      | none => rw [h1] at h; cases h
      | some r1 =>
          rw [h1] at h
          dsimp only at h
          rw [sums_pos hi] at h
          cases h2 : env.corrFourier i r1 with
          | none => rw [h2] at h; cases h
          | some r2 =>
              rw [h2] at h
              dsimp only at h
              by_cases hr : c.radiance = true
              · rw [if_pos hr] at h
                generalize (if (decide (0 < i) && FNum.lt (addAll c i r2 o.rad).2 c.tol) = true
                  then count + 1 else 0) = cn at h
                by_cases h3 : 2 ≤ cn
                · rw [if_pos h3] at h; cases h; rfl
                · rw [if_neg h3] at h
                  rw [ih _ _ _ _ _ (by omega) h]; rfl
              · rw [if_neg hr] at h
                exact ih _ _ _ _ _ (by omega) h

theorem sums_ints (c : Cfg K) (r : Rad K) (o : Fourier.Out K) (I : Four K) :
    ints (sums c 0 r { o with rad := I }) = ints (sums c 0 r o) := by rw [sums_rad]; rfl

/-- The integrated outputs come from the first term, before its corrections. -/
theorem run_ints {c : Cfg K} {env : Env K} {r0 : Rad K} {o o' : Fourier.Out K} (hn : 0 < c.nFour2)
    (h : run c env false r0 o = .ok o') : ∃ r1, env.getFourier 0 r0 = some r1 ∧ ints o' = ints (sums c 0 r1 o) := by
  rw [run, if_neg (by decide)] at h
  cases hp : prepare c env o.rad with
  | none => rw [hp] at h; cases h
  | some I =>
      rw [hp] at h
      dsimp only at h
      have hf : ∃ k, c.nFour = k + 1 := by
        refine ⟨c.nFour - 1, ?_⟩
        unfold Cfg.nFour; by_cases hr : c.radiance = true
        · rw [if_pos hr]; omega
        · rw [if_neg hr]
      obtain ⟨k, hk⟩ := hf
      rw [hk, loop] at h
      cases h1 : env.getFourier 0 r0 with
      | none => rw [h1] at h; cases h
      | some r1 =>
          refine ⟨r1, rfl, ?_⟩
          rw [h1] at h
          dsimp only at h
          cases h2 : env.corrFourier 0 r1 with
          | none => rw [h2] at h; cases h
          | some r2 =>
              rw [h2] at h
              dsimp only at h
              rw [← sums_ints c r1 o I]
              by_cases hr : c.radiance = true
              · rw [if_pos hr] at h
                generalize (if (decide (0 < 0) && FNum.lt (addAll c 0 r2 (sums c 0 r1 { o with rad := I }).rad).2 c.tol) = true
                  then 0 + 1 else 0) = cn at h
                by_cases h3 : 2 ≤ cn
                · rw [if_pos h3] at h; cases h; rfl
                · rw [if_neg h3] at h
                  exact (loop_ints _ _ _ _ _ _ (by decide) h).trans rfl
              · rw [if_neg hr] at h
                exact loop_ints _ _ _ _ _ _ (by decide) h

theorem ints_fields {o o' : Fourier.Out K} (h : ints o' = ints o) : o'.meanP = o.meanP ∧ o'.meanM = o.meanM ∧
    o'.fluxP = o.fluxP ∧ o'.fluxM = o.fluxM ∧ o'.meanPl = o.meanPl ∧ o'.meanMl = o.meanMl ∧ o'.fluxPl = o.fluxPl ∧
    o'.fluxMl = o.fluxMl ∧ o'.fluxDiv = o.fluxDiv ∧ o'.fluxDivL = o.fluxDivL := by
  simp only [ints, Out.mk.injEq] at h
  tauto

theorem sums_means {c : Cfg K} {r : Rad K} {o : Fourier.Out K} (h : has c.solutions OUTPUT_RADIANCE_MEAN = true) :
    (sums c 0 r o).meanP = (means c r o).meanP ∧ (sums c 0 r o).meanM = (means c r o).meanM := by
  simp only [sums, h, decide_true, Bool.and_self, if_true, fluxes]
  by_cases h2 : has c.solutions OUTPUT_FLUX = true
  · simp [h2]
  · simp [h2]

theorem sums_fluxes {c : Cfg K} {r : Rad K} {o : Fourier.Out K} (h : has c.solutions OUTPUT_FLUX = true) :
    (sums c 0 r o).fluxP = (fluxes c r o).fluxP ∧ (sums c 0 r o).fluxM = (fluxes c r o).fluxM := by
  simp only [sums, h, decide_true, Bool.and_true, if_true, means, fluxes]
  by_cases h2 : has c.solutions OUTPUT_RADIANCE_MEAN = true
  · simp [h2]
  · simp [h2]

/-- The components of each direction one after the other. -/
theorem sum_components (n ns : Nat) (f : Nat → ℝ) :
    ∑ i ∈ Finset.range (n * ns), f i = ∑ q ∈ Finset.range n, ∑ s ∈ Finset.range ns, f (q * ns + s) := by
  induction n with
  | zero => simp
  | succ n ih => rw [Nat.succ_mul, Finset.sum_range_add, ih, Finset.sum_range_succ]

end Fourier

/-- What a successful run that is asked for mean intensities and fluxes leaves: `x q` and `w q` are the
quadrature cosines and weights, repeated for each component in the arrays of the code. -/
theorem C45_written {c : Cfg ℝ} {env : Env ℝ} {r0 : Rad ℝ} {o o' : Fourier.Out ℝ} {x w : Nat → ℝ}
    (hn : 0 < c.nFour2) (hw : ∀ q s, q < c.nQuad → s < c.nStokes → c.qx (q * c.nStokes + s) = x q ∧
      c.qw (q * c.nStokes + s) = w q)
    (hu : has c.options OPT_UPWELLING_OUTPUT = true) (hd : has c.options OPT_DOWNWELLING_OUTPUT = true)
    (h : run c env false r0 o = .ok o') :
    ∃ r1, env.getFourier 0 r0 = some r1 ∧ ∀ j, j < c.nLevels →
      let all := fun (I : Nat → ℝ) q => ∑ s ∈ Finset.range c.nStokes, I (q * c.nStokes + s)
      let t := c.btran (if j = 0 then 0 else c.nLayers)
      (has c.solutions OUTPUT_RADIANCE_MEAN = true →
        o'.meanP j = Fourier.Spec.meanOf c.nQuad w (all (r1.p j)) ∧
        o'.meanM j = Fourier.Spec.meanDown c.nQuad w (all (r1.m j)) c.F0 t) ∧
      (has c.solutions OUTPUT_FLUX = true →
        o'.fluxP j = Fourier.Spec.fluxOf c.nQuad x w (all (r1.p j)) ∧
        o'.fluxM j = Fourier.Spec.fluxDown c.nQuad x w (all (r1.m j)) c.F0 c.mu0 t) := by
  obtain ⟨r1, h1, h2⟩ := run_ints hn h
  refine ⟨r1, h1, ?_⟩
  intro j hj all t
  obtain ⟨e1, e2, e3, e4, _⟩ := ints_fields h2
  have hm : ∀ I : Nat → ℝ, toMean c c.nQuadV I = Fourier.Spec.meanOf c.nQuad w (all I) := by
    intro I
    unfold toMean Fourier.Spec.meanOf Cfg.nQuadV
    rw [sumUp_eq, sum_components]
    have : ∀ q ∈ Finset.range c.nQuad, ∑ s ∈ Finset.range c.nStokes, FNum.mul (c.qw (q * c.nStokes + s)) (I (q * c.nStokes + s)) = w q * all I q := by
      intro q hq
      rw [Finset.mul_sum]
      refine Finset.sum_congr rfl (fun s hs => ?_)
      rw [(hw q s (Finset.mem_range.1 hq) (Finset.mem_range.1 hs)).2]; rfl
    rw [Finset.sum_congr rfl this]
    simp [FNum.div, FNum.nat]
  have hf : ∀ I : Nat → ℝ, toFlux c c.nQuadV I = Fourier.Spec.fluxOf c.nQuad x w (all I) := by
    intro I
    unfold toFlux Fourier.Spec.fluxOf Cfg.nQuadV
    rw [sumUp_eq, sum_components]
    have : ∀ q ∈ Finset.range c.nQuad, ∑ s ∈ Finset.range c.nStokes, FNum.mul (FNum.mul (c.qx (q * c.nStokes + s)) (c.qw (q * c.nStokes + s))) (I (q * c.nStokes + s)) = x q * w q * all I q := by
      intro q hq
      rw [Finset.mul_sum]
      refine Finset.sum_congr rfl (fun s hs => ?_)
      rw [(hw q s (Finset.mem_range.1 hq) (Finset.mem_range.1 hs)).1, (hw q s (Finset.mem_range.1 hq) (Finset.mem_range.1 hs)).2]; rfl
    rw [Finset.sum_congr rfl this]
    simp only [FNum.mul, FNum.nat, FNum.pi]
    push_cast; ring
  have hu' : c.up = true := hu
  have hd' : c.dn = true := hd
  refine ⟨fun ha => ?_, fun ha => ?_⟩
  · rw [e1, e2, (sums_means ha).1, (sums_means ha).2]
    simp only [means, hu', hd', if_true, fill, hj, hm]
    exact ⟨trivial, by simp [Fourier.Spec.meanDown, FNum.add, FNum.div, FNum.mul, FNum.nat, FNum.pi, Cfg.level, t]⟩
  · rw [e3, e4, (sums_fluxes ha).1, (sums_fluxes ha).2]
    simp only [fluxes, hu', hd', if_true, fill, hj, hf]
    refine ⟨trivial, ?_⟩
    simp only [Fourier.Spec.fluxDown, FNum.add, FNum.mul, Cfg.level, t]
    ring

/-- **C25, fluxes and mean intensities** when the outputs are at the top, or at the top and at the bottom,
for unpolarised light: each uses the transmittance of its own level `lv j`.

Full statement: for every choice of output levels. False: `C25_violated_bottom`, `C25_violated_inside`. -/
theorem C25_direct_partial {c : Cfg ℝ} {env : Env ℝ} {r0 : Rad ℝ} {o o' : Fourier.Out ℝ} {lv : Nat → Nat}
    (hn : 0 < c.nFour2) (hs : c.nStokes = 1)
    (hu : has c.options OPT_UPWELLING_OUTPUT = true) (hd : has c.options OPT_DOWNWELLING_OUTPUT = true)
    (hl : ∀ j, j < c.nLevels → lv j = if j = 0 then 0 else c.nLayers)
    (h : run c env false r0 o = .ok o') :
    ∃ r1, env.getFourier 0 r0 = some r1 ∧ ∀ j, j < c.nLevels →
      (has c.solutions OUTPUT_RADIANCE_MEAN = true →
        o'.meanP j = Fourier.Spec.meanOf c.nQuad c.qw (r1.p j) ∧
        o'.meanM j = Fourier.Spec.meanDown c.nQuad c.qw (r1.m j) c.F0 (c.btran (lv j))) ∧
      (has c.solutions OUTPUT_FLUX = true →
        o'.fluxP j = Fourier.Spec.fluxOf c.nQuad c.qx c.qw (r1.p j) ∧
        o'.fluxM j = Fourier.Spec.fluxDown c.nQuad c.qx c.qw (r1.m j) c.F0 c.mu0 (c.btran (lv j))) := by
  obtain ⟨r1, h1, h2⟩ := C45_written (x := c.qx) (w := c.qw) hn (by
    intro q s _ h; rw [hs] at h ⊢; have : s = 0 := by omega
    subst this; simp) hu hd h
  refine ⟨r1, h1, fun j hj => ?_⟩
  have := h2 j hj
  simp only [hs, Finset.sum_range_one, Nat.mul_one, Nat.add_zero] at this
  rw [hl j hj]
  exact this

/-- **C45, violated**: derivatives of mean intensities and fluxes, and flux divergences, are never
written, whatever is asked for. -/
theorem C45_violated_not_written {c : Cfg K} {env : Env K} {r0 : Rad K} {o o' : Fourier.Out K} (hn : 0 < c.nFour2)
    (h : run c env false r0 o = .ok o') :
    o'.meanPl = o.meanPl ∧ o'.meanMl = o.meanMl ∧ o'.fluxPl = o.fluxPl ∧ o'.fluxMl = o.fluxMl ∧
      o'.fluxDiv = o.fluxDiv ∧ o'.fluxDivL = o.fluxDivL := by
  obtain ⟨r1, _, h2⟩ := run_ints hn h
  obtain ⟨_, _, _, _, e5, e6, e7, e8, e9, e10⟩ := ints_fields h2
  rw [e5, e6, e7, e8, e9, e10]
  simp only [sums, means, fluxes]
  cases has c.solutions OUTPUT_RADIANCE_MEAN <;> cases has c.solutions OUTPUT_FLUX <;> simp

/-! ### Output levels and available terms, in a session -/

section
open Spec
variable {F : Type} [Fp F] {c : Config} {kern : Int → Int} {quad : Int → F} {h : List (Op F × Code)} {s : State F}

/-- **C24, available terms**: after any history without failed calls of the setters that leave traces, the
number of terms to sum follows from the options and the angles given. -/
theorem C24_available (S : Session c kern quad h s) (hq : Quiet h) :
    ∃ n, s.i .nFour2 = some n ∧
      fourTerms c (if s.isSet .mu0 then s.f .mu00 else none) (if s.isSet .umus then s.f (.qx c.nQuad) else none) n :=
  reach_four2 S.wf S.calls hq

/-- **C25**: after any history, output levels are accepted exactly if they are levels of the profile, in
increasing order, at the ends only for the solvers that only give the ends, and where the adding options
have their output. The solver need only be checked for the first two levels. -/
theorem C25_levels (S : Session c kern quad h s) (l : Int → Int) :
    (∃ s', apply s (.setOutLevels l) = .ret .ok s') ↔ LevelsOk c l := by
  have hi := S.inv
  have hw : WF s.cfg := by rw [hi.cfg]; exact S.wf
  rw [← hi.cfg, ← levels_passes (F := F) hw]
  constructor
  · rintro ⟨s', h⟩
    obtain ⟨_, he⟩ | ⟨h, _⟩ := apply_set_cases (op := .setOutLevels l) trivial h
    · exact exec_done_passes he
    · exact absurd rfl h
  · intro hp
    exact ⟨_, accept S.wf hi trivial hp⟩

/-- **C25**: what is accepted is what is stored. -/
theorem C25_stored (S : Session c kern quad h s) {l : Int → Int} {s' : State F}
    (ha : apply s (.setOutLevels l) = .ret .ok s') : ∀ j, 0 ≤ j → j < c.nOutLevels → s'.i (.ulevel j) = some (l j) := by
  intro j h0 h1
  rw [(call_ok S.inv ha).2.1 _ rfl]
  simp [assignI, given, h0, h1]

end

/-! ### Witnesses -/

namespace Fourier

/-- One angle, one azimuth, two layers. -/
noncomputable def exC (opts sols : Word) (nLevels nStokes nFour2 : Nat) (tol : ℝ) : Cfg ℝ where
  options := opts
  solutions := sols
  nQuad := 1
  nUmus := 0
  nStokes := nStokes
  nLevels := nLevels
  nPhis := 1
  nDerivs := 1
  nLayers := 2
  nFour2 := nFour2
  tol := tol
  phi0 := 0
  F0 := 1
  mu0 := 1 / 2
  phis := fun _ _ => 0
  qx := fun _ => 1 / 2
  qw := fun _ => 1
  btran := fun j => (1 / 2) ^ j

/-- Given terms, no corrections. -/
def exE (t : Nat → Rad ℝ) : Env ℝ := ⟨fun i _ => some (t i), fun _ r => some r, some, id⟩

def exI : Four ℝ := ⟨fun _ _ _ _ => 0, fun _ _ _ _ => 0, fun _ _ _ _ _ => 0, fun _ _ _ _ _ => 0⟩
def exO : Fourier.Out ℝ := ⟨exI, fun _ => 0, fun _ => 0, fun _ _ => 0, fun _ _ => 0, fun _ => 0, fun _ => 0,
  fun _ _ => 0, fun _ _ => 0, fun _ => 0, fun _ _ => 0, none⟩

/-- The intensity has the first term only, its derivative as much in every term. -/
def exT (i : Nat) : Rad ℝ := ⟨fun _ _ => if i = 0 then 1 else 0, fun _ _ => 0, fun _ _ _ => 1, fun _ _ _ => 0⟩

theorem ex_setting {opts sols : Word} {nl ns nf : Nat} {tol : ℝ} (t : Nat → Rad ℝ) (r0 : Rad ℝ)
    (h : has sols OUTPUT_RADIANCE = true) :
    Spec.Setting (exC opts sols nl ns nf tol) (exE t) r0 exO exI t t where
  asked := h
  start := ⟨exI, ⟨fun _ _ _ _ => ⟨fun _ => rfl, fun _ => rfl⟩, fun _ _ _ _ => ⟨fun _ => rfl, fun _ => rfl⟩,
    fun _ _ _ _ _ => ⟨fun _ => rfl, fun _ => rfl⟩, fun _ _ _ _ _ => ⟨fun _ => rfl, fun _ => rfl⟩⟩, rfl⟩
  terms := fun i _ => ⟨rfl, rfl⟩

theorem ex_az {opts sols : Word} {nl ns nf : Nat} {tol : ℝ} (i k l : Nat) (row : Nat → ℝ) :
    Spec.azTerm (exC opts sols nl ns nf tol) i k l 0 row = row (k * ns) := by
  simp [Spec.azTerm, exC, Spec.stream, FNum.mul, FNum.sub, FNum.cos, FNum.nat, FNum.d2r]

end Fourier

/-- Four terms are there to sum, without a tolerance all are. -/
example : ∃ o', run (exC OPT_UPWELLING_OUTPUT OUTPUT_RADIANCE 1 1 4 0) (exE exT) false (exT 0) exO = .ok o' ∧
    o'.count = some 4 ∧ Fourier.Spec.Summed (exC OPT_UPWELLING_OUTPUT OUTPUT_RADIANCE 1 1 4 0) exI exT 4 o'.rad :=
  C24_no_tolerance (ex_setting exT _ (by decide)) (by simp [FNum.lt, FNum.zero, exC])

/-- **C24, what the tolerance does not look at**: four terms are there, the intensity vanishes after the
first, so the sum ends with three. The derivative is as large in the fourth term as in the first, and a
quarter of it is lost. -/
theorem C24_derivatives_cut : ∃ (c : Cfg ℝ) (env : Env ℝ) (r0 : Rad ℝ) (o o' : Fourier.Out ℝ) (I0 : Four ℝ) (cor : Nat → Rad ℝ),
    Fourier.Spec.Setting c env r0 o I0 cor cor ∧ c.nFour2 = 4 ∧ run c env false r0 o = .ok o' ∧ o'.count = some 3 ∧
    o'.rad.pl 0 0 0 0 0 = 3 ∧
    Fourier.Spec.series (I0.pl 0 0 0 0 0) (fun i => Fourier.Spec.azTerm c i 0 0 0 ((cor i).pl 0 0)) 4 = 4 := by
  let c := exC (OPT_UPWELLING_OUTPUT ||| OPT_CALC_DERIVS) OUTPUT_RADIANCE 1 1 4 (1 / 10)
  have hS : Fourier.Spec.Setting c (exE exT) (exT 0) exO exI exT exT := ex_setting exT _ (by decide)
  obtain ⟨n, o', h1, h2, h3, h4⟩ := C24_enough hS (by decide)
  have hup : has c.options OPT_UPWELLING_OUTPUT = true := by decide
  have hB : ∀ i, 0 < i → Fourier.Spec.Below c exI exT i := by
    intro i hi j k l hj hk hl
    refine ⟨fun _ => ?_, fun hd => absurd hd (by decide)⟩
    have hk0 : k = 0 := by have : k < 1 := hk; omega
    subst hk0
    have hne : i ≠ 0 := by omega
    have e : ∀ i : Nat, Fourier.Spec.azTerm c i 0 l 0 ((exT i).p j) = if i = 0 then 1 else 0 := by
      intro i; rw [ex_az]; rfl
    intro t hs
    have : t i = 0 := by simp only [t]; rw [e, if_neg hne]
    rw [this, abs_zero]
    have : (0 : ℝ) < |Fourier.Spec.series (exI.p j 0 l 0) t (i + 1)| := abs_pos.2 hs
    have ht : c.tol = 1 / 10 := rfl
    rw [ht]; positivity
  have hE : Fourier.Spec.Enough c exI exT 4 3 := by
    refine ⟨by decide, Or.inr ⟨by decide, ?_, hB _ (by decide), hB _ (by decide)⟩, ?_⟩
    · have ht : c.tol = 1 / 10 := rfl
      rw [ht]; norm_num
    · rintro m hm ⟨h3, _⟩; omega
  have hn := C24_enough_unique (avail := 4) h3 hE
  subst hn
  have e : ∀ i : Nat, Fourier.Spec.azTerm c i 0 0 0 ((exT i).pl 0 0) = 1 := by
    intro i; rw [ex_az]; rfl
  refine ⟨c, exE exT, exT 0, exO, o', exI, exT, hS, rfl, h1, h2, ?_, ?_⟩
  · rw [h4.pl 0 0 0 0 0 ⟨by decide, by decide, by decide, by decide⟩ (by decide) (by decide) hup]
    simp only [e, Fourier.Spec.series, FNum.add, exI]; norm_num
  · simp only [e, Fourier.Spec.series, FNum.add, exI]; norm_num

/-- Both kinds of integrated output, up and down. -/
def Fourier.exOpts : Word := OPT_UPWELLING_OUTPUT ||| OPT_DOWNWELLING_OUTPUT

def Fourier.exSols : Word := OUTPUT_RADIANCE_MEAN ||| OUTPUT_FLUX

theorem Fourier.ex_run (nl ns : Nat) (t : Nat → Rad ℝ) :
    ∃ o', run (exC exOpts exSols nl ns 1 0) (exE t) false (t 0) exO = .ok o' :=
  ⟨_, run_integrals (c := exC exOpts exSols nl ns 1 0) (show has exSols OUTPUT_RADIANCE = false by decide) rfl rfl⟩

theorem Fourier.ex_written {nl ns : Nat} {t : Nat → Rad ℝ} {o' : Fourier.Out ℝ}
    (h : run (exC exOpts exSols nl ns 1 0) (exE t) false (t 0) exO = .ok o') {j : Nat} (hj : j < nl) :
    o'.fluxP j = Fourier.Spec.fluxOf 1 (fun _ => 1 / 2) (fun _ => 1) (fun q => ∑ s ∈ Finset.range ns, (t 0).p j (q * ns + s)) ∧
    o'.fluxM j = Fourier.Spec.fluxDown 1 (fun _ => 1 / 2) (fun _ => 1) (fun q => ∑ s ∈ Finset.range ns, (t 0).m j (q * ns + s))
      1 (1 / 2) ((1 / 2) ^ (if j = 0 then 0 else 2)) := by
  obtain ⟨r1, h1, h2⟩ := C45_written (x := fun _ => 1 / 2) (w := fun _ => 1) (by decide : 0 < 1)
    (fun _ _ _ _ => ⟨rfl, rfl⟩) (show has exOpts OPT_UPWELLING_OUTPUT = true by decide)
    (show has exOpts OPT_DOWNWELLING_OUTPUT = true by decide) h
  cases h1
  exact (h2 j hj).2 (show has exSols OUTPUT_FLUX = true by decide)

/-- Top and bottom of two layers meet the hypotheses of `C25_direct_partial`. -/
example : ∃ o' : Fourier.Out ℝ, run (exC exOpts exSols 2 1 1 0) (exE exT) false (exT 0) exO = .ok o' ∧
    o'.fluxM 1 = Fourier.Spec.fluxDown 1 (fun _ => 1 / 2) (fun _ => 1) ((exT 0).m 1) 1 (1 / 2) ((1 / 2) ^ 2) := by
  obtain ⟨o', h⟩ := ex_run 2 1 exT
  refine ⟨o', h, ?_⟩
  obtain ⟨r1, h1, h2⟩ := C25_direct_partial (lv := fun j => if j = 0 then 0 else 2) (by decide : 0 < 1) rfl
    (show has exOpts OPT_UPWELLING_OUTPUT = true by decide) (show has exOpts OPT_DOWNWELLING_OUTPUT = true by decide)
    (fun _ _ => rfl) h
  cases h1
  exact ((h2 1 (by decide)).2 (show has exSols OUTPUT_FLUX = true by decide)).2

/-- **C25, violated**: the bottom as the only output level is accepted, and the flux there uses the
transmittance of the top. -/
theorem C25_violated_bottom :
    (∀ c : Config, Xrtm.Spec.WF c → c.nOutLevels = 1 → optsOf c.options .outputAtLevels →
      ¬ optsOf c.options .bottomUpAdding → Xrtm.Spec.LevelsOk c (fun _ => c.nLayers)) ∧
    ∃ (c : Cfg ℝ) (env : Env ℝ) (r0 r1 : Rad ℝ) (o o' : Fourier.Out ℝ),
      c.nLevels = 1 ∧ c.nStokes = 1 ∧ has c.solutions OUTPUT_FLUX = true ∧ run c env false r0 o = .ok o' ∧
      env.getFourier 0 r0 = some r1 ∧
      o'.fluxM 0 = Fourier.Spec.fluxDown c.nQuad c.qx c.qw (r1.m 0) c.F0 c.mu0 (c.btran 0) ∧
      o'.fluxM 0 ≠ Fourier.Spec.fluxDown c.nQuad c.qx c.qw (r1.m 0) c.F0 c.mu0 (c.btran c.nLayers) := by
  refine ⟨?_, ?_⟩
  · intro c hw h1 h2 h3
    have := hw.layers
    exact ⟨h2, fun j _ _ => ⟨by omega, by omega⟩, fun j _ h => by omega, fun _ _ _ _ => Or.inr rfl, fun _ => rfl,
      fun h => absurd h h3⟩
  · obtain ⟨o', h⟩ := ex_run 1 1 exT
    refine ⟨exC exOpts exSols 1 1 1 0, exE exT, exT 0, exT 0, exO, o', rfl, rfl, by decide, h, rfl, ?_, ?_⟩
    · rw [(ex_written h (by decide)).2]
      simp [exC, Fourier.Spec.fluxDown, Fourier.Spec.fluxOf]
    · rw [(ex_written h (by decide)).2]
      simp [exC, Fourier.Spec.fluxDown, Fourier.Spec.fluxOf]
      norm_num

/-- **C25, violated**: a level inside the atmosphere, and the flux there uses the transmittance of the
bottom. -/
theorem C25_violated_inside : ∃ (c : Cfg ℝ) (env : Env ℝ) (r0 r1 : Rad ℝ) (o o' : Fourier.Out ℝ),
    c.nLevels = 2 ∧ c.nStokes = 1 ∧ has c.solutions OUTPUT_FLUX = true ∧ run c env false r0 o = .ok o' ∧
    env.getFourier 0 r0 = some r1 ∧
    o'.fluxM 1 = Fourier.Spec.fluxDown c.nQuad c.qx c.qw (r1.m 1) c.F0 c.mu0 (c.btran c.nLayers) ∧
    o'.fluxM 1 ≠ Fourier.Spec.fluxDown c.nQuad c.qx c.qw (r1.m 1) c.F0 c.mu0 (c.btran 1) := by
  obtain ⟨o', h⟩ := ex_run 2 1 exT
  refine ⟨exC exOpts exSols 2 1 1 0, exE exT, exT 0, exT 0, exO, o', rfl, rfl, by decide, h, rfl, ?_, ?_⟩
  · rw [(ex_written h (by decide)).2]
    simp [exC, Fourier.Spec.fluxDown, Fourier.Spec.fluxOf]
  · rw [(ex_written h (by decide)).2]
    simp [exC, Fourier.Spec.fluxDown, Fourier.Spec.fluxOf]
    norm_num

/-- **C45, violated**: with polarisation the flux is that of all components added, not of the intensity. -/
theorem C45_violated_stokes : ∃ (c : Cfg ℝ) (env : Env ℝ) (r0 r1 : Rad ℝ) (o o' : Fourier.Out ℝ),
    c.nStokes = 2 ∧ has c.solutions OUTPUT_FLUX = true ∧ run c env false r0 o = .ok o' ∧
    env.getFourier 0 r0 = some r1 ∧ r1.p 0 0 = 1 ∧ r1.p 0 1 = 1 / 2 ∧
    o'.fluxP 0 ≠ Fourier.Spec.fluxOf c.nQuad (fun q => c.qx (q * c.nStokes)) (fun q => c.qw (q * c.nStokes))
      (fun q => r1.p 0 (q * c.nStokes)) := by
  let t : Nat → Rad ℝ := fun _ => ⟨fun _ q => if q = 0 then 1 else 1 / 2, fun _ _ => 0, fun _ _ _ => 0, fun _ _ _ => 0⟩
  obtain ⟨o', h⟩ := ex_run 1 2 t
  refine ⟨exC exOpts exSols 1 2 1 0, exE t, t 0, t 0, exO, o', rfl, by decide, h, rfl, rfl, rfl, ?_⟩
  rw [(ex_written h (by decide)).1]
  simp [exC, Fourier.Spec.fluxOf, t, Finset.sum_range_succ, Real.pi_ne_zero]

/-- **C45** for unpolarised light and outputs at the top, or at the top and at the bottom: see
`C25_direct_partial`. For unpolarised light the upward integrals are right at every output.

Full statement: also with polarisation, and the derivatives and the divergence. False:
`C45_violated_stokes`, `C45_violated_not_written`. -/
theorem C45_up_partial {c : Cfg ℝ} {env : Env ℝ} {r0 : Rad ℝ} {o o' : Fourier.Out ℝ}
    (hn : 0 < c.nFour2) (hs : c.nStokes = 1)
    (hu : has c.options OPT_UPWELLING_OUTPUT = true) (hd : has c.options OPT_DOWNWELLING_OUTPUT = true)
    (h : run c env false r0 o = .ok o') :
    ∃ r1, env.getFourier 0 r0 = some r1 ∧ ∀ j, j < c.nLevels →
      (has c.solutions OUTPUT_RADIANCE_MEAN = true → o'.meanP j = Fourier.Spec.meanOf c.nQuad c.qw (r1.p j)) ∧
      (has c.solutions OUTPUT_FLUX = true → o'.fluxP j = Fourier.Spec.fluxOf c.nQuad c.qx c.qw (r1.p j)) := by
  obtain ⟨r1, h1, h2⟩ := C25_direct_partial (lv := fun j => if j = 0 then 0 else c.nLayers) hn hs hu hd
    (fun _ _ => rfl) h
  exact ⟨r1, h1, fun j hj => ⟨fun ha => ((h2 j hj).1 ha).1, fun ha => ((h2 j hj).2 ha).1⟩⟩

/-! ### Sessions -/

/-- A new instance of the demonstration configuration sums its two terms. -/
example [Fp F] (quad : Int → F) : (initState demoCfg (kernelAt []) quad).i .nFour2 = some 2 := by
  obtain ⟨n, h1, h2⟩ := C24_available (demo_session quad) (by intro o ho; cases ho)
  rw [h1]
  have : n = demoCfg.nFour := by
    refine h2.2 ?_
    have e1 : (initState demoCfg (kernelAt []) quad).isSet .mu0 = false := rfl
    have e2 : (initState demoCfg (kernelAt []) quad).isSet .umus = false := rfl
    rw [e1, e2]
    rintro (h | h | h)
    · exact absurd h (by unfold optsOf; decide)
    · exact absurd h.2 (by unfold optsOf; decide)
    · rcases h.2 with ⟨_, h, _⟩ | ⟨_, _, h, _⟩ <;> cases h
  rw [this]; rfl

/-- It takes the middle level as output, and refuses a level below the surface. -/
example [Fp F] (quad : Int → F) :
    (∃ s', apply (initState demoCfg (kernelAt []) quad) (.setOutLevels fun _ => 1) = .ret .ok s') ∧
    ¬ ∃ s', apply (initState demoCfg (kernelAt []) quad) (.setOutLevels fun _ => 3) = .ret .ok s' := by
  rw [C25_levels (demo_session quad), C25_levels (demo_session quad)]
  refine ⟨⟨(by unfold optsOf; decide), fun j _ _ => by decide, fun j h1 h2 => ?_, ?_, fun h => absurd h (by unfold optsOf; decide),
    fun h => absurd h (by unfold optsOf; decide)⟩, fun h => absurd (h.range 0 (by decide) (by decide)).2 (by decide)⟩
  · have : demoCfg.nOutLevels = 1 := rfl
    omega
  · rintro ⟨x, hx, h⟩
    simp [Xrtm.Spec.endsOnly] at hx
    rcases hx with rfl | rfl | rfl | rfl | rfl <;> exact absurd h (by unfold solversOf; decide)

end Xrtm
