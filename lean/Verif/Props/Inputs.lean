import Verif.Proof.Session

/-!
# C04, C05: the input gate and rejected calls

`Session c kern quad h s` : an instance with configuration `c` was created, then saw the
calls `h` (newest first, with their return codes), and is now in state `s`.
-/

namespace Xrtm

open Spec

variable {F : Type} [Fp F] {c : Config} {kern : Int → Int} {quad : Int → F}
  {h : List (Op F × Code)} {s : State F}

/-! ## C04 -/

theorem taus_required (ht : optsOf c.options .outputAtTaus) : Required c kern .utaus := ht

/-- **C04.** Exactly when `xrtm_solution` succeeds, in a history where no call of one of the
five setters with partial effects (`Leaky`) failed: the solver and output arguments pass the
gate of C03, every input the configuration requires was provided by an accepted call, the
output optical depths are in order, the varied layers were declared if derivatives are
computed, and the computation itself succeeds.

Full statement: the same without `Quiet h`. It is false: `C04_violated`. -/
theorem C04_accepted_iff_partial (S : Session c kern quad h s) (hq : Quiet h)
    (solver sols : Word) (n : Int) (comp loc : Bool) :
    (∃ s', apply s (.solve solver sols n comp loc) = .ret .ok s') ↔
      solutionGate c.solvers solver sols n = 0 ∧
      (∀ l, Required c kern l → Provided c kern h l) ∧
      (optsOf c.options .outputAtTaus → TausOk c s.f) ∧
      (optsOf c.options .calcDerivs → (Op.updateVariedLayers, Code.ok) ∈ h) ∧
      comp = true := by
  have hi := S.inv
  have hreq : (s.inputsInit = true → ∀ l, Required c kern l → s.isSet l = true) ↔
      ∀ l, Required c kern l → Provided c kern h l := by
    constructor
    · intro H l hl
      have : s.isSet l = true := by
        by_cases hin : s.inputsInit = true
        · exact H hin l hl
        · exact hi.complete (by simpa using hin) l hl
      rcases reach_set S.wf S.calls this with h1 | ⟨o, ho, h1, h2⟩
      · exact h1
      · exact absurd h2 ((Leak_none (hq o ho h1)).2.2 l)
    · intro H hin l hl
      exact reach_provided S.wf S.calls hin (H l hl)
  have hv : (calcDerivs c = true ∧ s.variedDue = true) ↔
      ¬ (optsOf c.options .calcDerivs → (Op.updateVariedLayers, Code.ok) ∈ h) := by
    rw [← reach_varied S.calls]
    have : calcDerivs c = true ↔ optsOf c.options .calcDerivs := has_opt _ .calcDerivs
    simp [this]
  have hp : (s.inputsInit = true → ∀ l, Required c kern l → s.isSet l = true) →
      (postChecks s = true ↔ (optsOf c.options .outputAtTaus → TausOk c s.f)) := by
    intro H
    refine post_iff S.wf S.calls hq fun ht => ?_
    by_cases hin : s.inputsInit = true
    · exact H hin _ ht
    · exact hi.complete (by simpa using hin) _ ht
  rcases solve_eq s solver sols n comp loc with ⟨h1, h2⟩ | ⟨h1, h2, ⟨l, h3, h4⟩, h5⟩ |
      ⟨h1, h2, h3, h4⟩ | ⟨h1, h2, h3, h4, h5⟩ <;> simp only [hi.cfg, hi.kern] at *
  · rw [h2]
    simp [h1]
  · rw [h5]
    simp only [Out.ret.injEq, reduceCtorEq, false_and, exists_false, false_iff]
    rintro ⟨-, h6, -⟩
    rw [hreq.2 h6 h2 l h3] at h4
    cases h4
  · rw [h4]
    simp only [Out.ret.injEq, reduceCtorEq, false_and, exists_false, false_iff]
    rintro ⟨-, -, h6, h7, -⟩
    rw [← hp h2] at h6
    rcases h3 with h3 | h3
    · rw [h3] at h6; cases h6
    · exact (hv.1 h3) h7
  · rw [h5]
    rw [hv, not_not] at h4
    cases comp
    · simp
    · simp only [if_true, Out.ret.injEq, true_and, exists_eq', and_true, true_iff]
      exact ⟨h1, hreq.1 h2, (hp h2).1 h3, h4⟩

/-- **C04, any history.** Whatever calls failed before: an accepted solution had every
required input, other than the output angles and the expansion coefficients, provided by an
accepted call. -/
theorem C04_accepted_had_inputs_partial (S : Session c kern quad h s)
    (solver sols : Word) (n : Int) (comp loc : Bool) (s' : State F)
    (ha : apply s (.solve solver sols n comp loc) = .ret .ok s') (l : SLoc)
    (hl : Required c kern l) (h1 : l ≠ .umus) (h2 : ∀ i, l ≠ .coef i) : Provided c kern h l := by
  have hi := S.inv
  have key : s.isSet l = true := by
    by_cases hin : s.inputsInit = true
    · rcases solve_eq s solver sols n comp loc with ⟨-, g⟩ | ⟨-, -, -, g⟩ | ⟨-, -, -, g⟩ | ⟨-, g, -⟩
      · rw [ha] at g; cases g
      · rw [ha] at g; cases g
      · rw [ha] at g; cases g
      · exact g hin l (by rw [hi.cfg, hi.kern]; exact hl)
    · exact hi.complete (by simpa using hin) l hl
  rcases reach_set S.wf S.calls key with g | ⟨o, ho, -, g⟩
  · exact g
  · exfalso
    revert g
    cases l <;> cases o.1 <;> simp_all [LeakS]

theorem accepted_complete {sv so n cp lo} (hm : (Op.solve sv so n cp lo, Code.ok) ∈ h)
    (hr : Reach c kern quad h s) : s.inputsInit = false := by
  induction hr with
  | init => cases hm
  | @call h s op r s' hr hc ih =>
      rcases List.mem_cons.1 hm with g | g
      · injection g with g1 g2
        subst g1 g2
        rcases solve_eq s sv so n cp lo with ⟨-, g⟩ | ⟨-, -, -, g⟩ | ⟨-, -, -, g⟩ | ⟨-, -, -, -, g⟩ <;>
          rw [hc] at g <;> injection g with g1 g2
        · cases g1
        · cases g1
        · cases g1
        · rw [g2]
      · by_contra hx
        have := setS_init_mono hc (by simpa using hx)
        rw [ih g] at this
        cases this

/-- **C04, no second refusal.** After one accepted solution, no later solution is refused
for missing inputs: if its arguments pass, its output depths are in order and the varied
layers are declared, its result is that of the computation. Any history. -/
theorem C04_never_refused_again (S : Session c kern quad h s) {sv so n cp lo}
    (hm : (Op.solve sv so n cp lo, Code.ok) ∈ h)
    (solver sols : Word) (m : Int) (comp loc : Bool)
    (hg : solutionGate c.solvers solver sols m = 0)
    (ht : optsOf c.options .outputAtTaus → TausOk c s.f)
    (hv : optsOf c.options .calcDerivs → (Op.updateVariedLayers, Code.ok) ∈ h) :
    ∃ s', apply s (.solve solver sols m comp loc) = .ret (if comp then .ok else .intErr) s' := by
  have hi := S.inv
  have hin := accepted_complete hm S.calls
  have hp := post_of_ok S.wf hi (fun h => hi.complete hin _ h) ht
  have hd : ¬ (calcDerivs c = true ∧ s.variedDue = true) := by
    rintro ⟨h1, h2⟩
    rw [(reach_varied S.calls).2 (hv ((has_opt _ .calcDerivs).1 h1))] at h2
    cases h2
  rcases solve_eq s solver sols m comp loc with ⟨h1, -⟩ | ⟨-, h2, -⟩ | ⟨-, -, h3, -⟩ | ⟨-, -, -, -, g⟩
  · rw [hi.cfg] at h1; exact absurd hg h1
  · rw [hin] at h2; cases h2
  · rw [hi.cfg] at h3
    rcases h3 with h3 | h3
    · rw [hp] at h3; cases h3
    · exact absurd h3 hd
  · exact ⟨_, g⟩

/-- A complete session of the demo configuration. -/
theorem demo_full (hF : Sane F) (quad : Int → F) : ∃ s : State F, Session demoCfg (kernelAt []) quad
    (demoRest ++ [(.setCoefN none fun _ _ _ => Fp.one, .ok)]) s := by
  obtain ⟨_, S⟩ := (demo_session quad).accept (op := .setCoefN none fun _ _ _ => Fp.one) trivial (by
    intro s hc hk b r hb
    have e3 : demoCfg.nLayers = 2 := rfl
    have e4 : useCoef demoCfg = true := by decide
    simp [setCmds, coefCmds, hc, ckIdx, e3, e4, hF.norm] at hb
    grind)
  exact demo_rest hF S

example : ∃ (s : State ℝ) (h : List (Op ℝ × Code)), Session demoCfg (kernelAt []) (fun _ => 0.5) h s ∧
    Quiet h ∧ ∃ s', apply s (.solve SOLVER_EIG_BVP OUTPUT_FLUX 0 true true) = .ret .ok s' := by
  obtain ⟨s, S⟩ := demo_full sane_real (fun _ => 0.5)
  have hq : Quiet (demoRest ++ [((.setCoefN none fun _ _ _ => Fp.one : Op ℝ), .ok)]) := by
    intro o ho hr
    simp [demoRest] at ho
    exfalso
    rcases ho with rfl | rfl | rfl | rfl | rfl | rfl | rfl <;> exact hr rfl
  refine ⟨s, _, S, hq, (C04_accepted_iff_partial S hq _ _ _ _ _).2 ⟨by decide, ?_, ?_, ?_, rfl⟩⟩
  · intro l hl
    rcases demo_required (F := ℝ) hl with rfl | rfl | h
    · exact ⟨.setCoefN none fun _ _ _ => Fp.one, by simp, ⟨0, hl.1, rfl⟩⟩
    · exact ⟨.setCoefN none fun _ _ _ => Fp.one, by simp, ⟨1, hl.1, rfl⟩⟩
    · exact h _
  · intro h; exact absurd h (by simp only [optsOf]; decide)
  · intro h; exact absurd h (by simp only [optsOf]; decide)

/-- **C04 as stated is false.** `xrtm_set_coef_n` rejects the second layer (its first
coefficient is not 1) but keeps the first; after `xrtm_set_coef_1` for the second layer a
solution is accepted although no accepted call ever provided the coefficients of layer 0. -/
theorem C04_violated (hF : Sane F) (quad : Int → F) :
    ∃ (h : List (Op F × Code)) (s s' : State F), Session demoCfg (kernelAt []) quad h s ∧
      apply s (.solve SOLVER_EIG_BVP OUTPUT_FLUX 0 true true) = .ret .ok s' ∧
      Required demoCfg (kernelAt []) (.coef 0) ∧ ¬ Provided demoCfg (kernelAt []) h (.coef 0) := by
  have S0 := demo_session quad
  have e3 : demoCfg.nLayers = 2 := rfl
  have e4 : useCoef demoCfg = true := by decide
  have e5 : demoCfg.nCoef = 2 := rfl
  have e6 : demoCfg.nElem = 1 := rfl
  -- the rejected call
  obtain ⟨s1, hs1, hf1⟩ : ∃ s1, apply (initState demoCfg (kernelAt []) quad)
      (.setCoefN none fun i _ _ => if i = 0 then Fp.one else Fp.zero) = .ret .intErr s1 ∧
      s1.isSet (.coef 0) = true := by
    simp [apply, setCmds, coefCmds, initState, ckIdx, e3, e4, e5, e6, between, upto, exec, step1,
      hF.norm, hF.skew, Res.toOut, State.setI, State.setF, State.setS, ILoc.valid, FLoc.valid,
      SLoc.valid, inRange, List.range, List.range.loop]
  have S1 := S0.call hs1
  obtain ⟨s2, S2⟩ := S1.accept (op := .setCoef1 1 (-1) fun _ _ => Fp.one) trivial (by
    intro s hc hk b r hb
    simp [setCmds, coefCmds, hc, ckIdx, e3, e4, hF.norm] at hb
    grind)
  obtain ⟨s3, S3⟩ := demo_rest hF S2
  have hi := S3.inv
  have hcoef : s3.isSet (.coef 0) = true := by
    obtain ⟨r, hr⟩ : ∃ r, r = S3.calls := ⟨_, rfl⟩
    clear hr
    simp only [demoRest, List.cons_append, List.nil_append] at r
    have step : ∀ {h op s'}, Reach demoCfg (kernelAt []) quad ((op, Code.ok) :: h) s' →
        (∀ s, Reach demoCfg (kernelAt []) quad h s → s.isSet (.coef 0) = true) →
        s'.isSet (.coef 0) = true := by
      intro h op s' hr hs
      cases hr with
      | call h1 h2 => exact call_set_mono S0.wf (h1.inv S0.wf) h2 (hs _ h1)
    refine step r fun s r => step r fun s r => step r fun s r => step r fun s r => step r fun s r =>
      step r fun s r => step r fun s r => ?_
    cases r with
    | call h1 h2 =>
      cases h1
      rw [hs1] at h2
      cases h2
      exact hf1
  have hall : s3.inputsInit = true → ∀ l, Required demoCfg (kernelAt []) l → s3.isSet l = true := by
    intro hin l hl
    rcases demo_required (F := F) hl with rfl | rfl | h
    · exact hcoef
    · exact reach_provided S0.wf S3.calls hin
        ⟨.setCoef1 1 (-1) fun _ _ => Fp.one, by simp [demoRest], rfl⟩
    · exact reach_provided S0.wf S3.calls hin (h _)
  rcases solve_eq s3 SOLVER_EIG_BVP OUTPUT_FLUX 0 true true with ⟨h1, -⟩ | ⟨-, h2, ⟨l, h3, h4⟩, -⟩ |
      ⟨-, -, h3, -⟩ | ⟨-, -, -, -, g⟩
  · rw [hi.cfg] at h1
    exact absurd (by decide) h1
  · rw [hi.cfg, hi.kern] at h3
    rw [hall h2 l h3] at h4
    cases h4
  · exfalso
    rw [hi.cfg] at h3
    have : postChecks s3 = true := by
      rw [postChecks_eq, hi.cfg, show has demoCfg.options OPT_OUTPUT_AT_TAUS = false by decide]
      rfl
    rw [this] at h3
    revert h3
    simp
    intro h
    exact absurd h (by decide)
  · refine ⟨_, s3, _, S3, g, ⟨⟨by decide, by decide⟩, .eigBvp, by simp only [solversOf]; decide⟩, ?_⟩
    rintro ⟨op, hm, hp⟩
    simp [demoRest] at hm
    rcases hm with rfl | rfl | rfl | rfl | rfl | rfl | rfl
    all_goals simp [Provides] at hp

example : ∃ (h : List (Op ℝ × Code)) (s s' : State ℝ), Session demoCfg (kernelAt []) (fun _ => 0.5) h s ∧
      apply s (.solve SOLVER_EIG_BVP OUTPUT_FLUX 0 true true) = .ret .ok s' ∧
      Required demoCfg (kernelAt []) (.coef 0) ∧ ¬ Provided demoCfg (kernelAt []) h (.coef 0) :=
  C04_violated sane_real _

/-! ## C05 -/

/-- **C05.** A rejected call of any setter other than the five `Leaky` ones leaves the
whole instance as it was, so that every getter, every later call and every later result is
the same as without the call.

Full statement: the same for all setters. It is false for the five:
`C05_violated_out_taus`, `C05_violated_coef`, `C05_violated_theta_0`,
`C05_violated_out_thetas`. -/
theorem C05_rejected_no_effect_partial {op : Op F} {r : Code} {s' : State F}
    (hs : IsSet op) (hl : Leaky op = false) (ha : apply s op = .ret r s') (hr : r ≠ .ok) :
    s' = s ∧ (∀ g, get s' g = get s g) ∧ ∀ op', apply s' op' = apply s op' := by
  obtain rfl := stop_same hs hl ha hr
  exact ⟨rfl, fun _ => rfl, fun _ => rfl⟩

/-- **C05, all setters.** What a rejected call can change at all: only the cells listed for
the five setters in `LeakF`, `LeakI`, `LeakS`; and it announces nothing to the caches. -/
theorem C05_rejected_frame_partial (S : Session c kern quad h s) {op : Op F} {r : Code} {s' : State F}
    (ha : apply s op = .ret r s') (hr : r ≠ .ok) :
    (∀ l, ¬ LeakF c op l → s'.f l = s.f l) ∧ (∀ l, ¬ LeakI c op l → s'.i l = s.i l) ∧
    (∀ l, ¬ LeakS c op l → s'.isSet l = s.isSet l) ∧ s'.notices = s.notices := by
  have := call_frame S.wf S.inv ha hr
  exact ⟨this.f, this.i, this.isSet, this.notices⟩

/-- **C05, C40: a failed solution.** A solution or derivative update that fails, for whatever
reason, changes no input. -/
theorem C05_failed_solution {op : Op F} {r : Code} {s' : State F}
    (hs : ¬ IsSet op) (ha : apply s op = .ret r s') :
    s'.f = s.f ∧ s'.i = s.i ∧ s'.isSet = s.isSet ∧ s'.notices = s.notices := by
  obtain ⟨⟨h1, h2, h3, h4, h5, h6⟩, -⟩ := apply_other hs ha
  exact ⟨h3, h4, h5, h6⟩

theorem upto_succ_two {n : Int} (h : 2 ≤ n) : ∃ L, upto n = 0 :: 1 :: L := by
  obtain ⟨k, rfl⟩ : ∃ k : Nat, n = k + 2 := ⟨(n - 2).toNat, by omega⟩
  refine ⟨((List.range k).map (· + 2)).map Int.ofNat, ?_⟩
  have : ((k : Int) + 2).toNat = k + 2 := by omega
  simp [upto, this, List.range_succ_eq_map]
  intro a _; omega

/-- **C05 is false for `xrtm_set_out_taus`.** If the second depth is negative the call is
rejected, but the first depth has already replaced the stored one, and nothing is announced
to the output depth check. -/
theorem C05_violated_out_taus (S : Session c kern quad h s) (ho : optsOf c.options .outputAtTaus)
    (hn : 2 ≤ c.nOutLevels) (a b : F) (ha : Fp.lt a Fp.zero = false) (hb : Fp.lt b Fp.zero = true) :
    ∃ s', apply s (.setOutTaus fun i => if i = 0 then a else b) = .ret .intErr s' ∧
      s'.f (.utaus 0) = some a ∧ s'.depUtaus = s.depUtaus ∧ s'.notices = s.notices := by
  obtain ⟨L, hL⟩ := upto_succ_two hn
  have h1 : has c.options OPT_OUTPUT_AT_TAUS = true := (has_opt _ .outputAtTaus).2 ho
  have h2 : has c.options OPT_OUTPUT_AT_LEVELS = false := by
    have := (WF.facts S.wf).place
    rw [this, h1]; rfl
  simp [apply, setCmds, S.inv.cfg, h1, h2, hL, exec, step1, Res.toOut, ha, hb, FLoc.valid, inRange,
    State.setF, show 0 < c.nOutLevels by omega]

/-- **C05 is false for `xrtm_set_coef_1`.** Coefficients rejected for their norm still
change the number of coefficients in use in the layer. -/
theorem C05_violated_coef (S : Session c kern quad h s) (hv : ∃ v, solversOf c.solvers v)
    {i n : Int} (hi : IsLayer c i) (h1 : 2 ≤ n) (h2 : n ≤ c.nCoef) (v : Int → Int → F)
    (hb : Fp.lt Fp.dblEps (Fp.abs (Fp.sub Fp.one (v 0 0))) = true) :
    ∃ s', apply s (.setCoef1 i n v) = .ret .intErr s' ∧ s'.i (.nCoefLayer i) = some n := by
  have e := (useCoef_iff c).2 hv
  obtain ⟨h3, h4⟩ := hi
  simp [apply, setCmds, coefCmds, S.inv.cfg, e, between_one, exec, step1, Res.toOut, hb, ILoc.valid,
    inRange, State.setI, ckIdx, h3, h4, show ¬ n < 0 by omega, show ¬ i < 0 by omega,
    show ¬ c.nLayers ≤ i by omega, show ¬ c.nCoef < n by omega, show 1 < n by omega]

/-- Solar source, two output angles. -/
def solarCounts : Counts := { demoCounts with nOutThetas := 2 }
def solarCfg : Config :=
  configOf (implicitOptions (OPT_OUTPUT_AT_LEVELS ||| OPT_SOURCE_SOLAR) solarCounts) SOLVER_EIG_BVP
    solarCounts

theorem solar_session (quad : Int → F) :
    Session solarCfg (kernelAt []) quad [] (initState solarCfg (kernelAt []) quad) :=
  ⟨⟨OPT_OUTPUT_AT_LEVELS ||| OPT_SOURCE_SOLAR, SOLVER_EIG_BVP, solarCounts, [], rfl, by decide, rfl⟩,
    .init⟩

/-- Over the reals: the solar angle 0 would have to be moved away from each output angle 0. -/
theorem adjust_one : adjustAuto (1 : ℝ) 1 1e-5 = 1 - 1e-5 := by simp [adjustAuto]; norm_num
theorem abs_one_eps : |(1 : ℝ) - 1e-5| = 1 - 1e-5 := by rw [abs_of_nonneg]; norm_num
theorem one_eps_ne : ¬ ((1e-5 : ℝ) = 0) := by norm_num
theorem adjust_half : adjustAuto (1 : ℝ) (1 / 2) 1e-5 = 1 / 2 := by
  simp [adjustAuto]; norm_num
theorem cos_sixty : Real.cos (60 * (Real.pi / 180)) = 1 / 2 := by
  rw [← Real.cos_pi_div_three]; congr 1; ring

theorem solar_facts : solar solarCfg = true ∧ solarCfg.nQuad = 1 ∧ solarCfg.nOutThetas = 2 ∧
    solarCfg.nQuadD = 3 := ⟨by decide, rfl, rfl, rfl⟩

theorem theta0_rejected {s : State ℝ} (hc : s.cfg = solarCfg) (hu : s.isSet .umus = true)
    {q : ℝ} (h0 : s.f (.qx 0) = some q) (h1 : s.f (.qx 1) = some 1) (h2 : s.f (.qx 2) = some 1) :
    ∃ s', apply s (.setTheta0 0) = .ret .intErr s' ∧ s'.f .mu00 = some 1 ∧ s'.isSet = s.isSet := by
  obtain ⟨e1, e2, e3, e4⟩ := solar_facts
  by_cases hq : |adjustAuto q (1 : ℝ) 1e-5| = 1 <;>
  simp [apply, setCmds, hc, e1, e2, e3, e4, hu, upto, exec, step1, Res.toOut, FLoc.valid, ILoc.valid,
    inRange, h0, h1, h2, State.fv, State.setF, State.setI, adjustCmds, adjust_one, abs_one_eps,
    one_eps_ne, hq, List.range, List.range.loop, show ¬ (90 : ℝ) ≤ 0 by norm_num]

theorem thetas_rejected {s : State ℝ} (hc : s.cfg = solarCfg) (hm : s.isSet .mu0 = true)
    {q : ℝ} (h0 : s.f (.qx 0) = some q) (h1 : s.f .mu00 = some 1) :
    ∃ s', apply s (.setOutThetas fun _ => 0) = .ret .intErr s' ∧
      s'.f (.qx 1) = some 1 ∧ s'.f (.qx 2) = some 1 ∧ s'.isSet .umus = true := by
  obtain ⟨e1, e2, e3, e4⟩ := solar_facts
  by_cases hq : |adjustAuto q (1 : ℝ) 1e-5| = 1 <;>
  simp [apply, setCmds, hc, e2, e3, e4, hm, upto, exec, step1, Res.toOut, FLoc.valid, ILoc.valid,
    SLoc.valid, inRange, h0, h1, State.fv, State.setF, State.setI, State.setS, adjustCmds,
    adjust_one, abs_one_eps, one_eps_ne, hq, List.range, List.range.loop,
    show ¬ (90 : ℝ) ≤ 0 by norm_num]

/-- An angle in range is accepted as long as at most one direction is near it. -/
theorem theta0_accepted {s : State ℝ} (hc : s.cfg = solarCfg) (hu : s.isSet .umus = false)
    {q : ℝ} (h0 : s.f (.qx 0) = some q) {t : ℝ} (t0 : 0 ≤ t) (t1 : t < 90) :
    ∃ s', apply s (.setTheta0 t) = .ret .ok s' ∧ s'.f .mu00 = some (Real.cos (t * (Real.pi / 180))) ∧
      s'.isSet .mu0 = true ∧ s'.f (.qx 0) = some q ∧ s'.isSet .umus = false := by
  obtain ⟨e1, e2, e3, e4⟩ := solar_facts
  by_cases hq : |adjustAuto q (Real.cos (t * (Real.pi / 180))) 1e-5| = Real.cos (t * (Real.pi / 180)) <;>
  simp [apply, setCmds, hc, e1, e2, e3, e4, hu, upto, exec, step1, Res.toOut, FLoc.valid, ILoc.valid,
    SLoc.valid, inRange, h0, State.fv, State.setF, State.setI, State.setS, State.setDep, adjustCmds, hq,
    List.range, List.range.loop, show ¬ t < 0 by linarith, show ¬ 90 ≤ t by linarith]

theorem thetas_accepted {s : State ℝ} (hc : s.cfg = solarCfg) (hm : s.isSet .mu0 = true)
    {q m t : ℝ} (h0 : s.f (.qx 0) = some q) (h1 : s.f .mu00 = some m) (t0 : 0 ≤ t) (t1 : t < 90)
    (hadj : |adjustAuto (Real.cos (t * (Real.pi / 180))) m 1e-5| = m) :
    ∃ s', apply s (.setOutThetas fun _ => t) = .ret .ok s' ∧ s'.f .mu00 = some m ∧
      s'.isSet .mu0 = true ∧ s'.f (.qx 0) = some q ∧ s'.isSet .umus = true ∧
      s'.f (.qx 1) = some (Real.cos (t * (Real.pi / 180))) ∧
      s'.f (.qx 2) = some (Real.cos (t * (Real.pi / 180))) := by
  obtain ⟨e1, e2, e3, e4⟩ := solar_facts
  by_cases hq : |adjustAuto q m 1e-5| = m <;>
  simp [apply, setCmds, hc, e2, e3, e4, hm, upto, exec, step1, Res.toOut, FLoc.valid, ILoc.valid,
    SLoc.valid, inRange, h0, h1, State.fv, State.setF, State.setI, State.setS, State.setDep, adjustCmds, hq,
    hadj, List.range, List.range.loop, show ¬ t < 0 by linarith, show ¬ 90 ≤ t by linarith]

theorem adjust_far : |adjustAuto (1 / 2 : ℝ) 1 1e-5| = 1 := by
  have : adjustAuto (1 / 2 : ℝ) 1 1e-5 = 1 := by simp [adjustAuto]; norm_num
  rw [this, abs_one]

/-- **C05 is false for `xrtm_set_theta_0`.** With the accepted solar angle 60 and the
output angles 0, 0, the call with angle 0 is rejected; after it the instance reports 0 as
its solar angle. -/
theorem C05_violated_theta_0 (quad : Int → ℝ) :
    ∃ (s s' : State ℝ) (h : List (Op ℝ × Code)), Session solarCfg (kernelAt []) quad h s ∧
      apply s (.setTheta0 0) = .ret .intErr s' ∧
      get s .theta0 = .val [] [60] ∧ get s' .theta0 = .val [] [0] := by
  have S0 := solar_session quad
  obtain ⟨s1, a1, b1, b2, b3, b4⟩ := theta0_accepted (s := initState solarCfg (kernelAt []) quad) rfl rfl
    (q := quad 0) (by simp [initState, solar_facts.2.1]) (t := 60) (by norm_num) (by norm_num)
  have S1 := S0.call a1
  rw [cos_sixty] at b1
  obtain ⟨s2, a2, c1, c2, c3, c4, c5, c6⟩ := thetas_accepted S1.inv.cfg b2 b3 b1 (t := 0) (by norm_num)
    (by norm_num) (by simp only [zero_mul, Real.cos_zero]; rw [adjust_half, abs_of_nonneg (by norm_num)])
  have S2 := S1.call a2
  simp only [zero_mul, Real.cos_zero] at c5 c6
  obtain ⟨s3, a3, d1, d2⟩ := theta0_rejected S2.inv.cfg c4 c3 c5 c6
  have S3 := S2.call a3
  refine ⟨s2, s3, _, S2, a3, ?_, ?_⟩
  · have ha : Real.arccos 2⁻¹ * (180 / Real.pi) = 60 := by
      have : Real.arccos (1 / 2) = Real.pi / 3 := by
        rw [← Real.cos_pi_div_three, Real.arccos_cos] <;> linarith [Real.pi_pos]
      have hp := Real.pi_ne_zero
      rw [show (2⁻¹ : ℝ) = 1 / 2 by norm_num, this]
      field_simp; norm_num
    simp [get, getTrace, S2.inv.cfg, solar_facts.1, exec, step1, c2, c1, FLoc.valid, SLoc.valid,
      State.fv, ha]
  · simp [get, getTrace, S3.inv.cfg, solar_facts.1, exec, step1, d2, c2, d1, FLoc.valid, SLoc.valid,
      State.fv]

/-- **C05 is false for `xrtm_set_out_thetas`.** With the solar angle 0 and the accepted
output angles 60, 60, the call with angles 0, 0 is rejected; after it the instance reports
0, 0 as its output angles. -/
theorem C05_violated_out_thetas (quad : Int → ℝ) :
    ∃ (s s' : State ℝ) (h : List (Op ℝ × Code)), Session solarCfg (kernelAt []) quad h s ∧
      apply s (.setOutThetas fun _ => 0) = .ret .intErr s' ∧
      get s .outThetas = .val [] [60, 60] ∧ get s' .outThetas = .val [] [0, 0] := by
  have S0 := solar_session quad
  obtain ⟨s1, a1, b1, b2, b3, b4⟩ := theta0_accepted (s := initState solarCfg (kernelAt []) quad) rfl rfl
    (q := quad 0) (by simp [initState, solar_facts.2.1]) (t := 0) (by norm_num) (by norm_num)
  have S1 := S0.call a1
  simp only [zero_mul, Real.cos_zero] at b1
  obtain ⟨s2, a2, c1, c2, c3, c4, c5, c6⟩ := thetas_accepted S1.inv.cfg b2 b3 b1 (t := 60) (by norm_num)
    (by norm_num) (by rw [cos_sixty, adjust_far])
  have S2 := S1.call a2
  rw [cos_sixty] at c5 c6
  obtain ⟨s3, a3, d1, d2, d3⟩ := thetas_rejected S2.inv.cfg c2 c3 c1
  have S3 := S2.call a3
  obtain ⟨-, e2, e3, e4⟩ := solar_facts
  refine ⟨s2, s3, _, S2, a3, ?_, ?_⟩
  · have ha : Real.arccos 2⁻¹ * (180 / Real.pi) = 60 := by
      have : Real.arccos (1 / 2) = Real.pi / 3 := by
        rw [← Real.cos_pi_div_three, Real.arccos_cos] <;> linarith [Real.pi_pos]
      have hp := Real.pi_ne_zero
      rw [show (2⁻¹ : ℝ) = 1 / 2 by norm_num, this]
      field_simp; norm_num
    simp [get, getTrace, S2.inv.cfg, e2, e3, e4, upto, exec, step1, c4, c5, c6, FLoc.valid, SLoc.valid,
      State.fv, ha, inRange, List.range, List.range.loop]
  · simp [get, getTrace, S3.inv.cfg, e2, e3, e4, upto, exec, step1, d1, d2, d3, FLoc.valid, SLoc.valid,
      State.fv, inRange, List.range, List.range.loop]

/-- A rejected call in a reachable state. -/
example : ∃ (s : State ℝ) (h : List (Op ℝ × Code)), Session solarCfg (kernelAt []) (fun _ => 0.5) h s ∧
    apply s (.setF0 (-1)) = .ret .intErr s ∧ Leaky (.setF0 (-1) : Op ℝ) = false := by
  refine ⟨_, _, solar_session _, ?_, rfl⟩
  simp [apply, setCmds, scalarCmds, initState, solar_facts.1, exec, step1, Res.toOut]

end Xrtm
