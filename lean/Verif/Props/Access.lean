import Verif.Props.Inputs

/-!
# C06, C07, C08: getters, index ranges, value ranges
-/

namespace Xrtm

open Spec

variable {F : Type} [Fp F] {c : Config} {kern : Int → Int} {quad : Int → F}
  {h : List (Op F × Code)} {s : State F}

/-! ## C06 -/

/-- The inputs according to the abstract machine. -/
noncomputable def replayed (c : Config) (kern : Int → Int) (quad : Int → F) (h : List (Op F × Code)) :
    Inputs F :=
  replay c kern (startInputs c kern quad) h

theorem reportsF_ne {g : Get} {l : FLoc} (hl : l ∈ reportsF c g) : l ≠ .mu0 := by
  rintro rfl
  cases g <;> simp [reportsF] at hl

theorem reportsI_nd {g : Get} {l : ILoc} (hl : l ∈ reportsI c g) : l.derived = false := by
  cases g <;> simp [reportsI] at hl <;>
    first
      | (rcases hl with rfl | rfl <;> rfl)
      | (obtain ⟨i, -, rfl⟩ := hl; rfl)
      | (subst hl; rfl)

/-- **C06.** What a getter returns, when it returns a value, are the values the abstract
machine holds: those of the last accepted calls for the cells concerned (and the defaults of
creation where there was none), in a history without failed `Leaky` calls.

Full statement: the same for all histories; false by the `C05_violated_*` theorems. -/
theorem C06_get_value_partial (S : Session c kern quad h s) (hq : Quiet h) {g : Get} {is fs}
    (hg : get s g = .val is fs) :
    is.map some = (reportsI c g).map (replayed c kern quad h).i ∧
    fs.map some = (reportsF c g).map (fun l => ((replayed c kern quad h).f l).map (shown g)) := by
  obtain ⟨h1, h2⟩ := reach_replay S.wf S.calls hq
  obtain ⟨g1, g2⟩ := get_val hg
  rw [S.inv.cfg] at g1 g2
  rw [g1, g2]
  constructor
  · exact List.map_congr_left fun l hl => h2 l (reportsI_nd hl)
  · exact List.map_congr_left fun l hl => by rw [h1 l (reportsF_ne hl)]; rfl

/-- **C06, last accepted call, any history.** A cell keeps the value the last accepted call
gave it: later accepted calls that do not concern the cell, and later failed calls that do
not touch it, change nothing. `cnt` only matters for linearised coefficients. -/
theorem C06_last_accepted {op : Op F} {x : F} {l : FLoc} (hl : l ≠ .mu0) {h0 : List (Op F × Code)} :
    ∀ (h1 : List (Op F × Code)) (s : State F), Session c kern quad (h1 ++ (op, .ok) :: h0) s →
    (∀ cnt, assignF c kern cnt op l = some x) →
    (∀ o ∈ h1, (o.2 = .ok → ∀ cnt, assignF c kern cnt o.1 l = none) ∧ (o.2 ≠ .ok → ¬ LeakF c o.1 l)) →
    s.f l = some x := by
  intro h1
  induction h1 with
  | nil =>
      rintro s S hx -
      cases S.calls with
      | call hr hc => rw [(call_ok (hr.inv S.wf) hc).1 l hl, hx]; rfl
  | cons o h1 ih =>
      rintro s ⟨ha, hs⟩ hx hno
      cases hs with
      | @call _ s0 op' r _ hr hc =>
        have S0 : Session c kern quad (h1 ++ (op, .ok) :: h0) s0 := ⟨ha, hr⟩
        have := ih s0 S0 hx fun o ho => hno o (List.mem_cons_of_mem _ ho)
        by_cases hok : r = .ok
        · subst hok
          rw [(call_ok S0.inv hc).1 l hl, (hno _ List.mem_cons_self).1 rfl]
          exact this
        · rw [(call_frame S0.wf S0.inv hc hok).f l ((hno _ List.mem_cons_self).2 hok)]
          exact this

theorem provided_isSet (S : Session c kern quad h s) {l : SLoc} (hp : Provided c kern h l)
    (hl : Required c kern l ∨ l = .lambda) : s.isSet l = true := by
  by_cases hin : s.inputsInit = true
  · exact reach_provided S.wf S.calls hin hp
  · rcases hl with hl | rfl
    · exact S.inv.complete (by simpa using hin) l hl
    · exact reach_lambda S.wf S.calls hp

set_option maxHeartbeats 1000000 in
/-- **C06, availability.** A getter that makes sense for the configuration, with indices in
range, returns a value once its input was provided (derivative inputs always: they start
at zero). -/
theorem C06_get_answers_partial (S : Session c kern quad h s) (hq : Quiet h) {g : Get}
    (ha : Applicable c kern (fun i => (replayed c kern quad h).i (.nCoefLayer i)) g)
    (hp : ∀ l, needs g = some l → Provided c kern h l) : ∃ is fs, get s g = .val is fs := by
  have hi := S.inv
  have hcnt : ∀ i, (replayed c kern quad h).i (.nCoefLayer i) = s.i (.nCoefLayer i) :=
    fun i => ((reach_replay S.wf S.calls hq).2 _ rfl).symm
  simp only [hcnt] at ha
  have hset : ∀ l, needs g = some l → l ≠ .phi0 → s.isSet l = true := by
    intro l hl hne
    refine provided_isSet S (hp l hl) ?_
    cases g <;> simp only [needs, Option.some.injEq, reduceCtorEq] at hl <;> subst hl <;>
      simp only [Applicable] at ha <;> simp only [Required, reduceCtorEq, or_false, or_true] <;>
      first | exact ha | exact absurd rfl hne | (constructor <;> tauto) | tauto
  obtain ⟨w1, w2⟩ := reach_written S.calls
  refine get_there (by rw [hi.cfg]; exact WF.facts S.wf) hi.ready (by rw [hi.cfg, hi.kern]; exact ha) ?_ ?_ ?_
  · intro l hl hin
    exact reach_provided S.wf S.calls hin (hp l hl)
  · intro l hl
    rw [hi.cfg] at hl
    cases g <;> simp only [reportsI, List.mem_cons, List.not_mem_nil, or_false, List.mem_map] at hl
    case padeParams =>
      exact hi.cellsI .padeParams l (hset _ rfl (by simp)) hl
    case sosParams => exact hi.cellsI .sosParams l (hset _ rfl (by simp)) hl
    case outLevels =>
      obtain ⟨i, h1, rfl⟩ := hl
      exact hi.cellsI .ulevels _ (hset _ rfl (by simp)) ⟨i, (mem_upto.1 h1).1, (mem_upto.1 h1).2, rfl⟩
    case nCoef i =>
      subst hl
      obtain ⟨n, h1, -⟩ := hi.cnt i ha.2.1 ha.2.2
      rw [h1]; rfl
  · intro l hl
    rw [hi.cfg] at hl
    have harr : ∀ {n : Int} {mk : Int → FLoc} {fl : SLoc}, l ∈ (indices n).map mk → s.isSet fl = true →
        (∀ i, 0 ≤ i → i < n → FlagCell c fl (mk i)) → (s.f l).isSome = true := by
      intro n mk fl hm hs hc
      obtain ⟨i, h1, rfl⟩ := List.mem_map.1 hm
      exact hi.cells fl _ hs (hc i (mem_upto.1 h1).1 (mem_upto.1 h1).2)
    cases g <;> simp only [reportsF, List.mem_singleton, List.not_mem_nil] at hl
    case sosParams =>
      simp only [List.mem_cons, List.not_mem_nil, or_false] at hl
      exact hi.cells .sosParams l (hset _ rfl (by simp)) hl
    case levelsZ => exact harr hl (hset _ rfl (by simp)) fun i h1 h2 => ⟨i, h1, h2, rfl⟩
    case outTaus => exact harr hl (hset _ rfl (by simp)) fun i h1 h2 => ⟨i, h1, h2, rfl⟩
    case outThetas =>
      exact harr hl (hset _ rfl (by simp)) fun i h1 h2 => ⟨c.nQuad + i, by omega, by omega, rfl⟩
    case levelsB => exact harr hl (hset _ rfl (by simp)) fun i h1 h2 => ⟨i, h1, h2, rfl⟩
    case levelsBL d =>
      obtain ⟨i, -, rfl⟩ := List.mem_map.1 hl
      exact w1 _ rfl
    case coef i e k =>
      subst hl
      obtain ⟨-, -, h1, h2, n, h3, h4, h5⟩ := ha
      exact reach_coef S.wf S.calls hq (hset _ rfl (by simp)) h3 ⟨h1, h2⟩ ⟨h4, h5⟩
    all_goals
      subst hl
      first
        | exact w1 _ rfl
        | exact hi.cells _ _ (hset _ rfl (by simp)) rfl

/-- **C06, never set.** A required input that no accepted call provided is reported as an
error by its getter, in every history without failed `Leaky` calls. -/
theorem C06_never_set_partial (S : Session c kern quad h s) (hq : Quiet h) {g : Get} {l : SLoc}
    (hn : needs g = some l) (hl : Required c kern l) (hx : IndicesOk c kern g)
    (hno : ¬ Provided c kern h l) : ∃ r, get s g = .err r := by
  have hi := S.inv
  have hs : s.isSet l = false := by
    rw [Bool.eq_false_iff]
    intro h1
    rcases reach_set S.wf S.calls h1 with g | ⟨o, ho, h2, h3⟩
    · exact hno g
    · exact (Leak_none (hq o ho h2)).2.2 l h3
  have hin : s.inputsInit = true := by
    by_contra hx
    rw [hi.complete (by simpa using hx) l hl] at hs
    cases hs
  exact get_unset (by rw [hi.cfg]; exact WF.facts S.wf) hn hin hs (by rw [hi.cfg, hi.kern]; exact hx)

theorem lambda_written (hw : WF c) (hr : Reach c kern quad h s) (hs : (s.f .lambda).isSome = true) :
    Provided c kern h .lambda := by
  induction hr with
  | init => simp [initState] at hs
  | @call h s op r s' hr hc ih =>
      have hi := hr.inv hw
      have up : Provided c kern h .lambda → Provided c kern ((op, r) :: h) .lambda :=
        fun ⟨o, h1, h2⟩ => ⟨o, List.mem_cons_of_mem _ h1, h2⟩
      by_cases hok : r = .ok
      · subst hok
        rw [(call_ok hi hc).1 _ (by simp)] at hs
        cases op
        case setLambda x => exact ⟨_, List.mem_cons_self, rfl⟩
        all_goals
          simp [assignF] at hs
          exact up (ih hs)
      · rw [(call_frame hw hi hc hok).f _ (by cases op <;> simp [LeakF])] at hs
        exact up (ih hs)

/-- **C06 is false for the wavelength.** It is not among the required inputs; once a solution
was computed without it, `xrtm_get_lambda` reads memory that was never written. -/
theorem C06_violated_lambda (S : Session c kern quad h s) (ht : optsOf c.options .sourceThermal)
    {sv so n cp lo} (hm : (Op.solve sv so n cp lo, Code.ok) ∈ h)
    (hno : ¬ Provided c kern h .lambda) : get s .lambda = .ub .uninit := by
  have h1 : thermal c = true := (has_opt _ .sourceThermal).2 ht
  have h2 : (s.f .lambda).isSome = false := by
    rw [Bool.eq_false_iff]; exact fun h => hno (lambda_written S.wf S.calls h)
  simp [get, getTrace, S.inv.cfg, h1, exec, step1, accepted_complete hm S.calls, FLoc.valid]
  simp at h2
  simp [h2]

/-- **C06 is false for the coefficients.** Over the reals: one coefficient is accepted for
layer 0, then a call with two is rejected; the getter of the second coefficient now passes
its checks and reads memory that was never written. -/
theorem C06_violated_coef (hF : Sane F) (quad : Int → F) :
    ∃ (h : List (Op F × Code)) (s : State F), Session demoCfg (kernelAt []) quad h s ∧
      get s (.coef 0 0 1) = .ub .uninit := by
  have S0 := demo_session quad
  have e3 : demoCfg.nLayers = 2 := rfl
  have e4 : useCoef demoCfg = true := by decide
  have e5 : demoCfg.nCoef = 2 := rfl
  have e6 : demoCfg.nElem = 1 := rfl
  obtain ⟨s1, S1⟩ := S0.accept (op := .setCoef1 0 1 fun _ _ => Fp.one) trivial (by
    intro s hc hk b r hb
    simp [setCmds, coefCmds, hc, ckIdx, e3, e4, e5] at hb
    grind)
  obtain ⟨s2, a2, b2⟩ := C05_violated_coef (i := 0) (n := 2) S1 ⟨.eigBvp, by simp only [solversOf]; decide⟩
    ⟨by decide, by decide⟩ (by decide) (by decide) (fun _ _ => Fp.zero) hF.skew
  have S2 := S1.call a2
  have hnone : s1.f (.coef 0 0 1) = none := by
    cases S1.calls with
    | call hr hc =>
      cases hr
      rw [(call_ok S0.inv hc).1 _ (by simp)]
      simp [assignF, given, initState]
  have hset : s1.inputsInit = true → s1.isSet (.coef 0) = true := fun hin =>
    reach_provided S1.wf S1.calls hin ⟨_, List.mem_cons_self, rfl⟩
  have hfr := call_frame S1.wf S1.inv a2 (by simp)
  have hin2 : s2.inputsInit = true → s1.inputsInit = true := setS_init_mono a2
  refine ⟨_, s2, S2, ?_⟩
  have h1 : s2.f (.coef 0 0 1) = none := by rw [hfr.f _ (by simp [LeakF]), hnone]
  by_cases hin : s2.inputsInit = true
  · have h2 := hfr.mono _ (hset (hin2 hin))
    simp [get, getTrace, S2.inv.cfg, e3, e4, e5, e6, exec, step1, hin, h2, h1, b2, State.iv, ckIdx, FLoc.valid,
      ILoc.valid, SLoc.valid, inRange]
  · simp [get, getTrace, S2.inv.cfg, e3, e4, e5, e6, exec, step1, hin, h1, b2, State.iv, ckIdx, FLoc.valid,
      ILoc.valid, SLoc.valid, inRange]

/-- A getter at work: over the reals, after the complete demo session. -/
example : ∃ (h : List (Op ℝ × Code)) (s : State ℝ), Session demoCfg (kernelAt []) (fun _ => 0.5) h s ∧
    get s (.ltau 1) = .val [] [1] := by
  obtain ⟨s, S⟩ := demo_full sane_real (fun _ => 0.5)
  have hq : Quiet (demoRest ++ [((.setCoefN none fun _ _ _ => Fp.one : Op ℝ), .ok)]) := by
    intro o ho hr
    simp [demoRest] at ho
    exfalso
    rcases ho with rfl | rfl | rfl | rfl | rfl | rfl | rfl <;> exact hr rfl
  obtain ⟨is, fs, hv⟩ := C06_get_answers_partial S hq (g := .ltau 1) ⟨by decide, by decide⟩
    (by rintro l hl
        obtain rfl := Option.some.inj hl
        exact ⟨.setLtauN fun _ => Fp.one, by simp [demoRest], ⟨1, ⟨by decide, by decide⟩, rfl⟩⟩)
  refine ⟨_, s, S, ?_⟩
  obtain ⟨h1, h2⟩ := C06_get_value_partial S hq hv
  have e3 : demoCfg.nLayers = 2 := rfl
  simp [reportsI, reportsF, replayed, demoRest, replay, assignF, given, IsLayer, e3, shown] at h1 h2
  rw [hv, h2, h1]

/-! ## C07 -/

/-- **C07, setters.** No call of a setter, of the varied layer update, or of the input gate of a
solution reads or writes outside the arrays of the instance or reads an unwritten cell: for
all index arguments, all values, all histories. -/
theorem C07_setters_in_bounds (S : Session c kern quad h s) (op : Op F) (k : UB) :
    apply s op ≠ .ub k := apply_not_ub S.wf S.inv op k

/-- **C07, getters.** No getter leaves the arrays once a solution was accepted, nor with
layer and kernel indices in range at any time.

Full statement: for all indices in all histories; false: `C07_violated_*`. -/
theorem C07_getters_in_bounds_partial (S : Session c kern quad h s) (g : Get)
    (hx : (∃ sv so n cp lo, (Op.solve sv so n cp lo, Code.ok) ∈ h) ∨ IndicesOk c kern g) :
    get s g ≠ .ub .oob := by
  refine get_not_oob (by rw [S.inv.cfg]; exact WF.facts S.wf) S.inv.ready g ?_
  rcases hx with ⟨_, _, _, _, _, hm⟩ | hx
  · exact .inl (accepted_complete hm S.calls)
  · right; rw [S.inv.cfg, S.inv.kern]; exact hx

/-- **C07 is false for the layer getters.** Before the inputs are complete, `xrtm_get_omega`
and `xrtm_get_ltau` with any layer number out of range read outside the array of flags. -/
theorem C07_violated_layers (S : Session c kern quad h s) (hin : s.inputsInit = true) (i : Int)
    (hx : ¬ IsLayer c i) : get s (.omega i) = .ub .oob ∧ get s (.ltau i) = .ub .oob := by
  have : inRange i c.nLayers = false := by
    rw [Bool.eq_false_iff, Ne, inRange_iff]; exact hx
  constructor <;> simp [get, getTrace, exec, step1, hin, SLoc.valid, S.inv.cfg, this]

example (quad : Int → F) : get (initState demoCfg (kernelAt []) quad) (.omega 2) = .ub .oob :=
  (C07_violated_layers (demo_session quad) rfl 2 (by simp [IsLayer]; decide)).1

/-- `xrtm_get_kernel` (`src/xrtm_interface.c:2788-2797`): the lower bound is not checked. -/
def getKernel (s : State F) (k : Int) : GetOut F :=
  if k > s.cfg.nKernels - 1 then .err .intErr
  else if k < 0 then .ub .oob
  else .val [s.kernels k] []

/-- **C07, kernel getter.** In range it returns the kernel given at creation, above the range
an error. -/
theorem C07_get_kernel_partial (S : Session c kern quad h s) (k : Int) (hk : 0 ≤ k) :
    getKernel s k = if k < c.nKernels then .val [kern k] [] else .err .intErr := by
  unfold getKernel
  rw [S.inv.cfg, S.inv.kern]
  split <;> split <;> first | rfl | omega | (split <;> first | rfl | omega)

/-- **C07 is false for `xrtm_get_kernel`**: every negative index of an instance is read
outside the array. -/
theorem C07_violated_kernel (S : Session c kern quad h s) (k : Int) (hk : k < 0) :
    getKernel s k = .ub .oob := by
  have := S.wf.kernels
  unfold getKernel
  rw [S.inv.cfg]
  split
  · omega
  · simp [hk]

/-! ## C08 -/

/-- **C08.** After any history, every stored input is in its documented range. The ranges are
the ones of `ValidF`, `ValidI`. -/
theorem C08_ranges (S : Session c kern quad h s) :
    (∀ l x, s.f l = some x → ValidF c l x) ∧ (∀ l n, s.i l = some n → ValidI c l n) :=
  ⟨fun _ _ h => reach_valid S.wf S.calls h, fun _ _ h => reach_validI S.wf S.calls h⟩

/-- **C08, orderings.** After any history, output levels are strictly increasing and level
altitudes never increase downwards. -/
theorem C08_orderings (S : Session c kern quad h s) :
    (∀ i a b, 0 ≤ i → i + 1 < c.nOutLevels → s.i (.ulevel i) = some a → s.i (.ulevel (i + 1)) = some b →
      a < b) ∧
    (∀ i a b, 0 ≤ i → i < c.nLayers → s.f (.levelsZ i) = some a → s.f (.levelsZ (i + 1)) = some b →
      Fp.lt a b = false) :=
  ⟨fun _ _ _ h0 h1 ha hb => reach_ulevels S.wf S.calls h0 h1 ha hb,
    fun _ _ _ h0 h1 ha hb => reach_levelsZ S.wf S.calls h0 h1 ha hb⟩

/-- **C08, norm of the phase function.** The first coefficient is 1 up to the tolerance, in
layers with at least two coefficients, in histories without failed `Leaky` calls.

Full statement: in all histories and layers; false: `C08_violated_norm` (a single coefficient
is not checked). -/
theorem C08_first_coef_partial (S : Session c kern quad h s) (hq : Quiet h) {i n : Int} {x : F}
    (hn : s.i (.nCoefLayer i) = some n) (h1 : 1 < n) (hx : s.f (.coef i 0 0) = some x) :
    Fp.lt Fp.dblEps (Fp.abs (Fp.sub Fp.one x)) = false :=
  reach_coef0 S.wf S.calls hq hn h1 hx

/-- **C08 is false for a single coefficient**: zero is accepted as the first coefficient. -/
theorem C08_violated_norm (quad : Int → F) :
    ∃ s : State F, Session demoCfg (kernelAt []) quad [(.setCoef1 0 1 fun _ _ => Fp.zero, .ok)] s ∧
      s.f (.coef 0 0 0) = some Fp.zero := by
  have e3 : demoCfg.nLayers = 2 := rfl
  have e4 : useCoef demoCfg = true := by decide
  have e5 : demoCfg.nCoef = 2 := rfl
  have e6 : demoCfg.nElem = 1 := rfl
  have S0 := demo_session quad
  obtain ⟨s1, S1⟩ := S0.accept (op := .setCoef1 0 1 fun _ _ => Fp.zero) trivial (by
    intro s hc hk b r hb
    simp [setCmds, coefCmds, hc, ckIdx, e3, e4, e5] at hb
    grind)
  refine ⟨s1, S1, ?_⟩
  refine C06_last_accepted (by simp) [] s1 S1 (fun cnt => ?_) (by simp)
  simp [assignF, given, e6]

/-- **C08 lets NaN in.** A value that is neither `<= 0` nor `> 0` is accepted and stored as a
layer thickness, in every session. -/
theorem C08_violated_nan (S : Session c kern quad h s) {i : Int} (hi : IsLayer c i) (x : F)
    (hx : Fp.le x Fp.zero = false) :
    ∃ s', apply s (.setLtau1 i x) = .ret .ok s' ∧ s'.f (.ltau i) = some x := by
  have hp : Passes (setCmds s (.setLtau1 i x)) := by
    intro b r hb
    simp [setCmds, ltauCmds, S.inv.cfg, ckIdx, layerCmds, between_one, hx] at hb
    obtain ⟨h1, h2⟩ := hi
    grind
  have ha := accept S.wf S.inv (op := .setLtau1 i x) trivial hp
  refine ⟨_, ha, ?_⟩
  exact C06_last_accepted (by simp) [] _ (S.call ha) (fun cnt => by simp [assignF, given]) (by simp)

/-- **C08 in real numbers.** The documented ranges, in exact arithmetic. -/
theorem C08_real {quad : Int → ℝ} {h : List (Op ℝ × Code)} {s : State ℝ} (S : Session c kern quad h s) :
    (∀ i x, s.f (.omega i) = some x → 0 ≤ x ∧ x ≤ 1 - 1e-5) ∧
    (∀ i x, s.f (.ltau i) = some x → 0 < x) ∧
    (∀ x, s.f .f0 = some x → 0 ≤ x) ∧
    (∀ x, s.f .fIsoTop = some x → 0 ≤ x) ∧ (∀ x, s.f .fIsoBot = some x → 0 ≤ x) ∧
    (∀ i x, s.f (.levelsB i) = some x → 0 ≤ x) ∧ (∀ x, s.f .surfaceB = some x → 0 ≤ x) ∧
    (∀ x, s.f .fourierTol = some x → 0 ≤ x) ∧
    (∀ x, s.f .mu00 = some x → 0 < x ∧ x ≤ 1) ∧
    (∀ i x, c.nQuad ≤ i → s.f (.qx i) = some x → 0 < x ∧ x ≤ 1) ∧
    (∀ k x, s.f (.ampfac k) = some x → 0 ≤ x ∧ x ≤ 1) ∧
    (∀ x, s.f .planetR = some x → 0 < x) ∧ (∀ x, s.f .lambda = some x → 0 < x) ∧
    (∀ i a b, 0 ≤ i → i < c.nLayers → s.f (.levelsZ i) = some a → s.f (.levelsZ (i + 1)) = some b →
      b ≤ a) := by
  obtain ⟨hF, -⟩ := C08_ranges S
  have angle : ∀ x : ℝ, Angle x → 0 < x ∧ x ≤ 1 := by
    rintro x ⟨t, h1, h2, rfl⟩
    simp at h1 h2
    have hp := Real.pi_pos
    refine ⟨Real.cos_pos_of_mem_Ioo ⟨?_, ?_⟩, Real.cos_le_one _⟩ <;> simp only [cosDeg, FpR.mul_eq, FpR.d2r_eq]
    · have : 0 ≤ t * (Real.pi / 180) := by positivity
      linarith
    · have : t * (Real.pi / 180) < 90 * (Real.pi / 180) := by
        apply mul_lt_mul_of_pos_right h2; positivity
      linarith
  refine ⟨?_, ?_, ?_, ?_, ?_, ?_, ?_, ?_, ?_, ?_, ?_, ?_, ?_, ?_⟩
  · intro i x hx
    obtain ⟨y, h1, h2, rfl⟩ := hF _ _ hx
    simp [adjustDown] at h1 h2 ⊢
    split <;> constructor <;> norm_num <;> linarith
  · intro i x hx; simpa [ValidF] using hF _ _ hx
  · intro x hx; simpa [ValidF] using hF _ _ hx
  · intro x hx; simpa [ValidF] using hF _ _ hx
  · intro x hx; simpa [ValidF] using hF _ _ hx
  · intro i x hx; simpa [ValidF] using hF _ _ hx
  · intro x hx; simpa [ValidF] using hF _ _ hx
  · intro x hx; simpa [ValidF] using hF _ _ hx
  · intro x hx; exact angle x (hF _ _ hx)
  · intro i x hi hx; exact angle x (hF _ _ hx hi)
  · intro k x hx; simpa [ValidF] using hF _ _ hx
  · intro x hx; simpa [ValidF] using hF _ _ hx
  · intro x hx; simpa [ValidF] using hF _ _ hx
  · intro i a b h0 h1 ha hb
    have := (C08_orderings S).2 i a b h0 h1 ha hb
    simpa using this

/-- **C06, angles in real numbers.** The angle shown for an accepted angle is that angle. -/
theorem C06_angle_round_trip (t : ℝ) (h0 : 0 ≤ t) (h1 : t < 90) :
    shown .theta0 (cosDeg t) = t ∧ shown .outThetas (cosDeg t) = t := by
  have hp := Real.pi_pos
  have ha : Real.arccos (Real.cos (t * (Real.pi / 180))) = t * (Real.pi / 180) := by
    apply Real.arccos_cos
    · positivity
    · have : t * (Real.pi / 180) ≤ 90 * (Real.pi / 180) := by
        apply mul_le_mul_of_nonneg_right h1.le; positivity
      linarith
  constructor <;> simp only [shown, cosDeg, FpR.acos_eq, FpR.cos_eq, FpR.mul_eq, FpR.d2r_eq, FpR.r2d_eq, ha] <;>
    field_simp

/-! ## C14, validation -/

/-- **C14, validation.** In a history without failed `Leaky` calls, an accepted solution at
optical depths has depths that increase strictly from 0 or more and do not exceed the total
optical thickness; over the reals. -/
theorem C14_accepted_depths_partial {quad : Int → ℝ} {h : List (Op ℝ × Code)} {s s' : State ℝ}
    (S : Session c kern quad h s) (hq : Quiet h) {solver sols n comp loc}
    (ha : apply s (.solve solver sols n comp loc) = .ret .ok s')
    (ho : optsOf c.options .outputAtTaus) {i : Int} {x : ℝ} (h0 : 0 ≤ i) (h1 : i < c.nOutLevels)
    (hx : s.f (.utaus i) = some x) :
    0 ≤ x ∧ x ≤ totalTau c s.f ∧ ∀ y, 0 < i → s.f (.utaus (i - 1)) = some y → y < x := by
  have h2 := ((C04_accepted_iff_partial S hq solver sols n comp loc).1 ⟨s', ha⟩).2.2.1 ho i x h0 h1 hx
  have h3 : 0 ≤ x := by simpa [ValidF] using (C08_ranges S).1 _ _ hx
  refine ⟨h3, by simpa using h2.1, fun y hy hy' => by simpa using h2.2.2 y hy hy'⟩

/-- **C14 is false after a rejected `xrtm_set_out_taus`.** Right after an accepted solution, a
rejected call replaces the first depth by one below the atmosphere, and the next solution
is accepted all the same. -/
theorem C14_violated_validation {solver sols : Word} {n : Int}
    (S : Session c kern quad ((.solve solver sols n true true, .ok) :: h) s)
    (ho : optsOf c.options .outputAtTaus)
    (hn : 2 ≤ c.nOutLevels) (a b : F) (ha : Fp.lt a Fp.zero = false) (hb : Fp.lt b Fp.zero = true)
    (hbig : Fp.lt (totalTau c s.f) a = true) :
    ∃ s1 s2, apply s (.setOutTaus fun i => if i = 0 then a else b) = .ret .intErr s1 ∧
      apply s1 (.solve solver sols n true true) = .ret .ok s2 ∧ ¬ TausOk c s1.f := by
  obtain ⟨s1, a1, b1, b2, b3⟩ := C05_violated_out_taus S ho hn a b ha hb
  have S1 := S.call a1
  have hfr := call_frame S.wf S.inv a1 (by simp)
  have hin := accepted_complete (h := (_ :: _)) (List.mem_cons_of_mem _ List.mem_cons_self) S1.calls
  have hbits : has s.depUtaus (DEP_UTAUS ||| DEP_LTAU) = false ∧
      solutionGate c.solvers solver sols n = 0 ∧ ¬ (calcDerivs c = true ∧ s.variedDue = true) := by
    cases hr : S.calls with
    | @call _ s0 _ _ _ h0 hc =>
      have i0 := h0.inv S.wf
      rcases solve_eq s0 solver sols n true true with ⟨-, g⟩ | ⟨-, -, -, g⟩ | ⟨-, -, -, g⟩ |
        ⟨g1, -, -, g2, g⟩ <;> rw [hc] at g
      · injection g with g1 g2; cases g1
      · injection g with g1 g2; cases g1
      · injection g with g1 g2; cases g1
      · injection g with _ g3
        rw [i0.cfg] at g1 g2
        rw [g3]
        refine ⟨?_, g1, g2⟩
        simp only [if_true]
        rw [Bool.eq_false_iff, Ne, has_iff]
        rintro ⟨k, hk, h1, h2⟩
        have hsub : ∀ k < 32, (DEP_UTAUS ||| DEP_LTAU).getLsbD k = true → utausDeps.getLsbD k = true := by
          decide
        have := hsub k hk h2
        rw [BitVec.getLsbD_and, BitVec.getLsbD_not, this] at h1
        simp at h1
  have hv : s1.variedDue = s.variedDue := by
    rcases apply_set_cases (op := .setOutTaus _) trivial a1 with ⟨h1, -⟩ | ⟨-, he⟩
    · cases h1
    · obtain ⟨p, -, -, -, -, -, rfl⟩ := exec_stop he
      simp
  refine ⟨s1, ?_⟩
  rcases solve_eq s1 solver sols n true true with ⟨h1, -⟩ | ⟨-, h2, -⟩ | ⟨-, -, h3, -⟩ | ⟨-, -, -, -, g⟩
  · rw [S1.inv.cfg] at h1; exact absurd hbits.2.1 h1
  · rw [hin] at h2; cases h2
  · rw [S1.inv.cfg, hv] at h3
    rcases h3 with h3 | h3
    · rw [postChecks_eq, b2, hbits.1] at h3
      simp at h3
    · exact absurd h3 hbits.2.2
  · refine ⟨_, a1, g, fun hT => ?_⟩
    have := (hT 0 a (by omega) (by omega) b1).1
    have he : totalTau c s1.f = totalTau c s.f := by
      simp only [totalTau]
      congr 1
      funext x i
      rw [hfr.f _ (by simp [LeakF])]
    rw [he, hbig] at this
    cases this

/-! ### An instance with thermal sources and output at optical depths -/

def thermalCounts : Counts := { demoCounts with nOutLevels := 2 }
def thermalCfg : Config :=
  configOf (implicitOptions (OPT_OUTPUT_AT_TAUS ||| OPT_SOURCE_THERMAL) thermalCounts) SOLVER_EIG_BVP
    thermalCounts

theorem thermal_session (quad : Int → F) :
    Session thermalCfg (kernelAt []) quad [] (initState thermalCfg (kernelAt []) quad) :=
  ⟨⟨OPT_OUTPUT_AT_TAUS ||| OPT_SOURCE_THERMAL, SOLVER_EIG_BVP, thermalCounts, [], rfl, by decide, rfl⟩,
    .init⟩

/-- All inputs of that instance; the wavelength is not among them. -/
noncomputable def thermalCalls : List (Op ℝ × Code) :=
  [(.setLtauN fun _ => 1, .ok), (.setOmegaN fun _ => 1, .ok), (.setCoefN none fun _ _ _ => 1, .ok),
    (.setSurfaceB 1, .ok), (.setLevelsB fun _ => 1, .ok),
    (.setFIsoBot 1, .ok), (.setFIsoTop 1, .ok), (.setOutTaus fun i => i, .ok),
    (.setFourierTol 1, .ok)]

theorem thermal_inputs (quad : Int → ℝ) :
    ∃ s, Session thermalCfg (kernelAt []) quad thermalCalls s := by
  have e3 : thermalCfg.nLayers = 2 := rfl
  have e4 : useCoef thermalCfg = true := by decide
  have e5 : thermalCfg.nOutLevels = 2 := rfl
  have e6 : thermal thermalCfg = true := by decide
  have e7 : has thermalCfg.options OPT_OUTPUT_AT_TAUS = true := by decide
  obtain ⟨_, S⟩ := (thermal_session quad).accept (op := .setFourierTol 1) trivial
    (by intro s hc hk b r hb; simp [setCmds] at hb; rw [hb.1]; norm_num)
  obtain ⟨_, S⟩ := S.accept (op := .setOutTaus fun i => i) trivial (by
    intro s hc hk b r hb
    simp [setCmds, hc, e5, e7, upto, List.range, List.range.loop] at hb
    exact hb.1)
  obtain ⟨_, S⟩ := S.accept (op := .setFIsoTop 1) trivial
    (by intro s hc hk b r hb; simp [setCmds, scalarCmds] at hb; rw [hb.1]; norm_num)
  obtain ⟨_, S⟩ := S.accept (op := .setFIsoBot 1) trivial
    (by intro s hc hk b r hb; simp [setCmds, scalarCmds] at hb; rw [hb.1]; norm_num)
  obtain ⟨_, S⟩ := S.accept (op := .setLevelsB fun _ => 1) trivial (by
    intro s hc hk b r hb
    simp [setCmds, hc, e6, e3] at hb
    grind)
  obtain ⟨_, S⟩ := S.accept (op := .setSurfaceB 1) trivial (by
    intro s hc hk b r hb
    simp [setCmds, hc, e6, scalarCmds] at hb
    grind)
  obtain ⟨_, S⟩ := S.accept (op := .setCoefN none fun _ _ _ => 1) trivial (by
    intro s hc hk b r hb
    simp [setCmds, coefCmds, hc, ckIdx, e3, e4] at hb
    grind)
  obtain ⟨_, S⟩ := S.accept (op := .setOmegaN fun _ => 1) trivial (by
    intro s hc hk b r hb
    simp [setCmds, omegaCmds, hc, layerCmds, ckIdx, e3] at hb
    grind)
  obtain ⟨_, S⟩ := S.accept (op := .setLtauN fun _ => 1) trivial (by
    intro s hc hk b r hb
    simp [setCmds, ltauCmds, hc, layerCmds, ckIdx, e3] at hb
    grind)
  exact ⟨_, S⟩

theorem thermal_quiet : Quiet thermalCalls := by
  intro o ho hr
  simp [thermalCalls] at ho
  exfalso
  rcases ho with rfl | rfl | rfl | rfl | rfl | rfl | rfl | rfl | rfl <;> exact hr rfl

theorem thermal_required {l : SLoc} (h : Required thermalCfg (kernelAt []) l) :
    Provided thermalCfg (kernelAt []) thermalCalls l := by
  cases l
  case coef i => exact ⟨.setCoefN none fun _ _ _ => 1, by simp [thermalCalls], ⟨i, h.1, rfl⟩⟩
  case omega i => exact ⟨.setOmegaN fun _ => 1, by simp [thermalCalls], ⟨i, h, rfl⟩⟩
  case ltau i => exact ⟨.setLtauN fun _ => 1, by simp [thermalCalls], ⟨i, h, rfl⟩⟩
  case fourierTol => exact ⟨.setFourierTol 1, by simp [thermalCalls], rfl⟩
  case fIsoTop => exact ⟨.setFIsoTop 1, by simp [thermalCalls], rfl⟩
  case fIsoBot => exact ⟨.setFIsoBot 1, by simp [thermalCalls], rfl⟩
  case utaus => exact ⟨.setOutTaus fun i => i, by simp [thermalCalls], rfl⟩
  case levelsB => exact ⟨.setLevelsB fun _ => 1, by simp [thermalCalls], rfl⟩
  case surfaceB => exact ⟨.setSurfaceB 1, by simp [thermalCalls], rfl⟩
  case ampfac k => exact absurd h.2 (by have : thermalCfg.nKernels = 0 := rfl; have := h.1; omega)
  case param k p => exact absurd h.1.2 (by have : thermalCfg.nKernels = 0 := rfl; have := h.1.1; omega)
  case func k => exact absurd h.1.2 (by have : thermalCfg.nKernels = 0 := rfl; have := h.1.1; omega)
  all_goals
    exfalso
    revert h
    simp only [Required, solversOf, optsOf]
    decide

theorem thermal_solved (quad : Int → ℝ) : ∃ s, Session thermalCfg (kernelAt []) quad
    ((.solve SOLVER_EIG_BVP OUTPUT_FLUX 0 true true, .ok) :: thermalCalls) s := by
  obtain ⟨s, S⟩ := thermal_inputs quad
  obtain ⟨h1, h2⟩ := reach_replay S.wf S.calls thermal_quiet
  have e3 : thermalCfg.nLayers = 2 := rfl
  have e5 : thermalCfg.nOutLevels = 2 := rfl
  have ht : totalTau thermalCfg s.f = 2 := by
    simp only [totalTau, e3]
    simp [List.range, List.range.loop, indices, h1, replay, thermalCalls, assignF, given, IsLayer, e3]
    norm_num
  have hu : ∀ i, 0 ≤ i → i < 2 → s.f (.utaus i) = some (i : ℝ) := by
    intro i h0 h1'
    rw [h1 _ (by simp)]
    simp [replay, thermalCalls, assignF, given, e5, h0, h1']
  suffices hs : _ from
    let ⟨s', hs'⟩ := (C04_accepted_iff_partial S thermal_quiet SOLVER_EIG_BVP OUTPUT_FLUX 0 true true).2 hs
    ⟨s', S.call hs'⟩
  refine ⟨by decide, fun l hl => thermal_required hl, ?_, ?_, rfl⟩
  · intro _ i x h0 hi hx
    rw [e5] at hi
    rw [hu i h0 hi] at hx
    cases hx
    rw [ht]
    have hr : (i : ℝ) < 2 := by exact_mod_cast hi
    refine ⟨by simp; linarith, ?_⟩
    have : i = 0 ∨ i = 1 := by omega
    rcases this with rfl | rfl
    · simp
    · simp [hu]
  · intro h; exact absurd h (by simp only [optsOf]; decide)

example (quad : Int → ℝ) : ∃ (h : List (Op ℝ × Code)) (s : State ℝ),
    Session thermalCfg (kernelAt []) quad h s ∧ get s .lambda = .ub .uninit := by
  obtain ⟨s, S⟩ := thermal_solved quad
  refine ⟨_, s, S, C06_violated_lambda S (by simp only [optsOf]; decide) List.mem_cons_self ?_⟩
  rintro ⟨o, ho, hp⟩
  simp [thermalCalls] at ho
  rcases ho with rfl | rfl | rfl | rfl | rfl | rfl | rfl | rfl | rfl | rfl <;> simp [Provides] at hp

example (quad : Int → ℝ) : ∃ (h : List (Op ℝ × Code)) (s s1 s2 : State ℝ),
    Session thermalCfg (kernelAt []) quad h s ∧
    apply s (.setOutTaus fun i => if i = 0 then totalTau thermalCfg s.f + |totalTau thermalCfg s.f| + 1 else -1) =
      .ret .intErr s1 ∧
    apply s1 (.solve SOLVER_EIG_BVP OUTPUT_FLUX 0 true true) = .ret .ok s2 ∧
    ¬ TausOk thermalCfg s1.f := by
  obtain ⟨s, S⟩ := thermal_solved quad
  have := abs_nonneg (totalTau thermalCfg s.f)
  have := neg_abs_le (totalTau thermalCfg s.f)
  obtain ⟨s1, s2, h1, h2, h3⟩ := C14_violated_validation S (by simp only [optsOf]; decide) (by decide)
    (totalTau thermalCfg s.f + |totalTau thermalCfg s.f| + 1) (-1) (by simp; linarith) (by simp) (by simp; linarith)
  exact ⟨_, s, s1, s2, S, h1, h2, h3⟩

end Xrtm
