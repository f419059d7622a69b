import Verif.Proof.CacheF

/-!
# C09, C11, C12, C13, C40: cached intermediate results

The physics is arbitrary (`Physics`): any computation that reads no more than the tables of
`Verif.Model.Cache` allow. `freshV`/`plainRun` is the same computation without caches.
-/

namespace Xrtm

open Spec

variable {F V R : Type} [Inhabited V] {c : Config} {P : Physics F V}

/-! ## C12 -/

/-- C12: after `xrtm_clear_saved`, whatever happened before (`s` is any state of the caches, not
only a reachable one), a solution is the one an instance gives that was created, given the same
inputs, and never used. This includes failures. -/
theorem C12_clear_saved [Fp F] (hb : Respects c P) {kern quad actOf act0} (s : CState F V) {t : CState F V}
    (ht : SetUp c kern quad actOf act0 t) (hf : t.st.f = s.st.f) (hi : t.st.i = s.st.i)
    (ha : t.act = s.act) {prog : Prog F V R} (hp : AsksValid c prog) :
    (solveWith c P prog (clearSaved s)).2 = (solveWith c P prog t).2 :=
  (solve_sim hb hp (sim_full (s := clearSaved s) (fun _ => rfl) ht.full hf hi ha depth)).symm

/-- C12: and it is right: when it succeeds it is what the present inputs give. -/
theorem C12_clear_saved_value (hb : Respects c P) (s : CState F V) {prog : Prog F V R}
    (hp : AsksValid c prog) (ho : (solveWith c P prog (clearSaved s)).2.isSome = true ∨ NoSave c) :
    (solveWith c P prog (clearSaved s)).2 = plainRun P prog s.st s.act := by
  have h := solve_value (K := fun _ _ => True) hb (closed_all c) (prog := prog)
    (RF := fun _ => True) (RI := fun _ => True) (RA := fun _ _ => True)
    (by unfold AsksValid at hp; unfold InK; simpa using hp) (good_clear s depth) ho
  rw [h]
  exact plainRun_congr (st := (clearSaved s).st) (st' := s.st) prog rfl rfl s.act

/-! ## C09 -/

/-- C09, for the quantities whose dependency masks are complete (`Covered`), histories in which no
refused call left a trace and every change of `mu_0` was announced (`Calm`), and in which no
solution failed while `SAVE_*` options were on: results do not depend on the history, they are what
the present inputs give.

Full statement: the same for every program, every history. It does not hold, see `C09_violated_*`,
`C05_violated_*`, `C40_violated`. -/
theorem C09_history_partial {fx : Prop} [Fp F] (hw : WF c) (hu : useCoef c = true) (hb : Respects c P)
    {kern quad actOf act0} {s : CState F V}
    (hr : CReach c kern quad actOf act0 P Calm (NoSave c) s) (hfx : fx → ∀ st, actOf st = act0)
    {prog : Prog F V R} (hp : AsksCovered fx c prog)
    (ho : (solveWith c P prog s).2.isSome = true ∨ NoSave c) :
    (solveWith c P prog s).2 = plainRun P prog s.st s.act :=
  solve_value hb (closed_covered fx c) hp (hr.good hw hu hb hfx) ho

theorem Spec.AsksCovered.valid {fx : Prop} {prog : Prog F V R} (h : AsksCovered fx c prog) : AsksValid c prog := by
  unfold AsksCovered at h
  unfold AsksValid
  induction prog with
  | ret r => trivial
  | rdF l k ih => exact ⟨trivial, fun x => ih x (h.2 x)⟩
  | rdI l k ih => exact ⟨trivial, fun x => ih x (h.2 x)⟩
  | rdA i j k ih => exact ⟨trivial, fun x => ih x (h.2 x)⟩
  | ask u p k ih => exact ⟨h.1.2, fun x => ih x (h.2 x)⟩

/-- C09 as a comparison with an instance that was only given the final inputs. -/
theorem C09_fresh_partial {fx : Prop} [Fp F] (hw : WF c) (hu : useCoef c = true) (hb : Respects c P)
    {kern quad actOf act0} {s t : CState F V}
    (hr : CReach c kern quad actOf act0 P Calm (NoSave c) s) (hfx : fx → ∀ st, actOf st = act0) {kern' quad' actOf' act0'}
    (ht : SetUp c kern' quad' actOf' act0' t)
    (hf : t.st.f = s.st.f) (hi : t.st.i = s.st.i) (ha : t.act = s.act)
    {prog : Prog F V R} (hp : AsksCovered fx c prog)
    (ho : (solveWith c P prog s).2.isSome = true ∧ (solveWith c P prog t).2.isSome = true ∨ NoSave c) :
    (solveWith c P prog s).2 = (solveWith c P prog t).2 := by
  rw [C09_history_partial hw hu hb hr hfx hp (ho.imp (·.1) id),
    solve_value hb (closed_covered fx c) hp (good_full ht.full depth) (ho.imp (·.2) id), ha]
  exact plainRun_congr prog hf.symm hi.symm _

/-- Which calls are calm: all accepted ones but `xrtm_set_out_thetas`, and the refused ones but five
setters. -/
theorem C09_calm [Fp F] {s s' : State F} {op : Op F} {r : Code} (h : apply s op = .ret r s')
    (hop : Leaky op = false ∨ (r = .ok ∧ ∀ t, op ≠ .setOutThetas t)) : Calm s op r s' := by
  by_cases hr : r = .ok
  · subst hr
    refine calm_accepted rfl h ?_
    rcases hop with hop | hop
    · rintro t rfl
      exact absurd hop (by simp [Leaky])
    · exact hop.2
  · refine calm_refused h hr ?_
    rcases hop with hop | hop
    · exact hop
    · exact absurd hop.1 hr

/-! ### Violations of C09 -/

/-- There is a history of accepted calls and successful solutions after which a solution differs from
the one a fresh instance gives with the same inputs. -/
def HistoryMatters (c : Config) : Prop :=
  ∃ (kern : Int → Int) (quad : Int → ℝ) (actOf : State ℝ → Int → Int → Bool) (act0 : Int → Int → Bool)
    (P : Physics ℝ (Option ℝ)) (s t : CState ℝ (Option ℝ)) (prog : Prog ℝ (Option ℝ) (Option ℝ)),
    Respects c P ∧ AsksValid c prog ∧
    CReach c kern quad actOf act0 P (fun _ _ r _ => r = .ok) False s ∧
    SetUp c kern quad actOf act0 t ∧ t.st = s.st ∧ t.act = s.act ∧
    (∃ x y, x ≠ y ∧ (solveWith c P prog s).2 = some x ∧ (solveWith c P prog t).2 = some y)

/-- How the witnesses work: set the input, solve, set it to something else, solve. -/
theorem matters (hw : WF c) {u : CUnit} {p : CPart} {l : FLoc} (hb : readsF c u p l)
    (hk : u.kept c = true) (hp : p ∈ u.parts) (hval : ValidU c u) {quad : Int → ℝ}
    {s : CState ℝ (Option ℝ)} {op : Op ℝ} {st' : State ℝ}
    (hset : SetUp c (kernelAt []) quad (fun _ _ _ => false) (fun _ _ => false) s)
    (hr : ∀ P, CReach c (kernelAt []) quad (fun _ _ _ => false) (fun _ _ => false) P
      (fun _ _ r _ => r = .ok) False s)
    (hop : apply s.st op = .ret .ok st') (hne : s.st.f l ≠ st'.f l)
    (hn : ∀ e ∈ newNotices s.st st', e.hits u = true → has e.mask (u.deps c) = false) :
    HistoryMatters c := by
  have hR := reader_respects (F := ℝ) hb
  obtain ⟨h1, h2⟩ := stale (op := op) (r := .ok) hb hk hp hval hset.full (fun _ _ _ => false) hn
  have hst := solve_st hR (askFor u p) s
  refine ⟨kernelAt [], quad, fun _ _ _ => false, fun _ _ => false, readerPhysics u p l,
    afterCall (fun _ _ _ => false) (solveWith c (readerPhysics u p l) (askFor u p) s).1 op .ok st',
    afterCall (fun _ _ _ => false) s op .ok st', askFor u p, hR, ⟨⟨hval, hp⟩, fun _ => trivial⟩,
    ?_, .call hset hop, rfl, ?_, s.st.f l, st'.f l, hne, h2, ?_⟩
  · refine .call (.run _ (hr _) ?_) (by rw [hst.1]; exact hop) rfl
    rw [h1]
    simp
  · cases op <;> simp [afterCall, hst.2]
  · have hfull := (SetUp.call (V := Option ℝ) hset hop).full
    have h1 := request_step hR (closed_all c) depth u p
      (afterCall (fun _ _ _ => false) s op .ok st') (rank_lt u)
    rw [solve_askFor]
    have hv := h1.2.1 (good_full hfull _) ⟨trivial, hval, hp⟩ (.inl (reader_some c u p l _))
    rw [hv]
    exact reader_fresh u p l _ _ 4

/-- Two layers, direct beam and thermal sources, the doubling and adding solver, layer matrices
saved. -/
def saveCounts : Counts := { demoCounts with nOutThetas := 1 }
def saveOpts : Word :=
  OPT_OUTPUT_AT_LEVELS ||| OPT_SOURCE_SOLAR ||| OPT_SOURCE_THERMAL ||| OPT_SAVE_LAYER_R_T_S |||
  OPT_SAVE_PHASE_MATS
def saveCfg : Config := configOf (implicitOptions saveOpts saveCounts) SOLVER_DOUB_ADD saveCounts

theorem save_created : create saveOpts SOLVER_DOUB_ADD saveCounts [] = .ok saveCfg := by decide

theorem save_wf : WF saveCfg := created_wf rfl save_created

noncomputable def saveQuad : Int → ℝ := fun _ => 9 / 10

/-- The instance after one accepted call. -/
theorem save_once {quad : Int → ℝ} {s : CState ℝ (Option ℝ)} {op : Op ℝ}
    (hset : SetUp saveCfg (kernelAt []) quad (fun _ _ _ => false) (fun _ _ => false) s)
    (hr : ∀ P, CReach saveCfg (kernelAt []) quad (fun _ _ _ => false) (fun _ _ => false) P
      (fun _ _ r _ => r = .ok) False s) (hs : IsSet op) (hp : Passes (setCmds s.st op)) :
    ∃ s' : CState ℝ (Option ℝ), apply s.st op = .ret .ok s'.st ∧ s'.st = effs (setCmds s.st op) s.st ∧ s'.st.cfg = saveCfg ∧
    SetUp saveCfg (kernelAt []) quad (fun _ _ _ => false) (fun _ _ => false) s' ∧
    ∀ P, CReach saveCfg (kernelAt []) quad (fun _ _ _ => false) (fun _ _ => false) P
      (fun _ _ r _ => r = .ok) False s' := by
  have hi : Inv saveCfg (kernelAt []) s.st :=
    (hr (readerPhysics .chapman .val .mu0)).inv save_wf
      (reader_respects (by simp [readsF]))
  have h := accept save_wf hi hs hp
  exact ⟨afterCall (fun _ _ _ => false) s op .ok (effs (setCmds s.st op) s.st), h, rfl,
    (hi.apply save_wf h).cfg, .call hset h, fun P => .call (hr P) h rfl⟩

theorem save_cfg_st (s : State ℝ) (hc : s.cfg = saveCfg) :
    solar s.cfg = true ∧ thermal s.cfg = true ∧ s.cfg.nLayers = 2 ∧ s.cfg.nQuad = 1 ∧
    s.cfg.nOutThetas = 1 := by
  rw [hc]
  decide


/-- A fresh instance of that configuration. -/
theorem save_init (quad : Int → ℝ) :
    SetUp (V := Option ℝ) saveCfg (kernelAt []) quad (fun _ _ _ => false) (fun _ _ => false)
      (freshC (initState saveCfg (kernelAt []) quad) fun _ _ => false) ∧
    ∀ P : Physics ℝ (Option ℝ), CReach saveCfg (kernelAt []) quad (fun _ _ _ => false) (fun _ _ => false) P
      (fun _ _ r _ => r = .ok) False (freshC (initState saveCfg (kernelAt []) quad) fun _ _ => false) :=
  ⟨.init, fun _ => .init⟩

theorem newNotices_accept [Fp F] {s : State F} {op : Op F} (hs : IsSet op)
    (h : apply s op = .ret .ok (effs (setCmds s op) s)) :
    newNotices s (effs (setCmds s op) s) = depsOf (setCmds s op) := newNotices_set hs h

/-- A witness made of two accepted calls of the same setter. -/
theorem save_twice {u : CUnit} {p : CPart} {l : FLoc} (hb : readsF saveCfg u p l)
    (hk : u.kept saveCfg = true) (hp : p ∈ u.parts) (hval : ValidU saveCfg u) {x y : ℝ} (hxy : x ≠ y)
    {op op' : Op ℝ} (hs : IsSet op) (hs' : IsSet op')
    (hp1 : ∀ s : State ℝ, s.cfg = saveCfg → Passes (setCmds s op))
    (hp2 : ∀ s : State ℝ, s.cfg = saveCfg → Passes (setCmds s op'))
    (hl1 : ∀ s : State ℝ, s.cfg = saveCfg → lastF (setCmds s op) l = some x)
    (hl2 : ∀ s : State ℝ, s.cfg = saveCfg → lastF (setCmds s op') l = some y)
    (hn : ∀ s : State ℝ, s.cfg = saveCfg → ∀ e ∈ depsOf (setCmds s op'), has e.mask (u.deps saveCfg) = false) :
    HistoryMatters saveCfg := by
  obtain ⟨h0, h0'⟩ := save_init saveQuad
  obtain ⟨s1, -, e1, c1, h2, h3⟩ := save_once h0 h0' hs (hp1 _ rfl)
  obtain ⟨s2, h4, e2, -, -, -⟩ := save_once h2 h3 hs' (hp2 _ c1)
  refine matters save_wf hb hk hp hval h2 h3 h4 ?_ ?_
  · rw [e2, effs_f, hl2 _ c1, e1, effs_f, hl1 _ rfl]
    simpa using hxy
  · rw [newNotices_set hs' h4]
    exact fun e he _ => hn _ c1 e he

theorem valid_none {u : CUnit} (h : u.layer? = none) : ValidU saveCfg u := by
  intro i hi; rw [h] at hi; simp at hi

theorem valid_layer0 (m : Int) : ValidU saveCfg (.layer m 0) := by
  intro i hi
  simp only [CUnit.layer?, Option.some.injEq] at hi
  subst hi
  decide

/-- C09 fails: the boundary radiances do not notice `xrtm_set_surface_b`
(`diff_bound_input_deps`, `src/xrtm_model.c:4161`, lacks `DEP_MASK_SURFACE_B`). -/
theorem C09_violated_surface_b : HistoryMatters saveCfg := by
  refine save_twice (u := .bound 0) (p := .val) (l := .surfaceB) (x := 1) (y := 2)
    (op := .setSurfaceB 1) (op' := .setSurfaceB 2) ?_ (by decide) (by decide) (valid_none rfl)
    (by norm_num) trivial trivial ?_ ?_ ?_ ?_ ?_
  · exact .inr (.inr (by decide))
  · intro s hc b r hb
    obtain ⟨e1, e2, e3, e4, e5⟩ := save_cfg_st s hc
    simp [setCmds, scalarCmds, e2] at hb
    rcases hb with hb | hb <;> rw [hb.1] <;> norm_num
  · intro s hc b r hb
    obtain ⟨e1, e2, e3, e4, e5⟩ := save_cfg_st s hc
    simp [setCmds, scalarCmds, e2] at hb
    rcases hb with hb | hb <;> rw [hb.1] <;> norm_num
  · intro s hc; simp [setCmds, scalarCmds, lastF]
  · intro s hc; simp [setCmds, scalarCmds, lastF]
  · intro s hc e he
    simp [setCmds, scalarCmds, depsOf] at he
    rw [he]
    simp only
    decide

/-- C09 fails: saved layer sources do not notice `xrtm_set_F_0`
(`layer_R_T_S_U_W_V_deps`, `src/xrtm_model.c:2091`). -/
theorem C09_violated_F_0 : HistoryMatters saveCfg := by
  refine save_twice (u := .layer 0 0) (p := .val) (l := .f0) (x := 1) (y := 2)
    (op := .setF0 1) (op' := .setF0 2) ?_ (by decide) (by decide) (valid_layer0 0)
    (by norm_num) trivial trivial ?_ ?_ ?_ ?_ ?_
  · exact .inr (.inr (by decide))
  · intro s hc b r hb
    obtain ⟨e1, e2, e3, e4, e5⟩ := save_cfg_st s hc
    simp [setCmds, scalarCmds, e1] at hb
    rcases hb with hb | hb <;> rw [hb.1] <;> norm_num
  · intro s hc b r hb
    obtain ⟨e1, e2, e3, e4, e5⟩ := save_cfg_st s hc
    simp [setCmds, scalarCmds, e1] at hb
    rcases hb with hb | hb <;> rw [hb.1] <;> norm_num
  · intro s hc; simp [setCmds, scalarCmds, lastF]
  · intro s hc; simp [setCmds, scalarCmds, lastF]
  · intro s hc e he
    simp [setCmds, scalarCmds, depsOf] at he
    rw [he]
    simp only
    decide

/-- C09 fails: saved layer matrices do not notice `xrtm_set_doub_d_tau`. -/
theorem C09_violated_doub_d_tau : HistoryMatters saveCfg := by
  refine save_twice (u := .layer 0 0) (p := .val) (l := .doubDTau) (x := 1) (y := 2)
    (op := .setDoubDTau 1) (op' := .setDoubDTau 2) ?_ (by decide) (by decide) (valid_layer0 0)
    (by norm_num) trivial trivial ?_ ?_ ?_ ?_ ?_
  · exact .inr (.inr (by decide))
  · intro s hc b r hb
    simp [setCmds, scalarCmds] at hb
    rw [hb.1]; norm_num
  · intro s hc b r hb
    simp [setCmds, scalarCmds] at hb
    rw [hb.1]; norm_num
  · intro s hc; simp [setCmds, scalarCmds, lastF]
  · intro s hc; simp [setCmds, scalarCmds, lastF]
  · intro s hc e he
    simp [setCmds, scalarCmds, depsOf] at he
    rw [he]
    simp only
    decide

/-- C09 fails: saved layer sources do not notice `xrtm_set_levels_b`. -/
theorem C09_violated_levels_b : HistoryMatters saveCfg := by
  refine save_twice (u := .layer 0 0) (p := .val) (l := .levelsB 0) (x := 1) (y := 2)
    (op := .setLevelsB fun _ => 1) (op' := .setLevelsB fun _ => 2) ?_ (by decide) (by decide)
    (valid_layer0 0) (by norm_num) trivial trivial ?_ ?_ ?_ ?_ ?_
  · exact .inr (.inr (by decide))
  · intro s hc b r hb
    obtain ⟨e1, e2, e3, e4, e5⟩ := save_cfg_st s hc
    simp [setCmds, e2, e3] at hb
    grind
  · intro s hc b r hb
    obtain ⟨e1, e2, e3, e4, e5⟩ := save_cfg_st s hc
    simp [setCmds, e2, e3] at hb
    grind
  · intro s hc
    obtain ⟨e1, e2, e3, e4, e5⟩ := save_cfg_st s hc
    simp [setCmds, lastF, e3, upto, List.range, List.range.loop]
  · intro s hc
    obtain ⟨e1, e2, e3, e4, e5⟩ := save_cfg_st s hc
    simp [setCmds, lastF, e3, upto, List.range, List.range.loop]
  · intro s hc e he
    obtain ⟨e1, e2, e3, e4, e5⟩ := save_cfg_st s hc
    simp [setCmds, depsOf, e3, upto, List.range, List.range.loop] at he
    rw [he]
    decide

/-- C09 fails: `xrtm_set_out_thetas` puts back the unadjusted `mu_0` without a notice
(`mu_0_singularity_adjust`, `src/xrtm_interface.c:2650-2685`: `set_deps` only if something was
adjusted), so that what depends on `mu_0` but not on the output angles is not recomputed. Here: solar
and output angle 60 degrees, solve, output angle 0 degrees, solve. -/
theorem C09_violated_mu0 : HistoryMatters saveCfg := by
  have h60 : Real.cos (60 * (Real.pi / 180)) = 1 / 2 := by
    rw [show (60 : ℝ) * (Real.pi / 180) = Real.pi / 3 by ring, Real.cos_pi_div_three]
  have u1 : upto 1 = [0] := by decide
  have u2 : upto 2 = [0, 1] := by decide
  obtain ⟨h0, h0'⟩ := save_init saveQuad
  -- output angle 60 degrees
  have l1 : ∀ s : State ℝ, s.cfg = saveCfg → s.isSet .mu0 = false →
      ∃ n, setCmds s (.setOutThetas fun _ => 60) =
      [.check false .intErr, .check false .intErr, .wr (.qx 1) (1 / 2), .flag .umus,
        .wrI .nFour2 n, .dep DEP_UMUS 0 2] := by
    intro s hc hm
    obtain ⟨e1, e2, e3, e4, e5⟩ := save_cfg_st s hc
    refine ⟨nFour2Of s.cfg false true (s.fv .mu00) (1 / 2), ?_⟩
    simp only [setCmds, e3, e4, e5, hm, u1, FpR.cos_eq, FpR.mul_eq, FpR.d2r_eq, h60]
    norm_num
  -- solar angle 60 degrees
  have l2 : ∀ s : State ℝ, s.cfg = saveCfg → s.isSet .umus = true → s.f (.qx 0) = some (9 / 10) →
      s.f (.qx 1) = some (1 / 2) → ∃ n, setCmds s (.setTheta0 60) =
      [.check false .intErr, .check false .intErr, .wr .mu00 (1 / 2), .rd (.qx 1),
        .wrI .nFour2 n, .wr .mu0 (1 / 2), .rd (.qx 0), .rd (.qx 1), .check false .intErr,
        .wr .mu0 (1 / 2 - 1e-5), .check false .intErr, .dep DEP_MU_0 0 2, .flag .mu0,
        .dep DEP_MU_0 0 2] := by
    intro s hc hm q0 q1
    obtain ⟨e1, e2, e3, e4, e5⟩ := save_cfg_st s hc
    refine ⟨nFour2Of s.cfg true true (1 / 2 : ℝ) (1 / 2), ?_⟩
    have hq : adjustCmds s.cfg (1 / 2 : ℝ) [9 / 10, 1 / 2] 0 =
        [.check false .intErr, .wr .mu0 (1 / 2 - 1e-5), .check false .intErr, .dep DEP_MU_0 0 2] := by
      simp [adjustCmds, adjustAuto, e3]
      norm_num
    simp only [setCmds, e1, e3, e4, e5, hm, u2, FpR.cos_eq, FpR.mul_eq, FpR.d2r_eq, h60,
      show (1 : Int) + 1 = 2 from rfl, if_true, State.fv, q0, q1, List.map_cons, List.map_nil,
      Option.getD_some, hq]
    norm_num
  -- output angle 0 degrees
  have l3 : ∀ s : State ℝ, s.cfg = saveCfg → s.isSet .mu0 = true → s.f .mu00 = some (1 / 2) →
      s.f (.qx 0) = some (9 / 10) →
      ∃ n, setCmds s (.setOutThetas fun _ => 0) =
      [.check false .intErr, .check false .intErr, .wr (.qx 1) 1, .flag .umus,
        .wrI .nFour2 n, .rd .mu00, .wr .mu0 (1 / 2), .rd (.qx 0), .check false .intErr,
        .check false .intErr, .dep DEP_UMUS 0 2] := by
    intro s hc hm m0 q0
    obtain ⟨e1, e2, e3, e4, e5⟩ := save_cfg_st s hc
    refine ⟨nFour2Of s.cfg true true (1 / 2 : ℝ) 1, ?_⟩
    have hq : adjustCmds s.cfg (1 / 2 : ℝ) [9 / 10, 1] 0 =
        [.check false .intErr, .check false .intErr] := by
      simp [adjustCmds, adjustAuto]
      norm_num
    simp only [setCmds, e3, e4, e5, hm, u1, FpR.cos_eq, FpR.mul_eq, FpR.d2r_eq, zero_mul, Real.cos_zero,
      if_true, State.fv, q0, m0, List.map_cons, List.map_nil, List.cons_append, List.nil_append,
      Option.getD_some, hq]
    norm_num
  have i0 : (initState saveCfg (kernelAt []) saveQuad).isSet .mu0 = false := by decide
  obtain ⟨n1, k1⟩ := l1 (initState saveCfg (kernelAt []) saveQuad) rfl i0
  obtain ⟨s1, -, e1, c1, h1, h1'⟩ := save_once (op := .setOutThetas fun _ => 60) h0 h0' trivial (by
    intro b r hb
    simp only [freshC] at hb
    rw [k1] at hb
    simp at hb
    exact hb.1)
  simp only [freshC] at e1
  rw [k1] at e1
  have f1 : s1.st.f (.qx 0) = some (9 / 10) ∧ s1.st.f (.qx 1) = some (1 / 2) ∧ s1.st.isSet .umus = true := by
    rw [e1]
    simp [eff, State.setF, State.setI, State.setS, State.setDep, initState, saveQuad]
    decide
  obtain ⟨n2, k2⟩ := l2 s1.st c1 f1.2.2 f1.1 f1.2.1
  obtain ⟨s2, -, e2, c2, h2, h2'⟩ := save_once (op := .setTheta0 60) h1 h1' trivial (by
    intro b r hb
    rw [k2] at hb
    simp at hb
    grind)
  rw [k2] at e2
  have f2 : s2.st.f (.qx 0) = some (9 / 10) ∧ s2.st.f .mu00 = some (1 / 2) ∧
      s2.st.f .mu0 = some (1 / 2 - 1e-5) ∧ s2.st.isSet .mu0 = true := by
    rw [e2]
    simp [eff, State.setF, State.setI, State.setS, State.setDep, f1.1]
  obtain ⟨n3, k3⟩ := l3 s2.st c2 f2.2.2.2 f2.2.1 f2.1
  obtain ⟨s3, h3, e3, -, -, -⟩ := save_once (op := .setOutThetas fun _ => 0) h2 h2' trivial (by
    intro b r hb
    rw [k3] at hb
    simp at hb
    grind)
  refine matters save_wf (u := .chapman) (p := .val) (l := .mu0) trivial rfl (by decide)
    (valid_none rfl) h2 h2' h3 ?_ ?_
  · rw [e3, k3, f2.2.2.1]
    simp [eff, State.setF, State.setI, State.setS, State.setDep]
    norm_num
  · rw [newNotices_set (op := .setOutThetas fun _ => 0) trivial h3, k3]
    intro e he _
    simp [depsOf] at he
    rw [he]
    decide

/-! ## C13 and C40: repeating a solution -/

/-- C13: a solution that succeeded gives, when repeated, the same result and changes nothing; in any
state of the caches, for any physics. In between any number of other solutions may have been
computed. -/
theorem C13_repeat (hb : Respects c P) {prog : Prog F V R} {s : CState F V} {r : R}
    (h : (solveWith c P prog s).2 = some r) :
    solveWith c P prog (solveWith c P prog s).1 = ((solveWith c P prog s).1, some r) :=
  solve_rep hb h (.inl rfl) (.refl _)

/-- Other solutions one after the other. -/
def solveMany (c : Config) (P : Physics F V) : List (Prog F V R) → CState F V → CState F V
  | [], s => s
  | p :: ps, s => solveMany c P ps (solveWith c P p s).1

theorem C13_repeat_later (hb : Respects c P) {prog : Prog F V R} {s : CState F V} {r : R}
    (h : (solveWith c P prog s).2 = some r) (others : List (Prog F V R)) :
    (solveWith c P prog (solveMany c P others (solveWith c P prog s).1)).2 = some r := by
  have key : ∀ (ps : List (Prog F V R)) (t : CState F V), Ext c t (solveMany c P ps t) := by
    intro ps
    induction ps with
    | nil => exact fun t => .refl t
    | cons p ps ih => exact fun t => (solve_ext c P p t).trans (ih _)
  rw [solve_rep hb h (.inl rfl) (key _ _)]

/-- C40, for instances without `SAVE_*` options: a solution that failed fails again.

Full statement: the same with saved results. It does not hold, see `C40_violated`. -/
theorem C40_fails_again_partial (hn : NoSave c) (hb : Respects c P) {prog : Prog F V R} {s : CState F V}
    (h : (solveWith c P prog s).2 = none) :
    (solveWith c P prog (solveWith c P prog s).1).2 = none := by
  rw [solve_rep hb h (.inr hn) (.refl _)]

/-- Phase matrices that fail their normalisation check. -/
def badPhysics : Physics ℝ Int where
  body u _ := .ret (match u with | .matsQQ .. => 7 | _ => 0)
  chk u _ v := match u with | .matsQQ .. => decide (v ≠ 7) | _ => true

/-- C40 fails: the flag of the phase matrices is cleared before they are computed
(`resolve_deps*`, `src/xrtm_model.c:51-90`), so that after a failed normalisation check the same call
succeeds with the bad matrices. -/
theorem C40_violated : ∃ (s : CState ℝ Int) (prog : Prog ℝ Int Int),
    CReach saveCfg (kernelAt []) saveQuad (fun _ _ _ => false) (fun _ _ => false) badPhysics
      (fun _ _ r _ => r = .ok) True s ∧ Respects saveCfg badPhysics ∧ AsksValid saveCfg prog ∧
    (solveWith saveCfg badPhysics prog s).2 = none ∧
    plainRun badPhysics prog s.st s.act = none ∧
    (solveWith saveCfg badPhysics prog (solveWith saveCfg badPhysics prog s).1).2 = some 7 := by
  refine ⟨freshC (initState saveCfg (kernelAt []) saveQuad) fun _ _ => false, askFor (.matsQQ 0 0) .val,
    .init, ⟨fun u p => trivial, ?_⟩, ⟨⟨?_, by decide⟩, fun _ => trivial⟩, ?_, ?_, ?_⟩
  · intro u p v h
    cases u <;> simp_all [CUnit.fallible, badPhysics]
  · intro i hi
    simp only [CUnit.layer?, Option.some.injEq] at hi
    subst hi
    decide
  · have hk : (CUnit.matsQQ 0 0).kept saveCfg = true := by decide
    rw [solve_askFor, show depth = 4 + 1 from rfl, request]
    have hd : has DEP_MASK ((CUnit.matsQQ 0 0).deps saveCfg) = true := by decide
    have ht : has DEP_MASK ((CUnit.matsQQ 0 0).trig saveCfg .val) = true := by decide
    simp [hk, freshC, hd, ht, refresh, CUnit.parts, badPhysics, runWith]
  · simp [plainRun, askFor, evalWith, depth, freshV, badPhysics]
  · have hk : (CUnit.matsQQ 0 0).kept saveCfg = true := by decide
    have hd : has DEP_MASK ((CUnit.matsQQ 0 0).deps saveCfg) = true := by decide
    have ht : has DEP_MASK ((CUnit.matsQQ 0 0).trig saveCfg .val) = true := by decide
    have hz : has (DEP_MASK &&& ~~~((CUnit.matsQQ 0 0).deps saveCfg)) ((CUnit.matsQQ 0 0).deps saveCfg) =
      false := has_and_not (BitVec.and_not_self _)
    have e : (request saveCfg badPhysics depth (.matsQQ 0 0) .val
        (freshC (initState saveCfg (kernelAt []) saveQuad) fun _ _ => false)).1.dep (.matsQQ 0 0) =
        DEP_MASK &&& ~~~((CUnit.matsQQ 0 0).deps saveCfg) ∧
        (request saveCfg badPhysics depth (.matsQQ 0 0) .val
        (freshC (initState saveCfg (kernelAt []) saveQuad) fun _ _ => false)).1.val (.matsQQ 0 0) .val =
        some 7 := by
      rw [show depth = 4 + 1 from rfl, request]
      simp [hk, freshC, hd, ht, refresh, CUnit.parts, badPhysics, runWith]
    rw [solve_askFor, solve_askFor]
    rw [show request saveCfg badPhysics depth (.matsQQ 0 0) .val
      (request saveCfg badPhysics depth (.matsQQ 0 0) .val
        (freshC (initState saveCfg (kernelAt []) saveQuad) fun _ _ => false)).1 = _ from
      request_hit (n := 4) .val hk (by rw [e.1]; exact hz), e.2]
    rfl

/-! ## C11 -/

/-- Is a recomputation of `u` due? -/
def due (c : Config) (u : CUnit) (s : CState F V) : Nat := if has (s.dep u) (u.deps c) then 1 else 0

/-- C11: a request for a kept quantity recomputes it exactly once if a recomputation is due, and not at
all otherwise; afterwards none is due. -/
theorem C11_request (hb : Respects c P) {u : CUnit} (hk : u.kept c = true) (p : CPart) (s : CState F V) :
    (solveWith c P (askFor u p) s).1.runs u = s.runs u + due c u s ∧
    due c u (solveWith c P (askFor u p) s).1 = 0 := by
  rw [solve_askFor]
  have h1 := request_clean hb depth u p s (rank_lt u) hk
  have h2 := request_pot c P u depth u p s
  unfold pot at h2
  unfold due
  rw [h1] at h2 ⊢
  simp only [Bool.false_eq_true, if_false, Nat.add_zero] at h2 ⊢
  exact ⟨h2, trivial⟩

/-- C11: any solution, successful or not, recomputes a quantity at most as often as is due. -/
theorem C11_solution (prog : Prog F V R) (u : CUnit) (s : CState F V) :
    (solveWith c P prog s).1.runs u + due c u (solveWith c P prog s).1 = s.runs u + due c u s :=
  solve_pot c P u prog s

/-- C11: after an accepted setter has changed an input, a recomputation is due for every quantity that
declares a dependence on it (has its bit in its mask), unless the input belongs to one layer and the
quantity to another. -/
theorem C11_change_noticed [Fp F] {kern : Int → Int} {s : CState F V} (hi : Inv c kern s.st)
    {op : Op F} {st' : State F} (h : apply s.st op = .ret .ok st')
    (actOf : State F → Int → Int → Bool) {l : FLoc} (hne : st'.f l ≠ s.st.f l) {b : Word}
    (hl : inputBit l = some b) {u : CUnit} (hv : ValidU c u) (hd : has b (u.deps c) = true)
    (hlay : inputLayer l = none ∨ u.layer? = none ∨ u.layer? = inputLayer l) :
    due c u (afterCall actOf s op .ok st') = 1 := by
  obtain ⟨m, hm, hmd⟩ := noticeF_bit hl hd
  have hx : ∃ e ∈ newNotices s.st st', e.mask = m ∧ Covers c l.layer? e.lo e.hi := by
    by_cases hs : IsSet op
    · rw [newNotices_set hs h]
      rcases apply_set_cases hs h with ⟨_, h⟩ | ⟨h, _⟩
      · rw [exec_done h, effs_f] at hne
        cases hx : lastF (setCmds s.st op) l with
        | none => simp [hx] at hne
        | some x =>
            rw [← hi.cfg] at hm ⊢
            obtain ⟨lo, hi', h1, h2⟩ := set_noticeF s.st op (lastF_mem hx) hm
            exact ⟨⟨m, lo, hi'⟩, mem_depsOf.2 h1, rfl, h2⟩
      · exact absurd rfl h
    · exact absurd (by rw [(apply_other hs h).1.f]) hne
  obtain ⟨e, he, hem, hcov⟩ := hx
  have hll : l.layer? = inputLayer l := by cases l <;> rfl
  have := orAll_hit s.dep he (covers_hits hcov hv (by rw [hll]; exact hlay)) (by rw [hem]; exact hmd)
  unfold due
  rw [show (afterCall actOf s op .ok st').dep u = orAll s.dep (newNotices s.st st') u from rfl, this]
  rfl

/-- C11: announcements that do not concern a quantity make nothing due. -/
theorem C11_not_concerned (actOf : State F → Int → Int → Bool) (s : CState F V) {op : Op F} {r : Code}
    {st' : State F} {u : CUnit} (h : concerns c u (newNotices s.st st') = false) :
    due c u (afterCall actOf s op r st') = due c u s := by
  have hn : ∀ e ∈ newNotices s.st st', e.hits u = true → has e.mask (u.deps c) = false := by
    intro e he hh
    unfold concerns at h
    rw [List.any_eq_false] at h
    have := h e he
    simp only [hh, Bool.true_and, Bool.not_eq_true] at this
    exact this
  unfold due
  rw [show (afterCall actOf s op r st').dep u = orAll s.dep (newNotices s.st st') u from rfl]
  cases hd : has (s.dep u) (u.deps c) with
  | true => rw [orAll_mono _ _ _ hd]
  | false => rw [orAll_none _ hd hn]

/-- C11: over any execution, a quantity is recomputed no more often than there were calls that concern
it, plus one if a recomputation was due at the start. -/
theorem C11_count [Fp F] {actOf : State F → Int → Int → Bool} {s s' : CState F V} {es : List (List DepEv)}
    (h : CExec c actOf P s es s') (u : CUnit) :
    s'.runs u + due c u s' ≤ s.runs u + due c u s + es.countP (concerns c u) := by
  induction h with
  | refl => simp
  | @call es s1 op r st' hx ha ih =>
      rw [List.countP_cons]
      by_cases hc : concerns c u (newNotices s1.st st') = true
      · simp only [hc, if_true]
        have : due c u (afterCall actOf s1 op r st') ≤ 1 := by unfold due; split <;> omega
        have e : (afterCall actOf s1 op r st').runs u = s1.runs u := rfl
        omega
      · simp only [Bool.not_eq_true] at hc
        rw [C11_not_concerned actOf s1 hc, hc]
        have e : (afterCall actOf s1 op r st').runs u = s1.runs u := rfl
        simp only [Bool.false_eq_true, if_false]
        omega
  | run prog _ ih => rw [C11_solution]; exact ih

/-! ## Examples

A boundary flux is set, a solution computed, the flux changed. The boundary radiances (`bound 0`)
are what depends on it. -/

/-- The demo instance after `xrtm_set_F_iso_top(1)`, a solution, `xrtm_set_F_iso_top(2)`. -/
theorem demo_cached : ∃ s : CState ℝ (Option ℝ),
    CReach demoCfg (kernelAt []) saveQuad (fun _ _ _ => false) (fun _ _ => false)
      (readerPhysics (.bound 0) .val .fIsoTop) Calm (NoSave demoCfg) s ∧
    s.st.f .fIsoTop = some 2 ∧ due demoCfg (.bound 0) s = 1 ∧ s.runs (.bound 0) = 1 := by
  have hw : WF demoCfg := created_wf rfl demo_created
  have hb : readsF demoCfg (.bound 0) .val .fIsoTop := .inr (.inr trivial)
  have hR := reader_respects (F := ℝ) hb
  have hp : ∀ x : ℝ, 0 ≤ x → ∀ s : State ℝ, Passes (setCmds s (.setFIsoTop x)) := by
    intro x hx s b r hb
    simp [setCmds, scalarCmds] at hb
    rw [hb.1]
    simp [hx]
  have hi0 : Inv demoCfg (kernelAt []) (initState demoCfg (kernelAt []) saveQuad) :=
    Inv.init hw.coef _ _
  have a1 := accept hw hi0 (op := .setFIsoTop 1) trivial (hp 1 (by norm_num) _)
  have r1 : CReach (V := Option ℝ) demoCfg (kernelAt []) saveQuad (fun _ _ _ => false) (fun _ _ => false)
      (readerPhysics (.bound 0) .val .fIsoTop) Calm (NoSave demoCfg) _ :=
    .call .init a1 (C09_calm a1 (.inl rfl))
  have r2 := CReach.run (askFor (.bound 0) .val) r1 (fun _ => by unfold NoSave; decide)
  have hi2 := r2.inv hw hR
  have a2 := accept hw hi2 (op := .setFIsoTop 2) trivial (hp 2 (by norm_num) _)
  have r3 := CReach.call r2 a2 (C09_calm a2 (.inl rfl))
  have hk : (CUnit.bound 0).kept demoCfg = true := rfl
  have hst := (solve_st hR (askFor (.bound 0) .val) (afterCall (V := Option ℝ) (fun _ _ _ => false)
    (freshC (initState demoCfg (kernelAt []) saveQuad) fun _ _ => false) (.setFIsoTop 1) .ok
    (effs (setCmds (initState demoCfg (kernelAt []) saveQuad) (.setFIsoTop 1))
      (initState demoCfg (kernelAt []) saveQuad)))).1
  refine ⟨_, r3, ?_, ?_, ?_⟩
  · simp only [afterCall]
    rw [effs_f]
    simp [setCmds, scalarCmds, lastF]
  · refine C11_change_noticed hi2 a2 _ (l := .fIsoTop) ?_ rfl (by intro i hi; simp [CUnit.layer?] at hi)
      (by decide) (.inl rfl)
    rw [effs_f, hst]
    simp only [afterCall]
    rw [effs_f]
    simp [setCmds, scalarCmds, lastF]
  · have := (C11_request hR hk .val (afterCall (V := Option ℝ) (fun _ _ _ => false)
      (freshC (initState demoCfg (kernelAt []) saveQuad) fun _ _ => false) (.setFIsoTop 1) .ok
      (effs (setCmds (initState demoCfg (kernelAt []) saveQuad) (.setFIsoTop 1))
        (initState demoCfg (kernelAt []) saveQuad)))).1
    refine this.trans ?_
    have e := (SetUp.call (V := Option ℝ) (actOf := fun _ _ _ => false) (act0 := fun _ _ => false)
      .init a1).full (.bound 0)
    have hd : has DEP_MASK ((CUnit.bound 0).deps demoCfg) = true := by decide
    rw [due, e, hd]
    simp [afterCall, freshC]

/-- C09, C11: the next solution sees the new flux, having recomputed once. -/
example : ∃ s : CState ℝ (Option ℝ),
    CReach demoCfg (kernelAt []) saveQuad (fun _ _ _ => false) (fun _ _ => false)
      (readerPhysics (.bound 0) .val .fIsoTop) Calm (NoSave demoCfg) s ∧
    AsksCovered False demoCfg (askFor (F := ℝ) (V := Option ℝ) (.bound 0) .val) ∧
    (solveWith demoCfg (readerPhysics (.bound 0) .val .fIsoTop) (askFor (.bound 0) .val) s).2 =
      some (some 2) ∧
    (solveWith demoCfg (readerPhysics (.bound 0) .val .fIsoTop) (askFor (.bound 0) .val) s).1.runs
      (.bound 0) = 2 := by
  have hw : WF demoCfg := created_wf rfl demo_created
  have hb : readsF demoCfg (.bound 0) .val .fIsoTop := .inr (.inr trivial)
  have hR := reader_respects (F := ℝ) hb
  have hp : AsksCovered False demoCfg (askFor (F := ℝ) (V := Option ℝ) (.bound 0) .val) := by
    refine ⟨⟨?_, by intro i hi; simp [CUnit.layer?] at hi, by decide⟩, fun _ => trivial⟩
    show _ ∧ _ ∧ _
    decide
  obtain ⟨s, h1, h2, h3, h4⟩ := demo_cached
  refine ⟨s, h1, hp, ?_, ?_⟩
  · rw [C09_history_partial hw (by decide) hR h1 (fun h => h.elim) hp (.inr (by unfold NoSave; decide))]
    simp only [plainRun, askFor, evalWith]
    rw [show depth = 4 + 1 from rfl, reader_fresh, h2, Option.bind_some]
  · rw [(C11_request hR rfl .val s).1, h3, h4]

/-- C09: saved linearised phase matrices are covered when the activity table stays, and only then. -/
example : AsksCovered True saveCfg
      (askFor (F := ℝ) (V := ℝ) (.matsQQ 0 1) .lin) ∧
    ¬ AsksCovered False saveCfg
      (askFor (F := ℝ) (V := ℝ) (.matsQQ 0 1) .lin) := by
  constructor
  · refine ⟨⟨fun _ h => absurd trivial h, ?_, by decide⟩, fun _ => trivial⟩
    intro i hi
    simp only [CUnit.layer?, Option.some.injEq] at hi
    subst hi
    decide
  · intro h
    have := h.1.1 rfl not_false
    revert this
    decide

/-- C12, C13: the hypotheses are met by that instance, too. -/
example : AsksValid demoCfg (askFor (F := ℝ) (V := Option ℝ) (.bound 0) .val) ∧
    (solveWith demoCfg (readerPhysics (.bound 0) .val .fIsoTop) (askFor (.bound 0) .val)
      (freshC (initState demoCfg (kernelAt []) saveQuad) fun _ _ => false)).2.isSome = true := by
  refine ⟨⟨⟨by intro i hi; simp [CUnit.layer?] at hi, by decide⟩, fun _ => trivial⟩, ?_⟩
  rw [solve_askFor]
  exact reader_some ..

/-- C40: a failing solution of an instance without saved results. -/
example : NoSave demoCfg ∧ (solveWith demoCfg badPhysics (askFor (.matsQQ 0 0) .val)
    (freshC (initState demoCfg (kernelAt []) saveQuad) fun _ _ => false)).2 = none := by
  refine ⟨by unfold NoSave; decide, ?_⟩
  have hk : (CUnit.matsQQ 0 0).kept demoCfg = false := by decide
  rw [solve_askFor, show depth = 4 + 1 from rfl, request]
  simp [hk, badPhysics, runWith]

end Xrtm
