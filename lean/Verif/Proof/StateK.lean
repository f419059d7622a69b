import Verif.Proof.StateJ

/-! Creation, rejected and accepted calls, and the output depth check. -/

namespace Xrtm

open Spec

variable {F : Type}

theorem created_wf {w s : Word} {c : Counts} {kernels : List Int}
    (hk : (kernels.length : Int) = c.nKernels) {cfg : Config}
    (h : create w s c kernels = .ok cfg) : WF cfg := by
  have hacc := (C01_C02_C03_create_iff w s c kernels hk).1 ⟨cfg, h⟩
  have hcfg := create_ok h
  obtain ⟨⟨r1, r2, r3, r4, r5, r6, r7, r8, r9, r10⟩, -, hcon, ⟨f1, -, -, -, -, -⟩, -⟩ := hacc
  have hc := optsOf_config w s c .calcDerivs
  have ht := optsOf_config w s c .outputAtTaus
  have hl := optsOf_config w s c .outputAtLevels
  have hp := (exactlyOne2 _ _ _ (by decide)).1 hcon.out
  subst hcfg
  simp only [withDefaults, reduceCtorEq, false_and, or_false] at hc ht hl f1 hp
  refine ⟨r5, r2, r9, r10, ?_, r1, r7, ?_, ?_, ?_, ?_⟩
  · simp only [configOf]
  · simp only [configOf]; split <;> omega
  · rw [hc]
    have hhas : has (implicitOptions w c) OPT_CALC_DERIVS = true ↔ optsOf w .calcDerivs := by
      rw [OPT_CALC_DERIVS, has_bit _ _ (by decide)]
      exact C01_defaults w c .calcDerivs
    simp only [configOf]
    split
    · next hx => simp at hx; simp [← hhas, hx]
    · exact f1
  · simp only [configOf]; split <;> omega
  · rw [ht, hl]; tauto

/-- A rejected call of a setter that checks before it writes leaves the instance as it
was. -/
theorem stop_same [Fp F] {s s' : State F} {op : Op F} {r : Code} (hs : IsSet op)
    (hl : Leaky op = false) (h : apply s op = .ret r s') (hr : r ≠ .ok) : s' = s := by
  rcases apply_set_cases hs h with ⟨h1, _⟩ | ⟨_, h2⟩
  · exact absurd h1 hr
  · exact exec_stop_tidy (set_tidy s op hl) h2

/-- A setter whose checks all pass is accepted. -/
theorem accept [Fp F] {c : Config} {kernels : Int → Int} {s : State F} (hw : WF c)
    (hi : Inv c kernels s) {op : Op F} (hs : IsSet op) (hp : Passes (setCmds s op)) :
    apply s op = .ret .ok (effs (setCmds s op) s) := by
  rw [apply_set s hs, exec_of_passes (Extends.refl s)
    (set_safe s (by rw [hi.cfg]; exact WF.facts hw) hi.ready op) hp (fun l c => set_noNeed s op l c)]
  rfl

theorem has_or_left {w m v : Word} (h : has w v = true) : has (w ||| m) v = true := by
  rw [has_iff] at h ⊢
  obtain ⟨k, h0, h1, h2⟩ := h
  exact ⟨k, h0, by simp [h1], h2⟩

theorem effs_depUtaus (cs : List (Cmd F)) (s : State F) (v : Word) (h : has s.depUtaus v = true) :
    has (effs cs s).depUtaus v = true := by
  induction cs generalizing s with
  | nil => exact h
  | cons c cs ih =>
      refine ih _ ?_
      cases c <;> simp only [eff, State.setF, State.setI, State.setS, State.setDep] <;>
        first | exact h | (split <;> exact h) | exact has_or_left h

theorem call_depUtaus [Fp F] {s s' : State F} {op : Op F} {r : Code} (hs : IsSet op)
    (h : apply s op = .ret r s') {v : Word} (hv : has s.depUtaus v = true) :
    has s'.depUtaus v = true := by
  rcases apply_set_cases hs h with ⟨-, he⟩ | ⟨-, he⟩
  · rw [exec_done he]; exact effs_depUtaus _ _ _ hv
  · obtain ⟨p, -, -, -, -, -, rfl⟩ := exec_stop he
    exact effs_depUtaus _ _ _ hv


/-- The comparisons of `postChecks`. -/
def tausTest [Fp F] (s : State F) : Bool :=
  let a := (upto s.cfg.nLayers).foldl (fun a i => Fp.add a (s.fv (.ltau i))) Fp.zero
  !(Fp.lt (s.fv (.utaus 0)) Fp.zero || Fp.lt a (s.fv (.utaus 0))) &&
  (between 1 s.cfg.nOutLevels).all fun i =>
    !(Fp.le (s.fv (.utaus i)) (s.fv (.utaus (i - 1))) || Fp.lt a (s.fv (.utaus i)))

theorem postChecks_eq [Fp F] (s : State F) : postChecks s =
    if has s.cfg.options OPT_OUTPUT_AT_TAUS && has s.depUtaus (DEP_UTAUS ||| DEP_LTAU) then tausTest s
    else true := rfl

theorem tausTest_congr [Fp F] {s s' : State F} (hc : s'.cfg = s.cfg)
    (hu : ∀ i, s'.f (.utaus i) = s.f (.utaus i)) (hl : ∀ i, s'.f (.ltau i) = s.f (.ltau i)) :
    tausTest s' = tausTest s := by
  simp only [tausTest, State.fv, hc, hu, hl]

theorem upto_indices (n : Int) : upto n = indices n := rfl

theorem tausTest_iff [Fp F] (s : State F) (h0 : 0 < s.cfg.nOutLevels)
    (hu : ∀ i, 0 ≤ i → i < s.cfg.nOutLevels → (s.f (.utaus i)).isSome = true) :
    tausTest s = true ↔ TausOk s.cfg s.f := by
  have hv : ∀ i, 0 ≤ i → i < s.cfg.nOutLevels → s.f (.utaus i) = some (s.fv (.utaus i)) := by
    intro i h1 h2
    obtain ⟨x, hx⟩ := Option.isSome_iff_exists.1 (hu i h1 h2)
    simp [State.fv, hx]
  simp only [tausTest, Bool.and_eq_true, Bool.not_eq_true', Bool.or_eq_false_iff, List.all_eq_true,
    mem_between, upto_indices]
  change (_ ∧ Fp.lt (totalTau s.cfg s.f) _ = false) ∧
    (∀ i, _ → _ ∧ Fp.lt (totalTau s.cfg s.f) _ = false) ↔ _
  constructor
  · rintro ⟨⟨a1, a2⟩, a3⟩ i x h1 h2 hx
    rw [hv i h1 h2] at hx
    obtain rfl := Option.some.inj hx
    by_cases hi : i = 0
    · subst hi; exact ⟨a2, fun _ => a1, fun y h => absurd h (by omega)⟩
    · have h3 := a3 i ⟨by omega, h2⟩
      refine ⟨h3.2, fun h => absurd h hi, fun y hy hy' => ?_⟩
      rw [hv (i - 1) (by omega) (by omega)] at hy'
      obtain rfl := Option.some.inj hy'
      exact h3.1
  · intro h
    refine ⟨⟨(h 0 _ (by omega) h0 (hv 0 (by omega) h0)).2.1 rfl,
      (h 0 _ (by omega) h0 (hv 0 (by omega) h0)).1⟩, fun i hi => ?_⟩
    have := h i _ (by omega) hi.2 (hv i (by omega) hi.2)
    exact ⟨this.2.2 _ (by omega) (hv (i - 1) (by omega) (by omega)), this.1⟩

/-- The call of a setter that can change what `postChecks` looks at is followed by the
check. -/
theorem call_taus [Fp F] {c : Config} {kernels : Int → Int} {s s' : State F}
    (hi : Inv c kernels s) {op : Op F} (hs : IsSet op) (h : apply s op = .ret .ok s') :
    has s'.depUtaus (DEP_UTAUS ||| DEP_LTAU) = true ∨
    ((∀ i, s'.f (.utaus i) = s.f (.utaus i)) ∧ ∀ i, s'.f (.ltau i) = s.f (.ltau i)) := by
  have key : ∀ v, (∃ m lo hi, Cmd.dep m lo hi ∈ setCmds s op ∧ has m v = true) →
      has s'.depUtaus v = true := by
    rintro v ⟨m, lo, hi', hm, hv⟩
    rcases apply_set_cases hs h with ⟨-, he⟩ | ⟨h1, -⟩
    · rw [exec_done he]
      obtain ⟨a, b, hab⟩ := List.append_of_mem hm
      rw [hab, effs_append, effs_cons]
      apply effs_depUtaus
      simp only [eff, State.setDep]
      rw [BitVec.or_comm]
      exact has_or_left hv
    · exact absurd rfl h1
  have hf := (call_ok hi h).1
  cases op
  case setOutTaus t =>
    exact .inl (key _ ⟨DEP_UTAUS, 0, s.cfg.nLayers, by simp [setCmds], by decide⟩)
  case setLtau1 i x =>
    exact .inl (key _ ⟨DEP_LTAU, _, _, by simp [setCmds, ltauCmds]; exact .inr (.inr ⟨rfl, rfl⟩), by decide⟩)
  case setLtauN x =>
    exact .inl (key _ ⟨DEP_LTAU, _, _, by simp [setCmds, ltauCmds]; exact .inr (.inr ⟨rfl, rfl⟩), by decide⟩)
  all_goals
    refine .inr ⟨fun i => ?_, fun i => ?_⟩ <;> rw [hf _ (by simp)] <;> simp [assignF]

theorem reach_taus [Fp F] {c : Config} {kernels : Int → Int} {quad : Int → F} {h s} (hw : WF c)
    (hr : Reach c kernels quad h s) (hq : Quiet h) (ht : optsOf c.options .outputAtTaus) :
    has s.depUtaus (DEP_UTAUS ||| DEP_LTAU) = true ∨ tausTest s = true := by
  have ht' : has c.options OPT_OUTPUT_AT_TAUS = true := (has_opt _ .outputAtTaus).2 ht
  induction hr with
  | init => exact .inl (by simp only [initState]; decide)
  | @call h s op r s' hr hc ih =>
      have ih := ih fun o ho => hq o (List.mem_cons_of_mem _ ho)
      have hi := hr.inv hw
      by_cases hs : IsSet op
      · rcases ih with ih | ih
        · exact .inl (call_depUtaus hs hc ih)
        · by_cases hok : r = .ok
          · subst hok
            rcases call_taus hi hs hc with h1 | ⟨h1, h2⟩
            · exact .inl h1
            · right
              rw [tausTest_congr (by rw [hi.cfg, (hi.apply hw hc).cfg]) h1 h2, ih]
          · have hl := hq (op, r) List.mem_cons_self hok
            rw [stop_same hs hl hc hok]
            exact .inr ih
      · cases op
        case updateVariedLayers =>
          rcases varied_eq s with ⟨-, h1⟩ | ⟨-, -, -, h1⟩ | ⟨-, -, h1⟩ <;> rw [h1] at hc <;>
            cases hc <;> exact ih
        case solve sv so n cp lo =>
          rcases solve_eq s sv so n cp lo with ⟨-, h1⟩ | ⟨-, -, -, h1⟩ | ⟨-, -, -, h1⟩ | ⟨-, -, hp, -, h1⟩ <;>
            rw [h1] at hc
          · cases hc; exact ih
          · cases hc; exact ih
          · cases hc; exact ih
          · cases hc
            right
            have : tausTest s = true := by
              rcases ih with ih | ih
              · rw [postChecks_eq, hi.cfg, ht', ih] at hp
                exact hp
              · exact ih
            exact this
        all_goals exact absurd trivial hs

/-- In a history without partial failures the output depth check means what it says. -/
theorem post_iff [Fp F] {c : Config} {kernels : Int → Int} {quad : Int → F} {h s} (hw : WF c)
    (hr : Reach c kernels quad h s) (hq : Quiet h)
    (hset : optsOf c.options .outputAtTaus → s.isSet .utaus = true) :
    postChecks s = true ↔ (optsOf c.options .outputAtTaus → TausOk c s.f) := by
  have hi := hr.inv hw
  by_cases ht : optsOf c.options .outputAtTaus
  · have ht' : has c.options OPT_OUTPUT_AT_TAUS = true := (has_opt _ .outputAtTaus).2 ht
    have h1 := tausTest_iff s (by rw [hi.cfg]; exact hw.outLevels) (fun i h1 h2 =>
      hi.cells .utaus _ (hset ht) ⟨i, h1, by rw [hi.cfg] at h2; exact h2, rfl⟩)
    rw [hi.cfg] at h1
    simp only [ht, forall_const]
    rw [← h1, postChecks_eq, hi.cfg, ht']
    rcases reach_taus hw hr hq ht with h2 | h2
    · simp [h2]
    · simp [h2]
  · have ht' : has c.options OPT_OUTPUT_AT_TAUS = false := by
      rw [Bool.eq_false_iff]; exact fun h => ht ((has_opt _ .outputAtTaus).1 h)
    simp [postChecks_eq, hi.cfg, ht', ht]

/-- Depths that are in order are never refused. -/
theorem post_of_ok [Fp F] {c : Config} {kernels : Int → Int} {s : State F} (hw : WF c) (hi : Inv c kernels s)
    (hset : optsOf c.options .outputAtTaus → s.isSet .utaus = true)
    (hok : optsOf c.options .outputAtTaus → TausOk c s.f) : postChecks s = true := by
  rw [postChecks_eq, hi.cfg]
  split
  · next hx =>
    have ht := (has_opt _ .outputAtTaus).1 (by simp only [Bool.and_eq_true] at hx; exact hx.1)
    rw [tausTest_iff s (by rw [hi.cfg]; exact hw.outLevels) (fun i h1 h2 =>
      hi.cells .utaus _ (hset ht) ⟨i, h1, by rw [hi.cfg] at h2; exact h2, rfl⟩), hi.cfg]
    exact hok ht
  · rfl

end Xrtm
