import Verif.Proof.StateK
import Verif.Proof.Session

/-! The number of available Fourier terms and the output levels in the state machine. -/

namespace Xrtm

open Spec

variable {F : Type}

namespace Spec
variable [Fp F]

/-- How many Fourier terms there are to sum, from the options and from the angles given so far: one if
azimuthal dependence is switched off, if there is emission but no sunlight, or for unpolarised light if
the sun or the only output angle is at the zenith. -/
def fourTerms (c : Config) (mu0 umu : Option F) (n : Int) : Prop :=
  let one := optsOf c.options .noAzimuthal ∨
    (¬ optsOf c.options .sourceSolar ∧ optsOf c.options .sourceThermal) ∨
    (c.nStokes = 1 ∧ ((∃ x, mu0 = some x ∧ Fp.eq x Fp.one = true) ∨
      (c.nOutThetas = 1 ∧ ∃ x, umu = some x ∧ Fp.eq x Fp.one = true)))
  (one → n = 1) ∧ (¬ one → n = c.nFour)

/-- Solvers that only give radiances at the top and at the bottom. -/
def endsOnly : List Solver := [.doubAdd, .eigAdd, .padeAdd, .sos, .twoOs]

/-- The output levels a user may ask for. -/
structure LevelsOk (c : Config) (l : Int → Int) : Prop where
  option : optsOf c.options .outputAtLevels
  range : ∀ j, 0 ≤ j → j < c.nOutLevels → 0 ≤ l j ∧ l j ≤ c.nLayers
  increasing : ∀ j, 0 ≤ j → j + 1 < c.nOutLevels → l j < l (j + 1)
  ends : (∃ x ∈ endsOnly, solversOf c.solvers x) → ∀ j, 0 ≤ j → j < c.nOutLevels → l j = 0 ∨ l j = c.nLayers
  topDown : optsOf c.options .topDownAdding → l 0 = c.nLayers
  bottomUp : optsOf c.options .bottomUpAdding → l 0 = 0

end Spec

variable [Fp F]

theorem nFour2Of_spec {c : Config} {b1 b2 : Bool} {m u : F} :
    fourTerms c (if b1 then some m else none) (if b2 then some u else none) (nFour2Of c b1 b2 m u) := by
  have e1 : optsOf c.options .noAzimuthal ↔ has c.options OPT_NO_AZIMUTHAL = true := by
    rw [OPT_NO_AZIMUTHAL, has_bit _ _ (by decide)]; rfl
  have e2 : optsOf c.options .sourceSolar ↔ solar c = true := by
    rw [solar, OPT_SOURCE_SOLAR, has_bit _ _ (by decide)]; rfl
  have e3 : optsOf c.options .sourceThermal ↔ thermal c = true := by
    rw [thermal, OPT_SOURCE_THERMAL, has_bit _ _ (by decide)]; rfl
  unfold fourTerms nFour2Of
  dsimp only
  rw [e1, e2, e3]
  have hx : ∀ (b : Bool) (x : F), (∃ y, (if b = true then some x else none) = some y ∧ Fp.eq y Fp.one = true) ↔
      (b && Fp.eq x Fp.one) = true := by
    intro b x; cases b <;> simp
  rw [hx, hx]
  have : (has c.options OPT_NO_AZIMUTHAL || (!(solar c) && thermal c) ||
      (decide (c.nStokes = 1) && ((b1 && Fp.eq m Fp.one) ||
        (b2 && decide (c.nOutThetas = 1) && Fp.eq u Fp.one)))) = true ↔
      (has c.options OPT_NO_AZIMUTHAL = true ∨ (¬ solar c = true ∧ thermal c = true) ∨
        (c.nStokes = 1 ∧ ((b1 && Fp.eq m Fp.one) = true ∨ (c.nOutThetas = 1 ∧ (b2 && Fp.eq u Fp.one) = true)))) := by
    simp only [Bool.or_eq_true, Bool.and_eq_true, decide_eq_true_eq, Bool.not_eq_true', Bool.not_eq_true]
    tauto
  refine ⟨fun h => ?_, fun h => ?_⟩
  · rw [if_pos (this.2 h)]
  · rw [if_neg (fun h' => h (this.1 h'))]

section
attribute [local simp] given_eq_some mem_upto mem_between ckIdx ckDerivs ckKernels scalarCmds
  layerCmds layerLCmds coefCmds coefLCmds omegaCmds ltauCmds
  mem_adjustCmds_wrI mem_adjustCmds_flag mem_adjustCmds_flagI ite_nil_mem

theorem theta0_four2 (s : State F) (x : F) :
    lastI (setCmds s (.setTheta0 x)) .nFour2 =
      some (nFour2Of s.cfg true (s.isSet .umus) (Fp.cos (Fp.mul x Fp.d2r)) (s.fv (.qx s.cfg.nQuad))) := by
  apply lastI_of
  · intro y h; simp [setCmds] at h; rw [h]
  · intro y h; simp at h; simp [setCmds, h]

theorem thetas_four2 (s : State F) (t : Int → F) :
    lastI (setCmds s (.setOutThetas t)) .nFour2 =
      some (nFour2Of s.cfg (s.isSet .mu0) true (s.fv .mu00) (Fp.cos (Fp.mul (t 0) Fp.d2r))) := by
  apply lastI_of
  · intro y h; simp [setCmds] at h; rw [h]
  · intro y h; simp at h; simp [setCmds, h]

theorem other_four2 (s : State F) (op : Op F) (h1 : ∀ x, op ≠ .setTheta0 x) (h2 : ∀ t, op ≠ .setOutThetas t) :
    lastI (setCmds s op) .nFour2 = none := by
  rw [lastI_none]
  intro x h
  cases op with
  | setTheta0 t => exact absurd rfl (h1 t)
  | setOutThetas t => exact absurd rfl (h2 t)
  | setCoef1 i n c => by_cases hn : n < 0 <;> simp [setCmds, hn] at h
  | setCoefN n c => cases n <;> simp [setCmds] at h
  | setOmegaL a => cases a <;> simp [setCmds] at h
  | setLtauL a => cases a <;> simp [setCmds] at h
  | _ => simp [setCmds] at h

end

theorem fourTerms_congr {c : Config} {m m' u u' : Option F} {n : Int} (h : fourTerms c m u n) (h1 : m = m')
    (h2 : c.nOutThetas = 1 → u = u') : fourTerms c m' u' n := by
  subst h1
  by_cases ho : c.nOutThetas = 1
  · rw [← h2 ho]; exact h
  · simp only [fourTerms, ho, false_and, or_false] at h ⊢; exact h

theorem fv_some {s : State F} {l : FLoc} (h : (s.f l).isSome = true) : s.f l = some (s.fv l) := by
  obtain ⟨x, hx⟩ := Option.isSome_iff_exists.1 h
  simp [State.fv, hx]

/-- After any history without failed calls of the leaky setters, `n_four2` is what the present angles and
options ask for. -/
theorem reach_four2 {c : Config} {kernels : Int → Int} {quad : Int → F} {h s} (hw : WF c)
    (hr : Reach c kernels quad h s) (hq : Quiet h) :
    ∃ n, s.i .nFour2 = some n ∧
      fourTerms c (if s.isSet .mu0 then s.f .mu00 else none) (if s.isSet .umus then s.f (.qx c.nQuad) else none) n := by
  induction hr with
  | init =>
      refine ⟨_, rfl, ?_⟩
      exact nFour2Of_spec (b1 := false) (b2 := false)
  | @call h s op r s' hr hc ih =>
      have ih := @ih fun o ho => hq o (List.mem_cons_of_mem _ ho)
      have hi := hr.inv hw
      by_cases hok : r = .ok
      · subst hok
        by_cases hs : IsSet op
        · have hf := (call_ok hi hc).1
          obtain ⟨_, he⟩ | ⟨h, _⟩ := apply_set_cases hs hc
          · have hI : ∀ l, s'.i l = (lastI (setCmds s op) l).or (s.i l) := fun l => by rw [exec_done he, effs_i]
            have hS : ∀ l, s'.isSet l = (s.isSet l || flags s.inputsInit (setCmds s op) l) := fun l => by
              rw [exec_done he, effs_isSet]
            by_cases h1 : ∃ x, op = .setTheta0 x
            · obtain ⟨x, rfl⟩ := h1
              have f1 : s'.f .mu00 = some (cosDeg x) := by rw [hf _ (by simp)]; rfl
              have f2 : s'.f (.qx c.nQuad) = s.f (.qx c.nQuad) := by rw [hf _ (by simp)]; simp [assignF]
              have s1 : s'.isSet .mu0 = true := by
                rw [hS, flags_iff.2 (Or.inl (by simp [setCmds])), Bool.or_true]
              have s2 : s'.isSet .umus = s.isSet .umus := by
                rw [hS]
                have : flags s.inputsInit (setCmds s (.setTheta0 x)) .umus = false := by
                  cases hfl : flags s.inputsInit (setCmds s (.setTheta0 x)) .umus
                  · rfl
                  · have := (set_flags s (.setTheta0 x) .umus).1 (flags_mono hfl)
                    simp [Provides] at this
                rw [this, Bool.or_false]
              refine ⟨_, (hI _).trans (by rw [theta0_four2]; rfl), ?_⟩
              rw [s1, s2, f1, f2, hi.cfg]
              have := nFour2Of_spec (c := c) (b1 := true) (b2 := s.isSet .umus) (m := cosDeg x) (u := s.fv (.qx c.nQuad))
              by_cases hu : s.isSet .umus = true
              · refine fourTerms_congr this rfl (fun ho => ?_)
                rw [hu]; simp only [if_true]
                exact (fv_some (hi.cells .umus _ hu ⟨c.nQuad, le_refl _, by omega, rfl⟩)).symm
              · have hu : s.isSet .umus = false := by simpa using hu
                rw [hu] at this ⊢; exact this
            · by_cases h2 : ∃ t, op = .setOutThetas t
              · obtain ⟨t, rfl⟩ := h2
                have f1 : s'.f .mu00 = s.f .mu00 := by rw [hf _ (by simp)]; simp [assignF]
                have f2 : c.nOutThetas = 1 → s'.f (.qx c.nQuad) = some (cosDeg (t 0)) := by
                  intro ho
                  rw [hf _ (by simp)]; simp [assignF, given, outAngle, ho]
                have s1 : s'.isSet .umus = true := by
                  rw [hS, flags_iff.2 (Or.inl (by simp [setCmds])), Bool.or_true]
                have s2 : s'.isSet .mu0 = s.isSet .mu0 := by
                  rw [hS]
                  have : flags s.inputsInit (setCmds s (.setOutThetas t)) .mu0 = false := by
                    cases hfl : flags s.inputsInit (setCmds s (.setOutThetas t)) .mu0
                    · rfl
                    · have := (set_flags s (.setOutThetas t) .mu0).1 (flags_mono hfl)
                      simp [Provides] at this
                  rw [this, Bool.or_false]
                refine ⟨_, (hI _).trans (by rw [thetas_four2]; rfl), ?_⟩
                rw [s1, s2, f1, hi.cfg]
                have := nFour2Of_spec (c := c) (b1 := s.isSet .mu0) (b2 := true) (m := s.fv .mu00) (u := cosDeg (t 0))
                refine fourTerms_congr this ?_ (fun ho => by rw [f2 ho])
                by_cases hm : s.isSet .mu0 = true
                · rw [hm]; simp only [if_true]
                  exact (fv_some (hi.cells .mu0 _ hm rfl)).symm
                · have hm : s.isSet .mu0 = false := by simpa using hm
                  rw [hm]; rfl
              · have h1 : ∀ x, op ≠ .setTheta0 x := fun x e => h1 ⟨x, e⟩
                have h2 : ∀ x, op ≠ .setOutThetas x := fun x e => h2 ⟨x, e⟩
                obtain ⟨n, hn, ht⟩ := ih
                refine ⟨n, (hI _).trans (by rw [other_four2 s op h1 h2]; exact hn), ?_⟩
                have f1 : s'.f .mu00 = s.f .mu00 := by
                  rw [hf _ (by simp)]
                  cases op <;> simp [assignF] <;> exact absurd rfl (h1 _)
                have f2 : s'.f (.qx c.nQuad) = s.f (.qx c.nQuad) := by
                  rw [hf _ (by simp)]
                  cases op <;> simp [assignF] <;> exact absurd rfl (h2 _)
                have hS' : ∀ l, ¬ Provides s.cfg s.kernels op l → s'.isSet l = s.isSet l := by
                  intro l hl
                  rw [hS]
                  have : flags s.inputsInit (setCmds s op) l = false := by
                    cases hfl : flags s.inputsInit (setCmds s op) l
                    · rfl
                    · exact absurd ((set_flags s op l).1 (flags_mono hfl)) hl
                  rw [this, Bool.or_false]
                have s1 : s'.isSet .mu0 = s.isSet .mu0 := by
                  apply hS'; cases op <;> simp [Provides] <;> exact absurd rfl (h1 _)
                have s2 : s'.isSet .umus = s.isSet .umus := by
                  apply hS'; cases op <;> simp [Provides] <;> exact absurd rfl (h2 _)
                rw [s1, s2, f1, f2]; exact ht
          · exact absurd rfl h
        · obtain ⟨e, _⟩ := apply_other hs hc
          obtain ⟨n, hn, ht⟩ := ih
          exact ⟨n, by rw [← hn, e.i], by rw [e.f, e.isSet]; exact ht⟩
      · have hl : Leaky op = false := hq (op, r) (by simp) hok
        have hf := call_frame hw hi hc hok
        have l1 : ∀ l, ¬ LeakI c op l := by intro l; cases op <;> simp [Leaky] at hl <;> simp [LeakI]
        have l2 : ∀ l, ¬ LeakF c op l := by intro l; cases op <;> simp [Leaky] at hl <;> simp [LeakF]
        have l3 : ∀ l, ¬ LeakS c op l := by intro l; cases op <;> simp [Leaky] at hl <;> simp [LeakS]
        obtain ⟨n, hn, ht⟩ := ih
        refine ⟨n, by rw [hf.i _ (l1 _), hn], ?_⟩
        rw [hf.isSet _ (l3 _), hf.isSet _ (l3 _), hf.f _ (l2 _), hf.f _ (l2 _)]; exact ht

/-! ### Output levels -/

theorem checkSolvers_ne (w : Word) (l : List Word) : checkSolversList w l ≠ 0 ↔ ∃ x ∈ l, has w x = true := by
  induction l with
  | nil => simp [checkSolversList]
  | cons a l ih =>
      unfold checkSolversList
      by_cases h : has w a = true
      · simp [h]
      · rw [if_neg h, ih]; simp [h]

theorem endsOnly_iff (w : Word) : (∃ x ∈ endsOnly, solversOf w x) ↔
    checkSolversList w [SOLVER_DOUB_ADD, SOLVER_EIG_ADD, SOLVER_PADE_ADD, SOLVER_SOS, SOLVER_TWO_OS] ≠ 0 := by
  rw [checkSolvers_ne]
  simp only [endsOnly, List.mem_cons, List.not_mem_nil, or_false, exists_eq_or_imp, exists_eq_left]
  rw [SOLVER_DOUB_ADD, SOLVER_EIG_ADD, SOLVER_PADE_ADD, SOLVER_SOS, SOLVER_TWO_OS,
    has_bit _ _ (by decide), has_bit _ _ (by decide), has_bit _ _ (by decide), has_bit _ _ (by decide),
    has_bit _ _ (by decide)]
  rfl

theorem levels_passes {s : State F} {l : Int → Int} (hw : WF s.cfg) :
    Passes (setCmds s (.setOutLevels l)) ↔ LevelsOk s.cfg l := by
  have e1 : optsOf s.cfg.options .outputAtLevels ↔ has s.cfg.options OPT_OUTPUT_AT_LEVELS = true := by
    rw [OPT_OUTPUT_AT_LEVELS, has_bit _ _ (by decide)]; rfl
  have e2 : optsOf s.cfg.options .topDownAdding ↔ has s.cfg.options OPT_TOP_DOWN_ADDING = true := by
    rw [OPT_TOP_DOWN_ADDING, has_bit _ _ (by decide)]; rfl
  have e3 : optsOf s.cfg.options .bottomUpAdding ↔ has s.cfg.options OPT_BOTTOM_UP_ADDING = true := by
    rw [OPT_BOTTOM_UP_ADDING, has_bit _ _ (by decide)]; rfl
  constructor
  · intro hp
    obtain ⟨h1, h2⟩ := levels_facts hp
    unfold Passes at hp
    simp [setCmds] at hp
    have hp := hp .intErr
    simp at hp
    obtain ⟨a1, _, _, a4, a5, a6⟩ := hp
    refine ⟨e1.2 a1, h1, h2, ?_, fun h => a5 (e2.1 h), fun h => a6 (e3.1 h)⟩
    intro hx j hj0 hj1
    rw [endsOnly_iff] at hx
    have key : ∀ j, 0 ≤ j → j < 2 → j < s.cfg.nOutLevels → l j = 0 ∨ l j = s.cfg.nLayers := by
      intro j h0 h2 h3
      by_contra hh
      rw [not_or] at hh
      exact hx (a4 j (mem_upto.2 ⟨h0, by omega⟩) hh.1 hh.2)
    by_cases hj : j < 2
    · exact key j hj0 hj hj1
    · exfalso
      have k0 := h2 0 (by omega) (by omega)
      have k1 := h2 1 (by omega) (by omega)
      have k2 := h1 2 (by omega) (by omega)
      have k3 := h1 0 (by omega) (by omega)
      have := key 1 (by omega) (by omega) (by omega)
      simp only [zero_add] at k0
      have e : (1 : Int) + 1 = 2 := rfl
      rw [e] at k1
      omega
  · intro h
    have ho := hw.outLevels
    unfold Passes
    intro b r hm
    simp [setCmds] at hm
    rcases hm with hm | hm | hm | hm | hm | hm
    · rw [hm.1, Bool.not_eq_false']; exact e1.1 h.option
    · have := h.range 0 (by omega) ho
      rw [hm.1]; simp; omega
    · obtain ⟨x, hx, rfl, rfl⟩ := hm
      rw [mem_between] at hx
      have k1 := h.increasing (x - 1) (by omega) (by omega)
      have k2 := h.range x (by omega) (by omega)
      rw [Int.sub_add_cancel] at k1
      simp; omega
    · obtain ⟨x, hx, rfl, rfl⟩ := hm
      rw [mem_upto] at hx
      simp
      intro k1 k2
      by_contra hc
      rcases h.ends ((endsOnly_iff _).2 hc) x hx.1 (by omega) with k | k
      · exact k1 k
      · exact k2 k
    · rw [hm.1]
      simp
      exact fun k => h.topDown (e2.2 k)
    · rw [hm.1]
      simp
      exact fun k => h.bottomUp (e3.2 k)

end Xrtm
