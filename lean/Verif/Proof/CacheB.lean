import Verif.Proof.CacheA
import Verif.Proof.StateK
import Verif.Spec.Cache

/-! The tables of `Verif.Model.Cache`: asks go down, reads are closed, masks are complete. -/

namespace Xrtm

open Spec

variable {F V R : Type}

theorem asks_rank {c : Config} {u u' : CUnit} {p p' : CPart} (h : asks c u p u' p') :
    u'.rank < u.rank := by
  cases u <;> cases u' <;> simp_all [asks, CUnit.rank]

theorem asks_valid {c : Config} {u u' : CUnit} {p p' : CPart} (h : asks c u p u' p')
    (hv : ValidU c u) : ValidU c u' := by
  cases u <;> cases u' <;> simp_all [asks, ValidU, CUnit.layer?]

theorem asks_parts {c : Config} {u u' : CUnit} {p p' : CPart} (h : asks c u p u' p') :
    p' ∈ u'.parts := by
  cases u <;> cases u' <;> simp only [asks] at h <;> cases p' <;>
    simp_all [CUnit.parts, CPart.linear]

theorem asks_covered {fx : Prop} {c : Config} {u u' : CUnit} {p p' : CPart} (h : asks c u p u' p')
    (hc : Covered fx c u p) : Covered fx c u' p' := by
  by_cases hf : fx <;> cases u <;> cases u' <;> simp only [asks] at h <;> simp only [Covered] at hc ⊢ <;>
    cases p <;> cases p' <;> simp_all [CPart.linear] <;> tauto

theorem asks_readsF {c : Config} {u u' : CUnit} {p p' : CPart} (h : asks c u p u' p') {l : FLoc}
    (hl : readsF c u' p' l) : readsF c u p l := by
  cases u <;> cases u' <;> simp only [asks] at h <;>
    cases p' <;> simp [CPart.linear] at h <;> cases l <;>
    simp_all [readsF, CPart.linear, beamReads] <;> tauto

theorem asks_readsI {c : Config} {u u' : CUnit} {p p' : CPart} (h : asks c u p u' p') {l : ILoc}
    (hl : readsI c u' p' l) : readsI c u p l := by
  cases u <;> cases u' <;> simp only [asks] at h <;> cases l <;> simp_all [readsI]

theorem asks_readsA {c : Config} {u u' : CUnit} {p p' : CPart} (h : asks c u p u' p')
    (hl : readsA u' p') : readsA u p := by
  cases u <;> cases u' <;> simp only [asks] at h <;> simp_all [readsA] <;>
    cases p' <;> simp_all [CPart.linear]

theorem has_mono {w m v : Word} (h : has w m = true) (hm : m &&& ~~~v = 0) : has w v = true := by
  simp only [has, bne_iff_ne, ne_eq, decide_eq_true_eq] at *
  intro hc
  apply h
  have : w &&& m = (w &&& v) &&& m ||| w &&& (m &&& ~~~v) := by
    ext i hi
    simp only [BitVec.getElem_and, BitVec.getElem_or, BitVec.getElem_not]
    cases w[i] <;> cases m[i] <;> cases v[i] <;> rfl
  rw [this, hc, hm]; simp

theorem has_and_not {w m v : Word} (hm : m &&& ~~~v = 0) : has (w &&& ~~~v) m = false := by
  simp only [has, bne_eq_false_iff_eq, decide_eq_false_iff_not, not_not, ne_eq]
  have : w &&& ~~~v &&& m = w &&& (m &&& ~~~v) := by
    ext i hi
    simp only [BitVec.getElem_and, BitVec.getElem_not]
    cases w[i] <;> cases m[i] <;> cases v[i] <;> rfl
  rw [this, hm]; simp

theorem trig_sub (c : Config) (u : CUnit) (p : CPart) (hp : p ∈ u.parts) :
    u.trig c p &&& ~~~(u.deps c) = 0 := by
  cases u <;> cases p <;> simp [CUnit.parts] at hp <;>
    simp only [CUnit.trig, BitVec.and_not_self, CUnit.deps] <;>
    first
    | rfl
    | decide
    | (apply BitVec.eq_of_getLsbD_eq; intro i hi; simp [BitVec.getLsbD_and, BitVec.getLsbD_not])

theorem dep_selfs :
    has DEP_COEF DEP_COEF = true ∧
    has DEP_COEF_L DEP_COEF_L = true ∧
    has DEP_OMEGA DEP_OMEGA = true ∧
    has DEP_OMEGA_L DEP_OMEGA_L = true ∧
    has DEP_LTAU DEP_LTAU = true ∧
    has DEP_LTAU_L DEP_LTAU_L = true ∧
    has DEP_UTAUS DEP_UTAUS = true ∧
    has DEP_MU_0 DEP_MU_0 = true ∧
    has DEP_PLANET_R DEP_PLANET_R = true ∧
    has DEP_LEVELS_Z DEP_LEVELS_Z = true ∧
    has DEP_UMUS DEP_UMUS = true ∧
    has DEP_PADE_PARAMS DEP_PADE_PARAMS = true ∧
    has DEP_F_ISO_TOP DEP_F_ISO_TOP = true ∧
    has DEP_F_ISO_BOT DEP_F_ISO_BOT = true ∧
    has DEP_F_0 DEP_F_0 = true ∧
    has DEP_BRDF DEP_BRDF = true := by decide

theorem coefDeps_coef (c : Config) : has (coefDeps c) DEP_COEF = true := by
  unfold coefDeps; split
  · split <;> decide
  · decide

theorem coefDeps_more {c : Config} (hu : useCoef c = true) (hd : has c.options OPT_DELTA_M = true) :
    has (coefDeps c) DEP_OMEGA = true ∧ has (coefDeps c) DEP_LTAU = true := by
  unfold coefDeps; rw [hu, hd]; simp only [Bool.and_self, if_true]; split <;> decide

theorem coefLDeps_coef (c : Config) : has (coefLDeps c) DEP_COEF_L = true := by
  unfold coefLDeps; split <;> decide

theorem coefLDeps_more {c : Config} (hu : useCoef c = true) (hd : has c.options OPT_DELTA_M = true) :
    has (coefLDeps c) DEP_OMEGA_L = true ∧ has (coefLDeps c) DEP_LTAU_L = true := by
  unfold coefLDeps; rw [hu, hd]; decide

theorem omegaDeps_omega (c : Config) : has (omegaDeps c) DEP_OMEGA = true := by
  unfold omegaDeps; split
  · split <;> decide
  · decide

theorem omegaDeps_more {c : Config} (hu : useCoef c = true) (hd : has c.options OPT_DELTA_M = true) :
    has (omegaDeps c) DEP_LTAU = true := by
  unfold omegaDeps; rw [hu, hd]; simp only [Bool.and_self, if_true]; split <;> decide

theorem omegaLDeps_omega (c : Config) : has (omegaLDeps c) DEP_OMEGA_L = true := by
  unfold omegaLDeps; split <;> decide

theorem omegaLDeps_more {c : Config} (hd : has c.options OPT_DELTA_M = true) :
    has (omegaLDeps c) DEP_LTAU_L = true := by
  unfold omegaLDeps; rw [hd]; decide

set_option maxHeartbeats 2000000 in
/-- For a covered quantity that is kept, every input it reads is announced with a mask, and to a
range of layers, that makes it be recomputed. -/
theorem complete_F {fx : Prop} {c : Config} (hu : useCoef c = true) {u : CUnit} {p : CPart} (hc : Covered fx c u p)
    (hk : u.kept c = true) (hp : p ∈ u.parts) {l : FLoc} (hl : readsF c u p l) (hm : l ≠ .mu0) :
    (∃ j, l = .qx j ∧ (j < c.nQuad ∨ c.nOutThetas ≤ 0)) ∨
    ∃ m, noticeF c l = some m ∧ has m (u.trig c p) = true ∧
      (l.layer? = none ∨ u.layer? = none ∨ u.layer? = l.layer?) := by
  have e1 := coefDeps_coef c
  have e2 := coefDeps_more (c := c) hu
  have e3 := coefLDeps_coef c
  have e4 := coefLDeps_more (c := c) hu
  have e5 := omegaDeps_omega c
  have e6 := omegaDeps_more (c := c) hu
  have e7 := omegaLDeps_omega c
  have e8 := omegaLDeps_more (c := c)
  cases u <;> cases p <;> simp [CUnit.parts] at hp <;> cases l <;>
    simp [readsF, CUnit.kept, Covered, LayerMaskFull, CPart.linear, beamReads] at hl hk hc <;>
    simp_all [CUnit.trig, CUnit.deps, noticeF, FLoc.layer?, CUnit.layer?, has_or, dep_selfs, optDeps, utausDeps,
      chapmanDeps, beamDeps, vecsQ0Deps, vecsU0Deps, matsQQDeps, matsUQDeps, locDeps, layerDeps,
      boundDeps, umusUnlessSfi, nQuadX]
  all_goals
    cases hs : has c.options OPT_SFI <;> (try simp_all [dep_selfs])
  all_goals tauto

theorem complete_I {fx : Prop} {c : Config} (hu : useCoef c = true) {u : CUnit} {p : CPart} (hc : Covered fx c u p)
    (hk : u.kept c = true) (hp : p ∈ u.parts) {l : ILoc} (hl : readsI c u p l) :
    ∃ m, noticeI c l = some m ∧ has m (u.trig c p) = true ∧
      (l.layer? = none ∨ u.layer? = none ∨ u.layer? = l.layer?) := by
  have e1 := coefDeps_coef c
  have e2 := coefDeps_more (c := c) hu
  cases u <;> cases p <;> simp [CUnit.parts] at hp <;> cases l <;>
    simp [readsI, CUnit.kept, Covered, LayerMaskFull, CPart.linear] at hl hk hc <;>
    simp_all [CUnit.trig, CUnit.deps, noticeI, ILoc.layer?, CUnit.layer?, has_or, dep_selfs, optDeps, utausDeps,
      chapmanDeps, beamDeps, vecsQ0Deps, vecsU0Deps, matsQQDeps, matsUQDeps, locDeps, layerDeps,
      boundDeps]

theorem complete_A {fx : Prop} {c : Config} {u : CUnit} {p : CPart} (hc : Covered fx c u p)
    (hk : u.kept c = true) (hfx : ¬ fx) : ¬ readsA u p := by
  cases u <;> simp_all [Covered, readsA, CUnit.kept]

/-! ## Changes of inputs are announced -/

theorem change_F [Fp F] {c : Config} {kern : Int → Int} {s s' : State F} (hi : Inv c kern s)
    {op : Op F} {r : Code} (h : apply s op = .ret r s') (hcalm : Calm s op r s') {l : FLoc}
    (hne : s'.f l ≠ s.f l) {m : Word} (hm : noticeF c l = some m) :
    ∃ e ∈ newNotices s s', e.mask = m ∧ Covers c l.layer? e.lo e.hi := by
  by_cases hr : r = .ok
  · subst hr
    by_cases hs : IsSet op
    · rw [newNotices_set hs h]
      rcases apply_set_cases hs h with ⟨_, h⟩ | ⟨h, _⟩
      · rw [exec_done h, effs_f] at hne
        cases hx : lastF (setCmds s op) l with
        | none => simp [hx] at hne
        | some x =>
            rw [← hi.cfg] at hm ⊢
            obtain ⟨lo, hi', h1, h2⟩ := set_noticeF s op (lastF_mem hx) hm
            exact ⟨⟨m, lo, hi'⟩, mem_depsOf.2 h1, rfl, h2⟩
      · exact absurd rfl h
    · exact absurd (by rw [(apply_other hs h).1.f]) hne
  · exact absurd (by rw [(hcalm.refused hr).1]) hne

theorem change_I [Fp F] {c : Config} {kern : Int → Int} {s s' : State F} (hi : Inv c kern s)
    {op : Op F} {r : Code} (h : apply s op = .ret r s') (hcalm : Calm s op r s') {l : ILoc}
    (hne : s'.i l ≠ s.i l) {m : Word} (hm : noticeI c l = some m) :
    ∃ e ∈ newNotices s s', e.mask = m ∧ Covers c l.layer? e.lo e.hi := by
  by_cases hr : r = .ok
  · subst hr
    by_cases hs : IsSet op
    · rw [newNotices_set hs h]
      rcases apply_set_cases hs h with ⟨_, h⟩ | ⟨h, _⟩
      · rw [exec_done h, effs_i] at hne
        cases hx : lastI (setCmds s op) l with
        | none => simp [hx] at hne
        | some x =>
            rw [← hi.cfg] at hm ⊢
            obtain ⟨lo, hi', h1, h2⟩ := set_noticeI s op (lastI_mem hx) hm
            exact ⟨⟨m, lo, hi'⟩, mem_depsOf.2 h1, rfl, h2⟩
      · exact absurd rfl h
    · exact absurd (by rw [(apply_other hs h).1.i]) hne
  · exact absurd (by rw [(hcalm.refused hr).2]) hne

theorem change_qx [Fp F] {c : Config} {kern : Int → Int} {s s' : State F} (hi : Inv c kern s)
    {op : Op F} {r : Code} (h : apply s op = .ret r s') (hcalm : Calm s op r s') {j : Int}
    (hj : j < c.nQuad ∨ c.nOutThetas ≤ 0) : s'.f (.qx j) = s.f (.qx j) := by
  by_cases hr : r = .ok
  · subst hr
    rw [(call_ok hi h).1 _ (by simp)]
    have : assignF c kern (fun i => s.i (.nCoefLayer i)) op (.qx j) = none := by
      cases op <;> simp only [assignF]
      unfold given
      exact if_neg (by unfold outAngle; omega)
    rw [this, Option.none_or]
  · rw [(hcalm.refused hr).1]

/-! ## Words -/

theorem orAll_mono (dep : CUnit → Word) (es : List DepEv) (u : CUnit) {m : Word}
    (h : has (dep u) m = true) : has (orAll dep es u) m = true := by
  induction es with
  | nil => exact h
  | cons e es ih =>
      simp only [orAll, orDeps]
      split
      · exact has_or_left ih
      · exact ih

theorem has_or_left' {w m v : Word} (h : has m v = true) : has (w ||| m) v = true := by
  rw [BitVec.or_comm]; exact has_or_left h

theorem orAll_hit (dep : CUnit → Word) {es : List DepEv} {e : DepEv} (he : e ∈ es) {u : CUnit}
    (hu : e.hits u = true) {m : Word} (h : has e.mask m = true) : has (orAll dep es u) m = true := by
  induction es with
  | nil => simp at he
  | cons e' es ih =>
      simp only [orAll, orDeps]
      rcases List.mem_cons.1 he with rfl | he
      · rw [if_pos hu]; exact has_or_left' h
      · split
        · exact has_or_left (ih he)
        · exact ih he

theorem orAll_none (dep : CUnit → Word) {es : List DepEv} {u : CUnit} {m : Word}
    (h0 : has (dep u) m = false)
    (h : ∀ e ∈ es, e.hits u = true → has e.mask m = false) : has (orAll dep es u) m = false := by
  induction es with
  | nil => exact h0
  | cons e es ih =>
      have := ih fun e' he' => h e' (List.mem_cons_of_mem _ he')
      simp only [orAll, orDeps]
      split
      · rename_i hh
        have h2 := h e List.mem_cons_self hh
        have : has m (orAll dep es u ||| e.mask) = false := by
          rw [has_or, Bool.or_eq_false_iff]
          simp only [has, BitVec.and_comm m] at *
          exact ⟨this, h2⟩
        simpa only [has, BitVec.and_comm m] using this
      · exact this

theorem covers_hits {c : Config} {l : Option Int} {e : DepEv} (h : Covers c l e.lo e.hi) {u : CUnit}
    (hv : ValidU c u) (hl : l = none ∨ u.layer? = none ∨ u.layer? = l) : e.hits u = true := by
  unfold DepEv.hits
  cases hu : u.layer? with
  | none => rfl
  | some i =>
      have := hv i hu
      cases l with
      | none =>
          obtain ⟨h1, h2⟩ := h
          simp only [h1, h2]; simp; omega
      | some j =>
          rw [hu] at hl
          simp only [reduceCtorEq, Option.some.injEq, false_or] at hl
          subst hl
          obtain ⟨h1, h2⟩ := h
          simp [h1, h2]

end Xrtm
