import Verif.Proof.StateE

/-! API calls and histories. -/

namespace Xrtm

open Spec

variable {F : Type}

attribute [local simp] mem_upto mem_between

/-- The call is a setter. -/
def IsSet : Op F → Prop
  | .updateVariedLayers | .solve .. => False
  | _ => True

theorem apply_set [Fp F] (s : State F) {op : Op F} (h : IsSet op) :
    apply s op = (exec (setCmds s op) s).toOut := by
  cases op <;> first | rfl | exact absurd h (by simp [IsSet])

set_option maxHeartbeats 1000000 in
theorem set_codes [Fp F] (s : State F) (op : Op F) (b : Bool) (r : Code)
    (h : Cmd.check b r ∈ setCmds s op) : r ≠ .ok := by
  cases op with
  | setOutThetas t =>
      simp only [setCmds] at h
      obtain ⟨X, Y, he, hX, hY⟩ := adjust_split s.cfg (s.fv .mu00)
          ((upto s.cfg.nQuad).map (fun i => s.fv (.qx i)) ++
            (upto s.cfg.nOutThetas).map fun i => Fp.cos (Fp.mul (t i) Fp.d2r)) 0
      rw [he] at h
      simp only [List.mem_append, ite_nil_mem] at h
      simp at h
      rcases h with (⟨_, rfl⟩ | ⟨_, _, _, rfl⟩) | ⟨-, h | h⟩
      · simp
      · simp
      · rcases hX _ h with ⟨x, h⟩ | ⟨b, h⟩ <;> simp at h; simp [h]
      · have := hY _ h; simp at this
  | setTheta0 x =>
      simp only [setCmds] at h
      obtain ⟨X, Y, he, hX, hY⟩ := adjust_split s.cfg (Fp.cos (Fp.mul x Fp.d2r))
        ((upto (if s.isSet .umus then s.cfg.nQuad + s.cfg.nOutThetas else s.cfg.nQuad)).map
          fun i => s.fv (.qx i)) 0
      rw [he] at h
      simp only [List.mem_append, ite_nil_mem] at h
      simp at h
      rcases h with (⟨_, rfl⟩ | ⟨_, rfl⟩) | h | h
      · simp
      · simp
      · rcases hX _ h with ⟨x, h⟩ | ⟨b, h⟩ <;> simp at h; simp [h]
      · have := hY _ h; simp at this
  | setCoef1 i n c =>
      simp only [setCmds, coefCmds] at h
      split at h <;> simp [ckIdx] at h <;> grind
  | setCoefN n c =>
      cases n <;> simp [setCmds, coefCmds, ckIdx] at h <;> grind
  | _ =>
      simp [setCmds, scalarCmds, ckDerivs, ckIdx, ckKernels, omegaCmds, ltauCmds, layerCmds,
        coefLCmds, layerLCmds] at h
      try grind

set_option maxHeartbeats 1000000 in
theorem set_noNeed [Fp F] (s : State F) (op : Op F) (l : SLoc) (r : Code) :
    Cmd.needFlag l r ∉ setCmds s op := by
  intro h
  cases op with
  | setOutThetas t =>
      simp only [setCmds] at h
      obtain ⟨X, Y, he, hX, hY⟩ := adjust_split s.cfg (s.fv .mu00)
          ((upto s.cfg.nQuad).map (fun i => s.fv (.qx i)) ++
            (upto s.cfg.nOutThetas).map fun i => Fp.cos (Fp.mul (t i) Fp.d2r)) 0
      rw [he] at h
      simp only [List.mem_append, ite_nil_mem] at h
      simp at h
      rcases h with ⟨_, h | h⟩
      · rcases hX _ h with ⟨x, h⟩ | ⟨b, h⟩ <;> simp at h
      · have := hY _ h; simp at this
  | setTheta0 x =>
      simp only [setCmds] at h
      obtain ⟨X, Y, he, hX, hY⟩ := adjust_split s.cfg (Fp.cos (Fp.mul x Fp.d2r))
        ((upto (if s.isSet .umus then s.cfg.nQuad + s.cfg.nOutThetas else s.cfg.nQuad)).map
          fun i => s.fv (.qx i)) 0
      rw [he] at h
      simp only [List.mem_append, ite_nil_mem] at h
      simp at h
      rcases h with h | h
      · rcases hX _ h with ⟨x, h⟩ | ⟨b, h⟩ <;> simp at h
      · have := hY _ h; simp at this
  | setCoef1 i n c =>
      simp only [setCmds, coefCmds] at h
      split at h <;> simp [ckIdx] at h
  | setCoefN n c =>
      cases n <;> simp [setCmds, coefCmds, ckIdx] at h
  | _ =>
      simp [setCmds, scalarCmds, ckDerivs, ckIdx, ckKernels, omegaCmds, ltauCmds, layerCmds,
        coefLCmds, layerLCmds] at h

/-- A setter that stops reports an error. -/
theorem set_stop_code [Fp F] {s s' : State F} {op : Op F} {r : Code}
    (h : exec (setCmds s op) s = .stop r s') : r ≠ .ok := by
  obtain ⟨p, c, q, hcs, _, hc, _⟩ := exec_stop h
  have hm : c ∈ setCmds s op := by rw [hcs]; simp
  rcases (step1_stop hc).2 with ⟨b, rfl⟩ | ⟨l, rfl⟩
  · exact set_codes s op b r hm
  · exact absurd hm (set_noNeed s op l r)

theorem apply_set_cases [Fp F] {s s' : State F} {op : Op F} {r : Code} (hs : IsSet op)
    (h : apply s op = .ret r s') :
    (r = .ok ∧ exec (setCmds s op) s = .done s') ∨ (r ≠ .ok ∧ exec (setCmds s op) s = .stop r s') := by
  rw [apply_set s hs] at h
  cases he : exec (setCmds s op) s with
  | done s1 =>
      rw [he] at h
      simp only [Res.toOut, Out.ret.injEq] at h
      exact .inl ⟨h.1.symm, by rw [h.2]⟩
  | stop r1 s1 =>
      rw [he] at h
      simp only [Res.toOut, Out.ret.injEq] at h
      obtain ⟨rfl, rfl⟩ := h
      exact .inr ⟨set_stop_code he, rfl⟩
  | ub k => rw [he] at h; simp [Res.toOut] at h

/-- The memory of the inputs is the same. -/
structure SameInputs (s s' : State F) : Prop where
  cfg : s'.cfg = s.cfg
  kern : s'.kernels = s.kernels
  f : s'.f = s.f
  i : s'.i = s.i
  isSet : s'.isSet = s.isSet
  notices : s'.notices = s.notices

theorem SameInputs.refl (s : State F) : SameInputs s s := ⟨rfl, rfl, rfl, rfl, rfl, rfl⟩

/-- The outcome of `xrtm_solution`, case by case. -/
theorem solve_eq [Fp F] (s : State F) (solver sols : Word) (n : Int) (comp loc : Bool) :
    (solutionGate s.cfg.solvers solver sols n ≠ 0 ∧
      apply s (.solve solver sols n comp loc) = .ret .intErr s) ∨
    (solutionGate s.cfg.solvers solver sols n = 0 ∧ s.inputsInit = true ∧
      (∃ l, Required s.cfg s.kernels l ∧ s.isSet l = false) ∧
      apply s (.solve solver sols n comp loc) = .ret .minusOne s) ∨
    (solutionGate s.cfg.solvers solver sols n = 0 ∧
      (s.inputsInit = true → ∀ l, Required s.cfg s.kernels l → s.isSet l = true) ∧
      (postChecks s = false ∨ (calcDerivs s.cfg = true ∧ s.variedDue = true)) ∧
      apply s (.solve solver sols n comp loc) = .ret .minusOne { s with inputsInit := false }) ∨
    (solutionGate s.cfg.solvers solver sols n = 0 ∧
      (s.inputsInit = true → ∀ l, Required s.cfg s.kernels l → s.isSet l = true) ∧
      postChecks s = true ∧ ¬ (calcDerivs s.cfg = true ∧ s.variedDue = true) ∧
      apply s (.solve solver sols n comp loc) = .ret (if comp then .ok else .intErr)
        { s with inputsInit := false,
                 depUtaus := if loc then s.depUtaus &&& ~~~utausDeps else s.depUtaus }) := by
  simp only [apply]
  by_cases hg : solutionGate s.cfg.solvers solver sols n = 0
  · rw [if_neg (by simp [hg])]
    simp only [preprocess]
    rcases gateInputs_eq s with ⟨e, hc⟩ | ⟨e, hi, hm⟩
    · rw [e]
      have hp : postChecks { s with inputsInit := false } = postChecks s := rfl
      simp only [hp]
      cases hpc : postChecks s with
      | false => exact .inr (.inr (.inl ⟨hg, hc, .inl rfl, rfl⟩))
      | true =>
          by_cases hv : calcDerivs s.cfg = true ∧ s.variedDue = true
          · refine .inr (.inr (.inl ⟨hg, hc, .inr hv, ?_⟩))
            simp [hv]
          · refine .inr (.inr (.inr ⟨hg, hc, rfl, hv, ?_⟩))
            simp only [Bool.and_eq_true, hv]
            cases loc <;> simp
    · rw [e]
      exact .inr (.inl ⟨hg, hi, hm, rfl⟩)
  · rw [if_pos (by simpa using hg)]
    exact .inl ⟨hg, rfl⟩

/-- The outcome of `xrtm_update_varied_layers`. -/
theorem varied_eq [Fp F] (s : State F) :
    (calcDerivs s.cfg = false ∧ apply s .updateVariedLayers = .ret .intErr s) ∨
    (calcDerivs s.cfg = true ∧ s.inputsInit = true ∧
      (∃ l, Required s.cfg s.kernels l ∧ s.isSet l = false) ∧
      apply s .updateVariedLayers = .ret .intErr s) ∨
    (calcDerivs s.cfg = true ∧
      (s.inputsInit = true → ∀ l, Required s.cfg s.kernels l → s.isSet l = true) ∧
      apply s .updateVariedLayers = .ret .ok { s with inputsInit := false, variedDue := false }) := by
  simp only [apply]
  cases hd : calcDerivs s.cfg with
  | false => exact .inl ⟨rfl, rfl⟩
  | true =>
      rcases gateInputs_eq s with ⟨e, hc⟩ | ⟨e, hi, hm⟩
      · rw [e]
        exact .inr (.inr ⟨rfl, hc, rfl⟩)
      · rw [e]
        exact .inr (.inl ⟨rfl, hi, hm, rfl⟩)

/-- What a call other than a setter does to the state. -/
theorem apply_other [Fp F] {s s' : State F} {op : Op F} {r : Code} (hs : ¬ IsSet op)
    (h : apply s op = .ret r s') :
    SameInputs s s' ∧
    (s'.inputsInit = s.inputsInit ∨
      (s'.inputsInit = false ∧ ∀ l, Required s.cfg s.kernels l → s.isSet l = true)) := by
  have key : ∀ s1 : State F, SameInputs s s1 → s1.inputsInit = false →
      (s.inputsInit = true → ∀ l, Required s.cfg s.kernels l → s.isSet l = true) → s1 = s' →
      SameInputs s s' ∧ (s'.inputsInit = s.inputsInit ∨
        (s'.inputsInit = false ∧ ∀ l, Required s.cfg s.kernels l → s.isSet l = true)) := by
    rintro s1 h1 h2 hc rfl
    refine ⟨h1, ?_⟩
    cases hi : s.inputsInit
    · exact .inl h2
    · exact .inr ⟨h2, hc hi⟩
  cases op <;> first | exact absurd trivial hs | skip
  · rcases varied_eq s with ⟨_, e⟩ | ⟨_, _, _, e⟩ | ⟨_, hc, e⟩ <;> rw [e] at h <;>
      simp only [Out.ret.injEq] at h
    · rw [← h.2]; exact ⟨.refl s, .inl rfl⟩
    · rw [← h.2]; exact ⟨.refl s, .inl rfl⟩
    · refine key _ ?_ ?_ hc h.2 <;> first | exact ⟨rfl, rfl, rfl, rfl, rfl, rfl⟩ | rfl
  · rename_i solver sols n comp loc
    rcases solve_eq s solver sols n comp loc with ⟨_, e⟩ | ⟨_, _, _, e⟩ | ⟨_, hc, _, e⟩ |
      ⟨_, hc, _, _, e⟩ <;> rw [e] at h <;> simp only [Out.ret.injEq] at h
    · rw [← h.2]; exact ⟨.refl s, .inl rfl⟩
    · rw [← h.2]; exact ⟨.refl s, .inl rfl⟩
    · refine key _ ?_ ?_ hc h.2 <;> first | exact ⟨rfl, rfl, rfl, rfl, rfl, rfl⟩ | rfl
    · refine key _ ?_ ?_ hc h.2 <;> first | exact ⟨rfl, rfl, rfl, rfl, rfl, rfl⟩ | rfl

theorem apply_not_ub [Fp F] {c : Config} {kernels : Int → Int} {s : State F} (hw : WF c)
    (hi : Inv c kernels s) (op : Op F) (k : UB) : apply s op ≠ .ub k := by
  by_cases hs : IsSet op
  · rw [apply_set s hs]
    have := exec_ne_ub (Extends.refl s) (set_safe s (by rw [hi.cfg]; exact (WF.facts hw)) hi.ready op) k
      (.inr rfl)
    intro h
    cases he : exec (setCmds s op) s <;> rw [he] at h <;> simp [Res.toOut] at h
    subst h
    exact this he
  · cases op <;> first | exact absurd trivial hs | skip
    · rcases varied_eq s with ⟨_, e⟩ | ⟨_, _, _, e⟩ | ⟨_, hc, e⟩ <;> rw [e] <;> simp
    · rename_i solver sols n comp loc
      rcases solve_eq s solver sols n comp loc with ⟨_, e⟩ | ⟨_, _, _, e⟩ | ⟨_, hc, _, e⟩ |
        ⟨_, hc, _, _, e⟩ <;> rw [e] <;> simp

theorem Inv.apply [Fp F] {c : Config} {kernels : Int → Int} {s s' : State F} (hw : WF c)
    (hi : Inv c kernels s) {op : Op F} {r : Code} (h : apply s op = .ret r s') :
    Inv c kernels s' := by
  by_cases hs : IsSet op
  · rcases apply_set_cases hs h with ⟨_, h⟩ | ⟨_, h⟩
    · exact hi.set_done hw.coef h
    · exact hi.set_stop (WF.facts hw) hw.coef h
  · obtain ⟨hsame, hcomp⟩ := apply_other hs h
    obtain ⟨e1, e2, e3, e4, e5, e6⟩ := hsame
    refine ⟨by rw [e1, hi.cfg], by rw [e2, hi.kern], by rw [e3]; exact hi.quad,
      by rw [e4]; exact hi.cnt, by rw [e5, e3]; exact hi.cells, by rw [e5, e4]; exact hi.cellsI, ?_⟩
    intro hf l hl
    rw [e5]
    rcases hcomp with he | ⟨_, he⟩
    · exact hi.complete (by rw [← he]; exact hf) l hl
    · exact he l (by rw [hi.cfg, hi.kern]; exact hl)

/-- The invariant holds after every history. -/
theorem Reach.inv [Fp F] {c : Config} {kernels : Int → Int} {quad : Int → F} {h s} (hw : WF c)
    (hr : Reach c kernels quad h s) : Inv c kernels s := by
  induction hr with
  | init => exact Inv.init hw.coef kernels quad
  | call _ ha ih => exact ih.apply hw ha

end Xrtm
