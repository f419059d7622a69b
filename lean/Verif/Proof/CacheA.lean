import Verif.Model.Cache
import Verif.Proof.StateG

/-! Notices issued by the setters. -/

namespace Xrtm

open Spec

variable {F : Type}

/-- The mask with which a change of a `double` input is noticed; `none`: not noticed. -/
def noticeF (c : Config) : FLoc → Option Word
  | .doubDTau => some DEP_DOUB_D_TAU
  | .sosMaxTau | .sosTol | .fourierTol | .mu0 => none
  | .lambda => some DEP_LAMBDA
  | .planetR => some DEP_PLANET_R
  | .levelsZ _ => some DEP_LEVELS_Z
  | .utaus _ => some DEP_UTAUS
  | .qx _ => some DEP_UMUS
  | .fIsoTop => some DEP_F_ISO_TOP
  | .fIsoTopL _ => some DEP_F_ISO_TOP_L
  | .fIsoBot => some DEP_F_ISO_BOT
  | .fIsoBotL _ => some DEP_F_ISO_BOT_L
  | .f0 => some DEP_F_0
  | .mu00 => some DEP_MU_0
  | .phi0 => some DEP_PHI_0
  | .levelsB _ => some DEP_LEVELS_B
  | .levelsBL .. => some DEP_LEVELS_B_L
  | .surfaceB => some DEP_SURFACE_B
  | .surfaceBL _ => some DEP_SURFACE_B_L
  | .coef .. => some (coefDeps c)
  | .coefL .. => some (coefLDeps c)
  | .omega _ => some (omegaDeps c)
  | .omegaL .. => some (omegaLDeps c)
  | .ltau _ => some DEP_LTAU
  | .ltauL .. => some DEP_LTAU_L
  | .ampfac _ | .param .. => some DEP_BRDF
  | .ampfacL .. | .paramL .. => some DEP_BRDF_L

/-- The layer a `double` input belongs to. -/
def FLoc.layer? : FLoc → Option Int
  | .coef i _ _ | .coefL i _ _ _ | .omega i | .omegaL i _ | .ltau i | .ltauL i _ => some i
  | _ => none

def noticeI (c : Config) : ILoc → Option Word
  | .padeS | .padeR => some DEP_PADE_PARAMS
  | .sosMaxOs | .nFour2 => none
  | .ulevel _ => some DEP_ULEVELS
  | .nCoefLayer _ | .nCoefLayer2 _ => some (coefDeps c)
  | .kernelFunc _ => some DEP_BRDF

def ILoc.layer? : ILoc → Option Int
  | .nCoefLayer i | .nCoefLayer2 i => some i
  | _ => none

/-- A notice for the layers `[lo, hi)` covers an input. -/
def Covers (c : Config) (l : Option Int) (lo hi : Int) : Prop :=
  match l with
  | none => lo = 0 ∧ hi = c.nLayers
  | some i => lo ≤ i ∧ i < hi

attribute [local simp] given_eq_some mem_upto mem_between ckIdx ckDerivs ckKernels scalarCmds
  layerCmds layerLCmds coefCmds coefLCmds omegaCmds ltauCmds IsLayer IsDeriv IsKernel linAt
  LinArg.iLo LinArg.iHi LinArg.jLo LinArg.jHi LinArg.val isParam_iff

set_option maxHeartbeats 4000000 in
theorem set_noticeF [Fp F] (s : State F) (op : Op F) {l : FLoc} {x : F} {m : Word}
    (h : Cmd.wr l x ∈ setCmds s op) (hm : noticeF s.cfg l = some m) :
    ∃ lo hi, Cmd.dep m lo hi ∈ setCmds s op ∧ Covers s.cfg l.layer? lo hi := by
  cases op with
  | setOutThetas t =>
      simp only [setCmds, List.mem_append] at h
      rcases h with ((((h | h) | h) | h) | h) | h
      · simp at h
      · simp at h
      · simp at h
        obtain ⟨i, hi, e1, e2⟩ := h
        subst e1; subst e2
        simp only [noticeF, Option.some.injEq] at hm
        subst hm
        exact ⟨0, s.cfg.nLayers, by simp [setCmds], rfl, rfl⟩
      · simp at h
      · split at h
        · simp only [List.mem_append] at h
          rcases h with (h | h) | h
          · simp at h; simp [h.1, noticeF] at hm
          · simp at h
          · simp [mem_adjustCmds_wr h, noticeF] at hm
        · simp at h
      · simp at h
  | setTheta0 x =>
      simp only [setCmds, List.mem_append] at h
      rcases h with ((((h | h) | h) | h) | h) | h
      · simp at h
        obtain ⟨e1, e2⟩ := h
        subst e1; subst e2
        simp only [noticeF, Option.some.injEq] at hm
        subst hm
        exact ⟨0, s.cfg.nLayers, by simp [setCmds], rfl, rfl⟩
      · split at h <;> simp at h
      · simp at h; simp [h.1, noticeF] at hm
      · simp at h
      · simp [mem_adjustCmds_wr h, noticeF] at hm
      · simp at h
  | setCoef1 i n v =>
      have : ∃ j e k, (i ≤ j ∧ j < i + 1) ∧ l = .coef j e k := by
        simp only [setCmds, coefCmds, List.mem_append, List.mem_flatMap] at h
        rcases h with ((h | h) | ⟨j, hj, (h | ⟨e, he, h⟩) | h⟩) | h
        · simp at h
        · split at h <;> simp at h
        · simp at h
        · simp at h hj
          obtain ⟨k, hk, rfl, rfl⟩ := h
          exact ⟨j, e, k, hj, rfl⟩
        · simp at h
        · simp at h
      obtain ⟨j, e, k, hj, rfl⟩ := this
      simp only [noticeF, Option.some.injEq] at hm
      subst hm
      exact ⟨i, i + 1, by simp [setCmds], by simp [Covers, FLoc.layer?]; omega⟩
  | setCoefN n v =>
      have : ∃ j e k, (0 ≤ j ∧ j < s.cfg.nLayers) ∧ l = .coef j e k := by
        simp only [setCmds, coefCmds, List.mem_append, List.mem_flatMap] at h
        rcases h with ((h | h) | ⟨j, hj, (h | ⟨e, he, h⟩) | h⟩) | h
        · simp at h
        · split at h <;> simp at h
        · simp at h
        · simp at h hj
          obtain ⟨k, hk, rfl, rfl⟩ := h
          exact ⟨j, e, k, hj, rfl⟩
        · simp at h
        · simp at h
      obtain ⟨j, e, k, hj, rfl⟩ := this
      simp only [noticeF, Option.some.injEq] at hm
      subst hm
      exact ⟨0, s.cfg.nLayers, by simp [setCmds], by simp [Covers, FLoc.layer?]; omega⟩
  | setCoefL a =>
      simp only [setCmds, coefLCmds, List.mem_append, List.mem_flatMap] at h
      rcases h with (h | ⟨i, hi, j, hj, e, he, h⟩) | h
      · simp at h
      · simp only [List.mem_cons, reduceCtorEq, false_or, List.mem_map, Cmd.wr.injEq] at h
        obtain ⟨k, hk, rfl, rfl⟩ := h
        simp only [noticeF, Option.some.injEq] at hm
        subst hm
        refine ⟨a.iLo, a.iHi s.cfg, by simp [setCmds, coefLCmds], ?_⟩
        rw [mem_between] at hi
        exact hi
      · simp at h
  | setOmega1 i y =>
      simp [setCmds] at h
      have : l = .omega i := by
        rcases h with ⟨j, hj, rfl, rfl⟩ | ⟨j, hj, rfl, rfl⟩ <;> (congr; omega)
      subst this
      simp only [noticeF, Option.some.injEq] at hm
      subst hm
      exact ⟨i, i + 1, by simp [setCmds], by simp [Covers, FLoc.layer?]⟩
  | setOmegaN y =>
      simp [setCmds] at h
      have : ∃ j, (0 ≤ j ∧ j < s.cfg.nLayers) ∧ l = .omega j := by
        rcases h with ⟨j, hj, rfl, rfl⟩ | ⟨j, hj, rfl, rfl⟩ <;> exact ⟨j, hj, rfl⟩
      obtain ⟨j, hj, rfl⟩ := this
      simp only [noticeF, Option.some.injEq] at hm
      subst hm
      exact ⟨0, s.cfg.nLayers, by simp [setCmds], by simp [Covers, FLoc.layer?]; omega⟩
  | setOmegaL a =>
      simp only [setCmds, layerLCmds, List.mem_append, List.mem_flatMap] at h
      rcases h with (h | ⟨i, hi, h⟩) | h
      · simp at h
      · simp only [List.mem_map, Cmd.wr.injEq] at h
        obtain ⟨k, hk, rfl, rfl⟩ := h
        simp only [noticeF, Option.some.injEq] at hm
        subst hm
        refine ⟨a.iLo, a.iHi s.cfg, by simp [setCmds], ?_⟩
        rw [mem_between] at hi
        exact hi
      · simp at h
  | setLtauL a =>
      simp only [setCmds, layerLCmds, List.mem_append, List.mem_flatMap] at h
      rcases h with (h | ⟨i, hi, h⟩) | h
      · simp at h
      · simp only [List.mem_map, Cmd.wr.injEq] at h
        obtain ⟨k, hk, rfl, rfl⟩ := h
        simp only [noticeF, Option.some.injEq] at hm
        subst hm
        refine ⟨a.iLo, a.iHi s.cfg, by simp [setCmds], ?_⟩
        rw [mem_between] at hi
        exact hi
      · simp at h
  | setLtau1 i y =>
      simp [setCmds] at h
      obtain ⟨j, hj, rfl, rfl⟩ := h
      simp only [noticeF, Option.some.injEq] at hm
      subst hm
      exact ⟨i, i + 1, by simp [setCmds], by simp [Covers, FLoc.layer?]; omega⟩
  | setLtauN y =>
      simp [setCmds] at h
      obtain ⟨j, hj, rfl, rfl⟩ := h
      simp only [noticeF, Option.some.injEq] at hm
      subst hm
      exact ⟨0, s.cfg.nLayers, by simp [setCmds], by simp [Covers, FLoc.layer?]; omega⟩
  | _ =>
      simp [setCmds] at h
      all_goals
        cases l <;> simp at h <;> simp only [noticeF, Option.some.injEq, reduceCtorEq] at hm <;>
          subst hm <;> exact ⟨0, s.cfg.nLayers, by simp [setCmds], rfl, rfl⟩

set_option maxHeartbeats 4000000 in
theorem set_noticeI [Fp F] (s : State F) (op : Op F) {l : ILoc} {x : Int} {m : Word}
    (h : Cmd.wrI l x ∈ setCmds s op) (hm : noticeI s.cfg l = some m) :
    ∃ lo hi, Cmd.dep m lo hi ∈ setCmds s op ∧ Covers s.cfg l.layer? lo hi := by
  cases op with
  | setOutThetas t =>
      simp only [setCmds, List.mem_append] at h
      rcases h with ((((h | h) | h) | h) | h) | h
      · simp at h
      · simp at h
      · simp at h
      · simp at h; simp [h.1, noticeI] at hm
      · split at h
        · simp only [List.mem_append] at h
          rcases h with (h | h) | h
          · simp at h
          · simp at h
          · exact absurd h mem_adjustCmds_wrI
        · simp at h
      · simp at h
  | setTheta0 x =>
      simp only [setCmds, List.mem_append] at h
      rcases h with ((((h | h) | h) | h) | h) | h
      · simp at h
      · split at h <;> simp at h
      · simp at h; simp [h.1, noticeI] at hm
      · simp at h
      · exact absurd h mem_adjustCmds_wrI
      · simp at h
  | setCoef1 i n v =>
      have : l = .nCoefLayer i ∨ l = .nCoefLayer2 i := by
        simp only [setCmds, coefCmds, List.mem_append, List.mem_flatMap] at h
        rcases h with ((h | h) | ⟨j, hj, (h | h) | h⟩) | h
        · simp at h
        · split at h <;> simp at h
        · simp at h hj
          obtain rfl : j = i := by omega
          tauto
        · simp at h
        · simp at h
        · simp at h
      have hm' : coefDeps s.cfg = m := by rcases this with rfl | rfl <;> simpa [noticeI] using hm
      subst hm'
      refine ⟨i, i + 1, by simp [setCmds], ?_⟩
      rcases this with rfl | rfl <;> simp [Covers, ILoc.layer?]
  | setCoefN n v =>
      have : ∃ i, (0 ≤ i ∧ i < s.cfg.nLayers) ∧ (l = .nCoefLayer i ∨ l = .nCoefLayer2 i) := by
        simp only [setCmds, coefCmds, List.mem_append, List.mem_flatMap] at h
        rcases h with ((h | h) | ⟨j, hj, (h | h) | h⟩) | h
        · simp at h
        · split at h <;> simp at h
        · simp at h hj
          exact ⟨j, hj, by tauto⟩
        · simp at h
        · simp at h
        · simp at h
      obtain ⟨i, hi, hl⟩ := this
      have hm' : coefDeps s.cfg = m := by rcases hl with rfl | rfl <;> simpa [noticeI] using hm
      subst hm'
      refine ⟨0, s.cfg.nLayers, by simp [setCmds], ?_⟩
      rcases hl with rfl | rfl <;> exact hi
  | setCoefL a =>
      simp only [setCmds, coefLCmds, List.mem_append, List.mem_flatMap] at h
      rcases h with (h | ⟨i, hi, j, hj, e, he, h⟩) | h <;> simp at h
  | setOmegaL a =>
      simp only [setCmds, layerLCmds, List.mem_append, List.mem_flatMap] at h
      rcases h with (h | ⟨i, hi, h⟩) | h <;> simp at h
  | setLtauL a =>
      simp only [setCmds, layerLCmds, List.mem_append, List.mem_flatMap] at h
      rcases h with (h | ⟨i, hi, h⟩) | h <;> simp at h
  | _ =>
      simp [setCmds] at h
      all_goals
        cases l <;> simp at h <;> simp only [noticeI, Option.some.injEq, reduceCtorEq] at hm <;>
          subst hm <;> exact ⟨0, s.cfg.nLayers, by simp [setCmds], rfl, rfl⟩

/-- The notices of a trace, newest first. -/
def depsOf : List (Cmd F) → List DepEv
  | [] => []
  | .dep m lo hi :: cs => depsOf cs ++ [⟨m, lo, hi⟩]
  | _ :: cs => depsOf cs

theorem effs_depsOf (cs : List (Cmd F)) (s : State F) :
    (effs cs s).notices = depsOf cs ++ s.notices := by
  induction cs generalizing s with
  | nil => rfl
  | cons c cs ih =>
      rw [effs_cons, ih]
      cases c
      case dep m lo hi => simp [depsOf, eff, State.setDep]
      case flagIfInit l => simp only [eff, depsOf]; split <;> rfl
      all_goals rfl

theorem mem_depsOf {cs : List (Cmd F)} {m : Word} {lo hi : Int} :
    ⟨m, lo, hi⟩ ∈ depsOf cs ↔ Cmd.dep m lo hi ∈ cs := by
  induction cs with
  | nil => simp [depsOf]
  | cons c cs ih => cases c <;> simp [depsOf, ih] <;> tauto

theorem newNotices_append {s s' : State F} {es : List DepEv} (h : s'.notices = es ++ s.notices) :
    newNotices s s' = es := by
  rw [newNotices, h, List.length_append, Nat.add_sub_cancel, List.take_left]

/-- The notices of an accepted setter. -/
theorem newNotices_set [Fp F] {s s' : State F} {op : Op F} (hs : IsSet op)
    (h : apply s op = .ret .ok s') : newNotices s s' = depsOf (setCmds s op) := by
  rcases apply_set_cases hs h with ⟨_, h⟩ | ⟨h, _⟩
  · exact newNotices_append (by rw [exec_done h, effs_depsOf])
  · exact absurd rfl h

end Xrtm
