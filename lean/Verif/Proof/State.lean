import Verif.Proof.Exec
import Verif.Spec.State

/-! Traces of the setters against `Verif.Spec.State`. -/

namespace Xrtm

open Spec

variable {F : Type}

theorem isParam_iff (t p : Int) : IsParam t p ↔ 0 ≤ p ∧ p < kernelNParams t := by
  unfold IsParam kernelNParams kernelIsValid
  by_cases ht : 0 ≤ t ∧ t < 11
  · obtain ⟨h0, h1⟩ := ht
    have : t = 0 ∨ t = 1 ∨ t = 2 ∨ t = 3 ∨ t = 4 ∨ t = 5 ∨ t = 6 ∨ t = 7 ∨ t = 8 ∨ t = 9 ∨ t = 10 := by
      omega
    rcases this with h | h | h | h | h | h | h | h | h | h | h <;> subst h <;>
      simp [kernelParams]
  · constructor
    · rintro ⟨n, hn, h0, h1, h2⟩
      have : t.toNat < kernelParams.length := by
        by_contra hc
        rw [List.getElem?_eq_none (by omega)] at hn
        contradiction
      simp [kernelParams] at this
      omega
    · rintro ⟨h0, h1⟩
      rw [if_pos] at h1
      · omega
      · simp only [bnot_iff, Bool.or_eq_true, decide_eq_true_eq]
        simp
        omega

theorem given_eq_some {α : Type} {p : Prop} {y x : α} : given p y = some x ↔ p ∧ y = x := by
  unfold given
  split <;> simp_all

theorem mem_adjustCmds_wr [Fp F] {c : Config} {m : F} {qs : List F} {n : Nat} {l : FLoc} {x : F}
    (h : Cmd.wr l x ∈ adjustCmds c m qs n) : l = .mu0 := by
  induction qs generalizing n with
  | nil => simp only [adjustCmds] at h; split at h <;> simp at h
  | cons q qs ih =>
      simp only [adjustCmds] at h
      split at h
      · simp only [List.mem_cons, Cmd.wr.injEq, reduceCtorEq, false_or] at h
        rcases h with h | h
        · exact h.1
        · exact ih h
      · simp only [List.mem_cons, reduceCtorEq, false_or] at h
        exact ih h

theorem mem_adjustCmds_wrI [Fp F] {c : Config} {m : F} {qs : List F} {n : Nat} {l : ILoc} {x : Int} :
    Cmd.wrI l x ∉ adjustCmds c m qs n := by
  induction qs generalizing n with
  | nil => simp only [adjustCmds]; split <;> simp
  | cons q qs ih =>
      simp only [adjustCmds]
      split <;> simp [ih]

theorem mem_adjustCmds_flag [Fp F] {c : Config} {m : F} {qs : List F} {n : Nat} {l : SLoc} :
    Cmd.flag l ∉ adjustCmds c m qs n := by
  induction qs generalizing n with
  | nil => simp only [adjustCmds]; split <;> simp
  | cons q qs ih =>
      simp only [adjustCmds]
      split <;> simp [ih]

theorem mem_adjustCmds_flagI [Fp F] {c : Config} {m : F} {qs : List F} {n : Nat} {l : SLoc} :
    Cmd.flagIfInit l ∉ adjustCmds c m qs n := by
  induction qs generalizing n with
  | nil => simp only [adjustCmds]; split <;> simp
  | cons q qs ih =>
      simp only [adjustCmds]
      split <;> simp [ih]

attribute [local simp] given_eq_some mem_upto mem_between ckIdx ckDerivs ckKernels scalarCmds
  layerCmds layerLCmds coefCmds coefLCmds omegaCmds ltauCmds IsLayer IsDeriv IsKernel linAt
  LinArg.iLo LinArg.iHi LinArg.jLo LinArg.jHi LinArg.val isParam_iff cosDeg outAngle

macro "fwdF" : tactic => `(tactic| (intro x h; simp [setCmds] at h <;> (revert h; simp only [forall_exists_index, and_imp]; intros; subst_vars; simp [assignF] <;> grind)))
macro "bwdF" : tactic => `(tactic| (intro x h; cases ‹FLoc› <;> simp [assignF] at h <;> simp [setCmds] <;> grind))
macro "bothF" : tactic => `(tactic| (apply lastF_of <;> [fwdF; bwdF]))

theorem lastF_or {a b : List (Cmd F)} {l : FLoc} {o : Option F} (hb : lastF b l = o)
    (ha : ∀ x, Cmd.wr l x ∈ a → o.isSome = true) : (lastF b l).or (lastF a l) = o := by
  rw [hb]
  cases o with
  | some x => simp
  | none =>
      simp only [Option.none_or]
      rw [lastF_none]
      intro x hx
      have := ha x hx
      simp at this

set_option maxHeartbeats 2000000 in
theorem set_lastF [Fp F] (s : State F) (op : Op F) (l : FLoc) (hl : l ≠ .mu0) :
    lastF (setCmds s op) l = assignF s.cfg s.kernels (fun i => s.i (.nCoefLayer i)) op l := by
  cases op with
  | setOutThetas t =>
      apply lastF_of
      · intro x h
        simp only [setCmds, List.mem_append] at h
        rcases h with ((((h | h) | h) | h) | h) | h
        · simp at h
        · simp at h
        · simp at h
          obtain ⟨i, hi, e1, e2⟩ := h
          subst e1; subst e2
          simp [assignF, hi]
        · simp at h
        · split at h
          · simp only [List.mem_append] at h
            rcases h with (h | h) | h
            · simp at h; exact absurd h.1 hl
            · simp at h
            · exact absurd (mem_adjustCmds_wr h) hl
          · simp at h
        · simp at h
      · intro x h
        cases l <;> simp [assignF] at h
        rename_i i
        simp only [setCmds, List.mem_append]
        refine .inl (.inl (.inl (.inr ?_)))
        simp only [List.mem_map, mem_upto]
        exact ⟨i - s.cfg.nQuad, ⟨by omega, by omega⟩, by rw [Cmd.wr.injEq]; exact ⟨by congr 1; omega, h.2⟩⟩
  | setTheta0 t =>
      apply lastF_of
      · intro x h
        simp only [setCmds, List.mem_append] at h
        rcases h with ((((h | h) | h) | h) | h) | h
        · simp at h; obtain ⟨e1, e2⟩ := h; subst e1; subst e2; simp [assignF]
        · split at h <;> simp at h
        · simp at h; exact absurd h.1 hl
        · simp at h
        · exact absurd (mem_adjustCmds_wr h) hl
        · simp at h
      · intro x h
        cases l <;> simp [assignF] at h
        subst h
        simp [setCmds]
  | setCoef1 i n c => by_cases hn : n < 0 <;> (apply lastF_of <;> [(simp [setCmds, hn]; intros; subst_vars; simp [assignF, hn]; grind); (intro x h; cases l <;> simp [assignF, hn] at h <;> simp [setCmds, hn] <;> grind)])
  | setCoefN n c => cases n <;> bothF
  | setCoefL a =>
      apply lastF_of
      · intro x h
        simp [setCmds, State.iv] at h
        obtain ⟨i, hi, d, hd, e, he, k, hk, e1, e2⟩ := h
        subst e1; subst e2
        simp only [assignF]
        cases hn : s.i (.nCoefLayer i) with
        | none => simp [hn] at hk; omega
        | some n => simp [hn] at hk; cases a <;> simp [Option.bind_eq_some_iff] at hi hd ⊢ <;> grind
      · intro x h
        cases l <;> simp [assignF, Option.bind_eq_some_iff] at h
        rename_i i d e k
        obtain ⟨v, h1, n, h2, h3⟩ := h
        simp [setCmds, State.iv]
        cases a <;> simp [h2] at h1 ⊢ <;> grind
  | setOmega1 i x =>
      simp only [setCmds, omegaCmds]
      rw [lastF_append, lastF_append _ (List.map _ _)]
      simp only [lastF, Option.none_or]
      apply lastF_or
      · apply lastF_of
        · intro x h; simp at h; obtain ⟨a, h1, rfl, rfl⟩ := h; simp [assignF]; omega
        · intro x h; cases l <;> simp [assignF] at h; simp; grind
      · intro x h; simp at h; obtain ⟨a, h1, rfl, rfl⟩ := h; simp [assignF, given]; omega
  | setOmegaN n =>
      simp only [setCmds, omegaCmds]
      rw [lastF_append, lastF_append _ (List.map _ _)]
      simp only [lastF, Option.none_or]
      apply lastF_or
      · apply lastF_of
        · intro x h; simp at h; obtain ⟨a, h1, rfl, rfl⟩ := h; simp [assignF]; omega
        · intro x h; cases l <;> simp [assignF] at h; simp; grind
      · intro x h; simp at h; obtain ⟨a, h1, rfl, rfl⟩ := h; simp [assignF, given, h1]
  | setOmegaL a => cases a <;> bothF
  | setLtauL a => cases a <;> bothF
  | setSosParams a b c => cases l <;> simp [setCmds, lastF, assignF]
  | _ => bothF

end Xrtm
