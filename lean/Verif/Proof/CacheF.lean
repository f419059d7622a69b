import Verif.Proof.CacheE
import Verif.Proof.Session

/-! Which calls are calm; simple instances used in examples and counterexamples. -/

namespace Xrtm

open Spec

variable {F V R : Type} {c : Config} {P : Physics F V}

attribute [local simp] mem_upto mem_between ckIdx ckDerivs ckKernels scalarCmds
  layerCmds layerLCmds coefCmds coefLCmds omegaCmds ltauCmds

set_option maxHeartbeats 1000000 in
theorem wr_mu0 [Fp F] {s : State F} {op : Op F} {x : F} (h : Cmd.wr .mu0 x ∈ setCmds s op) :
    (∃ t, op = .setTheta0 t) ∨ ∃ t, op = .setOutThetas t := by
  cases op
  case setTheta0 t => exact .inl ⟨t, rfl⟩
  case setOutThetas t => exact .inr ⟨t, rfl⟩
  case setCoefN n co =>
    exfalso
    simp only [setCmds, coefCmds, List.mem_append, List.mem_flatMap] at h
    cases n <;> simp at h
  case setCoef1 i n co =>
    exfalso
    simp only [setCmds, coefCmds, List.mem_append, List.mem_flatMap] at h
    by_cases hn : n < 0 <;> simp [hn] at h
  all_goals
    exfalso
    simp [setCmds] at h

theorem calm_accepted [Fp F] {s s' : State F} {op : Op F} (hc : s.cfg = c)
    (h : apply s op = .ret .ok s') (ho : ∀ t, op ≠ .setOutThetas t) : Calm s op .ok s' := by
  refine ⟨fun h => absurd rfl h, ?_⟩
  by_cases hs : IsSet op
  · rw [newNotices_set hs h]
    rcases apply_set_cases hs h with ⟨_, h⟩ | ⟨h, _⟩
    · rw [exec_done h, effs_f]
      cases hx : lastF (setCmds s op) .mu0 with
      | none => exact .inl (by simp)
      | some x =>
          rcases wr_mu0 (lastF_mem hx) with ⟨t, rfl⟩ | ⟨t, rfl⟩
          · refine .inr ⟨⟨DEP_MU_0, 0, s.cfg.nLayers⟩, mem_depsOf.2 ?_,
              show has DEP_MU_0 DEP_MU_0 = true by decide, le_rfl, le_rfl⟩
            simp [setCmds]
          · exact absurd rfl (ho t)
    · exact absurd rfl h
  · exact .inl (by rw [(apply_other hs h).1.f])

theorem calm_refused [Fp F] {s s' : State F} {op : Op F} {r : Code}
    (h : apply s op = .ret r s') (hr : r ≠ .ok) (ho : Leaky op = false) : Calm s op r s' := by
  have : s'.f = s.f ∧ s'.i = s.i := by
    by_cases hs : IsSet op
    · rcases apply_set_cases hs h with ⟨h, _⟩ | ⟨_, h⟩
      · exact absurd h hr
      · rw [exec_stop_tidy (set_tidy s op ho) h]; exact ⟨rfl, rfl⟩
    · exact ⟨(apply_other hs h).1.f, (apply_other hs h).1.i⟩
  exact ⟨fun _ => this, .inl (by rw [this.1])⟩

/-- The mask of a notice contains the bit of the input. -/
theorem noticeF_bit {l : FLoc} {b : Word} (hb : inputBit l = some b) {u : CUnit}
    (h : has b (u.deps c) = true) : ∃ m, noticeF c l = some m ∧ has m (u.deps c) = true := by
  have e1 := coefDeps_coef c
  have e3 := coefLDeps_coef c
  have e4 := omegaDeps_omega c
  have e5 := omegaLDeps_omega c
  cases l <;> simp only [inputBit, Option.some.injEq, reduceCtorEq] at hb <;> subst hb <;>
    simp only [noticeF, Option.some.injEq, exists_eq_left', h] <;>
    first
    | exact has_bit_trans (k := _) (by decide) e1 h
    | exact has_bit_trans (k := _) (by decide) e3 h
    | exact has_bit_trans (k := _) (by decide) e4 h
    | exact has_bit_trans (k := _) (by decide) e5 h

/-- A program that asks for one quantity. -/
def askFor (u : CUnit) (p : CPart) : Prog F V V := .ask u p .ret

variable [Inhabited V]

theorem solve_askFor (u : CUnit) (p : CPart) (s : CState F V) :
    (solveWith c P (askFor u p) s) = request c P depth u p s := by
  unfold solveWith askFor
  simp only [runWith]
  cases request c P depth u p s with
  | mk s' o => cases o <;> rfl

/-- A clean kept quantity is handed over as stored. -/
theorem request_hit {n : Nat} {u : CUnit} (p : CPart) {s : CState F V} (hk : u.kept c = true)
    (hd : has (s.dep u) (u.deps c) = false) :
    request c P (n + 1) u p s = (s, some ((s.val u p).getD default)) := by
  rw [request]; simp [hk, hd]

theorem request_val {n : Nat} {u : CUnit} {p : CPart} {s : CState F V} (hk : u.kept c = true) {v : V}
    (h : (request c P n u p s).2 = some v) : ((request c P n u p s).1.val u p).getD default = v := by
  cases n with
  | zero => simp [request] at h
  | succ n =>
      rw [request] at h ⊢
      simp only [hk, Bool.not_true, Bool.false_eq_true, if_false] at h ⊢
      split at h
      · rename_i hd
        simp only [hd, if_true]
        simpa using h
      · rename_i hd
        simp only [hd]
        revert h
        cases refresh c (request c P n) P u (s.dep u) u.parts _ with
        | mk s2 ok => cases ok <;> simp

/-- An instance whose quantity `u` is the value of an input. -/
def readerPhysics (u0 : CUnit) (p0 : CPart) (l : FLoc) : Physics F (Option F) where
  body u p := if u = u0 ∧ p = p0 then .rdF l .ret else .ret none
  chk _ _ _ := true

omit [Inhabited V] in
theorem reader_respects {u0 : CUnit} {p0 : CPart} {l : FLoc} (h : readsF c u0 p0 l) :
    Respects c (readerPhysics (F := F) u0 p0 l) := by
  refine ⟨fun u p => ?_, fun _ _ _ _ => rfl⟩
  simp only [readerPhysics]
  split
  · rename_i he
    obtain ⟨rfl, rfl⟩ := he
    exact ⟨h, fun _ => trivial⟩
  · trivial

omit [Inhabited V] in
theorem reader_fresh (u0 : CUnit) (p0 : CPart) (l : FLoc) (st : State F) (act : Int → Int → Bool)
    (n : Nat) : freshV (readerPhysics u0 p0 l) st act (n + 1) u0 p0 = some (st.f l) := by
  simp [freshV, readerPhysics, evalWith]

omit [Inhabited V] in
theorem reader_refresh (c : Config) (u0 : CUnit) (p0 : CPart) (l : FLoc)
    (req : CUnit → CPart → CState F (Option F) → CState F (Option F) × Option (Option F)) (u : CUnit) (w : Word)
    (ps : List CPart) (s : CState F (Option F)) :
    (refresh c req (readerPhysics u0 p0 l) u w ps s).2 = true := by
  induction ps generalizing s with
  | nil => rfl
  | cons p ps ih =>
      simp only [refresh]
      split
      · by_cases h : u = u0 ∧ p = p0
        · simp only [readerPhysics, h, and_self, if_true, runWith] at ih ⊢; exact ih _
        · simp only [readerPhysics, h, if_false, runWith, if_true] at ih ⊢; exact ih _
      · exact ih s

omit [Inhabited V] in
theorem reader_some (c : Config) (u : CUnit) (p : CPart) (l : FLoc) (s : CState F (Option F)) :
    (request c (readerPhysics u p l) depth u p s).2.isSome = true := by
  rw [show depth = 4 + 1 from rfl, request]
  split
  · simp [readerPhysics, runWith]
  · split
    · rfl
    · have := reader_refresh c u p l (request c (readerPhysics u p l) 4) u (s.dep u) u.parts
        { s with dep := fun u' => if u' = u then s.dep u &&& ~~~(u.deps c) else s.dep u',
                 runs := fun u' => if u' = u then s.runs u + 1 else s.runs u' }
      cases hq : refresh c (request c (readerPhysics u p l) 4) (readerPhysics u p l) u (s.dep u) u.parts
        { s with dep := fun u' => if u' = u then s.dep u &&& ~~~(u.deps c) else s.dep u',
                 runs := fun u' => if u' = u then s.runs u + 1 else s.runs u' } with
      | mk s2 ok =>
      rw [hq] at this
      simp only at this
      subst this
      simp only [hq]
      rfl

/-- If a change of the input `l` is not announced to the kept quantity `u` that depends on it, the
result after the change is that of before. -/
theorem stale [Fp F] {u : CUnit} {p : CPart} {l : FLoc} (hb : readsF c u p l) (hk : u.kept c = true)
    (hp : p ∈ u.parts) (hval : ValidU c u) {s : CState F (Option F)} (hs : ∀ w, s.dep w = DEP_MASK) {op : Op F} {r : Code}
    {st' : State F} (actOf : State F → Int → Int → Bool)
    (hn : ∀ e ∈ newNotices s.st st', e.hits u = true → has e.mask (u.deps c) = false) :
    let s1 := (solveWith c (readerPhysics u p l) (askFor u p) s).1
    (solveWith c (readerPhysics u p l) (askFor u p) s).2 = some (s.st.f l) ∧
    (solveWith c (readerPhysics u p l) (askFor u p) (afterCall actOf s1 op r st')).2 = some (s.st.f l) := by
  have hR := reader_respects (F := F) hb
  have h0 : (solveWith c (readerPhysics u p l) (askFor u p) s).2 = some (s.st.f l) := by
    have h1 := request_step hR (closed_all c) depth u p s (rank_lt u)
    rw [solve_askFor]
    have hv := h1.2.1 (good_full hs _) ⟨trivial, hval, hp⟩ (.inl (reader_some c u p l s))
    rw [hv]
    exact reader_fresh u p l _ _ 4
  refine ⟨h0, ?_⟩
  rw [solve_askFor] at h0
  simp only [solve_askFor]
  set s1 := (request c (readerPhysics u p l) depth u p s).1 with hs1
  have hc : has (s1.dep u) (u.deps c) = false := request_clean hR depth u p s (rank_lt u) hk
  have hst : s1.st = s.st := (request_step hR (closed_all c) depth u p s (rank_lt u)).1.st
  have hc' : has ((afterCall actOf s1 op r st').dep u) (u.deps c) = false := by
    refine orAll_none _ hc ?_
    rw [hst]
    exact hn
  rw [show depth = 4 + 1 from rfl, request_hit p hk hc']
  exact congrArg some (request_val hk h0)

end Xrtm
