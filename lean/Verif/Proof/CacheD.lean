import Verif.Proof.CacheC

/-! Calls keep cached values right; repeated runs; counting recomputations. -/

namespace Xrtm

open Spec

variable {F V R : Type} {c : Config} {P : Physics F V}

theorem complete_mu0 {fx : Prop} {c : Config} {u : CUnit} {p : CPart} (hc : Covered fx c u p)
    (hk : u.kept c = true) (hp : p ∈ u.parts) (hl : readsF c u p .mu0) :
    has DEP_MU_0 (u.trig c p) = true := by
  cases u <;> cases p <;> simp [CUnit.parts] at hp <;>
    simp_all [readsF, Covered, CUnit.kept, CPart.linear, LayerMaskFull, beamReads, CUnit.trig,
      CUnit.deps, chapmanDeps, vecsQ0Deps, vecsU0Deps, boundDeps, layerDeps, beamDeps, has_or,
      show has DEP_MU_0 DEP_MU_0 = true by decide] <;>
    decide

theorem has_bit_trans {w m : Word} {k : Nat} (hk : k < 32) (h : has w (bit k) = true)
    (h' : has (bit k) m = true) : has w m = true := by
  rw [has_iff] at *
  obtain ⟨a, ha, h1, h2⟩ := h
  obtain ⟨b, hb, h3, h4⟩ := h'
  rw [bit_getLsbD k a ha] at h2
  rw [bit_getLsbD k b hb] at h3
  simp only [decide_eq_true_eq] at h2 h3
  exact ⟨k, hk, h2 ▸ h1, h3 ▸ h4⟩

theorem good_call {fx : Prop} [Fp F] [Inhabited V] (hu : useCoef c = true) (hb : Respects c P) {kern : Int → Int}
    {s : CState F V} (hi : Inv c kern s.st) {op : Op F} {r : Code} {st' : State F}
    (h : apply s.st op = .ret r st') (hcalm : Calm s.st op r st') (actOf : State F → Int → Int → Bool)
    (hfx : fx → (afterCall actOf s op r st').act = s.act) (hg : Good c (Covered fx c) P depth s) :
    Good c (Covered fx c) P depth (afterCall actOf s op r st') := by
  intro u hr p hc hk hd
  have hd0 : has (s.dep u) (u.trig c p) = false := by
    cases hx : has (s.dep u) (u.trig c p) with
    | false => rfl
    | true => 
        have hd : has (orAll s.dep (newNotices s.st st') u) (u.trig c p) = false := hd
        rw [orAll_mono _ _ _ hx] at hd; exact absurd hd (by simp)
  obtain ⟨v, h1, h2⟩ := hg u hr p hc hk hd0
  refine ⟨v, h1, ?_⟩
  have key : ∀ {l : Option Int} {m : Word} {e : DepEv}, e ∈ newNotices s.st st' → e.mask = m →
      Covers c l e.lo e.hi → has m (u.trig c p) = true →
      (l = none ∨ u.layer? = none ∨ u.layer? = l) → False := by
    intro l m e he hm hcov hh hl
    have := orAll_hit s.dep he (covers_hits hcov hc.2.1 hl) (hm ▸ hh)
    have hd : has (orAll s.dep (newNotices s.st st') u) (u.trig c p) = false := hd
    rw [this] at hd
    exact absurd hd (by simp)
  rw [← h2]
  refine freshV_congr hb depth ?_ ?_ ?_
  · intro l hl
    by_contra hne
    by_cases hmu : l = .mu0
    · subst hmu
      have := complete_mu0 hc.1 hk hc.2.2 hl
      rcases hcalm.mu0 with h0 | ⟨e, he, h3, h4, h5⟩
      · exact hne h0
      · have hcov : e.hits u = true := by
          unfold DepEv.hits
          cases hul : u.layer? with
          | none => rfl
          | some i =>
              have := hc.2.1 i hul
              rw [hi.cfg] at h5
              simp only [Bool.and_eq_true, decide_eq_true_eq]
              omega
        have hmask : has e.mask (u.trig c p) = true := by
          exact has_bit_trans (k := 12) (by omega) h3 this
        have hd : has (orAll s.dep (newNotices s.st st') u) (u.trig c p) = false := hd
        rw [orAll_hit s.dep he hcov hmask] at hd
        exact absurd hd (by simp)
    · rcases complete_F hu hc.1 hk hc.2.2 hl hmu with ⟨j, rfl, hj⟩ | ⟨m, hm, hh, hll⟩
      · exact hne (change_qx hi h hcalm hj)
      · obtain ⟨e, he, hem, hcov⟩ := change_F hi h hcalm hne hm
        exact key he hem hcov hh hll
  · intro l hl
    by_contra hne
    obtain ⟨m, hm, hh, hll⟩ := complete_I hu hc.1 hk hc.2.2 hl
    obtain ⟨e, he, hem, hcov⟩ := change_I hi h hcalm hne hm
    exact key he hem hcov hh hll
  · intro ha
    by_cases hf : fx
    · exact hfx hf
    · exact absurd ha (complete_A hc.1 hk hf)

theorem depMask_eq : DEP_MASK = BitVec.allOnes 32 := by decide

theorem has_mask (m : Word) : has DEP_MASK m = false ↔ m = 0 := by
  rw [depMask_eq, has, BitVec.allOnes_and]
  simp

theorem trig_ne {u : CUnit} {p : CPart} (hp : p ∈ u.parts) : has DEP_MASK (u.trig c p) = true := by
  cases h : has DEP_MASK (u.trig c p) with
  | true => rfl
  | false =>
      rw [has_mask] at h
      exfalso
      cases u <;> cases p <;> simp [CUnit.parts] at hp <;> revert h <;>
        simp only [CUnit.trig, CUnit.deps, vecsQ0Deps, vecsU0Deps, matsQQDeps, matsUQDeps, locDeps,
          layerDeps, boundDeps, umusUnlessSfi] <;>
        (repeat' split) <;> decide

theorem good_clear {K : CUnit → CPart → Prop} (s : CState F V) (k : Nat) : Good c K P k (clearSaved s) := by
  intro u _ p hc _ hd
  rw [clearSaved] at hd
  simp only at hd
  rw [trig_ne hc.2.2] at hd
  exact absurd hd (by simp)

theorem good_fresh {K : CUnit → CPart → Prop} (st : State F) (act : Int → Int → Bool) (k : Nat) :
    Good c K P k (freshC st act) := by
  intro u _ p hc _ hd
  rw [freshC] at hd
  simp only at hd
  rw [trig_ne hc.2.2] at hd
  exact absurd hd (by simp)

theorem solve_st [Inhabited V] (hb : Respects c P) (prog : Prog F V R) (s : CState F V) :
    (solveWith c P prog s).1.st = s.st ∧ (solveWith c P prog s).1.act = s.act :=
  ⟨(solve_step hb (closed_all c) prog s).st, (solve_step hb (closed_all c) prog s).act⟩

theorem CReach.inv [Fp F] [Inhabited V] (hw : WF c) (hb : Respects c P) {kern quad actOf act0 good mayFail}
    {s : CState F V} (h : CReach c kern quad actOf act0 P good mayFail s) : Inv c kern s.st := by
  induction h with
  | init => exact Inv.init hw.coef kern quad
  | call _ h _ ih => exact Inv.apply hw ih h
  | clear _ ih => exact ⟨ih.cfg, ih.kern, ih.quad, ih.cnt, ih.cells, ih.cellsI, ih.complete⟩
  | run prog _ _ ih => rw [(solve_st hb prog _).1]; exact ih

/-- With a constant activity table nothing changes it. -/
theorem CReach.act_eq [Fp F] [Inhabited V] (hb : Respects c P) {kern quad actOf act0 good mayFail}
    {s : CState F V} (h : CReach c kern quad actOf act0 P good mayFail s) (ha : ∀ st, actOf st = act0) :
    s.act = act0 := by
  induction h with
  | init => rfl
  | call _ h _ ih => unfold afterCall; simp only [ha, ih]; split <;> rfl
  | clear _ ih => exact ih
  | run prog _ _ ih => rw [(solve_st hb prog _).2]; exact ih

theorem CReach.good {fx : Prop} [Fp F] [Inhabited V] (hw : WF c) (hu : useCoef c = true) (hb : Respects c P)
    {kern quad actOf act0} {s : CState F V} (h : CReach c kern quad actOf act0 P Calm (NoSave c) s)
    (hfx : fx → ∀ st, actOf st = act0) : Good c (Covered fx c) P depth s := by
  induction h with
  | init => exact good_fresh _ _ _
  | call hr h hc ih => exact good_call hu hb (hr.inv hw hb) h hc _ (fun hf => by
      rw [hr.act_eq hb (hfx hf)]; exact (CReach.call hr h hc).act_eq hb (hfx hf)) ih
  | clear _ _ => exact good_clear _ _
  | run prog _ hn ih =>
      refine (solve_step hb (closed_covered fx c) prog _).good ?_ ih
      cases ho : (solveWith c P prog _).2 with
      | none => exact .inr (hn ho)
      | some _ => exact .inl rfl

/-! ## Repeating a run -/

/-- `t` agrees with `s` on everything that is settled in `s`. -/
structure Ext (c : Config) (s t : CState F V) : Prop where
  st : t.st = s.st
  act : t.act = s.act
  keep : ∀ u, u.kept c = true → has (s.dep u) (u.deps c) = false →
    has (t.dep u) (u.deps c) = false ∧ t.val u = s.val u

theorem Ext.refl (s : CState F V) : Ext c s s := ⟨rfl, rfl, fun _ _ h => ⟨h, rfl⟩⟩

theorem Ext.trans {s t r : CState F V} (h : Ext c s t) (h' : Ext c t r) : Ext c s r :=
  ⟨h'.st.trans h.st, h'.act.trans h.act, fun u hk hd =>
    have a := h.keep u hk hd
    have b := h'.keep u hk a.1
    ⟨b.1, b.2.trans a.2⟩⟩

theorem runWith_ext {req : CUnit → CPart → CState F V → CState F V × Option V}
    (hr : ∀ u p s, Ext c s (req u p s).1) (prog : Prog F V R) (s : CState F V) :
    Ext c s (runWith req prog s).1 := by
  induction prog generalizing s with
  | ret r => exact Ext.refl _
  | rdF l k ih => exact ih _ s
  | rdI l k ih => exact ih _ s
  | rdA i j k ih => exact ih _ s
  | ask u p k ih =>
      have h1 := hr u p s
      simp only [runWith]
      cases hq : req u p s with
      | mk s' o =>
      rw [hq] at h1
      cases o with
      | none => exact h1
      | some v => exact h1.trans (ih v s')

/-- Like `Ext`, except for `u`. -/
structure ExtBut (c : Config) (u : CUnit) (s t : CState F V) : Prop where
  st : t.st = s.st
  act : t.act = s.act
  keep : ∀ u', u' ≠ u → u'.kept c = true → has (s.dep u') (u'.deps c) = false →
    has (t.dep u') (u'.deps c) = false ∧ t.val u' = s.val u'

theorem Ext.but {s t : CState F V} (h : Ext c s t) (u : CUnit) : ExtBut c u s t :=
  ⟨h.st, h.act, fun u' _ => h.keep u'⟩

theorem ExtBut.trans {u : CUnit} {s t r : CState F V} (h : ExtBut c u s t) (h' : ExtBut c u t r) :
    ExtBut c u s r :=
  ⟨h'.st.trans h.st, h'.act.trans h.act, fun u hn hk hd =>
    have a := h.keep u hn hk hd
    have b := h'.keep u hn hk a.1
    ⟨b.1, b.2.trans a.2⟩⟩

theorem refresh_ext {req : CUnit → CPart → CState F V → CState F V × Option V}
    (hr : ∀ u p s, Ext c s (req u p s).1) (P : Physics F V) (u : CUnit) (w : Word) (ps : List CPart)
    (s : CState F V) : ExtBut c u s (refresh c req P u w ps s).1 := by
  induction ps generalizing s with
  | nil => exact (Ext.refl s).but u
  | cons p ps ih =>
      simp only [refresh]
      split
      · have h1 := runWith_ext hr (P.body u p) s
        cases hq : runWith req (P.body u p) s with
        | mk s' o =>
        rw [hq] at h1
        cases o with
        | none => exact h1.but u
        | some v =>
            simp only
            have h2 : ExtBut c u s { s' with val := fun u' p' => if u' = u ∧ p' = p then some v else s'.val u' p' } :=
              (h1.but u).trans ⟨rfl, rfl, fun u' hn _ hd => ⟨hd, by funext q; simp [hn]⟩⟩
            split
            · exact h2.trans (ih _)
            · exact h2
      · exact ih s

theorem request_ext [Inhabited V] (c : Config) (P : Physics F V) (n : Nat) (u : CUnit) (p : CPart)
    (s : CState F V) : Ext c s (request c P n u p s).1 := by
  induction n generalizing u p s with
  | zero => exact Ext.refl s
  | succ n ih =>
      rw [request]
      split
      · have h1 := runWith_ext ih (P.body u p) s
        cases hq : runWith (request c P n) (P.body u p) s with
        | mk s' o => rw [hq] at h1; cases o <;> exact h1
      · split
        · exact Ext.refl s
        · rename_i hd
          have h1 := refresh_ext ih P u (s.dep u) u.parts
            { s with dep := fun u' => if u' = u then s.dep u &&& ~~~(u.deps c) else s.dep u',
                     runs := fun u' => if u' = u then s.runs u + 1 else s.runs u' }
          have h2 : Ext c s (refresh c (request c P n) P u (s.dep u) u.parts
              { s with dep := fun u' => if u' = u then s.dep u &&& ~~~(u.deps c) else s.dep u',
                       runs := fun u' => if u' = u then s.runs u + 1 else s.runs u' }).1 := by
            refine ⟨h1.st, h1.act, fun u' hk hc => ?_⟩
            have hn : u' ≠ u := by rintro rfl; simp [hc] at hd
            exact h1.keep u' hn hk (by simpa [hn] using hc)
          cases hq : refresh c (request c P n) P u (s.dep u) u.parts
              { s with dep := fun u' => if u' = u then s.dep u &&& ~~~(u.deps c) else s.dep u',
                       runs := fun u' => if u' = u then s.runs u + 1 else s.runs u' } with
          | mk s2 ok => rw [hq] at h2; cases ok <;> simp only [hq] <;> exact h2

/-- A run that succeeded succeeds again, with the same result and without changing anything,
in every state that keeps what it settled. Without `SAVE_*` options the same goes for failures. -/
theorem runWith_rep {k : Nat} {req : CUnit → CPart → CState F V → CState F V × Option V}
    (he : ∀ u p s, Ext c s (req u p s).1)
    (hr : ∀ u p s o, u.rank < k → (req u p s).2 = o → (o.isSome = true ∨ NoSave c) →
      ∀ t, Ext c (req u p s).1 t → req u p t = (t, o))
    {A : CUnit → CPart → Prop} {RF : FLoc → Prop} {RI : ILoc → Prop}
    {RA : Int → Int → Prop} {prog : Prog F V R} (hw : prog.Within A RF RI RA)
    (hA : ∀ u p, A u p → u.rank < k) (s : CState F V)
    {o : Option R} (hv : (runWith req prog s).2 = o) (ho : o.isSome = true ∨ NoSave c)
    {t : CState F V} (ht : Ext c (runWith req prog s).1 t) :
    runWith req prog t = (t, o) := by
  induction prog generalizing s with
  | ret r' => simp only [runWith] at *; rw [hv]
  | rdF l k ih =>
      have := ht.st.trans (runWith_ext he (.rdF l k) s).st
      simp only [runWith] at *
      rw [this]
      exact ih _ (hw.2 _) s hv ht
  | rdI l k ih =>
      have := ht.st.trans (runWith_ext he (.rdI l k) s).st
      simp only [runWith] at *
      rw [this]
      exact ih _ (hw.2 _) s hv ht
  | rdA i j k ih =>
      have := ht.act.trans (runWith_ext he (.rdA i j k) s).act
      simp only [runWith] at *
      rw [this]
      exact ih _ (hw.2 _) s hv ht
  | ask u p k ih =>
      have h1 := hr u p s
      simp only [runWith] at hv ht ⊢
      cases hq : req u p s with
      | mk s' o' =>
      rw [hq] at h1 hv ht
      cases o' with
      | none =>
          simp only at hv ht h1
          rw [h1 none (hA u p hw.1) rfl (by rw [← hv] at ho; simpa using ho) t ht]
          simp only
          rw [hv]
      | some v =>
          simp only at hv ht h1
          have h2 := (runWith_ext he (k v) s').trans ht
          rw [h1 (some v) (hA u p hw.1) rfl (.inl rfl) t h2]
          exact ih v (hw.2 _) s' hv ht

theorem request_rep [Inhabited V] (hb : Respects c P) (n : Nat) (u : CUnit) (p : CPart)
    (s : CState F V) (hn : u.rank < n) {o : Option V} (hv : (request c P n u p s).2 = o)
    (ho : o.isSome = true ∨ NoSave c) {t : CState F V}
    (ht : Ext c (request c P n u p s).1 t) : request c P n u p t = (t, o) := by
  induction n generalizing u p s t o with
  | zero => omega
  | succ n ih =>
      have hr := fun o => runWith_rep (o := o) (k := u.rank) (prog := P.body u p)
        (fun u p s => request_ext c P n u p s)
        (fun u' p' s' v' h hv' ho' t' ht' => ih u' p' s' (by omega) hv' ho' ht') (hb.within u p)
        (fun u' p' h => asks_rank h) s
      rw [request] at hv ht ⊢
      split at hv
      · rename_i hk
        rw [if_pos hk] at ht
        cases hq : runWith (request c P n) (P.body u p) s with
        | mk s' o' =>
        rw [hq] at hv ht hr
        cases o' with
        | none =>
            simp only at hv ht
            rw [if_pos hk, hr _ rfl (by rw [← hv] at ho; simpa using ho) ht]
            simp only
            rw [hv]
        | some w =>
            simp only at hv ht
            rw [if_pos hk, hr _ rfl (.inl rfl) ht]
            simp only
            rw [hv]
      · rename_i hk
        rw [if_neg hk] at ht
        split at hv
        · rename_i hd
          rw [if_pos hd] at ht
          simp only at hv ht
          have := ht.keep u (by simpa using hk) (by simpa using hd)
          rw [if_neg hk, this.1, this.2]
          simp only [Bool.not_false, if_true]
          rw [hv]
        · rename_i hd
          rw [if_neg hd] at ht
          have hreq : ReqOk c (fun _ _ => True) P u.rank (request c P n) :=
            ReqOk.of fun u' p' s' hu' => request_step hb (closed_all c) n u' p' s' (by omega)
          have h1 := refresh_step hb (closed_all c) hreq (s.dep u) u.parts (parts_nodup u)
            { s with dep := fun u' => if u' = u then s.dep u &&& ~~~(u.deps c) else s.dep u',
                     runs := fun u' => if u' = u then s.runs u + 1 else s.runs u' }
          cases hq : refresh c (request c P n) P u (s.dep u) u.parts
              { s with dep := fun u' => if u' = u then s.dep u &&& ~~~(u.deps c) else s.dep u',
                       runs := fun u' => if u' = u then s.runs u + 1 else s.runs u' } with
          | mk s2 ok =>
          rw [hq] at h1
          simp only [hq] at hv ht
          cases ok with
          | false =>
              rw [← hv] at ho
              have hns := kept_noSave (by simpa using ho) (show u.kept c = true by simpa using hk)
              have := h1.2.2.2.2.2.2.2 hns.1 hns.2
              simp at this
          | true =>
              simp only at hv ht
              have hc : has (s2.dep u) (u.deps c) = false := by
                rw [(h1.2.2.2.1 u le_rfl).1]
                simp only [if_true]
                exact has_and_not (BitVec.and_not_self _)
              have := ht.keep u (by simpa using hk) hc
              rw [if_neg hk, this.1, this.2]
              simp only [Bool.not_false, if_true]
              rw [hv]

theorem solve_ext [Inhabited V] (c : Config) (P : Physics F V) (prog : Prog F V R) (s : CState F V) :
    Ext c s (solveWith c P prog s).1 :=
  runWith_ext (fun u p s => request_ext c P depth u p s) prog s

theorem solve_rep [Inhabited V] (hb : Respects c P) {prog : Prog F V R} {s : CState F V} {o : Option R}
    (hv : (solveWith c P prog s).2 = o) (ho : o.isSome = true ∨ NoSave c) {t : CState F V}
    (ht : Ext c (solveWith c P prog s).1 t) :
    solveWith c P prog t = (t, o) :=
  runWith_rep (fun u p s => request_ext c P depth u p s)
    (fun u p s v h hv ho t ht => request_rep hb depth u p s h hv ho ht) (Within_true prog)
    (fun u _ _ => rank_lt u) s hv ho ht

/-! ## Counting recomputations -/

/-- Recomputations done and due. -/
def pot (c : Config) (u : CUnit) (s : CState F V) : Nat :=
  s.runs u + if has (s.dep u) (u.deps c) then 1 else 0

theorem runWith_pot {u : CUnit} {req : CUnit → CPart → CState F V → CState F V × Option V}
    (hr : ∀ w p s, pot c u (req w p s).1 = pot c u s) (prog : Prog F V R) (s : CState F V) :
    pot c u (runWith req prog s).1 = pot c u s := by
  induction prog generalizing s with
  | ret r => rfl
  | rdF l k ih => exact ih _ s
  | rdI l k ih => exact ih _ s
  | rdA i j k ih => exact ih _ s
  | ask w p k ih =>
      have h1 := hr w p s
      simp only [runWith]
      cases hq : req w p s with
      | mk s' o =>
      rw [hq] at h1
      cases o with
      | none => exact h1
      | some v => exact (ih v s').trans h1

theorem refresh_pot {u : CUnit} {req : CUnit → CPart → CState F V → CState F V × Option V}
    (hr : ∀ w p s, pot c u (req w p s).1 = pot c u s) (P : Physics F V) (w : CUnit) (d : Word)
    (ps : List CPart) (s : CState F V) : pot c u (refresh c req P w d ps s).1 = pot c u s := by
  induction ps generalizing s with
  | nil => rfl
  | cons p ps ih =>
      simp only [refresh]
      split
      · have h1 := runWith_pot hr (P.body w p) s
        cases hq : runWith req (P.body w p) s with
        | mk s' o =>
        rw [hq] at h1
        cases o with
        | none => exact h1
        | some v =>
            simp only
            split
            · exact (ih _).trans h1
            · exact h1
      · exact ih s

theorem request_pot [Inhabited V] (c : Config) (P : Physics F V) (u : CUnit) (n : Nat) (w : CUnit)
    (p : CPart) (s : CState F V) : pot c u (request c P n w p s).1 = pot c u s := by
  induction n generalizing w p s with
  | zero => rfl
  | succ n ih =>
      rw [request]
      split
      · have h1 := runWith_pot ih (P.body w p) s
        cases hq : runWith (request c P n) (P.body w p) s with
        | mk s' o => rw [hq] at h1; cases o <;> exact h1
      · split
        · rfl
        · rename_i hd
          have h1 := refresh_pot ih P w (s.dep w) w.parts
            { s with dep := fun u' => if u' = w then s.dep w &&& ~~~(w.deps c) else s.dep u',
                     runs := fun u' => if u' = w then s.runs w + 1 else s.runs u' }
          have h2 : pot c u
              { s with dep := fun u' => if u' = w then s.dep w &&& ~~~(w.deps c) else s.dep u',
                       runs := fun u' => if u' = w then s.runs w + 1 else s.runs u' } = pot c u s := by
            unfold pot
            by_cases hn : u = w
            · subst hn
              simp only [if_true]
              rw [has_and_not (BitVec.and_not_self _)]
              have : has (s.dep u) (u.deps c) = true := by simpa using hd
              simp [this]
            · simp [hn]
          cases hq : refresh c (request c P n) P w (s.dep w) w.parts
              { s with dep := fun u' => if u' = w then s.dep w &&& ~~~(w.deps c) else s.dep u',
                       runs := fun u' => if u' = w then s.runs w + 1 else s.runs u' } with
          | mk s2 ok => rw [hq] at h1; cases ok <;> simp only [hq] <;> exact h1.trans h2

theorem solve_pot [Inhabited V] (c : Config) (P : Physics F V) (u : CUnit) (prog : Prog F V R) (s : CState F V) :
    pot c u (solveWith c P prog s).1 = pot c u s :=
  runWith_pot (fun w p s => request_pot c P u depth w p s) prog s

/-- After a request, successful or not, nothing is due for a kept quantity. -/
theorem request_clean [Inhabited V] (hb : Respects c P) (n : Nat) (u : CUnit) (p : CPart) (s : CState F V)
    (hn : u.rank < n) (hk : u.kept c = true) :
    has ((request c P n u p s).1.dep u) (u.deps c) = false := by
  cases n with
  | zero => omega
  | succ n =>
      rw [request]
      split
      · rename_i h; simp [hk] at h
      · split
        · rename_i hd; simpa using hd
        · have hreq : ReqOk c (fun _ _ => True) P u.rank (request c P n) :=
            ReqOk.of fun u' p' s' hu' => request_step hb (closed_all c) n u' p' s' (by omega)
          have h1 := refresh_step hb (closed_all c) hreq (s.dep u) u.parts (parts_nodup u)
            { s with dep := fun u' => if u' = u then s.dep u &&& ~~~(u.deps c) else s.dep u',
                     runs := fun u' => if u' = u then s.runs u + 1 else s.runs u' }
          cases hq : refresh c (request c P n) P u (s.dep u) u.parts
              { s with dep := fun u' => if u' = u then s.dep u &&& ~~~(u.deps c) else s.dep u',
                       runs := fun u' => if u' = u then s.runs u + 1 else s.runs u' } with
          | mk s2 ok =>
          rw [hq] at h1
          have hc : has (s2.dep u) (u.deps c) = false := by
            rw [(h1.2.2.2.1 u le_rfl).1]
            simp only [if_true]
            exact has_and_not (BitVec.and_not_self _)
          cases ok <;> simp only [hq] <;> exact hc

end Xrtm
