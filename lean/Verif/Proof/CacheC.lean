import Verif.Proof.CacheB

/-! Requests keep cached values right. -/

namespace Xrtm

open Spec

variable {F V R : Type}

/-! ## Evaluation without caching -/

theorem evalWith_congr {A : CUnit → CPart → Prop} {RF : FLoc → Prop} {RI : ILoc → Prop}
    {RA : Int → Int → Prop} {q q' : CUnit → CPart → Option V} {st st' : State F}
    {act act' : Int → Int → Bool}
    {prog : Prog F V R} (hw : prog.Within A RF RI RA) (hq : ∀ u p, A u p → q u p = q' u p)
    (hf : ∀ l, RF l → st.f l = st'.f l) (hi : ∀ l, RI l → st.i l = st'.i l)
    (ha : ∀ i j, RA i j → act i j = act' i j) :
    evalWith q st act prog = evalWith q' st' act' prog := by
  induction prog with
  | ret r => rfl
  | rdF l k ih => simp only [evalWith]; rw [hf l hw.1]; exact ih _ (hw.2 _)
  | rdI l k ih => simp only [evalWith]; rw [hi l hw.1]; exact ih _ (hw.2 _)
  | rdA i j k ih => simp only [evalWith]; rw [ha i j hw.1]; exact ih _ (hw.2 _)
  | ask u p k ih =>
      simp only [evalWith]
      rw [hq u p hw.1]
      congr 1
      funext v
      exact ih _ (hw.2 _)

variable {c : Config} {P : Physics F V}

/-- Enough fuel is enough. -/
theorem freshV_stable (hb : Respects c P) (st : State F) (act : Int → Int → Bool) {n : Nat} {u : CUnit}
    (p : CPart) (h : u.rank < n) : freshV P st act (n + 1) u p = freshV P st act n u p := by
  induction n generalizing u p with
  | zero => omega
  | succ n ih =>
      rw [freshV, freshV]
      congr 1
      refine evalWith_congr (hb.within u p) ?_ (fun _ _ => rfl) (fun _ _ => rfl) (fun _ _ _ => rfl)
      intro u' p' ha
      exact ih p' (by have := asks_rank ha; omega)

theorem rank_lt (u : CUnit) : u.rank < depth := by unfold depth; cases u <;> simp [CUnit.rank]

theorem freshV_eq (hb : Respects c P) (st : State F) (act : Int → Int → Bool) (u : CUnit) (p : CPart) :
    freshV P st act depth u p = (evalWith (freshV P st act depth) st act (P.body u p)).bind fun v =>
      if P.chk u p v then some v else none := by
  rw [← freshV_stable hb st act p (rank_lt u), freshV]

/-- The value depends only on what the tables say. -/
theorem freshV_congr (hb : Respects c P) {st st' : State F} {act act' : Int → Int → Bool} (n : Nat)
    {u : CUnit} {p : CPart} (hf : ∀ l, readsF c u p l → st.f l = st'.f l)
    (hi : ∀ l, readsI c u p l → st.i l = st'.i l) (ha : readsA u p → act = act') :
    freshV P st act n u p = freshV P st' act' n u p := by
  induction n generalizing u p with
  | zero => rfl
  | succ n ih =>
      rw [freshV, freshV]
      congr 1
      refine evalWith_congr (hb.within u p) ?_ hf hi (fun i j h => by rw [ha h])
      intro u' p' h
      exact ih (fun l hl => hf l (asks_readsF h hl)) (fun l hl => hi l (asks_readsI h hl))
        (fun hl => ha (asks_readsA h hl))

/-! ## The invariant -/

/-- A set of quantities closed under asking. -/
def Closed (c : Config) (K : CUnit → CPart → Prop) : Prop :=
  ∀ u p u' p', asks c u p u' p' → K u p → K u' p'

/-- The quantities of `K` whose values are at stake. -/
def InK (c : Config) (K : CUnit → CPart → Prop) (u : CUnit) (p : CPart) : Prop :=
  K u p ∧ ValidU c u ∧ p ∈ u.parts

theorem InK_asks {K : CUnit → CPart → Prop} (hK : Closed c K) {u u' : CUnit} {p p' : CPart}
    (ha : asks c u p u' p') (h : InK c K u p) : InK c K u' p' :=
  ⟨hK _ _ _ _ ha h.1, asks_valid ha h.2.1, asks_parts ha⟩

variable {K : CUnit → CPart → Prop}

/-- A stored part of `u` that no dependency bit marks is right. -/
def GoodU (c : Config) (K : CUnit → CPart → Prop) (P : Physics F V) (s : CState F V) (u : CUnit) : Prop :=
  ∀ p, InK c K u p → u.kept c = true → has (s.dep u) (u.trig c p) = false →
    ∃ v, s.val u p = some v ∧ freshV P s.st s.act depth u p = some v

/-- `GoodU` for the quantities of rank below `k`. -/
def Good (c : Config) (K : CUnit → CPart → Prop) (P : Physics F V) (k : Nat) (s : CState F V) : Prop :=
  ∀ u, u.rank < k → GoodU c K P s u

/-- What requests below rank `k` do; `ok` tells whether they succeeded. -/
structure Step (c : Config) (K : CUnit → CPart → Prop) (P : Physics F V) (k : Nat) (ok : Bool)
    (s s' : CState F V) : Prop where
  st : s'.st = s.st
  act : s'.act = s.act
  good : (ok = true ∨ NoSave c) → Good c K P k s → Good c K P k s'
  frame : ∀ u, k ≤ u.rank → s'.dep u = s.dep u ∧ s'.val u = s.val u ∧ s'.runs u = s.runs u

theorem Step.refl (k : Nat) (ok : Bool) (s : CState F V) : Step c K P k ok s s :=
  ⟨rfl, rfl, fun _ h => h, fun _ _ => ⟨rfl, rfl, rfl⟩⟩

theorem Step.trans {k : Nat} {ok : Bool} {s s' s'' : CState F V} (h : Step c K P k true s s')
    (h' : Step c K P k ok s' s'') : Step c K P k ok s s'' :=
  ⟨h'.st.trans h.st, h'.act.trans h.act, fun ho hg => h'.good ho (h.good (.inl rfl) hg), fun u hu =>
    ⟨(h'.frame u hu).1.trans (h.frame u hu).1, (h'.frame u hu).2.1.trans (h.frame u hu).2.1,
      (h'.frame u hu).2.2.trans (h.frame u hu).2.2⟩⟩

theorem GoodU.congr {s s' : CState F V} {u : CUnit} (h : GoodU c K P s u) (hst : s'.st = s.st)
    (ha : s'.act = s.act) (hd : s'.dep u = s.dep u) (hv : s'.val u = s.val u) :
    GoodU c K P s' u := by
  intro p h1 h2 h3
  rw [hst, ha, hv]
  exact h p h1 h2 (by rw [← hd]; exact h3)

theorem Step.mono {k k' : Nat} {ok : Bool} (hk : k ≤ k') {s s' : CState F V} (h : Step c K P k ok s s') :
    Step c K P k' ok s s' := by
  refine ⟨h.st, h.act, fun ho hg u hu => ?_, fun u hu => h.frame u (le_trans hk hu)⟩
  by_cases hr : u.rank < k
  · exact h.good ho (fun u' hu' => hg u' (by omega)) u hr
  · have := h.frame u (by omega)
    exact (hg u hu).congr h.st h.act this.1 this.2.1

/-- What is known about requests for quantities of rank below `k`. Without saved results a request
fails exactly when the computation does. -/
def ReqOk (c : Config) (K : CUnit → CPart → Prop) (P : Physics F V) (k : Nat)
    (req : CUnit → CPart → CState F V → CState F V × Option V) : Prop :=
  ∀ u p s, u.rank < k → Step c K P k (req u p s).2.isSome s (req u p s).1 ∧
    (Good c K P k s → InK c K u p → ((req u p s).2.isSome = true ∨ NoSave c) →
      (req u p s).2 = freshV P s.st s.act depth u p) ∧
    (u.fallible = false → (∀ p' u' q, asks c u p' u' q → u'.fallible = false) →
      u.rank ≤ 0 → (req u p s).2.isSome = true)

theorem runWith_step {k : Nat} {req : CUnit → CPart → CState F V → CState F V × Option V}
    (hr : ReqOk c K P k req) {A : CUnit → CPart → Prop} {RF : FLoc → Prop} {RI : ILoc → Prop}
    {RA : Int → Int → Prop} {prog : Prog F V R} (hw : prog.Within A RF RI RA)
    (hA : ∀ u p, A u p → u.rank < k) (s : CState F V) :
    Step c K P k (runWith req prog s).2.isSome s (runWith req prog s).1 ∧
    (Good c K P k s → (∀ u p, A u p → InK c K u p) →
      ((runWith req prog s).2.isSome = true ∨ NoSave c) →
      (runWith req prog s).2 = evalWith (freshV P s.st s.act depth) s.st s.act prog) ∧
    ((∀ u p, A u p → ∃ i, u = .opt i) → (runWith req prog s).2.isSome = true) := by
  induction prog generalizing s with
  | ret r => exact ⟨Step.refl _ _ _, fun _ _ _ => rfl, fun _ => rfl⟩
  | rdF l k ih => exact ih _ (hw.2 _) s
  | rdI l k ih => exact ih _ (hw.2 _) s
  | rdA i j k ih => exact ih _ (hw.2 _) s
  | ask u p k ih =>
      obtain ⟨h1, h2, h0⟩ := hr u p s (hA u p hw.1)
      simp only [runWith, evalWith]
      cases hq : req u p s with
      | mk s' o =>
      rw [hq] at h1 h2 h0
      cases o with
      | none =>
          refine ⟨h1, fun hg hc ho => ?_, fun ho => ?_⟩
          · rw [← h2 hg (hc u p hw.1) (by simpa using ho)]; rfl
          · obtain ⟨i, rfl⟩ := ho u p hw.1
            exact h0 rfl (fun p' u' q h => by cases u' <;> simp [asks] at h) (by simp [CUnit.rank])
      | some v =>
          have h3 := ih v (hw.2 _) s'
          refine ⟨h1.trans h3.1, fun hg hc ho => ?_, h3.2.2⟩
          have := h2 hg (hc u p hw.1) (.inl rfl)
          simp only at this
          rw [← this]
          simp only [Option.bind_some]
          have h4 := h3.2.1 (h1.good (.inl rfl) hg) hc ho
          rw [h4, h1.st, h1.act]

/-- `Good` below `k` survives changes to a quantity of rank at least `k`. -/
theorem Good.congr {k : Nat} {s s' : CState F V} (h : Good c K P k s) (hst : s'.st = s.st)
    (ha : s'.act = s.act) (hd : ∀ u, u.rank < k → s'.dep u = s.dep u ∧ s'.val u = s.val u) :
    Good c K P k s' :=
  fun u hu => (h u hu).congr hst ha (hd u hu).1 (hd u hu).2

/-- Quantities that are kept without any `SAVE_*` option ask only for scaled properties. -/
theorem kept_noSave (hn : NoSave c) {u : CUnit} (hk : u.kept c = true) :
    u.fallible = false ∧ ∀ p u' p', asks c u p u' p' → ∃ i, u' = .opt i := by
  obtain ⟨h1, h2, h3, h4⟩ := hn
  cases u <;> simp_all [CUnit.kept, CUnit.fallible] <;> intro p u' p' h <;> cases u' <;>
    simp_all [asks]

theorem refresh_step (hb : Respects c P) (hK : Closed c K) {u : CUnit}
    {req : CUnit → CPart → CState F V → CState F V × Option V} (hr : ReqOk c K P u.rank req) (w : Word)
    (ps : List CPart) (hps : ps.Nodup) (s : CState F V) :
    let s' := (refresh c req P u w ps s).1
    let ok := (refresh c req P u w ps s).2
    s'.st = s.st ∧ s'.act = s.act ∧
    ((ok = true ∨ NoSave c) → Good c K P u.rank s → Good c K P u.rank s') ∧
    (∀ u', u.rank ≤ u'.rank → s'.dep u' = s.dep u' ∧ s'.runs u' = s.runs u') ∧
    (∀ u', u.rank ≤ u'.rank → u' ≠ u → s'.val u' = s.val u') ∧
    (∀ p, (p ∉ ps ∨ has w (u.trig c p) = false) → s'.val u p = s.val u p) ∧
    (Good c K P u.rank s → ok = true → ∀ p ∈ ps, has w (u.trig c p) = true → InK c K u p →
      ∃ v, s'.val u p = some v ∧ freshV P s.st s.act depth u p = some v) ∧
    (u.fallible = false → (∀ p u' p', asks c u p u' p' → ∃ i, u' = .opt i) → ok = true) := by
  induction ps generalizing s with
  | nil =>
      exact ⟨rfl, rfl, fun _ h => h, fun _ _ => ⟨rfl, rfl⟩, fun _ _ _ => rfl, fun _ _ => rfl, by simp,
        fun _ _ => rfl⟩
  | cons q ps ih =>
      obtain ⟨hq, hps⟩ := List.nodup_cons.1 hps
      simp only [refresh]
      split
      · rename_i hw
        obtain ⟨h1, h2, h0⟩ := runWith_step hr (hb.within u q) (fun u' p' h => asks_rank h) s
        cases hrun : runWith req (P.body u q) s with
        | mk s1 o =>
        rw [hrun] at h1 h2 h0
        cases o with
        | none =>
            simp only
            refine ⟨h1.st, h1.act, fun ho => h1.good (.inr (by simpa using ho)), fun u' hu' =>
              ⟨(h1.frame u' hu').1, (h1.frame u' hu').2.2⟩, fun u' hu' _ => (h1.frame u' hu').2.1,
              fun p _ => by rw [(h1.frame u le_rfl).2.1], fun _ h => by simp at h,
              fun hf ha => ?_⟩
            have := h0 (fun u' p' => ha q u' p')
            simp at this
        | some v =>
            simp only
            set s2 : CState F V :=
              { s1 with val := fun u' p' => if u' = u ∧ p' = q then some v else s1.val u' p' } with hs2
            have g2 : Good c K P u.rank s → Good c K P u.rank s2 := fun hg =>
              (h1.good (.inl rfl) hg).congr rfl rfl fun u' hu' => ⟨rfl, by
                funext p'
                simp only [hs2]
                rw [if_neg]
                rintro ⟨rfl, _⟩
                omega⟩
            have e5 : ∀ u', u.rank ≤ u'.rank → u' ≠ u → s2.val u' = s.val u' := by
              intro u' hu' hne
              rw [← (h1.frame u' hu').2.1]
              funext p'
              simp [hs2, hne]
            have e6 : ∀ p, (p ∉ q :: ps ∨ has w (u.trig c p) = false) → s2.val u p = s.val u p := by
              intro p hp
              have hpq : p ≠ q := by
                rintro rfl
                rcases hp with hp | hp
                · exact hp List.mem_cons_self
                · simp [hp] at hw
              rw [← (h1.frame u le_rfl).2.1]
              simp [hs2, hpq]
            split
            · rename_i hchk
              obtain ⟨a1, a2, a3, a4, a5, a6, a7, a8⟩ := ih hps s2
              refine ⟨a1.trans h1.st, a2.trans h1.act, fun ho hg => a3 ho (g2 hg), ?_, ?_, ?_, ?_, a8⟩
              · intro u' hu'
                exact ⟨(a4 u' hu').1.trans (h1.frame u' hu').1,
                  (a4 u' hu').2.trans (h1.frame u' hu').2.2⟩
              · intro u' hu' hne
                rw [a5 u' hu' hne, e5 u' hu' hne]
              · intro p hp
                have : p ∉ ps ∨ has w (u.trig c p) = false :=
                  hp.imp (fun h hm => h (List.mem_cons_of_mem _ hm)) id
                rw [a6 p this, e6 p hp]
              · intro hg hok p hp hw' hc
                rcases List.mem_cons.1 hp with rfl | hp
                · refine ⟨v, ?_, ?_⟩
                  · rw [a6 p (.inl hq)]; simp [hs2]
                  · rw [freshV_eq hb, ← h2 hg (fun u' p' ha => InK_asks hK ha hc) (.inl rfl)]
                    simp [hchk]
                · obtain ⟨v', b1, b2⟩ := a7 (g2 hg) hok p hp hw' hc
                  refine ⟨v', b1, ?_⟩
                  rw [← h1.st, ← h1.act]
                  exact b2
            · rename_i hchk
              refine ⟨h1.st, h1.act, fun _ => g2, ?_, e5, e6, by simp, ?_⟩
              · intro u' hu'
                exact ⟨(h1.frame u' hu').1, (h1.frame u' hu').2.2⟩
              · intro hf _
                exact absurd (hb.chk u q v hf) hchk
      · rename_i hw
        obtain ⟨a1, a2, a3, a4, a5, a6, a7, a8⟩ := ih hps s
        refine ⟨a1, a2, a3, a4, a5, ?_, ?_, a8⟩
        · intro p hp
          exact a6 p (hp.imp (fun h hm => h (List.mem_cons_of_mem _ hm)) id)
        · intro hg hok p hp hw' hc
          rcases List.mem_cons.1 hp with rfl | hp
          · exact absurd hw' hw
          · exact a7 hg hok p hp hw' hc

theorem parts_nodup (u : CUnit) : u.parts.Nodup := by cases u <;> simp [CUnit.parts]

variable [Inhabited V]

/-- The statement proved of `request` by induction on its fuel. -/
def ReqAt (c : Config) (K : CUnit → CPart → Prop) (P : Physics F V) (n : Nat) (u : CUnit) (p : CPart)
    (s : CState F V) : Prop :=
  Step c K P (u.rank + 1) (request c P n u p s).2.isSome s (request c P n u p s).1 ∧
    (Good c K P (u.rank + 1) s → InK c K u p → ((request c P n u p s).2.isSome = true ∨ NoSave c) →
      (request c P n u p s).2 = freshV P s.st s.act depth u p) ∧
    (u.fallible = false → (∀ p' u' q, asks c u p' u' q → u'.fallible = false) →
      u.rank ≤ 0 → (request c P n u p s).2.isSome = true)

theorem ReqOk.of {k n : Nat} (h : ∀ u p s, u.rank < k → ReqAt c K P n u p s) :
    ReqOk c K P k (request c P n) := by
  intro u p s hu
  obtain ⟨h1, h2, h3⟩ := h u p s hu
  exact ⟨h1.mono (by omega), fun hg => h2 fun u' hu' => hg u' (by omega), h3⟩

theorem asks_opt (c : Config) {u : CUnit} (hu : u.rank ≤ 0) {p : CPart} {u' : CUnit} {p' : CPart} :
    ¬ asks c u p u' p' := by
  intro h
  have := asks_rank h
  omega

theorem request_step (hb : Respects c P) (hK : Closed c K) (n : Nat) (u : CUnit) (p : CPart)
    (s : CState F V) (hu : u.rank < n) : ReqAt c K P n u p s := by
  induction n generalizing u p s with
  | zero => omega
  | succ n ih =>
      have hr : ReqOk c K P u.rank (request c P n) :=
        ReqOk.of fun u' p' s' hu' => ih u' p' s' (by omega)
      unfold ReqAt
      rw [request]
      split
      · rename_i hk
        obtain ⟨h1, h2, h0⟩ := runWith_step hr (hb.within u p) (fun u' p' h => asks_rank h) s
        cases hrun : runWith (request c P n) (P.body u p) s with
        | mk s1 o =>
        rw [hrun] at h1 h2 h0
        cases o with
        | none =>
            simp only
            refine ⟨h1.mono (by omega), fun hg hc ho => ?_, fun _ _ hu0 => ?_⟩
            · rw [freshV_eq hb, ← h2 (fun u' hu' => hg u' (by omega))
                (fun u' p' ha => InK_asks hK ha hc) (by simpa using ho)]
              rfl
            · exact h0 fun u' p' h => absurd h (asks_opt c hu0)
        | some v =>
            simp only
            refine ⟨⟨h1.st, h1.act, fun _ hg u' hu' => ?_, fun u' hu' => h1.frame u' (by omega)⟩,
              fun hg hc ho => ?_, fun hf _ _ => ?_⟩
            · exact (h1.mono (k' := u.rank + 1) (by omega)).good (.inl rfl) hg u' hu'
            · rw [freshV_eq hb, ← h2 (fun u' hu' => hg u' (by omega))
                (fun u' p' ha => InK_asks hK ha hc) (.inl rfl)]
              rfl
            · rw [hb.chk u p v hf]; rfl
      · rename_i hk
        have hk : u.kept c = true := by simpa using hk
        split
        · rename_i hd
          have hd : has (s.dep u) (u.deps c) = false := by simpa using hd
          refine ⟨Step.refl _ _ _, fun hg hc _ => ?_, fun _ _ _ => rfl⟩
          obtain ⟨v, b1, b2⟩ := hg u (by omega) p hc hk (by
            cases h : has (s.dep u) (u.trig c p) with
            | false => rfl
            | true => rw [has_mono h (trig_sub c u p hc.2.2)] at hd; exact absurd hd (by simp))
          rw [b2, b1]
          rfl
        · rename_i hd
          set s1 : CState F V :=
            { s with dep := fun u' => if u' = u then s.dep u &&& ~~~(u.deps c) else s.dep u',
                     runs := fun u' => if u' = u then s.runs u + 1 else s.runs u' } with hs1
          obtain ⟨a1, a2, a3, a4, a5, a6, a7, a8⟩ :=
            refresh_step hb hK hr (s.dep u) u.parts (parts_nodup u) s1
          have g1 : Good c K P (u.rank + 1) s → Good c K P u.rank s1 := fun hg u' hu' =>
            (hg u' (by omega)).congr rfl rfl (by
              simp only [hs1]; rw [if_neg]; rintro rfl; omega) rfl
          cases hrun : refresh c (request c P n) P u (s.dep u) u.parts s1 with
          | mk s2 ok =>
          rw [hrun] at a1 a2 a3 a4 a5 a6 a7 a8
          simp only [hrun]
          simp only at a1 a2 a3 a4 a5 a6 a7 a8
          have hframe : ∀ u', u.rank + 1 ≤ u'.rank →
              s2.dep u' = s.dep u' ∧ s2.val u' = s.val u' ∧ s2.runs u' = s.runs u' := by
            intro u' hu'
            have he : u' ≠ u := by rintro rfl; omega
            refine ⟨?_, ?_, ?_⟩
            · rw [(a4 u' (by omega)).1]; simp [hs1, he]
            · rw [a5 u' (by omega) he]
            · rw [(a4 u' (by omega)).2]; simp [hs1, he]
          cases ok with
          | false =>
              simp only
              have hno : ¬ NoSave c := fun hn => by
                have := kept_noSave hn hk
                have := a8 this.1 this.2
                simp at this
              refine ⟨⟨a1, a2, fun ho => ?_, hframe⟩, fun hg hc ho => ?_, fun hf _ hu0 => ?_⟩
              · exact absurd (by simpa using ho) hno
              · exact absurd (by simpa using ho) hno
              · exact a8 hf fun p' u' q h => absurd h (asks_opt c hu0)
          | true =>
              simp only
              have hval : Good c K P (u.rank + 1) s → ∀ q, InK c K u q →
                  ∃ v, s2.val u q = some v ∧ freshV P s.st s.act depth u q = some v := by
                intro hg q hc
                cases hw : has (s.dep u) (u.trig c q) with
                | true => exact a7 (g1 hg) rfl q hc.2.2 hw hc
                | false =>
                    rw [a6 q (.inr hw)]
                    exact hg u (by omega) q hc hk hw
              refine ⟨⟨a1, a2, ?_, hframe⟩, ?_, fun _ _ _ => rfl⟩
              · intro _ hg u' hu'
                by_cases he : u' = u
                · subst he
                  intro q hc _ _
                  rw [a1, a2]
                  exact hval hg q hc
                · by_cases hlt : u'.rank < u.rank
                  · exact a3 (.inl rfl) (g1 hg) u' hlt
                  · refine (hg u' hu').congr a1 a2 ?_ ?_
                    · rw [(a4 u' (by omega)).1]; simp [hs1, he]
                    · rw [a5 u' (by omega) he]
              · intro hg hc _
                obtain ⟨v, b1, b2⟩ := hval hg p hc
                rw [b1, b2]; rfl

theorem request_ok (hb : Respects c P) (hK : Closed c K) : ReqOk c K P depth (request c P depth) :=
  ReqOk.of fun u p s hu => request_step hb hK depth u p s hu

theorem Within_true (prog : Prog F V R) :
    prog.Within (fun _ _ => True) (fun _ => True) (fun _ => True) (fun _ _ => True) := by
  induction prog with
  | ret r => trivial
  | rdF l k ih => exact ⟨trivial, ih⟩
  | rdI l k ih => exact ⟨trivial, ih⟩
  | rdA i j k ih => exact ⟨trivial, ih⟩
  | ask u p k ih => exact ⟨trivial, ih⟩

theorem solve_step (hb : Respects c P) (hK : Closed c K) (prog : Prog F V R) (s : CState F V) :
    Step c K P depth (solveWith c P prog s).2.isSome s (solveWith c P prog s).1 :=
  (runWith_step (request_ok hb hK) (Within_true prog) (fun u _ _ => rank_lt u) s).1

theorem solve_value (hb : Respects c P) (hK : Closed c K) {prog : Prog F V R} {RF RI RA}
    (hp : prog.Within (InK c K) RF RI RA) {s : CState F V} (hg : Good c K P depth s)
    (ho : (solveWith c P prog s).2.isSome = true ∨ NoSave c) :
    (solveWith c P prog s).2 = plainRun P prog s.st s.act :=
  (runWith_step (request_ok hb hK) hp (fun u _ _ => rank_lt u) s).2.1 hg (fun _ _ h => h) ho

theorem closed_covered (fx : Prop) (c : Config) : Closed c (Covered fx c) := fun _ _ _ _ h => asks_covered h

theorem closed_all (c : Config) : Closed c (fun _ _ => True) := fun _ _ _ _ _ _ => trivial

end Xrtm
