import Verif.Proof.CacheD

/-! Two instances that differ only in values that are due for recomputation behave alike. -/

namespace Xrtm

open Spec

variable {F V R : Type} {c : Config} {P : Physics F V}

/-- Alike below rank `k`. -/
structure Sim (c : Config) (k : Nat) (s t : CState F V) : Prop where
  st : t.st.f = s.st.f ∧ t.st.i = s.st.i
  act : t.act = s.act
  dep : ∀ u, u.rank < k → t.dep u = s.dep u
  val : ∀ u p, u.rank < k → p ∈ u.parts → u.kept c = true →
    has (s.dep u) (u.trig c p) = true ∨ t.val u p = s.val u p

/-- Requests below rank `k` keep instances alike, as long as they succeed, and give the same. -/
def SimReq (c : Config) (k : Nat) (req : CUnit → CPart → CState F V → CState F V × Option V) : Prop :=
  ∀ u p s t, u.rank < k → p ∈ u.parts → Sim c k s t → (req u p t).2 = (req u p s).2 ∧
    ((req u p s).2.isSome = true → Sim c k (req u p s).1 (req u p t).1)

theorem runWith_sim {k : Nat} {req : CUnit → CPart → CState F V → CState F V × Option V}
    (hr : SimReq c k req) {A : CUnit → CPart → Prop} {RF : FLoc → Prop} {RI : ILoc → Prop}
    {RA : Int → Int → Prop} {prog : Prog F V R} (hw : prog.Within A RF RI RA)
    (hA : ∀ u p, A u p → u.rank < k ∧ p ∈ u.parts) {s t : CState F V} (hs : Sim c k s t) :
    (runWith req prog t).2 = (runWith req prog s).2 ∧
    ((runWith req prog s).2.isSome = true → Sim c k (runWith req prog s).1 (runWith req prog t).1) := by
  induction prog generalizing s t with
  | ret r => exact ⟨rfl, fun _ => hs⟩
  | rdF l k ih => simp only [runWith]; rw [hs.st.1]; exact ih _ (hw.2 _) hs
  | rdI l k ih => simp only [runWith]; rw [hs.st.2]; exact ih _ (hw.2 _) hs
  | rdA i j k ih => simp only [runWith]; rw [hs.act]; exact ih _ (hw.2 _) hs
  | ask u p k ih =>
      obtain ⟨h1, h2⟩ := hr u p s t (hA u p hw.1).1 (hA u p hw.1).2 hs
      simp only [runWith]
      cases hq : req u p s with
      | mk s' o =>
      cases hq' : req u p t with
      | mk t' o' =>
      rw [hq, hq'] at h1 h2
      simp only at h1 h2
      subst h1
      cases o' with
      | none => exact ⟨rfl, fun h => by simp at h⟩
      | some v => exact ih v (hw.2 _) (h2 rfl)

/-- While `u` is being refreshed: alike below `u`, and on the parts of `u` that are not still due. -/
structure SimAt (c : Config) (u : CUnit) (w : Word) (ps : List CPart) (s t : CState F V) : Prop where
  low : Sim c u.rank s t
  val : ∀ p ∈ u.parts, (p ∈ ps ∧ has w (u.trig c p) = true) ∨ t.val u p = s.val u p

theorem refresh_sim (hb : Respects c P) {u : CUnit}
    {req : CUnit → CPart → CState F V → CState F V × Option V} (hr : SimReq c u.rank req)
    (hq : ReqOk c (fun _ _ => True) P u.rank req) (w : Word) (ps : List CPart) {s t : CState F V}
    (hs : SimAt c u w ps s t) :
    (refresh c req P u w ps t).2 = (refresh c req P u w ps s).2 ∧
    ((refresh c req P u w ps s).2 = true →
      SimAt c u w [] (refresh c req P u w ps s).1 (refresh c req P u w ps t).1) := by
  induction ps generalizing s t with
  | nil => exact ⟨rfl, fun _ => hs⟩
  | cons p ps ih =>
      simp only [refresh]
      split
      · obtain ⟨h1, h2⟩ := runWith_sim hr (hb.within u p)
          (fun u' p' h => ⟨asks_rank h, asks_parts h⟩) hs.low
        have f1 := (runWith_step hq (hb.within u p) (fun u' p' h => asks_rank h) s).1
        have f2 := (runWith_step hq (hb.within u p) (fun u' p' h => asks_rank h) t).1
        cases hx : runWith req (P.body u p) s with
        | mk s' o =>
        cases hy : runWith req (P.body u p) t with
        | mk t' o' =>
        rw [hx, hy] at h1 h2
        rw [hx] at f1
        rw [hy] at f2
        simp only at h1 h2
        subst h1
        cases o' with
        | none => exact ⟨rfl, fun h => by simp at h⟩
        | some v =>
            simp only
            split
            · refine ih ⟨⟨(h2 rfl).st, (h2 rfl).act, (h2 rfl).dep, fun u' p' hu' hp' hk' => ?_⟩,
                fun p' hp' => ?_⟩
              · have : u' ≠ u := by rintro rfl; omega
                rcases (h2 rfl).val u' p' hu' hp' hk' with h | h
                · exact .inl h
                · exact .inr (by simp [this, h])
              · by_cases he : p' = p
                · exact .inr (by simp [he])
                · rcases hs.val p' hp' with ⟨h, h'⟩ | h
                  · exact .inl ⟨by simpa [he] using h, h'⟩
                  · refine .inr ?_
                    simp only [he, and_false, if_false]
                    have a1 := (f1.frame u le_rfl).2.1
                    have a2 := (f2.frame u le_rfl).2.1
                    simp only at a1 a2
                    rw [a1, a2, h]
            · exact ⟨rfl, fun h => by simp at h⟩
      · rename_i hw
        refine ih ⟨hs.low, fun p' hp' => ?_⟩
        rcases hs.val p' hp' with ⟨h, h'⟩ | h
        · rcases List.mem_cons.1 h with rfl | h
          · exact absurd h' hw
          · exact .inl ⟨h, h'⟩
        · exact .inr h

variable [Inhabited V]

theorem Sim.mono {k k' : Nat} (hk : k ≤ k') {s t : CState F V} (h : Sim c k' s t) : Sim c k s t :=
  ⟨h.st, h.act, fun u hu => h.dep u (by omega), fun u p hu => h.val u p (by omega)⟩

theorem Sim.frame {k r : Nat} {s t s' t' : CState F V} (h : Sim c k s t) (hl : Sim c r s' t')
    (hs : ∀ u, r ≤ u.rank → s'.dep u = s.dep u ∧ s'.val u = s.val u)
    (ht : ∀ u, r ≤ u.rank → t'.dep u = t.dep u ∧ t'.val u = t.val u) : Sim c k s' t' := by
  refine ⟨hl.st, hl.act, fun u hu => ?_, fun u p hu hp hk => ?_⟩
  · by_cases hr : u.rank < r
    · exact hl.dep u hr
    · rw [(hs u (by omega)).1, (ht u (by omega)).1]; exact h.dep u hu
  · by_cases hr : u.rank < r
    · exact hl.val u p hr hp hk
    · rw [(hs u (by omega)).1, (hs u (by omega)).2, (ht u (by omega)).2]; exact h.val u p hu hp hk

theorem request_sim (hb : Respects c P) (n k : Nat) {u : CUnit} {p : CPart} {s t : CState F V}
    (hn : u.rank < n) (hu : u.rank < k) (hp : p ∈ u.parts) (hs : Sim c k s t) :
    (request c P n u p t).2 = (request c P n u p s).2 ∧
    ((request c P n u p s).2.isSome = true → Sim c k (request c P n u p s).1 (request c P n u p t).1) := by
  induction n generalizing k u p s t with
  | zero => omega
  | succ n ih =>
      have hr : SimReq c u.rank (request c P n) := fun u' p' s' t' hu' hp' hs' =>
        ih u.rank (by omega) hu' hp' hs'
      have hq : ReqOk c (fun _ _ => True) P u.rank (request c P n) :=
        ReqOk.of fun u' p' s' hu' => request_step hb (closed_all c) n u' p' s' (by omega)
      rw [request, request]
      split
      · obtain ⟨h1, h2⟩ := runWith_sim hr (hb.within u p)
          (fun u' p' h => ⟨asks_rank h, asks_parts h⟩) (hs.mono (by omega : u.rank ≤ k))
        have f1 := (runWith_step hq (hb.within u p) (fun u' p' h => asks_rank h) s).1
        have f2 := (runWith_step hq (hb.within u p) (fun u' p' h => asks_rank h) t).1
        cases hx : runWith (request c P n) (P.body u p) s with
        | mk s' o =>
        cases hy : runWith (request c P n) (P.body u p) t with
        | mk t' o' =>
        rw [hx, hy] at h1 h2
        rw [hx] at f1
        rw [hy] at f2
        simp only at h1 h2
        subst h1
        cases o' with
        | none => exact ⟨rfl, fun h => by simp at h⟩
        | some v =>
            refine ⟨rfl, fun _ => hs.frame (h2 rfl) ?_ ?_⟩
            · exact fun u' hu' => ⟨(f1.frame u' hu').1, (f1.frame u' hu').2.1⟩
            · exact fun u' hu' => ⟨(f2.frame u' hu').1, (f2.frame u' hu').2.1⟩
      · rename_i hk
        have hk : u.kept c = true := by simpa using hk
        rw [hs.dep u hu]
        split
        · rename_i hd
          refine ⟨?_, fun _ => hs⟩
          rcases hs.val u p hu hp hk with h | h
          · rw [has_mono h (trig_sub c u p hp)] at hd; simp at hd
          · simp only [h]
        · have hm := refresh_sim hb hr hq (s.dep u) u.parts
            (s := { s with dep := fun u' => if u' = u then s.dep u &&& ~~~(u.deps c) else s.dep u',
                           runs := fun u' => if u' = u then s.runs u + 1 else s.runs u' })
            (t := { t with dep := fun u' => if u' = u then s.dep u &&& ~~~(u.deps c) else t.dep u',
                           runs := fun u' => if u' = u then t.runs u + 1 else t.runs u' })
            ⟨⟨hs.st, hs.act, fun u' hu' => by
                simp only; split
                · rfl
                · exact hs.dep u' (by omega), fun u' p' hu' hp' hk' => by
                have : u' ≠ u := by rintro rfl; omega
                simp only [this, if_false]
                exact hs.val u' p' (by omega) hp' hk'⟩, fun p' hp' => by
              rcases hs.val u p' hu hp' hk with h | h
              · exact .inl ⟨hp', h⟩
              · exact .inr h⟩
          have f1 := refresh_step hb (closed_all c) hq (s.dep u) u.parts (parts_nodup u)
            { s with dep := fun u' => if u' = u then s.dep u &&& ~~~(u.deps c) else s.dep u',
                     runs := fun u' => if u' = u then s.runs u + 1 else s.runs u' }
          have f2 := refresh_step hb (closed_all c) hq (s.dep u) u.parts (parts_nodup u)
            { t with dep := fun u' => if u' = u then s.dep u &&& ~~~(u.deps c) else t.dep u',
                     runs := fun u' => if u' = u then t.runs u + 1 else t.runs u' }
          cases hx : refresh c (request c P n) P u (s.dep u) u.parts
              { s with dep := fun u' => if u' = u then s.dep u &&& ~~~(u.deps c) else s.dep u',
                       runs := fun u' => if u' = u then s.runs u + 1 else s.runs u' } with
          | mk s2 ok =>
          cases hy : refresh c (request c P n) P u (s.dep u) u.parts
              { t with dep := fun u' => if u' = u then s.dep u &&& ~~~(u.deps c) else t.dep u',
                       runs := fun u' => if u' = u then t.runs u + 1 else t.runs u' } with
          | mk t2 ok' =>
          rw [hx, hy] at hm
          rw [hx] at f1
          rw [hy] at f2
          simp only [hx, hy]
          obtain ⟨h1, h2⟩ := hm
          simp only at h1 h2
          subst h1
          cases ok' with
          | false => exact ⟨rfl, fun h => by simp at h⟩
          | true =>
              obtain ⟨hl, hv⟩ := h2 rfl
              have hv : ∀ p' ∈ u.parts, t2.val u p' = s2.val u p' := fun p' hp' => by
                rcases hv p' hp' with ⟨h, _⟩ | h
                · simp at h
                · exact h
              refine ⟨by simp only [hv p hp], fun _ => ⟨hl.st, hl.act, fun u' hu' => ?_,
                fun u' p' hu' hp' hk' => ?_⟩⟩
              · by_cases hr : u'.rank < u.rank
                · exact hl.dep u' hr
                · have a1 := (f1.2.2.2.1 u' (by omega)).1
                  have a2 := (f2.2.2.2.1 u' (by omega)).1
                  simp only at a1 a2 ⊢
                  rw [a1, a2]
                  split
                  · rfl
                  · exact hs.dep u' hu'
              · by_cases hr : u'.rank < u.rank
                · exact hl.val u' p' hr hp' hk'
                · by_cases he : u' = u
                  · subst he; exact .inr (hv p' hp')
                  · have a1 := (f1.2.2.2.1 u' (by omega)).1
                    have b1 := f1.2.2.2.2.1 u' (by omega) he
                    have b2 := f2.2.2.2.2.1 u' (by omega) he
                    simp only [he, if_false] at a1 b1 b2 ⊢
                    rw [a1, b1, b2]
                    exact hs.val u' p' hu' hp' hk'

theorem solve_sim (hb : Respects c P) {prog : Prog F V R} (hp : AsksValid c prog) {s t : CState F V}
    (hs : Sim c depth s t) : (solveWith c P prog t).2 = (solveWith c P prog s).2 := by
  have hr : SimReq c depth (request c P depth) := fun u p s t hu hp hs =>
    request_sim hb depth depth hu hu hp hs
  exact (runWith_sim hr hp (fun u _ h => ⟨rank_lt u, h.2⟩) hs).1

theorem plainRun_congr {P : Physics F V} (prog : Prog F V R) {st st' : State F} (hf : st.f = st'.f)
    (hi : st.i = st'.i) (act : Int → Int → Bool) : plainRun P prog st act = plainRun P prog st' act := by
  have h : ∀ n u p, freshV P st act n u p = freshV P st' act n u p := by
    intro n
    induction n with
    | zero => intros; rfl
    | succ n ih =>
        intro u p
        rw [freshV, freshV, evalWith_congr (Within_true (P.body u p)) (fun u' p' _ => ih u' p')
          (fun l _ => congrFun hf l) (fun l _ => congrFun hi l) (fun _ _ _ => rfl)]
  exact evalWith_congr (Within_true prog) (fun u p _ => h depth u p)
          (fun l _ => congrFun hf l) (fun l _ => congrFun hi l) (fun _ _ _ => rfl)

theorem orAll_full {dep : CUnit → Word} (h : ∀ u, dep u = DEP_MASK) (es : List DepEv) (u : CUnit) :
    orAll dep es u = DEP_MASK := by
  induction es with
  | nil => exact h u
  | cons e es ih =>
      simp only [orAll, orDeps]
      split
      · rw [ih, depMask_eq, BitVec.allOnes_or]
      · exact ih

theorem Spec.SetUp.full [Fp F] {kern quad actOf act0} {s : CState F V}
    (h : SetUp c kern quad actOf act0 s) : ∀ u, s.dep u = DEP_MASK := by
  induction h with
  | init => intro u; rfl
  | call _ _ ih => exact orAll_full ih _

theorem sim_full {s t : CState F V} (hs : ∀ u, s.dep u = DEP_MASK) (ht : ∀ u, t.dep u = DEP_MASK)
    (hf : t.st.f = s.st.f) (hi : t.st.i = s.st.i) (ha : t.act = s.act) (k : Nat) : Sim c k s t :=
  ⟨⟨hf, hi⟩, ha, fun u _ => (ht u).trans (hs u).symm, fun u p _ hp _ => .inl (by rw [hs u]; exact trig_ne hp)⟩

theorem good_full {K : CUnit → CPart → Prop} {s : CState F V} (hs : ∀ u, s.dep u = DEP_MASK) (k : Nat) :
    Good c K P k s := by
  intro u _ p hc _ hd
  rw [hs u, trig_ne hc.2.2] at hd
  exact absurd hd (by simp)

end Xrtm
