import Verif.Proof.AddingE

/-! The routines that keep the factors for later calls, and those for the sources only. -/

namespace Xrtm.Adding

open Mat Spec Matrix

variable {K : Type} [CommRing K] {n : Nat} {inv? : M n K → Option (M n K)}

/-- The arrays of a `layer_add_aux_data`: no scratch, and those of the two halves apart. -/
structure AuxApart (f : Fr) : Prop where
  ext : ∀ c, c = f.P ∨ c = f.A ∨ c = f.B ∨ c = f.P' ∨ c = f.A' ∨ c = f.B' → ∀ k, c ≠ .scratch k
  apart : ∀ c, c = f.P ∨ c = f.A ∨ c = f.B → c ≠ f.P' ∧ c ≠ f.A' ∧ c ≠ f.B'

/-- The factors of both halves are there. -/
def AuxOk (inv? : M n K → Option (M n K)) (f : Fr) (q q' : M n K) (wB : Bool) (o : Lin n K) (s : Mem n K) : Prop :=
  FacO inv? f q wB o s ∧ FacO inv? f.swap q' wB o.swap s

theorem OnlyH.auxDown {f : Fr} {nd : Nat} {flag : Bool} {s s' : Mem n K} (ha' : AuxPlaces f.swap nd)
    (hx : AuxApart f) (h : OnlyH f nd flag s s') :
    ∀ c, c = f.P' ∨ c = f.A' ∨ c = f.B' → s'.m c = s.m c := by
  intro c hc
  have hc' : c = f.swap.P ∨ c = f.swap.A ∨ c = f.swap.B := hc
  refine h.m c (hx.ext c ?_) (fun e => ?_) (fun e => ?_) (fun e => ?_) (fun _ => ⟨fun e => ?_, fun e => ?_⟩)
    (fun j hj => ⟨fun e => ?_, fun e => ?_⟩)
  · rcases hc with rfl | rfl | rfl <;> simp
  · have := hx.apart _ (.inl rfl); rw [e] at hc; rcases hc with h | h | h <;> simp_all
  · have := hx.apart _ (.inr (.inl rfl)); rw [e] at hc; rcases hc with h | h | h <;> simp_all
  · have := hx.apart _ (.inr (.inr rfl)); rw [e] at hc; rcases hc with h | h | h <;> simp_all
  · exact ha'.m c hc' .R31 e.symm
  · exact ha'.m c hc' .T13 e.symm
  · exact ha'.ml c hc' j hj .R31 e.symm
  · exact ha'.ml c hc' j hj .T13 e.symm

theorem OnlyH.auxUp {f : Fr} {nd : Nat} {flag : Bool} {s s' : Mem n K} (ha : AuxPlaces f nd)
    (hx : AuxApart f) (h : OnlyH f.swap nd flag s s') :
    ∀ c, c = f.P ∨ c = f.A ∨ c = f.B → s'.m c = s.m c := by
  intro c hc
  have hap := hx.apart c hc
  refine h.m c (hx.ext c ?_) hap.1 hap.2.1 hap.2.2 (fun _ => ⟨fun e => ?_, fun e => ?_⟩)
    (fun j hj => ⟨fun e => ?_, fun e => ?_⟩)
  · rcases hc with rfl | rfl | rfl <;> simp
  · exact ha.m c hc .R31 e.symm
  · exact ha.m c hc .T13 e.symm
  · exact ha.ml c hc j hj .R31 e.symm
  · exact ha.ml c hc j hj .T13 e.symm

theorem FacO.congr {f : Fr} {q : M n K} {wB : Bool} {o : Lin n K} {s s' : Mem n K}
    (h : ∀ c, c = f.P ∨ c = f.A ∨ c = f.B → s'.m c = s.m c) (hf : FacO inv? f q wB o s) : FacO inv? f q wB o s' :=
  ⟨hf.inv, by rw [h _ (.inl rfl)]; exact hf.p, by rw [h _ (.inr (.inl rfl))]; exact hf.a,
    fun w => by rw [h _ (.inr (.inr rfl))]; exact hf.b w⟩

/-- Join the two halves and keep the factors. -/
theorem combine2 {wR wR' wB : Bool} (hwr : wR' = true → wR = true) {f : Fr} {nd : Nat} (hp : Places f nd)
    (ha : AuxPlaces f nd) (ha' : AuxPlaces f.swap nd) {act : Nat → Act × Act} {flag : Bool} {q q' : M n K} {t : K}
    {tl : Nat → K} {L : Nat → Lin n K} {s : Mem n K} {U Dn : List (Do K)}
    (hU : Post (runDo inv? U s) fun s1 => OnlyH f nd flag s s1 ∧
      (flag = true → Out wR wR f (vals f s) q (oS31 (vals f s) q t) s1) ∧
      FacO inv? f q wB (vals f s) s1 ∧
      ∀ i, i < nd → DoneO wR' f i (act i).1 (act i).2 (vals f s) (L i) q (oC31 (vals f s) t) t (tl i) s1)
    (hD : ∀ s1, OnlyH f nd flag s s1 → Post (runDo inv? Dn s1) fun s' => OnlyH f.swap nd flag s1 s' ∧
      (flag = true → Out wR wR f.swap (vals f s1).swap q' (oS13 (vals f s1).swap q' t) s') ∧
      FacO inv? f.swap q' wB (vals f s1).swap s' ∧
      ∀ i, i < nd → DoneO wR' f.swap i (act i).2 (act i).1 (vals f s1).swap (L i).swap q'
        (oC13 (vals f s1).swap t) t (tl i) s') :
    Post (runDo inv? (U ++ Dn) s) fun s' => AllPost wR' f nd act flag (vals f s) q q' t tl L s s' ∧
      (AuxApart f → AuxOk inv? f q q' wB (vals f s) s') := by
  have h1 := combine hwr hp ha ha' (hU.mono fun s1 h => ⟨h.1, h.2.1, h.2.2.2⟩)
    (fun s1 h => (hD s1 h).mono fun s' h' => ⟨h'.1, h'.2.1, h'.2.2.2⟩)
  have h2 : Post (runDo inv? (U ++ Dn) s) fun s' => AuxApart f → AuxOk inv? f q q' wB (vals f s) s' := by
    rw [Post_runDo_append]
    refine hU.mono fun s1 h1 => (hD s1 h1.1).mono fun s' h2 hx => ⟨?_, ?_⟩
    · exact h1.2.2.1.congr (h2.1.auxUp ha hx)
    · exact (h1.1.agree hp ha).fac.1 h2.2.2.1
  obtain ⟨s1, e1, p1⟩ := h1.elim
  obtain ⟨s2, e2, p2⟩ := h2.elim
  rw [e1] at e2 ⊢
  cases e2
  exact ⟨p1, p2⟩

theorem all2Has_allHas {a b : Act} (h : all2Has a b = true) : allHas a b = true := by
  cases a <;> cases b <;> simp_all [all2Has, allHas]

theorem layerAddAll2_post (hinv : Exact inv?) {f : Fr} {nd : Nat} (hp : Places f nd) (ha : AuxPlaces f nd)
    (ha' : AuxPlaces f.swap nd) {s : Mem n K}
    {act : Nat → Act × Act} {L : Nat → Lin n K} {q q' : M n K} {t : K} {tl : Nat → K}
    (flag fresh : Bool) (hq : q * (1 - s.m (f.m .R23) * s.m (f.m .R21)) = 1)
    (hq' : q' * (1 - s.m (f.m .R21) * s.m (f.m .R23)) = 1)
    (hfr : fresh = false → AuxApart f ∧ AuxOk inv? f q q' true (vals f s) s)
    (hs : ∀ i, i < nd → all2Has (act i).1 (act i).2 = true)
    (hh : ∀ i, i < nd → HoldsAll f i (act i).1 (act i).2 (L i) s)
    (ht : ∀ i, i < nd → (act i).1.l = false ∨ (act i).2.l = false → tl i = 0) :
    Post (runDo inv? (layerAddAll2 f nd t tl act flag fresh) s) fun s' =>
      AllPost true f nd act flag (vals f s) q q' t tl L s s' ∧
        (AuxApart f → AuxOk inv? f q q' true (vals f s) s') := by
  have hf := ha.sepF hp.mExt hp.vExt
  have hf' : SepF f.swap := ha'.sepF (fun x => hp.mExt x.swap) (fun x => hp.vExt x.swap)
  have h := hp.sepUp ha
  have h' := hp.sepDown ha'
  refine combine2 (wR := true) (fun _ => rfl) hp ha ha' ?_ ?_
  · refine half (wB := true) (nc := true) (nD := decide (nd ≠ 0)) (wR := true) (wT := true) hf h
      (eff := act) (c := oC31 (vals f s) t) (S := oS31 (vals f s) q t) (q := q) (L := L) (t := t) (tl := tl)
      ?_ ?_ ?_ ?_
    · exact pre_D hf (pre_src hf (pre_fac hinv hf hq (fun w => (hfr w).2.1) _))
    · intro s1 h1 i hi s' hs'
      have e : all2Do f i t (tl i) (act i).1 (act i).2 = allDo f i t (tl i) (act i).1 (act i).2 := by
        simp [all2Do, hs i hi]
      rw [e]
      refine all_body (h.each i hi) ?_ t (tl i) ?_ (act i).1 (act i).2 (all2Has_allHas (hs i hi)) ?_
        (fun w => ht i hi (.inl w))
      · rw [hs'.p]; exact h1.fac.p
      · rw [hs'.d, hs'.a, hs'.m]; exact h1.d (by simp; omega)
      · exact (((hh i hi).holds).pre (h.each i hi) h1).same hs'
    · intro s1 s' h1 i hi hd
      exact hd.toO (h1.vals hf) h1.fac (h1.c rfl)
    · intro s2 ho hfac hc
      exact tail_up hf (hp.mres .R13 .R12 _ rfl (by decide) (by decide))
        (hp.mres .T31 .T21 _ rfl (by decide) (by decide)) (hp.mres .T31 .T21 .T32 rfl (by decide) (by decide)).symm
        flag ho hfac (hc rfl)
  · intro s1 ho
    have hag := ho.agree hp ha
    refine half (f := f.swap) (wB := true) (nc := true) (nD := decide (nd ≠ 0)) (wR := true) (wT := true) hf' h'
      (eff := fun i => ((act i).2, (act i).1)) (c := oC13 (vals f.swap s1) t) (S := oS13 (vals f.swap s1) q' t)
      (q := q') (L := fun i => (L i).swap) (t := t) (tl := tl)
      ?_ ?_ ?_ ?_
    · refine pre_D hf' (pre_srcDown hf' (pre_fac hinv hf' ?_ (fun w => ?_) _))
      · show q' * (1 - s1.m (f.m .R21) * s1.m (f.m .R23)) = 1
        have e1 := hag.r21
        have e2 := hag.r23
        simp only [vals] at e1 e2
        rw [e1, e2]; exact hq'
      · exact (hag.fac.2 (hfr w).2.2).congr (ho.auxDown ha' (hfr w).1)
    · intro s2 h1 i hi s' hs'
      have e : all2DoDown f.swap i t (tl i) (act i).1 (act i).2 = allDoDown f.swap i t (tl i) (act i).1 (act i).2 := by
        simp [all2DoDown, hs i hi]
      rw [e]
      refine allDown_body (h'.each i hi) ?_ t (tl i) ?_ (act i).1 (act i).2 (all2Has_allHas (hs i hi)) ?_
        (fun w => ht i hi (.inr w))
      · rw [hs'.p]; exact h1.fac.p
      · rw [hs'.d, hs'.a, hs'.m]; exact h1.d (by simp; omega)
      · exact (((hh i hi).down hi hp ha ho).pre (h'.each i hi) h1).same hs'
    · intro s2 s' h1 i hi hd
      exact hd.toO (h1.vals hf') h1.fac (h1.c rfl)
    · intro s2 ho hfac hc
      exact tail_down hf' (hp.mres .R31 .R21 .T12 rfl (by decide) (by decide))
        (hp.mres .T13 .T12 .R31 rfl (by decide) (by decide)) flag ho hfac (hc rfl)

theorem srcHas_l {a b : Act} (h : srcHas a b = true) : a.l = false ∧ b.l = false := by
  cases a <;> cases b <;> simp_all [srcHas, Act.l]

theorem HoldsAll.zero {f : Fr} {i : Nat} {a b : Act} {L : Lin n K} {s : Mem n K} (h : HoldsAll f i a b L s)
    (hs : srcHas a b = true) : (L.m .T21 = 0 ∧ L.m .R23 = 0 ∧ L.m .R21 = 0) ∧
      L.swap.m .T21 = 0 ∧ L.swap.m .R23 = 0 ∧ L.swap.m .R21 = 0 := by
  obtain ⟨ha, hb⟩ := srcHas_l hs
  have u := h.up
  have l := h.lo
  simp only [ha, hb, Bool.false_eq_true, if_false] at u l
  exact ⟨⟨u _ (by simp), l _ (by simp), u _ (by simp)⟩, l .T23 (by simp), u .R21 (by simp), l .R23 (by simp)⟩

theorem sourceAddAll_post (hinv : Exact inv?) {f : Fr} {nd : Nat} (hp : Places f nd) (ha : AuxPlaces f nd)
    (ha' : AuxPlaces f.swap nd) {s : Mem n K}
    {act : Nat → Act × Act} {L : Nat → Lin n K} {q q' : M n K} {t : K}
    (flag fresh two : Bool) (hq : q * (1 - s.m (f.m .R23) * s.m (f.m .R21)) = 1)
    (hq' : q' * (1 - s.m (f.m .R21) * s.m (f.m .R23)) = 1)
    (hfr : fresh = false → AuxApart f ∧ AuxOk inv? f q q' false (vals f s) s)
    (hs : ∀ i, i < nd → srcHas (act i).1 (act i).2 = true)
    (hh : ∀ i, i < nd → HoldsAll f i (act i).1 (act i).2 (L i) s) :
    Post (runDo inv? (sourceAddAll f nd t (fun _ => 0) act flag fresh two) s) fun s' =>
      AllPost false f nd act flag (vals f s) q q' t (fun _ => 0) L s s' ∧
        (AuxApart f → AuxOk inv? f q q' false (vals f s) s') := by
  have hf := ha.sepF hp.mExt hp.vExt
  have hf' : SepF f.swap := ha'.sepF (fun x => hp.mExt x.swap) (fun x => hp.vExt x.swap)
  have h := hp.sepUp ha
  have h' := hp.sepDown ha'
  refine combine2 (wR := false) (fun w => by simp at w) hp ha ha' ?_ ?_
  · refine (half (wB := false) (nc := two || flag) (nD := false) (wR := false) (wT := false) hf h
      (eff := act) (c := oC31 (vals f s) t) (S := oS31 (vals f s) q t) (q := q) (L := L) (t := t) (tl := fun _ => 0)
      ?_ ?_ ?_ ?_)
    · have h0 := pre_srcFac hinv hf hq (fun w => (hfr w).2.1) (oC31 (vals f s) t)
      cases hc : two || flag
      · simpa using h0
      · simpa using pre_src hf h0
    · intro s1 h1 i hi s' hs'
      refine (src_body (q := q) (h.each i hi) t 0 (act i).1 (act i).2 (hs i hi)
        ((((hh i hi).holds).pre (h.each i hi) h1).same hs') rfl).mono fun s'' e => ⟨e.1, ?_⟩
      exact ⟨e.2.rr, by simp, e.2.ss⟩
    · intro s1 s' h1 i hi hd
      exact hd.toOS (h1.vals hf) h1.fac (srcHas_l (hs i hi)).1 (srcHas_l (hs i hi)).2 ((hh i hi).zero (hs i hi)).1
    · intro s2 ho hfac hc
      exact tail_srcUp hf flag ho hfac (fun w => hc (by simp [w]))
  · intro s1 ho
    have hag := ho.agree hp ha
    refine half (f := f.swap) (wB := false) (nc := two || flag) (nD := false) (wR := false) (wT := false) hf' h'
      (eff := fun i => ((act i).2, (act i).1)) (c := oC13 (vals f.swap s1) t) (S := oS13 (vals f.swap s1) q' t)
      (q := q') (L := fun i => (L i).swap) (t := t) (tl := fun _ => 0)
      ?_ ?_ ?_ ?_
    · have h0 : Post (run inv? (if fresh then srcFactors f.swap else []) s1)
          (Pre inv? f.swap q' false (oC13 (vals f.swap s1) t) false false s1) := by
        refine pre_srcFac hinv hf' ?_ (fun w => ?_) _
        · show q' * (1 - s1.m (f.m .R21) * s1.m (f.m .R23)) = 1
          have e1 := hag.r21
          have e2 := hag.r23
          simp only [vals] at e1 e2
          rw [e1, e2]; exact hq'
        · exact (hag.fac.2 (hfr w).2.2).congr (ho.auxDown ha' (hfr w).1)
      cases hc : two || flag
      · simpa using h0
      · simpa using pre_srcDown hf' h0
    · intro s2 h1 i hi s' hs'
      refine (srcDown_body (q := q') (h'.each i hi) t 0 (act i).1 (act i).2 (hs i hi)
        ((((hh i hi).down hi hp ha ho).pre (h'.each i hi) h1).same hs') rfl).mono fun s'' e => ⟨e.1, ?_⟩
      exact ⟨e.2.rr, by simp, e.2.ss⟩
    · intro s2 s' h1 i hi hd
      exact hd.toOS (h1.vals hf') h1.fac (srcHas_l (hs i hi)).2 (srcHas_l (hs i hi)).1 ((hh i hi).zero (hs i hi)).2
    · intro s2 ho hfac hc
      exact tail_srcDown hf' flag ho hfac (fun w => hc (by simp [w]))

end Xrtm.Adding
