import Verif.Proof.AddingB

/-! The loop over the derivatives and the halves of the adding routines. -/

namespace Xrtm.Adding

open Mat

variable {K : Type} [CommRing K] {n : Nat} {inv? : M n K → Option (M n K)}

/-- The places of all derivatives. -/
structure SepL (f : Fr) (nd : Nat) : Prop where
  each : ∀ i, i < nd → Sep f i
  crossR : ∀ i j, i < nd → j < nd → i ≠ j → ∀ x, f.ml i x ≠ f.ml j .R13
  crossT : ∀ i j, i < nd → j < nd → i ≠ j → ∀ x, f.ml i x ≠ f.ml j .T31
  crossS : ∀ i j, i < nd → j < nd → i ≠ j → ∀ x, f.vl i x ≠ f.vl j .S31

/-- Nothing but scratch arrays and results of the first `k` derivatives changed. -/
structure OnlyL (f : Fr) (k : Nat) (s s' : Mem n K) : Prop where
  m : ∀ c, c ≠ w1 → c ≠ w2 → c ≠ D → c ≠ E → (∀ j, j < k → c ≠ f.ml j .R13 ∧ c ≠ f.ml j .T31) → s'.m c = s.m c
  v : ∀ c, c ≠ v1 → c ≠ v2 → (∀ j, j < k → c ≠ f.vl j .S31) → s'.v c = s.v c

/-- What derivative `i` reads is the same. -/
structure Same (f : Fr) (i : Nat) (s s' : Mem n K) : Prop where
  m : ∀ x, s'.m (f.m x) = s.m (f.m x)
  v : ∀ x, s'.v (f.v x) = s.v (f.v x)
  ml : ∀ x, s'.m (f.ml i x) = s.m (f.ml i x)
  vl : ∀ x, s'.v (f.vl i x) = s.v (f.vl i x)
  p : s'.m f.P = s.m f.P
  a : s'.m f.A = s.m f.A
  b : s'.m f.B = s.m f.B
  d : s'.m DXX = s.m DXX
  c : s'.v C = s.v C

theorem OnlyL.refl (f : Fr) (s : Mem n K) : OnlyL f 0 s s := ⟨fun _ _ _ _ _ _ => rfl, fun _ _ _ _ => rfl⟩

theorem OnlyL.same {f : Fr} {nd k : Nat} (h : SepL f nd) {s s' : Mem n K} (ho : OnlyL f k s s') (hk : k < nd) :
    Same f k s s' := by
  have hk' := h.each k hk
  refine ⟨fun x => ?_, fun x => ?_, fun x => ?_, fun x => ?_, ?_, ?_, ?_, ?_, ?_⟩
  · exact ho.m _ (hk'.mExt _ _) (hk'.mExt _ _) (hk'.mExt _ _) (hk'.mExt _ _)
      fun j hj => ⟨(h.each j (by omega)).mml _ _, (h.each j (by omega)).mml _ _⟩
  · exact ho.v _ (hk'.vExt _ _) (hk'.vExt _ _) fun j hj => (h.each j (by omega)).vvl _ _
  · exact ho.m _ (hk'.mlExt _ _) (hk'.mlExt _ _) (hk'.mlExt _ _) (hk'.mlExt _ _)
      fun j hj => ⟨h.crossR k j hk (by omega) (by omega) _, h.crossT k j hk (by omega) (by omega) _⟩
  · exact ho.v _ (hk'.vlExt _ _) (hk'.vlExt _ _) fun j hj => h.crossS k j hk (by omega) (by omega) _
  · exact ho.m _ (hk'.pbig _ (by omega)) (hk'.pbig _ (by omega)) (hk'.pbig _ (by omega)) (hk'.pbig _ (by omega))
      fun j hj => ⟨((h.each j (by omega)).pl _).symm, ((h.each j (by omega)).pl _).symm⟩
  · exact ho.m _ (hk'.abig _ (by omega)) (hk'.abig _ (by omega)) (hk'.abig _ (by omega)) (hk'.abig _ (by omega))
      fun j hj => ⟨((h.each j (by omega)).al _).symm, ((h.each j (by omega)).al _).symm⟩
  · exact ho.m _ (hk'.bbig _ (by omega)) (hk'.bbig _ (by omega)) (hk'.bbig _ (by omega)) (hk'.bbig _ (by omega))
      fun j hj => ⟨((h.each j (by omega)).bl _).symm, ((h.each j (by omega)).bl _).symm⟩
  · exact ho.m _ (by decide) (by decide) (by decide) (by decide)
      fun j hj => ⟨((h.each j (by omega)).mlExt _ _).symm, ((h.each j (by omega)).mlExt _ _).symm⟩
  · exact ho.v _ (by decide) (by decide) fun j hj => ((h.each j (by omega)).vlExt _ _).symm

theorem OnlyL.step {f : Fr} {k : Nat} {s s' s'' : Mem n K} (ho : OnlyL f k s s') (h1 : Only f k s' s'') :
    OnlyL f (k + 1) s s'' := by
  refine ⟨fun c a1 a2 a3 a4 a5 => ?_, fun c a1 a2 a3 => ?_⟩
  · rw [h1.m c a1 a2 a3 a4 (a5 k (by omega)).1 (a5 k (by omega)).2]
    exact ho.m c a1 a2 a3 a4 fun j hj => a5 j (by omega)
  · rw [h1.v c a1 a2 (a3 k (by omega))]
    exact ho.v c a1 a2 fun j hj => a3 j (by omega)

theorem Done.congr {wT : Bool} {f : Fr} {i : Nat} {a b : Act} {L : Lin n K} {q : M n K} {t tl : K}
    {s s' s'' : Mem n K} (hs : Same f i s s') (h : Done wT f i a b L q t tl s' s'') :
    Done wT f i a b L q t tl s s'' := by
  obtain ⟨h1, h2, h3⟩ := h
  obtain ⟨a1, a2, a3, a4, a5, a6, a7, a8, a9⟩ := hs
  simp only [dR13, dT31, dS31, dA, a1, a2, a3, a4, a5, a6, a7, a8, a9] at h1 h2 h3
  exact ⟨h1, h2, h3⟩

theorem Done.later {wT : Bool} {f : Fr} {nd i k : Nat} (h : SepL f nd) (hi : i < nd) (hk : k < nd) (hik : i ≠ k)
    {a b : Act} {L : Lin n K} {q : M n K} {t tl : K}
    {s s' s'' : Mem n K} (hd : Done wT f i a b L q t tl s s') (ho : Only f k s' s'') :
    Done wT f i a b L q t tl s s'' := by
  have hi' := h.each i hi
  have em : ∀ x, s''.m (f.ml i x) = s'.m (f.ml i x) := fun x =>
    ho.m _ (hi'.mlExt _ _) (hi'.mlExt _ _) (hi'.mlExt _ _) (hi'.mlExt _ _) (h.crossR i k hi hk hik x)
      (h.crossT i k hi hk hik x)
  have ev : ∀ x, s''.v (f.vl i x) = s'.v (f.vl i x) := fun x =>
    ho.v _ (hi'.vlExt _ _) (hi'.vlExt _ _) (h.crossS i k hi hk hik x)
  exact ⟨fun w => (em _).trans (hd.rr w), fun w w' => (em _).trans (hd.tt w w'), fun w => (ev _).trans (hd.ss w)⟩

theorem loop {f : Fr} {nd : Nat} (h : SepL f nd) {s : Mem n K} {wT : Bool} {act eff : Nat → Act × Act}
    {body : Nat → Act → Act → Do K} {L : Nat → Lin n K} {q : M n K} {t : K} {tl : Nat → K}
    (hb : ∀ i, i < nd → ∀ s', Same f i s s' →
      Post (runDo inv? [body i (act i).1 (act i).2] s') fun s'' => Only f i s' s'' ∧
        Done wT f i (eff i).1 (eff i).2 (L i) q t (tl i) s' s'') :
    Post (runDo inv? (derivLoop nd act body) s) fun s' => OnlyL f nd s s' ∧
      ∀ i, i < nd → Done wT f i (eff i).1 (eff i).2 (L i) q t (tl i) s s' := by
  have key : ∀ k, k ≤ nd → Post (runDo inv? (derivLoop k act body) s) fun s' => OnlyL f k s s' ∧
      ∀ i, i < k → Done wT f i (eff i).1 (eff i).2 (L i) q t (tl i) s s' := by
    intro k
    induction k with
    | zero =>
        intro _
        exact ⟨OnlyL.refl f s, fun i hi => absurd hi (by omega)⟩
    | succ k ih =>
        intro hk
        have e : derivLoop (k + 1) act body = derivLoop k act body ++ [body k (act k).1 (act k).2] := by
          simp [derivLoop, List.range_succ]
        rw [e, Post_runDo_append]
        refine (ih (by omega)).mono fun s' hs' => ?_
        have hsame := hs'.1.same h (by omega)
        refine (hb k (by omega) s' hsame).mono fun s'' hs'' => ?_
        refine ⟨hs'.1.step hs''.1, fun i hi => ?_⟩
        by_cases hik : i = k
        · subst hik
          exact hs''.2.congr hsame
        · exact (hs'.2 i (by omega)).later h (by omega) (by omega) hik hs''.1
  exact key nd (Nat.le_refl _)

/-- The derivative of `R13`, `T31`, `S31` at given operators `o` and derivatives `L`. -/
def gA (o L : Lin n K) (q : M n K) : M n K :=
  (L.m .T21 + o.m .T21 * q * (L.m .R23 * o.m .R21 + o.m .R23 * L.m .R21)) * q

def gR13 (o L : Lin n K) (q : M n K) : M n K :=
  L.m .R12 + gA o L q * (o.m .R23 * o.m .T12) + o.m .T21 * q * (L.m .R23 * o.m .T12 + o.m .R23 * L.m .T12)

def gT31 (o L : Lin n K) (q : M n K) : M n K := gA o L q * o.m .T32 + o.m .T21 * q * L.m .T32

/-- `c` is `C31`. -/
def gS31 (o L : Lin n K) (q : M n K) (c : V n K) (t tl : K) : V n K :=
  L.v .S21 + (gA o L q).mulVec c +
    (o.m .T21 * q).mulVec (t • L.v .S32 + tl • o.v .S32 + (L.m .R23).mulVec (o.v .S12) +
      (o.m .R23).mulVec (L.v .S12))

def oR13 (o : Lin n K) (q : M n K) : M n K := o.m .R12 + o.m .T21 * q * (o.m .R23 * o.m .T12)
def oT31 (o : Lin n K) (q : M n K) : M n K := o.m .T21 * q * o.m .T32
def oC31 (o : Lin n K) (t : K) : V n K := t • o.v .S32 + (o.m .R23).mulVec (o.v .S12)
def oS31 (o : Lin n K) (q : M n K) (t : K) : V n K := o.v .S21 + (o.m .T21 * q).mulVec (oC31 o t)
/-- `C13` of the second half (operators exchanged). -/
def oC13 (o : Lin n K) (t : K) : V n K := o.v .S32 + t • (o.m .R23).mulVec (o.v .S12)
def oS13 (o : Lin n K) (q : M n K) (t : K) : V n K := t • o.v .S21 + (o.m .T21 * q).mulVec (oC13 o t)

/-- Which arrays a half may change. -/
structure OnlyH (f : Fr) (nd : Nat) (flag : Bool) (s s' : Mem n K) : Prop where
  m : ∀ c, (∀ k, c ≠ .scratch k) → c ≠ f.P → c ≠ f.A → c ≠ f.B → (flag = true → c ≠ f.m .R13 ∧ c ≠ f.m .T31) →
    (∀ j, j < nd → c ≠ f.ml j .R13 ∧ c ≠ f.ml j .T31) → s'.m c = s.m c
  v : ∀ c, (∀ k, c ≠ .scratch k) → (flag = true → c ≠ f.v .S31) → (∀ j, j < nd → c ≠ f.vl j .S31) → s'.v c = s.v c

/-- What a half leaves for derivative `i`. -/
structure DoneO (wT : Bool) (f : Fr) (i : Nat) (a b : Act) (o L : Lin n K) (q : M n K) (c : V n K) (t tl : K)
    (s' : Mem n K) : Prop where
  rr : a.l = true ∨ b.l = true → s'.m (f.ml i .R13) = gR13 o L q
  tt : wT = true → a.l = true ∨ b.l = true → s'.m (f.ml i .T31) = gT31 o L q
  ss : a.s = true ∨ b.s = true → s'.v (f.vl i .S31) = gS31 o L q c t tl

/-- The arrays hold the factors for the operators `o`. -/
structure FacO (inv? : M n K → Option (M n K)) (f : Fr) (q : M n K) (withB : Bool) (o : Lin n K) (s : Mem n K) :
    Prop where
  inv : q * (1 - o.m .R23 * o.m .R21) = 1
  p : inv? (s.m f.P) = some q.transpose
  a : s.m f.A = o.m .T21 * q
  b : withB = true → s.m f.B = o.m .R23 * o.m .T12

theorem Done.toO {wT : Bool} {f : Fr} {i : Nat} {a b : Act} {L : Lin n K} {q : M n K} {t tl : K} {c : V n K}
    {s s' : Mem n K} {o : Lin n K} (ho : vals f s = o) (hf : FacO inv? f q true o s) (hc : s.v C = c)
    (h : Done wT f i a b L q t tl s s') : DoneO wT f i a b o L q c t tl s' := by
  subst ho
  obtain ⟨h1, h2, h3⟩ := h
  simp only [dR13, dT31, dS31, dA, hf.a, hf.b, hc] at h1 h2 h3
  exact ⟨h1, h2, h3⟩

theorem Done.toOS {wT : Bool} {f : Fr} {i : Nat} {a b : Act} {L : Lin n K} {q : M n K} {t tl : K} {c : V n K}
    {s s' : Mem n K} {o : Lin n K} (ho : vals f s = o) (hf : FacO inv? f q false o s)
    (h : Done wT f i a b L q t tl s s') (ha : a.l = false) (hb : b.l = false)
    (hL : L.m .T21 = 0 ∧ L.m .R23 = 0 ∧ L.m .R21 = 0) : DoneO wT f i a b o L q c t tl s' := by
  subst ho
  obtain ⟨h1, h2, h3⟩ := h
  obtain ⟨e1, e2, e3⟩ := hL
  refine ⟨by simp [ha, hb], by simp [ha, hb], fun w => ?_⟩
  simp only [dS31, dA, hf.a, e1, e2, e3] at h3
  simpa [gS31, gA, e1, e2, e3, vals] using h3 w

/-- State before the loop. -/
structure Pre (inv? : M n K → Option (M n K)) (f : Fr) (q : M n K) (withB : Bool) (c : V n K) (needC needD : Bool)
    (s s1 : Mem n K) : Prop where
  fac : FacO inv? f q withB (vals f s) s1
  c : needC = true → s1.v C = c
  d : needD = true → s1.m DXX = s1.m f.A * s1.m (f.m .R23)
  m : ∀ x, (∀ k, x ≠ .scratch k) → x ≠ f.P → x ≠ f.A → x ≠ f.B → s1.m x = s.m x
  v : ∀ x, (∀ k, x ≠ .scratch k) → s1.v x = s.v x

theorem Pre.vals {f : Fr} {q : M n K} {wB nc nd : Bool} {c : V n K} {s s1 : Mem n K}
    (h : Pre inv? f q wB c nc nd s s1) (hf : SepF f) : vals f s1 = vals f s := by
  unfold Adding.vals
  congr 1
  · funext x
    exact h.m _ (hf.mExt x) (hf.pm x) (hf.am x) (hf.bm x)
  · funext x
    exact h.v _ (hf.vExt x)

/-- What a half leaves in the operators. -/
structure Out (wR wT : Bool) (f : Fr) (o : Lin n K) (q : M n K) (S : V n K) (s' : Mem n K) : Prop where
  r : wR = true → s'.m (f.m .R13) = oR13 o q
  t : wT = true → s'.m (f.m .T31) = oT31 o q
  s : s'.v (f.v .S31) = S

/-- What the last calls of a half do. -/
structure Tail (wR wT : Bool) (f : Fr) (o : Lin n K) (q : M n K) (S : V n K) (flag : Bool) (s2 s' : Mem n K) :
    Prop where
  out : flag = true → Out wR wT f o q S s'
  m : ∀ x, (∀ k, x ≠ .scratch k) → (flag = true → x ≠ f.m .R13 ∧ x ≠ f.m .T31) → s'.m x = s2.m x
  p : s'.m f.P = s2.m f.P
  a : s'.m f.A = s2.m f.A
  b : s'.m f.B = s2.m f.B
  v : ∀ x, (∀ k, x ≠ .scratch k) → (flag = true → x ≠ f.v .S31) → s'.v x = s2.v x

theorem half {f : Fr} {nd : Nat} (hf : SepF f) (h : SepL f nd) {s : Mem n K} {wT wR wB nc nD flag : Bool}
    {act eff : Nat → Act × Act} {body : Nat → Act → Act → Do K} {L : Nat → Lin n K} {q : M n K} {t : K}
    {tl : Nat → K} {c S : V n K} {pre tail : List (Instr K)}
    (hpre : Post (run inv? pre s) (Pre inv? f q wB c nc nD s))
    (hbody : ∀ s1, Pre inv? f q wB c nc nD s s1 → ∀ i, i < nd → ∀ s', Same f i s1 s' →
      Post (runDo inv? [body i (act i).1 (act i).2] s') fun s'' => Only f i s' s'' ∧
        Done wT f i (eff i).1 (eff i).2 (L i) q t (tl i) s' s'')
    (hconv : ∀ s1 s', Pre inv? f q wB c nc nD s s1 → ∀ i, i < nd →
      Done wT f i (eff i).1 (eff i).2 (L i) q t (tl i) s1 s' →
      DoneO wT f i (eff i).1 (eff i).2 (vals f s) (L i) q c t (tl i) s')
    (htail : ∀ s2, vals f s2 = vals f s → FacO inv? f q wB (vals f s) s2 → (nc = true → s2.v C = c) →
      Post (run inv? tail s2) (Tail wR wT f (vals f s) q S flag s2)) :
    Post (runDo inv? (.calls pre :: derivLoop nd act body ++ [.calls tail]) s) fun s' =>
      OnlyH f nd flag s s' ∧ (flag = true → Out wR wT f (vals f s) q S s') ∧ FacO inv? f q wB (vals f s) s' ∧
        ∀ i, i < nd → DoneO wT f i (eff i).1 (eff i).2 (vals f s) (L i) q c t (tl i) s' := by
  rw [List.cons_append, Post_calls_cons]
  refine hpre.mono fun s1 h1 => ?_
  rw [Post_runDo_append]
  refine (loop h (hbody s1 h1)).mono fun s2 h2 => ?_
  rw [Post_calls]
  have hm : ∀ x, s2.m (f.m x) = s1.m (f.m x) := fun x =>
    h2.1.m _ (hf.mExt _ _) (hf.mExt _ _) (hf.mExt _ _) (hf.mExt _ _)
      fun j hj => ⟨(h.each j hj).mml _ _, (h.each j hj).mml _ _⟩
  have hv : ∀ x, s2.v (f.v x) = s1.v (f.v x) := fun x =>
    h2.1.v _ (hf.vExt _ _) (hf.vExt _ _) fun j hj => (h.each j hj).vvl _ _
  have hP : s2.m f.P = s1.m f.P :=
    h2.1.m _ (hf.pbig _ (by omega)) (hf.pbig _ (by omega)) (hf.pbig _ (by omega)) (hf.pbig _ (by omega))
      fun j hj => ⟨((h.each j (by omega)).pl _).symm, ((h.each j (by omega)).pl _).symm⟩
  have hA : s2.m f.A = s1.m f.A :=
    h2.1.m _ (hf.abig _ (by omega)) (hf.abig _ (by omega)) (hf.abig _ (by omega)) (hf.abig _ (by omega))
      fun j hj => ⟨((h.each j (by omega)).al _).symm, ((h.each j (by omega)).al _).symm⟩
  have hB : s2.m f.B = s1.m f.B :=
    h2.1.m _ (hf.bbig _ (by omega)) (hf.bbig _ (by omega)) (hf.bbig _ (by omega)) (hf.bbig _ (by omega))
      fun j hj => ⟨((h.each j (by omega)).bl _).symm, ((h.each j (by omega)).bl _).symm⟩
  have hC : s2.v C = s1.v C :=
    h2.1.v _ (by decide) (by decide) fun j hj => ((h.each j (by omega)).vlExt _ _).symm
  have hvals : vals f s2 = vals f s := by
    rw [← h1.vals hf]
    unfold vals
    congr 1
    · exact funext hm
    · exact funext hv
  have hfac : FacO inv? f q wB (vals f s) s2 :=
    ⟨h1.fac.inv, by rw [hP]; exact h1.fac.p, by rw [hA]; exact h1.fac.a, by rw [hB]; exact h1.fac.b⟩
  refine (htail s2 hvals hfac (fun w => by rw [hC]; exact h1.c w)).mono fun s' h3 => ?_
  refine ⟨⟨fun x e0 e1 e2 e3 e4 e5 => ?_, fun x e0 e1 e2 => ?_⟩, h3.out, ?_, fun i hi => ?_⟩
  · rw [h3.m x e0 e4, h2.1.m x (e0 _) (e0 _) (e0 _) (e0 _) e5, h1.m x e0 e1 e2 e3]
  · rw [h3.v x e0 e1, h2.1.v x (e0 _) (e0 _) e2, h1.v x e0]
  · exact ⟨hfac.inv, by rw [h3.p]; exact hfac.p, by rw [h3.a]; exact hfac.a, by rw [h3.b]; exact hfac.b⟩
  · have hd := hconv s1 s2 h1 i hi (h2.2 i hi)
    have em : ∀ x, s'.m (f.ml i x) = s2.m (f.ml i x) := fun x =>
      h3.m _ ((h.each i hi).mlExt x) fun _ => ⟨((h.each i hi).mml _ _).symm, ((h.each i hi).mml _ _).symm⟩
    have ev : ∀ x, s'.v (f.vl i x) = s2.v (f.vl i x) := fun x =>
      h3.v _ ((h.each i hi).vlExt x) fun _ => ((h.each i hi).vvl _ _).symm
    exact ⟨fun w => (em _).trans (hd.rr w), fun w w' => (em _).trans (hd.tt w w'), fun w => (ev _).trans (hd.ss w)⟩

/-! ### The beginnings and the ends -/

theorem pre_fac (hinv : Exact inv?) {f : Fr} (hf : SepF f) {s : Mem n K} {q : M n K} {fresh : Bool}
    (hq : q * (1 - s.m (f.m .R23) * s.m (f.m .R21)) = 1)
    (hfr : fresh = false → FacO inv? f q true (vals f s) s) (c : V n K) :
    Post (run inv? (if fresh then factors f else []) s) (Pre inv? f q true c false false s) := by
  cases fresh
  · exact ⟨hfr rfl, by simp, by simp, fun _ _ _ _ _ => rfl, fun _ _ => rfl⟩
  · simp only [if_true]
    refine (run_factors hinv hf hq).mono fun s' h => ?_
    have e : ∀ x, s'.m (f.m x) = s.m (f.m x) := fun x => h.2.2 _ (hf.mExt _ _) (hf.pm _) (hf.am _) (hf.bm _)
    refine ⟨⟨hq, h.1.p, ?_, fun w => ?_⟩, by simp, by simp, fun x h1 h2 h3 h4 => h.2.2 x (h1 _) h2 h3 h4,
      fun x _ => by rw [h.2.1]⟩
    · rw [h.1.a, e]
      rfl
    · rw [h.1.b rfl, e, e]
      rfl

theorem pre_srcFac (hinv : Exact inv?) {f : Fr} (hf : SepF f) {s : Mem n K} {q : M n K} {fresh : Bool}
    (hq : q * (1 - s.m (f.m .R23) * s.m (f.m .R21)) = 1)
    (hfr : fresh = false → FacO inv? f q false (vals f s) s) (c : V n K) :
    Post (run inv? (if fresh then srcFactors f else []) s) (Pre inv? f q false c false false s) := by
  cases fresh
  · exact ⟨hfr rfl, by simp, by simp, fun _ _ _ _ _ => rfl, fun _ _ => rfl⟩
  · simp only [if_true]
    refine (run_srcFactors hinv hf hq).mono fun s' h => ?_
    have e : ∀ x, s'.m (f.m x) = s.m (f.m x) := fun x => h.2.2 _ (hf.mExt _ _) (hf.pm _) (hf.am _) (hf.bm _)
    refine ⟨⟨hq, h.1.p, ?_, fun w => ?_⟩, by simp, by simp, fun x h1 h2 h3 h4 => h.2.2 x (h1 _) h2 h3 h4,
      fun x _ => by rw [h.2.1]⟩
    · rw [h.1.a, e]
      rfl
    · simp at w

theorem pre_src {f : Fr} (hf : SepF f) {s : Mem n K} {q : M n K} {wB : Bool} {t : K} {pre : List (Instr K)}
    (hpre : Post (run inv? pre s) (Pre inv? f q wB (oC31 (vals f s) t) false false s)) :
    Post (run inv? (pre ++ sourceUp f t) s) (Pre inv? f q wB (oC31 (vals f s) t) true false s) := by
  rw [Post_run_append]
  refine hpre.mono fun s1 h1 => ?_
  have hv := h1.vals hf
  refine (run_sourceUp hf t s1).mono fun s2 h2 => ?_
  refine ⟨⟨h1.fac.inv, by rw [h2.1]; exact h1.fac.p, by rw [h2.1]; exact h1.fac.a, by rw [h2.1]; exact h1.fac.b⟩,
    fun _ => ?_, by simp, fun x e0 e1 e2 e3 => by rw [h2.1]; exact h1.m x e0 e1 e2 e3,
    fun x e0 => by rw [h2.2.2 x (e0 _) (e0 _) (e0 _)]; exact h1.v x e0⟩
  rw [h2.2.1, ← hv]
  rfl

theorem pre_srcDown {f : Fr} (hf : SepF f) {s : Mem n K} {q : M n K} {wB : Bool} {t : K} {pre : List (Instr K)}
    (hpre : Post (run inv? pre s) (Pre inv? f q wB (oC13 (vals f s) t) false false s)) :
    Post (run inv? (pre ++ sourceDown f t) s) (Pre inv? f q wB (oC13 (vals f s) t) true false s) := by
  rw [Post_run_append]
  refine hpre.mono fun s1 h1 => ?_
  have hv := h1.vals hf
  refine (run_sourceDown hf t s1).mono fun s2 h2 => ?_
  refine ⟨⟨h1.fac.inv, by rw [h2.1]; exact h1.fac.p, by rw [h2.1]; exact h1.fac.a, by rw [h2.1]; exact h1.fac.b⟩,
    fun _ => ?_, by simp, fun x e0 e1 e2 e3 => by rw [h2.1]; exact h1.m x e0 e1 e2 e3,
    fun x e0 => by rw [h2.2.2 x (e0 _) (e0 _) (e0 _)]; exact h1.v x e0⟩
  rw [h2.2.1, ← hv]
  rfl

theorem pre_D {f : Fr} (hf : SepF f) {s : Mem n K} {q : M n K} {c : V n K} {wB : Bool} {pre : List (Instr K)}
    {nd : Nat} (hpre : Post (run inv? pre s) (Pre inv? f q wB c true false s)) :
    Post (run inv? (pre ++ preD f nd) s) (Pre inv? f q wB c true (decide (nd ≠ 0)) s) := by
  rw [Post_run_append]
  refine hpre.mono fun s1 h1 => ?_
  refine (run_preD hf nd s1).mono fun s2 h2 => ?_
  have e1 : s2.m f.P = s1.m f.P := h2.2.2 _ (hf.pbig _ (by omega))
  have e2 : s2.m f.A = s1.m f.A := h2.2.2 _ (hf.abig _ (by omega))
  have e3 : s2.m f.B = s1.m f.B := h2.2.2 _ (hf.bbig _ (by omega))
  refine ⟨⟨h1.fac.inv, by rw [e1]; exact h1.fac.p, by rw [e2]; exact h1.fac.a, by rw [e3]; exact h1.fac.b⟩,
    fun w => by rw [h2.1]; exact h1.c w, fun w => h2.2.1 (by simpa using w),
    fun x e0 e1 e2 e3 => by rw [h2.2.2 x (e0 _)]; exact h1.m x e0 e1 e2 e3,
    fun x e0 => by rw [h2.1]; exact h1.v x e0⟩

theorem tail_ref {f : Fr} (hf : SepF f) (flag : Bool) {s2 : Mem n K} {o : Lin n K} {q : M n K} {t : K}
    (ho : vals f s2 = o) (hfac : FacO inv? f q true o s2) (hc : s2.v C = oC31 o t) :
    Post (run inv? (if flag then tailRef f else []) s2) (Tail true false f o q (oS31 o q t) flag s2) := by
  cases flag
  · exact ⟨by simp, fun _ _ _ => rfl, rfl, rfl, rfl, fun _ _ _ => rfl⟩
  · have hR : s2.m (f.m .R12) = o.m .R12 := by rw [← ho]; rfl
    have hS : s2.v (f.v .S21) = o.v .S21 := by rw [← ho]; rfl
    have hA := hfac.a
    have hB := hfac.b rfl
    have hc' : s2.v (.scratch 0) = _ := hc
    sepf hf
    simp (config := {decide := true}) [tailRef, run, step, w1, v1, C, d2, d3]
    refine ⟨fun _ => ⟨fun _ => ?_, by simp, ?_⟩, fun x e0 e1 => ?_, ?_, ?_, ?_, fun x e0 e1 => ?_⟩
    all_goals simp_all (config := {decide := true}) [oR13, oS31]

theorem tail_up {f : Fr} (hf : SepF f) (h1 : f.m .T32 ≠ f.m .R13) (h2 : f.m .R13 ≠ f.m .T31)
    (h3 : f.m .T31 ≠ f.m .T32) (flag : Bool) {s2 : Mem n K} {o : Lin n K} {q : M n K} {t : K}
    (ho : vals f s2 = o) (hfac : FacO inv? f q true o s2) (hc : s2.v C = oC31 o t) :
    Post (run inv? (if flag then tailUp f else []) s2) (Tail true true f o q (oS31 o q t) flag s2) := by
  cases flag
  · exact ⟨by simp, fun _ _ _ => rfl, rfl, rfl, rfl, fun _ _ _ => rfl⟩
  · have hR : s2.m (f.m .R12) = o.m .R12 := by rw [← ho]; rfl
    have hT : s2.m (f.m .T32) = o.m .T32 := by rw [← ho]; rfl
    have hS : s2.v (f.v .S21) = o.v .S21 := by rw [← ho]; rfl
    have hA := hfac.a
    have hB := hfac.b rfl
    have hc' : s2.v (.scratch 0) = _ := hc
    sepf hf
    simp (config := {decide := true}) [tailUp, tailRef, run, step, w1, v1, C, d2, d3, h3, b5]
    refine ⟨fun _ => ⟨fun _ => ?_, fun _ => ?_, ?_⟩, fun x e0 e1 => ?_, ?_, ?_, ?_, fun x e0 e1 => ?_⟩
    all_goals simp_all (config := {decide := true}) [oR13, oS31, oT31]

theorem tail_down {f : Fr} (hf : SepF f) (h1 : f.m .T32 ≠ f.m .R13) (h2 : f.m .R13 ≠ f.m .T31)
    (flag : Bool) {s2 : Mem n K} {o : Lin n K} {q : M n K} {t : K}
    (ho : vals f s2 = o) (hfac : FacO inv? f q true o s2) (hc : s2.v C = oC13 o t) :
    Post (run inv? (if flag then tailDown f t else []) s2) (Tail true true f o q (oS13 o q t) flag s2) := by
  cases flag
  · exact ⟨by simp, fun _ _ _ => rfl, rfl, rfl, rfl, fun _ _ _ => rfl⟩
  · have hR : s2.m (f.m .R12) = o.m .R12 := by rw [← ho]; rfl
    have hT : s2.m (f.m .T32) = o.m .T32 := by rw [← ho]; rfl
    have hS : s2.v (f.v .S21) = o.v .S21 := by rw [← ho]; rfl
    have hA := hfac.a
    have hB := hfac.b rfl
    have hc' : s2.v (.scratch 0) = _ := hc
    sepf hf
    simp (config := {decide := true}) [tailDown, run, step, w1, v1, v2, C, d2, d3, b5, c1, c2, a2]
    refine ⟨fun _ => ⟨fun _ => ?_, fun _ => ?_, ?_⟩, fun x e0 e1 => ?_, ?_, ?_, ?_, fun x e0 e1 => ?_⟩
    all_goals simp_all (config := {decide := true}) [oR13, oS13, oT31]

theorem tail_srcUp {f : Fr} (hf : SepF f) (flag : Bool) {s2 : Mem n K} {o : Lin n K} {q : M n K} {t : K}
    (ho : vals f s2 = o) (hfac : FacO inv? f q false o s2) (hc : flag = true → s2.v C = oC31 o t) :
    Post (run inv? (if flag then [.mulV f.A C v1, .addV (f.v .S21) v1 (f.v .S31)] else []) s2)
      (Tail false false f o q (oS31 o q t) flag s2) := by
  cases flag
  · exact ⟨by simp, fun _ _ _ => rfl, rfl, rfl, rfl, fun _ _ _ => rfl⟩
  · have hS : s2.v (f.v .S21) = o.v .S21 := by rw [← ho]; rfl
    have hA := hfac.a
    have hc' : s2.v (.scratch 0) = _ := hc rfl
    sepf hf
    simp (config := {decide := true}) [run, step, v1, C, d2, d3]
    refine ⟨fun _ => ⟨by simp, by simp, ?_⟩, fun x e0 e1 => ?_, ?_, ?_, ?_, fun x e0 e1 => ?_⟩
    all_goals simp_all (config := {decide := true}) [oS31]

theorem tail_srcDown {f : Fr} (hf : SepF f) (flag : Bool) {s2 : Mem n K} {o : Lin n K} {q : M n K} {t : K}
    (ho : vals f s2 = o) (hfac : FacO inv? f q false o s2) (hc : flag = true → s2.v C = oC13 o t) :
    Post (run inv? (if flag then [.mulV f.A C v2, .scaleV t (f.v .S21) v1, .addV v1 v2 (f.v .S31)] else []) s2)
      (Tail false false f o q (oS13 o q t) flag s2) := by
  cases flag
  · exact ⟨by simp, fun _ _ _ => rfl, rfl, rfl, rfl, fun _ _ _ => rfl⟩
  · have hS : s2.v (f.v .S21) = o.v .S21 := by rw [← ho]; rfl
    have hA := hfac.a
    have hc' : s2.v (.scratch 0) = _ := hc rfl
    sepf hf
    simp (config := {decide := true}) [run, step, v1, v2, C, d2, d3, c2, a2]
    refine ⟨fun _ => ⟨by simp, by simp, ?_⟩, fun x e0 e1 => ?_, ?_, ?_, ?_, fun x e0 e1 => ?_⟩
    all_goals simp_all (config := {decide := true}) [oS13]

end Xrtm.Adding
