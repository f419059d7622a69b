import Verif.Proof.AddingD

/-! The whole routines. -/

namespace Xrtm.Adding

open Mat Spec Matrix

variable {K : Type} [CommRing K] {n : Nat} {inv? : M n K → Option (M n K)}

/-- The four matrix results and the argument each may share its array with: the result may replace the upper
layer (`R13` in the place of `R12` and so on). -/
def MArg.res : MArg → Option MArg
  | .R13 => some .R12
  | .T13 => some .T12
  | .R31 => some .R21
  | .T31 => some .T21
  | _ => none

def VArg.res : VArg → Option VArg
  | .S13 => some .S12
  | .S31 => some .S21
  | _ => none

/-- Where the arguments of `layer_add_all` may be. Inputs may share arrays in any way. Results are apart from
everything except that they may replace the upper layer. -/
structure Places (f : Fr) (nd : Nat) : Prop where
  mExt : ∀ x k, f.m x ≠ .scratch k
  vExt : ∀ x k, f.v x ≠ .scratch k
  mlExt : ∀ i, i < nd → ∀ x k, f.ml i x ≠ .scratch k
  vlExt : ∀ i, i < nd → ∀ x k, f.vl i x ≠ .scratch k
  mml : ∀ i, i < nd → ∀ x y, f.m x ≠ f.ml i y
  vvl : ∀ i, i < nd → ∀ x y, f.v x ≠ f.vl i y
  mres : ∀ z w x, z.res = some w → x ≠ z → x ≠ w → f.m x ≠ f.m z
  vres : ∀ z w x, z.res = some w → x ≠ z → x ≠ w → f.v x ≠ f.v z
  mlres : ∀ i, i < nd → ∀ z w x, z.res = some w → x ≠ z → x ≠ w → f.ml i x ≠ f.ml i z
  vlres : ∀ i, i < nd → ∀ z w x, z.res = some w → x ≠ z → x ≠ w → f.vl i x ≠ f.vl i z
  mcross : ∀ i j, i < nd → j < nd → i ≠ j → ∀ x y, f.ml i x ≠ f.ml j y
  vcross : ∀ i j, i < nd → j < nd → i ≠ j → ∀ x y, f.vl i x ≠ f.vl j y

/-- The arrays of the factors: scratch, or apart from everything. -/
structure AuxPlaces (f : Fr) (nd : Nat) : Prop where
  big : ∀ c, c = f.P ∨ c = f.A ∨ c = f.B → ∀ k, 3 ≤ k → c ≠ .scratch k
  m : ∀ c, c = f.P ∨ c = f.A ∨ c = f.B → ∀ x, f.m x ≠ c
  ml : ∀ c, c = f.P ∨ c = f.A ∨ c = f.B → ∀ i, i < nd → ∀ x, f.ml i x ≠ c
  pa : f.P ≠ f.A
  pb : f.P ≠ f.B
  ab : f.A ≠ f.B

theorem AuxPlaces.sepF {f : Fr} {nd : Nat} (h : AuxPlaces f nd) (hm : ∀ x k, f.m x ≠ .scratch k)
    (hv : ∀ x k, f.v x ≠ .scratch k) : SepF f :=
  ⟨hm, hv, h.big _ (.inl rfl), h.big _ (.inr (.inl rfl)), h.big _ (.inr (.inr rfl)), h.m _ (.inl rfl),
    h.m _ (.inr (.inl rfl)), h.m _ (.inr (.inr rfl)), h.pa, h.pb, h.ab⟩

theorem MArg.swap_swap (x : MArg) : x.swap.swap = x := by cases x <;> rfl
theorem VArg.swap_swap (x : VArg) : x.swap.swap = x := by cases x <;> rfl

theorem Places.sepUp {f : Fr} {nd : Nat} (h : Places f nd) (ha : AuxPlaces f nd) : SepL f nd := by
  refine ⟨fun i hi => ?_, fun i j hi hj hij x => h.mcross i j hi hj hij _ _,
    fun i j hi hj hij x => h.mcross i j hi hj hij _ _, fun i j hi hj hij x => h.vcross i j hi hj hij _ _⟩
  exact ⟨h.mExt, h.vExt, h.mlExt i hi, h.vlExt i hi, h.mml i hi, h.vvl i hi,
    fun x e1 e2 _ => h.mlres i hi _ _ x rfl e1 e2, fun x e1 e2 _ => h.mlres i hi _ _ x rfl e1 e2,
    fun x e1 e2 _ => h.vlres i hi _ _ x rfl e1 e2,
    ha.big _ (.inl rfl), ha.big _ (.inr (.inl rfl)), ha.big _ (.inr (.inr rfl)),
    ha.ml _ (.inl rfl) i hi, ha.ml _ (.inr (.inl rfl)) i hi, ha.ml _ (.inr (.inr rfl)) i hi⟩

theorem Places.sepDown {f : Fr} {nd : Nat} (h : Places f nd) (ha : AuxPlaces f.swap nd) : SepL f.swap nd := by
  refine ⟨fun i hi => ?_, fun i j hi hj hij x => h.mcross i j hi hj hij _ _,
    fun i j hi hj hij x => h.mcross i j hi hj hij _ _, fun i j hi hj hij x => h.vcross i j hi hj hij _ _⟩
  refine ⟨fun x => h.mExt x.swap, fun x => h.vExt x.swap, fun x => h.mlExt i hi x.swap, fun x => h.vlExt i hi x.swap,
    fun x y => h.mml i hi x.swap y.swap, fun x y => h.vvl i hi x.swap y.swap, fun x e1 _ e2 => ?_,
    fun x e1 _ e2 => ?_, fun x e1 _ e2 => ?_,
    ha.big _ (.inl rfl), ha.big _ (.inr (.inl rfl)), ha.big _ (.inr (.inr rfl)),
    ha.ml _ (.inl rfl) i hi, ha.ml _ (.inr (.inl rfl)) i hi, ha.ml _ (.inr (.inr rfl)) i hi⟩
  · exact h.mlres i hi .R31 .R21 x.swap rfl (by cases x <;> simp_all [MArg.swap]) (by cases x <;> simp_all [MArg.swap])
  · exact h.mlres i hi .T13 .T12 x.swap rfl (by cases x <;> simp_all [MArg.swap]) (by cases x <;> simp_all [MArg.swap])
  · exact h.vlres i hi .S13 .S12 x.swap rfl (by cases x <;> simp_all [VArg.swap]) (by cases x <;> simp_all [VArg.swap])

/-- The arrays of derivative `i` hold the derivatives `L` of the two layers where the activities `a`, `b` say so;
elsewhere the derivative is zero and the array may hold anything. -/
structure HoldsAll (f : Fr) (i : Nat) (a b : Act) (L : Lin n K) (s : Mem n K) : Prop where
  up : ∀ x, x = .R12 ∨ x = .T12 ∨ x = .R21 ∨ x = .T21 → if a.l then s.m (f.ml i x) = L.m x else L.m x = 0
  upS : ∀ x, x = .S12 ∨ x = .S21 → if a.s then s.v (f.vl i x) = L.v x else L.v x = 0
  lo : ∀ x, x = .R23 ∨ x = .T23 ∨ x = .R32 ∨ x = .T32 → if b.l then s.m (f.ml i x) = L.m x else L.m x = 0
  loS : ∀ x, x = .S23 ∨ x = .S32 → if b.s then s.v (f.vl i x) = L.v x else L.v x = 0

theorem HoldsAll.holds {f : Fr} {i : Nat} {a b : Act} {L : Lin n K} {s : Mem n K} (h : HoldsAll f i a b L s) :
    Holds f i a b L s :=
  ⟨h.up, h.upS, fun x hx => h.lo x (by rcases hx with rfl | rfl <;> simp), h.loS _ (by simp)⟩

theorem Holds.same {f : Fr} {i : Nat} {a b : Act} {L : Lin n K} {s s' : Mem n K} (h : Holds f i a b L s)
    (hs : Same f i s s') : Holds f i a b L s' := by
  obtain ⟨h1, h2, h3, h4⟩ := h
  refine ⟨fun x hx => ?_, fun x hx => ?_, fun x hx => ?_, ?_⟩
  · rw [hs.ml]; exact h1 x hx
  · rw [hs.vl]; exact h2 x hx
  · rw [hs.ml]; exact h3 x hx
  · rw [hs.vl]; exact h4

theorem Holds.pre {f : Fr} {i : Nat} {a b : Act} {L : Lin n K} {s s1 : Mem n K} (h : Holds f i a b L s)
    (hsep : Sep f i) {q : M n K} {wB nc nd : Bool} {c : V n K} (hp : Pre inv? f q wB c nc nd s s1) :
    Holds f i a b L s1 := by
  have em : ∀ x, s1.m (f.ml i x) = s.m (f.ml i x) := fun x =>
    hp.m _ (hsep.mlExt x) (hsep.pl x) (hsep.al x) (hsep.bl x)
  have ev : ∀ x, s1.v (f.vl i x) = s.v (f.vl i x) := fun x => hp.v _ (hsep.vlExt x)
  obtain ⟨h1, h2, h3, h4⟩ := h
  refine ⟨fun x hx => ?_, fun x hx => ?_, fun x hx => ?_, ?_⟩
  · rw [em]; exact h1 x hx
  · rw [ev]; exact h2 x hx
  · rw [em]; exact h3 x hx
  · rw [ev]; exact h4

/-! ### Reflection only -/

theorem layerAddRef_post (hinv : Exact inv?) {f : Fr} {nd : Nat} (hf : SepF f) (h : SepL f nd) {s : Mem n K}
    {act : Nat → Act × Act} {flag : Bool} {L : Nat → Lin n K} {q : M n K} {t : K} {tl : Nat → K}
    (flag2 : Bool) (hq : q * (1 - s.m (f.m .R23) * s.m (f.m .R21)) = 1)
    (hs : ∀ i, i < nd → refHas flag (flip flag (act i)).1 (flip flag (act i)).2 = true)
    (hh : ∀ i, i < nd → Holds f i (flip flag (act i)).1 (flip flag (act i)).2 (L i) s)
    (ht : ∀ i, i < nd → (flip flag (act i)).1.l = false → tl i = 0) :
    Post (runDo inv? (layerAddRef f nd t tl act flag flag2) s) fun s' =>
      OnlyH f nd flag2 s s' ∧ (flag2 = true → Out true false f (vals f s) q (oS31 (vals f s) q t) s') ∧
        ∀ i, i < nd → DoneO false f i (flip flag (act i)).1 (flip flag (act i)).2 (vals f s) (L i) q
          (oC31 (vals f s) t) t (tl i) s' := by
  refine (half (wB := true) (nc := true) (nD := false) (wR := true) (wT := false) hf h
    (eff := fun i => flip flag (act i)) (c := oC31 (vals f s) t) (S := oS31 (vals f s) q t) (q := q) (L := L) (t := t) (tl := tl)
    ?_ ?_ ?_ ?_).mono fun s' h' => ⟨h'.1, h'.2.1, h'.2.2.2⟩
  · exact pre_src hf (pre_fac (fresh := true) hinv hf hq (by simp) _)
  · intro s1 h1 i hi s' hs'
    refine ref_body (h.each i hi) ?_ t (tl i) flag (act i).1 (act i).2 (hs i hi) ?_ (ht i hi)
    · rw [hs'.p]; exact h1.fac.p
    · exact ((hh i hi).pre (h.each i hi) h1).same hs'
  · intro s1 s' h1 i hi hd
    exact hd.toO (h1.vals hf) h1.fac (h1.c rfl)
  · intro s2 ho hfac hc
    exact tail_ref hf flag2 ho hfac (hc rfl)

theorem layerAddRef2_post (hinv : Exact inv?) {f : Fr} {nd : Nat} (hf : SepF f) (h : SepL f nd) {s : Mem n K}
    {act : Nat → Act × Act} {flag : Bool} {L : Nat → Lin n K} {q : M n K} {t : K} {tl : Nat → K}
    (flag2 fresh : Bool) (hq : q * (1 - s.m (f.m .R23) * s.m (f.m .R21)) = 1)
    (hfr : fresh = false → FacO inv? f q true (vals f s) s)
    (hs : ∀ i, i < nd → ref2Has (flip flag (act i)).1 (flip flag (act i)).2 = true)
    (hh : ∀ i, i < nd → Holds f i (flip flag (act i)).1 (flip flag (act i)).2 (L i) s)
    (ht : ∀ i, i < nd → (flip flag (act i)).1.l = false → tl i = 0) :
    Post (runDo inv? (layerAddRef2 f nd t tl act flag flag2 fresh) s) fun s' =>
      OnlyH f nd flag2 s s' ∧ (flag2 = true → Out true false f (vals f s) q (oS31 (vals f s) q t) s') ∧
        FacO inv? f q true (vals f s) s' ∧
        ∀ i, i < nd → DoneO false f i (flip flag (act i)).1 (flip flag (act i)).2 (vals f s) (L i) q
          (oC31 (vals f s) t) t (tl i) s' := by
  refine half (wB := true) (nc := true) (nD := false) (wR := true) (wT := false) hf h
    (eff := fun i => flip flag (act i)) (c := oC31 (vals f s) t) (S := oS31 (vals f s) q t) (q := q) (L := L) (t := t) (tl := tl)
    ?_ ?_ ?_ ?_
  · exact pre_src hf (pre_fac hinv hf hq hfr _)
  · intro s1 h1 i hi s' hs'
    refine ref2_body (h.each i hi) ?_ t (tl i) flag (act i).1 (act i).2 (hs i hi) ?_ (ht i hi)
    · rw [hs'.p]; exact h1.fac.p
    · exact ((hh i hi).pre (h.each i hi) h1).same hs'
  · intro s1 s' h1 i hi hd
    exact hd.toO (h1.vals hf) h1.fac (h1.c rfl)
  · intro s2 ho hfac hc
    exact tail_ref hf flag2 ho hfac (hc rfl)

/-! ### Both directions -/

/-- The arguments the second half reads. -/
structure AgreeDown (o o' : Lin n K) : Prop where
  r32 : o'.m .R32 = o.m .R32
  t23 : o'.m .T23 = o.m .T23
  r21 : o'.m .R21 = o.m .R21
  r23 : o'.m .R23 = o.m .R23
  t32 : o'.m .T32 = o.m .T32
  t12 : o'.m .T12 = o.m .T12
  s12 : o'.v .S12 = o.v .S12
  s32 : o'.v .S32 = o.v .S32
  s23 : o'.v .S23 = o.v .S23

theorem OnlyH.agree {f : Fr} {nd : Nat} {flag : Bool} {s s' : Mem n K} (hp : Places f nd) (ha : AuxPlaces f nd)
    (h : OnlyH f nd flag s s') : AgreeDown (vals f s) (vals f s') := by
  have em : ∀ x, x ≠ .R13 → x ≠ .T31 → x ≠ .R12 → x ≠ .T21 → s'.m (f.m x) = s.m (f.m x) := fun x h1 h2 h3 h4 =>
    h.m _ (hp.mExt x) (ha.m _ (.inl rfl) x) (ha.m _ (.inr (.inl rfl)) x) (ha.m _ (.inr (.inr rfl)) x)
      (fun _ => ⟨hp.mres _ _ x rfl h1 h3, hp.mres _ _ x rfl h2 h4⟩)
      fun j hj => ⟨hp.mml j hj _ _, hp.mml j hj _ _⟩
  have ev : ∀ x, x ≠ .S31 → x ≠ .S21 → s'.v (f.v x) = s.v (f.v x) := fun x h1 h2 =>
    h.v _ (hp.vExt x) (fun _ => hp.vres _ _ x rfl h1 h2) fun j hj => hp.vvl j hj _ _
  constructor
  all_goals first | exact em _ (by decide) (by decide) (by decide) (by decide) | exact ev _ (by decide) (by decide)

theorem AgreeDown.eqs {o o' : Lin n K} (h : AgreeDown o o') (q : M n K) (t : K) :
    oR13 o'.swap q = oR13 o.swap q ∧ oT31 o'.swap q = oT31 o.swap q ∧ oS13 o'.swap q t = oS13 o.swap q t ∧
      oC13 o'.swap t = oC13 o.swap t := by
  obtain ⟨h1, h2, h3, h4, h5, h6, h7, h8, h9⟩ := h
  simp only [oR13, oT31, oS13, oC13, Lin.swap, MArg.swap, VArg.swap, h1, h2, h3, h4, h5, h6, h7, h8, h9, and_self]

theorem AgreeDown.done {o o' : Lin n K} (h : AgreeDown o o') {wT : Bool} {f : Fr} {i : Nat} {a b : Act} {L : Lin n K}
    {q : M n K} {c : V n K} {t tl : K} {s' : Mem n K} (hd : DoneO wT f i a b o'.swap L q c t tl s') :
    DoneO wT f i a b o.swap L q c t tl s' := by
  obtain ⟨h1, h2, h3, h4, h5, h6, h7, h8, h9⟩ := h
  obtain ⟨d1, d2, d3⟩ := hd
  simp only [gR13, gT31, gS31, gA, Lin.swap, MArg.swap, VArg.swap, h1, h2, h3, h4, h5, h6, h7, h8, h9] at d1 d2 d3
  exact ⟨d1, d2, d3⟩

theorem AgreeDown.fac {o o' : Lin n K} (h : AgreeDown o o') {f : Fr} {q : M n K} {wB : Bool} {s : Mem n K} :
    FacO inv? f q wB o'.swap s ↔ FacO inv? f q wB o.swap s := by
  obtain ⟨h1, h2, h3, h4, h5, h6, h7, h8, h9⟩ := h
  constructor <;> rintro ⟨e1, e2, e3, e4⟩ <;> refine ⟨?_, e2, ?_, fun w => ?_⟩ <;>
    simp_all [Lin.swap, MArg.swap]

theorem HoldsAll.down {f : Fr} {i nd : Nat} (hi : i < nd) {a b : Act} {L : Lin n K} {s s' : Mem n K} {flag : Bool}
    (hp : Places f nd) (ha : AuxPlaces f nd) (h : HoldsAll f i a b L s) (ho : OnlyH f nd flag s s') :
    Holds f.swap i b a L.swap s' := by
  have em : ∀ x, x ≠ .R13 → x ≠ .T31 → x ≠ .R12 → x ≠ .T21 → s'.m (f.ml i x) = s.m (f.ml i x) := by
    intro x h1 h2 h3 h4
    refine ho.m _ (hp.mlExt i hi x) (ha.ml _ (.inl rfl) i hi x) (ha.ml _ (.inr (.inl rfl)) i hi x)
      (ha.ml _ (.inr (.inr rfl)) i hi x) (fun _ => ⟨(hp.mml i hi _ _).symm, (hp.mml i hi _ _).symm⟩) fun j hj => ?_
    by_cases e : j = i
    · subst e
      exact ⟨hp.mlres j hj _ _ x rfl h1 h3, hp.mlres j hj _ _ x rfl h2 h4⟩
    · exact ⟨hp.mcross i j hi hj (Ne.symm e) _ _, hp.mcross i j hi hj (Ne.symm e) _ _⟩
  have ev : ∀ x, x ≠ .S31 → x ≠ .S21 → s'.v (f.vl i x) = s.v (f.vl i x) := by
    intro x h1 h2
    refine ho.v _ (hp.vlExt i hi x) (fun _ => (hp.vvl i hi _ _).symm) fun j hj => ?_
    by_cases e : j = i
    · subst e
      exact hp.vlres j hj _ _ x rfl h1 h2
    · exact hp.vcross i j hi hj (Ne.symm e) _ _
  refine ⟨fun x hx => ?_, fun x hx => ?_, fun x hx => ?_, ?_⟩
  · show if b.l then s'.m (f.ml i x.swap) = L.m x.swap else L.m x.swap = 0
    rcases hx with rfl | rfl | rfl | rfl <;> simp only [MArg.swap] <;>
      rw [em _ (by decide) (by decide) (by decide) (by decide)] <;> exact h.lo _ (by simp)
  · show if b.s then s'.v (f.vl i x.swap) = L.v x.swap else L.v x.swap = 0
    rcases hx with rfl | rfl <;> simp only [VArg.swap] <;>
      rw [ev _ (by decide) (by decide)] <;> exact h.loS _ (by simp)
  · show if a.l then s'.m (f.ml i x.swap) = L.m x.swap else L.m x.swap = 0
    rcases hx with rfl | rfl <;> simp only [MArg.swap] <;>
      rw [em _ (by decide) (by decide) (by decide) (by decide)] <;> exact h.up _ (by simp)
  · show if a.s then s'.v (f.vl i .S12) = L.v .S12 else L.v .S12 = 0
    rw [ev _ (by decide) (by decide)]
    exact h.upS _ (by simp)

/-- The result of a routine that adds both directions. `wR`: with the operators, not only the sources. -/
structure AllPost (wR : Bool) (f : Fr) (nd : Nat) (act : Nat → Act × Act) (flag : Bool) (o : Lin n K) (q q' : M n K)
    (t : K) (tl : Nat → K) (L : Nat → Lin n K) (s s' : Mem n K) : Prop where
  mats : wR = true → flag = true → s'.m (f.m .R13) = oR13 o q ∧ s'.m (f.m .T31) = oT31 o q ∧
    s'.m (f.m .R31) = oR13 o.swap q' ∧ s'.m (f.m .T13) = oT31 o.swap q'
  srcs : flag = true → s'.v (f.v .S31) = oS31 o q t ∧ s'.v (f.v .S13) = oS13 o.swap q' t
  up : ∀ i, i < nd → DoneO wR f i (act i).1 (act i).2 o (L i) q (oC31 o t) t (tl i) s'
  down : ∀ i, i < nd → DoneO wR f.swap i (act i).2 (act i).1 o.swap (L i).swap q' (oC13 o.swap t) t (tl i) s'
  m : ∀ c, (∀ k, c ≠ .scratch k) → c ≠ f.P → c ≠ f.A → c ≠ f.B → c ≠ f.P' → c ≠ f.A' → c ≠ f.B' →
    (∀ z w, MArg.res z = some w → (flag = true → c ≠ f.m z) ∧ ∀ j, j < nd → c ≠ f.ml j z) → s'.m c = s.m c
  v : ∀ c, (∀ k, c ≠ .scratch k) →
    (∀ z w, VArg.res z = some w → (flag = true → c ≠ f.v z) ∧ ∀ j, j < nd → c ≠ f.vl j z) → s'.v c = s.v c

theorem combine {wR wR' : Bool} (hwr : wR' = true → wR = true) {f : Fr} {nd : Nat} (hp : Places f nd) (ha : AuxPlaces f nd)
    (ha' : AuxPlaces f.swap nd) {act : Nat → Act × Act} {flag : Bool} {q q' : M n K} {t : K} {tl : Nat → K}
    {L : Nat → Lin n K} {s : Mem n K} {U Dn : List (Do K)}
    (hU : Post (runDo inv? U s) fun s1 => OnlyH f nd flag s s1 ∧
      (flag = true → Out wR wR f (vals f s) q (oS31 (vals f s) q t) s1) ∧
      ∀ i, i < nd → DoneO wR' f i (act i).1 (act i).2 (vals f s) (L i) q (oC31 (vals f s) t) t (tl i) s1)
    (hD : ∀ s1, OnlyH f nd flag s s1 → Post (runDo inv? Dn s1) fun s' => OnlyH f.swap nd flag s1 s' ∧
      (flag = true → Out wR wR f.swap (vals f s1).swap q' (oS13 (vals f s1).swap q' t) s') ∧
      ∀ i, i < nd → DoneO wR' f.swap i (act i).2 (act i).1 (vals f s1).swap (L i).swap q'
        (oC13 (vals f s1).swap t) t (tl i) s') :
    Post (runDo inv? (U ++ Dn) s) (AllPost wR' f nd act flag (vals f s) q q' t tl L s) := by
  rw [Post_runDo_append]
  refine hU.mono fun s1 h1 => (hD s1 h1.1).mono fun s' h2 => ?_
  have hag := h1.1.agree hp ha
  have heq := hag.eqs q' t
  have em : ∀ x, x ≠ .R31 → x ≠ .T13 → x ≠ .R21 → x ≠ .T12 → s'.m (f.m x) = s1.m (f.m x) := fun x e1 e2 e3 e4 =>
    h2.1.m _ (hp.mExt x) (fun e => ha'.m _ (.inl rfl) x.swap (by rw [← e]; simp [Fr.swap, MArg.swap_swap]))
      (fun e => ha'.m _ (.inr (.inl rfl)) x.swap (by rw [← e]; simp [Fr.swap, MArg.swap_swap]))
      (fun e => ha'.m _ (.inr (.inr rfl)) x.swap (by rw [← e]; simp [Fr.swap, MArg.swap_swap]))
      (fun _ => ⟨hp.mres .R31 .R21 x rfl e1 e3, hp.mres .T13 .T12 x rfl e2 e4⟩)
      fun j hj => ⟨hp.mml j hj _ _, hp.mml j hj _ _⟩
  have ev : ∀ x, x ≠ .S13 → x ≠ .S12 → s'.v (f.v x) = s1.v (f.v x) := fun x e1 e2 =>
    h2.1.v _ (hp.vExt x) (fun _ => hp.vres .S13 .S12 x rfl e1 e2) fun j hj => hp.vvl j hj _ _
  have eml : ∀ i, i < nd → ∀ x, x ≠ .R31 → x ≠ .T13 → x ≠ .R21 → x ≠ .T12 →
      s'.m (f.ml i x) = s1.m (f.ml i x) := by
    intro i hi x e1 e2 e3 e4
    refine h2.1.m _ (hp.mlExt i hi x)
      (fun e => ha'.ml _ (.inl rfl) i hi x.swap (by rw [← e]; simp [Fr.swap, MArg.swap_swap]))
      (fun e => ha'.ml _ (.inr (.inl rfl)) i hi x.swap (by rw [← e]; simp [Fr.swap, MArg.swap_swap]))
      (fun e => ha'.ml _ (.inr (.inr rfl)) i hi x.swap (by rw [← e]; simp [Fr.swap, MArg.swap_swap]))
      (fun _ => ⟨(hp.mml i hi _ _).symm, (hp.mml i hi _ _).symm⟩) fun j hj => ?_
    by_cases e : j = i
    · subst e
      exact ⟨hp.mlres j hj .R31 .R21 x rfl e1 e3, hp.mlres j hj .T13 .T12 x rfl e2 e4⟩
    · exact ⟨hp.mcross i j hi hj (Ne.symm e) _ _, hp.mcross i j hi hj (Ne.symm e) _ _⟩
  have evl : ∀ i, i < nd → ∀ x, x ≠ .S13 → x ≠ .S12 → s'.v (f.vl i x) = s1.v (f.vl i x) := by
    intro i hi x e1 e2
    refine h2.1.v _ (hp.vlExt i hi x) (fun _ => (hp.vvl i hi _ _).symm) fun j hj => ?_
    by_cases e : j = i
    · subst e
      exact hp.vlres j hj .S13 .S12 x rfl e1 e2
    · exact hp.vcross i j hi hj (Ne.symm e) _ _
  refine ⟨fun hw hfl => ?_, fun hfl => ?_, fun i hi => ?_, fun i hi => ?_, fun c e0 e1 e2 e3 e4 e5 e6 e7 => ?_,
    fun c e0 e1 => ?_⟩
  · have o1 := h1.2.1 hfl
    have o2 := h2.2.1 hfl
    refine ⟨?_, ?_, ?_, ?_⟩
    · rw [em _ (by decide) (by decide) (by decide) (by decide)]; exact o1.r (hwr hw)
    · rw [em _ (by decide) (by decide) (by decide) (by decide)]; exact o1.t (hwr hw)
    · rw [← heq.1]; exact o2.r (hwr hw)
    · rw [← heq.2.1]; exact o2.t (hwr hw)
  · have o1 := h1.2.1 hfl
    have o2 := h2.2.1 hfl
    refine ⟨?_, ?_⟩
    · rw [ev _ (by decide) (by decide)]; exact o1.s
    · rw [← heq.2.2.1]; exact o2.s
  · have d := h1.2.2 i hi
    refine ⟨fun w => ?_, fun w w' => ?_, fun w => ?_⟩
    · rw [eml i hi _ (by decide) (by decide) (by decide) (by decide)]; exact d.rr w
    · rw [eml i hi _ (by decide) (by decide) (by decide) (by decide)]; exact d.tt w w'
    · rw [evl i hi _ (by decide) (by decide)]; exact d.ss w
  · have d := h2.2.2 i hi
    rw [heq.2.2.2] at d
    exact hag.done d
  · rw [h2.1.m c e0 e4 e5 e6 (fun hfl => ⟨(e7 .R31 _ rfl).1 hfl, (e7 .T13 _ rfl).1 hfl⟩)
        (fun j hj => ⟨(e7 .R31 _ rfl).2 j hj, (e7 .T13 _ rfl).2 j hj⟩),
      h1.1.m c e0 e1 e2 e3 (fun hfl => ⟨(e7 .R13 _ rfl).1 hfl, (e7 .T31 _ rfl).1 hfl⟩)
        (fun j hj => ⟨(e7 .R13 _ rfl).2 j hj, (e7 .T31 _ rfl).2 j hj⟩)]
  · rw [h2.1.v c e0 (fun hfl => (e1 .S13 _ rfl).1 hfl) (fun j hj => (e1 .S13 _ rfl).2 j hj),
      h1.1.v c e0 (fun hfl => (e1 .S31 _ rfl).1 hfl) (fun j hj => (e1 .S31 _ rfl).2 j hj)]

theorem layerAddAll_post (hinv : Exact inv?) {f : Fr} {nd : Nat} (hp : Places f nd) (ha : AuxPlaces f nd)
    (ha' : AuxPlaces f.swap nd) {s : Mem n K}
    {act : Nat → Act × Act} {L : Nat → Lin n K} {q q' : M n K} {t : K} {tl : Nat → K}
    (flag : Bool) (hq : q * (1 - s.m (f.m .R23) * s.m (f.m .R21)) = 1)
    (hq' : q' * (1 - s.m (f.m .R21) * s.m (f.m .R23)) = 1)
    (hs : ∀ i, i < nd → allHas (act i).1 (act i).2 = true)
    (hh : ∀ i, i < nd → HoldsAll f i (act i).1 (act i).2 (L i) s)
    (ht : ∀ i, i < nd → (act i).1.l = false ∨ (act i).2.l = false → tl i = 0) :
    Post (runDo inv? (layerAddAll f nd t tl act flag) s)
      (AllPost true f nd act flag (vals f s) q q' t tl L s) := by
  have hf := ha.sepF hp.mExt hp.vExt
  have hf' : SepF f.swap := ha'.sepF (fun x => hp.mExt x.swap) (fun x => hp.vExt x.swap)
  have h := hp.sepUp ha
  have h' := hp.sepDown ha'
  refine combine (wR := true) (fun _ => rfl) hp ha ha' ?_ ?_
  · refine (half (wB := true) (nc := true) (nD := decide (nd ≠ 0)) (wR := true) (wT := true) hf h
      (eff := act) (c := oC31 (vals f s) t) (S := oS31 (vals f s) q t) (q := q) (L := L) (t := t) (tl := tl)
      ?_ ?_ ?_ ?_).mono fun s' h' => ⟨h'.1, h'.2.1, h'.2.2.2⟩
    · exact pre_D hf (pre_src hf (pre_fac (fresh := true) hinv hf hq (by simp) _))
    · intro s1 h1 i hi s' hs'
      refine all_body (h.each i hi) ?_ t (tl i) ?_ (act i).1 (act i).2 (hs i hi) ?_ (fun w => ht i hi (.inl w))
      · rw [hs'.p]; exact h1.fac.p
      · rw [hs'.d, hs'.a, hs'.m]; exact h1.d (by simp; omega)
      · exact (((hh i hi).holds).pre (h.each i hi) h1).same hs'
    · intro s1 s' h1 i hi hd
      exact hd.toO (h1.vals hf) h1.fac (h1.c rfl)
    · intro s2 ho hfac hc
      exact tail_up hf (hp.mres .R13 .R12 _ rfl (by decide) (by decide))
        (hp.mres .T31 .T21 _ rfl (by decide) (by decide)) (hp.mres .T31 .T21 .T32 rfl (by decide) (by decide)).symm
        flag ho hfac (hc rfl)
  · intro s1 ho
    have hag := ho.agree hp ha
    refine (half (f := f.swap) (wB := true) (nc := true) (nD := decide (nd ≠ 0)) (wR := true) (wT := true) hf' h'
      (eff := fun i => ((act i).2, (act i).1)) (c := oC13 (vals f.swap s1) t) (S := oS13 (vals f.swap s1) q' t)
      (q := q') (L := fun i => (L i).swap) (t := t) (tl := tl)
      ?_ ?_ ?_ ?_).mono fun s' h' => ⟨h'.1, h'.2.1, h'.2.2.2⟩
    · refine pre_D hf' (pre_srcDown hf' (pre_fac (fresh := true) hinv hf' ?_ (by simp) _))
      show q' * (1 - s1.m (f.m .R21) * s1.m (f.m .R23)) = 1
      have e1 := hag.r21
      have e2 := hag.r23
      simp only [vals] at e1 e2
      rw [e1, e2]; exact hq'
    · intro s2 h1 i hi s' hs'
      refine allDown_body (h'.each i hi) ?_ t (tl i) ?_ (act i).1 (act i).2 (hs i hi) ?_ (fun w => ht i hi (.inr w))
      · rw [hs'.p]; exact h1.fac.p
      · rw [hs'.d, hs'.a, hs'.m]; exact h1.d (by simp; omega)
      · exact (((hh i hi).down hi hp ha ho).pre (h'.each i hi) h1).same hs'
    · intro s2 s' h1 i hi hd
      exact hd.toO (h1.vals hf') h1.fac (h1.c rfl)
    · intro s2 ho hfac hc
      exact tail_down hf' (hp.mres .R31 .R21 .T12 rfl (by decide) (by decide))
        (hp.mres .T13 .T12 .R31 rfl (by decide) (by decide)) flag ho hfac (hc rfl)

end Xrtm.Adding
