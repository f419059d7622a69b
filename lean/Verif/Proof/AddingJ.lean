import Verif.Proof.AddingI

/-! Derivatives through the loops over the layers. -/

namespace Xrtm.Spec

open Matrix Filter Topology

variable {n : Nat} {x : ℝ}

theorem LDeriv.eventually {r r2 : ℝ → Layer n ℝ} {r' : Layer n ℝ} (h : LDeriv r r' x) (e : ∀ᶠ y in 𝓝 x, r2 y = r y) :
    LDeriv r2 r' x :=
  ⟨h.Rm.eventually (e.mono fun y hy => by rw [hy]), h.Tm.eventually (e.mono fun y hy => by rw [hy]),
    h.Sm.eventually (e.mono fun y hy => by rw [hy]), h.Rp.eventually (e.mono fun y hy => by rw [hy]),
    h.Tp.eventually (e.mono fun y hy => by rw [hy]), h.Sp.eventually (e.mono fun y hy => by rw [hy])⟩

theorem RDeriv.eventually {r r2 : ℝ → Mirror n ℝ} {r' : Mirror n ℝ} (h : RDeriv r r' x)
    (e : ∀ᶠ y in 𝓝 x, r2 y = r y) : RDeriv r2 r' x :=
  ⟨h.R.eventually (e.mono fun y hy => by rw [hy]), h.S.eventually (e.mono fun y hy => by rw [hy])⟩

theorem LDeriv.flip {r : ℝ → Layer n ℝ} {r' : Layer n ℝ} (h : LDeriv r r' x) :
    LDeriv (fun y => (r y).flip) r'.flip x := ⟨h.Rp, h.Tp, h.Sp, h.Rm, h.Tm, h.Sm⟩

end Xrtm.Spec

namespace Xrtm.Adding

open Mat Spec Matrix Filter Topology

/-- Something of a derivative is there in one of the two or in the other. -/
def Act.join (a b : Act) : Act :=
  match a.l || b.l, a.s || b.s with
  | false, false => .U
  | false, true => .S
  | true, false => .L
  | true, true => .B

@[simp] theorem join_l (a b : Act) : (a.join b).l = (a.l || b.l) := by cases a <;> cases b <;> rfl
@[simp] theorem join_s (a b : Act) : (a.join b).s = (a.s || b.s) := by cases a <;> cases b <;> rfl

section kept
variable {K : Type} [CommRing K] {n : Nat}

/-- The result arrays of derivative `i` hold `r'` where the activity says so, elsewhere `r'` is zero. -/
structure Kept (f : Fr) (i : Nat) (a : Act) (r' : Layer n K) (s : Mem n K) : Prop where
  m : a.l = true → s.m (f.ml i .R13) = r'.Rm ∧ s.m (f.ml i .T13) = r'.Tm ∧ s.m (f.ml i .R31) = r'.Rp ∧
    s.m (f.ml i .T31) = r'.Tp
  m0 : a.l = false → r'.Rm = 0 ∧ r'.Tm = 0 ∧ r'.Rp = 0 ∧ r'.Tp = 0
  v : a.s = true → s.v (f.vl i .S13) = r'.Sm ∧ s.v (f.vl i .S31) = r'.Sp
  v0 : a.s = false → r'.Sm = 0 ∧ r'.Sp = 0

/-- The same for what is seen from one side. -/
structure KeptM (f : Fr) (i : Nat) (a : Act) (r' : Mirror n K) (s : Mem n K) : Prop where
  m : a.l = true → s.m (f.ml i .R13) = r'.R
  m0 : a.l = false → r'.R = 0
  v : a.s = true → s.v (f.vl i .S31) = r'.S
  v0 : a.s = false → r'.S = 0

/-- Where a layer is not active its derivative is zero. -/
structure Quiet (a : Act) (l' : Layer n K) : Prop where
  m0 : a.l = false → l'.Rm = 0 ∧ l'.Tm = 0 ∧ l'.Rp = 0 ∧ l'.Tp = 0
  v0 : a.s = false → l'.Sm = 0 ∧ l'.Sp = 0

/-- Either the sources are active wherever the layers are, or there are no sources. -/
def Lit (a b : Act) (o : Lin n K) : Prop :=
  ((a.l = true → a.s = true) ∧ (b.l = true → b.s = true)) ∨ (o.v .S12 = 0 ∧ o.v .S32 = 0)

theorem gR_zero {o L : Lin n K} {q : M n K} (h : L.m .R12 = 0 ∧ L.m .T12 = 0 ∧ L.m .R21 = 0 ∧ L.m .T21 = 0 ∧
    L.m .R23 = 0 ∧ L.m .T32 = 0) : gR13 o L q = 0 ∧ gT31 o L q = 0 := by
  obtain ⟨h1, h2, h3, h4, h5, h6⟩ := h
  simp [gR13, gT31, gA, h1, h2, h3, h4, h5, h6]

theorem gS_zero {o L : Lin n K} {q : M n K} {c : V n K} {t : K} (hv : L.v .S21 = 0 ∧ L.v .S32 = 0 ∧ L.v .S12 = 0)
    (h : (L.m .R21 = 0 ∧ L.m .T21 = 0 ∧ L.m .R23 = 0) ∨ (o.v .S12 = 0 ∧ c = 0)) : gS31 o L q c t 0 = 0 := by
  obtain ⟨h1, h2, h3⟩ := hv
  rcases h with ⟨e1, e2, e3⟩ | ⟨e1, rfl⟩
  · simp [gS31, gA, h1, h2, h3, e1, e2, e3]
  · simp [gS31, h1, h2, h3, e1]

theorem kept_of {f : Fr} {nd : Nat} {act : Nat → Act × Act} {flag : Bool} {o : Lin n K} {q q' : M n K}
    {tl : Nat → K} {L : Nat → Lin n K} {s s' : Mem n K} (h : AllPost true f nd act flag o q q' 1 tl L s s')
    {j : Nat} (hj : j < nd) (htl : tl j = 0) (hh : HoldsAll f j (act j).1 (act j).2 (L j) s)
    (hl : Lit (act j).1 (act j).2 o) :
    Kept f j ((act j).1.join (act j).2) (dsum o (L j) q q' 1 0) s' := by
  have hu := h.up j hj
  have hd := h.down j hj
  rw [htl] at hu hd
  constructor
  · intro w
    have w' : (act j).1.l = true ∨ (act j).2.l = true := by simpa using w
    exact ⟨hu.rr w', hd.tt rfl w'.symm, hd.rr w'.symm, hu.tt rfl w'⟩
  · intro w
    have w' : (act j).1.l = false ∧ (act j).2.l = false := by simpa using w
    have u := hh.up
    have l := hh.lo
    simp only [w'.1, w'.2, Bool.false_eq_true, if_false] at u l
    have z1 := gR_zero (o := o) (L := L j) (q := q) ⟨u .R12 (by simp), u .T12 (by simp), u .R21 (by simp), u .T21 (by simp),
      l .R23 (by simp), l .T32 (by simp)⟩
    have z2 := gR_zero (o := o.swap) (L := (L j).swap) (q := q') ⟨l .R32 (by simp), l .T32 (by simp), l .R23 (by simp),
      l .T23 (by simp), u .R21 (by simp), u .T12 (by simp)⟩
    exact ⟨z1.1, z2.2, z2.1, z1.2⟩
  · intro w
    have w' : (act j).1.s = true ∨ (act j).2.s = true := by simpa using w
    exact ⟨hd.ss w'.symm, hu.ss w'⟩
  · intro w
    have w' : (act j).1.s = false ∧ (act j).2.s = false := by simpa using w
    have us := hh.upS
    have ls := hh.loS
    simp only [w'.1, w'.2, Bool.false_eq_true, if_false] at us ls
    have hz : ((act j).1.l = false ∧ (act j).2.l = false) ∨ (o.v .S12 = 0 ∧ o.v .S32 = 0) := by
      rcases hl with ⟨l1, l2⟩ | l1
      · left
        rw [w'.1] at l1; rw [w'.2] at l2
        exact ⟨by simpa using l1, by simpa using l2⟩
      · exact .inr l1
    have u := hh.up
    have l := hh.lo
    refine ⟨gS_zero ⟨ls .S23 (by simp), us .S12 (by simp), ls .S32 (by simp)⟩ ?_,
      gS_zero ⟨us .S21 (by simp), ls .S32 (by simp), us .S12 (by simp)⟩ ?_⟩
    · rcases hz with ⟨e1, e2⟩ | ⟨e1, e2⟩
      · simp only [e1, e2, Bool.false_eq_true, if_false] at u l
        exact .inl ⟨l .R23 (by simp), l .T23 (by simp), u .R21 (by simp)⟩
      · exact .inr ⟨e2, by simp [oC13, Lin.swap, MArg.swap, VArg.swap, e1, e2]⟩
    · rcases hz with ⟨e1, e2⟩ | ⟨e1, e2⟩
      · simp only [e1, e2, Bool.false_eq_true, if_false] at u l
        exact .inl ⟨u .R21 (by simp), u .T21 (by simp), l .R23 (by simp)⟩
      · exact .inr ⟨e1, by simp [oC31, e1, e2]⟩

theorem keptM_of {f : Fr} {j : Nat} {a b : Act} {o L : Lin n K} {q : M n K} {s s' : Mem n K}
    (hu : DoneO false f j a b o L q (oC31 o 1) 1 0 s') (hh : Holds f j a b L s) (hl : Lit a b o) :
    KeptM f j (a.join b) ⟨gR13 o L q, gS31 o L q (oC31 o 1) 1 0⟩ s' := by
  constructor
  · intro w
    exact hu.rr (by simpa using w)
  · intro w
    have w' : a.l = false ∧ b.l = false := by simpa using w
    have u := hh.up
    have l := hh.lo
    simp only [w'.1, w'.2, Bool.false_eq_true, if_false] at u l
    exact (gR_zero (o := o) (L := L) (q := q) ⟨u .R12 (by simp), u .T12 (by simp), u .R21 (by simp), u .T21 (by simp),
      l .R23 (by simp), l .T32 (by simp)⟩).1
  · intro w
    exact hu.ss (by simpa using w)
  · intro w
    have w' : a.s = false ∧ b.s = false := by simpa using w
    have us := hh.upS
    have ls := hh.loS
    simp only [w'.1, w'.2, Bool.false_eq_true, if_false] at us ls
    have hz : (a.l = false ∧ b.l = false) ∨ (o.v .S12 = 0 ∧ o.v .S32 = 0) := by
      rcases hl with ⟨l1, l2⟩ | l1
      · left
        rw [w'.1] at l1; rw [w'.2] at l2
        exact ⟨by simpa using l1, by simpa using l2⟩
      · exact .inr l1
    have u := hh.up
    have l := hh.lo
    refine gS_zero ⟨us .S21 (by simp), ls, us .S12 (by simp)⟩ ?_
    rcases hz with ⟨e1, e2⟩ | ⟨e1, e2⟩
    · simp only [e1, e2, Bool.false_eq_true, if_false] at u l
      exact .inl ⟨u .R21 (by simp), u .T21 (by simp), l .R23 (by simp)⟩
    · exact .inr ⟨e1, by simp [oC31, e1, e2]⟩

end kept

variable {n : Nat} {x : ℝ} {inv? : M n ℝ → Option (M n ℝ)}

/-- Near a regular interface there is a curve of results. -/
theorem exists_stacked {top bot : ℝ → Layer n ℝ} {top' bot' : Layer n ℝ} (ht : LDeriv top top' x)
    (hb : LDeriv bot bot' x) (hq : Regular (bot x).Rm (top x).Rp) :
    ∃ r : ℝ → Layer n ℝ, ∀ᶠ y in 𝓝 x, Stacked (top y) (bot y) (r y) := by
  obtain ⟨q, hq⟩ := hq
  have hd : (1 - (bot x).Rm * (top x).Rp).det ≠ 0 := by
    intro h0
    have := congrArg Matrix.det hq
    simp [h0] at this
  refine ⟨fun y => sum (linOf (top y) (bot y)) (1 - (bot y).Rm * (top y).Rp)⁻¹
    (inv13 (linOf (top y) (bot y)) (1 - (bot y).Rm * (top y).Rp)⁻¹) 1, ?_⟩
  filter_upwards [((MDeriv.const (x := x) 1).sub (hb.Rm.mul ht.Rp)).det_near hd] with y h2
  have h3 : (1 - (bot y).Rm * (top y).Rp)⁻¹ * (1 - (bot y).Rm * (top y).Rp) = 1 :=
    Matrix.nonsing_inv_mul _ (isUnit_iff_ne_zero.2 h2)
  have h4 := stacked (o := linOf (top y) (bot y)) h3 (inv13_spec (o := linOf (top y) (bot y)) h3) 1
  rw [Layer.dim_one] at h4
  exact h4

theorem exists_backed {top : ℝ → Layer n ℝ} {bot : ℝ → Mirror n ℝ} {top' : Layer n ℝ} {bot' : Mirror n ℝ}
    (ht : LDeriv top top' x) (hb : RDeriv bot bot' x) (hq : Regular (bot x).R (top x).Rp) :
    ∃ r : ℝ → Mirror n ℝ, ∀ᶠ y in 𝓝 x, Backed (top y) (bot y) (r y) := by
  obtain ⟨q, hq⟩ := hq
  have hd : (1 - (bot x).R * (top x).Rp).det ≠ 0 := by
    intro h0
    have := congrArg Matrix.det hq
    simp [h0] at this
  refine ⟨fun y => ⟨oR13 (linOf (top y) ⟨(bot y).R, 0, 0, 0, 0, (bot y).S⟩) (1 - (bot y).R * (top y).Rp)⁻¹,
    oS31 (linOf (top y) ⟨(bot y).R, 0, 0, 0, 0, (bot y).S⟩) (1 - (bot y).R * (top y).Rp)⁻¹ 1⟩, ?_⟩
  filter_upwards [((MDeriv.const (x := x) 1).sub (hb.R.mul ht.Rp)).det_near hd] with y h2
  have h3 : (1 - (bot y).R * (top y).Rp)⁻¹ * (1 - (bot y).R * (top y).Rp) = 1 :=
    Matrix.nonsing_inv_mul _ (isUnit_iff_ne_zero.2 h2)
  have h4 := backed (o := linOf (top y) ⟨(bot y).R, 0, 0, 0, 0, (bot y).S⟩) h3 1
  rw [Mirror.dim_one] at h4
  exact h4

/-- One call of `layer_add_all` on curves of layers. -/
theorem layerAddAll_deriv (hinv : Exact inv?) {f : Fr} {nd : Nat} (hp : Places f nd) (ha : AuxPlaces f nd)
    (ha' : AuxPlaces f.swap nd) {s s' : Mem n ℝ} {act : Nat → Act × Act}
    (hs : ∀ i, i < nd → allExits (act i) = false)
    (hrun : runDo inv? (layerAddAll f nd 1 (fun _ => 0) act true) s = .ok s')
    {j : Nat} (hj : j < nd) (hsj : allHas (act j).1 (act j).2 = true) {top bot r : ℝ → Layer n ℝ} {top' bot' : Layer n ℝ}
    (htop : top x = upper (vals f s)) (hbot : bot x = lower (vals f s))
    (ht : LDeriv top top' x) (hb : LDeriv bot bot' x)
    (hh : HoldsAll f j (act j).1 (act j).2 (linOf top' bot') s) (hl : Lit (act j).1 (act j).2 (vals f s))
    (hr : ∀ᶠ y in 𝓝 x, Stacked (top y) (bot y) (r y)) :
    ∃ r', LDeriv r r' x ∧ Kept f j ((act j).1.join (act j).2) r' s' := by
  rcases layerAddAll_value hinv hp ha ha' s (1 : ℝ) (tl := fun _ => 0) hs (fun _ _ _ => rfl) with ⟨⟨q, hq⟩, _⟩ | ⟨_, he⟩
  · have hq' : inv13 (vals f s) q * (1 - s.m (f.m .R21) * s.m (f.m .R23)) = 1 := inv13_spec (o := vals f s) hq
    obtain ⟨L, hL⟩ := choose_all (f := f) (act := fun i => still (act i)) (s := s)
    have ej : still (act j) = act j := by simp [still, hsj]
    have hp' := layerAddAll_post hinv hp ha ha' (L := fun i => if i = j then linOf top' bot' else L i) (t := 1)
      (tl := fun _ => 0) (act := fun i => still (act i)) true hq hq' (fun i _ => still_has (act i))
      (fun i _ => by by_cases e : i = j <;> simp only [e, if_true, if_false]
                     · rw [ej]; exact hh
                     · exact hL i) (fun _ _ _ => rfl)
    rw [← layerAddAll_still f nd 1 _ act true hs, hrun] at hp'
    have hk := kept_of (j := j) hp' hj rfl (by simpa [ej] using hh) (by rw [ej]; exact hl)
    simp only [if_true, ej] at hk
    refine ⟨_, ?_, hk⟩
    have hd := stacked_deriv ht hb hr (q := q) (q' := inv13 (vals f s) q) (by rw [htop, hbot]; exact hq)
      (by rw [htop, hbot]; exact hq')
    rw [htop, hbot] at hd
    exact hd
  · rw [he] at hrun; cases hrun

/-- The derivative arrays of the lower side of `layer_add_ref`. -/
structure HoldsM (f : Fr) (i : Nat) (a b : Act) (top' : Layer n ℝ) (bot' : Mirror n ℝ) (s : Mem n ℝ) : Prop where
  up : a.l = true → s.m (f.ml i .R12) = top'.Rm ∧ s.m (f.ml i .T12) = top'.Tm ∧ s.m (f.ml i .R21) = top'.Rp ∧
    s.m (f.ml i .T21) = top'.Tp
  upS : a.s = true → s.v (f.vl i .S12) = top'.Sm ∧ s.v (f.vl i .S21) = top'.Sp
  up0 : Quiet a top'
  lo : b.l = true → s.m (f.ml i .R23) = bot'.R
  lo0 : b.l = false → bot'.R = 0
  loS : b.s = true → s.v (f.vl i .S32) = bot'.S
  loS0 : b.s = false → bot'.S = 0

/-- One call of `layer_add_ref` on curves. -/
theorem layerAddRef_deriv (hinv : Exact inv?) {f : Fr} {nd : Nat} (hf : SepF f) (h : SepL f nd) {s s' : Mem n ℝ}
    {act : Nat → Act × Act} {flag : Bool}
    (hs : ∀ i, i < nd → refHas flag (flip flag (act i)).1 (flip flag (act i)).2 = true)
    (hrun : runDo inv? (layerAddRef f nd 1 (fun _ => 0) act flag true) s = .ok s')
    {j : Nat} (hj : j < nd) {top : ℝ → Layer n ℝ} {bot r : ℝ → Mirror n ℝ} {top' : Layer n ℝ} {bot' : Mirror n ℝ}
    (htop : top x = upper (vals f s)) (hbot : bot x = mirror (vals f s))
    (ht : LDeriv top top' x) (hb : RDeriv bot bot' x)
    (hh : HoldsM f j (flip flag (act j)).1 (flip flag (act j)).2 top' bot' s)
    (hl : Lit (flip flag (act j)).1 (flip flag (act j)).2 (vals f s))
    (hr : ∀ᶠ y in 𝓝 x, Backed (top y) (bot y) (r y)) :
    ∃ r', RDeriv r r' x ∧ KeptM f j ((flip flag (act j)).1.join (flip flag (act j)).2) r' s' := by
  rcases layerAddRef_value hinv hf h s (1 : ℝ) (tl := fun _ => 0) hs (fun _ _ _ => rfl) with ⟨⟨q, hq⟩, _⟩ | ⟨_, he⟩
  · obtain ⟨L, hL⟩ := choose_all (f := f) (act := fun i => flip flag (act i)) (s := s)
    set Lj : Lin n ℝ := linOf top' ⟨bot'.R, 0, 0, 0,
      if (flip flag (act j)).2.l then s.m (f.ml j .T32) else 0, bot'.S⟩ with hLj
    have hhj : Holds f j (flip flag (act j)).1 (flip flag (act j)).2 Lj s := by
      obtain ⟨h1, h2, h3, h4, h5, h6, h7⟩ := hh
      obtain ⟨k1, k2⟩ := h3
      constructor
      · intro y hy
        cases e : (flip flag (act j)).1.l
        · obtain ⟨z1, z2, z3, z4⟩ := k1 e
          rcases hy with rfl | rfl | rfl | rfl <;> simpa [hLj, linOf]
        · obtain ⟨z1, z2, z3, z4⟩ := h1 e
          rcases hy with rfl | rfl | rfl | rfl <;> simpa [hLj, linOf]
      · intro y hy
        cases e : (flip flag (act j)).1.s
        · obtain ⟨z1, z2⟩ := k2 e
          rcases hy with rfl | rfl <;> simpa [hLj, linOf]
        · obtain ⟨z1, z2⟩ := h2 e
          rcases hy with rfl | rfl <;> simpa [hLj, linOf]
      · intro y hy
        cases e : (flip flag (act j)).2.l
        · rcases hy with rfl | rfl
          · simpa [hLj, linOf] using h5 e
          · simp [hLj, linOf, e]
        · rcases hy with rfl | rfl
          · simpa [hLj, linOf] using h4 e
          · simp [hLj, linOf, e]
      · cases e : (flip flag (act j)).2.s
        · simpa [hLj, linOf] using h7 e
        · simpa [hLj, linOf] using h6 e
    have hp' := layerAddRef_post hinv hf h (L := fun i => if i = j then Lj else L i) (t := 1)
      (tl := fun _ => 0) true hq hs
      (fun i _ => by by_cases e : i = j <;> simp only [e, if_true, if_false]
                     · exact hhj
                     · exact (hL i).holds) (fun _ _ _ => rfl)
    rw [hrun] at hp'
    have hk := hp'.2.2 j hj
    simp only [if_true] at hk
    refine ⟨_, ?_, keptM_of hk hhj hl⟩
    have hd := backed_deriv ht hb hr (q := q) (by rw [htop, hbot]; exact hq)
    rw [htop, hbot] at hd
    exact hd
  · rw [he] at hrun; cases hrun

end Xrtm.Adding
