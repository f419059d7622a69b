import Verif.Proof.AddingM

/-!
# C28, C29, C30: adding of layers

`upper`, `lower`, `both`, `mirror`, `mirrorOut` read a layer off the arrays the arguments of a call stand for
(`vals f s`).
-/

namespace Xrtm.Adding

open Mat Spec Matrix Filter Topology Derivs

/-- A factorisation without rounding. -/
noncomputable def idealInv {K : Type} [CommRing K] {n : Nat} (a : M n K) : Option (M n K) :=
  open Classical in if h : ∃ b, a * b = 1 then some h.choose else none

theorem idealInv_exact {K : Type} [CommRing K] {n : Nat} : Exact (idealInv (K := K) (n := n)) := by
  intro a b
  unfold idealInv
  split
  · rename_i h
    have hc := h.choose_spec
    constructor
    · rintro e
      simp only [Option.some.injEq] at e
      rw [← e]; exact hc
    · intro hb
      have h2 : h.choose * a = 1 := mul_eq_one_comm.1 hc
      have : h.choose = b := by
        calc h.choose = h.choose * (a * b) := by rw [hb, mul_one]
          _ = b := by rw [← mul_assoc, h2, one_mul]
      rw [this]
  · rename_i h
    constructor
    · intro e; cases e
    · intro hb; exact absurd ⟨b, hb⟩ h

/-- Where the arguments of `layer_add_all` and its kind may be. -/
structure Args (f : Fr) (nd : Nat) : Prop where
  places : Places f nd
  up : AuxPlaces f nd
  down : AuxPlaces f.swap nd

theorem args_all (nd : Nat) : Args frameAll nd := ⟨places_all nd, aux_all nd, aux_all' nd⟩

/-! ## C28 -/

section c28
variable {K : Type} [CommRing K] {n : Nat} {inv? : M n K → Option (M n K)}

/-- Between two layers with a regular interface, for all light from outside there is exactly one light at the
interface and one that comes out. -/
theorem C28_unique (top bot : Layer n K) (h : Regular bot.Rm top.Rp) (dn1 up3 : V n K) :
    ∃! p : (V n K × V n K) × (V n K × V n K),
      top.Obeys dn1 p.2.1 p.1.1 p.1.2 ∧ bot.Obeys p.1.1 p.1.2 p.2.2 up3 := by
  obtain ⟨q, hq⟩ := h
  -- `up2 = Rm (Tm dn1 + Rp up2 + Sm) + Tp up3 + Sp`
  set b := bot.Rm *ᵥ (top.Tm *ᵥ dn1 + top.Sm) + bot.Tp *ᵥ up3 + bot.Sp with hb
  have key : ∀ u : V n K, u = bot.Rm *ᵥ (top.Tm *ᵥ dn1 + top.Rp *ᵥ u + top.Sm) + bot.Tp *ᵥ up3 + bot.Sp ↔ u = q *ᵥ b := by
    intro u
    rw [← solve hq u b, sub_mulVec, one_mulVec, ← mulVec_mulVec, hb]
    simp only [mulVec_add]
    constructor
    · intro e; nth_rewrite 1 [e]; abel
    · intro e
      refine (sub_eq_iff_eq_add.1 e).trans ?_
      abel
  refine ⟨((top.Tm *ᵥ dn1 + top.Rp *ᵥ (q *ᵥ b) + top.Sm, q *ᵥ b),
    (top.Rm *ᵥ dn1 + top.Tp *ᵥ (q *ᵥ b) + top.Sp,
      bot.Tm *ᵥ (top.Tm *ᵥ dn1 + top.Rp *ᵥ (q *ᵥ b) + top.Sm) + bot.Rp *ᵥ up3 + bot.Sm)),
    ⟨⟨rfl, rfl⟩, ⟨(key _).2 rfl, rfl⟩⟩, ?_⟩
  rintro ⟨⟨d2, u2⟩, u1, d3⟩ ⟨⟨h1, h2⟩, h3, h4⟩
  simp only at h1 h2 h3 h4
  have e : u2 = q *ᵥ b := (key u2).1 (by rw [← h2]; exact h3)
  subst e
  rw [h4, h1, h2]

/-- `layer_add_all`: if the interface is regular the result is the two layers together; if it is not, the factorisation
ends the program. For all codes of the derivatives but the two with an `exit(1)`. -/
theorem C28_layer_add_all (hinv : Exact inv?) {f : Fr} {nd : Nat} (ha : Args f nd) (s : Mem n K)
    {act : Nat → Act × Act} (t : K) {tl : Nat → K} (hs : ∀ i, i < nd → allExits (act i) = false)
    (ht : ∀ i, i < nd → (act i).1.l = false ∨ (act i).2.l = false → tl i = 0) :
    (Regular (lower (vals f s)).Rm (upper (vals f s)).Rp →
      ∃ s', runDo inv? (layerAddAll f nd t tl act true) s = .ok s' ∧
        Stacked (upper (vals f s)) ((lower (vals f s)).dim t) (both (vals f s'))) ∧
    (¬ Regular (lower (vals f s)).Rm (upper (vals f s)).Rp →
      runDo inv? (layerAddAll f nd t tl act true) s = .error .singular) := by
  rcases layerAddAll_value hinv ha.places ha.up ha.down s t hs ht with ⟨h1, h2⟩ | ⟨h1, h2⟩
  · exact ⟨fun _ => Post.elim h2, fun h => absurd h1 h⟩
  · exact ⟨fun h => absurd h h1, fun _ => h2⟩

/-- `layer_add_ref`. -/
theorem C28_layer_add_ref (hinv : Exact inv?) {f : Fr} {nd : Nat} (hf : SepF f) (h : SepL f nd) (s : Mem n K)
    {act : Nat → Act × Act} {flag : Bool} (t : K) {tl : Nat → K}
    (hs : ∀ i, i < nd → refHas flag (flip flag (act i)).1 (flip flag (act i)).2 = true)
    (ht : ∀ i, i < nd → (flip flag (act i)).1.l = false → tl i = 0) :
    (Regular (mirror (vals f s)).R (upper (vals f s)).Rp →
      ∃ s', runDo inv? (layerAddRef f nd t tl act flag true) s = .ok s' ∧
        Backed (upper (vals f s)) ((mirror (vals f s)).dim t) (mirrorOut (vals f s'))) ∧
    (¬ Regular (mirror (vals f s)).R (upper (vals f s)).Rp →
      runDo inv? (layerAddRef f nd t tl act flag true) s = .error .singular) := by
  rcases layerAddRef_value hinv hf h s t hs ht with ⟨h1, h2⟩ | ⟨h1, h2⟩
  · exact ⟨fun _ => Post.elim h2, fun h => absurd h1 h⟩
  · exact ⟨fun h => absurd h h1, fun _ => h2⟩

/-- `layer_add_all2`: the same for the codes it has, and with factors kept from an earlier call. If the record of the
factors is apart, it is good for the next call. -/
theorem C28_layer_add_all2 (hinv : Exact inv?) {f : Fr} {nd : Nat} (ha : Args f nd) (s : Mem n K)
    {act : Nat → Act × Act} (t : K) {tl : Nat → K} (fresh : Bool)
    (hreg : Regular (lower (vals f s)).Rm (upper (vals f s)).Rp)
    (hfr : fresh = false → AuxApart f ∧ ∃ q q', AuxOk inv? f q q' true (vals f s) s)
    (hs : ∀ i, i < nd → all2Has (act i).1 (act i).2 = true)
    (ht : ∀ i, i < nd → (act i).1.l = false ∨ (act i).2.l = false → tl i = 0) :
    ∃ s', runDo inv? (layerAddAll2 f nd t tl act true fresh) s = .ok s' ∧
      Stacked (upper (vals f s)) ((lower (vals f s)).dim t) (both (vals f s')) ∧
      (AuxApart f → ∃ q q', AuxOk inv? f q q' true (vals f s) s') := by
  have main : ∀ q q' : M n K, q * (1 - s.m (f.m .R23) * s.m (f.m .R21)) = 1 →
      q' * (1 - s.m (f.m .R21) * s.m (f.m .R23)) = 1 →
      (fresh = false → AuxApart f ∧ AuxOk inv? f q q' true (vals f s) s) →
      ∃ s', runDo inv? (layerAddAll2 f nd t tl act true fresh) s = .ok s' ∧
        Stacked (upper (vals f s)) ((lower (vals f s)).dim t) (both (vals f s')) ∧
        (AuxApart f → ∃ q q', AuxOk inv? f q q' true (vals f s) s') := by
    intro q q' hq hq' hfr
    obtain ⟨L, hL⟩ := choose_all (f := f) (act := act) (s := s)
    obtain ⟨s', e, h1, h2⟩ := (layerAddAll2_post hinv ha.places ha.up ha.down (t := t) (tl := tl) true fresh hq hq' hfr hs
      (fun i _ => hL i) ht).elim
    refine ⟨s', e, ?_, fun h => ⟨q, q', h2 h⟩⟩
    rw [both_of h1]
    exact stacked (o := vals f s) hq hq' t
  cases hf : fresh with
  | true =>
      subst hf
      obtain ⟨q, hq⟩ := hreg
      exact main q (inv13 (vals f s) q) hq (inv13_spec (o := vals f s) hq) (by simp)
  | false =>
      subst hf
      obtain ⟨h1, q, q', h2⟩ := hfr rfl
      exact main q q' h2.1.inv h2.2.inv (fun _ => ⟨h1, h2⟩)

/-- What the code keeps in the record stays good as long as the layers stay the same: a second call with new sources
may use it. -/
theorem C28_kept_factors {f : Fr} {o o2 : Lin n K} {s1 s2 : Mem n K} {wB : Bool}
    (h : ∃ q q', AuxOk inv? f q q' wB o s1) (ho : o2.m = o.m)
    (hm : ∀ c, c = f.P ∨ c = f.A ∨ c = f.B ∨ c = f.P' ∨ c = f.A' ∨ c = f.B' → s2.m c = s1.m c) :
    ∃ q q', AuxOk inv? f q q' wB o2 s2 := by
  obtain ⟨q, q', h1, h2⟩ := h
  refine ⟨q, q', FacO.congr (fun c hc => hm c (by tauto)) ⟨?_, h1.p, ?_, ?_⟩,
    FacO.congr (fun c hc => hm c (by have := hc; simp only [Fr.swap] at this; tauto)) ⟨?_, h2.p, ?_, ?_⟩⟩
  · rw [ho]; exact h1.inv
  · rw [ho]; exact h1.a
  · rw [ho]; exact h1.b
  · have := h2.inv; simp only [Lin.swap, ho] at this ⊢; exact this
  · have := h2.a; simp only [Lin.swap, ho] at this ⊢; exact this
  · have := h2.b; simp only [Lin.swap, ho] at this ⊢; exact this

/-- `layer_add_ref2`. -/
theorem C28_layer_add_ref2 (hinv : Exact inv?) {f : Fr} {nd : Nat} (hf : SepF f) (h : SepL f nd) (s : Mem n K)
    {act : Nat → Act × Act} {flag : Bool} (t : K) {tl : Nat → K} (fresh : Bool)
    (hreg : Regular (mirror (vals f s)).R (upper (vals f s)).Rp)
    (hfr : fresh = false → ∃ q, FacO inv? f q true (vals f s) s)
    (hs : ∀ i, i < nd → ref2Has (flip flag (act i)).1 (flip flag (act i)).2 = true)
    (ht : ∀ i, i < nd → (flip flag (act i)).1.l = false → tl i = 0) :
    ∃ s', runDo inv? (layerAddRef2 f nd t tl act flag true fresh) s = .ok s' ∧
      Backed (upper (vals f s)) ((mirror (vals f s)).dim t) (mirrorOut (vals f s')) ∧
      ∃ q, FacO inv? f q true (vals f s) s' := by
  have main : ∀ q : M n K, q * (1 - s.m (f.m .R23) * s.m (f.m .R21)) = 1 →
      (fresh = false → FacO inv? f q true (vals f s) s) →
      ∃ s', runDo inv? (layerAddRef2 f nd t tl act flag true fresh) s = .ok s' ∧
      Backed (upper (vals f s)) ((mirror (vals f s)).dim t) (mirrorOut (vals f s')) ∧
      ∃ q, FacO inv? f q true (vals f s) s' := by
    intro q hq hfr
    obtain ⟨L, hL⟩ := choose_all (f := f) (act := fun i => flip flag (act i)) (s := s)
    obtain ⟨s', e, h1, h2, h3, _⟩ := (layerAddRef2_post hinv hf h (t := t) (tl := tl) true fresh hq hfr hs
      (fun i _ => (hL i).holds) ht).elim
    refine ⟨s', e, ?_, q, h3⟩
    have ho := h2 rfl
    have e : mirrorOut (vals f s') = ⟨oR13 (vals f s) q, oS31 (vals f s) q t⟩ := by
      simp [mirrorOut, vals, ho.r rfl, ho.s]
    rw [e]
    exact backed (o := vals f s) hq t
  cases hf : fresh with
  | true =>
      subst hf
      obtain ⟨q, hq⟩ := hreg
      exact main q hq (by simp)
  | false =>
      subst hf
      obtain ⟨q, h2⟩ := hfr rfl
      exact main q h2.inv (fun _ => h2)

/-- `source_add_all`, `source_add_all2`: the sources are those of the two layers together, with fresh factors or with
the factors an earlier `layer_add_all2` left. -/
theorem C28_source_add_all (hinv : Exact inv?) {f : Fr} {nd : Nat} (ha : Args f nd) (s : Mem n K)
    {act : Nat → Act × Act} (t : K) (fresh two : Bool)
    (hreg : Regular (lower (vals f s)).Rm (upper (vals f s)).Rp)
    (hfr : fresh = false → AuxApart f ∧ ∃ q q', AuxOk inv? f q q' false (vals f s) s)
    (hs : ∀ i, i < nd → srcHas (act i).1 (act i).2 = true) :
    ∃ s', runDo inv? (sourceAddAll f nd t (fun _ => 0) act true fresh two) s = .ok s' ∧
      ∀ r, Stacked (upper (vals f s)) ((lower (vals f s)).dim t) r →
        (both (vals f s')).Sm = r.Sm ∧ (both (vals f s')).Sp = r.Sp := by
  have main : ∀ q q' : M n K, q * (1 - s.m (f.m .R23) * s.m (f.m .R21)) = 1 →
      q' * (1 - s.m (f.m .R21) * s.m (f.m .R23)) = 1 →
      (fresh = false → AuxApart f ∧ AuxOk inv? f q q' false (vals f s) s) →
      ∃ s', runDo inv? (sourceAddAll f nd t (fun _ => 0) act true fresh two) s = .ok s' ∧
        ∀ r, Stacked (upper (vals f s)) ((lower (vals f s)).dim t) r →
          (both (vals f s')).Sm = r.Sm ∧ (both (vals f s')).Sp = r.Sp := by
    intro q q' hq hq' hfr
    obtain ⟨L, hL⟩ := choose_all (f := f) (act := act) (s := s)
    obtain ⟨s', e, h1, h2⟩ := (sourceAddAll_post hinv ha.places ha.up ha.down (t := t) true fresh two hq hq' hfr hs
      (fun i _ => hL i)).elim
    refine ⟨s', e, fun r hr => ?_⟩
    have := Stacked.unique hr (stacked (o := vals f s) hq hq' t)
    obtain ⟨v1, v2⟩ := h1.srcs rfl
    rw [this]
    exact ⟨v2, v1⟩
  cases hf : fresh with
  | true =>
      subst hf
      obtain ⟨q, hq⟩ := hreg
      exact main q (inv13 (vals f s) q) hq (inv13_spec (o := vals f s) hq) (by simp)
  | false =>
      subst hf
      obtain ⟨h1, q, q', h2⟩ := hfr rfl
      exact main q q' h2.1.inv h2.2.inv (fun _ => ⟨h1, h2⟩)

/-- The result is the only one. -/
theorem C28_result_unique {top bot r r2 : Layer n K} (h : Stacked top bot r) (h2 : Stacked top bot r2) : r = r2 :=
  Stacked.unique h h2

end c28

/-! A concrete case: two angles, the upper layer in the arrays 0-3, the lower in 4-7, all reflections one half, and
the result in place of the upper layer. -/

/-- All reflections one half of a turn of the two angles, all transmissions one quarter. -/
def demo : Mem 2 ℚ where
  m
    | .ext 0 | .ext 2 | .ext 4 | .ext 6 => !![0, 1/2; 1/2, 0]
    | _ => !![1/4, 0; 0, 1/4]
  v _ := ![1, 2]

theorem demo_regular : Regular (lower (vals frameAll demo)).Rm (upper (vals frameAll demo)).Rp := by
  refine ⟨!![4/3, 0; 0, 4/3], ?_⟩
  have h1 : (lower (vals frameAll demo)).Rm = !![0, 1/2; 1/2, 0] := rfl
  have h2 : (upper (vals frameAll demo)).Rp = !![0, 1/2; 1/2, 0] := rfl
  rw [h1, h2]
  ext i j
  fin_cases i <;> fin_cases j <;> simp [Matrix.one_apply, Matrix.mul_apply, Fin.sum_univ_two] <;> norm_num

example : ∃ s', runDo idealInv (layerAddAll frameAll 2 (1/3) (fun _ => 0) (fun i => if i = 0 then (.U, .B) else (.S, .S)) true)
      demo = .ok s' ∧
    Stacked (upper (vals frameAll demo)) ((lower (vals frameAll demo)).dim (1/3)) (both (vals frameAll s')) :=
  (C28_layer_add_all idealInv_exact (args_all 2) demo (1/3) (by decide) (fun _ _ _ => rfl)).1 demo_regular

example : ∃ s', runDo idealInv (layerAddAll2 frameAll 1 1 (fun _ => 0) (fun _ => (.B, .S)) true true) demo = .ok s' ∧
    Stacked (upper (vals frameAll demo)) ((lower (vals frameAll demo)).dim 1) (both (vals frameAll s')) := by
  obtain ⟨s', h1, h2, _⟩ := C28_layer_add_all2 idealInv_exact (args_all 1) demo 1 (act := fun _ => (.B, .S))
    (tl := fun _ => 0) true demo_regular (by simp) (by decide) (fun _ _ _ => rfl)
  exact ⟨s', h1, h2⟩

example (dn1 up3 : V 2 ℚ) : ∃! x : (V 2 ℚ × V 2 ℚ) × (V 2 ℚ × V 2 ℚ),
    (upper (vals frameAll demo)).Obeys dn1 x.2.1 x.1.1 x.1.2 ∧ (lower (vals frameAll demo)).Obeys x.1.1 x.1.2 x.2.2 up3 :=
  C28_unique _ _ demo_regular dn1 up3

/-- The surface of `layer_add_ref` in array 4. -/
theorem demo_regular_ref : Regular (mirror (vals frameRef demo)).R (upper (vals frameRef demo)).Rp := demo_regular

example : ∃ s', runDo idealInv (layerAddRef frameRef 2 (1/3) (fun _ => 0) (fun i => if i = 0 then (.U, .B) else (.B, .B))
      false true) demo = .ok s' ∧
    Backed (upper (vals frameRef demo)) ((mirror (vals frameRef demo)).dim (1/3)) (mirrorOut (vals frameRef s')) :=
  (C28_layer_add_ref idealInv_exact sepF_ref (sepL_ref 2) demo (1/3) (by decide) (fun _ _ _ => rfl)).1 demo_regular_ref

example : ∃ s', runDo idealInv (layerAddRef2 frameRef 1 1 (fun _ => 0) (fun _ => (.B, .B)) false true true) demo = .ok s' ∧
    Backed (upper (vals frameRef demo)) ((mirror (vals frameRef demo)).dim 1) (mirrorOut (vals frameRef s')) := by
  obtain ⟨s', h1, h2, _⟩ := C28_layer_add_ref2 idealInv_exact sepF_ref (sepL_ref 1) demo 1 (act := fun _ => (.B, .B))
    (flag := false) (tl := fun _ => 0) true demo_regular_ref (by simp) (by decide) (fun _ _ _ => rfl)
  exact ⟨s', h1, h2⟩

example : ∃ s', runDo idealInv (sourceAddAll frameAll 1 (1/3) (fun _ => 0) (fun _ => (.S, .S)) true true false) demo = .ok s' ∧
    ∀ r, Stacked (upper (vals frameAll demo)) ((lower (vals frameAll demo)).dim (1/3)) r →
      (both (vals frameAll s')).Sm = r.Sm ∧ (both (vals frameAll s')).Sp = r.Sp :=
  C28_source_add_all idealInv_exact (args_all 1) demo (1/3) (act := fun _ => (.S, .S)) true false demo_regular (by simp)
    (by decide)

/-- The same frame with the factors of both halves in arrays of their own. -/
def frameAux : Fr := { frameAll with
  P := .ext 1000, A := .ext 1001, B := .ext 1002, P' := .ext 1003, A' := .ext 1004, B' := .ext 1005
  m := fun x => match x with
    | .R13 => .ext 1006 | .T13 => .ext 1007 | .R31 => .ext 1008 | .T31 => .ext 1009 | x => cellM 0 (allM x)
  v := fun x => match x with | .S13 => .ext 1006 | .S31 => .ext 1007 | x => cellV 0 (allV x) }

theorem args_aux : Args frameAux 0 := by
  refine ⟨?_, ?_, ?_⟩
  · constructor
    case mExt => intro x k; cases x <;> simp [frameAux, cellM]
    case vExt => intro x k; cases x <;> simp [frameAux, cellV]
    case mres => intro z w x h1; cases z <;> simp [MArg.res] at h1 <;> cases x <;> simp [frameAux, cellM, allM]
    case vres => intro z w x h1; cases z <;> simp [VArg.res] at h1 <;> cases x <;> simp [frameAux, cellV, allV]
    all_goals (intros; omega)
  · refine ⟨?_, ?_, ?_, by decide, by decide, by decide⟩
    · rintro c (rfl | rfl | rfl) k hk <;> simp [frameAux]
    · rintro c (rfl | rfl | rfl) x <;> cases x <;> simp [frameAux, cellM, allM]
    · intros; omega
  · refine ⟨?_, ?_, ?_, by decide, by decide, by decide⟩
    · rintro c (rfl | rfl | rfl) k hk <;> simp [frameAux, Fr.swap]
    · rintro c (rfl | rfl | rfl) x <;> cases x <;> simp [frameAux, cellM, allM, Fr.swap, MArg.swap]
    · intros; omega

theorem apart_aux : AuxApart frameAux := by
  refine ⟨?_, ?_⟩
  · rintro c (rfl | rfl | rfl | rfl | rfl | rfl) k <;> simp [frameAux]
  · rintro c (rfl | rfl | rfl) <;> simp [frameAux]

theorem demo_regular_aux : Regular (lower (vals frameAux demo)).Rm (upper (vals frameAux demo)).Rp := demo_regular

/-- `layer_add_all2` leaves its factors; a second call with other sources uses them. -/
example : ∃ s1, runDo idealInv (layerAddAll2 frameAux 0 1 (fun _ => 0) (fun _ => (.U, .U)) true true) demo = .ok s1 ∧
    ∀ s2 : Mem 2 ℚ, s2.m = s1.m → ∃ s3, runDo idealInv (layerAddAll2 frameAux 0 1 (fun _ => 0) (fun _ => (.U, .U)) true false) s2
        = .ok s3 ∧ Stacked (upper (vals frameAux s2)) ((lower (vals frameAux s2)).dim 1) (both (vals frameAux s3)) := by
  obtain ⟨L, hL⟩ := choose_all (f := frameAux) (act := fun _ => (Act.U, Act.U)) (s := demo)
  obtain ⟨q, hq⟩ := demo_regular_aux
  obtain ⟨s1, h1, h2, h3⟩ := (layerAddAll2_post (nd := 0) idealInv_exact args_aux.places args_aux.up args_aux.down (s := demo)
    (act := fun _ => (Act.U, Act.U)) (L := L) (t := 1) (tl := fun _ => 0) true true hq
    (inv13_spec (o := vals frameAux demo) hq) (by simp) (fun i hi => by omega) (fun i hi => by omega)
    (fun i hi => by omega)).elim
  refine ⟨s1, h1, fun s2 hs2 => ?_⟩
  have hin : ∀ x, MArg.res x = none → s2.m (frameAux.m x) = demo.m (frameAux.m x) := by
    intro x hx
    rw [hs2]
    refine h2.m _ (args_aux.places.mExt x) (args_aux.up.m _ (by simp) x) (args_aux.up.m _ (by simp) x)
      (args_aux.up.m _ (by simp) x)
      ?_ ?_ ?_ ?_
    · cases x <;> simp [frameAux, cellM, allM]
    · cases x <;> simp [frameAux, cellM, allM]
    · cases x <;> simp [frameAux, cellM, allM]
    · intro z w hz
      refine ⟨fun _ => ?_, fun j hj => by omega⟩
      cases z <;> simp [MArg.res] at hz <;> cases x <;> simp [MArg.res] at hx <;> simp [frameAux, cellM, allM]
  have hreg : Regular (lower (vals frameAux s2)).Rm (upper (vals frameAux s2)).Rp := by
    have e1 : (lower (vals frameAux s2)).Rm = (lower (vals frameAux demo)).Rm := hin .R23 rfl
    have e2 : (upper (vals frameAux s2)).Rp = (upper (vals frameAux demo)).Rp := hin .R21 rfl
    rw [e1, e2]; exact demo_regular_aux
  have hax := h3 apart_aux
  obtain ⟨s3, k1, k2, _⟩ := C28_layer_add_all2 idealInv_exact args_aux s2 1 (act := fun _ => (.U, .U)) (tl := fun _ => 0) false
    hreg (fun _ => ⟨apart_aux, by
      obtain ⟨a1, a2⟩ := hax
      refine ⟨_, _, ⟨?_, by rw [hs2]; exact a1.p, ?_, fun w => ?_⟩, ⟨?_, by rw [hs2]; exact a2.p, ?_, fun w => ?_⟩⟩
      · have := a1.inv; simp only [vals] at this ⊢; rw [hin .R23 rfl, hin .R21 rfl]; exact this
      · have := a1.a; simp only [vals] at this ⊢; rw [hin .T21 rfl, hs2]; exact this
      · have := a1.b w; simp only [vals] at this ⊢; rw [hin .R23 rfl, hin .T12 rfl, hs2]; exact this
      · have := a2.inv; simp only [vals, Lin.swap, MArg.swap] at this ⊢; rw [hin .R23 rfl, hin .R21 rfl]; exact this
      · have := a2.a; simp only [vals, Lin.swap, MArg.swap] at this ⊢; rw [hin .T23 rfl, hs2]; exact this
      · have := a2.b w; simp only [vals, Lin.swap, MArg.swap] at this ⊢; rw [hin .R21 rfl, hin .T32 rfl, hs2]; exact this⟩)
    (by decide) (fun _ _ _ => rfl)
  exact ⟨s3, k1, k2⟩

/-! ## C29 -/

section c29
variable {K : Type} [CommRing K] {n : Nat} {inv? : M n K → Option (M n K)}

/-- `get_total_R_T_S_U_W_V`: the layers together, or the exit of the factorisation at the first interface that is not
regular. Whatever the arrays held before. -/
theorem C29_total (hinv : Exact inv?) (nd : Nat) (l : LayerIn n K) (ls : List (LayerIn n K))
    (hc : ∀ l ∈ ls, ∀ i, i < nd → allExits (l.act i) = false) (s : Mem n K) :
    (ClearDown l.ops.layer (layersOf ls) → ∃ s', totalLoop inv? nd true (l :: ls) s = .ok s' ∧
      Joined (layersOf (l :: ls)) (both (vals frameAll s'))) ∧
    (¬ ClearDown l.ops.layer (layersOf ls) → totalLoop inv? nd true (l :: ls) s = .error .singular) := by
  rcases total_value hinv nd l ls hc s with ⟨h1, h2⟩ | ⟨h1, h2⟩
  · exact ⟨fun _ => h2, fun h => absurd h1 h⟩
  · exact ⟨fun h => absurd h h1, fun _ => h2⟩

/-- `get_total_TOA_R_S_U_V` with the surface. -/
theorem C29_toa_surface (hinv : Exact inv?) (nd : Nat) (R : M n K) (S : V n K) (Rl : Nat → M n K) (Sl : Nat → V n K)
    (al : Nat → Act) (ls : List (LayerIn n K)) (hc : RefCodes false nd ls) (s : Mem n K) :
    (ClearUp ⟨R, S⟩ (layersOf ls).reverse → ∃ s', toaSurface inv? nd R S Rl Sl al ls s = .ok s' ∧
      Resting (layersOf ls) ⟨R, S⟩ (mirrorOut (vals frameRef s'))) ∧
    (¬ ClearUp ⟨R, S⟩ (layersOf ls).reverse → toaSurface inv? nd R S Rl Sl al ls s = .error .singular) := by
  rcases toaSurface_value hinv nd R S Rl Sl al ls hc s with ⟨h1, h2⟩ | ⟨h1, h2⟩
  · exact ⟨fun _ => h2, fun h => absurd h1 h⟩
  · exact ⟨fun h => absurd h h1, fun _ => h2⟩

/-- ... without. -/
theorem C29_toa (hinv : Exact inv?) (nd : Nat) (ls : List (LayerIn n K)) (l : LayerIn n K)
    (hc : RefCodes false nd ls) (s : Mem n K) :
    (ClearUp ⟨l.ops.Rm, l.ops.Sp⟩ (layersOf ls).reverse → ∃ s', toaBare inv? nd (ls ++ [l]) s = .ok s' ∧
      Resting (layersOf (ls ++ [l])) Mirror.dark (mirrorOut (vals frameRef s'))) ∧
    (¬ ClearUp ⟨l.ops.Rm, l.ops.Sp⟩ (layersOf ls).reverse → toaBare inv? nd (ls ++ [l]) s = .error .singular) := by
  rcases toaBare_value hinv nd ls l hc s with ⟨h1, h2⟩ | ⟨h1, h2⟩
  · exact ⟨fun _ => h2, fun h => absurd h1 h⟩
  · exact ⟨fun h => absurd h h1, fun _ => h2⟩

/-- `get_total_BOA_R_S_U_V`. -/
theorem C29_boa (hinv : Exact inv?) (nd : Nat) (l : LayerIn n K) (ls : List (LayerIn n K))
    (hc : RefCodes true nd ls) (s : Mem n K) :
    (ClearUp ⟨l.ops.Rp, l.ops.Sm⟩ ((layersOf ls).map Layer.flip) → ∃ s', boaLoop inv? nd true (l :: ls) s = .ok s' ∧
      Hanging (layersOf (l :: ls)) (mirrorOut (vals frameRef s'))) ∧
    (¬ ClearUp ⟨l.ops.Rp, l.ops.Sm⟩ ((layersOf ls).map Layer.flip) →
      boaLoop inv? nd true (l :: ls) s = .error .singular) := by
  rcases boa_value hinv nd l ls hc s with ⟨h1, h2⟩ | ⟨h1, h2⟩
  · exact ⟨fun _ => h2, fun h => absurd h1 h⟩
  · exact ⟨fun h => absurd h h1, fun _ => h2⟩

/-- A call of the TOA or BOA loop that ends well ends with the answer. -/
theorem C29_toa_ok (hinv : Exact inv?) {nd : Nat} {ls : List (LayerIn n K)} {l : LayerIn n K}
    (hc : RefCodes false nd ls) {s s' : Mem n K} (h : toaBare inv? nd (ls ++ [l]) s = .ok s') :
    Resting (layersOf (ls ++ [l])) Mirror.dark (mirrorOut (vals frameRef s')) := by
  rcases toaBare_value hinv nd ls l hc s with ⟨_, s2, h2, h3⟩ | ⟨_, h2⟩
  · rw [h] at h2; cases h2; exact h3
  · rw [h] at h2; cases h2

theorem C29_boa_ok (hinv : Exact inv?) {nd : Nat} {ls : List (LayerIn n K)} {l : LayerIn n K}
    (hc : RefCodes true nd ls) {s s' : Mem n K} (h : boaLoop inv? nd true (l :: ls) s = .ok s') :
    Hanging (layersOf (l :: ls)) (mirrorOut (vals frameRef s')) := by
  rcases boa_value hinv nd l ls hc s with ⟨_, s2, h2, h3⟩ | ⟨_, h2⟩
  · rw [h] at h2; cases h2; exact h3
  · rw [h] at h2; cases h2

theorem C29_total_ok (hinv : Exact inv?) {nd : Nat} {ls : List (LayerIn n K)} {l : LayerIn n K}
    (hc : ∀ l ∈ ls, ∀ i, i < nd → allExits (l.act i) = false) {s s' : Mem n K}
    (h : totalLoop inv? nd true (l :: ls) s = .ok s') : Joined (layersOf (l :: ls)) (both (vals frameAll s')) := by
  rcases total_value hinv nd l ls hc s with ⟨_, s2, h2, h3⟩ | ⟨_, h2⟩
  · rw [h] at h2; cases h2; exact h3
  · rw [h] at h2; cases h2

/-- Bottom up, top down and all at once: where the three routines answer they answer the same. The layers are given
to the routines with codes of their own, only the operators have to agree. -/
theorem C29_same (hinv : Exact inv?) {nd nd2 nd3 : Nat} {l l2 : LayerIn n K} {ls ls2 ls3 : List (LayerIn n K)} {l3 : LayerIn n K}
    (hc : ∀ l ∈ ls, ∀ i, i < nd → allExits (l.act i) = false) (hc2 : RefCodes true nd2 ls2) (hc3 : RefCodes false nd3 ls3)
    (e2 : layersOf (l2 :: ls2) = layersOf (l :: ls)) (e3 : layersOf (ls3 ++ [l3]) = layersOf (l :: ls))
    {s s' t t' u u' : Mem n K} (h : totalLoop inv? nd true (l :: ls) s = .ok s')
    (h2 : boaLoop inv? nd2 true (l2 :: ls2) t = .ok t') (h3 : toaBare inv? nd3 (ls3 ++ [l3]) u = .ok u') :
    mirrorOut (vals frameRef t') = ⟨(both (vals frameAll s')).Rp, (both (vals frameAll s')).Sm⟩ ∧
    mirrorOut (vals frameRef u') = ⟨(both (vals frameAll s')).Rm, (both (vals frameAll s')).Sp⟩ := by
  have a := C29_total_ok hinv hc h
  have b := C29_boa_ok hinv hc2 h2
  have c := C29_toa_ok hinv hc3 h3
  rw [e2] at b
  rw [e3] at c
  exact ⟨Hanging.unique b a.hanging, Resting.unique c a.resting⟩

/-- With the surface: bottom up is the same as all layers at once and then the surface. -/
theorem C29_surface_last (hinv : Exact inv?) {nd nd2 : Nat} {l : LayerIn n K} {ls ls2 : List (LayerIn n K)}
    (hc : ∀ l ∈ ls, ∀ i, i < nd → allExits (l.act i) = false) (hc2 : RefCodes false nd2 ls2)
    (e2 : layersOf ls2 = layersOf (l :: ls)) {R : M n K} {S : V n K} {Rl : Nat → M n K} {Sl : Nat → V n K} {al : Nat → Act}
    {s s' t t' : Mem n K} (h : totalLoop inv? nd true (l :: ls) s = .ok s')
    (h2 : toaSurface inv? nd2 R S Rl Sl al ls2 t = .ok t') :
    Backed (both (vals frameAll s')) ⟨R, S⟩ (mirrorOut (vals frameRef t')) := by
  have a := C29_total_ok hinv hc h
  rcases toaSurface_value hinv nd2 R S Rl Sl al ls2 hc2 t with ⟨_, s2, k2, k3⟩ | ⟨_, k2⟩
  · rw [h2] at k2
    cases k2
    rw [e2] at k3
    exact (a.backed).1 k3
  · rw [h2] at k2; cases k2

/-- The result does not depend on what the arrays held, on the derivatives or on their number. -/
theorem C29_history (hinv : Exact inv?) {nd nd2 : Nat} {l l2 : LayerIn n K} {ls ls2 : List (LayerIn n K)}
    (hc : ∀ l ∈ ls, ∀ i, i < nd → allExits (l.act i) = false)
    (hc2 : ∀ l ∈ ls2, ∀ i, i < nd2 → allExits (l.act i) = false)
    (e : layersOf (l2 :: ls2) = layersOf (l :: ls))
    {s s' t t' : Mem n K} (h : totalLoop inv? nd true (l :: ls) s = .ok s')
    (h2 : totalLoop inv? nd2 true (l2 :: ls2) t = .ok t') : both (vals frameAll s') = both (vals frameAll t') := by
  have a := C29_total_ok hinv hc h
  have b := C29_total_ok hinv hc2 h2
  rw [e] at b
  exact Joined.unique a b

/-- However the layers are bracketed: all results are the layers together, and so are equal. -/
theorem C29_brackets {ls : List (Layer n K)} {r r2 : Layer n K} (h : Bracketed ls r) (h2 : Bracketed ls r2) :
    Joined ls r ∧ r = r2 := by
  have key : ∀ {ls : List (Layer n K)} {r}, Bracketed ls r → Joined ls r := by
    intro ls r h
    induction h with
    | one l => exact Joined.one l
    | add _ _ h ih1 ih2 => exact ih1.append ih2 h
  exact ⟨key h, Joined.unique (key h) (key h2)⟩

end c29

/-- A layer of two angles for the examples: reflection of one half with the angles exchanged, transmission one quarter,
own light. -/
def demoLayer (c : ℚ) : LayerIn 2 ℚ where
  ops := ⟨!![0, 1/2; 1/2, 0], !![1/4, 0; 0, 1/4], ![c, 2], !![0, 1/2; 1/2, 0], !![1/4, 0; 0, 1/4], ![3, c]⟩
  dops _ := ⟨0, 0, 0, 0, 0, 0⟩
  act _ := (.U, .U)

theorem demo_reg : Regular (!![0, 1/2; 1/2, 0] : Matrix (Fin 2) (Fin 2) ℚ) !![0, 1/2; 1/2, 0] := demo_regular

/-- The condition on the interfaces holds for two such layers. -/
theorem demo_clear (c d : ℚ) : ClearDown (demoLayer c).ops.layer (layersOf [demoLayer d]) :=
  ⟨demo_reg, fun _ _ => trivial⟩

example (s : Mem 2 ℚ) : ∃ s', totalLoop idealInv 3 true [demoLayer 1, demoLayer 5] s = .ok s' ∧
    Joined [(demoLayer 1).ops.layer, (demoLayer 5).ops.layer] (both (vals frameAll s')) :=
  (C29_total idealInv_exact 3 (demoLayer 1) [demoLayer 5] (by simp [demoLayer, allExits]) s).1 (demo_clear 1 5)

example (s : Mem 2 ℚ) : ∃ s', boaLoop idealInv 3 true [demoLayer 1, demoLayer 5] s = .ok s' ∧
    Hanging [(demoLayer 1).ops.layer, (demoLayer 5).ops.layer] (mirrorOut (vals frameRef s')) :=
  (C29_boa idealInv_exact 3 (demoLayer 1) [demoLayer 5] (by simp [RefCodes, demoLayer, refHas, flip]) s).1
    ⟨demo_reg, fun _ _ => trivial⟩

example (s : Mem 2 ℚ) : ∃ s', toaBare idealInv 3 ([demoLayer 1] ++ [demoLayer 5]) s = .ok s' ∧
    Resting [(demoLayer 1).ops.layer, (demoLayer 5).ops.layer] Mirror.dark (mirrorOut (vals frameRef s')) :=
  (C29_toa idealInv_exact 3 [demoLayer 1] (demoLayer 5) (by simp [RefCodes, demoLayer, refHas, flip]) s).1
    ⟨demo_reg, fun _ _ => trivial⟩

example (s : Mem 2 ℚ) : ∃ s', toaSurface idealInv 1 !![0, 1/2; 1/2, 0] ![1, 1] (fun _ => 0) (fun _ => 0) (fun _ => .U)
      [demoLayer 1] s = .ok s' ∧
    Resting [(demoLayer 1).ops.layer] ⟨!![0, 1/2; 1/2, 0], ![1, 1]⟩ (mirrorOut (vals frameRef s')) :=
  (C29_toa_surface idealInv_exact 1 _ _ _ _ _ [demoLayer 1] (by simp [RefCodes, demoLayer, refHas, flip]) s).1
    ⟨demo_reg, fun _ _ => trivial⟩

/-! ## C30 -/

section c30
variable {n : Nat} {x : ℝ} {inv? : M n ℝ → Option (M n ℝ)} {F : Type} [Zero F] [DecidableEq F]

/-- One call of `layer_add_all` for the eleven codes it has: the arrays of derivative `j` hold the derivative of the two
layers together, whatever the other derivatives are. `HoldsAll`: the arrays of active parts hold the derivatives of the two
layers, inactive parts have derivative zero and their arrays hold anything. -/
theorem C30_layer_add_all_partial (hinv : Exact inv?) {f : Fr} {nd : Nat} (ha : Args f nd) {s s' : Mem n ℝ}
    {act : Nat → Act × Act} (hs : ∀ i, i < nd → allExits (act i) = false)
    (hrun : runDo inv? (layerAddAll f nd 1 (fun _ => 0) act true) s = .ok s')
    {j : Nat} (hj : j < nd) (hsj : allHas (act j).1 (act j).2 = true)
    {top bot r : ℝ → Layer n ℝ} {top' bot' : Layer n ℝ}
    (htop : top x = upper (vals f s)) (hbot : bot x = lower (vals f s))
    (ht : LDeriv top top' x) (hb : LDeriv bot bot' x)
    (hh : HoldsAll f j (act j).1 (act j).2 (linOf top' bot') s) (hl : Lit (act j).1 (act j).2 (vals f s))
    (hr : ∀ᶠ y in 𝓝 x, Stacked (top y) (bot y) (r y)) :
    ∃ r', LDeriv r r' x ∧ Kept f j ((act j).1.join (act j).2) r' s' :=
  layerAddAll_deriv hinv ha.places ha.up ha.down hs hrun hj hsj htop hbot ht hb hh hl hr

/-- One call of `layer_add_ref`. -/
theorem C30_layer_add_ref_partial (hinv : Exact inv?) {f : Fr} {nd : Nat} (hf : SepF f) (h : SepL f nd) {s s' : Mem n ℝ}
    {act : Nat → Act × Act} {flag : Bool}
    (hs : ∀ i, i < nd → refHas flag (flip flag (act i)).1 (flip flag (act i)).2 = true)
    (hrun : runDo inv? (layerAddRef f nd 1 (fun _ => 0) act flag true) s = .ok s')
    {j : Nat} (hj : j < nd) {top : ℝ → Layer n ℝ} {bot r : ℝ → Mirror n ℝ} {top' : Layer n ℝ} {bot' : Mirror n ℝ}
    (htop : top x = upper (vals f s)) (hbot : bot x = mirror (vals f s))
    (ht : LDeriv top top' x) (hb : RDeriv bot bot' x)
    (hh : HoldsM f j (flip flag (act j)).1 (flip flag (act j)).2 top' bot' s)
    (hl : Lit (flip flag (act j)).1 (flip flag (act j)).2 (vals f s))
    (hr : ∀ᶠ y in 𝓝 x, Backed (top y) (bot y) (r y)) :
    ∃ r', RDeriv r r' x ∧ KeptM f j ((flip flag (act j)).1.join (flip flag (act j)).2) r' s' :=
  layerAddRef_deriv hinv hf h hs hrun hj htop hbot ht hb hh hl hr

/-- The layers depend on one number: `cs` are the curves, `From` says that the operators are their values and the
derivatives number `j` their derivatives, and that the tables `lay`, `src` are right in saying what is zero. -/
def Varied (x : ℝ) (j : Nat) (lay src : Nat → Nat → Bool) (ls : List (LayerIn n ℝ)) (cs : List (ℝ → Layer n ℝ)) : Prop :=
  ls.length = cs.length ∧ ∀ i (h : i < ls.length) (h' : i < cs.length), (cs[i]) x = ls[i].ops.layer ∧
    LDeriv cs[i] (ls[i].dops j).layer x ∧ Quiet (.ofBits (lay i j) (src i j)) (ls[i].dops j).layer

theorem Varied.from {j : Nat} {lay src : Nat → Nat → Bool} {ls : List (LayerIn n ℝ)} {cs : List (ℝ → Layer n ℝ)}
    (h : Varied x j lay src ls cs) (al : LayerIn n ℝ → Act)
    (ha : ∀ i (h : i < ls.length), al ls[i] = .ofBits (lay i j) (src i j)) : List.Forall₂ (From x j al) ls cs := by
  rw [List.forall₂_iff_get]
  refine ⟨h.1, fun i h1 h2 => ?_⟩
  obtain ⟨a, b, c⟩ := h.2 i h1 h2
  exact ⟨a, b, by rw [List.get_eq_getElem, ha i h1]; exact c⟩

theorem lit_list {lay src : Nat → Nat → Bool} {ls : List (LayerIn n ℝ)} {j : Nat} (al : LayerIn n ℝ → Act)
    (ha : ∀ i (h : i < ls.length), al ls[i] = .ofBits (lay i j) (src i j))
    (hl : (∀ i, lay i j = true → src i j = true) ∨ (∀ l ∈ ls, l.ops.Sm = 0 ∧ l.ops.Sp = 0)) :
    LitLayers j al ls := by
  rcases hl with hl | hl
  · left
    intro l hm
    obtain ⟨i, hi, rfl⟩ := List.getElem_of_mem hm
    rw [ha i hi]
    simpa using hl i
  · exact .inr hl

/-- `get_total_R_T_S_U_W_V` with the codes of `derivs.adding_down` (`flag`: Fourier term 0), no thermal emission: the
derivative arrays hold the derivatives of all layers together. Either there is sunlight, or the layers have no sources
at all. -/
theorem C30_total_partial (hinv : Exact inv?) (p : LinIn F) (flag : Bool) (hth : p.thermal = false)
    {nd j : Nat} (hj : j < nd) {l : LayerIn n ℝ} {ls : List (LayerIn n ℝ)} {cs : List (ℝ → Layer n ℝ)}
    (hrow : RowsDown (tables p flag).layers (tables p flag).sources 0 (l :: ls))
    (hv : Varied x j (tables p flag).layers (tables p flag).sources (l :: ls) cs)
    (hsrc : p.solar = true ∨ ∀ m ∈ l :: ls, m.ops.Sm = 0 ∧ m.ops.Sp = 0)
    {s s' : Mem n ℝ} (hrun : totalLoop inv? nd true (l :: ls) s = .ok s') :
    ∃ R R', (∀ᶠ y in 𝓝 x, Joined (cs.map fun c => c y) (R y)) ∧ LDeriv R R' x ∧
      Kept frameAll j (.ofBits (anyBelow (fun i => (tables p flag).layers i j) (ls.length + 1))
        (anyBelow (fun i => (tables p flag).sources i j) (ls.length + 1))) R' s' := by
  have hrow' : ∀ m ∈ ls, ∀ i, ∃ k, m.act i = decode ((tables p flag).addingDown k i) := by
    intro m hm i
    obtain ⟨k, hk, rfl⟩ := List.getElem_of_mem hm
    exact ⟨_, hrow.cons.2 k hk i⟩
  have ha : ∀ i (h : i < (l :: ls).length), ((l :: ls)[i].act j).2 =
      .ofBits ((tables p flag).layers i j) ((tables p flag).sources i j) := by
    intro i h
    rw [hrow i h j, addingDown, decode_down, Nat.zero_add]
  have hch := chainDown_rows j hrow
  obtain ⟨R, R', g1, g2, g3⟩ := total_deriv hinv hj (hv.from (fun l => (l.act j).2) ha)
    (fun m hm i _ => by obtain ⟨k, e⟩ := hrow' m hm i; rw [e]; exact (down_codes p flag k i).1)
    (fun m hm => by obtain ⟨k, e⟩ := hrow' m hm j; rw [e]; exact solar_codes p flag hth k j)
    hch.1
    (lit_list _ ha (by
      rcases hsrc with h | h
      · exact .inl fun i => lit_rows p flag (.inl h) i j
      · exact .inr h)) hrun
  refine ⟨R, R', g1, g2, ?_⟩
  have := hch.2
  rw [Nat.zero_add, List.length_cons] at this
  rw [← this]
  exact g3

/-- ... with thermal emission: right for every derivative that never has the code `S_U`. -/
theorem C30_total_thermal_partial (hinv : Exact inv?) (p : LinIn F) (flag : Bool) (hth : p.solar = true ∨ p.thermal = true)
    {nd j : Nat} (hj : j < nd) {l : LayerIn n ℝ} {ls : List (LayerIn n ℝ)} {cs : List (ℝ → Layer n ℝ)}
    (hrow : RowsDown (tables p flag).layers (tables p flag).sources 0 (l :: ls))
    (hv : Varied x j (tables p flag).layers (tables p flag).sources (l :: ls) cs)
    (hSU : ∀ i, 0 < i → i ≤ ls.length → (tables p flag).addingDown i j ≠ 4)
    {s s' : Mem n ℝ} (hrun : totalLoop inv? nd true (l :: ls) s = .ok s') :
    ∃ R R', (∀ᶠ y in 𝓝 x, Joined (cs.map fun c => c y) (R y)) ∧ LDeriv R R' x ∧
      Kept frameAll j (.ofBits (anyBelow (fun i => (tables p flag).layers i j) (ls.length + 1))
        (anyBelow (fun i => (tables p flag).sources i j) (ls.length + 1))) R' s' := by
  have hrow' : ∀ m ∈ ls, ∀ i, ∃ k, 0 < k ∧ k ≤ ls.length ∧ m.act i = decode ((tables p flag).addingDown k i) := by
    intro m hm i
    obtain ⟨k, hk, rfl⟩ := List.getElem_of_mem hm
    exact ⟨0 + 1 + k, by omega, by omega, hrow.cons.2 k hk i⟩
  have ha : ∀ i (h : i < (l :: ls).length), ((l :: ls)[i].act j).2 =
      .ofBits ((tables p flag).layers i j) ((tables p flag).sources i j) := by
    intro i h
    rw [hrow i h j, addingDown, decode_down, Nat.zero_add]
  have hch := chainDown_rows j hrow
  obtain ⟨R, R', g1, g2, g3⟩ := total_deriv hinv hj (hv.from (fun l => (l.act j).2) ha)
    (fun m hm i _ => by obtain ⟨k, _, _, e⟩ := hrow' m hm i; rw [e]; exact (down_codes p flag k i).1)
    (fun m hm => by
      obtain ⟨k, k1, k2, e⟩ := hrow' m hm j
      rw [e]
      have h1 := hSU k k1 k2
      have h2 := lit_rows p flag hth k j
      have h3 : anyBelow (fun i => (tables p flag).layers i j) k = true →
          anyBelow (fun i => (tables p flag).sources i j) k = true := by
        intro h
        obtain ⟨i, a, b⟩ := anyBelow_true.1 h
        exact anyBelow_true.2 ⟨i, a, lit_rows p flag hth i j b⟩
      simp only [tables, addingDown] at h1 h2 h3 ⊢
      generalize anyBelow (fun i => layers p flag i j) k = a at *
      generalize anyBelow (fun i => sources p (layers p flag) i j) k = b at *
      generalize layers p flag k j = c at *
      generalize sources p (layers p flag) k j = d at *
      revert a b c d
      decide)
    hch.1
    (lit_list _ ha (.inl fun i => lit_rows p flag hth i j)) hrun
  refine ⟨R, R', g1, g2, ?_⟩
  have := hch.2
  rw [Nat.zero_add, List.length_cons] at this
  rw [← this]
  exact g3

/-- `get_total_TOA_R_S_U_V` with a surface, the codes of `derivs.adding_up`, and any sources. -/
theorem C30_toa_partial (hinv : Exact inv?) (p : LinIn F) (flag : Bool)
    {nd j : Nat} (hj : j < nd) {ls : List (LayerIn n ℝ)} {cs : List (ℝ → Layer n ℝ)} (hlen : ls.length = p.nLayers)
    (hrow : RowsUp p.nLayers (tables p flag).layers (tables p flag).sources ls)
    (hv : Varied x j (tables p flag).layers (tables p flag).sources ls cs)
    {Rs : M n ℝ} {Ss : V n ℝ} {Rl : Nat → M n ℝ} {Sl : Nat → V n ℝ} {al : Nat → Act}
    (hal : al j = .ofBits ((tables p flag).layers p.nLayers j) ((tables p flag).sources p.nLayers j))
    {base : ℝ → Mirror n ℝ} (hb : base x = ⟨Rs, Ss⟩) (hbd : RDeriv base ⟨Rl j, Sl j⟩ x)
    (hb0 : (tables p flag).layers p.nLayers j = false → Rl j = 0)
    (hb1 : (tables p flag).sources p.nLayers j = false → Sl j = 0)
    (hsrc : p.solar = true ∨ p.thermal = true ∨ (Ss = 0 ∧ ∀ m ∈ ls, m.ops.Sm = 0 ∧ m.ops.Sp = 0))
    {s s' : Mem n ℝ} (hrun : toaSurface inv? nd Rs Ss Rl Sl al ls s = .ok s') :
    ∃ R R', (∀ᶠ y in 𝓝 x, Resting (cs.map fun c => c y) (base y) (R y)) ∧ RDeriv R R' x ∧
      KeptM frameRef j (.ofBits (anyBelow (fun i => (tables p flag).layers (p.nLayers - i) j) (p.nLayers + 1))
        (anyBelow (fun i => (tables p flag).sources (p.nLayers - i) j) (p.nLayers + 1))) R' s' := by
  have ha : ∀ i (h : i < ls.length), (ls[i].act j).1 =
      .ofBits ((tables p flag).layers i j) ((tables p flag).sources i j) := by
    intro i h
    rw [hrow i h j, addingUp, decode_up]
  have hch := chainUp_rows j p.nLayers (ls := ls.reverse) (k := 0) (lay := (tables p flag).layers)
    (src := (tables p flag).sources) (by simp [hlen]) (fun i hi => by
      rw [List.getElem_reverse, hrow _ _ j]
      simp [hlen])
  have e0 : Act.ofBits (anyBelow (fun i => (tables p flag).layers (p.nLayers - i) j) (0 + 1))
      (anyBelow (fun i => (tables p flag).sources (p.nLayers - i) j) (0 + 1)) = al j := by
    rw [hal]; simp [anyBelow]
  rw [e0] at hch
  obtain ⟨R, R', g1, g2, g3⟩ := toaSurface_deriv hinv hj (hv.from (fun l => (l.act j).1) ha)
    (fun m hm i _ => by
      obtain ⟨k, hk, rfl⟩ := List.getElem_of_mem hm
      rw [hrow k hk i]
      exact up_codes p flag k i false)
    hb hbd (by rw [hal]; simpa using hb0) (by rw [hal]; simpa using hb1) hch.1
    (by
      rcases hsrc with h | h | h
      · left
        refine ⟨by rw [hal]; simpa using lit_rows p flag (.inl h) p.nLayers j, fun m hm => ?_⟩
        obtain ⟨k, hk, rfl⟩ := List.getElem_of_mem hm
        rw [ha k hk]
        simpa using lit_rows p flag (.inl h) k j
      · left
        refine ⟨by rw [hal]; simpa using lit_rows p flag (.inr h) p.nLayers j, fun m hm => ?_⟩
        obtain ⟨k, hk, rfl⟩ := List.getElem_of_mem hm
        rw [ha k hk]
        simpa using lit_rows p flag (.inr h) k j
      · exact .inr h) hrun
  refine ⟨R, R', g1, g2, ?_⟩
  have := hch.2
  simp only [List.length_reverse, hlen, Nat.zero_add] at this
  rw [← this]
  exact g3

/-- `get_total_BOA_R_S_U_V` with the codes of `derivs.adding_down`, and any sources. -/
theorem C30_boa_partial (hinv : Exact inv?) (p : LinIn F) (flag : Bool)
    {nd j : Nat} (hj : j < nd) {l : LayerIn n ℝ} {ls : List (LayerIn n ℝ)} {cs : List (ℝ → Layer n ℝ)}
    (hrow : RowsDown (tables p flag).layers (tables p flag).sources 0 (l :: ls))
    (hv : Varied x j (tables p flag).layers (tables p flag).sources (l :: ls) cs)
    (hsrc : p.solar = true ∨ p.thermal = true ∨ ∀ m ∈ l :: ls, m.ops.Sm = 0 ∧ m.ops.Sp = 0)
    {s s' : Mem n ℝ} (hrun : boaLoop inv? nd true (l :: ls) s = .ok s') :
    ∃ R R', (∀ᶠ y in 𝓝 x, Hanging (cs.map fun c => c y) (R y)) ∧ RDeriv R R' x ∧
      KeptM frameRef j (.ofBits (anyBelow (fun i => (tables p flag).layers i j) (ls.length + 1))
        (anyBelow (fun i => (tables p flag).sources i j) (ls.length + 1))) R' s' := by
  have ha : ∀ i (h : i < (l :: ls).length), ((l :: ls)[i].act j).2 =
      .ofBits ((tables p flag).layers i j) ((tables p flag).sources i j) := by
    intro i h
    rw [hrow i h j, addingDown, decode_down, Nat.zero_add]
  have hch := chainDown_rows j hrow.cons.2
  have e0 : Act.ofBits (anyBelow (fun i => (tables p flag).layers i j) (0 + 1))
      (anyBelow (fun i => (tables p flag).sources i j) (0 + 1)) = (l.act j).2 := by
    rw [show (l.act j).2 = _ from ha 0 (by simp)]; simp [anyBelow]
  rw [e0] at hch
  obtain ⟨R, R', g1, g2, g3⟩ := boa_deriv hinv hj (hv.from (fun l => (l.act j).2) ha)
    (fun m hm i _ => by
      obtain ⟨k, hk, rfl⟩ := List.getElem_of_mem hm
      rw [hrow.cons.2 k hk i]
      exact (down_codes p flag _ i).2 true)
    hch.1
    (lit_list _ ha (by
      rcases hsrc with h | h | h
      · exact .inl fun i => lit_rows p flag (.inl h) i j
      · exact .inl fun i => lit_rows p flag (.inr h) i j
      · exact .inr h)) hrun
  refine ⟨R, R', g1, g2, ?_⟩
  have := hch.2
  rw [show 0 + 1 + ls.length = ls.length + 1 by omega] at this
  rw [← this]
  exact g3

end c30

/-! ### The hypotheses can be met -/

/-- The matrix of one number. -/
noncomputable def sc (a : ℝ) : M 1 ℝ := Matrix.of fun _ _ => a

theorem sc_mul (a b : ℝ) : sc a * sc b = sc (a * b) := by
  ext i j; fin_cases i; fin_cases j; simp [sc, Matrix.mul_apply]
theorem sc_sub (a b : ℝ) : sc a - sc b = sc (a - b) := by
  ext i j; simp [sc]
theorem sc_add (a b : ℝ) : sc a + sc b = sc (a + b) := by
  ext i j; simp [sc]
theorem sc_one : (1 : M 1 ℝ) = sc 1 := by
  ext i j; fin_cases i; fin_cases j; simp [sc]
theorem sc_zero : (0 : M 1 ℝ) = sc 0 := by
  ext i j; simp [sc]
theorem sc_vec (a : ℝ) (v : Fin 1 → ℝ) : (sc a).mulVec v = fun _ => a * v 0 := by
  ext i; fin_cases i; simp [sc, Matrix.mulVec, dotProduct]

/-- Sunlight, two layers, one derivative: by the optical thickness of the first layer. -/
def demoLin : LinIn ℚ where
  nLayers := 2
  nDerivs := 1
  nElem := 1
  nCoefLayer _ := 1
  nKernels := 0
  nParams _ := 0
  needsFourier := false
  solar := true
  thermal := false
  ltauL i j := if i = 0 ∧ j = 0 then 1 else 0
  omegaL _ _ := 0
  coefL _ _ _ _ := 0
  ampfacL _ _ := 0
  paramsL _ _ _ := 0
  levelsBL _ _ := 0
  surfaceBL _ := 0
  isoTopL _ := 0
  isoBotL _ := 0

/-- The first layer: reflection and source change. The second: only the source does. -/
noncomputable def demoCurve0 (y : ℝ) : Layer 1 ℝ :=
  ⟨sc (y), sc (1/2), fun _ => y, sc (y), sc (1/2), fun _ => y⟩
noncomputable def demoCurve1 (y : ℝ) : Layer 1 ℝ :=
  ⟨sc (1/2), sc (1/2), fun _ => y, sc (1/2), sc (1/2), fun _ => y⟩

noncomputable def demoRow0 : LayerIn 1 ℝ where
  ops := ⟨sc (1), sc (1/2), fun _ => 1, sc (1), sc (1/2), fun _ => 1⟩
  dops _ := ⟨sc (1), 0, fun _ => 1, sc (1), 0, fun _ => 1⟩
  act j := decode ((tables demoLin true).addingDown 0 j)
noncomputable def demoRow1 : LayerIn 1 ℝ where
  ops := ⟨sc (1/2), sc (1/2), fun _ => 1, sc (1/2), sc (1/2), fun _ => 1⟩
  dops _ := ⟨0, 0, fun _ => 1, 0, 0, fun _ => 1⟩
  act j := decode ((tables demoLin true).addingDown 1 j)

theorem demo_varied : Varied 1 0 (tables demoLin true).layers (tables demoLin true).sources [demoRow0, demoRow1]
    [demoCurve0, demoCurve1] := by
  have l0 : (tables demoLin true).layers 0 0 = true := by decide
  have s0 : (tables demoLin true).sources 0 0 = true := by decide
  have l1 : (tables demoLin true).layers 1 0 = false := by decide
  have s1 : (tables demoLin true).sources 1 0 = true := by decide
  refine ⟨rfl, fun i h h' => ?_⟩
  match i, h with
  | 0, _ =>
      refine ⟨rfl, ⟨fun _ _ => hasDerivAt_id _, fun _ _ => hasDerivAt_const _ _, fun _ => hasDerivAt_id _,
        fun _ _ => hasDerivAt_id _, fun _ _ => hasDerivAt_const _ _, fun _ => hasDerivAt_id _⟩, ?_⟩
      rw [l0, s0]
      exact ⟨by simp, by simp⟩
  | 1, _ =>
      refine ⟨rfl, ⟨fun _ _ => hasDerivAt_const _ _, fun _ _ => hasDerivAt_const _ _, fun _ => hasDerivAt_id _,
        fun _ _ => hasDerivAt_const _ _, fun _ _ => hasDerivAt_const _ _, fun _ => hasDerivAt_id _⟩, ?_⟩
      rw [l1, s1]
      refine ⟨fun _ => ⟨rfl, rfl, rfl, rfl⟩, by simp⟩

theorem demo_rows : RowsDown (tables demoLin true).layers (tables demoLin true).sources 0 [demoRow0, demoRow1] := by
  intro i h j
  match i, h with
  | 0, _ => rfl
  | 1, _ => rfl

theorem demo_clearDown : ClearDown demoRow0.ops.layer (layersOf [demoRow1]) := by
  refine ⟨⟨sc (2), ?_⟩, fun _ _ => trivial⟩
  show sc 2 * (1 - sc (1/2) * sc 1) = 1
  rw [sc_one, sc_mul, sc_sub, sc_mul]
  norm_num

theorem demo_rows_exit : ∀ l ∈ [demoRow1], ∀ i, i < 1 → allExits (l.act i) = false := by
  intro l hl i _
  simp only [List.mem_singleton] at hl
  subst hl
  exact (down_codes demoLin true 1 i).1

/-- `C30_total_partial` and the theorem per call apply. -/
example (s : Mem 1 ℝ) : ∃ s', totalLoop idealInv 1 true [demoRow0, demoRow1] s = .ok s' ∧
    ∃ R R', (∀ᶠ y in 𝓝 (1 : ℝ), Joined [demoCurve0 y, demoCurve1 y] (R y)) ∧ LDeriv R R' 1 ∧
      Kept frameAll 0 .B R' s' := by
  obtain ⟨s', h1, _⟩ := (C29_total idealInv_exact 1 demoRow0 [demoRow1] demo_rows_exit s).1 demo_clearDown
  refine ⟨s', h1, ?_⟩
  exact C30_total_partial idealInv_exact demoLin true rfl (by decide) demo_rows demo_varied (.inl rfl) h1

example (s : Mem 1 ℝ) (h : RefCodes true 1 [demoRow1]) : ∃ s', boaLoop idealInv 1 true [demoRow0, demoRow1] s = .ok s' ∧
    ∃ R R', (∀ᶠ y in 𝓝 (1 : ℝ), Hanging [demoCurve0 y, demoCurve1 y] (R y)) ∧ RDeriv R R' 1 ∧
      KeptM frameRef 0 .B R' s' := by
  obtain ⟨s', h1, _⟩ := (C29_boa idealInv_exact 1 demoRow0 [demoRow1] h s).1
    ⟨by
      refine ⟨sc (2), ?_⟩
      show sc 2 * (1 - sc 1 * sc (1/2)) = 1
      rw [sc_one, sc_mul, sc_sub, sc_mul]
      norm_num, fun _ _ => trivial⟩
  refine ⟨s', h1, ?_⟩
  exact C30_boa_partial idealInv_exact demoLin true (by decide) demo_rows demo_varied (.inl rfl) h1

example : RefCodes true 1 [demoRow1] := by
  intro l hl i _
  simp only [List.mem_singleton] at hl
  subst hl
  exact (down_codes demoLin true 1 i).2 true

noncomputable def demoUp0 : LayerIn 1 ℝ := { demoRow0 with act := fun j => decode ((tables demoLin true).addingUp 0 j) }
noncomputable def demoUp1 : LayerIn 1 ℝ := { demoRow1 with act := fun j => decode ((tables demoLin true).addingUp 1 j) }

theorem demo_variedUp : Varied 1 0 (tables demoLin true).layers (tables demoLin true).sources [demoUp0, demoUp1]
    [demoCurve0, demoCurve1] := by
  refine ⟨rfl, fun i h h' => ?_⟩
  match i, h, h' with
  | 0, _, _ =>
      obtain ⟨a, b, c, d⟩ := demo_varied.2 0 (by decide) (by decide)
      exact ⟨a, b, c, d⟩
  | 1, _, _ =>
      obtain ⟨a, b, c, d⟩ := demo_varied.2 1 (by decide) (by decide)
      exact ⟨a, b, c, d⟩

/-- A surface without reflection that lights up with the beam. -/
example (s : Mem 1 ℝ) : ∃ s', toaSurface idealInv 1 0 (fun _ => 1) (fun _ => 0) (fun _ _ => 1) (fun _ => .S)
      [demoUp0, demoUp1] s = .ok s' ∧
    ∃ R R', (∀ᶠ y in 𝓝 (1 : ℝ), Resting [demoCurve0 y, demoCurve1 y] ⟨0, fun _ => y⟩ (R y)) ∧ RDeriv R R' 1 ∧
      KeptM frameRef 0 .B R' s' := by
  have hrow : RowsUp 2 (tables demoLin true).layers (tables demoLin true).sources [demoUp0, demoUp1] := by
    intro i h j
    match i, h with
    | 0, _ => rfl
    | 1, _ => rfl
  have hc : RefCodes false 1 [demoUp0, demoUp1] := by
    intro l hl i _
    obtain ⟨k, hk, rfl⟩ := List.getElem_of_mem hl
    rw [hrow k hk i]
    exact up_codes demoLin true k i false
  have hcl : ClearUp ⟨(0 : M 1 ℝ), fun _ => 1⟩ (layersOf [demoUp0, demoUp1]).reverse := by
    refine ⟨⟨1, by simp⟩, fun m hm => ⟨?_, fun _ _ => trivial⟩⟩
    -- the mirror below the first layer has reflection one half
    have e : m = ⟨sc (1/2), fun _ => 3/2⟩ := by
      refine Backed.unique hm ?_
      have := backed (o := linOf (n := 1) (K := ℝ) demoUp1.ops.layer ⟨0, 0, 0, 0, 0, fun _ => 1⟩) (q := 1) (by simp [linOf]) 1
      rw [Mirror.dim_one] at this
      intro dn up
      refine Iff.trans ?_ (this dn up)
      refine iff_of_eq (congrArg (fun r : Mirror 1 ℝ => r.Obeys dn up) ?_)
      simp only [oR13, oS31, linOf, demoUp1, demoRow1, Ops.layer, oC31]
      congr 1
      · rw [Matrix.zero_mul, Matrix.mul_zero, add_zero]
      · funext i
        simp [sc_vec]
        norm_num
    rw [e]
    refine ⟨sc (2), ?_⟩
    show sc 2 * (1 - sc (1/2) * sc 1) = 1
    rw [sc_one, sc_mul, sc_sub, sc_mul]
    norm_num
  obtain ⟨s', h1, _⟩ := (C29_toa_surface idealInv_exact 1 (0 : M 1 ℝ) (fun _ => 1) (fun _ => 0) (fun _ _ => 1)
    (fun _ => .S) [demoUp0, demoUp1] hc s).1 hcl
  refine ⟨s', h1, ?_⟩
  have hv := demo_variedUp
  have s2 : (tables demoLin true).sources 2 0 = true := by decide
  have hB : Act.ofBits (anyBelow (fun i => (tables demoLin true).layers (demoLin.nLayers - i) 0) (demoLin.nLayers + 1))
      (anyBelow (fun i => (tables demoLin true).sources (demoLin.nLayers - i) 0) (demoLin.nLayers + 1)) = .B := by
    decide +kernel
  have hd : RDeriv (fun y => (⟨0, fun _ => y⟩ : Mirror 1 ℝ)) ⟨0, fun _ => 1⟩ 1 :=
    ⟨fun _ _ => hasDerivAt_const _ _, fun _ => hasDerivAt_id _⟩
  have hA : Act.S = .ofBits ((tables demoLin true).layers demoLin.nLayers 0)
      ((tables demoLin true).sources demoLin.nLayers 0) := by decide +kernel
  obtain ⟨R, R', a, b, c⟩ := C30_toa_partial (x := 1) (al := fun _ => .S) (Rl := fun _ => 0) (Sl := fun _ _ => 1)
    idealInv_exact demoLin true (nd := 1) (j := 0) (by decide) rfl hrow hv hA
    (base := fun y => ⟨0, fun _ => y⟩) rfl hd (fun _ => rfl)
    (fun h => by rw [show demoLin.nLayers = 2 from rfl, s2] at h; cases h) (.inl rfl) h1
  exact ⟨R, R', a, b, hB ▸ c⟩

/-! ### The code violates C30: `S_U` -/

section violated

/-- The vector array a call writes. -/
def tgtV {K : Type} : Instr K → Option VCell
  | .getrsV _ b => some b
  | .mulV _ _ c | .addV _ _ c | .scaleV _ _ c | .copyV c _ | .zeroV c => some c
  | _ => none

def tgtsV {K : Type} : List (Do K) → List (Option VCell)
  | [] => []
  | .calls p :: ds => p.map tgtV ++ tgtsV ds
  | _ :: ds => tgtsV ds

variable {K : Type} [CommRing K] {n : Nat} {inv? : M n K → Option (M n K)}

theorem step_keepV {i : Instr K} {c : VCell} (h : tgtV i ≠ some c) {s s' : Mem n K} (e : step inv? s i = .ok s') :
    s'.v c = s.v c := by
  cases i <;> simp only [step, tgtV, ne_eq, Option.some.injEq, reduceCtorEq, not_false_eq_true] at e h <;>
    (try split at e) <;> (try split at e) <;> (try cases e) <;> (try rfl) <;>
    simp [Mem.setV, Ne.symm h, Mem.setM]

theorem run_keepV {p : List (Instr K)} {c : VCell} (h : some c ∉ p.map tgtV) {s s' : Mem n K} (e : run inv? p s = .ok s') :
    s'.v c = s.v c := by
  induction p generalizing s with
  | nil => cases e; rfl
  | cons i p ih =>
      simp only [List.map_cons, List.mem_cons, not_or] at h
      simp only [run] at e
      split at e
      · rename_i s1 e1
        rw [ih h.2 e, step_keepV (Ne.symm h.1) e1]
      · cases e

theorem runDo_keepV {ds : List (Do K)} {c : VCell} (h : some c ∉ tgtsV ds) {s s' : Mem n K} (e : runDo inv? ds s = .ok s') :
    s'.v c = s.v c := by
  induction ds generalizing s with
  | nil => cases e; rfl
  | cons d ds ih =>
      cases d with
      | calls p =>
          simp only [tgtsV, List.mem_append, not_or] at h
          simp only [runDo] at e
          split at e
          · rename_i s1 e1
            rw [ih h.2 e, run_keepV h.1 e1]
          · cases e
      | nothing => exact ih h e
      | exit => cases e

/-- With the code `S_U` (the sources of the upper layer vary, the lower layer does not) `layer_add_all` leaves the
derivatives of the sources as they were, in `get_total_R_T_S_U_W_V` those of the layers above. -/
theorem C30_SU_left_alone {s s' : Mem n K}
    (h : runDo inv? (layerAddAll frameAll 1 1 (fun _ => 0) (fun _ => (.S, .U)) true) s = .ok s') :
    s'.v (frameAll.vl 0 .S13) = s.v (frameAll.vl 0 .S12) ∧ s'.v (frameAll.vl 0 .S31) = s.v (frameAll.vl 0 .S21) :=
  ⟨runDo_keepV (by
      simp [layerAddAll, derivLoop, allDo, allDoDown, tgtsV, tgtV, factors, sourceUp, sourceDown, preD, tailUp, tailRef,
        tailDown, frameAll, cellV, allV, v1, v2, C, Fr.swap, VArg.swap]) h,
    runDo_keepV (by
      simp [layerAddAll, derivLoop, allDo, allDoDown, tgtsV, tgtV, factors, sourceUp, sourceDown, preD, tailUp, tailRef,
        tailDown, frameAll, cellV, allV, v1, v2, C, Fr.swap, VArg.swap]) h⟩

end violated

/-- Thermal emission, two layers, one derivative: by the temperature at the top. -/
def thermalLin : LinIn ℚ where
  nLayers := 2
  nDerivs := 1
  nElem := 1
  nCoefLayer _ := 1
  nKernels := 0
  nParams _ := 0
  needsFourier := false
  solar := false
  thermal := true
  ltauL _ _ := 0
  omegaL _ _ := 0
  coefL _ _ _ _ := 0
  ampfacL _ _ := 0
  paramsL _ _ _ := 0
  levelsBL i j := if i = 0 ∧ j = 0 then 1 else 0
  surfaceBL _ := 0
  isoTopL _ := 0
  isoBotL _ := 0

/-- The first layer emits `y` to both sides, both transmit one half and reflect nothing. -/
noncomputable def warm (y : ℝ) : Layer 1 ℝ := ⟨0, sc (1/2), fun _ => y, 0, sc (1/2), fun _ => y⟩
noncomputable def cold (_ : ℝ) : Layer 1 ℝ := ⟨0, sc (1/2), 0, 0, sc (1/2), 0⟩

noncomputable def warmRow : LayerIn 1 ℝ where
  ops := ⟨0, sc (1/2), fun _ => 1, 0, sc (1/2), fun _ => 1⟩
  dops _ := ⟨0, 0, fun _ => 1, 0, 0, fun _ => 1⟩
  act j := decode ((tables thermalLin true).addingDown 0 j)
noncomputable def coldRow : LayerIn 1 ℝ where
  ops := ⟨0, sc (1/2), 0, 0, sc (1/2), 0⟩
  dops _ := ⟨0, 0, 0, 0, 0, 0⟩
  act j := decode ((tables thermalLin true).addingDown 1 j)

/-- The code violates C30. The tables of a run with thermal emission give `S_U` for a layer below the level whose
temperature varies. Everything that `C30_total_partial` asks for except the absence of thermal emission holds, the call ends
well, and the derivative of the light downward at the bottom, one half, is not what the array holds. -/
theorem C30_violated_SU : ∃ (p : LinIn ℚ) (l l1 : LayerIn 1 ℝ) (cs : List (ℝ → Layer 1 ℝ)) (x : ℝ),
    RowsDown (tables p true).layers (tables p true).sources 0 [l, l1] ∧
    Varied x 0 (tables p true).layers (tables p true).sources [l, l1] cs ∧
    (∀ i j, (tables p true).layers i j = true → (tables p true).sources i j = true) ∧
    ∀ s : Mem 1 ℝ, ∃ s', totalLoop idealInv 1 true [l, l1] s = .ok s' ∧
      ¬ ∃ R R', (∀ᶠ y in 𝓝 x, Joined (cs.map fun c => c y) (R y)) ∧ LDeriv R R' x ∧
        Kept frameAll 0 (.ofBits (anyBelow (fun i => (tables p true).layers i 0) 2)
          (anyBelow (fun i => (tables p true).sources i 0) 2)) R' s' := by
  have l0 : (tables thermalLin true).layers 0 0 = false := by decide
  have s0 : (tables thermalLin true).sources 0 0 = true := by decide
  have l1 : (tables thermalLin true).layers 1 0 = false := by decide
  have s1 : (tables thermalLin true).sources 1 0 = false := by decide
  refine ⟨thermalLin, warmRow, coldRow, [warm, cold], 1, ?_, ?_, fun i j => lit_rows thermalLin true (.inr rfl) i j, ?_⟩
  · intro i h j
    match i, h with
    | 0, _ => rfl
    | 1, _ => rfl
  · refine ⟨rfl, fun i h h' => ?_⟩
    match i, h with
    | 0, _ =>
        refine ⟨rfl, ⟨fun _ _ => hasDerivAt_const _ _, fun _ _ => hasDerivAt_const _ _, fun _ => hasDerivAt_id _,
          fun _ _ => hasDerivAt_const _ _, fun _ _ => hasDerivAt_const _ _, fun _ => hasDerivAt_id _⟩, ?_⟩
        rw [l0, s0]
        exact ⟨fun _ => ⟨rfl, rfl, rfl, rfl⟩, by simp⟩
    | 1, _ =>
        refine ⟨rfl, ⟨fun _ _ => hasDerivAt_const _ _, fun _ _ => hasDerivAt_const _ _, fun _ => hasDerivAt_const _ _,
          fun _ _ => hasDerivAt_const _ _, fun _ _ => hasDerivAt_const _ _, fun _ => hasDerivAt_const _ _⟩, ?_⟩
        rw [l1, s1]
        exact ⟨fun _ => ⟨rfl, rfl, rfl, rfl⟩, fun _ => ⟨rfl, rfl⟩⟩
  · intro s
    have hex : ∀ l ∈ [coldRow], ∀ i, i < 1 → allExits (l.act i) = false := by
      intro l hl i _
      simp only [List.mem_singleton] at hl
      subst hl
      exact (down_codes thermalLin true 1 i).1
    obtain ⟨s', h1, _⟩ := (C29_total idealInv_exact 1 warmRow [coldRow] hex s).1
      ⟨⟨1, by simp [coldRow, Ops.layer]⟩, fun _ _ => trivial⟩
    refine ⟨s', h1, ?_⟩
    rintro ⟨R, R', g1, g2, g3⟩
    -- what the array holds
    obtain ⟨t, e1, _, h2⟩ := (copyAll_post (inv? := idealInv) 1 warmRow.act
      (load 1 lowM lowV warmRow.ops warmRow.dops (fun j => (warmRow.act j).2) s)).elim
    have a0 : warmRow.act 0 = (.U, .S) := by
      show decode ((tables thermalLin true).addingDown 0 0) = _
      decide
    have a1 : coldRow.act 0 = (.S, .U) := by
      show decode ((tables thermalLin true).addingDown 1 0) = _
      decide
    have ht : t.v (frameAll.vl 0 .S13) = fun _ => 1 := by
      have := ((h2 0 (by omega) (by rw [a0])).2 (by rw [a0]; rfl)).1
      rw [this]
      simp only [frameAll, allV]
      rw [load_vl _ _ _ _ _ _ _ (by omega) (by omega)]
      have a0' : (warmRow.act 0).2.s = true := by rw [a0]; rfl
      rw [if_pos a0']
      rfl
    simp only [totalLoop, e1, if_true] at h1
    split at h1
    · rename_i s2 e2
      cases h1
      have ea : layerAddAll frameAll 1 (1 : ℝ) (fun _ => 0) coldRow.act true =
          layerAddAll frameAll 1 1 (fun _ => 0) (fun _ => (.S, .U)) true := by
        simp [layerAddAll, derivLoop, a1]
      simp only [Bool.false_eq_true, if_false, ea] at e2
      have k1 := (C30_SU_left_alone e2).1
      have k2 : (load 1 lowM lowV coldRow.ops coldRow.dops (fun j => (coldRow.act j).2) t).v (frameAll.vl 0 .S12) =
          t.v (frameAll.vl 0 .S13) := by
        simp only [frameAll, allV]
        rw [load_vl _ _ _ _ _ _ _ (by omega) (by omega)]
        simp [lowV]
      rw [k2, ht] at k1
      have g4 := (g3.v (by simp [anyBelow, s0])).1
      rw [k1] at g4
      -- what it should hold
      have g5 : ∀ᶠ y in 𝓝 (1 : ℝ), R y = ⟨0, sc (1/4), fun _ => y / 2, 0, sc (1/4), fun _ => y⟩ := by
        filter_upwards [g1] with y hy
        refine Joined.unique hy ?_
        have st := stacked (o := linOf (warm y) (cold y)) (q := 1) (q' := 1) (by simp [linOf, warm, cold])
          (by simp [linOf, warm, cold]) 1
        rw [Layer.dim_one] at st
        have j2 := (Joined.one (warm y)).append (Joined.one (cold y)) st
        refine cast ?_ j2
        congr 1
        simp only [sum, sc_zero, sc_one, sc_mul, sc_add, sc_vec, oR13, oT31, oS31, oS13, oC31, oC13, linOf, Lin.swap, MArg.swap, VArg.swap, warm, cold]
        congr 1 <;> first | (congr 1; norm_num; done) | (funext i; simp; ring; done) | (funext i; simp; done)
      have d1 : HasDerivAt (fun y => (R y).Sm 0) (R'.Sm 0) 1 := g2.Sm 0
      have d2 : HasDerivAt (fun y : ℝ => y / 2) (1 / 2) 1 := (hasDerivAt_id _).div_const 2
      have d3 : HasDerivAt (fun y => (R y).Sm 0) (1 / 2) 1 := by
        refine d2.congr_of_eventuallyEq ?_
        filter_upwards [g5] with y hy
        rw [hy]
      have := d1.unique d3
      rw [← congrFun g4 0] at this
      norm_num at this
    · cases h1

end Xrtm.Adding
