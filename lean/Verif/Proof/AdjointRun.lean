import Verif.Proof.Adjoint

/-! The two routines and the loop over the layers. -/

namespace Xrtm.Spec

open Mat

variable {n : Nat} {x : ℝ}

theorem MDeriv.uniq {A : ℝ → M n ℝ} {a b : M n ℝ} (h : MDeriv A a x) (h' : MDeriv A b x) : a = b := by
  ext i j; exact (h i j).unique (h' i j)
theorem VDeriv.uniq {A : ℝ → V n ℝ} {a b : V n ℝ} (h : VDeriv A a x) (h' : VDeriv A b x) : a = b := by
  ext i; exact (h i).unique (h' i)
theorem LDeriv.uniq {r : ℝ → Layer n ℝ} {a b : Layer n ℝ} (h : LDeriv r a x) (h' : LDeriv r b x) : a = b :=
  Layer.ext (MDeriv.uniq h.Rm h'.Rm) (MDeriv.uniq h.Tm h'.Tm) (VDeriv.uniq h.Sm h'.Sm) (MDeriv.uniq h.Rp h'.Rp)
    (MDeriv.uniq h.Tp h'.Tp) (VDeriv.uniq h.Sp h'.Sp)
theorem RDeriv.uniq {r : ℝ → Mirror n ℝ} {a b : Mirror n ℝ} (h : RDeriv r a x) (h' : RDeriv r b x) : a = b :=
  Mirror.ext (MDeriv.uniq h.R h'.R) (VDeriv.uniq h.S h'.S)

end Xrtm.Spec

namespace Xrtm.Adjoint

open Mat Adding Spec Matrix Filter Topology

section ring
variable {K : Type} [CommRing K] {n : Nat} {inv? : M n K → Option (M n K)}

/-- What the save record must hold, in terms of the operators only. -/
structure Recorded (d : Bool) (s : AMem n K) : Prop where
  P : s.m (.P d) = (1 - s.m (.op (ms d .R23)) * s.m (.op (ms d .R21)))ᵀ
  A : s.m (.A d) * (1 - s.m (.op (ms d .R23)) * s.m (.op (ms d .R21))) = s.m (.op (ms d .T21))
  B : s.m (.B d) = s.m (.op (ms d .R23)) * s.m (.op (ms d .T12))
  C : s.v (.C d) = s.v (.op (vs d .S32)) + s.m (.op (ms d .R23)) *ᵥ s.v (.op (vs d .S12))

theorem Recorded.saved (hinv : Exact inv?) {d : Bool} {s : AMem n K} (h : Recorded d s) {q : M n K}
    (hq : q * (1 - s.m (.op (ms d .R23)) * s.m (.op (ms d .R21))) = 1) :
    Saved inv? d q (oC31 (ops d s) 1) s := by
  have hq' := mul_eq_one_comm.1 hq
  refine ⟨?_, ?_, h.B, ?_⟩
  · rw [hinv, h.P, ← transpose_mul, hq, transpose_one]
  · rw [← h.A, Matrix.mul_assoc, hq', Matrix.mul_one]
  · rw [h.C, oC31, one_smul]; rfl

/-- The adjoints in the memory. -/
def upA (s : AMem n K) : Layer n K :=
  ⟨s.m (.adj .R12), s.m (.adj .T12), s.v (.adj .S12), s.m (.adj .R21), s.m (.adj .T21), s.v (.adj .S21)⟩
def loA (s : AMem n K) : Layer n K :=
  ⟨s.m (.adj .R23), s.m (.adj .T23), s.v (.adj .S23), s.m (.adj .R32), s.m (.adj .T32), s.v (.adj .S32)⟩
def outA (s : AMem n K) : Layer n K :=
  ⟨s.m (.adj .R13), s.m (.adj .T13), s.v (.adj .S13), s.m (.adj .R31), s.m (.adj .T31), s.v (.adj .S31)⟩
def loMA (s : AMem n K) : Mirror n K := ⟨s.m (.adj .R23), s.v (.adj .S32)⟩
def outMA (s : AMem n K) : Mirror n K := ⟨s.m (.adj .R13), s.v (.adj .S31)⟩

/-- The operators in the memory. -/
def upO (s : AMem n K) : Layer n K :=
  ⟨s.m (.op .R12), s.m (.op .T12), s.v (.op .S12), s.m (.op .R21), s.m (.op .T21), s.v (.op .S21)⟩
def loO (s : AMem n K) : Layer n K :=
  ⟨s.m (.op .R23), s.m (.op .T23), s.v (.op .S23), s.m (.op .R32), s.m (.op .T32), s.v (.op .S32)⟩
def loMO (s : AMem n K) : Mirror n K := ⟨s.m (.op .R23), s.v (.op .S32)⟩

theorem weigh_linOf (s : AMem n K) (a b : Layer n K) : weigh s (linOf a b) = (upA s).pair a + (loA s).pair b := by
  simp only [weigh, linOf, upA, loA, Layer.pair]

/-- Where nothing varies the derivative of a mirror is zero. -/
structure QuietM (a : Act) (m' : Mirror n K) : Prop where
  m0 : a.l = false → m'.R = 0
  v0 : a.s = false → m'.S = 0

theorem noUp {a : Act} {x y : Layer n K} (h : Quiet a x) (ha : a.l = false) : NoUp (side false (linOf x y)) := by
  obtain ⟨h1, h2, h3, h4⟩ := h.m0 ha
  exact ⟨h1, h2, h3, h4⟩
theorem noUpS {a : Act} {x y : Layer n K} (h : Quiet a x) (ha : a.s = false) : NoUpS (side false (linOf x y)) :=
  h.v0 ha
theorem noLo {a : Act} {x y : Layer n K} (h : Quiet a y) (ha : a.l = false) : NoLo (side false (linOf x y)) := by
  obtain ⟨h1, h2, h3, h4⟩ := h.m0 ha
  exact ⟨h1, h4⟩
theorem noLoM {a : Act} {x : Layer n K} {y : Mirror n K} (h : QuietM a y) (ha : a.l = false) :
    NoLo (side false (linOf x ⟨y.R, 0, 0, 0, 0, y.S⟩)) := ⟨h.m0 ha, rfl⟩
/- The second half sees the layers the other way round. -/
theorem noUp' {a : Act} {x y : Layer n K} (h : Quiet a y) (ha : a.l = false) : NoUp (side true (linOf x y)) := by
  obtain ⟨h1, h2, h3, h4⟩ := h.m0 ha
  exact ⟨h3, h4, h1, h2⟩
theorem noLo' {a : Act} {x y : Layer n K} (h : Quiet a x) (ha : a.l = false) : NoLo (side true (linOf x y)) := by
  obtain ⟨h1, h2, h3, h4⟩ := h.m0 ha
  exact ⟨h3, h2⟩

theorem allUp_half {q : M n K} {c : V n K} {t : K} {s : AMem n K} {u l : Act} {top' bot' : Layer n K}
    (hS : Saved inv? false q c s) (hu : Quiet u top') (hl : Quiet l bot') :
    ∃ s', run inv? (preDa false ++ allUp t u l) s = .ok s' ∧ Half true true false q c t (linOf top' bot') s s' := by
  unfold allUp
  split
  · exact allULa_half hS (noUp hu rfl) (noUpS hu rfl)
  · exact allLPa_half hS (noLo hl rfl)
  · exact allLLa_half hS

theorem allDown_half {q : M n K} {c : V n K} {t : K} {s : AMem n K} {u l : Act} {top' bot' : Layer n K}
    (hS : Saved inv? true q c s) (hu : Quiet u top') (hl : Quiet l bot') :
    ∃ s', run inv? (preDa true ++ allDown t u l) s = .ok s' ∧ Half true true true q c t (linOf top' bot') s s' := by
  unfold allDown
  split
  · exact allLUa_half hS (noLo' hu rfl) (hu.v0 rfl).1
  · exact allPLa_half hS (noUp' hl rfl)
  · exact allLLa_half hS

/-- The codes for which `layer_add_ref_a` has a complete case. -/
def refCovered : Act → Act → Bool
  | .U, .S | .S, .S | .U, .B | .S, .B | .B, .S | .B, .B => true
  | _, _ => false

/-- ... and clears the reflection. -/
def refClears : Act → Act → Bool
  | .U, .S | .S, .S => false
  | _, _ => true

theorem refCase_half {q : M n K} {c : V n K} {t : K} {s : AMem n K} {u l : Act} {top' : Layer n K} {bot' : Mirror n K}
    (hc : refCovered u l = true)
    (hS : Saved inv? false q c s) (hu : Quiet u top') (hl : QuietM l bot') :
    ∃ s', run inv? (preDa false ++ refCase t u l) s = .ok s' ∧
      Half (refClears u l) false false q c t (linOf top' ⟨bot'.R, 0, 0, 0, 0, bot'.S⟩) s s' := by
  cases u <;> cases l <;> first | (exact absurd hc (by decide)) | skip
  all_goals unfold refCase refClears
  · exact refUPa_half hS (noUp hu rfl) (noUpS hu rfl) (noLoM hl rfl)
  · exact refULa_half hS (noUp hu rfl) (noUpS hu rfl)
  · exact refPPa_half hS (noUp hu rfl) (noLoM hl rfl)
  · exact refPLa_half hS (noUp hu rfl)
  · exact refLPa_half hS (noLoM hl rfl)
  · exact refLLa_half hS

theorem Quiet.zero (a : Act) : Quiet a (⟨0, 0, 0, 0, 0, 0⟩ : Layer n K) := ⟨fun _ => ⟨rfl, rfl, rfl, rfl⟩, fun _ => ⟨rfl, rfl⟩⟩
theorem QuietM.zero (a : Act) : QuietM a (⟨0, 0⟩ : Mirror n K) := ⟨fun _ => rfl, fun _ => rfl⟩

end ring

variable {n : Nat} {x : ℝ} {inv? : M n ℝ → Option (M n ℝ)}

/-- What `layer_add_all_a` does. -/
theorem layerAddAllA_keeps (hinv : Exact inv?) {s : AMem n ℝ} (h1 : Recorded false s) (h2 : Recorded true s)
    (hreg : Regular (s.m (.op .R23)) (s.m (.op .R21))) (c : Act × Act) :
    ∃ s', run inv? (layerAddAllA 1 c) s = .ok s' ∧ outA s' = ⟨0, 0, 0, 0, 0, 0⟩ ∧
      ∀ (x : ℝ) (top bot r : ℝ → Layer n ℝ) (top' bot' r' : Layer n ℝ), top x = upO s → bot x = loO s →
        LDeriv top top' x → LDeriv bot bot' x → Quiet c.1 top' → Quiet c.2 bot' →
        (∀ᶠ y in 𝓝 x, Stacked (top y) (bot y) (r y)) → LDeriv r r' x →
        (upA s').pair top' + (loA s').pair bot' = (upA s).pair top' + (loA s).pair bot' + (outA s).pair r' := by
  obtain ⟨q, hq⟩ := hreg
  have hq2 := inv13_spec (o := ops false s) hq
  set q' := inv13 (ops false s) q
  have S1 := h1.saved hinv hq
  have key : ∀ top' bot' : Layer n ℝ, Quiet c.1 top' → Quiet c.2 bot' → ∃ s1 s', run inv? (layerAddAllA 1 c) s = .ok s' ∧
      Half true true false q (oC31 (ops false s) 1) 1 (linOf top' bot') s s1 ∧
      Half true true true q' (oC31 (ops true s) 1) 1 (linOf top' bot') s1 s' := by
    intro top' bot' hu hl
    obtain ⟨s1, e1, H1⟩ := allUp_half (t := 1) S1 hu hl
    have S2 : Saved inv? true q' (oC31 (ops true s) 1) s1 := by
      have := h2.saved hinv (q := q') hq2
      exact ⟨by rw [H1.fP]; exact this.P, by rw [H1.fA, H1.opm]; exact this.A, by rw [H1.fB, H1.opm, H1.opm]; exact this.B,
        by rw [H1.fC]; exact this.C⟩
    obtain ⟨s', e2, H2⟩ := allDown_half (t := 1) S2 hu hl
    refine ⟨s1, s', ?_, H1, H2⟩
    rw [layerAddAllA, run_append, e1]
    exact e2
  obtain ⟨s1, s', e, H1, H2⟩ := key _ _ (Quiet.zero _) (Quiet.zero _)
  refine ⟨s', e, ?_, ?_⟩
  · have a1 := H1.R; have a2 := H1.T; have a3 := H1.S
    have b1 := H2.R; have b2 := H2.T; have b3 := H2.S
    have c1 := H2.R2; have c2 := H2.T2; have c3 := H2.S2
    simp only [ms, vs, MArg.swap, VArg.swap, if_true, if_false, Bool.false_eq_true] at a1 a2 a3 b1 b2 b3 c1 c2 c3
    simp only [outA]
    rw [b1, b2, b3, c1, c2, c3, a1, a2, a3]
  · intro x top bot r top' bot' r' ht hb dt db qt qb hr dr
    obtain ⟨s1, s2, e', H1, H2⟩ := key _ _ qt qb
    rw [e] at e'
    cases e'
    have hd := stacked_deriv dt db hr (q := q) (q' := q') (by rw [ht, hb]; exact hq) (by rw [ht, hb]; exact hq2)
    rw [dr.uniq hd, ← weigh_linOf, ← weigh_linOf, H2.sum, H1.sum]
    have o1 : ops true s1 = ops true s := by
      simp only [ops, H1.opm, H1.opv]
    have c1 := H1.R2; have c2 := H1.T2; have c3 := H1.S2
    simp only [ms, vs, MArg.swap, VArg.swap, if_true, if_false, Bool.false_eq_true] at c1 c2 c3 ⊢
    rw [o1, c1, c2, c3]
    rw [ht, hb]
    simp only [Layer.pair, outA, dsum, linOf, upO, loO, gR13, gT31, gS31, gA, oC31, oC13, ops, side, Lin.swap, ms, vs, MArg.swap,
      VArg.swap, if_true, if_false, Bool.false_eq_true, one_smul]
    ring

/-- What `layer_add_ref_a` does. -/
theorem layerAddRefA_keeps (hinv : Exact inv?) {s : AMem n ℝ} (h1 : Recorded false s)
    (hreg : Regular (s.m (.op .R23)) (s.m (.op .R21))) (flag : Bool) (c : Act × Act)
    (hc : refCovered (flip flag c).1 (flip flag c).2 = true) :
    ∃ s', run inv? (layerAddRefA 1 flag c) s = .ok s' ∧ s'.v (.adj .S31) = 0 ∧
      s'.m (.adj .R13) = (if refClears (flip flag c).1 (flip flag c).2 then 0 else s.m (.adj .R13)) ∧
      ∀ (x : ℝ) (top : ℝ → Layer n ℝ) (bot r : ℝ → Mirror n ℝ) (top' : Layer n ℝ) (bot' r' : Mirror n ℝ),
        top x = upO s → bot x = loMO s →
        LDeriv top top' x → RDeriv bot bot' x → Quiet (flip flag c).1 top' → QuietM (flip flag c).2 bot' →
        (∀ᶠ y in 𝓝 x, Backed (top y) (bot y) (r y)) → RDeriv r r' x →
        (upA s').pair top' + (loMA s').pair bot' = (upA s).pair top' + (loMA s).pair bot' + (outMA s).pair r' := by
  obtain ⟨q, hq⟩ := hreg
  have S1 := h1.saved hinv hq
  set u := (flip flag c).1 with hu
  set l := (flip flag c).2 with hl
  have er : layerAddRefA (1 : ℝ) flag c = preDa false ++ refCase 1 u l := by
    rw [layerAddRefA, hu, hl]
    cases flag <;> rfl
  have key : ∀ (top' : Layer n ℝ) (bot' : Mirror n ℝ), Quiet u top' → QuietM l bot' → ∃ s',
      run inv? (layerAddRefA 1 flag c) s = .ok s' ∧
      Half (refClears u l) false false q (oC31 (ops false s) 1) 1 (linOf top' ⟨bot'.R, 0, 0, 0, 0, bot'.S⟩) s s' := by
    intro top' bot' hu hl
    rw [er]
    exact refCase_half (t := 1) hc S1 hu hl
  obtain ⟨s', e, H⟩ := key _ _ (Quiet.zero _) (QuietM.zero _)
  refine ⟨s', e, H.S, H.R, ?_⟩
  intro x top bot r top' bot' r' ht hb dt db qt qb hr dr
  obtain ⟨s2, e', H⟩ := key _ _ qt qb
  rw [e] at e'
  cases e'
  have hd := backed_deriv dt db hr (q := q) (by rw [ht, hb]; exact hq)
  have hs := H.sum
  rw [weigh_linOf, weigh_linOf] at hs
  have hz : ∀ s : AMem n ℝ, (loA s).pair (⟨bot'.R, 0, 0, 0, 0, bot'.S⟩ : Layer n ℝ) = (loMA s).pair bot' := by
    intro s
    simp [Layer.pair, Mirror.pair, loA, loMA, mpair_zero_right, vpair_zero_right]
  rw [hz, hz] at hs
  rw [hs, dr.uniq hd, ht, hb]
  simp only [ms, vs, MArg.swap, VArg.swap, if_true, if_false, Bool.false_eq_true, Mirror.pair, outMA, gR13, gS31, gA,
    oC31, linOf, upO, loMO, ops, side, one_smul]
  ring

end Xrtm.Adjoint
