import Verif.Proof.AdjointRun
import Verif.Proof.AddingI

/-! The loop over the layers in reverse. -/

namespace Xrtm.Adjoint

open Mat Adding Spec Matrix Filter Topology

variable {n : Nat} {inv? : M n ℝ → Option (M n ℝ)}

/-- The weights of a layer as a `Layer`. -/
def LayerA.weights (a : LayerA n ℝ) : Layer n ℝ := ⟨a.R12, a.T12, a.S12, a.R21, a.T21, a.S21⟩

/-- What a save record and the operators of a call must be. -/
structure TStep.Right (e : TStep n ℝ) (top : Layer n ℝ) (bot : Mirror n ℝ) : Prop where
  top : top = ⟨e.R12, e.T12, e.S12, e.R21, e.T21, e.S21⟩
  bot : bot = ⟨e.R23, e.S32⟩
  P : e.P = (1 - e.R23 * e.R21)ᵀ
  A : e.A * (1 - e.R23 * e.R21) = e.T21
  B : e.B = e.R23 * e.T12
  C : e.C = e.S32 + e.R23 *ᵥ e.S12
  regular : Regular e.R23 e.R21

/-- The codes with a complete case, and the one where nothing varies. -/
def refHandled (u l : Act) : Bool := refCovered u l || (decide (u = .U) && decide (l = .U))

/-- The layers `ts` on `base`, near `x`: `r` is what they are together; primes are derivatives; `es` are the calls. -/
inductive Swept (x : ℝ) : List (TStep n ℝ) → List (ℝ → Layer n ℝ) → List (Layer n ℝ) → (ℝ → Mirror n ℝ) → Mirror n ℝ →
    (ℝ → Mirror n ℝ) → Mirror n ℝ → Prop
  | nil {base base'} : RDeriv base base' x → Swept x [] [] [] base base' base base'
  | cons {e es t t' ts ts' base base' b b' r r'} : Swept x es ts ts' base base' b b' →
      e.Right (t x) (b x) → refHandled e.code.1 e.code.2 = true →
      LDeriv t t' x → RDeriv b b' x → Quiet e.code.1 t' → QuietM e.code.2 b' →
      (∀ᶠ y in 𝓝 x, Backed (t y) (b y) (r y)) → RDeriv r r' x →
      Swept x (e :: es) (t :: ts) (t' :: ts') base base' r r'

/-- `r` is the layers on the base. -/
theorem Swept.resting {x : ℝ} {es : List (TStep n ℝ)} {ts ts' base base' r r'}
    (h : Swept x es ts ts' base base' r r') :
    ∀ᶠ y in 𝓝 x, Resting (ts.map fun t => t y) (base y) (r y) := by
  induction h with
  | nil _ =>
      refine Eventually.of_forall fun y dn up => ?_
      simp [Through]
  | cons _ _ _ _ _ _ _ hb _ ih =>
      filter_upwards [ih, hb] with y h1 h2
      exact h1.cons h2

theorem Right.recorded {e : TStep n ℝ} {top bot} (h : e.Right top bot) (R : M n ℝ) (S : V n ℝ) :
    Recorded false (e.mem R S) := ⟨h.P, h.A, h.B, h.C⟩

theorem quiet_UU {x : ℝ} {t : ℝ → Layer n ℝ} {b r : ℝ → Mirror n ℝ} {t' : Layer n ℝ} {b' r' : Mirror n ℝ}
    (dt : LDeriv t t' x) (db : RDeriv b b' x) (qt : Quiet .U t') (qb : QuietM .U b')
    (hr : ∀ᶠ y in 𝓝 x, Backed (t y) (b y) (r y)) (dr : RDeriv r r' x) (hreg : Regular (b x).R (t x).Rp) :
    t' = ⟨0, 0, 0, 0, 0, 0⟩ ∧ b' = ⟨0, 0⟩ ∧ r' = ⟨0, 0⟩ := by
  obtain ⟨q, hq⟩ := hreg
  have ht : t' = ⟨0, 0, 0, 0, 0, 0⟩ := by
    obtain ⟨a1, a2, a3, a4⟩ := qt.m0 rfl
    obtain ⟨a5, a6⟩ := qt.v0 rfl
    exact Layer.ext a1 a2 a5 a3 a4 a6
  have hb : b' = ⟨0, 0⟩ := Mirror.ext (qb.m0 rfl) (qb.v0 rfl)
  subst ht; subst hb
  refine ⟨rfl, rfl, ?_⟩
  have hd := backed_deriv dt db hr (q := q) hq
  rw [dr.uniq hd]
  apply Mirror.ext <;> simp [gR13, gS31, gA, oC31, linOf]

theorem totalToaA_keeps (hinv : Exact inv?) {x : ℝ} {es : List (TStep n ℝ)} {ts ts' base base' r r'}
    (h : Swept x es ts ts' base base' r r') (R : M n ℝ) (S : V n ℝ) :
    ∃ ls R' S', totalToaA inv? es R S = .ok (ls, R', S') ∧
      (List.zipWith (fun a t' => a.weights.pair t') ls ts').sum + (Mirror.mk R' S').pair base' =
        (Mirror.mk R S).pair r' := by
  induction h generalizing R S with
  | nil _ => exact ⟨[], R, S, rfl, by simp⟩
  | @cons e es t t' ts ts' base base' b b' r r' hs hR hc dt db qt qb hr dr ih =>
      have hz : (upA (e.mem R S)).pair t' = 0 := by
        simp [upA, TStep.mem, Layer.pair, mpair, vpair]
      have hz2 : (loMA (e.mem R S)).pair b' = 0 := by
        simp [loMA, TStep.mem, Mirror.pair, mpair, vpair]
      have key : ∃ s', run inv? (layerAddRefA 1 false e.code) (e.mem R S) = .ok s' ∧
          (upA s').pair t' + (loMA s').pair b' = (Mirror.mk R S).pair r' := by
        by_cases hcov : refCovered e.code.1 e.code.2 = true
        · obtain ⟨s', e1, -, -, e2⟩ := layerAddRefA_keeps hinv (Right.recorded hR R S) hR.regular false e.code hcov
          refine ⟨s', e1, ?_⟩
          have := e2 x t b r t' b' r' (by rw [hR.top]; rfl) (by rw [hR.bot]; rfl) dt db qt qb hr dr
          rw [this, hz, hz2]
          simp [outMA, TStep.mem]
        · have hcc : e.code.1 = .U ∧ e.code.2 = .U := by
            simpa [refHandled, hcov] using hc
          rw [hcc.1] at qt
          rw [hcc.2] at qb
          obtain ⟨rfl, rfl, rfl⟩ := quiet_UU dt db qt qb hr dr (by rw [hR.bot, hR.top]; exact hR.regular)
          have he : e.code = (.U, .U) := Prod.ext hcc.1 hcc.2
          rw [he]
          refine ⟨_, rfl, ?_⟩
          simp [Layer.pair, Mirror.pair, mpair, vpair]
      obtain ⟨s', e1, e2⟩ := key
      obtain ⟨ls, R', S', e3, e4⟩ := ih (s'.m (.adj .R23)) (s'.v (.adj .S32))
      refine ⟨s'.layerA :: ls, R', S', ?_, ?_⟩
      · rw [totalToaA, e1]
        simp only [e3]
      · rw [← e2]
        simp only [List.zipWith_cons_cons, List.sum_cons]
        rw [add_assoc, e4]
        rfl

end Xrtm.Adjoint
