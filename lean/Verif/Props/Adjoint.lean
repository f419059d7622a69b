import Verif.Proof.AdjointTotal
import Verif.Props.Adding
import Verif.Props.Derivs
import Verif.Model.AdjointU
import Mathlib.Tactic.FieldSimp
import Mathlib.Tactic.Linarith

/-!
# C34: reverse mode is the transpose of the linearisation

Reading the statements: `pair` applies weights (adjoints) to derivatives. A reverse step is right if what the weights
give for every derivative of the inputs is the same before (with the weights still on the result) and after.
`Recorded`: the arrays saved by the forward routine hold `(1 - R23 R21)ᵀ`, `T21 (1 - R23 R21)⁻¹`, `R23 T12` and
`S32 + R23 S12`. `Quiet`: parts the derivative code calls inactive have zero derivatives.
-/

namespace Xrtm.Adjoint

open Mat Adding Spec Matrix Filter Topology

variable {n : Nat} {inv? : M n ℝ → Option (M n ℝ)}

/-- `layer_add_all_a`, for every code: it ends without a fault, the weights of the result are used up, and for all
curves of layers through the saved operators the weights on the two layers give what the weights on the two layers and
on the result gave. (Both callers pass `atran = 1`.) -/
theorem C34_layer_add_all (hinv : Exact inv?) {s : AMem n ℝ} (h1 : Recorded false s) (h2 : Recorded true s)
    (hreg : Regular (s.m (.op .R23)) (s.m (.op .R21))) (c : Act × Act) :
    ∃ s', run inv? (layerAddAllA 1 c) s = .ok s' ∧ outA s' = ⟨0, 0, 0, 0, 0, 0⟩ ∧
      ∀ (x : ℝ) (top bot r : ℝ → Layer n ℝ) (top' bot' r' : Layer n ℝ), top x = upO s → bot x = loO s →
        LDeriv top top' x → LDeriv bot bot' x → Quiet c.1 top' → Quiet c.2 bot' →
        (∀ᶠ y in 𝓝 x, Stacked (top y) (bot y) (r y)) → LDeriv r r' x →
        (upA s').pair top' + (loA s').pair bot' = (upA s).pair top' + (loA s).pair bot' + (outA s).pair r' :=
  layerAddAllA_keeps hinv h1 h2 hreg c

/-- `layer_add_ref_a`. Full statement: the same for every code. It is false, `C34_violated_SU` and the next two: only the codes of
`refCovered` (`U_S`, `S_S`, `U_B`, `S_B`, `B_S`, `B_B`, for `flag` read the other way round) have a complete case. The
weights of the reflection stay where they are for `U_S` and `S_S`, where the reflection does not vary. -/
theorem C34_layer_add_ref_partial (hinv : Exact inv?) {s : AMem n ℝ} (h1 : Recorded false s)
    (hreg : Regular (s.m (.op .R23)) (s.m (.op .R21))) (flag : Bool) (c : Act × Act)
    (hc : refCovered (flip flag c).1 (flip flag c).2 = true) :
    ∃ s', run inv? (layerAddRefA 1 flag c) s = .ok s' ∧ s'.v (.adj .S31) = 0 ∧
      s'.m (.adj .R13) = (if refClears (flip flag c).1 (flip flag c).2 then 0 else s.m (.adj .R13)) ∧
      ∀ (x : ℝ) (top : ℝ → Layer n ℝ) (bot r : ℝ → Mirror n ℝ) (top' : Layer n ℝ) (bot' r' : Mirror n ℝ),
        top x = upO s → bot x = loMO s →
        LDeriv top top' x → RDeriv bot bot' x → Quiet (flip flag c).1 top' → QuietM (flip flag c).2 bot' →
        (∀ᶠ y in 𝓝 x, Backed (top y) (bot y) (r y)) → RDeriv r r' x →
        (upA s').pair top' + (loMA s').pair bot' = (upA s).pair top' + (loMA s).pair bot' + (outMA s).pair r' :=
  layerAddRefA_keeps hinv h1 hreg flag c hc

/-! ### The saved arrays -/

/-- What the forward routines save is what `Recorded` asks for: the first calls of `layer_add_ref` and of either half of
`layer_add_all` leave it in the arrays that are copied into the save record (`src/xrtm_adding.c:637-643`, `1584-1590`,
`1690-1696`), and the operators as they were. -/
theorem C34_saved (hinv : Exact inv?) {f : Fr} (hf : SepF f) {s : Mem n ℝ}
    (hreg : Regular (s.m (f.m .R23)) (s.m (f.m .R21))) :
    ∃ s', Mat.run inv? (factors f ++ sourceUp f 1) s = .ok s' ∧
      s'.m f.P = (1 - s.m (f.m .R23) * s.m (f.m .R21))ᵀ ∧
      s'.m f.A * (1 - s.m (f.m .R23) * s.m (f.m .R21)) = s.m (f.m .T21) ∧
      s'.m f.B = s.m (f.m .R23) * s.m (f.m .T12) ∧
      s'.v C = s.v (f.v .S32) + s.m (f.m .R23) *ᵥ s.v (f.v .S12) ∧
      (∀ x, s'.m (f.m x) = s.m (f.m x)) ∧ ∀ x, s'.v (f.v x) = s.v (f.v x) := by
  obtain ⟨q, hq⟩ := hreg
  have hP : Post (Mat.run inv? (factors f ++ sourceUp f 1) s) fun s' =>
      s'.m f.P = (1 - s.m (f.m .R23) * s.m (f.m .R21))ᵀ ∧
      s'.m f.A * (1 - s.m (f.m .R23) * s.m (f.m .R21)) = s.m (f.m .T21) ∧
      s'.m f.B = s.m (f.m .R23) * s.m (f.m .T12) ∧
      s'.v C = s.v (f.v .S32) + s.m (f.m .R23) *ᵥ s.v (f.v .S12) ∧
      (∀ x, s'.m (f.m x) = s.m (f.m x)) ∧ ∀ x, s'.v (f.v x) = s.v (f.v x) := by
    rw [Post_run_append]
    refine (run_factors hinv hf hq).mono fun s1 h1 => ?_
    refine (run_sourceUp hf 1 s1).mono fun s2 h2 => ?_
    have hm : ∀ x, s1.m (f.m x) = s.m (f.m x) := fun x => h1.2.2 _ (hf.mExt x _) (hf.pm x) (hf.am x) (hf.bm x)
    have h1p := (hinv _ _).1 h1.1.p
    have h1i := h1.1.inv
    have h1a := h1.1.a
    have h1b := h1.1.b rfl
    rw [hm, hm] at h1i h1b
    rw [hm] at h1a
    refine ⟨?_, ?_, ?_, ?_, fun x => by rw [h2.1, hm], fun x => ?_⟩
    · rw [h2.1]
      have e2 : qᵀ * (1 - s.m (f.m .R23) * s.m (f.m .R21))ᵀ = 1 := by
        rw [← transpose_mul, mul_eq_one_comm.1 h1i, transpose_one]
      calc s1.m f.P = s1.m f.P * (qᵀ * (1 - s.m (f.m .R23) * s.m (f.m .R21))ᵀ) := by rw [e2, Matrix.mul_one]
        _ = _ := by rw [← Matrix.mul_assoc, h1p, Matrix.one_mul]
    · rw [h2.1, h1a, Matrix.mul_assoc, h1i, Matrix.mul_one]
    · rw [h2.1, h1b]
    · rw [h2.2.1, one_smul, hm, h1.2.1]
    · rw [h2.2.2 _ (hf.vExt x _) (hf.vExt x _) (hf.vExt x _), h1.2.1]
  revert hP
  cases Mat.run inv? (factors f ++ sourceUp f 1) s with
  | ok s' => exact fun h => ⟨s', rfl, h⟩
  | error e => exact fun h => h.elim

/-! ### The whole atmosphere -/

/-- The loop over the layers of `get_total_TOA_R_S_U_V_a`, for any number of layers: it ends without a fault, and the
weights that the layers and the surface receive give, for their derivatives, what the weights on reflection and source of
the whole (`r`) give for its derivative. `Swept`: saved arrays as `C34_saved` has them, at every interface, and codes out of
`refHandled`. Full statement: for all codes; see `C34_violated_SU` and the next two. -/
theorem C34_total_toa_partial (hinv : Exact inv?) {x : ℝ} {es : List (TStep n ℝ)} {ts : List (ℝ → Layer n ℝ)}
    {ts' : List (Layer n ℝ)} {base r : ℝ → Mirror n ℝ} {base' r' : Mirror n ℝ}
    (h : Swept x es ts ts' base base' r r') (R : M n ℝ) (S : V n ℝ) :
    (∀ᶠ y in 𝓝 x, Resting (ts.map fun t => t y) (base y) (r y)) ∧
    ∃ ls R' S', totalToaA inv? es R S = .ok (ls, R', S') ∧
      (List.zipWith (fun a t' => a.weights.pair t') ls ts').sum + (Mirror.mk R' S').pair base' =
        (Mirror.mk R S).pair r' :=
  ⟨h.resting, totalToaA_keeps hinv h R S⟩

/-- With the sun as the only source `refHandled` is no restriction: every code in `adding_up_union`, for any number of
layers and derivatives, has a complete case or says that nothing varies. -/
theorem C34_solar_codes {F : Type} [Zero F] [DecidableEq F] (p : Derivs.LinIn F) (hs : p.solar = true)
    (ht : p.thermal = false) (flag : Bool) {i : Nat} (hi : i < p.nLayers) :
    let c := decode (Derivs.unionBits ((Derivs.tables p flag).addingUp i) p.nDerivs)
    refHandled c.1 c.2 = true := by
  intro c
  have good : ∀ m, Derivs.unionBits ((Derivs.tables p flag).addingUp i) m ∈ [0, 3, 5, 7, 13, 15] := by
    intro m
    induction m with
    | zero => simp [Derivs.unionBits]
    | succ m ih =>
        have h1 : (Derivs.tables p flag).addingUp i m ∈ [0, 3, 5, 7, 13, 15] := by
          show Derivs.upCode _ _ _ _ ∈ _
          have src : ∀ k, Derivs.sources p (Derivs.layers p flag) k m = Derivs.beam (Derivs.layers p flag) k m := by
            intro k; simp [Derivs.sources, hs, ht]
          set lay := Derivs.layers p flag with hlay
          set L := Derivs.anyBelow (fun k => lay (p.nLayers - k) m) (p.nLayers - i) with hL
          set Sb := Derivs.anyBelow (fun k => Derivs.sources p lay (p.nLayers - k) m) (p.nLayers - i) with hS
          have iL : L = true ↔ ∃ k, i < k ∧ k ≤ p.nLayers ∧ lay k m = true := by
            rw [hL, Derivs.anyBelow_iff]
            constructor
            · rintro ⟨k, hk, h⟩; exact ⟨p.nLayers - k, by omega, by omega, h⟩
            · rintro ⟨k, h1, h2, h⟩
              exact ⟨p.nLayers - k, by omega, by rw [show p.nLayers - (p.nLayers - k) = k by omega]; exact h⟩
          have iS : Sb = true ↔ ∃ k, k ≤ p.nLayers ∧ lay k m = true := by
            rw [hS, Derivs.anyBelow_iff]
            constructor
            · rintro ⟨k, hk, h⟩
              rw [src, Derivs.beam_iff] at h
              obtain ⟨k', h1, h2⟩ := h
              exact ⟨k', by omega, h2⟩
            · rintro ⟨k, h1, h⟩
              refine ⟨0, by omega, ?_⟩
              rw [src, Derivs.beam_iff]
              exact ⟨k, by omega, h⟩
          have iB : Derivs.sources p lay i m = true ↔ ∃ k ≤ i, lay k m = true := by rw [src, Derivs.beam_iff]
          have c1 : lay i m = true → Derivs.sources p lay i m = true := fun h => iB.2 ⟨i, le_refl i, h⟩
          have c2 : Derivs.sources p lay i m = true → Sb = true := fun h => by
            obtain ⟨k, h1, h2⟩ := iB.1 h
            exact iS.2 ⟨k, by omega, h2⟩
          have c3 : L = true → Sb = true := fun h => by
            obtain ⟨k, -, h1, h2⟩ := iL.1 h
            exact iS.2 ⟨k, h1, h2⟩
          have c4 : Sb = true → Derivs.sources p lay i m = true ∨ L = true := fun h => by
            obtain ⟨k, h1, h2⟩ := iS.1 h
            by_cases hk : k ≤ i
            · exact .inl (iB.2 ⟨k, hk, h2⟩)
            · exact .inr (iL.2 ⟨k, by omega, h1, h2⟩)
          revert c1 c2 c3 c4
          generalize Derivs.sources p lay i m = a
          generalize lay i m = b
          generalize L = c
          generalize Sb = d
          revert a b c d
          decide
        show Derivs.unionBits _ m ||| _ ∈ _
        revert ih h1
        generalize Derivs.unionBits ((Derivs.tables p flag).addingUp i) m = u
        generalize (Derivs.tables p flag).addingUp i m = v
        intro hu hv
        fin_cases hu <;> fin_cases hv <;> decide
  have hc : ∀ k ∈ [0, 3, 5, 7, 13, 15], refHandled (decode k).1 (decode k).2 = true := by decide
  exact hc _ (good _)

example : ∃ p : Derivs.LinIn ℚ, p.solar = true ∧ p.thermal = false ∧ 0 < p.nLayers ∧
    Derivs.unionBits ((Derivs.tables p true).addingUp 0) p.nDerivs = 13 :=
  ⟨{ nLayers := 2, nDerivs := 1, nElem := 1, nCoefLayer := fun _ => 1, nKernels := 0, nParams := fun _ => 0,
     needsFourier := false, solar := true, thermal := false, ltauL := fun i _ => if i = 0 then 1 else 0,
     omegaL := fun _ _ => 0, coefL := fun _ _ _ _ => 0, ampfacL := fun _ _ => 0, paramsL := fun _ _ _ => 0,
     levelsBL := fun _ _ => 0, surfaceBL := fun _ => 0, isoTopL := fun _ => 0, isoBotL := fun _ => 0 },
   rfl, rfl, by decide, by decide⟩

/-! ### Codes without a complete case -/

/-- One layer on a base, weights on the result, the code of `adding_up_union` for these inputs, everything else as
`C34_total_toa_partial` asks: the call ends well, and the weights are lost. -/
def Lost (p : Derivs.LinIn ℚ) : Prop :=
  ∃ (e : TStep 1 ℝ) (t : ℝ → Layer 1 ℝ) (t' : Layer 1 ℝ) (b r : ℝ → Mirror 1 ℝ) (b' r' : Mirror 1 ℝ) (R : M 1 ℝ) (S : V 1 ℝ),
    e.code = decode (Derivs.unionBits ((Derivs.tables p true).addingUp 0) p.nDerivs) ∧ e.Right (t 1) (b 1) ∧
    LDeriv t t' 1 ∧ RDeriv b b' 1 ∧ Quiet e.code.1 t' ∧ QuietM e.code.2 b' ∧ (∀ y, Backed (t y) (b y) (r y)) ∧
    RDeriv r r' 1 ∧ ∃ ls R' S', totalToaA idealInv [e] R S = .ok (ls, R', S') ∧
      (List.zipWith (fun a t' => a.weights.pair t') ls [t']).sum + (Mirror.mk R' S').pair b' ≠ (Mirror.mk R S).pair r'

/-- A call with nothing but transmission one half and emission one. -/
noncomputable def plainStep (c : Act × Act) : TStep 1 ℝ where
  R12 := 0
  T12 := sc (1/2)
  S12 := fun _ => 1
  R21 := 0
  T21 := sc (1/2)
  S21 := fun _ => 1
  R23 := 0
  S32 := 0
  P := 1
  A := sc (1/2)
  B := 0
  C := 0
  code := c

theorem plainStep_right (c : Act × Act) : (plainStep c).Right (warm 1) ⟨0, 0⟩ where
  top := rfl
  bot := rfl
  P := by simp [plainStep]
  A := by simp [plainStep]
  B := by simp [plainStep]
  C := by simp [plainStep]
  regular := ⟨1, by simp [plainStep]⟩

theorem warm_deriv : LDeriv warm ⟨0, 0, fun _ => 1, 0, 0, fun _ => 1⟩ 1 := by
  constructor
  · exact MDeriv.const 0
  · exact MDeriv.const _
  · intro i; exact hasDerivAt_id' 1
  · exact MDeriv.const 0
  · exact MDeriv.const _
  · intro i; exact hasDerivAt_id' 1

theorem lost_of {p : Derivs.LinIn ℚ} {u : Act}
    (hc : decode (Derivs.unionBits ((Derivs.tables p true).addingUp 0) p.nDerivs) = (u, .U)) (hu : u = .S ∨ u = .B) :
    Lost p := by
  refine ⟨plainStep (u, .U), warm, ⟨0, 0, fun _ => 1, 0, 0, fun _ => 1⟩, fun _ => ⟨0, 0⟩, fun y => ⟨0, fun _ => y⟩, ⟨0, 0⟩,
    ⟨0, fun _ => 1⟩, 0, fun _ => 1, hc.symm, plainStep_right _, warm_deriv, ⟨MDeriv.const 0, fun i => hasDerivAt_const _ _⟩,
    ?_, QuietM.zero _, ?_, ⟨MDeriv.const 0, fun i => hasDerivAt_id' 1⟩, ?_⟩
  · refine ⟨fun _ => ⟨rfl, rfl, rfl, rfl⟩, fun h => ?_⟩
    rcases hu with rfl | rfl <;> exact absurd h (by decide)
  · intro y dn up
    simp [Mirror.Obeys, Layer.Obeys, warm]
  · rcases hu with rfl | rfl
    · refine ⟨_, _, _, rfl, ?_⟩
      simp [Layer.pair, Mirror.pair, mpair, vpair, LayerA.weights, AMem.layerA, plainStep, TStep.mem, AMem.setM, AMem.setV]
    · refine ⟨_, _, _, rfl, ?_⟩
      simp [Layer.pair, Mirror.pair, mpair, vpair, LayerA.weights, AMem.layerA, plainStep, TStep.mem, AMem.setM, AMem.setV]

/-- Code violates C34: thermal emission, the temperature of the top level varies. The code is `S_U`, and `add_ref_p_u_a`
(`src/xrtm_adding_a.c:37-40`) throws the weights of the source away. -/
theorem C34_violated_SU : thermalLin.thermal = true ∧ thermalLin.levelsBL 0 0 = 1 ∧ Lost thermalLin :=
  ⟨rfl, by decide, lost_of (u := .S) (by decide) (.inl rfl)⟩

/-- Thermal emission, the depth of the top layer varies. The code is `B_U`, and `add_ref_l_u_a` (107-111) throws all
weights away. -/
theorem C34_violated_BU : ∃ p : Derivs.LinIn ℚ, p.thermal = true ∧ p.ltauL 0 0 = 1 ∧ Lost p :=
  ⟨{ thermalLin with ltauL := fun i _ => if i = 0 then 1 else 0, levelsBL := fun _ _ => 0 }, rfl, by decide,
    lost_of (u := .B) (by decide) (.inr rfl)⟩

/-- Light that comes in at the top is the only source, the depth of the top layer varies. The code is `L_U`; there is no
case for it (410-432), the weights stay where they are and the caller goes on with zeros. -/
theorem C34_violated_LU : ∃ p : Derivs.LinIn ℚ, p.thermal = false ∧ p.solar = false ∧ p.ltauL 0 0 = 1 ∧ Lost p := by
  refine ⟨{ thermalLin with thermal := false, ltauL := fun i _ => if i = 0 then 1 else 0, levelsBL := fun _ _ => 0 }, rfl, rfl,
    by decide, ?_⟩
  refine ⟨{ plainStep (.L, .U) with R12 := sc 1 }, fun y => ⟨sc y, sc (1/2), fun _ => 1, 0, sc (1/2), fun _ => 1⟩, ⟨sc 1, 0, 0, 0, 0, 0⟩,
    fun _ => ⟨0, 0⟩, fun y => ⟨sc y, fun _ => 1⟩, ⟨0, 0⟩, ⟨sc 1, 0⟩, sc 1, 0, by decide, ?_, ?_,
    ⟨MDeriv.const 0, fun i => hasDerivAt_const _ _⟩, ⟨fun h => absurd h (by decide), fun _ => ⟨rfl, rfl⟩⟩, QuietM.zero _, ?_, ?_, ?_⟩
  · exact ⟨rfl, rfl, (plainStep_right (.L, .U)).P, (plainStep_right (.L, .U)).A, (plainStep_right (.L, .U)).B,
      (plainStep_right (.L, .U)).C, (plainStep_right (.L, .U)).regular⟩
  · constructor
    · intro i j; exact hasDerivAt_id' 1
    · exact MDeriv.const _
    · intro i; exact hasDerivAt_const _ _
    · exact MDeriv.const 0
    · exact MDeriv.const _
    · intro i; exact hasDerivAt_const _ _
  · intro y dn up
    simp [Mirror.Obeys, Layer.Obeys]
  · exact ⟨fun i j => hasDerivAt_id' 1, fun i => hasDerivAt_const _ _⟩
  · refine ⟨_, _, _, rfl, ?_⟩
    simp [Layer.pair, Mirror.pair, mpair, vpair, LayerA.weights, AMem.layerA, plainStep, TStep.mem, AMem.setM, AMem.setV, sc]

/-- A layer whose depth and source vary over a mirror whose source varies (`B_S`), as `C34_total_toa_partial` asks. -/
example : ∃ (x : ℝ) (es : List (TStep 1 ℝ)) (ts : List (ℝ → Layer 1 ℝ)) (ts' : List (Layer 1 ℝ)) (base r : ℝ → Mirror 1 ℝ)
    (base' r' : Mirror 1 ℝ), Swept x es ts ts' base base' r r' ∧ r' = ⟨0, fun _ => 1⟩ ∧ es.length = 1 := by
  refine ⟨1, [plainStep (.B, .S)], [warm], [⟨0, 0, fun _ => 1, 0, 0, fun _ => 1⟩], fun _ => ⟨0, 0⟩, fun y => ⟨0, fun _ => y⟩, ⟨0, 0⟩,
    ⟨0, fun _ => 1⟩, ?_, rfl, rfl⟩
  refine .cons (.nil ⟨MDeriv.const 0, fun i => hasDerivAt_const _ _⟩) (plainStep_right _) (by decide) warm_deriv
    ⟨MDeriv.const 0, fun i => hasDerivAt_const _ _⟩ ⟨fun h => absurd h (by decide), fun h => absurd h (by decide)⟩ (QuietM.zero _)
    (Eventually.of_forall fun y dn up => ?_) ⟨MDeriv.const 0, fun i => hasDerivAt_id' 1⟩
  simp [Mirror.Obeys, Layer.Obeys, warm]

/-- A state for `C34_layer_add_all` and `C34_layer_add_ref_partial`: both layers transmit one half, all weights are one. -/
noncomputable def demoA : AMem 1 ℝ where
  m
    | .op .T12 | .op .T21 | .op .T23 | .op .T32 | .A _ => sc (1/2)
    | .adj _ | .P _ => 1
    | _ => 0
  v := fun c => match c with
    | .adj _ => fun _ => 1
    | _ => 0
  tr := 0

example : Recorded false demoA ∧ Recorded true demoA ∧ Regular (demoA.m (.op .R23)) (demoA.m (.op .R21)) ∧
    refCovered .S .B = true := by
  refine ⟨⟨?_, ?_, ?_, ?_⟩, ⟨?_, ?_, ?_, ?_⟩, ⟨1, ?_⟩, rfl⟩ <;> simp [demoA, ms, vs, MArg.swap, VArg.swap]

/-! ### The scaling of the layers and the local matrices -/

theorem fold_weight {α : Type} {W : Gather → ℝ} {step : Gather → α → Gather} {g : α → ℝ} (l : List α)
    (h : ∀ s, ∀ a ∈ l, W (step s a) = W s + g a) (s : Gather) :
    W (l.foldl step s) = W s + (l.map g).sum := by
  induction l generalizing s with
  | nil => simp
  | cons a l ih =>
      rw [List.foldl_cons, ih (fun s b hb => h s b (List.mem_cons_of_mem _ hb)), h s a List.mem_cons_self]
      simp [add_assoc]

/-- Weights on one layer applied to a derivative; coefficients `0 .. N-1` of the six elements. -/
noncomputable def Gather.pair (N : Nat) (g : Gather) (fL : ℝ) (coefL : Nat → Nat → ℝ) (omegaL ltauL : ℝ) : ℝ :=
  g.f * fL + ∑ e ∈ Finset.range 6, ∑ j ∈ Finset.range N, g.coef e j * coefL e j + g.omega * omegaL + g.ltau * ltauL

theorem sum_put (N : Nat) (c cL : Nat → Nat → ℝ) (t : ℝ) {e0 j0 : Nat} (he : e0 < 6) (hj : j0 < N) :
    ∑ e ∈ Finset.range 6, ∑ j ∈ Finset.range N, (if e = e0 ∧ j = j0 then c e j + t else c e j) * cL e j =
      ∑ e ∈ Finset.range 6, ∑ j ∈ Finset.range N, c e j * cL e j + t * cL e0 j0 := by
  have : ∀ e j, (if e = e0 ∧ j = j0 then c e j + t else c e j) * cL e j =
      c e j * cL e j + if e = e0 then (if j = j0 then t * cL e0 j0 else 0) else 0 := by
    intro e j
    by_cases h1 : e = e0 <;> by_cases h2 : j = j0 <;> simp [h1, h2]
    ring
  simp only [this, Finset.sum_add_distrib]
  congr 1
  rw [Finset.sum_eq_single e0]
  · simp [hj]
  · intro b _ hb; simp [hb]
  · simp [he]

/-- `delta_m_coef_a` is the transpose of `delta_m_coef_l`. -/
theorem C34_delta_m_coef (ty : CoefType) (nCoef : Nat) (allsix : Bool) (f fL : ℝ) (coef coefL pa : Nat → Nat → ℝ)
    (omegaL ltauL : ℝ) {N : Nat} (hN : nCoef ≤ N) (g : Gather) :
    (deltaMCoefA ty nCoef allsix f coef pa g).pair N fL coefL omegaL ltauL =
      g.pair N fL coefL omegaL ltauL +
        ((coefOrder nCoef allsix).map fun x => pa x.1 x.2 * deltaMCoefL ty f fL coef coefL x.1 x.2).sum := by
  refine fold_weight (W := fun g => g.pair N fL coefL omegaL ltauL) _ (fun s x hx => ?_) g
  have hm : x.1 < 6 ∧ x.2 < nCoef := by
    simp only [coefOrder, List.mem_flatMap, List.mem_range, List.mem_map] at hx
    obtain ⟨j, hj, e, he, rfl⟩ := hx
    refine ⟨?_, hj⟩
    cases allsix <;> simp at he <;> simp only <;> omega
  unfold deltaMCoefStepA deltaMCoefL
  by_cases h4 : x.1 < 4
  · simp only [h4, if_true, Gather.pair]
    rw [sum_put N s.coef coefL _ hm.1 (lt_of_lt_of_le hm.2 hN)]
    ring
  · by_cases hty : ty = .gc
    · simp only [h4, hty, if_true, if_false, Gather.pair]
      rw [sum_put N s.coef coefL _ hm.1 (lt_of_lt_of_le hm.2 hN)]
      ring
    · simp only [h4, hty, if_false, Gather.pair]
      rw [sum_put N s.coef coefL _ hm.1 (lt_of_lt_of_le hm.2 hN)]
      ring

/-- The whole scaling of a layer. For any weights on the scaled layer, old or new contents of the arrays, and any
derivative of the inputs: what the gathered weights give for the derivative of the inputs has grown by what the weights on
the scaled layer give for the derivative that the forward code computes; `f_a` is used up. -/
theorem C34_opt_props (ty : CoefType) (allsix : Bool) (nCoef nCoef2 : Nat) (x : LayerIn) (pa : Nat → Nat → ℝ)
    (omegaA ltauA : ℝ) (g : Gather) :
    let y := optProps ty nCoef nCoef2 x
    let g' := optPropsA ty allsix nCoef nCoef2 x pa omegaA ltauA g
    g'.f = 0 ∧
    g'.pair (nCoef2 + 1) 0 x.coefL x.omegaL x.ltauL =
      g.pair (nCoef2 + 1) 0 x.coefL x.omegaL x.ltauL + omegaA * y.omegaL + ltauA * y.ltauL +
        ((coefOrder nCoef2 allsix).map fun k => pa k.1 k.2 * y.coefL k.1 k.2).sum := by
  intro y g'
  refine ⟨rfl, ?_⟩
  set f := deltaMF nCoef nCoef2 x.coef with hf
  set fL := deltaMFL nCoef nCoef2 x.coefL with hfL
  set g0 : Gather := { g with f := 0 } with hg0
  set g1 := deltaMLtauA f x.omega x.ltau ltauA g0 with hg1
  set g2 := deltaMOmegaA f x.omega omegaA g1 with hg2
  set g3 := deltaMCoefA ty nCoef2 allsix f x.coef pa g2 with hg3
  have e4 : g' = deltaMFA nCoef nCoef2 g3 := rfl
  have h0 : g0.pair (nCoef2 + 1) fL x.coefL x.omegaL x.ltauL = g.pair (nCoef2 + 1) 0 x.coefL x.omegaL x.ltauL := by
    simp [Gather.pair, hg0]
  have h1 : g1.pair (nCoef2 + 1) fL x.coefL x.omegaL x.ltauL =
      g0.pair (nCoef2 + 1) fL x.coefL x.omegaL x.ltauL + ltauA * y.ltauL := by
    have : y.ltauL = deltaMLtauL f fL x.omega x.omegaL x.ltau x.ltauL := rfl
    rw [this, hg1]
    simp only [deltaMLtauA, Gather.pair, deltaMLtauL]
    ring
  have h2 : g2.pair (nCoef2 + 1) fL x.coefL x.omegaL x.ltauL =
      g1.pair (nCoef2 + 1) fL x.coefL x.omegaL x.ltauL + omegaA * y.omegaL := by
    have : y.omegaL = deltaMOmegaL f fL x.omega x.omegaL := rfl
    rw [this, hg2]
    simp only [deltaMOmegaA, Gather.pair, deltaMOmegaL, div_eq_mul_inv, mul_inv]
    ring
  have h3 := C34_delta_m_coef ty nCoef2 allsix f fL x.coef x.coefL pa x.omegaL x.ltauL (Nat.le_succ nCoef2) g2
  have h4 : g'.pair (nCoef2 + 1) 0 x.coefL x.omegaL x.ltauL = g3.pair (nCoef2 + 1) fL x.coefL x.omegaL x.ltauL := by
    rw [e4, deltaMFA, hfL, deltaMFL]
    by_cases h : nCoef ≤ nCoef2
    · simp [h, Gather.pair]
    · simp only [h, if_false, Gather.pair]
      rw [sum_put (nCoef2 + 1) g3.coef x.coefL _ (by decide) (Nat.lt_succ_self _)]
      ring
  rw [h4, hg3, h3, h2, h1, h0]
  show _ = _ + ((coefOrder nCoef2 allsix).map fun k => pa k.1 k.2 * deltaMCoefL ty f fL x.coef x.coefL k.1 k.2).sum
  ring

/-- `n_t_tms_scaling_a`. -/
theorem C34_tms (f fL omega0 omega0L pa fA omega0A : ℝ) :
    (tmsOmegaA f omega0 pa fA omega0A).1 * fL + (tmsOmegaA f omega0 pa fA omega0A).2 * omega0L =
      fA * fL + omega0A * omega0L + pa * tmsOmegaL f fL omega0 omega0L := by
  simp only [tmsOmegaA, tmsOmegaL, tmsOmega, div_eq_mul_inv]
  ring

/-- `build_local_r_or_t_mat_a`. -/
theorem C34_local (iFour : Nat) (a : ℝ) (v qw : V n ℝ) (omega omegaL omegaA : ℝ) (P PL PA rA : M n ℝ) :
    (localA iFour a v qw omega P rA omegaA PA).1 * omegaL + mpair (localA iFour a v qw omega P rA omegaA PA).2 PL =
      omegaA * omegaL + mpair PA PL + mpair rA (localL iFour a v qw omega omegaL P PL) := by
  have : mpair rA (localL iFour a v qw omega omegaL P PL) =
      (∑ i, ∑ j, localB iFour a * (v i * rA i j * qw j) * P i j) * omegaL +
        mpair (omega • (Matrix.of fun i j => localB iFour a * (v i * rA i j * qw j) : M n ℝ)) PL := by
    simp only [mpair, localL, Matrix.of_apply, Matrix.smul_apply, smul_eq_mul, Finset.sum_mul, ← Finset.sum_add_distrib]
    refine Finset.sum_congr rfl fun i _ => Finset.sum_congr rfl fun j _ => ?_
    ring
  rw [this]
  simp only [localA, mpair, Matrix.of_apply, Matrix.add_apply, add_mul, Finset.sum_add_distrib]
  ring

theorem mpair_comm_diag (d : V n ℝ) (a b : M n ℝ) : mpair (mulD d a) b = mpair a (mulD d b) := by
  simp only [mpair, mulD, Matrix.of_apply]
  refine Finset.sum_congr rfl fun i _ => Finset.sum_congr rfl fun j _ => ?_
  ring

theorem mpair_addL (a b c : M n ℝ) : mpair (a + b) c = mpair a c + mpair b c := by
  simp [mpair, add_mul, Finset.sum_add_distrib]
theorem mpair_subL (a b c : M n ℝ) : mpair (a - b) c = mpair a c - mpair b c := by
  simp [mpair, sub_mul, Finset.sum_sub_distrib]
theorem mpair_addR (a b c : M n ℝ) : mpair a (b + c) = mpair a b + mpair a c := by
  simp [mpair, mul_add, Finset.sum_add_distrib]
theorem mpair_subR (a b c : M n ℝ) : mpair a (b - c) = mpair a b - mpair a c := by
  simp [mpair, mul_sub, Finset.sum_sub_distrib]

/-- `build_txr_a`. Full statement: for any contents of `r_p_a` (it is added to). With more than two Stokes parameters the
signs go on what was there as well (`C34_violated_txr`); both callers hand over zeros. -/
theorem C34_txr_partial (nStokes : Nat) (tprA tmrA rA tA rL tL : M n ℝ) (h : nStokes ≤ 2 ∨ rA = 0) :
    mpair (txrA nStokes tprA tmrA rA tA).1 rL + mpair (txrA nStokes tprA tmrA rA tA).2 tL =
      mpair rA rL + mpair tA tL + mpair tprA (txrL nStokes rL tL).1 + mpair tmrA (txrL nStokes rL tL).2 := by
  by_cases h2 : nStokes ≤ 2
  · simp only [txrA, txrL, h2, not_lt.2 h2, if_true, if_false, mpair_addL, mpair_addR, mpair_subL, mpair_subR]
    ring
  · obtain rfl := h.resolve_left h2
    simp only [txrA, txrL, h2, not_le.1 h2, if_true, if_false, mpair_comm_diag, mpair_addL, mpair_addR, mpair_subL,
      mpair_subR]
    simp [mpair]
    ring

theorem C34_violated_txr : ∃ tprA tmrA rA tA rL tL : M 3 ℝ,
    mpair (txrA 3 tprA tmrA rA tA).1 rL + mpair (txrA 3 tprA tmrA rA tA).2 tL ≠
      mpair rA rL + mpair tA tL + mpair tprA (txrL 3 rL tL).1 + mpair tmrA (txrL 3 rL tL).2 := by
  refine ⟨0, 0, Matrix.of fun _ _ => 1, 0, Matrix.of fun i _ => if i = 2 then 1 else 0, 0, ?_⟩
  simp [mpair, txrA, txrL, mulD, signs, Fin.sum_univ_three]
  norm_num

/-- `build_gamma_a`. -/
theorem C34_gamma (tpr tmr gA tprA tmrA tprL tmrL : M n ℝ) :
    mpair (gammaA tpr tmr gA tprA tmrA).1 tprL + mpair (gammaA tpr tmr gA tprA tmrA).2 tmrL =
      mpair tprA tprL + mpair tmrA tmrL + mpair gA (gammaL tpr tmr tprL tmrL) := by
  simp only [gammaA, gammaL, mpair_addL, mpair_addR, mpair_tmul, mpair_mult]
  ring

end Xrtm.Adjoint
