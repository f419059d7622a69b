import Verif.Proof.DoublingE
import Verif.Props.Adding

/-!
# C31, C41: doubling

`layer_double` and `layer_double_l` put a layer on an equal layer, the loop of `rtm_doub_rts` puts `2 ^ k` thin layers
together, and the derivatives it carries are those of its results, for every derivative that varies the layer itself. For
derivatives that only vary the beam above the layer the thin layer starts with a wrong value.
-/

namespace Xrtm.Doubling

open Mat Spec Matrix Filter Topology
open Adding (sc sc_mul sc_sub sc_one idealInv idealInv_exact)

variable {n : Nat}

section values
variable {K : Type} [CommRing K] {inv? : M n K → Option (M n K)}

/-- C31. If light between two such layers dies out in one way only, one call gives the two layers together: with the solar
sources (`t` dims those of the lower), with the thermal sources, and with the slope of the thermal sources; and it gives it
whichever routine is called. -/
theorem C31_double (hinv : Exact inv?) {D : M n K} (hD : D * D = 1) (pl : Bool) (nd : Nat) (x : Scal K) (fl : Flags)
    (sol th init : Bool) (s : Mem n K) (hq : Regular (s.m R) (s.m R)) :
    ∃ s', run inv? (if pl then layerDouble x.t x.g sol th init else layerDoubleL nd x fl sol th init) s = .ok s' ∧
      (sol = true →
        Stacked (.sym D (s.m R) (s.m T) (s.v Sep) (s.v Sem)) (.sym D (s.m R) (s.m T) (x.t • s.v Sep) (x.t • s.v Sem))
          (.sym D (s'.m R) (s'.m T) (s'.v Sep) (s'.v Sem))) ∧
      (th = true →
        let lp := if init then s.v Slp else s.v Lp
        let lm := if init then s.v Slm else s.v Lm
        Stacked (.sym D (s.m R) (s.m T) (s.v Slp) (s.v Slm))
          (.sym D (s.m R) (s.m T) (s.v Slp + x.g • lp) (s.v Slm + x.g • lm))
          (.sym D (s'.m R) (s'.m T) (s'.v Slp) (s'.v Slm)) ∧
        Stacked (.sym D (s.m R) (s.m T) lp lm) (.sym D (s.m R) (s.m T) lp lm)
          (.sym D (s'.m R) (s'.m T) (s'.v Lp) (s'.v Lm))) ∧
      Stacked (.sym D (s.m R) (s.m T) 0 0) (.sym D (s.m R) (s.m T) 0 0) (.sym D (s'.m R) (s'.m T) 0 0) := by
  obtain ⟨q, hq⟩ := hq
  have key : ∃ s', run inv? (if pl then layerDouble x.t x.g sol th init else layerDoubleL nd x fl sol th init) s = .ok s' ∧
      Val q x.t x.g sol th init s s' := by
    cases pl with
    | true => obtain ⟨s', h1, h2⟩ := (layerDouble_post hinv hq x.t x.g sol th init).elim; exact ⟨s', h1, h2.1⟩
    | false => obtain ⟨s', h1, h2⟩ := (layerDoubleL_post hinv hq nd x fl sol th init).elim; exact ⟨s', h1, h2.1⟩
  obtain ⟨s', h1, hv⟩ := key
  refine ⟨s', h1, fun w => ?_, fun w => ⟨?_, ?_⟩, ?_⟩
  · rw [hv.hr, hv.ht, (hv.se w).1, (hv.se w).2]
    exact stacked_sym hD hq _ _ _ _
  · rw [hv.hr, hv.ht, (hv.sl w).1, (hv.sl w).2.1]
    exact stacked_sym hD hq _ _ _ _
  · rw [hv.hr, hv.ht, (hv.sl w).2.2.1, (hv.sl w).2.2.2]
    exact stacked_sym hD hq _ _ _ _
  · have := stacked_sym (T0 := s.m T) hD hq 0 0 0 0
    rw [hv.hr, hv.ht]
    simpa [oP, oM] using this

/-- C31. It fails only if the light between the layers does not die out, and then always. -/
theorem C31_fails (hinv : Exact inv?) (pl : Bool) (nd : Nat) (x : Scal K) (fl : Flags) (sol th init : Bool) (s : Mem n K) :
    run inv? (if pl then layerDouble x.t x.g sol th init else layerDoubleL nd x fl sol th init) s = .error .singular ↔
      ¬ Regular (s.m R) (s.m R) := by
  constructor
  · exact fun h => (step_fails hinv h).2
  · intro h
    cases e : run inv? (if pl then layerDouble x.t x.g sol th init else layerDoubleL nd x fl sol th init) s with
    | error err => rw [(step_fails hinv e).1]
    | ok s' =>
        obtain ⟨q, hq, -⟩ := step_ok hinv e
        exact absurd ⟨q, hq⟩ h

/-- C31. `k` turns of the loop put `2 ^ k` layers together: own light from the beam is dimmed from each to the next, own
thermal light grows from each to the next. -/
theorem C31_powers (hinv : Exact inv?) {D : M n K} (hD : D * D = 1) {nd k : Nat} {fl : Flags} {sol th : Bool} {pth : Nat → K}
    {x x' : Scal K} {c : K} {s s' : Mem n K} (h : loop inv? nd fl sol th pth k true x c s = .ok (s', x')) :
    (sol = true → Joined (dimming (2 ^ k) x.t D (s.m R) (s.m T) (s.v Sep) (s.v Sem))
      (.sym D (s'.m R) (s'.m T) (s'.v Sep) (s'.v Sem))) ∧
    (th = true → Joined (growing (2 ^ k) x.g D (s.m R) (s.m T) (s.v Slp) (s.v Slm) (s.v Slp) (s.v Slm))
      (.sym D (s'.m R) (s'.m T) (s'.v Slp) (s'.v Slm))) :=
  ⟨fun w => (loop_solar hinv hD w h).1, fun w => loop_thermal hinv hD w h⟩

/-- C31. Nothing else goes wrong in the loop. -/
theorem C31_loop_fault (hinv : Exact inv?) {nd k : Nat} {fl : Flags} {sol th init : Bool} {pth : Nat → K}
    {x : Scal K} {c : K} {s : Mem n K} {err : Fault} (h : loop inv? nd fl sol th pth k init x c s = .error err) :
    err = .singular :=
  loop_fails hinv h

end values

section thin
variable {K : Type} [Field K] [DecidableEq K] {inv? : M n K → Option (M n K)}

/-- C31. The whole of `rtm_doub_rts`: the result is `2 ^ k` layers `1 ± d_tau t`, `- d_tau r` with solar sources of the thin
layer, each dimmed by the beam through the layers above it. -/
theorem C31_solar (hinv : Exact inv?) {o : Env0 n K} (hD : o.D * o.D = 1) {k nd : Nat} {fl : Flags} {th : Bool}
    {z : In n K} {dz : Nat → In n K} {s' : Mem n K} {x' : Scal K} (h : doub inv? o k nd fl true th z dz = .ok (s', x')) :
    Joined (dimming (2 ^ k) (o.exp (-z.dt * z.as0)) o.D (o.D * (-z.dt • z.r)) (1 - -z.dt • z.t)
        ((o.a * z.om * o.exp (-z.dt * z.as0) * z.dt) • fun j => o.w j * z.pm j)
        (o.D *ᵥ ((o.a * z.om * o.exp (-z.dt * z.as0) * z.dt) • fun j => o.w j * z.mm j)))
      (.sym o.D (s'.m R) (s'.m T) (s'.v Sep) (s'.v Sem)) :=
  (C31_powers hinv hD h).1 rfl

/-- C31. Thermal sources, when `planck0` is not zero and emission is not polarised (`D` leaves it alone): layer `i` emits by
the Planck function that grows linearly from `planck0` to `planck1` over the whole layer. -/
theorem C31_thermal (hinv : Exact inv?) {o : Env0 n K} (hD : o.D * o.D = 1) {k nd : Nat} {fl : Flags} {sol : Bool}
    {z : In n K} {dz : Nat → In n K} {s' : Mem n K} {x' : Scal K} (hb : z.b0 ≠ 0)
    (h : doub inv? o k nd fl sol true z dz = .ok (s', x')) :
    Joined ((List.range (2 ^ k)).map fun i : Nat =>
        Layer.sym o.D (o.D * (-z.dt • z.r)) (1 - -z.dt • z.t)
          (fun j => o.w j * ((1 - z.om) * (z.b0 + i * ((z.b1 - z.b0) / 2 ^ k)) * z.dt))
          (fun j => o.w j * ((1 - z.om) * (z.b0 + i * ((z.b1 - z.b0) / 2 ^ k)) * z.dt)))
      (.sym o.D (s'.m R) (s'.m T) (s'.v Slp) (s'.v Slm)) := by
  have := (C31_powers hinv hD h).2 rfl
  refine cast ?_ this
  simp only [growing]
  congr 1
  refine List.map_congr_left fun i _ => ?_
  have e : (over o fun _ => emit z) + ((i : K) * linFac k z) • (over o fun _ => emit z) =
      fun j => o.w j * ((1 - z.om) * (z.b0 + i * ((z.b1 - z.b0) / 2 ^ k)) * z.dt) := by
    funext j
    simp only [over, emit, linFac, if_neg hb, Pi.add_apply, Pi.smul_apply, smul_eq_mul]
    field_simp
  exact congrArg₂ (Layer.sym o.D _ _) e e

end thin

/-- C31. The derivatives: near the point of expansion the routine without derivatives gives curves of results, and the arrays
of derivative `i` are their derivatives, if the derivatives of the inputs were. The operators always; the sources where
the flags say they vary. (`hb`: not for derivatives of the beam alone, see `C31_violated_beam`.) -/
theorem C31_derivative_partial {inv? : M n ℝ → Option (M n ℝ)} (hinv : Exact inv?) {o : Env0 n ℝ} (he : o.exp = Real.exp)
    {i k nd : Nat} (hi : i < nd) {fl : Flags} {sol th : Bool} {z : ℝ → In n ℝ} {dz : Nat → In n ℝ} {x0 : ℝ}
    (h : InDeriv z (dz i) x0) (hl : fl.lay i = false → Still (dz i))
    (hb : sol = true → fl.beam i = true → fl.lay i = false → (dz i).as0 = 0)
    (ht : th = true → fl.therm i = true → (z x0).b0 ≠ 0)
    {s' : Mem n ℝ} {x' : Scal ℝ} (hs : doub inv? o k nd fl sol th (z x0) dz = .ok (s', x')) :
    ∃ out : ℝ → Mem n ℝ, (∀ᶠ y in 𝓝 x0, ∃ xo, doub inv? o k 0 off sol th (z y) dz = .ok (out y, xo)) ∧
      (fl.lay i = true → MDeriv (fun y => (out y).m R) (s'.m (Rl i)) x0 ∧ MDeriv (fun y => (out y).m T) (s'.m (Tl i)) x0) ∧
      (fl.lay i = false → MDeriv (fun y => (out y).m R) 0 x0 ∧ MDeriv (fun y => (out y).m T) 0 x0) ∧
      (sol = true → fl.beam i = true → VDeriv (fun y => (out y).v Sep) (s'.v (Sepl i)) x0 ∧
        VDeriv (fun y => (out y).v Sem) (s'.v (Seml i)) x0) ∧
      (th = true → fl.therm i = true → VDeriv (fun y => (out y).v Slp) (s'.v (Slpl i)) x0 ∧
        VDeriv (fun y => (out y).v Slm) (s'.v (Slml i)) x0) := by
  have h0 := tracks_start (k := k) (dz0 := fun _ => dz) he h hl hb ht
  obtain ⟨out, xout, init', e1, e2⟩ := tracks_loop hinv (pth0 := fun y j => path (off.lay j) (z y) (dz j)) (c0 := fun _ => 1) hi h0
    (pth := fun i => path (fl.lay i) (z x0) (dz i)) (c := 1) (fun _ _ => by simp [scal0]) hs
  refine ⟨out, e1.mono fun y hy => ⟨_, hy⟩, fun w => ?_, fun w => ?_, fun w1 w2 => ?_, fun w1 w2 => ?_⟩
  · have a1 := e2.dr
    have a2 := e2.dt
    rw [R', if_pos w] at a1
    rw [T', if_pos w] at a2
    exact ⟨a1, a2⟩
  · have a1 := e2.dr
    have a2 := e2.dt
    rw [R', if_neg (by simp [w])] at a1
    rw [T', if_neg (by simp [w])] at a2
    exact ⟨a1, a2⟩
  · exact ⟨(e2.dse w1 w2).1, (e2.dse w1 w2).2.1⟩
  · exact ⟨(e2.dsl w1 w2).1, (e2.dsl w1 w2).2.1⟩

/-- C41. The thin layer: doubled `n_doub` times it is the layer, it is thinner than asked for, and not thinner than needed. -/
theorem C41_thin_layer {ltau d : ℝ} (h1 : 0 < ltau) (h2 : 0 < d) :
    1 ≤ (doubParams ltau d).1 ∧ (doubParams ltau d).2 * 2 ^ (doubParams ltau d).1 = ltau ∧ (doubParams ltau d).2 < d ∧
      (d ≤ ltau → d / 2 ≤ (doubParams ltau d).2) :=
  doubParams_spec h1 h2

example : (doubParams 3 (1/2)).2 * 2 ^ (doubParams 3 (1/2)).1 = 3 := (C41_thin_layer (by norm_num) (by norm_num)).2.1

/-! ## Examples -/

section examples

theorem sc_regular (a : ℝ) (h : 1 - a * a ≠ 0) : Regular (sc a) (sc a) :=
  ⟨sc (1 - a * a)⁻¹, by rw [sc_mul, sc_one, sc_sub, sc_mul, inv_mul_cancel₀ h]⟩

/-- A layer that reflects a quarter and lets a half through, with sources. -/
noncomputable def demoD : Mem 1 ℝ where
  m c := if c = R then sc (1/4) else if c = T then sc (1/2) else sc 1
  v c := if c = Sep then fun _ => 1 else fun _ => 2

example : ∃ s', run idealInv (if false then layerDouble (1/2) 0 true true true else
      layerDoubleL 2 ⟨1/2, fun _ => 1, 3, fun _ => 4⟩ ⟨fun i => i == 0, fun _ => true, fun _ => true⟩ true true true) demoD =
      .ok s' ∧
    Stacked (.sym 1 (sc (1/4)) (sc (1/2)) (fun _ => 1) (fun _ => 2))
      (.sym 1 (sc (1/4)) (sc (1/2)) ((1/2 : ℝ) • fun _ => 1) ((1/2 : ℝ) • fun _ => 2))
      (.sym 1 (s'.m R) (s'.m T) (s'.v Sep) (s'.v Sem)) := by
  obtain ⟨s', h1, h2, _⟩ := C31_double (inv? := idealInv) idealInv_exact (mul_one (1 : M 1 ℝ)) false 2
    ⟨1/2, fun _ => 1, 3, fun _ => 4⟩ ⟨fun i => i == 0, fun _ => true, fun _ => true⟩ true true true demoD
    (sc_regular _ (by norm_num))
  exact ⟨s', h1, h2 rfl⟩

example : run idealInv (if true then layerDouble 1 0 true false false else
      layerDoubleL 0 ⟨1, fun _ => 1, 3, fun _ => 4⟩ off true false false)
      { demoD with m := fun _ => sc 1 } = .error .singular := by
  refine (C31_fails (inv? := idealInv) idealInv_exact true 0 ⟨1, fun _ => 1, 3, fun _ => 4⟩ off true false false _).2 ?_
  rintro ⟨q, hq⟩
  simp [sc_mul, ← sc_one] at hq

end examples

/-! ## What does not hold -/

section violated

/-- One angle, no scattering between angles, sunlight scattered with albedo 1 in a thin layer of thickness 1. -/
noncomputable def beamIn (as0 b0 : ℝ) : In 1 ℝ := ⟨0, 0, fun _ => 1, fun _ => 1, 1/2, 1, as0, b0, 1⟩
noncomputable def beamEnv : Env0 1 ℝ := ⟨2, fun _ => 1, 1, Real.exp⟩
def zeroIn : In 1 ℝ := ⟨0, 0, 0, 0, 0, 0, 0, 0, 0⟩

/-- Doubling a clear layer once. -/
theorem clear_once {o : Env0 n ℝ} {nd : Nat} {fl : Flags} {sol th : Bool} {z : In n ℝ} {dz : Nat → In n ℝ}
    (hr : z.r = 0) (ht : z.t = 0) :
    ∃ s' x', doub idealInv o 1 nd fl sol th z dz = .ok (s', x') ∧
      (sol = true → s'.v Sep = (mem0 o fl z dz).v Sep + tran o z • (mem0 o fl z dz).v Sep) ∧
      (th = true → s'.v Slp = (mem0 o fl z dz).v Slp + ((mem0 o fl z dz).v Slp + linFac 1 z • (mem0 o fl z dz).v Slp)) ∧
      ∀ i, i < nd → sol = true → fl.beam i = true → fl.lay i = false →
        s'.v (Sepl i) = (path false z (dz i) * tran o z) • (mem0 o fl z dz).v Sep := by
  have hR : (mem0 o fl z dz).m R = 0 := by simp [mem0, R, hr]
  have hT : (mem0 o fl z dz).m T = 1 := by simp [mem0, T, ht]
  have hq : (1 : M n ℝ) * (1 - (mem0 o fl z dz).m R * (mem0 o fl z dz).m R) = 1 := by rw [hR]; simp
  obtain ⟨s', h1, -⟩ := C31_double (inv? := idealInv) idealInv_exact (mul_one (1 : M n ℝ)) (plain nd fl sol th) nd
    (scal0 o 1 fl z dz) fl sol th true (mem0 o fl z dz) ⟨1, hq⟩
  obtain ⟨q, hq', hv, ho⟩ := step_ok idealInv_exact h1
  have eq : q = 1 := by rw [hR] at hq'; simpa using hq'
  subst eq
  refine ⟨s', _, by simp [doub, loop, h1]; rfl, fun w => ?_, fun w => ?_, fun i hi w1 w2 w3 => ?_⟩
  · rw [(hv.se w).1, oP, hR, hT]
    simp [scal0]
  · rw [(hv.sl w).1, oP, hR, hT]
    simp [scal0, Lp0]
  · have hpl : plain nd fl sol th = false := by
      by_contra hc
      have := (plain_inactive (by simpa using hc) hi).2.1 w1
      simp [this] at w2
    have d1 : (6 * i + 1) / 6 = i := by omega
    have f1 : (6 * i + 1) % 6 = 1 := by omega
    have d0 : 6 * i / 6 = i := by omega
    have f0 : 6 * i % 6 = 0 := by omega
    have z1 : (mem0 o fl z dz).v (Sepl i) = 0 := by simp [mem0, Sepl, d1, f1, w3]
    have z2 : (mem0 o fl z dz).v (Seml i) = 0 := by simp [mem0, Seml, d0, f0, w3]
    have z3 : R' fl i (mem0 o fl z dz) = 0 := by simp [R', w3]
    have z4 : T' fl i (mem0 o fl z dz) = 0 := by simp [T', w3]
    rw [((ho hpl i hi).se w1 w2).1, gP, hR, hT, z1, z2, z3, z4, gA_zero]
    simp [scal0, w3]

/-- C31 fails for a derivative that varies only the beam: the thin layer starts with derivative zero (`dvec_zero`,
`xrtm_doub_rts.c:240-243`) although its source holds the factor `exp(-d_tau as_0)`. The inputs vary as the hypotheses of
`C31_derivative_partial` say (but for `hb`), the routine succeeds, and `S_p_l` is not the derivative of `S_p`. -/
theorem C31_violated_beam :
    ∃ (o : Env0 1 ℝ) (fl : Flags) (z : ℝ → In 1 ℝ) (dz : Nat → In 1 ℝ) (s' : Mem 1 ℝ) (x' : Scal ℝ),
      o.exp = Real.exp ∧ fl.lay 0 = false ∧ fl.beam 0 = true ∧ InDeriv z (dz 0) 0 ∧ Still (dz 0) ∧
      doub idealInv o 1 1 fl true false (z 0) dz = .ok (s', x') ∧
      ∀ out : ℝ → Mem 1 ℝ, (∀ᶠ y in 𝓝 0, ∃ xo, doub idealInv o 1 0 off true false (z y) dz = .ok (out y, xo)) →
        ¬ VDeriv (fun y => (out y).v Sep) (s'.v (Sepl 0)) 0 := by
  obtain ⟨s', x', h1, -, -, h4⟩ := clear_once (o := beamEnv) (nd := 1) (fl := ⟨fun _ => false, fun _ => true, fun _ => false⟩)
    (sol := true) (th := false) (z := beamIn 0 1) (dz := fun _ => { zeroIn with as0 := 1 }) rfl rfl
  have h5 := h4 0 (by norm_num) rfl rfl rfl
  refine ⟨beamEnv, ⟨fun _ => false, fun _ => true, fun _ => false⟩, fun y => beamIn y 1, fun _ => { zeroIn with as0 := 1 }, s',
    x', rfl, rfl, rfl, ?_, ⟨rfl, rfl, rfl, rfl, rfl, rfl⟩, h1, ?_⟩
  · exact ⟨fun _ _ => hasDerivAt_const _ _, fun _ _ => hasDerivAt_const _ _, fun _ => hasDerivAt_const _ _,
      fun _ => hasDerivAt_const _ _, hasDerivAt_const _ _, hasDerivAt_const _ _, hasDerivAt_id' _, hasDerivAt_const _ _,
      hasDerivAt_const _ _⟩
  · intro out ho hd
    have e : ∀ᶠ y in 𝓝 (0 : ℝ), (out y).v Sep 0 = Real.exp (-y) + Real.exp (-y) * Real.exp (-y) := by
      filter_upwards [ho] with y ⟨xo, hy⟩
      obtain ⟨u, xu, k1, k2, -⟩ := clear_once (o := beamEnv) (nd := 0) (fl := off)
        (sol := true) (th := false) (z := beamIn y 1) (dz := fun _ => { zeroIn with as0 := 1 }) rfl rfl
      rw [k1] at hy
      injection hy with hy
      rw [← (Prod.mk.inj hy).1, k2 rfl]
      simp [mem0, Sep, amp, tran, beamEnv, beamIn, over]
    have hd0 := hd 0
    have t0 : HasDerivAt (fun y : ℝ => Real.exp (-y)) (-1) 0 := by
      refine ((hasDerivAt_id' (0 : ℝ)).fun_neg.exp).congr_deriv ?_
      simp
    have t1 : HasDerivAt (fun y : ℝ => Real.exp (-y) + Real.exp (-y) * Real.exp (-y)) (-3) 0 := by
      refine (t0.fun_add (t0.fun_mul t0)).congr_deriv ?_
      simp; norm_num
    have := hd0.unique (t1.congr_of_eventuallyEq e)
    rw [h5] at this
    simp [mem0, Sep, amp, tran, beamEnv, beamIn, over, path, zeroIn] at this

/-- C31 fails for thermal sources where `planck0` is zero: `lin_fac` is set to zero (`xrtm_doub_rts.c:200`) and the layer emits
nothing, though `planck1` is not zero and the Planck function of the thin layers is not either (`C31_thermal` has it). -/
theorem C31_violated_planck :
    ∃ (o : Env0 1 ℝ) (z : In 1 ℝ) (dz : Nat → In 1 ℝ) (s' : Mem 1 ℝ) (x' : Scal ℝ), o.D * o.D = 1 ∧ z.b0 = 0 ∧ z.b1 = 1 ∧ z.om < 1 ∧
      doub idealInv o 1 0 off false true z dz = .ok (s', x') ∧ s'.v Slp = 0 ∧
      ¬ Joined ((List.range (2 ^ 1)).map fun i : Nat =>
        Layer.sym o.D (o.D * (-z.dt • z.r)) (1 - -z.dt • z.t)
          (fun j => o.w j * ((1 - z.om) * (z.b0 + i * ((z.b1 - z.b0) / 2 ^ 1)) * z.dt))
          (fun j => o.w j * ((1 - z.om) * (z.b0 + i * ((z.b1 - z.b0) / 2 ^ 1)) * z.dt)))
      (.sym o.D (s'.m R) (s'.m T) (s'.v Slp) (s'.v Slm)) := by
  obtain ⟨s', x', h1, -, h3, -⟩ := clear_once (o := beamEnv) (nd := 0) (fl := off)
    (sol := false) (th := true) (z := beamIn 0 0) (dz := fun _ => zeroIn) rfl rfl
  have e0 : s'.v Slp = 0 := by
    rw [h3 rfl]
    funext j
    simp [mem0, Slp, emit, beamEnv, beamIn, over]
  refine ⟨beamEnv, beamIn 0 0, fun _ => zeroIn, s', x', by simp [beamEnv], rfl, rfl, by norm_num [beamIn], h1, e0, fun hj => ?_⟩
  -- no light comes in: the layers emit upwards, the result does not
  have key := (hj 0 (fun _ => 1/4) (fun _ => 1/4) 0).2 (by
    simp only [pow_one, List.range_succ, List.range_zero, List.nil_append, List.cons_append, List.map_cons, List.map_nil, Through,
      Layer.Obeys, Layer.sym, beamIn, beamEnv]
    refine ⟨0, fun _ => 1/4, ⟨?_, ?_⟩, fun _ => 1/4, 0, ⟨?_, ?_⟩, rfl, rfl⟩ <;> funext j <;> simp <;> norm_num)
  have k1 := congrFun key.1 0
  simp [Layer.sym, e0] at k1

/-- ... and with polarisation: emission is put into all Stokes components (`xrtm_doub_rts.c:216-217`), so that a layer that only
emits, emits polarised light (component 1 is `Q`). -/
theorem C31_violated_stokes :
    ∃ (o : Env0 2 ℝ) (z : In 2 ℝ) (dz : Nat → In 2 ℝ) (s' : Mem 2 ℝ) (x' : Scal ℝ), z.r = 0 ∧ z.t = 0 ∧ z.pm = 0 ∧ z.mm = 0 ∧
      doub idealInv o 1 0 off false true z dz = .ok (s', x') ∧ s'.v Slp 1 ≠ 0 := by
  obtain ⟨s', x', h1, -, h3, -⟩ := clear_once (o := (⟨2, fun _ => 1, 1, Real.exp⟩ : Env0 2 ℝ)) (nd := 0) (fl := off)
    (sol := false) (th := true) (z := ⟨0, 0, 0, 0, 0, 1, 0, 1, 1⟩) (dz := fun _ => ⟨0, 0, 0, 0, 0, 0, 0, 0, 0⟩) rfl rfl
  refine ⟨_, _, _, s', x', rfl, rfl, rfl, rfl, h1, ?_⟩
  rw [h3 rfl]
  simp [mem0, Slp, emit, over, linFac]

/-- The theorem applies: a derivative of a scattering layer, sunlight and emission. -/
example : ∃ out : ℝ → Mem 1 ℝ, (∀ᶠ y in 𝓝 0, ∃ xo, doub idealInv beamEnv 1 0 off true true (beamIn y 1) (fun _ => { zeroIn with as0 := 1 }) =
      .ok (out y, xo)) := by
  obtain ⟨s', x', h1, -⟩ := clear_once (o := beamEnv) (nd := 1) (fl := ⟨fun _ => true, fun _ => true, fun _ => true⟩)
    (sol := true) (th := true) (z := beamIn 0 1) (dz := fun _ => { zeroIn with as0 := 1 }) rfl rfl
  obtain ⟨out, h, -⟩ := C31_derivative_partial (z := fun y => beamIn y 1) (x0 := 0) (i := 0) idealInv_exact rfl (by norm_num)
    ⟨fun _ _ => hasDerivAt_const _ _, fun _ _ => hasDerivAt_const _ _, fun _ => hasDerivAt_const _ _,
      fun _ => hasDerivAt_const _ _, hasDerivAt_const _ _, hasDerivAt_const _ _, hasDerivAt_id' _, hasDerivAt_const _ _,
      hasDerivAt_const _ _⟩ (by simp) (by simp) (by simp [beamIn]) h1
  exact ⟨out, h⟩

/-- ... and the values. -/
example : ∃ (s' : Mem 1 ℝ) (x' : Scal ℝ), doub idealInv beamEnv 1 0 off true true (beamIn 0 1) (fun _ => zeroIn) = .ok (s', x') ∧
    Joined ((List.range (2 ^ 1)).map fun i : Nat => Layer.sym (1 : M 1 ℝ) (1 * (-1 • 0)) (1 - -1 • 0)
          (fun _ => 1 * ((1 - 1/2) * (1 + i * ((1 - 1) / 2 ^ 1)) * 1)) (fun _ => 1 * ((1 - 1/2) * (1 + i * ((1 - 1) / 2 ^ 1)) * 1)))
      (.sym 1 (s'.m R) (s'.m T) (s'.v Slp) (s'.v Slm)) := by
  obtain ⟨s', x', h1, -⟩ := clear_once (o := beamEnv) (nd := 0) (fl := off)
    (sol := true) (th := true) (z := beamIn 0 1) (dz := fun _ => zeroIn) rfl rfl
  refine ⟨s', x', h1, ?_⟩
  have := C31_thermal idealInv_exact (by simp [beamEnv]) (by norm_num [beamIn]) h1
  simpa [beamIn, beamEnv] using this

end violated

end Xrtm.Doubling
