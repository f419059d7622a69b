import Verif.Proof.RadianceC
import Verif.Props.Adding

/-!
# C32: the light at the top and at the bottom
-/

namespace Xrtm.Radiance

open Mat Spec Matrix Filter Topology Derivs
open Adding (Act solve decode totalLoop boaLoop toaSurface toaBare LayerIn layersOf RefCodes allExits both mirrorOut vals frameAll
  frameRef idealInv idealInv_exact sc sc_mul sc_sub sc_add sc_one sc_zero sc_vec C29_total_ok C29_boa_ok C29_toa_ok
  toaSurface_value)

variable {K : Type} [CommRing K] {n : Nat} {inv? : M n K → Option (M n K)}

/-- The layers of an atmosphere together, and what is below them: the surface, or nothing but the light `In`. -/
def Atm.layer (a : Atm n K) : Layer n K := ⟨a.Rm, a.Tm, a.Sm, a.Rp, a.Tp, a.Sp⟩
def Atm.base (surface : Bool) (a : Atm n K) : Mirror n K := ⟨if surface then a.Rs else 0, a.In⟩

/-- The light is one: for what comes in there is exactly one light that obeys the layers and the surface. -/
theorem C32_unique {ls : List (Layer n K)} {l : Layer n K} (h : Joined ls l) (base : Mirror n K)
    (hr : Regular l.Rp base.R) (dn1 : V n K) :
    ∃! p : V n K × V n K × V n K, Lit ls base dn1 p.1 p.2.1 p.2.2 := lit_unique h base hr dn1

/-- Both ways: each output level gets the light that obeys the layers and the surface at once. Whatever the arrays held, for
any number of derivatives. -/
theorem C32_both_ways (hinv : Exact inv?) {ls : List (Layer n K)} {a : Atm n K} (hj : Joined ls a.layer) (surface : Bool)
    (hr : surface = true → Regular a.Rp a.Rs) {nLayers : Nat} {ul : List Nat}
    (hn : 0 < nLayers) (hul : ul.Pairwise (· < ·)) (hul2 : ∀ l ∈ ul, l = 0 ∨ l = nLayers) (hul3 : ul ≠ [])
    (nd : Nat) (act : Nat → Act × Act) (d : Nat → Atm n K) (old : Nat → Nat → Pair n K) (work : Nat → Pair n K) :
    ∃ out, bothWays inv? nd nLayers act surface ul a d old work = .ok out ∧
      ∃ up1 dn2 up2, Lit ls (a.base surface) a.I1 up1 dn2 up2 ∧
        ∀ k, (ul[k]? = some 0 → out k 0 = (up1, a.I1)) ∧ (ul[k]? = some nLayers → out k 0 = (up2, dn2)) := by
  obtain ⟨q, hq⟩ : ∃ q : M n K, q * (1 - a.layer.Rp * (a.base surface).R) = 1 := by
    cases surface with
    | true => exact hr rfl
    | false => exact ⟨1, by simp [Atm.base]⟩
  have hq' : surface = true → q * (1 - a.Rp * a.Rs) = 1 := by
    rintro rfl
    exact hq
  obtain ⟨out, bot, top, h1, hB, hT, h2⟩ := bothWays_post hinv nd nLayers act surface hn hul hul2 hul3 a d old work hq'
  refine ⟨out, h1, (top 0).1, (bot 0).2, (bot 0).1, ?_, fun k => ⟨fun e => ?_, fun e => ?_⟩⟩
  · rw [lit_iff hj _ hq, hT.val]
    cases surface with
    | true => rw [hB.lit rfl]; exact ⟨rfl, rfl, rfl⟩
    | false =>
        rw [hB.bare rfl]
        have : q = 1 := by simpa [Atm.base] using hq
        subst this
        refine ⟨(one_mulVec _).symm, ?_, rfl⟩
        simp [Atm.base]
  · rw [(h2 k).1 e, hT.val]
  · rw [(h2 k).2 e]

/-- ... and a surface that catches light in more than one way ends in the exit of the factorisation. -/
theorem C32_both_ways_singular (hinv : Exact inv?) {a : Atm n K} (hr : ¬ Regular a.Rp a.Rs) {nLayers : Nat} {ul : List Nat}
    (nd : Nat) (act : Nat → Act × Act) (d : Nat → Atm n K) (old : Nat → Nat → Pair n K) (work : Nat → Pair n K) :
    bothWays inv? nd nLayers act true ul a d old work = .error .singular := by
  unfold bothWays
  simp only [if_true]
  rw [onSurface_singular hinv nd act a d _ hr]

/-- Top down, over a surface: right without light from outside at the top. Missing: `F_iso_top` (`C32_violated_iso_top`)
and, without a surface, `F_iso_bot` (`C32_violated_iso_bot`). -/
theorem C32_top_down_partial (hinv : Exact inv?) {ls : List (Layer n K)} {a : Atm n K}
    (hm : Hanging ls ⟨a.Rp, a.Sm⟩) (h0 : a.I1 = 0) (surface : Bool)
    (hr : surface = true → Regular a.Rp a.Rs) (hi : surface = false → a.In = 0)
    (nd : Nat) (act : Nat → Act × Act) (d : Nat → Atm n K) (old : Nat → Pair n K) :
    ∃ out, topDown inv? nd act surface a d old = .ok out ∧ ∃ up1, Lit ls (a.base surface) a.I1 up1 (out 0).2 (out 0).1 := by
  cases surface with
  | true =>
      obtain ⟨q, hq⟩ := hr rfl
      obtain ⟨out, h1, h2, -⟩ := topDown_post hinv nd act a d old hq
      refine ⟨out, h1, ?_⟩
      rw [h2, h0]
      have e : q *ᵥ (a.Rp *ᵥ a.In + a.Sm) = a.Rp *ᵥ (a.Rs *ᵥ (q *ᵥ (a.Rp *ᵥ a.In + a.Sm)) + a.In) + a.Sm := by
        have := (solve hq (x := q *ᵥ (a.Rp *ᵥ a.In + a.Sm)) (b := a.Rp *ᵥ a.In + a.Sm)).2 rfl
        generalize q *ᵥ (a.Rp *ᵥ a.In + a.Sm) = z at this ⊢
        rw [sub_mulVec, one_mulVec, sub_eq_iff_eq_add] at this
        refine this.trans ?_
        rw [mulVec_add, mulVec_mulVec]
        abel
      obtain ⟨up1, h3⟩ := (hm _ _).1 e
      exact ⟨up1, h3, rfl⟩
  | false =>
      refine ⟨_, by simp [topDown]; rfl, ?_⟩
      rw [h0]
      obtain ⟨up1, h3⟩ := (hm (0 : V n K) a.Sm).1 (by simp [Mirror.Obeys])
      exact ⟨up1, h3, by simp [Atm.base, Mirror.Obeys, hi rfl]⟩

/-- Bottom up: `R`, `S` are the layers on what the total starts from, the surface with the light `In` or nothing. Missing:
`F_iso_bot` without a surface (`C32_violated_iso_bot`). -/
theorem C32_bottom_up_partial {ls : List (Layer n K)} {base : Mirror n K} {R : M n K} {S : V n K} (hm : Resting ls base ⟨R, S⟩)
    (I1 : V n K) (nd : Nat) (act : Nat → Act × Act) (Rl : Nat → M n K) (Sl : Nat → V n K) (I1l : Nat → V n K) (old : Nat → Pair n K) :
    ∃ out, bottomUp inv? nd act R S Rl Sl I1 I1l old = .ok out ∧ (out 0).2 = I1 ∧
      ∃ dn2 up2, Lit ls base I1 (out 0).1 dn2 up2 := by
  obtain ⟨out, h1, h2, -⟩ := bottomUp_post (inv? := inv?) nd act R S Rl Sl I1 I1l old
  refine ⟨out, h1, by rw [h2], ?_⟩
  rw [h2]
  obtain ⟨dn2, up2, h3⟩ := (hm I1 (R *ᵥ I1 + S)).1 rfl
  exact ⟨dn2, up2, h3⟩

/-- The three ways through the same layers, over the same surface: the radiances are the same. The layers are given to the
routines with codes of their own, only the operators have to agree. Top down needs the top to be dark. -/
theorem C32_routes_agree (hinv : Exact inv?) {nd nd2 nd3 : Nat} {l l2 : LayerIn n K} {ls ls2 ls3 : List (LayerIn n K)}
    (hc : ∀ l ∈ ls, ∀ i, i < nd → allExits (l.act i) = false) (hc2 : RefCodes true nd2 ls2) (hc3 : RefCodes false nd3 ls3)
    (e2 : layersOf (l2 :: ls2) = layersOf (l :: ls)) (e3 : layersOf ls3 = layersOf (l :: ls))
    {Rs : M n K} {In I1 : V n K} {Rl : Nat → M n K} {Sl : Nat → V n K} {al : Nat → Act}
    {s s' t t' u u' : Mem n K} (h : totalLoop inv? nd true (l :: ls) s = .ok s')
    (h2 : boaLoop inv? nd2 true (l2 :: ls2) t = .ok t') (h3 : toaSurface inv? nd3 Rs In Rl Sl al ls3 u = .ok u')
    {a b : Atm n K} (ha : a.layer = both (vals frameAll s')) (hRs : a.Rs = Rs) (hIn : a.In = In) (hI1 : a.I1 = I1)
    (hb : (⟨b.Rp, b.Sm⟩ : Mirror n K) = mirrorOut (vals frameRef t')) (hRs2 : b.Rs = Rs) (hIn2 : b.In = In)
    {act act2 act3 : Nat → Act × Act} {d d2 : Nat → Atm n K} {old : Nat → Nat → Pair n K} {work old2 old3 : Nat → Pair n K}
    {nLayers : Nat} (hn : 0 < nLayers) {Rl3 : Nat → M n K} {Sl3 I1l : Nat → V n K}
    {o : Nat → Nat → Pair n K} {o2 o3 : Nat → Pair n K}
    (r1 : bothWays inv? nd nLayers act true [0, nLayers] a d old work = .ok o)
    (r2 : topDown inv? nd2 act2 true b d2 old2 = .ok o2)
    (r3 : bottomUp inv? nd3 act3 (mirrorOut (vals frameRef u')).R (mirrorOut (vals frameRef u')).S Rl3 Sl3 I1 I1l old3 = .ok o3) :
    o 0 0 = o3 0 ∧ (I1 = 0 → o 1 0 = o2 0) := by
  have J : Joined (layersOf (l :: ls)) a.layer := by rw [ha]; exact C29_total_ok hinv hc h
  have H : Hanging (layersOf (l :: ls)) ⟨b.Rp, b.Sm⟩ := by rw [hb, ← e2]; exact C29_boa_ok hinv hc2 h2
  have T : Resting (layersOf (l :: ls)) ⟨Rs, In⟩ (mirrorOut (vals frameRef u')) := by
    rcases toaSurface_value hinv nd3 Rs In Rl Sl al ls3 hc3 u with ⟨_, s2, k2, k3⟩ | ⟨_, k2⟩
    · rw [h3] at k2; cases k2; rw [← e3]; exact k3
    · rw [h3] at k2; cases k2
  have hreg : Regular a.Rp a.Rs := by
    by_contra hc
    rw [C32_both_ways_singular hinv hc] at r1
    cases r1
  obtain ⟨o', q1, up1, dn2, up2, L, q2⟩ := C32_both_ways hinv J true (fun _ => hreg) (ul := [0, nLayers]) hn
    (by simp [hn]) (by simp) (by simp) nd act d old work
  rw [r1] at q1
  cases q1
  have hbase : a.base true = ⟨Rs, In⟩ := by simp [Atm.base, hRs, hIn]
  rw [hbase, hI1] at L
  have U := C32_unique J ⟨Rs, In⟩ (by rw [← hRs]; exact hreg) I1
  obtain ⟨o3', p1, p2, dn3, up3, L3⟩ := C32_bottom_up_partial (inv? := inv?) T I1 nd3 act3 Rl3 Sl3 I1l old3
  cases r3.symm.trans p1
  constructor
  · have e := U.unique (y₁ := (up1, dn2, up2)) (y₂ := ((o3 0).1, dn3, up3)) L L3
    simp only [Prod.mk.injEq] at e
    rw [(q2 0).1 rfl]
    exact Prod.ext e.1 (by rw [p2, hI1])
  · intro h0
    have hreg2 : Regular b.Rp b.Rs := by
      by_contra hc
      rw [topDown_singular hinv _ _ _ _ _ hc] at r2
      cases r2
    have r2' : topDown inv? nd2 act2 true { b with I1 := 0 } d2 old2 = .ok o2 := r2
    obtain ⟨o2', p3, up1', L2⟩ := C32_top_down_partial hinv (a := { b with I1 := 0 }) H rfl true (fun _ => hreg2)
      (fun h => by cases h) nd2 act2 d2 old2
    rw [r2'] at p3
    cases p3
    have hb2 : ({ b with I1 := 0 } : Atm n K).base true = ⟨Rs, In⟩ := by simp [Atm.base, hRs2, hIn2]
    rw [hb2] at L2
    rw [h0] at L U
    have e := U.unique (y₁ := (up1, dn2, up2)) (y₂ := (up1', (o2 0).2, (o2 0).1)) L L2
    simp only [Prod.mk.injEq] at e
    rw [(q2 1).2 rfl]
    exact Prod.ext e.2.2 e.2.1

/-! ## Derivatives -/

/-- `d` is the derivative at `x` of a curve of atmospheres. -/
structure ADeriv (A : ℝ → Atm n ℝ) (d : Atm n ℝ) (x : ℝ) : Prop where
  layer : LDeriv (fun y => (A y).layer) d.layer x
  surf : RDeriv (fun y => ⟨(A y).Rs, (A y).In⟩) ⟨d.Rs, d.In⟩ x
  top : VDeriv (fun y => (A y).I1) d.I1 x

/-- The codes and derivatives `radiance_boa_all` does justice to. -/
def Complete (surface : Bool) (p : Act × Act) (d : Atm n ℝ) : Prop :=
  surface = true → allGood p.1 p.2 = true ∨ (p = (.S, .U) ∧ d.In = 0 ∧ d.I1 = 0) ∨ (p = (.L, .L) ∧ d.In = 0)

/-- Both ways: what is left for derivative `i` is the derivative of the light, whatever curve of light obeys the layers and
the surface near `x`. `(d i).seen (act i)`: the arrays as their code has them, what is not varied is zero. Missing: the codes
and derivatives outside `Complete` (`C32_violated_SS`, `C32_violated_SU`, `C32_violated_LL`). -/
theorem C32_both_ways_derivative_partial {inv? : M n ℝ → Option (M n ℝ)} (hinv : Exact inv?) {A : ℝ → Atm n ℝ} {x : ℝ}
    (surface : Bool) (hr : surface = true → Regular (A x).Rp (A x).Rs) {nLayers : Nat} {ul : List Nat}
    (hn : 0 < nLayers) (hul : ul.Pairwise (· < ·)) (hul2 : ∀ l ∈ ul, l = 0 ∨ l = nLayers) (hul3 : ul ≠ [])
    (nd : Nat) (act : Nat → Act × Act) (d : Nat → Atm n ℝ) (old : Nat → Nat → Pair n ℝ) (work : Nat → Pair n ℝ)
    {i : Nat} (hi : i < nd) (hd : ADeriv A ((d i).seen (act i)) x) (hc : Complete surface (act i) (d i)) :
    ∃ out, bothWays inv? nd nLayers act surface ul (A x) d old work = .ok out ∧
      ∀ up1 dn2 up2 : ℝ → V n ℝ,
        (∀ᶠ y in 𝓝 x, Lit [(A y).layer] ((A y).base surface) (A y).I1 (up1 y) (dn2 y) (up2 y)) →
        ∀ k, (ul[k]? = some 0 → VDeriv up1 (out k (i + 1)).1 x ∧ VDeriv (fun y => (A y).I1) (out k (i + 1)).2 x) ∧
          (ul[k]? = some nLayers → VDeriv up2 (out k (i + 1)).1 x ∧ VDeriv dn2 (out k (i + 1)).2 x) := by
  obtain ⟨q, hq⟩ : ∃ q : M n ℝ, q * (1 - (A x).layer.Rp * ((A x).base surface).R) = 1 := by
    cases surface with
    | true => exact hr rfl
    | false => exact ⟨1, by simp [Atm.base]⟩
  have hq' : surface = true → q * (1 - (A x).Rp * (A x).Rs) = 1 := by
    rintro rfl
    exact hq
  obtain ⟨out, bot, top, h1, hB, hT, h2⟩ := bothWays_post hinv nd nLayers act surface hn hul hul2 hul3 (A x) d old work hq'
  refine ⟨out, h1, fun up1 dn2 up2 hL k => ?_⟩
  set D := (d i).seen (act i) with hD
  have hb : RDeriv (fun y => (A y).base surface) ⟨if surface then D.Rs else 0, D.In⟩ x := by
    cases surface with
    | true => exact hd.surf
    | false => exact ⟨MDeriv.const 0, hd.surf.S⟩
  obtain ⟨e1, e2, e3⟩ := lit_deriv hd.layer hb hd.top hq hL
  -- the light at the bottom
  have key : VDeriv up2 (bot (i + 1)).1 x ∧ VDeriv dn2 (bot (i + 1)).2 x ∧
      VDeriv up1 (topL (A x) D (bot 0).1 (bot (i + 1)).1) x := by
    cases surface with
    | true =>
        obtain ⟨old', hB'⟩ := hB.litL rfl
        have es : bot (i + 1) = surfL q (A x) D (q *ᵥ botOf (A x)) := by
          rw [hB' i hi]
          unfold surfOut
          rcases hc rfl with hg | ⟨hp, z1, z2⟩ | ⟨hp, z1⟩
          · rw [if_pos hg]
          · simp [hp, allGood, surfL, hD, Atm.seen, Act.l, Act.s, z1, z2]
          · simp [hp, allGood, surfL, hD, Atm.seen, Act.l, Act.s, z1]
        rw [es, hB.lit rfl]
        exact ⟨e2, e1, e3⟩
    | false =>
        have : q = 1 := by simpa [Atm.base] using hq
        subst this
        rw [hB.bare rfl, hB.bareL rfl i hi]
        refine ⟨e2.congr ?_, e1.congr ?_, e3.congr ?_⟩
        · simp [Atm.base, hD, Atm.seen]
        · simp only [Atm.base, Atm.layer, Bool.false_eq_true, if_false, mul_zero, add_zero, zero_mulVec, zero_add, one_mulVec]
          rfl
        · simp [Atm.base, Atm.layer, topL, hD, Atm.seen]
  refine ⟨fun e => ?_, fun e => ?_⟩
  · rw [(h2 k).1 e, hT.lin i hi]
    exact ⟨key.2.2, hd.top⟩
  · rw [(h2 k).2 e]
    exact ⟨key.1, key.2.1⟩

/-- Top down over a surface. Missing: the codes outside `refGood` (`C32_violated_top_down_codes`), light that comes in at the
top. -/
theorem C32_top_down_derivative_partial {inv? : M n ℝ → Option (M n ℝ)} (hinv : Exact inv?) {A : ℝ → Atm n ℝ} {x : ℝ}
    (hr : Regular (A x).Rp (A x).Rs) (nd : Nat) (act : Nat → Act × Act) (d : Nat → Atm n ℝ) (old : Nat → Pair n ℝ)
    {i : Nat} (hi : i < nd) (hd : ADeriv A ((d i).seen (act i)) x) (hc : refGood (act i).1 (act i).2 = true)
    (h0 : ∀ y, (A y).I1 = 0) :
    ∃ out, topDown inv? nd act true (A x) d old = .ok out ∧
      ∀ up1 dn2 up2 : ℝ → V n ℝ,
        (∀ᶠ y in 𝓝 x, Lit [(A y).layer] ((A y).base true) (A y).I1 (up1 y) (dn2 y) (up2 y)) →
        VDeriv up2 (out (i + 1)).1 x ∧ VDeriv dn2 (out (i + 1)).2 x := by
  obtain ⟨q, hq⟩ := hr
  obtain ⟨out, h1, h2, h3⟩ := topDown_post hinv nd act (A x) d old hq
  refine ⟨out, h1, fun up1 dn2 up2 hL => ?_⟩
  have z : VDeriv (fun y => (A y).I1) 0 x := by
    simp only [h0]
    exact fun _ => hasDerivAt_const _ _
  obtain ⟨e1, e2, e3⟩ := lit_deriv hd.layer hd.surf z hq hL
  rw [h3 i hi, if_pos hc]
  simp only [h0, mulVec_zero, add_zero] at e1 e2
  refine ⟨e2.congr ?_, e1.congr ?_⟩ <;> simp [surfL, Atm.layer]

/-- Top down without a surface, nothing from outside. -/
theorem C32_top_down_bare_derivative_partial {inv? : M n ℝ → Option (M n ℝ)} {A : ℝ → Atm n ℝ} {x : ℝ}
    (nd : Nat) (act : Nat → Act × Act) (d : Nat → Atm n ℝ) (old : Nat → Pair n ℝ)
    {i : Nat} (hi : i < nd) (hd : ADeriv A ((d i).seen (act i)) x) (h0 : ∀ y, (A y).I1 = 0) (h1 : ∀ y, (A y).In = 0) :
    ∃ out, topDown inv? nd act false (A x) d old = .ok out ∧
      ∀ up1 dn2 up2 : ℝ → V n ℝ,
        (∀ᶠ y in 𝓝 x, Lit [(A y).layer] ((A y).base false) (A y).I1 (up1 y) (dn2 y) (up2 y)) →
        VDeriv up2 (out (i + 1)).1 x ∧ VDeriv dn2 (out (i + 1)).2 x := by
  refine ⟨_, by simp only [topDown, Bool.false_eq_true, if_false]; rfl, fun up1 dn2 up2 hL => ?_⟩
  have ev : ∀ᶠ y in 𝓝 x, up2 y = 0 ∧ dn2 y = (A y).Sm := by
    filter_upwards [hL] with y hy
    obtain ⟨k1, k2, k3⟩ := (lit_iff (Joined.one _) _ (q := 1) (by simp [Atm.base]) _ _ _ _).1 hy
    simp only [Atm.base, Atm.layer, h0, h1, mulVec_zero, add_zero, zero_add, one_mulVec, Bool.false_eq_true, if_false, zero_mulVec] at k1 k2
    exact ⟨k2, k1⟩
  simp only [hi, if_true]
  constructor
  · exact VDeriv.eventually (fun _ => hasDerivAt_const _ _) (ev.mono fun y hy => hy.1)
  · refine VDeriv.eventually ?_ (ev.mono fun y hy => hy.2)
    refine hd.layer.Sm.congr ?_
    simp only [Atm.seen, Atm.layer, Adding.hasS_eq]

/-- Bottom up: `r y` is the layers on what is below them. The derivative is right where the arrays are, whatever the code. -/
theorem C32_bottom_up_derivative {inv? : M n ℝ → Option (M n ℝ)} {r : ℝ → Mirror n ℝ} {I1 : ℝ → V n ℝ} {x : ℝ}
    (nd : Nat) (act : Nat → Act × Act) (Rl : Nat → M n ℝ) (Sl I1l : Nat → V n ℝ) (old : Nat → Pair n ℝ)
    {i : Nat} (hi : i < nd) (hI : VDeriv I1 (I1l i) x)
    (hd : RDeriv r ⟨if (act i).1.l || (act i).2.l then Rl i else 0, if (act i).1.s || (act i).2.s then Sl i else 0⟩ x) :
    ∃ out, bottomUp inv? nd act (r x).R (r x).S Rl Sl (I1 x) I1l old = .ok out ∧
      VDeriv I1 (out (i + 1)).2 x ∧
      ∀ (ls : ℝ → List (Layer n ℝ)) (base : ℝ → Mirror n ℝ) (up1 dn2 up2 : ℝ → V n ℝ),
        (∀ᶠ y in 𝓝 x, Resting (ls y) (base y) (r y) ∧ Lit (ls y) (base y) (I1 y) (up1 y) (dn2 y) (up2 y)) →
        VDeriv up1 (out (i + 1)).1 x := by
  obtain ⟨out, h1, h2, h3⟩ := bottomUp_post (inv? := inv?) nd act (r x).R (r x).S Rl Sl (I1 x) I1l old
  refine ⟨out, h1, by rw [h3 i hi]; exact hI, fun ls base up1 dn2 up2 hL => ?_⟩
  rw [h3 i hi]
  refine VDeriv.eventually ((VDeriv.mulVec hd.R hI).add hd.S) (hL.mono fun y hy => ?_)
  exact (hy.1 _ _).2 ⟨dn2 y, up2 y, hy.2⟩

/-! ## Where the light is not that of the atmosphere -/

/-- One angle. -/
noncomputable def vec (c : ℝ) : V 1 ℝ := fun _ => c

theorem sc_mulVec (a b : ℝ) : sc a *ᵥ vec b = vec (a * b) := sc_vec a (vec b)
theorem vec_add (a b : ℝ) : vec a + vec b = vec (a + b) := rfl
theorem vec_zero : (0 : V 1 ℝ) = vec 0 := rfl
theorem vec_inj {a b : ℝ} : vec a = vec b ↔ a = b := ⟨fun h => congrFun h 0, fun h => h ▸ rfl⟩
theorem sc_deriv_id (x : ℝ) : VDeriv vec (vec 1) x := fun _ => hasDerivAt_id x
theorem lit_sc (l : Layer 1 ℝ) (b : Mirror 1 ℝ) (dn1 up1 dn2 up2 : V 1 ℝ) :
    Lit [l] b dn1 up1 dn2 up2 ↔ l.Obeys dn1 up1 dn2 up2 ∧ b.Obeys dn2 up2 := lit_joined (Joined.one l) _ _ _ _ _

/-- The code violates C32. Top down over a surface, light `1` comes in at the top of a layer that lets one half through: one
half arrives at the surface, the call leaves zero. -/
theorem C32_violated_iso_top : ∃ a : Atm 1 ℝ, Regular a.Rp a.Rs ∧ ∃ up1 dn2 up2, Lit [a.layer] (a.base true) a.I1 up1 dn2 up2 ∧
    ∀ nd act d old, ∃ out, topDown idealInv nd act true a d old = .ok out ∧ (out 0).2 ≠ dn2 := by
  refine ⟨⟨0, sc (1/2), 0, sc (1/2), 0, 0, 0, 0, vec 1⟩, ⟨1, by simp⟩, vec 0, vec (1/2), vec 0, ?_, fun nd act d old => ?_⟩
  · rw [lit_sc]
    refine ⟨⟨?_, ?_⟩, ?_⟩ <;> simp [Atm.layer, Atm.base, Mirror.Obeys, sc_mulVec, vec_zero, vec_add]
  · obtain ⟨out, h1, h2, -⟩ := topDown_post idealInv_exact nd act ⟨0, sc (1/2), 0, sc (1/2), 0, 0, 0, 0, vec 1⟩ d old (q := 1) (by simp)
    refine ⟨out, h1, ?_⟩
    rw [h2]
    simp only [zero_mulVec, add_zero, mulVec_zero]
    rw [vec_zero, Ne, vec_inj]
    norm_num

/-- ... without a surface light `1` starts upward at the bottom (`F_iso_bot`) of the same layer. Top down the call leaves zero
for it; bottom up, where the layers are all there is, zero arrives at the top instead of one half. -/
theorem C32_violated_iso_bot : ∃ a : Atm 1 ℝ, ∃ up1 dn2 up2, Lit [a.layer] (a.base false) a.I1 up1 dn2 up2 ∧
    (∀ nd act d old, ∃ out, topDown idealInv nd act false a d old = .ok out ∧ (out 0).1 ≠ up2) ∧
    ∀ l : LayerIn 1 ℝ, l.ops.layer = a.layer → ∀ nd s, ∃ s', toaBare idealInv nd [l] s = .ok s' ∧
      ∀ act Rl Sl I1l old, ∃ out, bottomUp idealInv nd act (mirrorOut (vals frameRef s')).R (mirrorOut (vals frameRef s')).S
        Rl Sl a.I1 I1l old = .ok out ∧ (out 0).1 ≠ up1 := by
  refine ⟨⟨0, sc (1/2), 0, sc (1/2), 0, 0, 0, vec 1, 0⟩, vec (1/2), vec 0, vec 1, ?_, fun nd act d old => ?_, fun l hl nd s => ?_⟩
  · rw [lit_sc]
    refine ⟨⟨?_, ?_⟩, ?_⟩ <;> simp [Atm.layer, Atm.base, Mirror.Obeys, sc_mulVec, vec_zero, vec_add]
  · refine ⟨_, by simp only [topDown, Bool.false_eq_true, if_false]; rfl, ?_⟩
    simp only
    rw [vec_zero, Ne, vec_inj]
    norm_num
  · obtain ⟨s', h1, h2⟩ := (Adding.C29_toa (inv? := idealInv) idealInv_exact nd [] l (by intro l hl; simp at hl) s).1 trivial
    refine ⟨s', h1, fun act Rl Sl I1l old => ?_⟩
    obtain ⟨out, h3, h4, -⟩ := bottomUp_post (inv? := idealInv) nd act (mirrorOut (vals frameRef s')).R
      (mirrorOut (vals frameRef s')).S Rl Sl 0 I1l old
    refine ⟨out, h3, ?_⟩
    rw [h4]
    have e : mirrorOut (vals frameRef s') = ⟨l.ops.layer.Rm, l.ops.layer.Sp⟩ :=
      Resting.unique h2 (Joined.resting (by simpa [layersOf] using Joined.one l.ops.layer))
    rw [e, hl]
    simp only [Atm.layer, mulVec_zero, add_zero]
    rw [vec_zero, Ne, vec_inj]
    norm_num

/-- Linearised inputs of one layer over a surface with one kernel, one derivative. -/
def oneLayer (solar thermal : Bool) (ltau : ℚ) (ampfac : ℚ) (level surf : ℚ) : LinIn ℚ where
  nLayers := 1
  nDerivs := 1
  nElem := 1
  nCoefLayer _ := 1
  nKernels := 1
  nParams _ := 0
  needsFourier := false
  solar := solar
  thermal := thermal
  ltauL i _ := if i = 0 then ltau else 0
  omegaL _ _ := 0
  coefL _ _ _ _ := 0
  ampfacL _ _ := ampfac
  paramsL _ _ _ := 0
  levelsBL _ _ := level
  surfaceBL _ := surf
  isoTopL _ := 0
  isoBotL _ := 0

/-- An atmosphere of one layer that emits `y` downward over a dark surface that emits `y` upward. -/
noncomputable def glow (y : ℝ) : Atm 1 ℝ := ⟨0, 0, 0, 0, 0, vec y, 0, vec y, 0⟩
noncomputable def glowL : Atm 1 ℝ := ⟨0, 0, 0, 0, 0, vec 1, 0, vec 1, 0⟩

/-- The code violates C32. Thermal emission, one derivative that moves the temperature of the layer and of the surface: the
tables give `S_S`. Everything `C32_both_ways_derivative_partial` asks for but `Complete` holds. The light down at the surface
is `y`, its derivative 1; the arrays of the results hold what they held before the call. -/
theorem C32_violated_SS : ∃ (p : LinIn ℚ) (A : ℝ → Atm 1 ℝ) (d : Atm 1 ℝ) (x : ℝ) (up1 dn2 up2 : ℝ → V 1 ℝ),
    let act := fun j => decode ((tables p true).addingDown p.nLayers j)
    act 0 = (.S, .S) ∧ Regular (A x).Rp (A x).Rs ∧ ADeriv A (d.seen (act 0)) x ∧
    (∀ y, Lit [(A y).layer] ((A y).base true) (A y).I1 (up1 y) (dn2 y) (up2 y)) ∧
    VDeriv dn2 (vec 1) x ∧ VDeriv up2 (vec 1) x ∧
    ∀ old work, ∃ out, bothWays idealInv 1 1 act true [1] (A x) (fun _ => d) old work = .ok out ∧ out 0 1 = old 0 1 := by
  refine ⟨oneLayer false true 0 0 1 1, glow, glowL, 1, fun _ => vec 0, vec, vec, by decide, ⟨1, by simp [glow]⟩, ?_, fun y => ?_,
    sc_deriv_id 1, sc_deriv_id 1, fun old work => ?_⟩
  · have : decode ((tables (oneLayer false true 0 0 1 1) true).addingDown (oneLayer false true 0 0 1 1).nLayers 0) = (.S, .S) := by
      decide
    simp only [this]
    constructor
    · constructor <;> simp only [Atm.layer, glow, glowL, Atm.seen, Act.l, Act.s, Bool.false_eq_true, if_false, if_true]
      · exact MDeriv.const 0
      · exact MDeriv.const 0
      · exact sc_deriv_id 1
      · exact MDeriv.const 0
      · exact MDeriv.const 0
      · exact fun _ => hasDerivAt_const _ _
    · exact ⟨MDeriv.const 0, sc_deriv_id 1⟩
    · exact fun _ => hasDerivAt_const _ _
  · rw [lit_sc]
    refine ⟨⟨?_, ?_⟩, ?_⟩ <;> simp [Atm.layer, Atm.base, Mirror.Obeys, vec_zero, glow]
  · have : decode ((tables (oneLayer false true 0 0 1 1) true).addingDown (oneLayer false true 0 0 1 1).nLayers 0) = (.S, .S) := by
      decide
    obtain ⟨r, h1, h2, h3⟩ := onSurface_post idealInv_exact 1
      (fun j => decode ((tables (oneLayer false true 0 0 1 1) true).addingDown (oneLayer false true 0 0 1 1).nLayers j))
      (glow 1) (fun _ => glowL) (old 0) (q := 1) (by simp [glow])
    refine ⟨fun i => if i = 0 then r else old i, ?_, ?_⟩
    · simp only [bothWays, if_true, List.getElem?_cons_zero, Option.map_some, Option.getD_some, h1]
      simp
    · have := h3 0 (by decide)
      simp only [if_true]
      rw [this]
      simp only [this, surfOut]
      rw [‹decode _ = _›]
      simp [allGood]

/-- ... `S_U`: thermal emission, the temperature of the layer and the light that comes in at the top vary together. The layer
lets one half through: the derivative of the light down is 3/2, the call leaves 1. -/
theorem C32_violated_SU : ∃ (p : LinIn ℚ) (A : ℝ → Atm 1 ℝ) (d : Atm 1 ℝ) (x : ℝ) (up1 dn2 up2 : ℝ → V 1 ℝ),
    let act := fun j => decode ((tables p true).addingDown p.nLayers j)
    act 0 = (.S, .U) ∧ Regular (A x).Rp (A x).Rs ∧ ADeriv A (d.seen (act 0)) x ∧
    (∀ y, Lit [(A y).layer] ((A y).base true) (A y).I1 (up1 y) (dn2 y) (up2 y)) ∧
    VDeriv dn2 (vec (3/2)) x ∧
    ∀ old work, ∃ out, bothWays idealInv 1 1 act true [1] (A x) (fun _ => d) old work = .ok out ∧ (out 0 1).2 = vec 1 := by
  refine ⟨oneLayer false true 0 0 1 0, fun y => ⟨0, 0, 0, sc (1/2), 0, vec y, 0, 0, vec y⟩, ⟨0, 0, 0, 0, 0, vec 1, 0, 0, vec 1⟩, 1,
    fun _ => vec 0, fun y => vec (3/2 * y), fun _ => vec 0, by decide, ⟨1, by simp⟩, ?_, fun y => ?_, ?_, fun old work => ?_⟩
  · have : decode ((tables (oneLayer false true 0 0 1 0) true).addingDown (oneLayer false true 0 0 1 0).nLayers 0) = (.S, .U) := by
      decide
    simp only [this]
    constructor
    · constructor <;> simp only [Atm.layer, Atm.seen, Act.l, Act.s, Bool.false_eq_true, if_false, if_true]
      · exact MDeriv.const 0
      · exact MDeriv.const (sc (1/2))
      · exact sc_deriv_id 1
      · exact MDeriv.const 0
      · exact MDeriv.const 0
      · exact fun _ => hasDerivAt_const _ _
    · exact ⟨MDeriv.const 0, fun _ => hasDerivAt_const _ _⟩
    · exact sc_deriv_id 1
  · rw [lit_sc]
    refine ⟨⟨?_, ?_⟩, ?_⟩ <;> simp [Atm.layer, Atm.base, Mirror.Obeys, vec_zero, sc_mulVec, vec_add]
    rw [vec_inj]; ring
  · intro _
    exact ((hasDerivAt_id (1 : ℝ)).const_mul (3/2)).congr_deriv (by simp [vec])
  · have : decode ((tables (oneLayer false true 0 0 1 0) true).addingDown (oneLayer false true 0 0 1 0).nLayers 0) = (.S, .U) := by
      decide
    obtain ⟨r, h1, h2, h3⟩ := onSurface_post idealInv_exact 1
      (fun j => decode ((tables (oneLayer false true 0 0 1 0) true).addingDown (oneLayer false true 0 0 1 0).nLayers j))
      (⟨0, 0, 0, sc (1/2), 0, vec 1, 0, 0, vec 1⟩ : Atm 1 ℝ) (fun _ => ⟨0, 0, 0, 0, 0, vec 1, 0, 0, vec 1⟩) (old 0) (q := 1) (by simp)
    refine ⟨fun i => if i = 0 then r else old i, ?_, ?_⟩
    · simp only [bothWays, if_true, List.getElem?_cons_zero, Option.map_some, Option.getD_some, h1]
      simp
    · have h4 := h3 0 (by decide)
      simp only [if_true]
      rw [h4]
      simp only [surfOut]
      rw [‹decode _ = _›]
      simp [allGood]

/-- ... `L_L`: no sources in the layers, layer and surface and the light that starts at the bottom (`F_iso_bot`) vary. The
derivative of the light up at the bottom is 1, the call leaves 0. -/
theorem C32_violated_LL : ∃ (p : LinIn ℚ) (A : ℝ → Atm 1 ℝ) (d : Atm 1 ℝ) (x : ℝ) (up1 dn2 up2 : ℝ → V 1 ℝ),
    let act := fun j => decode ((tables p true).addingDown p.nLayers j)
    act 0 = (.L, .L) ∧ Regular (A x).Rp (A x).Rs ∧ ADeriv A (d.seen (act 0)) x ∧
    (∀ y, Lit [(A y).layer] ((A y).base true) (A y).I1 (up1 y) (dn2 y) (up2 y)) ∧
    VDeriv up2 (vec 1) x ∧
    ∀ old work, ∃ out, bothWays idealInv 1 1 act true [1] (A x) (fun _ => d) old work = .ok out ∧ (out 0 1).1 = vec 0 := by
  refine ⟨oneLayer false false 1 1 0 0, fun y => ⟨0, 0, 0, 0, 0, 0, 0, vec y, 0⟩, ⟨0, 0, 0, 0, 0, 0, 0, vec 1, 0⟩, 1,
    fun _ => vec 0, fun y => vec 0, vec, by decide, ⟨1, by simp⟩, ?_, fun y => ?_, sc_deriv_id 1, fun old work => ?_⟩
  · have : decode ((tables (oneLayer false false 1 1 0 0) true).addingDown (oneLayer false false 1 1 0 0).nLayers 0) = (.L, .L) := by
      decide
    simp only [this]
    constructor
    · constructor <;> simp only [Atm.layer, Atm.seen, Act.l, Act.s, Bool.false_eq_true, if_false, if_true]
      · exact MDeriv.const 0
      · exact MDeriv.const 0
      · exact fun _ => hasDerivAt_const _ _
      · exact MDeriv.const 0
      · exact MDeriv.const 0
      · exact fun _ => hasDerivAt_const _ _
    · exact ⟨MDeriv.const 0, sc_deriv_id 1⟩
    · exact fun _ => hasDerivAt_const _ _
  · rw [lit_sc]
    refine ⟨⟨?_, ?_⟩, ?_⟩ <;> simp [Atm.layer, Atm.base, Mirror.Obeys, vec_zero]
  · have : decode ((tables (oneLayer false false 1 1 0 0) true).addingDown (oneLayer false false 1 1 0 0).nLayers 0) = (.L, .L) := by
      decide
    obtain ⟨r, h1, h2, h3⟩ := onSurface_post idealInv_exact 1
      (fun j => decode ((tables (oneLayer false false 1 1 0 0) true).addingDown (oneLayer false false 1 1 0 0).nLayers j))
      (⟨0, 0, 0, 0, 0, 0, 0, vec 1, 0⟩ : Atm 1 ℝ) (fun _ => ⟨0, 0, 0, 0, 0, 0, 0, vec 1, 0⟩) (old 0) (q := 1) (by simp)
    refine ⟨fun i => if i = 0 then r else old i, ?_, ?_⟩
    · simp only [bothWays, if_true, List.getElem?_cons_zero, Option.map_some, Option.getD_some, h1]
      simp
    · have h4 := h3 0 (by decide)
      simp only [if_true]
      rw [h4]
      simp only [surfOut]
      rw [‹decode _ = _›]
      simp [allGood, vec_zero]

/-- ... top down: for every code that `radiance_boa_ref` has no case for the arrays of the derivative keep what they held,
whatever the derivative is. Among them `S_U` and `U_S`, which the tables give. -/
theorem C32_violated_top_down_codes (hinv : Exact inv?) {a : Atm n K} (hr : Regular a.Rp a.Rs) {nd : Nat} {act : Nat → Act × Act}
    {i : Nat} (hi : i < nd) (hc : refGood (act i).1 (act i).2 = false) (d : Nat → Atm n K) (old : Nat → Pair n K) :
    ∃ out, topDown inv? nd act true a d old = .ok out ∧ out (i + 1) = old (i + 1) := by
  obtain ⟨q, hq⟩ := hr
  obtain ⟨out, h1, h2, h3⟩ := topDown_post hinv nd act a d old hq
  exact ⟨out, h1, by rw [h3 i hi, hc]; rfl⟩

example : refGood (decode ((tables (oneLayer false true 0 0 1 0) true).addingDown 1 0)).1
      (decode ((tables (oneLayer false true 0 0 1 0) true).addingDown 1 0)).2 = false ∧
    refGood (decode ((tables (oneLayer false true 0 0 0 1) true).addingDown 1 0)).1
      (decode ((tables (oneLayer false true 0 0 0 1) true).addingDown 1 0)).2 = false := by decide

/-! ### The hypotheses can be met -/

/-- A layer that reflects `y`, lets one half through and emits `y`, over a surface that reflects one half and sends up `y`. -/
noncomputable def demoAtm (y : ℝ) : Atm 1 ℝ :=
  ⟨sc y, sc (1/2), sc y, sc (1/2), vec y, vec y, sc (1/2), vec y, vec 1⟩
noncomputable def demoAtmL : Atm 1 ℝ := ⟨sc 1, 0, sc 1, 0, vec 1, vec 1, 0, vec 1, vec 0⟩

theorem demo_atm_regular : Regular (demoAtm 1).Rp (demoAtm 1).Rs := by
  refine ⟨sc 2, ?_⟩
  show sc 2 * (1 - sc 1 * sc (1/2)) = 1
  rw [sc_one, sc_mul, sc_sub, sc_mul]
  norm_num

theorem demo_code : decode ((tables (oneLayer true false 1 0 0 0) true).addingDown 1 0) = (.B, .S) := by decide

theorem demo_atm_deriv : ADeriv demoAtm (demoAtmL.seen (.B, .S)) 1 := by
  constructor
  · constructor <;> simp only [Atm.layer, demoAtm, demoAtmL, Atm.seen, Act.l, Act.s, Bool.false_eq_true, if_false, if_true]
    · exact fun _ _ => hasDerivAt_id _
    · exact MDeriv.const _
    · exact sc_deriv_id 1
    · exact fun _ _ => hasDerivAt_id _
    · exact MDeriv.const _
    · exact sc_deriv_id 1
  · exact ⟨MDeriv.const _, sc_deriv_id 1⟩
  · exact fun _ => hasDerivAt_const _ _

example (old : Nat → Nat → Pair 1 ℝ) (work : Nat → Pair 1 ℝ) :
    ∃ out, bothWays idealInv 1 1 (fun _ => (.B, .S)) true [0, 1] (demoAtm 1) (fun _ => demoAtmL) old work = .ok out ∧
      ∃ up1 dn2 up2, Lit [(demoAtm 1).layer] ((demoAtm 1).base true) (demoAtm 1).I1 up1 dn2 up2 ∧
        ∀ k, ([0, 1][k]? = some 0 → out k 0 = (up1, (demoAtm 1).I1)) ∧ ([0, 1][k]? = some 1 → out k 0 = (up2, dn2)) :=
  C32_both_ways idealInv_exact (Joined.one _) true (fun _ => demo_atm_regular) (by decide) (by simp) (by simp) (by simp) _ _ _ _ _

example (old : Nat → Nat → Pair 1 ℝ) (work : Nat → Pair 1 ℝ) :
    ∃ out, bothWays idealInv 1 1 (fun _ => (.B, .S)) true [0, 1] (demoAtm 1) (fun _ => demoAtmL) old work = .ok out ∧
      ∀ up1 dn2 up2 : ℝ → V 1 ℝ,
        (∀ᶠ y in 𝓝 1, Lit [(demoAtm y).layer] ((demoAtm y).base true) (demoAtm y).I1 (up1 y) (dn2 y) (up2 y)) →
        ∀ k, ([0, 1][k]? = some 0 → VDeriv up1 (out k 1).1 1 ∧ VDeriv (fun y => (demoAtm y).I1) (out k 1).2 1) ∧
          ([0, 1][k]? = some 1 → VDeriv up2 (out k 1).1 1 ∧ VDeriv dn2 (out k 1).2 1) :=
  C32_both_ways_derivative_partial idealInv_exact true (fun _ => demo_atm_regular) (by decide) (by simp) (by simp) (by simp)
    1 _ _ old work (i := 0) (by decide) demo_atm_deriv (fun _ => .inl rfl)

/-- One layer, three ways. -/
example (s t u : Mem 2 ℚ) : ∃ s' t' u' o o2 o3, totalLoop idealInv 1 true [Adding.demoLayer 1] s = .ok s' ∧
    boaLoop idealInv 1 true [Adding.demoLayer 1] t = .ok t' ∧
    toaSurface idealInv 1 0 ![1, 2] (fun _ => 0) (fun _ => 0) (fun _ => .U) [Adding.demoLayer 1] u = .ok u' ∧
    bothWays idealInv 1 1 (fun _ => (.U, .U)) true [0, 1]
      (let l := both (vals frameAll s'); ⟨l.Rp, l.Tp, l.Rm, l.Tm, l.Sp, l.Sm, 0, ![1, 2], 0⟩) (fun _ => ⟨0, 0, 0, 0, 0, 0, 0, 0, 0⟩)
      (fun _ _ => 0) (fun _ => 0) = .ok o ∧
    topDown idealInv 1 (fun _ => (.U, .U)) true
      (let l := mirrorOut (vals frameRef t'); ⟨l.R, 0, 0, 0, 0, l.S, 0, ![1, 2], 0⟩) (fun _ => ⟨0, 0, 0, 0, 0, 0, 0, 0, 0⟩) (fun _ => 0) =
        .ok o2 ∧
    bottomUp idealInv 1 (fun _ => (.U, .U)) (mirrorOut (vals frameRef u')).R (mirrorOut (vals frameRef u')).S (fun _ => 0)
      (fun _ => 0) 0 (fun _ => 0) (fun _ => 0) = .ok o3 ∧ o 0 0 = o3 0 ∧ o 1 0 = o2 0 := by
  have c2 : RefCodes true 1 ([] : List (LayerIn 2 ℚ)) := by intro l hl; simp at hl
  have c3 : RefCodes false 1 [Adding.demoLayer 1] := by
    intro l hl i hi
    simp only [List.mem_singleton] at hl
    subst hl
    rfl
  obtain ⟨s', h1, h1'⟩ := (Adding.C29_total (inv? := idealInv) idealInv_exact 1 (Adding.demoLayer 1) [] (by simp) s).1 trivial
  obtain ⟨t', h2, h2'⟩ := (Adding.C29_boa (inv? := idealInv) idealInv_exact 1 (Adding.demoLayer 1) [] c2 t).1 trivial
  obtain ⟨u', h3, h3'⟩ := (Adding.C29_toa_surface (inv? := idealInv) idealInv_exact 1 0 ![1, 2] (fun _ => 0) (fun _ => 0) (fun _ => .U)
    [Adding.demoLayer 1] c3 u).1 ⟨⟨1, by simp⟩, fun _ _ => trivial⟩
  obtain ⟨o, r1, -⟩ := C32_both_ways (inv? := idealInv) idealInv_exact
    (a := let l := both (vals frameAll s'); ⟨l.Rp, l.Tp, l.Rm, l.Tm, l.Sp, l.Sm, 0, ![1, 2], 0⟩) h1' true
    (fun _ => ⟨1, by simp⟩) (nLayers := 1) (ul := [0, 1]) (by decide) (by simp) (by simp) (by simp) 1 (fun _ => (.U, .U))
    (fun _ => ⟨0, 0, 0, 0, 0, 0, 0, 0, 0⟩) (fun _ _ => 0) (fun _ => 0)
  obtain ⟨o2, r2, -⟩ := topDown_post (inv? := idealInv) idealInv_exact 1 (fun _ => (.U, .U))
    (let l := mirrorOut (vals frameRef t'); ⟨l.R, 0, 0, 0, 0, l.S, 0, ![1, 2], 0⟩) (fun _ => ⟨0, 0, 0, 0, 0, 0, 0, 0, 0⟩) (fun _ => 0)
    (q := 1) (by simp)
  obtain ⟨o3, r3, -⟩ := bottomUp_post (inv? := idealInv) 1 (fun _ => (.U, .U)) (mirrorOut (vals frameRef u')).R
    (mirrorOut (vals frameRef u')).S (fun _ => 0) (fun _ => 0) 0 (fun _ => 0) (fun _ => 0)
  obtain ⟨e1, e2⟩ := C32_routes_agree idealInv_exact (by simp) c2 c3 rfl rfl h1 h2 h3 rfl rfl rfl rfl rfl rfl rfl (by decide) r1 r2 r3
  exact ⟨s', t', u', o, o2, o3, h1, h2, h3, r1, r2, r3, e1, e2 rfl⟩

/-- A mirror that catches all: nothing is regular. -/
example : ¬ Regular (sc 1 : M 1 ℝ) (sc 1) := by
  rintro ⟨q, h⟩
  rw [sc_mul, sc_one, sc_sub] at h
  have := congrFun (congrFun h 0) 0
  simp [Matrix.mul_apply, sc] at this

noncomputable def demoDark (y : ℝ) : Atm 1 ℝ := { demoAtm y with I1 := 0 }

theorem demo_dark_deriv : ADeriv demoDark (({ demoAtmL with I1 := 0 } : Atm 1 ℝ).seen (.B, .S)) 1 :=
  ⟨demo_atm_deriv.layer, demo_atm_deriv.surf, fun _ => hasDerivAt_const _ _⟩

example (old : Nat → Pair 1 ℝ) :
    ∃ out, topDown idealInv 1 (fun _ => (.B, .S)) true (demoDark 1) (fun _ => demoAtmL) old = .ok out ∧
      ∃ up1, Lit [(demoDark 1).layer] ((demoDark 1).base true) (demoDark 1).I1 up1 (out 0).2 (out 0).1 :=
  C32_top_down_partial idealInv_exact (Hanging.one (demoDark 1).layer) rfl true (fun _ => demo_atm_regular) (fun h => by cases h) _ _ _ _

example (old : Nat → Pair 1 ℝ) :
    ∃ out, topDown idealInv 1 (fun _ => (.B, .S)) true (demoDark 1) (fun _ => { demoAtmL with I1 := 0 }) old = .ok out ∧
      ∀ up1 dn2 up2 : ℝ → V 1 ℝ,
        (∀ᶠ y in 𝓝 1, Lit [(demoDark y).layer] ((demoDark y).base true) (demoDark y).I1 (up1 y) (dn2 y) (up2 y)) →
        VDeriv up2 (out 1).1 1 ∧ VDeriv dn2 (out 1).2 1 :=
  C32_top_down_derivative_partial (A := demoDark) idealInv_exact demo_atm_regular 1 _ _ old (i := 0) (by decide) demo_dark_deriv rfl (fun _ => rfl)

example (old : Nat → Pair 1 ℝ) : ∃ out, bottomUp idealInv 1 (fun _ => (.U, .B)) (sc 1) (vec 1) (fun _ => sc 1) (fun _ => vec 1)
    (vec 1) (fun _ => vec 0) old = .ok out ∧ VDeriv (fun _ => vec 1) (out 1).2 1 ∧
      ∀ (ls : ℝ → List (Layer 1 ℝ)) (base : ℝ → Mirror 1 ℝ) (up1 dn2 up2 : ℝ → V 1 ℝ),
        (∀ᶠ y in 𝓝 (1 : ℝ), Resting (ls y) (base y) ⟨sc y, vec y⟩ ∧ Lit (ls y) (base y) (vec 1) (up1 y) (dn2 y) (up2 y)) →
        VDeriv up1 (out 1).1 1 :=
  C32_bottom_up_derivative (r := fun y => ⟨sc y, vec y⟩) (I1 := fun _ => vec 1) (x := 1) 1 _ _ _ _ old (i := 0) (by decide)
    (fun _ => hasDerivAt_const _ _) ⟨fun _ _ => hasDerivAt_id _, sc_deriv_id 1⟩

end Xrtm.Radiance
