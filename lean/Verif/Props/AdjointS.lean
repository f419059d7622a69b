import Verif.Proof.AdjointS
import Verif.Props.Source
import Verif.Props.Radiance

/-!
# C68: reverse mode of sources and radiances
-/

namespace Xrtm.AdjointS
open Matrix Filter Topology Xrtm.Source Xrtm.Radiance Xrtm.Spec Derivs

variable {n : Nat} {x : ℝ}

/-- What fixed weights give changes as they say for the derivative. -/
theorem vpair_deriv (a : Fin n → ℝ) {v : ℝ → Fin n → ℝ} {v' : Fin n → ℝ} (h : VDeriv v v' x) :
    HasDerivAt (fun y => vpair a (v y)) (vpair a v') x :=
  HasDerivAt.fun_sum fun i _ => (h i).const_mul (a i)

/-! ## The solution for the beam -/

/-- Weights of the solution for the beam are moved to what it is made of: along any curve of inputs the weighted solution
changes as the weights that were added say.  The weights of the solution are zero afterwards. -/
theorem C68_sun {inv? : Source.M n → Option (Source.M n)} (hex : Source.Exact inv?) (ns : Nat) (mu : Source.V n) (F0 : ℝ)
    (z : ℝ → Sun n) (z' : Sun n) (o : ℝ → SunOut n) (hz : SunDeriv z z' x) (ha : (z x).as0 ≠ 0)
    (ho : ∀ᶠ y in 𝓝 x, sun inv? ns mu F0 (z y) = some (o y)) (Fpa Fma : Source.V n) (w : Sun n) :
    ∃ w', sunA inv? ns mu F0 (z x) (o x) Fpa Fma w = some (w', 0, 0) ∧
      HasDerivAt (fun y => vpair Fpa (o y).Fp + vpair Fma (o y).Fm) (sunPair w' z' - sunPair w z') x := by
  have h0 := ho.self_of_nhds
  obtain ⟨L, hL⟩ := Option.isSome_iff_exists.1 ((C49_sun_near hex ns mu F0 z z' (o x) hz h0).2 z')
  obtain ⟨d1, d2⟩ := C49_sun_deriv hex ns mu F0 z z' o L hz ha ho hL
  have hs : ∃ r, sunA inv? ns mu F0 (z x) (o x) Fpa Fma w = some r := by
    unfold sunLayerL at hL
    unfold sunA
    cases hx : inv? (o x).f with
    | none => rw [hx] at hL; cases hL
    | some X => exact ⟨_, rfl⟩
  obtain ⟨r, hr⟩ := hs
  obtain ⟨k1, k2⟩ := sun_keeps hr hL
  refine ⟨r.1, by rw [hr, ← k2], ?_⟩
  rw [k1]
  refine ((vpair_deriv Fpa d1).fun_add (vpair_deriv Fma d2)).congr_deriv ?_
  ring

/-- A layer whose albedo changes. -/
example (Fpa Fma a b : Source.V 1) (w : Sun 1) : ∃ (z : ℝ → Sun 1) (z' : Sun 1) (o : ℝ → SunOut 1) (w' : Sun 1), z'.om = 1 ∧
    sunA inverse 1 (fun _ => 1 / 2) 3 (z 0) (o 0) Fpa Fma w = some (w', 0, 0) ∧
    HasDerivAt (fun y => vpair Fpa (o y).Fp + vpair Fma (o y).Fm) (sunPair w' z' - sunPair w z') 0 := by
  obtain ⟨o, ho⟩ := demo_sun 3 a b
  set z0 := sunOf true 1 (fun _ : Fin 1 => (1 : ℝ) / 2) (fun _ => 1) (3 / 5) 2 1 1 a b with hz0
  let z : ℝ → Sun 1 := fun y => { z0 with om := z0.om + y }
  let z' : Sun 1 := ⟨1, 0, 0, 0, 0, 0, 0⟩
  have hz : SunDeriv z z' 0 := ⟨(hasDerivAt_id (0 : ℝ)).const_add z0.om, hasDerivAt_const _ _,
    fun _ => hasDerivAt_const _ _, fun _ => hasDerivAt_const _ _, fun _ _ => hasDerivAt_const _ _,
    fun _ _ => hasDerivAt_const _ _, fun _ _ => hasDerivAt_const _ _⟩
  have hs : sun inverse 1 (fun _ => 1 / 2) 3 (z 0) = some o := by
    have : z 0 = z0 := by simp [z]
    rw [this]; exact ho
  obtain ⟨⟨o', h1⟩, -⟩ := C49_sun_near inverse_exact 1 (fun _ => 1 / 2) 3 z z' o hz hs
  have ha : (z 0).as0 ≠ 0 := by
    have : (z 0).as0 = 2 := rfl
    rw [this]; norm_num
  obtain ⟨w', k1, k2⟩ := C68_sun inverse_exact 1 (fun _ => 1 / 2) 3 z z' o' hz ha h1 Fpa Fma w
  exact ⟨z, z', o', w', rfl, k1, k2⟩

/-! ## Sources of the layer -/

/-- The derivative of what goes into the sources of a layer. -/
structure GDeriv (g : ℝ → GW n) (g' : GW n) (x : ℝ) : Prop where
  atran : HasDerivAt (fun y => (g y).atran) g'.atran x
  Rp : MDeriv (fun y => (g y).Rp) g'.Rp x
  Tp : MDeriv (fun y => (g y).Tp) g'.Tp x
  Rm : MDeriv (fun y => (g y).Rm) g'.Rm x
  Tm : MDeriv (fun y => (g y).Tm) g'.Tm x
  Fp : VDeriv (fun y => (g y).Fp) g'.Fp x
  Fm : VDeriv (fun y => (g y).Fm) g'.Fm x

/-- The same for the sources of a layer. -/
theorem C68_global {g : ℝ → GW n} {g' : GW n} (hg : GDeriv g g' x) (Spa Sma : Source.V n) (w : GW n) :
    let S := fun y => global (g y).atran (g y).Rp (g y).Tp (g y).Rm (g y).Tm (g y).Fp (g y).Fm
    let r := globalA (g x).atran (g x).Rp (g x).Tp (g x).Rm (g x).Tm (g x).Fp (g x).Fm Spa Sma w
    r.2 = (0, 0) ∧ HasDerivAt (fun y => vpair Spa (S y).1 + vpair Sma (S y).2) (gPair r.1 g' - gPair w g') x := by
  intro S r
  refine ⟨rfl, ?_⟩
  obtain ⟨d1, d2⟩ := C49_global_deriv _ _ _ _ _ _ _ _ _ _ _ _ _ _ hg.atran hg.Rp hg.Tp hg.Rm hg.Tm hg.Fp hg.Fm
  refine ((vpair_deriv Spa d1).fun_add (vpair_deriv Sma d2)).congr_deriv ?_
  rw [global_keeps]
  ring

/-- ... where light from above and from below meets the same matrices, and their weights are in the same arrays. -/
theorem C68_global_same {g : ℝ → GW n} {g' : GW n} (hg : GDeriv g g' x) (Spa Sma : Source.V n) (w : GW n) :
    let S := fun y => global (g y).atran (g y).Rp (g y).Tp (g y).Rp (g y).Tp (g y).Fp (g y).Fm
    let r := globalA1 (g x).atran (g x).Rp (g x).Tp (g x).Fp (g x).Fm Spa Sma w
    r.2 = (0, 0) ∧ HasDerivAt (fun y => vpair Spa (S y).1 + vpair Sma (S y).2) (gPair r.1 g' - gPair w g') x := by
  intro S r
  refine ⟨rfl, ?_⟩
  obtain ⟨d1, d2⟩ := C49_global_deriv _ _ _ _ _ _ _ _ _ _ _ _ _ _ hg.atran hg.Rp hg.Tp hg.Rp hg.Tp hg.Fp hg.Fm
  refine ((vpair_deriv Spa d1).fun_add (vpair_deriv Sma d2)).congr_deriv ?_
  rw [global1_keeps]
  ring

/-- A layer in which beam, reflection and solution change at once. -/
theorem demo_GDeriv (c : GW 1) : GDeriv (fun y => ⟨y, fun _ _ => y, c.Tp, c.Rm, c.Tm, fun _ => y, c.Fm⟩)
    ⟨1, fun _ _ => 1, 0, 0, 0, fun _ => 1, 0⟩ x :=
  ⟨hasDerivAt_id x, fun _ _ => hasDerivAt_id x, fun _ _ => hasDerivAt_const _ _, fun _ _ => hasDerivAt_const _ _,
    fun _ _ => hasDerivAt_const _ _, fun _ => hasDerivAt_id x, fun _ => hasDerivAt_const _ _⟩

example (c w : GW 1) (Spa Sma : Source.V 1) := C68_global (x := 2) (demo_GDeriv c) Spa Sma w
example (c w : GW 1) (Spa Sma : Source.V 1) := C68_global_same (x := 2) (demo_GDeriv c) Spa Sma w

/-- The same for the scaling by the beam. -/
theorem C68_scale {b : ℝ → ℝ} {b' : ℝ} {Fp Fm : ℝ → Source.V n} {Fp' Fm' : Source.V n} (hb : HasDerivAt b b' x)
    (hp : VDeriv Fp Fp' x) (hm : VDeriv Fm Fm' x) (Fpa Fma : Source.V n) (w : ℝ × Source.V n × Source.V n) :
    let r := scaleA (b x) (Fp x) (Fm x) Fpa Fma w
    r.2 = (0, 0) ∧ HasDerivAt (fun y => vpair Fpa (b y • Fp y) + vpair Fma (b y • Fm y))
      ((r.1.1 - w.1) * b' + (vpair r.1.2.1 Fp' - vpair w.2.1 Fp') + (vpair r.1.2.2 Fm' - vpair w.2.2 Fm')) x := by
  intro r
  refine ⟨rfl, ?_⟩
  have d1 : VDeriv (fun y => b y • Fp y) (b' • Fp x + b x • Fp') x := fun i => by
    simpa using hb.fun_mul (hp i)
  have d2 : VDeriv (fun y => b y • Fm y) (b' • Fm x + b x • Fm') x := fun i => by
    simpa using hb.fun_mul (hm i)
  refine ((vpair_deriv Fpa d1).fun_add (vpair_deriv Fma d2)).congr_deriv ?_
  have := scale_keeps (b x) b' (Fp x) (Fm x) Fp' Fm' Fpa Fma w
  linear_combination -this

example (Fpa Fma : Source.V 1) (w : ℝ × Source.V 1 × Source.V 1) :=
  C68_scale (x := 2) (b := fun y => y) (Fp := fun y _ => y) (Fm := fun _ _ => 1) (hasDerivAt_id 2) (fun _ => hasDerivAt_id 2)
    (fun _ => hasDerivAt_const _ _) Fpa Fma w

/-! ## Radiances -/

/-- Light at the output levels. -/
def lightAt (ul : List Nat) (I1 up1 dn2 up2 : Source.V n) (k : Nat) : Radiance.Pair n ℝ :=
  if ul[k]? = some 0 then (up1, I1) else (up2, dn2)

/-- How the light over a surface changes. -/
theorem surf_deriv {A : ℝ → Atm n ℝ} {d : Atm n ℝ} (hd : ADeriv A d x) {q : Source.M n}
    (hq : q * (1 - (A x).Rp * (A x).Rs) = 1) {up1 dn2 up2 : ℝ → Source.V n}
    (hL : ∀ᶠ y in 𝓝 x, Lit [(A y).layer] ((A y).base true) (A y).I1 (up1 y) (dn2 y) (up2 y)) :
    VDeriv dn2 (surfL q (A x) d (dn2 x)).2 x ∧ VDeriv up2 (surfL q (A x) d (dn2 x)).1 x ∧
      VDeriv up1 (topL (A x) d (up2 x) (surfL q (A x) d (dn2 x)).1) x := by
  have hb : RDeriv (fun y => (A y).base true) ⟨d.Rs, d.In⟩ x := hd.surf
  have hq' : q * (1 - (A x).layer.Rp * ((A x).base true).R) = 1 := hq
  have e := lit_deriv hd.layer hb hd.top hq' hL
  have hl := (lit_iff (Joined.one _) _ hq' _ _ _ _).1 hL.self_of_nhds
  dsimp only at e
  rw [← hl.1, ← hl.2.1] at e
  exact e

/-- What the reverse step over a surface gives for a derivative. -/
theorem surfA_pair (a d : Atm n ℝ) (q : Source.M n) {nLayers : Nat} (hn : 0 < nLayers) (u m : Source.V n)
    (up dn : Nat → Source.V n) (w : Atm n ℝ) :
    let s := surfL q a d m
    let t := topL a d u s.1
    atmPair (bothWaysA nLayers true [0] q a (u, m) up dn w) d - atmPair w d = vpair (up 0) t + vpair (dn 0) d.I1 ∧
    atmPair (bothWaysA nLayers true [nLayers] q a (u, m) up dn w) d - atmPair w d = vpair (up 0) s.1 + vpair (dn 0) s.2 ∧
    atmPair (bothWaysA nLayers true [0, nLayers] q a (u, m) up dn w) d - atmPair w d =
      vpair (up 0) t + vpair (dn 0) d.I1 + (vpair (up 1) s.1 + vpair (dn 1) s.2) := by
  intro s t
  have h1 : ¬ nLayers = 0 := by omega
  have h2 : ¬ 0 = nLayers := by omega
  refine ⟨?_, ?_, ?_⟩
  · have e : bothWaysA nLayers true [0] q a (u, m) up dn w = boaAllA q a m (topA a u (up 0) (dn 0) w 0).2 0
        (topA a u (up 0) (dn 0) w 0).1 := by
      simp [bothWaysA, h2]
    rw [e, boaAllA_keeps, vp_zeroL]
    linear_combination topA_keeps a d u s.1 (up 0) (dn 0) w 0 + vp_zeroL s.1
  · have e : bothWaysA nLayers true [nLayers] q a (u, m) up dn w = boaAllA q a m (up 0) (dn 0) w := by
      simp [bothWaysA, h1]
    rw [e, boaAllA_keeps]
    ring
  · have e : bothWaysA nLayers true [0, nLayers] q a (u, m) up dn w = boaAllA q a m (topA a u (up 0) (dn 0) w (up 1)).2 (dn 1)
        (topA a u (up 0) (dn 0) w (up 1)).1 := by
      simp [bothWaysA, h2]
    rw [e, boaAllA_keeps]
    linear_combination topA_keeps a d u s.1 (up 0) (dn 0) w (up 1)

/-- Over a surface: the light at the output levels, weighted, changes as the weights say that the reverse step has moved to
reflection, transmission, sources, surface and what comes in, along any curve of atmospheres and whatever curve of light obeys
layers and surface.  `up2 x`, `dn2 x` are what the forward call has saved (C32_both_ways). -/
theorem C68_both_ways {A : ℝ → Atm n ℝ} {d : Atm n ℝ} (hd : ADeriv A d x) {q : Source.M n}
    (hq : q * (1 - (A x).Rp * (A x).Rs) = 1) {nLayers : Nat} {ul : List Nat}
    (hn : 0 < nLayers) (hul : ul.Pairwise (· < ·)) (hul2 : ∀ l ∈ ul, l = 0 ∨ l = nLayers) (hul3 : ul ≠ [])
    {up1 dn2 up2 : ℝ → Source.V n}
    (hL : ∀ᶠ y in 𝓝 x, Lit [(A y).layer] ((A y).base true) (A y).I1 (up1 y) (dn2 y) (up2 y))
    (up dn : Nat → Source.V n) (w : Atm n ℝ) :
    HasDerivAt (fun y => outPair ul up dn (lightAt ul (A y).I1 (up1 y) (dn2 y) (up2 y)))
      (atmPair (bothWaysA nLayers true ul q (A x) (up2 x, dn2 x) up dn w) d - atmPair w d) x := by
  obtain ⟨d1, d2, d3⟩ := surf_deriv hd hq hL
  obtain ⟨v1, v2, v3⟩ := surfA_pair (A x) d q hn (up2 x) (dn2 x) up dn w
  have h1 : ¬ nLayers = 0 := by omega
  rcases levels_cases hul hul2 hul3 with e | e | ⟨e, -⟩
  · subst e
    rw [v1]
    simpa [outPair, lightAt] using (vpair_deriv (up 0) d3).fun_add (vpair_deriv (dn 0) hd.top)
  · subst e
    rw [v2]
    simpa [outPair, lightAt, h1] using (vpair_deriv (up 0) d2).fun_add (vpair_deriv (dn 0) d1)
  · subst e
    rw [v3]
    simpa [outPair, lightAt, h1, Finset.sum_range_succ] using
      ((vpair_deriv (up 0) d3).fun_add (vpair_deriv (dn 0) hd.top)).fun_add
        ((vpair_deriv (up 1) d2).fun_add (vpair_deriv (dn 1) d1))

/-- Without a surface, output at the top only.  Missing: output at the bottom (`C68_bottom_exchanged`,
`C68_violated_bottom`). -/
theorem C68_both_ways_bare_partial {A : ℝ → Atm n ℝ} {d : Atm n ℝ} (hd : ADeriv A d x) {nLayers : Nat} (q : Source.M n)
    {up1 dn2 up2 : ℝ → Source.V n}
    (hL : ∀ᶠ y in 𝓝 x, Lit [(A y).layer] ((A y).base false) (A y).I1 (up1 y) (dn2 y) (up2 y))
    (sv : Source.V n × Source.V n) (up dn : Nat → Source.V n) (w : Atm n ℝ) :
    HasDerivAt (fun y => outPair [0] up dn (lightAt [0] (A y).I1 (up1 y) (dn2 y) (up2 y)))
      (atmPair (bothWaysA nLayers false [0] q (A x) sv up dn w) d - atmPair w d) x := by
  have hb : RDeriv (fun y => (A y).base false) ⟨0, d.In⟩ x := ⟨MDeriv.const 0, hd.surf.S⟩
  have hq : (1 : Source.M n) * (1 - (A x).layer.Rp * ((A x).base false).R) = 1 := by simp [Atm.base]
  obtain ⟨-, -, e3⟩ := lit_deriv hd.layer hb hd.top hq hL
  have d3 : VDeriv up1 (topL (A x) d (A x).In d.In) x := by
    refine e3.congr ?_
    simp [Atm.base, Atm.layer, topL]
  have := ((vpair_deriv (up 0) d3).fun_add (vpair_deriv (dn 0) hd.top))
  simp only [outPair, lightAt, List.length_cons, List.length_nil, zero_add, Finset.sum_range_one, List.getElem?_cons_zero,
    if_true]
  refine this.congr_deriv ?_
  have t := topA_keeps (A x) d (A x).In d.In (up 0) (dn 0) w w.In
  have e : atmPair (bothWaysA nLayers false [0] q (A x) sv up dn w) d =
      atmPair (topA (A x) (A x).In (up 0) (dn 0) w w.In).1 d + vpair (topA (A x) (A x).In (up 0) (dn 0) w w.In).2 d.In -
        vpair w.In d.In := by
    simp only [bothWaysA, Bool.false_eq_true, if_false, List.zipIdx_cons, List.zipIdx_nil, List.foldl_cons, List.foldl_nil, if_true,
      atmPair, topA_In]
    ring
  rw [e]
  linear_combination -t

/-- Without a surface, output at the bottom: the weights are those of the light that would be there if what comes in at the
top and what starts at the bottom were exchanged; weights of the light up are not read. -/
theorem C68_bottom_exchanged (a d : Atm n ℝ) {nLayers : Nat} (hn : 0 < nLayers) (q : Source.M n)
    (sv : Source.V n × Source.V n) (up dn : Nat → Source.V n) (w : Atm n ℝ) :
    atmPair (bothWaysA nLayers false [nLayers] q a sv up dn w) d = atmPair w d +
      vpair (dn 0) (d.Rp *ᵥ a.I1 + a.Rp *ᵥ d.I1 + (d.Tm *ᵥ a.In + a.Tm *ᵥ d.In) + d.Sm) := by
  have h1 : ¬ nLayers = 0 := by omega
  have e : bothWaysA nLayers false [nLayers] q a sv up dn w = bottomA a (dn 0) w := by
    simp [bothWaysA, List.zipIdx_cons, h1]
  rw [e, bottomA_swaps]
  rfl

/-- The code violates C68.  No surface, light `1` comes in at the top of a layer that lets `y` of it through: what arrives at
the bottom grows with rate one.  The weights the reverse step has moved say zero. -/
theorem C68_violated_bottom : ∃ (A : ℝ → Atm 1 ℝ) (d : Atm 1 ℝ) (up1 dn2 up2 : ℝ → Source.V 1), ADeriv A d (1 / 2) ∧
    (∀ y, Lit [(A y).layer] ((A y).base false) (A y).I1 (up1 y) (dn2 y) (up2 y)) ∧
    ∀ (nLayers : Nat), 0 < nLayers → ∀ (q : Source.M 1) (sv : Source.V 1 × Source.V 1) (w : Atm 1 ℝ),
      HasDerivAt (fun y => outPair [nLayers] (fun _ => 0) (fun _ => vec 1) (lightAt [nLayers] (A y).I1 (up1 y) (dn2 y) (up2 y)))
        1 (1 / 2) ∧
      atmPair (bothWaysA nLayers false [nLayers] q (A (1 / 2)) sv (fun _ => 0) (fun _ => vec 1) w) d - atmPair w d = 0 := by
  refine ⟨fun y => ⟨0, 0, 0, Adding.sc y, 0, 0, 0, 0, vec 1⟩, ⟨0, 0, 0, Adding.sc 1, 0, 0, 0, 0, 0⟩, fun _ => vec 0, vec,
    fun _ => vec 0, ?_, fun y => ?_, fun nLayers hn q sv w => ⟨?_, ?_⟩⟩
  · refine ⟨⟨MDeriv.const 0, fun i j => ?_, fun _ => hasDerivAt_const _ _, MDeriv.const 0, MDeriv.const 0,
      fun _ => hasDerivAt_const _ _⟩, ⟨MDeriv.const 0, fun _ => hasDerivAt_const _ _⟩, fun _ => hasDerivAt_const _ _⟩
    exact hasDerivAt_id _
  · rw [lit_sc]
    refine ⟨⟨?_, ?_⟩, ?_⟩ <;> simp [Atm.layer, Atm.base, Mirror.Obeys, sc_mulVec, vec_zero, vec_add]
  · have h1 : ¬ nLayers = 0 := by omega
    simp only [outPair, lightAt, List.length_cons, List.length_nil, zero_add, Finset.sum_range_one, List.getElem?_cons_zero,
      Option.some.injEq, h1, if_false, vp_zeroL]
    exact (vpair_deriv (vec 1) (sc_deriv_id _)).congr_deriv (by simp [vpair, vec])
  · rw [C68_bottom_exchanged _ _ hn]
    simp [vp_zeroR]

/-- Bottom up: the weights of the light at the top go to the reflection and the source of everything below and to what comes
in. -/
theorem C68_bottom_up {r : ℝ → Mirror n ℝ} {r' : Mirror n ℝ} {I1 : ℝ → Source.V n} {I1' : Source.V n} (hr : RDeriv r r' x)
    (hI : VDeriv I1 I1' x) (upA dnA I1a : Source.V n) :
    let u := bottomUpA (r x).R (I1 x) upA dnA I1a
    HasDerivAt (fun y => vpair upA ((r y).R *ᵥ I1 y + (r y).S) + vpair dnA (I1 y))
      (mpair u.1 r'.R + vpair u.2.1 r'.S + (vpair u.2.2 I1' - vpair I1a I1')) x := by
  intro u
  have d1 := (VDeriv.mulVec hr.R hI).add hr.S
  refine ((vpair_deriv upA d1).fun_add (vpair_deriv dnA hI)).congr_deriv ?_
  have := toaRefA_keeps (r x).R r'.R r'.S (I1 x) I1' upA dnA I1a
  linear_combination -this

example (c : Source.V 1) (upA dnA I1a : Source.V 1) :=
  C68_bottom_up (x := 2) (r := fun y => ⟨Adding.sc y, c⟩) (r' := ⟨Adding.sc 1, 0⟩) (I1 := vec) (I1' := vec 1)
    ⟨fun _ _ => hasDerivAt_id 2, fun _ => hasDerivAt_const _ _⟩ (sc_deriv_id 2) upA dnA I1a

/-- A black layer of growing transmission over a mirror. -/
theorem demo_curve : ADeriv (n := 1) (fun y => ⟨0, 0, 0, Adding.sc y, 0, 0, Adding.sc 1, 0, vec 1⟩)
    ⟨0, 0, 0, Adding.sc 1, 0, 0, 0, 0, 0⟩ x :=
  ⟨⟨MDeriv.const 0, fun _ _ => hasDerivAt_id _, fun _ => hasDerivAt_const _ _, MDeriv.const 0, MDeriv.const 0,
    fun _ => hasDerivAt_const _ _⟩, ⟨MDeriv.const _, fun _ => hasDerivAt_const _ _⟩, fun _ => hasDerivAt_const _ _⟩

theorem demo_light (surface : Bool) (y : ℝ) : Lit [(⟨0, 0, 0, Adding.sc y, 0, 0, Adding.sc 1, 0, vec 1⟩ : Atm 1 ℝ).layer]
    ((⟨0, 0, 0, Adding.sc y, 0, 0, Adding.sc 1, 0, vec 1⟩ : Atm 1 ℝ).base surface) (vec 1) (vec 0) (vec y)
    (vec (if surface then y else 0)) := by
  rw [lit_sc]
  refine ⟨⟨?_, ?_⟩, ?_⟩ <;> cases surface <;>
    simp [Atm.layer, Atm.base, Mirror.Obeys, sc_mulVec, vec_zero, vec_add]

example (up dn : Nat → Source.V 1) (w : Atm 1 ℝ) :=
  C68_both_ways (x := 1 / 2) (q := 1) demo_curve (by simp) (nLayers := 3) (ul := [0, 3]) (by norm_num) (by simp) (by simp) (by simp)
    (Eventually.of_forall fun y => demo_light true y) up dn w

example (up dn : Nat → Source.V 1) (w : Atm 1 ℝ) :=
  C68_both_ways_bare_partial (x := 1 / 2) (nLayers := 3) demo_curve 1
    (Eventually.of_forall fun y => demo_light false y) (0, 0) up dn w

end Xrtm.AdjointS
