import Verif.Model.Source
import Verif.Model.Radiance
import Verif.Spec.Adjoint

/-!
# Reverse mode of the sources of a layer and of the radiances at top and bottom

src/xrtm_source_a.c:57-277, src/xrtm_radiance_a.c:22-263 and the middle of
`fourier_get_add_both_ways_a`, src/xrtm_model_a.c:2333-2379.

Weights of a structure of inputs are kept in the same structure.  Simplified:
reals for doubles; `dmat_vxvtmx` and `dmat_gxvxmx` are written as what they
compute; `inv?` (or `x`, its result) stands for the saved factors, `dmat_getrs2`
with `'t'` multiplies by the transpose of the inverse.  For `atran >= 0`, as in
`Source.global` (the reverse routines have no other case).
-/

namespace Xrtm.AdjointS
open Matrix Xrtm.Source Xrtm.Radiance

variable {n : Nat}

/-! ## The solution for the beam -/

/-- `build_source_vectors_1n_a`, src/xrtm_source_a.c:117-178: weights `Fpa`,
`Fma` of the solution, `w` so far; `o` the forward call has saved.  After it the
weights of the solution are zero. -/
noncomputable def sunA (inv? : M n → Option (M n)) (ns : Nat) (mu : V n) (F0 : ℝ) (z : Sun n) (o : SunOut n)
    (Fpa Fma : V n) (w : Sun n) : Option (Sun n × V n × V n) :=
  match inv? o.f with
  | none => none
  | some x =>
    let fm := turn ns Fma
    let fp := Fpa + fm
    let p1 := -fm
    let s1 := w.as0 + -(o.h ⬝ᵥ fp) / (2 * z.as0 * z.as0)
    let ha := (1 / (2 * z.as0)) • fp
    let p2 := p1 + (1 / 2 : ℝ) • fp
    let tpra := w.tpr + vecMulVec ha o.p
    let p3 := p2 + z.tprᵀ *ᵥ ha
    let v1 := xᵀ *ᵥ p3
    let w1 := -vecMulVec v1 o.p
    let s2 := s1 + ∑ i, -2 * z.as0 * w1 i i
    let tmra := w.tmr - vecMulVec v1 o.e
    let ea := ha - z.tmrᵀ *ᵥ v1
    let s3 := s2 - v1 ⬝ᵥ o.d
    let da := (-z.as0) • v1
    let ba := ea + da
    let ca := turn ns (-ea + da)
    some (⟨w.om + ∑ i, F0 / (4 * Real.pi) / mu i * (ca i * z.Pmm i + ba i * z.Ppm i), s3,
      fun i => w.Pmm i + F0 * z.om / (4 * Real.pi) / mu i * ca i,
      fun i => w.Ppm i + F0 * z.om / (4 * Real.pi) / mu i * ba i, tpra, tmra, w.gamma + w1⟩, 0, 0)

/-! ## Sources of the layer -/

/-- Weights of what goes into the sources of a layer. -/
structure GW (n : Nat) where
  atran : ℝ
  Rp : M n
  Tp : M n
  Rm : M n
  Tm : M n
  Fp : V n
  Fm : V n

/-- `build_global_source_a2`, src/xrtm_source_a.c:204-247. -/
def globalA (atran : ℝ) (Rp Tp Rm Tm : M n) (Fp Fm Spa Sma : V n) (w : GW n) : GW n × V n × V n :=
  let fm1 := w.Fm + atran • Sma
  let a1 := w.atran + Fm ⬝ᵥ Sma
  let tm := w.Tm - vecMulVec Sma Fm
  let fm2 := fm1 - Tmᵀ *ᵥ Sma
  let rp := w.Rp + (-atran) • vecMulVec Sma Fp
  let v1 := -(Rpᵀ *ᵥ Sma)
  let fp1 := w.Fp + Spa
  let tp := w.Tp + (-atran) • vecMulVec Spa Fp
  let v2 := v1 - Tpᵀ *ᵥ Spa
  let rm := w.Rm - vecMulVec Spa Fm
  let fm3 := fm2 - Rmᵀ *ᵥ Spa
  (⟨a1 + Fp ⬝ᵥ v2, rp, tp, rm, tm, fp1 + atran • v2, fm3⟩, 0, 0)

/-- `build_global_source_a`, src/xrtm_source_a.c:186-200: the weights of both
directions in the same arrays.  Every step of `globalA` adds to one array, so
what reaches an array are both sums. -/
def globalA1 (atran : ℝ) (R T : M n) (Fp Fm Spa Sma : V n) (w : GW n) : GW n × V n × V n :=
  let r := globalA atran R T R T Fp Fm Spa Sma { w with Rm := 0, Tm := 0 }
  ({ r.1 with Rp := r.1.Rp + r.1.Rm, Tp := r.1.Tp + r.1.Tm, Rm := w.Rm, Tm := w.Tm }, r.2)

/-- `scale_source_vectors_a`, src/xrtm_source_a.c:254-277: weights of `btran`
and of the sources before; those of the sources after are zero then. -/
def scaleA (btran : ℝ) (Fp Fm Fpa2 Fma2 : V n) (w : ℝ × V n × V n) : (ℝ × V n × V n) × V n × V n :=
  ((w.1 + Fp ⬝ᵥ Fpa2 + Fm ⬝ᵥ Fma2, w.2.1 + btran • Fpa2, w.2.2 + btran • Fma2), 0, 0)

/-! ## Radiances -/

/-- Weights of the arguments of `radiance_slab`. -/
structure SlabW (n : Nat) where
  R : M n
  T : M n
  S : V n
  x : V n
  y : V n

/-- `radiance_slab_a`, src/xrtm_radiance_a.c:22-56: the result was
`R x + T y + S`, with weight `v`. -/
def slabA (R T : M n) (x y v : V n) (w : SlabW n) : SlabW n :=
  ⟨w.R + vecMulVec v x, w.T + vecMulVec v y, w.S + v, w.x + Rᵀ *ᵥ v, w.y + Tᵀ *ᵥ v⟩

/-- `radiance_toa_ref_a`, src/xrtm_radiance_a.c:63-95. -/
def toaRefA (R : M n) (x v : V n) (w : SlabW n) : SlabW n :=
  { w with R := w.R + vecMulVec v x, S := w.S + v, x := w.x + Rᵀ *ᵥ v }

/-- `radiance_boa_all_a`, src/xrtm_radiance_a.c:147-263: `m` is the saved light
down, `x` the inverse of the saved `1 - R12_p R23_m`. -/
def boaAllA (x : M n) (a : Atm n ℝ) (m upA dnA : V n) (w : Atm n ℝ) : Atm n ℝ :=
  let rs := w.Rs + vecMulVec upA m
  let dn1 := dnA + a.Rsᵀ *ᵥ upA
  let in1 := w.In + upA
  let t := xᵀ *ᵥ dn1
  let Qa := vecMulVec t m
  let rp := w.Rp + vecMulVec t a.In
  let in2 := in1 + a.Rpᵀ *ᵥ t
  let tm := w.Tm + vecMulVec t a.I1
  let i1 := w.I1 + a.Tmᵀ *ᵥ t
  { w with Rp := rp + Qa * a.Rsᵀ, Tm := tm, Rs := rs + a.Rpᵀ * Qa, Sm := w.Sm + t, In := in2, I1 := i1 }

/-- Output at the top, src/xrtm_model_a.c:2336-2344: what comes in is also what
goes down there. -/
def topA (a : Atm n ℝ) (up upA dnA : V n) (w : Atm n ℝ) (upW : V n) : Atm n ℝ × V n :=
  let i1 := w.I1 + dnA
  let r := slabA a.Rm a.Tp a.I1 up upA ⟨w.Rm, w.Tp, w.Sp, i1, upW⟩
  ({ w with Rm := r.R, Tp := r.T, Sp := r.S, I1 := r.x }, r.y)

/-- Output at the bottom without a surface, src/xrtm_model_a.c:2346-2347: the
light from above is given where the forward call (xrtm_model.c:4869) has the
light from below, and the other way round.  The weights `I_p_a` are not read. -/
def bottomA (a : Atm n ℝ) (dnA : V n) (w : Atm n ℝ) : Atm n ℝ :=
  let r := slabA a.Rp a.Tm a.I1 a.In dnA ⟨w.Rp, w.Tm, w.Sm, w.I1, w.In⟩
  { w with Rp := r.R, Tm := r.T, Sm := r.S, I1 := r.x, In := r.y }

/-- src/xrtm_model_a.c:2333-2378; `sv` the saved light above the surface
(`I_p1`, `I_m1`), `up`, `dn` the weights of the outputs. -/
def bothWaysA (nLayers : Nat) (surface : Bool) (ul : List Nat) (x : M n) (a : Atm n ℝ) (sv : V n × V n)
    (up dn : Nat → V n) (w : Atm n ℝ) : Atm n ℝ :=
  if surface then
    -- 2358-2372
    let k : Option Nat := if ul[0]? = some nLayers then some 0 else if ul[1]? = some nLayers then some 1 else none
    let u1 := (k.map up).getD 0
    let d1 := (k.map dn).getD 0
    -- 2374-2377
    let r := if ul[0]? = some 0 then topA a sv.1 (up 0) (dn 0) w u1 else (w, u1)
    boaAllA x a sv.2 r.2 d1 r.1
  else
    ul.zipIdx.foldl (init := w) fun w p =>
      if p.1 = 0 then
        let r := topA a a.In (up p.2) (dn p.2) w w.In
        { r.1 with In := r.2 }
      else if p.1 = nLayers then bottomA a (dn p.2) w
      else w

/-- `fourier_get_add_bottom_up_a`, src/xrtm_model_a.c:2184-2186: weights of
`R_m`, `S_p` (from zero, 2175-2176) and `I1_m`. -/
def bottomUpA (R : M n) (I1 upA dnA I1a : V n) : M n × V n × V n :=
  let r := toaRefA R I1 upA ⟨0, 0, 0, I1a + dnA, 0⟩
  (r.R, r.S, r.x)

end Xrtm.AdjointS
