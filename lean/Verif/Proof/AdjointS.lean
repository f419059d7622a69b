import Verif.Spec.AdjointS
import Verif.Proof.Source
import Verif.Proof.RadianceB

/-!
# Proofs for the reverse mode of sources and radiances
-/

namespace Xrtm.AdjointS
open Matrix Xrtm.Source Xrtm.Radiance Xrtm.Spec

variable {n : Nat}

theorem vp_addL (a b c : Fin n → ℝ) : vpair (a + b) c = vpair a c + vpair b c := add_dotProduct a b c
theorem vp_addR (a b c : Fin n → ℝ) : vpair a (b + c) = vpair a b + vpair a c := dotProduct_add a b c
theorem vp_subL (a b c : Fin n → ℝ) : vpair (a - b) c = vpair a c - vpair b c := sub_dotProduct a b c
theorem vp_subR (a b c : Fin n → ℝ) : vpair a (b - c) = vpair a b - vpair a c := dotProduct_sub a b c
theorem vp_negL (a c : Fin n → ℝ) : vpair (-a) c = -vpair a c := neg_dotProduct a c
theorem vp_negR (a c : Fin n → ℝ) : vpair a (-c) = -vpair a c := dotProduct_neg a c
theorem vp_smulL (k : ℝ) (a c : Fin n → ℝ) : vpair (k • a) c = k * vpair a c := smul_dotProduct k a c
theorem vp_smulR (k : ℝ) (a c : Fin n → ℝ) : vpair a (k • c) = k * vpair a c := dotProduct_smul k a c
theorem vp_zeroL (c : Fin n → ℝ) : vpair 0 c = 0 := zero_dotProduct c
theorem vp_zeroR (a : Fin n → ℝ) : vpair a 0 = 0 := dotProduct_zero a
theorem vp_comm (a c : Fin n → ℝ) : vpair a c = vpair c a := dotProduct_comm a c
theorem vp_dot (a c : Fin n → ℝ) : a ⬝ᵥ c = vpair a c := rfl
theorem vp_trans (A : Matrix (Fin n) (Fin n) ℝ) (a c : Fin n → ℝ) : vpair (Aᵀ *ᵥ a) c = vpair a (A *ᵥ c) := by
  show (Aᵀ *ᵥ a) ⬝ᵥ c = a ⬝ᵥ (A *ᵥ c)
  rw [Matrix.mulVec_transpose, Matrix.dotProduct_mulVec]

theorem mp_addL (a b c : Matrix (Fin n) (Fin n) ℝ) : mpair (a + b) c = mpair a c + mpair b c := by
  simp [mpair, add_mul, Finset.sum_add_distrib]
theorem mp_subL (a b c : Matrix (Fin n) (Fin n) ℝ) : mpair (a - b) c = mpair a c - mpair b c := by
  simp [mpair, sub_mul, Finset.sum_sub_distrib]
theorem mp_negL (a c : Matrix (Fin n) (Fin n) ℝ) : mpair (-a) c = -mpair a c := by simp [mpair]
theorem mp_zeroL (c : Matrix (Fin n) (Fin n) ℝ) : mpair 0 c = 0 := by simp [mpair]
theorem mp_smulL (k : ℝ) (a c : Matrix (Fin n) (Fin n) ℝ) : mpair (k • a) c = k * mpair a c := by
  simp [mpair, Finset.mul_sum, mul_assoc]
theorem mp_outer (a b : Fin n → ℝ) (c : Matrix (Fin n) (Fin n) ℝ) : mpair (vecMulVec a b) c = vpair a (c *ᵥ b) := by
  simp only [mpair, vpair, vecMulVec_apply, Matrix.mulVec, dotProduct, Finset.mul_sum]
  exact Finset.sum_congr rfl fun i _ => Finset.sum_congr rfl fun j _ => by ring
theorem mp_outerR (a b : Fin n → ℝ) (g c : Matrix (Fin n) (Fin n) ℝ) :
    mpair (vecMulVec a b * gᵀ) c = vpair a (c *ᵥ (g *ᵥ b)) := by
  rw [vecMulVec_mul, mp_outer, Matrix.vecMul_transpose]
theorem mp_outerL (a b : Fin n → ℝ) (g c : Matrix (Fin n) (Fin n) ℝ) :
    mpair (gᵀ * vecMulVec a b) c = vpair a (g *ᵥ (c *ᵥ b)) := by
  rw [mul_vecMulVec, mp_outer, vp_trans]

theorem turn_self (ns : Nat) (a b : Fin n → ℝ) : vpair (turn ns a) b = vpair a (turn ns b) :=
  Finset.sum_congr rfl fun i _ => by unfold turn; split_ifs <;> ring

theorem turn_add (ns : Nat) (a b : Fin n → ℝ) : turn ns (a + b) = turn ns a + turn ns b := by
  funext i; simp only [turn, Pi.add_apply]; split_ifs <;> ring

/-- All rules at once. -/
macro "pairs" : tactic => `(tactic| simp only [vp_addL, vp_addR, vp_subL, vp_subR, vp_negL, vp_negR, vp_smulL, vp_smulR,
  vp_zeroL, vp_zeroR, vp_trans, vp_dot, mp_addL, mp_subL, mp_negL, mp_zeroL, mp_smulL, mp_outer, mp_outerR, mp_outerL,
  Matrix.mulVec_add, Matrix.mulVec_sub, Matrix.mulVec_smul, Matrix.add_mulVec, Matrix.mulVec_neg, Matrix.smul_mulVec,
  Matrix.mulVec_mulVec])

theorem diag_sum (s : ℝ) (a b : Fin n → ℝ) : ∑ i, -2 * s * (-vecMulVec a b) i i = 2 * s * vpair a b := by
  rw [vpair, Finset.mul_sum]
  refine Finset.sum_congr rfl fun i _ => ?_
  rw [Matrix.neg_apply, vecMulVec_apply]; ring

theorem sun_keeps {inv? : M n → Option (M n)} {ns : Nat} {mu : V n} {F0 : ℝ} {z z' : Sun n} {o : SunOut n}
    {Fpa Fma : V n} {w : Sun n} {r : Sun n × V n × V n} {f' : V n × V n}
    (hr : sunA inv? ns mu F0 z o Fpa Fma w = some r) (hf : sunLayerL inv? ns mu F0 z z' o = some f') :
    sunPair r.1 z' = sunPair w z' + vpair Fpa f'.1 + vpair Fma f'.2 ∧ r.2 = (0, 0) := by
  unfold sunA at hr
  unfold sunLayerL at hf
  cases hx : inv? o.f with
  | none => rw [hx] at hr; cases hr
  | some x =>
    rw [hx] at hr hf
    dsimp only at hr hf
    obtain rfl := Option.some.inj hr
    obtain rfl := Option.some.inj hf
    refine ⟨?_, rfl⟩
    dsimp only [sunPair]
    -- the products of the beam
    generalize hv1 : (fun i => (F0 / (4 * Real.pi) * z'.om * z.Ppm i + F0 / (4 * Real.pi) * z.om * z'.Ppm i) / mu i) = v1
    generalize hv2 : (fun i => (F0 / (4 * Real.pi) * z'.om * z.Pmm i + F0 / (4 * Real.pi) * z.om * z'.Pmm i) / mu i) = v2
    have key : ∀ (b c : V n), (∑ i, F0 / (4 * Real.pi) / mu i * (c i * z.Pmm i + b i * z.Ppm i)) * z'.om +
        vpair (fun i => F0 * z.om / (4 * Real.pi) / mu i * c i) z'.Pmm +
        vpair (fun i => F0 * z.om / (4 * Real.pi) / mu i * b i) z'.Ppm = vpair b v1 + vpair c v2 := by
      intro b c
      rw [← hv1, ← hv2]
      simp only [vpair, Finset.sum_mul, ← Finset.sum_add_distrib]
      exact Finset.sum_congr rfl fun i _ => by ring
    have sp1 : ∀ (c : V n), vpair (fun i => w.Pmm i + F0 * z.om / (4 * Real.pi) / mu i * c i) z'.Pmm =
        vpair w.Pmm z'.Pmm + vpair (fun i => F0 * z.om / (4 * Real.pi) / mu i * c i) z'.Pmm := fun c =>
      vp_addL _ _ _
    have sp2 : ∀ (c : V n), vpair (fun i => w.Ppm i + F0 * z.om / (4 * Real.pi) / mu i * c i) z'.Ppm =
        vpair w.Ppm z'.Ppm + vpair (fun i => F0 * z.om / (4 * Real.pi) / mu i * c i) z'.Ppm := fun c =>
      vp_addL _ _ _
    rw [sp1, sp2, diag_sum]
    generalize hfm : turn ns Fma = fm
    generalize hfp : Fpa + fm = fp
    have hF : Fpa = fp - fm := by rw [← hfp]; simp
    rw [← turn_self ns Fma, hfm, hF]
    generalize hha : (1 / (2 * z.as0)) • fp = ha
    generalize hvv : xᵀ *ᵥ (-fm + (1 / 2 : ℝ) • fp + z.tprᵀ *ᵥ ha) = vv
    have hvx : ∀ u : V n, vpair vv u = vpair (-fm + (1 / 2 : ℝ) • fp + z.tprᵀ *ᵥ ha) (x *ᵥ u) := fun u => by
      rw [← hvv, vp_trans]
    generalize hea : ha - z.tmrᵀ *ᵥ vv = ea
    have hk := key (ea + (-z.as0) • vv) (turn ns (-ea + (-z.as0) • vv))
    rw [turn_self] at hk
    generalize hu : turn ns v2 = u2 at hk ⊢
    -- the right hand side
    generalize hq : (2 * z.as0 * z'.as0) • o.p - z'.gamma *ᵥ o.p - z'.tmr *ᵥ o.e - z.tmr *ᵥ (v1 - u2) - z'.as0 • o.d -
      z.as0 • (v1 + u2) = q
    have hvq := hvx q
    have hhu : ∀ u : V n, vpair ha u = (1 / (2 * z.as0)) * vpair fp u := fun u => by rw [← hha, vp_smulL]
    have he : ∀ u : V n, vpair ea u = vpair ha u - vpair vv (z.tmr *ᵥ u) := fun u => by
      rw [← hea, vp_subL, vp_trans]
    have hvq2 : vpair vv q = 2 * z.as0 * z'.as0 * vpair vv o.p - vpair vv (z'.gamma *ᵥ o.p) - vpair vv (z'.tmr *ᵥ o.e) -
        vpair vv (z.tmr *ᵥ (v1 - u2)) - z'.as0 * vpair vv o.d - z.as0 * (vpair vv v1 + vpair vv u2) := by
      rw [← hq]; simp only [vp_subR, vp_smulR, vp_addR]
    generalize hpl : x *ᵥ q = pl at hvq ⊢
    simp only [vp_addL, vp_negL, vp_smulL, vp_trans] at hvq hk
    have e1 := hhu (z.tpr *ᵥ pl)
    have e2 := hhu (z'.tpr *ᵥ o.p)
    have e3 := hhu v1
    have e4 := hhu u2
    have e5 := he v1
    have e6 := he u2
    have e7 : vpair vv (z.tmr *ᵥ (v1 - u2)) = vpair vv (z.tmr *ᵥ v1) - vpair vv (z.tmr *ᵥ u2) := by
      rw [Matrix.mulVec_sub, vp_subR]
    have e8 : o.h ⬝ᵥ fp = vpair fp o.h := vp_comm _ _
    rw [e8]
    simp only [vp_addR, vp_subR, vp_smulR, vp_subL, vp_dot, mp_addL, mp_subL, mp_negL, mp_outer] at hk ⊢
    have inv2 : (1 : ℝ) / (2 * z.as0) = (1 / 2) * (1 / z.as0) := by rw [one_div_mul_one_div_rev]; ring_nf
    rw [inv2] at e1 e2 e3 e4
    have inv3 : -(vpair fp o.h) / (2 * z.as0 * z.as0) * z'.as0 = 1 / 2 * (-z'.as0 / (z.as0 * z.as0)) * vpair fp o.h := by
      rw [mul_assoc 2, div_mul_eq_mul_div, div_eq_mul_inv, div_eq_mul_inv (-z'.as0), mul_inv]; ring
    simp only [add_mul, sub_mul]
    rw [inv3]
    linear_combination hk - hvq2 + hvq + e7 + e5 - e6 + e1 + e2 + (e3 - e4)

theorem global_keeps (atran : ℝ) (Rp Tp Rm Tm : M n) (Fp Fm Spa Sma : V n) (w d : GW n) :
    gPair (globalA atran Rp Tp Rm Tm Fp Fm Spa Sma w).1 d = gPair w d +
      vpair Spa (globalLayerL atran d.atran Rp Tp Rm Tm d.Rp d.Tp d.Rm d.Tm Fp Fm d.Fp d.Fm).1 +
      vpair Sma (globalLayerL atran d.atran Rp Tp Rm Tm d.Rp d.Tp d.Rm d.Tm Fp Fm d.Fp d.Fm).2 := by
  have c1 : Fm ⬝ᵥ Sma = vpair Sma Fm := vp_comm _ _
  have c2 : Fp ⬝ᵥ (-(Rpᵀ *ᵥ Sma) - Tpᵀ *ᵥ Spa) = -vpair Sma (Rp *ᵥ Fp) - vpair Spa (Tp *ᵥ Fp) := by
    rw [vp_dot, vp_comm]; pairs
  dsimp only [gPair, globalA, globalLayerL]
  rw [c1, c2]
  pairs
  ring

theorem global1_keeps (atran : ℝ) (R T : M n) (Fp Fm Spa Sma : V n) (w d : GW n) :
    gPair (globalA1 atran R T Fp Fm Spa Sma w).1 d = gPair w d +
      vpair Spa (globalLayerL atran d.atran R T R T d.Rp d.Tp d.Rp d.Tp Fp Fm d.Fp d.Fm).1 +
      vpair Sma (globalLayerL atran d.atran R T R T d.Rp d.Tp d.Rp d.Tp Fp Fm d.Fp d.Fm).2 := by
  have h := global_keeps atran R T R T Fp Fm Spa Sma { w with Rm := 0, Tm := 0 } { d with Rm := d.Rp, Tm := d.Tp }
  dsimp only at h
  have e : gPair (globalA1 atran R T Fp Fm Spa Sma w).1 d =
      gPair (globalA atran R T R T Fp Fm Spa Sma { w with Rm := 0, Tm := 0 }).1 { d with Rm := d.Rp, Tm := d.Tp } +
        mpair w.Rm d.Rm + mpair w.Tm d.Tm := by
    dsimp only [gPair, globalA1]
    rw [mp_addL, mp_addL]; ring
  rw [e, h]
  dsimp only [gPair]
  rw [mp_zeroL, mp_zeroL]; ring

theorem scale_keeps (btran btran' : ℝ) (Fp Fm Fp' Fm' Fpa Fma : V n) (w : ℝ × V n × V n) :
    (scaleA btran Fp Fm Fpa Fma w).1.1 * btran' + vpair (scaleA btran Fp Fm Fpa Fma w).1.2.1 Fp' +
        vpair (scaleA btran Fp Fm Fpa Fma w).1.2.2 Fm' =
      w.1 * btran' + vpair w.2.1 Fp' + vpair w.2.2 Fm' + vpair Fpa (btran' • Fp + btran • Fp') +
        vpair Fma (btran' • Fm + btran • Fm') := by
  dsimp only [scaleA]
  rw [vp_dot, vp_dot, vp_comm Fp, vp_comm Fm]
  pairs
  ring

theorem topA_keeps (a d : Atm n ℝ) (up up' upA dnA : V n) (w : Atm n ℝ) (upW : V n) :
    atmPair (topA a up upA dnA w upW).1 d + vpair (topA a up upA dnA w upW).2 up' =
      atmPair w d + vpair upW up' + vpair upA (topL a d up up') + vpair dnA d.I1 := by
  dsimp only [atmPair, topA, slabA, topL]
  pairs
  ring

theorem topA_In (a : Atm n ℝ) (up upA dnA : V n) (w : Atm n ℝ) (upW : V n) :
    (topA a up upA dnA w upW).1.In = w.In := rfl

theorem bottomA_swaps (a d : Atm n ℝ) (dnA : V n) (w : Atm n ℝ) :
    atmPair (bottomA a dnA w) d = atmPair w d +
      vpair dnA (botL { a with In := a.I1, I1 := a.In } { d with In := d.I1, I1 := d.In }) := by
  dsimp only [atmPair, bottomA, slabA, botL]
  pairs
  ring

theorem boaAllA_keeps {x : M n} (a d : Atm n ℝ) (m upA dnA : V n) (w : Atm n ℝ) :
    atmPair (boaAllA x a m upA dnA w) d = atmPair w d + vpair upA (surfL x a d m).1 + vpair dnA (surfL x a d m).2 := by
  dsimp only [atmPair, boaAllA]
  generalize ht : xᵀ *ᵥ (dnA + a.Rsᵀ *ᵥ upA) = t
  generalize hm : (surfL x a d m).2 = m'
  have h1 : (surfL x a d m).1 = d.Rs *ᵥ m + a.Rs *ᵥ m' + d.In := by rw [← hm]; rfl
  have h2 : vpair dnA m' + vpair upA (a.Rs *ᵥ m') = vpair t ((d.Rp * a.Rs + a.Rp * d.Rs) *ᵥ m +
      (d.Rp *ᵥ a.In + a.Rp *ᵥ d.In) + (d.Tm *ᵥ a.I1 + a.Tm *ᵥ d.I1) + d.Sm) := by
    rw [← ht, vp_trans, vp_addL, vp_trans, ← hm]; rfl
  rw [h1]
  have h3 := h2
  simp only [vp_addR, Matrix.add_mulVec, ← Matrix.mulVec_mulVec] at h3
  simp only [vp_addL, vp_addR, vp_trans, mp_addL, mp_outer, mp_outerL, mp_outerR]
  linear_combination -h3

theorem toaRefA_keeps (R R' : M n) (S' I1 I1' upA dnA I1a : V n) :
    mpair (bottomUpA R I1 upA dnA I1a).1 R' + vpair (bottomUpA R I1 upA dnA I1a).2.1 S' +
        vpair (bottomUpA R I1 upA dnA I1a).2.2 I1' =
      vpair I1a I1' + vpair upA (R' *ᵥ I1 + R *ᵥ I1' + S') + vpair dnA I1' := by
  dsimp only [bottomUpA, toaRefA]
  pairs
  ring

end Xrtm.AdjointS
