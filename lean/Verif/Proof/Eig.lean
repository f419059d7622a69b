import Verif.Model.Eig
import Verif.Proof.Source
import Mathlib.Analysis.Calculus.MeanValue
import Mathlib.LinearAlgebra.Matrix.ToLinearEquiv

/-! The eigenmatrix solver gives the layer of the medium. -/

namespace Xrtm.Eig
open Matrix Filter Topology Xrtm.Spec Xrtm.Transfer Xrtm.Source

variable {n : Nat} {K : Type} [RCLike K]

/-- What is known of the results of `calcRT`. -/
theorem calcRT_some {ex : K → K} {inv? : Matrix (Fin n) (Fin n) K → Option (Matrix (Fin n) (Fin n) K)}
    (hex : Eig.Exact inv?) {ltau : K} {m : Modes n K} {o : RT n K} (h : calcRT ex inv? ltau m = some o) :
    (∀ i, o.lam i = ex (-m.nu i * ltau)) ∧ o.a = m.Xp * diagonal o.lam ∧ o.b * m.Xm = o.a ∧
      o.c = m.Xm - o.b * o.a ∧ o.d * o.c = m.Xp ∧ o.e * o.c = m.Xm * diagonal o.lam ∧
      o.R = o.e * o.b - o.d ∧ o.T = o.e - o.d * o.b := by
  unfold calcRT at h
  cases hx : inv? m.Xm with
  | none => simp [hx] at h
  | some x =>
    simp only [hx] at h
    split at h
    · cases h
    · next y hy =>
      have e1 := mul_eq_one_comm.1 ((hex _ _).1 hx)
      have e2 := mul_eq_one_comm.1 ((hex _ _).1 hy)
      cases h
      refine ⟨fun _ => rfl, rfl, ?_, rfl, ?_, ?_, rfl, rfl⟩
      · simp only [Matrix.mul_assoc, e1, Matrix.mul_one]
      · rw [Matrix.mul_assoc, e2, Matrix.mul_one]
      · rw [Matrix.mul_assoc, e2, Matrix.mul_one]

/-- Light made of growing and decaying modes leaves the layer as `R` and `T` say. -/
theorem two_ends {ex : K → K} {inv? : Matrix (Fin n) (Fin n) K → Option (Matrix (Fin n) (Fin n) K)}
    (hex : Eig.Exact inv?) {ltau : K} {m : Modes n K} {o : RT n K} (h : calcRT ex inv? ltau m = some o)
    (al be F0 G0 FT GT : Fin n → K)
    (hF0 : F0 = m.Xp *ᵥ al + m.Xm *ᵥ (diagonal o.lam *ᵥ be))
    (hG0 : G0 = -(m.Xm *ᵥ al) - m.Xp *ᵥ (diagonal o.lam *ᵥ be))
    (hFT : FT = m.Xp *ᵥ (diagonal o.lam *ᵥ al) + m.Xm *ᵥ be)
    (hGT : GT = -(m.Xm *ᵥ (diagonal o.lam *ᵥ al)) - m.Xp *ᵥ be) :
    F0 = o.R *ᵥ G0 + o.T *ᵥ FT ∧ GT = o.T *ᵥ G0 + o.R *ᵥ FT := by
  obtain ⟨_, ha, hb, hc, hd, he, hR, hT⟩ := calcRT_some hex h
  have k1 : G0 + o.b *ᵥ FT = -(o.c *ᵥ al) := by
    rw [hG0, hFT, hc]
    simp only [Matrix.sub_mulVec, Matrix.mulVec_add, Matrix.mulVec_mulVec, ← Matrix.mul_assoc, hb]
    rw [Matrix.mul_assoc o.b, ← ha]
    abel
  have k2 : FT + o.b *ᵥ G0 = o.c *ᵥ be := by
    rw [hG0, hFT, hc]
    simp only [Matrix.sub_mulVec, Matrix.mulVec_sub, Matrix.mulVec_neg, Matrix.mulVec_mulVec, hb]
    rw [← ha]
    abel
  constructor
  · have : o.R *ᵥ G0 + o.T *ᵥ FT = o.e *ᵥ (FT + o.b *ᵥ G0) - o.d *ᵥ (G0 + o.b *ᵥ FT) := by
      rw [hR, hT]
      simp only [Matrix.sub_mulVec, Matrix.mulVec_add, Matrix.mulVec_mulVec]
      abel
    rw [this, k1, k2, hF0]
    simp only [Matrix.mulVec_neg, Matrix.mulVec_mulVec, hd, he]
    abel
  · have : o.T *ᵥ G0 + o.R *ᵥ FT = o.e *ᵥ (G0 + o.b *ᵥ FT) - o.d *ᵥ (FT + o.b *ᵥ G0) := by
      rw [hR, hT]
      simp only [Matrix.sub_mulVec, Matrix.mulVec_add, Matrix.mulVec_mulVec]
      abel
    rw [this, k1, k2, hGT]
    simp only [Matrix.mulVec_neg, Matrix.mulVec_mulVec, hd, he]

/-- The exponential, of which only this is used. -/
structure IsExp (ex : K → K) : Prop where
  zero : ex 0 = 1
  deriv : ∀ z, HasDerivAt ex (ex z) z

theorem IsExp.along {ex : K → K} (he : IsExp ex) {u : ℝ → K} {u' : K} {x : ℝ} (hu : HasDerivAt u u' x) :
    HasDerivAt (fun y => ex (u y)) (u' * ex (u x)) x := by
  have := (he.deriv (u x)).comp x hu
  rw [mul_comm]
  exact this

theorem cast_deriv (x : ℝ) : HasDerivAt (fun y : ℝ => (y : K)) 1 x := by
  have := (RCLike.ofRealCLM (K := K)).hasFDerivAt.comp_hasDerivAt x (hasDerivAt_id x)
  simpa using this

theorem IsExp.ne_zero {ex : K → K} (he : IsExp ex) (c : K) (s : ℝ) : ex (-c * s) * ex (c * s) = 1 := by
  have hd : ∀ y : ℝ, HasDerivAt (fun y : ℝ => ex (-c * y) * ex (c * y)) 0 y := by
    intro y
    have h1 := he.along ((cast_deriv (K := K) y).const_mul (-c))
    have h2 := he.along ((cast_deriv (K := K) y).const_mul c)
    refine (h1.fun_mul h2).congr_deriv ?_
    ring
  have := is_const_of_deriv_eq_zero (fun y => (hd y).differentiableAt) (fun y => (hd y).deriv) s 0
  rw [this]
  simp [he.zero]

/-- A mode grows or decays exponentially. -/
theorem mode {ex : K → K} (he : IsExp ex) {c : K} {f : ℝ → K}
    (hf : ∀ y, HasDerivAt f (-c * f y) y) (s : ℝ) : f s = ex (-c * s) * f 0 := by
  have hd : ∀ y : ℝ, HasDerivAt (fun y : ℝ => ex (c * y) * f y) 0 y := by
    intro y
    have h1 := he.along ((cast_deriv (K := K) y).const_mul c)
    refine (h1.fun_mul (hf y)).congr_deriv ?_
    ring
  have := is_const_of_deriv_eq_zero (fun y => (hd y).differentiableAt) (fun y => (hd y).deriv) s 0
  simp only [RCLike.ofReal_zero, mul_zero, he.zero, one_mul] at this
  rw [← this, ← mul_assoc, he.ne_zero, one_mul]

theorem mulVec_deriv (A : Matrix (Fin n) (Fin n) K) {f : ℝ → Fin n → K} {f' : Fin n → K} {x : ℝ}
    (hf : ∀ i, HasDerivAt (fun y => f y i) (f' i) x) (i : Fin n) :
    HasDerivAt (fun y => (A *ᵥ f y) i) ((A *ᵥ f') i) x := by
  simp only [Matrix.mulVec, dotProduct]
  exact HasDerivAt.fun_sum fun k _ => (hf k).const_mul _

/-- The two combinations of the light up and down are made of the modes. -/
theorem modal {ex : K → K} (he : IsExp ex)
    {tpr tmr V : Matrix (Fin n) (Fin n) K} {nu : Fin n → K} (hV : V.det ≠ 0) (hnu : ∀ i, nu i ≠ 0)
    (hE : tmr * tpr * V = V * diagonal fun i => nu i ^ 2) {F G : ℝ → Fin n → K}
    (hq : ∀ τ i, HasDerivAt (fun s => F s i + G s i) (-(tpr *ᵥ (F τ - G τ)) i) τ)
    (hp : ∀ τ i, HasDerivAt (fun s => F s i - G s i) (-(tmr *ᵥ (F τ + G τ)) i) τ) :
    ∃ al be : ℝ → Fin n → K, (∀ i s, al s i = ex (-nu i * s) * al 0 i) ∧ (∀ i s, be s i = ex (nu i * s) * be 0 i) ∧
      (∀ s, F s = (modes tpr nu V).Xp *ᵥ al s + (modes tpr nu V).Xm *ᵥ be s) ∧
      ∀ s, G s = -((modes tpr nu V).Xm *ᵥ al s) - (modes tpr nu V).Xp *ᵥ be s := by
  set N : Matrix (Fin n) (Fin n) K := diagonal nu with hN
  set Ni : Matrix (Fin n) (Fin n) K := diagonal fun i => (nu i)⁻¹ with hNi
  have hNN : N * Ni = 1 := by
    rw [hN, hNi, diagonal_mul_diagonal]
    simp [hnu]
  have hNN' : Ni * N = 1 := mul_eq_one_comm.1 hNN
  set Y := V⁻¹ with hY
  have hVY : V * Y = 1 := mul_nonsing_inv _ (isUnit_iff_ne_zero.2 hV)
  have hYV : Y * V = 1 := mul_eq_one_comm.1 hVY
  set B : Matrix (Fin n) (Fin n) K := tpr * V * Ni with hB
  have hBN : tpr * V = B * N := by rw [hB, Matrix.mul_assoc, hNN', Matrix.mul_one]
  have hsq : (diagonal fun i => nu i ^ 2) = N * N := by
    rw [hN, diagonal_mul_diagonal]; congr 1; funext i; ring
  have hmB : tmr * B = V * N := by
    rw [hB, Matrix.mul_assoc tpr, ← Matrix.mul_assoc tmr, ← Matrix.mul_assoc, hE, hsq, Matrix.mul_assoc V,
      Matrix.mul_assoc N, hNN, Matrix.mul_one]
  set Z := Ni * Y * tmr with hZ
  have hZB : Z * B = 1 := by
    rw [hZ, Matrix.mul_assoc, hmB, Matrix.mul_assoc, ← Matrix.mul_assoc Y, hYV, Matrix.one_mul, hNN']
  have hBZ : B * Z = 1 := mul_eq_one_comm.1 hZB
  -- amplitudes of the modes
  set P : ℝ → Fin n → K := fun s => Y *ᵥ (F s - G s) with hP
  set Q : ℝ → Fin n → K := fun s => Z *ᵥ (F s + G s) with hQ
  have eP : ∀ s, F s - G s = V *ᵥ P s := fun s => by
    rw [hP]; simp only; rw [mulVec_mulVec, hVY, one_mulVec]
  have eQ : ∀ s, F s + G s = B *ᵥ Q s := fun s => by
    rw [hQ]; simp only; rw [mulVec_mulVec, hBZ, one_mulVec]
  have dP : ∀ τ i, HasDerivAt (fun s => P s i) (-(nu i * Q τ i)) τ := by
    intro τ i
    refine (mulVec_deriv Y (f := fun s => F s - G s) (f' := fun j => -(tmr *ᵥ (F τ + G τ)) j)
      (fun j => hp τ j) i).congr_deriv ?_
    have : (fun j => -(tmr *ᵥ (F τ + G τ)) j) = -((tmr * B) *ᵥ Q τ) := by
      funext j; rw [eQ, mulVec_mulVec]; rfl
    rw [this, mulVec_neg, mulVec_mulVec, hmB, ← Matrix.mul_assoc, hYV, Matrix.one_mul, hN, Pi.neg_apply,
      mulVec_diagonal]
  have dQ : ∀ τ i, HasDerivAt (fun s => Q s i) (-(nu i * P τ i)) τ := by
    intro τ i
    refine (mulVec_deriv Z (f := fun s => F s + G s) (f' := fun j => -(tpr *ᵥ (F τ - G τ)) j)
      (fun j => hq τ j) i).congr_deriv ?_
    have : (fun j => -(tpr *ᵥ (F τ - G τ)) j) = -((tpr * V) *ᵥ P τ) := by
      funext j; rw [eP, mulVec_mulVec]; rfl
    rw [this, mulVec_neg, mulVec_mulVec, hBN, ← Matrix.mul_assoc, hZB, Matrix.one_mul, hN, Pi.neg_apply,
      mulVec_diagonal]
  set al : ℝ → Fin n → K := fun s i => 1 / 2 * (P s i + Q s i) with hal
  set be : ℝ → Fin n → K := fun s i => 1 / 2 * (P s i - Q s i) with hbe
  have dal : ∀ i s, al s i = ex (-nu i * s) * al 0 i := fun i s =>
    mode he (c := nu i) (f := fun s => al s i) (fun y => by
      refine (((dP y i).fun_add (dQ y i)).const_mul (1 / 2 : K)).congr_deriv ?_
      rw [hal]; ring) s
  have dbe : ∀ i s, be s i = ex (nu i * s) * be 0 i := fun i s => by
    have := mode he (c := -nu i) (f := fun s => be s i) (fun y => by
      refine (((dP y i).fun_sub (dQ y i)).const_mul (1 / 2 : K)).congr_deriv ?_
      rw [hbe]; ring) s
    rwa [neg_neg] at this
  have hw : ∀ i j, (tpr * V) i j / nu j = B i j := by
    intro i j; rw [hB, hNi, mul_diagonal, div_eq_mul_inv]
  have vP : ∀ s, P s = al s + be s := fun s => by
    funext i; rw [hal, hbe]; simp only [Pi.add_apply]; ring
  have vQ : ∀ s, Q s = al s - be s := fun s => by
    funext i; rw [hal, hbe]; simp only [Pi.sub_apply]; ring
  have two : (2 : K) ≠ 0 := two_ne_zero
  have hXp : (modes tpr nu V).Xp = (1 / 2 : K) • (V + B) := by
    funext i j; simp only [modes, hw, Matrix.smul_apply, Matrix.add_apply, smul_eq_mul]
  have hXm : (modes tpr nu V).Xm = (1 / 2 : K) • (V - B) := by
    funext i j; simp only [modes, hw, Matrix.smul_apply, Matrix.sub_apply, smul_eq_mul]
  have vF : ∀ s, F s = (modes tpr nu V).Xp *ᵥ al s + (modes tpr nu V).Xm *ᵥ be s := fun s => by
    have e1 := eP s; have e2 := eQ s
    rw [vP, mulVec_add] at e1
    rw [vQ, mulVec_sub] at e2
    have : F s = (1 / 2 : K) • ((F s - G s) + (F s + G s)) := by
      funext i; simp only [Pi.smul_apply, Pi.add_apply, Pi.sub_apply, smul_eq_mul]; ring
    rw [this, e1, e2, hXp, hXm, smul_mulVec, smul_mulVec, add_mulVec, sub_mulVec, ← smul_add]
    congr 1; abel
  have vG : ∀ s, G s = -((modes tpr nu V).Xm *ᵥ al s) - (modes tpr nu V).Xp *ᵥ be s := fun s => by
    have e1 := eP s; have e2 := eQ s
    rw [vP, mulVec_add] at e1
    rw [vQ, mulVec_sub] at e2
    have : G s = (1 / 2 : K) • ((F s + G s) - (F s - G s)) := by
      funext i; simp only [Pi.smul_apply, Pi.add_apply, Pi.sub_apply, smul_eq_mul]; ring
    rw [this, e1, e2, hXp, hXm, smul_mulVec, smul_mulVec, add_mulVec, sub_mulVec, ← smul_neg, ← smul_sub]
    congr 1; abel
  exact ⟨al, be, dal, dbe, vF, vG⟩

/-- The light at the two ends. -/
theorem core {ex : K → K} (he : IsExp ex)
    {inv? : Matrix (Fin n) (Fin n) K → Option (Matrix (Fin n) (Fin n) K)} (hex : Eig.Exact inv?) {T : ℝ}
    {tpr tmr V : Matrix (Fin n) (Fin n) K} {nu : Fin n → K} (hV : V.det ≠ 0) (hnu : ∀ i, nu i ≠ 0)
    (hE : tmr * tpr * V = V * diagonal fun i => nu i ^ 2) {o : RT n K}
    (h : calcRT ex inv? (T : K) (modes tpr nu V) = some o) {F G : ℝ → Fin n → K}
    (hq : ∀ τ i, HasDerivAt (fun s => F s i + G s i) (-(tpr *ᵥ (F τ - G τ)) i) τ)
    (hp : ∀ τ i, HasDerivAt (fun s => F s i - G s i) (-(tmr *ᵥ (F τ + G τ)) i) τ) :
    F 0 = o.R *ᵥ G 0 + o.T *ᵥ F T ∧ G T = o.T *ᵥ G 0 + o.R *ᵥ F T := by
  obtain ⟨al, be, dal, dbe, vF, vG⟩ := modal he hV hnu hE hq hp
  have hlam := (calcRT_some hex h).1
  have lal : al T = diagonal o.lam *ᵥ al 0 := by
    funext i; rw [mulVec_diagonal, hlam]; exact dal i T
  have lbe : be 0 = diagonal o.lam *ᵥ be T := by
    funext i; rw [mulVec_diagonal, hlam, dbe i T, ← mul_assoc]
    change _ = ex (-nu i * T) * ex (nu i * T) * _
    rw [he.ne_zero, one_mul]
  refine two_ends hex h (al 0) (be T) _ _ _ _ ?_ ?_ ?_ ?_
  · rw [vF 0, lbe]
  · rw [vG 0, lbe]
  · rw [vF T, lal]
  · rw [vG T, lal]

theorem reals_mulVec (A : Matrix (Fin n) (Fin n) K) (v : V n) (i : Fin n) :
    RCLike.re ((A *ᵥ fun j => (v j : K)) i) = (reals A *ᵥ v) i := by
  simp only [mulVec, dotProduct, reals, map_sum, RCLike.re_mul_ofReal]

theorem otherSide_apply (ns : Nat) (A : M n) (i j : Fin n) :
    otherSide ns A i j = stokesSign ns i * stokesSign ns j * A i j := by
  unfold otherSide stokesSign; rw [one_mul]

theorem cast_mulVec (A : M n) (v : V n) (i : Fin n) :
    ((A.map fun z : ℝ => (z : K)) *ᵥ fun j => (v j : K)) i = ((A *ᵥ v) i : K) := by
  simp only [mulVec, dotProduct, map_apply, RCLike.ofReal_sum, RCLike.ofReal_mul]

theorem cast_hasDeriv {f : ℝ → ℝ} {f' x : ℝ} (h : HasDerivAt f f' x) :
    HasDerivAt (fun y => (f y : K)) (f' : K) x := by
  have := (RCLike.ofRealCLM (K := K)).hasFDerivAt.comp_hasDerivAt x h
  simp only [RCLike.ofRealCLM_apply] at this
  exact this

/-- The matrices of the layer. -/
theorem rt_fills {ex : K → K} (he : IsExp ex)
    {inv? : Matrix (Fin n) (Fin n) K → Option (Matrix (Fin n) (Fin n) K)} (hex : Eig.Exact inv?) {T : ℝ}
    {first : Bool} {ns : Nat} (hns : 0 < ns) {mu w : Source.V n} {om : ℝ} {Ppp Pmp Pmm Ppm : M n}
    (hmu : ∀ i, mu i ≠ 0) (hm : (Medium.of first mu w om Ppp Pmp Pmm Ppm).Mirrored ns)
    {V : Matrix (Fin n) (Fin n) K} {nu : Fin n → K} (hV : V.det ≠ 0) (hnu : ∀ i, nu i ≠ 0)
    (hE : let z := localRT first mu w om Ppp Pmp
      let x := txr ns z.1 z.2
      ((gammaOf x.1 x.2).map fun z : ℝ => (z : K)) * V = V * diagonal fun i => nu i ^ 2) {o : RT n K}
    (h : let z := localRT first mu w om Ppp Pmp
      let x := txr ns z.1 z.2
      calcRT ex inv? (T : K) (modes (x.1.map fun z : ℝ => (z : K)) nu V) = some o) :
    (Medium.of first mu w om Ppp Pmp Pmm Ppm).Fills 0 0 T
      ⟨(layerM ns o).2.2.1, (layerM ns o).2.2.2, 0, (layerM ns o).1, (layerM ns o).2.1, 0⟩ := by
  intro up dn hc
  rw [carries_iff hmu] at hc
  simp only [txr_eq hns] at hE h
  set r := (localRT first mu w om Ppp Pmp).1
  set t := (localRT first mu w om Ppp Pmp).2
  have hr : ∀ g i, ((localRT first mu w om Pmm Ppm).1 *ᵥ g) i = (turnM ns r *ᵥ turn ns g) i := by
    intro g i
    have e := mulVec_turn ns (fun i j => (localRT_mirror (w := w) hm i j).1) (turn ns g) i
    have : turn ns (turn ns g) = g := by
      funext j; simp only [turn_apply, ← mul_assoc, sign_sq, one_mul]
    rw [this] at e
    rw [e, turnM_mulVec]
  have ht : ∀ g i, ((localRT first mu w om Pmm Ppm).2 *ᵥ g) i = stokesSign ns i * (t *ᵥ turn ns g) i := by
    intro g i
    have e := mulVec_turn ns (fun i j => (localRT_mirror (w := w) hm i j).2) (turn ns g) i
    have : turn ns (turn ns g) = g := by
      funext j; simp only [turn_apply, ← mul_assoc, sign_sq, one_mul]
    rwa [this] at e
  set G : ℝ → Source.V n := fun s => turn ns (dn s) with hG
  have dF : ∀ τ i, HasDerivAt (fun s => up s i) (-(t *ᵥ up τ) i + (turnM ns r *ᵥ G τ) i) τ := by
    intro τ i
    refine (hc τ i).1.congr_deriv ?_
    rw [hr]; simp [hG]
  have dG : ∀ τ i, HasDerivAt (fun s => G s i) (-(turnM ns r *ᵥ up τ) i + (t *ᵥ G τ) i) τ := by
    intro τ i
    have := (hc τ i).2.const_mul (stokesSign ns i)
    simp only [hG, turn_apply]
    refine this.congr_deriv ?_
    rw [ht, turnM_mulVec]
    simp only [Pi.zero_apply, zero_div, add_zero]
    linear_combination ((t *ᵥ turn ns (dn τ)) i) * sign_sq ns i
  have hmap : ((t - turnM ns r).map fun z : ℝ => (z : K)) * ((t + turnM ns r).map fun z : ℝ => (z : K)) =
      (gammaOf (t + turnM ns r) (t - turnM ns r)).map fun z : ℝ => (z : K) := by
    funext i j
    simp only [gammaOf, mul_apply, map_apply, RCLike.ofReal_sum, RCLike.ofReal_mul]
  rw [← hmap] at hE
  have key := core (T := T) he hex (F := fun s i => (up s i : K)) (G := fun s i => (G s i : K)) hV hnu hE h
    (by
      intro τ i
      refine ((cast_hasDeriv (dF τ i)).fun_add (cast_hasDeriv (dG τ i))).congr_deriv ?_
      have : ((fun i => (up τ i : K)) - fun i => (G τ i : K)) = fun i => ((up τ - G τ) i : K) := by
        funext j; simp
      rw [this, cast_mulVec, ← RCLike.ofReal_add, ← RCLike.ofReal_neg, add_mulVec, mulVec_sub, mulVec_sub]
      congr 1
      simp only [Pi.add_apply, Pi.sub_apply]; ring)
    (by
      intro τ i
      refine ((cast_hasDeriv (dF τ i)).fun_sub (cast_hasDeriv (dG τ i))).congr_deriv ?_
      have : ((fun i => (up τ i : K)) + fun i => (G τ i : K)) = fun i => ((up τ + G τ) i : K) := by
        funext j; simp
      rw [this, cast_mulVec, ← RCLike.ofReal_sub, ← RCLike.ofReal_neg, sub_mulVec, mulVec_add, mulVec_add]
      congr 1
      simp only [Pi.add_apply, Pi.sub_apply]; ring)
  have k1 : ∀ i, up 0 i = (reals o.R *ᵥ G 0) i + (reals o.T *ᵥ up T) i := fun i => by
    have := congrArg RCLike.re (congrFun key.1 i)
    rw [Pi.add_apply, map_add, reals_mulVec, reals_mulVec] at this
    simpa using this
  have k2 : ∀ i, G T i = (reals o.T *ᵥ G 0) i + (reals o.R *ᵥ up T) i := fun i => by
    have := congrArg RCLike.re (congrFun key.2 i)
    rw [Pi.add_apply, map_add, reals_mulVec, reals_mulVec] at this
    simpa using this
  have other : ∀ (A : M n) (g : Source.V n) i, (otherSide ns A *ᵥ g) i = stokesSign ns i * (A *ᵥ turn ns g) i := by
    intro A g i
    simp only [mulVec, dotProduct, Finset.mul_sum]
    exact Finset.sum_congr rfl fun j _ => by rw [otherSide_apply, turn_apply]; ring
  constructor
  · funext i
    simp only [layerM, Pi.add_apply, Pi.zero_apply, add_zero]
    rw [other, turnM_mulVec, ← mul_assoc, sign_sq, one_mul]
    exact k1 i
  · funext i
    simp only [layerM, Pi.add_apply, Pi.zero_apply, add_zero]
    rw [other, turnM_mulVec, ← mul_add, ← k2 i]
    simp only [hG, turn_apply, ← mul_assoc, sign_sq, one_mul]

/-- The length of the eigenvectors does not matter. -/
theorem rt_scale {ex : K → K} {inv? : Matrix (Fin n) (Fin n) K → Option (Matrix (Fin n) (Fin n) K)}
    (hex : Eig.Exact inv?) {ltau : K} {tpr V : Matrix (Fin n) (Fin n) K} {nu s : Fin n → K} {o : RT n K}
    (hs : ∀ i, s i ≠ 0) (h : calcRT ex inv? ltau (modes tpr nu V) = some o) :
    ∃ o', calcRT ex inv? ltau (modes tpr nu (V * diagonal s)) = some o' ∧ o'.R = o.R ∧ o'.T = o.T := by
  set S : Matrix (Fin n) (Fin n) K := diagonal s with hS
  set Si : Matrix (Fin n) (Fin n) K := diagonal fun i => (s i)⁻¹ with hSi
  have hSS : S * Si = 1 := by rw [hS, hSi, diagonal_mul_diagonal]; simp [hs]
  have hXp : (modes tpr nu (V * S)).Xp = (modes tpr nu V).Xp * S := by
    funext i j
    rw [hS, mul_diagonal]
    simp only [modes, ← Matrix.mul_assoc, mul_diagonal]; ring
  have hXm : (modes tpr nu (V * S)).Xm = (modes tpr nu V).Xm * S := by
    funext i j
    rw [hS, mul_diagonal]
    simp only [modes, ← Matrix.mul_assoc, mul_diagonal]; ring
  obtain ⟨hl, ha, hb, hc, hd, he, hR, hT⟩ := calcRT_some hex h
  have hcomm : S * diagonal o.lam = diagonal o.lam * S := by
    rw [hS, diagonal_mul_diagonal, diagonal_mul_diagonal]; congr 1; funext i; ring
  unfold calcRT at h
  cases hx : inv? (modes tpr nu V).Xm with
  | none => simp [hx] at h
  | some x =>
    simp only [hx] at h
    have ex1 := (hex _ _).1 hx
    split at h
    · cases h
    · next y hy =>
      have ey1 := (hex _ _).1 hy
      cases h
      have h1 : inv? (modes tpr nu (V * S)).Xm = some (Si * x) := by
        rw [hex, hXm, Matrix.mul_assoc, ← Matrix.mul_assoc S, hSS, Matrix.one_mul, ex1]
      simp only at hl ha hb hc hd he hR hT ey1 hcomm
      set L : Matrix (Fin n) (Fin n) K := diagonal fun i => ex (-(modes tpr nu V).nu i * ltau) with hL
      have hL' : (diagonal fun i => ex (-(modes tpr nu (V * S)).nu i * ltau)) = L := rfl
      have hb' : (modes tpr nu V).Xp * S * L * (Si * x) = (modes tpr nu V).Xp * L * x := by
        rw [Matrix.mul_assoc _ S L, hcomm, Matrix.mul_assoc, Matrix.mul_assoc, Matrix.mul_assoc,
          ← Matrix.mul_assoc S, hSS, Matrix.one_mul]
      have hc' : (modes tpr nu V).Xm * S - (modes tpr nu V).Xp * L * x * ((modes tpr nu V).Xp * S * L) =
          ((modes tpr nu V).Xm - (modes tpr nu V).Xp * L * x * ((modes tpr nu V).Xp * L)) * S := by
        rw [Matrix.sub_mul]
        simp only [Matrix.mul_assoc, hcomm]
      have h2 : inv? (((modes tpr nu V).Xm - (modes tpr nu V).Xp * L * x * ((modes tpr nu V).Xp * L)) * S) =
          some (Si * y) := by
        rw [hex, Matrix.mul_assoc, ← Matrix.mul_assoc S, hSS, Matrix.one_mul, ey1]
      refine ⟨_, by simp only [calcRT, hL', hXp, hXm, hb', hc'] at h1 ⊢; rw [h1]; simp only [hb', hc', h2]; rfl, ?_, ?_⟩
      all_goals
        simp only [Matrix.mul_assoc]
        simp only [← Matrix.mul_assoc S, hcomm]
        simp only [Matrix.mul_assoc]
        simp only [← Matrix.mul_assoc S, hSS, Matrix.one_mul]

end Xrtm.Eig
