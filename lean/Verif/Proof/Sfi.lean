import Verif.Proof.SfiSweep
import Verif.Proof.View
import Verif.Proof.BvpStack

/-! # The formulas of a layer solve the equation of transfer -/

namespace Xrtm.Sfi
open Matrix Xrtm.Loops Xrtm.Eig Xrtm.Bvp Xrtm.Transfer

variable {m n : Nat} {K : Type} [RCLike K] {ex : K → K} {e : Env n K} {down : Bool} {mu : ℝ} {i : Nat}

theorem sgn_sq : sgn down * sgn down = 1 := by cases down <;> simp [sgn]

theorem e1_has (hmu : mu ≠ 0) (T t : ℝ) : HasDerivAt (fun t => e1 down mu T t) (sgn down * e1 down mu T t / mu) t := by
  cases down with
  | false =>
    have h := ((((hasDerivAt_id t).const_sub T).fun_neg).div_const mu).exp
    simp only [e1, sgn, Bool.not_false, if_true]
    refine h.congr_deriv ?_
    simp only [id]; field_simp
  | true =>
    have h := (((hasDerivAt_id t).fun_neg).div_const mu).exp
    simp only [e1, sgn, Bool.not_true, Bool.false_eq_true, if_false]
    refine h.congr_deriv ?_
    simp only [id]; field_simp

/-- Where the light comes in. -/
def origin (down : Bool) (T : ℝ) : ℝ := if !down then T else 0

theorem e1_origin (T : ℝ) : e1 down mu T (origin down T) = 1 := by cases down <;> simp [e1, origin]

theorem e3_has (he : IsExp ex) (t : ℝ) (k : Fin n) :
    HasDerivAt (fun t => e3 ex e i t k) (-(e.z.m i).nu k * e3 ex e i t k) t := by
  have h1 : HasDerivAt (fun s : ℝ => -(e.z.m i).nu k * ((s : ℝ) : K)) (-(e.z.m i).nu k * ((1 : ℝ) : K)) t :=
    (cast_hasDeriv (hasDerivAt_id t)).const_mul _
  exact (he.along h1).congr_deriv (by unfold e3; push_cast; ring)

theorem e5_has (he : IsExp ex) (t : ℝ) (k : Fin n) :
    HasDerivAt (fun t => e5 ex e i t k) ((e.z.m i).nu k * e5 ex e i t k) t := by
  have h1 : HasDerivAt (fun s : ℝ => -(e.z.m i).nu k * ((e.z.ltau i - s : ℝ) : K)) (-(e.z.m i).nu k * ((-1 : ℝ) : K)) t :=
    (cast_hasDeriv ((hasDerivAt_id t).const_sub _)).const_mul _
  exact (he.along h1).congr_deriv (by unfold e5; push_cast; ring)

theorem euP_has (he : IsExp ex) (hs : Safe e down mu i) (t : ℝ) (k : Fin n) :
    HasDerivAt (fun t => euP ex e down mu i t k) ((sgn down : K) * (euP ex e down mu i t k - e3 ex e i t k) / (mu : K)) t := by
  obtain ⟨hmu, hk, -⟩ := hs
  obtain ⟨h1, h2⟩ := hk k
  have hmu' : (mu : K) ≠ 0 := by exact_mod_cast hmu
  rw [mul_comm] at h1 h2
  have a := e3_has (e := e) (i := i) he t k
  have b := cast_hasDeriv (K := K) (e1_has (down := down) hmu (e.z.ltau i) t)
  cases down with
  | false =>
    simp only [euP, Bool.not_false, if_true]
    refine ((a.fun_sub (b.const_mul (e4 ex e i k))).div_const _).congr_deriv ?_
    simp only [sgn, Bool.not_false, if_true]
    push_cast
    field_simp
    ring
  | true =>
    simp only [euP, Bool.not_true, Bool.false_eq_true, if_false]
    refine ((a.fun_sub b).div_const _).congr_deriv ?_
    simp only [sgn, Bool.not_true, Bool.false_eq_true, if_false]
    push_cast
    field_simp
    ring

theorem euM_has (he : IsExp ex) (hs : Safe e down mu i) (t : ℝ) (k : Fin n) :
    HasDerivAt (fun t => euM ex e down mu i t k) ((sgn down : K) * (euM ex e down mu i t k - e5 ex e i t k) / (mu : K)) t := by
  obtain ⟨hmu, hk, -⟩ := hs
  obtain ⟨h1, h2⟩ := hk k
  have hmu' : (mu : K) ≠ 0 := by exact_mod_cast hmu
  rw [mul_comm] at h1 h2
  have a := e5_has (e := e) (i := i) he t k
  have b := cast_hasDeriv (K := K) (e1_has (down := down) hmu (e.z.ltau i) t)
  cases down with
  | false =>
    simp only [euM, Bool.not_false, if_true]
    refine ((a.fun_sub b).div_const _).congr_deriv ?_
    simp only [sgn, Bool.not_false, if_true]
    push_cast
    field_simp
    ring
  | true =>
    simp only [euM, Bool.not_true, Bool.false_eq_true, if_false]
    refine ((a.fun_sub (b.const_mul (e4 ex e i k))).div_const _).congr_deriv ?_
    simp only [sgn, Bool.not_true, Bool.false_eq_true, if_false]
    push_cast
    field_simp
    ring

theorem euP_origin (he : IsExp ex) (k : Fin n) : euP ex e down mu i (origin down (e.z.ltau i)) k = 0 := by
  have := e1_origin (down := down) (mu := mu) (e.z.ltau i)
  cases down with
  | false => simp only [euP, Bool.not_false, if_true, this]; simp [e3, e4, origin]
  | true => simp only [euP, Bool.not_true, Bool.false_eq_true, if_false, this]; simp [e3, origin, he.zero]

theorem euM_origin (he : IsExp ex) (k : Fin n) : euM ex e down mu i (origin down (e.z.ltau i)) k = 0 := by
  have := e1_origin (down := down) (mu := mu) (e.z.ltau i)
  cases down with
  | false => simp only [euM, Bool.not_false, if_true, this]; simp [e5, origin, he.zero]
  | true => simp only [euM, Bool.not_true, Bool.false_eq_true, if_false, this]; simp [e5, e4, origin]

theorem eu0_has (hs : Safe e down mu i) (hso : e.z.solar = true) (t : ℝ) :
    HasDerivAt (fun t => eu0 e down mu i t) (sgn down * (eu0 e down mu i t - e2 e i t) / mu) t := by
  obtain ⟨hmu, -, h⟩ := hs
  have h := h hso
  have a : HasDerivAt (fun t => e2 e i t) (-e.as0 i * e2 e i t) t := by
    have := (((hasDerivAt_id t).fun_neg).mul_const (e.as0 i)).exp
    exact this.congr_deriv (by simp only [e2, id]; ring)
  have b := e1_has (down := down) hmu (e.z.ltau i) t
  cases down with
  | false =>
    simp only [Bool.not_false, if_true] at h
    rw [mul_comm] at h
    simp only [eu0, Bool.not_false, if_true]
    refine ((a.fun_sub (b.const_mul (e.z.atran i))).div_const _).congr_deriv ?_
    simp only [sgn, Bool.not_false, if_true]
    field_simp
    ring
  | true =>
    simp only [Bool.not_true, Bool.false_eq_true, if_false] at h
    rw [mul_comm] at h
    simp only [eu0, Bool.not_true, Bool.false_eq_true, if_false]
    refine ((a.fun_sub b).div_const _).congr_deriv ?_
    simp only [sgn, Bool.not_true, Bool.false_eq_true, if_false]
    field_simp
    ring

theorem eu0_origin (hat : e.z.solar = true → e.z.atran i = Real.exp (-e.z.ltau i * e.as0 i)) (hso : e.z.solar = true) :
    eu0 e down mu i (origin down (e.z.ltau i)) = 0 := by
  have := e1_origin (down := down) (mu := mu) (e.z.ltau i)
  cases down with
  | false => simp only [eu0, Bool.not_false, if_true, this, hat hso]; simp [e2, origin]
  | true => simp only [eu0, Bool.not_true, Bool.false_eq_true, if_false, this]; simp [e2, origin]

theorem u240_has (hmu : mu ≠ 0) (t : ℝ) :
    HasDerivAt (fun t => u240 e down mu i t) (sgn down * (u240 e down mu i t - 1) / mu) t := by
  refine ((e1_has (down := down) hmu (e.z.ltau i) t).const_sub 1).congr_deriv ?_
  unfold u240; ring

theorem u241_has (hmu : mu ≠ 0) (t : ℝ) :
    HasDerivAt (fun t => u241 e down mu i t) (sgn down * (u241 e down mu i t - t) / mu) t := by
  have := (((hasDerivAt_id t).fun_sub ((e1_has (down := down) hmu (e.z.ltau i) t).const_mul
    (tau0 down (e.z.ltau i)))).fun_add ((u240_has (e := e) (down := down) (i := i) hmu t).const_mul (1 * sgn down * mu)))
  refine this.congr_deriv ?_
  unfold u241
  have := sgn_sq (down := down)
  field_simp
  linear_combination (-mu * this)

theorem u240_origin : u240 e down mu i (origin down (e.z.ltau i)) = 0 := by
  unfold u240; rw [e1_origin]; ring

theorem u241_origin : u241 e down mu i (origin down (e.z.ltau i)) = 0 := by
  unfold u241; rw [u240_origin, e1_origin]; cases down <;> simp [origin, tau0]

/-- The source that is integrated. -/
noncomputable def src (ex : K → K) (e : Env n K) (B : Nat → K) (r : Row n) (i : Nat) (t : ℝ) : ℝ :=
  (if e.z.solar then fu0 e r i * e2 e i t else 0) +
    (if e.z.thermal && e.first then u22 e r i (e.At0p i) (e.At0m i) (e.pd0 i) + u22 e r i (e.At1p i) (e.At1m i) (e.pd1 i) * t
      else 0) +
    ∑ k : Fin n, e.om i * RCLike.re (B (i * n * 2 + k) * xuP e r i k * e3 ex e i t k +
      B (i * n * 2 + k + n) * xuM e r i k * e5 ex e i t k)

theorem value_has (he : IsExp ex) (hs : Safe e down mu i) (B : Nat → K) (r : Row n) (I0 t : ℝ) :
    HasDerivAt (fun t => value ex e down mu B r i t I0)
      (sgn down * (value ex e down mu B r i t I0 - src ex e B r i t) / mu) t := by
  have hmu := hs.1
  have hmu' : (mu : K) ≠ 0 := by exact_mod_cast hmu
  have a := (e1_has (down := down) hmu (e.z.ltau i) t).const_mul I0
  have b : HasDerivAt (fun t => if e.z.solar then fu0 e r i * eu0 e down mu i t else 0)
      (if e.z.solar then fu0 e r i * (sgn down * (eu0 e down mu i t - e2 e i t) / mu) else 0) t := by
    cases hso : e.z.solar with
    | false => simpa using hasDerivAt_const t (0 : ℝ)
    | true => simpa using (eu0_has hs hso t).const_mul (fu0 e r i)
  have c : HasDerivAt (fun t => if e.z.thermal && e.first then heat e down mu r i t else 0)
      (if e.z.thermal && e.first then
        u22 e r i (e.At0p i) (e.At0m i) (e.pd0 i) * (sgn down * (u240 e down mu i t - 1) / mu) +
        u22 e r i (e.At1p i) (e.At1m i) (e.pd1 i) * (sgn down * (u241 e down mu i t - t) / mu) else 0) t := by
    cases hso : e.z.thermal && e.first with
    | false => simpa using hasDerivAt_const t (0 : ℝ)
    | true =>
      simp only [if_true, heat]
      exact ((u240_has hmu t).const_mul _).fun_add ((u241_has hmu t).const_mul _)
  have d := fun k : Fin n => (re_hasDeriv (((euP_has he hs t k).const_mul (B (i * n * 2 + k) * xuP e r i k)).fun_add
    ((euM_has he hs t k).const_mul (B (i * n * 2 + k + n) * xuM e r i k)))).const_mul (e.om i)
  have D := HasDerivAt.fun_sum (u := Finset.univ) fun k _ => d k
  refine (((a.fun_add b).fun_add c).fun_add D).congr_deriv ?_
  have hk : ∀ k : Fin n, e.om i * RCLike.re (B (i * n * 2 + k) * xuP e r i k *
        ((sgn down : K) * (euP ex e down mu i t k - e3 ex e i t k) / (mu : K)) +
      B (i * n * 2 + k + n) * xuM e r i k * ((sgn down : K) * (euM ex e down mu i t k - e5 ex e i t k) / (mu : K))) =
      sgn down * (e.om i * RCLike.re (B (i * n * 2 + k) * xuP e r i k * euP ex e down mu i t k +
          B (i * n * 2 + k + n) * xuM e r i k * euM ex e down mu i t k) -
        e.om i * RCLike.re (B (i * n * 2 + k) * xuP e r i k * e3 ex e i t k +
          B (i * n * 2 + k + n) * xuM e r i k * e5 ex e i t k)) / mu := fun k => by
    have : B (i * n * 2 + k) * xuP e r i k * ((sgn down : K) * (euP ex e down mu i t k - e3 ex e i t k) / (mu : K)) +
      B (i * n * 2 + k + n) * xuM e r i k * ((sgn down : K) * (euM ex e down mu i t k - e5 ex e i t k) / (mu : K)) =
      ((sgn down / mu : ℝ) : K) * ((B (i * n * 2 + k) * xuP e r i k * euP ex e down mu i t k +
          B (i * n * 2 + k + n) * xuM e r i k * euM ex e down mu i t k) -
        (B (i * n * 2 + k) * xuP e r i k * e3 ex e i t k + B (i * n * 2 + k + n) * xuM e r i k * e5 ex e i t k)) := by
      push_cast; field_simp; ring
    rw [this, RCLike.re_ofReal_mul, map_sub]; ring
  simp only [hk]
  unfold value src
  dsimp only
  simp only [div_eq_mul_inv]
  rw [← Finset.sum_mul, ← Finset.mul_sum, Finset.sum_sub_distrib]
  unfold heat
  split_ifs <;> ring

theorem value_origin (he : IsExp ex) (hat : e.z.solar = true → e.z.atran i = Real.exp (-e.z.ltau i * e.as0 i))
    (B : Nat → K) (r : Row n) (I0 : ℝ) : value ex e down mu B r i (origin down (e.z.ltau i)) I0 = I0 := by
  unfold value heat
  dsimp only
  simp only [e1_origin, euP_origin he, euM_origin he, u240_origin, u241_origin]
  cases hso : e.z.solar with
  | false => simp
  | true => simp [eu0_origin hat hso]

/-- The equation has one solution for the light that comes in. -/
theorem one_light {s : ℝ} (hmu : mu ≠ 0) {f g S : ℝ → ℝ} (hf : ∀ t, HasDerivAt f (s * (f t - S t) / mu) t)
    (hg : ∀ t, HasDerivAt g (s * (g t - S t) / mu) t) {t0 : ℝ} (h0 : f t0 = g t0) (t : ℝ) : f t = g t := by
  have hd : ∀ t, HasDerivAt (fun t => (f t - g t) * Real.exp (-(s * t / mu))) 0 t := fun t => by
    have h1 := (((hasDerivAt_id t).const_mul s).div_const mu).fun_neg.exp
    refine (((hf t).fun_sub (hg t)).fun_mul h1).congr_deriv ?_
    simp only [id]; ring
  have hc := is_const_of_deriv_eq_zero (fun t => (hd t).differentiableAt) (fun t => (hd t).deriv) t t0
  simp only [h0, sub_self, zero_mul, mul_eq_zero, (Real.exp_pos _).ne', or_false] at hc
  linarith

theorem sum_mix (A : Fin n → ℝ) (f : Fin n → Fin n → K) (c : Fin n → K) (r : Fin n → ℝ) :
    ∑ k, c k * ∑ j, (r j : K) * ((A j : K) * f j k) = ∑ j, ((A j * r j : ℝ) : K) * ∑ k, c k * f j k := by
  simp only [Finset.mul_sum]
  rw [Finset.sum_comm]
  refine Finset.sum_congr rfl fun j _ => Finset.sum_congr rfl fun k _ => ?_
  push_cast; ring

theorem modes_src (B : Nat → K) (r : Row n) (t : ℝ) :
    ∑ k : Fin n, e.om i * RCLike.re (B (i * n * 2 + k) * xuP e r i k * e3 ex e i t k +
      B (i * n * 2 + k + n) * xuM e r i k * e5 ex e i t k) =
    e.om i * ∑ j, wts e j * (r.pp j * RCLike.re (sumUp ex (e.z.m i) (e.z.ltau i) (al B i) (be B i) t j) +
      r.mp j * RCLike.re (sumDn ex (e.z.m i) (e.z.ltau i) (al B i) (be B i) t j)) := by
  rw [← Finset.mul_sum, ← map_sum]
  congr 1
  have : ∑ k : Fin n, (B (i * n * 2 + k) * xuP e r i k * e3 ex e i t k + B (i * n * 2 + k + n) * xuM e r i k * e5 ex e i t k) =
      ∑ j, (((wts e j * r.pp j : ℝ) : K) * sumUp ex (e.z.m i) (e.z.ltau i) (al B i) (be B i) t j +
        ((wts e j * r.mp j : ℝ) : K) * sumDn ex (e.z.m i) (e.z.ltau i) (al B i) (be B i) t j) := by
    have hu : ∀ j, sumUp ex (e.z.m i) (e.z.ltau i) (al B i) (be B i) t j =
        ∑ k, (al B i k * e3 ex e i t k) * (e.z.m i).Xp j k + ∑ k, (be B i k * e5 ex e i t k) * (e.z.m i).Xm j k := fun j => by
      unfold sumUp e3 e5
      rw [Finset.sum_add_distrib]
      congr 1 <;> exact Finset.sum_congr rfl fun k _ => by ring
    have hd : ∀ j, sumDn ex (e.z.m i) (e.z.ltau i) (al B i) (be B i) t j =
        -(∑ k, (al B i k * e3 ex e i t k) * (e.z.m i).Xm j k) - ∑ k, (be B i k * e5 ex e i t k) * (e.z.m i).Xp j k := fun j => by
      unfold sumDn
      rw [← Finset.sum_neg_distrib, ← Finset.sum_sub_distrib]
      exact Finset.sum_congr rfl fun k _ => by unfold e3 e5; ring
    have q := fun (c : Fin n → K) (f : Fin n → Fin n → K) (r : Fin n → ℝ) => sum_mix (wts e) f c r
    have e0 : ∀ k : Fin n, B (i * n * 2 + k) * xuP e r i k * e3 ex e i t k + B (i * n * 2 + k + n) * xuM e r i k * e5 ex e i t k =
        (al B i k * e3 ex e i t k) * (∑ j, (r.pp j : K) * ((wts e j : K) * (e.z.m i).Xp j k)) -
        (al B i k * e3 ex e i t k) * (∑ j, (r.mp j : K) * ((wts e j : K) * (e.z.m i).Xm j k)) +
        ((be B i k * e5 ex e i t k) * (∑ j, (r.pp j : K) * ((wts e j : K) * (e.z.m i).Xm j k)) -
        (be B i k * e5 ex e i t k) * (∑ j, (r.mp j : K) * ((wts e j : K) * (e.z.m i).Xp j k))) := fun k => by
      have ea : al B i k = B (i * n * 2 + k) := by unfold al; rw [← mul_assoc]
      have eb : be B i k = B (i * n * 2 + k + n) := by unfold be; rw [← mul_assoc]
      rw [ea, eb]; unfold xuP xuM; ring
    simp only [e0]
    rw [Finset.sum_add_distrib, Finset.sum_sub_distrib, Finset.sum_sub_distrib,
      q _ fun j k => (e.z.m i).Xp j k, q _ fun j k => (e.z.m i).Xm j k, q _ fun j k => (e.z.m i).Xm j k,
      q _ fun j k => (e.z.m i).Xp j k, ← Finset.sum_sub_distrib,
      ← Finset.sum_sub_distrib, ← Finset.sum_add_distrib]
    refine Finset.sum_congr rfl fun j _ => ?_
    rw [hu, hd]; ring
  rw [this, map_sum]
  refine Finset.sum_congr rfl fun j _ => ?_
  rw [map_add, RCLike.re_ofReal_mul, RCLike.re_ofReal_mul]; ring

/-- What is integrated is the light scattered into the direction, and the sources. -/
theorem src_eq (B : Nat → K) (r : Row n) (t : ℝ) {f g : Source.V n}
    (hth : e.z.thermal = true → e.first = true)
    (hf : ∀ j, f j = RCLike.re (sumUp ex (e.z.m i) (e.z.ltau i) (al B i) (be B i) t j) +
      ((if e.z.solar then e2 e i t * e.z.Fsp i j else 0) + if e.z.thermal then e.At0p i j + t * e.At1p i j else 0))
    (hg : ∀ j, g j = RCLike.re (sumDn ex (e.z.m i) (e.z.ltau i) (al B i) (be B i) t j) +
      ((if e.z.solar then e2 e i t * e.z.Fsm i j else 0) + if e.z.thermal then e.At0m i j + t * e.At1m i j else 0)) :
    src ex e B r i t = e.om i * ∑ j, wts e j * (r.pp j * f j + r.mp j * g j) +
      ((if e.z.solar && e.single then e.btran i * (e.F0 / (4 * Real.pi)) * e.om i * r.p0 * e2 e i t else 0) +
        if e.z.thermal then (1 - e.om i) * (e.pd0 i + e.pd1 i * t) else 0) := by
  unfold src
  rw [modes_src]
  have hs : ∑ j, wts e j * (r.pp j * f j + r.mp j * g j) =
      ∑ j, wts e j * (r.pp j * RCLike.re (sumUp ex (e.z.m i) (e.z.ltau i) (al B i) (be B i) t j) +
        r.mp j * RCLike.re (sumDn ex (e.z.m i) (e.z.ltau i) (al B i) (be B i) t j)) +
      ((if e.z.solar then e2 e i t * (∑ j, r.pp j * (wts e j * e.z.Fsp i j) + ∑ j, r.mp j * (wts e j * e.z.Fsm i j)) else 0) +
        if e.z.thermal then ∑ j, (r.pp j * (wts e j * e.At0p i j) + r.mp j * (wts e j * e.At0m i j)) +
          t * ∑ j, (r.pp j * (wts e j * e.At1p i j) + r.mp j * (wts e j * e.At1m i j)) else 0) := by
    cases hso : e.z.solar <;> cases hta : e.z.thermal <;>
      simp only [hso, hta, Bool.false_eq_true, if_false, if_true, add_zero, zero_add] at hf hg ⊢ <;>
      simp only [hf, hg, Finset.mul_sum, ← Finset.sum_add_distrib] <;>
      exact Finset.sum_congr rfl fun j _ => by ring
  rw [hs]
  have hw : e.z.thermal = true → ∀ j, wts e j = 1 / 2 * e.w j := fun h j => by
    unfold wts; rw [hth h]; norm_num
  unfold fu0 beamIn
  cases hso : e.z.solar <;> cases ht : e.z.thermal
  · simp
  · simp only [hth ht, Bool.and_true, if_true, Bool.false_eq_true, if_false, Bool.false_and, u22, u21, hw ht]
    simp only [Finset.mul_sum, mul_add, ← Finset.sum_add_distrib, Finset.sum_mul, zero_add, add_mul]
    simp only [mul_add, Finset.mul_sum, Finset.sum_add_distrib]
    have r1 : ∀ (a b : Source.V n), ∑ j, e.om i * (a j * (1 / 2 * e.w j * b j)) =
        ∑ j, 1 / 2 * e.om i * (a j * (e.w j * b j)) := fun a b => Finset.sum_congr rfl fun j _ => by ring
    have r2 : ∀ (a b : Source.V n), ∑ j, e.om i * (t * (a j * (1 / 2 * e.w j * b j))) =
        ∑ j, 1 / 2 * e.om i * (a j * (e.w j * b j)) * t := fun a b => Finset.sum_congr rfl fun j _ => by ring
    simp only [r1, r2]
    ring
  · simp only [Bool.false_and, Bool.true_and, if_true, Bool.false_eq_true, if_false, add_zero]
    cases e.single <;> simp <;> ring
  · simp only [hth ht, Bool.and_true, Bool.true_and, if_true, u22, u21]
    have s1 : ∀ a b : Source.V n, ∑ j, a j * (wts e j * b j) = 1 / 2 * ∑ j, a j * (e.w j * b j) := fun a b => by
      rw [Finset.mul_sum]
      exact Finset.sum_congr rfl fun j _ => by rw [hw ht]; ring
    simp only [Finset.sum_add_distrib (f := fun j => r.pp j * (wts e j * e.At0p i j)),
      Finset.sum_add_distrib (f := fun j => r.pp j * (wts e j * e.At1p i j)), s1]
    cases e.single <;> simp <;> ring

end Xrtm.Sfi
