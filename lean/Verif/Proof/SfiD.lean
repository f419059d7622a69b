import Verif.Proof.Sfi
import Verif.Proof.SfiSweep
import Verif.Proof.BvpD

/-! # The derivatives of the source function integration -/

namespace Xrtm.Sfi
open Matrix Filter Topology Xrtm.Loops Xrtm.Eig Xrtm.Bvp

variable {m n : Nat} {K : Type} [RCLike K] {ex : K → K} {down : Bool} {mu x : ℝ} {i : Nat}

/-- What all directions share, along a curve.  What the flags do not ask for does not change;
as the rate of decay of the beam in a layer is looked at with the flag for the layer alone,
this is so only where the layers are plane. -/
structure EnvDeriv (e : ℝ → Env n K) (e' : Env n K) (fl : Flags) (x : ℝ) : Prop where
  z : InpDeriv (fun y => (e y).z) (masked (e x).z.L fl e'.z) x
  first : ∀ y, (e y).first = (e x).first
  w : ∀ y, (e y).w = (e x).w
  F0 : ∀ y, (e y).F0 = (e x).F0
  single : ∀ y, (e y).single = (e x).single
  om : ∀ i, i < (e x).z.L → HasDerivAt (fun y => (e y).om i) (e'.om i) x
  still : ∀ i, i < (e x).z.L → fl.lay i = false → e'.om i = 0
  as0 : ∀ i, i < (e x).z.L → HasDerivAt (fun y => (e y).as0 i) (if fl.lay i then e'.as0 i else 0) x
  plane : (e x).z.solar = true → ∀ i, i < (e x).z.L → fl.lay i = false → fl.beam i = true → e'.z.atran i = 0
  btran : ∀ i, i ≤ (e x).z.L → HasDerivAt (fun y => (e y).btran i) (if fl.beam i then e'.btran i else 0) x
  pd0 : ∀ i, i < (e x).z.L → HasDerivAt (fun y => (e y).pd0 i) (if fl.heat i then e'.pd0 i else 0) x
  pd1 : ∀ i, i < (e x).z.L → HasDerivAt (fun y => (e y).pd1 i) (if fl.heat i then e'.pd1 i else 0) x
  At0p : ∀ i, i < (e x).z.L → ∀ j, HasDerivAt (fun y => (e y).At0p i j) (if fl.heat i then e'.At0p i j else 0) x
  At0m : ∀ i, i < (e x).z.L → ∀ j, HasDerivAt (fun y => (e y).At0m i j) (if fl.heat i then e'.At0m i j else 0) x
  At1p : ∀ i, i < (e x).z.L → ∀ j, HasDerivAt (fun y => (e y).At1p i j) (if fl.heat i then e'.At1p i j else 0) x
  At1m : ∀ i, i < (e x).z.L → ∀ j, HasDerivAt (fun y => (e y).At1m i j) (if fl.heat i then e'.At1m i j else 0) x
  beam : (e x).z.solar = true → ∀ i, i < (e x).z.L → fl.lay i = true → fl.beam i = true
  heat : (e x).z.thermal = true → ∀ i, i < (e x).z.L → fl.lay i = true → fl.heat i = true

/-- What belongs to a direction in a layer, along a curve. -/
structure RowDeriv (r : ℝ → Row n) (r' : Row n) (lay : Bool) (x : ℝ) : Prop where
  pp : ∀ j, HasDerivAt (fun y => (r y).pp j) (if lay then r'.pp j else 0) x
  mp : ∀ j, HasDerivAt (fun y => (r y).mp j) (if lay then r'.mp j else 0) x
  p0 : HasDerivAt (fun y => (r y).p0) (if lay then r'.p0 else 0) x

variable {e : ℝ → Env n K} {e' : Env n K} {fl : Flags} {t : ℝ → ℝ} {r : ℝ → Row n} {r' : Row n}

theorem quot {F : Type} [Field F] {D : F} (h : D ≠ 0) (p q s : F) : (p * D - q * s) / D ^ 2 = (p + q / D * -s) / D := by
  field_simp
  ring

theorem if_mul (c : Bool) (a b : ℝ) : a * (if c then b else 0) = if c then a * b else 0 := by cases c <;> simp

section
variable (hE : EnvDeriv e e' fl x) (hi : i < (e x).z.L)
  (ht : HasDerivAt t (if fl.lay i then tL (e x) e' i (t x) else 0) x)
include hE hi

theorem ltau_d : HasDerivAt (fun y => (e y).z.ltau i) (if fl.lay i then e'.z.ltau i else 0) x := hE.z.ltau i hi

theorem nu_d (k : Fin n) : HasDerivAt (fun y => ((e y).z.m i).nu k) (if fl.lay i then (e'.z.m i).nu k else 0) x := by
  refine ((hE.z.m i hi).nu k).congr_deriv ?_
  simp only [masked]; cases fl.lay i <;> simp

theorem Xp_d (j k : Fin n) : HasDerivAt (fun y => ((e y).z.m i).Xp j k) (if fl.lay i then (e'.z.m i).Xp j k else 0) x := by
  refine ((hE.z.m i hi).Xp j k).congr_deriv ?_
  simp only [masked]; cases fl.lay i <;> simp

theorem Xm_d (j k : Fin n) : HasDerivAt (fun y => ((e y).z.m i).Xm j k) (if fl.lay i then (e'.z.m i).Xm j k else 0) x := by
  refine ((hE.z.m i hi).Xm j k).congr_deriv ?_
  simp only [masked]; cases fl.lay i <;> simp

theorem wts_d (y : ℝ) (j : Fin n) : wts (e y) j = wts (e x) j := by unfold wts; rw [hE.first, hE.w]

include ht

theorem e1_d : HasDerivAt (fun y => e1 down mu ((e y).z.ltau i) (t y))
    (if fl.lay i then e1L (e x) down mu e' i (t x) else 0) x := by
  have hT := ltau_d hE hi
  cases down with
  | false =>
    simp only [e1, e1L, Bool.not_false, if_true]
    refine (((hT.fun_sub ht).fun_neg.div_const mu).exp).congr_deriv ?_
    cases fl.lay i <;> simp; ring
  | true =>
    simp only [e1, e1L, Bool.not_true, Bool.false_eq_true, if_false]
    refine ((ht.fun_neg.div_const mu).exp).congr_deriv ?_
    cases fl.lay i <;> simp; ring

theorem e3_d (he : IsExp ex) (k : Fin n) : HasDerivAt (fun y => e3 ex (e y) i (t y) k)
    (if fl.lay i then e3L ex (e x) e' i (t x) k else 0) x := by
  refine (he.along ((nu_d hE hi k).fun_neg.fun_mul (cast_hasDeriv (K := K) ht))).congr_deriv ?_
  unfold e3L e3; cases fl.lay i <;> simp
  first | done | (left; ring)

omit ht in
theorem e4_d (he : IsExp ex) (k : Fin n) : HasDerivAt (fun y => e4 ex (e y) i k)
    (if fl.lay i then e4L ex (e x) e' i k else 0) x := by
  refine (he.along ((nu_d hE hi k).fun_neg.fun_mul (cast_hasDeriv (K := K) (ltau_d hE hi)))).congr_deriv ?_
  unfold e4L e4; cases fl.lay i <;> simp
  first | done | (left; ring)

theorem e5_d (he : IsExp ex) (k : Fin n) : HasDerivAt (fun y => e5 ex (e y) i (t y) k)
    (if fl.lay i then e5L ex (e x) e' i (t x) k else 0) x := by
  refine (he.along ((nu_d hE hi k).fun_neg.fun_mul (cast_hasDeriv (K := K) ((ltau_d hE hi).fun_sub ht)))).congr_deriv ?_
  unfold e5L e5; cases fl.lay i <;> simp
  first | done | (left; ring)

theorem euP_d (he : IsExp ex) (hs : Safe (e x) down mu i) (k : Fin n) :
    HasDerivAt (fun y => euP ex (e y) down mu i (t y) k)
      (if fl.lay i then euPL ex (e x) down mu e' i (t x) k else 0) x := by
  obtain ⟨h1, h2⟩ := hs.2.1 k
  have a := e3_d hE hi ht he k
  have b := e4_d hE hi he k
  have c := cast_hasDeriv (K := K) (e1_d (down := down) (mu := mu) hE hi ht)
  have d := (nu_d hE hi k).const_mul (mu : K)
  cases down with
  | false =>
    simp only [euP, euPL, Bool.not_false, if_true]
    have f := (a.fun_sub (b.fun_mul c)).fun_div (d.const_add 1) h1
    refine f.congr_deriv ?_
    cases fl.lay i with
    | false => simp
    | true =>
      simp only [if_true]
      refine (quot h1 _ _ _).trans (congrArg (· / _) ?_)
      ring
  | true =>
    simp only [euP, euPL, Bool.not_true, Bool.false_eq_true, if_false]
    have f := (a.fun_sub c).fun_div (d.const_sub 1) h2
    refine f.congr_deriv ?_
    cases fl.lay i with
    | false => simp
    | true =>
      simp only [if_true]
      refine (quot h2 _ _ _).trans (congrArg (· / _) ?_)
      ring

theorem euM_d (he : IsExp ex) (hs : Safe (e x) down mu i) (k : Fin n) :
    HasDerivAt (fun y => euM ex (e y) down mu i (t y) k)
      (if fl.lay i then euML ex (e x) down mu e' i (t x) k else 0) x := by
  obtain ⟨h1, h2⟩ := hs.2.1 k
  have a := e5_d hE hi ht he k
  have b := e4_d hE hi he k
  have c := cast_hasDeriv (K := K) (e1_d (down := down) (mu := mu) hE hi ht)
  have d := (nu_d hE hi k).const_mul (mu : K)
  cases down with
  | false =>
    simp only [euM, euML, Bool.not_false, if_true]
    have f := (a.fun_sub c).fun_div (d.const_sub 1) h2
    refine f.congr_deriv ?_
    cases fl.lay i with
    | false => simp
    | true =>
      simp only [if_true]
      refine (quot h2 _ _ _).trans (congrArg (· / _) ?_)
      ring
  | true =>
    simp only [euM, euML, Bool.not_true, Bool.false_eq_true, if_false]
    have f := (a.fun_sub (b.fun_mul c)).fun_div (d.const_add 1) h1
    refine f.congr_deriv ?_
    cases fl.lay i with
    | false => simp
    | true =>
      simp only [if_true]
      refine (quot h1 _ _ _).trans (congrArg (· / _) ?_)
      ring

theorem eu0_d (hs : Safe (e x) down mu i) (hso : (e x).z.solar = true) :
    HasDerivAt (fun y => eu0 (e y) down mu i (t y)) (if fl.lay i then eu0L (e x) down mu e' i (t x) else 0) x := by
  have h := hs.2.2 hso
  have a : HasDerivAt (fun y => e2 (e y) i (t y))
      (if fl.lay i then (-tL (e x) e' i (t x) * (e x).as0 i - t x * e'.as0 i) * e2 (e x) i (t x) else 0) x := by
    refine ((ht.fun_neg.fun_mul (hE.as0 i hi)).exp).congr_deriv ?_
    unfold e2; cases fl.lay i <;> simp; ring
  have b : HasDerivAt (fun y => (e y).z.atran i) (if fl.lay i then e'.z.atran i else 0) x := by
    refine (hE.z.atran i hi).congr_deriv ?_
    simp only [masked]
    cases hl : fl.lay i with
    | true => rw [hE.beam hso i hi hl]
    | false =>
      cases hb : fl.beam i with
      | false => rfl
      | true => simp [hE.plane hso i hi hl hb]
  have c := e1_d (down := down) (mu := mu) hE hi ht
  have d := (hE.as0 i hi).const_mul mu
  cases down with
  | false =>
    simp only [Bool.not_false, if_true] at h
    simp only [eu0, eu0L, Bool.not_false, if_true]
    have f := (a.fun_sub (b.fun_mul c)).fun_div (d.const_add 1) h
    refine f.congr_deriv ?_
    cases fl.lay i with
    | false => simp
    | true =>
      simp only [if_true]
      refine (quot h _ _ _).trans (congrArg (· / _) ?_)
      ring
  | true =>
    simp only [Bool.not_true, Bool.false_eq_true, if_false] at h
    simp only [eu0, eu0L, Bool.not_true, Bool.false_eq_true, if_false]
    have f := (a.fun_sub c).fun_div (d.const_sub 1) h
    refine f.congr_deriv ?_
    cases fl.lay i with
    | false => simp
    | true =>
      simp only [if_true]
      refine (quot h _ _ _).trans (congrArg (· / _) ?_)
      ring

theorem u240_d : HasDerivAt (fun y => u240 (e y) down mu i (t y))
    (if fl.lay i then u40 (e x) down mu e' i (t x) else 0) x := by
  refine ((e1_d (down := down) (mu := mu) hE hi ht).const_sub 1).congr_deriv ?_
  unfold u40; cases fl.lay i <;> simp

theorem u241_d : HasDerivAt (fun y => u241 (e y) down mu i (t y))
    (if fl.lay i then u41 (e x) down mu e' fl i (t x) else 0) x := by
  have a : HasDerivAt (fun y => tau0 down ((e y).z.ltau i)) (if fl.lay i then (if !down then e'.z.ltau i else 0) else 0) x := by
    cases down with
    | false => simpa [tau0] using ltau_d hE hi
    | true => simpa [tau0] using hasDerivAt_const x (0 : ℝ)
  refine ((ht.fun_sub (a.fun_mul (e1_d (down := down) (mu := mu) hE hi ht))).fun_add
    ((u240_d (down := down) (mu := mu) hE hi ht).const_mul (1 * sgn down * mu))).congr_deriv ?_
  unfold u41; cases fl.lay i <;> simp
  ring

end

section
variable (hE : EnvDeriv e e' fl x) (hi : i < (e x).z.L) (hr : RowDeriv r r' (fl.lay i) x)
include hE hi hr

theorem mix_d {P : ℝ → Fin n → ℝ} {P' : Fin n → ℝ} {lay : Bool}
    (hP : ∀ j, HasDerivAt (fun y => P y j) (if lay then P' j else 0) x)
    {X : ℝ → Fin n → K} {X' : Fin n → K} (hX : ∀ j, HasDerivAt (fun y => X y j) (if lay then X' j else 0) x) :
    HasDerivAt (fun y => ∑ j, (P y j : K) * ((wts (e y) j : K) * X y j))
      (if lay then ∑ j, (P' j : K) * ((wts (e x) j : K) * X x j) + ∑ j, (P x j : K) * ((wts (e x) j : K) * X' j) else 0) x := by
  simp only [wts_d hE hi]
  refine (HasDerivAt.fun_sum (u := Finset.univ) fun j _ =>
    (cast_hasDeriv (K := K) (hP j)).fun_mul ((hX j).const_mul (wts (e x) j : K))).congr_deriv ?_
  cases lay with
  | false => simp
  | true => simp only [if_true, Finset.sum_add_distrib]

theorem xuP_d (k : Fin n) : HasDerivAt (fun y => xuP (e y) (r y) i k) (if fl.lay i then xuPL (e x) e' (r x) r' i k else 0) x := by
  refine ((mix_d hE hi hr hr.pp fun j => Xp_d hE hi j k).fun_sub (mix_d hE hi hr hr.mp fun j => Xm_d hE hi j k)).congr_deriv ?_
  unfold xuPL; cases fl.lay i <;> simp
  ring

theorem xuM_d (k : Fin n) : HasDerivAt (fun y => xuM (e y) (r y) i k) (if fl.lay i then xuML (e x) e' (r x) r' i k else 0) x := by
  refine ((mix_d hE hi hr hr.pp fun j => Xm_d hE hi j k).fun_sub (mix_d hE hi hr hr.mp fun j => Xp_d hE hi j k)).congr_deriv ?_
  unfold xuML; cases fl.lay i <;> simp
  ring

/-- A sum of rows and sources where the two have flags of their own. -/
theorem two_d {P F : ℝ → Fin n → ℝ} {P' F' : Fin n → ℝ} {a b : Bool} (v : Fin n → ℝ)
    (hP : ∀ j, HasDerivAt (fun y => P y j) (if a then P' j else 0) x)
    (hF : ∀ j, HasDerivAt (fun y => F y j) (if b then F' j else 0) x) :
    HasDerivAt (fun y => ∑ j, P y j * (v j * F y j))
      ((if a then ∑ j, P' j * (v j * F x j) else 0) + if b then ∑ j, P x j * (v j * F' j) else 0) x := by
  refine (HasDerivAt.fun_sum (u := Finset.univ) fun j _ => (hP j).fun_mul ((hF j).const_mul (v j))).congr_deriv ?_
  rw [Finset.sum_add_distrib]
  cases a <;> cases b <;> simp

theorem fu0_d (hso : (e x).z.solar = true) :
    HasDerivAt (fun y => fu0 (e y) (r y) i) (if fl.beam i then fu0L (e x) e' fl (r x) r' i else 0) x := by
  have a := two_d hE hi hr (wts (e x)) hr.pp (F := fun y => (e y).z.Fsp i) (F' := e'.z.Fsp i) (b := fl.beam i) fun j => by
    refine (hE.z.Fsp i hi j).congr_deriv ?_
    simp only [masked]; cases fl.beam i <;> rfl
  have b := two_d hE hi hr (wts (e x)) hr.mp (F := fun y => (e y).z.Fsm i) (F' := e'.z.Fsm i) (b := fl.beam i) fun j => by
    refine (hE.z.Fsm i hi j).congr_deriv ?_
    simp only [masked]; cases fl.beam i <;> rfl
  have c : HasDerivAt (fun y => if (e x).single then (e y).btran i * ((e x).F0 / (4 * Real.pi)) * (r y).p0 else 0)
      (if (e x).single then (if fl.beam i then e'.btran i else 0) * ((e x).F0 / (4 * Real.pi)) * (r x).p0 +
        (e x).btran i * ((e x).F0 / (4 * Real.pi)) * (if fl.lay i then r'.p0 else 0) else 0) x := by
    cases (e x).single with
    | false => simpa using hasDerivAt_const x (0 : ℝ)
    | true =>
      simp only [if_true]
      exact ((hE.btran i hi.le).mul_const _).fun_mul hr.p0
  unfold fu0 beamIn fu0L
  simp only [wts_d hE hi, hE.F0, hE.single]
  refine ((hE.om i hi).fun_mul ((a.fun_add b).fun_add c)).congr_deriv ?_
  have h1 := hE.still i hi
  have h2 := hE.beam hso i hi
  unfold beamIn
  cases hl : fl.lay i with
  | true =>
    rw [h2 hl]
    cases (e x).single <;> simp <;> ring
  | false =>
    rw [h1 hl]
    cases fl.beam i <;> cases (e x).single <;> simp

theorem u22_d (hta : (e x).z.thermal = true) {p q : ℝ → Fin n → ℝ} {p' q' : Fin n → ℝ} {pd : ℝ → ℝ} {pd' : ℝ}
    (hp : ∀ j, HasDerivAt (fun y => p y j) (if fl.heat i then p' j else 0) x)
    (hq : ∀ j, HasDerivAt (fun y => q y j) (if fl.heat i then q' j else 0) x)
    (hpd : HasDerivAt pd (if fl.heat i then pd' else 0) x) :
    HasDerivAt (fun y => u22 (e y) (r y) i (p y) (q y) (pd y))
      (u22L (e x) e' fl (r x) r' i (p x) (q x) p' q' (pd x) pd') x := by
  have a := two_d hE hi hr (e x).w hr.pp hp
  have b := two_d hE hi hr (e x).w hr.mp hq
  unfold u22 u21
  simp only [hE.w]
  refine ((((hE.om i hi).const_mul (1 / 2)).fun_mul (a.fun_add b)).fun_add
    (((hE.om i hi).const_sub 1).fun_mul hpd)).congr_deriv ?_
  have h1 := hE.still i hi
  have h2 := hE.heat hta i hi
  unfold u22L u21
  cases hl : fl.lay i with
  | true => rw [h2 hl]; simp; ring
  | false =>
    rw [h1 hl]
    cases fl.heat i <;> simp

variable (ht : HasDerivAt t (if fl.lay i then tL (e x) e' i (t x) else 0) x)
include ht

theorem heat_d (hta : (e x).z.thermal = true) : HasDerivAt (fun y => heat (e y) down mu (r y) i (t y))
    (heatL (e x) down mu e' fl (r x) r' i (t x)) x := by
  have a := u22_d hE hi hr hta (hE.At0p i hi) (hE.At0m i hi) (hE.pd0 i hi)
  have b := u22_d hE hi hr hta (hE.At1p i hi) (hE.At1m i hi) (hE.pd1 i hi)
  refine ((a.fun_mul (u240_d (down := down) (mu := mu) hE hi ht)).fun_add
    (b.fun_mul (u241_d (down := down) (mu := mu) hE hi ht))).congr_deriv ?_
  unfold heatL; rw [if_mul, if_mul]

theorem value_d (he : IsExp ex) (hs : Safe (e x) down mu i) {B : ℝ → Nat → K} {B' : Nat → K}
    (hB : ∀ c, c < nComp (e x).z → HasDerivAt (fun y => B y c) (B' c) x) {I0 : ℝ → ℝ} {I0' : ℝ}
    (hI : HasDerivAt I0 I0' x) :
    HasDerivAt (fun y => value ex (e y) down mu (B y) (r y) i (t y) (I0 y))
      (valueL ex (e x) down mu e' fl (B x) B' (r x) r' i (t x) (I0 x) I0') x := by
  have hlt : i * n * 2 + n * 2 ≤ nComp (e x).z := by
    unfold nComp
    calc i * n * 2 + n * 2 = (i + 1) * (n * 2) := by ring
      _ ≤ (e x).z.L * (n * 2) := Nat.mul_le_mul_right _ hi
      _ = 2 * n * (e x).z.L := by ring
  have ha : ∀ k : Fin n, HasDerivAt (fun y => B y (i * n * 2 + k)) (B' (i * n * 2 + k)) x := fun k =>
    hB _ (by have := k.isLt; omega)
  have hb : ∀ k : Fin n, HasDerivAt (fun y => B y (i * n * 2 + k + n)) (B' (i * n * 2 + k + n)) x := fun k =>
    hB _ (by have := k.isLt; omega)
  have a := hI.fun_mul (e1_d (down := down) (mu := mu) hE hi ht)
  have b : HasDerivAt (fun y => if (e x).z.solar then fu0 (e y) (r y) i * eu0 (e y) down mu i (t y) else 0)
      (if (e x).z.solar then (if fl.beam i then fu0L (e x) e' fl (r x) r' i * eu0 (e x) down mu i (t x) else 0) +
        if fl.lay i then fu0 (e x) (r x) i * eu0L (e x) down mu e' i (t x) else 0 else 0) x := by
    cases hso : (e x).z.solar with
    | false => simpa using hasDerivAt_const x (0 : ℝ)
    | true =>
      simp only [if_true]
      refine ((fu0_d hE hi hr hso).fun_mul (eu0_d hE hi ht hs hso)).congr_deriv ?_
      cases fl.beam i <;> cases fl.lay i <;> simp
  have c : HasDerivAt (fun y => if (e x).z.thermal && (e x).first then heat (e y) down mu (r y) i (t y) else 0)
      (if (e x).z.thermal && (e x).first then heatL (e x) down mu e' fl (r x) r' i (t x) else 0) x := by
    cases hta : (e x).z.thermal && (e x).first with
    | false => simpa using hasDerivAt_const x (0 : ℝ)
    | true =>
      simp only [if_true]
      exact heat_d hE hi hr ht (by simp only [Bool.and_eq_true] at hta; exact hta.1)
  have d := fun k : Fin n => (hE.om i hi).fun_mul (re_deriv
    ((((ha k).fun_mul (xuP_d hE hi hr k)).fun_mul (euP_d hE hi ht he hs k)).fun_add
      (((hb k).fun_mul (xuM_d hE hi hr k)).fun_mul (euM_d hE hi ht he hs k))))
  have D := HasDerivAt.fun_sum (u := Finset.univ) fun k _ => d k
  unfold value valueL
  dsimp only
  simp only [hE.z.solar, hE.z.thermal, hE.first]
  refine (((a.fun_add b).fun_add c).fun_add D).congr_deriv ?_
  rw [if_mul]
  congr 1
  refine Finset.sum_congr rfl fun k _ => ?_
  cases fl.lay i with
  | false => simp
  | true =>
    simp only [if_true]
    rw [add_assoc (e'.om i * _), ← mul_add ((e x).om i), ← map_add]
    refine congrArg (fun v : K => _ + (e x).om i * RCLike.re v) ?_
    ring

end

/-! ### The ends -/

/-- The ends along a curve. -/
structure EndsDeriv (g : ℝ → Ends m n) (g' : Ends m n) (lay : Bool) (x : ℝ) : Prop where
  isoTop : HasDerivAt (fun y => (g y).isoTop) g'.isoTop x
  isoBot : HasDerivAt (fun y => (g y).isoBot) g'.isoBot x
  qf : ∀ y, (g y).qf = (g x).qf
  mu0 : ∀ y, (g y).mu0 = (g x).mu0
  glow : HasDerivAt (fun y => (g y).glow) g'.glow x
  Rsq : ∀ u j, HasDerivAt (fun y => (g y).Rsq u j) (if lay then g'.Rsq u j else 0) x
  Rs0 : ∀ u, HasDerivAt (fun y => (g y).Rs0 u) (if lay then g'.Rs0 u else 0) x

theorem refl_d {g : ℝ → Ends m n} {g' : Ends m n} {lay : Bool} (hg : EndsDeriv g g' lay x) (ns : Nat) (u : Fin m) :
    HasDerivAt (fun y => refl ns (g y) u) (if lay then refl ns g' u else 0) x := by
  unfold refl
  refine (HasDerivAt.fun_sum (u := Finset.univ) (A' := fun j => if j.val % ns = 0 then (if lay then g'.Rsq u j else 0) else 0) fun j _ => ?_).congr_deriv ?_
  · by_cases h : j.val % ns = 0
    · simp only [h, if_true]; exact hg.Rsq u j
    · simp only [h, if_false]; exact hasDerivAt_const x 0
  · cases lay <;> simp

theorem startUp_d (hE : EnvDeriv e e' fl x) {g : ℝ → Ends m n} {g' : Ends m n} (hg : EndsDeriv g g' (fl.lay (e x).z.L) x)
    {Im : ℝ → Source.V n} {Im' : Source.V n} (hI : ∀ j, HasDerivAt (fun y => Im y j) (Im' j) x) (ns : Nat) (u last : Fin m)
    (hlast : (e x).z.surface = true → (e x).z.thermal = true → g'.glow = 0 ∨ refl ns (g x) last = refl ns (g x) u) :
    HasDerivAt (fun y => startUp (e y) ns (g y) (Im y) u) (startUpL (e x) e' fl ns (g x) g' (Im x) Im' u last) x := by
  unfold startUp startUpL
  simp only [hE.first, hE.z.surface, hE.z.solar, hE.z.thermal, hE.single, hE.F0, hE.z.L, hg.qf, hg.mu0]
  have a : HasDerivAt (fun y => if (e x).first = true ∧ u.val % ns = 0 then (g y).isoBot else 0)
      (if (e x).first = true ∧ u.val % ns = 0 then g'.isoBot else 0) x := by
    by_cases h : (e x).first = true ∧ u.val % ns = 0
    · simp only [h, and_self, if_true]; exact hg.isoBot
    · simp only [h, if_false]; exact hasDerivAt_const x 0
  have b : HasDerivAt (fun y => if (e x).z.surface = true then ∑ j, (g y).Rsq u j * Im y j else 0)
      (if (e x).z.surface = true then (if fl.lay (e x).z.L = true then ∑ j, g'.Rsq u j * Im x j else 0) +
        ∑ j, (g x).Rsq u j * Im' j else 0) x := by
    cases (e x).z.surface with
    | false => simpa using hasDerivAt_const x (0 : ℝ)
    | true =>
      simp only [if_true]
      refine (HasDerivAt.fun_sum (u := Finset.univ) fun j _ => (hg.Rsq u j).fun_mul (hI j)).congr_deriv ?_
      rw [Finset.sum_add_distrib]
      cases fl.lay (e x).z.L <;> simp
  have c : HasDerivAt (fun y => if ((e x).z.surface && (e x).z.solar && (e x).single) = true then
        (g x).qf * (g x).mu0 * (e x).F0 / Real.pi * (e y).btran (e x).z.L * (g y).Rs0 u else 0)
      (if ((e x).z.surface && (e x).z.solar && (e x).single) = true then
        (if fl.lay (e x).z.L = true then (g x).qf * (g x).mu0 * (e x).F0 / Real.pi * (e x).btran (e x).z.L * g'.Rs0 u else 0) +
        (if fl.beam (e x).z.L = true then (g x).qf * (g x).mu0 * (e x).F0 / Real.pi * e'.btran (e x).z.L * (g x).Rs0 u
          else 0) else 0) x := by
    cases (e x).z.surface && (e x).z.solar && (e x).single with
    | false => simpa using hasDerivAt_const x (0 : ℝ)
    | true =>
      simp only [if_true]
      refine (((hE.btran _ le_rfl).const_mul _).fun_mul (hg.Rs0 u)).congr_deriv ?_
      cases fl.lay (e x).z.L <;> cases fl.beam (e x).z.L <;> simp
      ring
  have d : HasDerivAt (fun y => if ((e x).z.surface && (e x).z.thermal && (e x).first) = true ∧ u.val % ns = 0 then
        (g y).glow * (1 - refl ns (g y) u) else 0)
      (if ((e x).z.surface && (e x).z.thermal && (e x).first) = true ∧ u.val % ns = 0 then
        g'.glow * (1 - refl ns (g x) last) + (g x).glow * -(if fl.lay (e x).z.L = true then refl ns g' u else 0) else 0) x := by
    by_cases h : ((e x).z.surface && (e x).z.thermal && (e x).first) = true ∧ u.val % ns = 0
    · rw [if_pos h]
      simp only [h, and_self, if_true]
      refine (hg.glow.fun_mul ((refl_d hg ns u).const_sub 1)).congr_deriv ?_
      have h1 := h.1
      simp only [Bool.and_eq_true] at h1
      rcases hlast h1.1.1 h1.1.2 with h2 | h2 <;> rw [h2]
      ring
    · simp only [h, if_false]; exact hasDerivAt_const x 0
  exact ((a.fun_add b).fun_add c).fun_add d

/-! ### Along the sweep -/

theorem run_some {e : Env n K} {B : Nat → K} {R : Nat → Row n} {L : Nat} (T : Nat → ℝ) (s : ℝ)
    (hs : ∀ i, i < L → Safe e down mu i) (c : Nat) (hc : c ≤ L) :
    run down (fun i t => layer ex e down mu B (R i) i t) L T (some s) c =
      some (run down (fun i t v => value ex e down mu B (R i) i t v) L T s c) := by
  induction c with
  | zero => rfl
  | succ c ih =>
    simp only [run]
    rw [ih (by omega)]
    unfold layer
    simp only [Option.bind_some]
    rw [if_pos (hs _ (by cases down <;> simp <;> omega))]

/-- Dividing by zero is not near, either. -/
theorem safe_near (hE : EnvDeriv e e' fl x) (hi : i < (e x).z.L) (hs : Safe (e x) down mu i) :
    ∀ᶠ y in 𝓝 x, Safe (e y) down mu i := by
  have a : ∀ᶠ y in 𝓝 x, ∀ k : Fin n, 1 + (mu : K) * ((e y).z.m i).nu k ≠ 0 ∧ 1 - (mu : K) * ((e y).z.m i).nu k ≠ 0 := by
    rw [eventually_all]
    intro k
    have hc := (nu_d hE hi k).continuousAt.const_mul (mu : K)
    exact ((continuousAt_const.add hc).eventually_ne (hs.2.1 k).1).and
      ((continuousAt_const.sub hc).eventually_ne (hs.2.1 k).2)
  have b : ∀ᶠ y in 𝓝 x, (e y).z.solar = true → if !down then 1 + mu * (e y).as0 i ≠ 0 else 1 - mu * (e y).as0 i ≠ 0 := by
    simp only [hE.z.solar]
    have hc := (hE.as0 i hi).continuousAt.const_mul mu
    cases hso : (e x).z.solar with
    | false => exact Eventually.of_forall fun y h => by simp at h
    | true =>
      have h := hs.2.2 hso
      cases down with
      | false =>
        simp only [Bool.not_false, if_true] at h ⊢
        exact ((continuousAt_const.add hc).eventually_ne h).mono fun y h _ => h
      | true =>
        simp only [Bool.not_true, Bool.false_eq_true, if_false] at h ⊢
        exact ((continuousAt_const.sub hc).eventually_ne h).mono fun y h _ => h
  exact (a.and b).mono fun y h => ⟨hs.1, h.1, h.2⟩

section
variable {R : ℝ → Nat → Row n} {R' : Nat → Row n} {B : ℝ → Nat → K} {B' : Nat → K} {s : ℝ → ℝ} {s' : ℝ}

/-- The derivatives that are kept along the way. -/
theorem run_d (he : IsExp ex) (hE : EnvDeriv e e' fl x) (hT : ∀ i, i < (e x).z.L → (e x).z.ltau i ≠ 0)
    (hR : ∀ i, i < (e x).z.L → RowDeriv (fun y => R y i) (R' i) (fl.lay i) x)
    (hs : ∀ i, i < (e x).z.L → Safe (e x) down mu i)
    (hB : ∀ c, c < nComp (e x).z → HasDerivAt (fun y => B y c) (B' c) x) (hI : HasDerivAt s s' x) (c : Nat)
    (hc : c ≤ (e x).z.L) : ∃ v',
    run down (fun i t => layerD ex (e x) down mu e' fl (B x) B' (R x i) (R' i) i t) (e x).z.L (e x).z.ltau (some (s x, s')) c =
      some (run down (fun i t v => value ex (e x) down mu (B x) (R x i) i t v) (e x).z.L (e x).z.ltau (s x) c, v') ∧
    HasDerivAt (fun y => run down (fun i t v => value ex (e y) down mu (B y) (R y i) i t v) (e x).z.L (e y).z.ltau (s y) c)
      v' x := by
  induction c with
  | zero => exact ⟨s', rfl, hI⟩
  | succ c ih =>
    obtain ⟨v', h1, h2⟩ := ih (by omega)
    simp only [run]
    set i := if !down then (e x).z.L - 1 - c else c with hi'
    have hi : i < (e x).z.L := by rw [hi']; cases down <;> simp <;> omega
    rw [h1]
    unfold layerD
    simp only [Option.bind_some]
    rw [if_pos (hs i hi)]
    refine ⟨_, rfl, ?_⟩
    have ht : HasDerivAt (fun y => if !down then 0 else (e y).z.ltau i)
        (if fl.lay i then tL (e x) e' i (if !down then 0 else (e x).z.ltau i) else 0) x := by
      cases down with
      | false => simpa [tL] using hasDerivAt_const x (0 : ℝ)
      | true =>
        refine (ltau_d hE hi).congr_deriv ?_
        unfold tL
        simp only [Bool.not_true, Bool.false_eq_true, if_false]
        rw [mul_div_cancel_left₀ _ (hT i hi)]
    exact value_d hE hi (hR i hi) (t := fun y => if !down then 0 else (e y).z.ltau i) ht he (hs i hi) hB h2

theorem layer_d (he : IsExp ex) (hE : EnvDeriv e e' fl x) (hT : ∀ i, i < (e x).z.L → (e x).z.ltau i ≠ 0)
    (hR : ∀ i, i < (e x).z.L → RowDeriv (fun y => R y i) (R' i) (fl.lay i) x)
    (hs : ∀ i, i < (e x).z.L → Safe (e x) down mu i)
    (hB : ∀ c, c < nComp (e x).z → HasDerivAt (fun y => B y c) (B' c) x) (hI : HasDerivAt s s' x) (c : Nat)
    (hc : c ≤ (e x).z.L) (hi : i < (e x).z.L) (ht : HasDerivAt t (if fl.lay i then tL (e x) e' i (t x) else 0) x) : ∃ v',
    layerD ex (e x) down mu e' fl (B x) B' (R x i) (R' i) i (t x)
      (run down (fun i t => layerD ex (e x) down mu e' fl (B x) B' (R x i) (R' i) i t) (e x).z.L (e x).z.ltau
        (some (s x, s')) c) =
      some (value ex (e x) down mu (B x) (R x i) i (t x)
        (run down (fun i t v => value ex (e x) down mu (B x) (R x i) i t v) (e x).z.L (e x).z.ltau (s x) c), v') ∧
    HasDerivAt (fun y => value ex (e y) down mu (B y) (R y i) i (t y)
      (run down (fun i t v => value ex (e y) down mu (B y) (R y i) i t v) (e x).z.L (e y).z.ltau (s y) c)) v' x := by
  obtain ⟨v', h1, h2⟩ := run_d he hE hT hR hs hB hI c hc
  rw [h1]
  unfold layerD
  simp only [Option.bind_some]
  rw [if_pos (hs i hi)]
  exact ⟨_, rfl, value_d hE hi (hR i hi) ht he (hs i hi) hB h2⟩

end

end Xrtm.Sfi
