import Verif.Proof.Eig

/-! All light in a layer without sources is a sum of the modes, and every sum of
the modes is light. -/

namespace Xrtm.Eig
open Matrix Xrtm.Spec Xrtm.Transfer Xrtm.Source

variable {n : Nat} {K : Type} [RCLike K]

theorem turn_turn (ns : Nat) (g : Source.V n) : turn ns (turn ns g) = g := by
  funext j; simp only [turn_apply, ← mul_assoc, sign_sq, one_mul]

/-- The equation of transfer with the light down turned. -/
theorem carries_turn {first : Bool} {ns : Nat} {mu w : Source.V n} {om : ℝ} {Ppp Pmp Pmm Ppm : M n}
    (hmu : ∀ i, mu i ≠ 0) (hm : (Medium.of first mu w om Ppp Pmp Pmm Ppm).Mirrored ns) (up dn : ℝ → Source.V n) :
    (Medium.of first mu w om Ppp Pmp Pmm Ppm).Carries 0 0 up dn ↔
      let r := (localRT first mu w om Ppp Pmp).1
      let t := (localRT first mu w om Ppp Pmp).2
      ∀ τ i, HasDerivAt (fun s => up s i) (-(t *ᵥ up τ) i + (turnM ns r *ᵥ turn ns (dn τ)) i) τ ∧
        HasDerivAt (fun s => turn ns (dn s) i) (-(turnM ns r *ᵥ up τ) i + (t *ᵥ turn ns (dn τ)) i) τ := by
  rw [carries_iff hmu]
  dsimp only
  set r := (localRT first mu w om Ppp Pmp).1
  set t := (localRT first mu w om Ppp Pmp).2
  have hr : ∀ g i, ((localRT first mu w om Pmm Ppm).1 *ᵥ g) i = (turnM ns r *ᵥ turn ns g) i := by
    intro g i
    have e := mulVec_turn ns (fun i j => (localRT_mirror (w := w) hm i j).1) (turn ns g) i
    rw [turn_turn] at e
    rw [e, turnM_mulVec]
  have ht : ∀ g i, ((localRT first mu w om Pmm Ppm).2 *ᵥ g) i = stokesSign ns i * (t *ᵥ turn ns g) i := by
    intro g i
    have e := mulVec_turn ns (fun i j => (localRT_mirror (w := w) hm i j).2) (turn ns g) i
    rwa [turn_turn] at e
  refine forall_congr' fun τ => forall_congr' fun i => and_congr ?_ ?_
  · have : -(t *ᵥ up τ) i + ((localRT first mu w om Pmm Ppm).1 *ᵥ dn τ) i - (0 : ℝ → Source.V n) τ i / mu i =
        -(t *ᵥ up τ) i + (turnM ns r *ᵥ turn ns (dn τ)) i := by rw [hr]; simp
    rw [this]
  · constructor
    · intro h
      have := h.const_mul (stokesSign ns i)
      simp only [turn_apply]
      refine this.congr_deriv ?_
      rw [ht, turnM_mulVec]
      simp only [Pi.zero_apply, zero_div, add_zero]
      linear_combination ((t *ᵥ turn ns (dn τ)) i) * sign_sq ns i
    · intro h
      have := h.const_mul (stokesSign ns i)
      simp only [turn_apply, ← mul_assoc, sign_sq, one_mul] at this
      refine this.congr_deriv ?_
      rw [ht, turnM_mulVec]
      simp only [Pi.zero_apply, zero_div, add_zero]
      linear_combination (-(r *ᵥ up τ) i) * sign_sq ns i

/-- Light made of the modes. -/
def sumUp (ex : K → K) (m : Modes n K) (T : ℝ) (a b : Fin n → K) (s : ℝ) (j : Fin n) : K :=
  ∑ k, (a k * m.Xp j k * ex (-m.nu k * (s : K)) + b k * m.Xm j k * ex (-m.nu k * ((T - s : ℝ) : K)))
def sumDn (ex : K → K) (m : Modes n K) (T : ℝ) (a b : Fin n → K) (s : ℝ) (j : Fin n) : K :=
  ∑ k, (a k * -m.Xm j k * ex (-m.nu k * (s : K)) + b k * -m.Xp j k * ex (-m.nu k * ((T - s : ℝ) : K)))

theorem back {ex : K → K} (he : IsExp ex) (c : K) (T s : ℝ) :
    ex (-c * ((T - s : ℝ) : K)) = ex (c * s) * ex (-c * T) := by
  have := mode he (c := -c) (f := fun s => ex (-c * ((T - s : ℝ) : K))) (fun y => by
    have h1 : HasDerivAt (fun s : ℝ => -c * ((T - s : ℝ) : K)) (-c * ((-1 : ℝ) : K)) y :=
      (cast_hasDeriv ((hasDerivAt_id y).const_sub T)).const_mul (-c)
    refine (he.along h1).congr_deriv ?_
    push_cast; ring) s
  simpa using this

variable {tpr tmr V : Matrix (Fin n) (Fin n) K} {nu : Fin n → K}

theorem modal_ends {ex : K → K} (he : IsExp ex) (T : ℝ) (hV : V.det ≠ 0) (hnu : ∀ i, nu i ≠ 0)
    (hE : tmr * tpr * V = V * diagonal fun i => nu i ^ 2) {F G : ℝ → Fin n → K}
    (hq : ∀ τ i, HasDerivAt (fun s => F s i + G s i) (-(tpr *ᵥ (F τ - G τ)) i) τ)
    (hp : ∀ τ i, HasDerivAt (fun s => F s i - G s i) (-(tmr *ᵥ (F τ + G τ)) i) τ) :
    ∃ a b : Fin n → K, ∀ s, F s = sumUp ex (modes tpr nu V) T a b s ∧ G s = sumDn ex (modes tpr nu V) T a b s := by
  obtain ⟨al, be, dal, dbe, vF, vG⟩ := modal he hV hnu hE hq hp
  have hb : ∀ i s, be s i = ex (-nu i * ((T - s : ℝ) : K)) * be T i := fun i s => by
    rw [dbe i T, back he, dbe i s, mul_assoc, ← mul_assoc (ex (-nu i * T)), he.ne_zero, one_mul]
  refine ⟨al 0, be T, fun s => ⟨?_, ?_⟩⟩
  · funext j
    rw [vF s, Pi.add_apply]
    simp only [mulVec, dotProduct]
    rw [← Finset.sum_add_distrib]
    refine Finset.sum_congr rfl fun k _ => ?_
    rw [dal k s, hb k s]
    change _ = al 0 k * _ * ex (-nu k * (s : K)) + be T k * _ * ex (-nu k * ((T - s : ℝ) : K))
    ring
  · funext j
    rw [vG s, Pi.sub_apply, Pi.neg_apply]
    simp only [mulVec, dotProduct]
    rw [← Finset.sum_neg_distrib, ← Finset.sum_sub_distrib]
    refine Finset.sum_congr rfl fun k _ => ?_
    rw [dal k s, hb k s]
    change _ = al 0 k * _ * ex (-nu k * (s : K)) + be T k * _ * ex (-nu k * ((T - s : ℝ) : K))
    ring

theorem modal_solves {ex : K → K} (he : IsExp ex) (T : ℝ) (hnu : ∀ i, nu i ≠ 0)
    (hE : tmr * tpr * V = V * diagonal fun i => nu i ^ 2) (a b : Fin n → K) (τ : ℝ) (i : Fin n) :
    let F := sumUp ex (modes tpr nu V) T a b
    let G := sumDn ex (modes tpr nu V) T a b
    HasDerivAt (fun s => F s i + G s i) (-(tpr *ᵥ (F τ - G τ)) i) τ ∧
    HasDerivAt (fun s => F s i - G s i) (-(tmr *ᵥ (F τ + G τ)) i) τ := by
  intro F G
  set A : ℝ → Fin n → K := fun s k => a k * ex (-nu k * (s : K)) with hA
  set C : ℝ → Fin n → K := fun s k => b k * ex (-nu k * ((T - s : ℝ) : K)) with hC
  set W : Matrix (Fin n) (Fin n) K := fun i j => (tpr * V) i j / nu j with hW
  have dA : ∀ s k, HasDerivAt (fun s => A s k) (-(nu k * A s k)) s := fun s k => by
    have h1 := he.along ((cast_deriv (K := K) s).const_mul (-nu k))
    refine (h1.const_mul (a k)).congr_deriv ?_
    rw [hA]; ring
  have dC : ∀ s k, HasDerivAt (fun s => C s k) (nu k * C s k) s := fun s k => by
    have h1 : HasDerivAt (fun s : ℝ => -nu k * ((T - s : ℝ) : K)) (-nu k * ((-1 : ℝ) : K)) s :=
      (cast_hasDeriv ((hasDerivAt_id s).const_sub T)).const_mul (-nu k)
    refine ((he.along h1).const_mul (b k)).congr_deriv ?_
    rw [hC]; push_cast; ring
  have hs : ∀ s, F s + G s = W *ᵥ (A s - C s) := fun s => by
    funext j
    simp only [F, G, sumUp, sumDn, Pi.add_apply, mulVec, dotProduct]
    rw [← Finset.sum_add_distrib]
    refine Finset.sum_congr rfl fun k _ => ?_
    simp only [modes, hA, hC, Pi.sub_apply, hW]; ring
  have hd : ∀ s, F s - G s = V *ᵥ (A s + C s) := fun s => by
    funext j
    simp only [F, G, sumUp, sumDn, Pi.sub_apply, mulVec, dotProduct]
    rw [← Finset.sum_sub_distrib]
    refine Finset.sum_congr rfl fun k _ => ?_
    simp only [modes, hA, hC, Pi.add_apply]; ring
  have hWN : W * diagonal nu = tpr * V := by
    funext i j; rw [mul_diagonal, hW]; simp only; rw [div_mul_cancel₀ _ (hnu j)]
  have hWN' : tmr * W = V * diagonal nu := by
    have h1 : tmr * (tpr * V) = V * diagonal fun i => nu i ^ 2 := by rw [← Matrix.mul_assoc, hE]
    have h2 : W = tpr * V * diagonal fun i => (nu i)⁻¹ := by
      funext i j; rw [mul_diagonal]; exact div_eq_mul_inv _ _
    rw [h2, ← Matrix.mul_assoc, h1, Matrix.mul_assoc, diagonal_mul_diagonal]
    congr 2; funext i
    have := hnu i
    field_simp
  constructor
  · have : (fun s => F s i + G s i) = fun s => (W *ᵥ (A s - C s)) i := by
      funext s; rw [← hs s]; rfl
    rw [this, hd, mulVec_mulVec, ← hWN, ← mulVec_mulVec]
    refine (mulVec_deriv W (f := fun s => A s - C s) (f' := fun k => -(nu k * A τ k) - nu k * C τ k)
      (fun k => (dA τ k).fun_sub (dC τ k)) i).congr_deriv ?_
    have : (fun k => -(nu k * A τ k) - nu k * C τ k) = -(diagonal nu *ᵥ (A τ + C τ)) := by
      funext k; rw [Pi.neg_apply, mulVec_diagonal, Pi.add_apply]; ring
    rw [this, mulVec_neg]; rfl
  · have : (fun s => F s i - G s i) = fun s => (V *ᵥ (A s + C s)) i := by
      funext s; rw [← hd s]; rfl
    rw [this, hs, mulVec_mulVec, hWN', ← mulVec_mulVec]
    refine (mulVec_deriv V (f := fun s => A s + C s) (f' := fun k => -(nu k * A τ k) + nu k * C τ k)
      (fun k => (dA τ k).fun_add (dC τ k)) i).congr_deriv ?_
    have : (fun k => -(nu k * A τ k) + nu k * C τ k) = -(diagonal nu *ᵥ (A τ - C τ)) := by
      funext k; rw [Pi.neg_apply, mulVec_diagonal, Pi.sub_apply]; ring
    rw [this, mulVec_neg]; rfl

/-! ### A layer -/

variable {first : Bool} {ns : Nat} {mu w : Source.V n} {om : ℝ} {Ppp Pmp Pmm Ppm : M n}

theorem gamma_map (A B : M n) : (B.map fun z : ℝ => (z : K)) * (A.map fun z : ℝ => (z : K)) =
    (gammaOf A B).map fun z : ℝ => (z : K) := by
  funext i j
  simp only [gammaOf, mul_apply, map_apply, RCLike.ofReal_sum, RCLike.ofReal_mul]

theorem layer_modal {ex : K → K} (he : IsExp ex) (T : ℝ) (hns : 0 < ns)
    (hmu : ∀ i, mu i ≠ 0) (hm : (Medium.of first mu w om Ppp Pmp Pmm Ppm).Mirrored ns)
    {V : Matrix (Fin n) (Fin n) K} {nu : Fin n → K} (hV : V.det ≠ 0) (hnu : ∀ i, nu i ≠ 0)
    (hE : let z := localRT first mu w om Ppp Pmp
      let x := txr ns z.1 z.2
      ((gammaOf x.1 x.2).map fun z : ℝ => (z : K)) * V = V * diagonal fun i => nu i ^ 2) {up dn : ℝ → Source.V n}
    (hc : (Medium.of first mu w om Ppp Pmp Pmm Ppm).Carries 0 0 up dn) :
    let z := localRT first mu w om Ppp Pmp
    let x := txr ns z.1 z.2
    let m := modes (x.1.map fun z : ℝ => (z : K)) nu V
    ∃ a b : Fin n → K, ∀ s j, (up s j : K) = sumUp ex m T a b s j ∧ (turn ns (dn s) j : K) = sumDn ex m T a b s j := by
  rw [carries_turn hmu hm] at hc
  dsimp only at hc hE ⊢
  rw [txr_eq hns] at hE ⊢
  dsimp only at hE ⊢
  set r := (localRT first mu w om Ppp Pmp).1
  set t := (localRT first mu w om Ppp Pmp).2
  rw [← gamma_map] at hE
  set G : ℝ → Source.V n := fun s => turn ns (dn s) with hG
  obtain ⟨a, b, h⟩ := modal_ends he T (F := fun s i => (up s i : K)) (G := fun s i => (G s i : K)) hV hnu hE
    (by
      intro τ i
      refine ((cast_hasDeriv (hc τ i).1).fun_add (cast_hasDeriv (hc τ i).2)).congr_deriv ?_
      have : ((fun i => (up τ i : K)) - fun i => (G τ i : K)) = fun i => ((up τ - G τ) i : K) := by
        funext j; simp
      rw [this, cast_mulVec, ← RCLike.ofReal_add, ← RCLike.ofReal_neg, add_mulVec, mulVec_sub, mulVec_sub]
      congr 1
      simp only [Pi.add_apply, Pi.sub_apply, hG]; ring)
    (by
      intro τ i
      refine ((cast_hasDeriv (hc τ i).1).fun_sub (cast_hasDeriv (hc τ i).2)).congr_deriv ?_
      have : ((fun i => (up τ i : K)) + fun i => (G τ i : K)) = fun i => ((up τ + G τ) i : K) := by
        funext j; simp
      rw [this, cast_mulVec, ← RCLike.ofReal_sub, ← RCLike.ofReal_neg, sub_mulVec, mulVec_add, mulVec_add]
      congr 1
      simp only [Pi.add_apply, Pi.sub_apply, hG]; ring)
  exact ⟨a, b, fun s j => ⟨congrFun (h s).1 j, congrFun (h s).2 j⟩⟩

theorem re_hasDeriv {f : ℝ → K} {f' : K} {x : ℝ} (h : HasDerivAt f f' x) :
    HasDerivAt (fun y => RCLike.re (f y)) (RCLike.re f') x := by
  have := (RCLike.reCLM (K := K)).hasFDerivAt.comp_hasDerivAt x h
  simp only [RCLike.reCLM_apply] at this
  exact this

theorem re_mulVec (A : M n) (v : Fin n → K) (i : Fin n) :
    RCLike.re (((A.map fun z : ℝ => (z : K)) *ᵥ v) i) = (A *ᵥ fun j => RCLike.re (v j)) i := by
  simp only [mulVec, dotProduct, map_apply, map_sum, RCLike.re_ofReal_mul]

/-- Real parts of sums of modes are light. -/
theorem layer_made {ex : K → K} (he : IsExp ex) (T : ℝ) (hns : 0 < ns)
    (hmu : ∀ i, mu i ≠ 0) (hm : (Medium.of first mu w om Ppp Pmp Pmm Ppm).Mirrored ns)
    {V : Matrix (Fin n) (Fin n) K} {nu : Fin n → K} (hnu : ∀ i, nu i ≠ 0)
    (hE : let z := localRT first mu w om Ppp Pmp
      let x := txr ns z.1 z.2
      ((gammaOf x.1 x.2).map fun z : ℝ => (z : K)) * V = V * diagonal fun i => nu i ^ 2) (a b : Fin n → K) :
    let z := localRT first mu w om Ppp Pmp
    let x := txr ns z.1 z.2
    let m := modes (x.1.map fun z : ℝ => (z : K)) nu V
    (Medium.of first mu w om Ppp Pmp Pmm Ppm).Carries 0 0 (fun s j => RCLike.re (sumUp ex m T a b s j))
      (fun s => turn ns fun j => RCLike.re (sumDn ex m T a b s j)) := by
  intro z x m
  rw [carries_turn hmu hm]
  dsimp only at hE ⊢
  simp only [turn_turn]
  simp only [m, x, z]
  rw [txr_eq hns] at hE ⊢
  dsimp only at hE ⊢
  set r := (localRT first mu w om Ppp Pmp).1
  set t := (localRT first mu w om Ppp Pmp).2
  rw [← gamma_map] at hE
  intro τ i
  obtain ⟨h1, h2⟩ := modal_solves he T hnu hE a b τ i
  have e1 := re_hasDeriv (h1.fun_add h2)
  have e2 := re_hasDeriv (h1.fun_sub h2)
  have f1 := e1.const_mul (1 / 2 : ℝ)
  have f2 := e2.const_mul (1 / 2 : ℝ)
  set F := sumUp ex (modes ((t + turnM ns r).map fun z : ℝ => (z : K)) nu V) T a b
  set G := sumDn ex (modes ((t + turnM ns r).map fun z : ℝ => (z : K)) nu V) T a b
  have c1 : ∀ v : Fin n → K, RCLike.re ((((t + turnM ns r).map fun z : ℝ => (z : K)) *ᵥ v) i) =
      (t *ᵥ fun j => RCLike.re (v j)) i + (turnM ns r *ᵥ fun j => RCLike.re (v j)) i := fun v => by
    rw [re_mulVec, add_mulVec]; rfl
  have c2 : ∀ v : Fin n → K, RCLike.re ((((t - turnM ns r).map fun z : ℝ => (z : K)) *ᵥ v) i) =
      (t *ᵥ fun j => RCLike.re (v j)) i - (turnM ns r *ᵥ fun j => RCLike.re (v j)) i := fun v => by
    rw [re_mulVec, sub_mulVec]; rfl
  have s1 : (fun j => RCLike.re ((F τ - G τ) j)) = (fun j => RCLike.re (F τ j)) - fun j => RCLike.re (G τ j) := by
    funext j; simp
  have s2 : (fun j => RCLike.re ((F τ + G τ) j)) = (fun j => RCLike.re (F τ j)) + fun j => RCLike.re (G τ j) := by
    funext j; simp
  constructor
  · refine (f1.congr_deriv ?_).congr_of_eventuallyEq (Filter.Eventually.of_forall fun s => ?_)
    · rw [map_add, map_neg, map_neg, c1, c2, s1, s2, mulVec_sub, mulVec_sub, mulVec_add, mulVec_add]
      simp only [Pi.add_apply, Pi.sub_apply]; ring
    · simp only [map_add, map_sub]; ring
  · refine (f2.congr_deriv ?_).congr_of_eventuallyEq (Filter.Eventually.of_forall fun s => ?_)
    · rw [map_sub, map_neg, map_neg, c1, c2, s1, s2, mulVec_sub, mulVec_sub, mulVec_add, mulVec_add]
      simp only [Pi.add_apply, Pi.sub_apply]; ring
    · simp only [map_add, map_sub]; ring

end Xrtm.Eig
