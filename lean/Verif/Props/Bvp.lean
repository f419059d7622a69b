import Verif.Proof.BvpSing
import Verif.Props.Eig

/-!
# C51: the eigenmatrix boundary value solver gives the light in the atmosphere,
and its derivatives
-/

namespace Xrtm.Bvp
open Matrix Filter Topology Xrtm.Loops Xrtm.Eig Xrtm.Source Xrtm.Transfer

variable {n : Nat} {K : Type} [RCLike K] {ex : K → K} {x : ℝ}
  {inv? : {N : Nat} → Matrix (Fin N) (Fin N) K → Option (Matrix (Fin N) (Fin N) K)}

/-- No write leaves the band array, whatever the inputs. -/
theorem C51_in_bounds (ex : K → K) (z : Inp n K) (hL : 1 ≤ z.L) : (system ex z).ok = true := system_ok ex z hL

/-! ### An atmosphere -/

/-- Layers with what is in them, their thickness, the rate of decay of the beam and
what is left of it at their top; the beam, its scattering; the thermal emission at
the levels; light from above and from the ground, and the reflection of the ground
as the solver takes it (of light down that is turned). -/
structure Air (n : Nat) (K : Type) where
  L : Nat
  c : Nat → Content n K
  T : Nat → ℝ
  as0 : Nat → ℝ
  btran : Nat → ℝ
  F0 : ℝ
  P0mm : Nat → Source.V n
  P0pm : Nat → Source.V n
  planck : Nat → ℝ
  above : Source.V n
  ground : Source.V n
  Rs : M n
  surface : Bool
  solar : Bool
  thermal : Bool

/-- The stack it is. -/
noncomputable def Air.stack (A : Air n K) (first : Bool) (ns : Nat) (mu w : Source.V n) : Stack n where
  L := A.L
  med := fun i => (A.c i).medium first mu w
  T := A.T
  qp := fun i τ j => (if A.solar then A.btran i * beamSource A.F0 (A.c i).om (A.as0 i) (A.P0pm i) τ j else 0) +
    if A.thermal then thermalSource ns (A.c i).om (A.planck i) (A.planck (i + 1)) (A.T i) τ j else 0
  qm := fun i τ j => (if A.solar then A.btran i * beamSource A.F0 (A.c i).om (A.as0 i) (A.P0mm i) τ j else 0) +
    if A.thermal then thermalSource ns (A.c i).om (A.planck i) (A.planck (i + 1)) (A.T i) τ j else 0
  top := A.above
  bot := A.ground
  Rs := if A.surface then Matrix.of fun i j => A.Rs i j * stokesSign ns j else 0

/-- The inputs of `SOLVE_BVP` for it, as `rtm_eig_bvp` makes them of the particular
solutions `o` for the beam and `a` for thermal emission. -/
noncomputable def Air.inp (A : Air n K) (first : Bool) (ns : Nat) (mu w : Source.V n) (o : Nat → SunOut n)
    (a : Nat → (Fin n ⊕ Fin n → ℝ) × (Fin n ⊕ Fin n → ℝ)) : Inp n K where
  L := A.L
  m := fun i => (A.c i).modes first ns mu w
  ltau := A.T
  atran := fun i => Real.exp (-A.T i * A.as0 i)
  Fsp := fun i => A.btran i • (o i).Fp
  Fsm := fun i => A.btran i • turn ns (o i).Fm
  Fs1p := fun i => A.btran i • (o i).Fp
  Fs1m := fun i => A.btran i • turn ns (o i).Fm
  Ft0p := fun i j => (heatEnds (A.T i) (a i)).1 (.inl j)
  Ft0m := fun i j => (heatEnds (A.T i) (a i)).1 (.inr j)
  Ft1p := fun i j => (heatEnds (A.T i) (a i)).2 (.inl j)
  Ft1m := fun i j => (heatEnds (A.T i) (a i)).2 (.inr j)
  Rs := A.Rs
  I1m := turn ns A.above
  Inp := A.ground
  surface := A.surface
  solar := A.solar
  thermal := A.thermal

/-- What is asked of it: media that are the same from above and from below with
their eigenvalues and eigenvectors, and the particular solutions. -/
structure Air.Fine (A : Air n K) (first : Bool) (ns : Nat) (mu w : Source.V n) (o : Nat → SunOut n)
    (a : Nat → (Fin n ⊕ Fin n → ℝ) × (Fin n ⊕ Fin n → ℝ)) (inv1? : M n → Option (M n))
    (inv2? : Matrix (Fin n ⊕ Fin n) (Fin n ⊕ Fin n) ℝ → Option (Matrix (Fin n ⊕ Fin n) (Fin n ⊕ Fin n) ℝ)) :
    Prop where
  one : 1 ≤ A.L
  stokes : 0 < ns
  cos : ∀ i, mu i ≠ 0
  same : ∀ i, i < A.L → ((A.c i).medium first mu w).Mirrored ns
  eig : ∀ i, i < A.L → (A.c i).Solved first ns mu w
  decay : ∀ i, i < A.L → A.as0 i ≠ 0
  sun : A.solar = true → ∀ i, i < A.L → Source.sun inv1? ns mu A.F0
    (sunOf first ns mu w (A.c i).om (A.as0 i) (A.c i).Ppp (A.c i).Pmp (A.P0mm i) (A.P0pm i)) = some (o i)
  heat : A.thermal = true → ns = 1 ∧ ∀ i, i < A.L → Source.heat inv2? mu
    (heatOf first mu w (A.planck i) (A.planck (i + 1)) (A.c i).om (A.T i) (A.c i).Ppp (A.c i).Pmp (A.c i).Ppp
      (A.c i).Pmp) = some (a i)

theorem carries_add2 {m : Medium n} {pp pm qp qm up dn up' dn' : ℝ → Source.V n} (h : m.Carries pp pm up dn)
    (h' : m.Carries qp qm up' dn') :
    m.Carries (fun τ i => pp τ i + qp τ i) (fun τ i => pm τ i + qm τ i) (fun τ => up τ + up' τ) (fun τ => dn τ + dn' τ) := by
  intro τ i
  obtain ⟨u, d, hu, hd, eu, ed⟩ := h τ i
  obtain ⟨u', d', hu', hd', eu', ed'⟩ := h' τ i
  have a1 : m.intoUp (up τ + up' τ) (dn τ + dn' τ) i =
      m.intoUp (up τ) (dn τ) i + m.intoUp (up' τ) (dn' τ) i := by
    simp only [Medium.intoUp, Pi.add_apply, ← mul_add, ← Finset.sum_add_distrib]
    congr 1; exact Finset.sum_congr rfl fun j _ => by ring
  have a2 : m.intoDn (up τ + up' τ) (dn τ + dn' τ) i =
      m.intoDn (up τ) (dn τ) i + m.intoDn (up' τ) (dn' τ) i := by
    simp only [Medium.intoDn, Pi.add_apply, ← mul_add, ← Finset.sum_add_distrib]
    congr 1; exact Finset.sum_congr rfl fun j _ => by ring
  refine ⟨u + u', d + d', hu.fun_add hu', hd.fun_add hd', ?_, ?_⟩
  · rw [a1]; simp only [Pi.add_apply] at eu ⊢; linear_combination eu + eu'
  · rw [a2]; simp only [Pi.add_apply] at ed ⊢; linear_combination ed + ed'

theorem carries_smul {m : Medium n} {qp qm up dn : ℝ → Source.V n} (b : ℝ) (h : m.Carries qp qm up dn) :
    m.Carries (fun τ i => b * qp τ i) (fun τ i => b * qm τ i) (fun τ => b • up τ) (fun τ => b • dn τ) := by
  intro τ i
  obtain ⟨u, d, hu, hd, eu, ed⟩ := h τ i
  have a1 : m.intoUp (b • up τ) (b • dn τ) i = b * m.intoUp (up τ) (dn τ) i := by
    simp only [Medium.intoUp, Pi.smul_apply, smul_eq_mul]
    rw [mul_left_comm, Finset.mul_sum (a := b)]
    congr 1; exact Finset.sum_congr rfl fun j _ => by ring
  have a2 : m.intoDn (b • up τ) (b • dn τ) i = b * m.intoDn (up τ) (dn τ) i := by
    simp only [Medium.intoDn, Pi.smul_apply, smul_eq_mul]
    rw [mul_left_comm, Finset.mul_sum (a := b)]
    congr 1; exact Finset.sum_congr rfl fun j _ => by ring
  refine ⟨b * u, b * d, hu.const_mul b, hd.const_mul b, ?_, ?_⟩
  · rw [a1]; simp only [Pi.smul_apply, smul_eq_mul] at eu ⊢; linear_combination b * eu
  · rw [a2]; simp only [Pi.smul_apply, smul_eq_mul] at ed ⊢; linear_combination b * ed

/-- The particular solutions in a layer. -/
noncomputable def Air.su (A : Air n K) (o : Nat → SunOut n) (a : Nat → (Fin n ⊕ Fin n → ℝ) × (Fin n ⊕ Fin n → ℝ))
    (i : Nat) (τ : ℝ) : Source.V n :=
  (if A.solar then A.btran i • Real.exp (-A.as0 i * τ) • (o i).Fp else 0) +
    if A.thermal then fun j => (a i).1 (.inl j) + τ * (a i).2 (.inl j) else 0

noncomputable def Air.sd (A : Air n K) (o : Nat → SunOut n) (a : Nat → (Fin n ⊕ Fin n → ℝ) × (Fin n ⊕ Fin n → ℝ))
    (i : Nat) (τ : ℝ) : Source.V n :=
  (if A.solar then A.btran i • Real.exp (-A.as0 i * τ) • (o i).Fm else 0) +
    if A.thermal then fun j => (a i).1 (.inr j) + τ * (a i).2 (.inr j) else 0

section air

variable {A : Air n K} {first : Bool} {ns : Nat} {mu w : Source.V n} {o : Nat → SunOut n}
  {a : Nat → (Fin n ⊕ Fin n → ℝ) × (Fin n ⊕ Fin n → ℝ)} {inv1? : M n → Option (M n)}
  {inv2? : Matrix (Fin n ⊕ Fin n) (Fin n ⊕ Fin n) ℝ → Option (Matrix (Fin n ⊕ Fin n) (Fin n ⊕ Fin n) ℝ)}

theorem turn_smul (ns : Nat) (b : ℝ) (f : Source.V n) : turn ns (b • f) = b • turn ns f := by
  funext j; simp only [turn_apply, Pi.smul_apply, smul_eq_mul]; ring

theorem sign_one (j : Fin n) : stokesSign 1 j = 1 := by simp [stokesSign, Nat.mod_one]

theorem turn_one (f : Source.V n) : turn 1 f = f := by
  funext j; rw [turn_apply, sign_one, one_mul]

theorem air_posed (hex1 : Source.Exact inv1?) (hex2 : Source.Exact inv2?)
    (h : A.Fine first ns mu w o a inv1? inv2?) :
    Posed first ns mu w A.c (A.su o a) (A.sd o a) (A.inp first ns mu w o a) (A.stack first ns mu w) where
  one := h.one
  L := rfl
  hns := h.stokes
  hmu := h.cos
  med := fun i _ => rfl
  mirrored := h.same
  solved := h.eig
  modes := fun i _ => rfl
  T := fun i _ => rfl
  part := fun i hi => by
    unfold Air.su Air.sd Air.stack
    dsimp only
    refine carries_add2 ?_ ?_
    · cases hs : A.solar with
      | false => simp only [Bool.false_eq_true, if_false]; exact carries_zero _
      | true =>
        have := carries_smul (A.btran i) (sun_carries hex1 h.stokes h.cos (h.same i hi) (h.decay i hi) (h.sun hs i hi))
        simp only [if_true]; exact this
    · cases ht : A.thermal with
      | false => simp only [Bool.false_eq_true, if_false]; exact carries_zero _
      | true =>
        obtain ⟨hns, hh⟩ := h.heat ht
        subst hns
        have hm := h.same i hi
        have := heat_carries hex2 h.cos (hh i hi)
        have e1 : (A.c i).Pmm = (A.c i).Ppp := by
          funext k l; have := (hm k l).1; rw [sign_one, sign_one, one_mul, one_mul] at this; exact this
        have e2 : (A.c i).Ppm = (A.c i).Pmp := by
          funext k l; have := (hm k l).2; rw [sign_one, sign_one, one_mul, one_mul] at this; exact this
        unfold Content.medium
        rw [e1, e2]
        simp only [if_true]; exact this
  p0p := fun i hi => by
    funext j
    unfold Air.su Air.inp P0p
    cases A.solar <;> cases A.thermal <;> simp [heatEnds]
  p0m := fun i hi => by
    funext j
    unfold Air.sd Air.inp P0m
    cases hs : A.solar <;> cases ht : A.thermal <;> simp [heatEnds, turn_add, turn_smul, turn_zero]
    · have := (h.heat ht).1; subst this; rw [turn_one]
    · have := (h.heat ht).1; subst this; rw [turn_one]
  p1p := fun i hi => by
    funext j
    unfold Air.su Air.inp P1p
    cases A.solar <;> cases A.thermal <;> simp [heatEnds, mul_comm, mul_assoc, mul_left_comm]
  p1m := fun i hi => by
    funext j
    unfold Air.sd Air.inp P1m
    cases hs : A.solar <;> cases ht : A.thermal <;>
      simp [heatEnds, turn_add, turn_smul, turn_zero, mul_comm, mul_assoc, mul_left_comm]
    · have := (h.heat ht).1; subst this; rw [turn_one]
    · have := (h.heat ht).1; subst this; rw [turn_one]
  top := rfl
  bot := rfl
  refl := fun g => by
    unfold Air.stack Air.inp
    dsimp only
    cases A.surface with
    | true =>
      funext i
      simp only [if_true, mulVec, dotProduct, turn_apply, mul_assoc, of_apply]
    | false => simp

/-- All light in the atmosphere is, at the levels, what the solver gives. -/
theorem C51_levels (he : IsExp ex) (hex : ExactAll inv?) (hex1 : Source.Exact inv1?) (hex2 : Source.Exact inv2?)
    (h : A.Fine first ns mu w o a inv1? inv2?) {B : Nat → K}
    (hB : solveBvp ex (A.inp first ns mu w o a) inv? = some B) {up dn : Nat → ℝ → Source.V n}
    (hl : (A.stack first ns mu w).Lit up dn) (lev : Nat) (hlev : lev ≤ A.L) :
    output ns (level ex (A.inp first ns mu w o a) B lev) =
      ((A.stack first ns mu w).on up lev, (A.stack first ns mu w).on dn lev) :=
  lit_level he hex (air_posed hex1 hex2 h) hB hl lev hlev

/-- And within the layers, as far as there is no thermal emission.  Full statement:
with it; it is false, see `C51_violated_taus_thermal`. -/
theorem C51_taus_partial (he : IsExp ex) (hex : ExactAll inv?) (hex1 : Source.Exact inv1?)
    (hex2 : Source.Exact inv2?) (h : A.Fine first ns mu w o a inv1? inv2?) (hth : A.thermal = false) {B : Nat → K}
    (hB : solveBvp ex (A.inp first ns mu w o a) inv? = some B) {up dn : Nat → ℝ → Source.V n}
    (hl : (A.stack first ns mu w).Lit up dn) (i : Nat) (hi : i < A.L) (t : ℝ) :
    output ns (atTau ex (A.inp first ns mu w o a) (A.as0 i) B i t) = (up i t, dn i t) := by
  refine lit_tau he hex (air_posed hex1 hex2 h) hB hl i hi (A.as0 i) t ?_ ?_
  · unfold Air.su Air.inp
    rw [hth]
    have e : -A.as0 i * t = -t * A.as0 i := by ring
    have e2 := fun f : Source.V n => smul_comm (A.btran i) (Real.exp (-t * A.as0 i)) f
    cases A.solar <;> simp [-neg_mul, e, e2]
  · unfold Air.sd Air.inp
    rw [hth]
    have e : -A.as0 i * t = -t * A.as0 i := by ring
    have e2 := fun f : Source.V n => smul_comm (A.btran i) (Real.exp (-t * A.as0 i)) f
    cases A.solar <;> simp [-neg_mul, e, turn_smul, turn_zero, e2]

/-- There is such light if the solver finds the unknowns. -/
theorem C51_exists (he : IsExp ex) (hex : ExactAll inv?) (hex1 : Source.Exact inv1?) (hex2 : Source.Exact inv2?)
    (h : A.Fine first ns mu w o a inv1? inv2?) {B : Nat → K}
    (hB : solveBvp ex (A.inp first ns mu w o a) inv? = some B) :
    ∃ up dn, (A.stack first ns mu w).Lit up dn :=
  ⟨_, _, found_lit he hex (air_posed hex1 hex2 h) hB⟩

/-- It fails exactly for an atmosphere that keeps light without any source. -/
theorem C51_singular (he : IsExp ex) (hex : ExactAll inv?) (hex1 : Source.Exact inv1?) (hex2 : Source.Exact inv2?)
    (h : A.Fine first ns mu w o a inv1? inv2?) :
    solveBvp ex (A.inp first ns mu w o a) inv? = none ↔
      ∃ up dn, Stack.Lit { A.stack first ns mu w with qp := 0, qm := 0, top := 0, bot := 0 } up dn ∧
        ∃ i, i < A.L ∧ ∃ s j, up i s j ≠ 0 ∨ dn i s j ≠ 0 :=
  solve_dark he hex (air_posed hex1 hex2 h)

end air

/-! ### Such an atmosphere -/

noncomputable def demoMu : Source.V 1 := fun _ => 1 / 2

def demoW : Source.V 1 := fun _ => 1

/-- Two layers that scatter three quarters of the light, under the sun, warm, over
a ground that reflects some. -/
noncomputable def demoAir (solar thermal surface : Bool) (r : ℝ) : Air 1 ℝ where
  L := 2
  c := fun _ => ⟨3 / 4, 1, 1, 1, 1, fun _ => 1, 1⟩
  T := fun _ => 1
  as0 := fun _ => 2
  btran := fun i => if i = 0 then 1 else Real.exp (-2)
  F0 := 1
  P0mm := fun _ _ => 1
  P0pm := fun _ _ => 1
  planck := fun i => 1 + i
  above := fun _ => 1
  ground := fun _ => 2
  Rs := fun _ _ => r
  surface := surface
  solar := solar
  thermal := thermal

theorem demo_fine (solar thermal surface : Bool) (r : ℝ) : ∃ o a,
    (demoAir solar thermal surface r).Fine true 1 demoMu demoW o a inverse inverse := by
  have hs : ∃ o, sun inverse 1 demoMu 1 (sunOf true 1 demoMu demoW (3 / 4) 2 1 1 (fun _ => 1) fun _ => 1) = some o := by
    rcases h : sun inverse 1 demoMu 1 (sunOf true 1 demoMu demoW (3 / 4) 2 1 1 (fun _ => 1) fun _ => 1) with _ | o
    · exfalso
      obtain ⟨v, hv, e⟩ := (C49_sun_none inverse_exact _ _ _ _).1 h
      have hg : (sunOf true 1 demoMu demoW (3 / 4) 2 1 1 (fun _ => 1) fun _ => 1).gamma = fun _ _ => 4 * (1 - 3 / 4) :=
        gamma_one _ _ _ _
      rw [hg] at e
      have e := congrFun e 0
      have h2 : (sunOf true 1 demoMu demoW (3 / 4) 2 1 1 (fun _ : Fin 1 => (1:ℝ)) fun _ => 1).as0 = 2 := rfl
      rw [h2] at e
      simp only [Matrix.mulVec, dotProduct, Fin.sum_univ_one, Pi.smul_apply, smul_eq_mul] at e
      apply hv
      funext i
      fin_cases i
      change v 0 = 0
      linarith
    · exact ⟨o, rfl⟩
  have hr : (localRT true demoMu demoW (3 / 4) 1 1).1 = num (-3 / 4) := by
    refine num_ext ?_
    simp [localRT, localMat, demoMu, demoW]
    ring
  have ht : (localRT true demoMu demoW (3 / 4) 1 1).2 = num (-5 / 4) := by
    refine num_ext ?_
    simp [localRT, localMat, demoMu, demoW]
    ring
  have hh : ∀ b0 b1, ∃ a, heat inverse demoMu (heatOf true demoMu demoW b0 b1 (3 / 4) 1 1 1 1 1) = some a := by
    intro b0 b1
    have hd : (heatMat demoMu (num (-3 / 4)) (num (-5 / 4)) (num (-3 / 4)) (num (-5 / 4))).det ≠ 0 := fun h => by
      obtain ⟨v, hv, e⟩ := Matrix.exists_mulVec_eq_zero_iff.2 h
      have e0 := congrFun e (.inl 0)
      have e1 := congrFun e (.inr 0)
      change (∑ k, heatMat demoMu (num (-3 / 4)) (num (-5 / 4)) (num (-3 / 4)) (num (-5 / 4)) (.inl 0) k * v k) = 0 at e0
      change (∑ k, heatMat demoMu (num (-3 / 4)) (num (-5 / 4)) (num (-3 / 4)) (num (-5 / 4)) (.inr 0) k * v k) = 0 at e1
      rw [Fintype.sum_sum_type] at e0 e1
      change (∑ k : Fin 1, -num (-5 / 4) 0 k * demoMu 0 * v (.inl k)) +
        (∑ k : Fin 1, num (-3 / 4) 0 k * demoMu 0 * v (.inr k)) = 0 at e0
      change (∑ k : Fin 1, -num (-3 / 4) 0 k * -demoMu 0 * v (.inl k)) +
        (∑ k : Fin 1, num (-5 / 4) 0 k * -demoMu 0 * v (.inr k)) = 0 at e1
      simp [num, demoMu] at e0 e1
      apply hv
      funext k
      rcases k with k | k <;> fin_cases k
      · change v (.inl 0) = 0; linarith
      · change v (.inr 0) = 0; linarith
    unfold heat heatOf
    dsimp only
    rw [hr, ht, (inverse_exact _ _).2 (Matrix.mul_nonsing_inv _ (isUnit_iff_ne_zero.2 hd))]
    exact ⟨_, rfl⟩
  obtain ⟨o, ho⟩ := hs
  choose a ha using fun i : Nat => hh (1 + i) (1 + (i + 1 : Nat))
  exact ⟨fun _ => o, a, one_le_two, one_pos, fun _ => by norm_num [demoMu], fun i _ => demo_mirrored _,
    fun i _ => demo_solved, fun i _ => two_ne_zero, fun _ i _ => ho, fun _ => ⟨rfl, fun i _ => ha i⟩⟩

theorem demo_modes (solar thermal surface : Bool) (r : ℝ) (o a) (i : Nat) :
    (((demoAir solar thermal surface r).inp true 1 demoMu demoW o a).m i).nu = (fun _ => 1) ∧
    (((demoAir solar thermal surface r).inp true 1 demoMu demoW o a).m i).Xp = num (-1 / 2) ∧
    (((demoAir solar thermal surface r).inp true 1 demoMu demoW o a).m i).Xm = num (3 / 2) := by
  have e : ((demoAir solar thermal surface r).inp true 1 demoMu demoW o a).m i =
      modes ((num (-2)).map fun z : ℝ => (z : ℝ)) (fun _ => 1) 1 := by
    rw [← demo_tpr (3 / 4)]; rfl
  rw [e]
  refine ⟨rfl, num_ext ?_, num_ext ?_⟩ <;> simp [modes, num] <;> norm_num

/-- The solver finds the light in it. -/
theorem demo_solve (solar thermal surface : Bool) (r : ℝ) (h0 : 0 ≤ r) (h1 : r ≤ 1) (o a) :
    ∃ B, solveBvp Real.exp ((demoAir solar thermal surface r).inp true 1 demoMu demoW o a) inverseK = some B := by
  set z := (demoAir solar thermal surface r).inp true 1 demoMu demoW o a with hz
  have hL : z.L = 2 := rfl
  rw [← Option.ne_none_iff_exists', ne_eq, solve_none (inv? := inverseK) (fun N => inverseK_exact) (by rw [hL]; norm_num)]
  intro hd
  obtain ⟨v, hv, hv0⟩ := Matrix.exists_mulVec_eq_zero_iff.2 hd
  have hN : nComp z = 4 := rfl
  set B : Nat → ℝ := fun k => if h : k < nComp z then v ⟨k, h⟩ else 0 with hB
  have hBv : (fun c : Fin (nComp z) => B c.val) = v := by
    funext c; rw [hB]; simp
  obtain ⟨e0, eu, ed, eb⟩ := (rows_iff Real.exp z (by rw [hL]; norm_num) B 0).1 (by rw [hBv]; exact hv0)
  have m := demo_modes solar thermal surface r o a
  have mp : ∀ i, (z.m i).Xp 0 0 = -1 / 2 := fun i => by rw [hz, (m i).2.1]; simp [num]
  have mm : ∀ i, (z.m i).Xm 0 0 = 3 / 2 := fun i => by rw [hz, (m i).2.2]; simp [num]
  set l := Real.exp (-1) with hl
  have hlam : ∀ i k, lam Real.exp z i k = l := fun i k => by
    unfold lam
    rw [(m i).1]
    change Real.exp (-1 * 1) = l
    rw [mul_one]
  have lpos : 0 < l := Real.exp_pos _
  have llt : l < 1 := by rw [hl, ← Real.exp_zero]; exact Real.exp_lt_exp.2 (by norm_num)
  have f0 : ∀ i, F0 Real.exp z B i 0 = B (2 * i) * (-1 / 2) + B (2 * i + 1) * (3 / 2) * l := fun i => by
    simp only [F0, Fin.sum_univ_one, mp, mm, hlam]
    simp [al, be, mul_comm]; try ring
  have g0 : ∀ i, G0 Real.exp z B i 0 = B (2 * i) * -(3 / 2) + B (2 * i + 1) * (1 / 2) * l := fun i => by
    simp only [G0, Fin.sum_univ_one, mp, mm, hlam]
    simp [al, be, mul_comm]; try ring
  have f1 : ∀ i, F1 Real.exp z B i 0 = B (2 * i) * (-1 / 2) * l + B (2 * i + 1) * (3 / 2) := fun i => by
    simp only [F1, Fin.sum_univ_one, mp, mm, hlam]
    simp [al, be, mul_comm]; try ring
  have g1 : ∀ i, G1 Real.exp z B i 0 = B (2 * i) * -(3 / 2) * l + B (2 * i + 1) * (1 / 2) := fun i => by
    simp only [G1, Fin.sum_univ_one, mp, mm, hlam]
    simp [al, be, mul_comm]; try ring
  have q0 := e0 0
  have q1 := eu 0 (by rw [hL]; norm_num) 0
  have q2 := ed 0 (by rw [hL]; norm_num) 0
  have q3 := eb 0
  rw [g0] at q0
  rw [f1, f0] at q1
  rw [g1, g0] at q2
  have hrefl : refl z (G1 Real.exp z B (z.L - 1)) 0 = if surface then r * G1 Real.exp z B (z.L - 1) 0 else 0 := by
    unfold refl
    rw [Fin.sum_univ_one]; rfl
  rw [hrefl, f1, g1] at q3
  simp only [hL, Pi.zero_apply] at q0 q1 q2 q3
  norm_num at q0 q1 q2 q3
  have a1 : B 2 = l * B 0 := by linarith
  have a2 : B 1 = l * B 3 := by linarith
  have a3 : B 0 = l ^ 2 * B 3 / 3 := by rw [a2] at q0; linarith
  have a4 : B 3 = 0 := by
    rw [a1, a3] at q3
    have l4 : l ^ 4 ≤ 1 := pow_le_one₀ lpos.le llt.le
    have l40 : 0 ≤ l ^ 4 := by positivity
    cases surface with
    | false =>
      simp only [Bool.false_eq_true, if_false, sub_zero] at q3
      have : (3 / 2 - l ^ 4 / 6) * B 3 = 0 := by linear_combination q3
      exact (mul_eq_zero.1 this).resolve_left (by nlinarith)
    | true =>
      simp only [if_true] at q3
      have : (3 / 2 - r / 2 - l ^ 4 / 6 + r * l ^ 4 / 2) * B 3 = 0 := by linear_combination q3
      exact (mul_eq_zero.1 this).resolve_left (by nlinarith [mul_nonneg h0 l40])
  have a5 : B 0 = 0 := by rw [a3, a4]; simp
  have a6 : B 1 = 0 := by rw [a2, a4]; simp
  have a7 : B 2 = 0 := by rw [a1, a5]; simp
  apply hv
  rw [← hBv]
  funext c
  have hc : c.val < 4 := c.isLt
  obtain ⟨k, hk⟩ := c
  change B k = 0
  change k < 4 at hc
  interval_cases k <;> assumption

/-- Sun, emission and a ground that reflects half. -/
example : ∃ (o : Nat → SunOut 1) (a : Nat → (Fin 1 ⊕ Fin 1 → ℝ) × (Fin 1 ⊕ Fin 1 → ℝ)) (B : Nat → ℝ)
    (up dn : Nat → ℝ → Source.V 1), ((demoAir true true true (1 / 2)).stack true 1 demoMu demoW).Lit up dn ∧
    ∀ lev, lev ≤ 2 → output 1 (level Real.exp ((demoAir true true true (1 / 2)).inp true 1 demoMu demoW o a) B lev) =
      (((demoAir true true true (1 / 2)).stack true 1 demoMu demoW).on up lev,
       ((demoAir true true true (1 / 2)).stack true 1 demoMu demoW).on dn lev) := by
  obtain ⟨o, a, hf⟩ := demo_fine true true true (1 / 2)
  obtain ⟨B, hB⟩ := demo_solve true true true (1 / 2) (by norm_num) (by norm_num) o a
  obtain ⟨up, dn, hl⟩ := C51_exists exp_real (fun N => inverseK_exact) inverse_exact inverse_exact hf hB
  exact ⟨o, a, B, up, dn, hl, fun lev hlev => C51_levels exp_real (fun N => inverseK_exact) inverse_exact inverse_exact
    hf hB hl lev hlev⟩

/-- Under the sun, without a surface, at all depths. -/
example : ∃ (o : Nat → SunOut 1) (a : Nat → (Fin 1 ⊕ Fin 1 → ℝ) × (Fin 1 ⊕ Fin 1 → ℝ)) (B : Nat → ℝ)
    (up dn : Nat → ℝ → Source.V 1), ((demoAir true false false 0).stack true 1 demoMu demoW).Lit up dn ∧
    ∀ t, output 1 (atTau Real.exp ((demoAir true false false 0).inp true 1 demoMu demoW o a) 2 B 1 t) =
      (up 1 t, dn 1 t) := by
  obtain ⟨o, a, hf⟩ := demo_fine true false false 0
  obtain ⟨B, hB⟩ := demo_solve true false false 0 le_rfl zero_le_one o a
  obtain ⟨up, dn, hl⟩ := C51_exists exp_real (fun N => inverseK_exact) inverse_exact inverse_exact hf hB
  exact ⟨o, a, B, up, dn, hl, fun t => C51_taus_partial exp_real (fun N => inverseK_exact) inverse_exact inverse_exact
    hf rfl hB hl 1 one_lt_two t⟩

/-- No light stays in the dark. -/
example (up dn : Nat → ℝ → Source.V 1) (h : Stack.Lit { (demoAir true false false 0).stack true 1 demoMu demoW with
    qp := 0, qm := 0, top := 0, bot := 0 } up dn) (s : ℝ) : up 0 s 0 = 0 := by
  obtain ⟨o, a, hf⟩ := demo_fine true false false 0
  obtain ⟨B, hB⟩ := demo_solve true false false 0 le_rfl zero_le_one o a
  by_contra hne
  have := (C51_singular (inv? := inverseK) exp_real (fun N => inverseK_exact) inverse_exact inverse_exact hf).2
    ⟨up, dn, h, 0, zero_lt_two, s, 0, Or.inl hne⟩
  rw [hB] at this
  cases this

/-! ## Derivatives -/

/-- The linearised unknowns are the derivatives of the unknowns, as far as there is
a surface or the light from the ground does not vary.  Full statement: without that
provision; it is false, see `C51_violated_ground`. -/
theorem C51_unknowns_deriv_partial (he : IsExp ex) (hex : ExactAll inv?) {z : ℝ → Inp n K} {z' : Inp n K}
    {fl : Flags} (hz : InpDeriv z (masked (z x).L fl z') x) (hL : 1 ≤ (z x).L)
    (hI : (z x).surface = true ∨ z'.Inp = 0) {B : ℝ → Nat → K} {B' : Nat → K}
    (h : ∀ᶠ y in 𝓝 x, solveBvp ex (z y) inv? = some (B y))
    (hl : solveBvpL ex (z x) z' fl inv? (B x) = some B') (r : Nat) (hr : r < nComp (z x)) :
    HasDerivAt (fun y => B y r) (B' r) x :=
  found_deriv he hex hz hL hI h hl r hr

/-- With them the linearised radiances at the levels are derivatives. -/
theorem C51_levels_deriv_partial (he : IsExp ex) (hex : ExactAll inv?) {z : ℝ → Inp n K} {z' : Inp n K}
    {fl : Flags} (hz : InpDeriv z (masked (z x).L fl z') x) (hL : 1 ≤ (z x).L)
    (hI : (z x).surface = true ∨ z'.Inp = 0) {B : ℝ → Nat → K} {B' : Nat → K}
    (h : ∀ᶠ y in 𝓝 x, solveBvp ex (z y) inv? = some (B y))
    (hl : solveBvpL ex (z x) z' fl inv? (B x) = some B') (lev : Nat) (hlev : lev ≤ (z x).L) (j : Fin n) :
    HasDerivAt (fun y => (level ex (z y) (B y) lev).1 j) ((levelL ex (z x) z' fl (B x) B' lev).1 j) x ∧
    HasDerivAt (fun y => (level ex (z y) (B y) lev).2 j) ((levelL ex (z x) z' fl (B x) B' lev).2 j) x :=
  level_deriv he hz hL (found_deriv he hex hz hL hI h hl) lev hlev j

/-- And those at depths that keep their share of the layer. -/
theorem C51_taus_deriv_partial (he : IsExp ex) (hex : ExactAll inv?) {z : ℝ → Inp n K} {z' : Inp n K}
    {fl : Flags} (hz : InpDeriv z (masked (z x).L fl z') x) (hL : 1 ≤ (z x).L)
    (hI : (z x).surface = true ∨ z'.Inp = 0) {B : ℝ → Nat → K} {B' : Nat → K}
    (h : ∀ᶠ y in 𝓝 x, solveBvp ex (z y) inv? = some (B y))
    (hl : solveBvpL ex (z x) z' fl inv? (B x) = some B') {i : Nat} (hi : i < (z x).L) {as0 t : ℝ → ℝ} {as0' : ℝ}
    (ht : HasDerivAt t (t x * z'.ltau i / (z x).ltau i) x)
    (hs : HasDerivAt as0 (if fl.beam i then as0' else 0) x) (hlay : fl.lay i = false → z'.ltau i = 0)
    (hbeam : (z x).solar = true → fl.lay i = true → fl.beam i = true) (j : Fin n) :
    HasDerivAt (fun y => (atTau ex (z y) (as0 y) (B y) i (t y)).1 j)
      ((atTauL ex (z x) z' fl (as0 x) as0' (B x) B' i (t x)).1 j) x ∧
    HasDerivAt (fun y => (atTau ex (z y) (as0 y) (B y) i (t y)).2 j)
      ((atTauL ex (z x) z' fl (as0 x) as0' (B x) B' i (t x)).2 j) x :=
  tau_deriv he hz (found_deriv he hex hz hL hI h hl) hi ht hs hlay hbeam j

/-- If the unknowns are found at a point they are found near it, and so are the
linearised ones. -/
theorem C51_near (he : IsExp ex) (hex : ExactAll inv?) {z : ℝ → Inp n K} {d : Inp n K} (hz : InpDeriv z d x)
    (hL : 1 ≤ (z x).L) {B : Nat → K} (h : solveBvp ex (z x) inv? = some B) (z' : Inp n K) (fl : Flags) :
    (∀ᶠ y in 𝓝 x, ∃ B, solveBvp ex (z y) inv? = some B) ∧ ∃ B', solveBvpL ex (z x) z' fl inv? B = some B' := by
  refine ⟨solve_near he hex hz hL h, ?_⟩
  unfold solveBvp at h
  rw [if_pos (system_ok ex (z x) hL)] at h
  unfold solveBvpL
  cases hi : inv? ((system ex (z x)).read (nDiags n) (nComp (z x))) with
  | none => simp [hi] at h
  | some X => simp only [hi]; exact ⟨_, rfl⟩

/-- Nothing but the ground. -/
def groundL (z : Inp n K) (R : M n) (q : Source.V n) : Inp n K :=
  { z with Rs := R, Inp := q, I1m := 0 }

/-- The atmosphere above another ground. -/
def withGround (z : Inp n K) (R : M n) (q : Source.V n) : Inp n K := { z with Rs := R, Inp := q }

/-- Only the ground may have a derivative. -/
def groundFlags (L : Nat) (b : Bool) : Flags := ⟨fun i => decide (i = L) && b, fun _ => false, fun _ => false⟩

theorem ground_deriv (z : Inp n K) (R : M n) (q : Source.V n) (b : Bool) (hb : b = false → R = 0) (x : ℝ) :
    InpDeriv (fun y => withGround z (z.Rs + (y - x) • R) (z.Inp + (y - x) • q))
      (masked z.L (groundFlags z.L b) (groundL z R q)) x where
  L := fun _ => rfl
  surface := fun _ => rfl
  solar := fun _ => rfl
  thermal := fun _ => rfl
  m := fun i hi => by
    have e : (masked z.L (groundFlags z.L b) (groundL z R q)).m i = ⟨0, 0, 0⟩ := by
      have : i ≠ z.L := Nat.ne_of_lt hi
      simp [masked, groundFlags, this]
    rw [e]
    exact ⟨fun j => hasDerivAt_const x ((z.m i).nu j), fun j k => hasDerivAt_const x ((z.m i).Xp j k),
      fun j k => hasDerivAt_const x ((z.m i).Xm j k)⟩
  ltau := fun i hi => by
    have : i ≠ z.L := Nat.ne_of_lt hi
    have e : (masked z.L (groundFlags z.L b) (groundL z R q)).ltau i = 0 := by simp [masked, groundFlags, this]
    rw [e]
    exact hasDerivAt_const x (z.ltau i)
  atran := fun i _ => hasDerivAt_const x (z.atran i)
  Fsp := fun i _ j => hasDerivAt_const x (z.Fsp i j)
  Fsm := fun i _ j => hasDerivAt_const x (z.Fsm i j)
  Fs1p := fun i _ j => hasDerivAt_const x (z.Fs1p i j)
  Fs1m := fun i _ j => hasDerivAt_const x (z.Fs1m i j)
  Ft0p := fun i _ j => hasDerivAt_const x (z.Ft0p i j)
  Ft0m := fun i _ j => hasDerivAt_const x (z.Ft0m i j)
  Ft1p := fun i _ j => hasDerivAt_const x (z.Ft1p i j)
  Ft1m := fun i _ j => hasDerivAt_const x (z.Ft1m i j)
  Rs := fun i j => by
    have e : (masked z.L (groundFlags z.L b) (groundL z R q)).Rs i j = R i j := by
      cases b with
      | true => simp [masked, groundFlags, groundL]
      | false => simp [masked, groundFlags, hb rfl]
    rw [e]
    change HasDerivAt (fun y => z.Rs i j + (y - x) * R i j) (R i j) x
    simpa using ((((hasDerivAt_id x).sub_const x).mul_const (R i j)).const_add (z.Rs i j))
  I1m := fun i => hasDerivAt_const x (z.I1m i)
  Inp := fun i => by
    change HasDerivAt (fun y => z.Inp i + (y - x) * q i) (q i) x
    simpa using ((((hasDerivAt_id x).sub_const x).mul_const (q i)).const_add (z.Inp i))

/-- The ground of the atmosphere above reflects more and gives off more light. -/
example : ∃ (o : Nat → SunOut 1) (a : Nat → (Fin 1 ⊕ Fin 1 → ℝ) × (Fin 1 ⊕ Fin 1 → ℝ)) (B : ℝ → Nat → ℝ)
    (B' : Nat → ℝ),
    let z := (demoAir true true true (1 / 2)).inp true 1 demoMu demoW o a
    ∀ lev, lev ≤ 2 → HasDerivAt (fun y => (level Real.exp
        (withGround z (z.Rs + (y - 0) • (1 : M 1)) (z.Inp + (y - 0) • (fun _ => 3 : Source.V 1))) (B y) lev).1 0)
      ((levelL Real.exp z (groundL z 1 fun _ => 3) (groundFlags 2 true) (B 0) B' lev).1 0) 0 := by
  obtain ⟨o, a, hf⟩ := demo_fine true true true (1 / 2)
  obtain ⟨B0, hB⟩ := demo_solve true true true (1 / 2) (by norm_num) (by norm_num) o a
  set z := (demoAir true true true (1 / 2)).inp true 1 demoMu demoW o a with hz
  set zy : ℝ → Inp 1 ℝ := fun y =>
    withGround z (z.Rs + (y - 0) • (1 : M 1)) (z.Inp + (y - 0) • (fun _ => 3 : Source.V 1)) with hzy
  have e0 : zy 0 = z := by rw [hzy]; simp [withGround]
  have hd : InpDeriv zy (masked (zy 0).L (groundFlags 2 true) (groundL z 1 fun _ => 3)) 0 :=
    ground_deriv z 1 (fun _ => 3) true (by simp) 0
  have hL : 1 ≤ (zy 0).L := one_le_two
  obtain ⟨hn, B', hB'⟩ := C51_near exp_real (inv? := inverseK) (fun N => inverseK_exact) hd hL
    (by rw [e0]; exact hB) (groundL z 1 fun _ => 3) (groundFlags 2 true)
  obtain ⟨B, hBy⟩ := hn.choice
  have hB0 : B 0 = B0 := by
    have := hBy.self_of_nhds
    rw [e0, hB] at this
    exact (Option.some.inj this).symm
  refine ⟨o, a, B, B', fun lev hlev => ?_⟩
  have := (C51_levels_deriv_partial exp_real (inv? := inverseK) (fun N => inverseK_exact) hd hL (Or.inl rfl) hBy
    (by rw [hB0]; exact hB') lev hlev 0).1
  rw [e0] at this
  exact this

/-! ## What is lost -/

/-- Without a surface the derivative of the light from the ground is lost: whatever
the atmosphere, the radiance that leaves the ground varies as `q`, and its linearised
value is zero. -/
theorem C51_violated_ground (he : IsExp ex) (hex : ExactAll inv?) (z : Inp n K) (hL : 1 ≤ z.L)
    (hs : z.surface = false) {B0 B' : Nat → K} (h : solveBvp ex z inv? = some B0) (q : Source.V n)
    (hl : solveBvpL ex z (groundL z 0 q) (groundFlags z.L false) inv? B0 = some B') (j : Fin n) :
    (∀ y : ℝ, ∃ B, solveBvp ex (withGround z z.Rs (z.Inp + y • q)) inv? = some B ∧
      (level ex (withGround z z.Rs (z.Inp + y • q)) B z.L).1 j = z.Inp j + y * q j) ∧
    (levelL ex z (groundL z 0 q) (groundFlags z.L false) B0 B' z.L).1 j = 0 := by
  constructor
  · intro y
    generalize hzy : withGround z z.Rs (z.Inp + y • q) = zy
    have hLy : zy.L = z.L := by rw [← hzy]; rfl
    have hsys : system ex zy = system ex z := by rw [← hzy]; rfl
    have : ∃ B, solveBvp ex zy inv? = some B := by
      rw [← Option.ne_none_iff_exists', ne_eq, solve_none hex (hLy ▸ hL), hsys]
      intro hd
      unfold nComp at hd
      rw [hLy] at hd
      rw [(solve_none hex hL).2 hd] at h
      cases h
    obtain ⟨B, hB⟩ := this
    refine ⟨B, hB, ?_⟩
    have hm := (solve_meets hex (hLy ▸ hL) hB).1.bot j
    have hr : ∀ g : Fin n → K, refl zy g j = 0 := fun g => by
      unfold refl
      exact if_neg (by rw [show zy.surface = z.surface by rw [← hzy]; rfl, hs]; simp)
    rw [hr, add_zero] at hm
    rw [level_eq, if_neg (by rw [hLy]; simp)]
    have := congrArg RCLike.re hm
    rw [map_add, RCLike.ofReal_re, RCLike.ofReal_re] at this
    refine this.trans ?_
    rw [← hzy]; rfl
  · have hfl : (groundFlags z.L false).lay = fun _ => false := by funext i; simp [groundFlags]
    have hR : ∀ r, r < nComp z → rhsL ex z (groundL z 0 q) (groundFlags z.L false) B0 r = 0 := by
      intro r hr
      obtain ⟨I, hI, k, hrk⟩ := split_index (n := n) (L := z.L) rfl ⟨r, hr⟩
      change r = _ at hrk
      have rows := rhsL_row ex z (groundL z 0 q) (groundFlags z.L false) hL B0 k
      have hon : ∀ t : K, on false t = 0 := fun _ => rfl
      rw [hrk]
      rcases kinds hI with rfl | ⟨i, hi, rfl⟩ | ⟨i, hi, rfl⟩ | rfl
      · rw [Nat.zero_mul, Nat.zero_add, rows.1]
        unfold topL
        simp [hfl, groundFlags, on, groundL]
      · rw [rows.2.1 i hi]
        unfold upL
        simp [hfl, groundFlags, on]
      · rw [rows.2.2.1 i hi]
        unfold dnL
        simp [hfl, groundFlags, on]
      · rw [rows.2.2.2]
        unfold botL
        simp [hs, hfl, groundFlags, on]
    have hB' : ∀ r, r < nComp z → B' r = 0 := by
      unfold solveBvpL at hl
      cases hi : inv? ((system ex z).read (nDiags n) (nComp z)) with
      | none => simp [hi] at hl
      | some X =>
        simp only [hi] at hl
        injection hl with hl
        intro r hr
        rw [← hl]
        unfold solved
        rw [dif_pos hr]
        have : (fun c : Fin (nComp z) => rhsL ex z (groundL z 0 q) (groundFlags z.L false) B0 c.val) = 0 := by
          funext c; exact hR c.val c.isLt
        rw [this, mulVec_zero]; rfl
    unfold levelL
    rw [if_neg (by simp)]
    have hlt : (z.L - 1) * (n * 2) + n * 2 ≤ nComp z := by
      unfold nComp
      calc (z.L - 1) * (n * 2) + n * 2 = (z.L - 1 + 1) * (n * 2) := by ring
        _ = 2 * n * z.L := by rw [Nat.sub_add_cancel hL]; ring
        _ ≤ _ := le_rfl
    have b1 : ∀ k : Fin n, B' ((z.L - 1) * (n * 2) + k) = 0 := fun k => hB' _ (by have := k.isLt; omega)
    have b2 : ∀ k : Fin n, B' ((z.L - 1) * (n * 2) + k + n) = 0 := fun k => hB' _ (by have := k.isLt; omega)
    simp [b1, b2, hfl, on, groundFlags]

/-- Such an atmosphere. -/
example : ∃ (z : Inp 1 ℝ) (B0 B' : Nat → ℝ), z.surface = false ∧
    solveBvp Real.exp z inverseK = some B0 ∧
    solveBvpL Real.exp z (groundL z 0 fun _ => 1) (groundFlags z.L false) inverseK B0 = some B' ∧
    (levelL Real.exp z (groundL z 0 fun _ => 1) (groundFlags z.L false) B0 B' z.L).1 0 = 0 := by
  obtain ⟨o, a, hf⟩ := demo_fine true false false 0
  obtain ⟨B0, hB⟩ := demo_solve true false false 0 le_rfl zero_le_one o a
  set z := (demoAir true false false 0).inp true 1 demoMu demoW o a with hz
  have hd := ground_deriv z 0 (fun _ => 1) false (fun _ => rfl) 0
  obtain ⟨-, B', hB'⟩ := C51_near exp_real (inv? := inverseK) (fun N => inverseK_exact) hd one_le_two
    (by simpa [withGround] using hB) (groundL z 0 fun _ => 1) (groundFlags z.L false)
  have hB' : solveBvpL Real.exp z (groundL z 0 fun _ => 1) (groundFlags z.L false) inverseK B0 = some B' := by
    simpa [withGround] using hB'
  exact ⟨z, B0, B', rfl, hB, hB', (C51_violated_ground exp_real (fun N => inverseK_exact) z one_le_two rfl hB _ hB' 0).2⟩

/-- The thermal emission is lost at the depths: at the top of a layer the value for
the depth and that for the level differ by the particular solution there. -/
theorem C51_violated_taus_thermal (he : IsExp ex) (z : Inp n K) (ht : z.thermal = true) (as0 : ℝ) (B : Nat → K)
    (i : Nat) (hi : i < z.L) (j : Fin n) :
    (level ex z B i).1 j = (atTau ex z as0 B i 0).1 j + z.Ft0p i j ∧
    (level ex z B i).2 j = (atTau ex z as0 B i 0).2 j + z.Ft0m i j := by
  unfold level atTau
  rw [if_pos (Nat.ne_of_lt hi)]
  dsimp only
  simp only [ht, if_true, sub_zero, RCLike.ofReal_zero, mul_zero, he.zero, mul_one, neg_zero, zero_mul,
    Real.exp_zero]
  constructor <;> rfl

/-- Without scattering and beam a warm layer has such a particular solution. -/
example : ∃ (o : Nat → SunOut 1) (a : Nat → (Fin 1 ⊕ Fin 1 → ℝ) × (Fin 1 ⊕ Fin 1 → ℝ)) (B : Nat → ℝ),
    let z := (demoAir false true false 0).inp true 1 demoMu demoW o a
    solveBvp Real.exp z inverseK = some B ∧
      (level Real.exp z B 0).1 0 = (atTau Real.exp z 2 B 0 0).1 0 + z.Ft0p 0 0 := by
  obtain ⟨o, a, hf⟩ := demo_fine false true false 0
  obtain ⟨B, hB⟩ := demo_solve false true false 0 le_rfl zero_le_one o a
  exact ⟨o, a, B, hB, (C51_violated_taus_thermal exp_real _ rfl 2 B 0 zero_lt_two 0).1⟩

end Xrtm.Bvp
