import Verif.Proof.MemBvpSame
import Verif.Proof.MemBvpD

/-!
# The matrix exponential solver

C57.
-/

namespace Xrtm.MemBvp
open Matrix Filter Topology Xrtm.Spec Xrtm.Transfer Xrtm.Source Xrtm.Eig Xrtm.Bvp

variable {n : Nat} {K : Type} [RCLike K] {ex : K → K}
  {inv? : {N : Nat} → Matrix (Fin N) (Fin N) K → Option (Matrix (Fin N) (Fin N) K)}
  {inv1? : M n → Option (M n)}
  {inv2? : Matrix (Fin n ⊕ Fin n) (Fin n ⊕ Fin n) ℝ → Option (Matrix (Fin n ⊕ Fin n) (Fin n ⊕ Fin n) ℝ)}

/-- The blocks of the system all fit into the band array. -/
theorem C57_in_bounds (ex : K → K) (z : Inp n K) (v : Inv n K) : (system ex z v).ok = true := system_ok ex z v

/-- The inputs of `SOLVE_BVP` for an atmosphere with the slant depths `btau`. -/
noncomputable def _root_.Xrtm.Bvp.Air.mem (A : Air n K) (first : Bool) (ns : Nat) (mu w : Source.V n) (btau : Nat → ℝ) :
    Inp n K where
  L := A.L
  ns := ns
  m := fun i => (A.c i).modes first ns mu w
  F0 := A.F0
  qx := mu
  omega := fun i => (A.c i).om
  ltau := A.T
  btau := btau
  btran := A.btran
  P0mm := A.P0mm
  P0pm := A.P0pm
  Rs := A.Rs
  I1m := turn ns A.above
  Inp := A.ground
  surface := A.surface

/-- The sun is the only source in the atmosphere, and its beam decays with `btau`. -/
structure _root_.Xrtm.Bvp.Air.Sunny (A : Air n K) (btau : Nat → ℝ) : Prop where
  solar : A.solar = true
  thermal : A.thermal = false
  thick : ∀ i, i < A.L → A.T i ≠ 0
  btran : ∀ i, i ≤ A.L → A.btran i = Real.exp (-btau i)
  step : ∀ i, i < A.L → btau (i + 1) - btau i = A.as0 i * A.T i

section air
variable {A : Air n K} {first : Bool} {ns : Nat} {mu w : Source.V n} {o : Nat → SunOut n}
  {a : Nat → (Fin n ⊕ Fin n → ℝ) × (Fin n ⊕ Fin n → ℝ)} {btau : Nat → ℝ} {B0 B : Nat → K}

theorem mem_posed (h : A.Fine first ns mu w o a inv1? inv2?) (hs : A.Sunny btau) :
    Posed first ns mu w A.c A.as0 (A.mem first ns mu w btau) { A.stack first ns mu w with top := 0 } where
  one := h.one
  L := rfl
  hns := h.stokes
  hmu := h.cos
  med := fun i _ => rfl
  mirrored := h.same
  solved := h.eig
  modes := fun i _ => rfl
  T := fun i _ => rfl
  thick := hs.thick
  ns_eq := rfl
  qx := rfl
  omega := fun i _ => rfl
  btran := hs.btran
  step := hs.step
  qp := fun i _ τ j => by simp [Air.stack, Air.mem, hs.solar, hs.thermal]
  qm := fun i _ τ j => by simp [Air.stack, Air.mem, hs.solar, hs.thermal]
  top := rfl
  bot := rfl
  refl := fun g => by
    unfold Air.stack Air.mem
    dsimp only
    cases A.surface with
    | true =>
      funext i
      simp only [if_true, mulVec, dotProduct, turn_apply, mul_assoc, of_apply]
    | false => simp

theorem mem_alike (h : A.Fine first ns mu w o a inv1? inv2?) :
    Alike (A.inp first ns mu w o a) (A.mem first ns mu w btau) :=
  ⟨h.one, rfl, fun _ _ => rfl, fun _ _ => rfl, rfl, rfl⟩

theorem stack_top (hz : A.above = 0) : { A.stack first ns mu w with top := 0 } = A.stack first ns mu w := by
  unfold Air.stack; rw [hz]

/-- Nothing is divided by zero and the matrices have inverses where the particular
solution for the beam exists. -/
theorem C57_safe (hex : ExactAll inv?) (hex1 : Source.Exact inv1?) (h : A.Fine first ns mu w o a inv1? inv2?)
    (hs : A.Sunny btau) : Safe (A.mem first ns mu w btau) inv? := by
  refine safe_of hex (mem_posed h hs) fun i hi' g hg e => ?_
  have hn := (C49_sun_none hex1 ns mu A.F0 (sunOf first ns mu w (A.c i).om (A.as0 i) (A.c i).Ppp (A.c i).Pmp
    (A.P0mm i) (A.P0pm i))).2 ⟨g, hg, e⟩
  rw [h.sun hs.solar i hi'] at hn
  cases hn

/-- The unknowns do not depend on what was in the memory. -/
theorem C57_memory (hex : ExactAll inv?) {z : Inp n K} {B0' B' : Nat → K} (h : solve ex z inv? B0 = some B)
    (h' : solve ex z inv? B0' = some B') (r : Nat) (hr : r < nComp z) : B r = B' r :=
  ((solve_meets hex h').2 B (solve_meets hex h).1 r hr)

/-- All light in the atmosphere is, at the levels, what the solver gives, as far as
no light comes from above.  Full statement: with such light; it is false, see
`C57_violated_sky`. -/
theorem C57_levels_partial (he : IsExp ex) (hex : ExactAll inv?) (h : A.Fine first ns mu w o a inv1? inv2?)
    (hs : A.Sunny btau) (hz : A.above = 0) (hB : solve ex (A.mem first ns mu w btau) inv? B0 = some B)
    {up dn : Nat → ℝ → Source.V n} (hl : (A.stack first ns mu w).Lit up dn) (lev : Nat) (hlev : lev ≤ A.L) :
    output ns (level B lev) = ((A.stack first ns mu w).on up lev, (A.stack first ns mu w).on dn lev) := by
  rw [← stack_top hz] at hl ⊢
  exact lit_level he hex (mem_posed h hs) hl hB lev hlev

/-- And within the layers. -/
theorem C57_taus_partial (he : IsExp ex) (hex : ExactAll inv?) (h : A.Fine first ns mu w o a inv1? inv2?)
    (hs : A.Sunny btau) (hz : A.above = 0) (hB : solve ex (A.mem first ns mu w btau) inv? B0 = some B)
    {up dn : Nat → ℝ → Source.V n} (hl : (A.stack first ns mu w).Lit up dn) (i : Nat) (hi' : i < A.L) (t : ℝ) :
    output ns (atTau ex (A.mem first ns mu w btau) (inverses (A.mem first ns mu w btau) inv?) B i t) =
      (up i t, dn i t) := by
  rw [← stack_top hz] at hl
  exact lit_tau he hex (mem_posed h hs) hl hB i hi' t

/-- It fails exactly for an atmosphere that keeps light without any source. -/
theorem C57_singular (he : IsExp ex) (hex : ExactAll inv?) (hex1 : Source.Exact inv1?) (hex2 : Source.Exact inv2?)
    (h : A.Fine first ns mu w o a inv1? inv2?) (hs : A.Sunny btau) :
    solve ex (A.mem first ns mu w btau) inv? B0 = none ↔
      ∃ up dn, Stack.Lit { A.stack first ns mu w with qp := 0, qm := 0, top := 0, bot := 0 } up dn ∧
        ∃ i, i < A.L ∧ ∃ s j, up i s j ≠ 0 ∨ dn i s j ≠ 0 := by
  rw [none_iff hex (mem_alike h) (C57_safe hex hex1 h hs), C51_singular he hex hex1 hex2 h]

/-- The two boundary value solvers find unknowns for the same atmospheres, and give
the same radiances at the levels and within the layers, as far as no light comes
from above. -/
theorem C57_same_partial (he : IsExp ex) (hex : ExactAll inv?) (hex1 : Source.Exact inv1?)
    (hex2 : Source.Exact inv2?) (h : A.Fine first ns mu w o a inv1? inv2?) (hs : A.Sunny btau) (hz : A.above = 0)
    (B0 : Nat → K) :
    (∃ B, solve ex (A.mem first ns mu w btau) inv? B0 = some B ∧ ∃ B', solveBvp ex (A.inp first ns mu w o a) inv? = some B' ∧
      (∀ lev, lev ≤ A.L → output ns (level B lev) =
        Bvp.output ns (Bvp.level ex (A.inp first ns mu w o a) B' lev)) ∧
      ∀ i, i < A.L → ∀ t, output ns (atTau ex (A.mem first ns mu w btau) (inverses (A.mem first ns mu w btau) inv?) B i t) =
        Bvp.output ns (Bvp.atTau ex (A.inp first ns mu w o a) (A.as0 i) B' i t)) ∨
    (solve ex (A.mem first ns mu w btau) inv? B0 = none ∧ solveBvp ex (A.inp first ns mu w o a) inv? = none) := by
  have hn := none_iff (ex := ex) hex (mem_alike (btau := btau) h) (C57_safe hex hex1 h hs) B0
  rcases hb : solveBvp ex (A.inp first ns mu w o a) inv? with _ | B'
  · exact Or.inr ⟨hn.2 hb, rfl⟩
  · rcases hm : solve ex (A.mem first ns mu w btau) inv? B0 with _ | B
    · rw [hn.1 hm] at hb; cases hb
    · obtain ⟨up, dn, hl⟩ := C51_exists he hex hex1 hex2 h hb
      refine Or.inl ⟨B, rfl, B', rfl, fun lev hlev => ?_, fun i hi' t => ?_⟩
      · rw [C57_levels_partial he hex h hs hz hm hl lev hlev, C51_levels he hex hex1 hex2 h hb hl lev hlev]
      · rw [C57_taus_partial he hex h hs hz hm hl i hi' t,
          C51_taus_partial he hex hex1 hex2 h hs.thermal hb hl i hi' t]

/-- Light from above is left out: the solver gives none at the top, whatever there is. -/
theorem C57_violated_sky (hex : ExactAll inv?) (hB : solve ex (A.mem first ns mu w btau) inv? B0 = some B)
    (hz : A.above ≠ 0) : (output ns (level (n := n) B 0)).2 = 0 ∧
      ∀ up dn, (A.stack first ns mu w).Lit up dn → 0 < A.L →
        (output ns (level B 0)).2 ≠ (A.stack first ns mu w).on dn 0 := by
  have h0 : (output ns (level (n := n) B 0)).2 = 0 := by
    unfold output level
    funext j
    simp only [turn_apply]
    rw [(solve_meets hex hB).1.top j]
    simp
  refine ⟨h0, fun up dn hl hL e => hz ?_⟩
  have e2 : (A.stack first ns mu w).on dn 0 = dn 0 0 := if_pos hL
  rw [h0, e2, hl.sky] at e
  exact e.symm

theorem solve_map {z : Inp n K} (hs : Safe z inv?) (B0 : Nat → K) : solve ex z inv? B0 =
    (inv? ((system ex z (inverses z inv?)).read (nDiags n) (nComp z))).map fun x =>
      solved (nComp z) x (rhs ex z (inverses z inv?) B0) := by
  rw [solve_eq hs]
  cases inv? ((system ex z (inverses z inv?)).read (nDiags n) (nComp z)) <;> rfl

/-- It is as if there were none. -/
theorem C57_sky_ignored (z : Inp n K) (g : Source.V n) (B0 : Nat → K) :
    solve ex { z with I1m := g } inv? B0 = solve ex z inv? B0 := by
  by_cases hs : Safe z inv?
  · rw [solve_map hs, solve_map (z := { z with I1m := g }) hs]; rfl
  · unfold solve
    rw [if_neg hs, if_neg (show ¬ Safe { z with I1m := g } inv? from hs)]

end air

/-! ## Derivatives -/

section derivatives
variable {x : ℝ} {z : ℝ → Inp n K} {d : Inp n K} {fl : Flags} {B0 B : ℝ → Nat → K} {B' : Nat → K}

/-- The linearised unknowns are the derivatives of the unknowns. -/
theorem C57_unknowns_deriv (he : IsExp ex) (hex : ExactAll inv?) (hz : InpDeriv z d x) (hh : Honest (z x).L fl d)
    (h : ∀ᶠ y in 𝓝 x, solve ex (z y) inv? (B0 y) = some (B y)) (hl : solveL ex (z x) d fl inv? (B x) = some B')
    (r : Nat) (hr : r < nComp (z x)) : HasDerivAt (fun y => B y r) (B' r) x :=
  found_deriv he hex hz hh h hl r hr

theorem C57_levels_deriv (he : IsExp ex) (hex : ExactAll inv?) (hz : InpDeriv z d x) (hh : Honest (z x).L fl d)
    (h : ∀ᶠ y in 𝓝 x, solve ex (z y) inv? (B0 y) = some (B y)) (hl : solveL ex (z x) d fl inv? (B x) = some B')
    (lev : Nat) (hlev : lev ≤ (z x).L) (j : Fin n) :
    HasDerivAt (fun y => (level (n := n) (B y) lev).1 j) ((levelL (n := n) B' lev).1 j) x ∧
    HasDerivAt (fun y => (level (n := n) (B y) lev).2 j) ((levelL (n := n) B' lev).2 j) x :=
  level_deriv (found_deriv he hex hz hh h hl) lev hlev j

/-- At depths that keep their share of the layer. -/
theorem C57_taus_deriv (he : IsExp ex) (hex : ExactAll inv?) (hz : InpDeriv z d x) (hh : Honest (z x).L fl d)
    (h : ∀ᶠ y in 𝓝 x, solve ex (z y) inv? (B0 y) = some (B y)) (hl : solveL ex (z x) d fl inv? (B x) = some B')
    {i : Nat} (hi' : i < (z x).L) (hT : (z x).ltau i ≠ 0) {t : ℝ → ℝ}
    (ht : HasDerivAt t (t x * d.ltau i / (z x).ltau i) x) (j : Fin n) :
    HasDerivAt (fun y => (atTau ex (z y) (inverses (z y) inv?) (B y) i (t y)).1 j)
      ((atTauL ex (z x) (inverses (z x) inv?) d fl (B x) B' i (t x)).1 j) x ∧
    HasDerivAt (fun y => (atTau ex (z y) (inverses (z y) inv?) (B y) i (t y)).2 j)
      ((atTauL ex (z x) (inverses (z x) inv?) d fl (B x) B' i (t x)).2 j) x :=
  tau_deriv he hex hz hh (h.mono fun y hy => solve_safe hy) (found_deriv he hex hz hh h hl) hi' hT ht j

/-- Where the unknowns are found they are found nearby, and so are the linearised ones. -/
theorem C57_near (he : IsExp ex) (hex : ExactAll inv?) (hz : InpDeriv z d x) {b0 b : Nat → K}
    (h : solve ex (z x) inv? b0 = some b) (B0 : ℝ → Nat → K) (d' : Inp n K) (fl : Flags) (c : Nat → K) :
    (∀ᶠ y in 𝓝 x, ∃ B, solve ex (z y) inv? (B0 y) = some B) ∧ ∃ B', solveL ex (z x) d' fl inv? c = some B' := by
  refine ⟨solve_near he hex hz h B0, ?_⟩
  rw [solve_eq (solve_safe h)] at h
  unfold solveL
  dsimp only
  cases hi : inv? ((system ex (z x) (inverses (z x) inv?)).read (nDiags n) (nComp (z x))) with
  | none => simp [hi] at h
  | some X => exact ⟨_, rfl⟩

end derivatives

/-! ## Such an atmosphere -/

/-- Two layers under the sun; from above comes `s`. -/
noncomputable def demoSky (surface : Bool) (r s : ℝ) : Air 1 ℝ :=
  { demoAir true false surface r with btran := fun i => Real.exp (-(2 * i)), above := fun _ => s }

theorem demoSky_sunny (surface : Bool) (r s : ℝ) : (demoSky surface r s).Sunny fun i => 2 * i where
  solar := rfl
  thermal := rfl
  thick := fun _ _ => one_ne_zero
  btran := fun _ _ => rfl
  step := fun i _ => by simp [demoSky, demoAir]; ring

theorem demoSky_fine (surface : Bool) (r s : ℝ) : ∃ o a,
    (demoSky surface r s).Fine true 1 demoMu demoW o a Source.inverse Source.inverse := by
  obtain ⟨o, a, h⟩ := demo_fine true false surface r
  exact ⟨o, a, h.one, h.stokes, h.cos, h.same, h.eig, h.decay, h.sun, h.heat⟩

theorem demoSky_solve (surface : Bool) (r s : ℝ) (h0 : 0 ≤ r) (h1 : r ≤ 1) (B0 : Nat → ℝ) :
    ∃ B, solve Real.exp ((demoSky surface r s).mem true 1 demoMu demoW fun i => 2 * i) Eig.inverseK B0 = some B := by
  obtain ⟨o, a, h⟩ := demoSky_fine surface r s
  obtain ⟨o', a', h'⟩ := demo_fine true false surface r
  rw [← Option.ne_none_iff_exists', ne_eq,
    C57_singular (inv? := Eig.inverseK) exp_real (fun N => inverseK_exact) Source.inverse_exact Source.inverse_exact h
      (demoSky_sunny surface r s)]
  intro hd
  obtain ⟨B, hB⟩ := demo_solve true false surface r h0 h1 o' a'
  have := (C51_singular (inv? := Eig.inverseK) exp_real (fun N => inverseK_exact) Source.inverse_exact
    Source.inverse_exact h').2 hd
  rw [hB] at this
  cases this

/-- Over a ground that reflects half, the light is found at the levels and between. -/
example (B0 : Nat → ℝ) : ∃ (B : Nat → ℝ) (up dn : Nat → ℝ → Source.V 1),
    ((demoSky true (1 / 2) 0).stack true 1 demoMu demoW).Lit up dn ∧
    (∀ lev, lev ≤ 2 → output 1 (level B lev) = (((demoSky true (1 / 2) 0).stack true 1 demoMu demoW).on up lev,
      ((demoSky true (1 / 2) 0).stack true 1 demoMu demoW).on dn lev)) ∧
    ∀ t, output 1 (atTau Real.exp ((demoSky true (1 / 2) 0).mem true 1 demoMu demoW fun i => 2 * i)
      (inverses ((demoSky true (1 / 2) 0).mem true 1 demoMu demoW fun i => 2 * i) Eig.inverseK) B 1 t) = (up 1 t, dn 1 t) := by
  have hex : ExactAll (K := ℝ) Eig.inverseK := fun N => inverseK_exact
  obtain ⟨o, a, h⟩ := demoSky_fine true (1 / 2) 0
  obtain ⟨B, hB⟩ := demoSky_solve true (1 / 2) 0 (by norm_num) (by norm_num) B0
  have hs := demoSky_sunny true (1 / 2) 0
  rcases C57_same_partial exp_real hex Source.inverse_exact Source.inverse_exact h hs rfl B0 with
    ⟨-, -, B', hB', -, -⟩ | ⟨hn, -⟩
  · obtain ⟨up, dn, hl⟩ := C51_exists exp_real hex Source.inverse_exact Source.inverse_exact h hB'
    exact ⟨B, up, dn, hl, fun lev hlev => C57_levels_partial exp_real hex h hs rfl hB hl lev hlev,
      fun t => C57_taus_partial exp_real hex h hs rfl hB hl 1 one_lt_two t⟩
  · rw [hB] at hn; cases hn

/-- With light from above it is not. -/
example (B0 : Nat → ℝ) : ∃ (B : Nat → ℝ) (up dn : Nat → ℝ → Source.V 1),
    solve Real.exp ((demoSky true (1 / 2) 1).mem true 1 demoMu demoW fun i => 2 * i) Eig.inverseK B0 = some B ∧
    ((demoSky true (1 / 2) 1).stack true 1 demoMu demoW).Lit up dn ∧
    (output 1 (level B 0)).2 ≠ ((demoSky true (1 / 2) 1).stack true 1 demoMu demoW).on dn 0 := by
  have hex : ExactAll (K := ℝ) Eig.inverseK := fun N => inverseK_exact
  obtain ⟨o, a, h⟩ := demoSky_fine true (1 / 2) 1
  obtain ⟨B, hB⟩ := demoSky_solve true (1 / 2) 1 (by norm_num) (by norm_num) B0
  have hn := none_iff (ex := Real.exp) (inv? := Eig.inverseK) hex (mem_alike (btau := fun i => 2 * i) h)
    (C57_safe hex Source.inverse_exact h (demoSky_sunny true (1 / 2) 1)) B0
  rcases hb : solveBvp Real.exp ((demoSky true (1 / 2) 1).inp true 1 demoMu demoW o a) Eig.inverseK with _ | B'
  · have := hn.2 hb; rw [hB] at this; cases this
  · obtain ⟨up, dn, hl⟩ := C51_exists exp_real hex Source.inverse_exact Source.inverse_exact h hb
    exact ⟨B, up, dn, hB, hl, (C57_violated_sky hex hB (fun e => one_ne_zero (congrFun e 0))).2 up dn hl two_pos⟩

/-- The first layer scatters more of the beam upwards. -/
noncomputable def demoMore (y : ℝ) : Inp 1 ℝ :=
  { (demoSky true (1 / 2) 0).mem true 1 demoMu demoW fun i => 2 * i with P0pm := fun i _ => if i = 0 then y else 1 }

def demoMoreL : Inp 1 ℝ :=
  { L := 2, ns := 1, m := fun _ => ⟨0, 0, 0⟩, F0 := 0, qx := 0, omega := 0, ltau := 0, btau := 0, btran := 0, P0mm := 0,
    P0pm := fun i _ => if i = 0 then 1 else 0, Rs := 0, I1m := 0, Inp := 0, surface := true }

def demoMoreFl : Flags := ⟨fun i => i == 0, fun _ => true⟩

theorem demoMore_deriv (x : ℝ) : InpDeriv demoMore demoMoreL x where
  L := fun _ => rfl
  ns := fun _ => rfl
  F0 := fun _ => rfl
  qx := fun _ => rfl
  surface := fun _ => rfl
  m := fun i _ => ⟨fun _ => hasDerivAt_const _ _, fun _ _ => hasDerivAt_const _ _, fun _ _ => hasDerivAt_const _ _⟩
  omega := fun _ _ => hasDerivAt_const _ _
  ltau := fun _ _ => hasDerivAt_const _ _
  btau := fun _ _ => hasDerivAt_const _ _
  btran := fun _ _ _ => rfl
  P0mm := fun _ _ _ => hasDerivAt_const _ _
  P0pm := fun i _ j => by
    unfold demoMore demoMoreL
    dsimp only
    split_ifs
    · exact hasDerivAt_id x
    · exact hasDerivAt_const _ _
  Rs := fun _ _ => hasDerivAt_const _ _
  Inp := fun _ => hasDerivAt_const _ _

theorem demoMore_honest : Honest 2 demoMoreFl demoMoreL where
  modes := fun _ _ _ => rfl
  omega := fun _ _ _ => rfl
  ltau := fun _ _ _ => rfl
  P0mm := fun _ _ _ => rfl
  P0pm := fun i _ h => by
    have : i ≠ 0 := by simpa [demoMoreFl] using h
    funext j; simp [demoMoreL, this]
  btau := fun _ _ _ => ⟨rfl, rfl⟩
  both := fun _ _ _ => rfl
  Rs := fun _ => rfl

example : ∃ (B : ℝ → Nat → ℝ) (B' : Nat → ℝ),
    (∀ᶠ y in 𝓝 1, solve Real.exp (demoMore y) Eig.inverseK 0 = some (B y)) ∧
    HasDerivAt (fun y => (level (n := 1) (B y) 0).1 0) ((levelL (n := 1) B' 0).1 0) 1 ∧
    HasDerivAt (fun y => (atTau Real.exp (demoMore y) (inverses (demoMore y) Eig.inverseK) (B y) 1 (1 / 3)).2 0)
      ((atTauL Real.exp (demoMore 1) (inverses (demoMore 1) Eig.inverseK) demoMoreL demoMoreFl (B 1) B' 1 (1 / 3)).2 0) 1 := by
  have hex : ExactAll (K := ℝ) Eig.inverseK := fun N => inverseK_exact
  obtain ⟨b, hb⟩ := demoSky_solve true (1 / 2) 0 (by norm_num) (by norm_num) 0
  have he : demoMore 1 = (demoSky true (1 / 2) 0).mem true 1 demoMu demoW fun i => 2 * i := by
    unfold demoMore
    have : (fun (i : Nat) (_ : Fin 1) => if i = 0 then (1 : ℝ) else 1) = fun _ _ => 1 := by funext i j; split_ifs <;> rfl
    rw [this]; rfl
  rw [← he] at hb
  have hn := C57_near exp_real hex (demoMore_deriv 1) hb (fun _ => 0)
  choose! B hB using fun y (hy : ∃ B, solve Real.exp (demoMore y) Eig.inverseK 0 = some B) => hy
  obtain ⟨B', hB'⟩ := (hn demoMoreL demoMoreFl (B 1)).2
  have hev : ∀ᶠ y in 𝓝 1, solve Real.exp (demoMore y) Eig.inverseK 0 = some (B y) := by
    filter_upwards [(hn demoMoreL demoMoreFl (B 1)).1] with y hy using hB y hy
  exact ⟨B, B', hev, (C57_levels_deriv exp_real hex (demoMore_deriv 1) demoMore_honest hev hB' 0 (Nat.zero_le _) 0).1,
    (C57_taus_deriv exp_real hex (demoMore_deriv 1) demoMore_honest hev hB' (i := 1) one_lt_two one_ne_zero
      (t := fun _ => 1 / 3) ((hasDerivAt_const _ _).congr_deriv (by simp [demoMoreL])) 0).2⟩

end Xrtm.MemBvp
