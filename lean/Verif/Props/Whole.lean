import Verif.Proof.Whole

/-!
# C52: the adding solver with the layers of the eigenmatrix solver gives the light
of the atmosphere, and the same as the boundary value solver
-/

namespace Xrtm.Whole

open Matrix Xrtm.Source Xrtm.Transfer Xrtm.Eig Xrtm.Bvp Xrtm.Spec
open Xrtm.Adding (Act LayerIn layersOf allExits totalLoop both vals frameAll C29_total_ok)
open Xrtm.Radiance (Atm bothWays Pair C32_both_ways C32_both_ways_singular C32_unique Atm.layer Atm.base)

variable {n : Nat} {K : Type} [RCLike K] {ex : K → K}
  {inv? : {N : Nat} → Matrix (Fin N) (Fin N) K → Option (Matrix (Fin N) (Fin N) K)}

/-! ### Any solver for the layers -/

/-- Layers of whatever make: if each is what its medium is, with and without its
sources, then what the routines that add them find at the top and at the bottom
is the light in the stack. -/
theorem C52_levels {invA? : M n → Option (M n)} (hinv : Mat.Exact invA?) {S : Stack n} (hL : 1 ≤ S.L)
    {lay : Nat → Layer n ℝ} (hf : ∀ i, i < S.L → (S.med i).Fills (S.qp i) (S.qm i) (S.T i) (lay i))
    {nd : Nat} {l : LayerIn n ℝ} {ls : List (LayerIn n ℝ)} (hc : ∀ l ∈ ls, ∀ i, i < nd → allExits (l.act i) = false)
    (hls : layersOf (l :: ls) = (List.range S.L).map lay) {s s' : Mat.Mem n ℝ}
    (tot : totalLoop invA? nd true (l :: ls) s = .ok s') {z : Atm n ℝ} {surface : Bool}
    (hz : z.layer = both (vals frameAll s')) (hb : z.base surface = ⟨S.Rs, S.bot⟩) (ht : z.I1 = S.top)
    {act : Nat → Act × Act} {d : Nat → Atm n ℝ} {old : Nat → Nat → Pair n ℝ} {work : Nat → Pair n ℝ}
    {out : Nat → Nat → Pair n ℝ} (run : bothWays invA? nd S.L act surface [0, S.L] z d old work = .ok out)
    {up dn : Nat → ℝ → V n} (h : S.Lit up dn) :
    out 0 0 = (S.on up 0, S.on dn 0) ∧ out 1 0 = (S.on up S.L, S.on dn S.L) := by
  have hj : Joined ((List.range S.L).map lay) z.layer := by rw [← hls, hz]; exact C29_total_ok hinv hc tot
  have hr : surface = true → Regular z.Rp z.Rs := by
    rintro rfl
    by_contra hn
    rw [C32_both_ways_singular hinv hn] at run
    cases run
  obtain ⟨out', e, up1, dn2, up2, hlit, hk⟩ := C32_both_ways hinv hj surface hr (ul := [0, S.L]) (by omega : 0 < S.L)
    (by simp; omega) (by simp) (by simp) nd act d old work
  rw [run] at e
  cases e
  have hreg : Regular z.layer.Rp (z.base surface).R := by
    cases surface with
    | true => exact hr rfl
    | false => exact ⟨1, by simp [Atm.base]⟩
  have hs := lit_spec hL hf h
  rw [← hb, ← ht] at hs
  have e := (C32_unique hj (z.base surface) hreg z.I1).unique (y₁ := (up1, dn2, up2))
    (y₂ := (S.on up 0, S.on dn S.L, S.on up S.L)) hlit hs
  simp only [Prod.mk.injEq] at e
  have e0 : S.on dn 0 = S.top := by
    unfold Stack.on; rw [if_pos (by omega)]; exact h.sky
  refine ⟨?_, ?_⟩
  · rw [(hk 0).1 rfl, e.1, e0, ht]
  · rw [(hk 1).2 rfl, e.2.2, e.2.1]

/-- And if they come to an end the stack keeps no light of its own. -/
theorem C52_no_dark {invA? : M n → Option (M n)} (hinv : Mat.Exact invA?) {S : Stack n} (hL : 1 ≤ S.L)
    (hmu : ∀ i, i < S.L → ∀ j, (S.med i).mu j ≠ 0)
    {lay : Nat → Layer n ℝ} (hf : ∀ i, i < S.L → (S.med i).Fills 0 0 (S.T i) (hush (lay i)))
    {nd : Nat} {l : LayerIn n ℝ} {ls : List (LayerIn n ℝ)} (hc : ∀ l ∈ ls, ∀ i, i < nd → allExits (l.act i) = false)
    (hls : layersOf (l :: ls) = (List.range S.L).map lay) {s s' : Mat.Mem n ℝ}
    (tot : totalLoop invA? nd true (l :: ls) s = .ok s') {z : Atm n ℝ} {surface : Bool}
    (hz : z.layer = both (vals frameAll s')) (hb : z.base surface = ⟨S.Rs, S.bot⟩)
    {act : Nat → Act × Act} {d : Nat → Atm n ℝ} {old : Nat → Nat → Pair n ℝ} {work : Nat → Pair n ℝ}
    {out : Nat → Nat → Pair n ℝ} (run : bothWays invA? nd S.L act surface [0, S.L] z d old work = .ok out)
    {up dn : Nat → ℝ → V n} (h : Stack.Lit { S with qp := 0, qm := 0, top := 0, bot := 0 } up dn) (i : Nat)
    (hi : i < S.L) : up i = 0 ∧ dn i = 0 := by
  have hj : Joined ((List.range S.L).map lay) z.layer := by rw [← hls, hz]; exact C29_total_ok hinv hc tot
  have hreg : Regular z.layer.Rp (z.base surface).R := by
    cases surface with
    | true =>
      change Regular z.Rp z.Rs
      by_contra hn
      rw [C32_both_ways_singular hinv hn] at run
      cases run
    | false => exact ⟨1, by simp [Atm.base]⟩
  rw [hb] at hreg
  exact no_dark hL hmu hf hj hreg h i hi

/-! ### The eigenmatrix solver for the layers -/

/-- The layers of an atmosphere as the adding solver gets them, for the Fourier
term `iFour`; `nCoef` is the number of coefficients of each. -/
noncomputable def lay (ex : K → K) (inv? : {N : Nat} → Matrix (Fin N) (Fin N) K → Option (Matrix (Fin N) (Fin N) K))
    (A : Air n K) (first : Bool) (ns : Nat) (mu w : V n) (iFour : Nat) (nCoef : Nat → Nat) (o : Nat → SunOut n)
    (a : Nat → (Fin n ⊕ Fin n → ℝ) × (Fin n ⊕ Fin n → ℝ)) (i : Nat) : Option (Layer n ℝ) :=
  layer ns mu (A.c i).om (A.T i) (A.as0 i) (A.btran i) iFour (nCoef i) A.solar A.thermal
    (solver ex inv? first ns mu w (A.c i).om (A.T i) (A.c i).Ppp (A.c i).Pmp (A.c i).nu (A.c i).V) (o i) (a i)

/-- Beyond the coefficients of a layer it scatters nothing. -/
def Beyond (A : Air n K) (iFour : Nat) (nCoef : Nat → Nat) : Prop :=
  ∀ i, i < A.L → nCoef i ≤ iFour → (A.c i).Ppp = 0 ∧ (A.c i).Pmp = 0 ∧ (A.c i).Pmm = 0 ∧ (A.c i).Ppm = 0 ∧
    A.P0mm i = 0 ∧ A.P0pm i = 0

variable {A : Air n K} {first : Bool} {ns : Nat} {mu w : V n} {o : Nat → SunOut n}
  {a : Nat → (Fin n ⊕ Fin n → ℝ) × (Fin n ⊕ Fin n → ℝ)} {inv1? : M n → Option (M n)}
  {inv2? : Matrix (Fin n ⊕ Fin n) (Fin n ⊕ Fin n) ℝ → Option (Matrix (Fin n ⊕ Fin n) (Fin n ⊕ Fin n) ℝ)}
  {iFour : Nat} {nCoef : Nat → Nat}

theorem sources_dn (solar thermal : Bool) (b t : ℝ) (Rp Tp Rm Tm : M n) (fp fm g0p g0m g1p g1m : V n) :
    scaleAdd solar thermal b (global t Rp Tp Rm Tm fp fm).2 (globalHeat Rp Tp Rm Tm g0p g0m g1p g1m).2 =
      ((if solar then b • t • fm else 0) + if thermal then g1m else 0) -
        Rp *ᵥ ((if solar then b • t • fp else 0) + if thermal then g1p else 0) -
        Tm *ᵥ ((if solar then b • fm else 0) + if thermal then g0m else 0) := by
  unfold scaleAdd global globalHeat
  cases solar <;> cases thermal <;> simp [mulVec_add, mulVec_smul]
  all_goals module

theorem sources_up (solar thermal : Bool) (b t : ℝ) (Rp Tp Rm Tm : M n) (fp fm g0p g0m g1p g1m : V n) :
    scaleAdd solar thermal b (global t Rp Tp Rm Tm fp fm).1 (globalHeat Rp Tp Rm Tm g0p g0m g1p g1m).1 =
      ((if solar then b • fp else 0) + if thermal then g0p else 0) -
        Tp *ᵥ ((if solar then b • t • fp else 0) + if thermal then g1p else 0) -
        Rm *ᵥ ((if solar then b • fm else 0) + if thermal then g0m else 0) := by
  unfold scaleAdd global globalHeat
  cases solar <;> cases thermal <;> simp [mulVec_add, mulVec_smul]
  all_goals module

theorem base_eq (hRs : ∀ i j, A.Rs i j * stokesSign ns j = A.Rs i j) {z : Atm n ℝ} (hzR : z.Rs = A.Rs)
    (hzI : z.In = A.ground) :
    z.base A.surface = ⟨(A.stack first ns mu w).Rs, (A.stack first ns mu w).bot⟩ := by
  unfold Atm.base Air.stack
  rw [hzR, hzI]
  cases A.surface with
  | false => simp
  | true =>
    simp only [if_true]
    congr 1
    funext i j
    exact (hRs i j).symm

/-- Each layer is what its medium is, under the sun and warm, and in the dark;
those too that are not given to the solver. -/
theorem C52_layer (he : IsExp ex) (hex : ExactAll inv?) (hex1 : Source.Exact inv1?) (hex2 : Source.Exact inv2?)
    (h : A.Fine first ns mu w o a inv1? inv2?) (hbe : Beyond A iFour nCoef) {i : Nat} (hi : i < A.L) {l : Layer n ℝ}
    (hl : lay ex inv? A first ns mu w iFour nCoef o a i = some l) :
    let S := A.stack first ns mu w
    (S.med i).Fills (S.qp i) (S.qm i) (S.T i) l ∧ (S.med i).Fills 0 0 (S.T i) (hush l) := by
  intro S
  unfold lay layer at hl
  split_ifs at hl with htk
  · have hzero : (∀ u d j, (S.med i).intoUp u d j = 0) ∧ (∀ u d j, (S.med i).intoDn u d j = 0) ∧
        (A.c i).om = 0 ∨ (∀ u d j, (S.med i).intoUp u d j = 0) ∧ (∀ u d j, (S.med i).intoDn u d j = 0) ∧
        A.P0mm i = 0 ∧ A.P0pm i = 0 := by
      rcases htk with h0 | h0
      · left
        refine ⟨fun u d j => ?_, fun u d j => ?_, h0⟩ <;>
          simp [S, Air.stack, Content.medium, Medium.of, Medium.intoUp, Medium.intoDn, h0]
      · right
        obtain ⟨p1, p2, p3, p4, p5, p6⟩ := hbe i hi h0
        refine ⟨fun u d j => ?_, fun u d j => ?_, p5, p6⟩ <;>
          simp [S, Air.stack, Content.medium, Medium.of, Medium.intoUp, Medium.intoDn, p1, p2, p3, p4]
    cases hth : A.thermal with
    | true => rw [hth] at hl; simp [NoScatter.values] at hl
    | false =>
      rw [hth] at hl
      simp only [NoScatter.values, Bool.false_eq_true, if_false, Option.some.injEq] at hl
      have hl' : l = ⟨0, NoScatter.trans Real.exp mu (A.T i), 0, 0, NoScatter.trans Real.exp mu (A.T i), 0⟩ := by
        rw [← hl]
        cases A.solar <;> simp [scaleAdd]
      have hq : S.qp i = 0 ∧ S.qm i = 0 := by
        rcases hzero with ⟨-, -, h0⟩ | ⟨-, -, h0, h1⟩
        · constructor <;> funext τ j <;> simp [S, Air.stack, beamSource, hth, h0]
        · constructor <;> funext τ j <;> simp [S, Air.stack, beamSource, hth, h0, h1]
      have hup : ∀ u d j, (S.med i).intoUp u d j = 0 := hzero.elim (fun q => q.1) fun q => q.1
      have hdn : ∀ u d j, (S.med i).intoDn u d j = 0 := hzero.elim (fun q => q.2.1) fun q => q.2.1
      have := clear_fills (m := S.med i) h.cos hup hdn (A.T i)
      rw [hq.1, hq.2, hl']
      exact ⟨this, this⟩
  · cases hrt : solver ex inv? first ns mu w (A.c i).om (A.T i) (A.c i).Ppp (A.c i).Pmp (A.c i).nu (A.c i).V with
    | none => rw [hrt] at hl; cases hl
    | some rt =>
      rw [hrt] at hl
      simp only [Option.some.injEq] at hl
      have f0 := C50_layer he (hex n) first ns h.stokes mu w (A.c i).om (A.T i) (A.c i).Ppp (A.c i).Pmp (A.c i).Pmm (A.c i).Ppm
        h.cos (h.same i hi) (A.c i).nu (A.c i).V (h.eig i hi) rt hrt
      have f1 := fills_of f0 ((air_posed hex1 hex2 h).part i hi)
      subst hl
      refine ⟨?_, f0⟩
      have e1 := sources_dn A.solar A.thermal (A.btran i) (Real.exp (-A.as0 i * A.T i)) (layerM ns rt).1 (layerM ns rt).2.1
        (layerM ns rt).2.2.1 (layerM ns rt).2.2.2 (o i).Fp (o i).Fm (fun j => (heatEnds (A.T i) (a i)).1 (.inl j))
        (fun j => (heatEnds (A.T i) (a i)).1 (.inr j)) (fun j => (heatEnds (A.T i) (a i)).2 (.inl j))
        fun j => (heatEnds (A.T i) (a i)).2 (.inr j)
      have e2 := sources_up A.solar A.thermal (A.btran i) (Real.exp (-A.as0 i * A.T i)) (layerM ns rt).1 (layerM ns rt).2.1
        (layerM ns rt).2.2.1 (layerM ns rt).2.2.2 (o i).Fp (o i).Fm (fun j => (heatEnds (A.T i) (a i)).1 (.inl j))
        (fun j => (heatEnds (A.T i) (a i)).1 (.inr j)) (fun j => (heatEnds (A.T i) (a i)).2 (.inl j))
        fun j => (heatEnds (A.T i) (a i)).2 (.inr j)
      have g1 : A.su o a i (A.T i) = (if A.solar then A.btran i • Real.exp (-A.as0 i * A.T i) • (o i).Fp else 0) +
          if A.thermal then fun j => (heatEnds (A.T i) (a i)).2 (.inl j) else 0 := by
        unfold Air.su heatEnds; simp
      have g2 : A.sd o a i (A.T i) = (if A.solar then A.btran i • Real.exp (-A.as0 i * A.T i) • (o i).Fm else 0) +
          if A.thermal then fun j => (heatEnds (A.T i) (a i)).2 (.inr j) else 0 := by
        unfold Air.sd heatEnds; simp
      have g3 : A.su o a i 0 = (if A.solar then A.btran i • (o i).Fp else 0) +
          if A.thermal then fun j => (heatEnds (A.T i) (a i)).1 (.inl j) else 0 := by
        unfold Air.su heatEnds; simp
      have g4 : A.sd o a i 0 = (if A.solar then A.btran i • (o i).Fm else 0) +
          if A.thermal then fun j => (heatEnds (A.T i) (a i)).1 (.inr j) else 0 := by
        unfold Air.sd heatEnds; simp
      rw [← g1, ← g2, ← g4] at e1
      rw [← g1, ← g3, ← g4] at e2
      rw [e1, e2]
      exact f1

/-- The whole run: the adding solver over the layers of the eigenmatrix solver
gives, at the top and at the bottom, the light in the atmosphere.  The ground
must not change the third and fourth Stokes parameters into anything: the two
solvers read the matrix of the ground in different ways (`Air.stack`), and only
then mean the same. -/
theorem C52_adding (he : IsExp ex) (hex : ExactAll inv?) (hex1 : Source.Exact inv1?) (hex2 : Source.Exact inv2?)
    (h : A.Fine first ns mu w o a inv1? inv2?) (hbe : Beyond A iFour nCoef)
    (hRs : ∀ i j, A.Rs i j * stokesSign ns j = A.Rs i j) {lays : Nat → Layer n ℝ}
    (hlay : ∀ i, i < A.L → lay ex inv? A first ns mu w iFour nCoef o a i = some (lays i))
    {invA? : M n → Option (M n)} (hinv : Mat.Exact invA?)
    {nd : Nat} {l : LayerIn n ℝ} {ls : List (LayerIn n ℝ)} (hc : ∀ l ∈ ls, ∀ i, i < nd → allExits (l.act i) = false)
    (hls : layersOf (l :: ls) = (List.range A.L).map lays) {s s' : Mat.Mem n ℝ}
    (tot : totalLoop invA? nd true (l :: ls) s = .ok s') {z : Atm n ℝ}
    (hz : z.layer = both (vals frameAll s')) (hzR : z.Rs = A.Rs) (hzI : z.In = A.ground) (hz1 : z.I1 = A.above)
    {act : Nat → Act × Act} {d : Nat → Atm n ℝ} {old : Nat → Nat → Pair n ℝ} {work : Nat → Pair n ℝ}
    {out : Nat → Nat → Pair n ℝ} (run : bothWays invA? nd A.L act A.surface [0, A.L] z d old work = .ok out)
    {up dn : Nat → ℝ → V n} (hlit : (A.stack first ns mu w).Lit up dn) :
    out 0 0 = ((A.stack first ns mu w).on up 0, (A.stack first ns mu w).on dn 0) ∧
    out 1 0 = ((A.stack first ns mu w).on up A.L, (A.stack first ns mu w).on dn A.L) := by
  refine C52_levels (S := A.stack first ns mu w) hinv h.one
    (fun i hi => (C52_layer he hex hex1 hex2 h hbe hi (hlay i hi)).1) hc hls tot hz ?_ hz1 run hlit
  exact base_eq hRs hzR hzI

/-- Where the adding solver comes to an end so does the boundary value solver, and
the two give the same. -/
theorem C52_same (he : IsExp ex) (hex : ExactAll inv?) (hex1 : Source.Exact inv1?) (hex2 : Source.Exact inv2?)
    (h : A.Fine first ns mu w o a inv1? inv2?) (hbe : Beyond A iFour nCoef)
    (hRs : ∀ i j, A.Rs i j * stokesSign ns j = A.Rs i j) {lays : Nat → Layer n ℝ}
    (hlay : ∀ i, i < A.L → lay ex inv? A first ns mu w iFour nCoef o a i = some (lays i))
    {invA? : M n → Option (M n)} (hinv : Mat.Exact invA?)
    {nd : Nat} {l : LayerIn n ℝ} {ls : List (LayerIn n ℝ)} (hc : ∀ l ∈ ls, ∀ i, i < nd → allExits (l.act i) = false)
    (hls : layersOf (l :: ls) = (List.range A.L).map lays) {s s' : Mat.Mem n ℝ}
    (tot : totalLoop invA? nd true (l :: ls) s = .ok s') {z : Atm n ℝ}
    (hz : z.layer = both (vals frameAll s')) (hzR : z.Rs = A.Rs) (hzI : z.In = A.ground) (hz1 : z.I1 = A.above)
    {act : Nat → Act × Act} {d : Nat → Atm n ℝ} {old : Nat → Nat → Pair n ℝ} {work : Nat → Pair n ℝ}
    {out : Nat → Nat → Pair n ℝ} (run : bothWays invA? nd A.L act A.surface [0, A.L] z d old work = .ok out) :
    ∃ B, solveBvp ex (A.inp first ns mu w o a) inv? = some B ∧
      out 0 0 = output ns (level ex (A.inp first ns mu w o a) B 0) ∧
      out 1 0 = output ns (level ex (A.inp first ns mu w o a) B A.L) := by
  cases hB : solveBvp ex (A.inp first ns mu w o a) inv? with
  | none =>
    exfalso
    obtain ⟨up, dn, hd, i, hi, τ, j, hne⟩ := (C51_singular he hex hex1 hex2 h).1 hB
    obtain ⟨e1, e2⟩ := C52_no_dark (S := A.stack first ns mu w) hinv h.one (fun _ _ => h.cos)
      (fun i hi => (C52_layer he hex hex1 hex2 h hbe hi (hlay i hi)).2) hc hls tot hz (base_eq hRs hzR hzI) run hd i hi
    rw [e1, e2] at hne
    simp at hne
  | some B =>
    obtain ⟨up, dn, hlit⟩ := C51_exists he hex hex1 hex2 h hB
    obtain ⟨e0, e1⟩ := C52_adding he hex hex1 hex2 h hbe hRs hlay hinv hc hls tot hz hzR hzI hz1 run hlit
    refine ⟨B, rfl, ?_, ?_⟩
    · rw [e0, C51_levels he hex hex1 hex2 h hB hlit 0 (Nat.zero_le _)]
    · rw [e1, C51_levels he hex hex1 hex2 h hB hlit A.L le_rfl]

/-! ### Two layers, the sun, emission, and a ground that reflects half -/

theorem demo_lay (solar thermal surface : Bool) (r : ℝ) (o a) (i : Nat) : ∃ l : Layer 1 ℝ,
    lay Real.exp inverseK (demoAir solar thermal surface r) true 1 demoMu demoW 0 (fun _ => 1) o a i = some l ∧
    ∃ p t : ℝ, l.Rm = num p ∧ l.Rp = num p ∧ l.Tm = num t ∧ l.Tp = num t ∧ 0 ≤ p ∧ p < 1 ∧ 0 ≤ t ∧ p + t ≤ 1 := by
  have hXm : (modes (num (-2)) (fun _ => 1) 1).Xm = num (3 / 2) := by
    refine num_ext ?_
    simp [modes, num]; norm_num
  have hXp : (modes (num (-2)) (fun _ => 1) 1).Xp = num (-1 / 2) := by
    refine num_ext ?_
    simp [modes, num]; norm_num
  set e := Real.exp (-1 * 1) with he
  have e1 : e < 1 := by rw [he, ← Real.exp_zero]; exact Real.exp_lt_exp.2 (by norm_num)
  have e0 : 0 < e := Real.exp_pos _
  have h2 : 3 / 2 - -1 / 2 * e * (3 / 2)⁻¹ * (-1 / 2 * e) ≠ 0 := by nlinarith
  have hs : ∃ R : RT 1 ℝ, solver Real.exp inverseK true 1 demoMu demoW (3 / 4) 1 1 1 (fun _ => 1) 1 = some R ∧
      R.R = num ((1 - e ^ 2) / (3 - e ^ 2 / 3)) ∧ R.T = num ((8 * e / 3) / (3 - e ^ 2 / 3)) := by
    unfold solver
    have := demo_tpr (3 / 4)
    change ∃ R : RT 1 ℝ, calcRT Real.exp inverseK 1 (modes ((txr 1 (localRT true (fun _ : Fin 1 => (1:ℝ) / 2) (fun _ => 1)
      (3 / 4) 1 1).1 (localRT true (fun _ : Fin 1 => (1:ℝ) / 2) (fun _ => 1) (3 / 4) 1 1).2).1) (fun _ => 1) 1) = some R ∧ _
    rw [this]
    have hnu : (modes (num (-2)) (fun _ => 1) 1).nu = fun _ => 1 := rfl
    have hdia : (diagonal fun _ : Fin 1 => Real.exp (-1 * 1)) = num e := rfl
    unfold calcRT
    simp only [hXm, hXp, hnu, hdia, num_mul, num_sub, num_inv (show (3 / 2 : ℝ) ≠ 0 by norm_num), num_inv h2]
    have h3 : (9 - e ^ 2) ≠ 0 := by nlinarith
    have h4 : 3 / 2 - -1 / 2 * e * (3 / 2)⁻¹ * (-1 / 2 * e) = (9 - e ^ 2) / 6 := by ring
    have h5 : 3 - e ^ 2 / 3 = (9 - e ^ 2) / 3 := by ring
    refine ⟨_, rfl, congrArg num ?_, congrArg num ?_⟩
    · rw [h4, h5]; field_simp; ring
    · rw [h4, h5]; field_simp; ring
  obtain ⟨R, hR, rR, rT⟩ := hs
  have hpos : 0 < 3 - e ^ 2 / 3 := by nlinarith
  have hside : ∀ c : ℝ, otherSide 1 (num c) = num c := fun c => num_ext (by simp [otherSide, num])
  have hre : ∀ c : ℝ, reals (num c) = num c := fun c => num_ext (by simp [reals, num])
  have htu : ∀ c : ℝ, turnM 1 (num c) = num c := fun c => num_ext (by simp [turnM, num])
  have hL : layerM 1 R = (num ((1 - e ^ 2) / (3 - e ^ 2 / 3)), num ((8 * e / 3) / (3 - e ^ 2 / 3)),
      num ((1 - e ^ 2) / (3 - e ^ 2 / 3)), num ((8 * e / 3) / (3 - e ^ 2 / 3))) := by
    unfold layerM
    simp only [rR, rT, hre, htu, hside]
  unfold lay layer
  rw [if_neg (by simp [demoAir])]
  have hR' : solver Real.exp inverseK true 1 demoMu demoW ((demoAir solar thermal surface r).c i).om
      ((demoAir solar thermal surface r).T i) ((demoAir solar thermal surface r).c i).Ppp
      ((demoAir solar thermal surface r).c i).Pmp ((demoAir solar thermal surface r).c i).nu
      ((demoAir solar thermal surface r).c i).V = some R := hR
  rw [hR']
  refine ⟨_, rfl, (1 - e ^ 2) / (3 - e ^ 2 / 3), (8 * e / 3) / (3 - e ^ 2 / 3), ?_, ?_, ?_, ?_, ?_, ?_, ?_, ?_⟩
  · change (layerM 1 R).2.2.1 = _; rw [hL]
  · change (layerM 1 R).1 = _; rw [hL]
  · change (layerM 1 R).2.2.2 = _; rw [hL]
  · change (layerM 1 R).2.1 = _; rw [hL]
  · exact div_nonneg (by nlinarith) hpos.le
  · rw [div_lt_one hpos]; nlinarith
  · exact div_nonneg (by nlinarith) hpos.le
  · rw [← add_div, div_le_one hpos]; nlinarith

/-- The layers as the loop gets them. -/
def row (l : Layer n ℝ) : LayerIn n ℝ := ⟨⟨l.Rm, l.Tm, l.Sm, l.Rp, l.Tp, l.Sp⟩, fun _ => ⟨0, 0, 0, 0, 0, 0⟩, fun _ => (.U, .U)⟩

/-- What the layers together reflect, from below. -/
theorem two_reflect {a b r : Layer 1 ℝ} (h : Joined [a, b] r) {p t p' t' : ℝ} (a2 : a.Rp = num p)
    (a4 : a.Tp = num t) (b1 : b.Rm = num p') (b2 : b.Rp = num p') (b3 : b.Tm = num t') (b4 : b.Tp = num t')
    (hp : 1 - p * p' ≠ 0) : r.Rp 0 0 = p' + t' * (p * t' / (1 - p * p')) := by
  have v1 : ∀ (c : ℝ) (v : V 1), num c *ᵥ v = fun _ => c * v 0 := fun c v => by
    funext k; fin_cases k; simp [num, mulVec_diagonal]
  have ht : Through ([a, b].map hush) 0 (fun _ => t * (t' / (1 - p * p'))) (fun _ => p' + t' * (p * t' / (1 - p * p')))
      fun _ : Fin 1 => 1 := by
    refine ⟨fun _ => p * t' / (1 - p * p'), fun _ => t' / (1 - p * p'), ⟨?_, ?_⟩, _, _, ⟨?_, ?_⟩, rfl, rfl⟩
    · simp only [hush, a4, v1, mulVec_zero]; funext k; simp
    · simp only [hush, a2, v1, mulVec_zero]; funext k; simp [mul_div_assoc]
    · simp only [hush, b1, b4, v1]; funext k; simp; field_simp; ring
    · simp only [hush, b2, b3, v1]; funext k; simp; ring
  have := congrFun (joined_hush h ht).2 0
  simp [hush, mulVec, dotProduct] at this
  exact this.symm

example : ∃ (o : Nat → SunOut 1) (a : Nat → (Fin 1 ⊕ Fin 1 → ℝ) × (Fin 1 ⊕ Fin 1 → ℝ)) (l0 l1 : Layer 1 ℝ)
    (s' : Mat.Mem 1 ℝ) (z : Atm 1 ℝ) (out : Nat → Nat → Pair 1 ℝ) (B : Nat → ℝ),
    lay Real.exp inverseK (demoAir true true true (1 / 2)) true 1 demoMu demoW 0 (fun _ => 1) o a 0 = some l0 ∧
    lay Real.exp inverseK (demoAir true true true (1 / 2)) true 1 demoMu demoW 0 (fun _ => 1) o a 1 = some l1 ∧
    totalLoop Adding.idealInv 0 true [row l0, row l1] ⟨fun _ => 0, fun _ => 0⟩ = .ok s' ∧
    z.layer = both (vals frameAll s') ∧
    bothWays Adding.idealInv 0 2 (fun _ => (.U, .U)) true [0, 2] z (fun _ => z) (fun _ _ => 0) (fun _ => 0) = .ok out ∧
    solveBvp Real.exp ((demoAir true true true (1 / 2)).inp true 1 demoMu demoW o a) inverseK = some B ∧
    out 0 0 = output 1 (level Real.exp ((demoAir true true true (1 / 2)).inp true 1 demoMu demoW o a) B 0) := by
  obtain ⟨o, a, hf⟩ := demo_fine true true true (1 / 2)
  choose l hl using demo_lay true true true (1 / 2) o a
  obtain ⟨p, t, a1, a2, a3, a4, p0, p1, t0, t1⟩ := (hl 0).2
  obtain ⟨p', t', b1, b2, b3, b4, p0', p1', t0', t1'⟩ := (hl 1).2
  have hpp : 0 < 1 - p * p' := by nlinarith
  have hreg : Regular (l 1).Rm (l 0).Rp := by
    rw [b1, a2]
    refine ⟨num (1 - p * p')⁻¹, ?_⟩
    rw [num_mul, ← diagonal_one, show (diagonal (fun _ => 1) : M 1) = num 1 from rfl, num_sub, num_mul, mul_comm p',
      inv_mul_cancel₀ hpp.ne']
  obtain ⟨s', hs, hj⟩ := (Adding.C29_total (inv? := Adding.idealInv) Adding.idealInv_exact 0 (row (l 0)) [row (l 1)]
    (fun _ _ _ h => absurd h (Nat.not_lt_zero _)) ⟨fun _ => 0, fun _ => 0⟩).1 ⟨hreg, fun _ _ => trivial⟩
  set r := both (vals frameAll s') with hr
  set z : Atm 1 ℝ := ⟨r.Rp, r.Tp, r.Rm, r.Tm, r.Sp, r.Sm, fun _ _ => 1 / 2, fun _ => 2, fun _ => 1⟩ with hz
  have hjj : Joined [l 0, l 1] z.layer := hj
  have hR := two_reflect hjj a2 a4 b1 b2 b3 b4 hpp.ne'
  have hRlt : 0 ≤ z.Rp 0 0 ∧ z.Rp 0 0 ≤ 1 := by
    change z.Rp 0 0 = _ at hR
    rw [hR]
    have q : 0 ≤ p * t' / (1 - p * p') := div_nonneg (mul_nonneg p0 t0') hpp.le
    have q' : p * t' / (1 - p * p') ≤ 1 := by rw [div_le_one hpp]; nlinarith
    exact ⟨by positivity, by nlinarith⟩
  have hreg2 : Regular z.Rp z.Rs := by
    refine ⟨num (1 - z.Rp 0 0 * (1 / 2))⁻¹, ?_⟩
    have e : 1 - z.Rp * z.Rs = num (1 - z.Rp 0 0 * (1 / 2)) := num_ext (by
      have : z.Rs = num (1 / 2) := num_ext rfl
      rw [this]
      simp [Matrix.mul_apply, num])
    rw [e, num_mul, inv_mul_cancel₀ (by linarith [hRlt.2])]
    exact diagonal_one
  obtain ⟨out, hrun, -⟩ := C32_both_ways (inv? := Adding.idealInv) Adding.idealInv_exact hjj true (fun _ => hreg2) (nLayers := 2)
    (ul := [0, 2]) two_pos (by simp) (by simp) (by simp) 0 (fun _ => (.U, .U)) (fun _ => z) (fun _ _ => 0) fun _ => 0
  obtain ⟨B, hB, h0, -⟩ := C52_same (A := demoAir true true true (1 / 2)) (invA? := Adding.idealInv) (iFour := 0)
    (nCoef := fun _ => 1) (lays := l) exp_real (inv? := inverseK) (fun N => inverseK_exact) inverse_exact inverse_exact hf
    (fun i _ h => absurd h (by norm_num)) (fun i j => by rw [Bvp.sign_one, mul_one]) (fun i _ => (hl i).1) Adding.idealInv_exact
    (fun _ _ _ h => absurd h (Nat.not_lt_zero _)) (l := row (l 0)) (ls := [row (l 1)]) rfl hs (z := z) rfl rfl rfl rfl hrun
  exact ⟨o, a, l 0, l 1, s', z, out, B, (hl 0).1, (hl 1).1, hs, rfl, hrun, hB, h0⟩

/-! ### Derivatives of the sources -/

/-- The linearised sources of a layer are derivatives of the sources, for the
derivatives whose flags say that there are any; the others must not change
anything. -/
theorem C52_sources_deriv (solar thermal beam heat : Bool) (btran : ℝ → ℝ) (btran' : ℝ) (F Fl : ℝ → V n) (F' Fl' old : V n)
    (x : ℝ) (hb : HasDerivAt btran btran' x) (hF : VDeriv F F' x) (hl : VDeriv Fl Fl' x)
    (h1 : beam = false → btran' = 0 ∧ F' = 0) (h2 : heat = false → Fl' = 0) :
    VDeriv (fun y => scaleAdd solar thermal (btran y) (F y) (Fl y))
      (scaleAddL solar thermal beam heat true (btran x) btran' (F x) F' Fl' old) x := by
  intro i
  have hs : HasDerivAt (fun y => (btran y • F y) i) ((btran' • F x + btran x • F') i) x :=
    (hb.mul (hF i)).congr_deriv (by simp)
  unfold scaleAdd scaleAddL
  cases solar <;> cases thermal <;> cases beam <;> cases heat <;> simp_all
  all_goals first
    | exact hasDerivAt_const x (0 : ℝ)
    | exact hl i
    | exact hs
    | exact (hs.add (hl i)).congr_deriv (by simp)

end Xrtm.Whole
