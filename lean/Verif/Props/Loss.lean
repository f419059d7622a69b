import Verif.Proof.TameL
import Verif.Props.Whole

/-!
# C62: for an atmosphere that makes no light no solver fails
-/

namespace Xrtm.Whole

open Matrix Xrtm.Source Xrtm.Transfer Xrtm.Eig Xrtm.Bvp Xrtm.Spec
open Xrtm.Adding (Act LayerIn layersOf allExits totalLoop both vals frameAll frameRef mirrorOut RefCodes toaSurface toaBare
  boaLoop C29_total C29_toa C29_toa_surface C29_boa)
open Xrtm.Radiance (Atm bothWays Pair C32_both_ways Atm.layer Atm.base)

variable {n : Nat} {mu w : Fin n → ℝ}

/-- Phase matrices of a phase function, with an albedo of at most one, make no light. -/
theorem C62_normal {m : Medium n} (h : m.Normal) : m.Passive := h.passive

/-- There is at most one light in an atmosphere that makes none. -/
theorem C62_unique {S : Stack n} (hS : S.Passive mu w) {up dn up' dn' : Nat → ℝ → Fin n → ℝ} (h : S.Lit up dn)
    (h' : S.Lit up' dn') (i : Nat) (hi : i < S.L) : up i = up' i ∧ dn i = dn' i := by
  have hd : (darkS S).Lit (fun i τ => up i τ - up' i τ) fun i τ => dn i τ - dn' i τ := by
    refine ⟨fun i hi => carries_sub (h.layer i hi) (h'.layer i hi), fun i hi => ?_, ?_, ?_⟩
    · have e := h.meet i hi
      have e' := h'.meet i hi
      change up i (S.T i) - up' i (S.T i) = _ ∧ dn i (S.T i) - dn' i (S.T i) = _
      rw [e.1, e.2, e'.1, e'.2]
      exact ⟨rfl, rfl⟩
    · change dn 0 0 - dn' 0 0 = 0
      rw [h.sky, h'.sky, sub_self]
    · have e := h.ground
      have e' := h'.ground
      change up (S.L - 1) (S.T (S.L - 1)) - up' (S.L - 1) (S.T (S.L - 1)) =
        0 + S.Rs *ᵥ (dn (S.L - 1) (S.T (S.L - 1)) - dn' (S.L - 1) (S.T (S.L - 1)))
      rw [e, e', mulVec_sub]
      abel
  constructor <;> funext s
  · exact sub_eq_zero.1 (dark_zero hS hd i hi s).1
  · exact sub_eq_zero.1 (dark_zero hS hd i hi s).2

/-- Of the light that falls on a layer that makes none no more comes out than went in: the
fluxes of the squares. -/
theorem C62_share {m : Medium n} (hmu : ∀ j, 0 < m.mu j) (hm : m.Passive) {T : ℝ} (hT : 0 ≤ T) {l : Layer n ℝ}
    (h : m.Fills 0 0 T (hush l)) (a d : Fin n → ℝ) :
    ∑ j, m.w j * m.mu j * ((l.Rm *ᵥ a + l.Tp *ᵥ d) j ^ 2 + (l.Tm *ᵥ a + l.Rp *ᵥ d) j ^ 2) ≤
      ∑ j, m.w j * m.mu j * (a j ^ 2 + d j ^ 2) := by
  have := (fills_tame rfl rfl hmu hm hT h).loss a _ _ d (hush_obeys.2 ⟨rfl, rfl⟩)
  unfold power at this
  simp only [mul_add, Finset.sum_add_distrib]
  exact this

section stack
variable {S : Stack n} {lay : Nat → Layer n ℝ}

/-- Layers of a stack, one by one. -/
theorem stack_tame (hS : S.Passive mu w) (hf : ∀ i, i < S.L → (S.med i).Fills 0 0 (S.T i) (hush (lay i))) :
    ∀ l ∈ (List.range S.L).map lay, Tame mu w l := by
  intro l hl
  obtain ⟨i, hi, rfl⟩ := List.mem_map.1 hl
  have hi := List.mem_range.1 hi
  exact fills_tame (hS.dirs i hi).1 (hS.dirs i hi).2 hS.cos (hS.layer i hi) (hS.thick i hi) (hf i hi)

theorem ground_dull (hS : S.Passive mu w) : Dull mu w ⟨S.Rs, S.bot⟩ := hS.ground

variable {invA? : M n → Option (M n)} {nd : Nat}

/-- Layers of whatever make that are what their media are: adding them, and adding the ground
below them, comes to an end, and what is found is the light. -/
theorem C62_levels (hinv : Mat.Exact invA?) (hL : 1 ≤ S.L) (hS : S.Passive mu w)
    (hf : ∀ i, i < S.L → (S.med i).Fills (S.qp i) (S.qm i) (S.T i) (lay i))
    (hf0 : ∀ i, i < S.L → (S.med i).Fills 0 0 (S.T i) (hush (lay i)))
    {l : LayerIn n ℝ} {ls : List (LayerIn n ℝ)} (hc : ∀ l ∈ ls, ∀ i, i < nd → allExits (l.act i) = false)
    (hls : layersOf (l :: ls) = (List.range S.L).map lay) (s : Mat.Mem n ℝ) :
    ∃ s', totalLoop invA? nd true (l :: ls) s = .ok s' ∧
      ∀ (z : Atm n ℝ) (surface : Bool), z.layer = both (vals frameAll s') → z.base surface = ⟨S.Rs, S.bot⟩ → z.I1 = S.top →
      ∀ (act : Nat → Act × Act) (d : Nat → Atm n ℝ) (old : Nat → Nat → Pair n ℝ) (work : Nat → Pair n ℝ),
      ∃ out, bothWays invA? nd S.L act surface [0, S.L] z d old work = .ok out ∧
        ∀ up dn : Nat → ℝ → V n, S.Lit up dn →
          out 0 0 = (S.on up 0, S.on dn 0) ∧ out 1 0 = (S.on up S.L, S.on dn S.L) := by
  have ht := stack_tame hS hf0
  rw [← hls] at ht
  obtain ⟨s', tot, hj⟩ := (C29_total hinv nd l ls hc s).1
    (tame_clearDown hS.cos hS.weight (ht _ (by simp [layersOf])) fun l' h' => ht l' (by
      simp only [layersOf, List.map_cons, List.mem_cons] at h' ⊢
      exact .inr h'))
  refine ⟨s', tot, fun z surface hz hb hI act d old work => ?_⟩
  have hj' : Joined (layersOf (l :: ls)) z.layer := by rw [hz]; exact hj
  have hr : surface = true → Regular z.Rp z.Rs := by
    rintro rfl
    have e : z.Rs = S.Rs := congrArg Mirror.R hb
    rw [e]
    exact tame_mirror' hS.cos hS.weight (joined_tame ht hj') hS.ground
  obtain ⟨out, run, -⟩ := C32_both_ways hinv hj' surface hr (ul := [0, S.L]) (by omega : 0 < S.L)
    (by simp; omega) (by simp) (by simp) nd act d old work
  exact ⟨out, run, fun up dn h => C52_levels hinv hL hf hc hls tot hz hb hI run h⟩

/-- Bottom up over the ground. -/
theorem C62_toa_surface (hinv : Mat.Exact invA?) (hS : S.Passive mu w)
    (hf : ∀ i, i < S.L → (S.med i).Fills 0 0 (S.T i) (hush (lay i))) (Rl : Nat → M n) (Sl : Nat → V n)
    (al : Nat → Act) {ls : List (LayerIn n ℝ)} (hc : RefCodes false nd ls)
    (hls : layersOf ls = (List.range S.L).map lay) (s : Mat.Mem n ℝ) :
    ∃ s', toaSurface invA? nd S.Rs S.bot Rl Sl al ls s = .ok s' ∧
      Resting ((List.range S.L).map lay) ⟨S.Rs, S.bot⟩ (mirrorOut (vals frameRef s')) := by
  have ht := stack_tame hS hf
  rw [← hls] at ht ⊢
  exact (C29_toa_surface hinv nd S.Rs S.bot Rl Sl al ls hc s).1
    (tame_clearUp hS.cos hS.weight (ground_dull hS) fun l hl => ht l (List.mem_reverse.1 hl))

/-- Bottom up over nothing. -/
theorem C62_toa (hinv : Mat.Exact invA?) (hS : S.Passive mu w)
    (hf : ∀ i, i < S.L → (S.med i).Fills 0 0 (S.T i) (hush (lay i))) {ls : List (LayerIn n ℝ)} {l : LayerIn n ℝ}
    (hc : RefCodes false nd ls) (hls : layersOf (ls ++ [l]) = (List.range S.L).map lay) (s : Mat.Mem n ℝ) :
    ∃ s', toaBare invA? nd (ls ++ [l]) s = .ok s' ∧
      Resting ((List.range S.L).map lay) Mirror.dark (mirrorOut (vals frameRef s')) := by
  have ht := stack_tame hS hf
  rw [← hls] at ht ⊢
  refine (C29_toa hinv nd ls l hc s).1 (tame_clearUp hS.cos hS.weight (fun v => ?_) fun l' hl => ht l' ?_)
  · exact (ht l.ops.layer (by simp [layersOf])).rm hS.cos hS.weight v
  · simp only [layersOf, List.map_append, List.mem_append] at hl ⊢
    exact .inl (List.mem_reverse.1 hl)

/-- Top down. -/
theorem C62_boa (hinv : Mat.Exact invA?) (hS : S.Passive mu w)
    (hf : ∀ i, i < S.L → (S.med i).Fills 0 0 (S.T i) (hush (lay i))) {ls : List (LayerIn n ℝ)} {l : LayerIn n ℝ}
    (hc : RefCodes true nd ls) (hls : layersOf (l :: ls) = (List.range S.L).map lay) (s : Mat.Mem n ℝ) :
    ∃ s', boaLoop invA? nd true (l :: ls) s = .ok s' ∧
      Hanging ((List.range S.L).map lay) (mirrorOut (vals frameRef s')) := by
  have ht := stack_tame hS hf
  rw [← hls] at ht ⊢
  refine (C29_boa hinv nd l ls hc s).1 (tame_clearUp hS.cos hS.weight (fun v => ?_) fun l' hl => ?_)
  · exact ((ht l.ops.layer (by simp [layersOf])).rp hS.cos hS.weight v).1
  · obtain ⟨k, hk, rfl⟩ := List.mem_map.1 hl
    refine (ht k ?_).flip
    simp only [layersOf, List.map_cons, List.mem_cons] at hk ⊢
    exact .inr hk

end stack

/-! ### The solvers of the code -/

section air
variable {K : Type} [RCLike K] {ex : K → K}
  {inv? : {N : Nat} → Matrix (Fin N) (Fin N) K → Option (Matrix (Fin N) (Fin N) K)}
  {A : Air n K} {first : Bool} {ns : Nat} {mu w : V n} {o : Nat → SunOut n}
  {a : Nat → (Fin n ⊕ Fin n → ℝ) × (Fin n ⊕ Fin n → ℝ)} {inv1? : M n → Option (M n)}
  {inv2? : Matrix (Fin n ⊕ Fin n) (Fin n ⊕ Fin n) ℝ → Option (Matrix (Fin n ⊕ Fin n) (Fin n ⊕ Fin n) ℝ)}
  {iFour : Nat} {nCoef : Nat → Nat}

/-- The boundary value solver finds the light, and there is no other. -/
theorem C62_bvp (he : IsExp ex) (hex : ExactAll inv?) (hex1 : Source.Exact inv1?) (hex2 : Source.Exact inv2?)
    (h : A.Fine first ns mu w o a inv1? inv2?) (hS : (A.stack first ns mu w).Passive mu w) :
    ∃ B, solveBvp ex (A.inp first ns mu w o a) inv? = some B ∧
      ∃ up dn, (A.stack first ns mu w).Lit up dn ∧
        (∀ lev, lev ≤ A.L → output ns (level ex (A.inp first ns mu w o a) B lev) =
          ((A.stack first ns mu w).on up lev, (A.stack first ns mu w).on dn lev)) ∧
        ∀ up' dn', (A.stack first ns mu w).Lit up' dn' → ∀ i, i < A.L → up' i = up i ∧ dn' i = dn i := by
  obtain ⟨B, hB⟩ := passive_solves he hex (air_posed hex1 hex2 h) hS
  obtain ⟨up, dn, hl⟩ := C51_exists he hex hex1 hex2 h hB
  exact ⟨B, hB, up, dn, hl, fun lev hlev => C51_levels he hex hex1 hex2 h hB hl lev hlev,
    fun up' dn' hl' i hi => C62_unique hS hl' hl i hi⟩

/-- The eigenmatrix solver makes reflection and transmission of a layer, if its eigenvalues are
not negative. -/
theorem C62_layer (he : IsExp ex) {inv? : Matrix (Fin n) (Fin n) K → Option (Matrix (Fin n) (Fin n) K)}
    (hex : Eig.Exact inv?) (hns : 0 < ns) (hmu : ∀ i, 0 < mu i) (hw : ∀ i, 0 < w i) {om T : ℝ} (hT : 0 ≤ T)
    {Ppp Pmp Pmm Ppm : M n} (hm : (Medium.of first mu w om Ppp Pmp Pmm Ppm).Mirrored ns)
    (hp : (Medium.of first mu w om Ppp Pmp Pmm Ppm).Passive) {nu : Fin n → K} {Q : Matrix (Fin n) (Fin n) K}
    (hs : Eig.Solved first ns mu w om Ppp Pmp nu Q) (hre : ∀ i, 0 < RCLike.re (nu i)) :
    ∃ r, solver ex inv? first ns mu w om T Ppp Pmp nu Q = some r :=
  rt_passive he hex hT hns hmu hw hm hp hs hre

/-- The whole run of the adding solver over the layers of the eigenmatrix solver comes to an
end and gives the light; each layer without scattering must be without emission (C52: the
process ends there). -/
theorem C62_adding (he : IsExp ex) (hex : ExactAll inv?) (hex1 : Source.Exact inv1?) (hex2 : Source.Exact inv2?)
    (h : A.Fine first ns mu w o a inv1? inv2?) (hbe : Beyond A iFour nCoef)
    (hS : (A.stack first ns mu w).Passive mu w) (hre : ∀ i, i < A.L → ∀ k, 0 < RCLike.re ((A.c i).nu k))
    (hth : A.thermal = true → ∀ i, i < A.L → (A.c i).om ≠ 0 ∧ iFour < nCoef i)
    (hRs : ∀ i j, A.Rs i j * stokesSign ns j = A.Rs i j) {invA? : M n → Option (M n)} (hinv : Mat.Exact invA?) :
    ∃ lays : Nat → Layer n ℝ, (∀ i, i < A.L → lay ex inv? A first ns mu w iFour nCoef o a i = some (lays i)) ∧
      ∀ (nd : Nat) (l : LayerIn n ℝ) (ls : List (LayerIn n ℝ)), (∀ l ∈ ls, ∀ i, i < nd → allExits (l.act i) = false) →
      layersOf (l :: ls) = (List.range A.L).map lays → ∀ s : Mat.Mem n ℝ,
      ∃ s', totalLoop invA? nd true (l :: ls) s = .ok s' ∧
        ∀ z : Atm n ℝ, z.layer = both (vals frameAll s') → z.Rs = A.Rs → z.In = A.ground → z.I1 = A.above →
        ∀ (act : Nat → Act × Act) (d : Nat → Atm n ℝ) (old : Nat → Nat → Pair n ℝ) (work : Nat → Pair n ℝ),
        ∃ out up dn, bothWays invA? nd A.L act A.surface [0, A.L] z d old work = .ok out ∧
          (A.stack first ns mu w).Lit up dn ∧
          out 0 0 = ((A.stack first ns mu w).on up 0, (A.stack first ns mu w).on dn 0) ∧
          out 1 0 = ((A.stack first ns mu w).on up A.L, (A.stack first ns mu w).on dn A.L) := by
  have made : ∀ i, i < A.L → ∃ l, lay ex inv? A first ns mu w iFour nCoef o a i = some l := by
    intro i hi
    unfold lay layer
    split_ifs with hno
    · cases ht : A.thermal with
      | true =>
        exfalso
        have := hth ht i hi
        rcases hno with h0 | h0
        · exact this.1 h0
        · omega
      | false => exact ⟨_, rfl⟩
    · obtain ⟨r, hr⟩ := C62_layer he (hex n) h.stokes hS.cos hS.weight (hS.thick i hi) (h.same i hi) (hS.layer i hi)
        (h.eig i hi) (hre i hi)
      have e : (A.stack first ns mu w).T i = A.T i := rfl
      rw [e] at hr
      rw [hr]
      exact ⟨_, rfl⟩
  haveI : Nonempty (Layer n ℝ) := ⟨⟨0, 0, 0, 0, 0, 0⟩⟩
  choose! lays hl using made
  refine ⟨lays, hl, fun nd l ls hc hls s => ?_⟩
  obtain ⟨s', tot, fin⟩ := C62_levels (S := A.stack first ns mu w) hinv h.one hS
    (fun i hi => (C52_layer he hex hex1 hex2 h hbe hi (hl i hi)).1)
    (fun i hi => (C52_layer he hex hex1 hex2 h hbe hi (hl i hi)).2) hc hls s
  refine ⟨s', tot, fun z hz hzR hzI hz1 act d old work => ?_⟩
  obtain ⟨out, run, h1⟩ := fin z A.surface hz (base_eq hRs hzR hzI) hz1 act d old work
  obtain ⟨B, -, up, dn, hlit, -⟩ := C62_bvp he hex hex1 hex2 h hS
  exact ⟨out, up, dn, run, hlit, h1 up dn hlit⟩

end air

/-! ### Two layers, the sun, emission and a ground that reflects half -/

theorem demo_passive (solar thermal surface : Bool) (r : ℝ) (h0 : 0 ≤ r) (h1 : r ≤ 1) :
    ((demoAir solar thermal surface r).stack true 1 demoMu demoW).Passive demoMu demoW := by
  refine ⟨fun j => by norm_num [demoMu], fun j => by norm_num [demoW], fun i _ => zero_le_one, fun i _ => ⟨rfl, rfl⟩,
    fun i _ => Medium.Normal.passive ?_, fun d => ?_⟩
  · have hk : (((demoAir solar thermal surface r).stack true 1 demoMu demoW).med i).k = 3 / 8 := by
      change 3 / 4 / (4 * Real.pi) * (2 * Real.pi) = 3 / 8
      have := Real.pi_ne_zero
      field_simp
      norm_num
    have one : ∀ i j : Fin 1, (1 : M 1) i j = 1 := fun i j => by rw [Subsingleton.elim i j]; simp
    refine ⟨by rw [hk]; norm_num, fun j => zero_le_one, fun i j => ?_, fun i j => ?_, fun i => ?_, fun i => ?_⟩
    · change 0 ≤ (1 : M 1) i j ∧ 0 ≤ (1 : M 1) i j ∧ 0 ≤ (1 : M 1) i j ∧ 0 ≤ (1 : M 1) i j
      simp [one]
    · change (1 : M 1) i j = (1 : M 1) j i ∧ (1 : M 1) i j = (1 : M 1) j i ∧ (1 : M 1) i j = (1 : M 1) j i
      simp [one]
    · rw [hk]
      change 3 / 8 * ∑ j : Fin 1, (1 : ℝ) * ((1 : M 1) i j + (1 : M 1) i j) ≤ 1
      simp [one]; norm_num
    · rw [hk]
      change 3 / 8 * ∑ j : Fin 1, (1 : ℝ) * ((1 : M 1) i j + (1 : M 1) i j) ≤ 1
      simp [one]; norm_num
  · cases surface with
    | false =>
      have : ((demoAir solar thermal false r).stack true 1 demoMu demoW).Rs = 0 := by
        simp [Air.stack, demoAir]
      rw [this]
      simp [demoMu, demoW]
      positivity
    | true =>
      have : ((demoAir solar thermal true r).stack true 1 demoMu demoW).Rs = num r := num_ext (by
        simp [Air.stack, demoAir, num, stokesSign])
      rw [this]
      simp [demoMu, demoW, num, mulVec_diagonal]
      have : r ^ 2 ≤ 1 := by nlinarith
      nlinarith [sq_nonneg (d 0)]

example : ∃ (o : Nat → SunOut 1) (a : Nat → (Fin 1 ⊕ Fin 1 → ℝ) × (Fin 1 ⊕ Fin 1 → ℝ)) (lays : Nat → Layer 1 ℝ)
    (s' : Mat.Mem 1 ℝ),
    (∀ i, i < 2 → lay Real.exp inverseK (demoAir true true true (1 / 2)) true 1 demoMu demoW 0 (fun _ => 1) o a i =
      some (lays i)) ∧
    totalLoop Adding.idealInv 0 true [row (lays 0), row (lays 1)] ⟨fun _ => 0, fun _ => 0⟩ = .ok s' := by
  obtain ⟨o, a, hf⟩ := demo_fine true true true (1 / 2)
  obtain ⟨lays, h1, h2⟩ := C62_adding (A := demoAir true true true (1 / 2)) (iFour := 0) (nCoef := fun _ => 1) exp_real
    (inv? := inverseK) (fun N => inverseK_exact) inverse_exact inverse_exact hf (fun i _ h => absurd h (by norm_num))
    (demo_passive true true true (1 / 2) (by norm_num) (by norm_num)) (fun i _ k => one_pos)
    (fun _ i _ => ⟨by norm_num [demoAir], Nat.zero_lt_one⟩) (fun i j => by rw [Bvp.sign_one, mul_one])
    (invA? := Adding.idealInv) Adding.idealInv_exact
  obtain ⟨s', tot, -⟩ := h2 0 (row (lays 0)) [row (lays 1)] (fun _ _ _ h => absurd h (Nat.not_lt_zero _)) rfl
    ⟨fun _ => 0, fun _ => 0⟩
  exact ⟨o, a, lays, s', h1, tot⟩

example : ∃ o a, ∃ B, solveBvp Real.exp ((demoAir true true true 1).inp true 1 demoMu demoW o a) inverseK = some B := by
  obtain ⟨o, a, hf⟩ := demo_fine true true true 1
  obtain ⟨B, hB, -⟩ := C62_bvp exp_real (inv? := inverseK) (fun N => inverseK_exact) inverse_exact inverse_exact hf
    (demo_passive true true true 1 (by norm_num) (by norm_num))
  exact ⟨o, a, B, hB⟩

/-- The bound on the ground is needed: one that gives back more than it gets, over a layer that
lets light through, has no answer. -/
example : ∃ R : Matrix (Fin 1) (Fin 1) ℝ, ∃ l : Layer 1 ℝ, Tame (fun _ => 1) (fun _ => 1) l ∧ ¬ Regular l.Rp R := by
  refine ⟨num 2, ⟨num (1 / 2), num (1 / 2), 0, num (1 / 2), num (1 / 2), 0⟩, ⟨fun a b c d h => ?_, fun a h => ?_, fun a h => ?_⟩, ?_⟩
  · rw [hush_obeys] at h
    have h1 := congrFun h.1 0
    have h2 := congrFun h.2 0
    simp [num, mulVec_diagonal] at h1 h2
    simp [power, h1, h2]
    nlinarith [sq_nonneg (a 0 - d 0)]
  · have := congrFun h 0
    simp [num, mulVec_diagonal] at this
    funext k
    rw [Subsingleton.elim k 0]; exact this
  · have := congrFun h 0
    simp [num, mulVec_diagonal] at this
    funext k
    rw [Subsingleton.elim k 0]; exact this
  · rintro ⟨q, hq⟩
    have := congrFun (congrFun hq 0) 0
    simp [num, Matrix.mul_apply] at this

end Xrtm.Whole
