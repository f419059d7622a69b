import Verif.Proof.MemBvpLight

/-! The light of a stack meets the conditions of the matrix exponential solver. -/

namespace Xrtm.MemBvp
open Matrix Xrtm.Spec Xrtm.Transfer Xrtm.Source Xrtm.Eig Xrtm.Bvp

variable {n : Nat} {K : Type} [RCLike K] {ex : K → K}
  {inv? : {N : Nat} → Matrix (Fin N) (Fin N) K → Option (Matrix (Fin N) (Fin N) K)}

theorem ex_mul (he : IsExp ex) (c : K) (x y : ℝ) : ex (c * ((x + y : ℝ) : K)) = ex (c * x) * ex (c * y) := by
  have := mode he (c := -c) (f := fun s : ℝ => ex (c * ((s + y : ℝ) : K))) (fun s => by
    have h1 : HasDerivAt (fun s : ℝ => c * ((s + y : ℝ) : K)) (c * ((1 : ℝ) : K)) s :=
      (cast_hasDeriv ((hasDerivAt_id s).add_const y)).const_mul c
    refine (he.along h1).congr_deriv ?_
    push_cast; ring) x
  rw [neg_neg, zero_add] at this
  exact this

/-- The inputs are those of the stack. -/
structure Posed (first : Bool) (ns : Nat) (mu w : Source.V n) (c : Nat → Content n K) (as0 : Nat → ℝ)
    (z : Inp n K) (S : Stack n) : Prop where
  one : 1 ≤ z.L
  L : S.L = z.L
  hns : 0 < ns
  hmu : ∀ i, mu i ≠ 0
  med : ∀ i, i < z.L → S.med i = (c i).medium first mu w
  mirrored : ∀ i, i < z.L → (S.med i).Mirrored ns
  solved : ∀ i, i < z.L → (c i).Solved first ns mu w
  modes : ∀ i, i < z.L → z.m i = (c i).modes first ns mu w
  T : ∀ i, i < z.L → S.T i = z.ltau i
  thick : ∀ i, i < z.L → z.ltau i ≠ 0
  ns_eq : z.ns = ns
  qx : z.qx = mu
  omega : ∀ i, i < z.L → z.omega i = (c i).om
  btran : ∀ i, i ≤ z.L → z.btran i = Real.exp (-z.btau i)
  step : ∀ i, i < z.L → z.btau (i + 1) - z.btau i = as0 i * z.ltau i
  qp : ∀ i, i < z.L → ∀ τ j, S.qp i τ j = z.btran i * beamSource z.F0 (c i).om (as0 i) (z.P0pm i) τ j
  qm : ∀ i, i < z.L → ∀ τ j, S.qm i τ j = z.btran i * beamSource z.F0 (c i).om (as0 i) (z.P0mm i) τ j
  top : S.top = 0
  bot : z.Inp = S.bot
  refl : ∀ g : Source.V n, S.Rs *ᵥ g = if z.surface then z.Rs *ᵥ turn ns g else 0

variable {first : Bool} {ns : Nat} {mu w : Source.V n} {c : Nat → Content n K} {as0 : Nat → ℝ} {z : Inp n K}
  {S : Stack n}

theorem sigM_eq (z : Inp n K) (i : Nat) (j : Fin n) :
    sigM z i j = -(stokesSign z.ns j * (scat z i j * z.P0mm i j)) := by
  unfold sigM stokesSign
  by_cases h : 1 < j.val % z.ns
  · simp only [if_pos h, if_pos (show 2 ≤ j.val % z.ns from h)]; ring
  · simp only [if_neg h, if_neg (show ¬2 ≤ j.val % z.ns from h)]; ring

/-- The matrices of a layer and their inverses. -/
theorem layer_inv (hp : Posed first ns mu w c as0 z S) (hex : ExactAll inv?) (hs : Safe z inv?) {i : Nat}
    (hi' : i < z.L) :
    let v := inverses z inv?
    let x := txr ns (localRT first mu w (c i).om (c i).Ppp (c i).Pmp).1 (localRT first mu w (c i).om (c i).Ppp (c i).Pmp).2
    v.a i * ((z.m i).Xp - (z.m i).Xm) = 1 ∧ v.b i * ((z.m i).Xp + (z.m i).Xm) = 1 ∧
    ((z.m i).Xp - (z.m i).Xm) * v.a i = 1 ∧ ((z.m i).Xp + (z.m i).Xm) * v.b i = 1 ∧
    ((z.m i).Xp - (z.m i).Xm) * diagonal (z.m i).nu = (x.1.map fun z : ℝ => (z : K)) * ((z.m i).Xp + (z.m i).Xm) ∧
    (x.2.map fun z : ℝ => (z : K)) * ((z.m i).Xp - (z.m i).Xm) = ((z.m i).Xp + (z.m i).Xm) * diagonal (z.m i).nu := by
  intro v x
  obtain ⟨h1, h2⟩ := inverses_ok hex hs hi'
  refine ⟨mul_eq_one_comm.1 h1, mul_eq_one_comm.1 h2, h1, h2, ?_⟩
  obtain ⟨-, hnu, hE⟩ := hp.solved i hi'
  dsimp only at hE
  rw [← gamma_map] at hE
  have hm := (modes_WV hnu hE).2
  rw [hp.modes i hi']
  exact hm

/-- The modes of the light, at every depth. -/
theorem light_layer (he : IsExp ex) (hex : ExactAll inv?) (hp : Posed first ns mu w c as0 z S) (hs : Safe z inv?)
    {up' dn' : Nat → ℝ → Source.V n} (hl : S.Lit up' dn') {i : Nat} (hi' : i < z.L) :
    let v := inverses z inv?
    let U : ℝ → Fin n → K := fun s => up (up' i s)
    let D : ℝ → Fin n → K := fun s => up (turn ns (dn' i s))
    ∀ s j, lo v (U s) (D s) i j = alpha1 ex z i s j * lo v (U 0) (D 0) i j - beta1At ex z i s j * vc z v i j ∧
      hi v (U s) (D s) i j = alpha2 ex z i s j * hi v (U (z.ltau i)) (D (z.ltau i)) i j +
        beta2At ex z i s j * vd z v i j := by
  intro v U D s j
  obtain ⟨ha, hb, -, -, hW, hV⟩ := layer_inv hp hex hs hi'
  have hc := hl.layer i (by rw [hp.L]; exact hi')
  have hm := hp.mirrored i hi'
  rw [hp.med i hi'] at hc hm
  have ht := carries_turned (K := K) hp.hns hp.hmu hm hc
  have hT : (z.ltau i : K) ≠ 0 := by exact_mod_cast hp.thick i hi'
  have hTr := hp.thick i hi'
  set as : K := (as0 i : K) with has
  have hst : (z.btau (i + 1) : K) - (z.btau i : K) = as * (z.ltau i : K) := by
    rw [← RCLike.ofReal_sub, hp.step i hi']; push_cast; rfl
  have hd1 : ∀ j, den1 z i j = (as - (z.m i).nu j) * z.ltau i := fun j => by
    unfold den1; rw [hst]; ring
  have hd2 : ∀ j, den2 z i j = (-as - (z.m i).nu j) * z.ltau i := fun j => by
    unfold den2; linear_combination -hst
  have h1 : ∀ j, (z.m i).nu j - as ≠ 0 := fun j h => (hs i hi').2.2 j |>.1 (by
    rw [hd1, show as - (z.m i).nu j = 0 by linear_combination -h, zero_mul])
  have h2 : ∀ j, -(z.m i).nu j - as ≠ 0 := fun j h => (hs i hi').2.2 j |>.2 (by
    rw [hd2, show -as - (z.m i).nu j = 0 by linear_combination h, zero_mul])
  set bt : K := (z.btran i : K) / (z.ltau i : K) with hbt
  have hexp : ∀ τ : ℝ, ex (-as * (τ : K)) = (Real.exp (-as0 i * τ) : K) := fun τ => by
    rw [← ex_real he]; push_cast; rfl
  have hsp : ∀ τ j, ((S.qp i τ j / mu j : ℝ) : K) = bt * ex (-as * (τ : K)) * up (sigP z i) j := fun τ j => by
    have hr : S.qp i τ j / mu j = z.btran i / z.ltau i * Real.exp (-as0 i * τ) * sigP z i j := by
      rw [hp.qp i hi']
      unfold beamSource sigP scat
      rw [hp.qx, hp.omega i hi']
      have := hp.hmu j
      have := Real.pi_ne_zero
      field_simp
    rw [hr, hexp, hbt]; unfold up; push_cast; ring
  have hsm : ∀ τ j, ((turn ns (S.qm i τ) j / mu j : ℝ) : K) = -(bt * ex (-as * (τ : K)) * up (sigM z i) j) := fun τ j => by
    have hr : turn ns (S.qm i τ) j / mu j = -(z.btran i / z.ltau i * Real.exp (-as0 i * τ) * sigM z i j) := by
      rw [turn_apply, hp.qm i hi', sigM_eq, hp.ns_eq]
      unfold beamSource scat
      rw [hp.qx, hp.omega i hi']
      have := hp.hmu j
      have := Real.pi_ne_zero
      field_simp
    rw [hr, hexp, hbt]; unfold up; push_cast; ring
  have key := layer_forced he ha hb hW hV (U := U) (D := D) (sp := up (sigP z i)) (sm := up (sigM z i)) (as := as)
    (bt := bt) h1 h2 (fun τ j => by
      refine (show HasDerivAt _ (-(((txr ns (localRT first mu w (c i).om (c i).Ppp (c i).Pmp).1
        (localRT first mu w (c i).om (c i).Ppp (c i).Pmp).2).1.map fun z : ℝ => (z : K)) *ᵥ (U τ - D τ)) j -
        (((S.qp i τ j - turn ns (S.qm i τ) j) / mu j : ℝ) : K)) τ from (ht τ j).1).congr_deriv ?_
      rw [sub_div, RCLike.ofReal_sub, hsp, hsm]
      simp only [Pi.add_apply]
      ring) (fun τ j => by
      refine (show HasDerivAt _ (-(((txr ns (localRT first mu w (c i).om (c i).Ppp (c i).Pmp).1
        (localRT first mu w (c i).om (c i).Ppp (c i).Pmp).2).2.map fun z : ℝ => (z : K)) *ᵥ (U τ + D τ)) j -
        (((S.qp i τ j + turn ns (S.qm i τ) j) / mu j : ℝ) : K)) τ from (ht τ j).2).congr_deriv ?_
      rw [add_div, RCLike.ofReal_add, hsp, hsm]
      simp only [Pi.sub_apply]
      ring)
  have evc : lo v (up (sigP z i)) (up (sigM z i)) i = vc z v i := rfl
  have evd : hi v (up (sigP z i)) (up (sigM z i)) i = vd z v i := add_comm _ _
  have hb0 := hp.btran i hi'.le
  have hb1 := hp.btran (i + 1) hi'
  have hbeam : ∀ s : ℝ, beamAt ex z i s = (z.btran i : K) * ex (-as * s) := fun s => by
    unfold beamAt
    have : (-((1 - (s : K) / (z.ltau i : K)) * (z.btau i : K) + (s : K) / (z.ltau i : K) * (z.btau (i + 1) : K))) =
        -((z.btau i : K) + as * (s : K)) := by
      have e : (z.btau (i + 1) : K) = (z.btau i : K) + as * (z.ltau i : K) := by linear_combination hst
      rw [e]; field_simp; ring
    rw [this, ex_shift he, ← hb0]
  constructor
  · rw [(key s j).1, evc]
    unfold alpha1 beta1At
    dsimp only
    rw [ex_shift he, ← hb0, hbeam, hd1, hbt]
    have := h1 j
    have : as - (z.m i).nu j ≠ 0 := fun h => this (by linear_combination -h)
    field_simp
    ring
  · rw [(key s j).2, (key (z.ltau i) j).2, evd]
    unfold alpha2 beta2At
    dsimp only
    rw [ex_shift he, ← hb1, hbeam, hd2, hbt]
    have hbb : (z.btran (i + 1) : K) = (z.btran i : K) * ex (-as * (z.ltau i : K)) := by
      rw [hexp, hb0, hb1, ← RCLike.ofReal_mul, ← Real.exp_add]
      congr 2
      linear_combination -(hp.step i hi')
    have hE : ex ((z.m i).nu j * (s : K)) = ex ((z.m i).nu j * (z.ltau i : K)) *
        ex (-(z.m i).nu j * ((z.ltau i - s : ℝ) : K)) := by
      have h3 : -(z.m i).nu j * ((z.ltau i - s : ℝ) : K) = (z.m i).nu j * ((s - z.ltau i : ℝ) : K) := by push_cast; ring
      rw [h3, ← ex_mul he]; congr 2; push_cast; ring
    rw [hbb, hE]
    have := h2 j
    have : -as - (z.m i).nu j ≠ 0 := fun h => this (by linear_combination h)
    have : as + (z.m i).nu j ≠ 0 := fun h => this (by linear_combination -h)
    field_simp
    ring

theorem alpha_ends (he : IsExp ex) (hp : Posed first ns mu w c as0 z S) {i : Nat} (hi' : i < z.L) (j : Fin n) :
    alpha1 ex z i (z.ltau i) j = alpha ex z i j ∧ alpha2 ex z i 0 j = alpha ex z i j ∧
    beta1At ex z i (z.ltau i) j = beta1 ex z i j ∧ beta2At ex z i 0 j = beta2 ex z i j ∧
    alpha1 ex z i 0 j = 1 ∧ alpha2 ex z i (z.ltau i) j = 1 := by
  have hT : (z.ltau i : K) ≠ 0 := by exact_mod_cast hp.thick i hi'
  have hb0 := hp.btran i hi'.le
  have hb1 := hp.btran (i + 1) hi'
  have er : ∀ r : ℝ, ex (-(r : K)) = (Real.exp (-r) : K) := fun r => by rw [← RCLike.ofReal_neg, ex_real he]
  refine ⟨rfl, ?_, ?_, ?_, ?_, ?_⟩
  · unfold alpha2 alpha; rw [sub_zero]
  · unfold beta1At beta1 alpha beamAt
    dsimp only
    rw [ex_shift he, div_self hT]
    have : (-((1 - 1 : K) * (z.btau i : K) + 1 * (z.btau (i + 1) : K))) = -(z.btau (i + 1) : K) := by ring
    rw [this, er, ← hb0, ← hb1]
  · unfold beta2At beta2 alpha beamAt
    dsimp only
    rw [ex_shift he, sub_zero]
    have : (-((1 - ((0 : ℝ) : K) / (z.ltau i : K)) * (z.btau i : K) + ((0 : ℝ) : K) / (z.ltau i : K) * (z.btau (i + 1) : K))) =
        -(z.btau i : K) := by rw [RCLike.ofReal_zero]; ring
    rw [this, er, ← hb0, ← hb1]
  · unfold alpha1; rw [RCLike.ofReal_zero, mul_zero, he.zero]
  · unfold alpha2; rw [sub_self, RCLike.ofReal_zero, mul_zero, he.zero]

theorem refl_light (hp : Posed first ns mu w c as0 z S) (g : Source.V n) (j : Fin n) :
    refl z (up (turn ns g)) j = ((S.Rs *ᵥ g) j : K) := by
  rw [hp.refl]
  unfold refl
  split_ifs with h
  · simp only [mulVec, dotProduct, up]; push_cast; rfl
  · simp

/-- Unknowns put together from the light at the levels. -/
theorem gather (a b : Nat → Fin n → K) : ∃ B : Nat → K, ∀ i, at_ B i = (a i, b i) := by
  obtain ⟨B, hB⟩ := collect a b
  exact ⟨B, fun i => Prod.ext (hB i).1 (hB i).2⟩

/-- The light of the stack meets the conditions. -/
theorem lit_meets (he : IsExp ex) (hex : ExactAll inv?) (hp : Posed first ns mu w c as0 z S) (hs : Safe z inv?)
    {up' dn' : Nat → ℝ → Source.V n} (hl : S.Lit up' dn') {B : Nat → K}
    (hB : ∀ lev, lev ≤ z.L → at_ B lev = (up (S.on up' lev), up (turn ns (S.on dn' lev)))) :
    Meets ex z (inverses z inv?) B := by
  have hone := hp.one
  have hon : ∀ f : Nat → ℝ → Source.V n, ∀ i, i < z.L → S.on f i = f i 0 := fun f i h => by
    unfold Stack.on; rw [if_pos (by rw [hp.L]; exact h)]
  have onU : ∀ i, i < z.L → S.on up' (i + 1) = up' i (z.ltau i) := fun i h => by
    unfold Stack.on
    split_ifs with h2
    · rw [← (hl.meet i h2).1, hp.T i h]
    · rw [hp.L] at *
      have : z.L - 1 = i := by omega
      rw [this, hp.T i h]
  have onD : ∀ i, i < z.L → S.on dn' (i + 1) = dn' i (z.ltau i) := fun i h => by
    unfold Stack.on
    split_ifs with h2
    · rw [← (hl.meet i h2).2, hp.T i h]
    · rw [hp.L] at *
      have : z.L - 1 = i := by omega
      rw [this, hp.T i h]
  refine ⟨fun j => ?_, fun i h j => ?_, fun i h j => ?_, fun j => ?_⟩
  · rw [hB 0 (by omega)]
    dsimp only
    rw [hon _ 0 (by omega), hl.sky, hp.top, turn_zero]
    simp [up]
  · rw [hB i (by omega), hB (i + 1) (by omega)]
    dsimp only
    rw [hon _ i h, hon _ i h, onU i h, onD i h]
    have := (light_layer he hex hp hs hl h (z.ltau i) j).1
    rw [(alpha_ends he hp h j).1, (alpha_ends he hp h j).2.2.1] at this
    linear_combination -this
  · rw [hB i (by omega), hB (i + 1) (by omega)]
    dsimp only
    rw [hon _ i h, hon _ i h, onU i h, onD i h]
    have := (light_layer he hex hp hs hl h 0 j).2
    rw [(alpha_ends he hp h j).2.1, (alpha_ends he hp h j).2.2.2.1] at this
    linear_combination -this
  · rw [hB z.L le_rfl]
    dsimp only
    have e : z.L - 1 + 1 = z.L := by omega
    have h1 := onU (z.L - 1) (by omega)
    have h2 := onD (z.L - 1) (by omega)
    rw [e] at h1 h2
    rw [h1, h2, refl_light hp, hp.bot]
    have g := congrFun hl.ground j
    rw [hp.L, hp.T _ (by omega)] at g
    simp only [up]
    rw [g]
    simp only [Pi.add_apply]
    push_cast; ring

/-- So the unknowns are the light at the levels. -/
theorem lit_found (he : IsExp ex) (hex : ExactAll inv?) (hp : Posed first ns mu w c as0 z S)
    {up' dn' : Nat → ℝ → Source.V n} (hl : S.Lit up' dn') {B0 B : Nat → K} (h : solve ex z inv? B0 = some B)
    (lev : Nat) (hlev : lev ≤ z.L) :
    at_ (n := n) B lev = (up (S.on up' lev), up (turn ns (S.on dn' lev))) := by
  obtain ⟨B', hB'⟩ := gather (fun lev => (up (S.on up' lev) : Fin n → K)) fun lev => up (turn ns (S.on dn' lev))
  have hm := lit_meets he hex hp (solve_safe h) hl (B := B') fun lev _ => hB' lev
  have hu := (solve_meets hex h).2 B' hm
  rw [← hB' lev]
  have hlt : ∀ k : Fin n, lev * (n * 2) + k.val + n < nComp z := fun k => by
    unfold nComp
    have := k.isLt
    have : lev * (n * 2) ≤ z.L * (n * 2) := Nat.mul_le_mul_right _ hlev
    nlinarith
  refine Prod.ext ?_ ?_
  · funext k; exact (hu _ (by have := hlt k; omega)).symm
  · funext k; exact (hu _ (hlt k)).symm

theorem lit_level (he : IsExp ex) (hex : ExactAll inv?) (hp : Posed first ns mu w c as0 z S)
    {up' dn' : Nat → ℝ → Source.V n} (hl : S.Lit up' dn') {B0 B : Nat → K} (h : solve ex z inv? B0 = some B)
    (lev : Nat) (hlev : lev ≤ z.L) : output ns (level (n := n) B lev) = (S.on up' lev, S.on dn' lev) := by
  unfold output level
  rw [lit_found he hex hp hl h lev hlev]
  dsimp only [up]
  refine Prod.ext ?_ ?_
  · funext j; simp
  · simp only [RCLike.ofReal_re]; exact turn_turn ns _

/-- Within the layers. -/
theorem lit_tau (he : IsExp ex) (hex : ExactAll inv?) (hp : Posed first ns mu w c as0 z S)
    {up' dn' : Nat → ℝ → Source.V n} (hl : S.Lit up' dn') {B0 B : Nat → K} (h : solve ex z inv? B0 = some B)
    (i : Nat) (hi' : i < z.L) (s : ℝ) :
    output ns (atTau ex z (inverses z inv?) B i s) = (up' i s, dn' i s) := by
  have hs := solve_safe h
  obtain ⟨-, -, ha, hb, -, -⟩ := layer_inv hp hex hs hi'
  have f0 := lit_found he hex hp hl h i hi'.le
  have f1 := lit_found he hex hp hl h (i + 1) hi'
  have e0 : ∀ f, S.on f i = f i 0 := fun f => by
    unfold Stack.on; rw [if_pos (by rw [hp.L]; exact hi')]
  have e1 : S.on up' (i + 1) = up' i (z.ltau i) ∧ S.on dn' (i + 1) = dn' i (z.ltau i) := by
    unfold Stack.on
    split_ifs with h2
    · rw [← (hl.meet i h2).1, ← (hl.meet i h2).2, hp.T i hi']; exact ⟨rfl, rfl⟩
    · have : S.L - 1 = i := by rw [hp.L] at *; omega
      rw [this, hp.T i hi']; exact ⟨rfl, rfl⟩
  have key := light_layer he hex hp hs hl hi' s
  have hg : gpo ex z (inverses z inv?) B i s =
      lo (inverses z inv?) (up (up' i s)) (up (turn ns (dn' i s))) i := by
    funext j
    unfold gpo va
    rw [f0]
    dsimp only
    rw [e0, e0]
    have := (key j).1
    unfold lo at this ⊢
    linear_combination -this
  have hh : hpp ex z (inverses z inv?) B i s =
      -hi (inverses z inv?) (up (up' i s)) (up (turn ns (dn' i s))) i := by
    funext j
    unfold hpp vb
    rw [f1]
    dsimp only
    rw [e1.1, e1.2]
    have := (key j).2
    simp only [Pi.neg_apply]
    unfold hi at this ⊢
    linear_combination this
  obtain ⟨l1, l2⟩ := light_of ha hb (up (up' i s)) (up (turn ns (dn' i s)))
  unfold output atTau
  dsimp only
  rw [hg, hh]
  refine Prod.ext ?_ ?_
  · funext j
    have := congrArg RCLike.re (congrFun l1 j)
    simpa [up] using this
  · have : (fun j => -RCLike.re (((z.m i).Xm *ᵥ lo (inverses z inv?) (up (up' i s)) (up (turn ns (dn' i s))) i) j +
        ((z.m i).Xp *ᵥ -hi (inverses z inv?) (up (up' i s)) (up (turn ns (dn' i s))) i) j)) = turn ns (dn' i s) := by
      funext j
      have := congrArg RCLike.re (congrFun l2 j)
      simpa only [up, Pi.neg_apply, Pi.add_apply, map_neg, RCLike.ofReal_re] using this
    dsimp only
    rw [this, turn_turn]

end Xrtm.MemBvp
