import Verif.Proof.StreamsK
import Verif.Proof.Loss

/-! What the four and six stream solvers give is the light of the atmosphere. -/

namespace Xrtm.Streams
open Matrix Xrtm.Transfer Xrtm.Legendre.Spec Xrtm.Streams.Spec

variable {n : Nat} {k : Kind n} {z : Inp n} {junk : Nat → Source.V n × Source.V n}
  {inv? : {N : Nat} → Matrix (Fin N) (Fin N) ℝ → Option (Matrix (Fin N) (Fin N) ℝ)} {simple : Source.M n → Prop}

theorem levels_lit (laws : Laws k simple) (hn3 : n ≤ 3) (hex : Bvp.ExactAll inv?) (hf : Fine z)
    (hs : ∀ i, i < z.L → simple (gamma k z i)) {x : Nat → ℝ} (h : solve k z junk inv? = .ok x)
    {up dn : Nat → ℝ → Fin n → ℝ} (hl : (stack (dir k z.m) z).Lit up dn) (lev : Nat) (hlev : lev ≤ z.L) :
    level k z junk x lev = ((stack (dir k z.m) z).on up lev, (stack (dir k z.m) z).on dn lev) := by
  obtain ⟨hn, B, hB, hBx⟩ := solve_bvp hf.one h
  have := Bvp.lit_level Eig.exp_real hex (posed k z junk laws hn3 hf hn hs) hB hl lev hlev
  rw [level_bvp k z junk hf.one hBx lev hlev] at this
  unfold Bvp.output at this
  rw [Bvp.turn_one] at this
  exact this

theorem taus_lit (laws : Laws k simple) (hn3 : n ≤ 3) (hex : Bvp.ExactAll inv?) (hf : Fine z)
    (hs : ∀ i, i < z.L → simple (gamma k z i)) {x : Nat → ℝ} (h : solve k z junk inv? = .ok x)
    {up dn : Nat → ℝ → Fin n → ℝ} (hl : (stack (dir k z.m) z).Lit up dn) (i : Nat) (hi : i < z.L) (t : ℝ) :
    atTau k z junk x i t = (up i t, dn i t) := by
  obtain ⟨hn, B, hB, hBx⟩ := solve_bvp hf.one h
  have := Bvp.lit_tau Eig.exp_real hex (posed k z junk laws hn3 hf hn hs) hB hl i hi (z.as0 i) t
    (by
      unfold su toBvp
      funext j
      simp [mul_comm])
    (by
      rw [Bvp.turn_one]
      unfold sd toBvp
      funext j
      simp [mul_comm])
  rw [tau_bvp k z junk hBx i hi t] at this
  unfold Bvp.output at this
  rw [Bvp.turn_one] at this
  exact this

theorem exists_lit (laws : Laws k simple) (hn3 : n ≤ 3) (hex : Bvp.ExactAll inv?) (hf : Fine z)
    (hs : ∀ i, i < z.L → simple (gamma k z i)) {x : Nat → ℝ} (h : solve k z junk inv? = .ok x) :
    ∃ up dn, (stack (dir k z.m) z).Lit up dn := by
  obtain ⟨hn, B, hB, -⟩ := solve_bvp hf.one h
  exact ⟨_, _, Bvp.found_lit Eig.exp_real hex (posed k z junk laws hn3 hf hn hs) hB⟩

theorem solves (laws : Laws k simple) (hn3 : n ≤ 3) (hex : Bvp.ExactAll inv?) (hf : Fine z) (hn : Numbers k z)
    (hc : 2 * n ≤ z.nCoef) (hs : ∀ i, i < z.L → simple (gamma k z i))
    (hp : (stack (dir k z.m) z).Passive z.qx z.qw) : ∃ x, solve k z junk inv? = .ok x := by
  obtain ⟨B, hB⟩ := Bvp.passive_solves Eig.exp_real hex (posed k z junk laws hn3 hf hn hs) hp
  exact bvp_solve hf.one (by omega) hn hB

/-- Other light from above and below. -/
def lights (z : Inp n) (I J : Source.V n) : Inp n := { z with I1m := I, Inp := J }

section lights
variable (k z junk) (I J : Source.V n)

theorem alpha_w : alpha k (lights z I J) = alpha k z := rfl
theorem beta_w : beta k (lights z I J) = beta k z := rfl
theorem apb_w : apb k (lights z I J) = apb k z := by unfold apb; rw [alpha_w, beta_w]
theorem amb_w : amb k (lights z I J) = amb k z := by unfold amb; rw [alpha_w, beta_w]
theorem gamma_w : gamma k (lights z I J) = gamma k z := by unfold gamma; rw [apb_w, amb_w]
theorem nu_w : nu k (lights z I J) = nu k z := by unfold nu; rw [gamma_w]
theorem W1_w : W1 k (lights z I J) = W1 k z := by unfold W1; rw [gamma_w, nu_w, apb_w]
theorem Xp_w : Xp k (lights z I J) = Xp k z := by unfold Xp; rw [gamma_w, W1_w]
theorem Xm_w : Xm k (lights z I J) = Xm k z := by unfold Xm; rw [gamma_w, W1_w]
theorem gammaS_w : gammaS k (lights z I J) = gammaS k z := by unfold gammaS; rw [gamma_w]; rfl
theorem Lam_w : Lam k (lights z I J) = Lam k z := by unfold Lam; rw [nu_w]; rfl
theorem dd_w : dd k (lights z I J) = dd k z := rfl
theorem ee_w : ee k (lights z I J) = ee k z := rfl
theorem gg_w : gg k (lights z I J) = gg k z := by unfold gg; rw [amb_w, dd_w, ee_w]; rfl
theorem pp_w : pp k (lights z I J) = pp k z := by unfold pp; rw [gammaS_w, gg_w]
theorem hh_w : hh k (lights z I J) = hh k z := by unfold hh; rw [apb_w, pp_w, ee_w]
theorem F_w : F k (lights z I J) junk = F k z junk := by unfold F; rw [hh_w, pp_w]; rfl

theorem numbers_w : Numbers k (lights z I J) = Numbers k z := by
  unfold Numbers
  rw [gamma_w, nu_w, gammaS_w]
  rfl

theorem system_w : system k (lights z I J) = system k z := by
  unfold system below above pp1 pp2
  rw [Xp_w, Xm_w, Lam_w]
  rfl

theorem level_w (x : Nat → ℝ) (lev : Nat) : level k (lights z I J) junk x lev = level k z junk x lev := by
  unfold level
  rw [Xp_w, Xm_w, Lam_w, F_w]
  rfl

theorem tau_w (x : Nat → ℝ) (i : Nat) (t : ℝ) : atTau k (lights z I J) junk x i t = atTau k z junk x i t := by
  unfold atTau
  rw [Xp_w, Xm_w, nu_w, F_w]
  rfl

theorem rhs_w (hs : z.surface = true → J = z.Inp) : rhs k (lights z I J) junk = rhs k z junk := by
  unfold rhs
  rw [F_w]
  cases h : z.surface with
  | true =>
    have : (lights z I J).Inp = z.Inp := hs h
    have e : (lights z I J).surface = true := h
    rw [this, e]; rfl
  | false =>
    have : (lights z I J).surface = false := h
    rw [this]; rfl

end lights

/-- The light from above has no part in it, nor that from below, without a surface. -/
theorem solve_w (I J : Source.V n) (hs : z.surface = true → J = z.Inp) :
    solve k (lights z I J) junk inv? = solve k z junk inv? := by
  unfold solve
  rw [rhs_w k z junk I J hs, system_w]
  by_cases hc : z.m < 2 * n ∧ z.nCoef < 2 * n
  · rw [if_pos hc]; exact if_pos hc
  · rw [if_neg hc]
    refine (if_neg hc).trans ?_
    by_cases hN : Numbers k z
    · rw [if_pos hN, if_pos (by rw [numbers_w]; exact hN)]
      congr 1
      cases hI : inv? ((system k z).read (Bvp.nDiags n) (nc z)) with
      | none =>
        have hI' : inv? ((system k z).read (Bvp.nDiags n) (nc (lights z I J))) = none := hI
        simp only [hI', hI]
      | some X =>
        have hI' : inv? ((system k z).read (Bvp.nDiags n) (nc (lights z I J))) = some X := hI
        simp only [hI', hI]
        rfl
    · rw [if_neg hN, if_neg (by rw [numbers_w]; exact hN)]

theorem lit_top {S : Stack n} {up dn : Nat → ℝ → Fin n → ℝ} (h : S.Lit up dn) (hL : 1 ≤ S.L) : S.on dn 0 = S.top := by
  unfold Stack.on
  rw [if_pos (by omega), h.sky]

theorem lit_bottom {S : Stack n} {up dn : Nat → ℝ → Fin n → ℝ} (h : S.Lit up dn) :
    S.on up S.L = S.bot + S.Rs *ᵥ S.on dn S.L := by
  unfold Stack.on
  rw [if_neg (lt_irrefl _), if_neg (lt_irrefl _)]
  exact h.ground

theorem sky_wrong (laws : Laws k simple) (hn3 : n ≤ 3) (hex : Bvp.ExactAll inv?) (hf : Fine (lights z 0 z.Inp))
    (hs : ∀ i, i < z.L → simple (gamma k z i)) (hz : z.I1m ≠ 0) {x : Nat → ℝ} (h : solve k z junk inv? = .ok x)
    {up dn : Nat → ℝ → Fin n → ℝ} (hl : (stack (dir k z.m) z).Lit up dn) :
    (level k z junk x 0).2 ≠ (stack (dir k z.m) z).on dn 0 := by
  have h' : solve k (lights z 0 z.Inp) junk inv? = .ok x := (solve_w _ _ fun _ => rfl).trans h
  have hs' : ∀ i, i < z.L → simple (gamma k (lights z 0 z.Inp) i) := by rw [gamma_w]; exact hs
  obtain ⟨up', dn', hl'⟩ := exists_lit laws hn3 hex hf hs' h'
  have := levels_lit laws hn3 hex hf hs' h' hl' 0 (Nat.zero_le _)
  rw [level_w] at this
  have e1 : (level k z junk x 0).2 = 0 := (congrArg Prod.snd this).trans (lit_top hl' hf.one)
  rw [e1, lit_top hl hf.one]
  exact hz.symm

theorem ground_wrong (laws : Laws k simple) (hn3 : n ≤ 3) (hex : Bvp.ExactAll inv?) (hf : Fine (lights z z.I1m 0))
    (hs : ∀ i, i < z.L → simple (gamma k z i)) (hsf : z.surface = false) (hz : z.Inp ≠ 0) {x : Nat → ℝ}
    (h : solve k z junk inv? = .ok x) {up dn : Nat → ℝ → Fin n → ℝ} (hl : (stack (dir k z.m) z).Lit up dn) :
    (level k z junk x z.L).1 ≠ (stack (dir k z.m) z).on up z.L := by
  have h' : solve k (lights z z.I1m 0) junk inv? = .ok x :=
    (solve_w _ _ fun h => by rw [hsf] at h; cases h).trans h
  have hs' : ∀ i, i < z.L → simple (gamma k (lights z z.I1m 0) i) := by rw [gamma_w]; exact hs
  obtain ⟨up', dn', hl'⟩ := exists_lit laws hn3 hex hf hs' h'
  have := levels_lit laws hn3 hex hf hs' h' hl' z.L le_rfl
  rw [level_w] at this
  have hR : (stack (dir k z.m) z).Rs = 0 := by unfold stack; simp [hsf]
  have b1 := lit_bottom hl'
  have b2 := lit_bottom hl
  have hR' : (stack (dir k (lights z z.I1m 0).m) (lights z z.I1m 0)).Rs = 0 := by unfold stack lights; simp [hsf]
  rw [hR', Matrix.zero_mulVec, add_zero] at b1
  rw [hR, Matrix.zero_mulVec, add_zero] at b2
  have e1 : (level k z junk x z.L).1 = 0 := (congrArg Prod.fst this).trans b1
  rw [e1]
  change _ ≠ (stack (dir k z.m) z).on up (stack (dir k z.m) z).L
  rw [b2]
  exact hz.symm

/-- The derivatives are not zero as the solvers say: where the light from below varies,
the light at the ground does. -/
theorem derivs_wrong (laws : Laws k simple) (hn3 : n ≤ 3) (hex : Bvp.ExactAll inv?) (q : Source.V n) (y : ℝ)
    (hf : ∀ s : ℝ, Fine (lights z z.I1m (z.Inp + s • q))) (hs : ∀ i, i < z.L → simple (gamma k z i)) (hq : q ≠ 0)
    {x : ℝ → Nat → ℝ} (h : ∀ s, solve k (lights z z.I1m (z.Inp + s • q)) junk inv? = .ok (x s)) :
    ¬ (HasDerivAt (fun s => (level k (lights z z.I1m (z.Inp + s • q)) junk (x s) z.L).1) derivs.1 y ∧
      HasDerivAt (fun s => (level k (lights z z.I1m (z.Inp + s • q)) junk (x s) z.L).2) derivs.2 y) := by
  rintro ⟨h1, h2⟩
  have hd : (derivs (n := n)) = (0, 0) := rfl
  rw [hd] at h1 h2
  have key : ∀ s, (level k (lights z z.I1m (z.Inp + s • q)) junk (x s) z.L).1 =
      z.Inp + s • q + (if z.surface then z.Rs else 0) *ᵥ (level k (lights z z.I1m (z.Inp + s • q)) junk (x s) z.L).2 := by
    intro s
    have hs' : ∀ i, i < z.L → simple (gamma k (lights z z.I1m (z.Inp + s • q)) i) := by rw [gamma_w]; exact hs
    obtain ⟨up, dn, hl⟩ := exists_lit laws hn3 hex (hf s) hs' (h s)
    have := levels_lit laws hn3 hex (hf s) hs' (h s) hl z.L le_rfl
    have b := lit_bottom hl
    have e1 := congrArg Prod.fst this
    have e2 := congrArg Prod.snd this
    dsimp only at e1 e2
    rw [e1, e2]
    exact b
  obtain ⟨j, hj⟩ : ∃ j, q j ≠ 0 := by
    by_contra hne
    exact hq (funext fun j => by by_contra hj; exact hne ⟨j, hj⟩)
  have d1 := hasDerivAt_pi.1 h1 j
  have d2 : HasDerivAt (fun s => (z.Inp + s • q + (if z.surface then z.Rs else 0) *ᵥ
      (level k (lights z z.I1m (z.Inp + s • q)) junk (x s) z.L).2) j) (q j) y := by
    simp only [Pi.add_apply, Pi.smul_apply, smul_eq_mul, Matrix.mulVec, dotProduct]
    have a1 : HasDerivAt (fun s : ℝ => z.Inp j + s * q j) (q j) y := by
      have := ((hasDerivAt_id y).mul_const (q j)).const_add (z.Inp j)
      exact this.congr_deriv (by simp)
    have a2 : HasDerivAt (fun s : ℝ => ∑ l, (if z.surface then z.Rs else 0) j l *
        (level k (lights z z.I1m (z.Inp + s • q)) junk (x s) z.L).2 l) (∑ l : Fin n, (if z.surface then z.Rs else 0) j l * 0) y :=
      HasDerivAt.fun_sum fun l _ => (hasDerivAt_pi.1 h2 l).const_mul _
    refine (a1.fun_add a2).congr_deriv ?_
    simp
  have d3 := d1.unique (d2.congr_of_eventuallyEq (Filter.Eventually.of_forall fun s => congrFun (key s) j))
  exact hj d3.symm

end Xrtm.Streams
