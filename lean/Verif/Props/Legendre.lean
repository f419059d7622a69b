import Verif.Proof.Legendre
import Verif.Proof.Session

/-!
# C48: the tables of Legendre functions and the Fourier terms of the phase
function
-/

namespace Xrtm.Legendre
open Loops Spec Polynomial

/-- `leg_poly2` writes the Legendre polynomials, whatever the array held. -/
theorem C48_legendre (nL : Nat) (mu : ℝ) (p : Nat → ℝ) (l : Nat) (hl : l < nL) :
    legPoly nL mu p l = (legendre l).eval mu := legPoly_eq nL mu p l hl

example (p : Nat → ℝ) : legPoly 7 (1 / 3) p 6 = (legendre 6).eval (1 / 3) :=
  C48_legendre 7 (1 / 3) p 6 (by norm_num)

/-- The polynomial of Rodrigues is the expected one: it is one at one, and
successive ones obey the recurrence of Bonnet. -/
theorem C48_legendre_meaning (l : Nat) (x : ℝ) :
    (legendre 0).eval x = 1 ∧ (legendre 1).eval x = x ∧ (legendre l).eval 1 = 1 ∧
      (l + 2 : ℝ) * (legendre (l + 2)).eval x =
        (2 * l + 3) * (x * (legendre (l + 1)).eval x) - (l + 1) * (legendre l).eval x := by
  refine ⟨by simp [legendre_zero], by simp [legendre_one], legendre_at_one l, ?_⟩
  have hb := congrArg (eval x) (bonnet l)
  simpa only [eval_C, eval_sub, eval_mul, eval_X] using hb

example : (legendre 2).eval 3 = 13 := by
  have h := (C48_legendre_meaning 0 3).2.2.2
  rw [(C48_legendre_meaning 0 3).2.1, (C48_legendre_meaning 0 3).1] at h
  norm_num at h
  linarith

/-- Whatever happened to an instance before, in which order the directions were
moved and the tables asked for, saved or not, the table handed out for an order
holds the normalised associated Legendre functions of that order at the
directions of the moment. -/
theorem C48_tables (save : Bool) (nL nMu : Nat) (cd : ℝ × ℝ) (tables : Nat → Nat → Nat → ℝ)
    (mus : Nat → ℝ) (es : List Ev) (hmu : ∀ i < nMu, mus i ^ 2 ≤ 1)
    (hes : ∀ mus', Ev.move mus' ∈ es → ∀ i < nMu, mus' i ^ 2 ≤ 1)
    (m i l : Nat) (hi : i < nMu) (hl : l < nL) :
    let s := history save nL nMu es (Cache.init cd tables, mus)
    let r := get save nL nMu s.2 m s.1
    r.1.tables r.2 i l = Y m l (s.2 i) := by
  intro s r
  obtain ⟨h1, h2⟩ := history_inv save nL nMu es (Cache.init cd tables, mus) hmu hes
    (inv_init save nL nMu mus cd tables)
  exact (get_ok save nL nMu s.2 h2 m s.1 h1).2 i hi l hl

/-- Orders 3, 0 and 2 are asked for, then the directions move, then order 2
again: the last table is the one of the new directions. -/
example (cd : ℝ × ℝ) (tables : Nat → Nat → Nat → ℝ) :
    let s := history false 8 2 [.ask 3, .ask 0, .ask 2, .move (fun _ => 1 / 2)]
      (Cache.init cd tables, fun _ => 1 / 3)
    let r := get false 8 2 s.2 2 s.1
    r.1.tables r.2 1 5 = Y 2 5 (1 / 2) :=
  C48_tables false 8 2 cd tables (fun _ => 1 / 3) _ (by intro i _; norm_num)
    (by intro mus' h i _; simp at h; rw [h]; norm_num) 2 1 5 (by norm_num) (by norm_num)

/-- The tables stay within their rows, of `nL` elements: all that is written is
below, for the orders below `nL`. -/
theorem C48_rows (m nL : Nat) (hm : m < nL) (mu : ℝ) (cd : ℝ × ℝ) (y : Nat → ℝ) (l : Nat)
    (hl : nL ≤ l) : assocPoly m nL mu cd y l = y l ∧ legPoly nL mu y l = y l := by
  constructor
  · unfold assocPoly
    refine forN_ind_lt (nL - 1 - (m + 1)) (fun _ (z : Nat → ℝ) => z l = y l) _ _ ?_ ?_
    · unfold assocStart
      by_cases h0 : m = 0
      · rw [if_pos h0]
        by_cases h1 : 1 < nL
        · rw [if_pos h1, put_other _ _ (by omega), put_other _ _ (by omega)]
        · rw [if_neg h1, put_other _ _ (by omega)]
      · rw [if_neg h0]
        by_cases h1 : m + 1 < nL
        · rw [if_pos h1, put_other _ _ (by omega), put_other _ _ (by omega), clear_rows,
            if_neg (by omega)]
        · rw [if_neg h1, put_other _ _ (by omega), clear_rows, if_neg (by omega)]
    · intro t z ht ih
      unfold assocStep
      rw [put_other _ _ (by omega)]
      exact ih
  · unfold legPoly
    refine forN_ind_lt (nL - 2) (fun _ (z : Nat → ℝ) => z l = y l) _ _ ?_ ?_
    · by_cases h1 : 1 < nL
      · rw [if_pos h1, put_other _ _ (by omega), put_other _ _ (by omega)]
      · rw [if_neg h1, put_other _ _ (by omega)]
    · intro t z ht ih
      unfold legStep
      rw [put_other _ _ (by omega)]
      exact ih

example (y : Nat → ℝ) : assocPoly 2 4 (1 / 2) (1, 1) y 4 = y 4 :=
  (C48_rows 2 4 (by norm_num) _ _ y 4 le_rfl).1

/-- And the orders asked for, those below `n_four`, are below the length
`n_coef2` of the rows, if there are coefficients. -/
theorem C48_orders (options solvers : Word) (c : Counts) (kernels : List Int) (cfg : Config)
    (h : create options solvers c kernels = .ok cfg) (hc : 0 < c.maxCoef) :
    cfg.nFour ≤ cfg.nCoef2 := by
  obtain ⟨o, hq, h⟩ : ∃ o, 0 < c.nQuad ∧ cfg = configOf o solvers c := by
    revert h
    unfold create
    dsimp only
    repeat' split
    all_goals intro h
    all_goals first
      | (cases h; done)
      | skip
    all_goals
      refine ⟨_, ?_, (Except.ok.inj h).symm⟩
      simp_all [rangesOk1]
  subst h
  simp only [configOf, nFourOf, nCoef2Of]
  repeat' split
  all_goals omega

example : demoCfg.nFour ≤ demoCfg.nCoef2 :=
  C48_orders _ _ demoCounts [] demoCfg demo_created (by decide)

/-- An instance for no coefficients is created, although the message of the
test says that it is not.  Then the rows have no elements, the first order is
asked for all the same, and `leg_poly_assoc2` writes the element after the end
of the row. -/
theorem C48_violated_empty :
    ∃ options solvers c cfg, create options solvers c [] = .ok cfg ∧ c.maxCoef = 0 ∧
      cfg.nCoef2 = 0 ∧ 0 < cfg.nFour ∧
      ∀ (mu : ℝ) (cd : ℝ × ℝ) (y : Nat → ℝ), assocPoly 0 cfg.nCoef2.toNat mu cd y 0 = 1 := by
  refine ⟨OPT_OUTPUT_AT_LEVELS, SOLVER_EIG_BVP, { demoCounts with maxCoef := 0 }, _,
    by rfl, rfl, rfl, by decide, ?_⟩
  intro mu cd y
  simp [assocPoly, assocStart, configOf, nCoef2Of, put]

/-- The theorem of addition: the functions in the tables, weighted by one for
the first order and two for the others, are the Fourier terms of the Legendre
polynomial at the cosine of the angle between two directions. -/
theorem C48_addition (l M : Nat) (hM : l < M) (x y φ : ℝ) (hx : x ^ 2 ≤ 1) (hy : y ^ 2 ≤ 1) :
    ∑ m ∈ Finset.range M, eps m * (Y m l x * Y m l y) * Real.cos (m * φ) =
      (legendre l).eval (scatAngle x y φ) := by
  rw [addition l M hM x y φ hx hy]
  unfold scatAngle
  rw [pow_two, pow_two]
  congr 1
  ring

example (φ : ℝ) : ∑ m ∈ Finset.range 6, eps m * (Y m 4 (1 / 2) * Y m 4 (-1 / 3)) *
    Real.cos (m * φ) = (legendre 4).eval (scatAngle (1 / 2) (-1 / 3) φ) :=
  C48_addition 4 6 (by norm_num) _ _ φ (by norm_num) (by norm_num)

/-- The elements of the phase matrices: `P_pp` is the Fourier term for two
directions on one side, `P_mp` the one for directions on opposite sides. -/
theorem C48_phase (m n : Nat) (x y : ℝ) (y1 y2 coef : Nat → ℝ)
    (h1 : ∀ k < n, y1 k = Y m k x) (h2 : ∀ k < n, y2 k = Y m k y) :
    phaseElem m n y1 y2 coef =
      (eps m * ∑ k ∈ Finset.range n, coef k * (Y m k x * Y m k y),
       eps m * ∑ k ∈ Finset.range n, coef k * (Y m k (-x) * Y m k y)) := by
  rw [phaseElem_eq]
  congr 2
  · refine Finset.sum_congr rfl fun k hk => ?_
    rw [Finset.mem_range] at hk
    by_cases h : m ≤ k
    · rw [if_pos h, h1 k hk, h2 k hk]; ring
    · rw [if_neg h, Y_zero m k (by omega)]; ring
  · refine Finset.sum_congr rfl fun k hk => ?_
    rw [Finset.mem_range] at hk
    by_cases h : m ≤ k
    · rw [if_pos h, h1 k hk, h2 k hk, Y_neg]; ring
    · rw [if_neg h, Y_zero m k (by omega)]; ring

example (coef : Nat → ℝ) :
    (phaseElem 1 3 (fun k => Y 1 k (1 / 2)) (fun k => Y 1 k (1 / 3)) coef).2 =
      eps 1 * ∑ k ∈ Finset.range 3, coef k * (Y 1 k (-(1 / 2)) * Y 1 k (1 / 3)) := by
  rw [C48_phase 1 3 (1 / 2) (1 / 3) _ _ coef (fun _ _ => rfl) (fun _ _ => rfl)]

/-- Opposite sides can be told by either direction. -/
theorem C48_phase_sides (m k : Nat) (x y : ℝ) : Y m k (-x) * Y m k y = Y m k x * Y m k (-y) := by
  rw [Y_neg, Y_neg]; ring

example : Y 2 3 (-(1 / 2)) * Y 2 3 (1 / 3) = Y 2 3 (1 / 2) * Y 2 3 (-(1 / 3)) :=
  C48_phase_sides 2 3 _ _

/-- With as many Fourier terms as there are coefficients, the terms sum up to
the phase function of the angle between the directions, as `phase_func`
computes it with the table of `leg_poly2`: on one side and on opposite ones. -/
theorem C48_fourier (n M nL : Nat) (hM : n ≤ M) (hL : n ≤ nL) (x y φ : ℝ) (hx : x ^ 2 ≤ 1)
    (hy : y ^ 2 ≤ 1) (y1 y2 : Nat → Nat → ℝ) (coef p : Nat → ℝ)
    (h1 : ∀ m < M, ∀ k < n, y1 m k = Y m k x) (h2 : ∀ m < M, ∀ k < n, y2 m k = Y m k y) :
    ∑ m ∈ Finset.range M, (phaseElem m n (y1 m) (y2 m) coef).1 * Real.cos (m * φ) =
        phaseFunc n (legPoly nL (scatAngle x y φ) p) coef ∧
    ∑ m ∈ Finset.range M, (phaseElem m n (y1 m) (y2 m) coef).2 * Real.cos (m * φ) =
        phaseFunc n (legPoly nL (scatAngle (-x) y φ) p) coef := by
  have gen : ∀ z : ℝ, z ^ 2 ≤ 1 → ∑ m ∈ Finset.range M,
      (eps m * ∑ k ∈ Finset.range n, coef k * (Y m k z * Y m k y)) * Real.cos (m * φ) =
      phaseFunc n (legPoly nL (scatAngle z y φ) p) coef := by
    intro z hz
    rw [phaseFunc_eq]
    have : ∀ k ∈ Finset.range n, legPoly nL (scatAngle z y φ) p k * coef k =
        ∑ m ∈ Finset.range M, eps m * (Y m k z * Y m k y) * Real.cos (m * φ) * coef k := by
      intro k hk
      rw [Finset.mem_range] at hk
      rw [legPoly_eq _ _ _ _ (by omega), ← C48_addition k M (by omega) z y φ hz hy,
        Finset.sum_mul]
    rw [Finset.sum_congr rfl this, Finset.sum_comm]
    refine Finset.sum_congr rfl fun m _ => ?_
    rw [Finset.mul_sum, Finset.sum_mul]
    refine Finset.sum_congr rfl fun k _ => ?_
    ring
  constructor
  · rw [← gen x hx]
    refine Finset.sum_congr rfl fun m hm => ?_
    rw [Finset.mem_range] at hm
    rw [C48_phase m n x y _ _ coef (h1 m hm) (h2 m hm)]
  · rw [← gen (-x) (by rw [neg_sq]; exact hx)]
    refine Finset.sum_congr rfl fun m hm => ?_
    rw [Finset.mem_range] at hm
    rw [C48_phase m n x y _ _ coef (h1 m hm) (h2 m hm)]

example (coef : Nat → ℝ) (φ : ℝ) :
    ∑ m ∈ Finset.range 4, (phaseElem m 4 (fun k => Y m k (1 / 2)) (fun k => Y m k (2 / 3)) coef).1 *
      Real.cos (m * φ) = phaseFunc 4 (legPoly 4 (scatAngle (1 / 2) (2 / 3) φ) 0) coef :=
  (C48_fourier 4 4 4 le_rfl le_rfl (1 / 2) (2 / 3) φ (by norm_num) (by norm_num)
    (fun m k => Y m k (1 / 2)) (fun m k => Y m k (2 / 3)) coef 0 (fun _ _ _ _ => rfl)
    (fun _ _ _ _ => rfl)).1

/-- Nothing is lost in scattering: with a quadrature on the half range that has
total weight one and integrates the even polynomials in use, the first Fourier
term, summed over both sides, is twice the first coefficient. -/
theorem C48_conserves (n J : Nat) (hn : 0 < n) (w nu : Nat → ℝ) (x : ℝ) (y1 coef : Nat → ℝ)
    (y2 : Nat → Nat → ℝ) (h1 : ∀ k < n, y1 k = Y 0 k x)
    (h2 : ∀ j < J, ∀ k < n, y2 j k = Y 0 k (nu j))
    (hw : ∑ j ∈ Finset.range J, w j = 1)
    (hq : ∀ k < n, k ≠ 0 → k % 2 = 0 →
      ∑ j ∈ Finset.range J, w j * (legendre k).eval (nu j) = 0) :
    ∑ j ∈ Finset.range J, w j * ((phaseElem 0 n y1 (y2 j) coef).1 +
      (phaseElem 0 n y1 (y2 j) coef).2) = 2 * coef 0 := by
  have hY : ∀ k z, Y 0 k z = (legendre k).eval z := by
    intro k z
    have h : ((k.factorial : ℝ)) ≠ 0 := by positivity
    simp [Y, h]
  have step : ∀ j ∈ Finset.range J, w j * ((phaseElem 0 n y1 (y2 j) coef).1 +
      (phaseElem 0 n y1 (y2 j) coef).2) = ∑ k ∈ Finset.range n, coef k * (1 + (-1) ^ k) *
        (legendre k).eval x * (w j * (legendre k).eval (nu j)) := by
    intro j hj
    rw [Finset.mem_range] at hj
    rw [C48_phase 0 n x (nu j) _ _ coef h1 (h2 j hj)]
    dsimp only
    rw [show eps 0 = 1 from rfl, one_mul, one_mul, ← Finset.sum_add_distrib, Finset.mul_sum]
    refine Finset.sum_congr rfl fun k _ => ?_
    rw [Y_neg, add_zero, hY, hY]
    ring
  rw [Finset.sum_congr rfl step, Finset.sum_comm]
  rw [Finset.sum_eq_single_of_mem 0 (Finset.mem_range.2 hn)]
  · rw [← Finset.mul_sum, legendre_zero]
    simp only [eval_one, mul_one, hw]
    norm_num
    ring
  · intro k hk h0
    rw [Finset.mem_range] at hk
    rw [← Finset.mul_sum]
    rcases Nat.mod_two_eq_zero_or_one k with h | h
    · rw [hq k hk h0 h, mul_zero]
    · rw [(Nat.odd_iff.2 h).neg_one_pow]; ring

/-- One direction of weight one, with three coefficients: the condition on the
quadrature holds for the Gauss point. -/
example (coef : Nat → ℝ) (x : ℝ) :
    ∑ j ∈ Finset.range 1, (1 : ℝ) * ((phaseElem 0 3 (fun k => Y 0 k x)
      (fun k => Y 0 k (√(1 / 3))) coef).1 + (phaseElem 0 3 (fun k => Y 0 k x)
      (fun k => Y 0 k (√(1 / 3))) coef).2) = 2 * coef 0 :=
  C48_conserves 3 1 (by norm_num) (fun _ => 1) (fun _ => √(1 / 3)) x _ coef
    (fun _ k => Y 0 k (√(1 / 3))) (fun _ _ => rfl) (fun _ _ _ _ => rfl) (by simp) (by
      intro k hk h0 h2
      obtain rfl : k = 2 := by omega
      have h := (C48_legendre_meaning 0 (√(1 / 3))).2.2.2
      rw [(C48_legendre_meaning 0 _).2.1, (C48_legendre_meaning 0 _).1] at h
      have hs : √(1 / 3 : ℝ) * √(1 / 3) = 1 / 3 := Real.mul_self_sqrt (by norm_num)
      rw [hs] at h
      norm_num at h
      simp [h])

/-- The closed forms of `calc_Y_x` for the four and six stream solvers give the
products that the phase matrices need, up to the sixth degree. -/
theorem C48_closed (m l : Nat) (hm : m ≤ l) (hl : l ≤ 5) (x y : ℝ) (hx : x ^ 2 ≤ 1)
    (hy : y ^ 2 ≤ 1) : calcY m x l * calcY m y l = Y m l x * Y m l y := by
  obtain ⟨e, he, h⟩ := closed m l hm hl
  rw [h x hx, h y hy]
  rcases he with rfl | rfl <;> ring

example : calcY 3 (1 / 2) 4 * calcY 3 (1 / 3) 4 = Y 3 4 (1 / 2) * Y 3 4 (1 / 3) :=
  C48_closed 3 4 (by norm_num) (by norm_num) _ _ (by norm_num) (by norm_num)

/-- But they are not the functions of the tables: within one order the signs
are mixed. -/
theorem C48_violated_sign (x : ℝ) (hx : x ^ 2 ≤ 1) :
    calcY 1 x 3 = Y 1 3 x ∧ calcY 1 x 4 = -Y 1 4 x ∧
      (calcY 1 (1 / 2) 4 ≠ Y 1 4 (1 / 2)) := by
  have h4 : ∀ x : ℝ, x ^ 2 ≤ 1 → calcY 1 x 4 = -Y 1 4 x := closed_14
  refine ⟨closed_13 x hx, h4 x hx, ?_⟩
  have h := h4 (1 / 2) (by norm_num)
  intro h'
  have h0 : calcY 1 (1 / 2) 4 = 0 := by linarith
  have hs : (0 : ℝ) < √(1 - 1 / 2 * (1 / 2)) := Real.sqrt_pos.2 (by norm_num)
  have h20 : (0 : ℝ) < √20 := Real.sqrt_pos.2 (by norm_num)
  have : calcY 1 (1 / 2) 4 = 5 / 2 * (7 * (1 / 2 * (1 / 2) * (1 / 2)) - 3 * (1 / 2)) *
      √(1 - 1 / 2 * (1 / 2)) / √20 := rfl
  rw [this] at h0
  have : (5 / 2 * (7 * (1 / 2 * (1 / 2) * (1 / 2)) - 3 * (1 / 2)) : ℝ) ≠ 0 := by norm_num
  exact absurd h0 (div_ne_zero (mul_ne_zero this hs.ne') h20.ne')

example : calcY 1 (1 / 3) 4 = -Y 1 4 (1 / 3) := (C48_violated_sign (1 / 3) (by norm_num)).2.1

end Xrtm.Legendre
