import Verif.Model.Legendre
import Verif.Proof.LegendreMath
import Mathlib.Tactic.IntervalCases

namespace Xrtm.Legendre
open Loops Spec Polynomial

/-! ## Legendre polynomials -/

theorem leg_step_val (l : ℕ) (x : ℝ) :
    ((l : ℝ) + 1) / ((l : ℝ) + 1 + 1) * (x * (legendre (l + 1)).eval x - (legendre l).eval x) +
      x * (legendre (l + 1)).eval x = (legendre (l + 2)).eval x := by
  have hb := congrArg (eval x) (bonnet l)
  simp only [eval_C, eval_sub, eval_mul, eval_X] at hb
  have h : (l : ℝ) + 1 + 1 ≠ 0 := by positivity
  field_simp
  linear_combination -hb

theorem legPoly_eq (nL : Nat) (mu : ℝ) (p : Nat → ℝ) (l : Nat) (hl : l < nL) :
    legPoly nL mu p l = (legendre l).eval mu := by
  unfold legPoly
  have key : ∀ l, l < nL → l ≤ (nL - 2) + 1 →
      forN (nL - 2) (fun t p => legStep mu (t + 1) p)
        (if 1 < nL then put (put p 0 1) 1 mu else put p 0 1) l = (legendre l).eval mu := by
    refine forN_ind_lt (nL - 2)
      (fun t (p : Nat → ℝ) => ∀ l, l < nL → l ≤ t + 1 → p l = (legendre l).eval mu) _ _ ?_ ?_
    · intro l hl h1
      by_cases h : 1 < nL
      · rw [if_pos h]
        rcases l with _ | l
        · rw [put_other _ _ (by omega), put_same, legendre_zero, eval_one]
        · obtain rfl : l = 0 := by omega
          rw [put_same, legendre_one, eval_X]
      · rw [if_neg h]
        obtain rfl : l = 0 := by omega
        rw [put_same, legendre_zero, eval_one]
    · intro t p ht ih l hl h1
      unfold legStep
      by_cases h : l = t + 1 + 1
      · subst h
        rw [put_same, ih (t + 1) (by omega) (by omega), Nat.add_sub_cancel,
          ih t (by omega) (by omega)]
        have := leg_step_val t mu
        push_cast
        exact this
      · rw [put_other _ _ h]
        exact ih l hl (by omega)
  exact key l hl (by omega)

/-! ## Associated functions -/

/-- The constants of an order. -/
noncomputable def cdOf : Nat → ℝ × ℝ
  | 0 => (1, 1)
  | m + 1 => consts (m + 1) (cdOf m)

theorem root_diag (m : ℕ) :
    (cdOf m).1 = (-1) ^ m * √(1 / ((2 * m).factorial : ℝ)) * T m m 0 := by
  induction m with
  | zero => simp [cdOf, T_00]
  | succ m ih =>
    have h : (cdOf (m + 1)).1 =
        (cdOf m).1 * -√((2 * ((m + 1 : ℕ) : ℝ) - 1) / (2 * ((m + 1 : ℕ) : ℝ))) := by
      simp [cdOf, consts]
    rw [h, ih, T_diag, show 2 * (m + 1) = 2 * m + 1 + 1 by omega, Nat.factorial_succ,
      Nat.factorial_succ]
    push_cast
    have f0 : (0 : ℝ) < ((2 * m).factorial : ℝ) := by positivity
    have hm : (0 : ℝ) ≤ m := by positivity
    have e : √(1 / (((2 : ℝ) * m + 1 + 1) * ((2 * m + 1) * ((2 * m).factorial : ℝ)))) * (2 * m + 1) =
        √(1 / ((2 * m).factorial : ℝ)) * √((2 * ((m : ℝ) + 1) - 1) / (2 * ((m : ℝ) + 1))) := by
      rw [← Real.sqrt_mul (by positivity)]
      have h2 : (2 * (m : ℝ) + 1) = √((2 * m + 1) ^ 2) := (Real.sqrt_sq (by positivity)).symm
      rw [show √(1 / (((2 : ℝ) * m + 1 + 1) * ((2 * m + 1) * ((2 * m).factorial : ℝ)))) * (2 * m + 1)
        = √(1 / (((2 : ℝ) * m + 1 + 1) * ((2 * m + 1) * ((2 * m).factorial : ℝ)))) * √((2 * m + 1) ^ 2)
        from by rw [← h2], ← Real.sqrt_mul (by positivity)]
      congr 1
      have : (2 * (m : ℝ) + 1) ≠ 0 := by positivity
      have : (2 * (m : ℝ) + 1 + 1) ≠ 0 := by positivity
      have : (m : ℝ) + 1 ≠ 0 := by positivity
      field_simp
      ring
    rw [pow_succ]
    linear_combination (-1) ^ m * T m m 0 * e

theorem root_next (m : ℕ) : (cdOf m).2 = (cdOf m).1 * √(2 * m + 1) := by
  induction m with
  | zero => simp [cdOf]
  | succ m ih =>
    have h : cdOf (m + 1) = ((cdOf m).1 * -√((2 * ((m + 1 : ℕ) : ℝ) - 1) / (2 * ((m + 1 : ℕ) : ℝ))),
        (cdOf m).2 * -√((2 * ((m + 1 : ℕ) : ℝ) + 1) / (2 * ((m + 1 : ℕ) : ℝ)))) := by
      simp [cdOf, consts]
    rw [h, ih]
    dsimp only
    push_cast
    have hm : (0 : ℝ) ≤ m := by positivity
    have e : √(2 * (m : ℝ) + 1) * √((2 * ((m : ℝ) + 1) + 1) / (2 * ((m : ℝ) + 1))) =
        √((2 * ((m : ℝ) + 1) - 1) / (2 * ((m : ℝ) + 1))) * √(2 * ((m : ℝ) + 1) + 1) := by
      have h1 : (0 : ℝ) ≤ (2 * ((m : ℝ) + 1) - 1) / (2 * ((m : ℝ) + 1)) := by
        apply div_nonneg <;> linarith
      rw [← Real.sqrt_mul (by positivity), ← Real.sqrt_mul h1]
      congr 1
      field_simp
      ring
    linear_combination -(cdOf m).1 * e

/-- The norm of the functions. -/
noncomputable def nrm (m l : ℕ) : ℝ := √(((l - m).factorial : ℝ) / ((l + m).factorial : ℝ))

theorem Y_eq (m l : ℕ) (x : ℝ) : Y m l x = (-1) ^ m * nrm m l * √(1 - x ^ 2) ^ m * T m l x := rfl

theorem nrm_succ (m l : ℕ) (h : m ≤ l) :
    nrm m (l + 1) = nrm m l * √(((l : ℝ) + 1 - m) / (l + 1 + m)) := by
  unfold nrm
  have h1 : (m : ℝ) ≤ l := by exact_mod_cast h
  rw [← Real.sqrt_mul (by positivity), show l + 1 - m = (l - m) + 1 by omega,
    show l + 1 + m = (l + m) + 1 by omega, Nat.factorial_succ, Nat.factorial_succ]
  push_cast [Nat.cast_sub h]
  congr 1
  have : ((l + m).factorial : ℝ) ≠ 0 := by positivity
  have : (l : ℝ) + 1 + m ≠ 0 := by positivity
  have : (l : ℝ) + m + 1 ≠ 0 := by positivity
  field_simp
  ring

theorem Y_recur (m l : ℕ) (h : m ≤ l) (x : ℝ) :
    ((2 * ((l : ℝ) + 1) + 1) * x * Y m (l + 1) x -
      √(((l : ℝ) + 1 + m) * (l + 1 - m)) * Y m l x) /
      √(((l : ℝ) + 1 - m + 1) * (l + 1 + m + 1)) = Y m (l + 2) x := by
  have h1 : (m : ℝ) ≤ l := by exact_mod_cast h
  have hr := T_recur m l x
  have hA : (0 : ℝ) < (l : ℝ) + 1 - m + 1 := by linarith
  have hB : (0 : ℝ) < (l : ℝ) + 1 + m + 1 := by positivity
  have hC : (0 : ℝ) < (l : ℝ) + 1 + m := by positivity
  have hD : (0 : ℝ) < (l : ℝ) + 1 - m := by linarith
  have hsq : √(((l : ℝ) + 1 - m + 1) * (l + 1 + m + 1)) ≠ 0 :=
    (Real.sqrt_pos.2 (mul_pos hA hB)).ne'
  rw [div_eq_iff hsq, Y_eq, Y_eq, Y_eq, nrm_succ m (l + 1) (by omega)]
  have e1 : √((((l + 1 : ℕ) : ℝ) + 1 - m) / (((l + 1 : ℕ) : ℝ) + 1 + m)) *
      √(((l : ℝ) + 1 - m + 1) * (l + 1 + m + 1)) = (l : ℝ) + 2 - m := by
    push_cast
    rw [← Real.sqrt_mul (by apply div_nonneg <;> linarith)]
    rw [show ((l : ℝ) + 1 + 1 - m) / (l + 1 + 1 + m) * ((l + 1 - m + 1) * (l + 1 + m + 1)) =
      ((l : ℝ) + 2 - m) ^ 2 by
        have : (l : ℝ) + 1 + 1 + m ≠ 0 := by positivity
        field_simp; ring]
    exact Real.sqrt_sq (by linarith)
  have e2 : √(((l : ℝ) + 1 + m) * (l + 1 - m)) * nrm m l = (l + 1 + m) * nrm m (l + 1) := by
    rw [nrm_succ m l h]
    have : √(((l : ℝ) + 1 + m) * (l + 1 - m)) = (l + 1 + m) * √(((l : ℝ) + 1 - m) / (l + 1 + m)) := by
      have h3 : ((l : ℝ) + 1 + m) = √((l + 1 + m) ^ 2) := (Real.sqrt_sq hC.le).symm
      rw [show ((l : ℝ) + 1 + m) * √(((l : ℝ) + 1 - m) / (l + 1 + m)) =
        √((l + 1 + m) ^ 2) * √(((l : ℝ) + 1 - m) / (l + 1 + m)) by rw [← h3],
        ← Real.sqrt_mul (by positivity)]
      congr 1
      field_simp
    rw [this]
    ring
  linear_combination (-((-1) ^ m * √(1 - x ^ 2) ^ m * T m l x)) * e2 -
    ((-1) ^ m * √(1 - x ^ 2) ^ m * nrm m (l + 1)) * hr -
    ((-1) ^ m * nrm m (l + 1) * √(1 - x ^ 2) ^ m * T m (l + 2) x) * e1

theorem rpow_half (m : ℕ) (a : ℝ) (ha : 0 ≤ a) : a ^ ((m : ℝ) / 2) = √a ^ m := by
  rw [Real.sqrt_eq_rpow, ← Real.rpow_natCast, ← Real.rpow_mul ha]
  congr 1
  ring

theorem Y_diag (m : ℕ) (x : ℝ) (hx : x ^ 2 ≤ 1) :
    (cdOf m).1 * (1 - x * x) ^ ((m : ℝ) / 2) = Y m m x := by
  rw [rpow_half m _ (by nlinarith), root_diag, Y_eq, T_diag_const m x 0]
  unfold nrm
  rw [Nat.sub_self, Nat.factorial_zero, ← two_mul, Nat.cast_one, pow_two x]
  ring

theorem Y_next (m : ℕ) (x : ℝ) (hx : x ^ 2 ≤ 1) :
    (cdOf m).2 * x * (1 - x * x) ^ ((m : ℝ) / 2) = Y m (m + 1) x := by
  rw [rpow_half m _ (by nlinarith), root_next, root_diag, Y_eq, T_next, T_diag_const m x 0,
    nrm_succ m m le_rfl]
  have e : √(((m : ℝ) + 1 - m) / (m + 1 + m)) * (2 * m + 1) = √(2 * m + 1) := by
    have h1 : (0 : ℝ) < 2 * m + 1 := by positivity
    rw [show ((m : ℝ) + 1 - m) / (m + 1 + m) = (2 * (m : ℝ) + 1)⁻¹ by
      rw [show (m : ℝ) + 1 + m = 2 * m + 1 by ring]; field_simp; ring, Real.sqrt_inv]
    have h2 := Real.mul_self_sqrt h1.le
    have h3 : √(2 * (m : ℝ) + 1) ≠ 0 := (Real.sqrt_pos.2 h1).ne'
    field_simp
    linear_combination -h2
  have en : nrm m m = √(1 / ((2 * m).factorial : ℝ)) := by
    unfold nrm
    rw [Nat.sub_self, Nat.factorial_zero, ← two_mul, Nat.cast_one]
  rw [en, pow_two x]
  linear_combination -((-1) ^ m * √(1 / ((2 * m).factorial : ℝ)) * T m m 0 * x *
    √(1 - x * x) ^ m) * e

theorem clear_rows (m : ℕ) (y : Nat → ℝ) (j : Nat) :
    forN m (fun j y => put y j 0) y j = if j < m then 0 else y j := by
  induction m with
  | zero => simp
  | succ m ih =>
    rw [forN_succ]
    by_cases h : j = m
    · subst h; simp
    · rw [put_other _ _ h, ih]
      by_cases h2 : j < m
      · rw [if_pos h2, if_pos (by omega)]
      · rw [if_neg h2, if_neg (by omega)]

theorem assocStart_eq (m nL : Nat) (mu : ℝ) (hmu : mu ^ 2 ≤ 1) (y : Nat → ℝ) (l : Nat)
    (hl : l < nL) (hlm : l ≤ m + 1) : assocStart m nL mu (cdOf m) y l = Y m l mu := by
  unfold assocStart
  by_cases hm : m = 0
  · subst hm
    rw [if_pos rfl]
    have h0 : Y 0 0 mu = 1 := by simp [Y, legendre_zero]
    have h1 : Y 0 1 mu = mu := by simp [Y, legendre_one]
    by_cases h : 1 < nL
    · rw [if_pos h]
      rcases l with _ | l
      · rw [put_other _ _ (by omega), put_same, h0]
      · obtain rfl : l = 0 := by omega
        rw [put_same, h1]
    · rw [if_neg h]
      obtain rfl : l = 0 := by omega
      rw [put_same, h0]
  · rw [if_neg hm]
    have hbase : ∀ l ≤ m, put (forN m (fun j y => put y j 0) y) m
        ((cdOf m).1 * (1 - mu * mu) ^ ((m : ℝ) / 2)) l = Y m l mu := by
      intro l h
      by_cases h1 : l = m
      · subst h1
        rw [put_same, Y_diag _ _ hmu]
      · rw [put_other _ _ h1, clear_rows, if_pos (by omega), Y_zero m l (by omega)]
    by_cases h : m + 1 < nL
    · rw [if_pos h]
      by_cases h1 : l = m + 1
      · subst h1
        rw [put_same, Y_next _ _ hmu]
      · rw [put_other _ _ h1]
        exact hbase l (by omega)
    · rw [if_neg h]
      exact hbase l (by omega)

theorem assocPoly_eq (m nL : Nat) (mu : ℝ) (hmu : mu ^ 2 ≤ 1) (y : Nat → ℝ) (l : Nat)
    (hl : l < nL) : assocPoly m nL mu (cdOf m) y l = Y m l mu := by
  unfold assocPoly
  have key : ∀ l, l < nL → l ≤ m + 1 + (nL - 1 - (m + 1)) →
      forN (nL - 1 - (m + 1)) (fun t y => assocStep m mu (m + 1 + t) y)
        (assocStart m nL mu (cdOf m) y) l = Y m l mu := by
    refine forN_ind_lt (nL - 1 - (m + 1))
      (fun t (y : Nat → ℝ) => ∀ l, l < nL → l ≤ m + 1 + t → y l = Y m l mu) _ _ ?_ ?_
    · intro l hl h
      exact assocStart_eq m nL mu hmu y l hl (by omega)
    · intro t y ht ih l hl h
      unfold assocStep
      by_cases h1 : l = m + 1 + t + 1
      · subst h1
        rw [put_same, ih (m + 1 + t) (by omega) (by omega),
          ih (m + 1 + t - 1) (by omega) (by omega), show m + 1 + t - 1 = m + t by omega]
        have := Y_recur m (m + t) (by omega) mu
        rw [show m + t + 1 = m + 1 + t by omega, show m + t + 2 = m + 1 + t + 1 by omega] at this
        rw [← this]
        push_cast
        rw [show (m : ℝ) + 1 + t = m + t + 1 by ring]
      · rw [put_other _ _ h1]
        exact ih l hl (by omega)
  exact key l hl (by omega)

/-! ## The tables between calls -/

theorem climb_eq (nL nMu : Nat) (mus : Nat → ℝ) (hmu : ∀ i < nMu, mus i ^ 2 ≤ 1) (lo n : Nat)
    (hn : 0 < n) (cd : ℝ × ℝ) (Yt : Nat → Nat → ℝ) (hcd : lo ≠ 0 → cd = cdOf (lo - 1)) :
    (climb nL nMu mus lo n (cd, Yt)).1 = cdOf (lo + n - 1) ∧
    ∀ i < nMu, ∀ l < nL, (climb nL nMu mus lo n (cd, Yt)).2 i l = Y (lo + n - 1) l (mus i) := by
  induction n with
  | zero => omega
  | succ n ih =>
    have hprev : consts (lo + n) (climb nL nMu mus lo n (cd, Yt)).1 = cdOf (lo + n) := by
      rcases Nat.eq_zero_or_pos n with rfl | hp
      · rcases Nat.eq_zero_or_pos lo with rfl | hl
        · simp [consts, cdOf]
        · obtain ⟨k, rfl⟩ : ∃ k, lo = k + 1 := ⟨lo - 1, by omega⟩
          have hc := hcd (by omega)
          rw [Nat.add_sub_cancel] at hc
          change consts (k + 1) cd = _
          rw [hc]
          rfl
      · rw [(ih hp).1]
        obtain ⟨k, hk⟩ : ∃ k, lo + n = k + 1 := ⟨lo + n - 1, by omega⟩
        rw [hk, Nat.add_sub_cancel]
        rfl
    have e : climb nL nMu mus lo (n + 1) (cd, Yt) =
        (consts (lo + n) (climb nL nMu mus lo n (cd, Yt)).1,
          assocRows (lo + n) nL nMu mus (consts (lo + n) (climb nL nMu mus lo n (cd, Yt)).1)
            (climb nL nMu mus lo n (cd, Yt)).2) := rfl
    rw [e, hprev, show lo + (n + 1) - 1 = lo + n by omega]
    refine ⟨rfl, fun i hi l hl => ?_⟩
    dsimp only [assocRows]
    rw [if_pos hi]
    exact assocPoly_eq _ _ _ (hmu i hi) _ _ hl

/-- What holds between calls. -/
structure Inv (save : Bool) (nL nMu : Nat) (mus : Nat → ℝ) (s : Cache) : Prop where
  cd : ∀ o, s.order = some o → s.cd = cdOf o
  saved : save = true → ∀ m, s.stale m = false →
    ∀ i < nMu, ∀ l < nL, s.tables m i l = Y m l (mus i)
  single : save = false → ∀ m, s.order = some m → s.stale m = false →
    ∀ i < nMu, ∀ l < nL, s.tables 0 i l = Y m l (mus i)

theorem inv_init (save : Bool) (nL nMu : Nat) (mus : Nat → ℝ) (cd : ℝ × ℝ)
    (tables : Nat → Nat → Nat → ℝ) : Inv save nL nMu mus (Cache.init cd tables) :=
  ⟨fun _ h => by simp [Cache.init] at h, fun _ _ h => by simp [Cache.init] at h,
    fun _ _ h => by simp [Cache.init] at h⟩

theorem inv_touch (save : Bool) (nL nMu : Nat) (mus mus' : Nat → ℝ) (s : Cache)
    (h : Inv save nL nMu mus s) : Inv save nL nMu mus' s.touch :=
  ⟨h.cd, fun _ _ h => by simp [Cache.touch] at h, fun _ _ _ h => by simp [Cache.touch] at h⟩

theorem get_ok (save : Bool) (nL nMu : Nat) (mus : Nat → ℝ) (hmu : ∀ i < nMu, mus i ^ 2 ≤ 1)
    (m : Nat) (s : Cache) (h : Inv save nL nMu mus s) :
    Inv save nL nMu mus (get save nL nMu mus m s).1 ∧
    ∀ i < nMu, ∀ l < nL,
      (get save nL nMu mus m s).1.tables (get save nL nMu mus m s).2 i l = Y m l (mus i) := by
  unfold get
  dsimp only
  by_cases h1 : (s.stale m || (!save && decide (s.order ≠ some m))) = false
  · rw [if_pos h1]
    rw [Bool.or_eq_false_iff] at h1
    obtain ⟨hst, hor⟩ := h1
    have hval : ∀ i < nMu, ∀ l < nL,
        s.tables (if save = true then m else 0) i l = Y m l (mus i) := by
      cases hs : save
      · rw [hs] at hor
        simp only [Bool.not_false, Bool.true_and, decide_eq_false_iff_not, ne_eq, not_not] at hor
        exact h.single hs m hor hst
      · exact h.saved hs m hst
    refine ⟨⟨h.cd, fun hs k hk => ?_, fun hs k ho hk => ?_⟩, hval⟩
    · by_cases hkm : k = m
      · subst hkm; exact h.saved hs k hst
      · simp only [hkm, if_false] at hk
        exact h.saved hs k hk
    · by_cases hkm : k = m
      · subst hkm; exact h.single hs k ho hst
      · simp only [hkm, if_false] at hk
        exact h.single hs k ho hk
  · rw [if_neg h1]
    -- in both remaining branches the table of the slot is the one of `m`
    have finish : ∀ (r : (ℝ × ℝ) × (Nat → Nat → ℝ)) (o : Option Nat), o = some m → r.1 = cdOf m →
        (∀ i < nMu, ∀ l < nL, r.2 i l = Y m l (mus i)) →
        Inv save nL nMu mus ⟨o, r.1,
          fun k => if k = (if save = true then m else 0) then r.2 else s.tables k,
          fun k => if k = m then false else s.stale k⟩ := by
      intro r o ho hr hv
      refine ⟨fun o' ho' => ?_, fun hs k hk => ?_, fun hs k hk hst => ?_⟩
      · simp only [ho, Option.some.injEq] at ho'
        rw [← ho']; exact hr
      · rw [if_pos hs]
        by_cases hkm : k = m
        · subst hkm
          simp only [if_true]
          exact hv
        · simp only [hkm, if_false] at hk ⊢
          exact h.saved hs k hk
      · simp only [hs, Bool.false_eq_true, if_false, if_true]
        simp only [ho, Option.some.injEq] at hk
        rw [← hk]; exact hv
    by_cases h2 : s.order = some m
    · rw [if_pos h2]
      have hcd := h.cd m h2
      have hv : ∀ i < nMu, ∀ l < nL,
          assocRows m nL nMu mus s.cd (s.tables (if save = true then m else 0)) i l =
            Y m l (mus i) := by
        intro i hi l hl
        unfold assocRows
        rw [if_pos hi, hcd]
        exact assocPoly_eq _ _ _ (hmu i hi) _ _ hl
      refine ⟨finish (s.cd, _) s.order h2 hcd hv, ?_⟩
      simpa using hv
    · rw [if_neg h2]
      have hc : ∃ lo, lowest s.order m = lo ∧ lo ≤ m ∧
          (lo ≠ 0 → s.cd = cdOf (lo - 1)) := by
        refine ⟨_, rfl, ?_⟩
        cases ho : s.order with
        | none =>
          dsimp only [lowest]
          exact ⟨Nat.zero_le _, fun h => absurd rfl h⟩
        | some o =>
          dsimp only [lowest]
          by_cases hmo : m < o
          · rw [if_pos hmo]
            exact ⟨Nat.zero_le _, fun h => absurd rfl h⟩
          · rw [if_neg hmo]
            have : o ≠ m := fun e => h2 (by rw [ho, e])
            exact ⟨by omega, fun _ => h.cd o ho⟩
      obtain ⟨lo, hlo, hle, hcd⟩ := hc
      rw [hlo]
      obtain ⟨e1, e2⟩ := climb_eq nL nMu mus hmu lo (m + 1 - lo) (by omega) s.cd
        (s.tables (if save = true then m else 0)) hcd
      rw [show lo + (m + 1 - lo) - 1 = m by omega] at e1 e2
      refine ⟨finish _ _ rfl e1 e2, ?_⟩
      simpa using e2

theorem history_inv (save : Bool) (nL nMu : Nat) (es : List Ev) (s : Cache × (Nat → ℝ))
    (hmu : ∀ i < nMu, s.2 i ^ 2 ≤ 1) (hes : ∀ mus, Ev.move mus ∈ es → ∀ i < nMu, mus i ^ 2 ≤ 1)
    (h : Inv save nL nMu s.2 s.1) :
    Inv save nL nMu (history save nL nMu es s).2 (history save nL nMu es s).1 ∧
      ∀ i < nMu, (history save nL nMu es s).2 i ^ 2 ≤ 1 := by
  induction es generalizing s with
  | nil => exact ⟨h, hmu⟩
  | cons e es ih =>
    cases e with
    | move mus =>
      exact ih (s.1.touch, mus) (hes mus (by simp)) (fun m hm => hes m (by simp [hm]))
        (inv_touch _ _ _ _ _ _ h)
    | ask m =>
      exact ih ((get save nL nMu s.2 m s.1).1, s.2) hmu (fun m hm => hes m (by simp [hm]))
        (get_ok _ _ _ _ hmu _ _ h).1

/-! ## Phase functions -/

theorem phaseFunc_eq (n : Nat) (p coef : Nat → ℝ) :
    phaseFunc n p coef = ∑ k ∈ Finset.range n, p k * coef k := by
  unfold phaseFunc
  rw [forN_sum, zero_add]

theorem every2_eq (n : Nat) (term : Nat → ℝ) (fuel k : Nat) (acc : ℝ) (h : n ≤ k + 2 * fuel) :
    every2 n term fuel k acc =
      acc + ∑ j ∈ Finset.range n, if k ≤ j ∧ (j - k) % 2 = 0 then term j else 0 := by
  induction fuel generalizing k acc with
  | zero =>
    unfold every2
    rw [Finset.sum_eq_zero, add_zero]
    intro j hj
    rw [Finset.mem_range] at hj
    rw [if_neg (by omega)]
  | succ fuel ih =>
    unfold every2
    by_cases hk : k < n
    · rw [if_pos hk, ih _ _ (by omega), add_assoc]
      congr 1
      rw [← Finset.sum_erase_add _ _ (Finset.mem_range.2 hk),
        ← Finset.sum_erase_add (a := k) (f := fun j => if k ≤ j ∧ (j - k) % 2 = 0 then term j else 0)
          _ (Finset.mem_range.2 hk)]
      rw [if_neg (by omega : ¬ (k + 2 ≤ k ∧ (k - (k + 2)) % 2 = 0)), add_zero,
        if_pos (by omega : k ≤ k ∧ (k - k) % 2 = 0), add_comm]
      congr 1
      refine Finset.sum_congr rfl fun j hj => ?_
      have hjk : j ≠ k := Finset.ne_of_mem_erase hj
      by_cases h1 : k + 2 ≤ j ∧ (j - (k + 2)) % 2 = 0
      · rw [if_pos h1, if_pos (by omega)]
      · rw [if_neg h1, if_neg (by omega)]
    · rw [if_neg hk, Finset.sum_eq_zero, add_zero]
      intro j hj
      rw [Finset.mem_range] at hj
      rw [if_neg (by omega)]

theorem phaseElem_eq (m n : Nat) (y1 y2 coef : Nat → ℝ) :
    phaseElem m n y1 y2 coef =
      (eps m * ∑ k ∈ Finset.range n, if m ≤ k then coef k * y1 k * y2 k else 0,
       eps m * ∑ k ∈ Finset.range n, if m ≤ k then (-1) ^ (k + m) * (coef k * y1 k * y2 k) else 0) := by
  unfold phaseElem
  dsimp only
  rw [every2_eq _ _ _ _ _ (by omega), every2_eq _ _ _ _ _ (by omega), zero_add, zero_add]
  have he : (2 - (if m = 0 then 1 else 0) : ℝ) = eps m := by
    unfold eps; split <;> norm_num
  rw [he, ← Finset.sum_add_distrib, ← Finset.sum_sub_distrib, mul_comm, mul_comm (∑ _ ∈ _, _)]
  congr 2
  · refine Finset.sum_congr rfl fun k _ => ?_
    by_cases h : m ≤ k
    · rw [if_pos h]
      rcases Nat.mod_two_eq_zero_or_one (k - m) with h1 | h1
      · rw [if_pos ⟨h, h1⟩, if_neg (by omega), add_zero]
      · rw [if_neg (by omega), if_pos (by omega), zero_add]
    · rw [if_neg h, if_neg (by omega), if_neg (by omega), add_zero]
  · refine Finset.sum_congr rfl fun k _ => ?_
    by_cases h : m ≤ k
    · rw [if_pos h]
      obtain ⟨t, rfl⟩ : ∃ t, k = m + t := ⟨k - m, by omega⟩
      have hp : ((-1 : ℝ)) ^ (m + t + m) = (-1) ^ t := by
        rw [show m + t + m = 2 * m + t by omega, pow_add, pow_mul]; norm_num
      rw [hp]
      rw [Nat.add_sub_cancel_left]
      rcases Nat.mod_two_eq_zero_or_one t with h1 | h1
      · rw [if_pos ⟨h, h1⟩, if_neg (by omega), (Nat.even_iff.2 h1).neg_one_pow]
        ring
      · rw [if_neg (by omega), if_pos (by omega), (Nat.odd_iff.2 h1).neg_one_pow]
        ring
    · rw [if_neg h, if_neg (by omega), if_neg (by omega), sub_zero]

/-! ## Closed forms -/

theorem T_step (m l : ℕ) (x : ℝ) (c : ℝ) (hc : c = (l : ℝ) + 2 - m) (h0 : c ≠ 0) :
    T m (l + 2) x = ((2 * l + 3) * x * T m (l + 1) x - (l + 1 + m) * T m l x) / c := by
  rw [eq_div_iff h0, hc]
  have := T_recur m l x
  linear_combination this

theorem T_values (x : ℝ) :
    T 0 0 x = 1 ∧ T 0 1 x = x ∧ T 0 2 x = (3 * x ^ 2 - 1) / 2 ∧ T 0 3 x = (5 * x ^ 3 - 3 * x) / 2 ∧
    T 0 4 x = (35 * x ^ 4 - 30 * x ^ 2 + 3) / 8 ∧ T 0 5 x = x * (63 * x ^ 4 - 70 * x ^ 2 + 15) / 8 ∧
    T 1 1 x = 1 ∧ T 1 2 x = 3 * x ∧ T 1 3 x = 3 / 2 * (5 * x ^ 2 - 1) ∧
    T 1 4 x = 5 / 2 * (7 * x ^ 3 - 3 * x) ∧ T 1 5 x = 15 / 8 * (21 * x ^ 4 - 14 * x ^ 2 + 1) ∧
    T 2 2 x = 3 ∧ T 2 3 x = 15 * x ∧ T 2 4 x = 15 / 2 * (7 * x ^ 2 - 1) ∧
    T 2 5 x = 105 / 2 * x * (3 * x ^ 2 - 1) ∧
    T 3 3 x = 15 ∧ T 3 4 x = 105 * x ∧ T 3 5 x = 105 / 2 * (9 * x ^ 2 - 1) ∧
    T 4 4 x = 105 ∧ T 4 5 x = 945 * x ∧ T 5 5 x = 945 := by
  have h00 : T 0 0 x = 1 := T_00 x
  have h11 : T 1 1 x = 1 := by rw [T_diag, h00]; norm_num
  have h22 : T 2 2 x = 3 := by rw [T_diag, h11]; norm_num
  have h33 : T 3 3 x = 15 := by rw [T_diag, h22]; norm_num
  have h44 : T 4 4 x = 105 := by rw [T_diag, h33]; norm_num
  have h55 : T 5 5 x = 945 := by rw [T_diag, h44]; norm_num
  have h01 : T 0 1 x = x := by rw [T_next, h00]; norm_num
  have h12 : T 1 2 x = 3 * x := by rw [T_next, h11]; norm_num
  have h23 : T 2 3 x = 15 * x := by rw [T_next, h22]; norm_num; ring
  have h34 : T 3 4 x = 105 * x := by rw [T_next, h33]; norm_num; ring
  have h45 : T 4 5 x = 945 * x := by rw [T_next, h44]; norm_num; ring
  have h02 : T 0 2 x = (3 * x ^ 2 - 1) / 2 := by
    rw [T_step 0 0 x 2 (by norm_num) (by norm_num), h01, h00]; push_cast; ring
  have h03 : T 0 3 x = (5 * x ^ 3 - 3 * x) / 2 := by
    rw [T_step 0 1 x 3 (by norm_num) (by norm_num), h02, h01]; push_cast; ring
  have h04 : T 0 4 x = (35 * x ^ 4 - 30 * x ^ 2 + 3) / 8 := by
    rw [T_step 0 2 x 4 (by norm_num) (by norm_num), h03, h02]; push_cast; ring
  have h05 : T 0 5 x = x * (63 * x ^ 4 - 70 * x ^ 2 + 15) / 8 := by
    rw [T_step 0 3 x 5 (by norm_num) (by norm_num), h04, h03]; push_cast; ring
  have h13 : T 1 3 x = 3 / 2 * (5 * x ^ 2 - 1) := by
    rw [T_step 1 1 x 2 (by norm_num) (by norm_num), h12, h11]; push_cast; ring
  have h14 : T 1 4 x = 5 / 2 * (7 * x ^ 3 - 3 * x) := by
    rw [T_step 1 2 x 3 (by norm_num) (by norm_num), h13, h12]; push_cast; ring
  have h15 : T 1 5 x = 15 / 8 * (21 * x ^ 4 - 14 * x ^ 2 + 1) := by
    rw [T_step 1 3 x 4 (by norm_num) (by norm_num), h14, h13]; push_cast; ring
  have h24 : T 2 4 x = 15 / 2 * (7 * x ^ 2 - 1) := by
    rw [T_step 2 2 x 2 (by norm_num) (by norm_num), h23, h22]; push_cast; ring
  have h25 : T 2 5 x = 105 / 2 * x * (3 * x ^ 2 - 1) := by
    rw [T_step 2 3 x 3 (by norm_num) (by norm_num), h24, h23]; push_cast; ring
  have h35 : T 3 5 x = 105 / 2 * (9 * x ^ 2 - 1) := by
    rw [T_step 3 3 x 2 (by norm_num) (by norm_num), h34, h33]; push_cast; ring
  exact ⟨h00, h01, h02, h03, h04, h05, h11, h12, h13, h14, h15, h22, h23, h24, h25, h33, h34, h35,
    h44, h45, h55⟩

theorem nrm_inv (m l : ℕ) (N : ℝ) (h : ((l - m).factorial : ℝ) * N = ((l + m).factorial : ℝ)) :
    nrm m l = 1 / √N := by
  unfold nrm
  rw [← h, Real.sqrt_div (by positivity)]
  have h0 : ((l - m).factorial : ℝ) ≠ 0 := by positivity
  rw [Real.sqrt_mul (by positivity), div_mul_eq_div_div, div_self]
  exact (Real.sqrt_pos.2 (by positivity)).ne'

theorem closed_00 (x : ℝ) (hx : x ^ 2 ≤ 1) : calcY 0 x 0 = Y 0 0 x := by
  rw [Y_eq, nrm_inv 0 0 1 (by norm_num), (T_values x).1]
  have hs : √(1 - x * x) * √(1 - x * x) = 1 - x * x := Real.mul_self_sqrt (by nlinarith)
  change 1 = _
  rw [pow_two x] at *
  simp only [Real.sqrt_one]
  ring

theorem closed_01 (x : ℝ) (hx : x ^ 2 ≤ 1) : calcY 0 x 1 = Y 0 1 x := by
  rw [Y_eq, nrm_inv 0 1 1 (by norm_num), (T_values x).2.1]
  have hs : √(1 - x * x) * √(1 - x * x) = 1 - x * x := Real.mul_self_sqrt (by nlinarith)
  change x = _
  rw [pow_two x] at *
  simp only [Real.sqrt_one]
  ring

theorem closed_02 (x : ℝ) (hx : x ^ 2 ≤ 1) : calcY 0 x 2 = Y 0 2 x := by
  rw [Y_eq, nrm_inv 0 2 1 (by norm_num), (T_values x).2.2.1]
  have hs : √(1 - x * x) * √(1 - x * x) = 1 - x * x := Real.mul_self_sqrt (by nlinarith)
  change 1 / 2 * (3 * (x * x) - 1) = _
  rw [pow_two x] at *
  simp only [Real.sqrt_one]
  ring

theorem closed_03 (x : ℝ) (hx : x ^ 2 ≤ 1) : calcY 0 x 3 = Y 0 3 x := by
  rw [Y_eq, nrm_inv 0 3 1 (by norm_num), (T_values x).2.2.2.1]
  have hs : √(1 - x * x) * √(1 - x * x) = 1 - x * x := Real.mul_self_sqrt (by nlinarith)
  change 1 / 2 * (5 * (x * x * x) - 3 * x) = _
  rw [pow_two x] at *
  simp only [Real.sqrt_one]
  ring

theorem closed_04 (x : ℝ) (hx : x ^ 2 ≤ 1) : calcY 0 x 4 = Y 0 4 x := by
  rw [Y_eq, nrm_inv 0 4 1 (by norm_num), (T_values x).2.2.2.2.1]
  have hs : √(1 - x * x) * √(1 - x * x) = 1 - x * x := Real.mul_self_sqrt (by nlinarith)
  change 1 / 8 * (35 * (x * x * x * x) - 30 * (x * x) + 3) = _
  rw [pow_two x] at *
  simp only [Real.sqrt_one]
  ring

theorem closed_05 (x : ℝ) (hx : x ^ 2 ≤ 1) : calcY 0 x 5 = Y 0 5 x := by
  rw [Y_eq, nrm_inv 0 5 1 (by norm_num), (T_values x).2.2.2.2.2.1]
  have hs : √(1 - x * x) * √(1 - x * x) = 1 - x * x := Real.mul_self_sqrt (by nlinarith)
  change 1 / 8 * x * (63 * (x * x * x * x) - 70 * (x * x) + 15) = _
  rw [pow_two x] at *
  simp only [Real.sqrt_one]
  ring

theorem closed_11 (x : ℝ) (hx : x ^ 2 ≤ 1) : calcY 1 x 1 = Y 1 1 x := by
  rw [Y_eq, nrm_inv 1 1 2 (by norm_num [Nat.factorial]), (T_values x).2.2.2.2.2.2.1]
  have hs : √(1 - x * x) * √(1 - x * x) = 1 - x * x := Real.mul_self_sqrt (by nlinarith)
  change -√(1 - x * x) / √2 = _
  rw [pow_two x] at *
  ring

theorem closed_12 (x : ℝ) (hx : x ^ 2 ≤ 1) : calcY 1 x 2 = Y 1 2 x := by
  rw [Y_eq, nrm_inv 1 2 6 (by norm_num [Nat.factorial]), (T_values x).2.2.2.2.2.2.2.1]
  have hs : √(1 - x * x) * √(1 - x * x) = 1 - x * x := Real.mul_self_sqrt (by nlinarith)
  change -3 * x * √(1 - x * x) / √6 = _
  rw [pow_two x] at *
  ring

theorem closed_13 (x : ℝ) (hx : x ^ 2 ≤ 1) : calcY 1 x 3 = Y 1 3 x := by
  rw [Y_eq, nrm_inv 1 3 12 (by norm_num [Nat.factorial]), (T_values x).2.2.2.2.2.2.2.2.1]
  have hs : √(1 - x * x) * √(1 - x * x) = 1 - x * x := Real.mul_self_sqrt (by nlinarith)
  change -3 / 2 * (5 * (x * x) - 1) * √(1 - x * x) / √12 = _
  rw [pow_two x] at *
  ring

theorem closed_14 (x : ℝ) (hx : x ^ 2 ≤ 1) : calcY 1 x 4 = -Y 1 4 x := by
  rw [Y_eq, nrm_inv 1 4 20 (by norm_num [Nat.factorial]), (T_values x).2.2.2.2.2.2.2.2.2.1]
  have hs : √(1 - x * x) * √(1 - x * x) = 1 - x * x := Real.mul_self_sqrt (by nlinarith)
  change 5 / 2 * (7 * (x * x * x) - 3 * x) * √(1 - x * x) / √20 = _
  rw [pow_two x] at *
  ring

theorem closed_15 (x : ℝ) (hx : x ^ 2 ≤ 1) : calcY 1 x 5 = -Y 1 5 x := by
  rw [Y_eq, nrm_inv 1 5 30 (by norm_num [Nat.factorial]), (T_values x).2.2.2.2.2.2.2.2.2.2.1]
  have hs : √(1 - x * x) * √(1 - x * x) = 1 - x * x := Real.mul_self_sqrt (by nlinarith)
  change 15 / 8 * √(1 - x * x) * (21 * (x * x * x * x) - 14 * (x * x) + 1) / √30 = _
  rw [pow_two x] at *
  ring

theorem closed_22 (x : ℝ) (hx : x ^ 2 ≤ 1) : calcY 2 x 2 = Y 2 2 x := by
  rw [Y_eq, nrm_inv 2 2 24 (by norm_num [Nat.factorial]), (T_values x).2.2.2.2.2.2.2.2.2.2.2.1]
  have hs : √(1 - x * x) * √(1 - x * x) = 1 - x * x := Real.mul_self_sqrt (by nlinarith)
  change 3 * (1 - (x * x)) / √24 = _
  rw [pow_two x] at *
  rw [pow_two (√(1 - x * x)), hs]
  ring

theorem closed_23 (x : ℝ) (hx : x ^ 2 ≤ 1) : calcY 2 x 3 = Y 2 3 x := by
  rw [Y_eq, nrm_inv 2 3 120 (by norm_num [Nat.factorial]), (T_values x).2.2.2.2.2.2.2.2.2.2.2.2.1]
  have hs : √(1 - x * x) * √(1 - x * x) = 1 - x * x := Real.mul_self_sqrt (by nlinarith)
  change 15 * x * (1 - (x * x)) / √120 = _
  rw [pow_two x] at *
  rw [pow_two (√(1 - x * x)), hs]
  ring

theorem closed_24 (x : ℝ) (hx : x ^ 2 ≤ 1) : calcY 2 x 4 = Y 2 4 x := by
  rw [Y_eq, nrm_inv 2 4 360 (by norm_num [Nat.factorial]), (T_values x).2.2.2.2.2.2.2.2.2.2.2.2.2.1]
  have hs : √(1 - x * x) * √(1 - x * x) = 1 - x * x := Real.mul_self_sqrt (by nlinarith)
  change 15 / 2 * (7 * (x * x) - 1) * (1 - (x * x)) / √360 = _
  rw [pow_two x] at *
  rw [pow_two (√(1 - x * x)), hs]
  ring

theorem closed_25 (x : ℝ) (hx : x ^ 2 ≤ 1) : calcY 2 x 5 = Y 2 5 x := by
  rw [Y_eq, nrm_inv 2 5 840 (by norm_num [Nat.factorial]), (T_values x).2.2.2.2.2.2.2.2.2.2.2.2.2.2.1]
  have hs : √(1 - x * x) * √(1 - x * x) = 1 - x * x := Real.mul_self_sqrt (by nlinarith)
  change 105 / 2 * x * (1 - (x * x)) * (3 * (x * x) - 1) / √840 = _
  rw [pow_two x] at *
  rw [pow_two (√(1 - x * x)), hs]
  ring

theorem closed_33 (x : ℝ) (hx : x ^ 2 ≤ 1) : calcY 3 x 3 = Y 3 3 x := by
  rw [Y_eq, nrm_inv 3 3 720 (by norm_num [Nat.factorial]), (T_values x).2.2.2.2.2.2.2.2.2.2.2.2.2.2.2.1]
  have hs : √(1 - x * x) * √(1 - x * x) = 1 - x * x := Real.mul_self_sqrt (by nlinarith)
  change -15 * (√(1 - x * x) * √(1 - x * x) * √(1 - x * x)) / √720 = _
  rw [pow_two x] at *
  ring

theorem closed_34 (x : ℝ) (hx : x ^ 2 ≤ 1) : calcY 3 x 4 = -Y 3 4 x := by
  rw [Y_eq, nrm_inv 3 4 5040 (by norm_num [Nat.factorial]), (T_values x).2.2.2.2.2.2.2.2.2.2.2.2.2.2.2.2.1]
  have hs : √(1 - x * x) * √(1 - x * x) = 1 - x * x := Real.mul_self_sqrt (by nlinarith)
  change 105 * x * (√(1 - x * x) * √(1 - x * x) * √(1 - x * x)) / √5040 = _
  rw [pow_two x] at *
  ring

theorem closed_35 (x : ℝ) (hx : x ^ 2 ≤ 1) : calcY 3 x 5 = -Y 3 5 x := by
  rw [Y_eq, nrm_inv 3 5 20160 (by norm_num [Nat.factorial]), (T_values x).2.2.2.2.2.2.2.2.2.2.2.2.2.2.2.2.2.1]
  have hs : √(1 - x * x) * √(1 - x * x) = 1 - x * x := Real.mul_self_sqrt (by nlinarith)
  change 105 / 2 * (√(1 - x * x) * √(1 - x * x) * √(1 - x * x)) * (9 * (x * x) - 1) / √20160 = _
  rw [pow_two x] at *
  ring

theorem closed_44 (x : ℝ) (hx : x ^ 2 ≤ 1) : calcY 4 x 4 = Y 4 4 x := by
  rw [Y_eq, nrm_inv 4 4 40320 (by norm_num [Nat.factorial]), (T_values x).2.2.2.2.2.2.2.2.2.2.2.2.2.2.2.2.2.2.1]
  have hs : √(1 - x * x) * √(1 - x * x) = 1 - x * x := Real.mul_self_sqrt (by nlinarith)
  change 105 * ((√(1 - x * x) * √(1 - x * x) * √(1 - x * x)) * √(1 - x * x)) / √40320 = _
  rw [pow_two x] at *
  ring

theorem closed_45 (x : ℝ) (hx : x ^ 2 ≤ 1) : calcY 4 x 5 = Y 4 5 x := by
  rw [Y_eq, nrm_inv 4 5 362880 (by norm_num [Nat.factorial]), (T_values x).2.2.2.2.2.2.2.2.2.2.2.2.2.2.2.2.2.2.2.1]
  have hs : √(1 - x * x) * √(1 - x * x) = 1 - x * x := Real.mul_self_sqrt (by nlinarith)
  change 945 * x * ((√(1 - x * x) * √(1 - x * x) * √(1 - x * x)) * √(1 - x * x)) / √362880 = _
  rw [pow_two x] at *
  ring

theorem closed_55 (x : ℝ) (hx : x ^ 2 ≤ 1) : calcY 5 x 5 = -Y 5 5 x := by
  rw [Y_eq, nrm_inv 5 5 3628800 (by norm_num [Nat.factorial]), (T_values x).2.2.2.2.2.2.2.2.2.2.2.2.2.2.2.2.2.2.2.2]
  have hs : √(1 - x * x) * √(1 - x * x) = 1 - x * x := Real.mul_self_sqrt (by nlinarith)
  change 945 * (((√(1 - x * x) * √(1 - x * x) * √(1 - x * x)) * √(1 - x * x)) * √(1 - x * x)) / √3628800 = _
  rw [pow_two x] at *
  ring

theorem closed (m l : Nat) (hm : m ≤ l) (hl : l ≤ 5) :
    ∃ e : ℝ, (e = 1 ∨ e = -1) ∧ ∀ x : ℝ, x ^ 2 ≤ 1 → calcY m x l = e * Y m l x := by
  have pos : ∀ (f g : ℝ → ℝ), (∀ x : ℝ, x ^ 2 ≤ 1 → f x = g x) →
      ∃ e : ℝ, (e = 1 ∨ e = -1) ∧ ∀ x : ℝ, x ^ 2 ≤ 1 → f x = e * g x :=
    fun f g h => ⟨1, Or.inl rfl, fun x hx => by rw [h x hx, one_mul]⟩
  have neg : ∀ (f g : ℝ → ℝ), (∀ x : ℝ, x ^ 2 ≤ 1 → f x = -g x) →
      ∃ e : ℝ, (e = 1 ∨ e = -1) ∧ ∀ x : ℝ, x ^ 2 ≤ 1 → f x = e * g x :=
    fun f g h => ⟨-1, Or.inr rfl, fun x hx => by rw [h x hx]; ring⟩
  obtain ⟨h0, h5⟩ : m ≤ 5 ∧ l ≤ 5 := ⟨by omega, hl⟩
  interval_cases l <;> interval_cases m
  · exact pos _ _ closed_00
  · exact pos _ _ closed_01
  · exact pos _ _ closed_11
  · exact pos _ _ closed_02
  · exact pos _ _ closed_12
  · exact pos _ _ closed_22
  · exact pos _ _ closed_03
  · exact pos _ _ closed_13
  · exact pos _ _ closed_23
  · exact pos _ _ closed_33
  · exact pos _ _ closed_04
  · exact neg _ _ closed_14
  · exact pos _ _ closed_24
  · exact neg _ _ closed_34
  · exact pos _ _ closed_44
  · exact pos _ _ closed_05
  · exact neg _ _ closed_15
  · exact pos _ _ closed_25
  · exact neg _ _ closed_35
  · exact pos _ _ closed_45
  · exact neg _ _ closed_55

end Xrtm.Legendre
