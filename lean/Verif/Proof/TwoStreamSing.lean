import Verif.Proof.TwoStream
import Verif.Proof.BvpSing
import Mathlib.LinearAlgebra.Matrix.ToLinearEquiv
import Mathlib.Tactic.Linarith
import Mathlib.Tactic.Positivity
import Mathlib.Tactic.FieldSimp

/-! When the two stream solver finds the unknowns. -/

namespace Xrtm.TwoStream
open Xrtm.Loops

variable (z : Inp)

/-- Light in a layer without sources: at its top and at its bottom. -/
noncomputable def u0 (x : Nat → ℝ) (i : Nat) : ℝ := x (2 * i) * Xp z i + x (2 * i + 1) * Lam z i
noncomputable def d0 (x : Nat → ℝ) (i : Nat) : ℝ := -x (2 * i) - x (2 * i + 1) * Xp z i * Lam z i
noncomputable def u1 (x : Nat → ℝ) (i : Nat) : ℝ := x (2 * i) * Xp z i * Lam z i + x (2 * i + 1)
noncomputable def d1 (x : Nat → ℝ) (i : Nat) : ℝ := -x (2 * i) * Lam z i - x (2 * i + 1) * Xp z i

theorem sums (x : Nat → ℝ) (i : Nat) (j : Fin 1) :
    Bvp.F0 Real.exp (toBvp z) x i j = u0 z x i ∧ Bvp.G0 Real.exp (toBvp z) x i j = d0 z x i ∧
    Bvp.F1 Real.exp (toBvp z) x i j = u1 z x i ∧ Bvp.G1 Real.exp (toBvp z) x i j = d1 z x i := by
  have e1 : ((toBvp z).m i).Xp = fun _ _ => Xp z i := rfl
  have e2 : ((toBvp z).m i).Xm = fun _ _ => 1 := rfl
  have h1 : Bvp.al x i (0 : Fin 1) = x (2 * i) := by
    unfold Bvp.al; congr 1; rw [Fin.val_zero]; omega
  have h2 : Bvp.be x i (0 : Fin 1) = x (2 * i + 1) := by
    unfold Bvp.be; congr 1; rw [Fin.val_zero]; omega
  unfold Bvp.F0 Bvp.G0 Bvp.F1 Bvp.G1 u0 d0 u1 d1
  simp only [e1, e2, Finset.univ_unique, Fin.default_eq_zero, Finset.sum_singleton, h1, h2, lam_eq]
  refine ⟨?_, ?_, ?_, ?_⟩ <;> ring

/-- What the ground reflects. -/
noncomputable def ground (v : ℝ) : ℝ := if z.surface then z.Rqq * v else 0

/-- The rows of the system without sources. -/
theorem kernel (hL : 1 ≤ z.L) (x : Nat → ℝ) :
    ((system z).read (2 * z.L)).mulVec (fun c => x c.val) = 0 ↔
      d0 z x 0 = 0 ∧ (∀ i, i + 1 < z.L → u1 z x i = u0 z x (i + 1)) ∧
      (∀ i, i + 1 < z.L → d1 z x i = d0 z x (i + 1)) ∧ u1 z x (z.L - 1) = ground z (d1 z x (z.L - 1)) := by
  have h := Bvp.rows_iff Real.exp (toBvp z) hL x (fun _ => 0)
  have hr : ∀ g : Fin 1 → ℝ, Bvp.refl (toBvp z) g 0 = ground z (g 0) := by
    intro g
    unfold Bvp.refl ground
    have : (toBvp z).surface = z.surface := rfl
    rw [this]
    split_ifs
    · simp [toBvp]
    · rfl
  have hl : (toBvp z).L = z.L := rfl
  simp only [sums, hl] at h
  have e : ((system z).read (2 * z.L)).mulVec (fun c => x c.val) = 0 ↔
      ((Bvp.system Real.exp (toBvp z)).read (Bvp.nDiags 1) (Bvp.nComp (toBvp z))).mulVec (fun c => x c.val) =
        fun _ => 0 := by
    rw [matrix_eq z hL]
    exact Iff.rfl
  rw [e, h]
  constructor
  · rintro ⟨h0, hu, hd, hb⟩
    refine ⟨h0 0, fun i hi => sub_eq_zero.1 (hu i hi 0), fun i hi => sub_eq_zero.1 (hd i hi 0), ?_⟩
    have := sub_eq_zero.1 (hb 0)
    rw [hr] at this
    rw [this, (sums z x (z.L - 1) 0).2.2.2]
  · rintro ⟨h0, hu, hd, hb⟩
    refine ⟨fun _ => h0, fun i hi _ => sub_eq_zero.2 (hu i hi), fun i hi _ => sub_eq_zero.2 (hd i hi), fun j => ?_⟩
    rw [Subsingleton.elim j 0, hr, (sums z x (z.L - 1) 0).2.2.2, hb, sub_self]

/-- A layer whose two modes are the same. -/
theorem det_of_nu (hL : 1 ≤ z.L) {i : Nat} (hi : i < z.L) (h0 : nu z i = 0) (h9 : nu z i - a9 z i ≠ 0) :
    ((system z).read (2 * z.L)).det = 0 := by
  rw [← Matrix.exists_mulVec_eq_zero_iff]
  have hX : Xp z i = -1 := by
    unfold Xp
    rw [h0] at h9 ⊢
    rw [div_eq_iff h9]; ring
  have hLam : Lam z i = 1 := by unfold Lam; rw [h0]; simp
  set x : Nat → ℝ := fun r => if r / 2 = i then 1 else 0 with hx
  have e0 : ∀ k, x (2 * k) = if k = i then 1 else 0 := fun k => by
    simp only [hx]; rw [show 2 * k / 2 = k by omega]
  have e1 : ∀ k, x (2 * k + 1) = if k = i then 1 else 0 := fun k => by
    simp only [hx]; rw [show (2 * k + 1) / 2 = k by omega]
  have hz : ∀ k, u0 z x k = 0 ∧ d0 z x k = 0 ∧ u1 z x k = 0 ∧ d1 z x k = 0 := by
    intro k
    unfold u0 d0 u1 d1
    rw [e0, e1]
    by_cases hk : k = i
    · subst hk
      rw [if_pos rfl, hX, hLam]
      norm_num
    · simp [hk]
  refine ⟨fun c => x c.val, ?_, (kernel z hL x).2 ⟨(hz 0).2.1, fun k _ => by rw [(hz k).2.2.1, (hz _).1],
    fun k _ => by rw [(hz k).2.2.2, (hz _).2.1], by rw [(hz _).2.2.1, (hz _).2.2.2]; unfold ground; simp⟩⟩
  intro h
  have := congrFun h ⟨2 * i, by omega⟩
  simp only [e0, if_true, Pi.zero_apply] at this
  exact one_ne_zero this

/-- Layers that lose light: of the light scattered, less than all comes back. -/
structure Lossy (i : Nat) : Prop where
  sum : alpha z i + beta z i < 0
  diff : alpha z i - beta z i < 0

variable {z}

theorem Lossy.pos {i : Nat} (h : Lossy z i) : 0 < alpha z i * alpha z i - beta z i * beta z i := by
  have := mul_pos_of_neg_of_neg h.sum h.diff
  linarith

theorem Lossy.nu_pos {i : Nat} (h : Lossy z i) : 0 < nu z i := Real.sqrt_pos.2 h.pos

theorem Lossy.a9_neg {i : Nat} (h : Lossy z i) : a9 z i < 0 := h.sum

theorem Lossy.Xp_lt {i : Nat} (h : Lossy z i) : Xp z i ^ 2 < 1 := by
  have h1 := h.nu_pos
  have h2 := h.a9_neg
  unfold Xp
  rw [div_pow, div_lt_one (by have : 0 < nu z i - a9 z i := by linarith
                              positivity)]
  nlinarith [mul_neg_of_pos_of_neg h1 h2]

theorem Lossy.Lam_le {i : Nat} (h : Lossy z i) (ht : 0 ≤ z.ltau i) : 0 < Lam z i ∧ Lam z i ≤ 1 := by
  refine ⟨Real.exp_pos _, ?_⟩
  unfold Lam
  rw [Real.exp_le_one_iff]
  have := mul_nonneg h.nu_pos.le ht
  linarith

variable (z)

theorem energy (x : Nat → ℝ) (i : Nat) :
    (u1 z x i ^ 2 - d1 z x i ^ 2) - (u0 z x i ^ 2 - d0 z x i ^ 2) =
      (1 - Xp z i ^ 2) * (1 - Lam z i ^ 2) * (x (2 * i) ^ 2 + x (2 * i + 1) ^ 2) := by
  unfold u0 d0 u1 d1; ring

/-- The matrix is not singular. -/
theorem det_ne (hL : 1 ≤ z.L) (hp : ∀ i, i < z.L → Lossy z i) (ht : ∀ i, i < z.L → 0 ≤ z.ltau i)
    (hR : z.surface = true → z.Rqq ^ 2 ≤ 1) : ((system z).read (2 * z.L)).det ≠ 0 := by
  intro hdet
  rw [← Matrix.exists_mulVec_eq_zero_iff] at hdet
  obtain ⟨v, hv, h⟩ := hdet
  set x : Nat → ℝ := fun r => if h : r < 2 * z.L then v ⟨r, h⟩ else 0 with hx
  have hxv : (fun c : Fin (2 * z.L) => x c.val) = v := by
    funext c; simp only [hx]; rw [dif_pos c.isLt]
  rw [← hxv] at h
  obtain ⟨h0, hu, hd, hb⟩ := (kernel z hL x).1 h
  have up : ∀ i, i < z.L → 0 ≤ (u1 z x i ^ 2 - d1 z x i ^ 2) - (u0 z x i ^ 2 - d0 z x i ^ 2) := by
    intro i hi
    rw [energy]
    obtain ⟨l0, l1⟩ := (hp i hi).Lam_le (ht i hi)
    have a1 := (hp i hi).Xp_lt
    have a2 : Lam z i ^ 2 ≤ 1 := by nlinarith
    have := mul_nonneg (sub_nonneg.2 a1.le) (sub_nonneg.2 a2)
    positivity
  have grow : ∀ i, i < z.L → u0 z x 0 ^ 2 ≤ u1 z x i ^ 2 - d1 z x i ^ 2 := by
    intro i
    induction i with
    | zero => intro hi; have := up 0 hi; rw [h0] at this; nlinarith
    | succ i ih =>
      intro hi
      have := up (i + 1) hi
      have h2 := ih (by omega)
      rw [← hu i hi, ← hd i hi] at this
      linarith
  have hbot : u1 z x (z.L - 1) ^ 2 - d1 z x (z.L - 1) ^ 2 ≤ 0 := by
    rw [hb]
    unfold ground
    split_ifs with hs
    · have := hR hs
      nlinarith [sq_nonneg (d1 z x (z.L - 1))]
    · nlinarith [sq_nonneg (d1 z x (z.L - 1))]
  have hu0 : u0 z x 0 = 0 := by
    have := grow (z.L - 1) (by omega)
    have : u0 z x 0 ^ 2 ≤ 0 := by linarith
    exact pow_eq_zero_iff two_ne_zero |>.1 (le_antisymm this (sq_nonneg _))
  have zero : ∀ i, i < z.L → u0 z x i = 0 → d0 z x i = 0 → x (2 * i) = 0 ∧ x (2 * i + 1) = 0 := by
    intro i hi a b
    unfold u0 at a
    unfold d0 at b
    have l0 := (hp i hi).Lam_le (ht i hi) |>.1
    have a1 := (hp i hi).Xp_lt
    have c : x (2 * i + 1) * (Lam z i * (1 - Xp z i ^ 2)) = 0 := by linear_combination a + Xp z i * b
    have c1 : x (2 * i + 1) = 0 := by
      rcases mul_eq_zero.1 c with h | h
      · exact h
      · exact absurd h (mul_pos l0 (sub_pos.2 a1)).ne'
    refine ⟨?_, c1⟩
    rw [c1] at b
    linarith
  have all : ∀ i, i < z.L → u0 z x i = 0 ∧ d0 z x i = 0 := by
    intro i
    induction i with
    | zero => exact fun _ => ⟨hu0, h0⟩
    | succ i ih =>
      intro hi
      obtain ⟨a, b⟩ := ih (by omega)
      obtain ⟨c, d⟩ := zero i (by omega) a b
      rw [← hu i hi, ← hd i hi]
      unfold u1 d1
      rw [c, d]
      simp
  apply hv
  rw [← hxv]
  funext c
  obtain ⟨a, b⟩ := all (c.val / 2) (by have := c.isLt; omega)
  obtain ⟨e, f⟩ := zero (c.val / 2) (by have := c.isLt; omega) a b
  rcases Nat.mod_two_eq_zero_or_one c.val with hc | hc
  · have : c.val = 2 * (c.val / 2) := by omega
    rw [this, e]; rfl
  · have : c.val = 2 * (c.val / 2) + 1 := by omega
    rw [this, f]; rfl

end Xrtm.TwoStream
