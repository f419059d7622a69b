import Verif.Proof.StreamsP

/-! The tables of the four and six stream solvers hold the functions of the nodes of
Gauss on the interval from 0 to 1.  The entries are bounded one by one. -/

namespace Xrtm.Streams
open Xrtm.Legendre Xrtm.Legendre.Spec Xrtm.Streams.Spec

theorem near (m l : Nat) (N t d P V A σ x : ℝ) (hV : V = 1 - x ^ 2) (hV0 : 0 ≤ V)
    (hN : ((l - m).factorial : ℝ) * N = ((l + m).factorial : ℝ)) (hT : T m l x = P) (hA : P ^ 2 * V ^ m = (A) * N)
    (hσ : σ ^ 2 = 1) (hs : 0 ≤ σ * ((-1) ^ m * P)) (h0 : 0 ≤ σ * t - d) (h1 : (σ * t - d) ^ 2 ≤ A)
    (h2 : A ≤ (σ * t + d) ^ 2) (hd : 0 ≤ d) : |t - Y m l x| ≤ d := by
  have hN0 : 0 < N := by
    have a : (0 : ℝ) < ((l - m).factorial : ℝ) := by positivity
    have b : (0 : ℝ) < ((l + m).factorial : ℝ) := by positivity
    rw [← hN] at b
    exact (mul_pos_iff_of_pos_left a).1 b
  have hr : 0 < √N := Real.sqrt_pos.2 hN0
  have hr2 : √N ^ 2 = N := Real.sq_sqrt hN0.le
  have hw : 0 ≤ √V := Real.sqrt_nonneg V
  have hw2 : √V ^ 2 = V := Real.sq_sqrt hV0
  have hY : Y m l x = (-1) ^ m * P * (√V ^ m / √N) := by
    rw [Y_eq, nrm_inv m l N hN, hT, ← hV]; ring
  have hm : ((-1 : ℝ) ^ m) ^ 2 = 1 := by rw [← pow_mul, mul_comm, pow_mul]; norm_num
  have hY2 : (σ * Y m l x) ^ 2 = A := by
    have : (√V ^ m) ^ 2 = V ^ m := by rw [← pow_mul, mul_comm, pow_mul, hw2]
    rw [hY, mul_pow, mul_pow, mul_pow, div_pow, hr2, hm, hσ, this, one_mul, one_mul, mul_div_assoc', hA,
      mul_div_assoc, div_self hN0.ne', mul_one]
  have hpos : 0 ≤ σ * Y m l x := by
    rw [hY, ← mul_assoc]
    exact mul_nonneg hs (by positivity)
  have e1 : σ * t - d ≤ σ * Y m l x := by
    rw [← hY2] at h1
    exact (pow_le_pow_iff_left₀ h0 hpos two_ne_zero).1 h1
  have e2 : σ * Y m l x ≤ σ * t + d := by
    rw [← hY2] at h2
    exact (pow_le_pow_iff_left₀ hpos (by linarith) two_ne_zero).1 h2
  have e3 : |σ * (t - Y m l x)| ≤ d := by rw [abs_le]; constructor <;> linarith
  have e4 : |σ| = 1 := by
    rw [← pow_left_inj₀ (abs_nonneg σ) zero_le_one two_ne_zero, sq_abs, hσ, one_pow]
  rwa [abs_mul, e4, one_mul] at e3

theorem s2 : √(1 / 3 : ℝ) ^ 2 = 1 / 3 ∧ (144337567297406441127287 / 250000000000000000000000) ≤ √(1 / 3 : ℝ) ∧ √(1 / 3 : ℝ) ≤ (577350269189625764509149 / 1000000000000000000000000) :=
  ⟨Real.sq_sqrt (by norm_num), Real.le_sqrt_of_sq_le (by norm_num), Real.sqrt_le_iff.2 ⟨by norm_num, by norm_num⟩⟩

theorem s3 : √(3 / 5 : ℝ) ^ 2 = 3 / 5 ∧ (774596669241483377035853 / 1000000000000000000000000) ≤ √(3 / 5 : ℝ) ∧ √(3 / 5 : ℝ) ≤ (387298334620741688517927 / 500000000000000000000000) :=
  ⟨Real.sq_sqrt (by norm_num), Real.le_sqrt_of_sq_le (by norm_num), Real.sqrt_le_iff.2 ⟨by norm_num, by norm_num⟩⟩

theorem t2_000 : |sg 0 0 * Y4 0 0 0 - Y 0 0 (node4 0)| ≤ 1 / 10 ^ 15 := by
  obtain ⟨hs, h1, h2⟩ := s2
  have e : sg 0 0 * Y4 0 0 0 = 1.0000000000000000 := by
    have : sg 0 0 = 1 := by norm_num [sg]
    rw [this]; change (1 : ℝ) * (1.0000000000000000) = _; norm_num
  have hx : node4 0 = (1 / 2) + (-1 / 2) * √(1 / 3 : ℝ) ^ 1 := by simp [node4]; try ring
  rw [e]
  generalize √(1 / 3 : ℝ) = s at *
  refine near 0 0 1 (1.0000000000000000) (1 / 10 ^ 15) ((1) + (0) * s) ((2 / 3) + (1 / 2) * s) ((1) + (0) * s) (1) _ ?_ ?_ (by norm_num [Nat.factorial]) ?_ ?_ (by norm_num) ?_ (by norm_num) ?_ ?_ (by norm_num)
  · rw [hx]; linear_combination (-((-1 / 4))) * hs
  · linarith
  · rw [(T_values _).1]; try rw [hx]
    linear_combination (0) * hs
  · linear_combination (0) * hs
  · norm_num <;> linarith
  · norm_num <;> linarith
  · norm_num <;> linarith

theorem t2_001 : |sg 0 1 * Y4 0 0 1 - Y 0 1 (node4 0)| ≤ 1 / 10 ^ 15 := by
  obtain ⟨hs, h1, h2⟩ := s2
  have e : sg 0 1 * Y4 0 0 1 = 2.1132486540518713e-1 := by
    have : sg 0 1 = 1 := by norm_num [sg]
    rw [this]; change (1 : ℝ) * (2.1132486540518713e-1) = _; norm_num
  have hx : node4 0 = (1 / 2) + (-1 / 2) * √(1 / 3 : ℝ) ^ 1 := by simp [node4]; try ring
  rw [e]
  generalize √(1 / 3 : ℝ) = s at *
  refine near 0 1 1 (2.1132486540518713e-1) (1 / 10 ^ 15) ((1 / 2) + (-1 / 2) * s) ((2 / 3) + (1 / 2) * s) ((1 / 3) + (-1 / 2) * s) (1) _ ?_ ?_ (by norm_num [Nat.factorial]) ?_ ?_ (by norm_num) ?_ (by norm_num) ?_ ?_ (by norm_num)
  · rw [hx]; linear_combination (-((-1 / 4))) * hs
  · linarith
  · rw [(T_values _).2.1]; try rw [hx]
    linear_combination (0) * hs
  · linear_combination ((1 / 4)) * hs
  · norm_num <;> linarith
  · norm_num <;> linarith
  · norm_num <;> linarith

theorem t2_002 : |sg 0 2 * Y4 0 0 2 - Y 0 2 (node4 0)| ≤ 1 / 10 ^ 15 := by
  obtain ⟨hs, h1, h2⟩ := s2
  have e : sg 0 2 * Y4 0 0 2 = -4.3301270189221930e-1 := by
    have : sg 0 2 = 1 := by norm_num [sg]
    rw [this]; change (1 : ℝ) * (-4.3301270189221930e-1) = _; norm_num
  have hx : node4 0 = (1 / 2) + (-1 / 2) * √(1 / 3 : ℝ) ^ 1 := by simp [node4]; try ring
  rw [e]
  generalize √(1 / 3 : ℝ) = s at *
  refine near 0 2 1 (-4.3301270189221930e-1) (1 / 10 ^ 15) ((0) + (-3 / 4) * s) ((2 / 3) + (1 / 2) * s) ((3 / 16) + (0) * s) (-1) _ ?_ ?_ (by norm_num [Nat.factorial]) ?_ ?_ (by norm_num) ?_ (by norm_num) ?_ ?_ (by norm_num)
  · rw [hx]; linear_combination (-((-1 / 4))) * hs
  · linarith
  · rw [(T_values _).2.2.1]; try rw [hx]
    linear_combination ((3 / 8)) * hs
  · linear_combination ((9 / 16)) * hs
  · norm_num <;> linarith
  · norm_num <;> linarith
  · norm_num <;> linarith

theorem t2_003 : |sg 0 3 * Y4 0 0 3 - Y 0 3 (node4 0)| ≤ 1 / 10 ^ 15 := by
  obtain ⟨hs, h1, h2⟩ := s2
  have e : sg 0 3 * Y4 0 0 3 = -2.9339382851364088e-1 := by
    have : sg 0 3 = 1 := by norm_num [sg]
    rw [this]; change (1 : ℝ) * (-2.9339382851364088e-1) = _; norm_num
  have hx : node4 0 = (1 / 2) + (-1 / 2) * √(1 / 3 : ℝ) ^ 1 := by simp [node4]; try ring
  rw [e]
  generalize √(1 / 3 : ℝ) = s at *
  refine near 0 3 1 (-2.9339382851364088e-1) (1 / 10 ^ 15) ((-1 / 8) + (-7 / 24) * s) ((2 / 3) + (1 / 2) * s) ((19 / 432) + (7 / 96) * s) (-1) _ ?_ ?_ (by norm_num [Nat.factorial]) ?_ ?_ (by norm_num) ?_ (by norm_num) ?_ ?_ (by norm_num)
  · rw [hx]; linear_combination (-((-1 / 4))) * hs
  · linarith
  · rw [(T_values _).2.2.2.1]; try rw [hx]
    linear_combination ((15 / 16) + (-5 / 16) * s ^ 1) * hs
  · linear_combination ((49 / 576)) * hs
  · norm_num <;> linarith
  · norm_num <;> linarith
  · norm_num <;> linarith

theorem t2_011 : |sg 1 1 * Y4 0 1 1 - Y 1 1 (node4 0)| ≤ 1 / 10 ^ 15 := by
  obtain ⟨hs, h1, h2⟩ := s2
  have e : sg 1 1 * Y4 0 1 1 = -6.9113739634803417e-1 := by
    have : sg 1 1 = 1 := by norm_num [sg]
    rw [this]; change (1 : ℝ) * (-6.9113739634803417e-1) = _; norm_num
  have hx : node4 0 = (1 / 2) + (-1 / 2) * √(1 / 3 : ℝ) ^ 1 := by simp [node4]; try ring
  rw [e]
  generalize √(1 / 3 : ℝ) = s at *
  refine near 1 1 2 (-6.9113739634803417e-1) (1 / 10 ^ 15) ((1) + (0) * s) ((2 / 3) + (1 / 2) * s) ((1 / 3) + (1 / 4) * s) (-1) _ ?_ ?_ (by norm_num [Nat.factorial]) ?_ ?_ (by norm_num) ?_ (by norm_num) ?_ ?_ (by norm_num)
  · rw [hx]; linear_combination (-((-1 / 4))) * hs
  · linarith
  · rw [(T_values _).2.2.2.2.2.2.1]; try rw [hx]
    linear_combination (0) * hs
  · linear_combination (0) * hs
  · norm_num <;> linarith
  · norm_num <;> linarith
  · norm_num <;> linarith

theorem t2_012 : |sg 1 2 * Y4 0 1 2 - Y 1 2 (node4 0)| ≤ 1 / 10 ^ 15 := by
  obtain ⟨hs, h1, h2⟩ := s2
  have e : sg 1 2 * Y4 0 1 2 = -2.5297384456881489e-1 := by
    have : sg 1 2 = 1 := by norm_num [sg]
    rw [this]; change (1 : ℝ) * (-2.5297384456881489e-1) = _; norm_num
  have hx : node4 0 = (1 / 2) + (-1 / 2) * √(1 / 3 : ℝ) ^ 1 := by simp [node4]; try ring
  rw [e]
  generalize √(1 / 3 : ℝ) = s at *
  refine near 1 2 6 (-2.5297384456881489e-1) (1 / 10 ^ 15) ((3 / 2) + (-3 / 2) * s) ((2 / 3) + (1 / 2) * s) ((5 / 24) + (-1 / 4) * s) (-1) _ ?_ ?_ (by norm_num [Nat.factorial]) ?_ ?_ (by norm_num) ?_ (by norm_num) ?_ ?_ (by norm_num)
  · rw [hx]; linear_combination (-((-1 / 4))) * hs
  · linarith
  · rw [(T_values _).2.2.2.2.2.2.2.1]; try rw [hx]
    linear_combination (0) * hs
  · linear_combination ((-3 / 4) + (9 / 8) * s ^ 1) * hs
  · norm_num <;> linarith
  · norm_num <;> linarith
  · norm_num <;> linarith

theorem t2_013 : |sg 1 3 * Y4 0 1 3 - Y 1 3 (node4 0)| ≤ 1 / 10 ^ 15 := by
  obtain ⟨hs, h1, h2⟩ := s2
  have e : sg 1 3 * Y4 0 1 3 = 3.2872926407690672e-1 := by
    have : sg 1 3 = 1 := by norm_num [sg]
    rw [this]; change (1 : ℝ) * (3.2872926407690672e-1) = _; norm_num
  have hx : node4 0 = (1 / 2) + (-1 / 2) * √(1 / 3 : ℝ) ^ 1 := by simp [node4]; try ring
  rw [e]
  generalize √(1 / 3 : ℝ) = s at *
  refine near 1 3 12 (3.2872926407690672e-1) (1 / 10 ^ 15) ((1) + (-15 / 4) * s) ((2 / 3) + (1 / 2) * s) ((61 / 288) + (-23 / 128) * s) (1) _ ?_ ?_ (by norm_num [Nat.factorial]) ?_ ?_ (by norm_num) ?_ (by norm_num) ?_ ?_ (by norm_num)
  · rw [hx]; linear_combination (-((-1 / 4))) * hs
  · linarith
  · rw [(T_values _).2.2.2.2.2.2.2.2.1]; try rw [hx]
    linear_combination ((15 / 8)) * hs
  · linear_combination ((45 / 8) + (225 / 32) * s ^ 1) * hs
  · norm_num <;> linarith
  · norm_num <;> linarith
  · norm_num <;> linarith

theorem t2_022 : |sg 2 2 * Y4 0 2 2 - Y 2 2 (node4 0)| ≤ 1 / 10 ^ 15 := by
  obtain ⟨hs, h1, h2⟩ := s2
  have e : sg 2 2 * Y4 0 2 2 = 5.8502498576049988e-1 := by
    have : sg 2 2 = 1 := by norm_num [sg]
    rw [this]; change (1 : ℝ) * (5.8502498576049988e-1) = _; norm_num
  have hx : node4 0 = (1 / 2) + (-1 / 2) * √(1 / 3 : ℝ) ^ 1 := by simp [node4]; try ring
  rw [e]
  generalize √(1 / 3 : ℝ) = s at *
  refine near 2 2 24 (5.8502498576049988e-1) (1 / 10 ^ 15) ((3) + (0) * s) ((2 / 3) + (1 / 2) * s) ((19 / 96) + (1 / 4) * s) (1) _ ?_ ?_ (by norm_num [Nat.factorial]) ?_ ?_ (by norm_num) ?_ (by norm_num) ?_ ?_ (by norm_num)
  · rw [hx]; linear_combination (-((-1 / 4))) * hs
  · linarith
  · rw [(T_values _).2.2.2.2.2.2.2.2.2.2.2.1]; try rw [hx]
    linear_combination (0) * hs
  · linear_combination ((9 / 4)) * hs
  · norm_num <;> linarith
  · norm_num <;> linarith
  · norm_num <;> linarith

theorem t2_023 : |sg 2 3 * Y4 0 2 3 - Y 2 3 (node4 0)| ≤ 1 / 10 ^ 15 := by
  obtain ⟨hs, h1, h2⟩ := s2
  have e : sg 2 3 * Y4 0 2 3 = 2.7644581385388761e-1 := by
    have : sg 2 3 = 1 := by norm_num [sg]
    rw [this]; change (1 : ℝ) * (2.7644581385388761e-1) = _; norm_num
  have hx : node4 0 = (1 / 2) + (-1 / 2) * √(1 / 3 : ℝ) ^ 1 := by simp [node4]; try ring
  rw [e]
  generalize √(1 / 3 : ℝ) = s at *
  refine near 2 3 120 (2.7644581385388761e-1) (1 / 10 ^ 15) ((15 / 2) + (-15 / 2) * s) ((2 / 3) + (1 / 2) * s) ((35 / 288) + (-5 / 64) * s) (1) _ ?_ ?_ (by norm_num [Nat.factorial]) ?_ ?_ (by norm_num) ?_ (by norm_num) ?_ ?_ (by norm_num)
  · rw [hx]; linear_combination (-((-1 / 4))) * hs
  · linarith
  · rw [(T_values _).2.2.2.2.2.2.2.2.2.2.2.2.1]; try rw [hx]
    linear_combination (0) * hs
  · linear_combination ((-125 / 4) + (75 / 8) * s ^ 1 + (225 / 16) * s ^ 2) * hs
  · norm_num <;> linarith
  · norm_num <;> linarith
  · norm_num <;> linarith

theorem t2_033 : |sg 3 3 * Y4 0 3 3 - Y 3 3 (node4 0)| ≤ 1 / 10 ^ 15 := by
  obtain ⟨hs, h1, h2⟩ := s2
  have e : sg 3 3 * Y4 0 3 3 = -5.2199120072772409e-1 := by
    have : sg 3 3 = 1 := by norm_num [sg]
    rw [this]; change (1 : ℝ) * (-5.2199120072772409e-1) = _; norm_num
  have hx : node4 0 = (1 / 2) + (-1 / 2) * √(1 / 3 : ℝ) ^ 1 := by simp [node4]; try ring
  rw [e]
  generalize √(1 / 3 : ℝ) = s at *
  refine near 3 3 720 (-5.2199120072772409e-1) (1 / 10 ^ 15) ((15) + (0) * s) ((2 / 3) + (1 / 2) * s) ((125 / 864) + (85 / 384) * s) (-1) _ ?_ ?_ (by norm_num [Nat.factorial]) ?_ ?_ (by norm_num) ?_ (by norm_num) ?_ ?_ (by norm_num)
  · rw [hx]; linear_combination (-((-1 / 4))) * hs
  · linarith
  · rw [(T_values _).2.2.2.2.2.2.2.2.2.2.2.2.2.2.2.1]; try rw [hx]
    linear_combination (0) * hs
  · linear_combination ((225 / 2) + (225 / 8) * s ^ 1) * hs
  · norm_num <;> linarith
  · norm_num <;> linarith
  · norm_num <;> linarith

theorem t2_100 : |sg 0 0 * Y4 1 0 0 - Y 0 0 (node4 1)| ≤ 1 / 10 ^ 15 := by
  obtain ⟨hs, h1, h2⟩ := s2
  have e : sg 0 0 * Y4 1 0 0 = 1.0000000000000000 := by
    have : sg 0 0 = 1 := by norm_num [sg]
    rw [this]; change (1 : ℝ) * (1.0000000000000000) = _; norm_num
  have hx : node4 1 = (1 / 2) + (1 / 2) * √(1 / 3 : ℝ) ^ 1 := by simp [node4]; try ring
  rw [e]
  generalize √(1 / 3 : ℝ) = s at *
  refine near 0 0 1 (1.0000000000000000) (1 / 10 ^ 15) ((1) + (0) * s) ((2 / 3) + (-1 / 2) * s) ((1) + (0) * s) (1) _ ?_ ?_ (by norm_num [Nat.factorial]) ?_ ?_ (by norm_num) ?_ (by norm_num) ?_ ?_ (by norm_num)
  · rw [hx]; linear_combination (-((-1 / 4))) * hs
  · linarith
  · rw [(T_values _).1]; try rw [hx]
    linear_combination (0) * hs
  · linear_combination (0) * hs
  · norm_num <;> linarith
  · norm_num <;> linarith
  · norm_num <;> linarith

theorem t2_101 : |sg 0 1 * Y4 1 0 1 - Y 0 1 (node4 1)| ≤ 1 / 10 ^ 15 := by
  obtain ⟨hs, h1, h2⟩ := s2
  have e : sg 0 1 * Y4 1 0 1 = 7.8867513459481287e-1 := by
    have : sg 0 1 = 1 := by norm_num [sg]
    rw [this]; change (1 : ℝ) * (7.8867513459481287e-1) = _; norm_num
  have hx : node4 1 = (1 / 2) + (1 / 2) * √(1 / 3 : ℝ) ^ 1 := by simp [node4]; try ring
  rw [e]
  generalize √(1 / 3 : ℝ) = s at *
  refine near 0 1 1 (7.8867513459481287e-1) (1 / 10 ^ 15) ((1 / 2) + (1 / 2) * s) ((2 / 3) + (-1 / 2) * s) ((1 / 3) + (1 / 2) * s) (1) _ ?_ ?_ (by norm_num [Nat.factorial]) ?_ ?_ (by norm_num) ?_ (by norm_num) ?_ ?_ (by norm_num)
  · rw [hx]; linear_combination (-((-1 / 4))) * hs
  · linarith
  · rw [(T_values _).2.1]; try rw [hx]
    linear_combination (0) * hs
  · linear_combination ((1 / 4)) * hs
  · norm_num <;> linarith
  · norm_num <;> linarith
  · norm_num <;> linarith

theorem t2_102 : |sg 0 2 * Y4 1 0 2 - Y 0 2 (node4 1)| ≤ 1 / 10 ^ 15 := by
  obtain ⟨hs, h1, h2⟩ := s2
  have e : sg 0 2 * Y4 1 0 2 = 4.3301270189221941e-1 := by
    have : sg 0 2 = 1 := by norm_num [sg]
    rw [this]; change (1 : ℝ) * (4.3301270189221941e-1) = _; norm_num
  have hx : node4 1 = (1 / 2) + (1 / 2) * √(1 / 3 : ℝ) ^ 1 := by simp [node4]; try ring
  rw [e]
  generalize √(1 / 3 : ℝ) = s at *
  refine near 0 2 1 (4.3301270189221941e-1) (1 / 10 ^ 15) ((0) + (3 / 4) * s) ((2 / 3) + (-1 / 2) * s) ((3 / 16) + (0) * s) (1) _ ?_ ?_ (by norm_num [Nat.factorial]) ?_ ?_ (by norm_num) ?_ (by norm_num) ?_ ?_ (by norm_num)
  · rw [hx]; linear_combination (-((-1 / 4))) * hs
  · linarith
  · rw [(T_values _).2.2.1]; try rw [hx]
    linear_combination ((3 / 8)) * hs
  · linear_combination ((9 / 16)) * hs
  · norm_num <;> linarith
  · norm_num <;> linarith
  · norm_num <;> linarith

theorem t2_103 : |sg 0 3 * Y4 1 0 3 - Y 0 3 (node4 1)| ≤ 1 / 10 ^ 15 := by
  obtain ⟨hs, h1, h2⟩ := s2
  have e : sg 0 3 * Y4 1 0 3 = 4.3393828513641042e-2 := by
    have : sg 0 3 = 1 := by norm_num [sg]
    rw [this]; change (1 : ℝ) * (4.3393828513641042e-2) = _; norm_num
  have hx : node4 1 = (1 / 2) + (1 / 2) * √(1 / 3 : ℝ) ^ 1 := by simp [node4]; try ring
  rw [e]
  generalize √(1 / 3 : ℝ) = s at *
  refine near 0 3 1 (4.3393828513641042e-2) (1 / 10 ^ 15) ((-1 / 8) + (7 / 24) * s) ((2 / 3) + (-1 / 2) * s) ((19 / 432) + (-7 / 96) * s) (1) _ ?_ ?_ (by norm_num [Nat.factorial]) ?_ ?_ (by norm_num) ?_ (by norm_num) ?_ ?_ (by norm_num)
  · rw [hx]; linear_combination (-((-1 / 4))) * hs
  · linarith
  · rw [(T_values _).2.2.2.1]; try rw [hx]
    linear_combination ((15 / 16) + (5 / 16) * s ^ 1) * hs
  · linear_combination ((49 / 576)) * hs
  · norm_num <;> linarith
  · norm_num <;> linarith
  · norm_num <;> linarith

theorem t2_111 : |sg 1 1 * Y4 1 1 1 - Y 1 1 (node4 1)| ≤ 1 / 10 ^ 15 := by
  obtain ⟨hs, h1, h2⟩ := s2
  have e : sg 1 1 * Y4 1 1 1 = -4.3473643283710062e-1 := by
    have : sg 1 1 = 1 := by norm_num [sg]
    rw [this]; change (1 : ℝ) * (-4.3473643283710062e-1) = _; norm_num
  have hx : node4 1 = (1 / 2) + (1 / 2) * √(1 / 3 : ℝ) ^ 1 := by simp [node4]; try ring
  rw [e]
  generalize √(1 / 3 : ℝ) = s at *
  refine near 1 1 2 (-4.3473643283710062e-1) (1 / 10 ^ 15) ((1) + (0) * s) ((2 / 3) + (-1 / 2) * s) ((1 / 3) + (-1 / 4) * s) (-1) _ ?_ ?_ (by norm_num [Nat.factorial]) ?_ ?_ (by norm_num) ?_ (by norm_num) ?_ ?_ (by norm_num)
  · rw [hx]; linear_combination (-((-1 / 4))) * hs
  · linarith
  · rw [(T_values _).2.2.2.2.2.2.1]; try rw [hx]
    linear_combination (0) * hs
  · linear_combination (0) * hs
  · norm_num <;> linarith
  · norm_num <;> linarith
  · norm_num <;> linarith

theorem t2_112 : |sg 1 2 * Y4 1 1 2 - Y 1 2 (node4 1)| ≤ 1 / 10 ^ 15 := by
  obtain ⟨hs, h1, h2⟩ := s2
  have e : sg 1 2 * Y4 1 1 2 = -5.9386101120610690e-1 := by
    have : sg 1 2 = 1 := by norm_num [sg]
    rw [this]; change (1 : ℝ) * (-5.9386101120610690e-1) = _; norm_num
  have hx : node4 1 = (1 / 2) + (1 / 2) * √(1 / 3 : ℝ) ^ 1 := by simp [node4]; try ring
  rw [e]
  generalize √(1 / 3 : ℝ) = s at *
  refine near 1 2 6 (-5.9386101120610690e-1) (1 / 10 ^ 15) ((3 / 2) + (3 / 2) * s) ((2 / 3) + (-1 / 2) * s) ((5 / 24) + (1 / 4) * s) (-1) _ ?_ ?_ (by norm_num [Nat.factorial]) ?_ ?_ (by norm_num) ?_ (by norm_num) ?_ ?_ (by norm_num)
  · rw [hx]; linear_combination (-((-1 / 4))) * hs
  · linarith
  · rw [(T_values _).2.2.2.2.2.2.2.1]; try rw [hx]
    linear_combination (0) * hs
  · linear_combination ((-3 / 4) + (-9 / 8) * s ^ 1) * hs
  · norm_num <;> linarith
  · norm_num <;> linarith
  · norm_num <;> linarith

theorem t2_113 : |sg 1 3 * Y4 1 1 3 - Y 1 3 (node4 1)| ≤ 1 / 10 ^ 15 := by
  obtain ⟨hs, h1, h2⟩ := s2
  have e : sg 1 3 * Y4 1 1 3 = -5.6173675511805921e-1 := by
    have : sg 1 3 = 1 := by norm_num [sg]
    rw [this]; change (1 : ℝ) * (-5.6173675511805921e-1) = _; norm_num
  have hx : node4 1 = (1 / 2) + (1 / 2) * √(1 / 3 : ℝ) ^ 1 := by simp [node4]; try ring
  rw [e]
  generalize √(1 / 3 : ℝ) = s at *
  refine near 1 3 12 (-5.6173675511805921e-1) (1 / 10 ^ 15) ((1) + (15 / 4) * s) ((2 / 3) + (-1 / 2) * s) ((61 / 288) + (23 / 128) * s) (-1) _ ?_ ?_ (by norm_num [Nat.factorial]) ?_ ?_ (by norm_num) ?_ (by norm_num) ?_ ?_ (by norm_num)
  · rw [hx]; linear_combination (-((-1 / 4))) * hs
  · linarith
  · rw [(T_values _).2.2.2.2.2.2.2.2.1]; try rw [hx]
    linear_combination ((15 / 8)) * hs
  · linear_combination ((45 / 8) + (-225 / 32) * s ^ 1) * hs
  · norm_num <;> linarith
  · norm_num <;> linarith
  · norm_num <;> linarith

theorem t2_122 : |sg 2 2 * Y4 1 2 2 - Y 2 2 (node4 1)| ≤ 1 / 10 ^ 15 := by
  obtain ⟨hs, h1, h2⟩ := s2
  have e : sg 2 2 * Y4 1 2 2 = 2.3147159516722612e-1 := by
    have : sg 2 2 = 1 := by norm_num [sg]
    rw [this]; change (1 : ℝ) * (2.3147159516722612e-1) = _; norm_num
  have hx : node4 1 = (1 / 2) + (1 / 2) * √(1 / 3 : ℝ) ^ 1 := by simp [node4]; try ring
  rw [e]
  generalize √(1 / 3 : ℝ) = s at *
  refine near 2 2 24 (2.3147159516722612e-1) (1 / 10 ^ 15) ((3) + (0) * s) ((2 / 3) + (-1 / 2) * s) ((19 / 96) + (-1 / 4) * s) (1) _ ?_ ?_ (by norm_num [Nat.factorial]) ?_ ?_ (by norm_num) ?_ (by norm_num) ?_ ?_ (by norm_num)
  · rw [hx]; linear_combination (-((-1 / 4))) * hs
  · linarith
  · rw [(T_values _).2.2.2.2.2.2.2.2.2.2.2.1]; try rw [hx]
    linear_combination (0) * hs
  · linear_combination ((9 / 4)) * hs
  · norm_num <;> linarith
  · norm_num <;> linarith
  · norm_num <;> linarith

theorem t2_123 : |sg 2 3 * Y4 1 2 3 - Y 2 3 (node4 1)| ≤ 1 / 10 ^ 15 := by
  obtain ⟨hs, h1, h2⟩ := s2
  have e : sg 2 3 * Y4 1 2 3 = 4.0820738302757004e-1 := by
    have : sg 2 3 = 1 := by norm_num [sg]
    rw [this]; change (1 : ℝ) * (4.0820738302757004e-1) = _; norm_num
  have hx : node4 1 = (1 / 2) + (1 / 2) * √(1 / 3 : ℝ) ^ 1 := by simp [node4]; try ring
  rw [e]
  generalize √(1 / 3 : ℝ) = s at *
  refine near 2 3 120 (4.0820738302757004e-1) (1 / 10 ^ 15) ((15 / 2) + (15 / 2) * s) ((2 / 3) + (-1 / 2) * s) ((35 / 288) + (5 / 64) * s) (1) _ ?_ ?_ (by norm_num [Nat.factorial]) ?_ ?_ (by norm_num) ?_ (by norm_num) ?_ ?_ (by norm_num)
  · rw [hx]; linear_combination (-((-1 / 4))) * hs
  · linarith
  · rw [(T_values _).2.2.2.2.2.2.2.2.2.2.2.2.1]; try rw [hx]
    linear_combination (0) * hs
  · linear_combination ((-125 / 4) + (-75 / 8) * s ^ 1 + (225 / 16) * s ^ 2) * hs
  · norm_num <;> linarith
  · norm_num <;> linarith
  · norm_num <;> linarith

theorem t2_133 : |sg 3 3 * Y4 1 3 3 - Y 3 3 (node4 1)| ≤ 1 / 10 ^ 15 := by
  obtain ⟨hs, h1, h2⟩ := s2
  have e : sg 3 3 * Y4 1 3 3 = -1.2991165542275507e-1 := by
    have : sg 3 3 = 1 := by norm_num [sg]
    rw [this]; change (1 : ℝ) * (-1.2991165542275507e-1) = _; norm_num
  have hx : node4 1 = (1 / 2) + (1 / 2) * √(1 / 3 : ℝ) ^ 1 := by simp [node4]; try ring
  rw [e]
  generalize √(1 / 3 : ℝ) = s at *
  refine near 3 3 720 (-1.2991165542275507e-1) (1 / 10 ^ 15) ((15) + (0) * s) ((2 / 3) + (-1 / 2) * s) ((125 / 864) + (-85 / 384) * s) (-1) _ ?_ ?_ (by norm_num [Nat.factorial]) ?_ ?_ (by norm_num) ?_ (by norm_num) ?_ ?_ (by norm_num)
  · rw [hx]; linear_combination (-((-1 / 4))) * hs
  · linarith
  · rw [(T_values _).2.2.2.2.2.2.2.2.2.2.2.2.2.2.2.1]; try rw [hx]
    linear_combination (0) * hs
  · linear_combination ((225 / 2) + (-225 / 8) * s ^ 1) * hs
  · norm_num <;> linarith
  · norm_num <;> linarith
  · norm_num <;> linarith

theorem t3_000 : |sg 0 0 * Y6 0 0 0 - Y 0 0 (node6 0)| ≤ 1 / 10 ^ 15 := by
  obtain ⟨hs, h1, h2⟩ := s3
  have e : sg 0 0 * Y6 0 0 0 = 1.0000000000000000 := by
    have : sg 0 0 = 1 := by norm_num [sg]
    rw [this]; change (1 : ℝ) * (1.0000000000000000) = _; norm_num
  have hx : node6 0 = (1 / 2) + (-1 / 2) * √(3 / 5 : ℝ) ^ 1 := by simp [node6]; try ring
  rw [e]
  generalize √(3 / 5 : ℝ) = s at *
  refine near 0 0 1 (1.0000000000000000) (1 / 10 ^ 15) ((1) + (0) * s) ((3 / 5) + (1 / 2) * s) ((1) + (0) * s) (1) _ ?_ ?_ (by norm_num [Nat.factorial]) ?_ ?_ (by norm_num) ?_ (by norm_num) ?_ ?_ (by norm_num)
  · rw [hx]; linear_combination (-((-1 / 4))) * hs
  · linarith
  · rw [(T_values _).1]; try rw [hx]
    linear_combination (0) * hs
  · linear_combination (0) * hs
  · norm_num <;> linarith
  · norm_num <;> linarith
  · norm_num <;> linarith

theorem t3_001 : |sg 0 1 * Y6 0 0 1 - Y 0 1 (node6 0)| ≤ 1 / 10 ^ 15 := by
  obtain ⟨hs, h1, h2⟩ := s3
  have e : sg 0 1 * Y6 0 0 1 = 1.1270166537925830e-1 := by
    have : sg 0 1 = 1 := by norm_num [sg]
    rw [this]; change (1 : ℝ) * (1.1270166537925830e-1) = _; norm_num
  have hx : node6 0 = (1 / 2) + (-1 / 2) * √(3 / 5 : ℝ) ^ 1 := by simp [node6]; try ring
  rw [e]
  generalize √(3 / 5 : ℝ) = s at *
  refine near 0 1 1 (1.1270166537925830e-1) (1 / 10 ^ 15) ((1 / 2) + (-1 / 2) * s) ((3 / 5) + (1 / 2) * s) ((2 / 5) + (-1 / 2) * s) (1) _ ?_ ?_ (by norm_num [Nat.factorial]) ?_ ?_ (by norm_num) ?_ (by norm_num) ?_ ?_ (by norm_num)
  · rw [hx]; linear_combination (-((-1 / 4))) * hs
  · linarith
  · rw [(T_values _).2.1]; try rw [hx]
    linear_combination (0) * hs
  · linear_combination ((1 / 4)) * hs
  · norm_num <;> linarith
  · norm_num <;> linarith
  · norm_num <;> linarith

theorem t3_002 : |sg 0 2 * Y6 0 0 2 - Y 0 2 (node6 0)| ≤ 1 / 10 ^ 15 := by
  obtain ⟨hs, h1, h2⟩ := s3
  have e : sg 0 2 * Y6 0 0 2 = -4.8094750193111252e-1 := by
    have : sg 0 2 = 1 := by norm_num [sg]
    rw [this]; change (1 : ℝ) * (-4.8094750193111252e-1) = _; norm_num
  have hx : node6 0 = (1 / 2) + (-1 / 2) * √(3 / 5 : ℝ) ^ 1 := by simp [node6]; try ring
  rw [e]
  generalize √(3 / 5 : ℝ) = s at *
  refine near 0 2 1 (-4.8094750193111252e-1) (1 / 10 ^ 15) ((1 / 10) + (-3 / 4) * s) ((3 / 5) + (1 / 2) * s) ((139 / 400) + (-3 / 20) * s) (-1) _ ?_ ?_ (by norm_num [Nat.factorial]) ?_ ?_ (by norm_num) ?_ (by norm_num) ?_ ?_ (by norm_num)
  · rw [hx]; linear_combination (-((-1 / 4))) * hs
  · linarith
  · rw [(T_values _).2.2.1]; try rw [hx]
    linear_combination ((3 / 8)) * hs
  · linear_combination ((9 / 16)) * hs
  · norm_num <;> linarith
  · norm_num <;> linarith
  · norm_num <;> linarith

theorem t3_003 : |sg 0 3 * Y6 0 0 3 - Y 0 3 (node6 0)| ≤ 1 / 10 ^ 15 := by
  obtain ⟨hs, h1, h2⟩ := s3
  have e : sg 0 3 * Y6 0 0 3 = -1.6547375096555625e-1 := by
    have : sg 0 3 = 1 := by norm_num [sg]
    rw [this]; change (1 : ℝ) * (-1.6547375096555625e-1) = _; norm_num
  have hx : node6 0 = (1 / 2) + (-1 / 2) * √(3 / 5 : ℝ) ^ 1 := by simp [node6]; try ring
  rw [e]
  generalize √(3 / 5 : ℝ) = s at *
  refine near 0 3 1 (-1.6547375096555625e-1) (1 / 10 ^ 15) ((1 / 8) + (-3 / 8) * s) ((3 / 5) + (1 / 2) * s) ((1 / 10) + (-3 / 32) * s) (-1) _ ?_ ?_ (by norm_num [Nat.factorial]) ?_ ?_ (by norm_num) ?_ (by norm_num) ?_ ?_ (by norm_num)
  · rw [hx]; linear_combination (-((-1 / 4))) * hs
  · linarith
  · rw [(T_values _).2.2.2.1]; try rw [hx]
    linear_combination ((15 / 16) + (-5 / 16) * s ^ 1) * hs
  · linear_combination ((9 / 64)) * hs
  · norm_num <;> linarith
  · norm_num <;> linarith
  · norm_num <;> linarith

theorem t3_004 : |sg 0 4 * Y6 0 0 4 - Y 0 4 (node6 0)| ≤ 1 / 10 ^ 15 := by
  obtain ⟨hs, h1, h2⟩ := s3
  have e : sg 0 4 * Y6 0 0 4 = 3.2807458365518544e-1 := by
    have : sg 0 4 = 1 := by norm_num [sg]
    rw [this]; change (1 : ℝ) * (3.2807458365518544e-1) = _; norm_num
  have hx : node6 0 = (1 / 2) + (-1 / 2) * √(3 / 5 : ℝ) ^ 1 := by simp [node6]; try ring
  rw [e]
  generalize √(3 / 5 : ℝ) = s at *
  refine near 0 4 1 (3.2807458365518544e-1) (1 / 10 ^ 15) ((37 / 160) + (1 / 8) * s) ((3 / 5) + (1 / 2) * s) ((1609 / 25600) + (37 / 640) * s) (1) _ ?_ ?_ (by norm_num [Nat.factorial]) ?_ ?_ (by norm_num) ?_ (by norm_num) ?_ ?_ (by norm_num)
  · rw [hx]; linear_combination (-((-1 / 4))) * hs
  · linarith
  · rw [(T_values _).2.2.2.2.1]; try rw [hx]
    linear_combination ((111 / 128) + (-35 / 32) * s ^ 1 + (35 / 128) * s ^ 2) * hs
  · linear_combination ((1 / 64)) * hs
  · norm_num <;> linarith
  · norm_num <;> linarith
  · norm_num <;> linarith

theorem t3_005 : |sg 0 5 * Y6 0 0 5 - Y 0 5 (node6 0)| ≤ 1 / 10 ^ 15 := by
  obtain ⟨hs, h1, h2⟩ := s3
  have e : sg 0 5 * Y6 0 0 5 = 1.9893319427622813e-1 := by
    have : sg 0 5 = 1 := by norm_num [sg]
    rw [this]; change (1 : ℝ) * (1.9893319427622813e-1) = _; norm_num
  have hx : node6 0 = (1 / 2) + (-1 / 2) * √(3 / 5 : ℝ) ^ 1 := by simp [node6]; try ring
  rw [e]
  generalize √(3 / 5 : ℝ) = s at *
  refine near 0 5 1 (1.9893319427622813e-1) (1 / 10 ^ 15) ((13 / 320) + (327 / 1600) * s) ((3 / 5) + (1 / 2) * s) ((42739 / 1600000) + (4251 / 256000) * s) (1) _ ?_ ?_ (by norm_num [Nat.factorial]) ?_ ?_ (by norm_num) ?_ (by norm_num) ?_ ?_ (by norm_num)
  · rw [hx]; linear_combination (-((-1 / 4))) * hs
  · linarith
  · rw [(T_values _).2.2.2.2.2.1]; try rw [hx]
    linear_combination ((-21 / 256) + (-1939 / 1280) * s ^ 1 + (315 / 256) * s ^ 2 + (-63 / 256) * s ^ 3) * hs
  · linear_combination ((106929 / 2560000)) * hs
  · norm_num <;> linarith
  · norm_num <;> linarith
  · norm_num <;> linarith

theorem t3_011 : |sg 1 1 * Y6 0 1 1 - Y 1 1 (node6 0)| ≤ 1 / 10 ^ 15 := by
  obtain ⟨hs, h1, h2⟩ := s3
  have e : sg 1 1 * Y6 0 1 1 = -7.0260171314221176e-1 := by
    have : sg 1 1 = 1 := by norm_num [sg]
    rw [this]; change (1 : ℝ) * (-7.0260171314221176e-1) = _; norm_num
  have hx : node6 0 = (1 / 2) + (-1 / 2) * √(3 / 5 : ℝ) ^ 1 := by simp [node6]; try ring
  rw [e]
  generalize √(3 / 5 : ℝ) = s at *
  refine near 1 1 2 (-7.0260171314221176e-1) (1 / 10 ^ 15) ((1) + (0) * s) ((3 / 5) + (1 / 2) * s) ((3 / 10) + (1 / 4) * s) (-1) _ ?_ ?_ (by norm_num [Nat.factorial]) ?_ ?_ (by norm_num) ?_ (by norm_num) ?_ ?_ (by norm_num)
  · rw [hx]; linear_combination (-((-1 / 4))) * hs
  · linarith
  · rw [(T_values _).2.2.2.2.2.2.1]; try rw [hx]
    linear_combination (0) * hs
  · linear_combination (0) * hs
  · norm_num <;> linarith
  · norm_num <;> linarith
  · norm_num <;> linarith

theorem t3_012 : |sg 1 2 * Y6 0 1 2 - Y 1 2 (node6 0)| ≤ 1 / 10 ^ 15 := by
  obtain ⟨hs, h1, h2⟩ := s3
  have e : sg 1 2 * Y6 0 1 2 = -1.3715137481548439e-1 := by
    have : sg 1 2 = 1 := by norm_num [sg]
    rw [this]; change (1 : ℝ) * (-1.3715137481548439e-1) = _; norm_num
  have hx : node6 0 = (1 / 2) + (-1 / 2) * √(3 / 5 : ℝ) ^ 1 := by simp [node6]; try ring
  rw [e]
  generalize √(3 / 5 : ℝ) = s at *
  refine near 1 2 6 (-1.3715137481548439e-1) (1 / 10 ^ 15) ((3 / 2) + (-3 / 2) * s) ((3 / 5) + (1 / 2) * s) ((27 / 200) + (-3 / 20) * s) (-1) _ ?_ ?_ (by norm_num [Nat.factorial]) ?_ ?_ (by norm_num) ?_ (by norm_num) ?_ ?_ (by norm_num)
  · rw [hx]; linear_combination (-((-1 / 4))) * hs
  · linarith
  · rw [(T_values _).2.2.2.2.2.2.2.1]; try rw [hx]
    linear_combination (0) * hs
  · linear_combination ((-9 / 10) + (9 / 8) * s ^ 1) * hs
  · norm_num <;> linarith
  · norm_num <;> linarith
  · norm_num <;> linarith

theorem t3_013 : |sg 1 3 * Y6 0 1 3 - Y 1 3 (node6 0)| ≤ 1 / 10 ^ 15 := by
  obtain ⟨hs, h1, h2⟩ := s3
  have e : sg 1 3 * Y6 0 1 3 = 4.0292921564868400e-1 := by
    have : sg 1 3 = 1 := by norm_num [sg]
    rw [this]; change (1 : ℝ) * (4.0292921564868400e-1) = _; norm_num
  have hx : node6 0 = (1 / 2) + (-1 / 2) * √(3 / 5 : ℝ) ^ 1 := by simp [node6]; try ring
  rw [e]
  generalize √(3 / 5 : ℝ) = s at *
  refine near 1 3 12 (4.0292921564868400e-1) (1 / 10 ^ 15) ((3 / 2) + (-15 / 4) * s) ((3 / 5) + (1 / 2) * s) ((81 / 320) + (-15 / 128) * s) (1) _ ?_ ?_ (by norm_num [Nat.factorial]) ?_ ?_ (by norm_num) ?_ (by norm_num) ?_ ?_ (by norm_num)
  · rw [hx]; linear_combination (-((-1 / 4))) * hs
  · linarith
  · rw [(T_values _).2.2.2.2.2.2.2.2.1]; try rw [hx]
    linear_combination ((15 / 8)) * hs
  · linear_combination ((45 / 16) + (225 / 32) * s ^ 1) * hs
  · norm_num <;> linarith
  · norm_num <;> linarith
  · norm_num <;> linarith

theorem t3_014 : |sg 1 4 * Y6 0 1 4 - Y 1 4 (node6 0)| ≤ 1 / 10 ^ 15 := by
  obtain ⟨hs, h1, h2⟩ := s3
  have e : sg 1 4 * Y6 0 1 4 = -(-1.8223631786344985e-1) := by
    have : sg 1 4 = -1 := by norm_num [sg]
    rw [this]; change (-1 : ℝ) * (-1.8223631786344985e-1) = _; norm_num
  have hx : node6 0 = (1 / 2) + (-1 / 2) * √(3 / 5 : ℝ) ^ 1 := by simp [node6]; try ring
  rw [e]
  generalize √(3 / 5 : ℝ) = s at *
  refine near 1 4 20 (-(-1.8223631786344985e-1)) (1 / 10 ^ 15) ((19 / 8) + (-33 / 8) * s) ((3 / 5) + (1 / 2) * s) ((5811 / 32000) + (-613 / 3200) * s) (1) _ ?_ ?_ (by norm_num [Nat.factorial]) ?_ ?_ (by norm_num) ?_ (by norm_num) ?_ ?_ (by norm_num)
  · rw [hx]; linear_combination (-((-1 / 4))) * hs
  · linarith
  · rw [(T_values _).2.2.2.2.2.2.2.2.2.1]; try rw [hx]
    linear_combination ((105 / 16) + (-35 / 16) * s ^ 1) * hs
  · linear_combination ((33 / 80) + (1089 / 128) * s ^ 1) * hs
  · norm_num <;> linarith
  · norm_num <;> linarith
  · norm_num <;> linarith

theorem t3_015 : |sg 1 5 * Y6 0 1 5 - Y 1 5 (node6 0)| ≤ 1 / 10 ^ 15 := by
  obtain ⟨hs, h1, h2⟩ := s3
  have e : sg 1 5 * Y6 0 1 5 = -(2.8081218084679899e-1) := by
    have : sg 1 5 = -1 := by norm_num [sg]
    rw [this]; change (-1 : ℝ) * (2.8081218084679899e-1) = _; norm_num
  have hx : node6 0 = (1 / 2) + (-1 / 2) * √(3 / 5 : ℝ) ^ 1 := by simp [node6]; try ring
  rw [e]
  generalize √(3 / 5 : ℝ) = s at *
  refine near 1 5 30 (-(2.8081218084679899e-1)) (1 / 10 ^ 15) ((573 / 160) + (-21 / 8) * s) ((3 / 5) + (1 / 2) * s) ((193509 / 1280000) + (-9561 / 102400) * s) (-1) _ ?_ ?_ (by norm_num [Nat.factorial]) ?_ ?_ (by norm_num) ?_ (by norm_num) ?_ ?_ (by norm_num)
  · rw [hx]; linear_combination (-((-1 / 4))) * hs
  · linarith
  · rw [(T_values _).2.2.2.2.2.2.2.2.2.2.1]; try rw [hx]
    linear_combination ((1239 / 128) + (-315 / 32) * s ^ 1 + (315 / 128) * s ^ 2) * hs
  · linear_combination ((-6741 / 1280) + (441 / 128) * s ^ 1) * hs
  · norm_num <;> linarith
  · norm_num <;> linarith
  · norm_num <;> linarith

theorem t3_022 : |sg 2 2 * Y6 0 2 2 - Y 2 2 (node6 0)| ≤ 1 / 10 ^ 15 := by
  obtain ⟨hs, h1, h2⟩ := s3
  have e : sg 2 2 * Y6 0 2 2 = 6.0459428593010522e-1 := by
    have : sg 2 2 = 1 := by norm_num [sg]
    rw [this]; change (1 : ℝ) * (6.0459428593010522e-1) = _; norm_num
  have hx : node6 0 = (1 / 2) + (-1 / 2) * √(3 / 5 : ℝ) ^ 1 := by simp [node6]; try ring
  rw [e]
  generalize √(3 / 5 : ℝ) = s at *
  refine near 2 2 24 (6.0459428593010522e-1) (1 / 10 ^ 15) ((3) + (0) * s) ((3 / 5) + (1 / 2) * s) ((153 / 800) + (9 / 40) * s) (1) _ ?_ ?_ (by norm_num [Nat.factorial]) ?_ ?_ (by norm_num) ?_ (by norm_num) ?_ ?_ (by norm_num)
  · rw [hx]; linear_combination (-((-1 / 4))) * hs
  · linarith
  · rw [(T_values _).2.2.2.2.2.2.2.2.2.2.2.1]; try rw [hx]
    linear_combination (0) * hs
  · linear_combination ((9 / 4)) * hs
  · norm_num <;> linarith
  · norm_num <;> linarith
  · norm_num <;> linarith

theorem t3_023 : |sg 2 3 * Y6 0 2 3 - Y 2 3 (node6 0)| ≤ 1 / 10 ^ 15 := by
  obtain ⟨hs, h1, h2⟩ := s3
  have e : sg 2 3 * Y6 0 2 3 = 1.5236295047544621e-1 := by
    have : sg 2 3 = 1 := by norm_num [sg]
    rw [this]; change (1 : ℝ) * (1.5236295047544621e-1) = _; norm_num
  have hx : node6 0 = (1 / 2) + (-1 / 2) * √(3 / 5 : ℝ) ^ 1 := by simp [node6]; try ring
  rw [e]
  generalize √(3 / 5 : ℝ) = s at *
  refine near 2 3 120 (1.5236295047544621e-1) (1 / 10 ^ 15) ((15 / 2) + (-15 / 2) * s) ((3 / 5) + (1 / 2) * s) ((9 / 200) + (-9 / 320) * s) (1) _ ?_ ?_ (by norm_num [Nat.factorial]) ?_ ?_ (by norm_num) ?_ (by norm_num) ?_ ?_ (by norm_num)
  · rw [hx]; linear_combination (-((-1 / 4))) * hs
  · linarith
  · rw [(T_values _).2.2.2.2.2.2.2.2.2.2.2.2.1]; try rw [hx]
    linear_combination (0) * hs
  · linear_combination ((-99 / 4) + (45 / 8) * s ^ 1 + (225 / 16) * s ^ 2) * hs
  · norm_num <;> linarith
  · norm_num <;> linarith
  · norm_num <;> linarith

theorem t3_024 : |sg 2 4 * Y6 0 2 4 - Y 2 4 (node6 0)| ≤ 1 / 10 ^ 15 := by
  obtain ⟨hs, h1, h2⟩ := s3
  have e : sg 2 4 * Y6 0 2 4 = -3.5556492019184532e-1 := by
    have : sg 2 4 = 1 := by norm_num [sg]
    rw [this]; change (1 : ℝ) * (-3.5556492019184532e-1) = _; norm_num
  have hx : node6 0 = (1 / 2) + (-1 / 2) * √(3 / 5 : ℝ) ^ 1 := by simp [node6]; try ring
  rw [e]
  generalize √(3 / 5 : ℝ) = s at *
  refine near 2 4 360 (-3.5556492019184532e-1) (1 / 10 ^ 15) ((27 / 2) + (-105 / 4) * s) ((3 / 5) + (1 / 2) * s) ((8649 / 64000) + (-9 / 800) * s) (-1) _ ?_ ?_ (by norm_num [Nat.factorial]) ?_ ?_ (by norm_num) ?_ (by norm_num) ?_ ?_ (by norm_num)
  · rw [hx]; linear_combination (-((-1 / 4))) * hs
  · linarith
  · rw [(T_values _).2.2.2.2.2.2.2.2.2.2.2.2.2.1]; try rw [hx]
    linear_combination ((105 / 8)) * hs
  · linear_combination ((-1809 / 64) + (945 / 4) * s ^ 1 + (11025 / 64) * s ^ 2) * hs
  · norm_num <;> linarith
  · norm_num <;> linarith
  · norm_num <;> linarith

theorem t3_025 : |sg 2 5 * Y6 0 2 5 - Y 2 5 (node6 0)| ≤ 1 / 10 ^ 15 := by
  obtain ⟨hs, h1, h2⟩ := s3
  have e : sg 2 5 * Y6 0 2 5 = -1.9387690021392759e-1 := by
    have : sg 2 5 = 1 := by norm_num [sg]
    rw [this]; change (1 : ℝ) * (-1.9387690021392759e-1) = _; norm_num
  have hx : node6 0 = (1 / 2) + (-1 / 2) * √(3 / 5 : ℝ) ^ 1 := by simp [node6]; try ring
  rw [e]
  generalize √(3 / 5 : ℝ) = s at *
  refine near 2 5 840 (-1.9387690021392759e-1) (1 / 10 ^ 15) ((231 / 8) + (-357 / 8) * s) ((3 / 5) + (1 / 2) * s) ((20349 / 160000) + (-2961 / 25600) * s) (-1) _ ?_ ?_ (by norm_num [Nat.factorial]) ?_ ?_ (by norm_num) ?_ (by norm_num) ?_ ?_ (by norm_num)
  · rw [hx]; linear_combination (-((-1 / 4))) * hs
  · linarith
  · rw [(T_values _).2.2.2.2.2.2.2.2.2.2.2.2.2.2.1]; try rw [hx]
    linear_combination ((945 / 16) + (-315 / 16) * s ^ 1) * hs
  · linear_combination ((-515529 / 1600) + (352359 / 640) * s ^ 1 + (127449 / 256) * s ^ 2) * hs
  · norm_num <;> linarith
  · norm_num <;> linarith
  · norm_num <;> linarith

theorem t3_033 : |sg 3 3 * Y6 0 3 3 - Y 3 3 (node6 0)| ≤ 1 / 10 ^ 15 := by
  obtain ⟨hs, h1, h2⟩ := s3
  have e : sg 3 3 * Y6 0 3 3 = -5.4840021642031433e-1 := by
    have : sg 3 3 = 1 := by norm_num [sg]
    rw [this]; change (1 : ℝ) * (-5.4840021642031433e-1) = _; norm_num
  have hx : node6 0 = (1 / 2) + (-1 / 2) * √(3 / 5 : ℝ) ^ 1 := by simp [node6]; try ring
  rw [e]
  generalize √(3 / 5 : ℝ) = s at *
  refine near 3 3 720 (-5.4840021642031433e-1) (1 / 10 ^ 15) ((15) + (0) * s) ((3 / 5) + (1 / 2) * s) ((243 / 1600) + (123 / 640) * s) (-1) _ ?_ ?_ (by norm_num [Nat.factorial]) ?_ ?_ (by norm_num) ?_ (by norm_num) ?_ ?_ (by norm_num)
  · rw [hx]; linear_combination (-((-1 / 4))) * hs
  · linarith
  · rw [(T_values _).2.2.2.2.2.2.2.2.2.2.2.2.2.2.2.1]; try rw [hx]
    linear_combination (0) * hs
  · linear_combination ((405 / 4) + (225 / 8) * s ^ 1) * hs
  · norm_num <;> linarith
  · norm_num <;> linarith
  · norm_num <;> linarith

theorem t3_034 : |sg 3 4 * Y6 0 3 4 - Y 3 4 (node6 0)| ≤ 1 / 10 ^ 15 := by
  obtain ⟨hs, h1, h2⟩ := s3
  have e : sg 3 4 * Y6 0 3 4 = -(1.6352229402102095e-1) := by
    have : sg 3 4 = -1 := by norm_num [sg]
    rw [this]; change (-1 : ℝ) * (1.6352229402102095e-1) = _; norm_num
  have hx : node6 0 = (1 / 2) + (-1 / 2) * √(3 / 5 : ℝ) ^ 1 := by simp [node6]; try ring
  rw [e]
  generalize √(3 / 5 : ℝ) = s at *
  refine near 3 4 5040 (-(1.6352229402102095e-1)) (1 / 10 ^ 15) ((105 / 2) + (-105 / 2) * s) ((3 / 5) + (1 / 2) * s) ((693 / 32000) + (21 / 3200) * s) (-1) _ ?_ ?_ (by norm_num [Nat.factorial]) ?_ ?_ (by norm_num) ?_ (by norm_num) ?_ ?_ (by norm_num)
  · rw [hx]; linear_combination (-((-1 / 4))) * hs
  · linarith
  · rw [(T_values _).2.2.2.2.2.2.2.2.2.2.2.2.2.2.2.2.1]; try rw [hx]
    linear_combination (0) * hs
  · linear_combination ((-64827 / 80) + (-441) * s ^ 1 + (2205 / 4) * s ^ 2 + (11025 / 32) * s ^ 3) * hs
  · norm_num <;> linarith
  · norm_num <;> linarith
  · norm_num <;> linarith

theorem t3_035 : |sg 3 5 * Y6 0 3 5 - Y 3 5 (node6 0)| ≤ 1 / 10 ^ 15 := by
  obtain ⟨hs, h1, h2⟩ := s3
  have e : sg 3 5 * Y6 0 3 5 = -(-3.2126686945422495e-1) := by
    have : sg 3 5 = -1 := by norm_num [sg]
    rw [this]; change (-1 : ℝ) * (-3.2126686945422495e-1) = _; norm_num
  have hx : node6 0 = (1 / 2) + (-1 / 2) * √(3 / 5 : ℝ) ^ 1 := by simp [node6]; try ring
  rw [e]
  generalize √(3 / 5 : ℝ) = s at *
  refine near 3 5 20160 (-(-3.2126686945422495e-1)) (1 / 10 ^ 15) ((273 / 2) + (-945 / 4) * s) ((3 / 5) + (1 / 2) * s) ((194481 / 2560000) + (7203 / 204800) * s) (1) _ ?_ ?_ (by norm_num [Nat.factorial]) ?_ ?_ (by norm_num) ?_ (by norm_num) ?_ ?_ (by norm_num)
  · rw [hx]; linear_combination (-((-1 / 4))) * hs
  · linarith
  · rw [(T_values _).2.2.2.2.2.2.2.2.2.2.2.2.2.2.2.2.2.1]; try rw [hx]
    linear_combination ((945 / 8)) * hs
  · linear_combination ((-265923 / 64) + (976815 / 128) * s ^ 1 + (1091475 / 64) * s ^ 2 + (893025 / 128) * s ^ 3) * hs
  · norm_num <;> linarith
  · norm_num <;> linarith
  · norm_num <;> linarith

theorem t3_044 : |sg 4 4 * Y6 0 4 4 - Y 4 4 (node6 0)| ≤ 1 / 10 ^ 15 := by
  obtain ⟨hs, h1, h2⟩ := s3
  have e : sg 4 4 * Y6 0 4 4 = 5.0971315964803132e-1 := by
    have : sg 4 4 = 1 := by norm_num [sg]
    rw [this]; change (1 : ℝ) * (5.0971315964803132e-1) = _; norm_num
  have hx : node6 0 = (1 / 2) + (-1 / 2) * √(3 / 5 : ℝ) ^ 1 := by simp [node6]; try ring
  rw [e]
  generalize √(3 / 5 : ℝ) = s at *
  refine near 4 4 40320 (5.0971315964803132e-1) (1 / 10 ^ 15) ((105) + (0) * s) ((3 / 5) + (1 / 2) * s) ((33327 / 256000) + (1071 / 6400) * s) (1) _ ?_ ?_ (by norm_num [Nat.factorial]) ?_ ?_ (by norm_num) ?_ (by norm_num) ?_ ?_ (by norm_num)
  · rw [hx]; linear_combination (-((-1 / 4))) * hs
  · linarith
  · rw [(T_values _).2.2.2.2.2.2.2.2.2.2.2.2.2.2.2.2.2.2.1]; try rw [hx]
    linear_combination (0) * hs
  · linear_combination ((101871 / 16) + (6615 / 2) * s ^ 1 + (11025 / 16) * s ^ 2) * hs
  · norm_num <;> linarith
  · norm_num <;> linarith
  · norm_num <;> linarith

theorem t3_045 : |sg 4 5 * Y6 0 4 5 - Y 4 5 (node6 0)| ≤ 1 / 10 ^ 15 := by
  obtain ⟨hs, h1, h2⟩ := s3
  have e : sg 4 5 * Y6 0 4 5 = 1.7233656587417068e-1 := by
    have : sg 4 5 = 1 := by norm_num [sg]
    rw [this]; change (1 : ℝ) * (1.7233656587417068e-1) = _; norm_num
  have hx : node6 0 = (1 / 2) + (-1 / 2) * √(3 / 5 : ℝ) ^ 1 := by simp [node6]; try ring
  rw [e]
  generalize √(3 / 5 : ℝ) = s at *
  refine near 4 5 362880 (1.7233656587417068e-1) (1 / 10 ^ 15) ((945 / 2) + (-945 / 2) * s) ((3 / 5) + (1 / 2) * s) ((10773 / 640000) + (1701 / 102400) * s) (1) _ ?_ ?_ (by norm_num [Nat.factorial]) ?_ ?_ (by norm_num) ?_ (by norm_num) ?_ ?_ (by norm_num)
  · rw [hx]; linear_combination (-((-1 / 4))) * hs
  · linarith
  · rw [(T_values _).2.2.2.2.2.2.2.2.2.2.2.2.2.2.2.2.2.2.2.1]; try rw [hx]
    linear_combination (0) * hs
  · linear_combination ((-7608573 / 200) + (-8680203 / 160) * s ^ 1 + (35721 / 4) * s ^ 2 + (1250235 / 32) * s ^ 3 + (893025 / 64) * s ^ 4) * hs
  · norm_num <;> linarith
  · norm_num <;> linarith
  · norm_num <;> linarith

theorem t3_055 : |sg 5 5 * Y6 0 5 5 - Y 5 5 (node6 0)| ≤ 1 / 10 ^ 15 := by
  obtain ⟨hs, h1, h2⟩ := s3
  have e : sg 5 5 * Y6 0 5 5 = -(4.8047556172276995e-1) := by
    have : sg 5 5 = -1 := by norm_num [sg]
    rw [this]; change (-1 : ℝ) * (4.8047556172276995e-1) = _; norm_num
  have hx : node6 0 = (1 / 2) + (-1 / 2) * √(3 / 5 : ℝ) ^ 1 := by simp [node6]; try ring
  rw [e]
  generalize √(3 / 5 : ℝ) = s at *
  refine near 5 5 3628800 (-(4.8047556172276995e-1)) (1 / 10 ^ 15) ((945) + (0) * s) ((3 / 5) + (1 / 2) * s) ((1478169 / 12800000) + (152523 / 1024000) * s) (-1) _ ?_ ?_ (by norm_num [Nat.factorial]) ?_ ?_ (by norm_num) ?_ (by norm_num) ?_ ?_ (by norm_num)
  · rw [hx]; linear_combination (-((-1 / 4))) * hs
  · linarith
  · rw [(T_values _).2.2.2.2.2.2.2.2.2.2.2.2.2.2.2.2.2.2.2.2]; try rw [hx]
    linear_combination (0) * hs
  · linear_combination ((9323181 / 16) + (13395375 / 32) * s ^ 1 + (2679075 / 16) * s ^ 2 + (893025 / 32) * s ^ 3) * hs
  · norm_num <;> linarith
  · norm_num <;> linarith
  · norm_num <;> linarith

theorem t3_100 : |sg 0 0 * Y6 1 0 0 - Y 0 0 (node6 1)| ≤ 1 / 10 ^ 15 := by
  obtain ⟨hs, h1, h2⟩ := s3
  have e : sg 0 0 * Y6 1 0 0 = 1.0000000000000000 := by
    have : sg 0 0 = 1 := by norm_num [sg]
    rw [this]; change (1 : ℝ) * (1.0000000000000000) = _; norm_num
  have hx : node6 1 = (1 / 2) := by simp [node6]; try ring
  rw [e]
  generalize √(3 / 5 : ℝ) = s at *
  refine near 0 0 1 (1.0000000000000000) (1 / 10 ^ 15) ((1) + (0) * s) ((3 / 4) + (0) * s) ((1) + (0) * s) (1) _ ?_ ?_ (by norm_num [Nat.factorial]) ?_ ?_ (by norm_num) ?_ (by norm_num) ?_ ?_ (by norm_num)
  · rw [hx]; linear_combination (-(0)) * hs
  · linarith
  · rw [(T_values _).1]; try rw [hx]
    linear_combination (0) * hs
  · linear_combination (0) * hs
  · norm_num <;> linarith
  · norm_num <;> linarith
  · norm_num <;> linarith

theorem t3_101 : |sg 0 1 * Y6 1 0 1 - Y 0 1 (node6 1)| ≤ 1 / 10 ^ 15 := by
  obtain ⟨hs, h1, h2⟩ := s3
  have e : sg 0 1 * Y6 1 0 1 = 5.0000000000000000e-1 := by
    have : sg 0 1 = 1 := by norm_num [sg]
    rw [this]; change (1 : ℝ) * (5.0000000000000000e-1) = _; norm_num
  have hx : node6 1 = (1 / 2) := by simp [node6]; try ring
  rw [e]
  generalize √(3 / 5 : ℝ) = s at *
  refine near 0 1 1 (5.0000000000000000e-1) (1 / 10 ^ 15) ((1 / 2) + (0) * s) ((3 / 4) + (0) * s) ((1 / 4) + (0) * s) (1) _ ?_ ?_ (by norm_num [Nat.factorial]) ?_ ?_ (by norm_num) ?_ (by norm_num) ?_ ?_ (by norm_num)
  · rw [hx]; linear_combination (-(0)) * hs
  · linarith
  · rw [(T_values _).2.1]; try rw [hx]
    linear_combination (0) * hs
  · linear_combination (0) * hs
  · norm_num <;> linarith
  · norm_num <;> linarith
  · norm_num <;> linarith

theorem t3_102 : |sg 0 2 * Y6 1 0 2 - Y 0 2 (node6 1)| ≤ 1 / 10 ^ 15 := by
  obtain ⟨hs, h1, h2⟩ := s3
  have e : sg 0 2 * Y6 1 0 2 = -1.2500000000000000e-1 := by
    have : sg 0 2 = 1 := by norm_num [sg]
    rw [this]; change (1 : ℝ) * (-1.2500000000000000e-1) = _; norm_num
  have hx : node6 1 = (1 / 2) := by simp [node6]; try ring
  rw [e]
  generalize √(3 / 5 : ℝ) = s at *
  refine near 0 2 1 (-1.2500000000000000e-1) (1 / 10 ^ 15) ((-1 / 8) + (0) * s) ((3 / 4) + (0) * s) ((1 / 64) + (0) * s) (-1) _ ?_ ?_ (by norm_num [Nat.factorial]) ?_ ?_ (by norm_num) ?_ (by norm_num) ?_ ?_ (by norm_num)
  · rw [hx]; linear_combination (-(0)) * hs
  · linarith
  · rw [(T_values _).2.2.1]; try rw [hx]
    linear_combination (0) * hs
  · linear_combination (0) * hs
  · norm_num <;> linarith
  · norm_num <;> linarith
  · norm_num <;> linarith

theorem t3_103 : |sg 0 3 * Y6 1 0 3 - Y 0 3 (node6 1)| ≤ 1 / 10 ^ 15 := by
  obtain ⟨hs, h1, h2⟩ := s3
  have e : sg 0 3 * Y6 1 0 3 = -4.3750000000000000e-1 := by
    have : sg 0 3 = 1 := by norm_num [sg]
    rw [this]; change (1 : ℝ) * (-4.3750000000000000e-1) = _; norm_num
  have hx : node6 1 = (1 / 2) := by simp [node6]; try ring
  rw [e]
  generalize √(3 / 5 : ℝ) = s at *
  refine near 0 3 1 (-4.3750000000000000e-1) (1 / 10 ^ 15) ((-7 / 16) + (0) * s) ((3 / 4) + (0) * s) ((49 / 256) + (0) * s) (-1) _ ?_ ?_ (by norm_num [Nat.factorial]) ?_ ?_ (by norm_num) ?_ (by norm_num) ?_ ?_ (by norm_num)
  · rw [hx]; linear_combination (-(0)) * hs
  · linarith
  · rw [(T_values _).2.2.2.1]; try rw [hx]
    linear_combination (0) * hs
  · linear_combination (0) * hs
  · norm_num <;> linarith
  · norm_num <;> linarith
  · norm_num <;> linarith

theorem t3_104 : |sg 0 4 * Y6 1 0 4 - Y 0 4 (node6 1)| ≤ 1 / 10 ^ 15 := by
  obtain ⟨hs, h1, h2⟩ := s3
  have e : sg 0 4 * Y6 1 0 4 = -2.8906250000000000e-1 := by
    have : sg 0 4 = 1 := by norm_num [sg]
    rw [this]; change (1 : ℝ) * (-2.8906250000000000e-1) = _; norm_num
  have hx : node6 1 = (1 / 2) := by simp [node6]; try ring
  rw [e]
  generalize √(3 / 5 : ℝ) = s at *
  refine near 0 4 1 (-2.8906250000000000e-1) (1 / 10 ^ 15) ((-37 / 128) + (0) * s) ((3 / 4) + (0) * s) ((1369 / 16384) + (0) * s) (-1) _ ?_ ?_ (by norm_num [Nat.factorial]) ?_ ?_ (by norm_num) ?_ (by norm_num) ?_ ?_ (by norm_num)
  · rw [hx]; linear_combination (-(0)) * hs
  · linarith
  · rw [(T_values _).2.2.2.2.1]; try rw [hx]
    linear_combination (0) * hs
  · linear_combination (0) * hs
  · norm_num <;> linarith
  · norm_num <;> linarith
  · norm_num <;> linarith

theorem t3_105 : |sg 0 5 * Y6 1 0 5 - Y 0 5 (node6 1)| ≤ 1 / 10 ^ 15 := by
  obtain ⟨hs, h1, h2⟩ := s3
  have e : sg 0 5 * Y6 1 0 5 = 8.9843750000000000e-2 := by
    have : sg 0 5 = 1 := by norm_num [sg]
    rw [this]; change (1 : ℝ) * (8.9843750000000000e-2) = _; norm_num
  have hx : node6 1 = (1 / 2) := by simp [node6]; try ring
  rw [e]
  generalize √(3 / 5 : ℝ) = s at *
  refine near 0 5 1 (8.9843750000000000e-2) (1 / 10 ^ 15) ((23 / 256) + (0) * s) ((3 / 4) + (0) * s) ((529 / 65536) + (0) * s) (1) _ ?_ ?_ (by norm_num [Nat.factorial]) ?_ ?_ (by norm_num) ?_ (by norm_num) ?_ ?_ (by norm_num)
  · rw [hx]; linear_combination (-(0)) * hs
  · linarith
  · rw [(T_values _).2.2.2.2.2.1]; try rw [hx]
    linear_combination (0) * hs
  · linear_combination (0) * hs
  · norm_num <;> linarith
  · norm_num <;> linarith
  · norm_num <;> linarith

theorem t3_111 : |sg 1 1 * Y6 1 1 1 - Y 1 1 (node6 1)| ≤ 1 / 10 ^ 15 := by
  obtain ⟨hs, h1, h2⟩ := s3
  have e : sg 1 1 * Y6 1 1 1 = -6.1237243569579447e-1 := by
    have : sg 1 1 = 1 := by norm_num [sg]
    rw [this]; change (1 : ℝ) * (-6.1237243569579447e-1) = _; norm_num
  have hx : node6 1 = (1 / 2) := by simp [node6]; try ring
  rw [e]
  generalize √(3 / 5 : ℝ) = s at *
  refine near 1 1 2 (-6.1237243569579447e-1) (1 / 10 ^ 15) ((1) + (0) * s) ((3 / 4) + (0) * s) ((3 / 8) + (0) * s) (-1) _ ?_ ?_ (by norm_num [Nat.factorial]) ?_ ?_ (by norm_num) ?_ (by norm_num) ?_ ?_ (by norm_num)
  · rw [hx]; linear_combination (-(0)) * hs
  · linarith
  · rw [(T_values _).2.2.2.2.2.2.1]; try rw [hx]
    linear_combination (0) * hs
  · linear_combination (0) * hs
  · norm_num <;> linarith
  · norm_num <;> linarith
  · norm_num <;> linarith

theorem t3_112 : |sg 1 2 * Y6 1 1 2 - Y 1 2 (node6 1)| ≤ 1 / 10 ^ 15 := by
  obtain ⟨hs, h1, h2⟩ := s3
  have e : sg 1 2 * Y6 1 1 2 = -5.3033008588991071e-1 := by
    have : sg 1 2 = 1 := by norm_num [sg]
    rw [this]; change (1 : ℝ) * (-5.3033008588991071e-1) = _; norm_num
  have hx : node6 1 = (1 / 2) := by simp [node6]; try ring
  rw [e]
  generalize √(3 / 5 : ℝ) = s at *
  refine near 1 2 6 (-5.3033008588991071e-1) (1 / 10 ^ 15) ((3 / 2) + (0) * s) ((3 / 4) + (0) * s) ((9 / 32) + (0) * s) (-1) _ ?_ ?_ (by norm_num [Nat.factorial]) ?_ ?_ (by norm_num) ?_ (by norm_num) ?_ ?_ (by norm_num)
  · rw [hx]; linear_combination (-(0)) * hs
  · linarith
  · rw [(T_values _).2.2.2.2.2.2.2.1]; try rw [hx]
    linear_combination (0) * hs
  · linear_combination (0) * hs
  · norm_num <;> linarith
  · norm_num <;> linarith
  · norm_num <;> linarith

theorem t3_113 : |sg 1 3 * Y6 1 1 3 - Y 1 3 (node6 1)| ≤ 1 / 10 ^ 15 := by
  obtain ⟨hs, h1, h2⟩ := s3
  have e : sg 1 3 * Y6 1 1 3 = -9.3750000000000014e-2 := by
    have : sg 1 3 = 1 := by norm_num [sg]
    rw [this]; change (1 : ℝ) * (-9.3750000000000014e-2) = _; norm_num
  have hx : node6 1 = (1 / 2) := by simp [node6]; try ring
  rw [e]
  generalize √(3 / 5 : ℝ) = s at *
  refine near 1 3 12 (-9.3750000000000014e-2) (1 / 10 ^ 15) ((3 / 8) + (0) * s) ((3 / 4) + (0) * s) ((9 / 1024) + (0) * s) (-1) _ ?_ ?_ (by norm_num [Nat.factorial]) ?_ ?_ (by norm_num) ?_ (by norm_num) ?_ ?_ (by norm_num)
  · rw [hx]; linear_combination (-(0)) * hs
  · linarith
  · rw [(T_values _).2.2.2.2.2.2.2.2.1]; try rw [hx]
    linear_combination (0) * hs
  · linear_combination (0) * hs
  · norm_num <;> linarith
  · norm_num <;> linarith
  · norm_num <;> linarith

theorem t3_114 : |sg 1 4 * Y6 1 1 4 - Y 1 4 (node6 1)| ≤ 1 / 10 ^ 15 := by
  obtain ⟨hs, h1, h2⟩ := s3
  have e : sg 1 4 * Y6 1 1 4 = -(-3.0257682392245444e-1) := by
    have : sg 1 4 = -1 := by norm_num [sg]
    rw [this]; change (-1 : ℝ) * (-3.0257682392245444e-1) = _; norm_num
  have hx : node6 1 = (1 / 2) := by simp [node6]; try ring
  rw [e]
  generalize √(3 / 5 : ℝ) = s at *
  refine near 1 4 20 (-(-3.0257682392245444e-1)) (1 / 10 ^ 15) ((-25 / 16) + (0) * s) ((3 / 4) + (0) * s) ((375 / 4096) + (0) * s) (1) _ ?_ ?_ (by norm_num [Nat.factorial]) ?_ ?_ (by norm_num) ?_ (by norm_num) ?_ ?_ (by norm_num)
  · rw [hx]; linear_combination (-(0)) * hs
  · linarith
  · rw [(T_values _).2.2.2.2.2.2.2.2.2.1]; try rw [hx]
    linear_combination (0) * hs
  · linear_combination (0) * hs
  · norm_num <;> linarith
  · norm_num <;> linarith
  · norm_num <;> linarith

theorem t3_115 : |sg 1 5 * Y6 1 1 5 - Y 1 5 (node6 1)| ≤ 1 / 10 ^ 15 := by
  obtain ⟨hs, h1, h2⟩ := s3
  have e : sg 1 5 * Y6 1 1 5 = -(-3.5205044263593283e-1) := by
    have : sg 1 5 = -1 := by norm_num [sg]
    rw [this]; change (-1 : ℝ) * (-3.5205044263593283e-1) = _; norm_num
  have hx : node6 1 = (1 / 2) := by simp [node6]; try ring
  rw [e]
  generalize √(3 / 5 : ℝ) = s at *
  refine near 1 5 30 (-(-3.5205044263593283e-1)) (1 / 10 ^ 15) ((-285 / 128) + (0) * s) ((3 / 4) + (0) * s) ((16245 / 131072) + (0) * s) (1) _ ?_ ?_ (by norm_num [Nat.factorial]) ?_ ?_ (by norm_num) ?_ (by norm_num) ?_ ?_ (by norm_num)
  · rw [hx]; linear_combination (-(0)) * hs
  · linarith
  · rw [(T_values _).2.2.2.2.2.2.2.2.2.2.1]; try rw [hx]
    linear_combination (0) * hs
  · linear_combination (0) * hs
  · norm_num <;> linarith
  · norm_num <;> linarith
  · norm_num <;> linarith

theorem t3_122 : |sg 2 2 * Y6 1 2 2 - Y 2 2 (node6 1)| ≤ 1 / 10 ^ 15 := by
  obtain ⟨hs, h1, h2⟩ := s3
  have e : sg 2 2 * Y6 1 2 2 = 4.5927932677184591e-1 := by
    have : sg 2 2 = 1 := by norm_num [sg]
    rw [this]; change (1 : ℝ) * (4.5927932677184591e-1) = _; norm_num
  have hx : node6 1 = (1 / 2) := by simp [node6]; try ring
  rw [e]
  generalize √(3 / 5 : ℝ) = s at *
  refine near 2 2 24 (4.5927932677184591e-1) (1 / 10 ^ 15) ((3) + (0) * s) ((3 / 4) + (0) * s) ((27 / 128) + (0) * s) (1) _ ?_ ?_ (by norm_num [Nat.factorial]) ?_ ?_ (by norm_num) ?_ (by norm_num) ?_ ?_ (by norm_num)
  · rw [hx]; linear_combination (-(0)) * hs
  · linarith
  · rw [(T_values _).2.2.2.2.2.2.2.2.2.2.2.1]; try rw [hx]
    linear_combination (0) * hs
  · linear_combination (0) * hs
  · norm_num <;> linarith
  · norm_num <;> linarith
  · norm_num <;> linarith

theorem t3_123 : |sg 2 3 * Y6 1 2 3 - Y 2 3 (node6 1)| ≤ 1 / 10 ^ 15 := by
  obtain ⟨hs, h1, h2⟩ := s3
  have e : sg 2 3 * Y6 1 2 3 = 5.1348989766109321e-1 := by
    have : sg 2 3 = 1 := by norm_num [sg]
    rw [this]; change (1 : ℝ) * (5.1348989766109321e-1) = _; norm_num
  have hx : node6 1 = (1 / 2) := by simp [node6]; try ring
  rw [e]
  generalize √(3 / 5 : ℝ) = s at *
  refine near 2 3 120 (5.1348989766109321e-1) (1 / 10 ^ 15) ((15 / 2) + (0) * s) ((3 / 4) + (0) * s) ((135 / 512) + (0) * s) (1) _ ?_ ?_ (by norm_num [Nat.factorial]) ?_ ?_ (by norm_num) ?_ (by norm_num) ?_ ?_ (by norm_num)
  · rw [hx]; linear_combination (-(0)) * hs
  · linarith
  · rw [(T_values _).2.2.2.2.2.2.2.2.2.2.2.2.1]; try rw [hx]
    linear_combination (0) * hs
  · linear_combination (0) * hs
  · norm_num <;> linarith
  · norm_num <;> linarith
  · norm_num <;> linarith

theorem t3_124 : |sg 2 4 * Y6 1 2 4 - Y 2 4 (node6 1)| ≤ 1 / 10 ^ 15 := by
  obtain ⟨hs, h1, h2⟩ := s3
  have e : sg 2 4 * Y6 1 2 4 = 2.2234764798058917e-1 := by
    have : sg 2 4 = 1 := by norm_num [sg]
    rw [this]; change (1 : ℝ) * (2.2234764798058917e-1) = _; norm_num
  have hx : node6 1 = (1 / 2) := by simp [node6]; try ring
  rw [e]
  generalize √(3 / 5 : ℝ) = s at *
  refine near 2 4 360 (2.2234764798058917e-1) (1 / 10 ^ 15) ((45 / 8) + (0) * s) ((3 / 4) + (0) * s) ((405 / 8192) + (0) * s) (1) _ ?_ ?_ (by norm_num [Nat.factorial]) ?_ ?_ (by norm_num) ?_ (by norm_num) ?_ ?_ (by norm_num)
  · rw [hx]; linear_combination (-(0)) * hs
  · linarith
  · rw [(T_values _).2.2.2.2.2.2.2.2.2.2.2.2.2.1]; try rw [hx]
    linear_combination (0) * hs
  · linear_combination (0) * hs
  · norm_num <;> linarith
  · norm_num <;> linarith
  · norm_num <;> linarith

theorem t3_125 : |sg 2 5 * Y6 1 2 5 - Y 2 5 (node6 1)| ≤ 1 / 10 ^ 15 := by
  obtain ⟨hs, h1, h2⟩ := s3
  have e : sg 2 5 * Y6 1 2 5 = -1.6982082124440748e-1 := by
    have : sg 2 5 = 1 := by norm_num [sg]
    rw [this]; change (1 : ℝ) * (-1.6982082124440748e-1) = _; norm_num
  have hx : node6 1 = (1 / 2) := by simp [node6]; try ring
  rw [e]
  generalize √(3 / 5 : ℝ) = s at *
  refine near 2 5 840 (-1.6982082124440748e-1) (1 / 10 ^ 15) ((-105 / 16) + (0) * s) ((3 / 4) + (0) * s) ((945 / 32768) + (0) * s) (-1) _ ?_ ?_ (by norm_num [Nat.factorial]) ?_ ?_ (by norm_num) ?_ (by norm_num) ?_ ?_ (by norm_num)
  · rw [hx]; linear_combination (-(0)) * hs
  · linarith
  · rw [(T_values _).2.2.2.2.2.2.2.2.2.2.2.2.2.2.1]; try rw [hx]
    linear_combination (0) * hs
  · linear_combination (0) * hs
  · norm_num <;> linarith
  · norm_num <;> linarith
  · norm_num <;> linarith

theorem t3_133 : |sg 3 3 * Y6 1 3 3 - Y 3 3 (node6 1)| ≤ 1 / 10 ^ 15 := by
  obtain ⟨hs, h1, h2⟩ := s3
  have e : sg 3 3 * Y6 1 3 3 = -3.6309218870694526e-1 := by
    have : sg 3 3 = 1 := by norm_num [sg]
    rw [this]; change (1 : ℝ) * (-3.6309218870694526e-1) = _; norm_num
  have hx : node6 1 = (1 / 2) := by simp [node6]; try ring
  rw [e]
  generalize √(3 / 5 : ℝ) = s at *
  refine near 3 3 720 (-3.6309218870694526e-1) (1 / 10 ^ 15) ((15) + (0) * s) ((3 / 4) + (0) * s) ((135 / 1024) + (0) * s) (-1) _ ?_ ?_ (by norm_num [Nat.factorial]) ?_ ?_ (by norm_num) ?_ (by norm_num) ?_ ?_ (by norm_num)
  · rw [hx]; linear_combination (-(0)) * hs
  · linarith
  · rw [(T_values _).2.2.2.2.2.2.2.2.2.2.2.2.2.2.2.1]; try rw [hx]
    linear_combination (0) * hs
  · linear_combination (0) * hs
  · norm_num <;> linarith
  · norm_num <;> linarith
  · norm_num <;> linarith

theorem t3_134 : |sg 3 4 * Y6 1 3 4 - Y 3 4 (node6 1)| ≤ 1 / 10 ^ 15 := by
  obtain ⟨hs, h1, h2⟩ := s3
  have e : sg 3 4 * Y6 1 3 4 = -(4.8032581715435607e-1) := by
    have : sg 3 4 = -1 := by norm_num [sg]
    rw [this]; change (-1 : ℝ) * (4.8032581715435607e-1) = _; norm_num
  have hx : node6 1 = (1 / 2) := by simp [node6]; try ring
  rw [e]
  generalize √(3 / 5 : ℝ) = s at *
  refine near 3 4 5040 (-(4.8032581715435607e-1)) (1 / 10 ^ 15) ((105 / 2) + (0) * s) ((3 / 4) + (0) * s) ((945 / 4096) + (0) * s) (-1) _ ?_ ?_ (by norm_num [Nat.factorial]) ?_ ?_ (by norm_num) ?_ (by norm_num) ?_ ?_ (by norm_num)
  · rw [hx]; linear_combination (-(0)) * hs
  · linarith
  · rw [(T_values _).2.2.2.2.2.2.2.2.2.2.2.2.2.2.2.2.1]; try rw [hx]
    linear_combination (0) * hs
  · linear_combination (0) * hs
  · norm_num <;> linarith
  · norm_num <;> linarith
  · norm_num <;> linarith

theorem t3_135 : |sg 3 5 * Y6 1 3 5 - Y 3 5 (node6 1)| ≤ 1 / 10 ^ 15 := by
  obtain ⟨hs, h1, h2⟩ := s3
  have e : sg 3 5 * Y6 1 3 5 = -(3.0020363572147252e-1) := by
    have : sg 3 5 = -1 := by norm_num [sg]
    rw [this]; change (-1 : ℝ) * (3.0020363572147252e-1) = _; norm_num
  have hx : node6 1 = (1 / 2) := by simp [node6]; try ring
  rw [e]
  generalize √(3 / 5 : ℝ) = s at *
  refine near 3 5 20160 (-(3.0020363572147252e-1)) (1 / 10 ^ 15) ((525 / 8) + (0) * s) ((3 / 4) + (0) * s) ((23625 / 262144) + (0) * s) (-1) _ ?_ ?_ (by norm_num [Nat.factorial]) ?_ ?_ (by norm_num) ?_ (by norm_num) ?_ ?_ (by norm_num)
  · rw [hx]; linear_combination (-(0)) * hs
  · linarith
  · rw [(T_values _).2.2.2.2.2.2.2.2.2.2.2.2.2.2.2.2.2.1]; try rw [hx]
    linear_combination (0) * hs
  · linear_combination (0) * hs
  · norm_num <;> linarith
  · norm_num <;> linarith
  · norm_num <;> linarith

theorem t3_144 : |sg 4 4 * Y6 1 4 4 - Y 4 4 (node6 1)| ≤ 1 / 10 ^ 15 := by
  obtain ⟨hs, h1, h2⟩ := s3
  have e : sg 4 4 * Y6 1 4 4 = 2.9413829057838586e-1 := by
    have : sg 4 4 = 1 := by norm_num [sg]
    rw [this]; change (1 : ℝ) * (2.9413829057838586e-1) = _; norm_num
  have hx : node6 1 = (1 / 2) := by simp [node6]; try ring
  rw [e]
  generalize √(3 / 5 : ℝ) = s at *
  refine near 4 4 40320 (2.9413829057838586e-1) (1 / 10 ^ 15) ((105) + (0) * s) ((3 / 4) + (0) * s) ((2835 / 32768) + (0) * s) (1) _ ?_ ?_ (by norm_num [Nat.factorial]) ?_ ?_ (by norm_num) ?_ (by norm_num) ?_ ?_ (by norm_num)
  · rw [hx]; linear_combination (-(0)) * hs
  · linarith
  · rw [(T_values _).2.2.2.2.2.2.2.2.2.2.2.2.2.2.2.2.2.2.1]; try rw [hx]
    linear_combination (0) * hs
  · linear_combination (0) * hs
  · norm_num <;> linarith
  · norm_num <;> linarith
  · norm_num <;> linarith

theorem t3_145 : |sg 4 5 * Y6 1 4 5 - Y 4 5 (node6 1)| ≤ 1 / 10 ^ 15 := by
  obtain ⟨hs, h1, h2⟩ := s3
  have e : sg 4 5 * Y6 1 4 5 = 4.4120743586757882e-1 := by
    have : sg 4 5 = 1 := by norm_num [sg]
    rw [this]; change (1 : ℝ) * (4.4120743586757882e-1) = _; norm_num
  have hx : node6 1 = (1 / 2) := by simp [node6]; try ring
  rw [e]
  generalize √(3 / 5 : ℝ) = s at *
  refine near 4 5 362880 (4.4120743586757882e-1) (1 / 10 ^ 15) ((945 / 2) + (0) * s) ((3 / 4) + (0) * s) ((25515 / 131072) + (0) * s) (1) _ ?_ ?_ (by norm_num [Nat.factorial]) ?_ ?_ (by norm_num) ?_ (by norm_num) ?_ ?_ (by norm_num)
  · rw [hx]; linear_combination (-(0)) * hs
  · linarith
  · rw [(T_values _).2.2.2.2.2.2.2.2.2.2.2.2.2.2.2.2.2.2.2.1]; try rw [hx]
    linear_combination (0) * hs
  · linear_combination (0) * hs
  · norm_num <;> linarith
  · norm_num <;> linarith
  · norm_num <;> linarith

theorem t3_155 : |sg 5 5 * Y6 1 5 5 - Y 5 5 (node6 1)| ≤ 1 / 10 ^ 15 := by
  obtain ⟨hs, h1, h2⟩ := s3
  have e : sg 5 5 * Y6 1 5 5 = -(2.4165926516368683e-1) := by
    have : sg 5 5 = -1 := by norm_num [sg]
    rw [this]; change (-1 : ℝ) * (2.4165926516368683e-1) = _; norm_num
  have hx : node6 1 = (1 / 2) := by simp [node6]; try ring
  rw [e]
  generalize √(3 / 5 : ℝ) = s at *
  refine near 5 5 3628800 (-(2.4165926516368683e-1)) (1 / 10 ^ 15) ((945) + (0) * s) ((3 / 4) + (0) * s) ((15309 / 262144) + (0) * s) (-1) _ ?_ ?_ (by norm_num [Nat.factorial]) ?_ ?_ (by norm_num) ?_ (by norm_num) ?_ ?_ (by norm_num)
  · rw [hx]; linear_combination (-(0)) * hs
  · linarith
  · rw [(T_values _).2.2.2.2.2.2.2.2.2.2.2.2.2.2.2.2.2.2.2.2]; try rw [hx]
    linear_combination (0) * hs
  · linear_combination (0) * hs
  · norm_num <;> linarith
  · norm_num <;> linarith
  · norm_num <;> linarith

theorem t3_200 : |sg 0 0 * Y6 2 0 0 - Y 0 0 (node6 2)| ≤ 1 / 10 ^ 15 := by
  obtain ⟨hs, h1, h2⟩ := s3
  have e : sg 0 0 * Y6 2 0 0 = 1.0000000000000000 := by
    have : sg 0 0 = 1 := by norm_num [sg]
    rw [this]; change (1 : ℝ) * (1.0000000000000000) = _; norm_num
  have hx : node6 2 = (1 / 2) + (1 / 2) * √(3 / 5 : ℝ) ^ 1 := by simp [node6]; try ring
  rw [e]
  generalize √(3 / 5 : ℝ) = s at *
  refine near 0 0 1 (1.0000000000000000) (1 / 10 ^ 15) ((1) + (0) * s) ((3 / 5) + (-1 / 2) * s) ((1) + (0) * s) (1) _ ?_ ?_ (by norm_num [Nat.factorial]) ?_ ?_ (by norm_num) ?_ (by norm_num) ?_ ?_ (by norm_num)
  · rw [hx]; linear_combination (-((-1 / 4))) * hs
  · linarith
  · rw [(T_values _).1]; try rw [hx]
    linear_combination (0) * hs
  · linear_combination (0) * hs
  · norm_num <;> linarith
  · norm_num <;> linarith
  · norm_num <;> linarith

theorem t3_201 : |sg 0 1 * Y6 2 0 1 - Y 0 1 (node6 2)| ≤ 1 / 10 ^ 15 := by
  obtain ⟨hs, h1, h2⟩ := s3
  have e : sg 0 1 * Y6 2 0 1 = 8.8729833462074170e-1 := by
    have : sg 0 1 = 1 := by norm_num [sg]
    rw [this]; change (1 : ℝ) * (8.8729833462074170e-1) = _; norm_num
  have hx : node6 2 = (1 / 2) + (1 / 2) * √(3 / 5 : ℝ) ^ 1 := by simp [node6]; try ring
  rw [e]
  generalize √(3 / 5 : ℝ) = s at *
  refine near 0 1 1 (8.8729833462074170e-1) (1 / 10 ^ 15) ((1 / 2) + (1 / 2) * s) ((3 / 5) + (-1 / 2) * s) ((2 / 5) + (1 / 2) * s) (1) _ ?_ ?_ (by norm_num [Nat.factorial]) ?_ ?_ (by norm_num) ?_ (by norm_num) ?_ ?_ (by norm_num)
  · rw [hx]; linear_combination (-((-1 / 4))) * hs
  · linarith
  · rw [(T_values _).2.1]; try rw [hx]
    linear_combination (0) * hs
  · linear_combination ((1 / 4)) * hs
  · norm_num <;> linarith
  · norm_num <;> linarith
  · norm_num <;> linarith

theorem t3_202 : |sg 0 2 * Y6 2 0 2 - Y 0 2 (node6 2)| ≤ 1 / 10 ^ 15 := by
  obtain ⟨hs, h1, h2⟩ := s3
  have e : sg 0 2 * Y6 2 0 2 = 6.8094750193111264e-1 := by
    have : sg 0 2 = 1 := by norm_num [sg]
    rw [this]; change (1 : ℝ) * (6.8094750193111264e-1) = _; norm_num
  have hx : node6 2 = (1 / 2) + (1 / 2) * √(3 / 5 : ℝ) ^ 1 := by simp [node6]; try ring
  rw [e]
  generalize √(3 / 5 : ℝ) = s at *
  refine near 0 2 1 (6.8094750193111264e-1) (1 / 10 ^ 15) ((1 / 10) + (3 / 4) * s) ((3 / 5) + (-1 / 2) * s) ((139 / 400) + (3 / 20) * s) (1) _ ?_ ?_ (by norm_num [Nat.factorial]) ?_ ?_ (by norm_num) ?_ (by norm_num) ?_ ?_ (by norm_num)
  · rw [hx]; linear_combination (-((-1 / 4))) * hs
  · linarith
  · rw [(T_values _).2.2.1]; try rw [hx]
    linear_combination ((3 / 8)) * hs
  · linear_combination ((9 / 16)) * hs
  · norm_num <;> linarith
  · norm_num <;> linarith
  · norm_num <;> linarith

theorem t3_203 : |sg 0 3 * Y6 2 0 3 - Y 0 3 (node6 2)| ≤ 1 / 10 ^ 15 := by
  obtain ⟨hs, h1, h2⟩ := s3
  have e : sg 0 3 * Y6 2 0 3 = 4.1547375096555617e-1 := by
    have : sg 0 3 = 1 := by norm_num [sg]
    rw [this]; change (1 : ℝ) * (4.1547375096555617e-1) = _; norm_num
  have hx : node6 2 = (1 / 2) + (1 / 2) * √(3 / 5 : ℝ) ^ 1 := by simp [node6]; try ring
  rw [e]
  generalize √(3 / 5 : ℝ) = s at *
  refine near 0 3 1 (4.1547375096555617e-1) (1 / 10 ^ 15) ((1 / 8) + (3 / 8) * s) ((3 / 5) + (-1 / 2) * s) ((1 / 10) + (3 / 32) * s) (1) _ ?_ ?_ (by norm_num [Nat.factorial]) ?_ ?_ (by norm_num) ?_ (by norm_num) ?_ ?_ (by norm_num)
  · rw [hx]; linear_combination (-((-1 / 4))) * hs
  · linarith
  · rw [(T_values _).2.2.2.1]; try rw [hx]
    linear_combination ((15 / 16) + (5 / 16) * s ^ 1) * hs
  · linear_combination ((9 / 64)) * hs
  · norm_num <;> linarith
  · norm_num <;> linarith
  · norm_num <;> linarith

theorem t3_204 : |sg 0 4 * Y6 2 0 4 - Y 0 4 (node6 2)| ≤ 1 / 10 ^ 15 := by
  obtain ⟨hs, h1, h2⟩ := s3
  have e : sg 0 4 * Y6 2 0 4 = 1.3442541634481442e-1 := by
    have : sg 0 4 = 1 := by norm_num [sg]
    rw [this]; change (1 : ℝ) * (1.3442541634481442e-1) = _; norm_num
  have hx : node6 2 = (1 / 2) + (1 / 2) * √(3 / 5 : ℝ) ^ 1 := by simp [node6]; try ring
  rw [e]
  generalize √(3 / 5 : ℝ) = s at *
  refine near 0 4 1 (1.3442541634481442e-1) (1 / 10 ^ 15) ((37 / 160) + (-1 / 8) * s) ((3 / 5) + (-1 / 2) * s) ((1609 / 25600) + (-37 / 640) * s) (1) _ ?_ ?_ (by norm_num [Nat.factorial]) ?_ ?_ (by norm_num) ?_ (by norm_num) ?_ ?_ (by norm_num)
  · rw [hx]; linear_combination (-((-1 / 4))) * hs
  · linarith
  · rw [(T_values _).2.2.2.2.1]; try rw [hx]
    linear_combination ((111 / 128) + (35 / 32) * s ^ 1 + (35 / 128) * s ^ 2) * hs
  · linear_combination ((1 / 64)) * hs
  · norm_num <;> linarith
  · norm_num <;> linarith
  · norm_num <;> linarith

theorem t3_205 : |sg 0 5 * Y6 2 0 5 - Y 0 5 (node6 2)| ≤ 1 / 10 ^ 15 := by
  obtain ⟨hs, h1, h2⟩ := s3
  have e : sg 0 5 * Y6 2 0 5 = -1.1768319427622852e-1 := by
    have : sg 0 5 = 1 := by norm_num [sg]
    rw [this]; change (1 : ℝ) * (-1.1768319427622852e-1) = _; norm_num
  have hx : node6 2 = (1 / 2) + (1 / 2) * √(3 / 5 : ℝ) ^ 1 := by simp [node6]; try ring
  rw [e]
  generalize √(3 / 5 : ℝ) = s at *
  refine near 0 5 1 (-1.1768319427622852e-1) (1 / 10 ^ 15) ((13 / 320) + (-327 / 1600) * s) ((3 / 5) + (-1 / 2) * s) ((42739 / 1600000) + (-4251 / 256000) * s) (-1) _ ?_ ?_ (by norm_num [Nat.factorial]) ?_ ?_ (by norm_num) ?_ (by norm_num) ?_ ?_ (by norm_num)
  · rw [hx]; linear_combination (-((-1 / 4))) * hs
  · linarith
  · rw [(T_values _).2.2.2.2.2.1]; try rw [hx]
    linear_combination ((-21 / 256) + (1939 / 1280) * s ^ 1 + (315 / 256) * s ^ 2 + (63 / 256) * s ^ 3) * hs
  · linear_combination ((106929 / 2560000)) * hs
  · norm_num <;> linarith
  · norm_num <;> linarith
  · norm_num <;> linarith

theorem t3_211 : |sg 1 1 * Y6 2 1 1 - Y 1 1 (node6 2)| ≤ 1 / 10 ^ 15 := by
  obtain ⟨hs, h1, h2⟩ := s3
  have e : sg 1 1 * Y6 2 1 1 = -3.2611475386683919e-1 := by
    have : sg 1 1 = 1 := by norm_num [sg]
    rw [this]; change (1 : ℝ) * (-3.2611475386683919e-1) = _; norm_num
  have hx : node6 2 = (1 / 2) + (1 / 2) * √(3 / 5 : ℝ) ^ 1 := by simp [node6]; try ring
  rw [e]
  generalize √(3 / 5 : ℝ) = s at *
  refine near 1 1 2 (-3.2611475386683919e-1) (1 / 10 ^ 15) ((1) + (0) * s) ((3 / 5) + (-1 / 2) * s) ((3 / 10) + (-1 / 4) * s) (-1) _ ?_ ?_ (by norm_num [Nat.factorial]) ?_ ?_ (by norm_num) ?_ (by norm_num) ?_ ?_ (by norm_num)
  · rw [hx]; linear_combination (-((-1 / 4))) * hs
  · linarith
  · rw [(T_values _).2.2.2.2.2.2.1]; try rw [hx]
    linear_combination (0) * hs
  · linear_combination (0) * hs
  · norm_num <;> linarith
  · norm_num <;> linarith
  · norm_num <;> linarith

theorem t3_212 : |sg 1 2 * Y6 2 1 2 - Y 1 2 (node6 2)| ≤ 1 / 10 ^ 15 := by
  obtain ⟨hs, h1, h2⟩ := s3
  have e : sg 1 2 * Y6 2 1 2 = -5.0118808883115185e-1 := by
    have : sg 1 2 = 1 := by norm_num [sg]
    rw [this]; change (1 : ℝ) * (-5.0118808883115185e-1) = _; norm_num
  have hx : node6 2 = (1 / 2) + (1 / 2) * √(3 / 5 : ℝ) ^ 1 := by simp [node6]; try ring
  rw [e]
  generalize √(3 / 5 : ℝ) = s at *
  refine near 1 2 6 (-5.0118808883115185e-1) (1 / 10 ^ 15) ((3 / 2) + (3 / 2) * s) ((3 / 5) + (-1 / 2) * s) ((27 / 200) + (3 / 20) * s) (-1) _ ?_ ?_ (by norm_num [Nat.factorial]) ?_ ?_ (by norm_num) ?_ (by norm_num) ?_ ?_ (by norm_num)
  · rw [hx]; linear_combination (-((-1 / 4))) * hs
  · linarith
  · rw [(T_values _).2.2.2.2.2.2.2.1]; try rw [hx]
    linear_combination (0) * hs
  · linear_combination ((-9 / 10) + (-9 / 8) * s ^ 1) * hs
  · norm_num <;> linarith
  · norm_num <;> linarith
  · norm_num <;> linarith

theorem t3_213 : |sg 1 3 * Y6 2 1 3 - Y 1 3 (node6 2)| ≤ 1 / 10 ^ 15 := by
  obtain ⟨hs, h1, h2⟩ := s3
  have e : sg 1 3 * Y6 2 1 3 = -5.8642821144342672e-1 := by
    have : sg 1 3 = 1 := by norm_num [sg]
    rw [this]; change (1 : ℝ) * (-5.8642821144342672e-1) = _; norm_num
  have hx : node6 2 = (1 / 2) + (1 / 2) * √(3 / 5 : ℝ) ^ 1 := by simp [node6]; try ring
  rw [e]
  generalize √(3 / 5 : ℝ) = s at *
  refine near 1 3 12 (-5.8642821144342672e-1) (1 / 10 ^ 15) ((3 / 2) + (15 / 4) * s) ((3 / 5) + (-1 / 2) * s) ((81 / 320) + (15 / 128) * s) (-1) _ ?_ ?_ (by norm_num [Nat.factorial]) ?_ ?_ (by norm_num) ?_ (by norm_num) ?_ ?_ (by norm_num)
  · rw [hx]; linear_combination (-((-1 / 4))) * hs
  · linarith
  · rw [(T_values _).2.2.2.2.2.2.2.2.1]; try rw [hx]
    linear_combination ((15 / 8)) * hs
  · linear_combination ((45 / 16) + (-225 / 32) * s ^ 1) * hs
  · norm_num <;> linarith
  · norm_num <;> linarith
  · norm_num <;> linarith

theorem t3_214 : |sg 1 4 * Y6 2 1 4 - Y 1 4 (node6 2)| ≤ 1 / 10 ^ 15 := by
  obtain ⟨hs, h1, h2⟩ := s3
  have e : sg 1 4 * Y6 2 1 4 = -(5.7443661482497066e-1) := by
    have : sg 1 4 = -1 := by norm_num [sg]
    rw [this]; change (-1 : ℝ) * (5.7443661482497066e-1) = _; norm_num
  have hx : node6 2 = (1 / 2) + (1 / 2) * √(3 / 5 : ℝ) ^ 1 := by simp [node6]; try ring
  rw [e]
  generalize √(3 / 5 : ℝ) = s at *
  refine near 1 4 20 (-(5.7443661482497066e-1)) (1 / 10 ^ 15) ((19 / 8) + (33 / 8) * s) ((3 / 5) + (-1 / 2) * s) ((5811 / 32000) + (613 / 3200) * s) (-1) _ ?_ ?_ (by norm_num [Nat.factorial]) ?_ ?_ (by norm_num) ?_ (by norm_num) ?_ ?_ (by norm_num)
  · rw [hx]; linear_combination (-((-1 / 4))) * hs
  · linarith
  · rw [(T_values _).2.2.2.2.2.2.2.2.2.1]; try rw [hx]
    linear_combination ((105 / 16) + (35 / 16) * s ^ 1) * hs
  · linear_combination ((33 / 80) + (-1089 / 128) * s ^ 1) * hs
  · norm_num <;> linarith
  · norm_num <;> linarith
  · norm_num <;> linarith

theorem t3_215 : |sg 1 5 * Y6 2 1 5 - Y 1 5 (node6 2)| ≤ 1 / 10 ^ 15 := by
  obtain ⟨hs, h1, h2⟩ := s3
  have e : sg 1 5 * Y6 2 1 5 = -(4.7276033207965390e-1) := by
    have : sg 1 5 = -1 := by norm_num [sg]
    rw [this]; change (-1 : ℝ) * (4.7276033207965390e-1) = _; norm_num
  have hx : node6 2 = (1 / 2) + (1 / 2) * √(3 / 5 : ℝ) ^ 1 := by simp [node6]; try ring
  rw [e]
  generalize √(3 / 5 : ℝ) = s at *
  refine near 1 5 30 (-(4.7276033207965390e-1)) (1 / 10 ^ 15) ((573 / 160) + (21 / 8) * s) ((3 / 5) + (-1 / 2) * s) ((193509 / 1280000) + (9561 / 102400) * s) (-1) _ ?_ ?_ (by norm_num [Nat.factorial]) ?_ ?_ (by norm_num) ?_ (by norm_num) ?_ ?_ (by norm_num)
  · rw [hx]; linear_combination (-((-1 / 4))) * hs
  · linarith
  · rw [(T_values _).2.2.2.2.2.2.2.2.2.2.1]; try rw [hx]
    linear_combination ((1239 / 128) + (315 / 32) * s ^ 1 + (315 / 128) * s ^ 2) * hs
  · linear_combination ((-6741 / 1280) + (-441 / 128) * s ^ 1) * hs
  · norm_num <;> linarith
  · norm_num <;> linarith
  · norm_num <;> linarith

theorem t3_222 : |sg 2 2 * Y6 2 2 2 - Y 2 2 (node6 2)| ≤ 1 / 10 ^ 15 := by
  obtain ⟨hs, h1, h2⟩ := s3
  have e : sg 2 2 * Y6 2 2 2 = 1.3025263690484826e-1 := by
    have : sg 2 2 = 1 := by norm_num [sg]
    rw [this]; change (1 : ℝ) * (1.3025263690484826e-1) = _; norm_num
  have hx : node6 2 = (1 / 2) + (1 / 2) * √(3 / 5 : ℝ) ^ 1 := by simp [node6]; try ring
  rw [e]
  generalize √(3 / 5 : ℝ) = s at *
  refine near 2 2 24 (1.3025263690484826e-1) (1 / 10 ^ 15) ((3) + (0) * s) ((3 / 5) + (-1 / 2) * s) ((153 / 800) + (-9 / 40) * s) (1) _ ?_ ?_ (by norm_num [Nat.factorial]) ?_ ?_ (by norm_num) ?_ (by norm_num) ?_ ?_ (by norm_num)
  · rw [hx]; linear_combination (-((-1 / 4))) * hs
  · linarith
  · rw [(T_values _).2.2.2.2.2.2.2.2.2.2.2.1]; try rw [hx]
    linear_combination (0) * hs
  · linear_combination ((9 / 4)) * hs
  · norm_num <;> linarith
  · norm_num <;> linarith
  · norm_num <;> linarith

theorem t3_223 : |sg 2 3 * Y6 2 2 3 - Y 2 3 (node6 2)| ≤ 1 / 10 ^ 15 := by
  obtain ⟨hs, h1, h2⟩ := s3
  have e : sg 2 3 * Y6 2 2 3 = 2.5842896765342832e-1 := by
    have : sg 2 3 = 1 := by norm_num [sg]
    rw [this]; change (1 : ℝ) * (2.5842896765342832e-1) = _; norm_num
  have hx : node6 2 = (1 / 2) + (1 / 2) * √(3 / 5 : ℝ) ^ 1 := by simp [node6]; try ring
  rw [e]
  generalize √(3 / 5 : ℝ) = s at *
  refine near 2 3 120 (2.5842896765342832e-1) (1 / 10 ^ 15) ((15 / 2) + (15 / 2) * s) ((3 / 5) + (-1 / 2) * s) ((9 / 200) + (9 / 320) * s) (1) _ ?_ ?_ (by norm_num [Nat.factorial]) ?_ ?_ (by norm_num) ?_ (by norm_num) ?_ ?_ (by norm_num)
  · rw [hx]; linear_combination (-((-1 / 4))) * hs
  · linarith
  · rw [(T_values _).2.2.2.2.2.2.2.2.2.2.2.2.1]; try rw [hx]
    linear_combination (0) * hs
  · linear_combination ((-99 / 4) + (-45 / 8) * s ^ 1 + (225 / 16) * s ^ 2) * hs
  · norm_num <;> linarith
  · norm_num <;> linarith
  · norm_num <;> linarith

theorem t3_224 : |sg 2 4 * Y6 2 2 4 - Y 2 4 (node6 2)| ≤ 1 / 10 ^ 15 := by
  obtain ⟨hs, h1, h2⟩ := s3
  have e : sg 2 4 * Y6 2 2 4 = 3.7928200264310813e-1 := by
    have : sg 2 4 = 1 := by norm_num [sg]
    rw [this]; change (1 : ℝ) * (3.7928200264310813e-1) = _; norm_num
  have hx : node6 2 = (1 / 2) + (1 / 2) * √(3 / 5 : ℝ) ^ 1 := by simp [node6]; try ring
  rw [e]
  generalize √(3 / 5 : ℝ) = s at *
  refine near 2 4 360 (3.7928200264310813e-1) (1 / 10 ^ 15) ((27 / 2) + (105 / 4) * s) ((3 / 5) + (-1 / 2) * s) ((8649 / 64000) + (9 / 800) * s) (1) _ ?_ ?_ (by norm_num [Nat.factorial]) ?_ ?_ (by norm_num) ?_ (by norm_num) ?_ ?_ (by norm_num)
  · rw [hx]; linear_combination (-((-1 / 4))) * hs
  · linarith
  · rw [(T_values _).2.2.2.2.2.2.2.2.2.2.2.2.2.1]; try rw [hx]
    linear_combination ((105 / 8)) * hs
  · linear_combination ((-1809 / 64) + (-945 / 4) * s ^ 1 + (11025 / 64) * s ^ 2) * hs
  · norm_num <;> linarith
  · norm_num <;> linarith
  · norm_num <;> linarith

theorem t3_225 : |sg 2 5 * Y6 2 2 5 - Y 2 5 (node6 2)| ≤ 1 / 10 ^ 15 := by
  obtain ⟨hs, h1, h2⟩ := s3
  have e : sg 2 5 * Y6 2 2 5 = 4.6559021420497959e-1 := by
    have : sg 2 5 = 1 := by norm_num [sg]
    rw [this]; change (1 : ℝ) * (4.6559021420497959e-1) = _; norm_num
  have hx : node6 2 = (1 / 2) + (1 / 2) * √(3 / 5 : ℝ) ^ 1 := by simp [node6]; try ring
  rw [e]
  generalize √(3 / 5 : ℝ) = s at *
  refine near 2 5 840 (4.6559021420497959e-1) (1 / 10 ^ 15) ((231 / 8) + (357 / 8) * s) ((3 / 5) + (-1 / 2) * s) ((20349 / 160000) + (2961 / 25600) * s) (1) _ ?_ ?_ (by norm_num [Nat.factorial]) ?_ ?_ (by norm_num) ?_ (by norm_num) ?_ ?_ (by norm_num)
  · rw [hx]; linear_combination (-((-1 / 4))) * hs
  · linarith
  · rw [(T_values _).2.2.2.2.2.2.2.2.2.2.2.2.2.2.1]; try rw [hx]
    linear_combination ((945 / 16) + (315 / 16) * s ^ 1) * hs
  · linear_combination ((-515529 / 1600) + (-352359 / 640) * s ^ 1 + (127449 / 256) * s ^ 2) * hs
  · norm_num <;> linarith
  · norm_num <;> linarith
  · norm_num <;> linarith

theorem t3_233 : |sg 3 3 * Y6 2 3 3 - Y 3 3 (node6 2)| ≤ 1 / 10 ^ 15 := by
  obtain ⟨hs, h1, h2⟩ := s3
  have e : sg 3 3 * Y6 2 3 3 = -5.4837967049776844e-2 := by
    have : sg 3 3 = 1 := by norm_num [sg]
    rw [this]; change (1 : ℝ) * (-5.4837967049776844e-2) = _; norm_num
  have hx : node6 2 = (1 / 2) + (1 / 2) * √(3 / 5 : ℝ) ^ 1 := by simp [node6]; try ring
  rw [e]
  generalize √(3 / 5 : ℝ) = s at *
  refine near 3 3 720 (-5.4837967049776844e-2) (1 / 10 ^ 15) ((15) + (0) * s) ((3 / 5) + (-1 / 2) * s) ((243 / 1600) + (-123 / 640) * s) (-1) _ ?_ ?_ (by norm_num [Nat.factorial]) ?_ ?_ (by norm_num) ?_ (by norm_num) ?_ ?_ (by norm_num)
  · rw [hx]; linear_combination (-((-1 / 4))) * hs
  · linarith
  · rw [(T_values _).2.2.2.2.2.2.2.2.2.2.2.2.2.2.2.1]; try rw [hx]
    linear_combination (0) * hs
  · linear_combination ((405 / 4) + (-225 / 8) * s ^ 1) * hs
  · norm_num <;> linarith
  · norm_num <;> linarith
  · norm_num <;> linarith

theorem t3_234 : |sg 3 4 * Y6 2 3 4 - Y 3 4 (node6 2)| ≤ 1 / 10 ^ 15 := by
  obtain ⟨hs, h1, h2⟩ := s3
  have e : sg 3 4 * Y6 2 3 4 = -(1.2873600645546979e-1) := by
    have : sg 3 4 = -1 := by norm_num [sg]
    rw [this]; change (-1 : ℝ) * (1.2873600645546979e-1) = _; norm_num
  have hx : node6 2 = (1 / 2) + (1 / 2) * √(3 / 5 : ℝ) ^ 1 := by simp [node6]; try ring
  rw [e]
  generalize √(3 / 5 : ℝ) = s at *
  refine near 3 4 5040 (-(1.2873600645546979e-1)) (1 / 10 ^ 15) ((105 / 2) + (105 / 2) * s) ((3 / 5) + (-1 / 2) * s) ((693 / 32000) + (-21 / 3200) * s) (-1) _ ?_ ?_ (by norm_num [Nat.factorial]) ?_ ?_ (by norm_num) ?_ (by norm_num) ?_ ?_ (by norm_num)
  · rw [hx]; linear_combination (-((-1 / 4))) * hs
  · linarith
  · rw [(T_values _).2.2.2.2.2.2.2.2.2.2.2.2.2.2.2.2.1]; try rw [hx]
    linear_combination (0) * hs
  · linear_combination ((-64827 / 80) + (441) * s ^ 1 + (2205 / 4) * s ^ 2 + (-11025 / 32) * s ^ 3) * hs
  · norm_num <;> linarith
  · norm_num <;> linarith
  · norm_num <;> linarith

theorem t3_235 : |sg 3 5 * Y6 2 3 5 - Y 3 5 (node6 2)| ≤ 1 / 10 ^ 15 := by
  obtain ⟨hs, h1, h2⟩ := s3
  have e : sg 3 5 * Y6 2 3 5 = -(2.2073939349622659e-1) := by
    have : sg 3 5 = -1 := by norm_num [sg]
    rw [this]; change (-1 : ℝ) * (2.2073939349622659e-1) = _; norm_num
  have hx : node6 2 = (1 / 2) + (1 / 2) * √(3 / 5 : ℝ) ^ 1 := by simp [node6]; try ring
  rw [e]
  generalize √(3 / 5 : ℝ) = s at *
  refine near 3 5 20160 (-(2.2073939349622659e-1)) (1 / 10 ^ 15) ((273 / 2) + (945 / 4) * s) ((3 / 5) + (-1 / 2) * s) ((194481 / 2560000) + (-7203 / 204800) * s) (-1) _ ?_ ?_ (by norm_num [Nat.factorial]) ?_ ?_ (by norm_num) ?_ (by norm_num) ?_ ?_ (by norm_num)
  · rw [hx]; linear_combination (-((-1 / 4))) * hs
  · linarith
  · rw [(T_values _).2.2.2.2.2.2.2.2.2.2.2.2.2.2.2.2.2.1]; try rw [hx]
    linear_combination ((945 / 8)) * hs
  · linear_combination ((-265923 / 64) + (-976815 / 128) * s ^ 1 + (1091475 / 64) * s ^ 2 + (-893025 / 128) * s ^ 3) * hs
  · norm_num <;> linarith
  · norm_num <;> linarith
  · norm_num <;> linarith

theorem t3_244 : |sg 4 4 * Y6 2 4 4 - Y 4 4 (node6 2)| ≤ 1 / 10 ^ 15 := by
  obtain ⟨hs, h1, h2⟩ := s3
  have e : sg 4 4 * Y6 2 4 4 = 2.3657607267441809e-2 := by
    have : sg 4 4 = 1 := by norm_num [sg]
    rw [this]; change (1 : ℝ) * (2.3657607267441809e-2) = _; norm_num
  have hx : node6 2 = (1 / 2) + (1 / 2) * √(3 / 5 : ℝ) ^ 1 := by simp [node6]; try ring
  rw [e]
  generalize √(3 / 5 : ℝ) = s at *
  refine near 4 4 40320 (2.3657607267441809e-2) (1 / 10 ^ 15) ((105) + (0) * s) ((3 / 5) + (-1 / 2) * s) ((33327 / 256000) + (-1071 / 6400) * s) (1) _ ?_ ?_ (by norm_num [Nat.factorial]) ?_ ?_ (by norm_num) ?_ (by norm_num) ?_ ?_ (by norm_num)
  · rw [hx]; linear_combination (-((-1 / 4))) * hs
  · linarith
  · rw [(T_values _).2.2.2.2.2.2.2.2.2.2.2.2.2.2.2.2.2.2.1]; try rw [hx]
    linear_combination (0) * hs
  · linear_combination ((101871 / 16) + (-6615 / 2) * s ^ 1 + (11025 / 16) * s ^ 2) * hs
  · norm_num <;> linarith
  · norm_num <;> linarith
  · norm_num <;> linarith

theorem t3_245 : |sg 4 5 * Y6 2 4 5 - Y 4 5 (node6 2)| ≤ 1 / 10 ^ 15 := by
  obtain ⟨hs, h1, h2⟩ := s3
  have e : sg 4 5 * Y6 2 4 5 = 6.2974066588538019e-2 := by
    have : sg 4 5 = 1 := by norm_num [sg]
    rw [this]; change (1 : ℝ) * (6.2974066588538019e-2) = _; norm_num
  have hx : node6 2 = (1 / 2) + (1 / 2) * √(3 / 5 : ℝ) ^ 1 := by simp [node6]; try ring
  rw [e]
  generalize √(3 / 5 : ℝ) = s at *
  refine near 4 5 362880 (6.2974066588538019e-2) (1 / 10 ^ 15) ((945 / 2) + (945 / 2) * s) ((3 / 5) + (-1 / 2) * s) ((10773 / 640000) + (-1701 / 102400) * s) (1) _ ?_ ?_ (by norm_num [Nat.factorial]) ?_ ?_ (by norm_num) ?_ (by norm_num) ?_ ?_ (by norm_num)
  · rw [hx]; linear_combination (-((-1 / 4))) * hs
  · linarith
  · rw [(T_values _).2.2.2.2.2.2.2.2.2.2.2.2.2.2.2.2.2.2.2.1]; try rw [hx]
    linear_combination (0) * hs
  · linear_combination ((-7608573 / 200) + (8680203 / 160) * s ^ 1 + (35721 / 4) * s ^ 2 + (-1250235 / 32) * s ^ 3 + (893025 / 64) * s ^ 4) * hs
  · norm_num <;> linarith
  · norm_num <;> linarith
  · norm_num <;> linarith

theorem t3_255 : |sg 5 5 * Y6 2 5 5 - Y 5 5 (node6 2)| ≤ 1 / 10 ^ 15 := by
  obtain ⟨hs, h1, h2⟩ := s3
  have e : sg 5 5 * Y6 2 5 5 = -(1.0350885816619845e-2) := by
    have : sg 5 5 = -1 := by norm_num [sg]
    rw [this]; change (-1 : ℝ) * (1.0350885816619845e-2) = _; norm_num
  have hx : node6 2 = (1 / 2) + (1 / 2) * √(3 / 5 : ℝ) ^ 1 := by simp [node6]; try ring
  rw [e]
  generalize √(3 / 5 : ℝ) = s at *
  refine near 5 5 3628800 (-(1.0350885816619845e-2)) (1 / 10 ^ 15) ((945) + (0) * s) ((3 / 5) + (-1 / 2) * s) ((1478169 / 12800000) + (-152523 / 1024000) * s) (-1) _ ?_ ?_ (by norm_num [Nat.factorial]) ?_ ?_ (by norm_num) ?_ (by norm_num) ?_ ?_ (by norm_num)
  · rw [hx]; linear_combination (-((-1 / 4))) * hs
  · linarith
  · rw [(T_values _).2.2.2.2.2.2.2.2.2.2.2.2.2.2.2.2.2.2.2.2]; try rw [hx]
    linear_combination (0) * hs
  · linear_combination ((9323181 / 16) + (-13395375 / 32) * s ^ 1 + (2679075 / 16) * s ^ 2 + (-893025 / 32) * s ^ 3) * hs
  · norm_num <;> linarith
  · norm_num <;> linarith
  · norm_num <;> linarith

theorem tab2 (j : Fin 2) (m l : Nat) (hm : m ≤ l) (hl : l < 4) :
    |sg m l * Y4 j m l - Y m l (node4 j)| ≤ 1 / 10 ^ 15 := by
  interval_cases l <;> interval_cases m <;> fin_cases j
  · exact t2_000
  · exact t2_100
  · exact t2_001
  · exact t2_101
  · exact t2_011
  · exact t2_111
  · exact t2_002
  · exact t2_102
  · exact t2_012
  · exact t2_112
  · exact t2_022
  · exact t2_122
  · exact t2_003
  · exact t2_103
  · exact t2_013
  · exact t2_113
  · exact t2_023
  · exact t2_123
  · exact t2_033
  · exact t2_133

theorem tab3 (j : Fin 3) (m l : Nat) (hm : m ≤ l) (hl : l < 6) :
    |sg m l * Y6 j m l - Y m l (node6 j)| ≤ 1 / 10 ^ 15 := by
  interval_cases l <;> interval_cases m <;> fin_cases j
  · exact t3_000
  · exact t3_100
  · exact t3_200
  · exact t3_001
  · exact t3_101
  · exact t3_201
  · exact t3_011
  · exact t3_111
  · exact t3_211
  · exact t3_002
  · exact t3_102
  · exact t3_202
  · exact t3_012
  · exact t3_112
  · exact t3_212
  · exact t3_022
  · exact t3_122
  · exact t3_222
  · exact t3_003
  · exact t3_103
  · exact t3_203
  · exact t3_013
  · exact t3_113
  · exact t3_213
  · exact t3_023
  · exact t3_123
  · exact t3_223
  · exact t3_033
  · exact t3_133
  · exact t3_233
  · exact t3_004
  · exact t3_104
  · exact t3_204
  · exact t3_014
  · exact t3_114
  · exact t3_214
  · exact t3_024
  · exact t3_124
  · exact t3_224
  · exact t3_034
  · exact t3_134
  · exact t3_234
  · exact t3_044
  · exact t3_144
  · exact t3_244
  · exact t3_005
  · exact t3_105
  · exact t3_205
  · exact t3_015
  · exact t3_115
  · exact t3_215
  · exact t3_025
  · exact t3_125
  · exact t3_225
  · exact t3_035
  · exact t3_135
  · exact t3_235
  · exact t3_045
  · exact t3_145
  · exact t3_245
  · exact t3_055
  · exact t3_155
  · exact t3_255

end Xrtm.Streams
