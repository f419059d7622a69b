import Mathlib.Analysis.SpecialFunctions.Trigonometric.Inverse
import Verif.Model.Fp

/-!
# Exact real numbers as the number type

The values of the constants are those of `src/xrtm.h` (thresholds), `src/gmath.h` (`D2R`,
`R2D`) and `<float.h>`. Rounding is not modelled by this instance.
-/

namespace Xrtm

open Classical in
noncomputable instance fpReal : Fp ℝ where
  zero := 0
  one := 1
  ninety := 90
  lt a b := decide (a < b)
  le a b := decide (a ≤ b)
  eq a b := decide (a = b)
  add := (· + ·)
  sub := (· - ·)
  mul := (· * ·)
  abs := (|·|)
  cos := Real.cos
  acos := Real.arccos
  d2r := Real.pi / 180
  r2d := 180 / Real.pi
  muEps := 1e-5
  omegaEps := 1e-5
  dblEps := 2⁻¹ ^ 52

namespace FpR
@[simp] theorem zero_eq : (Fp.zero : ℝ) = 0 := rfl
@[simp] theorem one_eq : (Fp.one : ℝ) = 1 := rfl
@[simp] theorem ninety_eq : (Fp.ninety : ℝ) = 90 := rfl
@[simp] theorem lt_eq (a b : ℝ) : Fp.lt a b = decide (a < b) := by simp [Fp.lt]
@[simp] theorem le_eq (a b : ℝ) : Fp.le a b = decide (a ≤ b) := by simp [Fp.le]
@[simp] theorem eq_eq (a b : ℝ) : Fp.eq a b = decide (a = b) := by simp [Fp.eq]
@[simp] theorem add_eq (a b : ℝ) : Fp.add a b = a + b := rfl
@[simp] theorem sub_eq (a b : ℝ) : Fp.sub a b = a - b := rfl
@[simp] theorem mul_eq (a b : ℝ) : Fp.mul a b = a * b := rfl
@[simp] theorem abs_eq (a : ℝ) : Fp.abs a = |a| := rfl
@[simp] theorem cos_eq (a : ℝ) : Fp.cos a = Real.cos a := rfl
@[simp] theorem acos_eq (a : ℝ) : Fp.acos a = Real.arccos a := rfl
@[simp] theorem d2r_eq : (Fp.d2r : ℝ) = Real.pi / 180 := rfl
@[simp] theorem r2d_eq : (Fp.r2d : ℝ) = 180 / Real.pi := rfl
@[simp] theorem muEps_eq : (Fp.muEps : ℝ) = 1e-5 := rfl
@[simp] theorem omegaEps_eq : (Fp.omegaEps : ℝ) = 1e-5 := rfl
@[simp] theorem dblEps_eq : (Fp.dblEps : ℝ) = 2⁻¹ ^ 52 := rfl
end FpR

end Xrtm
