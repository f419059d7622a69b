import Mathlib.Analysis.SpecialFunctions.Exp

/-!
# Arithmetic on C `double`s, uninterpreted

Where a computation matters only through the order in which operations are applied, it is
modelled over an arbitrary type with the operations of C, so that what is proved holds for
IEEE doubles too. `Real` is an instance.
-/

namespace Xrtm

/-- The operations of C on `double`, uninterpreted. -/
class Arith (F : Type) where
  zero : F
  one : F
  add : F → F → F
  sub : F → F → F
  mul : F → F → F
  div : F → F → F
  neg : F → F
  exp : F → F

noncomputable instance arithReal : Arith ℝ where
  zero := 0
  one := 1
  add := (· + ·)
  sub := (· - ·)
  mul := (· * ·)
  div := (· / ·)
  neg := (- ·)
  exp := Real.exp

namespace ArithR
@[simp] theorem zero_eq : (Arith.zero : ℝ) = 0 := rfl
@[simp] theorem one_eq : (Arith.one : ℝ) = 1 := rfl
@[simp] theorem add_eq (a b : ℝ) : Arith.add a b = a + b := rfl
@[simp] theorem sub_eq (a b : ℝ) : Arith.sub a b = a - b := rfl
@[simp] theorem mul_eq (a b : ℝ) : Arith.mul a b = a * b := rfl
@[simp] theorem div_eq (a b : ℝ) : Arith.div a b = a / b := rfl
@[simp] theorem neg_eq (a : ℝ) : Arith.neg a = -a := rfl
@[simp] theorem exp_eq (a : ℝ) : Arith.exp a = Real.exp a := rfl
end ArithR

end Xrtm
