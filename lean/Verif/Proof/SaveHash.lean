import Verif.Spec.SaveTree
import Mathlib.Data.Nat.ModEq
import Mathlib.Data.Nat.GCD.Basic
import Mathlib.Tactic.Ring
import Mathlib.Tactic.Positivity

/-!
# Lemmas for C18: the hash
-/

namespace Xrtm.SaveTree

open Spec

/-! ## The hash -/

theorem djb2_append (h : ULong) (x y : Str) : djb2 h (x ++ y) = djb2 (djb2 h x) y := by
  induction x generalizing h with
  | nil => rfl
  | cons c x ih => simp [djb2, ih]

theorem mark_flatten (p : Place) : mark p = djb2 5381 p.flatten := by
  have : ∀ (p : Place) h, p.foldl djb2 h = djb2 h p.flatten := by
    intro p
    induction p with
    | nil => simp [djb2]
    | cons s p ih => intro h; simp [djb2_append, ih]
  exact this p _

/-- The string as a number in base 33. -/
def poly : Str → Nat
  | [] => 0
  | c :: x => c.toNat * 33 ^ x.length + poly x

theorem step_toNat (h : ULong) (c : BitVec 8) : ((h <<< 5) + h + c.zeroExtend 64).toNat = (h.toNat * 33 + c.toNat) % 2 ^ 64 := by
  have : c.toNat < 2 ^ 8 := c.isLt
  simp only [BitVec.toNat_add, BitVec.toNat_shiftLeft, Nat.shiftLeft_eq, BitVec.truncate_eq_setWidth, BitVec.toNat_setWidth]
  omega

theorem djb2_toNat (h : ULong) (x : Str) : (djb2 h x).toNat = (h.toNat * 33 ^ x.length + poly x) % 2 ^ 64 := by
  induction x generalizing h with
  | nil => simp [djb2, poly, Nat.mod_eq_of_lt h.isLt]
  | cons c x ih =>
    rw [djb2, ih, step_toNat]
    refine (((Nat.mod_modEq _ _).mul_right _).add_right _).trans ?_
    rw [poly, List.length_cons]
    have : h.toNat * 33 ^ (x.length + 1) + (c.toNat * 33 ^ x.length + poly x) = (h.toNat * 33 + c.toNat) * 33 ^ x.length + poly x := by ring
    rw [this]

/-- Going on in the same way keeps hashes apart. -/
theorem djb2_inj {h h' : ULong} {x : Str} (he : djb2 h x = djb2 h' x) : h = h' := by
  have := congrArg BitVec.toNat he
  rw [djb2_toNat, djb2_toNat] at this
  have h1 : h.toNat * 33 ^ x.length ≡ h'.toNat * 33 ^ x.length [MOD 2 ^ 64] := Nat.ModEq.add_right_cancel' _ this
  have h2 : Nat.Coprime (2 ^ 64) (33 ^ x.length) := Nat.Coprime.pow _ _ (by decide)
  have h3 : h.toNat ≡ h'.toNat [MOD 2 ^ 64] := Nat.ModEq.cancel_right_of_coprime h2 h1
  exact BitVec.eq_of_toNat_eq (h3.eq_of_lt_of_lt h.isLt h'.isLt)

/-- The hash modulo 32 is a sum of the characters. -/
theorem djb2_mod (h : ULong) (x : Str) : (djb2 h x).toNat % 32 = (h.toNat + (x.map BitVec.toNat).sum) % 32 := by
  induction x generalizing h with
  | nil => rfl
  | cons c x ih =>
    rw [djb2, ih, Nat.add_mod, step_toNat, List.map_cons, List.sum_cons]
    omega

/-- The string as a number in base 33, counted from `b`. -/
def poly' (b : Nat) : Str → Nat
  | [] => 0
  | c :: x => (c.toNat - b) * 33 ^ x.length + poly' b x

theorem poly'_lt {b : Nat} {x : Str} (hx : ∀ c ∈ x, b ≤ c.toNat ∧ c.toNat < b + 33) : poly' b x < 33 ^ x.length := by
  induction x with
  | nil => simp [poly']
  | cons c x ih =>
    have h1 := hx c (by simp)
    have h2 := ih fun d hd => hx d (by simp [hd])
    have h3 : (c.toNat - b) * 33 ^ x.length ≤ 32 * 33 ^ x.length := Nat.mul_le_mul_right _ (by omega)
    rw [poly', List.length_cons, Nat.pow_succ]
    omega

theorem poly_eq {b : Nat} {x : Str} (hx : ∀ c ∈ x, b ≤ c.toNat ∧ c.toNat < b + 33) :
    poly x = poly' b x + b * ((List.range x.length).map fun k => 33 ^ k).sum := by
  induction x with
  | nil => simp [poly, poly']
  | cons c x ih =>
    have h1 := hx c (by simp)
    have h2 := ih fun d hd => hx d (by simp [hd])
    obtain ⟨e, he⟩ := Nat.exists_eq_add_of_le h1.1
    rw [poly, poly', h2, List.length_cons, List.range_succ, List.map_append, List.sum_append, he]
    simp only [List.map_cons, List.map_nil, List.sum_cons, List.sum_nil, Nat.add_sub_cancel_left]
    ring

theorem poly'_inj {b : Nat} {x y : Str} (hl : x.length = y.length) (hx : ∀ c ∈ x, b ≤ c.toNat ∧ c.toNat < b + 33)
    (hy : ∀ c ∈ y, b ≤ c.toNat ∧ c.toNat < b + 33) (h : poly' b x = poly' b y) : x = y := by
  induction x generalizing y with
  | nil =>
    cases y with
    | nil => rfl
    | cons d y => simp at hl
  | cons c x ih =>
    cases y with
    | nil => simp at hl
    | cons d y =>
      simp only [List.length_cons, Nat.add_right_cancel_iff] at hl
      have hx' : ∀ c ∈ x, b ≤ c.toNat ∧ c.toNat < b + 33 := fun e he => hx e (by simp [he])
      have hy' : ∀ c ∈ y, b ≤ c.toNat ∧ c.toNat < b + 33 := fun e he => hy e (by simp [he])
      have l1 := poly'_lt hx'
      have l2 := poly'_lt hy'
      have c1 := hx c (by simp)
      have d1 := hy d (by simp)
      rw [poly', poly', hl] at h
      rw [hl] at l1
      have key : c.toNat - b = d.toNat - b := by
        have := congrArg (· / 33 ^ y.length) h
        rw [Nat.add_comm, Nat.add_mul_div_right _ _ (by positivity), Nat.add_comm _ (poly' b y),
          Nat.add_mul_div_right _ _ (by positivity), Nat.div_eq_of_lt l1, Nat.div_eq_of_lt l2] at this
        omega
      rw [key] at h
      have hcd : c = d := BitVec.eq_of_toNat_eq (by omega)
      rw [hcd, ih hl hx' hy' (by omega)]

/-- Strings of one length up to twelve, of characters within 33 of each other, have different hashes. -/
theorem djb2_apart {b : Nat} {h : ULong} {x y : Str} (hl : x.length = y.length) (h12 : x.length ≤ 12)
    (hx : ∀ c ∈ x, b ≤ c.toNat ∧ c.toNat < b + 33) (hy : ∀ c ∈ y, b ≤ c.toNat ∧ c.toNat < b + 33) (he : djb2 h x = djb2 h y) : x = y := by
  have := congrArg BitVec.toNat he
  rw [djb2_toNat, djb2_toNat, hl, poly_eq hx, poly_eq hy, hl] at this
  have h1 : poly' b x ≡ poly' b y [MOD 2 ^ 64] := by
    have h2 : poly' b x + b * ((List.range y.length).map fun k => 33 ^ k).sum ≡
        poly' b y + b * ((List.range y.length).map fun k => 33 ^ k).sum [MOD 2 ^ 64] := Nat.ModEq.add_left_cancel' _ this
    exact Nat.ModEq.add_right_cancel' _ h2
  have hlt : ∀ z : Str, z.length ≤ 12 → (∀ c ∈ z, b ≤ c.toNat ∧ c.toNat < b + 33) → poly' b z < 2 ^ 64 := by
    intro z hz hc
    have h1 := poly'_lt hc
    have h2 : 33 ^ z.length ≤ 33 ^ 12 := Nat.pow_le_pow_right (by decide) hz
    have h3 : (33 : Nat) ^ 12 < 2 ^ 64 := by decide
    omega
  exact poly'_inj hl hx hy (h1.eq_of_lt_of_lt (hlt x h12 hx) (hlt y (hl ▸ h12) hy))

/-! ## Numbers as labels -/

theorem digits_nat (n : Nat) : digits n = BitVec.ofNat 8 (48 + n % 10) :: if n / 10 = 0 then [] else digits (n / 10 : Nat) := by
  rw [digits]
  have h1 : (n : Int).tmod 10 = ((n % 10 : Nat) : Int) := by rw [Int.tmod_eq_emod_of_nonneg (by omega)]; simp
  have h2 : (n : Int).tdiv 10 = ((n / 10 : Nat) : Int) := by rw [Int.tdiv_eq_ediv_of_nonneg (by omega)]; simp
  rw [h1]
  congr 1
  by_cases h : n / 10 = 0
  · rw [dif_pos (by rw [h2, h]; rfl), if_pos h]
  · rw [dif_neg (by rw [h2]; exact_mod_cast h), if_neg h, h2]

theorem digits_range (n : Nat) : ∀ c ∈ digits n, 48 ≤ c.toNat ∧ c.toNat < 48 + 10 := by
  induction n using Nat.strong_induction_on with
  | _ n ih =>
    intro c hc
    rw [digits_nat] at hc
    rcases List.mem_cons.1 hc with rfl | hc
    · have := Nat.mod_lt n (show 10 > 0 by decide)
      rw [BitVec.toNat_ofNat]
      omega
    · split_ifs at hc with h
      · simp at hc
      · exact ih (n / 10) (by omega) c hc

theorem digits_inj {n k : Nat} (h : digits n = digits k) : n = k := by
  induction n using Nat.strong_induction_on generalizing k with
  | _ n ih =>
    rw [digits_nat n, digits_nat k] at h
    obtain ⟨h1, h2⟩ := List.cons.inj h
    have h1 := congrArg BitVec.toNat h1
    rw [BitVec.toNat_ofNat, BitVec.toNat_ofNat] at h1
    split_ifs at h2 with ha hb hb
    · omega
    · rw [digits_nat] at h2; cases h2
    · rw [digits_nat] at h2; cases h2
    · have := ih (n / 10) (by omega) h2
      omega

theorem digits_length {n k : Nat} (hk : 0 < k) (h : n < 10 ^ k) : (digits n).length ≤ k := by
  induction k generalizing n with
  | zero => omega
  | succ k ih =>
    rw [digits_nat]
    split_ifs with hn
    · simp
    · rw [Nat.pow_succ] at h
      have : 0 < k := by
        rcases Nat.eq_zero_or_pos k with rfl | h'
        · omega
        · exact h'
      have := ih (n := n / 10) this (by omega)
      simp only [List.length_cons]
      omega

end Xrtm.SaveTree
