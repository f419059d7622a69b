import Verif.Spec.Boundary
import Mathlib.Tactic.Ring
import Mathlib.Tactic.Linarith

/-!
# The loops of the boundary input, element by element
-/

namespace Xrtm.Boundary

open Loops Spec

variable {K : Type*} [Field K]

theorem bump_bump (A : Nat → K) (i : Nat) (x y : K) :
    bump (bump A i x) i y = bump A i (x + y) := by
  funext j
  by_cases h : j = i
  · subst h; simp [add_assoc]
  · simp [bump_other _ _ h]

/-- Every `st`-th element increased. -/
theorem strided (n st : Nat) (g : Nat → K) (A : Nat → K) (o d s : Nat) (hs : s < st) :
    forN n (fun i A => bump A ((o + i) * st) (g i)) A ((o + d) * st + s)
      = A ((o + d) * st + s) + if s = 0 ∧ d < n then g d else 0 := by
  have hst : 0 < st := by omega
  have hinj : Function.Injective fun i : Nat => (o + i) * st := by
    intro i j h
    have h' : (o + i) * st = (o + j) * st := h
    have := Nat.eq_of_mul_eq_mul_right hst h'
    omega
  by_cases h : s = 0 ∧ d < n
  · obtain ⟨rfl, hd⟩ := h
    rw [if_pos ⟨rfl, hd⟩, Nat.add_zero]
    exact forN_bump_hit n _ g A hinj hd
  · rw [if_neg h, add_zero]
    refine forN_bump_miss n _ g A _ ?_
    intro i hi e
    have h1 : ((o + d) * st + s) % st = s := by
      rw [Nat.mul_comm, Nat.mul_add_mod, Nat.mod_eq_of_lt hs]
    have h2 : ((o + i) * st) % st = 0 := Nat.mul_mod_left _ _
    rw [e, h2] at h1
    subst h1
    have := Nat.eq_of_mul_eq_mul_right hst (by simpa using e)
    exact h ⟨rfl, by omega⟩

theorem strided0 (n st : Nat) (g : Nat → K) (A : Nat → K) (d s : Nat) (hs : s < st) :
    forN n (fun i A => bump A (i * st) (g i)) A (d * st + s)
      = A (d * st + s) + if s = 0 ∧ d < n then g d else 0 := by
  have := strided n st g A 0 d s hs
  simpa using this

/-- The same past an offset, seen from a direction that lies before it. -/
theorem strided_before (n st : Nat) (g : Nat → K) (A : Nat → K) (o d s : Nat) (hs : s < st)
    (hd : d < o) :
    forN n (fun i A => bump A ((o + i) * st) (g i)) A (d * st + s) = A (d * st + s) := by
  refine forN_bump_miss n _ g A _ ?_
  intro i _ e
  have h1 : (d + 1) * st ≤ (o + i) * st := Nat.mul_le_mul_right _ (by omega)
  rw [Nat.add_mul] at h1
  omega

/-- Consecutive elements increased. -/
theorem consecutive (n o : Nat) (g : Nat → K) (A : Nat → K) (k : Nat) :
    forN n (fun i A => bump A (o + i) (g i)) A k
      = A k + if o ≤ k ∧ k < o + n then g (k - o) else 0 := by
  by_cases h : o ≤ k ∧ k < o + n
  · rw [if_pos h]
    have := forN_bump_hit n (fun i => o + i) g A (fun i j e => by dsimp only at e; omega)
      (i := k - o) (by omega)
    have e : o + (k - o) = k := by omega
    simpa only [e] using this
  · rw [if_neg h, add_zero]
    exact forN_bump_miss n _ g A k (fun i hi e => h (by omega))

theorem consecutive0 (n : Nat) (g : Nat → K) (A : Nat → K) (k : Nat) :
    forN n (fun i A => bump A i (g i)) A k = A k + if k < n then g k else 0 := by
  have := consecutive n 0 g A k
  simpa using this

theorem rowSum_eq (D : Dims) (row : Nat → K) :
    rowSum D row = ∑ j ∈ Finset.range D.nQuadX, row (j * D.nStokes) := by
  rw [rowSum, forN_sum, zero_add]

theorem index_lt {st n d s : Nat} (hs : s < st) : d * st + s < n * st ↔ d < n := by
  constructor
  · intro h
    by_contra hc
    have : n * st ≤ d * st := Nat.mul_le_mul_right _ (by omega)
    omega
  · intro h
    have : (d + 1) * st ≤ n * st := Nat.mul_le_mul_right _ (by omega)
    rw [Nat.add_mul] at this
    omega

theorem index_sub {st n d s : Nat} (h : n ≤ d) : d * st + s - n * st = (d - n) * st + s := by
  have : n * st ≤ d * st := Nat.mul_le_mul_right _ h
  rw [Nat.sub_mul]
  omega

/-- Quadrature angles, then user angles. -/
theorem two_parts (D : Dims) (gq gu : Nat → K) (A : Nat → K) (d s : Nat) (hs : s < D.nStokes)
    (hd : d < D.nDirs) :
    forN ((D.nDirs - D.nQuadX) * D.nStokes)
        (fun ii A => bump A (D.nQuadX * D.nStokes + ii) (gu ii))
        (forN (D.nQuadX * D.nStokes) (fun i A => bump A i (gq i)) A) (d * D.nStokes + s)
      = A (d * D.nStokes + s)
        + if d < D.nQuadX then gq (d * D.nStokes + s)
          else gu ((d - D.nQuadX) * D.nStokes + s) := by
  rw [consecutive, consecutive0]
  by_cases h : d < D.nQuadX
  · have h1 := (index_lt (n := D.nQuadX) hs).2 h
    rw [if_pos h1, if_neg (by omega), if_pos h, add_zero]
  · have h1 : ¬ d * D.nStokes + s < D.nQuadX * D.nStokes := fun e => h ((index_lt hs).1 e)
    have h2 : d * D.nStokes + s < D.nQuadX * D.nStokes + (D.nDirs - D.nQuadX) * D.nStokes := by
      rw [← Nat.add_mul]
      exact (index_lt hs).2 (by omega)
    rw [if_neg h1, if_pos ⟨by omega, h2⟩, if_neg h, add_zero, index_sub (by omega)]

theorem two_strided (D : Dims) (gq gu : Nat → K) (A : Nat → K) (d s : Nat) (hs : s < D.nStokes)
    (hd : d < D.nDirs) :
    forN (D.nDirs - D.nQuadX) (fun i A => bump A ((D.nQuadX + i) * D.nStokes) (gu i))
        (forN D.nQuadX (fun i A => bump A (i * D.nStokes) (gq i)) A) (d * D.nStokes + s)
      = A (d * D.nStokes + s)
        + if s = 0 then (if d < D.nQuadX then gq d else gu (d - D.nQuadX)) else 0 := by
  by_cases h : d < D.nQuadX
  · rw [strided_before _ _ _ _ _ _ _ hs h, strided0 _ _ _ _ _ _ hs]
    by_cases h0 : s = 0 <;> simp [h0, h]
  · obtain ⟨k, rfl⟩ : ∃ k, d = D.nQuadX + k := ⟨d - D.nQuadX, by omega⟩
    rw [strided _ _ _ _ _ _ _ hs, strided0 _ _ _ _ _ _ hs]
    have hk : k < D.nDirs - D.nQuadX := by omega
    by_cases h0 : s = 0 <;> simp [h0, hk]

theorem lit_iff (D : Dims) : (D.solar && D.solarSurface) = true ↔ Lit D := by
  unfold Lit Dims.solarSurface
  simp [Bool.and_eq_true, Bool.or_eq_true, decide_eq_true_eq, beq_iff_eq]

theorem warm_iff (D : Dims) : (D.thermal && D.thermalSurface) = true ↔ Warm D := by
  unfold Warm Dims.thermalSurface
  simp [Bool.and_eq_true, decide_eq_true_eq, beq_iff_eq]

section pieces
variable (D : Dims) (v : Vals K) (l : Nat → Lins K) (o : Out K) (d s : Nat)
  (hs : s < D.nStokes) (hd : d < D.nDirs)
include hs hd

theorem iso_inP : (iso D v l o).inP (d * D.nStokes + s)
    = o.inP (d * D.nStokes + s) + if D.iFour = 0 ∧ s = 0 then v.isoBot else 0 := by
  unfold iso
  split <;> rename_i h
  · dsimp only
    rw [strided0 _ _ (fun _ => v.isoBot) _ _ _ hs]
    simp [h, hd]
  · simp [h]

theorem iso_i1M : (iso D v l o).i1M (d * D.nStokes + s)
    = o.i1M (d * D.nStokes + s) + if D.iFour = 0 ∧ s = 0 then v.isoTop else 0 := by
  unfold iso
  split <;> rename_i h
  · dsimp only
    rw [strided0 _ _ (fun _ => v.isoTop) _ _ _ hs]
    simp [h, hd]
  · simp [h]

theorem iso_inPl (i : Nat) (hi : i < D.nDerivs) : (iso D v l o).inPl i (d * D.nStokes + s)
    = o.inPl i (d * D.nStokes + s) + if D.iFour = 0 ∧ s = 0 then (l i).isoBot else 0 := by
  unfold iso
  split <;> rename_i h
  · dsimp only
    rw [if_pos hi, strided0 _ _ (fun _ => (l i).isoBot) _ _ _ hs]
    simp [h, hd]
  · simp [h]

theorem iso_i1Ml (i : Nat) (hi : i < D.nDerivs) : (iso D v l o).i1Ml i (d * D.nStokes + s)
    = o.i1Ml i (d * D.nStokes + s) + if D.iFour = 0 ∧ s = 0 then (l i).isoTop else 0 := by
  unfold iso
  split <;> rename_i h
  · dsimp only
    rw [if_pos hi, strided0 _ _ (fun _ => (l i).isoTop) _ _ _ hs]
    simp [h, hd]
  · simp [h]

theorem solar_inP : (solarPart D v l o).inP (d * D.nStokes + s)
    = o.inP (d * D.nStokes + s)
      + if Lit D then v.qf * v.mu0 * v.F0 / v.pi * v.btran * direct D v d s else 0 := by
  unfold solarPart
  split <;> rename_i h
  · rw [if_pos ((lit_iff D).1 h)]
    dsimp only
    rw [two_parts D (fun i => v.qf * v.mu0 * v.F0 / v.pi * v.btran * v.rsQ0 i)
      (fun i => v.qf * v.mu0 * v.F0 / v.pi * v.btran * v.rsU0 i) _ _ _ hs hd]
    unfold direct
    split <;> rfl
  · rw [if_neg (fun e => h ((lit_iff D).2 e)), add_zero]

theorem solarL_at (a b : K) (l : Lins K) (A : Nat → K) :
    solarL D v a b l A (d * D.nStokes + s) = A (d * D.nStokes + s)
      + (a * l.btran * direct D v d s + b * (if l.layer then
          (if d < D.nQuadX then l.rsQ0 (d * D.nStokes + s)
            else l.rsU0 ((d - D.nQuadX) * D.nStokes + s)) else 0)) := by
  unfold solarL direct
  by_cases h : l.layer = true
  · simp only [h, if_true, bump_bump]
    rw [two_parts D (fun j => a * l.btran * v.rsQ0 j + b * l.rsQ0 j)
      (fun j => a * l.btran * v.rsU0 j + b * l.rsU0 j) _ _ _ hs hd]
    split <;> rfl
  · simp only [h, Bool.false_eq_true, if_false]
    rw [two_parts D (fun j => a * l.btran * v.rsQ0 j)
      (fun j => a * l.btran * v.rsU0 j) _ _ _ hs hd]
    split <;> simp

theorem solar_inPl (i : Nat) (hi : i < D.nDerivs) :
    (solarPart D v l o).inPl i (d * D.nStokes + s)
    = o.inPl i (d * D.nStokes + s)
      + if Lit D then v.qf * v.mu0 * v.F0 / v.pi * (l i).btran * direct D v d s
          + v.qf * v.mu0 * v.F0 / v.pi * v.btran * (if (l i).layer then
            (if d < D.nQuadX then (l i).rsQ0 (d * D.nStokes + s)
              else (l i).rsU0 ((d - D.nQuadX) * D.nStokes + s)) else 0) else 0 := by
  unfold solarPart
  split <;> rename_i h
  · rw [if_pos ((lit_iff D).1 h)]
    dsimp only
    rw [if_pos hi, solarL_at D v d s hs hd]
  · rw [if_neg (fun e => h ((lit_iff D).2 e)), add_zero]

end pieces

theorem emitQ_fst (D : Dims) (v : Vals K) (s : (Nat → K) × K) :
    (emitQ D v s).1 = forN D.nQuadX (fun i A => bump A (i * D.nStokes)
      (v.surfaceB * (1 - rowSum D (v.rsQq (i * D.nStokes))))) s.1 := by
  unfold emitQ
  exact forN_fst D.nQuadX (fun i A => bump A (i * D.nStokes)
      (v.surfaceB * (1 - rowSum D (v.rsQq (i * D.nStokes)))))
    (fun i _ _ => rowSum D (v.rsQq (i * D.nStokes))) s.1 s.2

theorem emitU_fst (D : Dims) (v : Vals K) (s : (Nat → K) × K × Bool) :
    (emitU D v s).1 = forN (D.nDirs - D.nQuadX)
      (fun i A => bump A ((D.nQuadX + i) * D.nStokes)
        (v.surfaceB * (1 - rowSum D (v.rsUq (i * D.nStokes))))) s.1 := by
  unfold emitU
  exact forN_fst (D.nDirs - D.nQuadX) (fun i A => bump A ((D.nQuadX + i) * D.nStokes)
        (v.surfaceB * (1 - rowSum D (v.rsUq (i * D.nStokes)))))
    (fun i _ _ => (rowSum D (v.rsUq (i * D.nStokes)), true)) s.1 s.2

/-- `a` holds the sum of the last row of quadrature directions. -/
theorem emitQ_snd (D : Dims) (v : Vals K) (s : (Nat → K) × K) (h : 0 < D.nQuadX) :
    (emitQ D v s).2 = rowSum D (v.rsQq ((D.nQuadX - 1) * D.nStokes)) := by
  obtain ⟨n, hn⟩ : ∃ n, D.nQuadX = n + 1 := ⟨D.nQuadX - 1, by omega⟩
  unfold emitQ
  rw [hn, forN_succ]
  simp

/-- `b` holds the sum of the last row of user angles, if there are any. -/
theorem emitU_snd (D : Dims) (v : Vals K) (s : (Nat → K) × K × Bool)
    (h : D.nQuadX < D.nDirs) :
    (emitU D v s).2 = (rowSum D (v.rsUq ((D.nDirs - D.nQuadX - 1) * D.nStokes)), true) := by
  obtain ⟨n, hn⟩ : ∃ n, D.nDirs - D.nQuadX = n + 1 := ⟨D.nDirs - D.nQuadX - 1, by omega⟩
  unfold emitU
  rw [hn, forN_succ]
  simp

theorem emitU_none (D : Dims) (v : Vals K) (s : (Nat → K) × K × Bool)
    (h : ¬ D.nQuadX < D.nDirs) : emitU D v s = s := by
  unfold emitU
  rw [show D.nDirs - D.nQuadX = 0 by omega]
  rfl

section thermal
variable (D : Dims) (v : Vals K) (l : Nat → Lins K) (o : Out K) (d s : Nat)
  (hs : s < D.nStokes) (hd : d < D.nDirs)
include hs hd

theorem thermal_inP : (thermalPart D v l o).inP (d * D.nStokes + s)
    = o.inP (d * D.nStokes + s)
      + if Warm D ∧ s = 0 then v.surfaceB * (1 - albedo D v d) else 0 := by
  unfold thermalPart
  split <;> rename_i h
  · have hw := (warm_iff D).1 h
    dsimp only
    rw [emitU_fst, emitQ_fst, two_strided D
      (fun i => v.surfaceB * (1 - rowSum D (v.rsQq (i * D.nStokes))))
      (fun i => v.surfaceB * (1 - rowSum D (v.rsUq (i * D.nStokes)))) _ _ _ hs hd]
    simp only [rowSum_eq, albedo, diffuse]
    by_cases h0 : s = 0
    · have hw0 : Warm D ∧ s = 0 := ⟨hw, h0⟩
      rw [if_pos h0, if_pos hw0]
      by_cases hq : d < D.nQuadX
      · simp only [if_pos hq]
      · simp only [if_neg hq]
    · rw [if_neg h0, if_neg (fun e => h0 e.2)]
  · rw [if_neg (fun e => h ((warm_iff D).2 e.1)), add_zero]

/-- The row whose sum stands for all rows in the linearised emission. -/
def lastRow (D : Dims) (d : Nat) : Nat :=
  if d < D.nQuadX then D.nQuadX - 1 else D.nDirs - 1

theorem thermal_inPl (i : Nat) (hi : i < D.nDerivs) :
    (thermalPart D v l o).inPl i (d * D.nStokes + s)
    = o.inPl i (d * D.nStokes + s)
      + if Warm D ∧ s = 0 then (l i).surfaceB * (1 - albedo D v (lastRow D d))
          + v.surfaceB * -(if (l i).layer then ∑ j ∈ Finset.range D.nQuadX,
            (if d < D.nQuadX then (l i).rsQq (d * D.nStokes) (j * D.nStokes)
              else (l i).rsUq ((d - D.nQuadX) * D.nStokes) (j * D.nStokes)) else 0)
        else 0 := by
  unfold thermalPart
  split <;> rename_i h
  · have hw := (warm_iff D).1 h
    dsimp only
    rw [if_pos hi]
    unfold emitL
    dsimp only
    rw [two_strided D _ _ _ _ _ hs hd]
    by_cases h0 : s = 0
    · have hw0 : Warm D ∧ s = 0 := ⟨hw, h0⟩
      rw [if_pos h0, if_pos hw0]
      by_cases hq : d < D.nQuadX
      · have hn : 0 < D.nQuadX := by omega
        have hl : lastRow D d = D.nQuadX - 1 := if_pos hq
        rw [if_pos hq, emitQ_snd D v _ hn, hl]
        simp only [rowSum_eq, albedo, diffuse, if_pos hq]
        simp only [if_pos (show D.nQuadX - 1 < D.nQuadX by omega)]
      · have hn : D.nQuadX < D.nDirs := by omega
        have hl : lastRow D d = D.nDirs - 1 := if_neg hq
        rw [if_neg hq, emitU_snd D v _ hn, hl]
        simp only [rowSum_eq, albedo, diffuse, if_neg hq]
        simp only [if_neg (show ¬ D.nDirs - 1 < D.nQuadX by omega),
          show D.nDirs - 1 - D.nQuadX = D.nDirs - D.nQuadX - 1 by omega]
    · rw [if_neg h0, if_neg (fun e => h0 e.2)]
  · rw [if_neg (fun e => h ((warm_iff D).2 e.1)), add_zero]

omit hs hd in
theorem parts_i1M : (thermalPart D v l (solarPart D v l o)).i1M = o.i1M ∧
    (thermalPart D v l (solarPart D v l o)).i1Ml = o.i1Ml := by
  unfold thermalPart solarPart
  constructor <;> (split <;> split <;> rfl)

end thermal

theorem update_inP (D : Dims) (v : Vals K) (l : Nat → Lins K) (ga gb : K) (d s : Nat)
    (hs : s < D.nStokes) (hd : d < D.nDirs) :
    (update D v l ga gb).inP (d * D.nStokes + s) = up D v d s := by
  unfold update
  rw [thermal_inP D v l _ d s hs hd, solar_inP D v l _ d s hs hd, iso_inP D v l _ d s hs hd]
  simp only [start, zero_add]
  rfl

end Xrtm.Boundary
