import Verif.Model.MemBvp
import Verif.Proof.BvpRows

/-! The rows of the linear system of the matrix exponential solver. -/

namespace Xrtm.MemBvp
open Matrix Xrtm.Loops Xrtm.Eig Xrtm.Bvp

variable {n : Nat} {K : Type} [RCLike K] (ex : K → K) (z : Inp n K) (v : Inv n K)

theorem nComp_eq : nComp z = (2 * (z.L + 1)) * n := by unfold nComp; ring

/-- All that is written to the band array is inside of it. -/
theorem system_ok : (system ex z v).ok = true := by
  have go : ∀ i1 j1 (f : Fin n → Fin n → K) (b : Band K), b.ok = true → j1 < 2 * (z.L + 1) → i1 ≤ j1 + 2 →
      j1 ≤ i1 + 2 → (insertG (nComp z) (mComp n) (nDiags n) i1 j1 f b).ok = true := fun i1 j1 f b hb h0 h1 h2 =>
    insertG_ok f b hb rfl rfl (nComp_eq z) h0 h1 h2
  unfold system
  simp only [insert1_eq]
  refine forN_ind_lt z.L (fun _ (b : Band K) => b.ok = true) _ _ ?_ ?_
  · split_ifs
    · exact go _ _ _ _ (go _ _ _ _ (go _ _ _ _ rfl (by omega) (by omega) (by omega)) (by omega) (by omega) (by omega))
        (by omega) (by omega) (by omega)
    · exact go _ _ _ _ (go _ _ _ _ rfl (by omega) (by omega) (by omega)) (by omega) (by omega) (by omega)
  · intro i b hi hb
    unfold layerRows
    simp only [insert1_eq]
    iterate 8 refine go _ _ _ _ ?_ (by omega) (by omega) (by omega)
    exact hb

theorem layerRows_blk (i I J : Nat) (b : Band K) (j k : Fin n) :
    blk (nDiags n) (layerRows ex z v i b) I J j k =
      if I = 1 + 2 * i + 1 ∧ J = 2 * i + 2 then 1 * (alpha ex z i j * x12 v i j k) else
      if I = 1 + 2 * i ∧ J = 2 * i + 1 then 1 * (alpha ex z i j * x12 v i j k) else
      if I = 1 + 2 * i ∧ J = 2 * i + 3 then -1 * x12 v i j k else
      if I = 1 + 2 * i + 1 ∧ J = 2 * i then -1 * x12 v i j k else
      if I = 1 + 2 * i + 1 ∧ J = 2 * i + 3 then 1 * (alpha ex z i j * x11 v i j k) else
      if I = 1 + 2 * i ∧ J = 2 * i then 1 * (alpha ex z i j * x11 v i j k) else
      if I = 1 + 2 * i ∧ J = 2 * i + 2 then -1 * x11 v i j k else
      if I = 1 + 2 * i + 1 ∧ J = 2 * i + 1 then -1 * x11 v i j k else
      blk (nDiags n) b I J j k := by
  unfold layerRows
  simp only [insert1_eq, insertG_blk, of_apply]

/-- The block rows of the system. -/
def tab (I J : Nat) (j k : Fin n) : K :=
  if I = 2 * z.L + 1 then
    if J = 2 * z.L + 1 then (if z.surface then -(z.Rs j k : K) else 0)
    else if J = 2 * z.L then (1 : Matrix (Fin n) (Fin n) K) j k else 0
  else if I = 0 then
    if J = 1 then (1 : Matrix (Fin n) (Fin n) K) j k else 0
  else if I % 2 = 1 then
    let i := I / 2
    if J = 2 * i + 3 then -x12 v i j k else
    if J = 2 * i + 2 then -x11 v i j k else
    if J = 2 * i + 1 then alpha ex z i j * x12 v i j k else
    if J = 2 * i then alpha ex z i j * x11 v i j k else 0
  else
    let i := I / 2 - 1
    if J = 2 * i + 3 then alpha ex z i j * x11 v i j k else
    if J = 2 * i + 2 then alpha ex z i j * x12 v i j k else
    if J = 2 * i + 1 then -x11 v i j k else
    if J = 2 * i then -x12 v i j k else 0

theorem system_blk (I J : Nat) (hI : I < 2 * (z.L + 1)) (j k : Fin n) :
    blk (nDiags n) (system ex z v) I J j k = tab ex z v I J j k := by
  unfold system
  simp only [insert1_eq]
  have keep : ∀ i0, (I = 1 + 2 * i0 ∨ I = 2 + 2 * i0) → ∀ i b, i < z.L → i ≠ i0 →
      blk (nDiags n) (layerRows ex z v i b) I J j k = blk (nDiags n) b I J j k := by
    intro i0 h i b hi hne
    simp only [layerRows_blk]
    rw [if_neg (by omega), if_neg (by omega), if_neg (by omega), if_neg (by omega),
      if_neg (by omega), if_neg (by omega), if_neg (by omega), if_neg (by omega)]
  have ends : I = 0 ∨ I = 2 * z.L + 1 → ∀ i b, i < z.L →
      blk (nDiags n) (layerRows ex z v i b) I J j k = blk (nDiags n) b I J j k := by
    intro h i b hi
    simp only [layerRows_blk]
    rw [if_neg (by omega), if_neg (by omega), if_neg (by omega), if_neg (by omega),
      if_neg (by omega), if_neg (by omega), if_neg (by omega), if_neg (by omega)]
  unfold tab
  by_cases h1 : I = 2 * z.L + 1
  · rw [if_pos h1, forN_miss (fun b => blk (nDiags n) b I J j k) _ _ (ends (Or.inr h1))]
    subst h1
    by_cases hs : z.surface = true
    · simp only [hs, if_true, insertG_blk, true_and, one_mul, neg_mul, of_apply]
      split_ifs with h2 h3 h4 <;> first | rfl | exact absurd ‹_ ∧ _›.1 (by simp)
    · simp only [hs, if_false, insertG_blk, true_and, one_mul, Bool.false_eq_true]
      by_cases h2 : J = 2 * z.L + 1
      · rw [if_neg (by omega), if_neg (by omega), if_pos h2]; rfl
      · rw [if_neg h2]
        split_ifs with h3 h4 <;> first | rfl | exact absurd ‹_ ∧ _›.1 (by simp)
  · rw [if_neg h1]
    by_cases h0 : I = 0
    · rw [if_pos h0, forN_miss (fun b => blk (nDiags n) b I J j k) _ _ (ends (Or.inl h0))]
      subst h0
      have h' : ¬ (0 = 2 * z.L + 1) := by omega
      split_ifs with hs h2 h2 <;>
        simp only [insertG_blk, true_and, one_mul, h', false_and, if_false, h2, if_true] <;> rfl
    · rw [if_neg h0]
      have base : blk (nDiags n) (if z.surface then insertG (nComp z) (mComp n) (nDiags n) (2 * z.L + 1) (2 * z.L + 1)
          (fun i j => -1 * (Matrix.of (fun i j => (z.Rs i j : K)) : Matrix (Fin n) (Fin n) K) i j)
          (insertG (nComp z) (mComp n) (nDiags n) (2 * z.L + 1) (2 * z.L)
            (fun i j => 1 * (1 : Matrix (Fin n) (Fin n) K) i j)
            (insertG (nComp z) (mComp n) (nDiags n) 0 1 (fun i j => 1 * (1 : Matrix (Fin n) (Fin n) K) i j)
              ⟨fun _ _ => 0, true⟩))
          else insertG (nComp z) (mComp n) (nDiags n) (2 * z.L + 1) (2 * z.L)
            (fun i j => 1 * (1 : Matrix (Fin n) (Fin n) K) i j)
            (insertG (nComp z) (mComp n) (nDiags n) 0 1 (fun i j => 1 * (1 : Matrix (Fin n) (Fin n) K) i j)
              ⟨fun _ _ => 0, true⟩)) I J j k = 0 := by
        split_ifs <;> simp only [insertG_blk, h1, h0, false_and, if_false] <;> rfl
      by_cases hodd : I % 2 = 1
      · rw [if_pos hodd]
        obtain ⟨i, rfl⟩ : ∃ i, I = 1 + 2 * i := ⟨I / 2, by omega⟩
        have hi2 : (1 + 2 * i) / 2 = i := by omega
        simp only [hi2]
        rw [forN_hit (fun b => blk (nDiags n) b (1 + 2 * i) J j k) (fun w =>
          if J = 2 * i + 3 then -x12 v i j k else
          if J = 2 * i + 2 then -x11 v i j k else
          if J = 2 * i + 1 then alpha ex z i j * x12 v i j k else
          if J = 2 * i then alpha ex z i j * x11 v i j k else w) _ _ i (by omega) ?_
          (keep i (Or.inl rfl)), base]
        intro b
        simp only [layerRows_blk]
        have : ¬ (1 + 2 * i = 1 + 2 * i + 1) := by omega
        simp only [this, false_and, if_false, true_and, one_mul, neg_mul]
        split_ifs <;> first | rfl | omega
      · rw [if_neg hodd]
        obtain ⟨i, rfl⟩ : ∃ i, I = 2 + 2 * i := ⟨I / 2 - 1, by omega⟩
        have hi2 : (2 + 2 * i) / 2 - 1 = i := by omega
        simp only [hi2]
        rw [forN_hit (fun b => blk (nDiags n) b (2 + 2 * i) J j k) (fun w =>
          if J = 2 * i + 3 then alpha ex z i j * x11 v i j k else
          if J = 2 * i + 2 then alpha ex z i j * x12 v i j k else
          if J = 2 * i + 1 then -x11 v i j k else
          if J = 2 * i then -x12 v i j k else w) _ _ i (by omega) ?_
          (keep i (Or.inr rfl)), base]
        intro b
        simp only [layerRows_blk]
        have h1 : ¬ (2 + 2 * i = 1 + 2 * i) := by omega
        have h2 : 2 + 2 * i = 1 + 2 * i + 1 := by omega
        simp only [h1, ← h2, false_and, if_false, true_and, one_mul, neg_mul]
        split_ifs <;> first | rfl | omega

theorem tab_far (I J : Nat) (hI : I < 2 * (z.L + 1)) (h : I + 2 < J ∨ J + 2 < I) (j k : Fin n) :
    tab ex z v I J j k = 0 := by
  unfold tab
  dsimp only
  split_ifs <;> first | rfl | omega

/-- A row of the matrix times a vector. -/
theorem system_row (B : Nat → K) (I : Nat) (hI : I < 2 * (z.L + 1)) (j : Fin n)
    (hr : I * n + j.val < nComp z) :
    ((system ex z v).read (nDiags n) (nComp z) *ᵥ fun c => B c.val) ⟨I * n + j, hr⟩ =
      ∑ J ∈ Finset.range (2 * (z.L + 1)), ∑ k : Fin n, tab ex z v I J j k * B (J * n + k) := by
  have e : ((system ex z v).read (nDiags n) (nComp z) *ᵥ fun c => B c.val) ⟨I * n + j, hr⟩ =
      ∑ c ∈ Finset.range (nComp z), (if ((I * n + j.val : Nat) : Int) - (c : Nat) ≤ (nDiags n : Nat) ∧
        ((c : Nat) : Int) - ((I * n + j.val : Nat) : Int) ≤ (nDiags n : Nat) then
        (system ex z v).A c (nDiags n + nDiags n + ((I * n + j.val : Nat) : Int) - ((c : Nat) : Int)) else 0) * B c := by
    rw [Finset.sum_range]
    rfl
  rw [e, nComp_eq, sum_blocks]
  refine Finset.sum_congr rfl fun J hJ => Finset.sum_congr rfl fun k _ => ?_
  rw [Finset.mem_range] at hJ
  congr 1
  have hb := system_blk ex z v I J hI j k
  rw [← hb]
  unfold blk at hb ⊢
  split_ifs with hc
  · rfl
  · rw [hb]
    refine (tab_far ex z v I J hI ?_ j k).symm
    by_contra hn
    apply hc
    have h1 : I ≤ J + 2 := by omega
    have h2 : J ≤ I + 2 := by omega
    have a2 : I * n ≤ J * n + 2 * n := by
      calc I * n ≤ (J + 2) * n := Nat.mul_le_mul_right n h1
        _ = J * n + 2 * n := by ring
    have a3 : J * n ≤ I * n + 2 * n := by
      calc J * n ≤ (I + 2) * n := Nat.mul_le_mul_right n h2
        _ = I * n + 2 * n := by ring
    have hj := j.isLt
    have hk := k.isLt
    unfold nDiags
    push_cast
    constructor <;> omega

/-! ### The unknowns -/

theorem at_up (B : Nat → K) (i : Nat) (k : Fin n) : B (2 * i * n + k.val) = (at_ (n := n) B i).1 k := by
  unfold at_; dsimp only; congr 1; ring
theorem at_dn (B : Nat → K) (i : Nat) (k : Fin n) : B ((2 * i + 1) * n + k.val) = (at_ (n := n) B i).2 k := by
  unfold at_; dsimp only; congr 1; ring

/-- A row of the matrix times the unknowns. -/
def rowOf (B : Nat → K) (I : Nat) (j : Fin n) : K :=
  ∑ J ∈ Finset.range (2 * (z.L + 1)), ∑ k : Fin n, tab ex z v I J j k * B (J * n + k)

/-- What goes into a layer with the modes that decay downwards (at a level), and with
those that decay upwards. -/
def lo (p m : Fin n → K) (i : Nat) : Fin n → K := x11 v i *ᵥ p + x12 v i *ᵥ m
def hi (p m : Fin n → K) (i : Nat) : Fin n → K := x12 v i *ᵥ p + x11 v i *ᵥ m

/-- The light a surface reflects. -/
def refl (g : Fin n → K) (j : Fin n) : K := if z.surface then ∑ l, (z.Rs j l : K) * g l else 0

theorem rowOf_top (B : Nat → K) (j : Fin n) : rowOf ex z v B 0 j = (at_ (n := n) B 0).2 j := by
  unfold rowOf
  rw [sum_two (a := 0) (by omega)]
  · have e2 := fun k => at_dn B 0 (n := n) k
    simp only [Nat.mul_zero, Nat.zero_add, Nat.one_mul] at e2
    have t0 : ∀ k, tab ex z v 0 0 j k = 0 := fun k => by
      unfold tab; rw [if_neg (by omega), if_pos rfl, if_neg (by omega)]
    have t1 : ∀ k, tab ex z v 0 1 j k = (1 : Matrix (Fin n) (Fin n) K) j k := fun k => by
      unfold tab; rw [if_neg (by omega), if_pos rfl, if_pos rfl]
    simp only [t0, t1, zero_mul, Finset.sum_const_zero, zero_add, Nat.one_mul, e2]
    exact congrFun (Matrix.one_mulVec _) j
  · intro J h0 h1
    refine Finset.sum_eq_zero fun k _ => ?_
    unfold tab
    rw [if_neg (by omega), if_pos rfl, if_neg (by omega), zero_mul]

theorem rowOf_up {i : Nat} (hi' : i < z.L) (B : Nat → K) (j : Fin n) :
    rowOf ex z v B (1 + 2 * i) j = alpha ex z i j * lo v (at_ B i).1 (at_ B i).2 i j -
      lo v (at_ B (i + 1)).1 (at_ B (i + 1)).2 i j := by
  have hI : (1 + 2 * i) / 2 = i := by omega
  have ht : ∀ J k, tab ex z v (1 + 2 * i) J j k =
    if J = 2 * i + 3 then -x12 v i j k else
    if J = 2 * i + 2 then -x11 v i j k else
    if J = 2 * i + 1 then alpha ex z i j * x12 v i j k else
    if J = 2 * i then alpha ex z i j * x11 v i j k else 0 := by
    intro J k
    unfold tab
    rw [if_neg (by omega), if_neg (by omega), if_pos (by omega)]
    simp only [hI]
  unfold rowOf
  rw [sum_four (a := 2 * i) (by omega)]
  · simp only [lo, Pi.add_apply, mulVec, dotProduct]
    rw [← Finset.sum_add_distrib, ← Finset.sum_add_distrib, ← Finset.sum_add_distrib, ← Finset.sum_add_distrib,
      ← Finset.sum_add_distrib, Finset.mul_sum, ← Finset.sum_sub_distrib]
    refine Finset.sum_congr rfl fun k _ => ?_
    rw [← at_up B i, ← at_dn B i, ← at_up B (i + 1), ← at_dn B (i + 1), ht, ht, ht, ht,
      if_neg (by omega), if_neg (by omega), if_neg (by omega), if_pos rfl,
      if_neg (by omega), if_neg (by omega), if_pos rfl, if_neg (by omega), if_pos rfl, if_pos rfl]
    have h2 : 2 * (i + 1) = 2 * i + 2 := by ring
    rw [h2]; ring
  · intro J h0 h1 h2 h3
    refine Finset.sum_eq_zero fun k _ => ?_
    rw [ht, if_neg h3, if_neg h2, if_neg h1, if_neg h0, zero_mul]

theorem rowOf_dn {i : Nat} (hi' : i < z.L) (B : Nat → K) (j : Fin n) :
    rowOf ex z v B (2 + 2 * i) j = alpha ex z i j * hi v (at_ B (i + 1)).1 (at_ B (i + 1)).2 i j -
      hi v (at_ B i).1 (at_ B i).2 i j := by
  have hI : (2 + 2 * i) / 2 - 1 = i := by omega
  have ht : ∀ J k, tab ex z v (2 + 2 * i) J j k =
    if J = 2 * i + 3 then alpha ex z i j * x11 v i j k else
    if J = 2 * i + 2 then alpha ex z i j * x12 v i j k else
    if J = 2 * i + 1 then -x11 v i j k else
    if J = 2 * i then -x12 v i j k else 0 := by
    intro J k
    unfold tab
    rw [if_neg (by omega), if_neg (by omega), if_neg (by omega)]
    simp only [hI]
  unfold rowOf
  rw [sum_four (a := 2 * i) (by omega)]
  · simp only [hi, Pi.add_apply, mulVec, dotProduct]
    rw [← Finset.sum_add_distrib, ← Finset.sum_add_distrib, ← Finset.sum_add_distrib, ← Finset.sum_add_distrib,
      ← Finset.sum_add_distrib, Finset.mul_sum, ← Finset.sum_sub_distrib]
    refine Finset.sum_congr rfl fun k _ => ?_
    rw [← at_up B i, ← at_dn B i, ← at_up B (i + 1), ← at_dn B (i + 1), ht, ht, ht, ht,
      if_neg (by omega), if_neg (by omega), if_neg (by omega), if_pos rfl,
      if_neg (by omega), if_neg (by omega), if_pos rfl, if_neg (by omega), if_pos rfl, if_pos rfl]
    have h2 : 2 * (i + 1) = 2 * i + 2 := by ring
    rw [h2]; ring
  · intro J h0 h1 h2 h3
    refine Finset.sum_eq_zero fun k _ => ?_
    rw [ht, if_neg h3, if_neg h2, if_neg h1, if_neg h0, zero_mul]

theorem rowOf_bot (B : Nat → K) (j : Fin n) :
    rowOf ex z v B (2 * z.L + 1) j = (at_ (n := n) B z.L).1 j - refl z (at_ B z.L).2 j := by
  have ht : ∀ J k, tab ex z v (2 * z.L + 1) J j k =
      if J = 2 * z.L + 1 then (if z.surface then -(z.Rs j k : K) else 0)
      else if J = 2 * z.L then (1 : Matrix (Fin n) (Fin n) K) j k else 0 := by
    intro J k
    unfold tab
    rw [if_pos rfl]
  unfold rowOf
  rw [sum_two (a := 2 * z.L) (by omega)]
  · have t0 : ∀ k, tab ex z v (2 * z.L + 1) (2 * z.L) j k = (1 : Matrix (Fin n) (Fin n) K) j k := fun k => by
      rw [ht, if_neg (by omega), if_pos rfl]
    have t1 : ∀ k, tab ex z v (2 * z.L + 1) (2 * z.L + 1) j k = if z.surface then -(z.Rs j k : K) else 0 := fun k => by
      rw [ht, if_pos rfl]
    simp only [t0, t1, at_up, at_dn]
    rw [sub_eq_add_neg]
    refine congrArg₂ (· + ·) (congrFun (Matrix.one_mulVec _) j) ?_
    unfold refl
    split_ifs
    · rw [← Finset.sum_neg_distrib]; exact Finset.sum_congr rfl fun _ _ => by ring
    · simp
  · intro J h0 h1
    refine Finset.sum_eq_zero fun k _ => ?_
    rw [ht, if_neg h1, if_neg h0, zero_mul]

/-! ### The right hand side -/

theorem pos_up (i : Nat) (j : Fin n) : (1 + 2 * i) * n + j.val = (1 + 2 * i) * n + j.val := rfl
theorem pos_dn (i : Nat) (j : Fin n) : (1 + 2 * i) * n + n + j.val = (2 + 2 * i) * n + j.val := by ring
theorem pos_bot (j : Fin n) : nComp z - n + j.val = (2 * z.L + 1) * n + j.val := by
  have : nComp z = (2 * z.L + 1) * n + n := by unfold nComp; ring
  omega

theorem scale_row (J : Nat) (p : Fin n → Nat) (hp : ∀ j, p j = J * n + j.val) (I : Nat) (j : Fin n)
    (B : Nat → K) : each n (fun i B => put B (p i) (-1 * B (p i))) B (I * n + j.val) =
      if I = J then -1 * B (I * n + j.val) else B (I * n + j.val) :=
  each_row (fun _ x => -1 * x) J p hp _ (fun i B q => by
    by_cases h : q = p i
    · rw [if_pos h, h, put_same]
    · rw [if_neg h, put_other _ _ h]) I j B

theorem layers_row {L : Nat} (fu fd : Nat → Fin n → K → K) (I : Nat) (j : Fin n)
    (body : Nat → (Nat → K) → Nat → K)
    (hb : ∀ i B, body i B (I * n + j.val) =
      if I = 2 + 2 * i then fd i j (B (I * n + j.val)) else
      if I = 1 + 2 * i then fu i j (B (I * n + j.val)) else B (I * n + j.val)) (B : Nat → K) :
    (∀ i, i < L → I = 1 + 2 * i → forN L body B (I * n + j.val) = fu i j (B (I * n + j.val))) ∧
    (∀ i, i < L → I = 2 + 2 * i → forN L body B (I * n + j.val) = fd i j (B (I * n + j.val))) ∧
    (I = 0 ∨ 2 * L + 1 ≤ I → forN L body B (I * n + j.val) = B (I * n + j.val)) := by
  have := iface_row (L := L + 1) fu fd I j body hb B
  simp only [Nat.add_sub_cancel] at this
  refine ⟨fun i hi => this.1 i (by omega), fun i hi => this.2.1 i (by omega), fun h => this.2.2 (by omega)⟩

theorem rhs_row (B0 : Nat → K) (j : Fin n) :
    rhs ex z v B0 j.val = 0 ∧
    (∀ i, i < z.L → rhs ex z v B0 ((1 + 2 * i) * n + j.val) = beta1 ex z i j * vc z v i j) ∧
    (∀ i, i < z.L → rhs ex z v B0 ((2 + 2 * i) * n + j.val) = -(beta2 ex z i j * vd z v i j)) ∧
    rhs ex z v B0 ((2 * z.L + 1) * n + j.val) = (z.Inp j : K) := by
  set st : Nat → K := each n (fun i B => put B (nComp z - n + i) (z.Inp i : K))
    (each n (fun i B => put B i.val 0) B0) with hst
  have h0 : ∀ I, st (I * n + j.val) = if I = 2 * z.L + 1 then (z.Inp j : K) else if I = 0 then 0 else
      B0 (I * n + j.val) := fun I => by
    rw [hst, put_row (2 * z.L + 1) (fun j => nComp z - n + j) (fun j => pos_bot z j) (fun i => (z.Inp i : K)),
      put_row 0 (fun j => j.val) (fun j => by simp) (fun _ => (0 : K))]
  have hl := fun I => layers_row (L := z.L) (fun i j _ => beta1 ex z i j * vc z v i j)
    (fun i j _ => -(beta2 ex z i j * vd z v i j)) I j
    (fun i B =>
      each n (fun j B => put B ((1 + 2 * i) * n + n + j) (-1 * B ((1 + 2 * i) * n + n + j)))
        (each n (fun j B => put B ((1 + 2 * i) * n + n + j) (beta2 ex z i j * vd z v i j))
          (each n (fun j B => put B ((1 + 2 * i) * n + j) (beta1 ex z i j * vc z v i j)) B))) (by
      intro i B
      rw [scale_row (2 + 2 * i) (fun j => (1 + 2 * i) * n + n + j.val) (fun j => pos_dn i j)]
      rw [put_row (2 + 2 * i) (fun j => (1 + 2 * i) * n + n + j.val) (fun j => pos_dn i j),
        put_row (1 + 2 * i) (fun j => (1 + 2 * i) * n + j.val) (fun j => pos_up i j)]
      by_cases h2 : I = 2 + 2 * i
      · rw [if_pos h2, if_pos h2, if_pos h2]; ring
      · rw [if_neg h2, if_neg h2, if_neg h2]) st
  have e : rhs ex z v B0 = forN z.L (fun i B =>
      each n (fun j B => put B ((1 + 2 * i) * n + n + j) (-1 * B ((1 + 2 * i) * n + n + j)))
        (each n (fun j B => put B ((1 + 2 * i) * n + n + j) (beta2 ex z i j * vd z v i j))
          (each n (fun j B => put B ((1 + 2 * i) * n + j) (beta1 ex z i j * vc z v i j)) B))) st := rfl
  rw [e]
  refine ⟨?_, ?_, ?_, ?_⟩
  · have := (hl 0).2.2 (Or.inl rfl)
    rw [h0, if_neg (by omega), if_pos rfl] at this
    simpa using this
  · intro i hi'
    rw [(hl _).1 i hi' rfl]
  · intro i hi'
    rw [(hl _).2.1 i hi' rfl]
  · rw [(hl _).2.2 (Or.inr le_rfl), h0, if_pos rfl]

/-- The rows of the right hand side for the derivatives. -/
theorem rhsL_row (z' : Inp n K) (fl : Flags) (B : Nat → K) (j : Fin n) :
    rhsL ex z v z' fl B j.val = 0 ∧
    (∀ i, i < z.L → rhsL ex z v z' fl B ((1 + 2 * i) * n + j.val) = upL ex z v z' fl B i j) ∧
    (∀ i, i < z.L → rhsL ex z v z' fl B ((2 + 2 * i) * n + j.val) = dnL ex z v z' fl B i j) ∧
    rhsL ex z v z' fl B ((2 * z.L + 1) * n + j.val) = (z'.Inp j : K) +
      on (z.surface && fl.lay z.L) (∑ k : Fin n, (z'.Rs j k : K) * (at_ (n := n) B z.L).2 k) := by
  set s1 : Nat → K := each n (fun i B => put B (nComp z - n + i) (z'.Inp i : K))
    (each n (fun i B => put B i.val 0) fun _ => 0) with hs1
  set st : Nat → K := if z.surface && fl.lay z.L then
      each n (fun i R => bump R (nComp z - n + i) (∑ k : Fin n, (z'.Rs i k : K) * B (nComp z - n + k))) s1
    else s1 with hst
  have h1 : ∀ I, s1 (I * n + j.val) = if I = 2 * z.L + 1 then (z'.Inp j : K) else 0 := fun I => by
    rw [hs1, put_row (2 * z.L + 1) (fun j => nComp z - n + j) (fun j => pos_bot z j) (fun i => (z'.Inp i : K)),
      put_row 0 (fun j => j.val) (fun j => by simp) (fun _ => (0 : K))]
    simp
  have hB : ∀ k : Fin n, B (nComp z - n + k) = (at_ (n := n) B z.L).2 k := fun k => by
    rw [← at_dn, pos_bot]
  have h0 : ∀ I, st (I * n + j.val) = if I = 2 * z.L + 1 then (z'.Inp j : K) +
      on (z.surface && fl.lay z.L) (∑ k : Fin n, (z'.Rs j k : K) * (at_ (n := n) B z.L).2 k) else 0 := fun I => by
    rw [hst]
    cases hc : z.surface && fl.lay z.L with
    | false =>
      rw [if_neg (by simp), h1]
      simp [on]
    | true =>
      rw [if_pos rfl, bump_row (2 * z.L + 1) (fun j => nComp z - n + j) (fun j => pos_bot z j), h1]
      simp only [on, hB, if_true]
      split_ifs <;> rfl
  have hl := fun I => layers_row (L := z.L) (fun i j x => x + upL ex z v z' fl B i j)
    (fun i j x => x + dnL ex z v z' fl B i j) I j
    (fun i R =>
      each n (fun j R => bump R (n + 2 * n * i + n + j) (dnL ex z v z' fl B i j))
        (each n (fun j R => bump R (n + 2 * n * i + j) (upL ex z v z' fl B i j)) R)) (by
      intro i R
      rw [bump_row (2 + 2 * i) _ (fun j => Bvp.pos_dn i j), bump_row (1 + 2 * i) _ (fun j => Bvp.pos_up i j)]
      by_cases h2 : I = 2 + 2 * i
      · rw [if_pos h2, if_pos h2, if_neg (by omega)]
      · rw [if_neg h2, if_neg h2]) st
  have e : rhsL ex z v z' fl B = forN z.L (fun i R =>
      each n (fun j R => bump R (n + 2 * n * i + n + j) (dnL ex z v z' fl B i j))
        (each n (fun j R => bump R (n + 2 * n * i + j) (upL ex z v z' fl B i j)) R)) st := rfl
  rw [e]
  refine ⟨?_, ?_, ?_, ?_⟩
  · have := (hl 0).2.2 (Or.inl rfl)
    rw [h0, if_neg (by omega)] at this
    simpa using this
  · intro i hi'
    rw [(hl _).1 i hi' rfl, h0, if_neg (by omega), zero_add]
  · intro i hi'
    rw [(hl _).2.1 i hi' rfl, h0, if_neg (by omega), zero_add]
  · rw [(hl _).2.2 (Or.inr le_rfl), h0, if_pos rfl]

/-! ### What the system says -/

theorem rows_iff (B R : Nat → K) :
    ((system ex z v).read (nDiags n) (nComp z) *ᵥ fun c => B c.val) = (fun c => R c.val) ↔
      (∀ j : Fin n, (at_ (n := n) B 0).2 j = R j) ∧
      (∀ i, i < z.L → ∀ j : Fin n, alpha ex z i j * lo v (at_ B i).1 (at_ B i).2 i j -
        lo v (at_ B (i + 1)).1 (at_ B (i + 1)).2 i j = R ((1 + 2 * i) * n + j)) ∧
      (∀ i, i < z.L → ∀ j : Fin n, alpha ex z i j * hi v (at_ B (i + 1)).1 (at_ B (i + 1)).2 i j -
        hi v (at_ B i).1 (at_ B i).2 i j = R ((2 + 2 * i) * n + j)) ∧
      ∀ j : Fin n, (at_ (n := n) B z.L).1 j - refl z (at_ B z.L).2 j = R ((2 * z.L + 1) * n + j) := by
  have hlt : ∀ I, I < 2 * (z.L + 1) → ∀ j : Fin n, I * n + j.val < nComp z := by
    intro I hI j
    rw [nComp_eq]
    have : (I + 1) * n ≤ 2 * (z.L + 1) * n := Nat.mul_le_mul_right n hI
    have hj := j.isLt
    have : I * n + n ≤ 2 * (z.L + 1) * n := by rw [← Nat.succ_mul]; exact this
    omega
  have hall : ((system ex z v).read (nDiags n) (nComp z) *ᵥ fun c => B c.val) = (fun c => R c.val) ↔
      ∀ I, I < 2 * (z.L + 1) → ∀ j : Fin n, rowOf ex z v B I j = R (I * n + j) := by
    constructor
    · intro h I hI j
      have := congrFun h ⟨I * n + j, hlt I hI j⟩
      rw [system_row ex z v B I hI j] at this
      exact this
    · intro h
      funext c
      have hn : 0 < n := by
        by_contra h0
        have : n = 0 := by omega
        have hc := c.isLt
        unfold nComp at hc
        subst this; simp at hc
      have hc : c.val < 2 * (z.L + 1) * n := lt_of_lt_of_eq c.isLt (nComp_eq z)
      have hI : c.val / n < 2 * (z.L + 1) := (Nat.div_lt_iff_lt_mul hn).2 hc
      have hj : c.val % n < n := Nat.mod_lt _ hn
      have hcv : c.val / n * n + c.val % n = c.val := Nat.div_add_mod' _ _
      have hr := system_row ex z v B (c.val / n) hI ⟨c.val % n, hj⟩ (by
        change c.val / n * n + c.val % n < _; rw [hcv]; exact c.isLt)
      have hce : (⟨c.val / n * n + c.val % n, by rw [hcv]; exact c.isLt⟩ : Fin (nComp z)) = c := Fin.ext hcv
      have hh := h (c.val / n) hI ⟨c.val % n, hj⟩
      change _ = R (c.val / n * n + c.val % n) at hh
      rw [hcv] at hh
      rw [← hh]
      unfold rowOf
      rw [← hr]
      exact congrArg _ hce.symm
  rw [hall]
  constructor
  · intro h
    refine ⟨fun j => ?_, fun i hi' j => ?_, fun i hi' j => ?_, fun j => ?_⟩
    · have := h 0 (by omega) j
      rw [rowOf_top ex z v] at this
      simpa using this
    · rw [← rowOf_up ex z v hi']; exact h _ (by omega) j
    · rw [← rowOf_dn ex z v hi']; exact h _ (by omega) j
    · rw [← rowOf_bot ex z v]; exact h _ (by omega) j
  · rintro ⟨h0, hu, hd, hb⟩ I hI j
    rcases kinds hI with rfl | ⟨i, hi', rfl⟩ | ⟨i, hi', rfl⟩ | hI'
    · rw [rowOf_top ex z v, h0]; simp
    · rw [rowOf_up ex z v (by omega), hu i (by omega)]
    · rw [rowOf_dn ex z v (by omega), hd i (by omega)]
    · have : I = 2 * z.L + 1 := by omega
      subst this
      rw [rowOf_bot ex z v, hb]

/-- The conditions the unknowns meet. -/
structure Meets (B : Nat → K) : Prop where
  top : ∀ j, (at_ (n := n) B 0).2 j = 0
  up : ∀ i, i < z.L → ∀ j, alpha ex z i j * lo v (at_ B i).1 (at_ B i).2 i j -
    lo v (at_ B (i + 1)).1 (at_ B (i + 1)).2 i j = beta1 ex z i j * vc z v i j
  dn : ∀ i, i < z.L → ∀ j, alpha ex z i j * hi v (at_ B (i + 1)).1 (at_ B (i + 1)).2 i j -
    hi v (at_ B i).1 (at_ B i).2 i j = -(beta2 ex z i j * vd z v i j)
  bot : ∀ j, (at_ (n := n) B z.L).1 j - refl z (at_ B z.L).2 j = (z.Inp j : K)

theorem meets_iff (B0 B : Nat → K) :
    ((system ex z v).read (nDiags n) (nComp z) *ᵥ fun c => B c.val) = (fun c => rhs ex z v B0 c.val) ↔
      Meets ex z v B := by
  rw [rows_iff ex z v]
  have r := rhs_row ex z v B0
  constructor
  · rintro ⟨h0, hu, hd, hb⟩
    exact ⟨fun j => by rw [h0, (r j).1], fun i h j => by rw [hu i h, (r j).2.1 i h],
      fun i h j => by rw [hd i h, (r j).2.2.1 i h], fun j => by rw [hb, (r j).2.2.2]⟩
  · rintro ⟨h0, hu, hd, hb⟩
    exact ⟨fun j => by rw [h0, (r j).1], fun i h j => by rw [hu i h, (r j).2.1 i h],
      fun i h j => by rw [hd i h, (r j).2.2.1 i h], fun j => by rw [hb, (r j).2.2.2]⟩

variable {inv? : {N : Nat} → Matrix (Fin N) (Fin N) K → Option (Matrix (Fin N) (Fin N) K)}

theorem solve_safe {ex : K → K} {z : Inp n K} {B0 B : Nat → K} (h : solve ex z inv? B0 = some B) : Safe z inv? := by
  unfold solve at h
  by_contra hs
  rw [if_neg hs] at h
  exact absurd h (by simp)

theorem solve_eq {ex : K → K} {z : Inp n K} (hs : Safe z inv?) (B0 : Nat → K) : solve ex z inv? B0 =
    match inv? ((system ex z (inverses z inv?)).read (nDiags n) (nComp z)) with
      | none => none
      | some x => some (solved (nComp z) x (rhs ex z (inverses z inv?) B0)) := by
  unfold solve
  rw [if_pos hs]
  dsimp only
  rw [if_pos (system_ok ex z _)]
  rfl

/-- The unknowns that are found meet the conditions, and no others do. -/
theorem solve_meets {ex : K → K} {z : Inp n K} (hex : ExactAll inv?) {B0 B : Nat → K}
    (h : solve ex z inv? B0 = some B) :
    Meets ex z (inverses z inv?) B ∧ ∀ B', Meets ex z (inverses z inv?) B' → ∀ r, r < nComp z → B' r = B r := by
  rw [solve_eq (solve_safe h)] at h
  cases hx : inv? ((system ex z (inverses z inv?)).read (nDiags n) (nComp z)) with
  | none => simp [hx] at h
  | some x =>
    simp only [hx] at h
    have hx := (hex _ _ _).1 hx
    have hx' := mul_eq_one_comm.1 hx
    injection h with h
    have hB : (fun c : Fin (nComp z) => B c.val) = x *ᵥ fun c => rhs ex z (inverses z inv?) B0 c.val := by
      rw [← h]; exact solved_eq _ _
    refine ⟨(meets_iff ex z _ B0 B).1 ?_, fun B' hB' r hr => ?_⟩
    · rw [hB, mulVec_mulVec, hx, one_mulVec]
    · have := (meets_iff ex z _ B0 B').2 hB'
      have h2 : (fun c : Fin (nComp z) => B' c.val) = fun c => B c.val := by
        rw [hB, ← this, mulVec_mulVec, hx', one_mulVec]
      exact congrFun h2 ⟨r, hr⟩

/-- The inverses are. -/
theorem inverses_ok {z : Inp n K} (hex : ExactAll inv?) (hs : Safe z inv?) {i : Nat} (hi' : i < z.L) :
    ((z.m i).Xp - (z.m i).Xm) * (inverses z inv?).a i = 1 ∧ ((z.m i).Xp + (z.m i).Xm) * (inverses z inv?).b i = 1 := by
  obtain ⟨h1, h2, _⟩ := hs i hi'
  obtain ⟨a, ha⟩ := Option.isSome_iff_exists.1 h1
  obtain ⟨b, hb⟩ := Option.isSome_iff_exists.1 h2
  unfold inverses
  simp only [ha, hb, Option.getD_some]
  exact ⟨(hex _ _ _).1 ha, (hex _ _ _).1 hb⟩

end Xrtm.MemBvp
