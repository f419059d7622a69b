import Verif.Model.Bvp
import Mathlib.Tactic.Ring
import Mathlib.Tactic.LinearCombination
import Mathlib.Data.Matrix.Mul

/-! The linear system is continuity at the interfaces and the conditions at the two ends. -/

namespace Xrtm.Bvp
open Matrix Xrtm.Loops Xrtm.Eig

variable {n : Nat} {K : Type} [RCLike K]

/-! ### Loops -/

theorem each_inv {σ : Type*} (P : σ → Prop) (body : Fin n → σ → σ) (h : ∀ j s, P s → P (body j s)) (s : σ)
    (hs : P s) : P (each n body s) := by
  unfold each
  refine forN_ind (fun _ s => P s) _ _ hs ?_ n
  intro i s h'
  split
  · exact h _ _ h'
  · exact h'

theorem forN_hit {σ α : Type*} (get : σ → α) (f : α → α) (body : Nat → σ → σ) (m i0 : Nat) (hi : i0 < m)
    (hset : ∀ s, get (body i0 s) = f (get s)) (hkeep : ∀ i s, i < m → i ≠ i0 → get (body i s) = get s) (s : σ) :
    get (forN m body s) = f (get s) := by
  have : get (forN m body s) = if i0 < m then f (get s) else get s := by
    refine forN_ind_lt m (fun i t => get t = if i0 < i then f (get s) else get s) body s (by simp) ?_
    intro i t hi h
    rcases eq_or_ne i i0 with rfl | hne
    · rw [hset, h]; simp
    · rw [hkeep i t hi hne, h]
      have : i0 < i + 1 ↔ i0 < i := by omega
      simp only [this]
  rw [this, if_pos hi]

theorem forN_miss {σ α : Type*} (get : σ → α) (body : Nat → σ → σ) (m : Nat)
    (hkeep : ∀ i s, i < m → get (body i s) = get s) (s : σ) : get (forN m body s) = get s :=
  forN_ind_lt m (fun _ t => get t = get s) body s rfl fun i t hi h => by rw [hkeep i t hi, h]

theorem each_hit {σ α : Type*} (get : σ → α) (f : α → α) (body : Fin n → σ → σ) (j0 : Fin n)
    (hset : ∀ s, get (body j0 s) = f (get s)) (hkeep : ∀ j s, j ≠ j0 → get (body j s) = get s) (s : σ) :
    get (each n body s) = f (get s) := by
  unfold each
  refine forN_hit get f _ n j0.val j0.isLt ?_ ?_ s
  · intro s; rw [dif_pos j0.isLt]; exact hset s
  · intro i s hi hne
    rw [dif_pos hi]; exact hkeep _ s fun e => hne (by rw [← e])

theorem each_miss {σ α : Type*} (get : σ → α) (body : Fin n → σ → σ)
    (hkeep : ∀ j s, get (body j s) = get s) (s : σ) : get (each n body s) = get s :=
  each_inv (fun t => get t = get s) body (fun j t h => by rw [hkeep, h]) s rfl

/-! ### Places in the arrays -/

theorem place {I J i j : Nat} (hi : i < n) (hj : j < n) : I * n + i = J * n + j ↔ I = J ∧ i = j := by
  constructor
  · intro h
    have h0 : 0 < n := by omega
    have e1 : (I * n + i) / n = I := by
      rw [Nat.mul_comm, Nat.mul_add_div h0, Nat.div_eq_of_lt hi, Nat.add_zero]
    have e2 : (J * n + j) / n = J := by
      rw [Nat.mul_comm, Nat.mul_add_div h0, Nat.div_eq_of_lt hj, Nat.add_zero]
    have : I = J := by rw [← e1, ← e2, h]
    subst this
    exact ⟨rfl, by omega⟩
  · rintro ⟨rfl, rfl⟩; rfl

theorem sum_blocks (M : Nat) (h : Nat → K) :
    ∑ c ∈ Finset.range (M * n), h c = ∑ J ∈ Finset.range M, ∑ k : Fin n, h (J * n + k) := by
  induction M with
  | zero => simp
  | succ M ih =>
    rw [Nat.succ_mul, Finset.sum_range_add, ih, Finset.sum_range_succ,
      Finset.sum_range (fun x => h (M * n + x))]

/-! ### The band array -/

/-- `insert1` and `insert2` in one. -/
def insertG (nc mc kd i1 j1 : Nat) (f : Fin n → Fin n → K) (b : Band K) : Band K :=
  each n (fun i b => each n (fun j b =>
    b.store nc mc (j1 * n + j) (((i1 * n + (kd + kd + 1) + i : Nat) : Int) - 1 - ((j1 * n + j : Nat) : Int))
      (f i j)) b) b

theorem insert1_eq (nc mc kd i1 j1 : Nat) (alpha : K) (X : Matrix (Fin n) (Fin n) K) (b : Band K) :
    insert1 nc mc kd i1 j1 alpha X b = insertG nc mc kd i1 j1 (fun i j => alpha * X i j) b := rfl

theorem insert2_eq (nc mc kd i1 j1 : Nat) (alpha : K) (d : Fin n → K) (X : Matrix (Fin n) (Fin n) K) (b : Band K) :
    insert2 nc mc kd i1 j1 alpha d X b = insertG nc mc kd i1 j1 (fun i j => alpha * d j * X i j) b := rfl

/-- The element `i`, `j` of a block. -/
def blk (kd : Nat) (b : Band K) (I J : Nat) (i j : Fin n) : K :=
  b.A (J * n + j) (kd + kd + ((I * n + i : Nat) : Int) - ((J * n + j : Nat) : Int))

theorem insertG_blk (nc mc kd i1 j1 : Nat) (f : Fin n → Fin n → K) (b : Band K) (I J : Nat) (i j : Fin n) :
    blk kd (insertG nc mc kd i1 j1 f b) I J i j = if I = i1 ∧ J = j1 then f i j else blk kd b I J i j := by
  have key : ∀ (i' j' : Fin n) (b : Band K) (x : K),
      blk kd (b.store nc mc (j1 * n + j') (((i1 * n + (kd + kd + 1) + i' : Nat) : Int) - 1 -
        ((j1 * n + j' : Nat) : Int)) x) I J i j =
      if (I = i1 ∧ i = i') ∧ J = j1 ∧ j = j' then x else blk kd b I J i j := by
    intro i' j' b x
    unfold blk Band.store
    simp only
    have : (J * n + j.val = j1 * n + j'.val ∧
        (kd + kd + ((I * n + i.val : Nat) : Int) - ((J * n + j.val : Nat) : Int)) =
          ((i1 * n + (kd + kd + 1) + i'.val : Nat) : Int) - 1 - ((j1 * n + j'.val : Nat) : Int)) ↔
        ((I = i1 ∧ i = i') ∧ J = j1 ∧ j = j') := by
      rw [Fin.ext_iff, Fin.ext_iff, ← place i.isLt i'.isLt, ← place j.isLt j'.isLt]
      constructor
      · rintro ⟨h1, h2⟩; refine ⟨?_, h1⟩; omega
      · rintro ⟨h1, h2⟩; refine ⟨h2, ?_⟩; omega
    simp only [this]
  unfold insertG
  by_cases hh : I = i1 ∧ J = j1
  · rw [if_pos hh]
    obtain ⟨rfl, rfl⟩ := hh
    refine each_hit (fun b => blk kd b I J i j) (fun _ => f i j) _ i ?_ ?_ b
    · intro b
      refine each_hit (fun b => blk kd b I J i j) (fun _ => f i j) _ j ?_ ?_ b
      · intro b; simp only [key, and_self, if_true]
      · intro j' b h; simp only [key]; rw [if_neg]; rintro ⟨_, _, e⟩; exact h e.symm
    · intro i' b h
      refine each_miss (fun b => blk kd b I J i j) _ ?_ b
      intro j' b; simp only [key]; rw [if_neg]; rintro ⟨⟨_, e⟩, _⟩; exact h e.symm
  · rw [if_neg hh]
    refine each_miss (fun b => blk kd b I J i j) _ (fun i' b => ?_) b
    refine each_miss (fun b => blk kd b I J i j) _ (fun j' b => ?_) b
    simp only [key]; rw [if_neg]; rintro ⟨⟨e1, _⟩, e2, _⟩; exact hh ⟨e1, e2⟩

theorem insertG_ok {nc mc kd i1 j1 M : Nat} (f : Fin n → Fin n → K) (b : Band K) (hb : b.ok = true)
    (hkd : kd = 3 * n - 1) (hmc : mc = 3 * kd + 1) (hnc : nc = M * n) (hj : j1 < M) (h1 : i1 ≤ j1 + 2)
    (h2 : j1 ≤ i1 + 2) : (insertG nc mc kd i1 j1 f b).ok = true := by
  unfold insertG
  refine each_inv (fun b => b.ok = true) _ (fun i b hb => ?_) b hb
  refine each_inv (fun b => b.ok = true) _ (fun j b hb => ?_) b hb
  simp only [Band.store, hb, Bool.true_and, decide_eq_true_eq]
  have hi := i.isLt
  have hjl := j.isLt
  have a1 : j1 * n + n ≤ M * n := by
    calc j1 * n + n = (j1 + 1) * n := by ring
      _ ≤ M * n := Nat.mul_le_mul_right n hj
  have a2 : i1 * n ≤ j1 * n + 2 * n := by
    calc i1 * n ≤ (j1 + 2) * n := Nat.mul_le_mul_right n h1
      _ = j1 * n + 2 * n := by ring
  have a3 : j1 * n ≤ i1 * n + 2 * n := by
    calc j1 * n ≤ (i1 + 2) * n := Nat.mul_le_mul_right n h2
      _ = i1 * n + 2 * n := by ring
  refine ⟨by omega, ?_, ?_⟩ <;> push_cast <;> omega

variable (ex : K → K) (z : Inp n K)

theorem nComp_eq : nComp z = (2 * z.L) * n := by unfold nComp; ring

/-- All that is written to the band array is inside of it. -/
theorem system_ok (hL : 1 ≤ z.L) : (system ex z).ok = true := by
  have go : ∀ i1 j1 (f : Fin n → Fin n → K) (b : Band K), b.ok = true → j1 < 2 * z.L → i1 ≤ j1 + 2 → j1 ≤ i1 + 2 →
      (insertG (nComp z) (mComp n) (nDiags n) i1 j1 f b).ok = true := fun i1 j1 f b hb h0 h1 h2 =>
    insertG_ok f b hb rfl rfl (nComp_eq z) h0 h1 h2
  unfold system
  simp only [insert1_eq, insert2_eq]
  refine go _ _ _ _ (go _ _ _ _ ?_ (by omega) (by omega) (by omega)) (by omega) (by omega) (by omega)
  refine forN_ind_lt (z.L - 1) (fun _ (b : Band K) => b.ok = true) _ _ ?_ ?_
  · exact go _ _ _ _ (go _ _ _ _ rfl (by omega) (by omega) (by omega)) (by omega) (by omega) (by omega)
  · intro i b hi hb
    unfold interface
    simp only [insert1_eq, insert2_eq]
    iterate 8 refine go _ _ _ _ ?_ (by omega) (by omega) (by omega)
    exact hb

theorem interface_blk (i I J : Nat) (b : Band K) (j k : Fin n) :
    blk (nDiags n) (interface ex z i b) I J j k =
      if I = 2 + 2 * i ∧ J = 2 * i + 3 then 1 * lam ex z (i + 1) k * (z.m (i + 1)).Xp j k else
      if I = 2 + 2 * i ∧ J = 2 * i + 2 then 1 * (z.m (i + 1)).Xm j k else
      if I = 2 + 2 * i ∧ J = 2 * i + 1 then -1 * (z.m i).Xp j k else
      if I = 2 + 2 * i ∧ J = 2 * i then -1 * lam ex z i k * (z.m i).Xm j k else
      if I = 1 + 2 * i ∧ J = 2 * i + 3 then -1 * lam ex z (i + 1) k * (z.m (i + 1)).Xm j k else
      if I = 1 + 2 * i ∧ J = 2 * i + 2 then -1 * (z.m (i + 1)).Xp j k else
      if I = 1 + 2 * i ∧ J = 2 * i + 1 then 1 * (z.m i).Xm j k else
      if I = 1 + 2 * i ∧ J = 2 * i then 1 * lam ex z i k * (z.m i).Xp j k else
      blk (nDiags n) b I J j k := by
  unfold interface
  simp only [insert1_eq, insert2_eq, insertG_blk]

/-- The block rows of the system. -/
def tab (I J : Nat) (j k : Fin n) : K :=
  if I = (z.L - 1) * 2 + 1 then
    if J = (z.L - 1) * 2 + 1 then bottomB z j k else if J = (z.L - 1) * 2 then bottomA ex z j k else 0
  else if I = 0 then
    if J = 1 then -lam ex z 0 k * (z.m 0).Xp j k else if J = 0 then -(z.m 0).Xm j k else 0
  else if I % 2 = 1 then
    let i := I / 2
    if J = 2 * i + 3 then -lam ex z (i + 1) k * (z.m (i + 1)).Xm j k else
    if J = 2 * i + 2 then -(z.m (i + 1)).Xp j k else
    if J = 2 * i + 1 then (z.m i).Xm j k else
    if J = 2 * i then lam ex z i k * (z.m i).Xp j k else 0
  else
    let i := I / 2 - 1
    if J = 2 * i + 3 then lam ex z (i + 1) k * (z.m (i + 1)).Xp j k else
    if J = 2 * i + 2 then (z.m (i + 1)).Xm j k else
    if J = 2 * i + 1 then -(z.m i).Xp j k else
    if J = 2 * i then -lam ex z i k * (z.m i).Xm j k else 0

theorem system_blk (hL : 1 ≤ z.L) (I J : Nat) (hI : I < 2 * z.L) (j k : Fin n) :
    blk (nDiags n) (system ex z) I J j k = tab ex z I J j k := by
  unfold system
  simp only [insert1_eq, insert2_eq, insertG_blk]
  unfold tab
  by_cases h1 : I = (z.L - 1) * 2 + 1
  · subst h1
    simp only [true_and, if_true, one_mul]
    split_ifs with h2 h3
    · rfl
    · rfl
    · rw [forN_miss (fun b => blk (nDiags n) b ((z.L - 1) * 2 + 1) J j k)]
      · simp only [insertG_blk]
        rw [if_neg (by omega), if_neg (by omega)]; rfl
      · intro i b hi
        simp only [interface_blk]
        rw [if_neg (by omega), if_neg (by omega), if_neg (by omega), if_neg (by omega),
          if_neg (by omega), if_neg (by omega), if_neg (by omega), if_neg (by omega)]
  · simp only [h1, false_and, if_false]
    by_cases h0 : I = 0
    · subst h0
      rw [if_pos rfl, forN_miss (fun b => blk (nDiags n) b 0 J j k)]
      · simp only [insertG_blk, true_and]
        split_ifs with h2 h3
        · ring
        · ring
        · rfl
      · intro i b hi
        simp only [interface_blk]
        rw [if_neg (by omega), if_neg (by omega), if_neg (by omega), if_neg (by omega),
          if_neg (by omega), if_neg (by omega), if_neg (by omega), if_neg (by omega)]
    · rw [if_neg h0]
      have base : blk (nDiags n) (insertG (nComp z) (mComp n) (nDiags n) 0 1
          (fun i j => -1 * lam ex z 0 j * (z.m 0).Xp i j)
          (insertG (nComp z) (mComp n) (nDiags n) 0 0 (fun i j => -1 * (z.m 0).Xm i j)
            ⟨fun _ _ => 0, true⟩)) I J j k = 0 := by
        simp only [insertG_blk]
        rw [if_neg (by omega), if_neg (by omega)]; rfl
      have keep : ∀ i0, (I = 1 + 2 * i0 ∨ I = 2 + 2 * i0) → ∀ i b, i < z.L - 1 → i ≠ i0 →
          blk (nDiags n) (interface ex z i b) I J j k = blk (nDiags n) b I J j k := by
        intro i0 h i b hi hne
        simp only [interface_blk]
        rw [if_neg (by omega), if_neg (by omega), if_neg (by omega), if_neg (by omega),
          if_neg (by omega), if_neg (by omega), if_neg (by omega), if_neg (by omega)]
      by_cases hodd : I % 2 = 1
      · rw [if_pos hodd]
        obtain ⟨i, rfl⟩ : ∃ i, I = 1 + 2 * i := ⟨I / 2, by omega⟩
        have hi2 : (1 + 2 * i) / 2 = i := by omega
        simp only [hi2]
        rw [forN_hit (fun b => blk (nDiags n) b (1 + 2 * i) J j k) (fun v =>
          if J = 2 * i + 3 then -lam ex z (i + 1) k * (z.m (i + 1)).Xm j k else
          if J = 2 * i + 2 then -(z.m (i + 1)).Xp j k else
          if J = 2 * i + 1 then (z.m i).Xm j k else
          if J = 2 * i then lam ex z i k * (z.m i).Xp j k else v) _ _ i (by omega) ?_
          (keep i (Or.inl rfl)), base]
        intro b
        simp only [interface_blk]
        rw [if_neg (by omega), if_neg (by omega), if_neg (by omega), if_neg (by omega)]
        simp only [true_and, one_mul, neg_mul]
      · rw [if_neg hodd]
        obtain ⟨i, rfl⟩ : ∃ i, I = 2 + 2 * i := ⟨I / 2 - 1, by omega⟩
        have hi2 : (2 + 2 * i) / 2 - 1 = i := by omega
        simp only [hi2]
        rw [forN_hit (fun b => blk (nDiags n) b (2 + 2 * i) J j k) (fun v =>
          if J = 2 * i + 3 then lam ex z (i + 1) k * (z.m (i + 1)).Xp j k else
          if J = 2 * i + 2 then (z.m (i + 1)).Xm j k else
          if J = 2 * i + 1 then -(z.m i).Xp j k else
          if J = 2 * i then -lam ex z i k * (z.m i).Xm j k else v) _ _ i (by omega) ?_
          (keep i (Or.inr rfl)), base]
        intro b
        simp only [interface_blk]
        have : ¬ (2 + 2 * i = 1 + 2 * i) := by omega
        simp only [this, false_and, if_false, true_and, one_mul, neg_mul]

theorem tab_far (hL : 1 ≤ z.L) (I J : Nat) (hI : I < 2 * z.L) (h : I + 2 < J ∨ J + 2 < I) (j k : Fin n) :
    tab ex z I J j k = 0 := by
  unfold tab
  dsimp only
  split_ifs <;> first | rfl | omega

/-- A row of the matrix times a vector. -/
theorem system_row (hL : 1 ≤ z.L) (B : Nat → K) (I : Nat) (hI : I < 2 * z.L) (j : Fin n)
    (hr : I * n + j.val < nComp z) :
    ((system ex z).read (nDiags n) (nComp z) *ᵥ fun c => B c.val) ⟨I * n + j, hr⟩ =
      ∑ J ∈ Finset.range (2 * z.L), ∑ k : Fin n, tab ex z I J j k * B (J * n + k) := by
  have e : ((system ex z).read (nDiags n) (nComp z) *ᵥ fun c => B c.val) ⟨I * n + j, hr⟩ =
      ∑ c ∈ Finset.range (nComp z), (if ((I * n + j.val : Nat) : Int) - (c : Nat) ≤ (nDiags n : Nat) ∧
        ((c : Nat) : Int) - ((I * n + j.val : Nat) : Int) ≤ (nDiags n : Nat) then
        (system ex z).A c (nDiags n + nDiags n + ((I * n + j.val : Nat) : Int) - ((c : Nat) : Int)) else 0) * B c := by
    rw [Finset.sum_range]
    rfl
  rw [e, nComp_eq, sum_blocks]
  refine Finset.sum_congr rfl fun J hJ => Finset.sum_congr rfl fun k _ => ?_
  rw [Finset.mem_range] at hJ
  congr 1
  have hb := system_blk ex z hL I J hI j k
  rw [← hb]
  unfold blk at hb ⊢
  split_ifs with hc
  · rfl
  · rw [hb]
    refine (tab_far ex z hL I J hI ?_ j k).symm
    by_contra hn
    apply hc
    have h1 : I ≤ J + 2 := by omega
    have h2 : J ≤ I + 2 := by omega
    have a2 : I * n ≤ J * n + 2 * n := by
      calc I * n ≤ (J + 2) * n := Nat.mul_le_mul_right n h1
        _ = J * n + 2 * n := by ring
    have a3 : J * n ≤ I * n + 2 * n := by
      calc J * n ≤ (I + 2) * n := Nat.mul_le_mul_right n h2
        _ = I * n + 2 * n := by ring
    have hj := j.isLt
    have hk := k.isLt
    unfold nDiags
    push_cast
    constructor <;> omega

end Xrtm.Bvp
