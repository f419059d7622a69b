import Verif.Proof.Bvp

/-! The rows of the linear system. -/

namespace Xrtm.Bvp
open Matrix Xrtm.Loops Xrtm.Eig

variable {n : Nat} {K : Type} [RCLike K] (ex : K → K) (z : Inp n K)

/-! ### The right hand side -/

theorem pos_up (i : Nat) (j : Fin n) : n + 2 * n * i + j.val = (1 + 2 * i) * n + j.val := by ring
theorem pos_dn (i : Nat) (j : Fin n) : n + 2 * n * i + n + j.val = (2 + 2 * i) * n + j.val := by ring
theorem pos_bot {L : Nat} (hL : 1 ≤ L) (j : Fin n) : 2 * n * L - n + j.val = (2 * L - 1) * n + j.val := by
  obtain ⟨k, rfl⟩ : ∃ k, L = k + 1 := ⟨L - 1, by omega⟩
  have : 2 * n * (k + 1) - n = (2 * (k + 1) - 1) * n := by
    have h1 : 2 * (k + 1) - 1 = 2 * k + 1 := by omega
    rw [h1]
    have : 2 * n * (k + 1) = (2 * k + 1) * n + n := by ring
    omega
  rw [this]

/-- A loop that writes each place of a block once. -/
theorem each_row (f : Fin n → K → K) (J : Nat) (p : Fin n → Nat) (hp : ∀ j, p j = J * n + j.val)
    (body : Fin n → (Nat → K) → Nat → K) (hw : ∀ i B q, body i B q = if q = p i then f i (B q) else B q)
    (I : Nat) (j : Fin n) (B : Nat → K) :
    each n body B (I * n + j.val) =
      if I = J then f j (B (I * n + j.val)) else B (I * n + j.val) := by
  by_cases h : I = J
  · subst h
    rw [if_pos rfl]
    refine each_hit (fun B : Nat → K => B (I * n + j.val)) (f j) _ j ?_ ?_ B
    · intro B; simp only [hw, hp, if_true]
    · intro i B hne
      simp only [hw, hp]
      rw [if_neg]
      intro e
      exact hne (Fin.ext ((place j.isLt i.isLt).1 e).2.symm)
  · rw [if_neg h]
    refine each_miss (fun B : Nat → K => B (I * n + j.val)) _ ?_ B
    intro i B
    simp only [hw, hp]
    rw [if_neg]
    intro e
    exact h ((place j.isLt i.isLt).1 e).1

/-- The places of the rows of a loop over the interfaces. -/
theorem iface_row {L : Nat} (fu fd : Nat → Fin n → K → K) (I : Nat) (j : Fin n)
    (body : Nat → (Nat → K) → Nat → K)
    (hb : ∀ i B, body i B (I * n + j.val) =
      if I = 2 + 2 * i then fd i j (B (I * n + j.val)) else
      if I = 1 + 2 * i then fu i j (B (I * n + j.val)) else B (I * n + j.val)) (B : Nat → K) :
    (∀ i, i + 1 < L → I = 1 + 2 * i → forN (L - 1) body B (I * n + j.val) = fu i j (B (I * n + j.val))) ∧
    (∀ i, i + 1 < L → I = 2 + 2 * i → forN (L - 1) body B (I * n + j.val) = fd i j (B (I * n + j.val))) ∧
    (I = 0 ∨ 2 * L - 1 ≤ I → forN (L - 1) body B (I * n + j.val) = B (I * n + j.val)) := by
  refine ⟨?_, ?_, ?_⟩
  · intro i hi hI
    refine forN_hit (fun B : Nat → K => B (I * n + j.val)) (fu i j) _ _ i (by omega) ?_ ?_ B
    · intro B; simp only [hb]; rw [if_neg (by omega), if_pos hI]
    · intro i' B _ hne; simp only [hb]; rw [if_neg (by omega), if_neg (by omega)]
  · intro i hi hI
    refine forN_hit (fun B : Nat → K => B (I * n + j.val)) (fd i j) _ _ i (by omega) ?_ ?_ B
    · intro B; simp only [hb]; rw [if_pos hI]
    · intro i' B _ hne; simp only [hb]; rw [if_neg (by omega), if_neg (by omega)]
  · intro hI
    refine forN_miss (fun B : Nat → K => B (I * n + j.val)) _ _ ?_ B
    intro i' B _; simp only [hb]; rw [if_neg (by omega), if_neg (by omega)]

theorem bump_row (J : Nat) (p : Fin n → Nat) (hp : ∀ j, p j = J * n + j.val) (v : Fin n → K) (I : Nat) (j : Fin n)
    (B : Nat → K) : each n (fun i B => bump B (p i) (v i)) B (I * n + j.val) =
      if I = J then B (I * n + j.val) + v j else B (I * n + j.val) :=
  each_row (fun i x => x + v i) J p hp _ (fun i B q => by
    by_cases h : q = p i
    · rw [if_pos h, h, bump_same]
    · rw [if_neg h, bump_other _ _ h]) I j B

theorem put_row (J : Nat) (p : Fin n → Nat) (hp : ∀ j, p j = J * n + j.val) (v : Fin n → K) (I : Nat) (j : Fin n)
    (B : Nat → K) : each n (fun i B => put B (p i) (v i)) B (I * n + j.val) =
      if I = J then v j else B (I * n + j.val) :=
  each_row (fun i _ => v i) J p hp _ (fun i B q => by
    by_cases h : q = p i
    · rw [if_pos h, h, put_same]
    · rw [if_neg h, put_other _ _ h]) I j B

/-- The rows that `addRows` adds to. -/
theorem addRows_row {L : Nat} (hL : 1 ≤ L) (top : Fin n → K) (up dn : Nat → Fin n → K) (bot : Fin n → K)
    (B : Nat → K) (j : Fin n) :
    addRows (2 * n * L) L top up dn bot B j.val = B j.val + top j ∧
    (∀ i, i + 1 < L → addRows (2 * n * L) L top up dn bot B ((1 + 2 * i) * n + j.val) =
      B ((1 + 2 * i) * n + j.val) + up i j) ∧
    (∀ i, i + 1 < L → addRows (2 * n * L) L top up dn bot B ((2 + 2 * i) * n + j.val) =
      B ((2 + 2 * i) * n + j.val) + dn i j) ∧
    addRows (2 * n * L) L top up dn bot B ((2 * L - 1) * n + j.val) = B ((2 * L - 1) * n + j.val) + bot j := by
  have e : ∀ I, addRows (2 * n * L) L top up dn bot B (I * n + j.val) =
      if I = 2 * L - 1 then forN (L - 1) (fun i B =>
        each n (fun j B => bump B (n + 2 * n * i + n + j) (dn i j))
          (each n (fun j B => bump B (n + 2 * n * i + j) (up i j)) B))
        (each n (fun i B => bump B i.val (top i)) B) (I * n + j.val) + bot j
      else forN (L - 1) (fun i B =>
        each n (fun j B => bump B (n + 2 * n * i + n + j) (dn i j))
          (each n (fun j B => bump B (n + 2 * n * i + j) (up i j)) B))
        (each n (fun i B => bump B i.val (top i)) B) (I * n + j.val) := by
    intro I
    unfold addRows
    rw [bump_row (2 * L - 1) _ (fun j => pos_bot hL j)]
  have h0 : ∀ I, each n (fun i B => bump B i.val (top i)) B (I * n + j.val) =
      if I = 0 then B (I * n + j.val) + top j else B (I * n + j.val) := fun I =>
    bump_row 0 _ (fun j => by simp) top I j B
  have hi := fun I => iface_row (L := L) (fun i j x => x + up i j) (fun i j x => x + dn i j) I j
    (fun i B => each n (fun j B => bump B (n + 2 * n * i + n + j) (dn i j))
          (each n (fun j B => bump B (n + 2 * n * i + j) (up i j)) B)) (by
      intro i B
      rw [bump_row (2 + 2 * i) _ (fun j => pos_dn i j), bump_row (1 + 2 * i) _ (fun j => pos_up i j)]
      by_cases h2 : I = 2 + 2 * i
      · rw [if_pos h2, if_pos h2, if_neg (by omega)]
      · rw [if_neg h2, if_neg h2]) (each n (fun i B => bump B i.val (top i)) B)
  refine ⟨?_, ?_, ?_, ?_⟩
  · have := e 0
    rw [if_neg (by omega), (hi 0).2.2 (Or.inl rfl), h0, if_pos rfl] at this
    simpa using this
  · intro i hL'
    rw [e, if_neg (by omega), (hi _).1 i hL' rfl, h0, if_neg (by omega)]
  · intro i hL'
    rw [e, if_neg (by omega), (hi _).2.1 i hL' rfl, h0, if_neg (by omega)]
  · rw [e, if_pos rfl, (hi _).2.2 (Or.inr le_rfl), h0, if_neg (by omega)]

/-- The rows of the right hand side for the derivatives. -/
theorem rhsL_row (z' : Inp n K) (fl : Flags) (hL : 1 ≤ z.L) (B : Nat → K) (j : Fin n) :
    rhsL ex z z' fl B j.val = topL ex z z' fl B j ∧
    (∀ i, i + 1 < z.L → rhsL ex z z' fl B ((1 + 2 * i) * n + j.val) = upL ex z z' fl B i j) ∧
    (∀ i, i + 1 < z.L → rhsL ex z z' fl B ((2 + 2 * i) * n + j.val) = dnL ex z z' fl B i j) ∧
    rhsL ex z z' fl B ((2 * z.L - 1) * n + j.val) = botL ex z z' fl B j := by
  set top := topL ex z z' fl B
  set up := upL ex z z' fl B
  set dn := dnL ex z z' fl B
  set bot := botL ex z z' fl B
  set body : Nat → (Nat → K) → Nat → K := fun i B =>
        each n (fun j B => put B (n + 2 * n * i + n + j) (dn i j))
          (each n (fun j B => put B (n + 2 * n * i + j) (up i j)) B) with hbody
  set st : Nat → K := each n (fun i B => put B i.val (top i)) (fun _ => 0) with hst
  have e : ∀ I, rhsL ex z z' fl B (I * n + j.val) =
      if I = 2 * z.L - 1 then bot j else forN (z.L - 1) body st (I * n + j.val) := by
    intro I
    unfold rhsL
    exact put_row (2 * z.L - 1) _ (fun j => pos_bot hL j) bot I j _
  have h0 : ∀ I, st (I * n + j.val) = if I = 0 then top j else 0 := fun I =>
    put_row 0 _ (fun j => by simp) top I j _
  have hi := fun I => iface_row (L := z.L) (fun i j _ => up i j) (fun i j _ => dn i j) I j body (by
      intro i B
      rw [hbody]
      dsimp only
      rw [put_row (2 + 2 * i) _ (fun j => pos_dn i j), put_row (1 + 2 * i) _ (fun j => pos_up i j)]) st
  refine ⟨?_, ?_, ?_, ?_⟩
  · have := e 0
    rw [if_neg (by omega), (hi 0).2.2 (Or.inl rfl), h0, if_pos rfl] at this
    simpa using this
  · intro i hL'
    rw [e, if_neg (by omega), (hi _).1 i hL' rfl]
  · intro i hL'
    rw [e, if_neg (by omega), (hi _).2.1 i hL' rfl]
  · rw [e, if_pos rfl]

/-! ### The unknowns -/

/-- Parts of the modes that decay downwards, of the layer `i`. -/
def al (B : Nat → K) (i : Nat) (k : Fin n) : K := B (i * (n * 2) + k)
/-- Parts of the modes that decay upwards. -/
def be (B : Nat → K) (i : Nat) (k : Fin n) : K := B (i * (n * 2) + k + n)

/-- Sums of the modes at the top of a layer, up and down, and at the bottom. -/
def F0 (B : Nat → K) (i : Nat) (j : Fin n) : K :=
  ∑ k, (al B i k * (z.m i).Xp j k + be B i k * (z.m i).Xm j k * lam ex z i k)
def G0 (B : Nat → K) (i : Nat) (j : Fin n) : K :=
  ∑ k, (al B i k * -(z.m i).Xm j k + be B i k * -(z.m i).Xp j k * lam ex z i k)
def F1 (B : Nat → K) (i : Nat) (j : Fin n) : K :=
  ∑ k, (al B i k * (z.m i).Xp j k * lam ex z i k + be B i k * (z.m i).Xm j k)
def G1 (B : Nat → K) (i : Nat) (j : Fin n) : K :=
  ∑ k, (al B i k * -(z.m i).Xm j k * lam ex z i k + be B i k * -(z.m i).Xp j k)

theorem sum_two {M a : Nat} (h : a + 1 < M) {g : Nat → K} (hg : ∀ J, J ≠ a → J ≠ a + 1 → g J = 0) :
    ∑ J ∈ Finset.range M, g J = g a + g (a + 1) := by
  rw [← Finset.sum_pair (by omega : a ≠ a + 1)]
  refine (Finset.sum_subset ?_ ?_).symm
  · intro J hJ; simp only [Finset.mem_insert, Finset.mem_singleton] at hJ; rw [Finset.mem_range]; omega
  · intro J _ hJ
    simp only [Finset.mem_insert, Finset.mem_singleton, not_or] at hJ
    exact hg J hJ.1 hJ.2

theorem sum_four {M a : Nat} (h : a + 3 < M) {g : Nat → K}
    (hg : ∀ J, J ≠ a → J ≠ a + 1 → J ≠ a + 2 → J ≠ a + 3 → g J = 0) :
    ∑ J ∈ Finset.range M, g J = g a + g (a + 1) + g (a + 2) + g (a + 3) := by
  have : ∑ J ∈ ({a, a + 1, a + 2, a + 3} : Finset Nat), g J = g a + g (a + 1) + g (a + 2) + g (a + 3) := by
    rw [Finset.sum_insert (by simp), Finset.sum_insert (by simp), Finset.sum_pair (by simp)]; ring
  rw [← this]
  refine (Finset.sum_subset ?_ ?_).symm
  · intro J hJ; simp only [Finset.mem_insert, Finset.mem_singleton] at hJ; rw [Finset.mem_range]; omega
  · intro J _ hJ
    simp only [Finset.mem_insert, Finset.mem_singleton, not_or] at hJ
    exact hg J hJ.1 hJ.2.1 hJ.2.2.1 hJ.2.2.2

theorem al_eq (B : Nat → K) (i : Nat) (k : Fin n) : B (2 * i * n + k.val) = al B i k := by
  unfold al; congr 1; ring
theorem be_eq (B : Nat → K) (i : Nat) (k : Fin n) : B ((2 * i + 1) * n + k.val) = be B i k := by
  unfold be; congr 1; ring

/-- A row of the matrix times the unknowns. -/
def rowOf (B : Nat → K) (I : Nat) (j : Fin n) : K :=
  ∑ J ∈ Finset.range (2 * z.L), ∑ k : Fin n, tab ex z I J j k * B (J * n + k)

theorem rowOf_top (hL : 1 ≤ z.L) (B : Nat → K) (j : Fin n) : rowOf ex z B 0 j = G0 ex z B 0 j := by
  unfold rowOf
  rw [sum_two (a := 0) (by omega)]
  · unfold G0
    rw [← Finset.sum_add_distrib]
    refine Finset.sum_congr rfl fun k _ => ?_
    have e1 := al_eq B 0 k
    have e2 := be_eq B 0 k
    rw [Nat.mul_zero, Nat.zero_mul, Nat.zero_add] at e1
    simp only [Nat.mul_zero, Nat.zero_add, Nat.one_mul] at e2
    unfold tab
    rw [if_neg (by omega), if_pos rfl, if_neg (by omega), if_pos rfl, if_neg (by omega), if_pos rfl, if_pos rfl]
    simp only [Nat.zero_mul, Nat.zero_add, Nat.one_mul]
    rw [e1, e2]; ring
  · intro J h0 h1
    refine Finset.sum_eq_zero fun k _ => ?_
    unfold tab
    rw [if_neg (by omega), if_pos rfl, if_neg (by omega), if_neg h0, zero_mul]

theorem rowOf_up {i : Nat} (hi : i + 1 < z.L) (B : Nat → K) (j : Fin n) :
    rowOf ex z B (1 + 2 * i) j = F1 ex z B i j - F0 ex z B (i + 1) j := by
  have hI : (1 + 2 * i) / 2 = i := by omega
  have ht : ∀ J k, tab ex z (1 + 2 * i) J j k =
    if J = 2 * i + 3 then -lam ex z (i + 1) k * (z.m (i + 1)).Xm j k else
    if J = 2 * i + 2 then -(z.m (i + 1)).Xp j k else
    if J = 2 * i + 1 then (z.m i).Xm j k else
    if J = 2 * i then lam ex z i k * (z.m i).Xp j k else 0 := by
    intro J k
    unfold tab
    rw [if_neg (by omega), if_neg (by omega), if_pos (by omega)]
    simp only [hI]
  unfold rowOf
  rw [sum_four (a := 2 * i) (by omega)]
  · unfold F1 F0
    rw [← Finset.sum_add_distrib, ← Finset.sum_add_distrib, ← Finset.sum_add_distrib, ← Finset.sum_sub_distrib]
    refine Finset.sum_congr rfl fun k _ => ?_
    rw [← al_eq, ← be_eq, ← al_eq B (i + 1), ← be_eq B (i + 1), ht, ht, ht, ht,
      if_neg (by omega), if_neg (by omega), if_neg (by omega), if_pos rfl,
      if_neg (by omega), if_neg (by omega), if_pos rfl, if_neg (by omega), if_pos rfl, if_pos rfl]
    have h2 : 2 * (i + 1) = 2 * i + 2 := by ring
    rw [h2]; ring
  · intro J h0 h1 h2 h3
    refine Finset.sum_eq_zero fun k _ => ?_
    rw [ht, if_neg h3, if_neg h2, if_neg h1, if_neg h0, zero_mul]

theorem rowOf_dn {i : Nat} (hi : i + 1 < z.L) (B : Nat → K) (j : Fin n) :
    rowOf ex z B (2 + 2 * i) j = G1 ex z B i j - G0 ex z B (i + 1) j := by
  have hI : (2 + 2 * i) / 2 - 1 = i := by omega
  have ht : ∀ J k, tab ex z (2 + 2 * i) J j k =
    if J = 2 * i + 3 then lam ex z (i + 1) k * (z.m (i + 1)).Xp j k else
    if J = 2 * i + 2 then (z.m (i + 1)).Xm j k else
    if J = 2 * i + 1 then -(z.m i).Xp j k else
    if J = 2 * i then -lam ex z i k * (z.m i).Xm j k else 0 := by
    intro J k
    unfold tab
    rw [if_neg (by omega), if_neg (by omega), if_neg (by omega)]
    simp only [hI]
  unfold rowOf
  rw [sum_four (a := 2 * i) (by omega)]
  · unfold G1 G0
    rw [← Finset.sum_add_distrib, ← Finset.sum_add_distrib, ← Finset.sum_add_distrib, ← Finset.sum_sub_distrib]
    refine Finset.sum_congr rfl fun k _ => ?_
    rw [← al_eq, ← be_eq, ← al_eq B (i + 1), ← be_eq B (i + 1), ht, ht, ht, ht,
      if_neg (by omega), if_neg (by omega), if_neg (by omega), if_pos rfl,
      if_neg (by omega), if_neg (by omega), if_pos rfl, if_neg (by omega), if_pos rfl, if_pos rfl]
    have h2 : 2 * (i + 1) = 2 * i + 2 := by ring
    rw [h2]; ring
  · intro J h0 h1 h2 h3
    refine Finset.sum_eq_zero fun k _ => ?_
    rw [ht, if_neg h3, if_neg h2, if_neg h1, if_neg h0, zero_mul]

/-- The light a surface reflects. -/
def refl (g : Fin n → K) (j : Fin n) : K := if z.surface then ∑ l, (z.Rs j l : K) * g l else 0

theorem rowOf_bot (hL : 1 ≤ z.L) (B : Nat → K) (j : Fin n) :
    rowOf ex z B (2 * z.L - 1) j = F1 ex z B (z.L - 1) j - refl z (G1 ex z B (z.L - 1)) j := by
  have ht : ∀ J k, tab ex z (2 * z.L - 1) J j k =
      if J = (z.L - 1) * 2 + 1 then bottomB z j k else if J = (z.L - 1) * 2 then bottomA ex z j k else 0 := by
    intro J k
    unfold tab
    rw [if_pos (by omega)]
  unfold rowOf
  rw [sum_two (a := (z.L - 1) * 2) (by omega)]
  · have e : ∑ k : Fin n, tab ex z (2 * z.L - 1) ((z.L - 1) * 2) j k * B ((z.L - 1) * 2 * n + k) +
        ∑ k : Fin n, tab ex z (2 * z.L - 1) ((z.L - 1) * 2 + 1) j k * B (((z.L - 1) * 2 + 1) * n + k) =
        ∑ k : Fin n, (bottomA ex z j k * al B (z.L - 1) k + bottomB z j k * be B (z.L - 1) k) := by
      rw [← Finset.sum_add_distrib]
      refine Finset.sum_congr rfl fun k _ => ?_
      rw [← al_eq, ← be_eq, ht, ht, if_neg (by omega), if_pos rfl, if_pos rfl, Nat.mul_comm (z.L - 1) 2]
    rw [e]
    unfold F1 refl bottomA bottomB G1
    dsimp only
    split_ifs with hs
    · simp only [Finset.mul_sum]
      rw [Finset.sum_comm, ← Finset.sum_sub_distrib]
      refine Finset.sum_congr rfl fun k _ => ?_
      have : ∑ l : Fin n, (z.Rs j l : K) * (al B (z.L - 1) k * -(z.m (z.L - 1)).Xm l k * lam ex z (z.L - 1) k +
          be B (z.L - 1) k * -(z.m (z.L - 1)).Xp l k) =
          (∑ l : Fin n, (z.Rs j l : K) * -(z.m (z.L - 1)).Xm l k) * (al B (z.L - 1) k * lam ex z (z.L - 1) k) +
          (∑ l : Fin n, (z.Rs j l : K) * -(z.m (z.L - 1)).Xp l k) * be B (z.L - 1) k := by
        rw [Finset.sum_mul, Finset.sum_mul, ← Finset.sum_add_distrib]
        exact Finset.sum_congr rfl fun l _ => by ring
      rw [this]; ring
    · rw [sub_zero]
      exact Finset.sum_congr rfl fun k _ => by ring
  · intro J h0 h1
    refine Finset.sum_eq_zero fun k _ => ?_
    rw [ht, if_neg h1, if_neg h0, zero_mul]

/-! ### The right hand side, row by row -/

/-- The particular solution at the top of a layer, up and down, and at the bottom. -/
def P0p (i : Nat) : Source.V n := fun j => (if z.solar then z.Fsp i j else 0) + if z.thermal then z.Ft0p i j else 0
def P0m (i : Nat) : Source.V n := fun j => (if z.solar then z.Fsm i j else 0) + if z.thermal then z.Ft0m i j else 0
def P1p (i : Nat) : Source.V n := fun j =>
  (if z.solar then z.Fs1p i j * z.atran i else 0) + if z.thermal then z.Ft1p i j else 0
def P1m (i : Nat) : Source.V n := fun j =>
  (if z.solar then z.Fs1m i j * z.atran i else 0) + if z.thermal then z.Ft1m i j else 0

theorem rhs_row (hL : 1 ≤ z.L) (j : Fin n) :
    rhs z j.val = (z.I1m j : K) - (P0m z 0 j : K) ∧
    (∀ i, i + 1 < z.L → rhs z ((1 + 2 * i) * n + j.val) = (P0p z (i + 1) j : K) - (P1p z i j : K)) ∧
    (∀ i, i + 1 < z.L → rhs z ((2 + 2 * i) * n + j.val) = (P0m z (i + 1) j : K) - (P1m z i j : K)) ∧
    rhs z ((2 * z.L - 1) * n + j.val) =
      (z.Inp j : K) - (P1p z (z.L - 1) j : K) + refl z (fun l => (P1m z (z.L - 1) l : K)) j := by
  set B1 : Nat → K := each n (fun j B => bump B (nComp z - n + j) (z.Inp j : K))
    (each n (fun i B => bump B i.val (z.I1m i : K)) fun _ => 0) with hB1
  have hb : ∀ I, B1 (I * n + j.val) = if I = 2 * z.L - 1 then (z.Inp j : K) else if I = 0 then (z.I1m j : K) else 0 := by
    intro I
    rw [hB1, bump_row (2 * z.L - 1) (fun j => nComp z - n + j) (fun j => pos_bot hL j), bump_row 0 _ (fun j => by simp)]
    by_cases h : I = 2 * z.L - 1
    · rw [if_pos h, if_pos h, if_neg (by omega), zero_add]
    · rw [if_neg h, if_neg h]; simp
  have hb0 : B1 j.val = (z.I1m j : K) := by
    have := hb 0
    rw [if_neg (by omega), if_pos rfl] at this
    simpa using this
  have hbu : ∀ i, i + 1 < z.L → B1 ((1 + 2 * i) * n + j.val) = 0 := fun i hi => by
    rw [hb, if_neg (by omega), if_neg (by omega)]
  have hbd : ∀ i, i + 1 < z.L → B1 ((2 + 2 * i) * n + j.val) = 0 := fun i hi => by
    rw [hb, if_neg (by omega), if_neg (by omega)]
  have hbb : B1 ((2 * z.L - 1) * n + j.val) = (z.Inp j : K) := by rw [hb, if_pos rfl]
  have hr : rhs z = (if z.thermal then
      addRows (2 * n * z.L) z.L (fun i => -(z.Ft0m 0 i : K))
      (fun i j => (z.Ft0p (i + 1) j : K) - (z.Ft1p i j : K))
      (fun i j => (z.Ft0m (i + 1) j : K) - (z.Ft1m i j : K))
      (fun j => -(z.Ft1p (z.L - 1) j : K) +
        if z.surface then ∑ k, (z.Rs j k : K) * (z.Ft1m (z.L - 1) k : K) else 0)
      (if z.solar then
        addRows (2 * n * z.L) z.L (fun i => -(z.Fsm 0 i : K))
        (fun i j => (z.Fsp (i + 1) j : K) - (z.Fs1p i j : K) * (z.atran i : K))
        (fun i j => (z.Fsm (i + 1) j : K) - (z.Fs1m i j : K) * (z.atran i : K))
        (fun j => -(z.Fs1p (z.L - 1) j : K) * (z.atran (z.L - 1) : K) +
          if z.surface then (∑ k, (z.Rs j k : K) * (z.Fs1m (z.L - 1) k : K)) * (z.atran (z.L - 1) : K) else 0) B1
      else B1)
    else (if z.solar then
        addRows (2 * n * z.L) z.L (fun i => -(z.Fsm 0 i : K))
        (fun i j => (z.Fsp (i + 1) j : K) - (z.Fs1p i j : K) * (z.atran i : K))
        (fun i j => (z.Fsm (i + 1) j : K) - (z.Fs1m i j : K) * (z.atran i : K))
        (fun j => -(z.Fs1p (z.L - 1) j : K) * (z.atran (z.L - 1) : K) +
          if z.surface then (∑ k, (z.Rs j k : K) * (z.Fs1m (z.L - 1) k : K)) * (z.atran (z.L - 1) : K) else 0) B1
      else B1)) := rfl
  have ar := @addRows_row n K _ z.L hL
  have hrefl : refl z (fun l => (P1m z (z.L - 1) l : K)) j =
      (if z.solar then if z.surface then (∑ k, (z.Rs j k : K) * (z.Fs1m (z.L - 1) k : K)) * (z.atran (z.L - 1) : K)
        else 0 else 0) + if z.thermal then if z.surface then ∑ k, (z.Rs j k : K) * (z.Ft1m (z.L - 1) k : K)
        else 0 else 0 := by
    unfold refl P1m
    by_cases hs : z.surface <;> by_cases h1 : z.solar <;> by_cases h2 : z.thermal <;>
      simp only [hs, h1, h2, if_true, if_false, Bool.false_eq_true, RCLike.ofReal_add, RCLike.ofReal_mul,
        RCLike.ofReal_zero, add_zero, zero_add, mul_zero, Finset.sum_const_zero, Finset.sum_mul, mul_add,
        Finset.sum_add_distrib] <;> simp only [mul_assoc]
  rw [hrefl, hr]
  unfold P0m P0p P1p P1m
  refine ⟨?_, ?_, ?_, ?_⟩
  · split_ifs <;> simp only [(ar _ _ _ _ _ j).1, hb0] <;> push_cast <;> ring
  · intro i hi
    split_ifs <;> simp only [(ar _ _ _ _ _ j).2.1 i hi, hbu i hi] <;> push_cast <;> ring
  · intro i hi
    split_ifs <;> simp only [(ar _ _ _ _ _ j).2.2.1 i hi, hbd i hi] <;> push_cast <;> ring
  · split_ifs <;> simp only [(ar _ _ _ _ _ j).2.2.2, hbb] <;> push_cast <;> ring

/-! ### What the system says -/

/-- The conditions at the two ends and at the interfaces. -/
structure Meets (B : Nat → K) : Prop where
  top : ∀ j, G0 ex z B 0 j + (P0m z 0 j : K) = (z.I1m j : K)
  up : ∀ i, i + 1 < z.L → ∀ j, F1 ex z B i j + (P1p z i j : K) = F0 ex z B (i + 1) j + (P0p z (i + 1) j : K)
  dn : ∀ i, i + 1 < z.L → ∀ j, G1 ex z B i j + (P1m z i j : K) = G0 ex z B (i + 1) j + (P0m z (i + 1) j : K)
  bot : ∀ j, F1 ex z B (z.L - 1) j + (P1p z (z.L - 1) j : K) =
    (z.Inp j : K) + refl z (fun l => G1 ex z B (z.L - 1) l + (P1m z (z.L - 1) l : K)) j

theorem refl_add (f g : Fin n → K) (j : Fin n) : refl z (fun l => f l + g l) j = refl z f j + refl z g j := by
  unfold refl
  split_ifs
  · rw [← Finset.sum_add_distrib]; exact Finset.sum_congr rfl fun _ _ => by ring
  · simp

/-- A row of blocks is one of four kinds. -/
theorem kinds {L I : Nat} (h : I < 2 * L) : I = 0 ∨ (∃ i, i + 1 < L ∧ I = 1 + 2 * i) ∨
    (∃ i, i + 1 < L ∧ I = 2 + 2 * i) ∨ I = 2 * L - 1 := by
  by_cases h0 : I = 0
  · exact Or.inl h0
  · by_cases h1 : I = 2 * L - 1
    · exact Or.inr (Or.inr (Or.inr h1))
    · by_cases h2 : I % 2 = 1
      · exact Or.inr (Or.inl ⟨I / 2, by omega, by omega⟩)
      · exact Or.inr (Or.inr (Or.inl ⟨I / 2 - 1, by omega, by omega⟩))

theorem rows_iff (hL : 1 ≤ z.L) (B R : Nat → K) :
    ((system ex z).read (nDiags n) (nComp z) *ᵥ fun c => B c.val) = (fun c => R c.val) ↔
      (∀ j : Fin n, G0 ex z B 0 j = R j) ∧
      (∀ i, i + 1 < z.L → ∀ j : Fin n, F1 ex z B i j - F0 ex z B (i + 1) j = R ((1 + 2 * i) * n + j)) ∧
      (∀ i, i + 1 < z.L → ∀ j : Fin n, G1 ex z B i j - G0 ex z B (i + 1) j = R ((2 + 2 * i) * n + j)) ∧
      ∀ j : Fin n, F1 ex z B (z.L - 1) j - refl z (G1 ex z B (z.L - 1)) j = R ((2 * z.L - 1) * n + j) := by
  have hlt : ∀ I, I < 2 * z.L → ∀ j : Fin n, I * n + j.val < nComp z := by
    intro I hI j
    rw [nComp_eq]
    have : (I + 1) * n ≤ 2 * z.L * n := Nat.mul_le_mul_right n hI
    have hj := j.isLt
    have : I * n + n ≤ 2 * z.L * n := by rw [← Nat.succ_mul]; exact this
    omega
  have hall : ((system ex z).read (nDiags n) (nComp z) *ᵥ fun c => B c.val) = (fun c => R c.val) ↔
      ∀ I, I < 2 * z.L → ∀ j : Fin n, rowOf ex z B I j = R (I * n + j) := by
    constructor
    · intro h I hI j
      have := congrFun h ⟨I * n + j, hlt I hI j⟩
      rw [system_row ex z hL B I hI j] at this
      exact this
    · intro h
      funext c
      have hn : 0 < n := by
        by_contra h0
        have : n = 0 := by omega
        have hc := c.isLt
        unfold nComp at hc
        subst this; simp at hc
      have hc : c.val < 2 * z.L * n := lt_of_lt_of_eq c.isLt (nComp_eq z)
      have hI : c.val / n < 2 * z.L := (Nat.div_lt_iff_lt_mul hn).2 hc
      have hj : c.val % n < n := Nat.mod_lt _ hn
      have hcv : c.val / n * n + c.val % n = c.val := Nat.div_add_mod' _ _
      have hr := system_row ex z hL B (c.val / n) hI ⟨c.val % n, hj⟩ (by
        change c.val / n * n + c.val % n < _; rw [hcv]; exact c.isLt)
      have hce : (⟨c.val / n * n + c.val % n, by rw [hcv]; exact c.isLt⟩ : Fin (nComp z)) = c := Fin.ext hcv
      have hh := h (c.val / n) hI ⟨c.val % n, hj⟩
      change _ = R (c.val / n * n + c.val % n) at hh
      rw [hcv] at hh
      rw [← hh]
      unfold rowOf
      rw [← hr]
      exact congrArg _ hce.symm
  rw [hall]
  constructor
  · intro h
    refine ⟨fun j => ?_, fun i hi j => ?_, fun i hi j => ?_, fun j => ?_⟩
    · have := h 0 (by omega) j
      rw [rowOf_top ex z hL] at this
      simpa using this
    · rw [← rowOf_up ex z hi]; exact h _ (by omega) j
    · rw [← rowOf_dn ex z hi]; exact h _ (by omega) j
    · rw [← rowOf_bot ex z hL]; exact h _ (by omega) j
  · rintro ⟨h0, hu, hd, hb⟩ I hI j
    rcases kinds hI with rfl | ⟨i, hi, rfl⟩ | ⟨i, hi, rfl⟩ | rfl
    · rw [rowOf_top ex z hL, h0]; simp
    · rw [rowOf_up ex z hi, hu i hi]
    · rw [rowOf_dn ex z hi, hd i hi]
    · rw [rowOf_bot ex z hL, hb]

theorem meets_iff (hL : 1 ≤ z.L) (B : Nat → K) :
    ((system ex z).read (nDiags n) (nComp z) *ᵥ fun c => B c.val) = (fun c => rhs z c.val) ↔ Meets ex z B := by
  rw [rows_iff ex z hL]
  constructor
  · rintro ⟨h0, hu, hd, hb⟩
    refine ⟨fun j => ?_, fun i hi j => ?_, fun i hi j => ?_, fun j => ?_⟩
    · rw [h0, (rhs_row z hL j).1]; ring
    · have := hu i hi j; rw [(rhs_row z hL j).2.1 i hi] at this; linear_combination this
    · have := hd i hi j; rw [(rhs_row z hL j).2.2.1 i hi] at this; linear_combination this
    · have := hb j
      rw [(rhs_row z hL j).2.2.2] at this
      rw [refl_add]; linear_combination this
  · rintro ⟨h0, hu, hd, hb⟩
    refine ⟨fun j => ?_, fun i hi j => ?_, fun i hi j => ?_, fun j => ?_⟩
    · rw [(rhs_row z hL j).1]; linear_combination h0 j
    · rw [(rhs_row z hL j).2.1 i hi]; linear_combination hu i hi j
    · rw [(rhs_row z hL j).2.2.1 i hi]; linear_combination hd i hi j
    · have := hb j
      rw [refl_add] at this
      rw [(rhs_row z hL j).2.2.2]; linear_combination this

/-- An exact solver of linear systems, of every size. -/
def ExactAll (inv? : {N : Nat} → Matrix (Fin N) (Fin N) K → Option (Matrix (Fin N) (Fin N) K)) : Prop :=
  ∀ N, Eig.Exact (inv? (N := N))

variable {inv? : {N : Nat} → Matrix (Fin N) (Fin N) K → Option (Matrix (Fin N) (Fin N) K)}

theorem solved_eq {N : Nat} (x : Matrix (Fin N) (Fin N) K) (R : Nat → K) :
    (fun c : Fin N => solved N x R c.val) = x *ᵥ fun c => R c.val := by
  funext c
  unfold solved
  rw [dif_pos c.isLt]

/-- The unknowns that are found meet the conditions, and no others do. -/
theorem solve_meets {ex : K → K} {z : Inp n K} (hex : ExactAll inv?) (hL : 1 ≤ z.L) {B : Nat → K}
    (h : solveBvp ex z inv? = some B) :
    Meets ex z B ∧ ∀ B', Meets ex z B' → ∀ r, r < nComp z → B' r = B r := by
  unfold solveBvp at h
  rw [if_pos (system_ok ex z hL)] at h
  cases hx : inv? ((system ex z).read (nDiags n) (nComp z)) with
  | none => simp [hx] at h
  | some x =>
    simp only [hx] at h
    have hx := (hex _ _ _).1 hx
    have hx' := mul_eq_one_comm.1 hx
    injection h with h
    have hB : (fun c : Fin (nComp z) => B c.val) = x *ᵥ fun c => rhs z c.val := by
      rw [← h]; exact solved_eq _ _
    refine ⟨(meets_iff ex z hL B).1 ?_, fun B' hB' r hr => ?_⟩
    · rw [hB, mulVec_mulVec, hx, one_mulVec]
    · have := (meets_iff ex z hL B').2 hB'
      have h2 : (fun c : Fin (nComp z) => B' c.val) = fun c => B c.val := by
        rw [hB, ← this, mulVec_mulVec, hx', one_mulVec]
      exact congrFun h2 ⟨r, hr⟩

/-- The radiances at a level in terms of the modes. -/
theorem level_eq (B : Nat → K) (lev : Nat) :
    level ex z B lev =
      if lev ≠ z.L then (fun j => RCLike.re (F0 ex z B lev j) + P0p z lev j, fun j => RCLike.re (G0 ex z B lev j) + P0m z lev j)
      else (fun j => RCLike.re (F1 ex z B (z.L - 1) j) + P1p z (z.L - 1) j,
        fun j => RCLike.re (G1 ex z B (z.L - 1) j) + P1m z (z.L - 1) j) := by
  unfold level F0 F1 G0 G1 P0p P0m P1p P1m al be
  split_ifs <;> simp only [add_assoc]

end Xrtm.Bvp
