import Verif.Model.Streams
import Verif.Proof.TwoStream

/-! The four and six stream solvers set up the boundary value problem. -/

namespace Xrtm.Streams
open Matrix Xrtm.Loops Xrtm.Bvp

variable {n : Nat} (k : Kind n) (z : Inp n) (junk : Nat → Source.V n × Source.V n)

/-- The same for the boundary value solver. -/
noncomputable def toBvp : Bvp.Inp n ℝ where
  L := z.L
  m := fun i => ⟨nu k z i, Xp k z i, Xm k z i⟩
  ltau := z.ltau
  atran := z.atran
  Fsp := fun i => (F k z junk i).1
  Fsm := fun i => (F k z junk i).2
  Fs1p := fun i => (F k z junk i).1
  Fs1m := fun i => (F k z junk i).2
  Ft0p := 0
  Ft0m := 0
  Ft1p := 0
  Ft1m := 0
  Rs := z.Rs
  I1m := 0
  Inp := if z.surface then z.Inp else 0
  surface := z.surface
  solar := true
  thermal := false

theorem lam_eq (i : Nat) : Bvp.lam Real.exp (toBvp k z junk) i = Lam k z i := by
  funext j; rfl

/-! ### The array -/

theorem store_comm (b : Band ℝ) (N M c c' : Nat) (s s' : Int) (x y : ℝ) (h : c ≠ c') :
    (b.store N M c s x).store N M c' s' y = (b.store N M c' s' y).store N M c s x := by
  unfold Band.store
  congr 1
  · funext a t
    dsimp only
    by_cases h1 : a = c' ∧ t = s'
    · rw [if_pos h1, if_neg (by rintro ⟨e, _⟩; exact h (e.symm.trans h1.1)), if_pos h1]
    · rw [if_neg h1]
      by_cases h2 : a = c ∧ t = s
      · rw [if_pos h2, if_pos h2]
      · rw [if_neg h2, if_neg h2, if_neg h1]
  · simp only [Bool.and_assoc]
    rw [Bool.and_comm (decide _) (decide _)]

theorem each_comm {σ : Type*} (body : Fin n → σ → σ) (g : σ → σ) (h : ∀ j s, body j (g s) = g (body j s)) (s : σ) :
    each n body (g s) = g (each n body s) := by
  unfold each
  have : ∀ m, forN m (fun i s => if h : i < n then body ⟨i, h⟩ s else s) (g s) =
      g (forN m (fun i s => if h : i < n then body ⟨i, h⟩ s else s) s) := by
    intro m
    induction m with
    | zero => rfl
    | succ m ih =>
      rw [forN_succ, forN_succ, ih]
      split
      · exact h _ _
      · rfl
  exact this n

theorem insert_comm (N M kd i1 j1 i2 j2 : Nat) (f g : Fin n → Fin n → ℝ) (h : j1 ≠ j2) (b : Band ℝ) :
    insertG N M kd i1 j1 f (insertG N M kd i2 j2 g b) = insertG N M kd i2 j2 g (insertG N M kd i1 j1 f b) := by
  unfold insertG
  refine each_comm _ _ (fun i s => ?_) b
  refine each_comm _ _ (fun j s => ?_) s
  refine (each_comm (fun i' b => _) (fun b => Band.store b N M (j1 * n + j.val) _ _) (fun i' s => ?_) s).symm
  refine each_comm (fun j' b => _) (fun b => Band.store b N M (j1 * n + j.val) _ _) (fun j' s => ?_) s
  refine store_comm _ _ _ _ _ _ _ _ _ ?_
  intro e
  exact h ((place j.isLt j'.isLt).1 e).1

theorem iface_eq (i : Nat) (b : Band ℝ) :
    above k z (i + 1) (below k z i b) = Bvp.interface Real.exp (toBvp k z junk) i b := by
  unfold above below Bvp.interface
  simp only [lam_eq, insert1_eq, insert2_eq]
  have e0 : nc z = nComp (toBvp k z junk) := rfl
  rw [e0]
  have e1 : 2 * (i + 1) - 1 = 1 + 2 * i := by omega
  have e2 : 2 * (i + 1) = 2 + 2 * i := by omega
  have e3 : 2 * i + 1 = 1 + 2 * i := by omega
  have e4 : 2 * i + 2 = 2 + 2 * i := by omega
  have e5 : 2 * i + 3 = 3 + 2 * i := by omega
  have e6 : 2 + 2 * i + 1 = 3 + 2 * i := by omega
  have e7 : 2 + 2 * i - 1 = 1 + 2 * i := by omega
  simp only [e2, e7, e3, e4, e5, e6]
  rw [insert_comm _ _ _ (1 + 2 * i) (2 + 2 * i) (2 + 2 * i) (1 + 2 * i) _ _ (by omega)]
  rw [insert_comm _ _ _ (1 + 2 * i) (2 + 2 * i) (2 + 2 * i) (2 * i) _ _ (by omega)]
  rw [insert_comm _ _ _ (1 + 2 * i) (3 + 2 * i) (2 + 2 * i) (1 + 2 * i) _ _ (by omega)]
  rw [insert_comm _ _ _ (1 + 2 * i) (3 + 2 * i) (2 + 2 * i) (2 * i) _ _ (by omega)]
  rfl

theorem bottomA_eq (a b : Fin n) : Bvp.bottomA Real.exp (toBvp k z junk) a b = pp1 k z a b * Lam k z (z.L - 1) b := by
  unfold Bvp.bottomA pp1
  have h : (toBvp k z junk).surface = z.surface := rfl
  have h2 : (toBvp k z junk).L = z.L := rfl
  simp only [h, h2, lam_eq]
  cases z.surface
  · rfl
  · simp only [if_true, toBvp, mul_neg, Finset.sum_neg_distrib, sub_neg_eq_add]; rfl

theorem bottomB_eq (a b : Fin n) : Bvp.bottomB (toBvp k z junk) a b = pp2 k z a b := by
  unfold Bvp.bottomB pp2
  have h : (toBvp k z junk).surface = z.surface := rfl
  have h2 : (toBvp k z junk).L = z.L := rfl
  simp only [h, h2]
  cases z.surface
  · rfl
  · simp only [if_true, toBvp, mul_neg, Finset.sum_neg_distrib, sub_neg_eq_add]; rfl

/-- The array is that of the boundary value solver. -/
theorem system_eq (hL : 1 ≤ z.L) : system k z = Bvp.system Real.exp (toBvp k z junk) := by
  unfold system Bvp.system
  dsimp only
  have e0 : nc z = nComp (toBvp k z junk) := rfl
  have eL : (toBvp k z junk).L = z.L := rfl
  rw [← e0, eL]
  have e1 : 2 * z.L - 1 = (z.L - 1) * 2 + 1 := by omega
  have e2 : 2 * z.L - 2 = (z.L - 1) * 2 := by omega
  rw [e1, e2]
  simp only [insert1_eq, insert2_eq, bottomA_eq, bottomB_eq, lam_eq]
  congr 1
  have e3 : (fun i j => 1 * Lam k z (z.L - 1) j * pp1 k z i j) =
      fun i j => 1 * (pp1 k z i j * Lam k z (z.L - 1) j) := by funext i j; ring
  rw [e3]
  congr 1
  by_cases h : z.L > 1
  · rw [if_pos h]
    obtain ⟨m, hm⟩ : ∃ m, z.L - 1 = m + 1 := ⟨z.L - 2, by omega⟩
    have h2 : z.L - 2 = m := by omega
    rw [h2, hm, TwoStream.forN_shift (above k z) (below k z) m]
    simp only [iface_eq k z junk]
    rfl
  · rw [if_neg h]
    have h2 : z.L - 1 = 0 := by omega
    rw [h2]
    rfl

theorem system_inside (hL : 1 ≤ z.L) : (system k z).ok = true := by
  rw [system_eq k z (fun _ => (0, 0)) hL]; exact system_ok _ _ hL

/-! ### The right hand side -/

theorem insertV_row (J : Nat) (al : ℝ) (v : Source.V n) (b : Nat → ℝ) (I : Nat) (j : Fin n) :
    insertV J al v b (I * n + j.val) = if I = J then al * v j else b (I * n + j.val) := by
  have := put_row J (fun j : Fin n => J * n + j.val) (fun _ => rfl) (fun j => al * v j) I j b
  unfold insertV
  rw [this]

theorem P_eq (i : Nat) (j : Fin n) :
    Bvp.P0p (toBvp k z junk) i j = (F k z junk i).1 j ∧ Bvp.P0m (toBvp k z junk) i j = (F k z junk i).2 j ∧
    Bvp.P1p (toBvp k z junk) i j = (F k z junk i).1 j * z.atran i ∧
    Bvp.P1m (toBvp k z junk) i j = (F k z junk i).2 j * z.atran i := by
  unfold Bvp.P0p Bvp.P0m Bvp.P1p Bvp.P1m
  simp [toBvp]

theorem rhs_rows (hL : 1 ≤ z.L) (j : Fin n) :
    rhs k z junk j.val = -1 * (F k z junk 0).2 j ∧
    (∀ i, i + 1 < z.L → rhs k z junk ((1 + 2 * i) * n + j.val) =
      1 * ((F k z junk (i + 1)).1 j - z.atran i * (F k z junk i).1 j)) ∧
    (∀ i, i + 1 < z.L → rhs k z junk ((2 + 2 * i) * n + j.val) =
      1 * ((F k z junk (i + 1)).2 j - z.atran i * (F k z junk i).2 j)) ∧
    rhs k z junk ((2 * z.L - 1) * n + j.val) = 1 * (if z.surface then fun j =>
      z.Inp j - z.atran (z.L - 1) * ((F k z junk (z.L - 1)).1 j - ∑ r, z.Rs j r * (F k z junk (z.L - 1)).2 r)
    else fun j => -z.atran (z.L - 1) * (F k z junk (z.L - 1)).1 j) j := by
  have hi := fun I => iface_row (L := z.L)
    (fun i j _ => 1 * ((F k z junk (i + 1)).1 j - z.atran i * (F k z junk i).1 j))
    (fun i j _ => 1 * ((F k z junk (i + 1)).2 j - z.atran i * (F k z junk i).2 j)) I j
    (fun i b => insertV (1 + 2 * i + 1) 1 (fun j => (F k z junk (i + 1)).2 j - z.atran i * (F k z junk i).2 j)
      (insertV (1 + 2 * i) 1 (fun j => (F k z junk (i + 1)).1 j - z.atran i * (F k z junk i).1 j) b)) (by
      intro i B
      rw [insertV_row, insertV_row, show 1 + 2 * i + 1 = 2 + 2 * i by omega])
    (insertV 0 (-1) (F k z junk 0).2 fun _ => 0)
  refine ⟨?_, ?_, ?_, ?_⟩
  · have e : rhs k z junk (0 * n + j.val) = -1 * (F k z junk 0).2 j := by
      unfold rhs
      dsimp only
      rw [insertV_row, if_neg (by omega), (hi 0).2.2 (Or.inl rfl), insertV_row, if_pos rfl]
    simpa using e
  · intro i h
    unfold rhs
    dsimp only
    rw [insertV_row, if_neg (by omega), (hi _).1 i h rfl]
  · intro i h
    unfold rhs
    dsimp only
    rw [insertV_row, if_neg (by omega), (hi _).2.1 i h rfl]
  · unfold rhs
    dsimp only
    rw [insertV_row, if_pos rfl]

theorem rhs_eq (hL : 1 ≤ z.L) (r : Nat) (hr : r < nc z) : rhs k z junk r = Bvp.rhs (toBvp k z junk) r := by
  have hn : 0 < n := by
    rcases Nat.eq_zero_or_pos n with rfl | h
    · unfold nc at hr; omega
    · exact h
  have er : r = r / n * n + r % n := by rw [mul_comm]; exact (Nat.div_add_mod r n).symm
  have hI : r / n < 2 * z.L := by
    rw [Nat.div_lt_iff_lt_mul hn]
    have : nc z = 2 * z.L * n := by unfold nc; ring
    omega
  set j : Fin n := ⟨r % n, Nat.mod_lt _ hn⟩ with hj
  have er' : r = r / n * n + j.val := er
  rw [er']
  obtain ⟨a0, au, ad, ab⟩ := rhs_rows k z junk hL j
  obtain ⟨b0, bu, bd, bb⟩ := Bvp.rhs_row (toBvp k z junk) hL j
  have hl : (toBvp k z junk).L = z.L := rfl
  rw [hl] at bu bd bb
  rcases Bvp.kinds hI with h | ⟨i, hi, h⟩ | ⟨i, hi, h⟩ | h
  · rw [h, Nat.zero_mul, Nat.zero_add, a0, b0]
    have hI : (toBvp k z junk).I1m j = 0 := rfl
    simp [P_eq, hI]
  · rw [h, au i hi, bu i hi]; simp [P_eq]; ring
  · rw [h, ad i hi, bd i hi]; simp [P_eq]; ring
  · rw [h, ab, bb]
    have hIn : (toBvp k z junk).Inp = if z.surface then z.Inp else 0 := rfl
    have hs : (toBvp k z junk).surface = z.surface := rfl
    have hR : (toBvp k z junk).Rs = z.Rs := rfl
    unfold Bvp.refl
    rw [hIn, hs, hR]
    cases z.surface
    · simp [P_eq]; ring
    · simp [P_eq, mul_sub, Finset.mul_sum]
      have : ∀ x, z.Rs j x * ((F k z junk (z.L - 1)).2 x * z.atran (z.L - 1)) =
          z.atran (z.L - 1) * (z.Rs j x * (F k z junk (z.L - 1)).2 x) := fun x => by ring
      simp only [this]
      ring

/-! ### The unknowns and the radiances -/

variable {k z junk} {inv? : {N : Nat} → Matrix (Fin N) (Fin N) ℝ → Option (Matrix (Fin N) (Fin N) ℝ)}

theorem solve_bvp (hL : 1 ≤ z.L) {x : Nat → ℝ} (h : solve k z junk inv? = .ok x) :
    Numbers k z ∧ ∃ B, Bvp.solveBvp Real.exp (toBvp k z junk) inv? = some B ∧ ∀ r, r < nc z → B r = x r := by
  unfold solve at h
  by_cases hc : z.m < 2 * n ∧ z.nCoef < 2 * n
  · rw [if_pos hc] at h; cases h
  rw [if_neg hc] at h
  by_cases hn : Numbers k z
  · rw [if_pos hn, if_pos (system_inside k z hL)] at h
    refine ⟨hn, ?_⟩
    have hM : (system k z).read (nDiags n) (nc z) =
        (Bvp.system Real.exp (toBvp k z junk)).read (nDiags n) (nc z) := by rw [system_eq k z junk hL]
    unfold Bvp.solveBvp
    dsimp only
    rw [if_pos (Bvp.system_ok Real.exp (toBvp k z junk) hL)]
    cases hi : inv? ((system k z).read (nDiags n) (nc z)) with
    | none => simp only [hi] at h; cases h
    | some X =>
      simp only [hi, Res.ok.injEq] at h
      have hi2 : inv? ((Bvp.system Real.exp (toBvp k z junk)).read (nDiags n) (nComp (toBvp k z junk))) = some X :=
        (congrArg (fun M => inv? M) hM).symm.trans hi
      rw [hi2]
      refine ⟨_, rfl, fun r hr => ?_⟩
      rw [← h]
      unfold Bvp.solved
      rw [dif_pos hr]
      have hr' : r < Bvp.nComp (toBvp k z junk) := hr
      rw [dif_pos hr']
      have : (fun c : Fin (nc z) => rhs k z junk c.val) = fun c => Bvp.rhs (toBvp k z junk) c.val :=
        funext fun c => rhs_eq k z junk hL c.val c.isLt
      rw [this]
      rfl
  · rw [if_neg hn] at h; cases h

theorem bvp_solve (hL : 1 ≤ z.L) (hc : ¬ (z.m < 2 * n ∧ z.nCoef < 2 * n)) (hn : Numbers k z) {B : Nat → ℝ}
    (h : Bvp.solveBvp Real.exp (toBvp k z junk) inv? = some B) : ∃ x, solve k z junk inv? = .ok x := by
  unfold solve
  rw [if_neg hc, if_pos hn, if_pos (system_inside k z hL)]
  have hM : (system k z).read (nDiags n) (nc z) =
      (Bvp.system Real.exp (toBvp k z junk)).read (nDiags n) (nc z) := by rw [system_eq k z junk hL]
  unfold Bvp.solveBvp at h
  dsimp only at h
  rw [if_pos (Bvp.system_ok Real.exp (toBvp k z junk) hL)] at h
  cases hi : inv? ((system k z).read (nDiags n) (nc z)) with
  | some X => refine ⟨solved (nc z) X (rhs k z junk), ?_⟩; simp only [hi]
  | none =>
    have hi2 : inv? ((Bvp.system Real.exp (toBvp k z junk)).read (nDiags n) (nComp (toBvp k z junk))) = none :=
      (congrArg (fun M => inv? M) hM).symm.trans hi
    rw [hi2] at h
    cases h

theorem solve_singular (hL : 1 ≤ z.L) :
    solve k z junk inv? = .singular ↔ ¬ (z.m < 2 * n ∧ z.nCoef < 2 * n) ∧ Numbers k z ∧
      Bvp.solveBvp Real.exp (toBvp k z junk) inv? = none := by
  by_cases hc : z.m < 2 * n ∧ z.nCoef < 2 * n
  · constructor
    · intro h; unfold solve at h; rw [if_pos hc] at h; cases h
    · exact fun h => absurd hc h.1
  by_cases hn : Numbers k z
  · constructor
    · intro h
      refine ⟨hc, hn, ?_⟩
      cases hb : Bvp.solveBvp Real.exp (toBvp k z junk) inv? with
      | none => rfl
      | some B =>
        obtain ⟨x, hx⟩ := bvp_solve hL hc hn hb
        rw [h] at hx; cases hx
    · rintro ⟨_, _, hb⟩
      cases hs : solve k z junk inv? with
      | ok x =>
        obtain ⟨B, hB, _⟩ := (solve_bvp hL hs).2
        rw [hb] at hB; cases hB
      | singular => rfl
      | _ =>
        unfold solve at hs
        rw [if_neg hc, if_pos hn, if_pos (system_inside k z hL)] at hs
        split at hs <;> cases hs
  · constructor
    · intro h
      unfold solve at h
      rw [if_neg hc, if_neg hn] at h
      cases h
    · exact fun h => absurd h.2.1 hn

theorem place_lt {L i : Nat} (hi : i < L) (l : Fin n) : i * n * 2 + l.val + n < 2 * n * L ∧ i * n * 2 + l.val < 2 * n * L := by
  have h1 : (i + 1) * (n * 2) ≤ L * (n * 2) := Nat.mul_le_mul_right _ hi
  have h2 := l.isLt
  have e1 : (i + 1) * (n * 2) = i * n * 2 + n * 2 := by ring
  have e2 : L * (n * 2) = 2 * n * L := by ring
  omega

variable (k z junk)

theorem level_bvp (hL : 1 ≤ z.L) {x B : Nat → ℝ} (h : ∀ r, r < nc z → B r = x r) (lev : Nat) (hlev : lev ≤ z.L) :
    Bvp.level Real.exp (toBvp k z junk) B lev = level k z junk x lev := by
  have hl : (toBvp k z junk).L = z.L := rfl
  have e1 : ∀ i, ((toBvp k z junk).m i).Xp = Xp k z i := fun _ => rfl
  have e2 : ∀ i, ((toBvp k z junk).m i).Xm = Xm k z i := fun _ => rfl
  have e3 : ∀ i, (toBvp k z junk).Fsp i = (F k z junk i).1 := fun _ => rfl
  have e4 : ∀ i, (toBvp k z junk).Fsm i = (F k z junk i).2 := fun _ => rfl
  have e5 : ∀ i, (toBvp k z junk).Fs1p i = (F k z junk i).1 := fun _ => rfl
  have e6 : ∀ i, (toBvp k z junk).Fs1m i = (F k z junk i).2 := fun _ => rfl
  have e7 : (toBvp k z junk).solar = true := rfl
  have e8 : (toBvp k z junk).thermal = false := rfl
  have e9 : (toBvp k z junk).atran = z.atran := rfl
  unfold Bvp.level level
  by_cases hv : lev ≠ z.L
  · rw [if_pos (by rw [hl]; exact hv), if_pos hv]
    have hp := fun l : Fin n => place_lt (show lev < z.L by omega) l
    simp only [← Nat.mul_assoc, e1, e2, e3, e4, e7, e8, lam_eq, RCLike.re_to_real, Bool.false_eq_true, if_false,
      if_true, add_zero]
    refine Prod.ext (funext fun j => ?_) (funext fun j => ?_)
    · dsimp only
      congr 1
      refine Finset.sum_congr rfl fun l _ => ?_
      rw [h _ (hp l).1, h _ (hp l).2]; ring
    · dsimp only
      congr 1
      refine Finset.sum_congr rfl fun l _ => ?_
      rw [h _ (hp l).1, h _ (hp l).2]; ring
  · rw [if_neg (by rw [hl]; exact hv), if_neg hv]
    have hp := fun l : Fin n => place_lt (show z.L - 1 < z.L by omega) l
    simp only [hl, ← Nat.mul_assoc, e1, e2, e5, e6, e7, e8, e9, lam_eq, RCLike.re_to_real, Bool.false_eq_true, if_false,
      if_true, add_zero]
    refine Prod.ext (funext fun j => ?_) (funext fun j => ?_)
    · dsimp only
      congr 1
      refine Finset.sum_congr rfl fun l _ => ?_
      rw [h _ (hp l).1, h _ (hp l).2]; ring
    · dsimp only
      congr 1
      refine Finset.sum_congr rfl fun l _ => ?_
      rw [h _ (hp l).1, h _ (hp l).2]; ring

theorem tau_bvp {x B : Nat → ℝ} (h : ∀ r, r < nc z → B r = x r) (i : Nat) (hi : i < z.L) (t : ℝ) :
    Bvp.atTau Real.exp (toBvp k z junk) (z.as0 i) B i t = atTau k z junk x i t := by
  have e0 : ((toBvp k z junk).m i).nu = nu k z i := rfl
  have e1 : ((toBvp k z junk).m i).Xp = Xp k z i := rfl
  have e2 : ((toBvp k z junk).m i).Xm = Xm k z i := rfl
  have e3 : (toBvp k z junk).Fsp i = (F k z junk i).1 := rfl
  have e4 : (toBvp k z junk).Fsm i = (F k z junk i).2 := rfl
  have e7 : (toBvp k z junk).solar = true := rfl
  have e9 : (toBvp k z junk).ltau = z.ltau := rfl
  have hp := fun l : Fin n => place_lt hi l
  unfold Bvp.atTau atTau
  simp only [e0, e1, e2, e3, e4, e7, e9, ← Nat.mul_assoc, RCLike.re_to_real, RCLike.ofReal_real_eq_id, id, if_true]
  refine Prod.ext (funext fun j => ?_) (funext fun j => ?_)
  · dsimp only
    congr 1
    refine Finset.sum_congr rfl fun l _ => ?_
    rw [h _ (hp l).1, h _ (hp l).2]; ring
  · dsimp only
    congr 1
    refine Finset.sum_congr rfl fun l _ => ?_
    rw [h _ (hp l).1, h _ (hp l).2]; ring

end Xrtm.Streams
