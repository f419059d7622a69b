import Verif.Model.TwoStream
import Verif.Proof.BvpStack

/-! The two stream solver sets up the boundary value problem with one direction. -/

namespace Xrtm.TwoStream
open Xrtm.Loops

variable (z : Inp)

/-- The same for the boundary value solver. -/
noncomputable def toBvp : Bvp.Inp 1 ℝ where
  L := z.L
  m := fun i => ⟨fun _ => nu z i, fun _ _ => Xp z i, fun _ _ => 1⟩
  ltau := z.ltau
  atran := z.atran
  Fsp := fun i _ => Fp z i
  Fsm := fun i _ => Fm z i
  Fs1p := fun i _ => Fp z i
  Fs1m := fun i _ => Fm z i
  Ft0p := 0
  Ft0m := 0
  Ft1p := 0
  Ft1m := 0
  Rs := fun _ _ => z.Rqq
  I1m := 0
  Inp := fun _ => if z.solar && z.surface then solfac z * z.btran z.L * z.Rq0 else 0
  surface := z.surface
  solar := z.solar
  thermal := false

theorem lam_eq (i : Nat) (k : Fin 1) : Bvp.lam Real.exp (toBvp z) i k = Lam z i := by
  unfold Bvp.lam Lam toBvp; simp

/-! ### The array -/

theorem store_A (N r c : Nat) (x : ℝ) (a : Arr) (r' c' : Nat) :
    (a.store N r c x).A r' c' = if r' = r ∧ c' = c then x else a.A r' c' := rfl

theorem store_ok {N r c : Nat} (x : ℝ) {a : Arr} (ha : a.ok = true) (hr : r < N) (hc : c < N) :
    (a.store N r c x).ok = true := by
  simp [Arr.store, ha, hr, hc]

/-- One interface. -/
noncomputable def iface (k : Nat) (a : Arr) : Arr := above z (k + 1) (below z k a)

/-- Turns cut differently. -/
theorem forN_shift {σ : Type} (f g : Nat → σ → σ) (m : Nat) (s : σ) :
    f (m + 1) (forN m (fun k a => g (k + 1) (f (k + 1) a)) (g 0 s)) =
      forN (m + 1) (fun k a => f (k + 1) (g k a)) s := by
  induction m with
  | zero => rfl
  | succ m ih => rw [forN_succ, forN_succ, ← ih]

theorem system_eq (hL : 1 ≤ z.L) : system z =
    ((forN (z.L - 1) (iface z)
      (((⟨fun _ _ => 0, true⟩ : Arr).store (2 * z.L) 0 0 (-Xm 0)).store (2 * z.L) 0 1 (-Xp z 0 * Lam z 0))).store
        (2 * z.L) (2 * z.L - 1) (2 * z.L - 2) (Vp z * Lam z (z.L - 1))).store (2 * z.L) (2 * z.L - 1) (2 * z.L - 2 + 1)
          (Vm z) := by
  unfold system
  dsimp only
  by_cases h : z.L > 1
  · rw [if_pos h]
    obtain ⟨m, hm⟩ : ∃ m, z.L - 1 = m + 1 := ⟨z.L - 2, by omega⟩
    have h2 : z.L - 2 = m := by omega
    rw [h2, hm]
    have := forN_shift (above z) (below z) m
      (((⟨fun _ _ => 0, true⟩ : Arr).store (2 * z.L) 0 0 (-Xm 0)).store (2 * z.L) 0 1 (-Xp z 0 * Lam z 0))
    rw [this]
    rfl
  · have h1 : z.L = 1 := by omega
    rw [if_neg h]
    have h2 : z.L - 1 = 0 := by omega
    rw [h2]
    rfl

theorem system_inside (hL : 1 ≤ z.L) : (system z).ok = true := by
  rw [system_eq z hL]
  refine store_ok _ (store_ok _ ?_ (by omega) (by omega)) (by omega) (by omega)
  refine forN_ind_lt (z.L - 1) (fun _ (a : Arr) => a.ok = true) _ _ ?_ ?_
  · exact store_ok _ (store_ok _ rfl (by omega) (by omega)) (by omega) (by omega)
  · intro i a hi ha
    unfold iface above below
    dsimp only
    iterate 8 refine store_ok _ ?_ (by omega) (by omega)
    exact ha

theorem iface_A (i I J : Nat) (a : Arr) : (iface z i a).A I J =
      if I = 2 + 2 * i ∧ J = 2 * i + 3 then Xp z (i + 1) * Lam z (i + 1) else
      if I = 2 + 2 * i ∧ J = 2 * i + 2 then 1 else
      if I = 1 + 2 * i ∧ J = 2 * i + 3 then -1 * Lam z (i + 1) else
      if I = 1 + 2 * i ∧ J = 2 * i + 2 then -Xp z (i + 1) else
      if I = 2 + 2 * i ∧ J = 2 * i + 1 then -Xp z i else
      if I = 2 + 2 * i ∧ J = 2 * i then -1 * Lam z i else
      if I = 1 + 2 * i ∧ J = 2 * i + 1 then 1 else
      if I = 1 + 2 * i ∧ J = 2 * i then Xp z i * Lam z i else
      a.A I J := by
  have e1 : 2 * (i + 1) = 2 + 2 * i := by omega
  have e2 : 2 + 2 * i - 1 = 1 + 2 * i := by omega
  have e3 : 2 * i + 1 = 1 + 2 * i := by omega
  have e4 : 2 + 2 * i + 1 = 2 * i + 3 := by omega
  have e5 : 2 * i + 2 = 2 + 2 * i := by omega
  unfold iface above below
  simp only [store_A, Xm, e1, e2, e3, e4, e5]

/-- The array is the matrix of the boundary value problem. -/
theorem system_tab (hL : 1 ≤ z.L) (I J : Nat) (hI : I < 2 * z.L) :
    (system z).A I J = Bvp.tab Real.exp (toBvp z) I J 0 0 := by
  rw [system_eq z hL]
  simp only [store_A]
  have hl : (toBvp z).L = z.L := rfl
  have hbB : Bvp.bottomB (toBvp z) 0 0 = Vm z := by
    unfold Bvp.bottomB Vm
    simp [toBvp, Xm]
  have hbA : Bvp.bottomA Real.exp (toBvp z) 0 0 = Vp z * Lam z (z.L - 1) := by
    unfold Bvp.bottomA Vp
    simp only [lam_eq]
    simp [toBvp, Xm]
  unfold Bvp.tab
  simp only [lam_eq, hl]
  rw [hbA, hbB]
  have hXp : ∀ i, ((toBvp z).m i).Xp 0 0 = Xp z i := fun _ => rfl
  have hXm : ∀ i, ((toBvp z).m i).Xm 0 0 = 1 := fun _ => rfl
  simp only [hXp, hXm]
  by_cases h1 : I = (z.L - 1) * 2 + 1
  · have h2 : I = 2 * z.L - 1 := by omega
    rw [if_pos h1]
    simp only [h2, true_and]
    have e1 : 2 * z.L - 2 + 1 = (z.L - 1) * 2 + 1 := by omega
    have e2 : 2 * z.L - 2 = (z.L - 1) * 2 := by omega
    rw [e1, e2]
    split_ifs with h3 h4
    · rfl
    · rfl
    · rw [Bvp.forN_miss (fun a : Arr => a.A (2 * z.L - 1) J)]
      · simp only [store_A]
        rw [if_neg (by omega), if_neg (by omega)]
      · intro i a hi
        simp only [iface_A]
        rw [if_neg (by omega), if_neg (by omega), if_neg (by omega), if_neg (by omega),
          if_neg (by omega), if_neg (by omega), if_neg (by omega), if_neg (by omega)]
  · rw [if_neg h1, if_neg (by omega), if_neg (by omega)]
    by_cases h0 : I = 0
    · subst h0
      rw [if_pos rfl, Bvp.forN_miss (fun a : Arr => a.A 0 J)]
      · simp only [store_A, true_and, Xm]
        split_ifs with h2 h3
        · ring
        · rfl
        · rfl
      · intro i a hi
        simp only [iface_A]
        rw [if_neg (by omega), if_neg (by omega), if_neg (by omega), if_neg (by omega),
          if_neg (by omega), if_neg (by omega), if_neg (by omega), if_neg (by omega)]
    · rw [if_neg h0]
      have base : (((⟨fun _ _ => 0, true⟩ : Arr).store (2 * z.L) 0 0 (-Xm 0)).store (2 * z.L) 0 1
          (-Xp z 0 * Lam z 0)).A I J = 0 := by
        simp only [store_A]
        rw [if_neg (by omega), if_neg (by omega)]
      have keep : ∀ i0, (I = 1 + 2 * i0 ∨ I = 2 + 2 * i0) → ∀ i a, i < z.L - 1 → i ≠ i0 →
          (iface z i a).A I J = a.A I J := by
        intro i0 h i a hi hne
        simp only [iface_A]
        rw [if_neg (by omega), if_neg (by omega), if_neg (by omega), if_neg (by omega),
          if_neg (by omega), if_neg (by omega), if_neg (by omega), if_neg (by omega)]
      by_cases hodd : I % 2 = 1
      · rw [if_pos hodd]
        obtain ⟨i, rfl⟩ : ∃ i, I = 1 + 2 * i := ⟨I / 2, by omega⟩
        have hi2 : (1 + 2 * i) / 2 = i := by omega
        simp only [hi2]
        rw [Bvp.forN_hit (fun a : Arr => a.A (1 + 2 * i) J) (fun v =>
          if J = 2 * i + 3 then -Lam z (i + 1) * 1 else
          if J = 2 * i + 2 then -Xp z (i + 1) else
          if J = 2 * i + 1 then 1 else
          if J = 2 * i then Lam z i * Xp z i else v) _ _ i (by omega) ?_ (keep i (Or.inl rfl)), base]
        intro a
        simp only [iface_A]
        have : ¬ (1 + 2 * i = 2 + 2 * i) := by omega
        simp only [this, false_and, if_false, true_and, mul_one, neg_mul, one_mul, mul_comm (Lam z i)]
      · rw [if_neg hodd]
        obtain ⟨i, rfl⟩ : ∃ i, I = 2 + 2 * i := ⟨I / 2 - 1, by omega⟩
        have hi2 : (2 + 2 * i) / 2 - 1 = i := by omega
        simp only [hi2]
        rw [Bvp.forN_hit (fun a : Arr => a.A (2 + 2 * i) J) (fun v =>
          if J = 2 * i + 3 then Lam z (i + 1) * Xp z (i + 1) else
          if J = 2 * i + 2 then 1 else
          if J = 2 * i + 1 then -Xp z i else
          if J = 2 * i then -Lam z i * 1 else v) _ _ i (by omega) ?_ (keep i (Or.inr rfl)), base]
        intro a
        simp only [iface_A]
        have : ¬ (2 + 2 * i = 1 + 2 * i) := by omega
        simp only [this, false_and, if_false, true_and, mul_one, neg_mul, one_mul, mul_comm (Lam z (i + 1))]

theorem matrix_eq (hL : 1 ≤ z.L) :
    (system z).read (2 * z.L) =
      (Bvp.system Real.exp (toBvp z)).read (Bvp.nDiags 1) (Bvp.nComp (toBvp z)) := by
  have hv : ∀ B : Nat → ℝ, ((system z).read (2 * z.L)).mulVec (fun c => B c.val) =
      ((Bvp.system Real.exp (toBvp z)).read (Bvp.nDiags 1) (Bvp.nComp (toBvp z))).mulVec (fun c => B c.val) := by
    intro B
    funext r
    have hr : r.val < 2 * z.L := r.isLt
    have hr1 : r.val * 1 + (0 : Fin 1).val < Bvp.nComp (toBvp z) := by
      rw [Fin.val_zero, Nat.mul_one, Nat.add_zero]; exact hr
    have := Bvp.system_row Real.exp (toBvp z) hL B r.val hr 0 hr1
    have e : (⟨r.val * 1 + (0 : Fin 1).val, hr1⟩ : Fin (Bvp.nComp (toBvp z))) = r := by
      ext; simp
    rw [e] at this
    refine Eq.trans ?_ this.symm
    simp only [Finset.univ_unique, Fin.default_eq_zero, Finset.sum_singleton, Fin.val_zero, Nat.mul_one, Nat.add_zero]
    rw [Finset.sum_range]
    simp only [Matrix.mulVec, dotProduct]
    refine Finset.sum_congr rfl fun c _ => ?_
    rw [← system_tab z hL r.val c.val hr]
    rfl
  refine Matrix.ext fun r c => ?_
  have := congrFun (hv (fun k => if k = c.val then 1 else 0)) r
  have e1 : ∀ M : Matrix (Fin (2 * z.L)) (Fin (2 * z.L)) ℝ,
      M.mulVec (fun k => if k.val = c.val then (1 : ℝ) else 0) r = M r c := by
    intro M
    simp only [Matrix.mulVec, dotProduct, mul_ite, mul_one, mul_zero]
    rw [Finset.sum_eq_single c]
    · simp
    · intro b _ hb; rw [if_neg]; exact fun h => hb (Fin.ext h)
    · simp
  rw [e1] at this
  exact this.trans (e1 _)

/-! ### The right hand side -/

/-- A loop that writes the two rows of each interface, after a first and before a
last row. -/
theorem rows_put (L : Nat) (hL : 1 ≤ L) (top : ℝ) (up dn : Nat → ℝ) (bot : ℝ) (b : Nat → ℝ) :
    let R := put (forN (L - 1) (fun k b => put (put b (2 * k + 1) (up k)) (2 * k + 1 + 1) (dn k)) (put b 0 top))
      (2 * L - 1) bot
    R 0 = top ∧ (∀ i, i + 1 < L → R (1 + 2 * i) = up i) ∧ (∀ i, i + 1 < L → R (2 + 2 * i) = dn i) ∧
      R (2 * L - 1) = bot := by
  intro R
  refine ⟨?_, ?_, ?_, put_same _ _ _⟩
  · have : R 0 = forN (L - 1) (fun k b => put (put b (2 * k + 1) (up k)) (2 * k + 1 + 1) (dn k)) (put b 0 top) 0 :=
      put_other _ _ (by omega)
    rw [this, Bvp.forN_miss (fun b : Nat → ℝ => b 0)]
    · exact put_same _ _ _
    · intro i b _
      rw [put_other _ _ (by omega), put_other _ _ (by omega)]
  · intro i hi
    have : R (1 + 2 * i) = forN (L - 1) (fun k b => put (put b (2 * k + 1) (up k)) (2 * k + 1 + 1) (dn k))
      (put b 0 top) (1 + 2 * i) := put_other _ _ (by omega)
    rw [this]
    refine Bvp.forN_hit (fun b : Nat → ℝ => b (1 + 2 * i)) (fun _ => up i) _ _ i (by omega) ?_ ?_ _
    · intro b
      rw [put_other _ _ (by omega), show 1 + 2 * i = 2 * i + 1 by omega, put_same]
    · intro k b _ hne
      rw [put_other _ _ (by omega), put_other _ _ (by omega)]
  · intro i hi
    have : R (2 + 2 * i) = forN (L - 1) (fun k b => put (put b (2 * k + 1) (up k)) (2 * k + 1 + 1) (dn k))
      (put b 0 top) (2 + 2 * i) := put_other _ _ (by omega)
    rw [this]
    refine Bvp.forN_hit (fun b : Nat → ℝ => b (2 + 2 * i)) (fun _ => dn i) _ _ i (by omega) ?_ ?_ _
    · intro b
      rw [show 2 + 2 * i = 2 * i + 1 + 1 by omega, put_same]
    · intro k b _ hne
      rw [put_other _ _ (by omega), put_other _ _ (by omega)]

theorem P_eq (i : Nat) (j : Fin 1) : Bvp.P0p (toBvp z) i j = Fp z i ∧ Bvp.P0m (toBvp z) i j = Fm z i ∧
    Bvp.P1p (toBvp z) i j = Fp z i * z.atran i ∧ Bvp.P1m (toBvp z) i j = Fm z i * z.atran i := by
  have h : (toBvp z).solar = z.solar := rfl
  have h2 : (toBvp z).thermal = false := rfl
  unfold Bvp.P0p Bvp.P0m Bvp.P1p Bvp.P1m
  rw [h, h2]
  cases hs : z.solar
  · have h1 : Fp z i = 0 := by unfold Fp; rw [hs]; rfl
    have h2 : Fm z i = 0 := by unfold Fm; rw [hs]; rfl
    simp [h1, h2]
  · simp [toBvp]

theorem F_dark (h : z.solar = false) (i : Nat) : Fp z i = 0 ∧ Fm z i = 0 := by
  constructor
  · unfold Fp; rw [h]; rfl
  · unfold Fm; rw [h]; rfl

theorem rhs_eq (hL : 1 ≤ z.L) (r : Nat) (hr : r < 2 * z.L) : rhs z r = Bvp.rhs (toBvp z) r := by
  obtain ⟨b0, bu, bd, bb⟩ := Bvp.rhs_row (toBvp z) hL 0
  have hl : (toBvp z).L = z.L := rfl
  simp only [Nat.mul_one, Nat.add_zero, Fin.val_zero, P_eq, hl] at b0 bu bd bb
  have hI : (toBvp z).I1m 0 = 0 := rfl
  have hIn : (toBvp z).Inp 0 = if z.solar && z.surface then solfac z * z.btran z.L * z.Rq0 else 0 := rfl
  have hRs : ∀ g : Fin 1 → ℝ, Bvp.refl (toBvp z) g 0 = if z.surface then z.Rqq * g 0 else 0 := by
    intro g
    unfold Bvp.refl
    have : (toBvp z).surface = z.surface := rfl
    rw [this]
    split_ifs
    · simp [toBvp]
    · rfl
  have key : ∃ (top : ℝ) (up dn : Nat → ℝ) (bot : ℝ), rhs z 0 = top ∧ (∀ i, i + 1 < z.L → rhs z (1 + 2 * i) = up i) ∧
      (∀ i, i + 1 < z.L → rhs z (2 + 2 * i) = dn i) ∧ rhs z (2 * z.L - 1) = bot ∧
      top = -Fm z 0 ∧ (∀ i, up i = Fp z (i + 1) - Fp z i * z.atran i) ∧
      (∀ i, dn i = Fm z (i + 1) - Fm z i * z.atran i) ∧
      bot = (if z.solar && z.surface then solfac z * z.btran z.L * z.Rq0 else 0) -
        Fp z (z.L - 1) * z.atran (z.L - 1) +
        (if z.surface then z.Rqq * (Fm z (z.L - 1) * z.atran (z.L - 1)) else 0) := by
    cases hs : z.solar
    · refine ⟨0, fun _ => 0, fun _ => 0, 0, ?_⟩
      have h0 : ∀ r, rhs z r = 0 := fun r => by unfold rhs; rw [hs]; rfl
      have hF := F_dark z hs
      simp [h0, hF]
    · have e : rhs z = put (forN (z.L - 1) (fun k b =>
          put (put b (2 * k + 1) (Fp z (k + 1) - Fp z (k + 1 - 1) * z.atran (k + 1 - 1))) (2 * k + 1 + 1)
            (Fm z (k + 1) - Fm z (k + 1 - 1) * z.atran (k + 1 - 1)))
          (put (fun _ => 0) 0 (-Fm z 0))) (2 * z.L - 1) ((a12 z).1 - (a12 z).2 * z.atran (z.L - 1)) := by
        unfold rhs; rw [hs]; rfl
      rw [e]
      obtain ⟨h0, hu, hd, hb⟩ := rows_put z.L hL (-Fm z 0)
        (fun k => Fp z (k + 1) - Fp z (k + 1 - 1) * z.atran (k + 1 - 1))
        (fun k => Fm z (k + 1) - Fm z (k + 1 - 1) * z.atran (k + 1 - 1))
        ((a12 z).1 - (a12 z).2 * z.atran (z.L - 1)) (fun _ => 0)
      refine ⟨_, _, _, _, h0, hu, hd, hb, rfl, fun i => rfl, fun i => rfl, ?_⟩
      unfold a12
      cases z.surface <;> simp
      ring
  obtain ⟨top, up, dn, bot, h0, hu, hd, hb, e0, eu, ed, eb⟩ := key
  rcases Bvp.kinds hr with rfl | ⟨i, hi, rfl⟩ | ⟨i, hi, rfl⟩ | rfl
  · rw [h0, e0, b0]; simp [hI, P_eq]
  · rw [hu i hi, eu, bu i hi]; simp [P_eq]
  · rw [hd i hi, ed, bd i hi]; simp [P_eq]
  · rw [hb, eb, bb, hIn, hRs]; simp [P_eq]

/-! ### The unknowns and the radiances -/

variable {z} {inv? : {N : Nat} → Matrix (Fin N) (Fin N) ℝ → Option (Matrix (Fin N) (Fin N) ℝ)}

theorem solve_bvp (hL : 1 ≤ z.L) {x : Nat → ℝ} (h : solve z inv? = .ok x) :
    Numbers z ∧ ∃ B, Bvp.solveBvp Real.exp (toBvp z) inv? = some B ∧ ∀ r, r < 2 * z.L → B r = x r := by
  unfold solve at h
  by_cases hn : Numbers z
  · rw [if_pos hn, if_pos (system_inside z hL)] at h
    refine ⟨hn, ?_⟩
    have hM := congrArg (fun M => inv? (N := 2 * z.L) M) (matrix_eq z hL)
    unfold Bvp.solveBvp
    dsimp only
    rw [if_pos (Bvp.system_ok Real.exp (toBvp z) hL)]
    cases hi : inv? ((system z).read (2 * z.L)) with
    | none => simp only [hi] at h; cases h
    | some X =>
      simp only [hi, Res.ok.injEq] at h
      have hi2 : inv? ((Bvp.system Real.exp (toBvp z)).read (Bvp.nDiags 1) (Bvp.nComp (toBvp z))) = some X :=
        hM.symm.trans hi
      rw [hi2]
      refine ⟨_, rfl, fun r hr => ?_⟩
      rw [← h]
      unfold Bvp.solved solved
      rw [dif_pos hr]
      have hr' : r < Bvp.nComp (toBvp z) := hr
      rw [dif_pos hr']
      have : (fun c : Fin (2 * z.L) => rhs z c.val) = fun c => Bvp.rhs (toBvp z) c.val :=
        funext fun c => rhs_eq z hL c.val c.isLt
      rw [this]
      rfl
  · rw [if_neg hn] at h; cases h

theorem bvp_solve (hL : 1 ≤ z.L) (hn : Numbers z) {B : Nat → ℝ}
    (h : Bvp.solveBvp Real.exp (toBvp z) inv? = some B) : ∃ x, solve z inv? = .ok x := by
  unfold solve
  rw [if_pos hn, if_pos (system_inside z hL)]
  have hM := congrArg (fun M => inv? (N := 2 * z.L) M) (matrix_eq z hL)
  unfold Bvp.solveBvp at h
  dsimp only at h
  rw [if_pos (Bvp.system_ok Real.exp (toBvp z) hL)] at h
  cases hi : inv? ((system z).read (2 * z.L)) with
  | some X => refine ⟨solved (2 * z.L) X (rhs z), ?_⟩; simp only [hi]
  | none =>
    have hi2 : inv? ((Bvp.system Real.exp (toBvp z)).read (Bvp.nDiags 1) (Bvp.nComp (toBvp z))) = none :=
      hM.symm.trans hi
    rw [hi2] at h
    cases h

theorem solve_singular (hL : 1 ≤ z.L) :
    solve z inv? = .singular ↔ Numbers z ∧ Bvp.solveBvp Real.exp (toBvp z) inv? = none := by
  by_cases hn : Numbers z
  · constructor
    · intro h
      refine ⟨hn, ?_⟩
      cases hb : Bvp.solveBvp Real.exp (toBvp z) inv? with
      | none => rfl
      | some B =>
        obtain ⟨x, hx⟩ := bvp_solve hL hn hb
        rw [h] at hx; cases hx
    · rintro ⟨_, hb⟩
      cases hs : solve z inv? with
      | ok x =>
        obtain ⟨B, hB, _⟩ := (solve_bvp hL hs).2
        rw [hb] at hB; cases hB
      | singular => rfl
      | nan =>
        unfold solve at hs
        rw [if_pos hn, if_pos (system_inside z hL)] at hs
        split at hs <;> cases hs
      | out =>
        unfold solve at hs
        rw [if_pos hn, if_pos (system_inside z hL)] at hs
        split at hs <;> cases hs
  · constructor
    · intro h
      unfold solve at h
      rw [if_neg hn] at h
      cases h
    · exact fun h => absurd h.1 hn

variable (z)

theorem level_bvp (hL : 1 ≤ z.L) {x B : Nat → ℝ} (h : ∀ r, r < 2 * z.L → B r = x r) (lev : Nat) (hlev : lev ≤ z.L) :
    Bvp.level Real.exp (toBvp z) B lev = (fun _ => (level z x lev).1, fun _ => (level z x lev).2) := by
  have hl : (toBvp z).L = z.L := rfl
  have hF : ∀ i, (if z.solar = true then Fp z i else 0) = Fp z i ∧ (if z.solar = true then Fm z i else 0) = Fm z i ∧
      (if z.solar = true then Fp z i * z.atran i else 0) = Fp z i * z.atran i ∧
      (if z.solar = true then Fm z i * z.atran i else 0) = Fm z i * z.atran i := by
    intro i
    cases hs : z.solar
    · simp [F_dark z hs]
    · simp
  have e1 : ∀ i, ((toBvp z).m i).Xp = fun _ _ => Xp z i := fun _ => rfl
  have e2 : ∀ i, ((toBvp z).m i).Xm = fun _ _ => 1 := fun _ => rfl
  have e3 : (toBvp z).Fsp = fun i _ => Fp z i := rfl
  have e4 : (toBvp z).Fsm = fun i _ => Fm z i := rfl
  have e5 : (toBvp z).Fs1p = fun i _ => Fp z i := rfl
  have e6 : (toBvp z).Fs1m = fun i _ => Fm z i := rfl
  have e7 : (toBvp z).solar = z.solar := rfl
  have e8 : (toBvp z).thermal = false := rfl
  have e9 : (toBvp z).atran = z.atran := rfl
  unfold Bvp.level level
  by_cases hv : lev ≠ z.L
  · rw [if_pos (by rw [hl]; exact hv), if_pos hv]
    have h1 := h (lev * 2) (by omega)
    have h2 := h (lev * 2 + 1) (by omega)
    simp only [e1, e2, e3, e4, e7, e8, Finset.univ_unique, Fin.default_eq_zero, Finset.sum_singleton, Fin.val_zero,
      Nat.one_mul, Nat.add_zero, h1, h2, lam_eq, Xm, RCLike.re_to_real, hF, Bool.false_eq_true, if_false]
    ext j <;> ring
  · rw [if_neg (by rw [hl]; exact hv), if_neg hv]
    have h1 := h ((z.L - 1) * 2) (by omega)
    have h2 := h ((z.L - 1) * 2 + 1) (by omega)
    simp only [hl, e1, e2, e5, e6, e7, e8, e9, Finset.univ_unique, Fin.default_eq_zero, Finset.sum_singleton,
      Fin.val_zero, Nat.one_mul, Nat.add_zero, h1, h2, lam_eq, Xm, RCLike.re_to_real, hF, Bool.false_eq_true,
      if_false]
    ext j <;> ring

theorem tau_bvp {x B : Nat → ℝ} (h : ∀ r, r < 2 * z.L → B r = x r) (i : Nat) (hi : i < z.L) (t : ℝ) :
    Bvp.atTau Real.exp (toBvp z) (z.as0 i) B i t = (fun _ => (atTau z x i t).1, fun _ => (atTau z x i t).2) := by
  have hF : ∀ a : ℝ, (if z.solar = true then Fp z i * a else 0) = Fp z i * a ∧
      (if z.solar = true then Fm z i * a else 0) = Fm z i * a := by
    intro a
    cases hs : z.solar
    · simp [F_dark z hs]
    · simp
  have e0 : ((toBvp z).m i).nu = fun _ => nu z i := rfl
  have e1 : ((toBvp z).m i).Xp = fun _ _ => Xp z i := rfl
  have e2 : ((toBvp z).m i).Xm = fun _ _ => 1 := rfl
  have e3 : (toBvp z).Fsp = fun i _ => Fp z i := rfl
  have e4 : (toBvp z).Fsm = fun i _ => Fm z i := rfl
  have e7 : (toBvp z).solar = z.solar := rfl
  have e9 : (toBvp z).ltau = z.ltau := rfl
  have h1 := h (i * 2) (by omega)
  have h2 := h (i * 2 + 1) (by omega)
  unfold Bvp.atTau atTau
  simp only [e0, e1, e2, e3, e4, e7, e9, Finset.univ_unique, Fin.default_eq_zero, Finset.sum_singleton,
    Fin.val_zero, Nat.one_mul, Nat.add_zero, h1, h2, Xm, RCLike.re_to_real, hF, RCLike.ofReal_real_eq_id, id]
  ext j <;> ring

end Xrtm.TwoStream
