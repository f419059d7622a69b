import Verif.Proof.MemBvpStack

/-! The two boundary value solvers can be used for the same stacks. -/

namespace Xrtm.MemBvp
open Matrix Xrtm.Spec Xrtm.Transfer Xrtm.Source Xrtm.Eig

variable {n : Nat} {K : Type} [RCLike K] {ex : K → K}
  {inv? : {N : Nat} → Matrix (Fin N) (Fin N) K → Option (Matrix (Fin N) (Fin N) K)}

theorem solve_none (hex : Bvp.ExactAll inv?) {z : Inp n K} (hs : Safe z inv?) (B0 : Nat → K) :
    solve ex z inv? B0 = none ↔
      ((system ex z (inverses z inv?)).read (Bvp.nDiags n) (nComp z)).det = 0 := by
  rw [solve_eq hs]
  constructor
  · intro h
    by_contra hd
    have e : inv? ((system ex z (inverses z inv?)).read (Bvp.nDiags n) (nComp z)) = some _ := exact_det (hex _) hd
    rw [e] at h
    cases h
  · intro hd
    cases hi : inv? ((system ex z (inverses z inv?)).read (Bvp.nDiags n) (nComp z)) with
    | none => rfl
    | some X => exact absurd hd (det_ne_of ((hex _ _ _).1 hi))

/-- The same layers and ground. -/
structure Alike (zb : Bvp.Inp n K) (z : Inp n K) : Prop where
  one : 1 ≤ z.L
  L : zb.L = z.L
  m : ∀ i, i < z.L → zb.m i = z.m i
  ltau : ∀ i, i < z.L → zb.ltau i = z.ltau i
  surface : zb.surface = z.surface
  Rs : zb.Rs = z.Rs

variable {zb : Bvp.Inp n K} {z : Inp n K}

theorem sums_eq (h : Alike zb z) (B : Nat → K) {i : Nat} (hi' : i < z.L) :
    Bvp.F0 ex zb B i = (z.m i).Xp *ᵥ Bvp.al B i + (z.m i).Xm *ᵥ (fun k => alpha ex z i k * Bvp.be B i k) ∧
    Bvp.G0 ex zb B i = -((z.m i).Xm *ᵥ Bvp.al B i + (z.m i).Xp *ᵥ (fun k => alpha ex z i k * Bvp.be B i k)) ∧
    Bvp.F1 ex zb B i = (z.m i).Xp *ᵥ (fun k => alpha ex z i k * Bvp.al B i k) + (z.m i).Xm *ᵥ Bvp.be B i ∧
    Bvp.G1 ex zb B i = -((z.m i).Xm *ᵥ (fun k => alpha ex z i k * Bvp.al B i k) + (z.m i).Xp *ᵥ Bvp.be B i) := by
  have hlam : ∀ k, Bvp.lam ex zb i k = alpha ex z i k := fun k => by
    unfold Bvp.lam alpha; rw [h.m i hi', h.ltau i hi']
  refine ⟨?_, ?_, ?_, ?_⟩ <;> funext j
  · simp only [Bvp.F0, h.m i hi', hlam, mulVec, dotProduct, Pi.add_apply, ← Finset.sum_add_distrib]
    exact Finset.sum_congr rfl fun k _ => by ring
  · simp only [Bvp.G0, h.m i hi', hlam, mulVec, dotProduct, Pi.neg_apply, Pi.add_apply, ← Finset.sum_add_distrib,
      ← Finset.sum_neg_distrib]
    exact Finset.sum_congr rfl fun k _ => by ring
  · simp only [Bvp.F1, h.m i hi', hlam, mulVec, dotProduct, Pi.add_apply, ← Finset.sum_add_distrib]
    exact Finset.sum_congr rfl fun k _ => by ring
  · simp only [Bvp.G1, h.m i hi', hlam, mulVec, dotProduct, Pi.neg_apply, Pi.add_apply, ← Finset.sum_add_distrib,
      ← Finset.sum_neg_distrib]
    exact Finset.sum_congr rfl fun k _ => by ring

theorem lo_zero (v : Inv n K) (i : Nat) : lo v 0 0 i = 0 ∧ hi v 0 0 i = 0 := by
  unfold lo hi; simp

theorem refl_zero (z : Inp n K) (j : Fin n) : refl z (0 : Fin n → K) j = 0 := by
  unfold refl; split_ifs <;> simp

/-- A vector as unknowns. -/
def extend {N : Nat} (x : Fin N → K) (r : Nat) : K := if h : r < N then x ⟨r, h⟩ else 0

theorem extend_eq {N : Nat} (x : Fin N → K) : (fun c : Fin N => extend x c.val) = x := by
  funext c; unfold extend; rw [dif_pos c.isLt]

theorem det_iff (hex : Bvp.ExactAll inv?) (h : Alike zb z) (hs : Safe z inv?) :
    ((system ex z (inverses z inv?)).read (Bvp.nDiags n) (nComp z)).det = 0 ↔
      ((Bvp.system ex zb).read (Bvp.nDiags n) (Bvp.nComp zb)).det = 0 := by
  have hone := h.one
  have hLb : 1 ≤ zb.L := by rw [h.L]; exact hone
  set v := inverses z inv? with hv
  have hinv := fun {i} (hi' : i < z.L) => inverses_ok hex hs hi'
  rw [← Matrix.exists_mulVec_eq_zero_iff, ← Matrix.exists_mulVec_eq_zero_iff]
  constructor
  · rintro ⟨x, hx0, hx⟩
    set B := extend x with hB
    have hx' : ((system ex z v).read (Bvp.nDiags n) (nComp z) *ᵥ fun c => B c.val) = fun c => (fun _ => (0 : K)) c.val := by
      rw [hB, extend_eq, hx]; rfl
    obtain ⟨h0, hu, hd, hb⟩ := (rows_iff ex z v B fun _ => 0).1 hx'
    obtain ⟨Bb, hBb⟩ := Bvp.collect (fun i => lo v (at_ B i).1 (at_ B i).2 i)
      fun i => -hi v (at_ B (i + 1)).1 (at_ B (i + 1)).2 i
    -- the sums of the modes are the light at the levels
    have e0 : ∀ i, i < z.L → Bvp.F0 ex zb Bb i = (at_ B i).1 ∧ Bvp.G0 ex zb Bb i = (at_ B i).2 := fun i hi' => by
      obtain ⟨s1, s2, -, -⟩ := sums_eq (ex := ex) h Bb hi'
      obtain ⟨l1, l2⟩ := light_of (hinv hi').1 (hinv hi').2 (at_ (n := n) B i).1 (at_ B i).2
      have hd' : (fun k => alpha ex z i k * Bvp.be Bb i k) = -hi v (at_ B i).1 (at_ B i).2 i := by
        funext k
        rw [(hBb i).2]
        simp only [Pi.neg_apply]
        linear_combination -(hd i hi' k)
      rw [s1, s2, hd', (hBb i).1]
      exact ⟨l1, l2⟩
    have e1 : ∀ i, i < z.L → Bvp.F1 ex zb Bb i = (at_ B (i + 1)).1 ∧ Bvp.G1 ex zb Bb i = (at_ B (i + 1)).2 :=
      fun i hi' => by
      obtain ⟨-, -, s1, s2⟩ := sums_eq (ex := ex) h Bb hi'
      obtain ⟨l1, l2⟩ := light_of (hinv hi').1 (hinv hi').2 (at_ (n := n) B (i + 1)).1 (at_ B (i + 1)).2
      have hu' : (fun k => alpha ex z i k * Bvp.al Bb i k) = lo v (at_ B (i + 1)).1 (at_ B (i + 1)).2 i := by
        funext k
        rw [(hBb i).1]
        linear_combination hu i hi' k
      rw [s1, s2, hu', (hBb i).2]
      exact ⟨l1, l2⟩
    refine ⟨fun c => Bb c.val, fun hz0 => hx0 ?_, ?_⟩
    · have hz : ∀ i, i < z.L → Bvp.al Bb i = (0 : Fin n → K) ∧ Bvp.be Bb i = (0 : Fin n → K) := fun i hi' => by
        have hlt : ∀ k : Fin n, i * (n * 2) + k.val + n < Bvp.nComp zb := fun k => by
          unfold Bvp.nComp
          rw [h.L]
          have hk := k.isLt
          have hle : i + 1 ≤ z.L := hi'
          have := Nat.mul_le_mul_right (n * 2) hle
          nlinarith
        constructor
        · funext k
          exact congrFun hz0 ⟨i * (n * 2) + k.val, by have := hlt k; omega⟩
        · funext k
          exact congrFun hz0 ⟨i * (n * 2) + k.val + n, hlt k⟩
      have hat0 : ∀ i, i < z.L → (at_ B i : (Fin n → K) × (Fin n → K)) = (0, 0) := fun i hi' => by
        obtain ⟨s1, s2, -, -⟩ := sums_eq (ex := ex) h Bb hi'
        have q1 : (fun k => alpha ex z i k * Bvp.be Bb i k) = (0 : Fin n → K) := by
          funext k; rw [(hz i hi').2]; simp
        rw [q1, (hz i hi').1, mulVec_zero, mulVec_zero, add_zero] at s1 s2
        exact Prod.ext ((e0 i hi').1.symm.trans s1) ((e0 i hi').2.symm.trans (s2.trans neg_zero))
      have hatL : (at_ B z.L : (Fin n → K) × (Fin n → K)) = (0, 0) := by
        have hi' : z.L - 1 < z.L := by omega
        obtain ⟨-, -, s1, s2⟩ := sums_eq (ex := ex) h Bb hi'
        have q1 : (fun k => alpha ex z (z.L - 1) k * Bvp.al Bb (z.L - 1) k) = (0 : Fin n → K) := by
          funext k; rw [(hz _ hi').1]; simp
        rw [q1, (hz _ hi').2, mulVec_zero, mulVec_zero, add_zero] at s1 s2
        have e := e1 (z.L - 1) hi'
        rw [show z.L - 1 + 1 = z.L by omega] at e
        exact Prod.ext (e.1.symm.trans s1) (e.2.symm.trans (s2.trans neg_zero))
      have hat : ∀ i, i ≤ z.L → (at_ B i : (Fin n → K) × (Fin n → K)) = (0, 0) := fun i hi' => by
        rcases Nat.lt_or_ge i z.L with h2 | h2
        · exact hat0 i h2
        · rw [show i = z.L by omega]; exact hatL
      rw [← extend_eq x]
      funext c
      obtain ⟨I, hI, k, hc⟩ := Bvp.split_index (L := z.L + 1) rfl c
      change B c.val = 0
      rw [hc]
      rcases Nat.even_or_odd' I with ⟨i, rfl | rfl⟩
      · rw [at_up B i k, hat i (by omega)]; rfl
      · rw [at_dn B i k, hat i (by omega)]; rfl
    · have := (Bvp.rows_iff ex zb hLb Bb fun _ => 0).2 ⟨fun j => ?_, fun i hi' j => ?_, fun i hi' j => ?_, fun j => ?_⟩
      · rw [this]; rfl
      · rw [(e0 0 (by omega)).2]; exact h0 j
      · rw [h.L] at hi'
        rw [(e1 i (by omega)).1, (e0 (i + 1) hi').1, sub_self]
      · rw [h.L] at hi'
        rw [(e1 i (by omega)).2, (e0 (i + 1) hi').2, sub_self]
      · have e := e1 (z.L - 1) (by omega)
        rw [show z.L - 1 + 1 = z.L by omega] at e
        have := hb j
        rw [h.L, e.1, e.2]
        unfold Bvp.refl
        unfold refl at this
        rw [h.surface, h.Rs]
        exact this
  · rintro ⟨x, hx0, hx⟩
    set Bb := extend x with hB
    have hx' : ((Bvp.system ex zb).read (Bvp.nDiags n) (Bvp.nComp zb) *ᵥ fun c => Bb c.val) = fun c => (fun _ => (0 : K)) c.val := by
      rw [hB, extend_eq, hx]; rfl
    obtain ⟨h0, hu, hd, hb⟩ := (Bvp.rows_iff ex zb hLb Bb fun _ => 0).1 hx'
    obtain ⟨B, hB⟩ := gather (fun i => if i < z.L then Bvp.F0 ex zb Bb i else Bvp.F1 ex zb Bb (z.L - 1))
      fun i => if i < z.L then Bvp.G0 ex zb Bb i else Bvp.G1 ex zb Bb (z.L - 1)
    have a0 : ∀ i, i < z.L → at_ B i = (Bvp.F0 ex zb Bb i, Bvp.G0 ex zb Bb i) := fun i hi' => by
      rw [hB]; simp only [if_pos hi']
    have a1 : ∀ i, i < z.L → at_ B (i + 1) = (Bvp.F1 ex zb Bb i, Bvp.G1 ex zb Bb i) := fun i hi' => by
      rcases Nat.lt_or_ge (i + 1) z.L with h2 | h2
      · rw [a0 _ h2]
        have h2' : i + 1 < zb.L := by rw [h.L]; exact h2
        exact Prod.ext (funext fun j => (sub_eq_zero.1 (hu i h2' j)).symm)
          (funext fun j => (sub_eq_zero.1 (hd i h2' j)).symm)
      · rw [hB]
        have : z.L - 1 = i := by omega
        simp only [if_neg (show ¬i + 1 < z.L by omega), this]
    have m0 : ∀ i, i < z.L → lo v (at_ B i).1 (at_ B i).2 i = Bvp.al Bb i ∧
        hi v (at_ B i).1 (at_ B i).2 i = -(fun k => alpha ex z i k * Bvp.be Bb i k) := fun i hi' => by
      obtain ⟨s1, s2, -, -⟩ := sums_eq (ex := ex) h Bb hi'
      rw [a0 i hi']
      dsimp only
      rw [s1, s2]
      exact modes_of (mul_eq_one_comm.1 (hinv hi').1) (mul_eq_one_comm.1 (hinv hi').2) _ _
    have m1 : ∀ i, i < z.L → lo v (at_ B (i + 1)).1 (at_ B (i + 1)).2 i = (fun k => alpha ex z i k * Bvp.al Bb i k) ∧
        hi v (at_ B (i + 1)).1 (at_ B (i + 1)).2 i = -Bvp.be Bb i := fun i hi' => by
      obtain ⟨-, -, s1, s2⟩ := sums_eq (ex := ex) h Bb hi'
      rw [a1 i hi']
      dsimp only
      rw [s1, s2]
      exact modes_of (mul_eq_one_comm.1 (hinv hi').1) (mul_eq_one_comm.1 (hinv hi').2) _ _
    refine ⟨fun c => B c.val, fun hz0 => hx0 ?_, ?_⟩
    · have hat : ∀ i, i ≤ z.L → (at_ B i : (Fin n → K) × (Fin n → K)) = (0, 0) := fun i hi' => by
        have hlt : ∀ k : Fin n, i * (n * 2) + k.val + n < nComp z := fun k => by
          unfold nComp
          have hk := k.isLt
          have := Nat.mul_le_mul_right (n * 2) hi'
          nlinarith
        refine Prod.ext (funext fun k => ?_) (funext fun k => ?_)
        · exact congrFun hz0 ⟨i * (n * 2) + k.val, by have := hlt k; omega⟩
        · exact congrFun hz0 ⟨i * (n * 2) + k.val + n, hlt k⟩
      rw [← extend_eq x]
      funext c
      obtain ⟨I, hI, k, hc⟩ := Bvp.split_index (L := zb.L) rfl c
      rw [h.L] at hI
      change Bb c.val = 0
      rw [hc]
      rcases Nat.even_or_odd' I with ⟨i, rfl | rfl⟩
      · have hi' : i < z.L := by omega
        have := (m0 i hi').1
        rw [hat i hi'.le] at this
        dsimp only at this
        rw [(lo_zero v i).1] at this
        have := congrFun this k
        unfold Bvp.al at this
        rw [show 2 * i * n + k.val = i * (n * 2) + k.val by ring]
        exact this.symm
      · have hi' : i < z.L := by omega
        have := (m1 i hi').2
        rw [hat (i + 1) hi'] at this
        dsimp only at this
        rw [(lo_zero v i).2] at this
        have := congrFun this k
        simp only [Pi.zero_apply, Pi.neg_apply] at this
        unfold Bvp.be at this
        rw [show (2 * i + 1) * n + k.val = i * (n * 2) + k.val + n by ring]
        exact neg_eq_zero.1 this.symm
    · have := (rows_iff ex z v B fun _ => 0).2 ⟨fun j => ?_, fun i hi' j => ?_, fun i hi' j => ?_, fun j => ?_⟩
      · rw [this]; rfl
      · rw [a0 0 (by omega)]; exact h0 j
      · rw [(m0 i hi').1, (m1 i hi').1]; ring
      · rw [(m0 i hi').2, (m1 i hi').2]; simp
      · have e := a1 (z.L - 1) (by omega)
        rw [show z.L - 1 + 1 = z.L by omega] at e
        have := hb j
        rw [h.L] at this
        rw [e]
        unfold Bvp.refl at this
        unfold refl
        rw [h.surface, h.Rs] at this
        exact this

/-- One finds the unknowns if and only if the other does. -/
theorem none_iff (hex : Bvp.ExactAll inv?) (h : Alike zb z) (hs : Safe z inv?) (B0 : Nat → K) :
    solve ex z inv? B0 = none ↔ Bvp.solveBvp ex zb inv? = none := by
  rw [solve_none hex hs, Bvp.solve_none hex (by rw [h.L]; exact h.one), det_iff hex h hs]

/-! ### Nothing is divided by zero -/

theorem safe_of {first : Bool} {ns : Nat} {mu w : Source.V n} {c : Nat → Bvp.Content n K} {as0 : Nat → ℝ}
    {S : Stack n} (hex : Bvp.ExactAll inv?) (hp : Posed first ns mu w c as0 z S)
    (hg : ∀ i, i < z.L → ∀ g : Source.V n, g ≠ 0 →
      let x := txr ns (localRT first mu w (c i).om (c i).Ppp (c i).Pmp).1 (localRT first mu w (c i).om (c i).Ppp (c i).Pmp).2
      gammaOf x.1 x.2 *ᵥ g ≠ (as0 i ^ 2) • g) : Safe z inv? := by
  intro i hi'
  obtain ⟨hV, hnu, hE⟩ := hp.solved i hi'
  dsimp only at hE
  have hE2 := hE
  rw [← gamma_map] at hE2
  obtain ⟨h1, -, h3⟩ := modes_WV hnu hE2
  have hm := hp.modes i hi'
  have e1 : (z.m i).Xp + (z.m i).Xm = (c i).V := by rw [hm]; exact h1
  have hnu' : (z.m i).nu = (c i).nu := by rw [hm]; rfl
  have hW : ((z.m i).Xp - (z.m i).Xm).det ≠ 0 := fun h0 => by
    have hd := congrArg Matrix.det h3
    have e2 : ((z.m i).Xp - (z.m i).Xm).det = 0 := h0
    rw [hm] at e2
    rw [h1, det_mul, det_mul, det_diagonal] at hd
    refine mul_ne_zero hV (Finset.prod_ne_zero_iff.2 fun k _ => hnu k) (hd.symm.trans ?_)
    exact mul_eq_zero_of_right _ e2
  have hT : (z.ltau i : K) ≠ 0 := by exact_mod_cast hp.thick i hi'
  have hst : (z.btau (i + 1) : K) - (z.btau i : K) = (as0 i : K) * (z.ltau i : K) := by
    rw [← RCLike.ofReal_sub, hp.step i hi']; push_cast; rfl
  have hsq : ∀ j, (c i).nu j ^ 2 ≠ ((as0 i ^ 2 : ℝ) : K) := fun j h0 => by
    set g : Fin n → K := fun k => (c i).V k j with hgd
    have hg0 : g ≠ 0 := fun h => hV (Matrix.det_eq_zero_of_column_eq_zero j fun k => congrFun h k)
    have hcol : ((gammaOf (txr ns (localRT first mu w (c i).om (c i).Ppp (c i).Pmp).1
        (localRT first mu w (c i).om (c i).Ppp (c i).Pmp).2).1 (txr ns (localRT first mu w (c i).om (c i).Ppp (c i).Pmp).1
        (localRT first mu w (c i).om (c i).Ppp (c i).Pmp).2).2).map fun z : ℝ => (z : K)) *ᵥ g =
        fun k => ((as0 i ^ 2 : ℝ) : K) * g k := by
      funext k
      have := congrFun (congrFun hE k) j
      rw [mul_diagonal, h0] at this
      rw [mul_comm]
      exact this
    set G := gammaOf (txr ns (localRT first mu w (c i).om (c i).Ppp (c i).Pmp).1
        (localRT first mu w (c i).om (c i).Ppp (c i).Pmp).2).1 (txr ns (localRT first mu w (c i).om (c i).Ppp (c i).Pmp).1
        (localRT first mu w (c i).om (c i).Ppp (c i).Pmp).2).2 with hG
    have hre : G *ᵥ (fun k => RCLike.re (g k)) = (as0 i ^ 2) • fun k => RCLike.re (g k) := by
      funext k
      have := congrArg RCLike.re (congrFun hcol k)
      rw [RCLike.re_ofReal_mul] at this
      rw [Pi.smul_apply, smul_eq_mul, ← this]
      simp only [mulVec, dotProduct, map_sum, Matrix.map_apply, RCLike.re_ofReal_mul]
    have him : G *ᵥ (fun k => RCLike.im (g k)) = (as0 i ^ 2) • fun k => RCLike.im (g k) := by
      funext k
      have := congrArg RCLike.im (congrFun hcol k)
      rw [RCLike.im_ofReal_mul] at this
      rw [Pi.smul_apply, smul_eq_mul, ← this]
      simp only [mulVec, dotProduct, map_sum, Matrix.map_apply, RCLike.im_ofReal_mul]
    by_cases hr : (fun k => RCLike.re (g k)) = 0
    · by_cases hm : (fun k => RCLike.im (g k)) = 0
      · exact hg0 (funext fun k => RCLike.ext (by simpa using congrFun hr k) (by simpa using congrFun hm k))
      · exact hg i hi' _ hm him
    · exact hg i hi' _ hr hre
  refine ⟨?_, ?_, fun j => ⟨fun h0 => ?_, fun h0 => ?_⟩⟩
  · have e : inv? ((z.m i).Xp - (z.m i).Xm) = some _ := exact_det (hex _) hW
    exact Option.isSome_iff_exists.2 ⟨_, e⟩
  · have e : inv? ((z.m i).Xp + (z.m i).Xm) = some _ := exact_det (hex _) (by rw [e1]; exact hV)
    exact Option.isSome_iff_exists.2 ⟨_, e⟩
  · unfold den1 at h0
    rw [hst, hnu', ← sub_mul] at h0
    have := (mul_eq_zero.1 h0).resolve_right hT
    refine hsq j ?_
    rw [← sub_eq_zero.1 this]; push_cast; rfl
  · unfold den2 at h0
    have h4 : ((as0 i : K) + (c i).nu j) * (z.ltau i : K) = 0 := by
      rw [hnu'] at h0
      linear_combination -h0 - hst
    have := (mul_eq_zero.1 h4).resolve_right hT
    refine hsq j ?_
    rw [show (c i).nu j = -(as0 i : K) by linear_combination this]; push_cast; ring

end Xrtm.MemBvp
