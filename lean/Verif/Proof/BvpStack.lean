import Verif.Proof.BvpRows
import Verif.Proof.BvpModes
import Verif.Spec.Stack

/-! The unknowns and the light in the stack. -/

namespace Xrtm.Bvp
open Matrix Xrtm.Spec Xrtm.Transfer Xrtm.Source Xrtm.Eig

variable {n : Nat} {K : Type} [RCLike K]

/-- What is in a layer: the single scattering albedo, the phase matrices, and the
eigenvalues (their roots) and eigenvectors. -/
structure Content (n : Nat) (K : Type) where
  om : ℝ
  Ppp : M n
  Pmp : M n
  Pmm : M n
  Ppm : M n
  nu : Fin n → K
  V : Matrix (Fin n) (Fin n) K

/-- The medium. -/
noncomputable def Content.medium (first : Bool) (mu w : Source.V n) (c : Content n K) : Medium n :=
  Medium.of first mu w c.om c.Ppp c.Pmp c.Pmm c.Ppm

/-- The modes the eigenmatrix routine makes. -/
noncomputable def Content.modes (first : Bool) (ns : Nat) (mu w : Source.V n) (c : Content n K) : Modes n K :=
  let z := localRT first mu w c.om c.Ppp c.Pmp
  let x := txr ns z.1 z.2
  Eig.modes (x.1.map fun z : ℝ => (z : K)) c.nu c.V

/-- The eigenvalues and eigenvectors are. -/
def Content.Solved (first : Bool) (ns : Nat) (mu w : Source.V n) (c : Content n K) : Prop :=
  c.V.det ≠ 0 ∧ (∀ i, c.nu i ≠ 0) ∧
    let z := localRT first mu w c.om c.Ppp c.Pmp
    let x := txr ns z.1 z.2
    ((gammaOf x.1 x.2).map fun z : ℝ => (z : K)) * c.V = c.V * diagonal fun i => c.nu i ^ 2

/-- The inputs of the boundary value problem are those of the stack. -/
structure Posed (first : Bool) (ns : Nat) (mu w : Source.V n) (c : Nat → Content n K) (su sd : Nat → ℝ → Source.V n)
    (z : Inp n K) (S : Stack n) : Prop where
  one : 1 ≤ z.L
  L : S.L = z.L
  hns : 0 < ns
  hmu : ∀ i, mu i ≠ 0
  med : ∀ i, i < z.L → S.med i = (c i).medium first mu w
  mirrored : ∀ i, i < z.L → (S.med i).Mirrored ns
  solved : ∀ i, i < z.L → (c i).Solved first ns mu w
  modes : ∀ i, i < z.L → z.m i = (c i).modes first ns mu w
  T : ∀ i, i < z.L → S.T i = z.ltau i
  part : ∀ i, i < z.L → (S.med i).Carries (S.qp i) (S.qm i) (su i) (sd i)
  p0p : ∀ i, i < z.L → P0p z i = su i 0
  p0m : ∀ i, i < z.L → P0m z i = turn ns (sd i 0)
  p1p : ∀ i, i < z.L → P1p z i = su i (z.ltau i)
  p1m : ∀ i, i < z.L → P1m z i = turn ns (sd i (z.ltau i))
  top : z.I1m = turn ns S.top
  bot : z.Inp = S.bot
  refl : ∀ g : Source.V n, S.Rs *ᵥ g = if z.surface then z.Rs *ᵥ turn ns g else 0

variable {ex : K → K} {first : Bool} {ns : Nat} {mu w : Source.V n} {c : Nat → Content n K}
  {su sd : Nat → ℝ → Source.V n} {z : Inp n K} {S : Stack n}

theorem carries_add {m : Medium n} {qp qm up dn up' dn' : ℝ → Source.V n} (h : m.Carries 0 0 up dn)
    (h' : m.Carries qp qm up' dn') : m.Carries qp qm (fun τ => up τ + up' τ) (fun τ => dn τ + dn' τ) := by
  intro τ i
  obtain ⟨u, d, hu, hd, eu, ed⟩ := h τ i
  obtain ⟨u', d', hu', hd', eu', ed'⟩ := h' τ i
  have a1 : m.intoUp (up τ + up' τ) (dn τ + dn' τ) i =
      m.intoUp (up τ) (dn τ) i + m.intoUp (up' τ) (dn' τ) i := by
    simp only [Medium.intoUp, Pi.add_apply, ← mul_add, ← Finset.sum_add_distrib]
    congr 1; exact Finset.sum_congr rfl fun j _ => by ring
  have a2 : m.intoDn (up τ + up' τ) (dn τ + dn' τ) i =
      m.intoDn (up τ) (dn τ) i + m.intoDn (up' τ) (dn' τ) i := by
    simp only [Medium.intoDn, Pi.add_apply, ← mul_add, ← Finset.sum_add_distrib]
    congr 1; exact Finset.sum_congr rfl fun j _ => by ring
  refine ⟨u + u', d + d', hu.fun_add hu', hd.fun_add hd', ?_, ?_⟩
  · rw [a1]; simp only [Pi.add_apply, Pi.zero_apply] at eu ⊢; linear_combination eu + eu'
  · rw [a2]; simp only [Pi.add_apply, Pi.zero_apply] at ed ⊢; linear_combination ed + ed'

theorem turn_add (ns : Nat) (f g : Source.V n) : turn ns (f + g) = turn ns f + turn ns g := by
  funext j; simp only [turn_apply, Pi.add_apply]; ring

theorem sumUp_zero (he : IsExp ex) (a b : Fin n → K) (B : Nat → K) (i : Nat) (ha : al B i = a) (hb : be B i = b)
    (j : Fin n) : sumUp ex (z.m i) (z.ltau i) a b 0 j = F0 ex z B i j := by
  subst ha hb
  unfold sumUp F0 lam
  refine Finset.sum_congr rfl fun k _ => ?_
  simp only [RCLike.ofReal_zero, mul_zero, he.zero, sub_zero, mul_one]

theorem sumDn_zero (he : IsExp ex) (a b : Fin n → K) (B : Nat → K) (i : Nat) (ha : al B i = a) (hb : be B i = b)
    (j : Fin n) : sumDn ex (z.m i) (z.ltau i) a b 0 j = G0 ex z B i j := by
  subst ha hb
  unfold sumDn G0 lam
  refine Finset.sum_congr rfl fun k _ => ?_
  simp only [RCLike.ofReal_zero, mul_zero, he.zero, sub_zero, mul_one]

theorem sumUp_end (he : IsExp ex) (a b : Fin n → K) (B : Nat → K) (i : Nat) (ha : al B i = a) (hb : be B i = b)
    (j : Fin n) : sumUp ex (z.m i) (z.ltau i) a b (z.ltau i) j = F1 ex z B i j := by
  subst ha hb
  unfold sumUp F1 lam
  refine Finset.sum_congr rfl fun k _ => ?_
  simp only [sub_self, RCLike.ofReal_zero, mul_zero, he.zero, mul_one]

theorem sumDn_end (he : IsExp ex) (a b : Fin n → K) (B : Nat → K) (i : Nat) (ha : al B i = a) (hb : be B i = b)
    (j : Fin n) : sumDn ex (z.m i) (z.ltau i) a b (z.ltau i) j = G1 ex z B i j := by
  subst ha hb
  unfold sumDn G1 lam
  refine Finset.sum_congr rfl fun k _ => ?_
  simp only [sub_self, RCLike.ofReal_zero, mul_zero, he.zero, mul_one]

/-- Unknowns put together from those of the layers. -/
theorem collect (a b : Nat → Fin n → K) : ∃ B : Nat → K, ∀ i, al B i = a i ∧ be B i = b i := by
  rcases Nat.eq_zero_or_pos n with rfl | hn
  · exact ⟨fun _ => 0, fun i => ⟨funext fun j => j.elim0, funext fun j => j.elim0⟩⟩
  refine ⟨fun r => if h : r / n % 2 = 0 then a (r / n / 2) ⟨r % n, Nat.mod_lt _ hn⟩
    else b (r / n / 2) ⟨r % n, Nat.mod_lt _ hn⟩, fun i => ⟨?_, ?_⟩⟩
  · funext k
    have e1 : (i * (n * 2) + k.val) / n = 2 * i := by
      rw [show i * (n * 2) = n * (2 * i) by ring, Nat.mul_add_div hn, Nat.div_eq_of_lt k.isLt, Nat.add_zero]
    have e2 : (i * (n * 2) + k.val) % n = k.val := by
      rw [show i * (n * 2) = n * (2 * i) by ring, Nat.mul_add_mod, Nat.mod_eq_of_lt k.isLt]
    unfold al
    dsimp only
    rw [dif_pos (by rw [e1]; omega)]
    have h3 : (i * (n * 2) + k.val) / n / 2 = i := by rw [e1]; omega
    rw [h3]
    exact congrArg _ (Fin.ext e2)
  · funext k
    have e1 : (i * (n * 2) + k.val + n) / n = 2 * i + 1 := by
      rw [show i * (n * 2) + k.val + n = n * (2 * i + 1) + k.val by ring, Nat.mul_add_div hn,
        Nat.div_eq_of_lt k.isLt, Nat.add_zero]
    have e2 : (i * (n * 2) + k.val + n) % n = k.val := by
      rw [show i * (n * 2) + k.val + n = n * (2 * i + 1) + k.val by ring, Nat.mul_add_mod, Nat.mod_eq_of_lt k.isLt]
    unfold be
    dsimp only
    rw [dif_neg (by rw [e1]; omega)]
    have h3 : (i * (n * 2) + k.val + n) / n / 2 = i := by rw [e1]; omega
    rw [h3]
    exact congrArg _ (Fin.ext e2)

theorem refl_real (hp : Posed first ns mu w c su sd z S) (g : Source.V n) (j : Fin n) :
    refl z (fun l => (turn ns g l : K)) j = ((S.Rs *ᵥ g) j : K) := by
  rw [hp.refl g]
  unfold refl
  split_ifs
  · simp only [mulVec, dotProduct, RCLike.ofReal_sum, RCLike.ofReal_mul]
  · simp

/-- All light in the stack is a sum of the modes that meets the conditions, and the
particular solutions. -/
theorem lit_modes (he : IsExp ex) (hp : Posed first ns mu w c su sd z S) {up dn : Nat → ℝ → Source.V n}
    (hl : S.Lit up dn) : ∃ B : Nat → K, Meets ex z B ∧ ∀ i, i < z.L → ∀ s j,
      ((up i s - su i s) j : K) = sumUp ex (z.m i) (z.ltau i) (al B i) (be B i) s j ∧
      (turn ns (dn i s - sd i s) j : K) = sumDn ex (z.m i) (z.ltau i) (al B i) (be B i) s j := by
  have hlay : ∀ i, ∃ ab : (Fin n → K) × (Fin n → K), i < z.L → ∀ s j,
      ((up i s - su i s) j : K) = sumUp ex (z.m i) (z.ltau i) ab.1 ab.2 s j ∧
      (turn ns (dn i s - sd i s) j : K) = sumDn ex (z.m i) (z.ltau i) ab.1 ab.2 s j := by
    intro i
    by_cases hi : i < z.L
    · have hc := hl.layer i (by rw [hp.L]; exact hi)
      have hs := carries_sub hc (hp.part i hi)
      rw [hp.med i hi] at hs
      have hmi := hp.mirrored i hi
      rw [hp.med i hi] at hmi
      obtain ⟨a, b, h⟩ := layer_modal he (z.ltau i) hp.hns hp.hmu hmi (hp.solved i hi).1 (hp.solved i hi).2.1
        (hp.solved i hi).2.2 hs
      refine ⟨(a, b), fun _ s j => ?_⟩
      rw [hp.modes i hi]
      exact h s j
    · exact ⟨(0, 0), fun h => absurd h hi⟩
  choose ab hab using hlay
  obtain ⟨B, hB⟩ := collect (fun i => (ab i).1) (fun i => (ab i).2)
  have key : ∀ i, i < z.L → ∀ s j,
      ((up i s - su i s) j : K) = sumUp ex (z.m i) (z.ltau i) (al B i) (be B i) s j ∧
      (turn ns (dn i s - sd i s) j : K) = sumDn ex (z.m i) (z.ltau i) (al B i) (be B i) s j := by
    intro i hi s j
    rw [(hB i).1, (hB i).2]; exact hab i hi s j
  have u0 : ∀ i, i < z.L → ∀ j, (up i 0 j : K) = F0 ex z B i j + (P0p z i j : K) := fun i hi j => by
    have := (key i hi 0 j).1
    rw [sumUp_zero he _ _ B i rfl rfl, Pi.sub_apply, ← hp.p0p i hi] at this
    rw [← this]; push_cast; ring
  have u1 : ∀ i, i < z.L → ∀ j, (up i (z.ltau i) j : K) = F1 ex z B i j + (P1p z i j : K) := fun i hi j => by
    have := (key i hi (z.ltau i) j).1
    rw [sumUp_end he _ _ B i rfl rfl, Pi.sub_apply, ← hp.p1p i hi] at this
    rw [← this]; push_cast; ring
  have tsub : ∀ f g : Source.V n, turn ns (f - g) = turn ns f - turn ns g := fun f g => by
    funext j; simp only [turn_apply, Pi.sub_apply]; ring
  have d0 : ∀ i, i < z.L → ∀ j, (turn ns (dn i 0) j : K) = G0 ex z B i j + (P0m z i j : K) := fun i hi j => by
    have := (key i hi 0 j).2
    rw [sumDn_zero he _ _ B i rfl rfl, tsub, Pi.sub_apply, ← hp.p0m i hi] at this
    rw [← this]; push_cast; ring
  have d1 : ∀ i, i < z.L → ∀ j, (turn ns (dn i (z.ltau i)) j : K) = G1 ex z B i j + (P1m z i j : K) := fun i hi j => by
    have := (key i hi (z.ltau i) j).2
    rw [sumDn_end he _ _ B i rfl rfl, tsub, Pi.sub_apply, ← hp.p1m i hi] at this
    rw [← this]; push_cast; ring
  have h1 := hp.one
  refine ⟨B, ⟨fun j => ?_, fun i hi j => ?_, fun i hi j => ?_, fun j => ?_⟩, key⟩
  · rw [← d0 0 (by omega), hl.sky, hp.top]
  · have hm := hl.meet i (by rw [hp.L]; exact hi)
    rw [hp.T i (by omega)] at hm
    rw [← u1 i (by omega), ← u0 (i + 1) hi, hm.1]
  · have hm := hl.meet i (by rw [hp.L]; exact hi)
    rw [hp.T i (by omega)] at hm
    rw [← d1 i (by omega), ← d0 (i + 1) hi, hm.2]
  · have hg := hl.ground
    rw [hp.L, hp.T _ (by omega)] at hg
    rw [← u1 _ (by omega), hg]
    simp only [← d1 (z.L - 1) (by omega)]
    rw [refl_real hp, hp.bot, Pi.add_apply]; push_cast; ring

theorem modes_of_same {B B' : Nat → K} (h : ∀ r, r < nComp z → B' r = B r) {i : Nat} (hi : i < z.L) :
    al (n := n) B' i = al B i ∧ be (n := n) B' i = be B i := by
  have hlt : i * (n * 2) + n * 2 ≤ nComp z := by
    unfold nComp
    calc i * (n * 2) + n * 2 = (i + 1) * (n * 2) := by ring
      _ ≤ z.L * (n * 2) := Nat.mul_le_mul_right _ hi
      _ = 2 * n * z.L := by ring
  constructor <;> funext k <;> have hk := k.isLt
  · exact h _ (by omega)
  · exact h _ (by omega)

variable {inv? : {N : Nat} → Matrix (Fin N) (Fin N) K → Option (Matrix (Fin N) (Fin N) K)}

/-- All light in the stack is what the unknowns that are found say. -/
theorem lit_found (he : IsExp ex) (hex : ExactAll inv?) (hp : Posed first ns mu w c su sd z S) {B : Nat → K}
    (h : solveBvp ex z inv? = some B) {up dn : Nat → ℝ → Source.V n} (hl : S.Lit up dn) (i : Nat) (hi : i < z.L)
    (s : ℝ) (j : Fin n) :
    ((up i s j : ℝ) : K) = sumUp ex (z.m i) (z.ltau i) (al B i) (be B i) s j + (su i s j : K) ∧
    ((turn ns (dn i s) j : ℝ) : K) = sumDn ex (z.m i) (z.ltau i) (al B i) (be B i) s j + (turn ns (sd i s) j : K) := by
  obtain ⟨B', hm, hB'⟩ := lit_modes he hp hl
  have hs := modes_of_same (z := z) ((solve_meets hex hp.one h).2 B' hm) hi
  obtain ⟨h1, h2⟩ := hB' i hi s j
  rw [hs.1, hs.2] at h1 h2
  constructor
  · rw [← h1, Pi.sub_apply]; push_cast; ring
  · rw [← h2]
    simp only [turn_apply, Pi.sub_apply]; push_cast; ring

/-- At the levels. -/
theorem lit_level (he : IsExp ex) (hex : ExactAll inv?) (hp : Posed first ns mu w c su sd z S) {B : Nat → K}
    (h : solveBvp ex z inv? = some B) {up dn : Nat → ℝ → Source.V n} (hl : S.Lit up dn) (lev : Nat)
    (hlev : lev ≤ z.L) : output ns (level ex z B lev) = (S.on up lev, S.on dn lev) := by
  rw [level_eq]
  unfold output Stack.on
  have hL := hp.one
  rw [hp.L]
  have back : ∀ f g : Source.V n, (∀ j, turn ns f j = g j) → turn ns g = f := fun f g e => by
    rw [← turn_turn ns f]; congr 1; funext j; exact (e j).symm
  by_cases hl' : lev < z.L
  · rw [if_pos (by omega), if_pos hl', if_pos hl']
    refine Prod.ext (funext fun j => ?_) (back _ _ fun j => ?_)
    · have := (lit_found he hex hp h hl lev hl' 0 j).1
      rw [sumUp_zero he _ _ B lev rfl rfl, ← hp.p0p lev hl'] at this
      have := congrArg RCLike.re this
      simpa using this.symm
    · have := (lit_found he hex hp h hl lev hl' 0 j).2
      rw [sumDn_zero he _ _ B lev rfl rfl, ← hp.p0m lev hl'] at this
      have := congrArg RCLike.re this
      simpa using this
  · have e : lev = z.L := by omega
    rw [if_neg (by omega), if_neg hl', if_neg hl', hp.T _ (by omega)]
    refine Prod.ext (funext fun j => ?_) (back _ _ fun j => ?_)
    · have := (lit_found he hex hp h hl (z.L - 1) (by omega) (z.ltau (z.L - 1)) j).1
      rw [sumUp_end he _ _ B _ rfl rfl, ← hp.p1p _ (by omega)] at this
      have := congrArg RCLike.re this
      simpa using this.symm
    · have := (lit_found he hex hp h hl (z.L - 1) (by omega) (z.ltau (z.L - 1)) j).2
      rw [sumDn_end he _ _ B _ rfl rfl, ← hp.p1m _ (by omega)] at this
      have := congrArg RCLike.re this
      simpa using this

/-- At a depth in a layer, under the sun alone. -/
theorem lit_tau (he : IsExp ex) (hex : ExactAll inv?) (hp : Posed first ns mu w c su sd z S) {B : Nat → K}
    (h : solveBvp ex z inv? = some B) {up dn : Nat → ℝ → Source.V n} (hl : S.Lit up dn) (i : Nat)
    (hi : i < z.L) (as0 t : ℝ)
    (hsu : su i t = if z.solar then Real.exp (-t * as0) • z.Fsp i else 0)
    (hsd : turn ns (sd i t) = if z.solar then Real.exp (-t * as0) • z.Fsm i else 0) :
    output ns (atTau ex z as0 B i t) = (up i t, dn i t) := by
  unfold output
  have back : ∀ f g : Source.V n, (∀ j, turn ns f j = g j) → turn ns g = f := fun f g e => by
    rw [← turn_turn ns f]; congr 1; funext j; exact (e j).symm
  refine Prod.ext (funext fun j => ?_) (back _ _ fun j => ?_)
  · have := congrArg RCLike.re (lit_found he hex hp h hl i hi t j).1
    rw [hsu, RCLike.ofReal_re, map_add, RCLike.ofReal_re] at this
    dsimp only
    rw [this]
    unfold atTau sumUp al be
    simp only [sub_zero]
    congr 1
    split_ifs <;> simp [mul_comm]
  · have := congrArg RCLike.re (lit_found he hex hp h hl i hi t j).2
    rw [hsd, RCLike.ofReal_re, map_add, RCLike.ofReal_re] at this
    rw [this]
    unfold atTau sumDn al be
    simp only [sub_zero]
    congr 1
    split_ifs <;> simp [mul_comm]

/-- The light that the unknowns that are found say is light in the stack. -/
theorem meets_lit (he : IsExp ex) (hp : Posed first ns mu w c su sd z S) {B : Nat → K}
    (hm : Meets ex z B) :
    S.Lit (fun i s j => RCLike.re (sumUp ex (z.m i) (z.ltau i) (al B i) (be B i) s j) + su i s j)
      (fun i s => turn ns (fun j => RCLike.re (sumDn ex (z.m i) (z.ltau i) (al B i) (be B i) s j)) + sd i s) := by
  have hL := hp.one
  have u0 : ∀ i, i < z.L → (fun j => RCLike.re (sumUp ex (z.m i) (z.ltau i) (al B i) (be B i) 0 j) + su i 0 j) =
      fun j => RCLike.re (F0 ex z B i j) + P0p z i j := fun i hi => by
    funext j; rw [sumUp_zero he _ _ B i rfl rfl, hp.p0p i hi]
  have u1 : ∀ i, i < z.L → (fun j => RCLike.re (sumUp ex (z.m i) (z.ltau i) (al B i) (be B i) (z.ltau i) j) +
      su i (z.ltau i) j) = fun j => RCLike.re (F1 ex z B i j) + P1p z i j := fun i hi => by
    funext j; rw [sumUp_end he _ _ B i rfl rfl, hp.p1p i hi]
  have tt : ∀ f g : Source.V n, turn ns f + g = turn ns (f + turn ns g) := fun f g => by
    rw [turn_add, turn_turn]
  have d0 : ∀ i, i < z.L → turn ns (fun j => RCLike.re (sumDn ex (z.m i) (z.ltau i) (al B i) (be B i) 0 j)) + sd i 0 =
      turn ns fun j => RCLike.re (G0 ex z B i j) + P0m z i j := fun i hi => by
    rw [tt, ← hp.p0m i hi]; congr 1; funext j; rw [Pi.add_apply, sumDn_zero he _ _ B i rfl rfl]
  have d1 : ∀ i, i < z.L → turn ns (fun j => RCLike.re (sumDn ex (z.m i) (z.ltau i) (al B i) (be B i) (z.ltau i) j)) +
      sd i (z.ltau i) = turn ns fun j => RCLike.re (G1 ex z B i j) + P1m z i j := fun i hi => by
    rw [tt, ← hp.p1m i hi]; congr 1; funext j; rw [Pi.add_apply, sumDn_end he _ _ B i rfl rfl]
  refine ⟨fun i hi => ?_, fun i hi => ?_, ?_, ?_⟩
  · rw [hp.L] at hi
    have hmi := hp.mirrored i hi
    rw [hp.med i hi] at hmi
    have h1 := layer_made he (z.ltau i) hp.hns hp.hmu hmi (hp.solved i hi).2.1 (hp.solved i hi).2.2 (al B i) (be B i)
    have h2 := hp.part i hi
    have e := hp.modes i hi
    rw [hp.med i hi] at h2 ⊢
    have := carries_add h1 h2
    rw [e]
    exact this
  · rw [hp.L] at hi
    rw [hp.T i (by omega)]
    constructor
    · rw [u1 i (by omega), u0 (i + 1) hi]
      funext j
      have := congrArg RCLike.re (hm.up i hi j)
      simpa using this
    · rw [d1 i (by omega), d0 (i + 1) hi]
      congr 1
      funext j
      have := congrArg RCLike.re (hm.dn i hi j)
      simpa using this
  · rw [d0 0 (by omega)]
    have : (fun j => RCLike.re (G0 ex z B 0 j) + P0m z 0 j) = z.I1m := by
      funext j
      have := congrArg RCLike.re (hm.top j)
      simpa using this
    rw [this, hp.top, turn_turn]
  · rw [hp.L, hp.T _ (by omega), u1 _ (by omega), d1 _ (by omega), hp.refl, turn_turn, ← hp.bot]
    funext j
    have := congrArg RCLike.re (hm.bot j)
    rw [map_add, map_add, RCLike.ofReal_re, RCLike.ofReal_re] at this
    rw [this, Pi.add_apply]
    congr 1
    unfold refl
    split_ifs
    · simp only [mulVec, dotProduct, map_sum, RCLike.re_ofReal_mul, map_add, RCLike.ofReal_re]
    · simp

/-- What is found is light in the stack. -/
theorem found_lit (he : IsExp ex) (hex : ExactAll inv?) (hp : Posed first ns mu w c su sd z S) {B : Nat → K}
    (h : solveBvp ex z inv? = some B) :
    S.Lit (fun i s j => RCLike.re (sumUp ex (z.m i) (z.ltau i) (al B i) (be B i) s j) + su i s j)
      (fun i s => turn ns (fun j => RCLike.re (sumDn ex (z.m i) (z.ltau i) (al B i) (be B i) s j)) + sd i s) :=
  meets_lit he hp (solve_meets hex hp.one h).1

end Xrtm.Bvp
