import Verif.Proof.BvpStack
import Verif.Proof.BvpD

/-!
# When the system can be solved
-/

namespace Xrtm.Bvp
open Matrix Filter Topology Xrtm.Loops Xrtm.Eig Xrtm.Source Xrtm.Transfer

variable {n : Nat} {K : Type} [RCLike K] {ex : K → K} {x : ℝ}
  {inv? : {N : Nat} → Matrix (Fin N) (Fin N) K → Option (Matrix (Fin N) (Fin N) K)}

theorem solve_none (hex : ExactAll inv?) {z : Inp n K} (hL : 1 ≤ z.L) :
    solveBvp ex z inv? = none ↔ ((system ex z).read (nDiags n) (nComp z)).det = 0 := by
  unfold solveBvp
  rw [if_pos (system_ok ex z hL)]
  constructor
  · intro h
    by_contra hd
    rw [exact_det (hex _) hd] at h
    cases h
  · intro hd
    cases hi : inv? ((system ex z).read (nDiags n) (nComp z)) with
    | none => simp only [hi]
    | some X => exact absurd hd (det_ne_of ((hex _ _ _).1 hi))

/-- The same stack in the dark. -/
def dark (z : Inp n K) : Inp n K :=
  { z with Fsp := 0, Fsm := 0, Fs1p := 0, Fs1m := 0, Ft0p := 0, Ft0m := 0, Ft1p := 0, Ft1m := 0, I1m := 0, Inp := 0 }

def darkS (S : Stack n) : Stack n := { S with qp := 0, qm := 0, top := 0, bot := 0 }

theorem dark_P (z : Inp n K) (i : Nat) : P0p (dark z) i = 0 ∧ P0m (dark z) i = 0 ∧ P1p (dark z) i = 0 ∧ P1m (dark z) i = 0 := by
  refine ⟨?_, ?_, ?_, ?_⟩ <;> funext j
  · change (if z.solar then (0 : ℝ) else 0) + (if z.thermal then (0 : ℝ) else 0) = 0
    rw [ite_self, ite_self, add_zero]
  · change (if z.solar then (0 : ℝ) else 0) + (if z.thermal then (0 : ℝ) else 0) = 0
    rw [ite_self, ite_self, add_zero]
  · change (if z.solar then (0 : ℝ) * z.atran i else 0) + (if z.thermal then (0 : ℝ) else 0) = 0
    rw [zero_mul, ite_self, ite_self, add_zero]
  · change (if z.solar then (0 : ℝ) * z.atran i else 0) + (if z.thermal then (0 : ℝ) else 0) = 0
    rw [zero_mul, ite_self, ite_self, add_zero]

theorem turn_zero (ns : Nat) : turn ns (0 : Source.V n) = 0 := by
  funext j; simp [turn_apply]

theorem carries_zero (m : Medium n) : m.Carries 0 0 (fun _ => 0) (fun _ => 0) := by
  intro τ i
  exact ⟨0, 0, hasDerivAt_const _ _, hasDerivAt_const _ _, by simp [Medium.intoUp], by simp [Medium.intoDn]⟩

theorem posed_dark {first : Bool} {ns : Nat} {mu w : Source.V n} {c : Nat → Content n K}
    {su sd : Nat → ℝ → Source.V n} {z : Inp n K} {S : Stack n} (h : Posed first ns mu w c su sd z S) :
    Posed first ns mu w c (fun _ _ => 0) (fun _ _ => 0) (dark z) (darkS S) where
  one := h.one
  L := h.L
  hns := h.hns
  hmu := h.hmu
  med := h.med
  mirrored := h.mirrored
  solved := h.solved
  modes := h.modes
  T := h.T
  part := fun i _ => carries_zero _
  p0p := fun i _ => (dark_P z i).1
  p0m := fun i _ => by rw [turn_zero]; exact (dark_P z i).2.1
  p1p := fun i _ => (dark_P z i).2.2.1
  p1m := fun i _ => by rw [turn_zero]; exact (dark_P z i).2.2.2
  top := (turn_zero ns).symm
  bot := rfl
  refl := h.refl

theorem system_dark (z : Inp n K) : system ex (dark z) = system ex z := rfl

/-- A sum of modes that vanishes everywhere has no modes. -/
theorem modes_zero (he : IsExp ex) {first : Bool} {ns : Nat} {mu w : Source.V n} {c : Content n K}
    (hs : c.Solved first ns mu w) (T : ℝ) {a b : Fin n → K}
    (h1 : ∀ s j, sumUp ex (c.modes first ns mu w) T a b s j = 0)
    (h2 : ∀ s j, sumDn ex (c.modes first ns mu w) T a b s j = 0) : a = 0 ∧ b = 0 := by
  obtain ⟨hV, hnu, -⟩ := hs
  set tpr := (txr ns (localRT first mu w c.om c.Ppp c.Pmp).1 (localRT first mu w c.om c.Ppp c.Pmp).2).1.map
    fun z : ℝ => (z : K) with htpr
  have hm : c.modes first ns mu w = Eig.modes tpr c.nu c.V := rfl
  set A : ℝ → Fin n → K := fun s k => a k * ex (-c.nu k * (s : K)) with hA
  set C : ℝ → Fin n → K := fun s k => b k * ex (-c.nu k * ((T - s : ℝ) : K)) with hC
  have inj : ∀ v : Fin n → K, c.V *ᵥ v = 0 → v = 0 := fun v hv => by
    by_contra hne
    exact hV (Matrix.exists_mulVec_eq_zero_iff.1 ⟨v, hne, hv⟩)
  have dA : ∀ s k, HasDerivAt (fun s => A s k) (-(c.nu k * A s k)) s := fun s k => by
    have h1 := he.along ((cast_deriv (K := K) s).const_mul (-c.nu k))
    refine (h1.const_mul (a k)).congr_deriv ?_
    rw [hA]; ring
  have dC : ∀ s k, HasDerivAt (fun s => C s k) (c.nu k * C s k) s := fun s k => by
    have h1 : HasDerivAt (fun s : ℝ => -c.nu k * ((T - s : ℝ) : K)) (-c.nu k * ((-1 : ℝ) : K)) s :=
      (cast_hasDeriv ((hasDerivAt_id s).const_sub T)).const_mul (-c.nu k)
    refine ((he.along h1).const_mul (b k)).congr_deriv ?_
    rw [hC]; push_cast; ring
  have hsum : ∀ s, A s + C s = 0 := fun s => inj _ (by
    funext j
    have : (c.V *ᵥ (A s + C s)) j = sumUp ex (c.modes first ns mu w) T a b s j -
        sumDn ex (c.modes first ns mu w) T a b s j := by
      rw [hm]
      simp only [sumUp, sumDn, mulVec, dotProduct]
      rw [← Finset.sum_sub_distrib]
      refine Finset.sum_congr rfl fun k _ => ?_
      simp only [Eig.modes, hA, hC, Pi.add_apply]; ring
    rw [this, h1, h2, sub_zero]; rfl)
  have hdif : ∀ s k, A s k = 0 ∧ C s k = 0 := fun s k => by
    have e1 := congrFun (hsum s) k
    have e2 : -(c.nu k * A s k) + c.nu k * C s k = 0 := by
      have := (dA s k).fun_add (dC s k)
      have h0 : (fun s => A s k + C s k) = fun _ => 0 := by
        funext s; exact congrFun (hsum s) k
      rw [h0] at this
      exact this.unique (hasDerivAt_const _ _)
    simp only [Pi.add_apply, Pi.zero_apply] at e1
    have e3 : A s k = 0 := by
      have : c.nu k * (2 * A s k) = 0 := by linear_combination c.nu k * e1 - e2
      have := (mul_eq_zero.1 this).resolve_left (hnu k)
      exact (mul_eq_zero.1 this).resolve_left two_ne_zero
    exact ⟨e3, by rw [e3, zero_add] at e1; exact e1⟩
  constructor
  · funext k
    have := (hdif 0 k).1
    simpa [hA, he.zero] using this
  · funext k
    have := (hdif T k).2
    simpa [hC, he.zero] using this

theorem re_mul_I_neg {w : K} (h1 : RCLike.re w = 0) (h2 : RCLike.re (RCLike.I * w) = 0) : w = 0 := by
  rw [← RCLike.re_add_im w, h1]
  rw [RCLike.I_mul_re, neg_eq_zero] at h2
  rw [h2]; simp

theorem dark_meets {z : Inp n K} (hL : 1 ≤ z.L) {B : Nat → K}
    (h : ((system ex z).read (nDiags n) (nComp z) *ᵥ fun c => B c.val) = 0) : Meets ex (dark z) B := by
  obtain ⟨h0, hu, hd, hb⟩ := (rows_iff ex z hL B 0).1 h
  have p := dark_P z
  refine ⟨fun j => ?_, fun i hi j => ?_, fun i hi j => ?_, fun j => ?_⟩
  · rw [(p _).2.1]
    have : G0 ex (dark z) B 0 j = 0 := h0 j
    rw [this]; simp [dark]
  · rw [(p _).2.2.1, (p _).1]
    have : F1 ex (dark z) B i j - F0 ex (dark z) B (i + 1) j = 0 := hu i hi j
    simpa using sub_eq_zero.1 this
  · rw [(p _).2.2.2, (p _).2.1]
    have : G1 ex (dark z) B i j - G0 ex (dark z) B (i + 1) j = 0 := hd i hi j
    simpa using sub_eq_zero.1 this
  · rw [(p _).2.2.1, (p _).2.2.2]
    have : F1 ex (dark z) B ((dark z).L - 1) j - refl (dark z) (G1 ex (dark z) B ((dark z).L - 1)) j = 0 := hb j
    have e := sub_eq_zero.1 this
    have hI : (dark z).Inp j = 0 := rfl
    rw [e, hI]; simp

/-- The stack has no solution exactly if it keeps light without any source. -/
theorem solve_dark (he : IsExp ex) (hex : ExactAll inv?) {first : Bool} {ns : Nat} {mu w : Source.V n}
    {c : Nat → Content n K} {su sd : Nat → ℝ → Source.V n} {z : Inp n K} {S : Stack n}
    (hp : Posed first ns mu w c su sd z S) :
    solveBvp ex z inv? = none ↔ ∃ up dn, (darkS S).Lit up dn ∧ ∃ i, i < S.L ∧ ∃ s j, up i s j ≠ 0 ∨ dn i s j ≠ 0 := by
  have hd := posed_dark hp
  have hsame : solveBvp ex z inv? = none ↔ solveBvp ex (dark z) inv? = none := by
    rw [solve_none hex hp.one, solve_none hex hd.one, system_dark]; rfl
  constructor
  · intro h
    rw [solve_none hex hp.one] at h
    obtain ⟨v, hv, hv0⟩ := Matrix.exists_mulVec_eq_zero_iff.2 h
    set B : Nat → K := fun r => if h : r < nComp z then v ⟨r, h⟩ else 0 with hB
    have hBv : (fun c : Fin (nComp z) => B c.val) = v := by
      funext c; rw [hB]; simp
    set B2 : Nat → K := fun r => RCLike.I * B r with hB2
    have hm : Meets ex (dark z) B := dark_meets hp.one (by rw [hBv]; exact hv0)
    have hm2 : Meets ex (dark z) B2 := dark_meets hp.one (by
      have : (fun c : Fin (nComp z) => B2 c.val) = (RCLike.I : K) • v := by
        rw [← hBv]; rfl
      rw [this, mulVec_smul, hv0, smul_zero])
    by_contra hno
    push Not at hno
    have n1 := hno _ _ (meets_lit he hd hm)
    have n2 := hno _ _ (meets_lit he hd hm2)
    have sU : ∀ i s j, sumUp ex ((dark z).m i) ((dark z).ltau i) (al B2 i) (be B2 i) s j =
        RCLike.I * sumUp ex ((dark z).m i) ((dark z).ltau i) (al B i) (be B i) s j := fun i s j => by
      unfold sumUp; rw [Finset.mul_sum]
      exact Finset.sum_congr rfl fun k _ => by simp only [al, be, hB2]; ring
    have sD : ∀ i s j, sumDn ex ((dark z).m i) ((dark z).ltau i) (al B2 i) (be B2 i) s j =
        RCLike.I * sumDn ex ((dark z).m i) ((dark z).ltau i) (al B i) (be B i) s j := fun i s j => by
      unfold sumDn; rw [Finset.mul_sum]
      exact Finset.sum_congr rfl fun k _ => by simp only [al, be, hB2]; ring
    have tz : ∀ g : Source.V n, (∀ j, (turn ns g + 0) j = 0) → ∀ j, g j = 0 := fun g hg j => by
      have : turn ns g = 0 := by funext j; simpa using hg j
      rw [← turn_turn ns g, this, turn_zero]; rfl
    have zero : ∀ i, i < z.L → al (n := n) B i = 0 ∧ be (n := n) B i = 0 := by
      intro i hi
      have hi' : i < S.L := by rw [hp.L]; exact hi
      refine modes_zero he (hp.solved i hi) (z.ltau i) (fun s j => ?_) (fun s j => ?_)
      · rw [← hp.modes i hi]
        refine re_mul_I_neg ?_ ?_
        · have := (n1 i hi' s j).1; rw [Pi.zero_apply, add_zero] at this; exact this
        · have := (n2 i hi' s j).1; rw [sU] at this; rw [Pi.zero_apply, add_zero] at this; exact this
      · rw [← hp.modes i hi]
        refine re_mul_I_neg ?_ ?_
        · exact tz _ (fun j => (n1 i hi' s j).2) j
        · have := tz _ (fun j => (n2 i hi' s j).2) j; rw [sD] at this; exact this
    apply hv
    funext r
    obtain ⟨I, hI, j, hr⟩ := split_index (n := n) (L := z.L) rfl r
    have hr' : v r = B r.val := (congrFun hBv r).symm
    rw [hr', hr]
    rcases Nat.even_or_odd' I with ⟨i, rfl | rfl⟩
    · have := congrFun (zero i (by omega)).1 j
      unfold al at this
      rw [show 2 * i * n + j.val = i * (n * 2) + j.val by ring]
      exact this
    · have := congrFun (zero i (by omega)).2 j
      unfold be at this
      rw [show (2 * i + 1) * n + j.val = i * (n * 2) + j.val + n by ring]
      exact this
  · rw [hsame]
    rintro ⟨up, dn, hl, i, hi, s, j, hne⟩
    rcases h : solveBvp ex (dark z) inv? with _ | B
    · rfl
    · exfalso
      have hz : ∀ r, r < nComp (dark z) → (0 : Nat → K) r = B r := (solve_meets hex hd.one h).2 0
        (dark_meets hp.one (by
          have : (fun c : Fin (nComp z) => (0 : Nat → K) c.val) = 0 := rfl
          rw [this, mulVec_zero]))
      have hi' : i < (dark z).L := by rw [← hd.L]; exact hi
      obtain ⟨m1, m2⟩ := modes_of_same (z := dark z) hz hi'
      have a0 : al (n := n) B i = 0 := m1.symm
      have b0 : be (n := n) B i = 0 := m2.symm
      have e1 : ∀ j, up i s j = 0 := fun j => by
        have := (lit_found he hex hd h hl i hi' s j).1
        rw [a0, b0] at this
        simp only [sumUp, Pi.zero_apply, zero_mul, add_zero, Finset.sum_const_zero, RCLike.ofReal_zero] at this
        exact_mod_cast this
      have e2 : ∀ j, turn ns (dn i s) j = 0 := fun j => by
        have := (lit_found he hex hd h hl i hi' s j).2
        rw [a0, b0] at this
        have t0 : turn ns (0 : Source.V n) j = 0 := congrFun (turn_zero ns) j
        simp only [sumDn, Pi.zero_apply, zero_mul, add_zero, Finset.sum_const_zero] at this
        change _ = 0 + ((turn ns (0 : Source.V n) j : ℝ) : K) at this
        rw [t0, zero_add] at this
        exact_mod_cast this
      have e3 : dn i s = 0 := by
        rw [← turn_turn ns (dn i s), show turn ns (dn i s) = 0 from funext e2, turn_zero]
      rcases hne with h1 | h1
      · exact h1 (e1 j)
      · exact h1 (by rw [e3]; rfl)

/-- What can be solved can be solved nearby. -/
theorem solve_near (he : IsExp ex) (hex : ExactAll inv?) {z : ℝ → Inp n K} {d : Inp n K}
    (hz : InpDeriv z d x) (hL : 1 ≤ (z x).L) {B : Nat → K} (h : solveBvp ex (z x) inv? = some B) :
    ∀ᶠ y in 𝓝 x, ∃ B, solveBvp ex (z y) inv? = some B := by
  have h0 : ((system ex (z x)).read (nDiags n) (nComp (z x))).det ≠ 0 := fun hd => by
    rw [(solve_none hex hL).2 hd] at h; cases h
  have := (det_diffK fun i j => read_diff he hz hL i j).continuousAt.eventually_ne h0
  filter_upwards [this] with y hy
  have hN : nComp (z y) = nComp (z x) := by unfold nComp; rw [hz.L]
  rw [← Option.ne_none_iff_exists']
  rw [ne_eq, solve_none hex (by rw [hz.L]; exact hL), hN]
  exact hy

end Xrtm.Bvp
