import Verif.Proof.BvpRows
import Verif.Proof.EigD

/-! Derivatives of the unknowns and of the radiances. -/

namespace Xrtm.Bvp
open Matrix Filter Topology Xrtm.Eig Xrtm.Loops

variable {n : Nat} {K : Type} [RCLike K] {x : ℝ}

/-- The inputs along a curve: what is switched on stays so, and the rest has the
derivatives `d`. -/
structure InpDeriv (z : ℝ → Inp n K) (d : Inp n K) (x : ℝ) : Prop where
  L : ∀ y, (z y).L = (z x).L
  surface : ∀ y, (z y).surface = (z x).surface
  solar : ∀ y, (z y).solar = (z x).solar
  thermal : ∀ y, (z y).thermal = (z x).thermal
  m : ∀ i, i < (z x).L → ModesDeriv (fun y => (z y).m i) (d.m i) x
  ltau : ∀ i, i < (z x).L → HasDerivAt (fun y => (z y).ltau i) (d.ltau i) x
  atran : ∀ i, i < (z x).L → HasDerivAt (fun y => (z y).atran i) (d.atran i) x
  Fsp : ∀ i, i < (z x).L → ∀ j, HasDerivAt (fun y => (z y).Fsp i j) (d.Fsp i j) x
  Fsm : ∀ i, i < (z x).L → ∀ j, HasDerivAt (fun y => (z y).Fsm i j) (d.Fsm i j) x
  Fs1p : ∀ i, i < (z x).L → ∀ j, HasDerivAt (fun y => (z y).Fs1p i j) (d.Fs1p i j) x
  Fs1m : ∀ i, i < (z x).L → ∀ j, HasDerivAt (fun y => (z y).Fs1m i j) (d.Fs1m i j) x
  Ft0p : ∀ i, i < (z x).L → ∀ j, HasDerivAt (fun y => (z y).Ft0p i j) (d.Ft0p i j) x
  Ft0m : ∀ i, i < (z x).L → ∀ j, HasDerivAt (fun y => (z y).Ft0m i j) (d.Ft0m i j) x
  Ft1p : ∀ i, i < (z x).L → ∀ j, HasDerivAt (fun y => (z y).Ft1p i j) (d.Ft1p i j) x
  Ft1m : ∀ i, i < (z x).L → ∀ j, HasDerivAt (fun y => (z y).Ft1m i j) (d.Ft1m i j) x
  Rs : ∀ i j, HasDerivAt (fun y => (z y).Rs i j) (d.Rs i j) x
  I1m : ∀ i, HasDerivAt (fun y => (z y).I1m i) (d.I1m i) x
  Inp : ∀ i, HasDerivAt (fun y => (z y).Inp i) (d.Inp i) x

/-- The derivatives with those that are not asked for left out. -/
def masked (L : Nat) (fl : Flags) (d : Inp n K) : Inp n K :=
  { d with
    m := fun i => if fl.lay i then d.m i else ⟨0, 0, 0⟩
    ltau := fun i => if fl.lay i then d.ltau i else 0
    atran := fun i => if fl.beam i then d.atran i else 0
    Fsp := fun i => if fl.beam i then d.Fsp i else 0
    Fsm := fun i => if fl.beam i then d.Fsm i else 0
    Fs1p := fun i => if fl.beam i then d.Fs1p i else 0
    Fs1m := fun i => if fl.beam i then d.Fs1m i else 0
    Ft0p := fun i => if fl.heat i then d.Ft0p i else 0
    Ft0m := fun i => if fl.heat i then d.Ft0m i else 0
    Ft1p := fun i => if fl.heat i then d.Ft1p i else 0
    Ft1m := fun i => if fl.heat i then d.Ft1m i else 0
    Rs := if fl.lay L then d.Rs else 0 }

variable {ex : K → K} {z : ℝ → Inp n K} {d : Inp n K}

theorem lam_deriv (he : IsExp ex) (hz : InpDeriv z d x) {i : Nat} (hi : i < (z x).L) (k : Fin n) :
    HasDerivAt (fun y => lam ex (z y) i k) (lamL ex (z x) d i k) x := by
  have h1 := ((hz.m i hi).nu k).fun_neg.fun_mul (cast_hasDeriv (K := K) (hz.ltau i hi))
  refine (he.along h1).congr_deriv ?_
  unfold lamL lam
  ring

/-! ### The matrix -/

theorem bottom_diff (he : IsExp ex) (hz : InpDeriv z d x) (hL : 1 ≤ (z x).L) (j k : Fin n) :
    DifferentiableAt ℝ (fun y => bottomA ex (z y) j k) x ∧ DifferentiableAt ℝ (fun y => bottomB (z y) j k) x := by
  have hi : (z x).L - 1 < (z x).L := by omega
  have hp : ∀ j k, DifferentiableAt ℝ (fun y => ((z y).m ((z x).L - 1)).Xp j k) x := fun j k =>
    ((hz.m _ hi).Xp j k).differentiableAt
  have hm : ∀ j k, DifferentiableAt ℝ (fun y => ((z y).m ((z x).L - 1)).Xm j k) x := fun j k =>
    ((hz.m _ hi).Xm j k).differentiableAt
  have hl := (lam_deriv he hz hi k).differentiableAt
  have hR : ∀ l, DifferentiableAt ℝ (fun y => (((z y).Rs j l : ℝ) : K)) x := fun l =>
    (cast_hasDeriv (hz.Rs j l)).differentiableAt
  unfold bottomA bottomB
  simp only [hz.L, hz.surface]
  constructor
  · split_ifs
    · exact ((hp j k).fun_sub (DifferentiableAt.fun_sum fun l _ => (hR l).fun_mul (hm l k).fun_neg)).fun_mul hl
    · exact (hp j k).fun_mul hl
  · split_ifs
    · exact (hm j k).fun_sub (DifferentiableAt.fun_sum fun l _ => (hR l).fun_mul (hp l k).fun_neg)
    · exact hm j k

theorem tab_diff (he : IsExp ex) (hz : InpDeriv z d x) (hL : 1 ≤ (z x).L) (I J : Nat) (hI : I < 2 * (z x).L)
    (j k : Fin n) : DifferentiableAt ℝ (fun y => tab ex (z y) I J j k) x := by
  have hp : ∀ i, i < (z x).L → DifferentiableAt ℝ (fun y => ((z y).m i).Xp j k) x := fun i hi =>
    ((hz.m _ hi).Xp j k).differentiableAt
  have hm : ∀ i, i < (z x).L → DifferentiableAt ℝ (fun y => ((z y).m i).Xm j k) x := fun i hi =>
    ((hz.m _ hi).Xm j k).differentiableAt
  have hl : ∀ i, i < (z x).L → DifferentiableAt ℝ (fun y => lam ex (z y) i k) x := fun i hi =>
    (lam_deriv he hz hi k).differentiableAt
  have hb := bottom_diff he hz hL j k
  unfold tab
  dsimp only
  simp only [hz.L]
  split_ifs
  · exact hb.2
  · exact hb.1
  · exact differentiableAt_const _
  · exact (hl _ (by omega)).fun_neg.fun_mul (hp _ (by omega))
  · exact (hm _ (by omega)).fun_neg
  · exact differentiableAt_const _
  · exact (hl _ (by omega)).fun_neg.fun_mul (hm _ (by omega))
  · exact (hp _ (by omega)).fun_neg
  · exact hm _ (by omega)
  · exact (hl _ (by omega)).fun_mul (hp _ (by omega))
  · exact differentiableAt_const _
  · exact (hl _ (by omega)).fun_mul (hp _ (by omega))
  · exact hm _ (by omega)
  · exact (hp _ (by omega)).fun_neg
  · exact (hl _ (by omega)).fun_neg.fun_mul (hm _ (by omega))
  · exact differentiableAt_const _

theorem split_index {L N : Nat} (hN : N = 2 * n * L) (r : Fin N) :
    ∃ I, I < 2 * L ∧ ∃ j : Fin n, r.val = I * n + j.val := by
  have hr := r.isLt
  have hn : 0 < n := by
    by_contra h0
    have : n = 0 := by omega
    subst this; simp at hN; omega
  refine ⟨r.val / n, ?_, ⟨r.val % n, Nat.mod_lt _ hn⟩, (Nat.div_add_mod' _ _).symm⟩
  rw [Nat.div_lt_iff_lt_mul hn]
  calc r.val < N := hr
    _ = 2 * L * n := by rw [hN]; ring

theorem read_diff (he : IsExp ex) (hz : InpDeriv z d x) (hL : 1 ≤ (z x).L) (r c : Fin (nComp (z x))) :
    DifferentiableAt ℝ (fun y => (system ex (z y)).read (nDiags n) (nComp (z x)) r c) x := by
  obtain ⟨I, hI, j, hr⟩ := split_index rfl r
  obtain ⟨J, hJ, k, hc⟩ := split_index rfl c
  unfold Band.read
  split_ifs
  · have : (fun y => (system ex (z y)).A c.val (nDiags n + nDiags n + ((r.val : Nat) : Int) - ((c.val : Nat) : Int))) =
        fun y => tab ex (z y) I J j k := by
      funext y
      rw [← system_blk ex (z y) (by rw [hz.L]; exact hL) I J (by rw [hz.L]; exact hI)]
      unfold blk
      rw [hr, hc]
    rw [this]
    exact tab_diff he hz hL I J hI j k
  · exact differentiableAt_const _

/-! ### The right hand side -/

/-- Derivatives of the particular solutions at the ends. -/
def dP0p (z d : Inp n K) (i : Nat) (j : Fin n) : ℝ :=
  (if z.solar then d.Fsp i j else 0) + if z.thermal then d.Ft0p i j else 0
def dP0m (z d : Inp n K) (i : Nat) (j : Fin n) : ℝ :=
  (if z.solar then d.Fsm i j else 0) + if z.thermal then d.Ft0m i j else 0
def dP1p (z d : Inp n K) (i : Nat) (j : Fin n) : ℝ :=
  (if z.solar then d.Fs1p i j * z.atran i + z.Fs1p i j * d.atran i else 0) + if z.thermal then d.Ft1p i j else 0
def dP1m (z d : Inp n K) (i : Nat) (j : Fin n) : ℝ :=
  (if z.solar then d.Fs1m i j * z.atran i + z.Fs1m i j * d.atran i else 0) + if z.thermal then d.Ft1m i j else 0

theorem P_deriv (hz : InpDeriv z d x) {i : Nat} (hi : i < (z x).L) (j : Fin n) :
    HasDerivAt (fun y => P0p (z y) i j) (dP0p (z x) d i j) x ∧ HasDerivAt (fun y => P0m (z y) i j) (dP0m (z x) d i j) x ∧
    HasDerivAt (fun y => P1p (z y) i j) (dP1p (z x) d i j) x ∧ HasDerivAt (fun y => P1m (z y) i j) (dP1m (z x) d i j) x := by
  unfold P0p P0m P1p P1m dP0p dP0m dP1p dP1m
  simp only [hz.solar, hz.thermal]
  refine ⟨HasDerivAt.fun_add ?_ ?_, HasDerivAt.fun_add ?_ ?_, HasDerivAt.fun_add ?_ ?_, HasDerivAt.fun_add ?_ ?_⟩ <;> split_ifs
  · exact hz.Fsp i hi j
  · exact hasDerivAt_const _ _
  · exact hz.Ft0p i hi j
  · exact hasDerivAt_const _ _
  · exact hz.Fsm i hi j
  · exact hasDerivAt_const _ _
  · exact hz.Ft0m i hi j
  · exact hasDerivAt_const _ _
  · exact (hz.Fs1p i hi j).fun_mul (hz.atran i hi)
  · exact hasDerivAt_const _ _
  · exact hz.Ft1p i hi j
  · exact hasDerivAt_const _ _
  · exact (hz.Fs1m i hi j).fun_mul (hz.atran i hi)
  · exact hasDerivAt_const _ _
  · exact hz.Ft1m i hi j
  · exact hasDerivAt_const _ _

/-- The derivative of what is reflected. -/
def dRefl (z d : Inp n K) (g g' : Fin n → K) (j : Fin n) : K :=
  if z.surface then ∑ l, ((d.Rs j l : K) * g l + (z.Rs j l : K) * g' l) else 0

theorem refl_deriv (hz : InpDeriv z d x) {g : ℝ → Fin n → K} {g' : Fin n → K}
    (hg : ∀ l, HasDerivAt (fun y => g y l) (g' l) x) (j : Fin n) :
    HasDerivAt (fun y => refl (z y) (g y) j) (dRefl (z x) d (g x) g' j) x := by
  unfold refl dRefl
  simp only [hz.surface]
  split_ifs
  · exact HasDerivAt.fun_sum fun l _ => (cast_hasDeriv (hz.Rs j l)).fun_mul (hg l)
  · exact hasDerivAt_const _ _

theorem rhs_diff (hz : InpDeriv z d x) (hL : 1 ≤ (z x).L) (r : Fin (nComp (z x))) :
    DifferentiableAt ℝ (fun y => (rhs (z y) r.val : K)) x := by
  obtain ⟨I, hI, j, hr⟩ := split_index rfl r
  have hLy : ∀ y, 1 ≤ (z y).L := fun y => by rw [hz.L]; exact hL
  have c := fun {f : ℝ → ℝ} {f' : ℝ} (h : HasDerivAt f f' x) => (cast_hasDeriv (K := K) h).differentiableAt
  rw [hr]
  rcases kinds hI with rfl | ⟨i, hi, rfl⟩ | ⟨i, hi, rfl⟩ | rfl
  · simp only [Nat.zero_mul, Nat.zero_add]
    simp only [fun y => (rhs_row (z y) (hLy y) j).1]
    exact (c (hz.I1m j)).fun_sub (c (P_deriv hz (by omega) j).2.1)
  · simp only [fun y => (rhs_row (z y) (hLy y) j).2.1 i (by rw [hz.L]; exact hi)]
    exact (c (P_deriv hz (by omega) j).1).fun_sub (c (P_deriv hz (by omega) j).2.2.1)
  · simp only [fun y => (rhs_row (z y) (hLy y) j).2.2.1 i (by rw [hz.L]; exact hi)]
    exact (c (P_deriv hz (by omega) j).2.1).fun_sub (c (P_deriv hz (by omega) j).2.2.2)
  · have : (fun y => (rhs (z y) ((2 * (z x).L - 1) * n + j.val) : K)) = fun y => ((z y).Inp j : K) -
        (P1p (z y) ((z x).L - 1) j : K) + refl (z y) (fun l => (P1m (z y) ((z x).L - 1) l : K)) j := by
      funext y
      have := (rhs_row (z y) (hLy y) j).2.2.2
      rw [hz.L y] at this
      exact this
    rw [this]
    refine ((c (hz.Inp j)).fun_sub (c (P_deriv hz (by omega) j).2.2.1)).fun_add ?_
    exact (refl_deriv hz (fun l => cast_hasDeriv (P_deriv hz (by omega) l).2.2.2) j).differentiableAt

/-! ### The unknowns have a derivative -/

theorem vec_solve_diff {ι : Type} [Fintype ι] [DecidableEq ι] {A : ℝ → Matrix ι ι K} {b R : ℝ → ι → K}
    (hA : ∀ i j, DifferentiableAt ℝ (fun y => A y i j) x) (hR : ∀ i, DifferentiableAt ℝ (fun y => R y i) x)
    (h0 : (A x).det ≠ 0) (h : ∀ᶠ y in 𝓝 x, A y *ᵥ b y = R y) (i : ι) : DifferentiableAt ℝ (fun y => b y i) x := by
  have hnear : ∀ᶠ y in 𝓝 x, (A y).det ≠ 0 := (det_diffK hA).continuousAt.eventually_ne h0
  have heq : (fun y => b y i) =ᶠ[𝓝 x] fun y => ∑ j, (A y)⁻¹ i j * R y j := by
    filter_upwards [h, hnear] with y h1 h2
    have : b y = (A y)⁻¹ *ᵥ R y := by
      rw [← h1, mulVec_mulVec, Matrix.nonsing_inv_mul _ (isUnit_iff_ne_zero.2 h2), one_mulVec]
    rw [this]; rfl
  refine DifferentiableAt.congr_of_eventuallyEq ?_ heq
  exact DifferentiableAt.fun_sum fun j _ => (inv_diffK hA h0 i j).fun_mul (hR j)

variable {inv? : {N : Nat} → Matrix (Fin N) (Fin N) K → Option (Matrix (Fin N) (Fin N) K)}

theorem rows_iff' (ex : K → K) (z : Inp n K) (hL : 1 ≤ z.L) {N : Nat} (hN : N = nComp z) (B : Nat → K)
    (hm : Meets ex z B) :
    ((system ex z).read (nDiags n) N *ᵥ fun c => B c.val) = (fun c => rhs z c.val) := by
  subst hN
  exact (meets_iff ex z hL B).2 hm

theorem found_diff (he : IsExp ex) (hex : ExactAll inv?) (hz : InpDeriv z d x) (hL : 1 ≤ (z x).L) {B : ℝ → Nat → K}
    (h : ∀ᶠ y in 𝓝 x, solveBvp ex (z y) inv? = some (B y)) (r : Nat) (hr : r < nComp (z x)) :
    DifferentiableAt ℝ (fun y => B y r) x := by
  have hx := h.self_of_nhds
  unfold solveBvp at hx
  rw [if_pos (system_ok ex (z x) hL)] at hx
  cases hi : inv? ((system ex (z x)).read (nDiags n) (nComp (z x))) with
  | none => simp [hi] at hx
  | some X =>
    have hX := (hex _ _ _).1 hi
    refine vec_solve_diff (A := fun y => (system ex (z y)).read (nDiags n) (nComp (z x)))
      (b := fun y c => B y c.val) (R := fun y c => rhs (z y) c.val) (fun i j => read_diff he hz hL i j)
      (fun i => rhs_diff hz hL i) (det_ne_of hX) ?_ ⟨r, hr⟩
    filter_upwards [h] with y hy
    exact rows_iff' ex (z y) (by rw [hz.L]; exact hL) (by unfold nComp; rw [hz.L y]) (B y)
      (solve_meets hex (by rw [hz.L]; exact hL) hy).1

/-! ### Derivatives of the sums of modes -/

/-- Parts of the derivatives that come from the modes. -/
def rF0 (ex : K → K) (z d : Inp n K) (B : Nat → K) (i : Nat) (j : Fin n) : K :=
  ∑ k, (al B i k * (d.m i).Xp j k + be B i k * ((d.m i).Xm j k * lam ex z i k + (z.m i).Xm j k * lamL ex z d i k))
def rG0 (ex : K → K) (z d : Inp n K) (B : Nat → K) (i : Nat) (j : Fin n) : K :=
  ∑ k, (al B i k * -(d.m i).Xm j k + be B i k * (-(d.m i).Xp j k * lam ex z i k + -(z.m i).Xp j k * lamL ex z d i k))
def rF1 (ex : K → K) (z d : Inp n K) (B : Nat → K) (i : Nat) (j : Fin n) : K :=
  ∑ k, (al B i k * ((d.m i).Xp j k * lam ex z i k + (z.m i).Xp j k * lamL ex z d i k) + be B i k * (d.m i).Xm j k)
def rG1 (ex : K → K) (z d : Inp n K) (B : Nat → K) (i : Nat) (j : Fin n) : K :=
  ∑ k, (al B i k * (-(d.m i).Xm j k * lam ex z i k + -(z.m i).Xm j k * lamL ex z d i k) + be B i k * -(d.m i).Xp j k)

theorem sums_deriv (he : IsExp ex) (hz : InpDeriv z d x) {B : ℝ → Nat → K} {B' : Nat → K}
    (hB : ∀ r, r < nComp (z x) → HasDerivAt (fun y => B y r) (B' r) x) {i : Nat} (hi : i < (z x).L) (j : Fin n) :
    HasDerivAt (fun y => F0 ex (z y) (B y) i j) (F0 ex (z x) B' i j + rF0 ex (z x) d (B x) i j) x ∧
    HasDerivAt (fun y => G0 ex (z y) (B y) i j) (G0 ex (z x) B' i j + rG0 ex (z x) d (B x) i j) x ∧
    HasDerivAt (fun y => F1 ex (z y) (B y) i j) (F1 ex (z x) B' i j + rF1 ex (z x) d (B x) i j) x ∧
    HasDerivAt (fun y => G1 ex (z y) (B y) i j) (G1 ex (z x) B' i j + rG1 ex (z x) d (B x) i j) x := by
  have hlt : i * (n * 2) + n * 2 ≤ nComp (z x) := by
    unfold nComp
    calc i * (n * 2) + n * 2 = (i + 1) * (n * 2) := by ring
      _ ≤ (z x).L * (n * 2) := Nat.mul_le_mul_right _ hi
      _ = 2 * n * (z x).L := by ring
  have ha : ∀ k : Fin n, HasDerivAt (fun y => al (B y) i k) (al B' i k) x := fun k =>
    hB _ (by have := k.isLt; omega)
  have hb : ∀ k : Fin n, HasDerivAt (fun y => be (B y) i k) (be B' i k) x := fun k =>
    hB _ (by have := k.isLt; omega)
  have hl := fun k => lam_deriv he hz hi k
  have hp := fun k => (hz.m i hi).Xp j k
  have hm := fun k => (hz.m i hi).Xm j k
  unfold F0 G0 F1 G1 rF0 rG0 rF1 rG1
  simp only [← Finset.sum_add_distrib]
  refine ⟨HasDerivAt.fun_sum fun k _ => ?_, HasDerivAt.fun_sum fun k _ => ?_,
    HasDerivAt.fun_sum fun k _ => ?_, HasDerivAt.fun_sum fun k _ => ?_⟩
  · exact (((ha k).fun_mul (hp k)).fun_add (((hb k).fun_mul (hm k)).fun_mul (hl k))).congr_deriv (by ring)
  · exact (((ha k).fun_mul (hm k).fun_neg).fun_add (((hb k).fun_mul (hp k).fun_neg).fun_mul (hl k))).congr_deriv
      (by ring)
  · exact ((((ha k).fun_mul (hp k)).fun_mul (hl k)).fun_add ((hb k).fun_mul (hm k))).congr_deriv (by ring)
  · exact ((((ha k).fun_mul (hm k).fun_neg).fun_mul (hl k)).fun_add ((hb k).fun_mul (hp k).fun_neg)).congr_deriv
      (by ring)

/-! ### The derivatives of the conditions -/

theorem meets_deriv (he : IsExp ex) (hz : InpDeriv z d x) (hL : 1 ≤ (z x).L) {B : ℝ → Nat → K} {B' : Nat → K}
    (hB : ∀ r, r < nComp (z x) → HasDerivAt (fun y => B y r) (B' r) x)
    (h : ∀ᶠ y in 𝓝 x, Meets ex (z y) (B y)) :
    (∀ j, G0 ex (z x) B' 0 j = (d.I1m j : K) - (dP0m (z x) d 0 j : K) - rG0 ex (z x) d (B x) 0 j) ∧
    (∀ i, i + 1 < (z x).L → ∀ j, F1 ex (z x) B' i j - F0 ex (z x) B' (i + 1) j =
      (dP0p (z x) d (i + 1) j : K) - (dP1p (z x) d i j : K) - rF1 ex (z x) d (B x) i j + rF0 ex (z x) d (B x) (i + 1) j) ∧
    (∀ i, i + 1 < (z x).L → ∀ j, G1 ex (z x) B' i j - G0 ex (z x) B' (i + 1) j =
      (dP0m (z x) d (i + 1) j : K) - (dP1m (z x) d i j : K) - rG1 ex (z x) d (B x) i j + rG0 ex (z x) d (B x) (i + 1) j) ∧
    ∀ j, F1 ex (z x) B' ((z x).L - 1) j - refl (z x) (G1 ex (z x) B' ((z x).L - 1)) j =
      (d.Inp j : K) - (dP1p (z x) d ((z x).L - 1) j : K) - rF1 ex (z x) d (B x) ((z x).L - 1) j +
        dRefl (z x) d (fun l => G1 ex (z x) (B x) ((z x).L - 1) l + (P1m (z x) ((z x).L - 1) l : K))
          (fun l => rG1 ex (z x) d (B x) ((z x).L - 1) l + (dP1m (z x) d ((z x).L - 1) l : K)) j := by
  have sd := fun {i} (hi : i < (z x).L) j => sums_deriv he hz hB hi j
  have pd := fun {i} (hi : i < (z x).L) j => P_deriv hz hi j
  have c := fun {f : ℝ → ℝ} {f' : ℝ} (h : HasDerivAt f f' x) => cast_hasDeriv (K := K) h
  refine ⟨fun j => ?_, fun i hi j => ?_, fun i hi j => ?_, fun j => ?_⟩
  · have e1 := (sd (i := 0) (by omega) j).2.1.fun_add (c (pd (i := 0) (by omega) j).2.1)
    have e2 := (c (hz.I1m j)).congr_of_eventuallyEq (h.mono fun y hy => hy.top j)
    linear_combination e1.unique e2
  · have e1 := (sd (i := i) (by omega) j).2.2.1.fun_add (c (pd (i := i) (by omega) j).2.2.1)
    have e2 := (sd hi j).1.fun_add (c (pd hi j).1)
    have e3 := e2.congr_of_eventuallyEq (h.mono fun y hy => hy.up i (by rw [hz.L]; exact hi) j)
    linear_combination e1.unique e3
  · have e1 := (sd (i := i) (by omega) j).2.2.2.fun_add (c (pd (i := i) (by omega) j).2.2.2)
    have e2 := (sd hi j).2.1.fun_add (c (pd hi j).2.1)
    have e3 := e2.congr_of_eventuallyEq (h.mono fun y hy => hy.dn i (by rw [hz.L]; exact hi) j)
    linear_combination e1.unique e3
  · have hi : (z x).L - 1 < (z x).L := by omega
    have e1 := (sd hi j).2.2.1.fun_add (c (pd hi j).2.2.1)
    have e2 := (c (hz.Inp j)).fun_add (refl_deriv hz (g := fun y l => G1 ex (z y) (B y) ((z x).L - 1) l +
      (P1m (z y) ((z x).L - 1) l : K)) (fun l => (sd hi l).2.2.2.fun_add (c (pd hi l).2.2.2)) j)
    have e3 := e2.congr_of_eventuallyEq
      (f₁ := fun y => F1 ex (z y) (B y) ((z x).L - 1) j + (P1p (z y) ((z x).L - 1) j : K))
      (h.mono fun y hy => by
        have := hy.bot j
        rw [hz.L y] at this
        exact this)
    have e4 := e1.unique e3
    have e5 : dRefl (z x) d (fun l => G1 ex (z x) (B x) ((z x).L - 1) l + (P1m (z x) ((z x).L - 1) l : K))
        (fun l => G1 ex (z x) B' ((z x).L - 1) l + rG1 ex (z x) d (B x) ((z x).L - 1) l +
          (dP1m (z x) d ((z x).L - 1) l : K)) j =
        dRefl (z x) d (fun l => G1 ex (z x) (B x) ((z x).L - 1) l + (P1m (z x) ((z x).L - 1) l : K))
          (fun l => rG1 ex (z x) d (B x) ((z x).L - 1) l + (dP1m (z x) d ((z x).L - 1) l : K)) j +
        refl (z x) (G1 ex (z x) B' ((z x).L - 1)) j := by
      unfold dRefl refl
      split_ifs
      · rw [← Finset.sum_add_distrib]; exact Finset.sum_congr rfl fun l _ => by ring
      · simp
    rw [e5] at e4
    linear_combination e4

/-! ### The code's right hand side -/

section code
variable (ex) (z0 z' : Inp n K) (fl : Flags)

theorem lamL_mask {L i : Nat} (k : Fin n) (h : fl.lay i = true) :
    lamL ex z0 (masked L fl z') i k = lamL ex z0 z' i k := by
  unfold lamL masked; simp [h]

theorem lamL_off {L i : Nat} (k : Fin n) (h : fl.lay i = false) : lamL ex z0 (masked L fl z') i k = 0 := by
  unfold lamL masked; simp [h]

theorem on_rF0 (L : Nat) (B : Nat → K) (i : Nat) (j : Fin n) :
    rF0 ex z0 (masked L fl z') B i j = on (fl.lay i) (rF0 ex z0 z' B i j) := by
  unfold rF0 on
  cases h : fl.lay i
  · simp only [lamL_off ex z0 z' fl _ h]; simp [masked, h]
  · simp only [lamL_mask ex z0 z' fl _ h]; simp [masked, h]

theorem on_rG0 (L : Nat) (B : Nat → K) (i : Nat) (j : Fin n) :
    rG0 ex z0 (masked L fl z') B i j = on (fl.lay i) (rG0 ex z0 z' B i j) := by
  unfold rG0 on
  cases h : fl.lay i
  · simp only [lamL_off ex z0 z' fl _ h]; simp [masked, h]
  · simp only [lamL_mask ex z0 z' fl _ h]; simp [masked, h]

theorem on_rF1 (L : Nat) (B : Nat → K) (i : Nat) (j : Fin n) :
    rF1 ex z0 (masked L fl z') B i j = on (fl.lay i) (rF1 ex z0 z' B i j) := by
  unfold rF1 on
  cases h : fl.lay i
  · simp only [lamL_off ex z0 z' fl _ h]; simp [masked, h]
  · simp only [lamL_mask ex z0 z' fl _ h]; simp [masked, h]

theorem on_rG1 (L : Nat) (B : Nat → K) (i : Nat) (j : Fin n) :
    rG1 ex z0 (masked L fl z') B i j = on (fl.lay i) (rG1 ex z0 z' B i j) := by
  unfold rG1 on
  cases h : fl.lay i
  · simp only [lamL_off ex z0 z' fl _ h]; simp [masked, h]
  · simp only [lamL_mask ex z0 z' fl _ h]; simp [masked, h]

theorem dP_mask (L i : Nat) (j : Fin n) :
    (dP0p z0 (masked L fl z') i j : K) = on (z0.solar && fl.beam i) (z'.Fsp i j : K) +
      on (z0.thermal && fl.heat i) (z'.Ft0p i j : K) ∧
    (dP0m z0 (masked L fl z') i j : K) = on (z0.solar && fl.beam i) (z'.Fsm i j : K) +
      on (z0.thermal && fl.heat i) (z'.Ft0m i j : K) ∧
    (dP1p z0 (masked L fl z') i j : K) =
      on (z0.solar && fl.beam i) ((z'.Fs1p i j : K) * (z0.atran i : K) + (z0.Fs1p i j : K) * (z'.atran i : K)) +
      on (z0.thermal && fl.heat i) (z'.Ft1p i j : K) ∧
    (dP1m z0 (masked L fl z') i j : K) =
      on (z0.solar && fl.beam i) ((z'.Fs1m i j : K) * (z0.atran i : K) + (z0.Fs1m i j : K) * (z'.atran i : K)) +
      on (z0.thermal && fl.heat i) (z'.Ft1m i j : K) := by
  unfold dP0p dP0m dP1p dP1m masked on
  cases h1 : z0.solar <;> cases h2 : z0.thermal <;> cases h3 : fl.beam i <;> cases h4 : fl.heat i <;> simp [h3, h4]

theorem on_sum (c : Bool) (f : Fin n → K) : on c (∑ k, f k) = ∑ k, on c (f k) := by
  unfold on; cases c <;> simp

theorem on_neg (c : Bool) (a : K) : on c (-a) = -on c a := by unfold on; cases c <;> simp
theorem on_add (c : Bool) (a b : K) : on c (a + b) = on c a + on c b := by unfold on; cases c <;> simp
theorem on_and (a b : Bool) (v : K) : on (a && b) v = on a (on b v) := by unfold on; cases a <;> cases b <;> simp
theorem on_mul (c : Bool) (a b : K) : on c (a * b) = a * on c b := by unfold on; cases c <;> simp

theorem topL_eq (L : Nat) (B : Nat → K) (j : Fin n) : topL ex z0 z' fl B j =
    (z'.I1m j : K) - (dP0m z0 (masked L fl z') 0 j : K) - rG0 ex z0 (masked L fl z') B 0 j := by
  rw [(dP_mask z0 z' fl L 0 j).2.1, on_rG0]
  unfold topL rG0 al be
  simp only [Nat.zero_mul, Nat.zero_add]
  have : ∀ k : Fin n, B k.val * -(z'.m 0).Xm j k +
      B (k.val + n) * (lamL ex z0 z' 0 k * -(z0.m 0).Xp j k + lam ex z0 0 k * -(z'.m 0).Xp j k) =
      B k.val * -(z'.m 0).Xm j k +
      B (k.val + n) * (-(z'.m 0).Xp j k * lam ex z0 0 k + -(z0.m 0).Xp j k * lamL ex z0 z' 0 k) := fun k => by ring
  simp only [this]
  ring

theorem upL_eq (L : Nat) (B : Nat → K) (i : Nat) (j : Fin n) : upL ex z0 z' fl B i j =
    (dP0p z0 (masked L fl z') (i + 1) j : K) - (dP1p z0 (masked L fl z') i j : K) -
      rF1 ex z0 (masked L fl z') B i j + rF0 ex z0 (masked L fl z') B (i + 1) j := by
  rw [(dP_mask z0 z' fl L (i + 1) j).1, (dP_mask z0 z' fl L i j).2.2.1, on_rF1, on_rF0]
  unfold upL rF1 rF0
  dsimp only
  rw [on_sum, on_sum, Finset.sum_add_distrib, Finset.sum_neg_distrib]
  have h1 : ∀ k : Fin n, B (i * (2 * n) + k.val) * (lamL ex z0 z' i k * (z0.m i).Xp j k + lam ex z0 i k * (z'.m i).Xp j k) +
      B (i * (2 * n) + k.val + n) * (z'.m i).Xm j k =
      al B i k * ((z'.m i).Xp j k * lam ex z0 i k + (z0.m i).Xp j k * lamL ex z0 z' i k) + be B i k * (z'.m i).Xm j k := by
    intro k; unfold al be; rw [Nat.mul_comm 2 n]; ring
  have h2 : ∀ k : Fin n, B (i * (2 * n) + k.val + 3 * n) * (lamL ex z0 z' (i + 1) k * (z0.m (i + 1)).Xm j k +
      lam ex z0 (i + 1) k * (z'.m (i + 1)).Xm j k) + B (i * (2 * n) + k.val + 2 * n) * (z'.m (i + 1)).Xp j k =
      al B (i + 1) k * (z'.m (i + 1)).Xp j k + be B (i + 1) k * ((z'.m (i + 1)).Xm j k * lam ex z0 (i + 1) k +
        (z0.m (i + 1)).Xm j k * lamL ex z0 z' (i + 1) k) := by
    intro k; unfold al be
    rw [show i * (2 * n) + k.val + 3 * n = (i + 1) * (n * 2) + k.val + n by ring,
      show i * (2 * n) + k.val + 2 * n = (i + 1) * (n * 2) + k.val by ring]
    ring
  simp only [h1, h2]
  ring

theorem dnL_eq (L : Nat) (B : Nat → K) (i : Nat) (j : Fin n) : dnL ex z0 z' fl B i j =
    (dP0m z0 (masked L fl z') (i + 1) j : K) - (dP1m z0 (masked L fl z') i j : K) -
      rG1 ex z0 (masked L fl z') B i j + rG0 ex z0 (masked L fl z') B (i + 1) j := by
  rw [(dP_mask z0 z' fl L (i + 1) j).2.1, (dP_mask z0 z' fl L i j).2.2.2, on_rG1, on_rG0]
  unfold dnL rG1 rG0
  dsimp only
  rw [on_sum, on_sum, Finset.sum_add_distrib, Finset.sum_neg_distrib]
  have h1 : ∀ k : Fin n, B (i * (2 * n) + k.val) * (lamL ex z0 z' i k * -(z0.m i).Xm j k + lam ex z0 i k * -(z'.m i).Xm j k) +
      B (i * (2 * n) + k.val + n) * -(z'.m i).Xp j k =
      al B i k * (-(z'.m i).Xm j k * lam ex z0 i k + -(z0.m i).Xm j k * lamL ex z0 z' i k) + be B i k * -(z'.m i).Xp j k := by
    intro k; unfold al be; rw [Nat.mul_comm 2 n]; ring
  have h2 : ∀ k : Fin n, B (i * (2 * n) + k.val + 3 * n) * (lamL ex z0 z' (i + 1) k * -(z0.m (i + 1)).Xp j k +
      lam ex z0 (i + 1) k * -(z'.m (i + 1)).Xp j k) + B (i * (2 * n) + k.val + 2 * n) * -(z'.m (i + 1)).Xm j k =
      al B (i + 1) k * -(z'.m (i + 1)).Xm j k + be B (i + 1) k * (-(z'.m (i + 1)).Xp j k * lam ex z0 (i + 1) k +
        -(z0.m (i + 1)).Xp j k * lamL ex z0 z' (i + 1) k) := by
    intro k; unfold al be
    rw [show i * (2 * n) + k.val + 3 * n = (i + 1) * (n * 2) + k.val + n by ring,
      show i * (2 * n) + k.val + 2 * n = (i + 1) * (n * 2) + k.val by ring]
    ring
  simp only [h1, h2]
  ring

theorem botL_eq (hL : 1 ≤ z0.L) (hI : z0.surface = true ∨ z'.Inp = 0) (B : Nat → K) (j : Fin n) :
    botL ex z0 z' fl B j =
      (z'.Inp j : K) - (dP1p z0 (masked z0.L fl z') (z0.L - 1) j : K) - rF1 ex z0 (masked z0.L fl z') B (z0.L - 1) j +
        dRefl z0 (masked z0.L fl z') (fun l => G1 ex z0 B (z0.L - 1) l + (P1m z0 (z0.L - 1) l : K))
          (fun l => rG1 ex z0 (masked z0.L fl z') B (z0.L - 1) l + (dP1m z0 (masked z0.L fl z') (z0.L - 1) l : K)) j := by
  have hii : nComp z0 - 2 * n = (z0.L - 1) * (n * 2) := by
    unfold nComp
    obtain ⟨k, hk⟩ : ∃ k, z0.L = k + 1 := ⟨z0.L - 1, by omega⟩
    rw [hk]
    have : 2 * n * (k + 1) = k * (n * 2) + 2 * n := by ring
    simp only [Nat.add_sub_cancel]; omega
  have hi1 : z0.L - 1 + 1 = z0.L := by omega
  simp only [(dP_mask z0 z' fl z0.L (z0.L - 1) _).2.2.1, (dP_mask z0 z' fl z0.L (z0.L - 1) _).2.2.2, on_rF1, on_rG1]
  unfold botL
  dsimp only
  rw [hii, hi1]
  set i := z0.L - 1
  set as := on (z0.solar && fl.beam i) ((z'.Fs1p i j : K) * (z0.atran i : K) + (z0.Fs1p i j : K) * (z'.atran i : K))
  set at' := on (z0.thermal && fl.heat i) (z'.Ft1p i j : K)
  have h1 : ∑ k : Fin n, on (fl.lay i) (B (i * (n * 2) + k) * (lamL ex z0 z' i k * (z0.m i).Xp j k +
      lam ex z0 i k * (z'.m i).Xp j k) + B (i * (n * 2) + k + n) * (z'.m i).Xm j k) =
      on (fl.lay i) (rF1 ex z0 z' B i j) := by
    unfold rF1 al be
    rw [on_sum]
    exact Finset.sum_congr rfl fun k _ => congrArg _ (by ring)
  rw [Finset.sum_add_distrib (f := fun k : Fin n => -on (fl.lay i) (B (i * (n * 2) + k) *
      (lamL ex z0 z' i k * (z0.m i).Xp j k + lam ex z0 i k * (z'.m i).Xp j k) +
      B (i * (n * 2) + k + n) * (z'.m i).Xm j k)), Finset.sum_neg_distrib, h1]
  cases hs : z0.surface with
  | false =>
    have hInp : z'.Inp = 0 := by
      rcases hI with h | h
      · rw [hs] at h; cases h
      · exact h
    unfold dRefl
    simp only [hs, on, Bool.false_eq_true, if_false, Finset.sum_const_zero, hInp]
    simp
    ring
  | true =>
    unfold dRefl
    simp only [hs, on, if_true]
    have hR : ∀ l, (((masked z0.L fl z').Rs j l : ℝ) : K) = on (fl.lay z0.L) (z'.Rs j l : K) := by
      intro l; unfold masked on; cases h : fl.lay z0.L <;> simp [h]
    simp only [hR]
    change _ + (∑ k : Fin n, (on (z0.solar && fl.beam i) ((z0.Rs j k : K) *
            ((z'.Fs1m i k : K) * (z0.atran i : K) + (z0.Fs1m i k : K) * (z'.atran i : K))) +
          on (z0.solar && fl.lay z0.L) ((z'.Rs j k : K) * (z0.Fs1m i k : K) * (z0.atran i : K)) +
          on (z0.thermal && fl.heat i) ((z0.Rs j k : K) * (z'.Ft1m i k : K)) +
          on (z0.thermal && fl.lay z0.L) ((z'.Rs j k : K) * (z0.Ft1m i k : K))) + (z'.Inp j : K)) +
      (-on (fl.lay i) (rF1 ex z0 z' B i j) + ∑ k : Fin n,
        (0 - on (fl.lay i) (B (i * (n * 2) + k) * lamL ex z0 z' i k *
            -∑ l : Fin n, (z0.Rs j l : K) * -(z0.m i).Xm l k) -
          (B (i * (n * 2) + k) * lam ex z0 i k * -∑ l : Fin n, (on (fl.lay i) ((z0.Rs j l : K) * -(z'.m i).Xm l k) +
             on (fl.lay z0.L) ((z'.Rs j l : K) * -(z0.m i).Xm l k)) +
           B (i * (n * 2) + k + n) * -∑ l : Fin n, (on (fl.lay i) ((z0.Rs j l : K) * -(z'.m i).Xp l k) +
             on (fl.lay z0.L) ((z'.Rs j l : K) * -(z0.m i).Xp l k))))) =
      (z'.Inp j : K) - (as + at') - on (fl.lay i) (rF1 ex z0 z' B i j) +
        ∑ l, (on (fl.lay z0.L) (z'.Rs j l : K) * (G1 ex z0 B i l + (P1m z0 i l : K)) +
          (z0.Rs j l : K) * (on (fl.lay i) (rG1 ex z0 z' B i l) +
            (on (z0.solar && fl.beam i) ((z'.Fs1m i l : K) * (z0.atran i : K) + (z0.Fs1m i l : K) * (z'.atran i : K)) +
              on (z0.thermal && fl.heat i) (z'.Ft1m i l : K))))
    have h2 : ∑ k : Fin n,
        (0 - on (fl.lay i) (B (i * (n * 2) + k) * lamL ex z0 z' i k *
            -∑ l : Fin n, (z0.Rs j l : K) * -(z0.m i).Xm l k) -
          (B (i * (n * 2) + k) * lam ex z0 i k * -∑ l : Fin n, (on (fl.lay i) ((z0.Rs j l : K) * -(z'.m i).Xm l k) +
             on (fl.lay z0.L) ((z'.Rs j l : K) * -(z0.m i).Xm l k)) +
           B (i * (n * 2) + k + n) * -∑ l : Fin n, (on (fl.lay i) ((z0.Rs j l : K) * -(z'.m i).Xp l k) +
             on (fl.lay z0.L) ((z'.Rs j l : K) * -(z0.m i).Xp l k)))) =
        ∑ l, (on (fl.lay z0.L) (z'.Rs j l : K) * G1 ex z0 B i l + (z0.Rs j l : K) * on (fl.lay i) (rG1 ex z0 z' B i l)) := by
      unfold G1 rG1
      simp only [on_sum, Finset.mul_sum, ← Finset.sum_add_distrib]
      rw [Finset.sum_comm]
      refine Finset.sum_congr rfl fun k _ => ?_
      rw [← Finset.sum_neg_distrib, ← Finset.sum_neg_distrib, ← Finset.sum_neg_distrib, Finset.mul_sum, Finset.mul_sum,
        Finset.mul_sum, on_sum, zero_sub, ← Finset.sum_neg_distrib, ← Finset.sum_add_distrib, ← Finset.sum_sub_distrib]
      refine Finset.sum_congr rfl fun l _ => ?_
      unfold on al be
      cases fl.lay i <;> cases fl.lay z0.L <;>
        simp only [Bool.false_eq_true, if_false, if_true] <;> ring
    have h3 : ∀ l, (P1m z0 i l : K) = on z0.solar ((z0.Fs1m i l : K) * (z0.atran i : K)) + on z0.thermal (z0.Ft1m i l : K) := by
      intro l; unfold P1m on; cases z0.solar <;> cases z0.thermal <;> simp
    rw [h2]
    simp only [h3]
    have h4 : ∑ k : Fin n, (on (z0.solar && fl.beam i) ((z0.Rs j k : K) *
            ((z'.Fs1m i k : K) * (z0.atran i : K) + (z0.Fs1m i k : K) * (z'.atran i : K))) +
          on (z0.solar && fl.lay z0.L) ((z'.Rs j k : K) * (z0.Fs1m i k : K) * (z0.atran i : K)) +
          on (z0.thermal && fl.heat i) ((z0.Rs j k : K) * (z'.Ft1m i k : K)) +
          on (z0.thermal && fl.lay z0.L) ((z'.Rs j k : K) * (z0.Ft1m i k : K))) +
        ∑ l, (on (fl.lay z0.L) (z'.Rs j l : K) * G1 ex z0 B i l + (z0.Rs j l : K) * on (fl.lay i) (rG1 ex z0 z' B i l)) =
        ∑ l, (on (fl.lay z0.L) (z'.Rs j l : K) * (G1 ex z0 B i l + (on z0.solar ((z0.Fs1m i l : K) * (z0.atran i : K)) +
            on z0.thermal (z0.Ft1m i l : K))) +
          (z0.Rs j l : K) * (on (fl.lay i) (rG1 ex z0 z' B i l) +
            (on (z0.solar && fl.beam i) ((z'.Fs1m i l : K) * (z0.atran i : K) + (z0.Fs1m i l : K) * (z'.atran i : K)) +
              on (z0.thermal && fl.heat i) (z'.Ft1m i l : K)))) := by
      rw [← Finset.sum_add_distrib]
      refine Finset.sum_congr rfl fun l _ => ?_
      rw [on_and, on_and, on_and, on_and, on_and, on_and]
      generalize (z0.Rs j l : K) = R
      generalize (z'.Rs j l : K) = R'
      generalize on (fl.lay i) (rG1 ex z0 z' B i l) = g
      unfold on
      cases z0.solar <;> cases z0.thermal <;> cases fl.beam i <;> cases fl.heat i <;> cases fl.lay z0.L <;>
        simp only [Bool.false_eq_true, if_false, if_true] <;> ring
    rw [← h4]; ring

end code

/-- The derivatives of the unknowns. -/
theorem found_deriv (he : IsExp ex) (hex : ExactAll inv?) {z' : Inp n K} {fl : Flags}
    (hz : InpDeriv z (masked (z x).L fl z') x) (hL : 1 ≤ (z x).L)
    (hI : (z x).surface = true ∨ z'.Inp = 0) {B : ℝ → Nat → K} {B' : Nat → K}
    (h : ∀ᶠ y in 𝓝 x, solveBvp ex (z y) inv? = some (B y))
    (hl : solveBvpL ex (z x) z' fl inv? (B x) = some B') (r : Nat) (hr : r < nComp (z x)) :
    HasDerivAt (fun y => B y r) (B' r) x := by
  have hd := found_diff he hex hz hL h
  set b' : Nat → K := fun r => deriv (fun y => B y r) x with hb'
  have hB : ∀ r, r < nComp (z x) → HasDerivAt (fun y => B y r) (b' r) x := fun r hr => (hd r hr).hasDerivAt
  obtain ⟨e0, eu, ed, eb⟩ := meets_deriv he hz hL hB (h.mono fun y hy =>
    (solve_meets hex (by rw [hz.L]; exact hL) hy).1)
  have hrow := (rows_iff ex (z x) hL b' (rhsL ex (z x) z' fl (B x))).2 (by
    refine ⟨fun j => ?_, fun i hi j => ?_, fun i hi j => ?_, fun j => ?_⟩
    · rw [(rhsL_row ex (z x) z' fl hL (B x) j).1, topL_eq ex (z x) z' fl (z x).L]; exact e0 j
    · rw [(rhsL_row ex (z x) z' fl hL (B x) j).2.1 i hi, upL_eq ex (z x) z' fl (z x).L]; exact eu i hi j
    · rw [(rhsL_row ex (z x) z' fl hL (B x) j).2.2.1 i hi, dnL_eq ex (z x) z' fl (z x).L]; exact ed i hi j
    · rw [(rhsL_row ex (z x) z' fl hL (B x) j).2.2.2, botL_eq ex (z x) z' fl hL hI]; exact eb j)
  unfold solveBvpL at hl
  cases hi : inv? ((system ex (z x)).read (nDiags n) (nComp (z x))) with
  | none => simp [hi] at hl
  | some X =>
    simp only [hi] at hl
    have hX := mul_eq_one_comm.1 ((hex _ _ _).1 hi)
    injection hl with hl
    have : (fun c : Fin (nComp (z x)) => B' c.val) = fun c => b' c.val := by
      rw [← hl, solved_eq, ← hrow, mulVec_mulVec, hX, one_mulVec]
    rw [congrFun this ⟨r, hr⟩]
    exact hB r hr

theorem re_deriv {f : ℝ → K} {f' : K} (h : HasDerivAt f f' x) :
    HasDerivAt (fun y => RCLike.re (f y)) (RCLike.re f') x := by
  have := (RCLike.reCLM (K := K)).hasFDerivAt.comp_hasDerivAt x h
  simp only [RCLike.reCLM_apply] at this
  exact this

/-- The derivatives of the radiances at a level. -/
theorem level_deriv (he : IsExp ex) {z' : Inp n K} {fl : Flags} (hz : InpDeriv z (masked (z x).L fl z') x)
    (hL : 1 ≤ (z x).L) {B : ℝ → Nat → K} {B' : Nat → K}
    (hB : ∀ r, r < nComp (z x) → HasDerivAt (fun y => B y r) (B' r) x) (lev : Nat) (hlev : lev ≤ (z x).L) (j : Fin n) :
    HasDerivAt (fun y => (level ex (z y) (B y) lev).1 j) ((levelL ex (z x) z' fl (B x) B' lev).1 j) x ∧
    HasDerivAt (fun y => (level ex (z y) (B y) lev).2 j) ((levelL ex (z x) z' fl (B x) B' lev).2 j) x := by
  have dm := fun i => dP_mask (z x) z' fl (z x).L i j
  have key : ∀ {a b : ℝ} {P : K}, (a : K) = P → P = (b : K) → a = b := fun h1 h2 => by
    have := h1.trans h2; exact_mod_cast this
  simp only [level_eq, hz.L]
  by_cases hl : lev = (z x).L
  · simp only [hl, ne_eq, not_true_eq_false, if_false]
    have hi : (z x).L - 1 < (z x).L := by omega
    obtain ⟨-, -, h3, h4⟩ := sums_deriv he hz hB hi j
    obtain ⟨-, -, p3, p4⟩ := P_deriv hz hi j
    unfold levelL
    rw [if_neg (by simp [hl])]
    dsimp only
    constructor
    · refine ((re_deriv h3).fun_add p3).congr_deriv ?_
      rw [on_rF1, add_assoc]
      congr 1
      · unfold F1 rF1 al be
        rw [on_sum, ← Finset.sum_add_distrib]
      · refine key (dm _).2.2.1 ?_
        unfold on; split_ifs <;> push_cast <;> ring
    · refine ((re_deriv h4).fun_add p4).congr_deriv ?_
      rw [on_rG1, add_assoc]
      congr 1
      · unfold G1 rG1 al be
        rw [on_sum, ← Finset.sum_add_distrib]
      · refine key (dm _).2.2.2 ?_
        unfold on; split_ifs <;> push_cast <;> ring
  · simp only [hl, ne_eq, not_false_eq_true, if_true]
    have hi : lev < (z x).L := by omega
    obtain ⟨h1, h2, -, -⟩ := sums_deriv he hz hB hi j
    obtain ⟨p1, p2, -, -⟩ := P_deriv hz hi j
    unfold levelL
    rw [if_pos hl]
    dsimp only
    constructor
    · refine ((re_deriv h1).fun_add p1).congr_deriv ?_
      rw [on_rF0, add_assoc]
      congr 1
      · unfold F0 rF0 al be
        rw [on_sum, ← Finset.sum_add_distrib]
      · refine key (dm _).1 ?_
        unfold on; split_ifs <;> push_cast <;> ring
    · refine ((re_deriv h2).fun_add p2).congr_deriv ?_
      rw [on_rG0, add_assoc]
      congr 1
      · unfold G0 rG0 al be
        rw [on_sum, ← Finset.sum_add_distrib]
      · refine key (dm _).2.1 ?_
        unfold on; split_ifs <;> push_cast <;> ring

/-- The derivatives of the radiances at a depth that keeps its share of its layer. -/
theorem tau_deriv (he : IsExp ex) {z' : Inp n K} {fl : Flags} (hz : InpDeriv z (masked (z x).L fl z') x)
    {B : ℝ → Nat → K} {B' : Nat → K}
    (hB : ∀ r, r < nComp (z x) → HasDerivAt (fun y => B y r) (B' r) x) {i : Nat} (hi : i < (z x).L)
    {as0 t : ℝ → ℝ} {as0' : ℝ} (ht : HasDerivAt t (t x * z'.ltau i / (z x).ltau i) x)
    (hs : HasDerivAt as0 (if fl.beam i then as0' else 0) x) (hlay : fl.lay i = false → z'.ltau i = 0)
    (hbeam : (z x).solar = true → fl.lay i = true → fl.beam i = true) (j : Fin n) :
    HasDerivAt (fun y => (atTau ex (z y) (as0 y) (B y) i (t y)).1 j)
      ((atTauL ex (z x) z' fl (as0 x) as0' (B x) B' i (t x)).1 j) x ∧
    HasDerivAt (fun y => (atTau ex (z y) (as0 y) (B y) i (t y)).2 j)
      ((atTauL ex (z x) z' fl (as0 x) as0' (B x) B' i (t x)).2 j) x := by
  have hlt : i * (n * 2) + n * 2 ≤ nComp (z x) := by
    unfold nComp
    calc i * (n * 2) + n * 2 = (i + 1) * (n * 2) := by ring
      _ ≤ (z x).L * (n * 2) := Nat.mul_le_mul_right _ hi
      _ = 2 * n * (z x).L := by ring
  have ha : ∀ k : Fin n, HasDerivAt (fun y => B y (i * (n * 2) + k)) (B' (i * (n * 2) + k)) x := fun k =>
    hB _ (by have := k.isLt; omega)
  have hb : ∀ k : Fin n, HasDerivAt (fun y => B y (i * (n * 2) + k + n)) (B' (i * (n * 2) + k + n)) x := fun k =>
    hB _ (by have := k.isLt; omega)
  have hT : HasDerivAt (fun y => (z y).ltau i) (z'.ltau i) x := by
    refine (hz.ltau i hi).congr_deriv ?_
    unfold masked
    cases h : fl.lay i with
    | false => simp [h, hlay h]
    | true => simp [h]
  set t' := t x * z'.ltau i / (z x).ltau i with ht'
  set m' := ((masked (z x).L fl z').m i) with hm'
  have hon : ∀ a : K, on (fl.lay i) a = if fl.lay i then a else 0 := fun a => rfl
  have hlp : ∀ k, HasDerivAt (fun y => ex (-((z y).m i).nu k * ((t y - 0 : ℝ) : K)))
      (-(m'.nu k * ((t x - 0 : ℝ) : K) + ((z x).m i).nu k * (t' : K)) *
        ex (-((z x).m i).nu k * ((t x - 0 : ℝ) : K))) x := fun k => by
    have h1 := ((hz.m i hi).nu k).fun_neg.fun_mul (cast_hasDeriv (K := K) (ht.sub_const 0))
    exact (he.along h1).congr_deriv (by ring)
  have hlm : ∀ k, HasDerivAt (fun y => ex (-((z y).m i).nu k * (((z y).ltau i - t y : ℝ) : K)))
      (-(m'.nu k * (((z x).ltau i - t x : ℝ) : K) + ((z x).m i).nu k * ((z'.ltau i - t' : ℝ) : K)) *
        ex (-((z x).m i).nu k * (((z x).ltau i - t x : ℝ) : K))) x := fun k => by
    have h1 := ((hz.m i hi).nu k).fun_neg.fun_mul (cast_hasDeriv (K := K) (hT.fun_sub ht))
    exact (he.along h1).congr_deriv (by ring)
  have hp := fun k => (hz.m i hi).Xp j k
  have hm := fun k => (hz.m i hi).Xm j k
  have hE : HasDerivAt (fun y => Real.exp (-t y * as0 y))
      (-(t' * as0 x + t x * if fl.beam i then as0' else 0) * Real.exp (-t x * as0 x)) x :=
    ((ht.fun_neg.fun_mul hs).exp).congr_deriv (by ring)
  have ht0 : fl.lay i = false → t' = 0 := fun h => by rw [ht', hlay h]; simp
  unfold atTau atTauL
  dsimp only
  simp only [hz.solar]
  have hsun : ∀ {f : ℝ → ℝ} {f' : ℝ}, HasDerivAt f (if fl.beam i then f' else 0) x →
      HasDerivAt (fun y => if (z x).solar then f y * Real.exp (-t y * as0 y) else 0)
        (if ((z x).solar && fl.beam i) then f' * Real.exp (-t x * as0 x) +
          f x * -(t' * as0 x + t x * as0') * Real.exp (-t x * as0 x) else 0) x := by
    intro f f' hf
    cases hso : (z x).solar with
    | false => simpa using hasDerivAt_const x (0 : ℝ)
    | true =>
      simp only [if_true, Bool.true_and]
      refine (hf.fun_mul hE).congr_deriv ?_
      cases hbe : fl.beam i with
      | true => simp only [if_true]; ring
      | false =>
        have : fl.lay i = false := by
          by_contra h
          rw [hbeam hso (by simpa using h)] at hbe; cases hbe
        simp [ht0 this]
  have hFp : HasDerivAt (fun y => (z y).Fsp i j) (if fl.beam i then z'.Fsp i j else 0) x := by
    refine (hz.Fsp i hi j).congr_deriv ?_
    unfold masked; cases h : fl.beam i <;> simp [h]
  have hFm : HasDerivAt (fun y => (z y).Fsm i j) (if fl.beam i then z'.Fsm i j else 0) x := by
    refine (hz.Fsm i hi j).congr_deriv ?_
    unfold masked; cases h : fl.beam i <;> simp [h]
  constructor
  · refine (re_deriv (HasDerivAt.fun_sum fun k _ => ?_)).fun_add (hsun hFp)
    refine ((((ha k).fun_mul (hp k)).fun_mul (hlp k)).fun_add (((hb k).fun_mul (hm k)).fun_mul (hlm k))).congr_deriv ?_
    rw [hon, hm']
    cases h : fl.lay i with
    | true => unfold masked; simp only [h, if_true]; ring
    | false => unfold masked; simp [h, ht0 h, hlay h]
  · refine (re_deriv (HasDerivAt.fun_sum fun k _ => ?_)).fun_add (hsun hFm)
    refine ((((ha k).fun_mul (hm k).fun_neg).fun_mul (hlp k)).fun_add
      (((hb k).fun_mul (hp k).fun_neg).fun_mul (hlm k))).congr_deriv ?_
    rw [hon, hm']
    cases h : fl.lay i with
    | true => unfold masked; simp only [h, if_true]; ring
    | false => unfold masked; simp [h, ht0 h, hlay h]

end Xrtm.Bvp
