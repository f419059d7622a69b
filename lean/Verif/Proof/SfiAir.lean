import Verif.Proof.Sfi
import Verif.Props.Bvp

/-! # The source function integration of an atmosphere -/

namespace Xrtm.Sfi
open Matrix Xrtm.Loops Xrtm.Eig Xrtm.Bvp Xrtm.Transfer Xrtm.Source

variable {m n : Nat} {K : Type} [RCLike K] {ex : K → K}

/-- An atmosphere seen in further directions: layers that are the same from above and from
below; the beam scattered once, if it is asked for, and thermal emission for sources; light
from above, and what the ground gives off: light from below it, the beam reflected, and what
it emits where it does not reflect. -/
noncomputable def view (A : Air n K) (first : Bool) (ns : Nat) (single : Bool) (d : Dirs m n) (g : Ends m n) : View m n where
  mu := d.mu
  Ppp := d.Ppp
  Pmp := d.Pmp
  Pmm := fun i => Matrix.of fun u j => stokesSign ns u * stokesSign ns j * d.Ppp i u j
  Ppm := fun i => Matrix.of fun u j => stokesSign ns u * stokesSign ns j * d.Pmp i u j
  qp := fun i τ u => (if A.solar && single then A.btran i * beamSource A.F0 (A.c i).om (A.as0 i) (d.P0pm i) τ u else 0) +
    if A.thermal then thermalSource ns (A.c i).om (A.planck i) (A.planck (i + 1)) (A.T i) τ u else 0
  qm := fun i τ u => (if A.solar && single then A.btran i * beamSource A.F0 (A.c i).om (A.as0 i) (d.P0mm i) τ u else 0) +
    if A.thermal then thermalSource ns (A.c i).om (A.planck i) (A.planck (i + 1)) (A.T i) τ u else 0
  top := fun u => if first = true ∧ u.val % ns = 0 then g.isoTop else 0
  bot := fun u => (if first = true ∧ u.val % ns = 0 then g.isoBot else 0) +
    (if A.surface && A.solar && single then g.qf * (g.mu0 * A.F0 * A.btran A.L / Real.pi) * g.Rs0 u else 0) +
    if A.surface && A.thermal then (if u.val % ns = 0 then (1 - ∑ j, g.Rsq u j) * g.glow else 0) else 0
  Rs := if A.surface then Matrix.of fun u j => g.Rsq u j * stokesSign ns j else 0

/-- What `rtm_eig_bvp` hands on, src/xrtm_eig_bvp.c:640-999. -/
noncomputable def env (A : Air n K) (first : Bool) (ns : Nat) (mu w : Source.V n) (o : Nat → SunOut n)
    (a : Nat → (Fin n ⊕ Fin n → ℝ) × (Fin n ⊕ Fin n → ℝ)) (single : Bool) : Env n K where
  z := A.inp first ns mu w o a
  first := first
  w := w
  F0 := A.F0
  om := fun i => (A.c i).om
  as0 := A.as0
  btran := A.btran
  pd0 := A.planck
  pd1 := fun i => (A.planck (i + 1) - A.planck i) / A.T i
  At0p := fun i j => (a i).1 (.inl j)
  At0m := fun i j => (a i).1 (.inr j)
  At1p := fun i j => (a i).2 (.inl j)
  At1m := fun i j => (a i).2 (.inr j)
  single := single

theorem flip_eq (ns : Nat) (u : Fin m) (x : ℝ) : flip ns u x = stokesSign ns u * x := by
  unfold flip stokesSign; split_ifs <;> simp

theorem sign_sq (ns i : Nat) : stokesSign ns i * stokesSign ns i = 1 := by
  unfold stokesSign; split_ifs <;> norm_num

theorem flip_flip (ns : Nat) (u : Fin m) (x : ℝ) : flip ns u (flip ns u x) = x := by
  rw [flip_eq, flip_eq, ← mul_assoc, sign_sq, one_mul]

theorem on_eq (A : Air n K) (first : Bool) (ns : Nat) (mu w : Source.V n) (D : Nat → ℝ → Fin m → ℝ) (c : Nat) :
    View.on (A.stack first ns mu w) D c = if c < A.L then D c 0 else D (A.L - 1) (A.T (A.L - 1)) := rfl

section air

variable {A : Air n K} {first : Bool} {ns : Nat} {mu w : Source.V n} {o : Nat → SunOut n}
  {a : Nat → (Fin n ⊕ Fin n → ℝ) × (Fin n ⊕ Fin n → ℝ)} {inv1? : M n → Option (M n)}
  {inv2? : Matrix (Fin n ⊕ Fin n) (Fin n ⊕ Fin n) ℝ → Option (Matrix (Fin n ⊕ Fin n) (Fin n ⊕ Fin n) ℝ)}
  {inv? : {N : Nat} → Matrix (Fin N) (Fin N) K → Option (Matrix (Fin N) (Fin N) K)}
  {single : Bool} {d : Dirs m n} {g : Ends m n} {B : Nat → K} {up dn : Nat → ℝ → Source.V n}
  {U D : Nat → ℝ → Fin m → ℝ}

local notation "𝓔" => env A first ns mu w o a single

theorem kw (i : Nat) (j : Fin n) : ((A.c i).medium first mu w).k * ((A.c i).medium first mu w).w j =
    (A.c i).om * wts 𝓔 j := by
  have hp := Real.pi_ne_zero
  simp only [Content.medium, Medium.of, wts, env]
  cases first <;> simp <;> field_simp <;> ring

theorem scatter_up (i : Nat) (u : Fin m) (f h : Source.V n) :
    ((A.c i).medium first mu w).k * ∑ j, ((A.c i).medium first mu w).w j *
      (d.Ppp i u j * f j + stokesSign ns u * stokesSign ns j * d.Pmp i u j * h j) =
    (A.c i).om * ∑ j, wts 𝓔 j * ((rowUp ns d u i).pp j * f j + (rowUp ns d u i).mp j * turn ns h j) := by
  rw [Finset.mul_sum, Finset.mul_sum]
  refine Finset.sum_congr rfl fun j _ => ?_
  rw [← mul_assoc, kw (ns := ns) (o := o) (a := a) (single := single), turn_apply]
  simp only [rowUp, flip_eq]; ring

theorem scatter_dn (i : Nat) (u : Fin m) (f h : Source.V n) :
    ((A.c i).medium first mu w).k * ∑ j, ((A.c i).medium first mu w).w j *
      (d.Pmp i u j * f j + stokesSign ns u * stokesSign ns j * d.Ppp i u j * h j) =
    stokesSign ns u * ((A.c i).om * ∑ j, wts 𝓔 j * ((rowDn ns d u i).pp j * f j + (rowDn ns d u i).mp j * turn ns h j)) := by
  rw [Finset.mul_sum, Finset.mul_sum, Finset.mul_sum]
  refine Finset.sum_congr rfl fun j _ => ?_
  rw [← mul_assoc, kw (ns := ns) (o := o) (a := a) (single := single), turn_apply]
  simp only [rowDn, flip_eq]
  linear_combination (-(A.c i).om * wts 𝓔 j * d.Pmp i u j * f j) * sign_sq ns u

theorem sources (hns : A.thermal = true → ns = 1) (i : Nat) (τ : ℝ) (u : Fin m) (P : Nat → Fin m → ℝ) :
    ((if A.solar && single then A.btran i * beamSource A.F0 (A.c i).om (A.as0 i) (P i) τ u else 0) +
      if A.thermal then thermalSource ns (A.c i).om (A.planck i) (A.planck (i + 1)) (A.T i) τ u else 0) =
    (if A.solar && single then A.btran i * (A.F0 / (4 * Real.pi)) * (A.c i).om * P i u * e2 𝓔 i τ else 0) +
      if A.thermal then (1 - (A.c i).om) * (A.planck i + (A.planck (i + 1) - A.planck i) / A.T i * τ) else 0 := by
  congr 1
  · congr 1
    simp only [beamSource, e2, env]
    rw [show -A.as0 i * τ = -τ * A.as0 i by ring]; ring
  · cases h : A.thermal with
    | false => rfl
    | true => rw [hns h]; simp [thermalSource, Nat.mod_one]

theorem src_up (he : IsExp ex) (hex : ExactAll inv?) (hex1 : Source.Exact inv1?) (hex2 : Source.Exact inv2?)
    (h : A.Fine first ns mu w o a inv1? inv2?) (hth : A.thermal = true → first = true)
    (hB : solveBvp ex (A.inp first ns mu w o a) inv? = some B) (hl : (A.stack first ns mu w).Lit up dn)
    {i : Nat} (hi : i < A.L) (t : ℝ) (r : Row n) :
    src ex 𝓔 B r i t = (A.c i).om * ∑ j, wts 𝓔 j * (r.pp j * up i t j + r.mp j * turn ns (dn i t) j) +
      ((if A.solar && single then A.btran i * (A.F0 / (4 * Real.pi)) * (A.c i).om * r.p0 * e2 𝓔 i t else 0) +
        if A.thermal then (1 - (A.c i).om) * (A.planck i + (A.planck (i + 1) - A.planck i) / A.T i * t) else 0) := by
  have hf := fun j => lit_found he hex (air_posed hex1 hex2 h) hB hl i hi t j
  have e : -A.as0 i * t = -t * A.as0 i := by ring
  refine src_eq (e := 𝓔) B r t hth (fun j => ?_) (fun j => ?_)
  · have := congrArg RCLike.re (hf j).1
    rw [map_add, RCLike.ofReal_re, RCLike.ofReal_re] at this
    rw [this]
    congr 1
    unfold Air.su
    change (if A.solar = true then A.btran i • Real.exp (-A.as0 i * t) • (o i).Fp else 0) j +
      (if A.thermal = true then fun j => (a i).1 (.inl j) + t * (a i).2 (.inl j) else 0) j =
      (if A.solar = true then Real.exp (-t * A.as0 i) * (A.btran i • (o i).Fp) j else 0) +
      if A.thermal = true then (a i).1 (.inl j) + t * (a i).2 (.inl j) else 0
    congr 1
    · by_cases hso : A.solar = true
      · rw [if_pos hso, if_pos hso]; simp only [Pi.smul_apply, smul_eq_mul, e]; ring
      · rw [if_neg hso, if_neg hso]; rfl
    · by_cases hta : A.thermal = true
      · rw [if_pos hta, if_pos hta]
      · rw [if_neg hta, if_neg hta]; rfl
  · have := congrArg RCLike.re (hf j).2
    rw [map_add, RCLike.ofReal_re, RCLike.ofReal_re] at this
    rw [this]
    congr 1
    unfold Air.sd
    rw [turn_add]
    change turn ns (if A.solar = true then A.btran i • Real.exp (-A.as0 i * t) • (o i).Fm else 0) j +
      turn ns (if A.thermal = true then fun j => (a i).1 (.inr j) + t * (a i).2 (.inr j) else 0) j =
      (if A.solar = true then Real.exp (-t * A.as0 i) * (A.btran i • turn ns (o i).Fm) j else 0) +
      if A.thermal = true then (a i).1 (.inr j) + t * (a i).2 (.inr j) else 0
    congr 1
    · by_cases hso : A.solar = true
      · rw [if_pos hso, if_pos hso, turn_smul, turn_smul]; simp only [Pi.smul_apply, smul_eq_mul, e]; ring
      · rw [if_neg hso, if_neg hso, turn_zero]; rfl
    · by_cases hta : A.thermal = true
      · rw [if_pos hta, if_pos hta]
        have := (h.heat hta).1
        subst this
        rw [turn_one]
      · rw [if_neg hta, if_neg hta, turn_zero]; rfl

/-- The light up in a layer is what the code gives of the light at its bottom. -/
theorem up_value (he : IsExp ex) (hex : ExactAll inv?) (hex1 : Source.Exact inv1?) (hex2 : Source.Exact inv2?)
    (h : A.Fine first ns mu w o a inv1? inv2?) (hth : A.thermal = true → first = true)
    (hB : solveBvp ex (A.inp first ns mu w o a) inv? = some B) (hl : (A.stack first ns mu w).Lit up dn)
    (hS : (view A first ns single d g).Seen (A.stack first ns mu w) up dn U D) {i : Nat} (hi : i < A.L) (u : Fin m)
    (hs : Safe 𝓔 false (d.mu u) i) (t : ℝ) :
    value ex 𝓔 false (d.mu u) B (rowUp ns d u i) i t (U i (A.T i) u) = U i t u := by
  refine one_light (s := 1) hs.1 (f := fun t => value ex 𝓔 false (d.mu u) B (rowUp ns d u i) i t (U i (A.T i) u))
    (g := fun t => U i t u) (S := src ex 𝓔 B (rowUp ns d u i) i) (t0 := A.T i) (fun t => ?_) (fun t => ?_) ?_ t
  · have := value_has (down := false) he hs B (rowUp ns d u i) (U i (A.T i) u) t
    simpa [sgn] using this
  · obtain ⟨p, q, h1, -, h3, -⟩ := hS.layer i hi t u
    refine h1.congr_deriv ?_
    have hmu := hs.1
    rw [src_up he hex hex1 hex2 h hth hB hl hi t]
    simp only [view, Air.stack, of_apply] at h3
    rw [scatter_up (ns := ns) (o := o) (a := a) (single := single), sources (first := first) (mu := mu) (w := w) (o := o) (a := a) (fun h' => (h.heat h').1)] at h3
    rw [eq_div_iff hmu]
    simp only [rowUp] at h3 ⊢
    linear_combination h3
  · have := value_origin (e := 𝓔) (down := false) (mu := d.mu u) (i := i) he (fun _ => rfl) B (rowUp ns d u i) (U i (A.T i) u)
    exact this

/-- The light down in a layer, turned, is what the code gives of the light at its top. -/
theorem dn_value (he : IsExp ex) (hex : ExactAll inv?) (hex1 : Source.Exact inv1?) (hex2 : Source.Exact inv2?)
    (h : A.Fine first ns mu w o a inv1? inv2?) (hth : A.thermal = true → first = true)
    (hB : solveBvp ex (A.inp first ns mu w o a) inv? = some B) (hl : (A.stack first ns mu w).Lit up dn)
    (hS : (view A first ns single d g).Seen (A.stack first ns mu w) up dn U D) {i : Nat} (hi : i < A.L) (u : Fin m)
    (hs : Safe 𝓔 true (d.mu u) i) (t : ℝ) :
    value ex 𝓔 true (d.mu u) B (rowDn ns d u i) i t (flip ns u (D i 0 u)) = flip ns u (D i t u) := by
  refine one_light (s := -1) hs.1 (f := fun t => value ex 𝓔 true (d.mu u) B (rowDn ns d u i) i t (flip ns u (D i 0 u)))
    (g := fun t => flip ns u (D i t u)) (S := src ex 𝓔 B (rowDn ns d u i) i) (t0 := 0) (fun t => ?_) (fun t => ?_) ?_ t
  · have := value_has (down := true) he hs B (rowDn ns d u i) (flip ns u (D i 0 u)) t
    simpa [sgn] using this
  · obtain ⟨p, q, -, h2, -, h4⟩ := hS.layer i hi t u
    simp only [flip_eq]
    refine (h2.const_mul (stokesSign ns u)).congr_deriv ?_
    have hmu := hs.1
    rw [src_up he hex hex1 hex2 h hth hB hl hi t]
    simp only [view, Air.stack, of_apply] at h4
    rw [scatter_dn (ns := ns) (o := o) (a := a) (single := single), sources (first := first) (mu := mu) (w := w) (o := o) (a := a) (fun h' => (h.heat h').1)] at h4
    rw [eq_div_iff hmu]
    have hsq := sign_sq ns u
    have hst : A.thermal = true → stokesSign ns u = 1 := fun h' => by rw [(h.heat h').1]; exact sign_one u
    simp only [rowDn, flip_eq] at h4 ⊢
    set S := (A.c i).om * ∑ j, wts 𝓔 j * (stokesSign ns u * d.Pmp i u j * up i t j + d.Ppp i u j * turn ns (dn i t) j)
    cases ht : A.thermal <;> cases hc : A.solar && single <;>
      simp only [hc, ht, Bool.false_eq_true, if_false, if_true] at h4 ⊢
    · linear_combination (-stokesSign ns u) * h4 + S * hsq
    · linear_combination (-stokesSign ns u) * h4 + S * hsq
    · rw [hst ht] at h4 hsq ⊢
      linear_combination -h4
    · rw [hst ht] at h4 hsq ⊢
      linear_combination -h4
  · have := value_origin (e := 𝓔) (down := true) (mu := d.mu u) (i := i) he (fun _ => rfl) B (rowDn ns d u i) (flip ns u (D i 0 u))
    exact this

theorem layer_safe {e : Env n K} {down : Bool} {mu : ℝ} {i : Nat} (hs : Safe e down mu i) (r : Row n) (t I0 : ℝ) :
    layer ex e down mu B r i t (some I0) = some (value ex e down mu B r i t I0) := by
  unfold layer; simp only [Option.bind_some]; rw [if_pos hs]

/-- What the ground sends up. -/
theorem start_ground (he : IsExp ex) (hex : ExactAll inv?) (hex1 : Source.Exact inv1?) (hex2 : Source.Exact inv2?)
    (h : A.Fine first ns mu w o a inv1? inv2?) (hth : A.thermal = true → first = true)
    (hB : solveBvp ex (A.inp first ns mu w o a) inv? = some B) (hl : (A.stack first ns mu w).Lit up dn) (u : Fin m) :
    startUp 𝓔 ns g (Bvp.level ex (A.inp first ns mu w o a) B A.L).2 u =
      ((view A first ns single d g).bot + Matrix.mulVec (view A first ns single d g).Rs (dn (A.L - 1) (A.T (A.L - 1)))) u := by
  have hlev := C51_levels he hex hex1 hex2 h hB hl A.L le_rfl
  have h2 := congrArg Prod.snd hlev
  simp only [output, Stack.on, Air.stack, lt_irrefl, if_false] at h2
  have h3 : (Bvp.level ex (A.inp first ns mu w o a) B A.L).2 = turn ns (dn (A.L - 1) (A.T (A.L - 1))) := by
    rw [← h2, turn_turn]
  rw [h3]
  have hn : A.thermal = true → refl ns g u = ∑ j, g.Rsq u j := fun h' => by
    rw [(h.heat h').1]; simp [refl, Nat.mod_one]
  change (if first = true ∧ u.val % ns = 0 then g.isoBot else 0) +
    (if A.surface = true then ∑ j, g.Rsq u j * turn ns (dn (A.L - 1) (A.T (A.L - 1))) j else 0) +
    (if (A.surface && A.solar && single) = true then g.qf * g.mu0 * A.F0 / Real.pi * A.btran A.L * g.Rs0 u else 0) +
    (if (A.surface && A.thermal && first) = true ∧ u.val % ns = 0 then g.glow * (1 - refl ns g u) else 0) =
    ((if first = true ∧ u.val % ns = 0 then g.isoBot else 0) +
      (if (A.surface && A.solar && single) = true then g.qf * (g.mu0 * A.F0 * A.btran A.L / Real.pi) * g.Rs0 u else 0) +
      if (A.surface && A.thermal) = true then (if u.val % ns = 0 then (1 - ∑ j, g.Rsq u j) * g.glow else 0) else 0) +
    ((if A.surface = true then Matrix.of fun u j => g.Rsq u j * stokesSign ns j else 0) *ᵥ
        dn (A.L - 1) (A.T (A.L - 1))) u
  have hm : (if A.surface = true then ∑ j, g.Rsq u j * turn ns (dn (A.L - 1) (A.T (A.L - 1))) j else 0) =
      ((if A.surface = true then Matrix.of fun u j => g.Rsq u j * stokesSign ns j else 0) *ᵥ
        dn (A.L - 1) (A.T (A.L - 1))) u := by
    cases A.surface
    · simp
    · simp only [if_true, mulVec, dotProduct, turn_apply, of_apply, mul_assoc]
  have hq : (if (A.surface && A.thermal && first) = true ∧ u.val % ns = 0 then g.glow * (1 - refl ns g u) else 0) =
      if (A.surface && A.thermal) = true then (if u.val % ns = 0 then (1 - ∑ j, g.Rsq u j) * g.glow else 0) else 0 := by
    cases ht : A.thermal with
    | false => simp
    | true =>
      rw [hn ht, hth ht]
      cases A.surface
      · simp
      · simp only [Bool.and_self, true_and, if_true]
        congr 1; ring
  rw [hm, hq]
  have hb : g.qf * g.mu0 * A.F0 / Real.pi * A.btran A.L * g.Rs0 u = g.qf * (g.mu0 * A.F0 * A.btran A.L / Real.pi) * g.Rs0 u := by ring
  rw [hb]
  ring

theorem start_up (he : IsExp ex) (hex : ExactAll inv?) (hex1 : Source.Exact inv1?) (hex2 : Source.Exact inv2?)
    (h : A.Fine first ns mu w o a inv1? inv2?) (hth : A.thermal = true → first = true)
    (hB : solveBvp ex (A.inp first ns mu w o a) inv? = some B) (hl : (A.stack first ns mu w).Lit up dn)
    (hS : (view A first ns single d g).Seen (A.stack first ns mu w) up dn U D) (u : Fin m) :
    startUp 𝓔 ns g (Bvp.level ex (A.inp first ns mu w o a) B A.L).2 u = U (A.L - 1) (A.T (A.L - 1)) u :=
  (start_ground he hex hex1 hex2 h hth hB hl u).trans (congrFun hS.ground u).symm

/-- The light up after so many layers. -/
theorem run_up (he : IsExp ex) (hex : ExactAll inv?) (hex1 : Source.Exact inv1?) (hex2 : Source.Exact inv2?)
    (h : A.Fine first ns mu w o a inv1? inv2?) (hth : A.thermal = true → first = true)
    (hB : solveBvp ex (A.inp first ns mu w o a) inv? = some B) (hl : (A.stack first ns mu w).Lit up dn)
    (hS : (view A first ns single d g).Seen (A.stack first ns mu w) up dn U D) (u : Fin m) {k : Nat}
    (hs : ∀ i, k ≤ i → i < A.L → Safe 𝓔 false (d.mu u) i) (c : Nat) (hc : c ≤ A.L - k) :
    run false (fun i t => layer ex 𝓔 false (d.mu u) B (rowUp ns d u i) i t) A.L A.T
      (some (startUp 𝓔 ns g (Bvp.level ex (A.inp first ns mu w o a) B A.L).2 u)) c =
    some (if c = 0 then U (A.L - 1) (A.T (A.L - 1)) u else U (A.L - c) 0 u) := by
  have hone := h.one
  induction c with
  | zero => simp only [run, if_true]; rw [start_up he hex hex1 hex2 h hth hB hl hS u]
  | succ c ih =>
    simp only [run, Bool.not_false, if_true]
    have hi : A.L - 1 - c < A.L := by omega
    have e0 : (if c = 0 then U (A.L - 1) (A.T (A.L - 1)) u else U (A.L - c) 0 u) = U (A.L - 1 - c) (A.T (A.L - 1 - c)) u := by
      split_ifs with h0
      · subst h0; rfl
      · have := (hS.meet (A.L - 1 - c) (show A.L - 1 - c + 1 < A.L by omega)).1
        simp only [Air.stack] at this
        rw [this, show A.L - 1 - c + 1 = A.L - c by omega]
    rw [ih (by omega), e0, layer_safe (hs _ (by omega) hi), up_value he hex hex1 hex2 h hth hB hl hS hi u (hs _ (by omega) hi)]
    rw [if_neg (by omega), show A.L - 1 - c = A.L - (c + 1) by omega]

/-- The light down after so many layers. -/
theorem run_dn (he : IsExp ex) (hex : ExactAll inv?) (hex1 : Source.Exact inv1?) (hex2 : Source.Exact inv2?)
    (h : A.Fine first ns mu w o a inv1? inv2?) (hth : A.thermal = true → first = true)
    (hB : solveBvp ex (A.inp first ns mu w o a) inv? = some B) (hl : (A.stack first ns mu w).Lit up dn)
    (hS : (view A first ns single d g).Seen (A.stack first ns mu w) up dn U D) (u : Fin m) {k : Nat} (hk : k ≤ A.L)
    (hs : ∀ i, i < k → Safe 𝓔 true (d.mu u) i) (c : Nat) (hc : c ≤ k) :
    run true (fun i t => layer ex 𝓔 true (d.mu u) B (rowDn ns d u i) i t) A.L A.T (some (startDn 𝓔 ns g u)) c =
    some (flip ns u (View.on (A.stack first ns mu w) D c u)) := by
  have hone := h.one
  induction c with
  | zero =>
    simp only [run]
    have := congrFun hS.sky u
    rw [on_eq, if_pos (by omega), this]
    change some (if first = true ∧ u.val % ns = 0 then g.isoTop else 0) =
      some (flip ns u (if first = true ∧ u.val % ns = 0 then g.isoTop else 0))
    unfold flip
    by_cases h0 : 2 ≤ u.val % ns
    · rw [if_pos h0, if_neg (by omega), neg_zero]
    · rw [if_neg h0]
  | succ c ih =>
    simp only [run, Bool.not_true, Bool.false_eq_true, if_false]
    have hi : c < A.L := by omega
    rw [ih (by omega)]
    have e0 : View.on (A.stack first ns mu w) D c u = D c 0 u := by
      rw [on_eq, if_pos hi]
    rw [e0, layer_safe (hs _ (by omega)), dn_value he hex hex1 hex2 h hth hB hl hS hi u (hs _ (by omega))]
    congr 2
    rw [on_eq]
    split_ifs with h0
    · have := (hS.meet c h0).2
      simp only [Air.stack] at this
      rw [this]
    · rw [show A.L - 1 = c by omega]

/-- There is such light: what the code makes of the layers. -/
theorem made_seen (he : IsExp ex) (hex : ExactAll inv?) (hex1 : Source.Exact inv1?) (hex2 : Source.Exact inv2?)
    (h : A.Fine first ns mu w o a inv1? inv2?) (hth : A.thermal = true → first = true)
    (hB : solveBvp ex (A.inp first ns mu w o a) inv? = some B) (hl : (A.stack first ns mu w).Lit up dn)
    (hs : ∀ u i, i < A.L → Safe 𝓔 false (d.mu u) i ∧ Safe 𝓔 true (d.mu u) i) :
    ∃ U D, (view A first ns single d g).Seen (A.stack first ns mu w) up dn U D := by
  have hone := h.one
  set ru : Fin m → Nat → ℝ := fun u => run false (fun i t v => value ex 𝓔 false (d.mu u) B (rowUp ns d u i) i t v) A.L A.T
    (startUp 𝓔 ns g (Bvp.level ex (A.inp first ns mu w o a) B A.L).2 u) with hru
  set rd : Fin m → Nat → ℝ := fun u => run true (fun i t v => value ex 𝓔 true (d.mu u) B (rowDn ns d u i) i t v) A.L A.T
    (startDn 𝓔 ns g u) with hrd
  have vu : ∀ u i v, value ex 𝓔 false (d.mu u) B (rowUp ns d u i) i (A.T i) v = v := fun u i v =>
    value_origin (e := 𝓔) (down := false) (mu := d.mu u) (i := i) he (fun _ => rfl) B (rowUp ns d u i) v
  have vd : ∀ u i v, value ex 𝓔 true (d.mu u) B (rowDn ns d u i) i 0 v = v := fun u i v =>
    value_origin (e := 𝓔) (down := true) (mu := d.mu u) (i := i) he (fun _ => rfl) B (rowDn ns d u i) v
  refine ⟨fun i t u => value ex 𝓔 false (d.mu u) B (rowUp ns d u i) i t (ru u (A.L - 1 - i)),
    fun i t u => flip ns u (value ex 𝓔 true (d.mu u) B (rowDn ns d u i) i t (rd u i)), ?_, ?_, ?_, ?_⟩
  · intro i hi t u
    have hi : i < A.L := hi
    obtain ⟨s1, s2⟩ := hs u i hi
    have hmu := s1.1
    have a1 := value_has (down := false) he s1 B (rowUp ns d u i) (ru u (A.L - 1 - i)) t
    have a2 := value_has (down := true) he s2 B (rowDn ns d u i) (rd u i) t
    refine ⟨_, _, a1, by simp only [flip_eq]; exact a2.const_mul (stokesSign ns u), ?_, ?_⟩
    · rw [src_up he hex hex1 hex2 h hth hB hl hi t]
      simp only [view, Air.stack, of_apply]
      rw [scatter_up (ns := ns) (o := o) (a := a) (single := single), sources (first := first) (mu := mu) (w := w) (o := o) (a := a) (fun h' => (h.heat h').1)]
      simp only [rowUp, sgn, Bool.not_false, if_true]
      rw [mul_div_cancel₀ _ hmu]
      ring
    · rw [src_up he hex hex1 hex2 h hth hB hl hi t]
      simp only [view, Air.stack, of_apply]
      rw [scatter_dn (ns := ns) (o := o) (a := a) (single := single), sources (first := first) (mu := mu) (w := w) (o := o) (a := a) (fun h' => (h.heat h').1)]
      have hsq := sign_sq ns u
      have hst : A.thermal = true → stokesSign ns u = 1 := fun h' => by rw [(h.heat h').1]; exact sign_one u
      simp only [rowDn, flip_eq, sgn, Bool.not_true, Bool.false_eq_true, if_false]
      rw [mul_left_comm, mul_div_cancel₀ _ hmu]
      set S := (A.c i).om * ∑ j, wts 𝓔 j * (stokesSign ns u * d.Pmp i u j * up i t j + d.Ppp i u j * turn ns (dn i t) j)
      cases ht : A.thermal <;> cases hc : A.solar && single <;>
        simp only [Bool.false_eq_true, if_false, if_true]
      · ring
      · linear_combination (-(A.btran i * (A.F0 / (4 * Real.pi)) * (A.c i).om * d.P0mm i u * e2 𝓔 i t)) * hsq
      · rw [hst ht]; ring
      · rw [hst ht]; ring
  · intro i hi
    have hi : i + 1 < A.L := hi
    refine ⟨funext fun u => ?_, funext fun u => ?_⟩
    · change value ex 𝓔 false (d.mu u) B (rowUp ns d u i) i (A.T i) (ru u (A.L - 1 - i)) = _
      rw [vu, show A.L - 1 - i = (A.L - 1 - (i + 1)) + 1 by omega, hru]
      simp only [run, Bool.not_false, if_true]
      rw [show A.L - 1 - (A.L - 1 - (i + 1)) = i + 1 by omega]
    · rw [vd, hrd]
      simp only [run, Bool.not_true, Bool.false_eq_true, if_false]
      rfl
  · funext u
    rw [vd, hrd]
    simp only [run]
    change flip ns u (if first = true ∧ u.val % ns = 0 then g.isoTop else 0) =
      (if first = true ∧ u.val % ns = 0 then g.isoTop else 0)
    unfold flip
    by_cases h0 : 2 ≤ u.val % ns
    · rw [if_pos h0, if_neg (by omega), neg_zero]
    · rw [if_neg h0]
  · funext u
    change value ex 𝓔 false (d.mu u) B (rowUp ns d u (A.L - 1)) (A.L - 1) (A.T (A.L - 1)) (ru u (A.L - 1 - (A.L - 1))) = _
    rw [vu, Nat.sub_self, hru]
    simp only [run]
    exact start_ground he hex hex1 hex2 h hth hB hl u

end air

/-- One medium and one light in its directions make one light in the further ones. -/
theorem seen_one {s : Stack n} {v : View m n} (hmu : ∀ u, v.mu u ≠ 0) (hL : 1 ≤ s.L) {up dn : Nat → ℝ → Source.V n}
    {U D U' D' : Nat → ℝ → Fin m → ℝ} (h : v.Seen s up dn U D) (h' : v.Seen s up dn U' D') {i : Nat} (hi : i < s.L)
    (t : ℝ) (u : Fin m) : U i t u = U' i t u ∧ D i t u = D' i t u := by
  have hu : ∀ i, i < s.L → U i (s.T i) u = U' i (s.T i) u → ∀ t, U i t u = U' i t u := fun i hi h0 t => by
    refine one_light (s := 1) (hmu u) (f := fun t => U i t u) (g := fun t => U' i t u)
      (S := fun τ => (s.med i).k * ∑ j, (s.med i).w j * (v.Ppp i u j * up i τ j + v.Ppm i u j * dn i τ j) + v.qp i τ u)
      (t0 := s.T i) (fun t => ?_) (fun t => ?_) h0 t
    · obtain ⟨a, b, h1, -, h3, -⟩ := h.layer i hi t u
      refine h1.congr_deriv ?_
      have := hmu u
      field_simp; linear_combination h3
    · obtain ⟨a, b, h1, -, h3, -⟩ := h'.layer i hi t u
      refine h1.congr_deriv ?_
      have := hmu u
      field_simp; linear_combination h3
  have hd : ∀ i, i < s.L → D i 0 u = D' i 0 u → ∀ t, D i t u = D' i t u := fun i hi h0 t => by
    refine one_light (s := -1) (hmu u) (f := fun t => D i t u) (g := fun t => D' i t u)
      (S := fun τ => (s.med i).k * ∑ j, (s.med i).w j * (v.Pmp i u j * up i τ j + v.Pmm i u j * dn i τ j) + v.qm i τ u)
      (t0 := 0) (fun t => ?_) (fun t => ?_) h0 t
    · obtain ⟨a, b, -, h2, -, h4⟩ := h.layer i hi t u
      refine h2.congr_deriv ?_
      have := hmu u
      field_simp; linear_combination -h4
    · obtain ⟨a, b, -, h2, -, h4⟩ := h'.layer i hi t u
      refine h2.congr_deriv ?_
      have := hmu u
      field_simp; linear_combination -h4
  constructor
  · have key : ∀ c, c < s.L → ∀ t, U (s.L - 1 - c) t u = U' (s.L - 1 - c) t u := by
      intro c
      induction c with
      | zero =>
        intro _
        refine hu _ (by omega) ?_
        rw [Nat.sub_zero, h.ground, h'.ground]
      | succ c ih =>
        intro hc
        refine hu _ (by omega) ?_
        rw [(h.meet _ (by omega)).1, (h'.meet _ (by omega)).1, show s.L - 1 - (c + 1) + 1 = s.L - 1 - c by omega]
        exact ih (by omega) 0
    have := key (s.L - 1 - i) (by omega) t
    rwa [show s.L - 1 - (s.L - 1 - i) = i by omega] at this
  · have key : ∀ c, c < s.L → ∀ t, D c t u = D' c t u := by
      intro c
      induction c with
      | zero => intro hc; exact hd 0 hc (by rw [h.sky, h'.sky])
      | succ c ih =>
        intro hc
        refine hd _ hc ?_
        rw [← (h.meet c hc).2, ← (h'.meet c hc).2]
        exact ih (by omega) _
    exact key i hi t

end Xrtm.Sfi
