import Verif.Proof.SfiSeen
import Verif.Proof.SfiD
import Verif.Proof.View

/-!
# C56: the source function integration gives the light seen in further directions,
and its derivatives
-/

namespace Xrtm.Sfi
open Matrix Filter Topology Xrtm.Loops Xrtm.Eig Xrtm.Bvp Xrtm.Source Xrtm.Transfer

variable {m n : Nat} {K : Type} [RCLike K] {ex : K → K} {x : ℝ}

/-! ### What is seen -/

/-- Light seen in further directions is light in the stack that has them among its own. -/
theorem C56_more (s : Stack n) (v : View m n) (Q : Nat → Matrix (Fin (n + m)) (Fin m) ℝ)
    (up dn : Nat → ℝ → Fin n → ℝ) (U D : Nat → ℝ → Fin m → ℝ) :
    (s.more v Q).Lit (fun i t => Fin.append (up i t) (U i t)) (fun i t => Fin.append (dn i t) (D i t)) ↔
      s.Lit up dn ∧ v.Seen s up dn U D := seen_more s v Q up dn U D

/-- There is one such light. -/
theorem C56_one {s : Stack n} {v : View m n} (hmu : ∀ u, v.mu u ≠ 0) (hL : 1 ≤ s.L) {up dn : Nat → ℝ → Source.V n}
    {U D U' D' : Nat → ℝ → Fin m → ℝ} (h : v.Seen s up dn U D) (h' : v.Seen s up dn U' D') {i : Nat} (hi : i < s.L)
    (t : ℝ) (u : Fin m) : U i t u = U' i t u ∧ D i t u = D' i t u := seen_one hmu hL h h' hi t u

section air

variable {A : Air n K} {first : Bool} {ns : Nat} {mu w : Source.V n} {o : Nat → SunOut n}
  {a : Nat → (Fin n ⊕ Fin n → ℝ) × (Fin n ⊕ Fin n → ℝ)} {inv1? : M n → Option (M n)}
  {inv2? : Matrix (Fin n ⊕ Fin n) (Fin n ⊕ Fin n) ℝ → Option (Matrix (Fin n ⊕ Fin n) (Fin n ⊕ Fin n) ℝ)}
  {inv? : {N : Nat} → Matrix (Fin N) (Fin N) K → Option (Matrix (Fin N) (Fin N) K)}
  {single : Bool} {d : Dirs m n} {g : Ends m n} {B : Nat → K} {up dn : Nat → ℝ → Source.V n}
  {U D : Nat → ℝ → Fin m → ℝ} {nU : Nat} {ulev : Nat → Nat}

local notation "𝓔" => env A first ns mu w o a single

theorem C56_exists (he : IsExp ex) (hex : ExactAll inv?) (hex1 : Source.Exact inv1?) (hex2 : Source.Exact inv2?)
    (h : A.Fine first ns mu w o a inv1? inv2?) (hB : solveBvp ex (A.inp first ns mu w o a) inv? = some B)
    (hmu : ∀ u, d.mu u ≠ 0) : ∃ up dn U D, (A.stack first ns mu w).Lit up dn ∧
      (view A first ns single d g).Seen (A.stack first ns mu w) up dn U D := by
  obtain ⟨up, dn, hl⟩ := C51_exists he hex hex1 hex2 h hB
  have hb : ∀ i u (P : Fin m → ℝ), Continuous fun t => (if A.solar && single then A.btran i *
      beamSource A.F0 (A.c i).om (A.as0 i) P t u else 0) +
      if A.thermal then thermalSource ns (A.c i).om (A.planck i) (A.planck (i + 1)) (A.T i) t u else 0 := fun i u P => by
    refine Continuous.add ?_ ?_
    · split_ifs
      · unfold beamSource; fun_prop
      · exact continuous_const
    · split_ifs
      · unfold thermalSource; split_ifs <;> fun_prop
      · exact continuous_const
  obtain ⟨U, D, hS⟩ := seen_exists (v := view A first ns single d g) hmu h.one hl (fun i u => hb i u _) (fun i u => hb i u _)
  exact ⟨up, dn, U, D, hl, hS⟩

/-! ### Radiances -/

/-- Upwards at levels. -/
theorem C56_levels_up (he : IsExp ex) (hex : ExactAll inv?) (hex1 : Source.Exact inv1?) (hex2 : Source.Exact inv2?)
    (h : A.Fine first ns mu w o a inv1? inv2?) (hth : A.thermal = true → first = true)
    (hB : solveBvp ex (A.inp first ns mu w o a) inv? = some B) (hl : (A.stack first ns mu w).Lit up dn)
    (hS : (view A first ns single d g).Seen (A.stack first ns mu w) up dn U D) (hU : 0 < nU)
    (hlast : ulev (nU - 1) ≤ A.L) (hm : ∀ j k, j < k → k < nU → ulev j < ulev k) (utau : Nat → ℝ) (u : Fin m)
    (hs : ∀ i, ulev 0 ≤ i → i < A.L → Safe 𝓔 false (d.mu u) i) :
    ∃ r, Sfi.up ex 𝓔 false nU ulev utau ns d g B u = some r ∧ ∀ j, j < nU →
      r j = some (some (View.on (A.stack first ns mu w) U (ulev j) u)) := by
  obtain ⟨r, hr, hj⟩ := up_levels (utau := utau) (step := fun i t => layer ex 𝓔 false (d.mu u) B (rowUp ns d u i) i t)
    (T := A.T) hU h.one hlast hm (some (startUp 𝓔 ns g (Bvp.level ex (A.inp first ns mu w o a) B A.L).2 u))
  refine ⟨r, hr, fun j hjn => ?_⟩
  have h0 : ulev 0 ≤ ulev j := by
    rcases Nat.eq_zero_or_pos j with h | h
    · rw [h]
    · exact (hm 0 j h hjn).le
  have hjL : ulev j ≤ A.L := by
    rcases Nat.lt_or_ge j (nU - 1) with h | h
    · exact (hm j (nU - 1) h (by omega)).le.trans hlast
    · rwa [show j = nU - 1 by omega]
  rw [hj j hjn, run_up he hex hex1 hex2 h hth hB hl hS u (k := ulev 0) hs _ (by omega), on_eq]
  have hone := h.one
  by_cases hc : ulev j < A.L
  · rw [if_neg (by omega), if_pos hc, show A.L - (A.L - ulev j) = ulev j by omega]
  · rw [if_pos (by omega), if_neg hc]

/-- Upwards at depths in layers, with thermal emission or without. -/
theorem C56_taus_up (he : IsExp ex) (hex : ExactAll inv?) (hex1 : Source.Exact inv1?) (hex2 : Source.Exact inv2?)
    (h : A.Fine first ns mu w o a inv1? inv2?) (hth : A.thermal = true → first = true)
    (hB : solveBvp ex (A.inp first ns mu w o a) inv? = some B) (hl : (A.stack first ns mu w).Lit up dn)
    (hS : (view A first ns single d g).Seen (A.stack first ns mu w) up dn U D) (hU : 0 < nU)
    (hlast : ulev (nU - 1) < A.L) (hm : ∀ j k, j ≤ k → k < nU → ulev j ≤ ulev k) (utau : Nat → ℝ) (u : Fin m)
    (hs : ∀ i, ulev 0 ≤ i → i < A.L → Safe 𝓔 false (d.mu u) i) :
    ∃ r, Sfi.up ex 𝓔 true nU ulev utau ns d g B u = some r ∧ ∀ j, j < nU →
      r j = some (some (U (ulev j) (utau j) u)) := by
  obtain ⟨r, hr, hj⟩ := up_taus (utau := utau) (step := fun i t => layer ex 𝓔 false (d.mu u) B (rowUp ns d u i) i t)
    (T := A.T) hU hlast hm (some (startUp 𝓔 ns g (Bvp.level ex (A.inp first ns mu w o a) B A.L).2 u))
  refine ⟨r, hr, fun j hjn => ?_⟩
  have h0 : ulev 0 ≤ ulev j := hm 0 j (Nat.zero_le _) hjn
  have hjL : ulev j < A.L := (hm j (nU - 1) (by omega) (by omega)).trans_lt hlast
  rw [hj j hjn, run_up he hex hex1 hex2 h hth hB hl hS u (k := ulev 0) hs _ (by omega)]
  have e : (if A.L - 1 - ulev j = 0 then U (A.L - 1) (A.T (A.L - 1)) u else U (A.L - (A.L - 1 - ulev j)) 0 u) =
      U (ulev j) (A.T (ulev j)) u := by
    split_ifs with hc
    · rw [show A.L - 1 = ulev j by omega]
    · have := congrFun (hS.meet (ulev j) (show ulev j + 1 < A.L by omega)).1 u
      simp only [Air.stack] at this
      rw [this, show A.L - (A.L - 1 - ulev j) = ulev j + 1 by omega]
  rw [e, layer_safe (hs _ h0 hjL), up_value he hex hex1 hex2 h hth hB hl hS hjL u (hs _ h0 hjL)]

/-- Downwards at levels. -/
theorem C56_levels_dn (he : IsExp ex) (hex : ExactAll inv?) (hex1 : Source.Exact inv1?) (hex2 : Source.Exact inv2?)
    (h : A.Fine first ns mu w o a inv1? inv2?) (hth : A.thermal = true → first = true)
    (hB : solveBvp ex (A.inp first ns mu w o a) inv? = some B) (hl : (A.stack first ns mu w).Lit up dn)
    (hS : (view A first ns single d g).Seen (A.stack first ns mu w) up dn U D) (hU : 0 < nU)
    (hlast : ulev (nU - 1) ≤ A.L) (hm : ∀ j k, j < k → k < nU → ulev j < ulev k) (utau : Nat → ℝ) (u : Fin m)
    (hs : ∀ i, i < ulev (nU - 1) → Safe 𝓔 true (d.mu u) i) :
    ∃ r, Sfi.dn ex 𝓔 false nU ulev utau ns d g B u = some r ∧ ∀ j, j < nU →
      r j = some (some (View.on (A.stack first ns mu w) D (ulev j) u)) := by
  obtain ⟨r, hr, hj⟩ := dn_levels (utau := utau) (step := fun i t => layer ex 𝓔 true (d.mu u) B (rowDn ns d u i) i t)
    (L := A.L) (T := A.T) hU hm (some (startDn 𝓔 ns g u))
  refine ⟨fun j => (r j).map fun x => x.map (flip ns u), ?_, fun j hjn => ?_⟩
  · unfold Sfi.dn
    have : sweep true false nU ulev utau (fun i t => layer ex 𝓔 true (d.mu u) B (rowDn ns d u i) i t) (𝓔).z.L (𝓔).z.ltau
      (some (startDn 𝓔 ns g u)) = some r := hr
    rw [this]; rfl
  have hjL : ulev j ≤ ulev (nU - 1) := by
    rcases Nat.lt_or_ge j (nU - 1) with h | h
    · exact (hm j (nU - 1) h (by omega)).le
    · rw [show j = nU - 1 by omega]
  dsimp only
  rw [hj j hjn, run_dn he hex hex1 hex2 h hth hB hl hS u hlast hs _ hjL]
  simp only [Option.map_some, flip_flip]

/-- Downwards at depths in layers; not where the top is the only one asked for, see
`C56_violated_read`. -/
theorem C56_taus_dn_partial (he : IsExp ex) (hex : ExactAll inv?) (hex1 : Source.Exact inv1?) (hex2 : Source.Exact inv2?)
    (h : A.Fine first ns mu w o a inv1? inv2?) (hth : A.thermal = true → first = true)
    (hB : solveBvp ex (A.inp first ns mu w o a) inv? = some B) (hl : (A.stack first ns mu w).Lit up dn)
    (hS : (view A first ns single d g).Seen (A.stack first ns mu w) up dn U D) (hU : 0 < nU)
    (hlast : ulev (nU - 1) < A.L) (hm : ∀ j k, j ≤ k → k < nU → ulev j ≤ ulev k) (utau : Nat → ℝ) (u : Fin m)
    (htop : ulev 0 = 0 ∧ utau 0 = 0 → nU ≠ 1) (hs : ∀ i, i ≤ ulev (nU - 1) → Safe 𝓔 true (d.mu u) i) :
    ∃ r, Sfi.dn ex 𝓔 true nU ulev utau ns d g B u = some r ∧ ∀ j, j < nU →
      r j = some (some (D (ulev j) (utau j) u)) := by
  obtain ⟨r, hr, hj⟩ := dn_taus (utau := utau) (step := fun i t => layer ex 𝓔 true (d.mu u) B (rowDn ns d u i) i t)
    (L := A.L) (T := A.T) hU hm htop (some (startDn 𝓔 ns g u))
  refine ⟨fun j => (r j).map fun x => x.map (flip ns u), ?_, fun j hjn => ?_⟩
  · unfold Sfi.dn
    have : sweep true true nU ulev utau (fun i t => layer ex 𝓔 true (d.mu u) B (rowDn ns d u i) i t) (𝓔).z.L (𝓔).z.ltau
      (some (startDn 𝓔 ns g u)) = some r := hr
    rw [this]; rfl
  have hjL : ulev j ≤ ulev (nU - 1) := hm j (nU - 1) (by omega) (by omega)
  have hrun := fun c hc => run_dn he hex hex1 hex2 h hth hB hl hS u (k := ulev (nU - 1)) hlast.le (fun i hi => hs i hi.le) c hc
  dsimp only
  rw [hj j hjn]
  split_ifs with hc
  · have h0 := hrun 0 (Nat.zero_le _)
    simp only [run] at h0
    rw [h0, hc.1, hc.2.1, hc.2.2, on_eq, if_pos (by have := h.one; omega)]
    simp only [Option.map_some, flip_flip]
  · rw [hrun _ hjL, on_eq, if_pos (by omega), layer_safe (hs _ hjL),
      dn_value he hex hex1 hex2 h hth hB hl hS (by omega) u (hs _ hjL)]
    simp only [Option.map_some, flip_flip]

end air

/-! ### Derivatives -/

section derivs

variable {e : ℝ → Env n K} {e' : Env n K} {fl : Flags} {d : ℝ → Dirs m n} {d' : Dirs m n} {g : ℝ → Ends m n}
  {g' : Ends m n} {B : ℝ → Nat → K} {B' : Nat → K} {nU : Nat} {ulev : Nat → Nat} {utau : ℝ → Nat → ℝ}
  {inv? : {N : Nat} → Matrix (Fin N) (Fin N) K → Option (Matrix (Fin N) (Fin N) K)}

/-- The directions along a curve. -/
structure DirsDeriv (d : ℝ → Dirs m n) (d' : Dirs m n) (L : Nat) (fl : Flags) (x : ℝ) : Prop where
  mu : ∀ y, (d y).mu = (d x).mu
  Ppp : ∀ i, i < L → ∀ u j, HasDerivAt (fun y => (d y).Ppp i u j) (if fl.lay i then d'.Ppp i u j else 0) x
  Pmp : ∀ i, i < L → ∀ u j, HasDerivAt (fun y => (d y).Pmp i u j) (if fl.lay i then d'.Pmp i u j else 0) x
  P0pm : ∀ i, i < L → ∀ u, HasDerivAt (fun y => (d y).P0pm i u) (if fl.lay i then d'.P0pm i u else 0) x
  P0mm : ∀ i, i < L → ∀ u, HasDerivAt (fun y => (d y).P0mm i u) (if fl.lay i then d'.P0mm i u else 0) x

theorem flip_d {ns : Nat} {u : Fin m} {f : ℝ → ℝ} {f' : ℝ} (h : HasDerivAt f f' x) :
    HasDerivAt (fun y => flip ns u (f y)) (flip ns u f') x := by
  simp only [flip_eq]; exact h.const_mul _

theorem flip_if {ns : Nat} {u : Fin m} (c : Bool) (a : ℝ) : flip ns u (if c then a else 0) = if c then flip ns u a else 0 := by
  rw [flip_eq, flip_eq, if_mul]

theorem DirsDeriv.up {L : Nat} (h : DirsDeriv d d' L fl x) (ns : Nat) (u : Fin m) {i : Nat} (hi : i < L) :
    RowDeriv (fun y => rowUp ns (d y) u i) (rowUp ns d' u i) (fl.lay i) x :=
  ⟨fun j => h.Ppp i hi u j, fun j => (flip_d (h.Pmp i hi u j)).congr_deriv (flip_if _ _), h.P0pm i hi u⟩

theorem DirsDeriv.dn {L : Nat} (h : DirsDeriv d d' L fl x) (ns : Nat) (u : Fin m) {i : Nat} (hi : i < L) :
    RowDeriv (fun y => rowDn ns (d y) u i) (rowDn ns d' u i) (fl.lay i) x :=
  ⟨fun j => (flip_d (h.Pmp i hi u j)).congr_deriv (flip_if _ _), fun j => h.Ppp i hi u j,
    (flip_d (h.P0mm i hi u)).congr_deriv (flip_if _ _)⟩

/-- What an output is, along a curve, near a place. -/
def Near (r : ℝ → Option (Nat → Option (Option ℝ))) (j : Nat) (f : ℝ → ℝ) (x : ℝ) : Prop :=
  ∀ᶠ y in 𝓝 x, ∃ q, r y = some q ∧ q j = some (some (f y))

/-- The derivatives upwards are those of the radiances, at levels and at depths that keep
their place in their layers, where the decay of the beam in a layer does not depend on other
layers, and the ground emits alike in all directions if its emission is asked about. -/
theorem C56_derivs_up_partial (he : IsExp ex) (hE : EnvDeriv e e' fl x) (hL : 1 ≤ (e x).z.L)
    (hT : ∀ i, i < (e x).z.L → (e x).z.ltau i ≠ 0) (hd : DirsDeriv d d' (e x).z.L fl x)
    (hg : EndsDeriv g g' (fl.lay (e x).z.L) x)
    (hB : ∀ c, c < nComp (e x).z → HasDerivAt (fun y => B y c) (B' c) x) (taus : Bool) (ns : Nat) (u last : Fin m)
    (hlast : (e x).z.surface = true → (e x).z.thermal = true → g'.glow = 0 ∨ refl ns (g x) last = refl ns (g x) u)
    (hs : ∀ i, i < (e x).z.L → Safe (e x) false ((d x).mu u) i) (hU : 0 < nU)
    (hul : ulev (nU - 1) ≤ (e x).z.L) (hult : taus = true → ulev (nU - 1) < (e x).z.L)
    (hm : ∀ j k, j ≤ k → k < nU → ulev j ≤ ulev k) (hml : taus = false → ∀ j k, j < k → k < nU → ulev j < ulev k)
    (hut : taus = true → ∀ j, j < nU → HasDerivAt (fun y => utau y j)
      (if fl.lay (ulev j) then tL (e x) e' (ulev j) (utau x j) else 0) x) :
    ∃ r, upD ex (e x) taus nU ulev (utau x) e' fl ns (d x) d' (g x) g' (B x) B' u last = some r ∧ ∀ j, j < nU →
      ∃ v v' f, r j = some (some (v, v')) ∧ f x = v ∧ HasDerivAt f v' x ∧
        Near (fun y => Sfi.up ex (e y) taus nU ulev (utau y) ns (d y) (g y) (B y) u) j f x := by
  have hI : HasDerivAt (fun y => startUp (e y) ns (g y) (Bvp.level ex (e y).z (B y) (e y).z.L).2 u)
      (startUpL (e x) e' fl ns (g x) g' (Bvp.level ex (e x).z (B x) (e x).z.L).2
        (Bvp.levelL ex (e x).z e'.z fl (B x) B' (e x).z.L).2 u last) x := by
    refine startUp_d hE hg (fun j => ?_) ns u last hlast
    have := (level_deriv he hE.z hL hB (e x).z.L le_rfl j).2
    simp only [hE.z.L]
    exact this
  have hsn : ∀ᶠ y in 𝓝 x, ∀ i, i < (e x).z.L → Safe (e y) false ((d y).mu u) i := by
    have := (Set.finite_lt_nat (e x).z.L).eventually_all (l := 𝓝 x)
      (p := fun i y => Safe (e y) false ((d x).mu u) i) |>.2 fun i hi => safe_near hE hi (hs i hi)
    exact this.mono fun y h i hi => by rw [hd.mu]; exact h i hi
  have hle : ∀ j, j < nU → ulev j ≤ (e x).z.L := fun j hj => (hm j (nU - 1) (by omega) (by omega)).trans hul
  cases taus with
  | false =>
    obtain ⟨r, hr, hj⟩ := up_levels (utau := utau x) (T := (e x).z.ltau)
      (step := fun i t => layerD ex (e x) false ((d x).mu u) e' fl (B x) B' (rowUp ns (d x) u i) (rowUp ns d' u i) i t)
      hU hL hul (hml rfl)
      (some (startUp (e x) ns (g x) (Bvp.level ex (e x).z (B x) (e x).z.L).2 u,
        startUpL (e x) e' fl ns (g x) g' (Bvp.level ex (e x).z (B x) (e x).z.L).2
        (Bvp.levelL ex (e x).z e'.z fl (B x) B' (e x).z.L).2 u last))
    refine ⟨r, hr, fun j hjn => ?_⟩
    obtain ⟨v', h1, h2⟩ := run_d (R := fun y i => rowUp ns (d y) u i) (R' := fun i => rowUp ns d' u i) he hE hT
      (fun i hi => hd.up ns u hi) hs hB hI ((e x).z.L - ulev j) (by omega)
    refine ⟨_, v', _, (hj j hjn).trans (congrArg some h1), rfl, h2, hsn.mono fun y hy => ?_⟩
    obtain ⟨q, hq, hqj⟩ := up_levels (utau := utau y) (T := (e y).z.ltau)
      (step := fun i t => layer ex (e y) false ((d y).mu u) (B y) (rowUp ns (d y) u i) i t) hU hL hul (hml rfl)
      (some (startUp (e y) ns (g y) (Bvp.level ex (e y).z (B y) (e y).z.L).2 u))
    refine ⟨q, ?_, (hqj j hjn).trans (congrArg some ?_)⟩
    · unfold Sfi.up; dsimp only; rw [hE.z.L y] at hq ⊢; exact hq
    · rw [run_some _ _ hy _ (by omega), hd.mu]
  | true =>
    obtain ⟨r, hr, hj⟩ := up_taus (utau := utau x) (T := (e x).z.ltau)
      (step := fun i t => layerD ex (e x) false ((d x).mu u) e' fl (B x) B' (rowUp ns (d x) u i) (rowUp ns d' u i) i t)
      hU (hult rfl) hm
      (some (startUp (e x) ns (g x) (Bvp.level ex (e x).z (B x) (e x).z.L).2 u,
        startUpL (e x) e' fl ns (g x) g' (Bvp.level ex (e x).z (B x) (e x).z.L).2
        (Bvp.levelL ex (e x).z e'.z fl (B x) B' (e x).z.L).2 u last))
    refine ⟨r, hr, fun j hjn => ?_⟩
    have hjL : ulev j < (e x).z.L := (hm j (nU - 1) (by omega) (by omega)).trans_lt (hult rfl)
    obtain ⟨v', h1, h2⟩ := layer_d (R := fun y i => rowUp ns (d y) u i) (R' := fun i => rowUp ns d' u i) he hE hT
      (fun i hi => hd.up ns u hi) hs hB hI ((e x).z.L - 1 - ulev j) (by omega) hjL (hut rfl j hjn)
    refine ⟨_, v', _, (hj j hjn).trans (congrArg some h1), rfl, h2, hsn.mono fun y hy => ?_⟩
    obtain ⟨q, hq, hqj⟩ := up_taus (utau := utau y) (T := (e y).z.ltau)
      (step := fun i t => layer ex (e y) false ((d y).mu u) (B y) (rowUp ns (d y) u i) i t) hU (hult rfl) hm
      (some (startUp (e y) ns (g y) (Bvp.level ex (e y).z (B y) (e y).z.L).2 u))
    refine ⟨q, ?_, (hqj j hjn).trans (congrArg some ?_)⟩
    · unfold Sfi.up; dsimp only; rw [hE.z.L y] at hq ⊢; exact hq
    · rw [run_some _ _ hy _ (by omega), layer_safe (hy _ hjL), hd.mu]

/-- And downwards. -/
theorem C56_derivs_dn_partial (he : IsExp ex) (hE : EnvDeriv e e' fl x)
    (hT : ∀ i, i < (e x).z.L → (e x).z.ltau i ≠ 0) (hd : DirsDeriv d d' (e x).z.L fl x)
    (hg : EndsDeriv g g' (fl.lay (e x).z.L) x)
    (hB : ∀ c, c < nComp (e x).z → HasDerivAt (fun y => B y c) (B' c) x) (taus : Bool) (ns : Nat) (u : Fin m)
    (hs : ∀ i, i < (e x).z.L → Safe (e x) true ((d x).mu u) i) (hU : 0 < nU)
    (hul : ulev (nU - 1) ≤ (e x).z.L) (hult : taus = true → ulev (nU - 1) < (e x).z.L)
    (hm : ∀ j k, j ≤ k → k < nU → ulev j ≤ ulev k) (hml : taus = false → ∀ j k, j < k → k < nU → ulev j < ulev k)
    (htop : taus = true → ∀ y, ¬(ulev 0 = 0 ∧ utau y 0 = 0))
    (hut : taus = true → ∀ j, j < nU → HasDerivAt (fun y => utau y j)
      (if fl.lay (ulev j) then tL (e x) e' (ulev j) (utau x j) else 0) x) :
    ∃ r, dnD ex (e x) taus nU ulev (utau x) e' fl ns (d x) d' (g x) g' (B x) B' u = some r ∧ ∀ j, j < nU →
      ∃ v v' f, r j = some (some (v, v')) ∧ f x = v ∧ HasDerivAt f v' x ∧
        Near (fun y => Sfi.dn ex (e y) taus nU ulev (utau y) ns (d y) (g y) (B y) u) j f x := by
  have hI : HasDerivAt (fun y => startDn (e y) ns (g y) u) (startDn (e x) ns g' u) x := by
    unfold startDn
    simp only [hE.first]
    by_cases h : (e x).first = true ∧ u.val % ns = 0
    · simp only [h, and_self, if_true]; exact hg.isoTop
    · simp only [h, if_false]; exact hasDerivAt_const x 0
  have hsn : ∀ᶠ y in 𝓝 x, ∀ i, i < (e x).z.L → Safe (e y) true ((d y).mu u) i := by
    have := (Set.finite_lt_nat (e x).z.L).eventually_all (l := 𝓝 x)
      (p := fun i y => Safe (e y) true ((d x).mu u) i) |>.2 fun i hi => safe_near hE hi (hs i hi)
    exact this.mono fun y h i hi => by rw [hd.mu]; exact h i hi
  have hle : ∀ j, j < nU → ulev j ≤ (e x).z.L := fun j hj => (hm j (nU - 1) (by omega) (by omega)).trans hul
  cases taus with
  | false =>
    obtain ⟨r, hr, hj⟩ := dn_levels (utau := utau x) (T := (e x).z.ltau) (L := (e x).z.L)
      (step := fun i t => layerD ex (e x) true ((d x).mu u) e' fl (B x) B' (rowDn ns (d x) u i) (rowDn ns d' u i) i t)
      hU (hml rfl) (some (startDn (e x) ns (g x) u, startDn (e x) ns g' u))
    refine ⟨fun j => (r j).map fun x => x.map fun p => (flip ns u p.1, flip ns u p.2), ?_, fun j hjn => ?_⟩
    · unfold dnD; rw [hr]; rfl
    obtain ⟨v', h1, h2⟩ := run_d (R := fun y i => rowDn ns (d y) u i) (R' := fun i => rowDn ns d' u i) he hE hT
      (fun i hi => hd.dn ns u hi) hs hB hI (ulev j) (hle j hjn)
    refine ⟨_, flip ns u v', _, ?_, rfl, flip_d h2, hsn.mono fun y hy => ?_⟩
    · dsimp only
      rw [hj j hjn, h1]
      rfl
    obtain ⟨q, hq, hqj⟩ := dn_levels (utau := utau y) (T := (e y).z.ltau) (L := (e x).z.L)
      (step := fun i t => layer ex (e y) true ((d y).mu u) (B y) (rowDn ns (d y) u i) i t) hU (hml rfl)
      (some (startDn (e y) ns (g y) u))
    refine ⟨fun j => (q j).map fun x => x.map (flip ns u), ?_, ?_⟩
    · unfold Sfi.dn; dsimp only; rw [hE.z.L y, hq]; rfl
    · dsimp only
      rw [hqj j hjn, run_some _ _ hy _ (hle j hjn), hd.mu]
      rfl
  | true =>
    obtain ⟨r, hr, hj⟩ := dn_taus (utau := utau x) (T := (e x).z.ltau) (L := (e x).z.L)
      (step := fun i t => layerD ex (e x) true ((d x).mu u) e' fl (B x) B' (rowDn ns (d x) u i) (rowDn ns d' u i) i t)
      hU hm (fun h => absurd h (htop rfl x)) (some (startDn (e x) ns (g x) u, startDn (e x) ns g' u))
    have hjL : ∀ j, j < nU → ulev j < (e x).z.L := fun j hjn => (hm j (nU - 1) (by omega) (by omega)).trans_lt (hult rfl)
    refine ⟨fun j => (r j).map fun x => x.map fun p => (flip ns u p.1, flip ns u p.2), ?_, fun j hjn => ?_⟩
    · unfold dnD; rw [hr]; rfl
    obtain ⟨v', h1, h2⟩ := layer_d (R := fun y i => rowDn ns (d y) u i) (R' := fun i => rowDn ns d' u i) he hE hT
      (fun i hi => hd.dn ns u hi) hs hB hI (ulev j) (hle j hjn) (hjL j hjn) (hut rfl j hjn)
    refine ⟨_, flip ns u v', _, ?_, rfl, flip_d h2, hsn.mono fun y hy => ?_⟩
    · dsimp only
      rw [hj j hjn, if_neg (fun h => htop rfl x h.2), h1]
      rfl
    obtain ⟨q, hq, hqj⟩ := dn_taus (utau := utau y) (T := (e y).z.ltau) (L := (e x).z.L)
      (step := fun i t => layer ex (e y) true ((d y).mu u) (B y) (rowDn ns (d y) u i) i t) hU hm
      (fun h => absurd h (htop rfl y)) (some (startDn (e y) ns (g y) u))
    refine ⟨fun j => (q j).map fun x => x.map (flip ns u), ?_, ?_⟩
    · unfold Sfi.dn; dsimp only; rw [hE.z.L y, hq]; rfl
    · dsimp only
      rw [hqj j hjn, if_neg (fun h => htop rfl y h.2), run_some _ _ hy _ (hle j hjn), layer_safe (hy _ (hjL j hjn)), hd.mu]
      rfl

end derivs

/-! ### Such inputs -/

/-- A direction, and a ground and a sky for it. -/
noncomputable def demoDirs (mu : ℝ) : Dirs 1 1 := ⟨fun _ => mu, fun _ _ _ => 1, fun _ _ _ => 1, fun _ _ => 1, fun _ _ => 1⟩

noncomputable def demoEnds : Ends 1 1 := ⟨1, 1, 1, 1 / 2, 1, fun _ _ => 1 / 2, fun _ => 1⟩

theorem demo_safe (o a) (down : Bool) (i : Nat) :
    Safe (env (demoAir true true true (1 / 2)) true 1 demoMu demoW o a true) down ((demoDirs (1 / 4)).mu 0) i := by
  refine ⟨by norm_num [demoDirs], fun k => ?_, fun _ => ?_⟩
  · change 1 + (1 / 4 : ℝ) * 1 ≠ 0 ∧ 1 - (1 / 4 : ℝ) * 1 ≠ 0
    norm_num
  · change if (!down) = true then 1 + (1 / 4 : ℝ) * 2 ≠ 0 else 1 - (1 / 4 : ℝ) * 2 ≠ 0
    cases down <;> norm_num

/-- Two layers under the sun, warm, over a ground that reflects: all of what is asked for
above is there, at the levels 0 and 2 and at three depths. -/
example : ∃ (o : Nat → SunOut 1) (a : Nat → (Fin 1 ⊕ Fin 1 → ℝ) × (Fin 1 ⊕ Fin 1 → ℝ)) (B : Nat → ℝ)
    (U D : Nat → ℝ → Fin 1 → ℝ) (r1 r2 r3 r4 : Nat → Option (Option ℝ)),
    let e := env (demoAir true true true (1 / 2)) true 1 demoMu demoW o a true
    let lev := fun j => if j = 0 then 0 else 2
    let lay := fun j => if j = 0 then 0 else 1
    let tau := fun j : Nat => (j : ℝ) / 2
    Sfi.up Real.exp e false 2 lev 0 1 (demoDirs (1 / 4)) demoEnds B 0 = some r1 ∧ r1 0 = some (some (U 0 0 0)) ∧
    Sfi.dn Real.exp e false 2 lev 0 1 (demoDirs (1 / 4)) demoEnds B 0 = some r2 ∧ r2 1 = some (some (D 1 1 0)) ∧
    Sfi.up Real.exp e true 3 lay tau 1 (demoDirs (1 / 4)) demoEnds B 0 = some r3 ∧ r3 2 = some (some (U 1 1 0)) ∧
    Sfi.dn Real.exp e true 3 lay tau 1 (demoDirs (1 / 4)) demoEnds B 0 = some r4 ∧ r4 1 = some (some (D 1 (1 / 2) 0)) := by
  obtain ⟨o, a, hf⟩ := demo_fine true true true (1 / 2)
  obtain ⟨B, hB⟩ := demo_solve true true true (1 / 2) (by norm_num) (by norm_num) o a
  obtain ⟨up, dn, U, D, hl, hS⟩ := C56_exists (single := true) (d := demoDirs (1 / 4)) (g := demoEnds) exp_real
    (inv? := inverseK) (fun N => inverseK_exact) inverse_exact inverse_exact hf hB (fun _ => by norm_num [demoDirs])
  obtain ⟨r1, h1, h1'⟩ := C56_levels_up exp_real (inv? := inverseK) (fun N => inverseK_exact) inverse_exact inverse_exact hf
    (fun _ => rfl) hB hl hS (nU := 2) (ulev := fun j => if j = 0 then 0 else 2) (by norm_num) (by simp [demoAir])
    (fun j k h h' => by rw [if_pos (by omega), if_neg (by omega)]; norm_num) 0 0 (fun i _ _ => demo_safe o a false i)
  obtain ⟨r2, h2, h2'⟩ := C56_levels_dn exp_real (inv? := inverseK) (fun N => inverseK_exact) inverse_exact inverse_exact hf
    (fun _ => rfl) hB hl hS (nU := 2) (ulev := fun j => if j = 0 then 0 else 2) (by norm_num) (by simp [demoAir])
    (fun j k h h' => by rw [if_pos (by omega), if_neg (by omega)]; norm_num) 0 0 (fun i _ => demo_safe o a true i)
  have hmono : ∀ j k : Nat, j ≤ k → k < 3 → (if j = 0 then 0 else 1) ≤ if k = 0 then 0 else 1 := fun j k h h' => by
    split_ifs <;> omega
  obtain ⟨r3, h3, h3'⟩ := C56_taus_up exp_real (inv? := inverseK) (fun N => inverseK_exact) inverse_exact inverse_exact hf
    (fun _ => rfl) hB hl hS (nU := 3) (ulev := fun j => if j = 0 then 0 else 1) (by norm_num) (by simp [demoAir])
    hmono (fun j => (j : ℝ) / 2) 0 (fun i _ _ => demo_safe o a false i)
  obtain ⟨r4, h4, h4'⟩ := C56_taus_dn_partial exp_real (inv? := inverseK) (fun N => inverseK_exact) inverse_exact
    inverse_exact hf (fun _ => rfl) hB hl hS (nU := 3) (ulev := fun j => if j = 0 then 0 else 1) (by norm_num)
    (by simp [demoAir]) hmono (fun j => (j : ℝ) / 2) 0 (fun _ => by norm_num) (fun i _ => demo_safe o a true i)
  refine ⟨o, a, B, U, D, r1, r2, r3, r4, h1, ?_, h2, ?_, h3, ?_, h4, ?_⟩
  · rw [h1' 0 (by norm_num)]; rfl
  · rw [h2' 1 (by norm_num)]; rfl
  · rw [h3' 2 (by norm_num)]; norm_num
  · rw [h4' 1 (by norm_num)]; norm_num

/-- A layer that gets thicker, scatters more and lets less of the beam through. -/
noncomputable def demoCurve (y : ℝ) : Env 1 ℝ where
  z := ⟨1, fun _ => ⟨fun _ => 1 + y, 1, fun _ _ => y⟩, fun _ => 1 + y, fun _ => Real.exp (-2 * (1 + y)), fun _ _ => 1,
    fun _ _ => 1, fun _ _ => 1, fun _ _ => 1, fun _ _ => 1, fun _ _ => 1, fun _ _ => 1, fun _ _ => 1, fun _ _ => 1 / 2,
    fun _ => 1, fun _ => 1, true, true, true⟩
  first := true
  w := fun _ => 1
  F0 := 1
  om := fun _ => 1 / 2 + y / 4
  as0 := fun _ => 2
  btran := fun i => Real.exp (-2 * (1 + y) * i)
  pd0 := fun _ => 1
  pd1 := fun _ => 1 + y
  At0p := fun _ _ => 1
  At0m := fun _ _ => 1
  At1p := fun _ _ => 1
  At1m := fun _ _ => 1
  single := true

noncomputable def demoCurveL : Env 1 ℝ where
  z := ⟨1, fun _ => ⟨fun _ => 1, 0, fun _ _ => 1⟩, fun _ => 1, fun _ => -2 * Real.exp (-2), 0, 0, 0, 0, 0, 0, 0, 0, 0, 0, 0,
    true, true, true⟩
  first := true
  w := fun _ => 1
  F0 := 1
  om := fun _ => 1 / 4
  as0 := 0
  btran := fun i => -2 * i * Real.exp (-2 * i)
  pd0 := 0
  pd1 := fun _ => 1
  At0p := 0
  At0m := 0
  At1p := 0
  At1m := 0
  single := true

/-- All is asked for. -/
def demoFlags : Flags := ⟨fun _ => true, fun _ => true, fun _ => true⟩

theorem demo_curve : EnvDeriv demoCurve demoCurveL demoFlags 0 := by
  have h1 : HasDerivAt (fun y : ℝ => 1 + y) 1 0 := (hasDerivAt_id' (0 : ℝ)).const_add 1
  have c : ∀ v : ℝ, HasDerivAt (fun _ : ℝ => v) 0 0 := fun v => hasDerivAt_const 0 v
  have h2 : HasDerivAt (fun y : ℝ => Real.exp (-2 * (1 + y))) (-2 * Real.exp (-2)) 0 :=
    (h1.const_mul (-2)).exp.congr_deriv (by norm_num; ring)
  refine ⟨⟨fun _ => rfl, fun _ => rfl, fun _ => rfl, fun _ => rfl, fun i _ => ⟨fun k => ?_, fun j k => ?_, fun j k => ?_⟩,
      fun i _ => ?_, fun i _ => ?_, fun i _ j => ?_, fun i _ j => ?_, fun i _ j => ?_, fun i _ j => ?_, fun i _ j => ?_, fun i _ j => ?_,
      fun i _ j => ?_, fun i _ j => ?_, fun i j => ?_, fun i => ?_, fun i => ?_⟩,
    fun _ => rfl, fun _ => rfl, fun _ => rfl, fun _ => rfl, fun i _ => ?_, fun i _ h => ?_, fun i _ => ?_, fun _ i _ h => ?_,
    fun i _ => ?_, fun i _ => ?_, fun i _ => ?_, fun i _ j => ?_, fun i _ j => ?_, fun i _ j => ?_, fun i _ j => ?_,
    fun _ i _ _ => rfl, fun _ i _ _ => rfl⟩
  · exact h1
  · exact hasDerivAt_const 0 _
  · exact hasDerivAt_id' 0
  · exact h1
  · exact h2
  all_goals first | exact c _ | skip
  · exact (((hasDerivAt_id' (0 : ℝ)).div_const 4).const_add (1 / 2)).congr_deriv rfl
  · simp [demoFlags] at h
  · simp [demoFlags] at h
  · refine (((h1.const_mul (-2)).mul_const (i : ℝ)).exp).congr_deriv ?_
    simp only [demoFlags, demoCurveL, if_true]
    norm_num
    ring
  · exact h1

theorem demo_dirs : DirsDeriv (fun _ => demoDirs (1 / 4)) ⟨0, 0, 0, 0, 0⟩ 1 demoFlags 0 :=
  ⟨fun _ => rfl, fun _ _ _ _ => hasDerivAt_const _ _, fun _ _ _ _ => hasDerivAt_const _ _,
    fun _ _ _ => hasDerivAt_const _ _, fun _ _ _ => hasDerivAt_const _ _⟩

theorem demo_curve_safe (down : Bool) (i : Nat) : Safe (demoCurve 0) down ((demoDirs (1 / 4)).mu 0) i := by
  refine ⟨by norm_num [demoDirs], fun k => ?_, fun _ => ?_⟩
  · change 1 + (1 / 4 : ℝ) * (1 + 0) ≠ 0 ∧ 1 - (1 / 4 : ℝ) * (1 + 0) ≠ 0
    norm_num
  · change if (!down) = true then 1 + (1 / 4 : ℝ) * 2 ≠ 0 else 1 - (1 / 4 : ℝ) * 2 ≠ 0
    cases down <;> norm_num

theorem demo_ends : EndsDeriv (fun _ => demoEnds) (⟨0, 0, 0, 0, 0, 0, 0⟩ : Ends 1 1) true 0 :=
  ⟨hasDerivAt_const _ _, hasDerivAt_const _ _, fun _ => rfl, fun _ => rfl, hasDerivAt_const _ _,
    fun _ _ => hasDerivAt_const _ _, fun _ => hasDerivAt_const _ _⟩

/-- The derivatives in the middle of it. -/
example : ∃ (r : Nat → Option (Option (ℝ × ℝ))) (v v' : ℝ) (f : ℝ → ℝ),
    upD Real.exp (demoCurve 0) true 1 (fun _ => 0) (fun _ => (1 + 0) / 2) demoCurveL demoFlags 1 (demoDirs (1 / 4))
      ⟨0, 0, 0, 0, 0⟩ demoEnds ⟨0, 0, 0, 0, 0, 0, 0⟩ (fun _ => 1) (fun _ => 0) 0 0 = some r ∧ r 0 = some (some (v, v')) ∧
      f 0 = v ∧ HasDerivAt f v' 0 ∧
      Near (fun y => Sfi.up Real.exp (demoCurve y) true 1 (fun _ => 0) (fun _ => (1 + y) / 2) 1 (demoDirs (1 / 4)) demoEnds
        (fun _ => 1) 0) 0 f 0 := by
  obtain ⟨r, h1, h2⟩ := C56_derivs_up_partial (x := 0) (e := demoCurve) (d := fun _ => demoDirs (1 / 4)) (g := fun _ => demoEnds)
    (B := fun _ _ => 1) (B' := fun _ => 0) (nU := 1) (ulev := fun _ => 0) (utau := fun y _ => (1 + y) / 2) exp_real demo_curve
    le_rfl (fun i _ => by norm_num [demoCurve]) demo_dirs demo_ends (fun _ _ => hasDerivAt_const _ _) true 1 0 0
    (fun _ _ => Or.inl rfl) (fun i _ => demo_curve_safe false i) one_pos (Nat.zero_le _) (fun _ => one_pos) (fun _ _ _ _ => le_rfl)
    (fun h => by simp at h)
    (fun _ j _ => (((hasDerivAt_id' (0 : ℝ)).const_add 1).div_const 2).congr_deriv (by
      simp [demoFlags, tL, demoCurve, demoCurveL]))
  obtain ⟨v, v', f, h3, h4, h5, h6⟩ := h2 0 one_pos
  exact ⟨r, v, v', f, h1, h3, h4, h5, h6⟩

example : ∃ (r : Nat → Option (Option (ℝ × ℝ))) (v v' : ℝ) (f : ℝ → ℝ),
    dnD Real.exp (demoCurve 0) false 2 id 0 demoCurveL demoFlags 1 (demoDirs (1 / 4))
      ⟨0, 0, 0, 0, 0⟩ demoEnds ⟨0, 0, 0, 0, 0, 0, 0⟩ (fun _ => 1) (fun _ => 0) 0 = some r ∧ r 1 = some (some (v, v')) ∧
      f 0 = v ∧ HasDerivAt f v' 0 ∧
      Near (fun y => Sfi.dn Real.exp (demoCurve y) false 2 id 0 1 (demoDirs (1 / 4)) demoEnds (fun _ => 1) 0) 1 f 0 := by
  obtain ⟨r, h1, h2⟩ := C56_derivs_dn_partial (x := 0) (e := demoCurve) (d := fun _ => demoDirs (1 / 4)) (g := fun _ => demoEnds)
    (B := fun _ _ => 1) (B' := fun _ => 0) (nU := 2) (ulev := id) (utau := fun _ => 0) exp_real demo_curve
    (fun i _ => by norm_num [demoCurve]) demo_dirs demo_ends (fun _ _ => hasDerivAt_const _ _) false 1 0
    (fun i _ => demo_curve_safe true i) two_pos le_rfl (fun h => by simp at h) (fun _ _ h _ => h)
    (fun _ _ _ h _ => h) (fun h => by simp at h) (fun h => by simp at h)
  obtain ⟨v, v', f, h3, h4, h5, h6⟩ := h2 1 one_lt_two
  exact ⟨r, v, v', f, h1, h3, h4, h5, h6⟩

/-! ### What is not so -/

theorem layer_unsafe {e : Env n K} {down : Bool} {mu : ℝ} {i : Nat} (hs : ¬Safe e down mu i) (B : Nat → K) (r : Row n) (t : ℝ)
    (I0 : Option ℝ) : layer ex e down mu B r i t I0 = none := by
  unfold layer
  cases I0 with
  | none => rfl
  | some v => simp only [Option.bind_some]; rw [if_neg hs]

/-- Where the cosine of a direction is one over an eigenvalue there is light, but no number:
straight up over two layers. -/
theorem C56_violated_resonance : ∃ (o : Nat → SunOut 1) (a : Nat → (Fin 1 ⊕ Fin 1 → ℝ) × (Fin 1 ⊕ Fin 1 → ℝ)) (B : Nat → ℝ)
    (up dn : Nat → ℝ → Source.V 1) (U D : Nat → ℝ → Fin 1 → ℝ) (r : Nat → Option (Option ℝ)),
    (demoAir true true true (1 / 2)).Fine true 1 demoMu demoW o a inverse inverse ∧
    solveBvp Real.exp ((demoAir true true true (1 / 2)).inp true 1 demoMu demoW o a) inverseK = some B ∧
    ((demoAir true true true (1 / 2)).stack true 1 demoMu demoW).Lit up dn ∧
    (view (demoAir true true true (1 / 2)) true 1 true (demoDirs 1) demoEnds).Seen
      ((demoAir true true true (1 / 2)).stack true 1 demoMu demoW) up dn U D ∧
    Sfi.up Real.exp (env (demoAir true true true (1 / 2)) true 1 demoMu demoW o a true) false 1 (fun _ => 0) 0 1 (demoDirs 1)
      demoEnds B 0 = some r ∧ r 0 = some none := by
  obtain ⟨o, a, hf⟩ := demo_fine true true true (1 / 2)
  obtain ⟨B, hB⟩ := demo_solve true true true (1 / 2) (by norm_num) (by norm_num) o a
  obtain ⟨up, dn, U, D, hl, hS⟩ := C56_exists (single := true) (d := demoDirs 1) (g := demoEnds) exp_real
    (inv? := inverseK) (fun N => inverseK_exact) inverse_exact inverse_exact hf hB (fun _ => by norm_num [demoDirs])
  have hu : ∀ i, ¬Safe (env (demoAir true true true (1 / 2)) true 1 demoMu demoW o a true) false ((demoDirs 1).mu 0) i := by
    rintro i ⟨-, h, -⟩
    refine (h 0).2 ?_
    change 1 - (1 : ℝ) * 1 = 0
    norm_num
  obtain ⟨r, h1, h2⟩ := up_levels (nU := 1) (ulev := fun _ => 0) (utau := 0) (L := 2) (T := fun _ => 1)
    (step := fun i t => layer Real.exp (env (demoAir true true true (1 / 2)) true 1 demoMu demoW o a true) false
      ((demoDirs 1).mu 0) B (rowUp 1 (demoDirs 1) 0 i) i t) one_pos one_le_two (by norm_num) (fun j k h h' => by omega)
    (some (startUp (env (demoAir true true true (1 / 2)) true 1 demoMu demoW o a true) 1 demoEnds
      (Bvp.level Real.exp ((demoAir true true true (1 / 2)).inp true 1 demoMu demoW o a) B 2).2 0))
  refine ⟨o, a, B, up, dn, U, D, r, hf, hB, hl, hS, h1, ?_⟩
  rw [h2 0 one_pos]
  congr 1
  exact layer_unsafe (hu _) _ _ _ _

/-- Asked for the light down at the top and at no other depth, it reads past the end of the
list of layers. -/
theorem C56_violated_read (e : Env n K) (ulev : Nat → Nat) (utau : Nat → ℝ) (h : ulev 0 = 0 ∧ utau 0 = 0) (ns : Nat)
    (d : Dirs m n) (g : Ends m n) (B : Nat → K) (u : Fin m) : Sfi.dn ex e true 1 ulev utau ns d g B u = none := by
  unfold Sfi.dn
  rw [dn_top_only h]; rfl

/-- In air that scatters nothing the second Stokes parameter gets the light the air emits, that
has none. -/
theorem C56_violated_stokes : ∃ (e : Env 3 ℝ) (r : Row 3), e.z.thermal = true ∧ e.z.solar = false ∧ e.first = true ∧
    e.om 0 = 0 ∧ Safe e false (1 / 2) 0 ∧ (∀ τ, thermalSource 3 (e.om 0) (e.pd0 0) (e.pd0 0 + e.pd1 0) 1 τ (1 : Fin 3) = 0) ∧
    0 < value Real.exp e false (1 / 2) 0 r 0 0 0 := by
  refine ⟨⟨⟨1, fun _ => ⟨1, 0, 0⟩, fun _ => 1, 0, 0, 0, 0, 0, 0, 0, 0, 0, 0, 0, 0, false, false, true⟩, true, 0, 0, 0, 0, 0,
    fun _ => 1, 0, 0, 0, 0, 0, false⟩, ⟨0, 0, 0⟩, rfl, rfl, rfl, rfl, ⟨by norm_num, fun k => by norm_num, by simp⟩,
    fun τ => by simp [thermalSource], ?_⟩
  simp only [value, heat, u22, u21, u240, u241, e1]
  simp

/-- If the layers above change how the beam decays in a layer, as they do where the layers are
shells, the derivative leaves it out: all is as it is asked for above but for that. -/
theorem C56_violated_shells : ∃ (e : ℝ → Env 1 ℝ) (e' : Env 1 ℝ) (fl : Flags) (r : Row 1),
    InpDeriv (fun y => (e y).z) (masked (e 0).z.L fl e'.z) 0 ∧ fl.lay 0 = false ∧ fl.beam 0 = true ∧
    (∀ y, e y = { e 0 with z := { (e 0).z with atran := (e y).z.atran }, as0 := (e y).as0 }) ∧
    HasDerivAt (fun y => (e y).as0 0) (e'.as0 0) 0 ∧ (∀ y, (e y).z.atran 0 = Real.exp (-(e y).z.ltau 0 * (e y).as0 0)) ∧
    Safe (e 0) true (1 / 4) 0 ∧
    ¬HasDerivAt (fun y => value Real.exp (e y) true (1 / 4) 0 r 0 1 0)
      (valueL Real.exp (e 0) true (1 / 4) e' fl 0 0 r ⟨0, 0, 0⟩ 0 1 0 0) 0 := by
  set e : ℝ → Env 1 ℝ := fun y => ⟨⟨1, fun _ => ⟨1, 1, 1⟩, fun _ => 1, fun _ => Real.exp (-(2 + y)), 0, 0, 0, 0, 0, 0, 0, 0, 0, 0, 0,
    false, true, false⟩, true, 1, 1, fun _ => 1 / 2, fun _ => 2 + y, 1, 0, 0, 0, 0, 0, 0, true⟩ with he
  set e' : Env 1 ℝ := ⟨⟨1, fun _ => ⟨0, 0, 0⟩, 0, fun _ => -Real.exp (-2), 0, 0, 0, 0, 0, 0, 0, 0, 0, 0, 0,
    false, true, false⟩, true, 1, 1, 0, 1, 0, 0, 0, 0, 0, 0, 0, true⟩ with he'
  have c : ∀ v : ℝ, HasDerivAt (fun _ : ℝ => v) 0 0 := fun v => hasDerivAt_const 0 v
  have h1 : HasDerivAt (fun y : ℝ => 2 + y) 1 0 := (hasDerivAt_id' (0 : ℝ)).const_add 2
  have h2 : HasDerivAt (fun y : ℝ => Real.exp (-(2 + y))) (-Real.exp (-2)) 0 :=
    h1.fun_neg.exp.congr_deriv (by norm_num)
  refine ⟨e, e', ⟨fun _ => false, fun _ => true, fun _ => false⟩, ⟨0, 0, 1⟩, ?_, rfl, rfl, fun y => rfl, h1, fun y => ?_, ?_, ?_⟩
  · refine ⟨fun _ => rfl, fun _ => rfl, fun _ => rfl, fun _ => rfl, fun i _ => ⟨fun k => ?_, fun j k => ?_, fun j k => ?_⟩,
      fun i _ => ?_, fun i _ => h2, fun i _ j => ?_, fun i _ j => ?_, fun i _ j => ?_, fun i _ j => ?_, fun i _ j => ?_, fun i _ j => ?_,
      fun i _ j => ?_, fun i _ j => ?_, fun i j => ?_, fun i => ?_, fun i => ?_⟩
    all_goals exact c _
  · change Real.exp (-(2 + y)) = Real.exp (-1 * (2 + y))
    congr 1; ring
  · refine ⟨by norm_num, fun k => ?_, fun _ => ?_⟩
    · change 1 + (1 / 4 : ℝ) * 1 ≠ 0 ∧ 1 - (1 / 4 : ℝ) * 1 ≠ 0
      norm_num
    · change 1 - (1 / 4 : ℝ) * (2 + 0) ≠ 0
      norm_num
  · intro h
    have hL : valueL Real.exp (e 0) true (1 / 4) e' ⟨fun _ => false, fun _ => true, fun _ => false⟩ 0 0 ⟨0, 0, 1⟩ ⟨0, 0, 0⟩ 0 1 0 0
        = 0 := by
      simp [valueL, he, he', fu0L, beamIn]
    have hV : ∀ y, value Real.exp (e y) true (1 / 4) 0 ⟨0, 0, 1⟩ 0 1 0 =
        1 / 2 * (1 / (4 * Real.pi)) * ((Real.exp (-1 * (2 + y)) - Real.exp (-1 / (1 / 4))) / (1 - 1 / 4 * (2 + y))) := fun y => by
      simp [value, he, fu0, beamIn, eu0, e2, e1]
    rw [hL] at h
    simp only [hV] at h
    have h3 : HasDerivAt (fun y : ℝ => Real.exp (-1 * (2 + y)) - Real.exp (-1 / (1 / 4))) (-Real.exp (-2)) 0 :=
      (((h1.const_mul (-1)).exp).sub_const _).congr_deriv (by norm_num)
    have h4 := ((h3.fun_div ((h1.const_mul (1 / 4)).const_sub 1) (by norm_num)).const_mul (1 / 2 * (1 / (4 * Real.pi))))
    have h5 := h4.unique h
    have hp := Real.pi_pos
    have e2 := Real.exp_pos (-2)
    have e4 := Real.exp_pos (-4)
    rw [mul_eq_zero] at h5
    rcases h5 with h5 | h5
    · have : (0 : ℝ) < 1 / 2 * (1 / (4 * Real.pi)) := by positivity
      linarith
    · norm_num at h5
      linarith

/-- The derivative of what the ground emits takes the emissivity of the last direction for all
of them: a ground that reflects half of what comes to one direction and nothing to the next. -/
theorem C56_violated_glow : ∃ (e : Env 1 ℝ) (g : ℝ → Ends 2 1) (g' : Ends 2 1), EndsDeriv g g' false 0 ∧
    ¬HasDerivAt (fun y => startUp e 1 (g y) 0 0) (startUpL e e ⟨fun _ => false, fun _ => false, fun _ => false⟩ 1 (g 0) g' 0 0 0 1) 0 := by
  set e : Env 1 ℝ := ⟨⟨1, fun _ => ⟨1, 1, 1⟩, fun _ => 1, 0, 0, 0, 0, 0, 0, 0, 0, 0, 0, 0, 0, true, false, true⟩, true, 1, 1, 0, 1,
    1, 0, 0, 0, 0, 0, 0, true⟩ with he
  have h1 : HasDerivAt (fun y : ℝ => 1 + y) 1 0 := (hasDerivAt_id' (0 : ℝ)).const_add 1
  refine ⟨e, fun y => ⟨0, 0, 1, 1, 1 + y, fun u _ => if u = 0 then 1 / 2 else 0, 0⟩, ⟨0, 0, 0, 0, 1, 0, 0⟩,
    ⟨hasDerivAt_const _ _, hasDerivAt_const _ _, fun _ => rfl, fun _ => rfl, h1, fun _ _ => hasDerivAt_const _ _,
      fun _ => hasDerivAt_const _ _⟩, fun h => ?_⟩
  have hV : ∀ y : ℝ, startUp e 1 (⟨0, 0, 1, 1, 1 + y, fun u _ => if u = 0 then 1 / 2 else 0, 0⟩ : Ends 2 1) 0 0 =
      (1 + y) * (1 / 2) := fun y => by
    simp [startUp, he, refl]; norm_num
  have hL : startUpL e e ⟨fun _ => false, fun _ => false, fun _ => false⟩ 1
      (⟨0, 0, 1, 1, 1 + 0, fun u _ => if u = 0 then 1 / 2 else 0, 0⟩ : Ends 2 1) ⟨0, 0, 0, 0, 1, 0, 0⟩ 0 0 0 1 = 1 := by
    simp [startUpL, he, refl]
  simp only [hV] at h
  rw [hL] at h
  have := (h1.mul_const (1 / 2)).unique h
  norm_num at this

end Xrtm.Sfi
