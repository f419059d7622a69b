import Verif.Proof.SingleReal
import Mathlib.Tactic.NormNum

/-!
# C33: singly scattered radiance
-/

namespace Xrtm

open Single

namespace Single.Spec
variable {F : Type} [SNum F]

/-- Two requests ask for the same place. -/
def SamePlace (q q' : Req F) (k k' : Nat) : Prop :=
  q.tau = q'.tau ∧ q.ul k = q'.ul k' ∧ (q.tau = true → q.ut k = q'.ut k')

/-- The same values and derivatives in all cells. -/
def SameOutput (p : Prof F) (a b : Buf F) : Prop :=
  ∀ kk, kk < p.nUmus * p.nStokes → a.v kk = b.v kk ∧ ∀ j, j < p.nDerivs → a.l j kk = b.l j kk

end Single.Spec

section
variable {F : Type} [SNum F]

/-- **C33**: what comes out for a place does not depend, to the last bit, on which other places are asked
for, nor on what the work and output arrays held before. For any arithmetic. -/
theorem C33_up_independent {p : Prof F} {q q' : Req F} (hq : q.Ok p.nLayers) (hq' : q'.Ok p.nLayers) (inp w w' : Buf F)
    (o o' : Nat → Buf F) : ∃ x x', up p q inp w o = some x ∧ up p q' inp w' o' = some x' ∧
      ∀ k k', k < q.nUl → k' < q'.nUl → Single.Spec.SamePlace q q' k k' → Single.Spec.SameOutput p (x k) (x' k') := by
  cases hF : SNum.isZero p.F0
  · obtain ⟨x, h1, h2⟩ := up_spec hq hF inp w o
    obtain ⟨x', h1', h2'⟩ := up_spec hq' hF inp w' o'
    refine ⟨x, x', h1, h1', fun k k' hk hk' hs => ?_⟩
    obtain ⟨s1, s2, s3⟩ := hs
    have hst : Agree p (start p inp w) (start p inp w') := by
      intro kk hkk
      exact ⟨by simp only [start, if_pos hkk], fun j hj => by simp only [start, if_pos (And.intro hj hkk)]⟩
    have hstage : ∀ d, Agree p (upStage p (start p inp w) d) (upStage p (start p inp w') d) := by
      intro d
      induction d with
      | zero => exact hst
      | succ d ih => exact after_congr ih
    have ht : Agree p (upTarget p q (start p inp w) k) (upTarget p q' (start p inp w') k') := by
      unfold upTarget
      rw [← s1, ← s2]
      by_cases htau : q.tau = true
      · rw [if_pos htau, if_pos htau, ← s3 htau]
        exact after_congr (hstage _)
      · rw [if_neg htau, if_neg htau]
        exact hstage _
    exact ((h2 k hk).trans (scaled_congr ht)).trans (h2' k' hk').symm
  · refine ⟨_, _, if_pos hF, if_pos hF, fun k k' hk hk' _ kk hkk => ?_⟩
    have e : ∀ (q : Req F) (o : Nat → Buf F) k, k < q.nUl → each q (zeros p) o k = zeros p (o k) := fun q o k h => if_pos h
    rw [e q o k hk, e q' o' k' hk']
    exact ⟨by simp only [zeros, if_pos (show kk < p.nUv from hkk)],
      fun j hj => by simp only [zeros, if_pos (And.intro hj (show kk < p.nUv from hkk))]⟩

theorem C33_dn_independent {p : Prof F} {q q' : Req F} (hq : q.Ok p.nLayers) (hq' : q'.Ok p.nLayers) (inp w w' : Buf F)
    (o o' : Nat → Buf F) : ∃ x x', dn p q inp w o = some x ∧ dn p q' inp w' o' = some x' ∧
      ∀ k k', k < q.nUl → k' < q'.nUl → Single.Spec.SamePlace q q' k k' → Single.Spec.SameOutput p (x k) (x' k') := by
  cases hF : SNum.isZero p.F0
  · obtain ⟨x, h1, h2⟩ := dn_spec hq hF inp w o
    obtain ⟨x', h1', h2'⟩ := dn_spec hq' hF inp w' o'
    refine ⟨x, x', h1, h1', fun k k' hk hk' hs => ?_⟩
    obtain ⟨s1, s2, s3⟩ := hs
    have hst : Agree p (start p inp w) (start p inp w') := by
      intro kk hkk
      exact ⟨by simp only [start, if_pos hkk], fun j hj => by simp only [start, if_pos (And.intro hj hkk)]⟩
    have hstage : ∀ d, Agree p (dnStage p (start p inp w) d) (dnStage p (start p inp w') d) := by
      intro d
      induction d with
      | zero => exact hst
      | succ d ih => exact after_congr ih
    have ht : Agree p (dnTarget p q (start p inp w) k) (dnTarget p q' (start p inp w') k') := by
      unfold dnTarget
      rw [← s1, ← s2]
      by_cases htau : q.tau = true
      · rw [if_pos htau, if_pos htau, ← s3 htau]
        by_cases hz : q.ul k = 0 ∧ SNum.isZero (q.ut k) = true
        · rw [if_pos hz, if_pos hz]
          exact hst
        · rw [if_neg hz, if_neg hz]
          exact after_congr (hstage _)
      · rw [if_neg htau, if_neg htau]
        exact hstage _
    exact ((h2 k hk).trans (scaled_congr ht)).trans (h2' k' hk').symm
  · refine ⟨_, _, if_pos hF, if_pos hF, fun k k' hk hk' _ kk hkk => ?_⟩
    have e : ∀ (q : Req F) (o : Nat → Buf F) k, k < q.nUl → each q (zeros p) o k = zeros p (o k) := fun q o k h => if_pos h
    rw [e q o k hk, e q' o' k' hk']
    exact ⟨by simp only [zeros, if_pos (show kk < p.nUv from hkk)],
      fun j hj => by simp only [zeros, if_pos (And.intro hj (show kk < p.nUv from hkk))]⟩

end

theorem Single.nz {p : Prof ℝ} (hF : p.F0 ≠ 0) : SNum.isZero p.F0 = false := decide_eq_false hF

/-- **C33**: the upward radiance at every place asked for is what comes from below plus what each layer
below the place scatters into the line of sight, dimmed on the way. -/
theorem C33_up {p : Prof ℝ} {q : Req ℝ} (hq : q.Ok p.nLayers) (hF : p.F0 ≠ 0) (hm : ∀ i, i < p.nUmus → p.umus i ≠ 0)
    (hf : ∀ n i, n < p.nLayers → i < p.nUmus → 1 / p.umus i + p.as0 n ≠ 0) (inp w : Buf ℝ) (o : Nat → Buf ℝ) :
    ∃ x, up p q inp w o = some x ∧ ∀ k kk, k < q.nUl → kk < p.nUmus * p.nStokes →
      (x k).v kk = Single.Spec.upAt (skyOf p kk) (inp.v kk) (q.ul k) (if q.tau then q.ut k else 0) := by
  obtain ⟨x, h1, h2⟩ := up_spec hq (nz hF) inp w o
  refine ⟨x, h1, fun k kk hk hkk => ?_⟩
  have ha := cell_angle (p := p) hkk
  rw [(h2 k hk kk hkk).1]
  exact upTarget_real hq hkk hk hF (hm _ ha) (fun i _ h => hf i _ h ha) inp w

/-- **C33**: the downward radiance. -/
theorem C33_dn {p : Prof ℝ} {q : Req ℝ} (hq : q.Ok p.nLayers) (hF : p.F0 ≠ 0) (hm : ∀ i, i < p.nUmus → p.umus i ≠ 0)
    (hf : ∀ n i, n < p.nLayers → i < p.nUmus → p.as0 n - 1 / p.umus i ≠ 0) (inp w : Buf ℝ) (o : Nat → Buf ℝ) :
    ∃ x, dn p q inp w o = some x ∧ ∀ k kk, k < q.nUl → kk < p.nUmus * p.nStokes →
      (x k).v kk = Single.Spec.dnAt (skyOf p kk) (inp.v kk) (q.ul k) (if q.tau then q.ut k else 0) := by
  obtain ⟨x, h1, h2⟩ := dn_spec hq (nz hF) inp w o
  refine ⟨x, h1, fun k kk hk hkk => ?_⟩
  have ha := cell_angle (p := p) hkk
  rw [(h2 k hk kk hkk).1]
  refine dnTarget_real hkk hF (hm _ ha) (fun i hi => hf i _ ?_ ha) inp w
  cases ht : q.tau
  · have := (hq.levels ht).1 k hk
    rcases hi with hi | ⟨h, -⟩
    · omega
    · rw [ht] at h; cases h
  · have := (hq.taus ht).1 k hk
    omega

/-- **C33**: as C numbers the results are finite, for finite inputs, if no cosine is zero, no slope of the
beam is that of a line of sight, and with derivatives no layer has thickness zero; and they are those of
`C33_up`. -/
theorem C33_up_finite {p : Prof ℝ} {q : Req ℝ} (hq : q.Ok p.nLayers) (hF : p.F0 ≠ 0) (hm : ∀ i, i < p.nUmus → p.umus i ≠ 0)
    (hf : ∀ n i, n < p.nLayers → i < p.nUmus → 1 / p.umus i + p.as0 n ≠ 0)
    (hl : 0 < p.nDerivs → ∀ n, n < p.nLayers → p.ltau n ≠ 0) (inp w : Buf ℝ) (w' : Buf (Option ℝ)) (o : Nat → Buf ℝ)
    (o' : Nat → Buf (Option ℝ)) :
    ∃ x x', up p q inp w o = some x ∧ up p.lift q.lift inp.lift w' o' = some x' ∧
      ∀ k, k < q.nUl → Single.Spec.SameOutput p.lift (x' k) (x k).lift := by
  obtain ⟨x, h1, h2⟩ := up_spec hq (nz hF) inp w o
  obtain ⟨x', h1', h2'⟩ := up_spec (p := p.lift) (q := q.lift) (lift_ok hq)
    (show decide ((some p.F0 : Option ℝ) = some 0) = false by simp [hF]) inp.lift w' o'
  refine ⟨x, x', h1, h1', fun k hk => ?_⟩
  have h3 := scaled_lift hm (upTarget_lift hq hm hf hl (start_lift hF hm inp w w') hk)
  have h4 : Agree p.lift (scaled p (upTarget p q (start p inp w) k)).lift (x k).lift := by
    intro kk hkk
    have := h2 k hk kk hkk
    exact ⟨congrArg some this.1.symm, fun j hj => congrArg some (this.2 j hj).symm⟩
  exact ((h2' k hk).trans h3).trans h4

theorem C33_dn_finite {p : Prof ℝ} {q : Req ℝ} (hq : q.Ok p.nLayers) (hF : p.F0 ≠ 0) (hm : ∀ i, i < p.nUmus → p.umus i ≠ 0)
    (hf : ∀ n i, n < p.nLayers → i < p.nUmus → p.as0 n - 1 / p.umus i ≠ 0)
    (hl : 0 < p.nDerivs → ∀ n, n < p.nLayers → p.ltau n ≠ 0) (inp w : Buf ℝ) (w' : Buf (Option ℝ)) (o : Nat → Buf ℝ)
    (o' : Nat → Buf (Option ℝ)) :
    ∃ x x', dn p q inp w o = some x ∧ dn p.lift q.lift inp.lift w' o' = some x' ∧
      ∀ k, k < q.nUl → Single.Spec.SameOutput p.lift (x' k) (x k).lift := by
  obtain ⟨x, h1, h2⟩ := dn_spec hq (nz hF) inp w o
  obtain ⟨x', h1', h2'⟩ := dn_spec (p := p.lift) (q := q.lift) (lift_ok hq)
    (show decide ((some p.F0 : Option ℝ) = some 0) = false by simp [hF]) inp.lift w' o'
  refine ⟨x, x', h1, h1', fun k hk => ?_⟩
  have h3 := scaled_lift hm (dnTarget_lift hq hm hf hl (start_lift hF hm inp w w') hk)
  have h4 : Agree p.lift (scaled p (dnTarget p q (start p inp w) k)).lift (x k).lift := by
    intro kk hkk
    have := h2 k hk kk hkk
    exact ⟨congrArg some this.1.symm, fun j hj => congrArg some (this.2 j hj).symm⟩
  exact ((h2' k hk).trans h3).trans h4

/-- **C33**: the linearised outputs are the derivatives of the outputs, along every way to vary the
atmosphere and the incoming radiance, levels staying levels and places inside layers keeping their
relative depth. -/
theorem C33_up_derivative {p : Prof ℝ} {q : Req ℝ} {c : Path} {j : Nat} (hq : q.Ok p.nLayers) (hc : c.Rates p j)
    (hj : j < p.nDerivs) (hF : p.F0 ≠ 0)
    (hf : ∀ n i, n < p.nLayers → i < p.nUmus → 1 / p.umus i + p.as0 n ≠ 0) {inp : ℝ → Buf ℝ} {inp0 : Buf ℝ}
    (hi : ∀ kk, kk < p.nUmus * p.nStokes → (inp 0).v kk = inp0.v kk ∧ HasDerivAt (fun t => (inp t).v kk) (inp0.l j kk) 0)
    (w : Buf ℝ) (o : Nat → Buf ℝ) :
    ∃ x : ℝ → Nat → Buf ℝ, (∀ t, up (c.at p t) (q.move c p t) (inp t) w o = some (x t)) ∧
    ∃ x0, up p q inp0 w o = some x0 ∧ ∀ k kk, k < q.nUl → kk < p.nUmus * p.nStokes →
      (x 0 k).v kk = (x0 k).v kk ∧ HasDerivAt (fun t => (x t k).v kk) ((x0 k).l j kk) 0 := by
  have hx : ∀ t, ∃ x, up (c.at p t) (q.move c p t) (inp t) w o = some x ∧ ∀ k, k < q.nUl →
      Agree (c.at p t) (x k) (scaled (c.at p t) (upTarget (c.at p t) (q.move c p t) (start (c.at p t) (inp t) w) k)) := fun t =>
    up_spec (p := c.at p t) (q := q.move c p t) (move_ok hc hq t) (nz hF) (inp t) w o
  choose x hx1 hx2 using hx
  obtain ⟨x0, h1, h2⟩ := up_spec hq (nz hF) inp0 w o
  refine ⟨x, hx1, x0, h1, fun k kk hk hkk => ?_⟩
  have ht := scaled_tracks (c := c) hj hkk (upTarget_tracks hq hc hkk hk (fun i _ h => hf i _ h (cell_angle hkk))
    (start_tracks (c := c) (w := w) hj hkk (hi kk hkk)))
  have e : ∀ t, (x t k).v kk = (scaled (c.at p t) (upTarget (c.at p t) (q.move c p t) (start (c.at p t) (inp t) w) k)).v kk :=
    fun t => (hx2 t k hk kk hkk).1
  have e0 := h2 k hk kk hkk
  refine ⟨?_, ?_⟩
  · rw [e, e0.1]; exact ht.1
  · simp only [e]
    rw [e0.2 j hj]
    exact ht.2

theorem C33_dn_derivative {p : Prof ℝ} {q : Req ℝ} {c : Path} {j : Nat} (hq : q.Ok p.nLayers) (hc : c.Rates p j)
    (hj : j < p.nDerivs) (hF : p.F0 ≠ 0)
    (hf : ∀ n i, n < p.nLayers → i < p.nUmus → p.as0 n - 1 / p.umus i ≠ 0) {inp : ℝ → Buf ℝ} {inp0 : Buf ℝ}
    (hi : ∀ kk, kk < p.nUmus * p.nStokes → (inp 0).v kk = inp0.v kk ∧ HasDerivAt (fun t => (inp t).v kk) (inp0.l j kk) 0)
    (w : Buf ℝ) (o : Nat → Buf ℝ) :
    ∃ x : ℝ → Nat → Buf ℝ, (∀ t, dn (c.at p t) (q.move c p t) (inp t) w o = some (x t)) ∧
    ∃ x0, dn p q inp0 w o = some x0 ∧ ∀ k kk, k < q.nUl → kk < p.nUmus * p.nStokes →
      (x 0 k).v kk = (x0 k).v kk ∧ HasDerivAt (fun t => (x t k).v kk) ((x0 k).l j kk) 0 := by
  have hx : ∀ t, ∃ x, dn (c.at p t) (q.move c p t) (inp t) w o = some x ∧ ∀ k, k < q.nUl →
      Agree (c.at p t) (x k) (scaled (c.at p t) (dnTarget (c.at p t) (q.move c p t) (start (c.at p t) (inp t) w) k)) := fun t =>
    dn_spec (p := c.at p t) (q := q.move c p t) (move_ok hc hq t) (nz hF) (inp t) w o
  choose x hx1 hx2 using hx
  obtain ⟨x0, h1, h2⟩ := dn_spec hq (nz hF) inp0 w o
  refine ⟨x, hx1, x0, h1, fun k kk hk hkk => ?_⟩
  have ht := scaled_tracks (c := c) hj hkk (dnTarget_tracks hq hc hkk hk (fun i hi => hf i _ (by
      cases ht : q.tau
      · have := (hq.levels ht).1 k hk
        rcases hi with hi | ⟨h, -⟩
        · omega
        · rw [ht] at h; cases h
      · have := (hq.taus ht).1 k hk
        omega) (cell_angle hkk))
    (start_tracks (c := c) (w := w) hj hkk (hi kk hkk)))
  have e : ∀ t, (x t k).v kk = (scaled (c.at p t) (dnTarget (c.at p t) (q.move c p t) (start (c.at p t) (inp t) w) k)).v kk :=
    fun t => (hx2 t k hk kk hkk).1
  have e0 := h2 k hk kk hkk
  refine ⟨?_, ?_⟩
  · rw [e, e0.1]; exact ht.1
  · simp only [e]
    rw [e0.2 j hj]
    exact ht.2

/-- The correction of Nakajima and Tanaka: the scattering of each layer with the full phase function less
that with the truncated one. What comes from below cancels. -/
theorem C33_tms_up {p : Prof ℝ} {q : Req ℝ} (hq : q.Ok p.nLayers) (hF : p.F0 ≠ 0) (hm : ∀ i, i < p.nUmus → p.umus i ≠ 0)
    (hf : ∀ n i, n < p.nLayers → i < p.nUmus → 1 / p.umus i + p.as0 n ≠ 0) (om2 : Nat → ℝ) (om2L : Nat → Nat → ℝ)
    (Pf : Nat → Nat → ℝ) (PfL : Nat → Nat → Nat → ℝ) (inp w1 w2 : Buf ℝ) (a o : Nat → Buf ℝ) :
    ∃ x, tmsUp q p { p with omega := om2, omegaL := om2L, P := Pf, PL := PfL } inp w1 w2 a o = some x ∧
      ∀ k kk, k < q.nUl → kk < p.nUmus * p.nStokes →
      let s := skyOf p kk
      let l := q.ul k
      let u := if q.tau then q.ut k else 0
      (x k).v kk = s.F0 / (4 * Real.pi) / s.mu * ∑ i ∈ Finset.Ico l s.n, (om2 i * Pf i kk - p.omega i * p.P i kk) *
        ∫ t in (if i = l then u else 0)..(s.ltau i), s.beam i t * Real.exp (-(s.thick l i + t - u) / s.mu) := by
  obtain ⟨x1, h1, h2⟩ := C33_up hq hF hm hf inp w1 a
  obtain ⟨x2, h3, h4⟩ := C33_up (p := { p with omega := om2, omegaL := om2L, P := Pf, PL := PfL }) hq hF hm hf inp w2 o
  refine ⟨_, by rw [tmsUp, h1]; dsimp only; rw [h3], fun k kk hk hkk => ?_⟩
  dsimp only
  rw [if_pos hk]
  show (if kk < p.nUmus * p.nStokes then (x2 k).v kk - (x1 k).v kk else _) = _
  rw [if_pos hkk, h2 k kk hk hkk, h4 k kk hk hkk]
  simp only [Single.Spec.upAt, skyOf, Single.Spec.Sky.thick, Single.Spec.Sky.beam]
  rw [add_sub_add_left_eq_sub, ← mul_sub, ← Finset.sum_sub_distrib]
  congr 1
  exact Finset.sum_congr rfl fun i _ => by ring

theorem C33_tms_dn {p : Prof ℝ} {q : Req ℝ} (hq : q.Ok p.nLayers) (hF : p.F0 ≠ 0) (hm : ∀ i, i < p.nUmus → p.umus i ≠ 0)
    (hf : ∀ n i, n < p.nLayers → i < p.nUmus → p.as0 n - 1 / p.umus i ≠ 0) (om2 : Nat → ℝ) (om2L : Nat → Nat → ℝ)
    (Pf : Nat → Nat → ℝ) (PfL : Nat → Nat → Nat → ℝ) (inp w1 w2 : Buf ℝ) (a o : Nat → Buf ℝ) :
    ∃ x, tmsDn q p { p with omega := om2, omegaL := om2L, P := Pf, PL := PfL } inp w1 w2 a o = some x ∧
      ∀ k kk, k < q.nUl → kk < p.nUmus * p.nStokes →
      let s := skyOf p kk
      let l := q.ul k
      let u := if q.tau then q.ut k else 0
      (x k).v kk = s.F0 / (4 * Real.pi) / s.mu * ∑ i ∈ Finset.range (l + 1), (om2 i * Pf i kk - p.omega i * p.P i kk) *
        ∫ t in (0 : ℝ)..(if i = l then u else s.ltau i), s.beam i t * Real.exp (-(s.thick i l + u - t) / s.mu) := by
  obtain ⟨x1, h1, h2⟩ := C33_dn hq hF hm hf inp w1 a
  obtain ⟨x2, h3, h4⟩ := C33_dn (p := { p with omega := om2, omegaL := om2L, P := Pf, PL := PfL }) hq hF hm hf inp w2 o
  refine ⟨_, by rw [tmsDn, h1]; dsimp only; rw [h3], fun k kk hk hkk => ?_⟩
  dsimp only
  rw [if_pos hk]
  show (if kk < p.nUmus * p.nStokes then (x2 k).v kk - (x1 k).v kk else _) = _
  rw [if_pos hkk, h2 k kk hk hkk, h4 k kk hk hkk]
  simp only [Single.Spec.dnAt, skyOf, Single.Spec.Sky.thick, Single.Spec.Sky.beam]
  rw [add_sub_add_left_eq_sub, ← mul_sub, ← Finset.sum_sub_distrib]
  congr 1
  exact Finset.sum_congr rfl fun i _ => by ring

/-! ### Violations -/

/-- A request for one level. -/
def Single.oneLevel {F : Type} [SNum F] (l : Nat) : Req F := ⟨1, fun _ => l, fun _ => Arith.zero, false⟩

theorem Single.oneLevel_ok {F : Type} [SNum F] {l n : Nat} (h : l ≤ n) : (oneLevel l : Req F).Ok n where
  some := Nat.one_pos
  levels := fun _ => ⟨fun _ _ => h, fun k k' h1 h2 => by have : k' < 1 := h2; omega⟩
  taus := fun h => by cases h

/-- **C33, violated**: without sun what comes from below is lost. With the single scattering solver that is the
isotropic source `F_iso_bot` (`src/xrtm_model.c:3981`), as thermal sources are refused for it
(`src/xrtm_interface.c:706`); `F_0 = 0` is accepted (3514). -/
theorem C33_violated_no_sun {p : Prof ℝ} (hF : p.F0 = 0) (hk : 0 < p.nUmus * p.nStokes) (hm : p.umus 0 ≠ 0) (inp w : Buf ℝ)
    (h : inp.v 0 ≠ 0) (o : Nat → Buf ℝ) :
    ∃ x, up p (oneLevel 0) inp w o = some x ∧ (x 0).v 0 = 0 ∧
      Single.Spec.upAt (skyOf p 0) (inp.v 0) 0 0 = inp.v 0 * Real.exp (-(skyOf p 0).thick 0 p.nLayers / p.umus 0) ∧
      (x 0).v 0 ≠ Single.Spec.upAt (skyOf p 0) (inp.v 0) 0 0 := by
  have e : Single.Spec.upAt (skyOf p 0) (inp.v 0) 0 0 =
      inp.v 0 * Real.exp (-(skyOf p 0).thick 0 p.nLayers / p.umus 0) := by
    unfold Single.Spec.upAt
    have h1 : (skyOf p 0).F0 = 0 := hF
    have h2 : (skyOf p 0).mu = p.umus 0 := by simp [skyOf]
    rw [h1, h2, zero_div, zero_div, zero_mul, add_zero, sub_zero]
    rfl
  have h0 : (each (oneLevel 0) (zeros p) o 0).v 0 = 0 := by
    show (if (0 : Nat) < 1 then zeros p (o 0) else _).v 0 = 0
    rw [if_pos Nat.one_pos]
    exact if_pos hk
  refine ⟨each (oneLevel 0) (zeros p) o, if_pos (decide_eq_true hF), h0, e, ?_⟩
  rw [h0, e]
  exact (mul_ne_zero h (Real.exp_pos _).ne').symm

/-- **C33**, the need for the thickness hypothesis of `C33_up_finite`: in every sky with a layer of thickness
zero at the bottom every derivative that passes through it is not a number, whatever is derived by. No
setter stores such a layer: `xrtm_set_ltau_x` refuses a thickness `<= 0.` (`src/xrtm_interface.c:4477`). -/
theorem C33_thin_not_finite {p : Prof ℝ} (hF : p.F0 ≠ 0) {n : Nat} (hn : p.nLayers = n + 1) (hl : p.ltau n = 0)
    (inp w : Buf (Option ℝ)) (o : Nat → Buf (Option ℝ)) :
    ∃ x, up p.lift (oneLevel n) inp w o = some x ∧
      ∀ j kk, j < p.nDerivs → kk < p.nUmus * p.nStokes → (x 0).l j kk = none := by
  obtain ⟨x, h1, h2⟩ := up_spec (p := p.lift) (q := oneLevel n) (oneLevel_ok (by rw [show p.lift.nLayers = n + 1 from hn]; omega))
    (show decide ((some p.F0 : Option ℝ) = some 0) = false by simp [hF]) inp w o
  refine ⟨x, h1, fun j kk hj hkk => ?_⟩
  rw [(h2 0 Nat.one_pos kk hkk).2 j hj]
  show (if j < p.nDerivs ∧ kk < p.nUmus * p.nStokes then
    Arith.mul ((upStage p.lift (start p.lift inp w) (p.nLayers - n)).l j kk) _ else _) = none
  rw [if_pos ⟨hj, hkk⟩]
  have e : p.nLayers - n = 0 + 1 := by omega
  have e2 : p.lift.nLayers - 1 - 0 = n := by show p.nLayers - 1 - 0 = n; omega
  have : (upStage p.lift (start p.lift inp w) (p.nLayers - n)).l j kk = none := by
    rw [e]
    show Wl p.lift (p.lift.nLayers - 1 - 0) _ _ j kk = none
    rw [e2]
    have hdiv : ∀ a : Option ℝ, Arith.div a (some (p.ltau n) : Option ℝ) = none := by
      intro a; rw [hl]; exact o_div0 a
    have hatt : (upFac p.lift n (Arith.zero : Option ℝ) (kk / p.lift.nStokes)).attL j = none := by
      show Arith.mul (Arith.neg (Arith.sub (some (p.ltauL n j)) (Arith.div (Arith.mul Arith.zero (some (p.ltauL n j))) (some (p.ltau n) : Option ℝ)))) _ = none
      rw [hdiv]; rfl
    unfold Wl
    rw [hatt]
    by_cases hfl : p.lift.flag n j = true
    · rw [if_pos hfl]; rfl
    · rw [if_neg hfl]; rfl
  rw [this]
  rfl

/-- **C33, violated**: when the slope of the beam in a layer is that of the line of sight, the downward
radiance below the layer is not a number, though the radiance there is finite. -/
theorem C33_violated_resonance {p : Prof ℝ} (hF : p.F0 ≠ 0) {n : Nat} (hn : n < p.nLayers)
    (inp w : Buf (Option ℝ)) (o : Nat → Buf (Option ℝ)) :
    ∃ x, dn p.lift (oneLevel (n + 1)) inp w o = some x ∧
      ∀ kk, kk < p.nUmus * p.nStokes → p.umus (kk / p.nStokes) ≠ 0 → p.as0 n = 1 / p.umus (kk / p.nStokes) → (x 0).v kk = none := by
  obtain ⟨x, h1, h2⟩ := dn_spec (p := p.lift) (q := oneLevel (n + 1)) (oneLevel_ok hn)
    (show decide ((some p.F0 : Option ℝ) = some 0) = false by simp [hF]) inp w o
  refine ⟨x, h1, fun kk hkk hm ha => ?_⟩
  rw [(h2 0 Nat.one_pos kk hkk).1]
  show (if kk < p.nUmus * p.nStokes then
    Arith.mul ((dnStage p.lift (start p.lift inp w) (n + 1)).v kk) _ else _) = none
  rw [if_pos hkk]
  have : (dnStage p.lift (start p.lift inp w) (n + 1)).v kk = none := by
    show Wv p.lift n (dnFac p.lift n (p.lift.ltau n) (kk / p.nStokes)) _ kk = none
    have hd : Arith.sub (some (p.as0 n) : Option ℝ) (Arith.div Arith.one (some (p.umus (kk / p.nStokes)))) = some 0 := by
      rw [show Arith.div (Arith.one : Option ℝ) (some (p.umus (kk / p.nStokes))) = some (1 / p.umus (kk / p.nStokes)) from if_neg hm, ha]
      show some (1 / p.umus (kk / p.nStokes) - 1 / p.umus (kk / p.nStokes)) = some 0
      rw [sub_self]
    have hsrc : (dnFac p.lift n (p.lift.ltau n) (kk / p.nStokes)).src = none := by
      show Arith.mul _ (Arith.div _ (Arith.sub (some (p.as0 n) : Option ℝ) (Arith.div Arith.one (some (p.umus (kk / p.nStokes)))))) = none
      rw [hd]
      exact (congrArg _ (o_div0 _)).trans rfl
    unfold Wv
    rw [hsrc]
    have hadd : ∀ a : Option ℝ, Arith.add a none = none := by intro a; cases a <;> rfl
    exact hadd _
  rw [this]
  rfl

/-! ### A sky -/

/-- Two layers of thickness 2 and 1, one angle, one derivative, by the thickness of the first. -/
noncomputable def Single.exSky (om : ℝ) : Prof ℝ where
  nStokes := 1
  nDerivs := 1
  nLayers := 2
  nUmus := 1
  F0 := 4 * Real.pi
  umus _ := 1
  omega _ := om
  omegaL _ _ := 0
  ltau i := if i = 0 then 2 else 1
  ltauL i _ := if i = 0 then 1 else 0
  P _ _ := 1
  PL _ _ _ := 0
  btran _ := 1
  btranL _ _ := 0
  as0 _ := 2
  as0L _ _ := 0
  flag _ _ := false

/-- Half way down the first layer. -/
noncomputable def Single.exPlace : Req ℝ := ⟨1, fun _ => 0, fun _ => 1, true⟩

theorem Single.exPlace_ok : exPlace.Ok 2 where
  some := Nat.one_pos
  levels := fun h => by cases h
  taus := fun _ => ⟨fun _ _ => (by decide : 0 < 2), fun _ _ _ _ => Nat.le_refl _, fun k h1 h2 => by
    have : k < 1 := h2
    omega⟩

theorem Single.exSky_F0 (om : ℝ) : (exSky om).F0 ≠ 0 := by
  show 4 * Real.pi ≠ 0
  have := Real.pi_pos
  positivity

/-- Half way down, up and down. -/
example (om : ℝ) (inp w : Buf ℝ) (o : Nat → Buf ℝ) :
    (∃ x, up (exSky om) exPlace inp w o = some x ∧
      (x 0).v 0 = Single.Spec.upAt (skyOf (exSky om) 0) (inp.v 0) 0 1) ∧
    ∃ x, dn (exSky om) exPlace inp w o = some x ∧
      (x 0).v 0 = Single.Spec.dnAt (skyOf (exSky om) 0) (inp.v 0) 0 1 := by
  constructor
  · obtain ⟨x, h1, h2⟩ := C33_up (p := exSky om) (q := exPlace) exPlace_ok (exSky_F0 om) (fun _ _ => one_ne_zero)
      (fun n i _ _ => show (1 : ℝ) / 1 + 2 ≠ 0 by norm_num) inp w o
    exact ⟨x, h1, h2 0 0 Nat.one_pos Nat.one_pos⟩
  · obtain ⟨x, h1, h2⟩ := C33_dn (p := exSky om) (q := exPlace) exPlace_ok (exSky_F0 om) (fun _ _ => one_ne_zero)
      (fun n i _ _ => show (2 : ℝ) - 1 / 1 ≠ 0 by norm_num) inp w o
    exact ⟨x, h1, h2 0 0 Nat.one_pos Nat.one_pos⟩

/-- The first layer grows. -/
noncomputable def Single.exPath (om : ℝ) : Path where
  ltau t i := if i = 0 then 2 * Real.exp (t / 2) else 1
  omega _ _ := om
  btran _ _ := 1
  as0 _ _ := 2
  P _ _ _ := 1

theorem Single.exPath_rates (om : ℝ) : (exPath om).Rates (exSky om) 0 where
  start := ⟨by funext i; simp [exPath, exSky], rfl, rfl, rfl, rfl⟩
  ltau := fun i _ => by
    by_cases h : i = 0
    · simp only [exPath, exSky, if_pos h]
      refine ((((hasDerivAt_id (0 : ℝ)).div_const 2).exp).const_mul 2).congr_deriv ?_
      simp
    · simp only [exPath, exSky, if_neg h]
      exact hasDerivAt_const _ _
  omega := fun _ _ => hasDerivAt_const _ _
  btran := fun _ _ => hasDerivAt_const _ _
  as0 := fun _ _ => hasDerivAt_const _ _
  P := fun _ _ _ _ => hasDerivAt_const _ _
  pos := fun t i _ => by
    by_cases h : i = 0
    · simp only [exPath, if_pos h]
      have := Real.exp_pos (t / 2)
      positivity
    · simp only [exPath, if_neg h]
      norm_num

/-- It meets the hypotheses of the theorem on derivatives. -/
example (om : ℝ) (inp w : Buf ℝ) (h : inp.l 0 0 = 0) (o : Nat → Buf ℝ) :
    ∃ x : ℝ → Nat → Buf ℝ, (∀ t, up ((exPath om).at (exSky om) t) (exPlace.move (exPath om) (exSky om) t) inp w o = some (x t)) ∧
    ∃ x0, up (exSky om) exPlace inp w o = some x0 ∧ HasDerivAt (fun t => (x t 0).v 0) ((x0 0).l 0 0) 0 := by
  obtain ⟨x, h1, x0, h2, h3⟩ := C33_up_derivative (p := exSky om) (q := exPlace) (c := exPath om) (j := 0) exPlace_ok (exPath_rates om)
    Nat.one_pos (exSky_F0 om) (fun n i _ _ => show (1 : ℝ) / 1 + 2 ≠ 0 by norm_num) (inp := fun _ => inp) (inp0 := inp)
    (fun kk hkk => by
      have : kk < 1 := hkk
      obtain rfl : kk = 0 := by omega
      exact ⟨rfl, by rw [h]; exact hasDerivAt_const _ _⟩) w o
  exact ⟨x, h1, x0, h2, (h3 0 0 Nat.one_pos Nat.one_pos).2⟩

theorem Single.black_l {p : Prof ℝ} {n i j kk : Nat} {u : ℝ} {r : Buf ℝ} (h1 : p.omega n = 0) (h2 : p.omegaL n j = 0)
    (h3 : p.flag n j = false) :
    Wl p n (upFac p n u i) r j kk = -(p.ltauL n j - u * p.ltauL n j / p.ltau n) *
      (Real.exp (-(p.ltau n - u) / p.umus i) / p.umus i) * r.v kk + Real.exp (-(p.ltau n - u) / p.umus i) * r.l j kk := by
  have hb : (upFac p n u i).srcL j = 0 := by
    show (1 - Real.exp (-(p.ltau n - u) / p.umus i) * Real.exp (-(p.ltau n - u) * p.as0 n)) / (1 / p.umus i + p.as0 n) *
      ((p.btranL n j + p.btran n * (-(u * p.ltauL n j / p.ltau n) * p.as0 n - u * p.as0L n j)) * (Real.exp (-u * p.as0 n) * p.omega n) +
        p.btran n * Real.exp (-u * p.as0 n) * p.omegaL n j) + (p.btran n * Real.exp (-u * p.as0 n) * p.omega n) * _ / _ = 0
    rw [h1, h2]
    ring
  unfold Wl
  rw [h3, hb]
  simp only [Bool.false_eq_true, if_false]
  show _ * r.v kk + _ * r.l j kk + p.P n kk * 0 = _
  rw [mul_zero, add_zero]
  rfl

/-- **C33, violated** for output at optical depths: the depth a user gave stays where it is when the layer
grows, but the derivative is for a place that moves with the layer. -/
theorem C33_violated_fixed_depth (w : Buf ℝ) (o : Nat → Buf ℝ) :
    ∃ (p : Prof ℝ) (q : Req ℝ) (inp : Buf ℝ) (x : Nat → Buf ℝ) (d : ℝ), q.Ok p.nLayers ∧ q.tau = true ∧
      up p q inp w o = some x ∧
      HasDerivAt (fun t => Single.Spec.upAt { skyOf p 0 with ltau := fun i => p.ltau i + t * p.ltauL i 0 } (inp.v 0) (q.ul 0) (q.ut 0)) d 0 ∧
      (x 0).v 0 = Single.Spec.upAt (skyOf p 0) (inp.v 0) (q.ul 0) (q.ut 0) ∧ (x 0).l 0 0 ≠ d := by
  let inp : Buf ℝ := ⟨fun _ => 1, fun _ _ => 0⟩
  obtain ⟨x, h1, h2⟩ := C33_up (p := exSky 0) (q := exPlace) exPlace_ok (exSky_F0 0) (fun _ _ => one_ne_zero)
    (fun n i _ _ => show (1 : ℝ) / 1 + 2 ≠ 0 by norm_num) inp w o
  obtain ⟨x', h1', h3⟩ := up_spec (p := exSky 0) (q := exPlace) exPlace_ok (nz (exSky_F0 0)) inp w o
  rw [h1] at h1'
  cases h1'
  refine ⟨exSky 0, exPlace, inp, x, -Real.exp (-2), exPlace_ok, rfl, h1, ?_, h2 0 0 Nat.one_pos (by decide), ?_⟩
  · have e : ∀ t : ℝ, Single.Spec.upAt { skyOf (exSky 0) 0 with ltau := fun i => (exSky 0).ltau i + t * (exSky 0).ltauL i 0 }
        (inp.v 0) (exPlace.ul 0) (exPlace.ut 0) = Real.exp (-(2 + t)) := by
      intro t
      simp [Single.Spec.upAt, skyOf, exSky, exPlace, Single.Spec.Sky.thick, Finset.sum_range_succ, inp]
      try ring_nf
    simp only [e]
    refine (((hasDerivAt_id (0 : ℝ)).const_add 2).fun_neg.exp).congr_deriv ?_
    simp
  · have h4 := (h3 0 Nat.one_pos 0 (by decide)).2 0 (by decide)
    rw [h4]
    have hs : scale (exSky 0) 0 = 1 := by
      rw [scale_real]
      have := Real.pi_ne_zero
      simp only [exSky]
      field_simp
    have : (scaled (exSky 0) (upTarget (exSky 0) exPlace (start (exSky 0) inp w) 0)).l 0 0 = -(1 / 2) * Real.exp (-2) := by
      show Wl (exSky 0) 0 (upFac (exSky 0) 0 1 0)
        (after (exSky 0) (upFac (exSky 0) 1 (0 : ℝ)) 1 (start (exSky 0) inp w)) 0 0 * scale (exSky 0) 0 = _
      rw [hs, mul_one, black_l rfl rfl rfl]
      show -((1 : ℝ) - 1 * 1 / 2) * (Real.exp (-(2 - 1) / 1) / 1) * Wv (exSky 0) 1 (upFac (exSky 0) 1 0 0) (start (exSky 0) inp w) 0 +
        Real.exp (-(2 - 1) / 1) * Wl (exSky 0) 1 (upFac (exSky 0) 1 0 0) (start (exSky 0) inp w) 0 0 = _
      have hv : (start (exSky 0) inp w).v 0 = 1 := by
        show (1 : ℝ) / scale (exSky 0) 0 = 1
        rw [hs, div_one]
      have hl : (start (exSky 0) inp w).l 0 0 = 0 := by
        show (0 : ℝ) / scale (exSky 0) 0 = 0
        rw [zero_div]
      rw [black_l rfl rfl rfl, Wv_up, hv, hl]
      have e : Real.exp (-2 : ℝ) = Real.exp (-1) * Real.exp (-1) := by rw [← Real.exp_add]; norm_num
      simp [exSky]
      rw [e]
      norm_num
      ring
    rw [this]
    have := Real.exp_pos (-2)
    intro h
    linarith

end Xrtm
