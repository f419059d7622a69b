import Verif.Model.Sfi

/-! # The sweep over the layers writes all of the outputs -/

namespace Xrtm.Sfi

variable {σ : Type} {nU : Nat} {ulev : Nat → Nat} {utau : Nat → ℝ} {step : Nat → ℝ → σ → σ} {L : Nat} {T : Nat → ℝ}

/-- The light after so many layers. -/
def run (down : Bool) (step : Nat → ℝ → σ → σ) (L : Nat) (T : Nat → ℝ) (start : σ) : Nat → σ
  | 0 => start
  | c + 1 =>
    let i := if !down then L - 1 - c else c
    step i (if !down then 0 else T i) (run down step L T start c)

theorem rd_some {io : Int} (h : 0 ≤ io) (h' : io < nU) : rd nU ulev io = some (ulev io.toNat) := if_pos ⟨h, h'⟩

/-! ## Upwards -/

/-- What holds after `c` layers upwards; `f` is what is to be written. -/
structure InvUp (nU : Nat) (ulev : Nat → Nat) (L : Nat) (f : Nat → σ) (cur : σ) (c : Nat) (s : St σ) : Prop where
  cur : s.cur = cur
  lo : -1 ≤ s.io
  hi : s.io < nU
  done : ∀ j : Nat, j < nU → s.io < j → L - c ≤ ulev j ∧ s.out j = some (f j)
  left : ∀ j : Nat, j < nU → (j : Int) ≤ s.io → ulev j < L - c

theorem emit_cur (d : Bool) (s : St σ) (x : σ) : (s.emit d x).cur = s.cur := rfl
theorem emit_io (d : Bool) (s : St σ) (x : σ) : (s.emit d x).io = s.io + inc d := rfl
theorem emit_out (d : Bool) (s : St σ) (x : σ) (j : Nat) :
    (s.emit d x).out j = if (j : Int) = s.io then some x else s.out j := rfl

theorem up_levels (hU : 0 < nU) (hL : 1 ≤ L) (hlast : ulev (nU - 1) ≤ L)
    (hm : ∀ j k, j < k → k < nU → ulev j < ulev k) (start : σ) : ∃ o,
    sweep false false nU ulev utau step L T start = some o ∧
      ∀ j, j < nU → o j = some (run false step L T start (L - ulev j)) := by
  have hle : ∀ j, j < nU → ulev j ≤ L := fun j hj => by
    rcases Nat.lt_or_ge j (nU - 1) with h | h
    · have := hm j (nU - 1) h (by omega); omega
    · have : j = nU - 1 := by omega
      rw [this]; exact hlast
  set f : Nat → σ := fun j => run false step L T start (L - ulev j) with hf
  have h0 : ∃ s, before false false nU ulev utau L (⟨start, fun _ => none, (nU : Int) - 1⟩ : St σ) = some s ∧
      InvUp nU ulev L f start 0 s := by
    unfold before
    rw [rd_some (by simp only; omega) (by simp only; omega)]
    have e : ((nU : Int) - 1).toNat = nU - 1 := by omega
    simp only [e, Bool.not_false, if_true, decide_eq_true_eq]
    by_cases h : L = ulev (nU - 1)
    · rw [if_pos h]
      refine ⟨_, rfl, rfl, ?_, ?_, fun j hj h1 => ?_, fun j hj h1 => ?_⟩
      · simp only [emit_io, inc]; simp; omega
      · simp only [emit_io, inc]; simp
      · simp only [emit_io, inc] at h1; simp at h1
        have ej : j = nU - 1 := by omega
        subst ej
        refine ⟨by omega, ?_⟩
        rw [emit_out, if_pos (by simp only; omega), hf]
        simp only [← h, Nat.sub_self]; rfl
      · simp only [emit_io, inc] at h1; simp at h1
        have := hm j (nU - 1) (by omega) (by omega); omega
    · rw [if_neg h]
      refine ⟨_, rfl, rfl, by simp only; omega, by simp only; omega, fun j hj h1 => by simp only at h1; omega,
        fun j hj h1 => ?_⟩
      rcases Nat.lt_or_ge j (nU - 1) with h2 | h2
      · have := hm j (nU - 1) h2 (by omega); omega
      · have : j = nU - 1 := by omega
        subst this; omega
  obtain ⟨s0, hs0, i0⟩ := h0
  have hl : ∀ c, c ≤ L - ulev 0 → ∃ s, loop false false nU ulev utau step L T c s0 = some s ∧
      InvUp nU ulev L f (run false step L T start c) c s := by
    intro c
    induction c with
    | zero => intro _; exact ⟨s0, rfl, i0⟩
    | succ c ih =>
      intro hc
      obtain ⟨s, hs, iv⟩ := ih (by omega)
      have hio : 0 ≤ s.io := by
        by_contra hcon
        have := (iv.done 0 hU (by push_cast; omega)).1
        omega
      have hio' := iv.hi
      obtain ⟨p, hp⟩ : ∃ p : Nat, s.io = p := ⟨s.io.toNat, by omega⟩
      have hpU : p < nU := by omega
      have hlp := iv.left p hpU (by omega)
      simp only [loop, hs, Option.bind_some, body, Bool.not_false, if_true, Bool.false_eq_true, if_false]
      rw [rd_some hio hio']
      have ep : s.io.toNat = p := by omega
      simp only [ep]
      by_cases h : L - 1 - c = ulev p
      · rw [if_pos h]
        refine ⟨_, rfl, ?_, ?_, ?_, fun j hj h1 => ?_, fun j hj h1 => ?_⟩
        · simp only [emit_cur, run, iv.cur]; simp
        · simp only [emit_io, inc]; simp; omega
        · simp only [emit_io, inc]; simp; omega
        · simp only [emit_io, inc] at h1; simp at h1
          rw [emit_out]
          by_cases hj' : (j : Int) = s.io
          · have ej : j = p := by omega
            subst ej
            refine ⟨by omega, ?_⟩
            rw [if_pos hj', hf]
            have ec : L - ulev j = c + 1 := by omega
            simp only [ec, run, iv.cur]; simp
          · rw [if_neg (by simpa using hj')]
            have := iv.done j hj (by omega)
            exact ⟨by omega, this.2⟩
        · simp only [emit_io, inc] at h1; simp at h1
          have := hm j p (by omega) hpU; omega
      · rw [if_neg h]
        refine ⟨_, rfl, ?_, by simp only; omega, by simp only; omega, fun j hj h1 => ?_, fun j hj h1 => ?_⟩
        · simp only [run, iv.cur]; simp
        · have := iv.done j hj h1
          exact ⟨by omega, this.2⟩
        · simp only at h1
          rcases Nat.lt_or_ge j p with h2 | h2
          · have := hm j p h2 hpU; omega
          · have : j = p := by omega
            subst this; omega
  obtain ⟨s, hs, iv⟩ := hl _ le_rfl
  refine ⟨s.out, ?_, fun j hj => ?_⟩
  · unfold sweep
    simp only [Bool.not_false, if_true, hs0, Option.bind_some, turns, hs, Option.map_some]
  · refine (iv.done j hj ?_).2
    by_contra hcon
    have := iv.left j hj (by omega)
    have h0 : ulev 0 ≤ ulev j := by
      rcases Nat.eq_zero_or_pos j with h | h
      · subst h; exact le_rfl
      · exact (hm 0 j h hj).le
    have := hle 0 hU
    omega

theorem inside_up {i : Nat} (hm : ∀ j k, j ≤ k → k < nU → ulev j ≤ ulev k) (f : Nat → σ)
    (cur : σ) (hf : ∀ j, j < nU → ulev j = i → step i (utau j) cur = f j) :
    ∀ (fuel : Nat) (s : St σ), s.io + 1 < fuel → -1 ≤ s.io → s.io < nU → s.cur = cur →
      (∀ j : Nat, j < nU → s.io < j → i ≤ ulev j ∧ s.out j = some (f j)) →
      (∀ j : Nat, j < nU → (j : Int) ≤ s.io → ulev j ≤ i) →
      let s' := inside false nU ulev utau step i fuel s
      s'.cur = cur ∧ -1 ≤ s'.io ∧ s'.io < nU ∧
        (∀ j : Nat, j < nU → s'.io < j → i ≤ ulev j ∧ s'.out j = some (f j)) ∧
        (∀ j : Nat, j < nU → (j : Int) ≤ s'.io → ulev j < i) := by
  intro fuel
  induction fuel with
  | zero => intro s h1 h2; push_cast at h1; omega
  | succ fuel ih =>
    intro s h1 h2 h3 hc hd hl
    unfold inside
    rcases lt_or_ge s.io 0 with h | h
    · rw [show rd nU ulev s.io = none from if_neg (by omega)]
      exact ⟨hc, h2, h3, hd, fun j hj h4 => by change (j : Int) ≤ s.io at h4; omega⟩
    · rw [rd_some h h3]
      obtain ⟨p, hp⟩ : ∃ p : Nat, s.io = p := ⟨s.io.toNat, by omega⟩
      have ep : s.io.toNat = p := by omega
      have hpU : p < nU := by omega
      simp only [ep]
      by_cases he : i = ulev p
      · rw [if_pos he]
        refine ih _ ?_ ?_ ?_ hc (fun j hj h4 => ?_) (fun j hj h4 => ?_)
        · simp only [emit_io, inc]; push_cast at h1; simp; omega
        · simp only [emit_io, inc]; simp; omega
        · simp only [emit_io, inc]; simp; omega
        · simp only [emit_io, inc] at h4; simp at h4
          rw [emit_out]
          by_cases hj' : (j : Int) = s.io
          · have ej : j = p := by omega
            subst ej
            rw [if_pos hj', hc, hf j hj he.symm]
            exact ⟨he.le, rfl⟩
          · rw [if_neg hj']; exact hd j hj (by omega)
        · simp only [emit_io, inc] at h4; simp at h4
          exact hl j hj (by omega)
      · rw [if_neg he]
        refine ⟨hc, h2, h3, hd, fun j hj h4 => ?_⟩
        have a := hl p hpU (by omega)
        have b := hm j p (by omega) hpU
        omega

theorem up_taus (hU : 0 < nU) (hlast : ulev (nU - 1) < L)
    (hm : ∀ j k, j ≤ k → k < nU → ulev j ≤ ulev k) (start : σ) : ∃ o,
    sweep false true nU ulev utau step L T start = some o ∧
      ∀ j, j < nU → o j = some (step (ulev j) (utau j) (run false step L T start (L - 1 - ulev j))) := by
  have hle : ∀ j, j < nU → ulev j < L := fun j hj => (hm j (nU - 1) (by omega) (by omega)).trans_lt hlast
  set f : Nat → σ := fun j => step (ulev j) (utau j) (run false step L T start (L - 1 - ulev j)) with hf
  set s0 : St σ := ⟨start, fun _ => none, (nU : Int) - 1⟩ with hs0
  have hb : before false true nU ulev utau L s0 = some s0 := by
    unfold before
    rw [rd_some (by simp only [hs0]; omega) (by simp only [hs0]; omega)]
    have e : s0.io.toNat = nU - 1 := by simp only [hs0]; omega
    simp only [e, Bool.not_false, if_true, decide_eq_true_eq, Bool.not_true, Bool.false_eq_true, if_false]
    rw [if_neg (by omega)]
  have i0 : InvUp nU ulev L f start 0 s0 := by
    refine ⟨rfl, by simp only [hs0]; omega, by simp only [hs0]; omega, fun j hj h1 => by simp only [hs0] at h1; omega,
      fun j hj _ => ?_⟩
    have := hle j hj; omega
  have hl : ∀ c, c ≤ L - ulev 0 → ∃ s, loop false true nU ulev utau step L T c s0 = some s ∧
      InvUp nU ulev L f (run false step L T start c) c s := by
    intro c
    induction c with
    | zero => intro _; exact ⟨s0, rfl, i0⟩
    | succ c ih =>
      intro hc
      obtain ⟨s, hs, iv⟩ := ih (by omega)
      have hio : 0 ≤ s.io := by
        by_contra hcon
        have := (iv.done 0 hU (by push_cast; omega)).1
        omega
      have hio' := iv.hi
      obtain ⟨p, hp⟩ : ∃ p : Nat, s.io = p := ⟨s.io.toNat, by omega⟩
      have hpU : p < nU := by omega
      have hlp := iv.left p hpU (by omega)
      have ep : s.io.toNat = p := by omega
      simp only [loop, hs, Option.bind_some, body, Bool.not_false, if_true]
      rw [rd_some hio hio']
      simp only [ep]
      by_cases h : L - 1 - c = ulev p
      · rw [if_pos h]
        obtain ⟨q1, q2, q3, q4, q5⟩ := inside_up (i := L - 1 - c) (step := step) (utau := utau) hm f (run false step L T start c)
          (fun j hj e => by
            simp only [hf]
            have : L - 1 - ulev j = c := by have := hle j hj; omega
            rw [this, e]) (nU + 1) s (by push_cast; omega) iv.lo iv.hi iv.cur
          (fun j hj h4 => by have := iv.done j hj h4; exact ⟨by omega, this.2⟩)
          (fun j hj h4 => by have := iv.left j hj h4; omega)
        refine ⟨_, rfl, ?_, q2, q3, fun j hj h4 => ?_, fun j hj h4 => ?_⟩
        · simp only [run, q1]; simp
        · have := q4 j hj h4; exact ⟨by omega, this.2⟩
        · have := q5 j hj h4; omega
      · rw [if_neg h]
        refine ⟨_, rfl, ?_, iv.lo, iv.hi, fun j hj h1 => ?_, fun j hj h1 => ?_⟩
        · simp only [run, iv.cur]; simp
        · have := iv.done j hj h1
          exact ⟨by omega, this.2⟩
        · have := hm j p (by simp only at h1; omega) hpU; omega
  obtain ⟨s, hs, iv⟩ := hl _ le_rfl
  refine ⟨s.out, ?_, fun j hj => ?_⟩
  · unfold sweep
    simp only [Bool.not_false, if_true, ← hs0, hb, Option.bind_some, turns, hs, Option.map_some]
  · refine (iv.done j hj ?_).2
    by_contra hcon
    have := iv.left j hj (by omega)
    have h0 : ulev 0 ≤ ulev j := hm 0 j (by omega) hj
    have := hle 0 hU
    omega

/-! ## Downwards -/

/-- What holds after `c` layers downwards; `special` is the output at the top. -/
structure InvDn (nU : Nat) (ulev : Nat → Nat) (special : Prop) (f : Nat → σ) (cur : σ) (c : Nat) (s : St σ) : Prop where
  cur : s.cur = cur
  lo : 0 ≤ s.io
  hi : s.io ≤ nU
  done : ∀ j : Nat, (j : Int) < s.io → (ulev j < c ∨ j = 0 ∧ special) ∧ s.out j = some (f j)
  left : ∀ j : Nat, j < nU → s.io ≤ j → c ≤ ulev j

theorem dn_levels (hU : 0 < nU) (hm : ∀ j k, j < k → k < nU → ulev j < ulev k) (start : σ) : ∃ o,
    sweep true false nU ulev utau step L T start = some o ∧
      ∀ j, j < nU → o j = some (run true step L T start (ulev j)) := by
  set f : Nat → σ := fun j => run true step L T start (ulev j) with hf
  have hm' : ∀ j k, j ≤ k → k < nU → ulev j ≤ ulev k := fun j k h hk => by
    rcases h.lt_or_eq with h | h
    · exact (hm j k h hk).le
    · rw [h]
  have h0 : ∃ s, before true false nU ulev utau L (⟨start, fun _ => none, 0⟩ : St σ) = some s ∧
      InvDn nU (fun j => ulev j - 1 + (if ulev j = 0 then 0 else 0)) (ulev 0 = 0) f start 0 s ∧
      (∀ j : Nat, (j : Int) < s.io → ulev j ≤ 0) ∧ (∀ j : Nat, j < nU → s.io ≤ j → 0 < ulev j) := by
    unfold before
    rw [rd_some (by simp) (by simp only; omega)]
    simp only [Bool.not_true, Bool.false_eq_true, if_false, Bool.not_false, if_true, decide_eq_true_eq, Int.toNat_zero]
    by_cases h : 0 = ulev 0
    · rw [if_pos h]
      refine ⟨_, rfl, ⟨rfl, ?_, ?_, fun j h1 => ?_, fun j hj h1 => by omega⟩, fun j h1 => ?_, fun j hj h1 => ?_⟩
      · simp [emit_io, inc]
      · simp [emit_io, inc]; omega
      · simp [emit_io, inc] at h1
        subst h1
        refine ⟨Or.inr ⟨rfl, h.symm⟩, ?_⟩
        rw [emit_out, if_pos (by simp), hf]
        simp only [← h]; rfl
      · simp [emit_io, inc] at h1
        subst h1; omega
      · simp [emit_io, inc] at h1
        have := hm 0 j (by omega) hj; omega
    · rw [if_neg h]
      refine ⟨_, rfl, ⟨rfl, by simp, by simp, fun j h1 => by simp only at h1; omega, fun j hj h1 => by omega⟩,
        fun j h1 => by simp only at h1; omega, fun j hj _ => ?_⟩
      have := hm' 0 j (by omega) hj; omega
  obtain ⟨s0, hs0, i0, i1, i2⟩ := h0
  have hl : ∀ c, c ≤ ulev (nU - 1) → ∃ s, loop true false nU ulev utau step L T c s0 = some s ∧
      s.cur = run true step L T start c ∧ 0 ≤ s.io ∧ s.io ≤ nU ∧
      (∀ j : Nat, (j : Int) < s.io → ulev j ≤ c ∧ s.out j = some (f j)) ∧
      (∀ j : Nat, j < nU → s.io ≤ j → c < ulev j) := by
    intro c
    induction c with
    | zero => intro _; exact ⟨s0, rfl, i0.cur, i0.lo, i0.hi, fun j h => ⟨i1 j h, (i0.done j h).2⟩, i2⟩
    | succ c ih =>
      intro hc
      obtain ⟨s, hs, v1, v2, v3, v4, v5⟩ := ih (by omega)
      have hio' : s.io < nU := by
        by_contra hcon
        have := (v4 (nU - 1) (by omega)).1
        omega
      obtain ⟨p, hp⟩ : ∃ p : Nat, s.io = p := ⟨s.io.toNat, by omega⟩
      have hpU : p < nU := by omega
      have hlp := v5 p hpU (by omega)
      have ep : s.io.toNat = p := by omega
      simp only [loop, hs, Option.bind_some, body, Bool.not_true, if_true, Bool.false_eq_true, if_false]
      rw [rd_some v2 hio']
      simp only [ep]
      by_cases h : c + 1 = ulev p
      · rw [if_pos h]
        refine ⟨_, rfl, ?_, ?_, ?_, fun j h1 => ?_, fun j hj h1 => ?_⟩
        · simp only [emit_cur, run, v1]; simp
        · simp only [emit_io, inc]; simp; omega
        · simp only [emit_io, inc]; simp; omega
        · simp only [emit_io, inc] at h1; simp at h1
          rw [emit_out]
          by_cases hj' : (j : Int) = s.io
          · have ej : j = p := by omega
            subst ej
            refine ⟨by omega, ?_⟩
            rw [if_pos hj', hf]
            simp only [← h, run, v1]; simp
          · rw [if_neg (by simpa using hj')]
            have := v4 j (by omega)
            exact ⟨by omega, this.2⟩
        · simp only [emit_io, inc] at h1; simp at h1
          have := hm p j (by omega) hj; omega
      · rw [if_neg h]
        refine ⟨_, rfl, ?_, v2, v3, fun j h1 => ?_, fun j hj h1 => ?_⟩
        · simp only [run, v1]; simp
        · have := v4 j h1
          exact ⟨by omega, this.2⟩
        · simp only at h1
          have := hm' p j (by omega) hj; omega
  obtain ⟨s, hs, v1, v2, v3, v4, v5⟩ := hl _ le_rfl
  refine ⟨s.out, ?_, fun j hj => ?_⟩
  · unfold sweep
    simp only [Bool.not_true, Bool.false_eq_true, if_false, Bool.not_false, if_true, hs0, Option.bind_some, turns, hs,
      Option.map_some]
  · refine (v4 j ?_).2
    by_contra hcon
    have := v5 j hj (by omega)
    have := hm' j (nU - 1) (by omega) (by omega)
    omega

theorem inside_dn {i : Nat} (hm : ∀ j k, j ≤ k → k < nU → ulev j ≤ ulev k) (f : Nat → σ) (special : Prop)
    (cur : σ) :
    ∀ (fuel : Nat) (s : St σ), (nU : Int) - s.io < fuel → 0 ≤ s.io → s.io ≤ nU → s.cur = cur →
      (∀ j : Nat, j < nU → s.io ≤ j → ulev j = i → step i (utau j) cur = f j) →
      (∀ j : Nat, (j : Int) < s.io → (ulev j ≤ i ∨ j = 0 ∧ special) ∧ s.out j = some (f j)) →
      (∀ j : Nat, j < nU → s.io ≤ j → i ≤ ulev j) →
      let s' := inside true nU ulev utau step i fuel s
      s'.cur = cur ∧ 0 ≤ s'.io ∧ s'.io ≤ nU ∧
        (∀ j : Nat, (j : Int) < s'.io → (ulev j ≤ i ∨ j = 0 ∧ special) ∧ s'.out j = some (f j)) ∧
        (∀ j : Nat, j < nU → s'.io ≤ j → i < ulev j) := by
  intro fuel
  induction fuel with
  | zero => intro s h1 h2 h3; push_cast at h1; omega
  | succ fuel ih =>
    intro s h1 h2 h3 hc hf hd hl
    unfold inside
    rcases lt_or_ge s.io nU with h | h
    · rw [rd_some h2 h]
      obtain ⟨p, hp⟩ : ∃ p : Nat, s.io = p := ⟨s.io.toNat, by omega⟩
      have ep : s.io.toNat = p := by omega
      have hpU : p < nU := by omega
      simp only [ep]
      by_cases he : i = ulev p
      · rw [if_pos he]
        refine ih _ ?_ ?_ ?_ hc (fun j hj h4 => ?_) (fun j h4 => ?_) (fun j hj h4 => ?_)
        · simp only [emit_io, inc]; push_cast at h1; simp; omega
        · simp only [emit_io, inc]; simp; omega
        · simp only [emit_io, inc]; simp; omega
        · simp only [emit_io, inc] at h4; simp at h4
          exact hf j hj (by omega)
        · simp only [emit_io, inc] at h4; simp at h4
          rw [emit_out]
          by_cases hj' : (j : Int) = s.io
          · have ej : j = p := by omega
            subst ej
            rw [if_pos hj', hc, hf j hpU (by omega) he.symm]
            exact ⟨Or.inl he.ge, rfl⟩
          · rw [if_neg hj']; exact hd j (by omega)
        · simp only [emit_io, inc] at h4; simp at h4
          exact hl j hj (by omega)
      · rw [if_neg he]
        refine ⟨hc, h2, h3, hd, fun j hj h4 => ?_⟩
        have a := hl p hpU (by omega)
        have b := hm p j (by omega) hj
        omega
    · rw [show rd nU ulev s.io = none from if_neg (by omega)]
      exact ⟨hc, h2, h3, hd, fun j hj h4 => by change s.io ≤ (j : Int) at h4; omega⟩

/-- The first output is at the top of the atmosphere. -/
def AtTop (ulev : Nat → Nat) (utau : Nat → ℝ) : Prop := ulev 0 = 0 ∧ utau 0 = 0

open Classical in
theorem dn_taus (hU : 0 < nU) (hm : ∀ j k, j ≤ k → k < nU → ulev j ≤ ulev k)
    (hsp : AtTop ulev utau → nU ≠ 1) (start : σ) : ∃ o,
    sweep true true nU ulev utau step L T start = some o ∧
      ∀ j, j < nU → o j = some (if j = 0 ∧ AtTop ulev utau then start
        else step (ulev j) (utau j) (run true step L T start (ulev j))) := by
  set f : Nat → σ := fun j => if j = 0 ∧ AtTop ulev utau then start
    else step (ulev j) (utau j) (run true step L T start (ulev j)) with hf
  have h0 : ∃ s, before true true nU ulev utau L (⟨start, fun _ => none, 0⟩ : St σ) = some s ∧
      InvDn nU ulev (AtTop ulev utau) f start 0 s ∧ (AtTop ulev utau → 0 < s.io) := by
    unfold before
    rw [rd_some (by simp) (by simp only; omega)]
    simp only [Bool.not_true, Bool.false_eq_true, if_false, decide_eq_true_eq, Int.toNat_zero]
    by_cases h : 0 = ulev 0 ∧ utau 0 = 0
    · rw [if_pos h]
      have ht : AtTop ulev utau := ⟨h.1.symm, h.2⟩
      refine ⟨_, rfl, ⟨rfl, ?_, ?_, fun j h1 => ?_, fun j hj h1 => by omega⟩, fun _ => ?_⟩
      · simp [emit_io, inc]
      · simp [emit_io, inc]; omega
      · simp [emit_io, inc] at h1
        subst h1
        refine ⟨Or.inr ⟨rfl, ht⟩, ?_⟩
        rw [emit_out, if_pos (by simp), hf]
        simp only [true_and]
        rw [if_pos ht]
      · simp [emit_io, inc]
    · rw [if_neg h]
      exact ⟨_, rfl, ⟨rfl, by simp, by simp, fun j h1 => by simp only at h1; omega, fun j hj h1 => by omega⟩,
        fun ht => absurd ⟨ht.1.symm, ht.2⟩ h⟩
  obtain ⟨s0, hs0, i0, it⟩ := h0
  have hl : ∀ c, c ≤ ulev (nU - 1) + 1 → ∃ s, loop true true nU ulev utau step L T c s0 = some s ∧
      InvDn nU ulev (AtTop ulev utau) f (run true step L T start c) c s ∧ (AtTop ulev utau → 0 < s.io) := by
    intro c
    induction c with
    | zero => intro _; exact ⟨s0, rfl, i0, it⟩
    | succ c ih =>
      intro hc
      obtain ⟨s, hs, iv, iw⟩ := ih (by omega)
      have hio := iv.lo
      have hio' : s.io < nU := by
        by_contra hcon
        have h3 := iv.hi
        rcases (iv.done (nU - 1) (by omega)).1 with h | ⟨h, hs⟩
        · omega
        · have := hsp hs; omega
      obtain ⟨p, hp⟩ : ∃ p : Nat, s.io = p := ⟨s.io.toNat, by omega⟩
      have hpU : p < nU := by omega
      have hlp := iv.left p hpU (by omega)
      have ep : s.io.toNat = p := by omega
      simp only [loop, hs, Option.bind_some, body, Bool.not_true, Bool.false_eq_true, if_false, if_true]
      rw [rd_some hio hio']
      simp only [ep]
      by_cases h : c = ulev p
      · rw [if_pos h]
        obtain ⟨q1, q2, q3, q4, q5⟩ := inside_dn (i := c) (step := step) (utau := utau) hm f (AtTop ulev utau)
          (run true step L T start c) (nU + 1) s (by push_cast; omega) iv.lo iv.hi iv.cur
          (fun j hj h4 e => by
            simp only [hf]
            rw [if_neg (by rintro ⟨h5, h6⟩; have := iw h6; omega), e])
          (fun j h4 => by
            obtain ⟨h5, h6⟩ := iv.done j h4
            refine ⟨h5.imp_left fun h => by omega, h6⟩)
          (fun j hj h4 => iv.left j hj h4)
        refine ⟨_, rfl, ⟨?_, q2, q3, fun j h4 => ?_, fun j hj h4 => ?_⟩, fun ht => ?_⟩
        · simp only [run, q1]; simp
        · obtain ⟨h5, h6⟩ := q4 j h4
          exact ⟨h5.imp_left fun h => by omega, h6⟩
        · exact q5 j hj h4
        · by_contra hcon
          simp only at hcon
          have := q5 0 hU (by push_cast; omega)
          rw [ht.1] at this; omega
      · rw [if_neg h]
        refine ⟨_, rfl, ⟨?_, iv.lo, iv.hi, fun j h1 => ?_, fun j hj h1 => ?_⟩, iw⟩
        · simp only [run, iv.cur]; simp
        · obtain ⟨h5, h6⟩ := iv.done j h1
          exact ⟨h5.imp_left fun h => by omega, h6⟩
        · have := hm p j (by simp only at h1; omega) hj; omega
  obtain ⟨s, hs, iv, -⟩ := hl _ le_rfl
  refine ⟨s.out, ?_, fun j hj => ?_⟩
  · unfold sweep
    simp only [Bool.not_true, Bool.false_eq_true, if_false, hs0, Option.bind_some, turns, hs, Option.map_some]
  · refine (iv.done j ?_).2
    by_contra hcon
    have := iv.left j hj (by omega)
    have := hm j (nU - 1) (by omega) (by omega)
    omega

/-- With the top of the atmosphere for the only output the array of the levels is read past
its end. -/
theorem dn_top_only (h : AtTop ulev utau) (start : σ) :
    sweep true true 1 ulev utau step L T start = none := by
  unfold sweep before
  rw [rd_some (by simp) (by simp)]
  simp only [Bool.not_true, Bool.false_eq_true, if_false, decide_eq_true_eq, Int.toNat_zero]
  rw [if_pos ⟨h.1.symm, h.2⟩]
  simp [turns, h.1, loop, body, emit_io, inc, rd]

end Xrtm.Sfi
