import Verif.Model.Beam
import Verif.Spec.Beam

namespace Xrtm

variable {F X G : Type} [Arith F] {c : BeamCfg F X G}
open Arith

/-- The profile the inputs describe. -/
def prof (c : BeamCfg F X G) (s : BeamS F X G) : Spec.Profile F where
  tau k := c.thick (s.raw k)
  tauL k := c.thickL (s.raw k)
  mu0 := s.mu0
  chap := if c.psa then some (c.chap s.mu0 s.geom) else none

/-- What is stored for layer `k` and the level below it. -/
def vals (s : BeamS F X G) (k : Nat) : F × F × F × F := (s.btau (k + 1), s.btran (k + 1), s.as0 k, s.atran k)
def valsL (s : BeamS F X G) (k : Nat) : (Nat → F) × (Nat → F) × (Nat → F) × (Nat → F) :=
  (s.btauL (k + 1), s.btranL (k + 1), s.as0L k, s.atranL k)

def specVals (p : Spec.Profile F) (k : Nat) : F × F × F × F :=
  (Spec.depth p (k + 1), Spec.transmittance p (k + 1), Spec.secant p k, Spec.layerTrans p k)
def specValsL (p : Spec.Profile F) (k : Nat) : (Nat → F) × (Nat → F) × (Nat → F) × (Nat → F) :=
  (Spec.depthL p (k + 1), Spec.transmittanceL p (k + 1), Spec.secantL p k, Spec.layerTransL p k)

def Correct (c : BeamCfg F X G) (L : Bool) (s : BeamS F X G) (k : Nat) : Prop :=
  vals s k = specVals (prof c s) k ∧ (L = true → valsL s k = specValsL (prof c s) k)

def TauOk (c : BeamCfg F X G) (L : Bool) (s : BeamS F X G) (k : Nat) : Prop :=
  s.ltau k = c.thick (s.raw k) ∧ (L = true → s.ltauL k = c.thickL (s.raw k))

structure BInv (c : BeamCfg F X G) (L : Bool) (s : BeamS F X G) : Prop where
  b0 : s.btau 0 = zero ∧ s.btran 0 = one ∧ s.btauL 0 = (fun _ => zero) ∧ s.btranL 0 = fun _ => zero
  opt : ∀ k, (s.optDirty k = false ∨ c.deltaM = false) → TauOk c L s k
  link : ∀ k, k < c.n → s.dirty k = false → TauOk c L s k
  chap : s.chapDirty = false → s.chapman = c.chap s.mu0 s.geom

theorem put_same {A : Type} (f : Nat → A) (k : Nat) (v : A) : put f k v k = v := by simp [put]
theorem put_ne {A : Type} (f : Nat → A) {k i : Nat} (v : A) (h : i ≠ k) : put f k v i = f i := by
  simp [put, h]

theorem dot_eq (x y : Nat → F) : ∀ m, dot x y m = Spec.wSum y x m
  | 0 => rfl
  | m + 1 => by simp [dot, Spec.wSum, dot_eq x y m]

theorem wSum_congr {w x x' : Nat → F} : ∀ {m : Nat}, (∀ k, k < m → x k = x' k) →
    Spec.wSum w x m = Spec.wSum w x' m
  | 0, _ => rfl
  | m + 1, h => by
      simp only [Spec.wSum]
      rw [wSum_congr fun k hk => h k (by omega), h m (by omega)]

/-- Same inputs. -/
structure SameIn (s s' : BeamS F X G) : Prop where
  raw : s'.raw = s.raw
  mu0 : s'.mu0 = s.mu0
  geom : s'.geom = s.geom

theorem SameIn.rfl' (s : BeamS F X G) : SameIn s s := ⟨rfl, rfl, rfl⟩
theorem SameIn.trans {a b d : BeamS F X G} (h : SameIn a b) (h' : SameIn b d) : SameIn a d :=
  ⟨h'.raw.trans h.raw, h'.mu0.trans h.mu0, h'.geom.trans h.geom⟩

omit [Arith F] in
theorem SameIn.prof {s s' : BeamS F X G} (h : SameIn s s') : prof c s' = prof c s := by
  simp [Xrtm.prof, h.raw, h.mu0, h.geom]

theorem Correct.congr {L : Bool} {s s' : BeamS F X G} {k : Nat} (hi : SameIn s s')
    (h1 : vals s' k = vals s k) (h2 : valsL s' k = valsL s k) : Correct c L s' k ↔ Correct c L s k := by
  simp [Correct, h1, h2, hi.prof]

/-! ### `update_opt_props` -/

omit [Arith F] in
theorem updateOpt_same (d : Bool) (k : Nat) (s : BeamS F X G) : SameIn s (updateOpt c d k s) := by
  unfold updateOpt; split <;> exact ⟨rfl, rfl, rfl⟩

omit [Arith F] in
theorem updateOpt_ok {L d : Bool} (hL : L = true → d = true) {k : Nat} {s : BeamS F X G}
    (ho : ∀ k, (s.optDirty k = false ∨ c.deltaM = false) → TauOk c L s k) :
    TauOk c L (updateOpt c d k s) k ∧
    (∀ j, TauOk c L s j → TauOk c L (updateOpt c d k s) j) ∧
    ∀ j, ((updateOpt c d k s).optDirty j = false ∨ c.deltaM = false) → TauOk c L (updateOpt c d k s) j := by
  unfold updateOpt
  split
  · rename_i h
    simp only [Bool.and_eq_true] at h
    have key : ∀ j, (j = k ∨ TauOk c L s j) → TauOk c L
      { s with
        ltau := put s.ltau k (c.thick (s.raw k))
        ltauL := if d then put s.ltauL k (c.thickL (s.raw k)) else s.ltauL
        optDirty := put s.optDirty k false } j := by
      intro j hj
      by_cases hjk : j = k
      · subst hjk
        refine ⟨by simp [put], fun hl => ?_⟩
        simp [hL hl, put]
      · have hj := hj.resolve_left hjk
        refine ⟨by simp [put, hjk, hj.1], fun hl => ?_⟩
        simp [hL hl, put, hjk, hj.2 hl]
    refine ⟨key k (.inl rfl), fun j hj => key j (.inr hj), fun j hj => key j ?_⟩
    by_cases hjk : j = k
    · exact .inl hjk
    · right
      refine ho j ?_
      simpa [put, hjk] using hj
  · rename_i h
    refine ⟨ho k ?_, fun j hj => hj, ho⟩
    simp only [Bool.and_eq_true, not_and, Bool.not_eq_true] at h
    cases hd : c.deltaM
    · exact .inr rfl
    · exact .inl (h hd)

omit [Arith F] in
/-- What `update_opt_props` leaves alone. -/
theorem updateOpt_frame (d : Bool) (k : Nat) (s : BeamS F X G) :
    (updateOpt c d k s).dirty = s.dirty ∧ (updateOpt c d k s).btau = s.btau ∧
    (updateOpt c d k s).btran = s.btran ∧ (updateOpt c d k s).as0 = s.as0 ∧
    (updateOpt c d k s).atran = s.atran ∧ (updateOpt c d k s).btauL = s.btauL ∧
    (updateOpt c d k s).btranL = s.btranL ∧ (updateOpt c d k s).as0L = s.as0L ∧
    (updateOpt c d k s).atranL = s.atranL ∧ (updateOpt c d k s).chapDirty = s.chapDirty ∧
    (updateOpt c d k s).chapman = s.chapman := by
  unfold updateOpt; split <;> simp

/-! ### One pass of the loop -/

theorem depth_step {s : BeamS F X G} (hch : c.psa = true → s.chapman = c.chap s.mu0 s.geom) {k : Nat}
    (hb : ∀ j, k = j + 1 → s.btau k = Spec.depth (prof c s) k) (hb0 : s.btau 0 = zero)
    (ht : ∀ j, j ≤ k → s.ltau j = c.thick (s.raw j)) :
    (if !c.psa then add (s.btau k) (div (s.ltau k) s.mu0) else dot s.ltau (s.chapman k) (k + 1)) =
      Spec.depth (prof c s) (k + 1) := by
  cases hp : c.psa
  · simp only [Bool.not_false, if_true]
    have : s.btau k = Spec.pathSum s.mu0 (fun j => c.thick (s.raw j)) k := by
      cases k with
      | zero => simpa [Spec.pathSum] using hb0
      | succ k => simpa [Spec.depth, Spec.slant, prof, hp] using hb k rfl
    simp [Spec.depth, Spec.slant, prof, hp, Spec.pathSum, this, ht k le_rfl]
  · simp only [Bool.not_true, Bool.false_eq_true, if_false]
    rw [dot_eq, hch hp]
    simp only [Spec.depth, Spec.slant, prof, hp, if_true]
    exact wSum_congr fun j hj => ht j (by omega)

theorem depthL_step {s : BeamS F X G} (hch : c.psa = true → s.chapman = c.chap s.mu0 s.geom) {k : Nat}
    (hb : ∀ j, k = j + 1 → s.btauL k = Spec.depthL (prof c s) k) (hb0 : s.btauL 0 = fun _ => zero)
    (ht : ∀ j, j ≤ k → s.ltauL j = c.thickL (s.raw j)) (q : Nat) :
    (if !c.psa then add (s.btauL k q) (div (s.ltauL k q) s.mu0)
      else dot (fun l => s.ltauL l q) (s.chapman k) (k + 1)) =
      Spec.depthL (prof c s) (k + 1) q := by
  cases hp : c.psa
  · simp only [Bool.not_false, if_true]
    have : s.btauL k q = Spec.pathSum s.mu0 (fun j => c.thickL (s.raw j) q) k := by
      cases k with
      | zero => simp [Spec.pathSum, hb0]
      | succ k => simp [Spec.depthL, Spec.slant, prof, hp, hb k rfl]
    simp [Spec.depthL, Spec.slant, prof, hp, Spec.pathSum, this, ht k le_rfl]
  · simp only [Bool.not_true, Bool.false_eq_true, if_false]
    rw [dot_eq, hch hp]
    simp only [Spec.depthL, Spec.slant, prof, hp, if_true]
    exact wSum_congr fun j hj => by rw [ht j (by omega)]

theorem beamStep_same (d : Bool) (s : BeamS F X G) (k : Nat) : SameIn s (beamStep c d s k) := by
  have h := updateOpt_same (c := c) d k { s with dirty := put s.dirty k false }
  unfold beamStep
  cases d <;> exact ⟨h.raw, h.mu0, h.geom⟩

theorem beamStep_frame (d : Bool) (s : BeamS F X G) (k : Nat) :
    (beamStep c d s k).dirty = put s.dirty k false ∧ (beamStep c d s k).chapDirty = s.chapDirty ∧
    (beamStep c d s k).chapman = s.chapman ∧
    (∀ j, j ≠ k → vals (beamStep c d s k) j = vals s j ∧ valsL (beamStep c d s k) j = valsL s j) := by
  obtain ⟨h1, h2, h3, h4, h5, h6, h7, h8, h9, h10, h11⟩ :=
    updateOpt_frame (c := c) d k { s with dirty := put s.dirty k false }
  have e : ∀ j, j ≠ k → j + 1 ≠ k + 1 := fun j h => by omega
  unfold beamStep
  cases d
  · refine ⟨h1, h10, h11, fun j hj => ?_⟩
    simp [vals, valsL, put, hj, h2, h3, h4, h5, h6, h7, h8, h9]
  · refine ⟨h1, h10, h11, fun j hj => ?_⟩
    simp [vals, valsL, put, hj, h2, h3, h4, h5, h6, h7, h8, h9]

theorem beamStep_ok {L d : Bool} (hL : L = true → d = true) {s : BeamS F X G} (hs : BInv c L s)
    (hch : c.psa = true → s.chapman = c.chap s.mu0 s.geom) {k : Nat}
    (hb : ∀ j, j < k → Correct c L s j) (ht : ∀ j, j < k → TauOk c L s j) :
    BInv c L (beamStep c d s k) ∧ Correct c L (beamStep c d s k) k ∧
    (∀ j, j < k + 1 → TauOk c L (beamStep c d s k) j) := by
  set s1 := updateOpt c d k { s with dirty := put s.dirty k false } with hs1
  have hi1 : SameIn s s1 := by
    have := updateOpt_same (c := c) d k { s with dirty := put s.dirty k false }
    exact ⟨this.raw, this.mu0, this.geom⟩
  obtain ⟨h1, h2, h3, h4, h5, h6, h7, h8, h9, h10, h11⟩ :=
    updateOpt_frame (c := c) d k { s with dirty := put s.dirty k false }
  rw [← hs1] at h1 h2 h3 h4 h5 h6 h7 h8 h9 h10 h11
  obtain ⟨o1, o2, o3⟩ := updateOpt_ok (c := c) (L := L) hL (k := k)
    (s := { s with dirty := put s.dirty k false }) hs.opt
  rw [← hs1] at o1 o2 o3
  have hch1 : c.psa = true → s1.chapman = c.chap s1.mu0 s1.geom := by
    intro hp; rw [h11, hi1.mu0, hi1.geom]; exact hch hp
  have ht1 : ∀ j, j ≤ k → TauOk c L s1 j := by
    intro j hj
    rcases Nat.lt_or_eq_of_le hj with hj | rfl
    · exact o2 j (ht j hj)
    · exact o1
  have hb1 : ∀ j, k = j + 1 → s1.btau k = Spec.depth (prof c s1) k := by
    intro j hj; subst hj
    rw [h2, hi1.prof]
    exact congrArg (·.1) (hb j (by omega)).1
  have hD := depth_step hch1 hb1 (by rw [h2]; exact hs.b0.1) fun j hj => (ht1 j hj).1
  have hk : s1.btau k = Spec.depth (prof c s1) k := by
    cases k with
    | zero => rw [h2]; exact hs.b0.1
    | succ k => exact hb1 k rfl
  have hDL : L = true → ∀ q, _ := fun hl => depthL_step hch1 (k := k) (fun j hj => by
      subst hj
      rw [h6, hi1.prof]
      exact congrArg (·.1) ((hb j (by omega)).2 hl)) (by rw [h6]; exact hs.b0.2.2.1)
      fun j hj => (ht1 j hj).2 hl
  have hkL : L = true → s1.btauL k = Spec.depthL (prof c s1) k := by
    intro hl
    cases k with
    | zero => rw [h6]; exact hs.b0.2.2.1
    | succ k => rw [h6, hi1.prof]; exact congrArg (·.1) ((hb k (by omega)).2 hl)
  have hsame := beamStep_same (c := c) d s k
  have hlt : (beamStep c d s k).ltau = s1.ltau ∧ (beamStep c d s k).ltauL = s1.ltauL ∧
      (beamStep c d s k).optDirty = s1.optDirty := by
    rw [hs1]; unfold beamStep; cases d <;> simp
  have hT : ∀ j, TauOk c L s1 j → TauOk c L (beamStep c d s k) j := by
    intro j hj
    refine ⟨?_, fun hl => ?_⟩
    · rw [hlt.1, hj.1, hi1.raw, hsame.raw]
    · rw [hlt.2.1, hj.2 hl, hi1.raw, hsame.raw]
  obtain ⟨f1, f2, f3, f4⟩ := beamStep_frame (c := c) d s k
  refine ⟨⟨?_, ?_, ?_, ?_⟩, ⟨?_, ?_⟩, fun j hj => hT j (ht1 j (by omega))⟩
  · obtain ⟨a1, a2, a3, a4⟩ := hs.b0
    have hn : ¬ (0 = k + 1) := by omega
    unfold beamStep
    rw [← hs1]
    cases d <;> simp [put, h2, h3, h6, h7, a1, a2, a3, a4]
  · intro j hj
    rw [hlt.2.2] at hj
    exact hT j (o3 j hj)
  · intro j hj hd
    rw [f1] at hd
    by_cases hjk : j = k
    · subst hjk; exact hT j o1
    · rw [put_ne _ _ hjk] at hd
      exact hT j (o2 j (hs.link j hj hd))
  · rw [f2, f3, hsame.mu0, hsame.geom]; exact hs.chap
  · rw [hsame.prof, ← hi1.prof]
    have hne : k ≠ k + 1 := by omega
    have htk : s1.ltau k = (prof c s1).tau k := (ht1 k le_rfl).1
    unfold beamStep
    rw [← hs1]
    cases d <;>
      simp only [vals, specVals, put_same, put_ne _ _ hne, hD, Bool.false_eq_true, if_false, if_true] <;>
      simp [hk, htk, Spec.transmittance, Spec.secant, Spec.layerTrans]
  · intro hl
    have hd := hL hl
    subst hd
    rw [hsame.prof, ← hi1.prof]
    have hne : k ≠ k + 1 := by omega
    have htk : s1.ltau k = (prof c s1).tau k := (ht1 k le_rfl).1
    have htkL : s1.ltauL k = (prof c s1).tauL k := (ht1 k le_rfl).2 hl
    unfold beamStep
    rw [← hs1]
    simp only [valsL, specValsL, put_same, put_ne _ _ hne, hD, hDL hl, if_true]
    simp only [hk, htk, htkL, hkL hl, Prod.mk.injEq]
    exact ⟨trivial, rfl, rfl, rfl⟩

/-! ### A request -/

theorem firstDirty_le (d : Nat → Bool) : ∀ m, firstDirty d m ≤ m
  | 0 => le_rfl
  | m + 1 => by
      have := firstDirty_le d m
      simp only [firstDirty]; split <;> omega

theorem firstDirty_clean (d : Nat → Bool) : ∀ m k, k < firstDirty d m → d k = false
  | 0, k, h => by simp [firstDirty] at h
  | m + 1, k, h => by
      simp only [firstDirty] at h
      split at h
      · rename_i hm
        rcases Nat.lt_succ_iff_lt_or_eq.1 h with h' | rfl
        · exact firstDirty_clean d m k (by omega)
        · exact hm.2
      · exact firstDirty_clean d m k h

theorem firstDirty_dirty (d : Nat → Bool) : ∀ m, firstDirty d m < m → d (firstDirty d m) = true
  | 0, h => by simp at h
  | m + 1, h => by
      simp only [firstDirty] at h ⊢
      split
      · rename_i hm; simp [hm] at h
      · rename_i hm
        rcases Nat.lt_or_eq_of_le (firstDirty_le d m) with h' | h'
        · exact firstDirty_dirty d m h'
        · rw [h']
          by_contra hx
          exact hm ⟨h', by simpa using hx⟩

theorem firstDirty_all (d : Nat → Bool) (m : Nat) (h : ∀ k, k < m → d k = false) : firstDirty d m = m := by
  rcases Nat.lt_or_eq_of_le (firstDirty_le d m) with h' | h'
  · have := firstDirty_dirty d m h'; rw [h _ h'] at this; simp at this
  · exact h'

theorem firstDirty_eq (d : Nat → Bool) (m k : Nat) (hk : k < m) (hd : d k = true)
    (h : ∀ j, j < k → d j = false) : firstDirty d m = k := by
  rcases Nat.lt_trichotomy (firstDirty d m) k with h' | h' | h'
  · have := firstDirty_dirty d m (by omega); rw [h _ h'] at this; simp at this
  · exact h'
  · have := firstDirty_clean d m k h'; rw [hd] at this; simp at this

theorem beamLoop_same (d : Bool) (i0 : Nat) (s : BeamS F X G) : ∀ m, SameIn s (beamLoop c d i0 s m)
  | 0 => .rfl' s
  | m + 1 => by
      simp only [beamLoop]
      split
      · exact (beamLoop_same d i0 s m).trans (beamStep_same d _ m)
      · exact beamLoop_same d i0 s m

theorem beamLoop_frame (d : Bool) (i0 : Nat) (s : BeamS F X G) : ∀ m,
    (∀ k, (beamLoop c d i0 s m).dirty k = (if i0 ≤ k ∧ k < m then false else s.dirty k)) ∧
    (beamLoop c d i0 s m).chapDirty = s.chapDirty ∧ (beamLoop c d i0 s m).chapman = s.chapman ∧
    (∀ j, (j < i0 ∨ m ≤ j) →
      vals (beamLoop c d i0 s m) j = vals s j ∧ valsL (beamLoop c d i0 s m) j = valsL s j)
  | 0 => by simp [beamLoop]
  | m + 1 => by
      obtain ⟨h1, h2, h3, h4⟩ := beamLoop_frame d i0 s m
      simp only [beamLoop]
      split
      · rename_i hi
        obtain ⟨f1, f2, f3, f4⟩ := beamStep_frame (c := c) d (beamLoop c d i0 s m) m
        refine ⟨fun k => ?_, by rw [f2, h2], by rw [f3, h3], fun j hj => ?_⟩
        · rw [f1]
          by_cases hk : k = m
          · subst hk; simp [put, hi]
          · rw [put_ne _ _ hk, h1]
            have : (i0 ≤ k ∧ k < m) ↔ (i0 ≤ k ∧ k < m + 1) := by omega
            simp only [this]
        · have := f4 j (by omega)
          have h' := h4 j (by omega)
          exact ⟨this.1.trans h'.1, this.2.trans h'.2⟩
      · rename_i hi
        refine ⟨fun k => ?_, h2, h3, fun j hj => h4 j (by omega)⟩
        rw [h1]
        have : (i0 ≤ k ∧ k < m) ↔ (i0 ≤ k ∧ k < m + 1) := by omega
        simp only [this]

theorem beamLoop_ok {L d : Bool} (hL : L = true → d = true) {s : BeamS F X G} (hs : BInv c L s)
    (hch : c.psa = true → s.chapman = c.chap s.mu0 s.geom) {i0 : Nat}
    (hb : ∀ j, j < i0 → Correct c L s j) (ht : ∀ j, j < i0 → TauOk c L s j) : ∀ m,
    BInv c L (beamLoop c d i0 s m) ∧ (∀ j, (j < i0 ∨ j < m) → Correct c L (beamLoop c d i0 s m) j) ∧
    (∀ j, (j < i0 ∨ j < m) → TauOk c L (beamLoop c d i0 s m) j)
  | 0 => by simpa [beamLoop] using ⟨hs, hb, ht⟩
  | m + 1 => by
      obtain ⟨h1, h2, h3⟩ := beamLoop_ok hL hs hch hb ht m
      simp only [beamLoop]
      split
      · rename_i hi
        have hf := beamLoop_frame (c := c) d i0 s m
        have hsm := beamLoop_same (c := c) d i0 s m
        have hst := beamStep_ok (c := c) hL (s := beamLoop c d i0 s m) h1 (fun hp => by
          rw [hf.2.2.1, hsm.mu0, hsm.geom]; exact hch hp) (k := m) (fun j hj => h2 j (.inr hj))
          (fun j hj => h3 j (.inr hj))
        obtain ⟨f1, f2, f3, f4⟩ := beamStep_frame (c := c) d (beamLoop c d i0 s m) m
        refine ⟨hst.1, fun j hj => ?_, fun j hj => hst.2.2 j (by omega)⟩
        by_cases hjm : j = m
        · subst hjm; exact hst.2.1
        · rw [Correct.congr (beamStep_same d _ m) (f4 j hjm).1 (f4 j hjm).2]
          exact h2 j (by omega)
      · rename_i hi
        exact ⟨h1, fun j hj => h2 j (by omega), fun j hj => h3 j (by omega)⟩

/-- Before the loop: the Chapman factors, if they are used. -/
def prep (c : BeamCfg F X G) (s : BeamS F X G) : BeamS F X G := if c.psa then getChapman c s else s

omit [Arith F] in
theorem prep_same (s : BeamS F X G) : SameIn s (prep c s) := by
  unfold prep getChapman; split <;> (try split) <;> exact ⟨rfl, rfl, rfl⟩

omit [Arith F] in
theorem prep_frame (s : BeamS F X G) : (prep c s).dirty = s.dirty ∧
    ∀ k, vals (prep c s) k = vals s k ∧ valsL (prep c s) k = valsL s k := by
  unfold prep getChapman; split <;> (try split) <;> simp [vals, valsL]

theorem prep_inv {L : Bool} {s : BeamS F X G} (h : BInv c L s) : BInv c L (prep c s) ∧
    (c.psa = true → (prep c s).chapman = c.chap (prep c s).mu0 (prep c s).geom) := by
  unfold prep getChapman
  split
  · split
    · exact ⟨⟨h.b0, h.opt, h.link, fun _ => rfl⟩, fun _ => rfl⟩
    · rename_i hc
      exact ⟨h, fun _ => h.chap (by simpa using hc)⟩
  · rename_i hp
    exact ⟨h, fun hp' => absurd hp' hp⟩

theorem beamUpdate_eq (d : Bool) (s : BeamS F X G) (lvl : Nat) : beamUpdate c d s lvl =
    beamLoop c d (firstDirty s.dirty (upTo c.n lvl)) (prep c s) (upTo c.n lvl) := rfl

theorem upTo_le {n lvl : Nat} (h : lvl ≤ n) : upTo n lvl ≤ n := by
  unfold upTo; split <;> omega

/-- Every layer is flagged or right. -/
def Strong (c : BeamCfg F X G) (L : Bool) (s : BeamS F X G) : Prop :=
  ∀ k, k < c.n → s.dirty k = true ∨ Correct c L s k
/-- Every layer is right or there is a flagged one at or above it. -/
def Weak (c : BeamCfg F X G) (L : Bool) (s : BeamS F X G) : Prop :=
  ∀ k, k < c.n → (∃ j, j ≤ k ∧ s.dirty j = true) ∨ Correct c L s k

theorem Strong.weak {L : Bool} {s : BeamS F X G} (h : Strong c L s) : Weak c L s := fun k hk =>
  (h k hk).imp (fun hd => ⟨k, le_rfl, hd⟩) id

theorem beamUpdate_ok {L d : Bool} (hL : L = true → d = true) {s : BeamS F X G} (hs : BInv c L s)
    (hw : Weak c L s) {lvl : Nat} (hl : lvl ≤ c.n) :
    BInv c L (beamUpdate c d s lvl) ∧ SameIn s (beamUpdate c d s lvl) ∧
    (∀ k, k < upTo c.n lvl → Correct c L (beamUpdate c d s lvl) k) ∧
    (Strong c L s ∨ lvl = c.n → Strong c L (beamUpdate c d s lvl)) := by
  have hm := upTo_le hl
  have hp := prep_inv hs
  have hpf := prep_frame (c := c) s
  have hfd := firstDirty_le s.dirty (upTo c.n lvl)
  have hcl : ∀ j, j < firstDirty s.dirty (upTo c.n lvl) → Correct c L (prep c s) j := by
    intro j hj
    rw [Correct.congr (prep_same s) (hpf.2 j).1 (hpf.2 j).2]
    refine (hw j (by omega)).resolve_left ?_
    rintro ⟨i, hi, hd⟩
    rw [firstDirty_clean s.dirty (upTo c.n lvl) i (by omega)] at hd
    simp at hd
  obtain ⟨h1, h2, h3⟩ := beamLoop_ok hL hp.1 hp.2 (i0 := firstDirty s.dirty (upTo c.n lvl)) hcl
    (fun j hj => hp.1.link j (by omega) (by rw [hpf.1]; exact firstDirty_clean s.dirty _ j hj))
    (upTo c.n lvl)
  rw [beamUpdate_eq]
  refine ⟨h1, (prep_same s).trans (beamLoop_same d _ _ _), fun k hk => h2 k (.inr hk), ?_⟩
  intro h k hk
  by_cases hkm : k < upTo c.n lvl
  · exact .inr (h2 k (.inr hkm))
  · rcases h with h | h
    · have hf := beamLoop_frame (c := c) d (firstDirty s.dirty (upTo c.n lvl)) (prep c s) (upTo c.n lvl)
      rcases h k hk with hd | hd
      · left
        rw [hf.1, if_neg (by omega), hpf.1]; exact hd
      · right
        rw [Correct.congr (beamLoop_same d _ _ _) (hf.2.2.2 k (by omega)).1 (hf.2.2.2 k (by omega)).2,
          Correct.congr (prep_same s) (hpf.2 k).1 (hpf.2 k).2]
        exact hd
    · exfalso
      simp only [upTo, h, if_true] at hkm
      exact hkm hk

end Xrtm
