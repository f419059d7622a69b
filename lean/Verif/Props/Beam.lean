import Verif.Proof.Beam

/-!
# C10: the direct beam a solver sees is that of the current inputs

`prof c s` is the profile described by the inputs in `s`; `Spec.*` computes the beam from a profile.
-/

namespace Xrtm

open Arith Spec

variable {F X G : Type} [Arith F] {c : BeamCfg F X G}

/-- The state after a history. -/
def beamAfter (c : BeamCfg F X G) (s0 : BeamS F X G) (hist : List (BOp F X G)) : BeamS F X G :=
  hist.foldl (beamApply c) (beamInit c s0)

/-- Level `i` and, for `i = k + 1`, layer `k` hold the values for the current inputs. -/
def LevelOk (c : BeamCfg F X G) (L : Bool) (s : BeamS F X G) (i : Nat) : Prop :=
  s.btau i = depth (prof c s) i ∧ s.btran i = transmittance (prof c s) i ∧
  (∀ k, i = k + 1 → s.as0 k = secant (prof c s) k ∧ s.atran k = layerTrans (prof c s) k) ∧
  (L = true → ∀ j, s.btauL i j = depthL (prof c s) i j ∧ s.btranL i j = transmittanceL (prof c s) i j ∧
    ∀ k, i = k + 1 → s.as0L k j = secantL (prof c s) k j ∧ s.atranL k j = layerTransL (prof c s) k j)

/-- Everything a solver reads during the history `hist` is right: after each of its requests, all
levels down to (and with the layer below) the requested one. -/
def ReadsOk (c : BeamCfg F X G) (L : Bool) (s0 : BeamS F X G) (hist : List (BOp F X G)) : Prop :=
  ∀ pre d lvls post, hist = pre ++ .solve d lvls :: post →
    ∀ done lvl rest, lvls = done ++ lvl :: rest →
      ∀ i, i ≤ upTo c.n lvl → LevelOk c L (beamSolve c d (done ++ [lvl]) (beamAfter c s0 pre)) i

/-- Derivatives are on in all calls of the history (if they are asked about). -/
def DerivsOn (L : Bool) (hist : List (BOp F X G)) : Prop := L = true →
  ∀ op ∈ hist, match op with
    | .solve d _ => d = true
    | .opt d _ => d = true
    | _ => True

/-- Requests are for existing levels. -/
def InRange (n : Nat) (hist : List (BOp F X G)) : Prop :=
  ∀ op ∈ hist, match op with
    | .solve _ lvls => ∀ l ∈ lvls, l ≤ n
    | _ => True

/-- No solution that starts with a request above the bottom level follows a change that was announced
to inner layers only. `pending`: such a change has happened since the last complete request or
complete notice. -/
def BeamSafe (n : Nat) : Bool → List (BOp F X G) → Prop
  | _, [] => True
  | p, .layers lo hi _ :: t => BeamSafe n (if lo = 0 ∧ n ≤ hi then false else p || decide (hi < n ∧ lo < hi)) t
  | _, .geom _ _ :: t => BeamSafe n false t
  | _, .touch :: t => BeamSafe n false t
  | p, .opt _ _ :: t => BeamSafe n p t
  | p, .solve _ lvls :: t =>
      (p = true → lvls = [] ∨ lvls.head? = some n) ∧ BeamSafe n (p && lvls.isEmpty) t

section proofs

omit [Arith F] in
theorem Correct.levelOk [Arith F] {L : Bool} {s : BeamS F X G} {k : Nat} (h : Correct c L s k) :
    LevelOk c L s (k + 1) := by
  obtain ⟨h1, h2⟩ := h
  simp only [vals, specVals, Prod.mk.injEq] at h1
  refine ⟨h1.1, h1.2.1, ?_, fun hl j => ?_⟩
  · rintro k' hk
    obtain rfl : k' = k := by omega
    exact h1.2.2
  · have := h2 hl
    simp only [valsL, specValsL, Prod.mk.injEq] at this
    obtain ⟨a, b, c', d⟩ := this
    refine ⟨by rw [a], by rw [b], ?_⟩
    rintro k' hk
    obtain rfl : k' = k := by omega
    exact ⟨by rw [c'], by rw [d]⟩

theorem BInv.level0 {L : Bool} {s : BeamS F X G} (h : BInv c L s) : LevelOk c L s 0 := by
  obtain ⟨a, b, d, e⟩ := h.b0
  refine ⟨a, b, fun k hk => by omega, fun _ j => ⟨by rw [d]; rfl, by rw [e]; rfl, fun k hk => by omega⟩⟩

theorem solve_ok {L d : Bool} (hL : L = true → d = true) : ∀ (lvls : List Nat) {s : BeamS F X G},
    BInv c L s → Weak c L s → (∀ l ∈ lvls, l ≤ c.n) →
    (Strong c L s ∨ lvls = [] ∨ lvls.head? = some c.n) →
    BInv c L (beamSolve c d lvls s) ∧ Weak c L (beamSolve c d lvls s) ∧
    (lvls ≠ [] ∨ Strong c L s → Strong c L (beamSolve c d lvls s)) ∧
    ∀ done lvl rest, lvls = done ++ lvl :: rest →
      ∀ i, i ≤ upTo c.n lvl → LevelOk c L (beamSolve c d (done ++ [lvl]) s) i
  | [], s, hs, hw, _, _ => by simp [beamSolve, hs, hw]
  | l :: ls, s, hs, hw, hr, hst => by
      have hl : l ≤ c.n := hr l (by simp)
      obtain ⟨h1, h2, h3, h4⟩ := beamUpdate_ok hL hs hw hl
      have hS : Strong c L (beamUpdate c d s l) := h4 (by
        rcases hst with h | h | h
        · exact .inl h
        · simp at h
        · exact .inr (by simpa using h))
      obtain ⟨k1, k2, k3, k4⟩ := solve_ok hL ls h1 hS.weak (fun x hx => hr x (by simp [hx])) (.inl hS)
      refine ⟨k1, k2, fun _ => k3 (.inr hS), ?_⟩
      intro done lvl rest he i hi
      cases done with
      | nil =>
          simp only [List.nil_append, List.cons.injEq] at he
          obtain ⟨rfl, rfl⟩ := he
          simp only [List.nil_append, beamSolve, List.foldl]
          cases i with
          | zero => exact h1.level0
          | succ i => exact (h3 i (by omega)).levelOk
      | cons a done =>
          simp only [List.cons_append, List.cons.injEq] at he
          obtain ⟨rfl, rfl⟩ := he
          exact k4 done lvl rest rfl i hi

/-- The invariant along a history. -/
structure HInv (c : BeamCfg F X G) (L p : Bool) (s : BeamS F X G) : Prop where
  inv : BInv c L s
  weak : Weak c L s
  strong : p = false → Strong c L s

theorem HInv.init (L : Bool) (s : BeamS F X G) : HInv c L false (beamInit c s) := by
  refine ⟨⟨by simp [beamInit, put], ?_, ?_, ?_⟩, ?_, ?_⟩
  · intro k hk
    simp only [beamInit, Bool.true_eq_false, false_or] at hk
    simp [TauOk, beamInit, hk]
  · intro k _ hd; simp [beamInit] at hd
  · intro h; simp [beamInit] at h
  · intro k _; exact .inl ⟨k, le_rfl, rfl⟩
  · intro _ k _; exact .inl rfl

theorem pathSum_congr {m : F} {x x' : Nat → F} : ∀ {i : Nat}, (∀ k, k < i → x k = x' k) →
    pathSum m x i = pathSum m x' i
  | 0, _ => rfl
  | i + 1, h => by
      simp only [pathSum]
      rw [pathSum_congr fun k hk => h k (by omega), h i (by omega)]

theorem slant_congr {p p' : Profile F} (h1 : p'.mu0 = p.mu0) (h2 : p'.chap = p.chap) {x x' : Nat → F} {i : Nat}
    (h : ∀ k, k < i → x' k = x k) : slant p' x' i = slant p x i := by
  cases i with
  | zero => rfl
  | succ i =>
      simp only [slant, h2]
      cases p.chap with
      | none => rw [h1]; exact pathSum_congr h
      | some ch => exact wSum_congr h

/-- The beam at a level depends on the layers above it only. -/
theorem spec_congr {p p' : Profile F} (h1 : p'.mu0 = p.mu0) (h2 : p'.chap = p.chap) {k : Nat}
    (h : ∀ j, j ≤ k → p'.tau j = p.tau j ∧ p'.tauL j = p.tauL j) :
    specVals p' k = specVals p k ∧ specValsL p' k = specValsL p k := by
  have d1 : ∀ i, i ≤ k + 1 → depth p' i = depth p i := fun i hi =>
    slant_congr h1 h2 fun j hj => (h j (by omega)).1
  have d2 : ∀ i, i ≤ k + 1 → ∀ q, depthL p' i q = depthL p i q := fun i hi q =>
    slant_congr h1 h2 fun j hj => by rw [(h j (by omega)).2]
  have t := h k le_rfl
  have a1 := d1 (k + 1) le_rfl
  have a2 := d1 k (by omega)
  have b1 : ∀ q, _ := d2 (k + 1) le_rfl
  have b2 : ∀ q, _ := d2 k (by omega)
  refine ⟨?_, ?_⟩
  · simp [specVals, transmittance, secant, layerTrans, a1, a2, t.1]
  · simp only [specValsL, Prod.mk.injEq]
    refine ⟨funext b1, ?_, ?_, ?_⟩ <;> funext q <;>
      simp [transmittanceL, transmittance, secantL, secant, layerTransL, layerTrans, a1, a2, b1, b2, t.1, t.2]

theorem HInv.apply {L p : Bool} {s : BeamS F X G} (h : HInv c L p s) {op : BOp F X G} {t : List (BOp F X G)}
    (hd : DerivsOn L [op]) (hr : InRange c.n [op]) (hs : BeamSafe c.n p (op :: t)) :
    ∃ p', HInv c L p' (beamApply c s op) ∧ BeamSafe c.n p' t := by
  cases op with
  | layers lo hi x =>
      refine ⟨_, ⟨⟨h.inv.b0, ?_, ?_, h.inv.chap⟩, ?_, ?_⟩, hs⟩
      · intro k hk
        simp only [beamApply, TauOk, Bool.or_eq_false_iff] at hk ⊢
        by_cases hR : lo ≤ k ∧ k < hi
        · rcases hk with hk | hk
          · simp [hR] at hk
          · simp [hR, hk]
        · have : s.optDirty k = false ∨ c.deltaM = false := by
            rcases hk with hk | hk
            · exact .inl hk.2
            · exact .inr hk
          have hb : (decide (lo ≤ k) && decide (k < hi)) = false := by simpa using hR
          simp only [hb, Bool.false_and, Bool.false_eq_true, if_false]
          exact h.inv.opt k this
      · intro k hkn hk
        simp only [beamApply, TauOk, Bool.or_eq_false_iff] at hk ⊢
        simp only [hk.1, Bool.false_and, Bool.false_eq_true, if_false]
        exact h.inv.link k hkn hk.2
      · intro k hk
        by_cases hx : ∃ j, j ≤ k ∧ (lo ≤ j ∧ j < hi)
        · obtain ⟨j, hj, hj'⟩ := hx
          exact .inl ⟨j, hj, by simp [beamApply, hj']⟩
        · rcases h.weak k hk with ⟨j, hj, hd⟩ | hc
          · exact .inl ⟨j, hj, by simp [beamApply, hd]⟩
          · right
            have hraw : ∀ j, j ≤ k → (beamApply c s (.layers lo hi x)).raw j = s.raw j := by
              intro j hj
              have : ¬ (lo ≤ j ∧ j < hi) := fun h => hx ⟨j, hj, h⟩
              simp only [beamApply]
              rw [if_neg (by simpa using this)]
            have := spec_congr (p' := prof c (beamApply c s (.layers lo hi x))) (p := prof c s) rfl rfl
              (k := k) (fun j hj => by simp [prof, hraw j hj])
            refine ⟨?_, fun hl => ?_⟩
            · rw [this.1]; exact hc.1
            · rw [this.2]; exact hc.2 hl
      · intro hp k hk
        by_cases hx : lo ≤ k ∧ k < hi
        · exact .inl (by simp [beamApply, hx])
        · split at hp
          · exfalso; omega
          · simp only [Bool.or_eq_false_iff, decide_eq_false_iff_not] at hp
            rcases h.strong hp.1 k hk with hd | hc
            · exact .inl (by simp [beamApply, hd])
            · right
              have hraw : ∀ j, j ≤ k → (beamApply c s (.layers lo hi x)).raw j = s.raw j := by
                intro j hj
                have : ¬ (lo ≤ j ∧ j < hi) := by omega
                simp only [beamApply]
                rw [if_neg (by simpa using this)]
              have := spec_congr (p' := prof c (beamApply c s (.layers lo hi x))) (p := prof c s) rfl rfl
                (k := k) (fun j hj => by simp [prof, hraw j hj])
              refine ⟨?_, fun hl => ?_⟩
              · rw [this.1]; exact hc.1
              · rw [this.2]; exact hc.2 hl
  | geom mu0 g =>
      refine ⟨false, ⟨⟨h.inv.b0, h.inv.opt, ?_, ?_⟩, ?_, ?_⟩, hs⟩
      · intro k hk hd; simp [beamApply, hk] at hd
      · intro hd; simp [beamApply] at hd
      · intro k hk; exact .inl ⟨k, le_rfl, by simp [beamApply, hk]⟩
      · intro _ k hk; exact .inl (by simp [beamApply, hk])
  | touch =>
      refine ⟨false, ⟨⟨h.inv.b0, ?_, ?_, h.inv.chap⟩, ?_, ?_⟩, hs⟩
      · intro k hk
        refine h.inv.opt k ?_
        simp only [beamApply, Bool.or_eq_false_iff] at hk
        exact hk.imp (·.2) id
      · intro k hk hd; simp [beamApply, hk] at hd
      · intro k hk; exact .inl ⟨k, le_rfl, by simp [beamApply, hk]⟩
      · intro _ k hk; exact .inl (by simp [beamApply, hk])
  | opt d k =>
      have hL : L = true → d = true := fun hl => hd hl _ (List.mem_singleton.2 rfl)
      obtain ⟨h1, h2, h3, h4, h5, h6, h7, h8, h9, h10, h11⟩ := updateOpt_frame (c := c) d k s
      obtain ⟨o1, o2, o3⟩ := updateOpt_ok (c := c) hL (k := k) h.inv.opt
      have hi := updateOpt_same (c := c) d k s
      have hc : ∀ j, Correct c L (updateOpt c d k s) j ↔ Correct c L s j := fun j =>
        Correct.congr hi (by simp [vals, h2, h3, h4, h5]) (by simp [valsL, h6, h7, h8, h9])
      refine ⟨p, ⟨⟨?_, o3, ?_, ?_⟩, ?_, ?_⟩, hs⟩
      · simp only [beamApply, h2, h3, h6, h7]; exact h.inv.b0
      · intro j hj hd'
        simp only [beamApply, h1] at hd'
        exact o2 j (h.inv.link j hj hd')
      · simp only [beamApply, h10, h11, hi.mu0, hi.geom]; exact h.inv.chap
      · intro j hj
        simp only [beamApply, h1, hc]; exact h.weak j hj
      · intro hp j hj
        simp only [beamApply, h1, hc]; exact h.strong hp j hj
  | solve d lvls =>
      have hL : L = true → d = true := fun hl => hd hl _ (List.mem_singleton.2 rfl)
      have hr : ∀ l ∈ lvls, l ≤ c.n := hr _ (List.mem_singleton.2 rfl)
      have := solve_ok (c := c) hL lvls h.inv h.weak hr (by
        cases hp : p
        · exact .inl (h.strong hp)
        · exact .inr (hs.1 hp))
      refine ⟨_, ⟨this.1, this.2.1, ?_⟩, hs.2⟩
      intro hp
      refine this.2.2.1 ?_
      simp only [Bool.and_eq_false_iff, List.isEmpty_eq_false_iff] at hp
      exact hp.symm.imp id fun hp => h.strong hp

theorem hist_inv {L : Bool} (s0 : BeamS F X G) (pre post : List (BOp F X G)) {p : Bool}
    {s : BeamS F X G} (h : HInv c L p s)
    (hd : DerivsOn L (pre ++ post)) (hr : InRange c.n (pre ++ post)) (hs : BeamSafe c.n p (pre ++ post)) :
    ∃ p', HInv c L p' (pre.foldl (beamApply c) s) ∧ BeamSafe c.n p' post := by
  induction pre generalizing p s with
  | nil => exact ⟨p, h, hs⟩
  | cons op pre ih =>
      obtain ⟨p', h', hs'⟩ := h.apply (op := op) (t := pre ++ post)
        (fun hl x hx => hd hl x (by simp at hx; simp [hx])) (fun x hx => hr x (by simp at hx; simp [hx])) hs
      exact ih h' (fun hl x hx => hd hl x (by simp at hx ⊢; tauto))
        (fun x hx => hr x (by simp at hx ⊢; tauto)) hs'

end proofs

/-- C10, the part that holds: along every history in which no solution that works its way down from
the top (adding both ways) follows a change announced to inner layers only, everything read of the
direct beam is computed from the current inputs, whatever the arithmetic. Missing: see
`C10_violated_both_ways`. -/
theorem C10_reads_partial (L : Bool) (s0 : BeamS F X G) (hist : List (BOp F X G)) (hd : DerivsOn L hist)
    (hr : InRange c.n hist) (hs : BeamSafe c.n false hist) : ReadsOk c L s0 hist := by
  intro pre d lvls post he done lvl rest hl i hi
  subst he
  obtain ⟨p', h, hs'⟩ := hist_inv s0 pre (.solve d lvls :: post) (HInv.init L s0) hd hr hs
  have hL : L = true → d = true := fun h => hd h (.solve d lvls) (by simp)
  have := solve_ok (c := c) hL lvls h.inv h.weak (hr (.solve d lvls) (by simp)) (by
    cases hp : p'
    · exact .inl (h.strong hp)
    · exact .inr (hs'.1 hp))
  exact this.2.2.2 done lvl rest hl i hi

/-- C10 for the solvers that ask for the whole column first (adding in one direction, boundary value
problem solvers, single scattering: `src/xrtm_model.c:4577`, `4686`, `5079`, `4346`): every history. -/
theorem C10_full_first (L : Bool) (s0 : BeamS F X G) (hist : List (BOp F X G)) (hd : DerivsOn L hist)
    (hr : InRange c.n hist)
    (hf : ∀ d lvls, .solve d lvls ∈ hist → lvls.head? = some c.n) : ReadsOk c L s0 hist := by
  refine C10_reads_partial L s0 hist hd hr ?_
  generalize false = p
  clear hd hr
  induction hist generalizing p with
  | nil => trivial
  | cons op t ih =>
      have ih := fun p => ih (fun d lvls h => hf d lvls (by simp [h])) p
      cases op with
      | solve d lvls => exact ⟨fun _ => .inr (hf d lvls (by simp)), ih _⟩
      | _ => exact ih _

/-! ### Where it fails -/

section violated

/-- A request when nothing above it is flagged changes nothing. -/
theorem update_clean (d : Bool) (s : BeamS F X G) (lvl : Nat)
    (h : ∀ j, j < upTo c.n lvl → s.dirty j = false) :
    (beamUpdate c d s lvl).dirty = s.dirty ∧
    ∀ j, vals (beamUpdate c d s lvl) j = vals s j ∧ valsL (beamUpdate c d s lvl) j = valsL s j := by
  have hf := beamLoop_frame (c := c) d (firstDirty s.dirty (upTo c.n lvl)) (prep c s) (upTo c.n lvl)
  have hp := prep_frame (c := c) s
  have hi := firstDirty_all s.dirty _ h
  rw [beamUpdate_eq]
  rw [hi] at hf ⊢
  refine ⟨funext fun j => ?_, fun j => ?_⟩
  · rw [hf.1, if_neg (by omega), hp.1]
  · have := hf.2.2.2 j (by omega)
    exact ⟨this.1.trans (hp.2 j).1, this.2.trans (hp.2 j).2⟩

theorem update_full_clean (d : Bool) (s : BeamS F X G) :
    ∀ j, j < c.n → (beamUpdate c d s c.n).dirty j = false := by
  intro j hj
  have hf := beamLoop_frame (c := c) d (firstDirty s.dirty (upTo c.n c.n)) (prep c s) (upTo c.n c.n)
  rw [beamUpdate_eq, hf.1]
  have hu : upTo c.n c.n = c.n := by simp [upTo]
  split
  · rfl
  · rename_i h
    rw [(prep_frame s).1]
    exact firstDirty_clean s.dirty (upTo c.n c.n) j (by omega)

/-- Requests from the top down when only layer `k` is flagged: only layer `k` is recomputed. -/
theorem down_frame (d : Bool) {k : Nat} (s : BeamS F X G) (hs : ∀ j, j < c.n → s.dirty j = decide (j = k)) :
    ∀ m, m ≤ c.n →
    (∀ j, j < c.n → ((List.range m).foldl (beamUpdate c d) s).dirty j = decide (j = k ∧ m ≤ k)) ∧
    ∀ j, j ≠ k → vals ((List.range m).foldl (beamUpdate c d) s) j = vals s j ∧
      valsL ((List.range m).foldl (beamUpdate c d) s) j = valsL s j
  | 0, _ => by simpa using hs
  | m + 1, hm => by
      obtain ⟨h1, h2⟩ := down_frame d s hs m (by omega)
      rw [List.range_succ, List.foldl_append]
      simp only [List.foldl]
      set t := (List.range m).foldl (beamUpdate c d) s
      have hu : upTo c.n m = m + 1 := by simp only [upTo]; split <;> omega
      by_cases hmk : m = k
      · subst hmk
        have hi : firstDirty t.dirty (m + 1) = m := firstDirty_eq _ _ _ (by omega)
          (by rw [h1 m (by omega)]; simp) (fun j hj => by rw [h1 j (by omega)]; simp; omega)
        have hf := beamLoop_frame (c := c) d m (prep c t) (m + 1)
        have hp := prep_frame (c := c) t
        rw [beamUpdate_eq, hu, hi]
        refine ⟨fun j hj => ?_, fun j hj => ?_⟩
        · rw [hf.1, hp.1]
          by_cases hjm : j = m
          · simp [hjm]
          · rw [if_neg (by omega), h1 j hj]; simp [hjm]
        · have a := hf.2.2.2 j (by omega)
          exact ⟨a.1.trans ((hp.2 j).1.trans (h2 j hj).1), a.2.trans ((hp.2 j).2.trans (h2 j hj).2)⟩
      · have hc := update_clean (c := c) d t m (fun j hj => by
          rw [h1 j (by omega)]; simp; omega)
        refine ⟨fun j hj => ?_, fun j hj => ?_⟩
        · rw [hc.1, h1 j hj]; congr 1; simp; omega
        · exact ⟨(hc.2 j).1.trans (h2 j hj).1, (hc.2 j).2.trans (h2 j hj).2⟩

theorem bothWays_frame (d : Bool) {k : Nat} (s : BeamS F X G)
    (hs : ∀ j, j < c.n → s.dirty j = decide (j = k)) (hk : k < c.n) :
    ∀ j, j ≠ k → vals (beamSolve c d (bothWays c.n) s) j = vals s j := by
  intro j hj
  obtain ⟨h1, h2⟩ := down_frame (c := c) d s hs c.n le_rfl
  simp only [beamSolve, bothWays, List.foldl_append, List.foldl]
  have hc := update_clean (c := c) d ((List.range c.n).foldl (beamUpdate c d) s) c.n (fun j hj => by
    rw [h1 j (by simpa [upTo] using hj)]; simp; omega)
  exact (hc.2 j).1.trans (h2 j hj).1

/-- Solve, change the thickness of layer `k` alone, solve again; adding both ways. -/
def thinLayer (n : Nat) (d : Bool) (xs : Nat → X) (k : Nat) (x : X) : List (BOp F X G) :=
  [.layers 0 n xs, .solve d (bothWays n), .layers k (k + 1) (fun _ => x)]

/-- C10 fails for adding both ways (the default strategy): after a change of the inputs of one layer `k`
that is not the lowest, the second solution uses at the surface the transmittance of the *old*
profile - for any number of layers, any such `k`, any inputs and any arithmetic. -/
theorem C10_stale_both_ways (s0 : BeamS F X G) (d : Bool) (xs : Nat → X) (k : Nat) (x : X) (hk : k + 1 < c.n) :
    let s1 := beamAfter c s0 [.layers 0 c.n xs, .solve d (bothWays c.n)]
    let s2 := beamSolve c d (bothWays c.n) (beamAfter c s0 (thinLayer c.n d xs k x))
    s2.btran c.n = transmittance (prof c s1) c.n ∧ s2.btau c.n = depth (prof c s1) c.n := by
  intro s1 s2
  have hn : c.n = (c.n - 1) + 1 := by omega
  -- right after the first solution
  have hr1 : ∀ l ∈ bothWays c.n, l ≤ c.n := by
    intro l hl; simp [bothWays] at hl; omega
  obtain ⟨p', h, hs'⟩ := hist_inv (L := false) (c := c) s0 [.layers 0 c.n xs, .solve d (bothWays c.n)] []
    (HInv.init false s0) (fun hl => by simp at hl) (by
      intro op hop
      simp at hop
      rcases hop with rfl | rfl
      · trivial
      · exact hr1) (by simp [BeamSafe])
  have h1 : HInv c false p' s1 := h
  have hclean : ∀ j, j < c.n → s1.dirty j = false := by
    intro j hj
    have : s1 = beamUpdate c d ((List.range c.n).foldl (beamUpdate c d)
        (beamApply c (beamInit c s0) (.layers 0 c.n xs))) c.n := by
      simp [s1, beamAfter, beamApply, beamSolve, bothWays]
    rw [this]
    exact update_full_clean d _ j hj
  have hc1 : Correct c false s1 (c.n - 1) := (h1.weak (c.n - 1) (by omega)).resolve_left (by
    rintro ⟨j, hj, hd⟩
    rw [hclean j (by omega)] at hd; simp at hd)
  have hs2 : s2 = beamSolve c d (bothWays c.n) (beamApply c s1 (.layers k (k + 1) fun _ => x)) := by
    simp [s2, s1, beamAfter, thinLayer]
  have hv : vals s2 (c.n - 1) = vals s1 (c.n - 1) := by
    rw [hs2, bothWays_frame d (k := k) _ ?_ (by omega) _ (by omega)]
    · rfl
    · intro j hj
      simp only [beamApply, hclean j hj, Bool.or_false]
      rw [← Bool.decide_and]
      congr 1; simp; omega
  have := hv.trans hc1.1
  simp only [vals, specVals, Prod.mk.injEq, ← hn] at this
  exact ⟨this.2.1, this.1⟩

theorem pathSum_eq (m : ℝ) (x : Nat → ℝ) : ∀ i, pathSum m x i = (∑ j ∈ Finset.range i, x j) / m
  | 0 => by simp [pathSum]
  | i + 1 => by simp [pathSum, pathSum_eq m x i, Finset.sum_range_succ, add_div]

theorem depth_plane (p : Profile ℝ) (h : p.chap = none) (i : Nat) :
    depth p i = (∑ j ∈ Finset.range i, p.tau j) / p.mu0 := by
  cases i with
  | zero => simp [depth, slant]
  | succ i => simp only [depth, slant, h]; exact pathSum_eq _ _ _

/-- C10 fails: adding both ways in exact arithmetic, whenever the change changes the thickness at all. -/
theorem C10_violated_both_ways {c : BeamCfg ℝ X G} (hp : c.psa = false) (s0 : BeamS ℝ X G) (hmu : s0.mu0 ≠ 0)
    (d : Bool) (xs : Nat → X) (k : Nat) (x : X) (hk : k + 1 < c.n) (hx : c.thick x ≠ c.thick (xs k)) :
    ¬ ReadsOk c false s0 (thinLayer c.n d xs k x ++ [.solve d (bothWays c.n)]) := by
  intro h
  have h1 := (h (thinLayer c.n d xs k x) d (bothWays c.n) [] rfl (List.range c.n) c.n [] rfl c.n
    (by simp [upTo])).1
  have h2 := (C10_stale_both_ways (c := c) s0 d xs k x hk).2
  simp only [bothWays] at h2
  rw [h2] at h1
  have hn : c.n = (c.n - 1) + 1 := by omega
  -- the inputs
  have e : ∀ (l : List Nat) (s : BeamS ℝ X G), SameIn s (beamSolve c d l s) := by
    intro l
    induction l with
    | nil => exact fun s => .rfl' s
    | cons a l ih =>
        intro s
        have hu : SameIn s (beamUpdate c d s a) := by
          rw [beamUpdate_eq]; exact (prep_same s).trans (beamLoop_same d _ _ _)
        exact hu.trans (ih _)
  set s1 := beamAfter c s0 [.layers 0 c.n xs, .solve d (bothWays c.n)] with hs1
  have r1 : SameIn (beamApply c (beamInit c s0) (.layers 0 c.n xs)) s1 := e _ _
  have r2 := e (List.range c.n ++ [c.n]) (beamAfter c s0 (thinLayer c.n d xs k x))
  rw [r2.prof] at h1
  have r3 : beamAfter c s0 (thinLayer c.n d xs k x) = beamApply c s1 (.layers k (k + 1) fun _ => x) := rfl
  rw [r3] at h1
  have h1 : depth (prof c s1) c.n = depth (prof c (beamApply c s1 (.layers k (k + 1) fun _ => x))) c.n := h1
  have m1 : s1.mu0 = s0.mu0 := r1.mu0
  have t1 : ∀ j, j < c.n → s1.raw j = xs j := by
    intro j hj; rw [r1.raw]; simp [beamApply, hj]
  have m2 : (prof c (beamApply c s1 (.layers k (k + 1) fun _ => x))).mu0 = s0.mu0 := m1
  rw [depth_plane _ (by simp [prof, hp]), depth_plane _ (by simp [prof, hp]), m2,
    show (prof c s1).mu0 = s0.mu0 from m1, div_left_inj' hmu] at h1
  simp only [prof, beamApply] at h1
  have hsum : ∀ y : ℝ, (∑ j ∈ Finset.range (c.n), if j = k then y else c.thick (xs j)) =
      y + ∑ j ∈ (Finset.range (c.n)).erase k, c.thick (xs j) := by
    intro y
    rw [← Finset.add_sum_erase _ _ (Finset.mem_range.2 (by omega : k < c.n))]
    simp only [if_true]
    congr 1
    exact Finset.sum_congr rfl fun j hj => if_neg (Finset.ne_of_mem_erase hj)
  have a1 := hsum (c.thick (xs k))
  have a2 := hsum (c.thick x)
  have b1 : (∑ j ∈ Finset.range (c.n), c.thick (s1.raw j)) =
      ∑ j ∈ Finset.range (c.n), if j = k then c.thick (xs k) else c.thick (xs j) := by
    refine Finset.sum_congr rfl fun j hj => ?_
    rw [t1 j (by simp at hj; omega)]
    split
    · rename_i h; rw [h]
    · rfl
  have b2 : (∑ j ∈ Finset.range (c.n),
        c.thick (if (decide (k ≤ j) && decide (j < k + 1)) = true then x else s1.raw j)) =
      ∑ j ∈ Finset.range (c.n), if j = k then c.thick x else c.thick (xs j) := by
    refine Finset.sum_congr rfl fun j hj => ?_
    rw [t1 j (by simp at hj; omega)]
    by_cases h : j = k
    · subst h; simp
    · have : ¬ (k ≤ j ∧ j < k + 1) := by omega
      rw [if_neg (by simpa using this), if_neg h]
  rw [b1, b2, a1, a2] at h1
  exact hx (by linarith)

/-- C10 fails for derivatives: `xrtm_solution_2` solves with derivatives switched off
(`src/xrtm_interface.c:5834-5846`), which clears the flags; a following `xrtm_solution` finds nothing
flagged and uses whatever was in the derivative arrays before. -/
theorem C10_stale_derivs (s0 : BeamS F X G) (xs : Nat → X) (lvls : List Nat) :
    let s2 := beamSolve c true (c.n :: lvls) (beamAfter c s0 [.layers 0 c.n xs, .solve false [c.n]])
    (∀ l ∈ lvls, l ≤ c.n) → ∀ i, i < c.n → s2.btauL (i + 1) = s0.btauL (i + 1) ∧ s2.btranL (i + 1) = s0.btranL (i + 1) := by
  intro s2 hl i hi
  set s1 := beamAfter c s0 [.layers 0 c.n xs, .solve false [c.n]] with hs1
  have hclean : ∀ j, j < c.n → s1.dirty j = false := update_full_clean false _
  have hstep : ∀ (s : BeamS F X G) k, valsL (beamStep c false s k) = valsL s := by
    intro s k
    obtain ⟨h1, h2, h3, h4, h5, h6, h7, h8, h9, h10, h11⟩ :=
      updateOpt_frame (c := c) false k { s with dirty := put s.dirty k false }
    funext j
    simp [beamStep, valsL, h6, h7, h8, h9]
  have hloop : ∀ i0 (s : BeamS F X G) m, valsL (beamLoop c false i0 s m) = valsL s := by
    intro i0 s m
    induction m with
    | zero => rfl
    | succ m ih => simp only [beamLoop]; split
                   · rw [hstep, ih]
                   · exact ih
  have h1 : valsL s1 i = valsL (beamInit c s0) i := by
    simp only [hs1, beamAfter, List.foldl, beamApply, beamSolve, beamUpdate_eq]
    rw [hloop, ((prep_frame _).2 i).2]
    rfl
  have hrest : ∀ (ls : List Nat) (s : BeamS F X G), (∀ l ∈ ls, l ≤ c.n) → (∀ j, j < c.n → s.dirty j = false) →
      valsL (beamSolve c true ls s) i = valsL s i := by
    intro ls
    induction ls with
    | nil => intros; rfl
    | cons a ls ih =>
        intro s hr hd
        have hu := update_clean (c := c) true s a (fun j hj => hd j (by
          have := upTo_le (hr a (by simp)); omega))
        have := ih (beamUpdate c true s a) (fun l hl => hr l (by simp [hl])) (by rw [hu.1]; exact hd)
        exact this.trans (hu.2 i).2
  have h2 : valsL s2 i = valsL s1 i := hrest (c.n :: lvls) s1 (by
    intro l h; simp at h; rcases h with rfl | h
    · exact le_rfl
    · exact hl l h) hclean
  have h3 := h2.trans h1
  simp only [valsL, beamInit, Prod.mk.injEq] at h3
  exact ⟨by rw [h3.1]; simp [put], by rw [h3.2.1]; simp [put]⟩

end violated

/-! ### The hypotheses can be met -/

/-- Three layers, plane parallel, thicknesses given directly. -/
def demoBeam : BeamCfg ℝ ℝ Unit where
  n := 3
  psa := false
  deltaM := false
  thick x := x
  thickL _ _ := 0
  chap _ _ _ _ := 0

/-- A session: all layers, a solution both ways, another angle, the lowest layer, a solution both ways, an inner
layer, a solution that asks for the whole column first. -/
example : BeamSafe demoBeam.n false
    [(.layers 0 3 fun k => k + 1 : BOp ℝ ℝ Unit), .solve true (bothWays 3), .geom (1 / 2) (),
      .layers 2 3 (fun _ => 5), .solve true (bothWays 3), .layers 0 1 (fun _ => 7), .solve true [3, 2, 1, 0]] := by
  simp [BeamSafe, demoBeam, bothWays]

example : ∃ s0 : BeamS ℝ ℝ Unit, ¬ ReadsOk demoBeam false s0
    (thinLayer 3 false (fun _ => 1) 0 2 ++ [.solve false (bothWays 3)]) :=
  ⟨⟨fun _ => 0, 1 / 2, (), fun _ => true, fun _ => 0, fun _ _ => 0, true, fun _ _ => 0, fun _ => true,
      fun _ => 0, fun _ => 0, fun _ _ => 0, fun _ _ => 0, fun _ => 0, fun _ => 0, fun _ _ => 0, fun _ _ => 0⟩,
    C10_violated_both_ways (c := demoBeam) rfl _ (by norm_num) false (fun _ => 1) 0 2 (by decide)
      (by simp [demoBeam])⟩

end Xrtm
