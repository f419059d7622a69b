import Verif.Proof.AddingJ

/-! The loops: values, then derivatives. -/

namespace Xrtm.Spec

open Matrix Adding

variable {K : Type} [CommRing K] {n : Nat}

theorem Stacked.dark {a b r : Layer n K} (h : Stacked a b r) (ha : a.Sm = 0 ∧ a.Sp = 0) (hb : b.Sm = 0 ∧ b.Sp = 0) :
    r.Sm = 0 ∧ r.Sp = 0 := by
  have h0 : r.Obeys 0 0 0 0 := (h 0 0 0 0).2 ⟨0, 0, by simp [Layer.Obeys, ha], by simp [Layer.Obeys, hb]⟩
  simp only [Layer.Obeys, mulVec_zero, add_zero, zero_add] at h0
  exact ⟨h0.2.symm, h0.1.symm⟩

theorem Backed.dark {a : Layer n K} {b r : Mirror n K} (h : Backed a b r) (ha : a.Sm = 0 ∧ a.Sp = 0) (hb : b.S = 0) :
    r.S = 0 := by
  have h0 : r.Obeys 0 0 := (h 0 0).2 ⟨0, 0, by simp [Layer.Obeys, ha], by simp [Mirror.Obeys, hb]⟩
  simp only [Mirror.Obeys, mulVec_zero, zero_add] at h0
  exact h0.symm

end Xrtm.Spec

namespace Xrtm.Adding

open Mat Spec Matrix

section value
variable {K : Type} [CommRing K] {n : Nat} {inv? : M n K → Option (M n K)}

/-- The layers of the specification. -/
def layersOf (ls : List (LayerIn n K)) : List (Layer n K) := ls.map fun l => l.ops.layer

theorem not_post_singular {Q : Mem n K → Prop} : ¬ Post (.error .singular) Q := fun h => h

/-- One round of the loop from the top down. -/
theorem total_step (hinv : Exact inv?) (nd : Nat) (l : LayerIn n K)
    (hc : ∀ i, i < nd → allExits (l.act i) = false) (s : Mem n K) :
    (Regular l.ops.layer.Rm (both (vals frameAll s)).Rp ∧
      ∃ s', runDo inv? (layerAddAll frameAll nd 1 (fun _ => 0) l.act true)
          (load nd lowM lowV l.ops l.dops (fun j => (l.act j).2) s) = .ok s' ∧
        Stacked (both (vals frameAll s)) l.ops.layer (both (vals frameAll s'))) ∨
    (¬ Regular l.ops.layer.Rm (both (vals frameAll s)).Rp ∧
      runDo inv? (layerAddAll frameAll nd 1 (fun _ => 0) l.act true)
          (load nd lowM lowV l.ops l.dops (fun j => (l.act j).2) s) = .error .singular) := by
  have h := layerAddAll_value hinv (places_all nd) (aux_all nd) (aux_all' nd)
    (load nd lowM lowV l.ops l.dops (fun j => (l.act j).2) s) (1 : K) (tl := fun _ => 0) hc (fun _ _ _ => rfl)
  have e1 : (load nd lowM lowV l.ops l.dops (fun j => (l.act j).2) s).m (frameAll.m .R23) = l.ops.layer.Rm :=
    congrArg Layer.Rm (lower_load nd l.ops l.dops (fun j => (l.act j).2) s)
  have e2 : (load nd lowM lowV l.ops l.dops (fun j => (l.act j).2) s).m (frameAll.m .R21) =
      (both (vals frameAll s)).Rp := congrArg Layer.Rp (upper_load nd l.ops l.dops (fun j => (l.act j).2) s)
  rw [e1, e2, upper_load, lower_load, Layer.dim_one] at h
  rcases h with ⟨h1, h2⟩ | h
  · exact .inl ⟨h1, Post.elim h2⟩
  · exact .inr h

theorem totalLoop_value (hinv : Exact inv?) (nd : Nat) (ls : List (LayerIn n K))
    (hc : ∀ l ∈ ls, ∀ i, i < nd → allExits (l.act i) = false) (s : Mem n K) :
    (ClearDown (both (vals frameAll s)) (layersOf ls) ∧ ∃ s', totalLoop inv? nd false ls s = .ok s' ∧
      ∀ pre, Joined pre (both (vals frameAll s)) → Joined (pre ++ layersOf ls) (both (vals frameAll s'))) ∨
    (¬ ClearDown (both (vals frameAll s)) (layersOf ls) ∧ totalLoop inv? nd false ls s = .error .singular) := by
  induction ls generalizing s with
  | nil => exact .inl ⟨trivial, s, rfl, fun pre h => by simpa [layersOf] using h⟩
  | cons l ls ih =>
      rcases total_step hinv nd l (hc l (by simp)) s with ⟨h1, s1, e1, h2⟩ | ⟨h1, e1⟩
      · have e : totalLoop inv? nd false (l :: ls) s = totalLoop inv? nd false ls s1 := by
          simp [totalLoop, e1]
        have hcl : ClearDown (both (vals frameAll s)) (layersOf (l :: ls)) ↔
            ClearDown (both (vals frameAll s1)) (layersOf ls) := by
          constructor
          · intro h; exact h.2 _ h2
          · intro h; exact ⟨h1, fun r' hr' => Stacked.unique h2 hr' ▸ h⟩
        rw [e, hcl]
        rcases ih (fun l' hl' => hc l' (by simp [hl'])) s1 with ⟨k1, s', k2, k3⟩ | h
        · refine .inl ⟨k1, s', k2, fun pre hpre => ?_⟩
          have := k3 (pre ++ [l.ops.layer]) (hpre.append (Joined.one _) h2)
          simpa [layersOf] using this
        · exact .inr h
      · right
        refine ⟨fun h => h1 h.1, ?_⟩
        simp [totalLoop, e1]

/-- `get_total_R_T_S_U_W_V` on at least one layer. -/
theorem total_value (hinv : Exact inv?) (nd : Nat) (l : LayerIn n K) (ls : List (LayerIn n K))
    (hc : ∀ l ∈ ls, ∀ i, i < nd → allExits (l.act i) = false) (s : Mem n K) :
    (ClearDown l.ops.layer (layersOf ls) ∧ ∃ s', totalLoop inv? nd true (l :: ls) s = .ok s' ∧
      Joined (layersOf (l :: ls)) (both (vals frameAll s'))) ∨
    (¬ ClearDown l.ops.layer (layersOf ls) ∧ totalLoop inv? nd true (l :: ls) s = .error .singular) := by
  obtain ⟨s1, e1, h1, _⟩ := (copyAll_post (inv? := inv?) nd l.act
    (load nd lowM lowV l.ops l.dops (fun j => (l.act j).2) s)).elim
  rw [lower_load] at h1
  have e : totalLoop inv? nd true (l :: ls) s = totalLoop inv? nd false ls s1 := by simp [totalLoop, e1]
  rw [e]
  have h := totalLoop_value hinv nd ls hc s1
  rw [h1] at h
  rcases h with ⟨k1, s', k2, k3⟩ | h
  · exact .inl ⟨k1, s', k2, k3 [l.ops.layer] (Joined.one _)⟩
  · exact .inr h

/-! Reflection only. `look` is how the layer is seen: from above or from below. -/

theorem ref_step (hinv : Exact inv?) (nd : Nat) (act : Nat → Act × Act) (flag : Bool)
    (hc : ∀ i, i < nd → refHas flag (flip flag (act i)).1 (flip flag (act i)).2 = true) (s s0 : Mem n K)
    (l : Layer n K) (hu : upper (vals frameRef s0) = l) (hm : mirror (vals frameRef s0) = mirrorOut (vals frameRef s)) :
    (Regular (mirrorOut (vals frameRef s)).R l.Rp ∧
      ∃ s', runDo inv? (layerAddRef frameRef nd 1 (fun _ => 0) act flag true) s0 = .ok s' ∧
        Backed l (mirrorOut (vals frameRef s)) (mirrorOut (vals frameRef s'))) ∨
    (¬ Regular (mirrorOut (vals frameRef s)).R l.Rp ∧
      runDo inv? (layerAddRef frameRef nd 1 (fun _ => 0) act flag true) s0 = .error .singular) := by
  have h := layerAddRef_value hinv sepF_ref (sepL_ref nd) s0 (1 : K) (tl := fun _ => 0) hc (fun _ _ _ => rfl)
  have e1 : s0.m (frameRef.m .R23) = (mirrorOut (vals frameRef s)).R := congrArg Mirror.R hm
  have e2 : s0.m (frameRef.m .R21) = l.Rp := congrArg Layer.Rp hu
  rw [e1, e2, hu, hm, Mirror.dim_one] at h
  rcases h with ⟨h1, h2⟩ | h
  · exact .inl ⟨h1, Post.elim h2⟩
  · exact .inr h

/-- The copy of `layer_copy_ref_l`. -/
structure CopyMDone (i : Nat) (a : Act) (s s' : Mem n K) : Prop where
  m : a.l = true → s'.m (frameRef.ml i .R13) = s.m (frameRef.ml i .R12)
  v : a.s = true → s'.v (frameRef.vl i .S31) = s.v (frameRef.vl i .S21)

theorem copyRef_post (nd : Nat) (al : Nat → Act) (s : Mem n K) :
    Post (runDo inv? (copyRefL frameRef nd al) s) fun s' =>
      mirrorOut (vals frameRef s') = ⟨(upper (vals frameRef s)).Rm, (upper (vals frameRef s)).Sp⟩ ∧
      ∀ i, i < nd → CopyMDone i (al i) s s' := by
  rw [copyRefL]
  have e1 : ∃ s1 : Mem n K, run inv? [.copy (frameRef.m .R13) (frameRef.m .R12), .copyV (frameRef.v .S31) (frameRef.v .S21)] s
      = .ok s1 ∧ mirrorOut (vals frameRef s1) = ⟨(upper (vals frameRef s)).Rm, (upper (vals frameRef s)).Sp⟩ ∧
      (∀ i k, k < 8 → s1.m (cellM (i + 1) k) = s.m (cellM (i + 1) k)) ∧
      (∀ i k, k < 8 → s1.v (cellV (i + 1) k) = s.v (cellV (i + 1) k)) := by
    refine ⟨_, rfl, ?_, ?_, ?_⟩
    · simp [mirrorOut, upper, vals, frameRef, refM, refV, Mem.setM, Mem.setV]
    · intro i k hk
      simp [frameRef, refM, Mem.setM, Mem.setV, cellM_inj, hk]
    · intro i k hk
      simp [frameRef, refV, Mem.setM, Mem.setV, cellV_inj, hk]
  obtain ⟨s1, e1, hb, hm, hv⟩ := e1
  rw [runDo, e1]
  refine (copyLoop (inv? := inv?) (s := s1) (I := fun k s' =>
    mirrorOut (vals frameRef s') = ⟨(upper (vals frameRef s)).Rm, (upper (vals frameRef s)).Sp⟩ ∧
    (∀ i, i < k → CopyMDone i (al i) s s') ∧
    (∀ i, k ≤ i → ∀ a, a < 8 → s'.m (cellM (i + 1) a) = s.m (cellM (i + 1) a) ∧
      s'.v (cellV (i + 1) a) = s.v (cellV (i + 1) a))) ?_ ?_).mono fun s' h => ⟨h.1, h.2.1⟩
  · exact ⟨hb, fun i hi => absurd hi (by omega), fun i _ a ha => ⟨hm i a ha, hv i a ha⟩⟩
  · rintro i hi s' ⟨h1, h2, h3⟩
    have body : Post (runDo inv? [.calls ((if (al i).hasL then [.copy (frameRef.ml i .R13) (frameRef.ml i .R12)] else []) ++
        (if (al i).hasS then [.copyV (frameRef.vl i .S31) (frameRef.vl i .S21)] else []))] s') fun s'' =>
        (∀ c, c ≠ frameRef.ml i .R13 → s''.m c = s'.m c) ∧ (∀ c, c ≠ frameRef.vl i .S31 → s''.v c = s'.v c) ∧
        CopyMDone i (al i) s' s'' := by
      rw [runDo_calls, hasL_eq, hasS_eq]
      cases e1 : (al i).l <;> cases e2 : (al i).s <;>
        simp only [Bool.false_eq_true, if_false, if_true, List.append_nil, List.nil_append, List.cons_append,
          run, step, Post_ok] <;>
        refine ⟨fun c hc => ?_, fun c hc => ?_, fun w => ?_, fun w => ?_⟩ <;>
        simp_all [Mem.setM, Mem.setV]
    refine body.mono fun s'' ⟨ho, hov, hd⟩ => ?_
    have gm : ∀ j a, j ≠ i + 1 → a < 8 → s''.m (cellM j a) = s'.m (cellM j a) := by
      intro j a hj ha
      refine ho _ ?_
      simp [frameRef, refM, cellM_inj, ha, hj]
    have gv : ∀ j a, j ≠ i + 1 → a < 8 → s''.v (cellV j a) = s'.v (cellV j a) := by
      intro j a hj ha
      refine hov _ ?_
      simp [frameRef, refV, cellV_inj, ha, hj]
    refine ⟨?_, fun j hj => ?_, fun j hj a ha => ?_⟩
    · rw [← h1]
      simp only [mirrorOut, vals, frameRef, gm 0 _ (by omega) (refM_lt _), gv 0 _ (by omega) (refV_lt _)]
    · by_cases e : j = i
      · subst e
        obtain ⟨d1, d2⟩ := hd
        simp only [frameRef, (h3 j (Nat.le_refl _) _ (refM_lt .R12)).1, (h3 j (Nat.le_refl _) _ (refV_lt .S21)).2] at d1 d2
        exact ⟨d1, d2⟩
      · obtain ⟨d1, d2⟩ := h2 j (by omega)
        refine ⟨fun w => ?_, fun w => ?_⟩
        · have := d1 w
          simp only [frameRef] at this ⊢
          rw [gm (j + 1) _ (by omega) (refM_lt _)]
          exact this
        · have := d2 w
          simp only [frameRef] at this ⊢
          rw [gv (j + 1) _ (by omega) (refV_lt _)]
          exact this
    · rw [gm _ _ (by omega) ha, gv _ _ (by omega) ha]
      exact h3 j (by omega) a ha

/-- The codes of `layer_add_ref` are served. -/
def RefCodes (flag : Bool) (nd : Nat) (ls : List (LayerIn n K)) : Prop :=
  ∀ l ∈ ls, ∀ i, i < nd → refHas flag (flip flag (l.act i)).1 (flip flag (l.act i)).2 = true

theorem toaLoop_value (hinv : Exact inv?) (nd : Nat) (ls : List (LayerIn n K)) (hc : RefCodes false nd ls) (s : Mem n K) :
    (ClearUp (mirrorOut (vals frameRef s)) (layersOf ls) ∧ ∃ s', toaLoop inv? nd false ls s = .ok s' ∧
      ∀ post base, Resting post base (mirrorOut (vals frameRef s)) →
        Resting ((layersOf ls).reverse ++ post) base (mirrorOut (vals frameRef s'))) ∨
    (¬ ClearUp (mirrorOut (vals frameRef s)) (layersOf ls) ∧ toaLoop inv? nd false ls s = .error .singular) := by
  induction ls generalizing s with
  | nil => exact .inl ⟨trivial, s, rfl, fun post base h => by simpa [layersOf] using h⟩
  | cons l ls ih =>
      rcases ref_step hinv nd l.act false (hc l (by simp)) s _ l.ops.layer
        (upper_above nd l.ops l.dops (fun j => (l.act j).1) s) (mirror_above nd l.ops l.dops (fun j => (l.act j).1) s)
        with ⟨h1, s1, e1, h2⟩ | ⟨h1, e1⟩
      · have e : toaLoop inv? nd false (l :: ls) s = toaLoop inv? nd false ls s1 := by simp [toaLoop, e1]
        have hcl : ClearUp (mirrorOut (vals frameRef s)) (layersOf (l :: ls)) ↔
            ClearUp (mirrorOut (vals frameRef s1)) (layersOf ls) := by
          constructor
          · intro h; exact h.2 _ h2
          · intro h; exact ⟨h1, fun r' hr' => Backed.unique h2 hr' ▸ h⟩
        rw [e, hcl]
        rcases ih (fun l' hl' => hc l' (by simp [hl'])) s1 with ⟨k1, s', k2, k3⟩ | h
        · refine .inl ⟨k1, s', k2, fun post base hpost => ?_⟩
          have := k3 (l.ops.layer :: post) base (hpost.cons h2)
          simpa [layersOf] using this
        · exact .inr h
      · right
        refine ⟨fun h => h1 h.1, ?_⟩
        simp [toaLoop, e1]

theorem boaLoop_value (hinv : Exact inv?) (nd : Nat) (ls : List (LayerIn n K)) (hc : RefCodes true nd ls) (s : Mem n K) :
    (ClearUp (mirrorOut (vals frameRef s)) ((layersOf ls).map Layer.flip) ∧ ∃ s', boaLoop inv? nd false ls s = .ok s' ∧
      ∀ pre, Hanging pre (mirrorOut (vals frameRef s)) →
        Hanging (pre ++ layersOf ls) (mirrorOut (vals frameRef s'))) ∨
    (¬ ClearUp (mirrorOut (vals frameRef s)) ((layersOf ls).map Layer.flip) ∧
      boaLoop inv? nd false ls s = .error .singular) := by
  induction ls generalizing s with
  | nil => exact .inl ⟨trivial, s, rfl, fun pre h => by simpa [layersOf] using h⟩
  | cons l ls ih =>
      rcases ref_step hinv nd l.act true (hc l (by simp)) s _ l.ops.layer.flip
        (upper_below nd l.ops l.dops (fun j => (l.act j).2) s) (mirror_below nd l.ops l.dops (fun j => (l.act j).2) s)
        with ⟨h1, s1, e1, h2⟩ | ⟨h1, e1⟩
      · have e : boaLoop inv? nd false (l :: ls) s = boaLoop inv? nd false ls s1 := by simp [boaLoop, e1]
        have hcl : ClearUp (mirrorOut (vals frameRef s)) ((layersOf (l :: ls)).map Layer.flip) ↔
            ClearUp (mirrorOut (vals frameRef s1)) ((layersOf ls).map Layer.flip) := by
          constructor
          · intro h; exact h.2 _ h2
          · intro h; exact ⟨h1, fun r' hr' => Backed.unique h2 hr' ▸ h⟩
        rw [e, hcl]
        rcases ih (fun l' hl' => hc l' (by simp [hl'])) s1 with ⟨k1, s', k2, k3⟩ | h
        · refine .inl ⟨k1, s', k2, fun pre hpre => ?_⟩
          have := k3 (pre ++ [l.ops.layer]) (hpre.append h2)
          simpa [layersOf] using this
        · exact .inr h
      · right
        refine ⟨fun h => h1 h.1, ?_⟩
        simp [boaLoop, e1]

theorem mirror_surface (nd : Nat) (R : M n K) (S : V n K) (Rl : Nat → M n K) (Sl : Nat → V n K) (al : Nat → Act)
    (s : Mem n K) : mirrorOut (vals frameRef (loadSurface nd R S Rl Sl al s)) = ⟨R, S⟩ := by
  simp [mirrorOut, vals, frameRef, refM, refV, loadSurface, load_m, load_v]

/-- `get_total_TOA_R_S_U_V` with a surface. -/
theorem toaSurface_value (hinv : Exact inv?) (nd : Nat) (R : M n K) (S : V n K) (Rl : Nat → M n K) (Sl : Nat → V n K)
    (al : Nat → Act) (ls : List (LayerIn n K)) (hc : RefCodes false nd ls) (s : Mem n K) :
    (ClearUp ⟨R, S⟩ (layersOf ls).reverse ∧ ∃ s', toaSurface inv? nd R S Rl Sl al ls s = .ok s' ∧
      Resting (layersOf ls) ⟨R, S⟩ (mirrorOut (vals frameRef s'))) ∨
    (¬ ClearUp ⟨R, S⟩ (layersOf ls).reverse ∧ toaSurface inv? nd R S Rl Sl al ls s = .error .singular) := by
  have h := toaLoop_value hinv nd ls.reverse (fun l hl => hc l (by simpa using hl)) (loadSurface nd R S Rl Sl al s)
  have e : layersOf ls.reverse = (layersOf ls).reverse := by simp [layersOf]
  rw [mirror_surface, e] at h
  rcases h with ⟨h1, s', h2, h3⟩ | h
  · exact .inl ⟨h1, s', h2, by simpa using h3 [] _ (Resting.nil _)⟩
  · exact .inr h

/-- ... without, on at least one layer. -/
theorem toaBare_value (hinv : Exact inv?) (nd : Nat) (ls : List (LayerIn n K)) (l : LayerIn n K)
    (hc : RefCodes false nd ls) (s : Mem n K) :
    (ClearUp ⟨l.ops.Rm, l.ops.Sp⟩ (layersOf ls).reverse ∧ ∃ s', toaBare inv? nd (ls ++ [l]) s = .ok s' ∧
      Resting (layersOf (ls ++ [l])) Mirror.dark (mirrorOut (vals frameRef s'))) ∨
    (¬ ClearUp ⟨l.ops.Rm, l.ops.Sp⟩ (layersOf ls).reverse ∧ toaBare inv? nd (ls ++ [l]) s = .error .singular) := by
  obtain ⟨s1, e1, h1, _⟩ := (copyRef_post (inv? := inv?) nd (fun j => (l.act j).1)
    (load nd aboveM aboveV l.ops l.dops (fun j => (l.act j).1) s)).elim
  rw [upper_above] at h1
  have e : toaBare inv? nd (ls ++ [l]) s = toaLoop inv? nd false ls.reverse s1 := by
    simp [toaBare, toaLoop, e1]
  rw [e]
  have h := toaLoop_value hinv nd ls.reverse (fun l hl => hc l (by simpa using hl)) s1
  have er : layersOf ls.reverse = (layersOf ls).reverse := by simp [layersOf]
  rw [h1, er] at h
  rcases h with ⟨k1, s', k2, k3⟩ | h
  · refine .inl ⟨k1, s', k2, ?_⟩
    have := k3 [l.ops.layer] Mirror.dark ((Resting.nil _).cons (backed_dark _))
    simpa [layersOf] using this
  · exact .inr h

/-- `get_total_BOA_R_S_U_V` on at least one layer. -/
theorem boa_value (hinv : Exact inv?) (nd : Nat) (l : LayerIn n K) (ls : List (LayerIn n K))
    (hc : RefCodes true nd ls) (s : Mem n K) :
    (ClearUp ⟨l.ops.Rp, l.ops.Sm⟩ ((layersOf ls).map Layer.flip) ∧ ∃ s', boaLoop inv? nd true (l :: ls) s = .ok s' ∧
      Hanging (layersOf (l :: ls)) (mirrorOut (vals frameRef s'))) ∨
    (¬ ClearUp ⟨l.ops.Rp, l.ops.Sm⟩ ((layersOf ls).map Layer.flip) ∧
      boaLoop inv? nd true (l :: ls) s = .error .singular) := by
  obtain ⟨s1, e1, h1, _⟩ := (copyRef_post (inv? := inv?) nd (fun j => (l.act j).2)
    (load nd belowM belowV l.ops l.dops (fun j => (l.act j).2) s)).elim
  rw [upper_below] at h1
  have e : boaLoop inv? nd true (l :: ls) s = boaLoop inv? nd false ls s1 := by simp [boaLoop, e1]
  rw [e]
  have h := boaLoop_value hinv nd ls hc s1
  rw [h1] at h
  rcases h with ⟨k1, s', k2, k3⟩ | h
  · refine .inl ⟨k1, s', k2, ?_⟩
    have := k3 [l.ops.layer] (Hanging.one _)
    simpa [layersOf] using this
  · exact .inr h

end value

end Xrtm.Adding
