import Verif.Proof.AddingH

/-! What the loops over the layers compute. -/

namespace Xrtm.Spec

variable {K : Type} [CommRing K] {n : Nat}

open Matrix Adding

theorem through_append (xs ys : List (Layer n K)) (dn up dn' up' : Fin n → K) :
    Through (xs ++ ys) dn up dn' up' ↔ ∃ a b, Through xs dn up a b ∧ Through ys a b dn' up' := by
  induction xs generalizing dn up with
  | nil =>
      constructor
      · intro h; exact ⟨dn, up, ⟨rfl, rfl⟩, h⟩
      · rintro ⟨a, b, ⟨rfl, rfl⟩, h⟩; exact h
  | cons l ls ih =>
      simp only [List.cons_append, Through, ih]
      constructor
      · rintro ⟨a, b, h1, c, d, h2, h3⟩; exact ⟨c, d, ⟨a, b, h1, h2⟩, h3⟩
      · rintro ⟨c, d, ⟨a, b, h1, h2⟩, h3⟩; exact ⟨a, b, h1, c, d, h2, h3⟩

theorem through_one (l : Layer n K) (dn up dn' up' : Fin n → K) :
    Through [l] dn up dn' up' ↔ l.Obeys dn up dn' up' := by
  simp only [Through]
  constructor
  · rintro ⟨a, b, h, rfl, rfl⟩; exact h
  · intro h; exact ⟨_, _, h, rfl, rfl⟩

theorem Joined.one (l : Layer n K) : Joined [l] l := fun _ _ _ _ => (through_one l _ _ _ _).symm

theorem Joined.append {xs ys : List (Layer n K)} {a b r : Layer n K} (hx : Joined xs a) (hy : Joined ys b)
    (h : Stacked a b r) : Joined (xs ++ ys) r := by
  intro dn up dn' up'
  rw [h, through_append]
  exact exists_congr fun c => exists_congr fun d => and_congr (hx ..) (hy ..)

theorem Joined.unique {xs : List (Layer n K)} {a b : Layer n K} (ha : Joined xs a) (hb : Joined xs b) : a = b :=
  Layer.unique fun d u d' u' h => (hb ..).2 ((ha ..).1 h)

theorem Resting.unique {xs : List (Layer n K)} {m a b : Mirror n K} (ha : Resting xs m a) (hb : Resting xs m b) :
    a = b := Mirror.unique fun d u h => (hb ..).2 ((ha ..).1 h)

theorem Hanging.unique {xs : List (Layer n K)} {a b : Mirror n K} (ha : Hanging xs a) (hb : Hanging xs b) :
    a = b := Mirror.unique fun d u h => (hb ..).2 ((ha ..).1 h)

theorem Resting.nil (m : Mirror n K) : Resting [] m m := by
  intro dn up
  constructor
  · intro h; exact ⟨dn, up, ⟨rfl, rfl⟩, h⟩
  · rintro ⟨_, _, ⟨rfl, rfl⟩, h⟩; exact h

theorem Resting.cons {l : Layer n K} {ls : List (Layer n K)} {base m r : Mirror n K} (h : Resting ls base m)
    (hb : Backed l m r) : Resting (l :: ls) base r := by
  intro dn up
  rw [hb]
  constructor
  · rintro ⟨a, b, h1, h2⟩
    obtain ⟨c, d, h3, h4⟩ := (h a b).1 h2
    exact ⟨c, d, ⟨a, b, h1, h3⟩, h4⟩
  · rintro ⟨c, d, ⟨a, b, h1, h3⟩, h4⟩
    exact ⟨a, b, h1, (h a b).2 ⟨c, d, h3, h4⟩⟩

theorem backed_dark (l : Layer n K) : Backed l Mirror.dark ⟨l.Rm, l.Sp⟩ := by
  intro dn up
  simp only [Mirror.Obeys, Mirror.dark, Layer.Obeys, zero_mulVec, add_zero]
  constructor
  · intro h; exact ⟨_, 0, ⟨by rw [h, mulVec_zero, add_zero], rfl⟩, rfl⟩
  · rintro ⟨a, b, ⟨h, _⟩, rfl⟩; rw [h, mulVec_zero, add_zero]

theorem flip_obeys (l : Layer n K) (a b c d : Fin n → K) : l.flip.Obeys a b c d ↔ l.Obeys d c b a := by
  simp only [Layer.Obeys, Layer.flip]
  constructor
  · rintro ⟨h1, h2⟩; exact ⟨by rw [h2]; abel, by rw [h1]; abel⟩
  · rintro ⟨h1, h2⟩; exact ⟨by rw [h2]; abel, by rw [h1]; abel⟩

theorem Hanging.append {ls : List (Layer n K)} {l : Layer n K} {m r : Mirror n K} (h : Hanging ls m)
    (hb : Backed l.flip m r) : Hanging (ls ++ [l]) r := by
  intro up' dn'
  rw [hb]
  simp only [through_append, through_one, flip_obeys]
  constructor
  · rintro ⟨a, b, h1, h2⟩
    obtain ⟨u, hu⟩ := (h a b).1 h2
    exact ⟨u, b, a, hu, h1⟩
  · rintro ⟨u, b, a, hu, h1⟩
    exact ⟨a, b, h1, (h a b).2 ⟨u, hu⟩⟩

theorem Hanging.one (l : Layer n K) : Hanging [l] ⟨l.Rp, l.Sm⟩ := by
  intro up dn
  refine (backed_dark l.flip up dn : Mirror.Obeys ⟨l.Rp, l.Sm⟩ up dn ↔ _).trans ?_
  simp only [through_one, flip_obeys, Mirror.Obeys, Mirror.dark, zero_mulVec, add_zero]
  constructor
  · rintro ⟨a, b, h, rfl⟩; exact ⟨a, h⟩
  · rintro ⟨a, h⟩; exact ⟨a, 0, h, rfl⟩

/-- What is seen from above or below is part of the whole. -/
theorem Joined.resting {ls : List (Layer n K)} {r : Layer n K} (h : Joined ls r) :
    Resting ls Mirror.dark ⟨r.Rm, r.Sp⟩ := by
  intro dn up
  rw [backed_dark r]
  exact exists_congr fun a => exists_congr fun b => and_congr (h ..) Iff.rfl

theorem Joined.hanging {ls : List (Layer n K)} {r : Layer n K} (h : Joined ls r) : Hanging ls ⟨r.Rp, r.Sm⟩ := by
  intro up dn
  rw [Hanging.one r]
  exact exists_congr fun a => by rw [through_one, h]

theorem Joined.backed {ls : List (Layer n K)} {r : Layer n K} (h : Joined ls r) {base m : Mirror n K} :
    Resting ls base m ↔ Backed r base m := by
  refine forall_congr' fun dn => forall_congr' fun up => ?_
  refine iff_congr Iff.rfl (exists_congr fun a => exists_congr fun b => and_congr (h ..).symm Iff.rfl)

end Xrtm.Spec

namespace Xrtm.Adding

open Mat Spec Matrix

variable {K : Type} [CommRing K] {n : Nat} {inv? : M n K → Option (M n K)}

theorem Layer.dim_one (l : Layer n K) : l.dim 1 = l := by simp [Layer.dim]
theorem Mirror.dim_one (l : Mirror n K) : l.dim 1 = l := by simp [Mirror.dim]

/-! ### After loading -/

section loaded
variable (nd : Nat) (o : Ops n K) (ol : Nat → Ops n K) (al : Nat → Act) (s : Mem n K)

theorem upper_load : upper (vals frameAll (load nd lowM lowV o ol al s)) = both (vals frameAll s) := by
  simp only [upper, both, vals, frameAll, allM, allV, load_m, load_v, Nat.lt_add_left_iff_pos, Nat.ofNat_pos,
    Nat.zero_lt_succ, Nat.one_lt_ofNat, Nat.reduceLT, lowM, lowV, Option.getD_none]

theorem lower_load : lower (vals frameAll (load nd lowM lowV o ol al s)) = o.layer := by
  simp only [lower, Ops.layer, vals, frameAll, allM, allV, load_m, load_v, Nat.reduceLT, lowM, lowV,
    Option.getD_some]

theorem upper_above : upper (vals frameRef (load nd aboveM aboveV o ol al s)) = o.layer := by
  simp only [upper, Ops.layer, vals, frameRef, refM, refV, load_m, load_v, Nat.reduceLT, Nat.zero_lt_succ,
    Nat.one_lt_ofNat, Nat.ofNat_pos, aboveM, aboveV, Option.getD_some]

theorem upper_below : upper (vals frameRef (load nd belowM belowV o ol al s)) = o.layer.flip := by
  simp only [upper, Ops.layer, Layer.flip, vals, frameRef, refM, refV, load_m, load_v, Nat.reduceLT, Nat.zero_lt_succ,
    Nat.one_lt_ofNat, Nat.ofNat_pos, belowM, belowV, Option.getD_some]

theorem mirror_above : mirror (vals frameRef (load nd aboveM aboveV o ol al s)) = mirrorOut (vals frameRef s) := by
  simp only [mirror, mirrorOut, vals, frameRef, refM, refV, load_m, load_v, Nat.reduceLT, aboveM, aboveV,
    Option.getD_none]

theorem mirror_below : mirror (vals frameRef (load nd belowM belowV o ol al s)) = mirrorOut (vals frameRef s) := by
  simp only [mirror, mirrorOut, vals, frameRef, refM, refV, load_m, load_v, Nat.reduceLT, belowM, belowV,
    Option.getD_none]

end loaded

/-! ### The copies -/

/-- Only derivative arrays and results of derivative `i` can change in the copy for derivative `i`. -/
theorem copyLoop {nd : Nat} {body : Nat → Do K} {s : Mem n K} {I : Nat → Mem n K → Prop} (h0 : I 0 s)
    (hs : ∀ i, i < nd → ∀ s', I i s' → Post (runDo inv? [body i] s') (I (i + 1))) :
    Post (runDo inv? ((List.range nd).map body) s) (I nd) := by
  have key : ∀ k, k ≤ nd → Post (runDo inv? ((List.range k).map body) s) (I k) := by
    intro k
    induction k with
    | zero => intro _; exact h0
    | succ k ih =>
        intro hk
        rw [List.range_succ, List.map_append, Post_runDo_append]
        exact (ih (by omega)).mono fun s' h => hs k (by omega) s' h
  exact key nd (Nat.le_refl _)

/-- The copy of derivative `i`: nothing but its results changes. -/
structure CopyOnly (f : Fr) (i : Nat) (s s' : Mem n K) : Prop where
  m : ∀ c, c ≠ f.ml i .R13 → c ≠ f.ml i .T13 → c ≠ f.ml i .R31 → c ≠ f.ml i .T31 → s'.m c = s.m c
  v : ∀ c, c ≠ f.vl i .S13 → c ≠ f.vl i .S31 → s'.v c = s.v c

/-- After the copy the results of derivative `i` are those of the lower layer. -/
structure CopyDone (f : Fr) (i : Nat) (b : Act) (s s' : Mem n K) : Prop where
  m : b.l = true → s'.m (f.ml i .R13) = s.m (f.ml i .R23) ∧ s'.m (f.ml i .T13) = s.m (f.ml i .T23) ∧
    s'.m (f.ml i .R31) = s.m (f.ml i .R32) ∧ s'.m (f.ml i .T31) = s.m (f.ml i .T32)
  v : b.s = true → s'.v (f.vl i .S13) = s.v (f.vl i .S23) ∧ s'.v (f.vl i .S31) = s.v (f.vl i .S32)

theorem copyBody (i : Nat) (a b : Act) (s : Mem n K) :
    Post (runDo inv? [match a, b with
      | .U, .S => .calls [.copyV (frameAll.vl i .S13) (frameAll.vl i .S23), .copyV (frameAll.vl i .S31) (frameAll.vl i .S32)]
      | .U, .L => .calls [.copy (frameAll.ml i .R13) (frameAll.ml i .R23), .copy (frameAll.ml i .T13) (frameAll.ml i .T23),
          .copy (frameAll.ml i .R31) (frameAll.ml i .R32), .copy (frameAll.ml i .T31) (frameAll.ml i .T32)]
      | .U, .B => .calls [.copy (frameAll.ml i .R13) (frameAll.ml i .R23), .copy (frameAll.ml i .T13) (frameAll.ml i .T23),
          .copyV (frameAll.vl i .S13) (frameAll.vl i .S23),
          .copy (frameAll.ml i .R31) (frameAll.ml i .R32), .copy (frameAll.ml i .T31) (frameAll.ml i .T32),
          .copyV (frameAll.vl i .S31) (frameAll.vl i .S32)]
      | _, _ => (.nothing : Do K)] s) fun s' => CopyOnly frameAll i s s' ∧ (a = .U → CopyDone frameAll i b s s') := by
  have triv : CopyOnly frameAll i s s := ⟨fun _ _ _ _ _ => rfl, fun _ _ _ => rfl⟩
  cases a <;> cases b <;> simp only [runDo, run, step, Post_ok]
  case U.U => exact ⟨triv, fun _ => ⟨fun w => absurd w (by decide), fun w => absurd w (by decide)⟩⟩
  case U.S =>
    refine ⟨⟨fun c _ _ _ _ => rfl, fun c h1 h2 => ?_⟩, fun _ => ⟨fun w => absurd w (by decide), fun _ => ?_⟩⟩
    · simp [Mem.setV, h1, h2]
    · simp [Mem.setV, frameAll, allV, cellV_inj]
  case U.L =>
    refine ⟨⟨fun c h1 h2 h3 h4 => ?_, fun c _ _ => rfl⟩, fun _ => ⟨fun _ => ?_, fun w => absurd w (by decide)⟩⟩
    · simp [Mem.setM, h1, h2, h3, h4]
    · simp [Mem.setM, frameAll, allM, cellM_inj]
  case U.B =>
    refine ⟨⟨fun c h1 h2 h3 h4 => ?_, fun c h1 h2 => ?_⟩, fun _ => ⟨fun _ => ?_, fun _ => ?_⟩⟩
    · simp [Mem.setM, Mem.setV, h1, h2, h3, h4]
    · simp [Mem.setM, Mem.setV, h1, h2]
    · simp [Mem.setM, Mem.setV, frameAll, allM, cellM_inj]
    · simp [Mem.setM, Mem.setV, frameAll, allV, cellV_inj]
  all_goals exact ⟨triv, fun w => absurd w (by decide)⟩

theorem copyAll_post (nd : Nat) (act : Nat → Act × Act) (s : Mem n K) :
    Post (runDo inv? (copyAllL frameAll nd act) s) fun s' =>
      both (vals frameAll s') = lower (vals frameAll s) ∧
      ∀ i, i < nd → (act i).1 = .U → CopyDone frameAll i (act i).2 s s' := by
  have hlt : ∀ x, allM x < 8 := allM_lt
  have hvt : ∀ x, allV x < 8 := allV_lt
  rw [copyAllL, derivLoop]
  have e1 : ∃ s1 : Mem n K, run inv? [.copy (frameAll.m .R13) (frameAll.m .R23), .copy (frameAll.m .T13) (frameAll.m .T23),
      .copyV (frameAll.v .S13) (frameAll.v .S23), .copy (frameAll.m .R31) (frameAll.m .R32),
      .copy (frameAll.m .T31) (frameAll.m .T32), .copyV (frameAll.v .S31) (frameAll.v .S32)] s = .ok s1 ∧
      both (vals frameAll s1) = lower (vals frameAll s) ∧
      (∀ i k, k < 8 → s1.m (cellM (i + 1) k) = s.m (cellM (i + 1) k)) ∧
      (∀ i k, k < 8 → s1.v (cellV (i + 1) k) = s.v (cellV (i + 1) k)) := by
    refine ⟨_, rfl, ?_, ?_, ?_⟩
    · simp [both, lower, vals, frameAll, allM, allV, Mem.setM, Mem.setV, cellM_inj, cellV_inj]
    · intro i k hk
      simp [frameAll, allM, Mem.setM, Mem.setV, cellM_inj, hk]
    · intro i k hk
      simp [frameAll, allV, Mem.setM, Mem.setV, cellV_inj, hk]
  obtain ⟨s1, e1, hb, hm, hv⟩ := e1
  rw [runDo, e1]
  refine (copyLoop (inv? := inv?) (s := s1) (I := fun k s' => both (vals frameAll s') = lower (vals frameAll s) ∧
    (∀ i, i < k → (act i).1 = .U → CopyDone frameAll i (act i).2 s s') ∧
    (∀ i, k ≤ i → ∀ a, a < 8 → s'.m (cellM (i + 1) a) = s.m (cellM (i + 1) a) ∧
      s'.v (cellV (i + 1) a) = s.v (cellV (i + 1) a))) ?_ ?_).mono fun s' h => ⟨h.1, h.2.1⟩
  · exact ⟨hb, fun i hi => absurd hi (by omega), fun i _ a ha => ⟨hm i a ha, hv i a ha⟩⟩
  · rintro i hi s' ⟨h1, h2, h3⟩
    -- each case: what changed is only of derivative `i`
    have fin : ∀ s'', CopyOnly frameAll i s' s'' → ((act i).1 = .U → CopyDone frameAll i (act i).2 s' s'') →
        both (vals frameAll s'') = lower (vals frameAll s) ∧
        (∀ j, j < i + 1 → (act j).1 = .U → CopyDone frameAll j (act j).2 s s'') ∧
        (∀ j, i + 1 ≤ j → ∀ a, a < 8 → s''.m (cellM (j + 1) a) = s.m (cellM (j + 1) a) ∧
          s''.v (cellV (j + 1) a) = s.v (cellV (j + 1) a)) := by
      intro s'' ho hd
      have gm : ∀ j a, j ≠ i + 1 → a < 8 → s''.m (cellM j a) = s'.m (cellM j a) := by
        intro j a hj ha
        refine ho.m _ ?_ ?_ ?_ ?_ <;> simp [frameAll, allM, cellM_inj, ha, hj]
      have gv : ∀ j a, j ≠ i + 1 → a < 8 → s''.v (cellV j a) = s'.v (cellV j a) := by
        intro j a hj ha
        refine ho.v _ ?_ ?_ <;> simp [frameAll, allV, cellV_inj, ha, hj]
      refine ⟨?_, fun j hj hU => ?_, fun j hj a ha => ?_⟩
      · rw [← h1]
        simp only [both, vals, frameAll]
        simp only [gm 0 _ (by omega) (hlt _), gv 0 _ (by omega) (hvt _)]
      · by_cases e : j = i
        · subst e
          obtain ⟨d1, d2⟩ := hd hU
          have k1 := fun a (ha : a < 8) => (h3 j (Nat.le_refl _) a ha).1
          have k2 := fun a (ha : a < 8) => (h3 j (Nat.le_refl _) a ha).2
          simp only [frameAll, k1 _ (hlt _), k2 _ (hvt _)] at d1 d2
          exact ⟨d1, d2⟩
        · obtain ⟨d1, d2⟩ := h2 j (by omega) hU
          refine ⟨fun w => ?_, fun w => ?_⟩
          · have := d1 w
            simp only [frameAll] at this ⊢
            simp only [gm (j + 1) _ (by omega) (hlt _)]
            exact this
          · have := d2 w
            simp only [frameAll] at this ⊢
            simp only [gv (j + 1) _ (by omega) (hvt _)]
            exact this
      · rw [gm _ _ (by omega) ha, gv _ _ (by omega) ha]
        exact h3 j (by omega) a ha
    exact (copyBody (inv? := inv?) i (act i).1 (act i).2 s').mono fun s'' h => fin s'' h.1 h.2

end Xrtm.Adding
