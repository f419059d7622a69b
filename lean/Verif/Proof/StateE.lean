import Verif.Proof.StateD

/-! What a failing call leaves behind, and the invariant over all histories. -/

namespace Xrtm

open Spec

variable {F : Type}

attribute [local simp] mem_upto mem_between

/-- A step within the declared leaks of a call: no dependency notice, writes only to the
cells of `LeakF`, `LeakI`, `LeakS`, and coefficient counts in range. -/
def LeakCmd (c : Config) (op : Op F) : Cmd F → Prop
  | .wr l _ => LeakF c op l
  | .wrI l n => LeakI c op l ∧ ∀ i, l = .nCoefLayer i → 0 ≤ n ∧ n ≤ c.nCoef
  | .flag l => LeakS c op l
  | .flagIfInit l => LeakS c op l
  | .dep .. => False
  | _ => True

theorem adjust_split [Fp F] (c : Config) (m : F) (qs : List F) (k : Nat) :
    ∃ X Y, adjustCmds c m qs k = X ++ Y ∧
      (∀ d ∈ X, (∃ x, d = .wr .mu0 x) ∨ ∃ b, d = .check b .intErr) ∧
      (∀ d ∈ Y, d = .dep DEP_MU_0 0 c.nLayers) := by
  induction qs generalizing k with
  | nil =>
      refine ⟨[], if k > 0 then [.dep DEP_MU_0 0 c.nLayers] else [], rfl, by simp, ?_⟩
      split <;> simp
  | cons q qs ih =>
      simp only [adjustCmds]
      split
      · obtain ⟨X, Y, h, hX, hY⟩ := ih (k + 1)
        refine ⟨.wr .mu0 _ :: .check _ .intErr :: X, Y, by rw [h]; rfl, ?_, hY⟩
        intro d hd
        rcases List.mem_cons.1 hd with rfl | hd
        · exact .inl ⟨_, rfl⟩
        rcases List.mem_cons.1 hd with rfl | hd
        · exact .inr ⟨_, rfl⟩
        · exact hX d hd
      · obtain ⟨X, Y, h, hX, hY⟩ := ih k
        refine ⟨.check _ .intErr :: X, Y, by rw [h]; rfl, ?_, hY⟩
        intro d hd
        rcases List.mem_cons.1 hd with rfl | hd
        · exact .inr ⟨_, rfl⟩
        · exact hX d hd

/-- Stopping inside `A ++ B` with nothing to stop at in `B`: the executed part is a prefix
of `A`. -/
theorem stop_prefix {s s' : State F} {a b : List (Cmd F)} {r : Code}
    (h : exec (a ++ b) s = .stop r s') (hb : ∀ d ∈ b, d.canStop = false) :
    ∃ p q, a = p ++ q ∧ s' = effs p s ∧ Passes p := by
  obtain ⟨p, c, q, h1, h2, _, h3⟩ := exec_stop (exec_stop_front h hb)
  exact ⟨p, c :: q, h1, h3, exec_done_passes h2⟩

theorem exec_noStop {cs : List (Cmd F)} (hb : ∀ d ∈ cs, d.canStop = false) (s s' : State F)
    (r : Code) : exec cs s ≠ .stop r s' := by
  intro h
  obtain ⟨p, c, q, hcs, _, hc, _⟩ := exec_stop h
  have := hb c (by rw [hcs]; simp)
  rcases (step1_stop hc).2 with ⟨b, hb⟩ | ⟨l, hl⟩
  · rw [hb] at this; simp [Cmd.canStop] at this
  · rw [hl] at this; simp [Cmd.canStop] at this

theorem flags_nil_of {p : List (Cmd F)} {l : SLoc}
    (h : ∀ d ∈ p, d ≠ .flag l ∧ d ≠ .flagIfInit l) : flags true p l = false := by
  cases hf : flags true p l with
  | false => rfl
  | true =>
      rcases flags_iff.1 hf with h1 | ⟨_, h1⟩
      · exact absurd rfl (h _ h1).1
      · exact absurd rfl (h _ h1).2

set_option maxHeartbeats 1000000 in
/-- What a failing leaky call did before it failed. -/
theorem leak_stop [Fp F] {s s' : State F} {op : Op F} {r : Code} (hc : CfgFacts s.cfg)
    (hn : 0 ≤ s.cfg.nCoef)
    (h : exec (setCmds s op) s = .stop r s') (hl : Leaky op = true) :
    ∃ p, s' = effs p s ∧ (∀ d ∈ p, LeakCmd s.cfg op d) ∧
      (flags true p .umus = true → ∀ i, s.cfg.nQuad ≤ i → i < s.cfg.nQuad + s.cfg.nOutThetas →
        (lastF p (.qx i)).isSome = true) := by
  cases op <;> simp [Leaky] at hl
  · rename_i t
    simp only [setCmds] at h
    obtain ⟨p, q, h1, h2, h3⟩ := stop_prefix h (by simp [Cmd.canStop])
    refine ⟨p, h2, ?_, ?_⟩
    · intro d hd
      have : d ∈ p ++ q := by simp [hd]
      rw [← h1] at this
      simp at this
      rcases this with rfl | ⟨i, hi, rfl | rfl⟩
      · trivial
      · trivial
      · exact hi
    · intro hf
      rw [flags_nil_of] at hf
      · contradiction
      · intro d hd
        have : d ∈ p ++ q := by simp [hd]
        rw [← h1] at this
        simp at this
        rcases this with rfl | ⟨i, hi, rfl | rfl⟩ <;> simp
  · rename_i t
    simp only [setCmds] at h
    by_cases hm : s.isSet .mu0 = true
    · simp only [hm, if_true] at h
      obtain ⟨X, Y, he, hX, hY⟩ := adjust_split s.cfg (s.fv .mu00)
          ((upto s.cfg.nQuad).map (fun i => s.fv (.qx i)) ++
            (upto s.cfg.nOutThetas).map fun i => Fp.cos (Fp.mul (t i) Fp.d2r)) 0
      rw [he] at h
      simp only [List.append_assoc] at h
      rw [← List.append_assoc] at h
      rcases exec_stop_checks h (by
        intro d hd; simp at hd; rcases hd with rfl | ⟨i, _, rfl⟩ <;> rfl) with h | ⟨_, h⟩
      · exact ⟨[], by simp [h], by simp, by simp [flags]⟩
      rw [← List.append_assoc, exec_append] at h
      generalize hA : ((upto s.cfg.nOutThetas).map fun i =>
          Cmd.wr (.qx (s.cfg.nQuad + i)) (Fp.cos (Fp.mul (t i) Fp.d2r))) ++
        [Cmd.flag .umus, .wrI .nFour2 (nFour2Of s.cfg true true (s.fv .mu00)
          (Fp.cos (Fp.mul (t 0) Fp.d2r)))] = A at h
      have memA : ∀ d ∈ A, LeakCmd s.cfg (.setOutThetas t) d ∧ d.canStop = false := by
        intro d hd
        rw [← hA] at hd
        simp at hd
        rcases hd with ⟨i, hi, rfl⟩ | rfl | rfl
        · exact ⟨by simp only [LeakCmd, LeakF]; omega, rfl⟩
        · exact ⟨trivial, rfl⟩
        · exact ⟨⟨trivial, by simp⟩, rfl⟩
      cases hAe : exec A s with
      | ub k => rw [hAe] at h; contradiction
      | stop r1 s1 =>
          obtain ⟨p, c, q, h1, _, h3, _⟩ := exec_stop hAe
          have := (memA c (by rw [h1]; simp)).2
          rcases (step1_stop h3).2 with ⟨b, rfl⟩ | ⟨l, rfl⟩ <;> simp [Cmd.canStop] at this
      | done s1 =>
          rw [hAe] at h
          rw [← List.append_assoc, ← List.append_assoc, ← List.append_assoc, List.append_assoc] at h
          obtain ⟨p, q, h1, h2, h3⟩ := stop_prefix h (by
            intro d hd
            rcases List.mem_append.1 hd with hd | hd
            · rw [hY d hd]; rfl
            · simp at hd; rw [hd]; rfl)
          refine ⟨A ++ p, by rw [effs_append, ← exec_done hAe, h2], ?_, ?_⟩
          · intro d hd
            rcases List.mem_append.1 hd with hd | hd
            · exact (memA d hd).1
            · have : d ∈ p ++ q := by simp [hd]
              rw [← h1] at this
              simp at this
              rcases this with rfl | rfl | ⟨i, hi, rfl⟩ | hd
              · trivial
              · trivial
              · trivial
              · rcases hX d hd with ⟨x, rfl⟩ | ⟨b, rfl⟩ <;> trivial
          · intro _ i h0 h1
            rw [lastF_append]
            have : (lastF A (.qx i)).isSome = true := by
              rw [Option.isSome_iff_ne_none, ne_eq, lastF_none, ← hA]
              intro hh
              apply hh (Fp.cos (Fp.mul (t (i - s.cfg.nQuad)) Fp.d2r))
              simp
              refine ⟨i - s.cfg.nQuad, by omega, by omega, rfl⟩
            simp [this]
    · simp only [hm] at h
      simp only [Bool.false_eq_true, if_false, List.append_assoc] at h
      rw [← List.append_assoc] at h
      rcases exec_stop_checks h (by
        intro d hd; simp at hd; rcases hd with rfl | ⟨i, _, rfl⟩ <;> rfl) with h | ⟨_, h⟩
      · exact ⟨[], by simp [h], by simp, by simp [flags]⟩
      · refine absurd h (exec_noStop ?_ _ _ _)
        intro d hd; simp at hd; rcases hd with ⟨i, _, rfl⟩ | rfl | rfl | rfl <;> rfl
  · rename_i x
    simp only [setCmds] at h
    obtain ⟨X, Y, he, hX, hY⟩ := adjust_split s.cfg (Fp.cos (Fp.mul x Fp.d2r))
      ((upto (if s.isSet .umus then s.cfg.nQuad + s.cfg.nOutThetas else s.cfg.nQuad)).map
          fun i => s.fv (.qx i)) 0
    rw [he] at h
    rw [← List.append_assoc, List.append_assoc] at h
    obtain ⟨p, q, h1, h2, h3⟩ := stop_prefix h (by
      intro d hd
      rcases List.mem_append.1 hd with hd | hd
      · rw [hY d hd]; rfl
      · simp at hd; rcases hd with rfl | rfl <;> rfl)
    have hm : ∀ d ∈ p, LeakCmd s.cfg (.setTheta0 x) d ∧ d ≠ .flag .umus ∧ d ≠ .flagIfInit .umus := by
      intro d hd
      have : d ∈ p ++ q := by simp [hd]
      rw [← h1] at this
      simp only [List.mem_append, ite_nil_mem, List.mem_map, List.mem_cons, List.not_mem_nil,
        or_false] at this
      rcases this with ((((rfl | rfl | rfl) | ⟨_, rfl⟩) | rfl | rfl) | ⟨i, hi, rfl⟩) | hd
      · exact ⟨trivial, by simp, by simp⟩
      · exact ⟨trivial, by simp, by simp⟩
      · exact ⟨trivial, by simp, by simp⟩
      · exact ⟨trivial, by simp, by simp⟩
      · exact ⟨⟨trivial, by simp⟩, by simp, by simp⟩
      · exact ⟨trivial, by simp, by simp⟩
      · exact ⟨trivial, by simp, by simp⟩
      · rcases hX d hd with ⟨x, rfl⟩ | ⟨b, rfl⟩
        · exact ⟨trivial, by simp, by simp⟩
        · exact ⟨trivial, by simp, by simp⟩
    refine ⟨p, h2, fun d hd => (hm d hd).1, ?_⟩
    intro hf
    rw [flags_nil_of fun d hd => (hm d hd).2] at hf
    contradiction
  · rename_i i n v
    simp only [setCmds] at h
    have hb : between i (i + 1) = [i] := by simp [between, upto]
    have hcnt := @coefCmds_cnt F _ s.cfg (if n < 0 then none else some fun _ => n) (fun _ => v) i (i + 1) hn
    simp only [coefCmds, hb, List.flatMap_cons, List.flatMap_nil, List.append_nil] at h hcnt
    rw [List.append_assoc] at h
    rcases exec_stop_checks h (by
      split <;> simp [Cmd.pure, ckIdx]) with h | ⟨hp, h⟩
    · exact ⟨[], by simp [h], by simp, by simp [flags]⟩
    rw [List.append_assoc, List.append_assoc] at h
    obtain ⟨p, q, h1, h2, h3⟩ := stop_prefix h (by
      intro d hd
      simp at hd
      rcases hd with ⟨e, _, k, _, rfl⟩ | rfl | rfl <;> rfl)
    have hcnt := fun m => hcnt (fun b c hb => hp b c (List.mem_append_right _ hb)) (i := i) (m := m)
    have hm : ∀ d ∈ p, LeakCmd s.cfg (.setCoef1 i n v) d ∧ d ≠ .flag .umus ∧ d ≠ .flagIfInit .umus := by
      intro d hd
      have : d ∈ p ++ q := by simp [hd]
      rw [← h1] at this
      simp only [List.mem_cons, List.not_mem_nil, or_false] at this
      rcases this with rfl | rfl | rfl
      · refine ⟨⟨rfl, ?_⟩, by simp, by simp⟩
        intro j hj
        apply hcnt
        simp
      · exact ⟨⟨rfl, by simp⟩, by simp, by simp⟩
      · exact ⟨trivial, by simp, by simp⟩
    refine ⟨p, h2, fun d hd => (hm d hd).1, ?_⟩
    intro hf
    rw [flags_nil_of fun d hd => (hm d hd).2] at hf
    contradiction
  · rename_i n v
    simp only [setCmds] at h
    have hcnt := @coefCmds_cnt F _ s.cfg n v 0 s.cfg.nLayers hn
    simp only [coefCmds] at h hcnt
    rw [List.append_assoc] at h
    rcases exec_stop_checks h (by
      split
      · simp [Cmd.pure, ckIdx]
      · intro d hd; simp [ckIdx] at hd
        rcases hd with rfl | rfl | ⟨i, _, rfl | rfl⟩ <;> rfl) with h | ⟨hp, h⟩
    · exact ⟨[], by simp [h], by simp, by simp [flags]⟩
    obtain ⟨p, q, h1, h2, h3⟩ := stop_prefix h (by simp [Cmd.canStop])
    have hcnt := fun i m => hcnt (fun b c hb => hp b c (List.mem_append_right _ hb)) (i := i) (m := m)
    have hm : ∀ d ∈ p, LeakCmd s.cfg (.setCoefN n v) d ∧ d ≠ .flag .umus ∧ d ≠ .flagIfInit .umus := by
      intro d hd
      have hd : d ∈ p ++ q := by simp [hd]
      rw [← h1] at hd
      have hd' := hd
      simp only [List.mem_flatMap, List.mem_append, List.mem_cons, List.not_mem_nil, or_false,
        List.mem_map, mem_between, mem_upto] at hd
      obtain ⟨i, hi, ((rfl | rfl | rfl) | ⟨e, he, k, hk, rfl⟩) | rfl⟩ := hd
      · refine ⟨⟨hi, ?_⟩, by simp, by simp⟩
        intro j hj
        exact hcnt i _ (List.mem_append_left _ (List.mem_append_right _ hd'))
      · exact ⟨⟨hi, by simp⟩, by simp, by simp⟩
      · exact ⟨trivial, by simp, by simp⟩
      · exact ⟨hi, by simp, by simp⟩
      · exact ⟨hi, by simp, by simp⟩
    refine ⟨p, h2, fun d hd => (hm d hd).1, ?_⟩
    intro hf
    rw [flags_nil_of fun d hd => (hm d hd).2] at hf
    contradiction

theorem Inv.init [Fp F] {c : Config} (hw : 0 ≤ c.nCoef) (kernels : Int → Int) (quad : Int → F) :
    Inv c kernels (initState c kernels quad) where
  cfg := rfl
  kern := rfl
  quad := by intro i _ h; simp [initState, h]
  cnt := by intro i _ _; exact ⟨c.nCoef, rfl, hw, Int.le_refl _⟩
  cells := by intro l x h; simp [initState] at h
  cellsI := by intro l x h; simp [initState] at h
  complete := by intro h; simp [initState] at h

/-- Counts an accepted setter writes are in range. -/
theorem set_cnt [Fp F] {s : State F} (hn : 0 ≤ s.cfg.nCoef) (op : Op F) (hp : Passes (setCmds s op))
    (i n : Int) (h : Cmd.wrI (.nCoefLayer i) n ∈ setCmds s op) : 0 ≤ n ∧ n ≤ s.cfg.nCoef := by
  have hs : (lastI (setCmds s op) (.nCoefLayer i)).isSome = true := by
    rw [Option.isSome_iff_ne_none, ne_eq, lastI_none]
    exact fun hh => hh n h
  rw [set_lastI s op _ rfl] at hs
  cases op <;> simp [assignI] at hs
  · rename_i i' n' v
    simp only [setCmds] at h hp
    refine coefCmds_cnt hn (fun b c hb => hp b c ?_) h
    simp only [coefCmds]
    exact List.mem_append_left _ (List.mem_append_left _ (List.mem_append_right _ hb))
  · rename_i n' v
    simp only [setCmds] at h hp
    refine coefCmds_cnt hn (fun b c hb => hp b c ?_) h
    simp only [coefCmds]
    exact List.mem_append_left _ (List.mem_append_left _ (List.mem_append_right _ hb))

theorem Inv.set_done [Fp F] {c : Config} {kernels : Int → Int} {s s' : State F} {op : Op F}
    (hi : Inv c kernels s) (hn : 0 ≤ c.nCoef) (h : exec (setCmds s op) s = .done s') :
    Inv c kernels s' := by
  rw [exec_done h]
  refine hi.effs _ ?_ ?_ ?_
  · intro i n hm
    rw [← hi.cfg] at hn ⊢
    exact set_cnt hn op (exec_done_passes h) i n hm
  · intro l x hf hx
    rw [set_lastF s op x (FlagCell_ne hx)]
    rw [← hi.cfg] at hx
    exact provides_cell _ _ _ _ l x ((set_flags s op l).1 hf) hx
  · intro l x hf hx
    rw [set_lastI s op x (FlagCellI_nd hx)]
    rw [← hi.cfg] at hx
    exact provides_cellI _ _ _ l x ((set_flags s op l).1 hf) hx

theorem Inv.set_stop [Fp F] {c : Config} {kernels : Int → Int} {s s' : State F} {op : Op F} {r : Code}
    (hi : Inv c kernels s) (hc : CfgFacts c) (hn : 0 ≤ c.nCoef)
    (h : exec (setCmds s op) s = .stop r s') : Inv c kernels s' := by
  cases hl : Leaky op with
  | false => rw [exec_stop_tidy (set_tidy s op hl) h]; exact hi
  | true =>
      obtain ⟨p, h1, h2, h3⟩ := leak_stop (by rw [hi.cfg]; exact hc) (by rw [hi.cfg]; exact hn) h hl
      rw [hi.cfg] at h2 h3
      rw [h1]
      have hs : ∀ l, flags true p l = true → LeakS c op l := by
        intro l hl
        rcases flags_iff.1 hl with hm | ⟨_, hm⟩ <;> exact h2 _ hm
      refine hi.effs _ ?_ ?_ ?_
      · intro i n hm
        exact (h2 _ hm).2 i rfl
      · intro l x hf hx
        have := hs l hf
        cases l <;> cases op <;> simp [LeakS] at this
        · obtain ⟨i, h0, h1, rfl⟩ := hx
          exact h3 hf i h0 h1
        · contradiction
      · intro l x hf hx
        have := hs l hf
        cases l <;> cases op <;> simp [LeakS] at this <;> contradiction

end Xrtm
