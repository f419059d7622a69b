import Verif.Proof.StateI

/-! Relations between stored inputs. -/

namespace Xrtm

open Spec

variable {F : Type}

attribute [local simp] mem_upto mem_between

theorem reach_levelsZ [Fp F] {c : Config} {kernels : Int → Int} {quad : Int → F} {h s} (hw : WF c)
    (hr : Reach c kernels quad h s) {i : Int} {a b : F} (h0 : 0 ≤ i) (h1 : i < c.nLayers)
    (ha : s.f (.levelsZ i) = some a) (hb : s.f (.levelsZ (i + 1)) = some b) : Fp.lt a b = false := by
  induction hr with
  | init => simp [initState] at ha
  | @call h s op r s' hr hc ih =>
      have hi := hr.inv hw
      by_cases hok : r = .ok
      · subst hok
        rw [(call_ok hi hc).1 _ (by simp)] at ha hb
        cases op
        case setLevelsZ z =>
          rcases apply_set_cases (op := .setLevelsZ z) trivial hc with ⟨_, he⟩ | ⟨h, _⟩
          · have hp := exec_done_passes he
            have := hp (Fp.lt (z i) (z (i + 1))) .intErr (by
              have hm : Cmd.check (Fp.lt (z (i + 1 - 1)) (z (i + 1))) Code.intErr ∈
                  (between 1 (c.nLayers + 1)).map fun i => Cmd.check (F := F) (Fp.lt (z (i - 1)) (z i)) .intErr :=
                List.mem_map.2 ⟨i + 1, by simp; omega, rfl⟩
              rw [show i + 1 - 1 = i by omega] at hm
              simp only [setCmds, hi.cfg, List.mem_append]
              exact .inl (.inl (.inr hm)))
            simp [assignF, given, h0, show i ≤ c.nLayers by omega] at ha
            simp [assignF, given, show 0 ≤ i + 1 by omega, show i + 1 ≤ c.nLayers by omega] at hb
            rw [← ha, ← hb, this]
          · exact absurd rfl h
        all_goals
          simp [assignF] at ha hb
          exact ih ha hb
      · have hf := call_frame hw hi hc hok
        have hl : ∀ j, ¬ LeakF c op (.levelsZ j) := by intro j; cases op <;> simp [LeakF]
        rw [hf.f _ (hl _)] at ha hb
        exact ih ha hb

theorem reach_ulevels [Fp F] {c : Config} {kernels : Int → Int} {quad : Int → F} {h s} (hw : WF c)
    (hr : Reach c kernels quad h s) {i a b : Int} (h0 : 0 ≤ i) (h1 : i + 1 < c.nOutLevels)
    (ha : s.i (.ulevel i) = some a) (hb : s.i (.ulevel (i + 1)) = some b) : a < b := by
  induction hr with
  | init =>
      have := hw.layers
      simp [initState] at ha hb
      grind
  | @call h s op r s' hr hc ih =>
      have hi := hr.inv hw
      by_cases hok : r = .ok
      · subst hok
        rw [(call_ok hi hc).2.1 _ rfl] at ha hb
        cases op
        case setOutLevels z =>
          rcases apply_set_cases (op := .setOutLevels z) trivial hc with ⟨_, he⟩ | ⟨h, _⟩
          · have := (levels_facts (exec_done_passes he)).2 i h0 (by rw [hi.cfg]; exact h1)
            simp [assignI, given, h0, show i < c.nOutLevels by omega] at ha
            simp [assignI, given, h1, show 0 ≤ i + 1 by omega] at hb
            rw [← ha, ← hb]; exact this
          · exact absurd rfl h
        all_goals
          simp [assignI] at ha hb
          exact ih ha hb
      · have hf := call_frame hw hi hc hok
        have hl : ∀ j, ¬ LeakI c op (.ulevel j) := by intro j; cases op <;> simp [LeakI]
        rw [hf.i _ (hl _)] at ha hb
        exact ih ha hb

theorem reach_coef0 [Fp F] {c : Config} {kernels : Int → Int} {quad : Int → F} {h s} (hw : WF c)
    (hr : Reach c kernels quad h s) (hq : Quiet h) {i n : Int} {x : F}
    (hn : s.i (.nCoefLayer i) = some n) (h1 : 1 < n) (hx : s.f (.coef i 0 0) = some x) :
    Fp.lt Fp.dblEps (Fp.abs (Fp.sub Fp.one x)) = false := by
  induction hr generalizing n with
  | init => simp [initState] at hx
  | @call h s op r s' hr hc ih =>
      have ih := @ih fun o ho => hq o (List.mem_cons_of_mem _ ho)
      have hi := hr.inv hw
      have he := hw.elems
      by_cases hok : r = .ok
      · subst hok
        rw [(call_ok hi hc).1 _ (by simp)] at hx
        rw [(call_ok hi hc).2.1 _ rfl] at hn
        cases op
        case setCoef1 i' m v =>
          by_cases hii : i = i'
          · subst hii
            rcases apply_set_cases (op := .setCoef1 i m v) trivial hc with ⟨_, hd⟩ | ⟨h, _⟩
            · simp [assignI, given] at hn
              simp [assignF, given, he, hn, show 0 < n by omega] at hx
              have hp := exec_done_passes hd
              unfold Passes at hp
              by_cases hm : m < 0
              · have := hp (decide (c.nCoef > 1) && Fp.lt Fp.dblEps (Fp.abs (Fp.sub Fp.one (v 0 0)))) .intErr (by
                  simp [setCmds, coefCmds, hm, between_one, hi.cfg])
                simp [hm] at hn
                simp at this
                rw [← hx]
                exact this (by omega)
              · have := hp (decide (m > 1) && Fp.lt Fp.dblEps (Fp.abs (Fp.sub Fp.one (v 0 0)))) .intErr (by
                  simp [setCmds, coefCmds, hm, between_one, hi.cfg])
                simp [hm] at hn
                simp at this
                rw [← hx]
                exact this (by omega)
            · exact absurd rfl h
          · simp [assignI, assignF, given, hii] at hn hx
            exact ih hn h1 hx
        case setCoefN m v =>
          by_cases hii : IsLayer c i
          · rcases apply_set_cases (op := .setCoefN m v) trivial hc with ⟨_, hd⟩ | ⟨h, _⟩
            · simp [assignI, given, hii] at hn
              simp [assignF, given, he, hn, hii, show 0 < n by omega] at hx
              have hp := exec_done_passes hd
              unfold Passes at hp
              cases m with
              | none =>
                have := hp (decide (c.nCoef > 1) && Fp.lt Fp.dblEps (Fp.abs (Fp.sub Fp.one (v i 0 0)))) .intErr (by
                  simp [setCmds, coefCmds, hi.cfg]
                  exact .inr (.inr ⟨i, hii, rfl⟩))
                simp at hn
                simp at this
                rw [← hx]
                exact this (by omega)
              | some m =>
                have := hp (decide (m i > 1) && Fp.lt Fp.dblEps (Fp.abs (Fp.sub Fp.one (v i 0 0)))) .intErr (by
                  simp [setCmds, coefCmds, hi.cfg, -List.mem_cons]
                  simp
                  first
                    | exact .inr ⟨i, hii, rfl⟩
                    | exact .inr (.inr (.inr ⟨i, hii, rfl⟩)))
                simp at hn
                simp at this
                rw [← hx]
                exact this (by omega)
            · exact absurd rfl h
          · simp [assignI, assignF, given, hii] at hn hx
            exact ih hn h1 hx
        all_goals
          simp [assignI] at hn
          simp [assignF] at hx
          exact ih hn h1 hx
      · have hf := call_frame hw hi hc hok
        obtain ⟨n1, n2, n3⟩ := Leak_none (c := c) (hq (op, r) List.mem_cons_self hok)
        rw [hf.f _ (n1 _)] at hx
        rw [hf.i _ (n2 _)] at hn
        exact ih hn h1 hx

end Xrtm
