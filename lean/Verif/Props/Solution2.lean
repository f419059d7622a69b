import Verif.Proof.Solution2
import Verif.Proof.Session
import Mathlib.Analysis.Calculus.Deriv.Add
import Mathlib.Analysis.Calculus.Deriv.Mul

/-!
# C38: what `xrtm_solution_2` leaves behind and returns
-/

namespace Xrtm

open Solution2 Solution2.Spec Xrtm.Spec

variable {F : Type} [Arith F] {X : Type}

/-! ### The index -/

/-- **C38**: for every pair of output options that `xrtm_create` can leave, the loop index runs through all
elements of `I_p`, `I_m` that are asked for, each once: directions one after the other, each in the order
of its elements in memory. -/
theorem C38_index {o : Word} {input : List Nat} (h : dirsOf o = some input) (d : Dims) :
    (∀ i, i < input.length * d.block → ∃ p, decode d input i = some p ∧ p.dir ∈ input ∧ InRange d p) ∧
    (∀ p, p.dir ∈ input → InRange d p → ∃! i, i < input.length * d.block ∧ decode d input i = some p) ∧
    ∀ p, p.dir ∈ input → InRange d p → ∃ b, decode d input (b * d.block +
      (((p.lev * d.nMu + p.mu) * d.nPhi + p.phi) * d.nSt + p.st)) = some p ∧ input[b]? = some p.dir := by
  have hi := dirsOf_cases h
  refine ⟨fun i hlt => ?_, fun p hd hr => ?_, fun p hd hr => ?_⟩
  · obtain ⟨p, h1, h2, h3, -⟩ := decode_some hi hlt
    exact ⟨p, h1, h2, h3⟩
  · obtain ⟨h1, h2⟩ := at_decode hi hd hr
    refine ⟨_, ⟨h1, h2⟩, ?_⟩
    rintro i ⟨hlt, he⟩
    obtain ⟨p', h3, -, -, h4⟩ := decode_some hi hlt
    rw [he] at h3
    injection h3 with h3
    rw [h3, h4]
  · obtain ⟨-, h2⟩ := at_decode hi hd hr
    unfold at' at h2
    by_cases e : input[0]? = some p.dir
    · rw [if_pos e] at h2
      exact ⟨0, by rw [Nat.zero_mul, Nat.zero_add]; exact h2, e⟩
    · rw [if_neg e] at h2
      refine ⟨1, by rw [Nat.one_mul]; exact h2, ?_⟩
      rcases hi with rfl | rfl | rfl
      · rcases List.mem_cons.1 hd with e2 | e2
        · exact absurd (by rw [e2]; rfl) e
        · have e2 : p.dir = 1 := by simpa using e2
          rw [e2]; rfl
      · exact absurd (by rw [show p.dir = 0 by simpa using hd]; rfl) e
      · exact absurd (by rw [show p.dir = 1 by simpa using hd]; rfl) e

/-- Two levels, three angles, two azimuths, four components, both directions. -/
example : decode ⟨2, 3, 2, 4⟩ [0, 1] 79 = some ⟨1, 1, 0, 1, 3⟩ := by decide

/-- The output options of an instance always name a direction, so `n_dirs` is set. -/
theorem C38_directions [Fp F] {c : Config} {kern quad h} {s : State F} (S : Session c kern quad h s) :
    ∃ input, dirsOf s.cfg.options = some input := by
  have hc : s.cfg = c := S.inv.cfg
  obtain ⟨w, sv, n, ks, h1, h2, -⟩ := S.args
  have hcfg := create_ok h2
  have hu := optsOf_config w sv n .upwellingOutput
  have hd := optsOf_config w sv n .downwellingOutput
  rw [← hcfg] at hu hd
  simp only [withDefaults, reduceCtorEq, false_and, or_false] at hu hd
  have hu' : optsOf c.options .upwellingOutput ↔ has c.options OPT_UPWELLING_OUTPUT = true :=
    (has_opt _ .upwellingOutput).symm
  have hd' : optsOf c.options .downwellingOutput ↔ has c.options OPT_DOWNWELLING_OUTPUT = true :=
    (has_opt _ .downwellingOutput).symm
  rw [hc]
  unfold dirsOf
  by_cases a : has c.options OPT_UPWELLING_OUTPUT = true
  · by_cases b : has c.options OPT_DOWNWELLING_OUTPUT = true
    · exact ⟨[0, 1], by simp [a, b]⟩
    · exact ⟨[0], by simp [a, b]⟩
  · by_cases b : has c.options OPT_DOWNWELLING_OUTPUT = true
    · exact ⟨[1], by simp [a, b]⟩
    · exfalso
      rw [← hu', hu] at a
      rw [← hd', hd] at b
      tauto

/-! ### The configuration -/

/-- The outcomes of the call. -/
theorem Solution2.solution2_cases (E : Env F X) (nPhi : Nat) {s : State F} {input : List Nat}
    (hin : dirsOf s.cfg.options = some input) (out : Place → Nat → F) (x : X) :
    ((has s.cfg.options OPT_CALC_DERIVS = false ∨ has s.cfg.options OPT_REVERSE_DERIVS = false) ∧
      solution2 E nPhi s out x = some ⟨.minusOne, s, out, x⟩) ∨
    (has s.cfg.options OPT_CALC_DERIVS = true ∧ has s.cfg.options OPT_REVERSE_DERIVS = true ∧
      (E.forward { s with cfg := off s.cfg } x).1 = true ∧
      solution2 E nPhi s out x = some ⟨.minusOne, { s with cfg := off s.cfg }, out, (E.forward { s with cfg := off s.cfg } x).2⟩) ∨
    (has s.cfg.options OPT_CALC_DERIVS = true ∧ has s.cfg.options OPT_REVERSE_DERIVS = true ∧
      (E.forward { s with cfg := off s.cfg } x).1 = false ∧
      ∃ w, loop E s s.cfg.nDerivs.toNat (dims s.cfg nPhi) input (input.length * (dims s.cfg nPhi).block)
          (cleared (dims s.cfg nPhi) s.cfg.nDerivs.toNat out (E.forward { s with cfg := off s.cfg } x).2) = some w ∧
        solution2 E nPhi s out x = some ⟨.ok, s, w.out, w.rest⟩) := by
  by_cases h1 : has s.cfg.options OPT_CALC_DERIVS = true
  · by_cases h2 : has s.cfg.options OPT_REVERSE_DERIVS = true
    · rcases hf : E.forward { s with cfg := off s.cfg } x with ⟨b, y⟩
      cases b with
      | true =>
          refine .inr (.inl ⟨h1, h2, rfl, ?_⟩)
          simp [solution2, h1, h2, hf]
      | false =>
          refine .inr (.inr ⟨h1, h2, rfl, ?_⟩)
          obtain ⟨w, hw⟩ := loop_some E s s.cfg.nDerivs.toNat (d := dims s.cfg nPhi) (dirsOf_cases hin) _ (Nat.le_refl _)
            (cleared (dims s.cfg nPhi) s.cfg.nDerivs.toNat out y)
          exact ⟨w, hw, by simp [solution2, h1, h2, hf, hin, hw]⟩
    · have h2 : has s.cfg.options OPT_REVERSE_DERIVS = false := by simpa using h2
      exact .inl ⟨.inr h2, by simp [solution2, h1, h2]⟩
  · have h1 : has s.cfg.options OPT_CALC_DERIVS = false := by simpa using h1
    exact .inl ⟨.inl h1, by simp [solution2, h1]⟩

/-- **C38**, the part that holds: after any history, unless the solution without derivatives fails, the call
comes back with the instance as it was, whether it returns 0 or -1. Missing: the failing solution. -/
theorem C38_config_partial [Fp F] {c : Config} {kern quad h} {s : State F} (S : Session c kern quad h s)
    (E : Env F X) (nPhi : Nat) (out : Place → Nat → F) (x : X)
    (hf : (E.forward { s with cfg := off s.cfg } x).1 = false) :
    ∃ r, solution2 E nPhi s out x = some r ∧ r.st = s ∧
      (r.code = .ok ↔ optsOf c.options .calcDerivs ∧ optsOf c.options .reverseDerivs) := by
  obtain ⟨input, hin⟩ := C38_directions S
  have hc : s.cfg = c := S.inv.cfg
  have o1 : optsOf c.options .calcDerivs ↔ has c.options OPT_CALC_DERIVS = true := (has_opt _ .calcDerivs).symm
  have o2 : optsOf c.options .reverseDerivs ↔ has c.options OPT_REVERSE_DERIVS = true := (has_opt _ .reverseDerivs).symm
  rw [o1, o2, ← hc]
  rcases solution2_cases E nPhi hin out x with ⟨h1, h2⟩ | ⟨-, -, h3, -⟩ | ⟨h1, h2, -, w, -, h4⟩
  · refine ⟨_, h2, rfl, ?_⟩
    rcases h1 with h1 | h1 <;> simp [h1]
  · rw [hf] at h3; cases h3
  · exact ⟨_, h4, rfl, by simp [h1, h2]⟩

theorem Solution2.off_has {c : Config} (h : has c.options OPT_CALC_DERIVS = true) :
    has (off c).options OPT_CALC_DERIVS = false := by
  have e : OPT_CALC_DERIVS = bit 0 := rfl
  have hb : ∀ w : Word, has w (bit 0) = w.getLsbD 0 := fun w => has_bit w 0 (by decide)
  rw [e, hb] at h ⊢
  show (c.options ^^^ bit 0).getLsbD 0 = false
  rw [BitVec.getLsbD_xor, h]
  rfl

/-- **C38, violated**: whenever the solution without derivatives fails, the instance is left with
derivatives switched off and none of them: not as it was. -/
theorem C38_violated_failure [Fp F] {c : Config} {kern quad h} {s : State F} (S : Session c kern quad h s)
    (hd : optsOf c.options .calcDerivs) (hr : optsOf c.options .reverseDerivs)
    (E : Env F X) (nPhi : Nat) (out : Place → Nat → F) (x : X)
    (hf : (E.forward { s with cfg := off s.cfg } x).1 = true) :
    ∃ r, solution2 E nPhi s out x = some r ∧ r.code = .minusOne ∧ ¬ optsOf r.st.cfg.options .calcDerivs ∧
      r.st.cfg.nDerivs = 0 ∧ 0 < c.nDerivs ∧ r.st.cfg ≠ s.cfg := by
  obtain ⟨input, hin⟩ := C38_directions S
  have hc : s.cfg = c := S.inv.cfg
  have o1 : ∀ w, optsOf w .calcDerivs ↔ has w OPT_CALC_DERIVS = true := fun w => (has_opt w .calcDerivs).symm
  have o2 : optsOf c.options .reverseDerivs ↔ has c.options OPT_REVERSE_DERIVS = true := (has_opt _ .reverseDerivs).symm
  have hpos := S.wf.derivs'.1 hd
  rcases solution2_cases E nPhi hin out x with ⟨h1, -⟩ | ⟨h1, -, -, h4⟩ | ⟨-, -, h3, -⟩
  · rw [hc] at h1
    rw [o1] at hd
    rw [o2] at hr
    rcases h1 with h1 | h1
    · rw [hd] at h1; cases h1
    · rw [hr] at h1; cases h1
  · refine ⟨_, h4, rfl, ?_, rfl, hpos, ?_⟩
    · rw [o1]
      show ¬ has (off s.cfg).options OPT_CALC_DERIVS = true
      rw [off_has h1]
      decide
    · intro e
      have : (0 : Int) = s.cfg.nDerivs := congrArg Config.nDerivs e
      rw [hc] at this
      omega
  · rw [hf] at h3; cases h3

/-- A call after the failure: of the input interface, or `xrtm_solution_2` again. -/
inductive Solution2.Later [Fp F] (E : Env F X) : State F → State F → Prop
  | refl (s) : Later E s s
  | call {s s1 s2} (op : Op F) (r : Code) : Later E s s1 → Xrtm.apply s1 op = .ret r s2 → Later E s s2
  | again {s s1} (nPhi : Nat) (out : Place → Nat → F) (x : X) (r : Ret F X) :
      Later E s s1 → solution2 E nPhi s1 out x = some r → Later E s r.st

theorem Solution2.apply_cfg [Fp F] {s s' : State F} {op : Op F} {r : Code} (h : Xrtm.apply s op = .ret r s') :
    s'.cfg = s.cfg := by
  by_cases hs : IsSet op
  · rcases apply_set_cases hs h with ⟨-, h⟩ | ⟨-, h⟩
    · rw [exec_done h, effs_cfg]
    · obtain ⟨p, c, q, -, -, -, e⟩ := exec_stop h
      rw [e, effs_cfg]
  · exact (apply_other hs h).1.cfg

/-- **C38, violated**: the failure lasts. Whatever is called afterwards, derivatives stay off, and every
later `xrtm_solution_2` returns -1 and does nothing, however good the inputs have become. -/
theorem C38_violated_lasting [Fp F] {E : Env F X} {s s' : State F} (h0 : has s.cfg.options OPT_CALC_DERIVS = false)
    (hl : Later E s s') (nPhi : Nat) (out : Place → Nat → F) (x : X) :
    s'.cfg = s.cfg ∧ solution2 E nPhi s' out x = some ⟨.minusOne, s', out, x⟩ := by
  have key : ∀ t : State F, has t.cfg.options OPT_CALC_DERIVS = false → ∀ n o y,
      solution2 E n t o y = some ⟨.minusOne, t, o, y⟩ := by
    intro t ht n o y
    simp [solution2, ht]
  have hcfg : s'.cfg = s.cfg := by
    induction hl with
    | refl => rfl
    | call op r _ h ih => rw [apply_cfg h, ih]
    | again n o y r _ h ih =>
        have e := key _ (by rw [ih]; exact h0) n o y
        rw [e] at h
        injection h with h
        rw [← h]
        exact ih
  exact ⟨hcfg, key s' (by rw [hcfg]; exact h0) nPhi out x⟩

/-- **C38, violated**: the code of the adjoint runs is not looked at: the call returns 0 though every one of
them failed, with the same result as if none had. -/
theorem C38_violated_ignored [Fp F] {c : Config} {kern quad h} {s : State F} (S : Session c kern quad h s)
    (hd : optsOf c.options .calcDerivs) (hr : optsOf c.options .reverseDerivs)
    (E : Env F X) (nPhi : Nat) (out : Place → Nat → F) (x : X)
    (hf : (E.forward { s with cfg := off s.cfg } x).1 = false) :
    let E' : Env F X := { E with adjoint := fun s y sd => { E.adjoint s y sd with failed := true } }
    (∀ y sd, (E'.adjoint s y sd).failed = true) ∧ ∃ r, solution2 E' nPhi s out x = some r ∧ r.code = .ok ∧
      solution2 E nPhi s out x = some r := by
  intro E'
  obtain ⟨r, h1, -, h3⟩ := C38_config_partial S E' nPhi out x hf
  have hl : ∀ nD d input n w, loop E' s nD d input n w = loop E s nD d input n w := by
    intro nD d input n w
    induction n with
    | zero => rfl
    | succ n ih => simp only [loop, ih]; rfl
  refine ⟨fun _ _ => rfl, r, h1, h3.2 ⟨hd, hr⟩, ?_⟩
  rw [← h1]
  unfold solution2
  simp only [hl]
  rfl

/-- **C38, violated**: nothing is checked first. Right after creation `xrtm_solution` is refused, whatever is
asked for, but `xrtm_solution_2` goes on to solve with inputs that were never set. -/
theorem C38_violated_gate [Fp F] {c : Config} {kern quad} (S : Session c kern quad [] (initState (F := F) c kern quad))
    (hd : optsOf c.options .calcDerivs) (hr : optsOf c.options .reverseDerivs) :
    (∀ solver sols n comp loc s', Xrtm.apply (initState (F := F) c kern quad) (.solve solver sols n comp loc) ≠ .ret .ok s') ∧
    (initState (F := F) c kern quad).f (.ltau 0) = none ∧
    ∀ (E : Env F X) (nPhi : Nat) (out : Place → Nat → F) (x : X), (∀ t y, (E.forward t y).1 = false) →
      ∃ r, solution2 E nPhi (initState c kern quad) out x = some r ∧ r.code = .ok := by
  refine ⟨?_, rfl, ?_⟩
  · intro solver sols n comp loc s' ha
    have hq : Required c kern .fourierTol := by simp [Required]
    rcases solve_eq (initState (F := F) c kern quad) solver sols n comp loc with ⟨-, g⟩ | ⟨-, -, -, g⟩ | ⟨-, -, -, g⟩ | ⟨-, g, -⟩
    · rw [ha] at g; cases g
    · rw [ha] at g; cases g
    · rw [ha] at g; cases g
    · have := g rfl .fourierTol hq
      cases this
  · intro E nPhi out x hf
    obtain ⟨r, h1, -, h3⟩ := C38_config_partial S E nPhi out x (hf _ _)
    exact ⟨r, h1, h3.2 ⟨hd, hr⟩⟩

/-! ### The derivatives -/

/-- **C38**: to the last bit, each derivative of a radiance that is asked for is the sum formed from the
adjoints of the run for that radiance alone; the derivatives in a direction that is not asked for are zero,
and nothing else is written. -/
theorem C38_entries [Fp F] {c : Config} {kern quad h} {s : State F} (S : Session c kern quad h s)
    (hd : optsOf c.options .calcDerivs) (hr : optsOf c.options .reverseDerivs)
    (E : Env F X) (nPhi : Nat) (out : Place → Nat → F) (x : X) {G : Place → Adj F} {Good : X → Prop}
    (hf : (E.forward { s with cfg := off s.cfg } x).1 = false) (hg : Good (E.forward { s with cfg := off s.cfg } x).2)
    (hE : Faithful E s (dims s.cfg nPhi) G Good) :
    ∃ r input, solution2 E nPhi s out x = some r ∧ r.code = .ok ∧ dirsOf c.options = some input ∧
      (∀ p k, p.dir ∈ input → InRange (dims s.cfg nPhi) p → k < c.nDerivs.toNat → r.out p k = contract (E.lin s) (G p) k) ∧
      (∀ p k, p.dir ∉ input → InRange (dims s.cfg nPhi) p → k < c.nDerivs.toNat → r.out p k = Arith.zero) ∧
      ∀ p k, ¬ (InRange (dims s.cfg nPhi) p ∧ k < c.nDerivs.toNat) → r.out p k = out p k := by
  obtain ⟨input, hin⟩ := C38_directions S
  have hc : s.cfg = c := S.inv.cfg
  have o1 : optsOf c.options .calcDerivs ↔ has c.options OPT_CALC_DERIVS = true := (has_opt _ .calcDerivs).symm
  have o2 : optsOf c.options .reverseDerivs ↔ has c.options OPT_REVERSE_DERIVS = true := (has_opt _ .reverseDerivs).symm
  rw [o1, ← hc] at hd
  rw [o2, ← hc] at hr
  rcases solution2_cases E nPhi hin out x with ⟨h1, -⟩ | ⟨-, -, h3, -⟩ | ⟨-, -, -, w, hw, h4⟩
  · rcases h1 with h1 | h1
    · rw [hd] at h1; cases h1
    · rw [hr] at h1; cases h1
  · rw [hf] at h3; cases h3
  · obtain ⟨w', e1, -, -, e4, e5⟩ := loop_out (nD := s.cfg.nDerivs.toNat) (dirsOf_cases hin) hE
      (cleared (dims s.cfg nPhi) s.cfg.nDerivs.toNat out (E.forward { s with cfg := off s.cfg } x).2) rfl hg
      (input.length * (dims s.cfg nPhi).block) (Nat.le_refl _)
    rw [hw] at e1
    injection e1 with e1
    subst e1
    refine ⟨_, input, h4, rfl, by rw [← hc]; exact hin, ?_, ?_, ?_⟩
    · intro p k hp hrg hk
      exact e4 p k hp hrg (at_decode (dirsOf_cases hin) hp hrg).1 (by rw [hc]; exact hk)
    · intro p k hp hrg hk
      rw [← hc] at hk
      have := e5 p k (.inl fun h' => hp h'.1)
      rw [show (Ret.mk Code.ok s w.out w.rest).out p k = w.out p k from rfl, this]
      exact if_pos ⟨hrg.lev, hk, hrg.mu, hrg.phi, hrg.st⟩
    · intro p k hn
      rw [← hc] at hn
      have hn' : ¬ (InRange (dims s.cfg nPhi) p) ∨ s.cfg.nDerivs.toNat ≤ k := by
        by_cases hrg : InRange (dims s.cfg nPhi) p
        · exact .inr (Nat.le_of_not_lt fun hk => hn ⟨hrg, hk⟩)
        · exact .inl hrg
      have := e5 p k (hn'.imp (fun h h' => h h'.2.1) id)
      rw [show (Ret.mk Code.ok s w.out w.rest).out p k = w.out p k from rfl, this]
      refine if_neg ?_
      rintro ⟨h1, h2, h3, h4, h5⟩
      exact hn ⟨⟨h1, h3, h4, h5⟩, h2⟩

theorem Solution2.addUp_real (n : Nat) (f : Nat → ℝ) (a : ℝ) : addUp n f a = a + ∑ x ∈ Finset.range n, f x := by
  induction n with
  | zero => simp [addUp]
  | succ n ih =>
      unfold addUp at ih ⊢
      rw [List.range_succ, List.foldl_append, ih, Finset.sum_range_succ]
      simp only [List.foldl_cons, List.foldl_nil, ArithR.add_eq]
      ring

theorem Solution2.foldSum {f : Nat → ℝ} {g : Nat → ℝ → ℝ} (h : ∀ j a, g j a = a + f j) (n : Nat) (a : ℝ) :
    (List.range n).foldl (fun a j => g j a) a = a + ∑ j ∈ Finset.range n, f j := by
  induction n with
  | zero => simp
  | succ n ih =>
      rw [List.range_succ, List.foldl_append, ih, Finset.sum_range_succ]
      simp only [List.foldl_cons, List.foldl_nil, h]
      ring

/-- The sum in closed form. -/
theorem Solution2.contract_real (L : Lin ℝ) (A : Adj ℝ) (k : Nat) :
    contract L A k = (∑ j ∈ Finset.range L.nKernels, L.ampfac j k * A.ampfac j) +
      ∑ j ∈ Finset.range L.nLayers, (L.ltau j k * A.ltau j + if L.flag j k then L.omega j k * A.omega j +
        ∑ l ∈ Finset.range L.nElem, ∑ m ∈ Finset.range (L.nCoefLayer j), L.coef j k l m * A.coef j l m else 0) := by
  unfold contract
  rw [foldSum (f := fun j => L.ltau j k * A.ltau j + if L.flag j k then L.omega j k * A.omega j +
        ∑ l ∈ Finset.range L.nElem, ∑ m ∈ Finset.range (L.nCoefLayer j), L.coef j k l m * A.coef j l m else 0),
    addUp_real]
  · simp only [ArithR.zero_eq, ArithR.mul_eq, zero_add]
  · intro j a
    unfold layerTerm
    by_cases hfl : L.flag j k = true
    · simp only [hfl, if_true]
      rw [foldSum (f := fun l => ∑ m ∈ Finset.range (L.nCoefLayer j), L.coef j k l m * A.coef j l m)]
      · simp only [ArithR.add_eq, ArithR.mul_eq]; ring
      · intro l b
        rw [addUp_real]
        simp only [ArithR.mul_eq]
    · simp only [hfl, if_false, Bool.false_eq_true, ArithR.add_eq, ArithR.mul_eq]; ring

/-- The gradient's part that the adjoint code returns. -/
def Solution2.adjOf (g : Input → ℝ) : Adj ℝ where
  ampfac j := g (.ampfac j)
  ltau j := g (.ltau j)
  omega j := g (.omega j)
  coef j l m := g (.coef j l m)

/-- The sizes an instance has. -/
def Solution2.sizes (L : Lin ℝ) (nOther : Nat) : Sizes := ⟨L.nKernels, L.nLayers, L.nElem, L.nCoefLayer, nOther⟩

/-- The direction of derivative `k`, with any derivatives of the other inputs. -/
def Solution2.direction (L : Lin ℝ) (k : Nat) (rest : Nat → ℝ) : Input → ℝ
  | .ampfac j => L.ampfac j k
  | .ltau j => L.ltau j k
  | .omega j => L.omega j k
  | .coef j l m => L.coef j k l m
  | .other n => rest n

/-- The flags tell of every layer whose albedo or coefficients vary (C15). -/
def Solution2.Flagged (L : Lin ℝ) (k : Nat) : Prop :=
  ∀ j, j < L.nLayers → L.flag j k = false → L.omega j k = 0 ∧ ∀ l m, L.coef j k l m = 0

theorem Solution2.along_eq {L : Lin ℝ} {k : Nat} (hL : Flagged L k) (g : Input → ℝ) (nO : Nat) (rest : Nat → ℝ) :
    along (sizes L nO) g (direction L k rest) =
      contract L (adjOf g) k + ∑ n ∈ Finset.range nO, g (.other n) * rest n := by
  rw [contract_real]
  unfold along
  simp only [sizes, direction, adjOf]
  congr 1
  congr 1
  · exact Finset.sum_congr rfl fun j _ => mul_comm _ _
  · refine Finset.sum_congr rfl fun j hj => ?_
    by_cases hfl : L.flag j k = true
    · rw [if_pos hfl]
      rw [show (∑ l ∈ Finset.range L.nElem, ∑ m ∈ Finset.range (L.nCoefLayer j), g (.coef j l m) * L.coef j k l m) =
        ∑ l ∈ Finset.range L.nElem, ∑ m ∈ Finset.range (L.nCoefLayer j), L.coef j k l m * g (.coef j l m) from
        Finset.sum_congr rfl fun l _ => Finset.sum_congr rfl fun m _ => mul_comm _ _]
      ring
    · obtain ⟨h1, h2⟩ := hL j (Finset.mem_range.1 hj) (by simpa using hfl)
      rw [if_neg hfl, h1]
      simp [h2, mul_comm]

/-- **C38**, the part that holds: if the adjoint code gives the gradient, then what is returned is the
derivative of the radiance along every path of the inputs with the derivatives that were set, as long as
only kernel factors, thicknesses, albedos and coefficients vary. Missing: the other inputs, see
`C38_violated_inputs`. -/
theorem C38_derivative_partial {R : (Input → ℝ) → ℝ} {L : Lin ℝ} {k nO : Nat} (hL : Flagged L k) {x g : Input → ℝ}
    (hg : IsGradient (sizes L nO) R x g) {rest : Nat → ℝ} (hrest : ∀ n, n < nO → rest n = 0)
    (path : ℝ → Input → ℝ) (h0 : path 0 = x) (hp : ∀ i, HasDerivAt (fun t => path t i) (direction L k rest i) 0) :
    HasDerivAt (fun t => R (path t)) (contract L (adjOf g) k) 0 := by
  have h := hg path _ h0 hp
  rw [along_eq hL, Finset.sum_eq_zero, add_zero] at h
  · exact h
  · intro n hn
    rw [hrest n (Finset.mem_range.1 hn), mul_zero]

/-- **C38, violated**: the derivatives of all other inputs (isotropic sources, Planck terms, kernel
parameters), which have setters, are left out: wherever the radiance varies with them the value returned is
not its derivative. -/
theorem C38_violated_inputs {R : (Input → ℝ) → ℝ} {L : Lin ℝ} {k nO : Nat} (hL : Flagged L k) {x g : Input → ℝ}
    (hg : IsGradient (sizes L nO) R x g) {rest : Nat → ℝ} (hne : ∑ n ∈ Finset.range nO, g (.other n) * rest n ≠ 0)
    (path : ℝ → Input → ℝ) (h0 : path 0 = x) (hp : ∀ i, HasDerivAt (fun t => path t i) (direction L k rest i) 0) :
    ¬ HasDerivAt (fun t => R (path t)) (contract L (adjOf g) k) 0 := by
  intro h
  have h' := hg path _ h0 hp
  rw [along_eq hL] at h'
  have := h.unique h'
  exact hne (by linarith)

/-! ### An instance and a radiance -/

/-- Two layers, one derivative, both kinds of derivatives, both directions by default. -/
def Solution2.exCounts : Counts := { demoCounts with nDerivs := 1 }

def Solution2.exOptions : Word := OPT_CALC_DERIVS ||| OPT_REVERSE_DERIVS ||| OPT_OUTPUT_AT_LEVELS

def Solution2.exCfg : Config := configOf (implicitOptions exOptions exCounts) SOLVER_EIG_BVP exCounts

theorem Solution2.ex_created : create exOptions SOLVER_EIG_BVP exCounts [] = .ok exCfg := by decide

theorem Solution2.ex_session [Fp F] (quad : Int → F) :
    Session exCfg (kernelAt []) quad [] (initState exCfg (kernelAt []) quad) :=
  ⟨⟨_, _, _, _, rfl, ex_created, rfl⟩, .init⟩

theorem Solution2.ex_opts : optsOf exCfg.options .calcDerivs ∧ optsOf exCfg.options .reverseDerivs := by
  constructor <;> (unfold optsOf; decide)

/-- Only the thickness of the first layer varies. -/
noncomputable def Solution2.exLin : Lin ℝ where
  nKernels := 0
  nLayers := 2
  nElem := 1
  nCoefLayer _ := 2
  ampfac _ _ := 0
  ltau j _ := if j = 0 then 1 else 0
  omega _ _ := 0
  coef _ _ _ _ := 0
  flag j _ := decide (j = 0)

/-- Whose adjoint run for a place gives the number of its level plus 3 for each thickness. -/
noncomputable def Solution2.exEnv (fails : Bool) : Env ℝ Unit where
  forward _ x := (fails, x)
  adjoint _ x sd :=
    ⟨false, ⟨fun _ => 0, fun _ => sd ⟨0, 0, 0, 0, 0⟩ * 3 + sd ⟨1, 0, 0, 0, 0⟩ * 4, fun _ => 0, fun _ _ _ => 0⟩, fun _ => 0, x⟩
  lin _ := exLin

/-- The derivatives of the two radiances of the instance, 3 and 4. -/
example (quad : Int → ℝ) : ∃ r, solution2 (exEnv false) 1 (initState exCfg (kernelAt []) quad) (fun _ _ => 7) () = some r ∧
    r.code = .ok ∧ r.out ⟨0, 0, 0, 0, 0⟩ 0 = 3 ∧ r.out ⟨1, 0, 0, 0, 0⟩ 0 = 4 ∧ r.out ⟨0, 1, 0, 0, 0⟩ 0 = 7 := by
  obtain ⟨r, input, h1, h2, h3, h4, -, h6⟩ := C38_entries (ex_session quad) ex_opts.1 ex_opts.2 (exEnv false) 1 (fun _ _ => 7) ()
    (G := fun p => ⟨fun _ => 0, fun _ => (if p = ⟨0, 0, 0, 0, 0⟩ then 3 else 0) + if p = ⟨1, 0, 0, 0, 0⟩ then 4 else 0, fun _ => 0, fun _ _ _ => 0⟩)
    (Good := fun _ => True) rfl trivial (by
      intro x p _ _
      refine ⟨?_, rfl, trivial⟩
      simp only [exEnv, ArithR.one_eq, ArithR.zero_eq, eq_comm (b := p)]
      congr
      funext _
      by_cases a : p = ⟨0, 0, 0, 0, 0⟩ <;> by_cases b : p = ⟨1, 0, 0, 0, 0⟩ <;> simp [a, b])
  have hi : input = [0, 1] := by
    have : dirsOf exCfg.options = some [0, 1] := by decide
    rw [this] at h3
    injection h3 with h3
    exact h3.symm
  subst hi
  have hd : dims exCfg 1 = ⟨1, 1, 1, 1⟩ := rfl
  refine ⟨r, h1, h2, ?_, ?_, ?_⟩
  · rw [h4 _ 0 (by decide) (by show InRange (dims exCfg 1) _; rw [hd]; constructor <;> decide) (by decide), contract_real]
    simp [exEnv, exLin, Finset.sum_range_succ]
  · rw [h4 _ 0 (by decide) (by show InRange (dims exCfg 1) _; rw [hd]; constructor <;> decide) (by decide), contract_real]
    simp [exEnv, exLin, Finset.sum_range_succ]
  · exact h6 _ 0 (by
      rintro ⟨h, -⟩
      have : (1 : Nat) < 1 := h.lev
      omega)

/-- A failing solution, after which all derivatives are off for good. -/
example (quad : Int → ℝ) : ∃ r, solution2 (exEnv true) 1 (initState exCfg (kernelAt []) quad) (fun _ _ => 7) () = some r ∧
    ∀ s', Later (exEnv true) r.st s' → s'.cfg.nDerivs = 0 ∧ ∀ out,
      solution2 (exEnv true) 1 s' out () = some ⟨.minusOne, s', out, ()⟩ := by
  obtain ⟨r, h1, -, h3, h4, -⟩ := C38_violated_failure (ex_session quad) ex_opts.1 ex_opts.2 (exEnv true) 1 (fun _ _ => 7) () rfl
  have h3' : has r.st.cfg.options OPT_CALC_DERIVS = false := by
    cases hh : has r.st.cfg.options OPT_CALC_DERIVS with
    | false => rfl
    | true => exact absurd ((has_opt _ .calcDerivs).1 hh) h3
  refine ⟨r, h1, fun s' hl => ⟨?_, fun out => (C38_violated_lasting h3' hl 1 out ()).2⟩⟩
  rw [(C38_violated_lasting h3' hl 1 (fun _ _ => 7) ()).1, h4]

/-- The radiance `3 ltau_0 + 5 F_iso_bot`. -/
noncomputable def Solution2.exR (x : Input → ℝ) : ℝ := 3 * x (.ltau 0) + 5 * x (.other 0)

noncomputable def Solution2.exG : Input → ℝ
  | .ltau j => if j = 0 then 3 else 0
  | .other _ => 5
  | _ => 0

theorem Solution2.exR_gradient (x : Input → ℝ) : IsGradient (sizes exLin 1) exR x exG := by
  intro path v _ hp
  have h := ((hp (.ltau 0)).const_mul 3).add ((hp (.other 0)).const_mul 5)
  refine h.congr_deriv ?_
  simp [along, sizes, exLin, exG, Finset.sum_range_succ]

theorem Solution2.exLin_flagged : Flagged exLin 0 := fun _ _ _ => ⟨rfl, fun _ _ => rfl⟩

/-- By the thickness: 3, which is right. By the thickness and the isotropic source together: still 3, and
wrong. -/
example (x : Input → ℝ) :
    HasDerivAt (fun t => exR fun i => x i + t * direction exLin 0 (fun _ => 0) i) (contract exLin (adjOf exG) 0) 0 ∧
    ¬ HasDerivAt (fun t => exR fun i => x i + t * direction exLin 0 (fun _ => 1) i) (contract exLin (adjOf exG) 0) 0 := by
  have hp : ∀ (rest : Nat → ℝ) i, HasDerivAt (fun t => x i + t * direction exLin 0 rest i) (direction exLin 0 rest i) 0 := by
    intro rest i
    simpa using ((hasDerivAt_id (0 : ℝ)).mul_const (direction exLin 0 rest i)).const_add (x i)
  constructor
  · exact C38_derivative_partial exLin_flagged (exR_gradient x) (rest := fun _ => 0) (fun _ _ => rfl) _
      (by funext i; simp) (hp _)
  · exact C38_violated_inputs exLin_flagged (exR_gradient x) (rest := fun _ => 1) (by simp [exG]) _
      (by funext i; simp) (hp _)

end Xrtm
