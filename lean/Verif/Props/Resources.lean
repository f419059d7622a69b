import Verif.Proof.ResourcesRun
import Verif.Props.Solution2

/-!
# C37: what `xrtm_destroy` frees
-/

namespace Xrtm.Resources

open List

/-- No `xrtm_solution_2` fails half way. -/
def Calm (evs : List Ev) : Prop := Ev.failed2 ∉ evs

/-- The inputs have been found complete, by a solution or by `xrtm_update_varied_layers`. -/
def Passed (c : Config) (evs : List Ev) : Prop :=
  Ev.checked ∈ evs ∨ (∃ lay, Ev.varied lay ∈ evs) ∧ optsOf c.options .calcDerivs

theorem step_inv {c : Config} {sym : Bool} {s : RState} (h : Inv c sym s) {e : Ev} (he : e ≠ .failed2) :
    ∃ s', step s e = some s' ∧ Inv c sym s' ∧
      (s'.inputsInit = false ↔ s.inputsInit = false ∨ Passed c [e]) := by
  have hd := has_opt c.options .calcDerivs
  cases e with
  | checked =>
    obtain ⟨s', e, i, f⟩ := checked_inv h
    exact ⟨s', e, i, by simp [f, Passed]⟩
  | varied lay =>
    obtain ⟨s', e, i, f⟩ := varied_inv h lay
    refine ⟨s', e, i, ?_⟩
    have hd' : optsOf c.options .calcDerivs ↔ has c.options OPT_CALC_DERIVS = true := hd.symm
    rw [f]
    unfold Passed
    rw [hd']
    cases s.inputsInit <;> cases has c.options OPT_CALC_DERIVS <;> simp
  | failed2 => exact absurd rfl he

theorem run_inv {c : Config} {sym : Bool} : ∀ (evs : List Ev) (s : RState), Inv c sym s → Calm evs →
    ∃ s', run evs s = some s' ∧ Inv c sym s' ∧ (s'.inputsInit = false ↔ s.inputsInit = false ∨ Passed c evs)
  | [], s, h, _ => ⟨s, rfl, h, by simp [Passed]⟩
  | e :: es, s, h, hc => by
    unfold Calm at hc
    rw [List.mem_cons, not_or] at hc
    obtain ⟨s1, e1, i1, f1⟩ := step_inv h (e := e) fun x => hc.1 x.symm
    obtain ⟨s2, e2, i2, f2⟩ := run_inv es s1 i1 hc.2
    refine ⟨s2, by simp [run, e1, e2], i2, ?_⟩
    rw [f2, f1]
    unfold Passed
    simp only [List.mem_cons, List.not_mem_nil, or_false]
    constructor
    · rintro ((h | h | ⟨⟨l, h⟩, h'⟩) | h | ⟨⟨l, h⟩, h'⟩)
      · exact .inl h
      · exact .inr (.inl (.inl h))
      · exact .inr (.inr ⟨⟨l, .inl h⟩, h'⟩)
      · exact .inr (.inl (.inr h))
      · exact .inr (.inr ⟨⟨l, .inr h⟩, h'⟩)
    · rintro (h | (h | h) | ⟨⟨l, h | h⟩, h'⟩)
      · exact .inl (.inl h)
      · exact .inl (.inr (.inl h))
      · exact .inr (.inl h)
      · exact .inl (.inr (.inr ⟨⟨l, h⟩, h'⟩))
      · exact .inr (.inr ⟨⟨l, h⟩, h'⟩)

/-- **C37, except after a failed `xrtm_solution_2`.** For every configuration and every history, nothing
is freed that is not allocated, no member of the instance and no stack is given memory while it holds
some, and `xrtm_destroy` frees everything that is allocated by then, each piece once and by the function
for its rank and type; all but one array, the flags for the kernels' functions, and that only once the
inputs of an instance with kernels have been found complete. -/
theorem C37_partial (c : Config) (sym : Bool) (evs : List Ev) (hc : Calm evs) :
    ∃ s left, run evs (start c sym) = some s ∧ s.heap.Nodup ∧ destroy s = some left ∧
      (left = [] ∨ left = [.buf ⟨.set_flags_kernel_func, .arr 1 .uc⟩]) ∧
      (left ≠ [] ↔ 0 < c.nKernels ∧ Passed c evs) := by
  obtain ⟨s, e, i, f⟩ := run_inv evs _ (start_inv c sym) hc
  obtain ⟨left, e2, p⟩ := freeAll_perm _ (heap_frees i)
  refine ⟨s, left, e, heap_nodup i, e2, ?_⟩
  have f' : s.inputsInit = false ↔ Passed c evs := by
    rw [f]
    simp [start]
  by_cases hk : s.inputsInit = false ∧ 0 < c.nKernels
  · have : forgotten c s.inputsInit = [funcFlags] := by simp [forgotten, hk.1, hk.2]
    rw [this] at p
    have := List.perm_singleton.mp p
    rw [this]
    exact ⟨.inr rfl, fun _ => ⟨hk.2, f'.mp hk.1⟩, fun _ => by simp⟩
  · have : forgotten c s.inputsInit = [] := by
      unfold forgotten
      rw [if_neg]
      simpa using hk
    rw [this] at p
    have := List.perm_nil.mp p
    rw [this]
    exact ⟨.inl rfl, fun h => absurd rfl h, fun h => absurd ⟨f'.mpr h.2, h.1⟩ hk⟩

/-- Without kernels nothing is left. -/
theorem C37_no_kernels (c : Config) (hk : c.nKernels = 0) (sym : Bool) (evs : List Ev) (hc : Calm evs) :
    ∃ s, run evs (start c sym) = some s ∧ destroy s = some [] := by
  obtain ⟨s, left, e, -, d, -, h⟩ := C37_partial c sym evs hc
  refine ⟨s, e, ?_⟩
  rw [d]
  by_cases hl : left = []
  · rw [hl]
  · have := (h.mp hl).1
    omega

/-- **C37, violated**: with kernels, once the inputs have been found complete, the flags for the kernels'
functions are never freed: `check_inputs_initialized` frees the others (2573-2581), and `xrtm_destroy`
then does not look at them (1872). -/
theorem C37_violated_kernel_func (c : Config) (hk : 0 < c.nKernels) (sym : Bool) (evs : List Ev) (hc : Calm evs)
    (hp : Passed c evs) : ∃ s, run evs (start c sym) = some s ∧
      destroy s = some [.buf ⟨.set_flags_kernel_func, .arr 1 .uc⟩] := by
  obtain ⟨s, left, e, -, d, h1, h2⟩ := C37_partial c sym evs hc
  refine ⟨s, e, ?_⟩
  rw [d]
  rcases h1 with h1 | h1
  · exact absurd h1 (h2.mpr ⟨hk, hp⟩)
  · rw [h1]

/-! ## After a failed `xrtm_solution_2` -/

theorem off_bit (w : Word) (k : Nat) (hk : k < 32) (h0 : k ≠ 0) : has (w ^^^ OPT_CALC_DERIVS) (bit k) = has w (bit k) := by
  rw [has_bit _ _ hk, has_bit _ _ hk, BitVec.getLsbD_xor]
  have : (OPT_CALC_DERIVS : Word).getLsbD k = false := by
    show (bit 0).getLsbD k = false
    unfold bit
    simp [BitVec.getLsbD_shiftLeft, h0, Ne.symm h0]
  rw [this]
  simp

theorem val_off (c : Config) (sym b : Bool) (x : Atom) (h : x ≠ .calcDerivs) :
    val (Solution2.off c) sym b x = val c sym b x := by
  cases x <;> first
    | rfl
    | exact absurd rfl h
    | exact off_bit c.options _ (by decide) (by decide)

theorem val_off_derivs (c : Config) (sym b : Bool) (h : has c.options OPT_CALC_DERIVS = true) :
    val (Solution2.off c) sym b .calcDerivs = false := Solution2.off_has h

def negates (a : Atom) (t : List Entry) : Bool := t.any fun e => e.guard.any fun l => l == .no a

theorem destroy_pos : negates .calcDerivs destroyTab = false := by decide +kernel

theorem filter_sub {α : Type} {p q : α → Bool} : ∀ {l : List α}, (∀ e ∈ l, p e = true → q e = true) →
    (l.filter p).Sublist (l.filter q)
  | [], _ => by simp
  | a :: l, h => by
    have ih := filter_sub (p := p) (q := q) (l := l) fun e he => h e (by simp [he])
    rw [List.filter_cons, List.filter_cons]
    by_cases hp : p a = true
    · rw [if_pos hp, if_pos (h a (by simp) hp)]
      exact ih.cons_cons a
    · rw [if_neg hp]
      by_cases hq : q a = true
      · rw [if_pos hq]
        exact ih.cons a
      · rw [if_neg hq]
        exact ih

theorem taken_sub {v w : Atom → Bool} {a : Atom} {t : List Entry} (hn : negates a t = false)
    (h : ∀ x, x ≠ a → v x = w x) (ha : v a = false) : (taken v t).Sublist (taken w t) := by
  unfold taken
  refine List.Sublist.map _ ?_
  refine filter_sub ?_
  intro e he hv
  rw [List.all_eq_true] at hv ⊢
  intro l hl
  have h1 := hv l hl
  cases l with
  | yes x =>
    by_cases hx : x = a
    · subst hx
      simp [Lit.holds, ha] at h1
    · simpa [Lit.holds, h x hx] using h1
  | no x =>
    by_cases hx : x = a
    · subst hx
      unfold negates at hn
      rw [List.any_eq_false] at hn
      exact absurd (List.any_eq_true.mpr ⟨_, hl, by simp⟩) (hn e he)
    · simpa [Lit.holds, h x hx] using h1

theorem loops_none (nf : Nat) (f : Nat → Nat → List Piece) : loops nf 0 f = [] := by
  simp [loops]

theorem stackFree_sub (nf nd : Nat) (b : Bool) : (stackFree nf 0 b).Sublist (stackFree nf nd b) := by
  unfold stackFree
  refine List.Sublist.append (Sublist.refl _) ?_
  cases b <;>
    simp only [loops_none, if_true, List.nil_append, Bool.false_eq_true, if_false, List.append_assoc]
  · exact List.sublist_append_right _ _
  · refine (List.Sublist.append (Sublist.refl _) ?_).trans (List.sublist_append_right _ _)
    exact List.sublist_append_right _ _

theorem flatMap_sub {α β : Type} {f g : α → List β} (h : ∀ a, (f a).Sublist (g a)) :
    ∀ l : List α, (l.flatMap f).Sublist (l.flatMap g)
  | [] => by simp
  | a :: l => by
    rw [List.flatMap_cons, List.flatMap_cons]
    exact (h a).append (flatMap_sub h l)

theorem chainFree_sub (nf nd n : Nat) (o : Held) (still : Nat → Bool) :
    (chainFree nf 0 n o still).Sublist (chainFree nf nd n o still) := by
  unfold chainFree
  refine flatMap_sub (fun a => ?_) _
  unfold pieces
  exact (stackFree_sub nf nd _).map _

theorem frees_off {s : RState} (h : has s.cfg.options OPT_CALC_DERIVS = true) :
    (frees { s with cfg := Solution2.off s.cfg }).Sublist (frees s) := by
  unfold frees
  refine List.Sublist.append ?_ ?_
  · have hr : reuses (Solution2.off s.cfg) = reuses s.cfg := by
      unfold reuses
      show (_ && has (s.cfg.options ^^^ OPT_CALC_DERIVS) (bit 26)) = (_ && has s.cfg.options (bit 26))
      rw [off_bit _ _ (by decide) (by decide)]
      rfl
    dsimp only
    rw [hr]
    by_cases hb : reuses s.cfg = true
    · rw [if_pos hb, if_pos hb]
      cases s.held with
      | none => exact Sublist.refl _
      | some o => exact List.Sublist.append (chainFree_sub _ _ _ _ _) (Sublist.refl _)
    · rw [if_neg hb, if_neg hb]
  · exact (taken_sub destroy_pos (fun x hx => val_off _ _ _ x hx) (val_off_derivs _ _ _ h)).map _

theorem run_append : ∀ (a b : List Ev) (s : RState), run (a ++ b) s = (run a s).bind (run b)
  | [], b, s => rfl
  | e :: a, b, s => by
    simp only [List.cons_append, run]
    cases step s e with
    | none => rfl
    | some s' => exact run_append a b s'

/-- What `xrtm_destroy` frees with derivatives and not without. -/
def derivTab : List Entry := destroyTab.filter fun e => e.guard == [.yes .calcDerivs]

theorem derivTab_once : (derivTab.all fun e =>
    (destroyTab.filter fun e' => decide (e'.buf = e.buf)).all fun e' => e'.guard == [.yes .calcDerivs]) = true := by
  decide +kernel

theorem deriv_lost {v w : Atom → Bool} (hv : v .calcDerivs = true) (hw : w .calcDerivs = false) {e : Entry} (he : e ∈ derivTab) :
    e.buf ∈ taken v destroyTab ∧ e.buf ∉ taken w destroyTab := by
  have h1 := (List.mem_filter.mp he)
  have hg : e.guard = [.yes .calcDerivs] := by simpa using h1.2
  constructor
  · refine List.mem_map.mpr ⟨e, List.mem_filter.mpr ⟨h1.1, ?_⟩, rfl⟩
    rw [hg]
    simp [Lit.holds, hv]
  · intro hm
    obtain ⟨e', he', eb⟩ := List.mem_map.mp hm
    have h2 := List.mem_filter.mp he'
    have h3 := List.all_eq_true.mp derivTab_once e he
    have h4 := List.all_eq_true.mp h3 e' (List.mem_filter.mpr ⟨h2.1, by simp [eb]⟩)
    have h5 : e'.guard = [.yes .calcDerivs] := by simpa using h4
    have h6 := h2.2
    rw [h5] at h6
    simp [Lit.holds, hw] at h6

/-- **C37, violated**: an `xrtm_solution_2` that fails half way leaves the instance without
XRTM_OPTION_CALC_DERIVS and with `n_derivs` zero (5826-5829 with 5842-5878), so that `xrtm_destroy`
passes over every array that exists for derivatives only. -/
theorem C37_violated_failure (c : Config) (hd : optsOf c.options .calcDerivs) (hr : optsOf c.options .reverseDerivs)
    (sym : Bool) (evs : List Ev) (hc : Calm evs) :
    ∃ s left, run (evs ++ [.failed2]) (start c sym) = some s ∧ destroy s = some left ∧
      ∀ e ∈ derivTab, Tok.buf e.buf ∈ left := by
  have hd' : has c.options OPT_CALC_DERIVS = true := (has_opt c.options .calcDerivs).mpr hd
  have hr' : has c.options OPT_REVERSE_DERIVS = true := (has_opt c.options .reverseDerivs).mpr hr
  obtain ⟨s, e, i, -⟩ := run_inv evs _ (start_inv c sym) hc
  have hs : has s.cfg.options OPT_CALC_DERIVS = true := by rw [i.cfg]; exact hd'
  have hf : failed2 s = { s with cfg := Solution2.off s.cfg } := by
    unfold failed2
    rw [if_pos]
    rw [i.cfg, hd', hr']
    rfl
  have hrun : run (evs ++ [.failed2]) (start c sym) = some { s with cfg := Solution2.off s.cfg } := by
    rw [run_append, e]
    simp [run, step, hf]
  obtain ⟨rest, pr⟩ := (frees_off hs).exists_perm_append
  have hp := heap_frees i
  obtain ⟨left, e2, pl⟩ := freeAll_perm (frees { s with cfg := Solution2.off s.cfg })
    (h := s.heap) (r := rest ++ (forgotten c s.inputsInit).map .buf) (by
      refine hp.trans ?_
      rw [← List.append_assoc]
      exact pr.append_right _)
  refine ⟨_, left, hrun, e2, ?_⟩
  intro en hen
  obtain ⟨h1, h2⟩ := deriv_lost (v := val s.cfg s.sym s.inputsInit)
    (w := val (Solution2.off s.cfg) s.sym s.inputsInit) (by exact hs) (val_off_derivs _ _ _ hs) hen
  have hm : Tok.buf en.buf ∈ frees s := by
    unfold frees
    exact List.mem_append_right _ (List.mem_map_of_mem h1)
  have hn : Tok.buf en.buf ∉ frees { s with cfg := Solution2.off s.cfg } := by
    unfold frees
    intro hx
    rcases List.mem_append.mp hx with hx | hx
    · by_cases hb : reuses (Solution2.off s.cfg) = true
      · dsimp only at hx
        rw [if_pos hb] at hx
        cases ho : s.held with
        | none => rw [ho] at hx; simp at hx
        | some o =>
          rw [ho] at hx
          simp [chainFree, pieces] at hx
      · dsimp only at hx
        rw [if_neg hb] at hx
        simp at hx
    · obtain ⟨b, hb, eb⟩ := List.mem_map.mp hx
      cases eb
      exact h2 hb
  rw [pl.mem_iff]
  refine List.mem_append_left _ ?_
  rcases List.mem_append.mp (pr.mem_iff.mp hm) with h | h
  · exact absurd h hn
  · exact h

/-- The arrays in question. -/
theorem derivTab_bufs : derivTab.map (·.buf) =
    [⟨.F_iso_top_l, .arr 1 .d⟩, ⟨.F_iso_bot_l, .arr 1 .d⟩, ⟨.ltau_l, .arr 2 .d⟩, ⟨.omega_l, .arr 2 .d⟩,
     ⟨.derivs_layers, .flags2⟩, ⟨.derivs_total, .flags2⟩, ⟨.derivs_stacks, .flags2⟩,
     ⟨.derivs_sources, .flags2⟩, ⟨.derivs_adding_down, .flags2⟩, ⟨.derivs_adding_up, .flags2⟩,
     ⟨.derivs_layers_m, .flags2⟩, ⟨.derivs_total_m, .flags2⟩, ⟨.derivs_stacks_m, .flags2⟩,
     ⟨.derivs_sources_m, .flags2⟩, ⟨.derivs_adding_down_m, .flags2⟩, ⟨.derivs_adding_up_m, .flags2⟩] := by
  decide +kernel

/-- **C37, violated**: a configuration that `xrtm_create` refuses costs `xrtm_create2` its structure, which
nobody can free any more. -/
theorem C37_violated_create2 (opts solvers : Word) (counts : Counts) (kernels : List Int) (sym : Bool) {e : Int}
    (h : create opts solvers counts kernels = .error e) : create2 opts solvers counts kernels sym = (none, [.data]) := by
  unfold create2
  rw [h]

/-! ## Examples -/

/-- Derivatives, a kernel and stacks that are kept for adding. -/
def exOptions : Word := OPT_OUTPUT_AT_LEVELS ||| OPT_CALC_DERIVS ||| OPT_STACK_REUSE_ADDING

def exCounts : Counts :=
  { maxCoef := 2, nQuad := 2, nStokes := 1, nDerivs := 2, nLayers := 3, nTheta0s := 1,
    nKernels := 1, nKernelQuad := 4, nOutLevels := 1, nOutThetas := 0 }

def exCfg : Config := configOf (implicitOptions exOptions exCounts) SOLVER_EIG_ADD exCounts

example : create exOptions SOLVER_EIG_ADD exCounts [0] = .ok exCfg := by decide

example : reuses exCfg = true ∧ 0 < exCfg.nKernels := by decide

/-- Three derivatives' layers, then others, then a solution. -/
def exHistory : List Ev := [.varied fun i _ => i == 1, .varied fun i j => i == j, .checked]

theorem exHistory_calm : Calm exHistory := by simp [Calm, exHistory]

theorem exHistory_passed (c : Config) : Passed c exHistory := by simp [Passed, exHistory]

example : ∃ s, run exHistory (start exCfg false) = some s ∧
    destroy s = some [.buf ⟨.set_flags_kernel_func, .arr 1 .uc⟩] :=
  C37_violated_kernel_func exCfg (by decide) false _ exHistory_calm (exHistory_passed _)

example : ∃ s, run exHistory (start { exCfg with nKernels := 0 } true) = some s ∧ destroy s = some [] :=
  C37_no_kernels _ rfl true _ exHistory_calm

example : ∃ s left, run (exHistory ++ [.failed2]) (start Solution2.exCfg false) = some s ∧ destroy s = some left ∧
    ∀ e ∈ derivTab, Tok.buf e.buf ∈ left :=
  C37_violated_failure _ Solution2.ex_opts.1 Solution2.ex_opts.2 false _ exHistory_calm

example : create2 0 SOLVER_EIG_ADD exCounts [] false = (none, [.data]) :=
  C37_violated_create2 _ _ _ _ _ (show create 0 SOLVER_EIG_ADD exCounts [] = .error xrtmIntError by decide)

end Xrtm.Resources
