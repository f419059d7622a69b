import Verif.Proof.FiniteDiff
import Mathlib.Analysis.Calculus.Deriv.Slope
import Mathlib.Analysis.Calculus.Deriv.Pow
import Mathlib.Tactic.Linarith
import Mathlib.Tactic.NormNum

/-!
# C47: derivatives by finite differences
-/

namespace Xrtm.FiniteDiff
open Spec

variable {K : Type} [Field K] {O : Type}

/-! ## Examples to meet hypotheses -/

/-- A thermal instance of two layers with one kernel of two parameters. -/
def exShape : Shape := ⟨true, false, 2, 1, fun i => 3 + i, 1, fun _ => 2⟩

/-- An instance that takes every value, whose one radiance is the product of
two inputs. -/
def exInst : Inst ℚ Unit := ⟨fun _ _ => true, fun x => some fun _ => x (.omega 0) * x (.ltau 1)⟩

def exX : In → ℚ := fun _ => 1

/-- A first derivative for the single scattering albedo of the first layer, a
second for the thickness of the second. -/
def exP : Nat → In → ℚ := fun j a =>
  if j = 0 then if a = .omega 0 then 1/4 else 0
  else if a = .ltau 1 then 1/2 else 0

def exDelta : Nat → ℚ := fun j => if j = 0 then 1/4 else 1/2

theorem runCalls_all (d : Inst K O) (hd : ∀ c y, d.accepts c y = true) (f : K) (p : In → K)
    (cs : List (List In)) (x : In → K) : (runCalls d f p cs x).ok = true := by
  induction cs generalizing x with
  | nil => rfl
  | cons c cs ih =>
    unfold runCalls
    rw [if_pos (hd _ _)]
    exact ih _

theorem perturbMem_all (s : Shape) (d : Inst K O) (hd : ∀ c y, d.accepts c y = true) (f : K)
    (p : In → K) (m : Mem K O) : (perturbMem s d f p m).2 = .done := by
  unfold perturbMem perturb
  simp [runCalls_all d hd]

theorem solveInto_all (d : Inst K O) (hd : ∀ y, ∃ r, d.solve y = some r) (w : Ask)
    (hw : w.other = false) (m : Mem K O) : (solveInto d w m).2 = .done := by
  obtain ⟨r, hr⟩ := hd m.inputs
  unfold solveInto
  rw [hr]
  cases hr' : w.radiance <;> simp [hw]

theorem thenDo_all (r : Mem K O × End) (g : Mem K O → Mem K O × End) (hr : r.2 = .done)
    (hg : ∀ m, (g m).2 = .done) : (thenDo r g).2 = .done := by
  rcases r with ⟨m, e⟩
  subst hr
  exact hg m

/-- **C47, the call succeeds.** If every value is taken and every solution
exists, and no output but radiances is asked for, then the call returns zero,
with each method and any number of derivatives. -/
theorem C47_succeeds (s : Shape) (d : Inst K O) (ha : ∀ c y, d.accepts c y = true)
    (hs : ∀ y, ∃ r, d.solve y = some r) (w : Ask) (hw : w.other = false) (me : Method) (n : Nat)
    (p : Nat → In → K) (delta : Nat → K) (x : In → K) (table : Nat → O → K) (buf : O → K) :
    (solution s d w me n p delta x table buf).status = .done := by
  obtain ⟨base, hb⟩ := hs x
  unfold solution
  rw [hb]
  dsimp only
  generalize (⟨x, table, buf⟩ : Mem K O) = m
  induction n with
  | zero => rfl
  | succ n ih =>
    unfold loop
    refine thenDo_all _ _ ih fun m => ?_
    have hp := fun f m => perturbMem_all s d ha f (p n) m
    have hv := fun m => solveInto_all d hs w hw m
    cases me
    · exact thenDo_all _ _ (hp _ _) fun m => thenDo_all _ _ (hv _) fun m => rfl
    · exact thenDo_all _ _ (hp _ _) fun m => thenDo_all _ _ (hv _) fun m => rfl
    · exact thenDo_all _ _ (hp _ _) fun m => thenDo_all _ _ (hv _) fun m =>
        thenDo_all _ _ rfl fun m => thenDo_all _ _ (hp _ _) fun m => thenDo_all _ _ (hv _) fun m =>
        thenDo_all _ _ rfl fun m => hp _ _

theorem ex_done (me : Method) (n : Nat) (table : Nat → Unit → ℚ) (buf : Unit → ℚ) :
    (solution exShape exInst ⟨true, false⟩ me n exP exDelta exX table buf).status = .done :=
  C47_succeeds _ _ (fun _ _ => rfl) (fun _ => ⟨_, rfl⟩) _ rfl _ _ _ _ _ _ _

/-- **C47, the central method.** When a call with the central method returns
zero, the radiances are those of the inputs, every derivative is the difference
of the radiances one step ahead and one step behind along its own step, over
its `delta`; the inputs are what they were; and no further rows are written. -/
theorem C47_central (s : Shape) (d : Inst K O) (n : Nat) (p : Nat → In → K) (delta : Nat → K)
    (x : In → K) (table : Nat → O → K) (buf : O → K)
    (h : (solution s d ⟨true, false⟩ .central n p delta x table buf).status = .done) :
    (∃ base, Sol d x base ∧
      (solution s d ⟨true, false⟩ .central n p delta x table buf).radiance = some base) ∧
    (solution s d ⟨true, false⟩ .central n p delta x table buf).mem.inputs = x ∧
    (∀ j < n, ∃ r q, Sol d (along s x (p j) 1) r ∧ Sol d (along s x (p j) (-1)) q ∧
      ∀ o, (solution s d ⟨true, false⟩ .central n p delta x table buf).mem.table j o =
        (r o - q o) / delta j) ∧
    ∀ j, n ≤ j →
      (solution s d ⟨true, false⟩ .central n p delta x table buf).mem.table j = table j := by
  obtain ⟨base, hb, hr, hl⟩ := solution_done _ _ _ _ _ _ _ _ _ _ h
  obtain ⟨h1, h2, h3⟩ := loop_central _ _ _ _ _ _ _ _ hl
  refine ⟨⟨base, hb, hr⟩, h1, fun j hj => ?_, h3⟩
  obtain ⟨r, q, hr, hq, e⟩ := h2 j hj
  exact ⟨r, q, hr, hq, fun o => by rw [e]⟩

example (table : Nat → Unit → ℚ) (buf : Unit → ℚ) :
    (solution exShape exInst ⟨true, false⟩ .central 2 exP exDelta exX table buf).status = .done :=
  ex_done _ _ _ _

/-- **C47, the one-sided methods: what they compute.** Row `j` compares the
inputs with those moved by the steps of *all* derivatives up to `j`, and the
inputs stay moved by the steps of all derivatives. -/
theorem C47_one_sided_formula (s : Shape) (d : Inst K O) (me : Method) (hme : me ≠ .central)
    (n : Nat) (p : Nat → In → K) (delta : Nat → K) (x : In → K) (table : Nat → O → K)
    (buf : O → K)
    (h : (solution s d ⟨true, false⟩ me n p delta x table buf).status = .done) :
    ∃ base, Sol d x base ∧
      (solution s d ⟨true, false⟩ me n p delta x table buf).radiance = some base ∧
    (solution s d ⟨true, false⟩ me n p delta x table buf).mem.inputs =
      along s x (fun a => ∑ k ∈ Finset.range n, p k a) (if me = .backward then -1 else 1) ∧
    ∀ j < n, ∃ r,
      Sol d (along s x (fun a => ∑ k ∈ Finset.range (j + 1), p k a)
        (if me = .backward then -1 else 1)) r ∧
      ∀ o, (solution s d ⟨true, false⟩ me n p delta x table buf).mem.table j o =
        (r o - base o) / delta j := by
  obtain ⟨base, hb, hr, hl⟩ := solution_done _ _ _ _ _ _ _ _ _ _ h
  obtain ⟨h1, h2, h3⟩ := loop_oneSided _ _ _ hme _ _ _ _ _ _ hl
  have hsg : (sign me : K) = if me = .backward then -1 else 1 := by cases me <;> simp [sign]
  rw [hsg] at h1
  refine ⟨base, hb, hr, h1, fun j hj => ?_⟩
  obtain ⟨r, hr, e⟩ := h2 j hj
  rw [hsg] at hr
  exact ⟨r, hr, fun o => by rw [e]⟩

/-- **C47, the one-sided methods (partial).** The first derivative is the
difference of the radiances one step away and the radiances, over its `delta`.
Missing: the same for later derivatives, and restored inputs
(`C47_violated_later`, `C47_violated_restored`). -/
theorem C47_one_sided_partial (s : Shape) (d : Inst K O) (me : Method) (hme : me ≠ .central)
    (n : Nat) (hn : 0 < n) (p : Nat → In → K) (delta : Nat → K) (x : In → K)
    (table : Nat → O → K) (buf : O → K)
    (h : (solution s d ⟨true, false⟩ me n p delta x table buf).status = .done) :
    ∃ base r, Sol d x base ∧ Sol d (along s x (p 0) (if me = .backward then -1 else 1)) r ∧
      ∀ o, (solution s d ⟨true, false⟩ me n p delta x table buf).mem.table 0 o =
        (r o - base o) / delta 0 := by
  obtain ⟨base, hb, -, -, h2⟩ := C47_one_sided_formula s d me hme n p delta x table buf h
  obtain ⟨r, hr, e⟩ := h2 0 hn
  refine ⟨base, r, hb, ?_, e⟩
  simpa using hr

example (table : Nat → Unit → ℚ) (buf : Unit → ℚ) :
    (solution exShape exInst ⟨true, false⟩ .backward 2 exP exDelta exX table buf).status = .done :=
  ex_done _ _ _ _

theorem along_smul (s : Shape) (x v : In → K) (h t : K) :
    along s x (fun a => h * v a) t = along s x v (t * h) := by
  funext a
  simp only [along]
  split <;> ring

/-- **C47, the central method converges.** Let the radiances along a direction
`v` of the inputs have a derivative `D`.  With the steps `h * v` and `delta`
twice `h`, the result for this derivative is as near to `D` as wanted once `h`
is small enough, whatever the other derivatives of the call are. -/
theorem C47_central_limit (s : Shape) (d : Inst ℝ O) (x v : In → ℝ) (R : ℝ → O → ℝ)
    (o : O) (D : ℝ) (hR : ∀ t, Sol d (along s x v t) (R t))
    (hD : HasDerivAt (fun t => R t o) D 0) (ε : ℝ) (hε : 0 < ε) :
    ∃ η > 0, ∀ h, 0 < |h| → |h| < η → ∀ (n j : Nat) (p : Nat → In → ℝ) (delta : Nat → ℝ)
      (table : Nat → O → ℝ) (buf : O → ℝ), j < n → p j = (fun a => h * v a) → delta j = 2 * h →
      (solution s d ⟨true, false⟩ .central n p delta x table buf).status = .done →
      |(solution s d ⟨true, false⟩ .central n p delta x table buf).mem.table j o - D| < ε := by
  have ht := hasDerivAt_iff_tendsto_slope.1 hD
  rw [Metric.tendsto_nhdsWithin_nhds] at ht
  obtain ⟨η, hη, hb⟩ := ht ε hε
  refine ⟨η, hη, fun h h0 h1 n j p delta table buf hj hp hd hdone => ?_⟩
  obtain ⟨-, -, hc, -⟩ := C47_central s d n p delta x table buf hdone
  obtain ⟨r, q, hr, hq, e⟩ := hc j hj
  have hh : h ≠ 0 := abs_pos.1 h0
  rw [hp, along_smul] at hr hq
  have hr' : r = R h := by
    have := hR (1 * h)
    rw [one_mul] at this hr
    unfold Sol at this hr
    rw [this] at hr
    exact (Option.some.inj hr).symm
  have hq' : q = R (-h) := by
    have := hR (-1 * h)
    have hm : (-1 : ℝ) * h = -h := by ring
    rw [hm] at this hq
    unfold Sol at this hq
    rw [this] at hq
    exact (Option.some.inj hq).symm
  rw [e, hr', hq', hd]
  have b1 := hb (x := h) (by simpa using hh) (by simpa [Real.dist_eq] using h1)
  have b2 := hb (x := -h) (by simpa using hh) (by simpa [Real.dist_eq] using h1)
  rw [Real.dist_eq] at b1 b2
  have es : (R h o - R (-h) o) / (2 * h) - D =
      ((slope (fun t => R t o) 0 h - D) + (slope (fun t => R t o) 0 (-h) - D)) / 2 := by
    simp only [slope_def_field, sub_zero, div_neg]
    field_simp
    ring
  rw [es, abs_div]
  have := abs_add_le (slope (fun t => R t o) 0 h - D) (slope (fun t => R t o) 0 (-h) - D)
  rw [abs_of_pos (by norm_num : (0 : ℝ) < 2)]
  linarith

/-- **C47, the one-sided methods converge (partial).** With `delta` equal to `h`
for the forward and to `-h` for the backward method, the *first* derivative
converges. -/
theorem C47_one_sided_limit_partial (s : Shape) (d : Inst ℝ O) (me : Method)
    (hme : me ≠ .central) (x v : In → ℝ) (R : ℝ → O → ℝ) (o : O) (D : ℝ)
    (hR : ∀ t, Sol d (along s x v t) (R t)) (hD : HasDerivAt (fun t => R t o) D 0)
    (ε : ℝ) (hε : 0 < ε) :
    ∃ η > 0, ∀ h, 0 < |h| → |h| < η → ∀ (n : Nat) (p : Nat → In → ℝ) (delta : Nat → ℝ)
      (table : Nat → O → ℝ) (buf : O → ℝ), 0 < n → p 0 = (fun a => h * v a) →
      delta 0 = (if me = .backward then -1 else 1) * h →
      (solution s d ⟨true, false⟩ me n p delta x table buf).status = .done →
      |(solution s d ⟨true, false⟩ me n p delta x table buf).mem.table 0 o - D| < ε := by
  have ht := hasDerivAt_iff_tendsto_slope.1 hD
  rw [Metric.tendsto_nhdsWithin_nhds] at ht
  obtain ⟨η, hη, hb⟩ := ht ε hε
  refine ⟨η, hη, fun h h0 h1 n p delta table buf hn hp hd hdone => ?_⟩
  obtain ⟨base, r, hbase, hr, e⟩ := C47_one_sided_partial s d me hme n hn p delta x table buf hdone
  have hh : h ≠ 0 := abs_pos.1 h0
  rw [hp, along_smul] at hr
  obtain ⟨g, hg, hgd⟩ : ∃ g : ℝ, (if me = .backward then (-1 : ℝ) else 1) * h = g ∧ |g| = |h| := by
    refine ⟨_, rfl, ?_⟩
    split <;> simp
  rw [hg] at hr hd
  have hg0 : g ≠ 0 := abs_pos.1 (hgd ▸ h0)
  have hr' : r = R g := by
    have := hR g
    unfold Sol at this hr
    rw [this] at hr
    exact (Option.some.inj hr).symm
  have hb' : base = R 0 := by
    have := hR 0
    rw [along_zero] at this
    unfold Sol at this hbase
    rw [this] at hbase
    exact (Option.some.inj hbase).symm
  rw [e, hr', hb', hd]
  have b1 := hb (x := g) (by simpa using hg0) (by simpa [Real.dist_eq, hgd] using h1)
  rw [Real.dist_eq, slope_def_field, sub_zero] at b1
  exact b1

/-- An instance with a curved response. -/
def exCube : Inst ℝ Unit := ⟨fun _ _ => true, fun x => some fun _ => x (.omega 0) ^ 3⟩

example : HasDerivAt (fun t : ℝ => (1 + t) ^ 3) (3 * (1 + (0 : ℝ)) ^ 2 * 1) 0 ∧
    ∀ t, Sol exCube (along exShape (fun _ => 1) (fun a => if a = .omega 0 then 1 else 0) t)
      (fun _ => (1 + t) ^ 3) := by
  constructor
  · exact ((hasDerivAt_id (0 : ℝ)).const_add 1).pow 3
  · intro t
    have : Has exShape (.omega 0) := by simp [Has, exShape]
    simp [Sol, exCube, along, this]

/-- **C47, the methods do not agree on `delta`.** Take radiances that change by
`D` with every whole step, so that all three quotients should be the same.
With one derivative, one step and one `delta`, the backward method returns the
negative of what the forward method returns and the central method twice as
much: no `delta` makes two of them right unless `D` is zero. -/
theorem C47_violated_delta [CharZero K] (s : Shape) (d : Inst K O) (p : Nat → In → K)
    (delta : Nat → K) (x : In → K) (table : Nat → O → K) (buf : O → K) (r0 D : O → K)
    (hr : ∀ t, Sol d (along s x (p 0) t) fun o => r0 o + t * D o)
    (hf : (solution s d ⟨true, false⟩ .forward 1 p delta x table buf).status = .done)
    (hb : (solution s d ⟨true, false⟩ .backward 1 p delta x table buf).status = .done)
    (hc : (solution s d ⟨true, false⟩ .central 1 p delta x table buf).status = .done) (o : O) :
    (solution s d ⟨true, false⟩ .forward 1 p delta x table buf).mem.table 0 o = D o / delta 0 ∧
    (solution s d ⟨true, false⟩ .backward 1 p delta x table buf).mem.table 0 o =
      -(D o / delta 0) ∧
    (solution s d ⟨true, false⟩ .central 1 p delta x table buf).mem.table 0 o =
      2 * (D o / delta 0) ∧
    (D o ≠ 0 → delta 0 ≠ 0 →
      (solution s d ⟨true, false⟩ .forward 1 p delta x table buf).mem.table 0 o ≠
        (solution s d ⟨true, false⟩ .backward 1 p delta x table buf).mem.table 0 o ∧
      (solution s d ⟨true, false⟩ .forward 1 p delta x table buf).mem.table 0 o ≠
        (solution s d ⟨true, false⟩ .central 1 p delta x table buf).mem.table 0 o) := by
  have hx : ∀ b, Sol d x b → b = r0 := by
    intro b hb
    have := hr 0
    rw [along_zero] at this
    unfold Sol at this hb
    rw [this] at hb
    funext o
    rw [← Option.some.inj hb]
    ring
  have ht : ∀ t b, Sol d (along s x (p 0) t) b → b = fun o => r0 o + t * D o := by
    intro t b hb
    have := hr t
    unfold Sol at this hb
    rw [this] at hb
    exact (Option.some.inj hb).symm
  obtain ⟨b1, r1, hb1, hr1, e1⟩ :=
    C47_one_sided_partial s d .forward (by decide) 1 (by omega) p delta x table buf hf
  obtain ⟨b2, r2, hb2, hr2, e2⟩ :=
    C47_one_sided_partial s d .backward (by decide) 1 (by omega) p delta x table buf hb
  obtain ⟨-, -, hc', -⟩ := C47_central s d 1 p delta x table buf hc
  obtain ⟨r3, q3, hr3, hq3, e3⟩ := hc' 0 (by omega)
  rw [if_neg (by decide)] at hr1
  rw [if_pos rfl] at hr2
  have f1 : (solution s d ⟨true, false⟩ .forward 1 p delta x table buf).mem.table 0 o =
      D o / delta 0 := by
    rw [e1, hx _ hb1, ht _ _ hr1]; ring
  have f2 : (solution s d ⟨true, false⟩ .backward 1 p delta x table buf).mem.table 0 o =
      -(D o / delta 0) := by
    rw [e2, hx _ hb2, ht _ _ hr2]; ring
  have f3 : (solution s d ⟨true, false⟩ .central 1 p delta x table buf).mem.table 0 o =
      2 * (D o / delta 0) := by
    rw [e3, ht _ _ hr3, ht _ _ hq3]; ring
  refine ⟨f1, f2, f3, fun hD hdl => ?_⟩
  rw [f1, f2, f3]
  have hne : D o / delta 0 ≠ 0 := div_ne_zero hD hdl
  constructor
  · intro he
    have : (2 : K) * (D o / delta 0) = 0 := by linear_combination he
    rcases mul_eq_zero.1 this with h | h
    · exact two_ne_zero h
    · exact hne h
  · intro he
    exact hne (by linear_combination -he)

/-- The affine response of the example along its first step. -/
example : (∀ t, Sol exInst (along exShape exX (exP 0) t) fun _ => 1 + t * (1/4)) ∧
    exDelta 0 ≠ 0 := by
  have h1 : Has exShape (.omega 0) := by simp [Has, exShape]
  have h2 : Has exShape (.ltau 1) := by simp [Has, exShape]
  constructor
  · intro t
    simp [Sol, exInst, along, exX, exP, h1, h2]
  · norm_num [exDelta]

/-- **C47 violated: later derivatives of the one-sided methods.** The inputs
are not put back between derivatives.  In the example the radiance is the
product of two inputs that are both one, the steps are `delta` times a unit, so
both derivatives are one up to their step; but the second row of a forward run
contains the step of the first derivative: it is 7/4, where moving the second
input alone gives 1. -/
theorem C47_violated_later (table : Nat → Unit → ℚ) (buf : Unit → ℚ) :
    (solution exShape exInst ⟨true, false⟩ .forward 2 exP exDelta exX table buf).mem.table 1 () =
      7 / 4 ∧
    Sol exInst (along exShape exX (exP 1) 1) (fun _ => 1 + exDelta 1 * 1) := by
  have h1 : Has exShape (.omega 0) := by simp [Has, exShape]
  have h2 : Has exShape (.ltau 1) := by simp [Has, exShape]
  constructor
  · obtain ⟨base, hb, -, -, h⟩ :=
      C47_one_sided_formula _ _ _ (by decide) _ _ _ _ _ _ (ex_done .forward 2 table buf)
    obtain ⟨r, hr, e⟩ := h 1 (by omega)
    rw [e]
    simp only [Sol, exInst, Option.some.injEq] at hb hr
    rw [← hb, ← hr]
    simp [along, h1, h2, exX, exP, Finset.sum_range_succ, exDelta]
    norm_num
  · simp [Sol, exInst, along, h1, h2, exX, exP, exDelta]

/-- **C47 violated: inputs of the one-sided methods.** After a call that
returned zero the inputs of the instance differ from those before, whenever
the steps of the derivatives do not cancel. -/
theorem C47_violated_restored [CharZero K] (s : Shape) (d : Inst K O) (me : Method)
    (hme : me ≠ .central) (n : Nat) (p : Nat → In → K) (delta : Nat → K) (x : In → K)
    (table : Nat → O → K) (buf : O → K)
    (h : (solution s d ⟨true, false⟩ me n p delta x table buf).status = .done)
    (a : In) (ha : Has s a) (hp : ∑ k ∈ Finset.range n, p k a ≠ 0) :
    (solution s d ⟨true, false⟩ me n p delta x table buf).mem.inputs a ≠ x a := by
  obtain ⟨base, hb, -, hi, -⟩ := C47_one_sided_formula _ _ _ hme _ _ _ _ _ _ h
  rw [hi]
  simp only [along, if_pos ha]
  intro he
  split at he
  · exact hp (by linear_combination -he)
  · exact hp (by linear_combination he)

example : Has exShape (.omega 0) ∧ ∑ k ∈ Finset.range 2, exP k (.omega 0) ≠ 0 := by
  constructor
  · simp [Has, exShape]
  · have h : In.omega 0 ≠ In.ltau 1 := by decide
    norm_num [Finset.sum_range_succ, exP, h]

/-- An instance that takes an albedo up to one and a positive thickness only,
as `xrtm_set_omega_1` and `xrtm_set_ltau_1` do. -/
def exStrict : Inst ℚ Unit :=
  ⟨fun c y => c.all fun a => match a with
      | .omega i => decide (0 ≤ y (.omega i) ∧ y (.omega i) ≤ 1)
      | .ltau i => decide (0 < y (.ltau i))
      | _ => true,
    fun x => some fun _ => x (.omega 0) * x (.ltau 1)⟩

/-- A step for a coefficient and for the albedo of the second layer. -/
def exStep : Nat → In → ℚ := fun _ a =>
  if a = .coef 0 0 1 then 1/8 else if a = .omega 1 then 1/8 else 0

/-- **C47 violated: a refused step.** With an albedo of one the central method
asks for more than one and is refused.  The call returns an error, and the
inputs set before the refusal stay moved. -/
theorem C47_violated_refusal (table : Nat → Unit → ℚ) (buf : Unit → ℚ) :
    (solution exShape exStrict ⟨true, false⟩ .central 1 exStep exDelta exX table buf).status =
      .refused ∧
    (solution exShape exStrict ⟨true, false⟩ .central 1 exStep exDelta exX table buf).mem.inputs
      (.coef 0 0 1) = exX (.coef 0 0 1) + 1/8 := by
  have key : (perturb exShape exStrict 1 (exStep 0) exX).ok = false ∧
      (perturb exShape exStrict 1 (exStep 0) exX).inputs (.coef 0 0 1) = 1 + 1/8 := by
    constructor <;> decide +kernel
  have hs : exStrict.solve exX = some fun _ => exX (.omega 0) * exX (.ltau 1) := rfl
  unfold solution
  rw [hs]
  simp only [loop, thenDo, body, twoSided, perturbMem, key.1, key.2]
  simp [exX, key.2]

/-- **C47 violated: other outputs.** A caller who asks for mean radiances,
fluxes or flux divergences does not get their derivatives: the first inner
solution writes its result through a null pointer.  This holds for every
instance that takes the first step and has a solution there. -/
theorem C47_violated_other (s : Shape) (d : Inst K O) (w : Ask) (hw : w.other = true) (me : Method)
    (n : Nat) (hn : 0 < n) (p : Nat → In → K) (delta : Nat → K) (x : In → K)
    (table : Nat → O → K) (buf : O → K) (ha : ∀ c y, d.accepts c y = true)
    (hs : ∀ y, ∃ r, d.solve y = some r) :
    (solution s d w me n p delta x table buf).status = .null := by
  obtain ⟨base, hb⟩ := hs x
  unfold solution
  rw [hb]
  dsimp only
  generalize (⟨x, table, buf⟩ : Mem K O) = m
  have hp := fun f p m => perturbMem_all s d ha f p m
  have hv : ∀ m, solveInto d w m = (m, .null) := by
    intro m
    obtain ⟨r, hr⟩ := hs m.inputs
    unfold solveInto
    rw [hr]
    simp [hw]
  have hbody : ∀ j m, (body s d w me p delta base j m).2 = .null := by
    intro j m
    cases me <;> simp only [body, oneSided, twoSided] <;>
      rw [show ∀ f, perturbMem s d f (p j) m = ((perturbMem s d f (p j) m).1, .done) from
        fun f => Prod.ext rfl (hp f (p j) m)] <;> simp [thenDo, hv]
  induction n with
  | zero => omega
  | succ n ih =>
    unfold loop
    rcases Nat.eq_zero_or_pos n with rfl | hpos
    · simp only [loop, thenDo]
      exact hbody _ _
    · have := ih hpos
      rcases hl : loop s d w me p delta base n m with ⟨m', e⟩
      rw [hl] at this
      simp only at this
      subst this
      rfl

example : (∀ c y, exInst.accepts c y = true) ∧ ∀ y, ∃ r, exInst.solve y = some r :=
  ⟨fun _ _ => rfl, fun _ => ⟨_, rfl⟩⟩

/-- **C47 violated: steps of the Planck levels.** `xrtm_fd_set_levels_b_p_1`
does not store the caller's array as the steps of the derivative named,
whatever the uninitialised index holds: with at least one layer there are
arguments for which a level gets another value. -/
theorem C47_violated_levels_b [CharZero K] (nLayers : Nat) (hl : 0 < nLayers) (junk iDeriv : Nat)
    (table : Nat → Nat → K) :
    ∃ arg : Nat → K, ¬ ∀ i < nLayers + 1,
      setLevelsBP1 nLayers junk iDeriv arg table i iDeriv = arg i := by
  by_cases hj : iDeriv = junk
  · refine ⟨fun i => (i : K), fun h => ?_⟩
    have h0 := h 0 (by omega)
    have h1 := h 1 (by omega)
    unfold setLevelsBP1 at h0 h1
    rw [if_pos ⟨by omega, hj⟩] at h0 h1
    rw [h0] at h1
    simp at h1
  · refine ⟨fun i => table i iDeriv + 1, fun h => ?_⟩
    have h0 := h 0 (by omega)
    unfold setLevelsBP1 at h0
    rw [if_neg (by tauto)] at h0
    simp at h0

end Xrtm.FiniteDiff
