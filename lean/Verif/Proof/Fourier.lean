import Verif.Spec.Fourier

/-!
# Lemmas for the Fourier loop
-/

namespace Xrtm.Fourier

variable {K : Type} [FNum K] {c : Cfg K}

theorem mem_cells {j k l : Nat} : (j, k, l) ∈ c.cells ↔ j < c.nLevels ∧ k < c.nMus2 ∧ l < c.nPhis := by
  simp [Cfg.cells]

theorem nodup_cells : c.cells.Nodup := by
  unfold Cfg.cells
  rw [List.nodup_flatMap]
  refine ⟨?_, ?_⟩
  · intro j _
    rw [List.nodup_flatMap]
    refine ⟨?_, ?_⟩
    · intro k _
      exact List.Nodup.map (fun a b h => by simpa using h) List.nodup_range
    · refine List.Pairwise.imp ?_ List.nodup_range
      intro a b hab
      simp only [Function.onFun, List.disjoint_left, List.mem_map]
      rintro x ⟨l, _, rfl⟩ ⟨l', _, h⟩
      simp at h; exact hab h.1.symm
  · refine List.Pairwise.imp ?_ List.nodup_range
    intro a b hab
    simp only [Function.onFun, List.disjoint_left, List.mem_flatMap, List.mem_map]
    rintro x ⟨k, _, l, _, rfl⟩ ⟨k', _, l', _, h⟩
    simp at h; exact hab h.1.symm

/-- The loop over outputs without `e`. -/
def addList (c : Cfg K) (i : Nat) (r : Rad K) (ts : List (Nat × Nat × Nat)) (I : Four K) : Four K :=
  ts.foldl (addTerm c i r) I

theorem fold_fst (i : Nat) (r : Rad K) (ts : List (Nat × Nat × Nat)) :
    ∀ I e, (ts.foldl (fun (Ie : Four K × K) t =>
      (addTerm c i r Ie.1 t, addErr c i r (addTerm c i r Ie.1 t) t Ie.2)) (I, e)).1 = addList c i r ts I := by
  induction ts with
  | nil => intro I e; rfl
  | cons t ts ih => intro I e; simp only [List.foldl_cons]; rw [ih]; rfl

theorem addTerm_p (i : Nat) (r : Rad K) (I : Four K) (t : Nat × Nat × Nat) (j k l s : Nat) :
    (addTerm c i r I t).p j k l s =
      if c.up = true ∧ s < c.nStokes ∧ (j, k, l) = t then FNum.add (I.p j k l s) (term c i k l (r.p j) s)
      else I.p j k l s := by
  obtain ⟨j', k', l'⟩ := t
  simp only [addTerm, Prod.mk.injEq]
  by_cases hu : c.up = true
  · rw [if_pos hu]; unfold addAt
    by_cases h : j = j' ∧ k = k' ∧ l = l' ∧ s < c.nStokes
    · obtain ⟨rfl, rfl, rfl, hs⟩ := h
      rw [if_pos ⟨rfl, rfl, rfl, hs⟩, if_pos ⟨hu, hs, rfl, rfl, rfl⟩]
    · rw [if_neg h, if_neg]; rintro ⟨_, hs, rfl, rfl, rfl⟩; exact h ⟨rfl, rfl, rfl, hs⟩
  · rw [if_neg hu, if_neg (fun h => hu h.1)]

theorem addTerm_m (i : Nat) (r : Rad K) (I : Four K) (t : Nat × Nat × Nat) (j k l s : Nat) :
    (addTerm c i r I t).m j k l s =
      if c.dn = true ∧ s < c.nStokes ∧ (j, k, l) = t then FNum.add (I.m j k l s) (term c i k l (r.m j) s)
      else I.m j k l s := by
  obtain ⟨j', k', l'⟩ := t
  simp only [addTerm, Prod.mk.injEq]
  by_cases hu : c.dn = true
  · rw [if_pos hu]; unfold addAt
    by_cases h : j = j' ∧ k = k' ∧ l = l' ∧ s < c.nStokes
    · obtain ⟨rfl, rfl, rfl, hs⟩ := h
      rw [if_pos ⟨rfl, rfl, rfl, hs⟩, if_pos ⟨hu, hs, rfl, rfl, rfl⟩]
    · rw [if_neg h, if_neg]; rintro ⟨_, hs, rfl, rfl, rfl⟩; exact h ⟨rfl, rfl, rfl, hs⟩
  · rw [if_neg hu, if_neg (fun h => hu h.1)]

theorem addTerm_pl (i : Nat) (r : Rad K) (I : Four K) (t : Nat × Nat × Nat) (j d k l s : Nat) :
    (addTerm c i r I t).pl j d k l s =
      if (c.derivs = true ∧ c.up = true ∧ d < c.nDerivs) ∧ s < c.nStokes ∧ (j, k, l) = t then
        FNum.add (I.pl j d k l s) (term c i k l (r.pl j d) s)
      else I.pl j d k l s := by
  obtain ⟨j', k', l'⟩ := t
  simp only [addTerm, Prod.mk.injEq]
  by_cases hu : (c.derivs && c.up) = true
  · rw [if_pos hu]
    rw [Bool.and_eq_true] at hu
    unfold addDerivs
    by_cases h : j = j' ∧ d < c.nDerivs ∧ k = k' ∧ l = l' ∧ s < c.nStokes
    · obtain ⟨rfl, hd, rfl, rfl, hs⟩ := h
      rw [if_pos ⟨rfl, hd, rfl, rfl, hs⟩, if_pos ⟨⟨hu.1, hu.2, hd⟩, hs, rfl, rfl, rfl⟩]
    · rw [if_neg h, if_neg]; rintro ⟨⟨_, _, hd⟩, hs, rfl, rfl, rfl⟩; exact h ⟨rfl, hd, rfl, rfl, hs⟩
  · rw [if_neg hu, if_neg]
    rw [Bool.and_eq_true] at hu
    exact fun h => hu ⟨h.1.1, h.1.2.1⟩

theorem addTerm_ml (i : Nat) (r : Rad K) (I : Four K) (t : Nat × Nat × Nat) (j d k l s : Nat) :
    (addTerm c i r I t).ml j d k l s =
      if (c.derivs = true ∧ c.dn = true ∧ d < c.nDerivs) ∧ s < c.nStokes ∧ (j, k, l) = t then
        FNum.add (I.ml j d k l s) (term c i k l (r.ml j d) s)
      else I.ml j d k l s := by
  obtain ⟨j', k', l'⟩ := t
  simp only [addTerm, Prod.mk.injEq]
  by_cases hu : (c.derivs && c.dn) = true
  · rw [if_pos hu]
    rw [Bool.and_eq_true] at hu
    unfold addDerivs
    by_cases h : j = j' ∧ d < c.nDerivs ∧ k = k' ∧ l = l' ∧ s < c.nStokes
    · obtain ⟨rfl, hd, rfl, rfl, hs⟩ := h
      rw [if_pos ⟨rfl, hd, rfl, rfl, hs⟩, if_pos ⟨⟨hu.1, hu.2, hd⟩, hs, rfl, rfl, rfl⟩]
    · rw [if_neg h, if_neg]; rintro ⟨⟨_, _, hd⟩, hs, rfl, rfl, rfl⟩; exact h ⟨rfl, hd, rfl, rfl, hs⟩
  · rw [if_neg hu, if_neg]
    rw [Bool.and_eq_true] at hu
    exact fun h => hu ⟨h.1.1, h.1.2.1⟩

/-- One cell followed through a list of distinct steps, each of which acts on its own cell. -/
theorem fold_cell {S V : Type} (step : S → Nat × Nat × Nat → S) (get : S → V) (act : V → V) (q : Prop)
    [Decidable q] (t0 : Nat × Nat × Nat)
    (h : ∀ s t, get (step s t) = if q ∧ t0 = t then act (get s) else get s) (ts : List (Nat × Nat × Nat)) :
    ts.Nodup → ∀ s, get (ts.foldl step s) = if q ∧ t0 ∈ ts then act (get s) else get s := by
  induction ts with
  | nil => intro _ s; simp
  | cons t ts ih =>
      intro hn s
      rw [List.nodup_cons] at hn
      rw [List.foldl_cons, ih hn.2, h]
      by_cases hq : q
      · by_cases he : t0 = t
        · subst he; simp [hq, hn.1]
        · simp [hq, he]
      · simp [hq]

variable (c)

theorem addList_p (i : Nat) (r : Rad K) {ts} (hn : ts.Nodup) (I : Four K) (j k l s : Nat) :
    (addList c i r ts I).p j k l s = if (c.up = true ∧ s < c.nStokes) ∧ (j, k, l) ∈ ts then
      FNum.add (I.p j k l s) (term c i k l (r.p j) s) else I.p j k l s :=
  fold_cell (addTerm c i r) (fun I => I.p j k l s) (fun x => FNum.add x (term c i k l (r.p j) s))
    (c.up = true ∧ s < c.nStokes) (j, k, l)
    (fun I t => by simp only [addTerm_p, and_assoc]) ts hn I

theorem addList_m (i : Nat) (r : Rad K) {ts} (hn : ts.Nodup) (I : Four K) (j k l s : Nat) :
    (addList c i r ts I).m j k l s = if (c.dn = true ∧ s < c.nStokes) ∧ (j, k, l) ∈ ts then
      FNum.add (I.m j k l s) (term c i k l (r.m j) s) else I.m j k l s :=
  fold_cell (addTerm c i r) (fun I => I.m j k l s) (fun x => FNum.add x (term c i k l (r.m j) s))
    (c.dn = true ∧ s < c.nStokes) (j, k, l)
    (fun I t => by simp only [addTerm_m, and_assoc]) ts hn I

theorem addList_pl (i : Nat) (r : Rad K) {ts} (hn : ts.Nodup) (I : Four K) (j d k l s : Nat) :
    (addList c i r ts I).pl j d k l s =
      if ((c.derivs = true ∧ c.up = true ∧ d < c.nDerivs) ∧ s < c.nStokes) ∧ (j, k, l) ∈ ts then
      FNum.add (I.pl j d k l s) (term c i k l (r.pl j d) s) else I.pl j d k l s :=
  fold_cell (addTerm c i r) (fun I => I.pl j d k l s) (fun x => FNum.add x (term c i k l (r.pl j d) s))
    ((c.derivs = true ∧ c.up = true ∧ d < c.nDerivs) ∧ s < c.nStokes) (j, k, l)
    (fun I t => by simp only [addTerm_pl, and_assoc]) ts hn I

theorem addList_ml (i : Nat) (r : Rad K) {ts} (hn : ts.Nodup) (I : Four K) (j d k l s : Nat) :
    (addList c i r ts I).ml j d k l s =
      if ((c.derivs = true ∧ c.dn = true ∧ d < c.nDerivs) ∧ s < c.nStokes) ∧ (j, k, l) ∈ ts then
      FNum.add (I.ml j d k l s) (term c i k l (r.ml j d) s) else I.ml j d k l s :=
  fold_cell (addTerm c i r) (fun I => I.ml j d k l s) (fun x => FNum.add x (term c i k l (r.ml j d) s))
    ((c.derivs = true ∧ c.dn = true ∧ d < c.nDerivs) ∧ s < c.nStokes) (j, k, l)
    (fun I t => by simp only [addTerm_ml, and_assoc]) ts hn I

variable {c}

/-- `e` looks at the finished sums. -/
theorem fold_snd (i : Nat) (r : Rad K) (ts : List (Nat × Nat × Nat)) :
    ts.Nodup → ∀ I e, (ts.foldl (fun (Ie : Four K × K) t =>
      (addTerm c i r Ie.1 t, addErr c i r (addTerm c i r Ie.1 t) t Ie.2)) (I, e)).2 =
      ts.foldl (fun e t => addErr c i r (addList c i r ts I) t e) e := by
  induction ts with
  | nil => intro _ I e; rfl
  | cons t ts ih =>
      intro hn I e
      rw [List.nodup_cons] at hn
      rw [List.foldl_cons, ih hn.2]
      simp only [List.foldl_cons]
      have h1 : addList c i r (t :: ts) I = addList c i r ts (addTerm c i r I t) := rfl
      rw [h1]
      have h2 : addErr c i r (addTerm c i r I t) t e =
          addErr c i r (addList c i r ts (addTerm c i r I t)) t e := by
        obtain ⟨j, k, l⟩ := t
        have e1 := addList_p c i r hn.2 (addTerm c i r I (j, k, l)) j k l 0
        have e2 := addList_m c i r hn.2 (addTerm c i r I (j, k, l)) j k l 0
        rw [if_neg (fun h => hn.1 h.2)] at e1 e2
        simp only [addErr, e1, e2]
      rw [h2]

theorem addAll_fst (i : Nat) (r : Rad K) (I : Four K) : (addAll c i r I).1 = addList c i r c.cells I :=
  fold_fst i r _ I _

theorem addAll_snd (i : Nat) (r : Rad K) (I : Four K) : (addAll c i r I).2 =
    c.cells.foldl (fun e t => addErr c i r (addAll c i r I).1 t e) FNum.zero := by
  rw [addAll_fst]; exact fold_snd i r _ nodup_cells I _

/-- Without a tolerance `e` stays zero. -/
theorem addAll_notol (h : FNum.lt FNum.zero c.tol = false) (i : Nat) (r : Rad K) (I : Four K) :
    (addAll c i r I).2 = FNum.zero := by
  rw [addAll_snd]
  generalize (addAll c i r I).1 = J
  have : ∀ (ts : List (Nat × Nat × Nat)) e, ts.foldl (fun e t => addErr c i r J t e) e = e := by
    intro ts
    induction ts with
    | nil => intro e; rfl
    | cons t ts ih =>
        intro e
        rw [List.foldl_cons, ih]
        simp [addErr, h]
  exact this _ _

theorem term_eq (i k l s : Nat) (row : Nat → K) : term c i k l row s = Spec.azTerm c i k l s row := by
  have : c.iMus2 * c.nStokes + k * c.nStokes + s = Spec.stream c k s := by
    unfold Cfg.iMus2 Spec.stream
    by_cases h : c.nUmus = 0
    · rw [if_pos h, if_pos h]; simp
    · rw [if_neg h, if_neg h, Nat.add_mul]
  simp only [term, mode, Spec.azTerm, arg, this]
  by_cases h : s < 2
  · rw [if_pos h, if_pos h]
  · rw [if_neg h, if_neg h]

theorem angles_eq : Spec.angles c = c.nMus2 := rfl

theorem cell_iff {j k l s : Nat} : Spec.Cell c j k l s ↔ s < c.nStokes ∧ (j, k, l) ∈ c.cells := by
  rw [mem_cells]; unfold Spec.Cell; rw [angles_eq]; tauto

/-- Adding a term to a sum of `n` terms. -/
theorem Summed.step {I0 I : Four K} {cor : Nat → Rad K} {n : Nat} (h : Spec.Summed c I0 cor n I) :
    Spec.Summed c I0 cor (n + 1) (addAll c n (cor n) I).1 := by
  rw [addAll_fst]
  have hn := nodup_cells (c := c)
  constructor
  · intro j k l s hc hu
    rw [addList_p c n _ hn, if_pos ⟨⟨hu, (cell_iff.1 hc).1⟩, (cell_iff.1 hc).2⟩, h.p _ _ _ _ hc hu, term_eq]; rfl
  · intro j k l s hc hu
    rw [addList_m c n _ hn, if_pos ⟨⟨hu, (cell_iff.1 hc).1⟩, (cell_iff.1 hc).2⟩, h.m _ _ _ _ hc hu, term_eq]; rfl
  · intro j d k l s hc hd hv hu
    rw [addList_pl c n _ hn, if_pos ⟨⟨⟨hv, hu, hd⟩, (cell_iff.1 hc).1⟩, (cell_iff.1 hc).2⟩,
      h.pl _ _ _ _ _ hc hd hv hu, term_eq]; rfl
  · intro j d k l s hc hd hv hu
    rw [addList_ml c n _ hn, if_pos ⟨⟨⟨hv, hu, hd⟩, (cell_iff.1 hc).1⟩, (cell_iff.1 hc).2⟩,
      h.ml _ _ _ _ _ hc hd hv hu, term_eq]; rfl
  · intro j k l s hc
    rw [addList_p c n _ hn, if_neg (fun g => hc ⟨cell_iff.2 ⟨g.1.2, g.2⟩, g.1.1⟩), h.p' _ _ _ _ hc]
  · intro j k l s hc
    rw [addList_m c n _ hn, if_neg (fun g => hc ⟨cell_iff.2 ⟨g.1.2, g.2⟩, g.1.1⟩), h.m' _ _ _ _ hc]
  · intro j d k l s hc
    rw [addList_pl c n _ hn, if_neg (fun g => hc ⟨cell_iff.2 ⟨g.1.2, g.2⟩, g.1.1.2.2, g.1.1.1, g.1.1.2.1⟩), h.pl' _ _ _ _ _ hc]
  · intro j d k l s hc
    rw [addList_ml c n _ hn, if_neg (fun g => hc ⟨cell_iff.2 ⟨g.1.2, g.2⟩, g.1.1.2.2, g.1.1.1, g.1.1.2.1⟩), h.ml' _ _ _ _ _ hc]

theorem Summed.start (I0 : Four K) (cor : Nat → Rad K) : Spec.Summed c I0 cor 0 I0 := by
  constructor <;> intros <;> rfl

/-! ### The loop -/

/-- The sum after `n` terms. -/
def sumTo (c : Cfg K) (cor : Nat → Rad K) (I0 : Four K) : Nat → Four K
  | 0 => I0
  | n + 1 => (addAll c n (cor n) (sumTo c cor I0 n)).1

theorem sumTo_summed (c : Cfg K) (cor : Nat → Rad K) (I0 : Four K) (n : Nat) :
    Spec.Summed c I0 cor n (sumTo c cor I0 n) := by
  induction n with
  | zero => exact Summed.start _ _
  | succ n ih => exact Summed.step ih

/-- What the running count counts. -/
def low (c : Cfg K) (cor : Nat → Rad K) (I0 : Four K) (i : Nat) : Bool :=
  decide (0 < i) && FNum.lt (addAll c i (cor i) (sumTo c cor I0 i)).2 c.tol

/-- The outputs before the loop with the radiances and the integrals after `n` terms. -/
def outAt (c : Cfg K) (raw cor : Nat → Rad K) (I0 : Four K) (o : Out K) (n : Nat) : Out K :=
  let o1 := if n = 0 then o else sums c 0 (raw 0) o
  { o1 with rad := if c.radiance then sumTo c cor I0 n else I0 }

theorem sums_pos {i : Nat} (h : 0 < i) (r : Rad K) (o : Out K) : sums c i r o = o := by
  have : ¬ i = 0 := by omega
  simp [sums, this]

theorem sums_rad (i : Nat) (r : Rad K) (o : Out K) (I : Four K) :
    sums c i r { o with rad := I } = { sums c i r o with rad := I } := by
  simp only [sums, means, fluxes]
  by_cases h1 : (has c.solutions OUTPUT_RADIANCE_MEAN && decide (i = 0)) = true
  · by_cases h2 : (has c.solutions OUTPUT_FLUX && decide (i = 0)) = true
    · simp only [if_pos h1, if_pos h2]
    · simp only [if_pos h1, if_neg h2]
  · by_cases h2 : (has c.solutions OUTPUT_FLUX && decide (i = 0)) = true
    · simp only [if_neg h1, if_pos h2]
    · simp only [if_neg h1, if_neg h2]

theorem sums_radE (i : Nat) (r : Rad K) (o : Out K) : (sums c i r o).rad = o.rad := by
  have := congrArg Out.rad (sums_rad (c := c) i r o o.rad)
  simpa using this

theorem sums_count (i : Nat) (r : Rad K) (o : Out K) : (sums c i r o).count = o.count := by
  simp only [sums, means, fluxes]
  by_cases h1 : (has c.solutions OUTPUT_RADIANCE_MEAN && decide (i = 0)) = true
  · by_cases h2 : (has c.solutions OUTPUT_FLUX && decide (i = 0)) = true
    · simp only [if_pos h1, if_pos h2]
    · simp only [if_pos h1, if_neg h2]
  · by_cases h2 : (has c.solutions OUTPUT_FLUX && decide (i = 0)) = true
    · simp only [if_neg h1, if_pos h2]
    · simp only [if_neg h1, if_neg h2]

/-- The length of the run of `low` terms that ends before `i`, as far as it matters. -/
def runLen (c : Cfg K) (cor : Nat → Rad K) (I0 : Four K) (i count : Nat) : Prop :=
  (count = 0 ∧ (i = 0 ∨ low c cor I0 (i - 1) = false)) ∨
  (count = 1 ∧ 2 ≤ i ∧ low c cor I0 (i - 1) = true ∧ low c cor I0 (i - 2) = false)

/-- Two low terms in a row, the last being term `m - 1`. -/
def ends (c : Cfg K) (cor : Nat → Rad K) (I0 : Four K) (m : Nat) : Prop :=
  3 ≤ m ∧ low c cor I0 (m - 1) = true ∧ low c cor I0 (m - 2) = true

theorem outAt_step (hrad : c.radiance = true) (raw cor : Nat → Rad K) (I0 : Four K) (o : Out K) (i : Nat) :
    { sums c i (raw i) (outAt c raw cor I0 o i) with
      rad := (addAll c i (cor i) (sums c i (raw i) (outAt c raw cor I0 o i)).rad).1 } =
    outAt c raw cor I0 o (i + 1) := by
  have h : (outAt c raw cor I0 o i).rad = sumTo c cor I0 i := by simp [outAt, hrad]
  rw [sums_radE, h]
  cases i with
  | zero =>
      simp only [outAt, hrad, if_true]
      rw [sums_rad]
      simp [sumTo]
  | succ i =>
      rw [sums_pos (by omega)]
      simp [outAt, hrad, sumTo]

theorem loop_spec {env : Env K} (hrad : c.radiance = true) {raw cor : Nat → Rad K} {I0 : Four K} {o : Out K} :
    ∀ left i count r, runLen c cor I0 i count →
      (∀ q, i ≤ q → q < i + left → env.getFourier q (if q = i then r else cor (q - 1)) = some (raw q) ∧
        env.corrFourier q (raw q) = some (cor q)) →
      (∀ m, m ≤ i → ¬ ends c cor I0 m) →
      ∃ n, i ≤ n ∧ n ≤ i + left ∧ (n = i + left ∨ ends c cor I0 n) ∧ (∀ m, m < n → ¬ ends c cor I0 m) ∧
        loop c env left i count r (outAt c raw cor I0 o i) = .ok { outAt c raw cor I0 o n with count := some n } := by
  intro left
  induction left with
  | zero =>
      intro i count r _ _ hm
      exact ⟨i, le_refl _, by omega, Or.inl (by omega), fun m h => hm m (by omega), rfl⟩
  | succ left ih =>
      intro i count r hc ht hm
      have h0 := ht i (le_refl _) (by omega)
      rw [if_pos rfl] at h0
      have hs := outAt_step (c := c) hrad raw cor I0 o i
      have hr : (sums c i (raw i) (outAt c raw cor I0 o i)).rad = sumTo c cor I0 i := by
        rw [sums_radE]; simp [outAt, hrad]
      have hlow : low c cor I0 i =
          (decide (0 < i) && FNum.lt (addAll c i (cor i) (sums c i (raw i) (outAt c raw cor I0 o i)).rad).2 c.tol) := by
        rw [hr]; rfl
      simp only [loop, h0.1, h0.2, hrad, if_true]
      rw [← hlow]
      rw [hs]
      by_cases hl : low c cor I0 i = true
      · rw [if_pos hl]
        have hi0 : 0 < i := by
          have := hl; simp [low] at this; exact this.1
        rcases hc with ⟨hc0, hp⟩ | ⟨hc1, hi2, hp, _⟩
        · subst hc0
          rw [if_neg (by decide)]
          have hne : ¬ ends c cor I0 (i + 1) := by
            rintro ⟨h3, h4, h5⟩
            rcases hp with hp | hp
            · omega
            · have : i + 1 - 2 = i - 1 := by omega
              rw [this, hp] at h5; cases h5
          obtain ⟨n, h1, h2, h3, h4, h5⟩ := ih (i + 1) 1 (cor i)
            (Or.inr ⟨rfl, by omega, by simpa using hl, by
              rcases hp with hp | hp
              · omega
              · have : i + 1 - 2 = i - 1 := by omega
                rw [this]; exact hp⟩)
            (by
              intro q hq1 hq2
              have := ht q (by omega) (by omega)
              rw [if_neg (by omega)] at this
              by_cases hq : q = i + 1
              · rw [if_pos hq]; rw [hq] at this ⊢; simpa using this
              · rw [if_neg hq]; exact this)
            (by
              intro m hmm
              by_cases h : m ≤ i
              · exact hm m h
              · have : m = i + 1 := by omega
                rw [this]; exact hne)
          exact ⟨n, by omega, by omega, by rcases h3 with h3 | h3; exact Or.inl (by omega); exact Or.inr h3, h4, h5⟩
        · subst hc1
          rw [if_pos (by decide)]
          refine ⟨i + 1, by omega, by omega, Or.inr ⟨by omega, by simpa using hl, ?_⟩, fun m h => hm m (by omega),
            by rw [← hs]⟩
          have : i + 1 - 2 = i - 1 := by omega
          rw [this]; exact hp
      · rw [if_neg hl, if_neg (by decide)]
        have hl' : low c cor I0 i = false := by simpa using hl
        have hne : ¬ ends c cor I0 (i + 1) := by
          rintro ⟨h3, h4, h5⟩
          have : i + 1 - 1 = i := by omega
          rw [this, hl'] at h4; cases h4
        obtain ⟨n, h1, h2, h3, h4, h5⟩ := ih (i + 1) 0 (cor i)
          (Or.inl ⟨rfl, Or.inr (by simpa using hl')⟩)
          (by
            intro q hq1 hq2
            have := ht q (by omega) (by omega)
            rw [if_neg (by omega)] at this
            by_cases hq : q = i + 1
            · rw [if_pos hq]; rw [hq] at this ⊢; simpa using this
            · rw [if_neg hq]; exact this)
          (by
            intro m hmm
            by_cases h : m ≤ i
            · exact hm m h
            · have : m = i + 1 := by omega
              rw [this]; exact hne)
        exact ⟨n, by omega, by omega, by rcases h3 with h3 | h3; exact Or.inl (by omega); exact Or.inr h3, h4, h5⟩

theorem terms_if {env : Env K} {r0 : Rad K} {n : Nat} {raw cor : Nat → Rad K} (h : Spec.Terms env r0 n raw cor)
    {q : Nat} (hq : q < n) : env.getFourier q (if q = 0 then r0 else cor (q - 1)) = some (raw q) ∧
      env.corrFourier q (raw q) = some (cor q) := by
  have := h q hq
  cases q with
  | zero => simpa using this
  | succ q => simpa using this

/-- A run asking for radiances whose terms can all be computed. -/
theorem run_radiance {env : Env K} (hrad : c.radiance = true) {raw cor : Nat → Rad K} {r0 : Rad K} {I0 : Four K}
    {o : Out K} (hp : prepare c env o.rad = some I0) (ht : Spec.Terms env r0 c.nFour2 raw cor) :
    ∃ n, n ≤ c.nFour2 ∧ (n = c.nFour2 ∨ ends c cor I0 n) ∧ (∀ m, m < n → ¬ ends c cor I0 m) ∧
      run c env false r0 o = .ok { outAt c raw cor I0 o n with count := some n } := by
  obtain ⟨n, _, h2, h3, h4, h5⟩ := loop_spec (c := c) (env := env) hrad (raw := raw) (cor := cor) (I0 := I0) (o := o)
    c.nFour2 0 0 r0 (Or.inl ⟨rfl, Or.inl rfl⟩) (fun q _ hq => terms_if ht (by omega))
    (by rintro m hm ⟨h, _⟩; omega)
  refine ⟨n, by omega, by simpa using h3, h4, ?_⟩
  have h6 : c.nFour = c.nFour2 := by simp [Cfg.nFour, hrad]
  have h7 : outAt c raw cor I0 o 0 = { o with rad := I0 } := by simp [outAt, hrad, sumTo]
  rw [h7] at h5
  simp only [run, hp, h6]
  exact h5

/-- A run that does not ask for radiances. -/
theorem run_integrals {env : Env K} (hrad : c.radiance = false) {r0 r1 r2 : Rad K} {o : Out K}
    (h1 : env.getFourier 0 r0 = some r1) (h2 : env.corrFourier 0 r1 = some r2) :
    run c env false r0 o = .ok { sums c 0 r1 o with count := some 1 } := by
  simp [run, prepare, hrad, Cfg.nFour, loop, h1, h2]

/-! ### Failure -/

theorem loop_error {env : Env K} : ∀ left i count r o o', loop c env left i count r o = .error o' →
    o'.count = o.count := by
  intro left
  induction left with
  | zero => intro i count r o o' h; simp [loop] at h
  | succ left ih =>
      intro i count r o o' h
      rw [loop] at h
      cases h1 : env.getFourier i r with
      | none => rw [h1] at h; cases h; rfl
      | some r1 =>
          rw [h1] at h
          dsimp only at h
          cases h2 : env.corrFourier i r1 with
          | none => rw [h2] at h; cases h; exact sums_count _ _ _
          | some r2 =>
              rw [h2] at h
              dsimp only at h
              by_cases hr : c.radiance = true
              · rw [if_pos hr] at h
                generalize (if (decide (0 < i) && FNum.lt (addAll c i r2 (sums c i r1 o).rad).2 c.tol) = true
                  then count + 1 else 0) = cn at h
                by_cases h3 : 2 ≤ cn
                · rw [if_pos h3] at h; cases h
                · rw [if_neg h3] at h
                  rw [ih _ _ _ _ _ h]; exact sums_count _ _ _
              · rw [if_neg hr] at h
                rw [ih _ _ _ _ _ h]; exact sums_count _ _ _

/-! ### Exact arithmetic -/

section
variable {c : Cfg ℝ}

theorem max2_lt (a b t : ℝ) : FNum.lt (max2 a b) t = true ↔ FNum.lt a t = true ∧ FNum.lt b t = true := by
  simp only [max2, FNum.lt, decide_eq_true_eq]
  by_cases h : b < a
  · rw [if_pos h]; constructor
    · intro h1; exact ⟨h1, lt_trans h h1⟩
    · exact fun h1 => h1.1
  · rw [if_neg h]; constructor
    · intro h1; exact ⟨lt_of_le_of_lt (not_lt.1 h) h1, h1⟩
    · exact fun h1 => h1.2

theorem ratio_lt (I v t : ℝ) (ht : 0 < t) : FNum.lt (ratio I v) t = true ↔ (I ≠ 0 → |v| < t * |I|) := by
  unfold ratio
  by_cases h : I = 0
  · subst h; simp [FNum.ne0, FNum.lt, FNum.zero, ht]
  · have h' : FNum.ne0 I = true := by simp [FNum.ne0, h]
    rw [if_pos h', max2_lt]
    simp only [FNum.lt, FNum.zero, FNum.abs, FNum.div, decide_eq_true_eq, ht, true_and]
    rw [abs_div, div_lt_iff₀ (abs_pos.2 h)]
    exact ⟨fun h1 _ => h1, fun h1 => h1 h⟩

theorem addErr_lt (ht : 0 < c.tol) {i : Nat} (hi : 0 < i) (r : Rad ℝ) (I : Four ℝ) (j k l : Nat) (e : ℝ) :
    FNum.lt (addErr c i r I (j, k, l) e) c.tol = true ↔ FNum.lt e c.tol = true ∧
      (c.up = true → I.p j k l 0 ≠ 0 → |term c i k l (r.p j) 0| < c.tol * |I.p j k l 0|) ∧
      (c.dn = true → I.m j k l 0 ≠ 0 → |term c i k l (r.m j) 0| < c.tol * |I.m j k l 0|) := by
  have h0 : (FNum.lt FNum.zero c.tol && decide (0 < i)) = true := by simp [FNum.lt, FNum.zero, ht, hi]
  simp only [addErr]
  rw [if_pos h0]
  by_cases hu : c.up = true
  · by_cases hd : c.dn = true
    · rw [if_pos hu, if_pos hd, max2_lt, max2_lt, ratio_lt _ _ _ ht, ratio_lt _ _ _ ht]
      simp [hu, hd, and_assoc]
    · rw [if_pos hu, if_neg hd, max2_lt, ratio_lt _ _ _ ht]
      simp [hu, hd]
  · by_cases hd : c.dn = true
    · rw [if_neg hu, if_pos hd, max2_lt, ratio_lt _ _ _ ht]
      simp [hu, hd]
    · rw [if_neg hu, if_neg hd]
      simp [hu, hd]

theorem fold_lt (ht : 0 < c.tol) {i : Nat} (hi : 0 < i) (r : Rad ℝ) (I : Four ℝ) (ts : List (Nat × Nat × Nat)) :
    ∀ e, FNum.lt (ts.foldl (fun e t => addErr c i r I t e) e) c.tol = true ↔ FNum.lt e c.tol = true ∧
      ∀ j k l, (j, k, l) ∈ ts →
      (c.up = true → I.p j k l 0 ≠ 0 → |term c i k l (r.p j) 0| < c.tol * |I.p j k l 0|) ∧
      (c.dn = true → I.m j k l 0 ≠ 0 → |term c i k l (r.m j) 0| < c.tol * |I.m j k l 0|) := by
  induction ts with
  | nil => intro e; simp
  | cons t ts ih =>
      intro e
      obtain ⟨j, k, l⟩ := t
      rw [List.foldl_cons, ih, addErr_lt ht hi]
      constructor
      · rintro ⟨⟨h1, h2⟩, h3⟩
        refine ⟨h1, fun j' k' l' hm => ?_⟩
        rcases List.mem_cons.1 hm with h | h
        · cases h; exact h2
        · exact h3 _ _ _ h
      · rintro ⟨h1, h2⟩
        exact ⟨⟨h1, h2 _ _ _ (by simp)⟩, fun j' k' l' hm => h2 _ _ _ (List.mem_cons_of_mem _ hm)⟩

/-- The code's test of a term is the specification's. -/
theorem low_iff (ht : 0 < c.tol) (hs : 0 < c.nStokes) {i : Nat} (hi : 0 < i) (cor : Nat → Rad ℝ) (I0 : Four ℝ) :
    low c cor I0 i = true ↔ Spec.Below c I0 cor i := by
  unfold low
  rw [Bool.and_eq_true, addAll_snd, fold_lt ht hi]
  have h0 : FNum.lt (FNum.zero : ℝ) c.tol = true := by simp [FNum.lt, FNum.zero, ht]
  have hS := sumTo_summed c cor I0 (i + 1)
  have hd : decide (0 < i) = true := by simpa using hi
  simp only [h0, hd, true_and]
  change (∀ j k l, (j, k, l) ∈ c.cells →
    (c.up = true → (sumTo c cor I0 (i + 1)).p j k l 0 ≠ 0 → |term c i k l ((cor i).p j) 0| < c.tol * |(sumTo c cor I0 (i + 1)).p j k l 0|) ∧
    (c.dn = true → (sumTo c cor I0 (i + 1)).m j k l 0 ≠ 0 → |term c i k l ((cor i).m j) 0| < c.tol * |(sumTo c cor I0 (i + 1)).m j k l 0|)) ↔ _
  constructor
  · intro h j k l hj hk hl
    have hcell : Spec.Cell c j k l 0 := ⟨hj, hk, hl, hs⟩
    have h1 := h j k l (mem_cells.2 ⟨hj, hk, hl⟩)
    refine ⟨fun hu => ?_, fun hu => ?_⟩
    · have := h1.1 hu
      rw [hS.p _ _ _ _ hcell hu, term_eq] at this; exact this
    · have := h1.2 hu
      rw [hS.m _ _ _ _ hcell hu, term_eq] at this; exact this
  · intro h j k l hm
    obtain ⟨hj, hk, hl⟩ := mem_cells.1 hm
    have hcell : Spec.Cell c j k l 0 := ⟨hj, hk, hl, hs⟩
    have h1 := h j k l hj hk hl
    refine ⟨fun hu => ?_, fun hu => ?_⟩
    · have := h1.1 hu
      rw [hS.p _ _ _ _ hcell hu, term_eq]; exact this
    · have := h1.2 hu
      rw [hS.m _ _ _ _ hcell hu, term_eq]; exact this

theorem low_notol (ht : ¬ 0 < c.tol) (i : Nat) (cor : Nat → Rad ℝ) (I0 : Four ℝ) : low c cor I0 i = false := by
  have h0 : FNum.lt (FNum.zero : ℝ) c.tol = false := by simp [FNum.lt, FNum.zero]; exact not_lt.1 ht
  unfold low
  rw [addAll_notol h0, h0, Bool.and_false]

theorem ends_iff (hs : 0 < c.nStokes) (cor : Nat → Rad ℝ) (I0 : Four ℝ) (m : Nat) :
    ends c cor I0 m ↔ Spec.MayEnd c I0 cor m := by
  unfold ends Spec.MayEnd
  by_cases ht : 0 < c.tol
  · constructor
    · rintro ⟨h1, h2, h3⟩
      exact ⟨h1, ht, (low_iff ht hs (by omega) cor I0).1 h2, (low_iff ht hs (by omega) cor I0).1 h3⟩
    · rintro ⟨h1, _, h2, h3⟩
      exact ⟨h1, (low_iff ht hs (by omega) cor I0).2 h2, (low_iff ht hs (by omega) cor I0).2 h3⟩
  · constructor
    · rintro ⟨_, h2, _⟩; rw [low_notol ht] at h2; cases h2
    · rintro ⟨_, h2, _⟩; exact absurd h2 ht

theorem sumUp_eq (f : Nat → ℝ) (n : Nat) : sumUp f n = ∑ q ∈ Finset.range n, f q := by
  unfold sumUp
  induction n with
  | zero => rfl
  | succ n ih =>
      rw [List.range_succ, List.foldl_append, ih, Finset.sum_range_succ]; rfl

end

end Xrtm.Fourier
