import Verif.Model.Radiance
import Verif.Proof.AddingI

/-! Running the routines that compute radiances. -/

namespace Xrtm.Radiance

open Mat Adding Matrix

variable {K : Type} [CommRing K] {n : Nat} {inv? : M n K → Option (M n K)}

/-- Nothing but scratch arrays and the results of block `j` changed. -/
structure Keep (j : Nat) (s s' : Mem n K) : Prop where
  m : ∀ c, c ≠ w2 → c ≠ w3 → s'.m c = s.m c
  v : ∀ c, c ≠ v1 → c ≠ v2 → c ≠ cP j → c ≠ cM j → s'.v c = s.v c

/-- A derivative that is not varied is zero. -/
def dR (a : Act) (j : Nat) (s : Mem n K) : M n K := if a.l then s.m (cR j) else 0
def dT (a : Act) (j : Nat) (s : Mem n K) : M n K := if a.l then s.m (cT j) else 0
def dS (a : Act) (j : Nat) (s : Mem n K) : V n K := if a.s then s.v (cS j) else 0
def dG (b : Act) (j : Nat) (s : Mem n K) : M n K := if b.l then s.m (cG j) else 0

theorem cm (i j k l : Nat) (hk : k < 8) (hl : l < 8) : (cellM i k = cellM j l) = (i = j ∧ k = l) := propext (cellM_inj hk hl)
theorem cv (i j k l : Nat) (hk : k < 8) (hl : l < 8) : (cellV i k = cellV j l) = (i = j ∧ k = l) := propext (cellV_inj hk hl)
theorem cms (i k l : Nat) : (cellM i k = .scratch l) = False := by simp [cellM]
theorem cvs (i k l : Nat) : (cellV i k = .scratch l) = False := by simp [cellV]
theorem csm (i k l : Nat) : (.scratch l = cellM i k) = False := by simp [cellM]
theorem csv (i k l : Nat) : (.scratch l = cellV i k) = False := by simp [cellV]

set_option hygiene false in
/-- Run a straight line. -/
macro "go" : tactic => `(tactic|
  simp [run, step, cP, cM, cX, cY, cS, cR, cT, cG, cm, cv, cms, cvs, csm, csv, v1, v2, w1, w2, w3])

theorem keep_iff (j : Nat) (s s' : Mem n K) : Keep j s s' ↔ (∀ c, c ≠ w2 → c ≠ w3 → s'.m c = s.m c) ∧
    ∀ c, c ≠ v1 → c ≠ v2 → c ≠ cP j → c ≠ cM j → s'.v c = s.v c := ⟨fun h => ⟨h.m, h.v⟩, fun h => ⟨h.1, h.2⟩⟩

set_option hygiene false in
macro "godj" : tactic => `(tactic|
  simp +contextual [run, step, cP, cM, cX, cY, cS, cR, cT, cG, cm, cv, cms, cvs, csm, csv, v1, v2, w1, w2, w3, hj, hj'])

theorem slabV_post (s : Mem n K) : Post (run inv? slabV s) fun s' =>
    (∀ c, s'.m c = s.m c) ∧ (∀ c, c ≠ v1 → c ≠ cP 0 → s'.v c = s.v c) ∧
      s'.v (cP 0) = s.m (cR 0) *ᵥ s.v (cX 0) + s.m (cT 0) *ᵥ s.v (cY 0) + s.v (cS 0) := by
  unfold slabV
  go
  intro c h1 h2
  simp [h1, h2]

theorem slabD_post {j : Nat} (hj : j ≠ 0) (a b : Act) (s : Mem n K) : Post (runDo inv? [slabD j a b] s) fun s' => Keep j s s' ∧
    s'.v (cP j) = dR a j s *ᵥ s.v (cX 0) + s.m (cR 0) *ᵥ s.v (cX j) + (dT a j s *ᵥ s.v (cY 0) + s.m (cT 0) *ᵥ s.v (cY j)) +
      dS a j s ∧ s'.v (cM j) = s.v (cM j) := by
  have hj' := hj.symm
  cases a <;> simp only [slabD, runDo_calls, dR, dT, dS, Act.l, Act.s, keep_iff] <;> godj <;> abel

theorem toaRefV_post (s : Mem n K) : Post (run inv? toaRefV s) fun s' =>
    (∀ c, s'.m c = s.m c) ∧ (∀ c, c ≠ v1 → c ≠ cP 0 → s'.v c = s.v c) ∧
      s'.v (cP 0) = s.m (cR 0) *ᵥ s.v (cX 0) + s.v (cS 0) := by
  unfold toaRefV
  go
  intro c h1 h2
  simp [h2]

theorem toaRefD_post {j : Nat} (hj : j ≠ 0) (a b : Act) (s : Mem n K) :
    Post (runDo inv? [toaRefD j a b] s) fun s' => Keep j s s' ∧
    s'.v (cP j) = (if a.l || b.l then s.m (cR j) else 0) *ᵥ s.v (cX 0) + s.m (cR 0) *ᵥ s.v (cX j) +
      (if a.s || b.s then s.v (cS j) else 0) ∧ s'.v (cM j) = s.v (cM j) := by
  have hj' := hj.symm
  unfold toaRefD
  simp only [hasL_eq, hasS_eq]
  cases hs : (a.s || b.s) <;> cases hl : (a.l || b.l) <;> simp only [runDo_calls, keep_iff] <;> godj <;> try abel

/-! ### Above a surface -/

/-- What is known after the values: the factors of `1 - R12_p R23_m`. -/
def Fact (inv? : M n K → Option (M n K)) (q : M n K) (s : Mem n K) : Prop := inv? (s.m w1) = some q

theorem boaAllV_post (hinv : Exact inv?) {s : Mem n K} {q : M n K} (hq : q * (1 - s.m (cR 0) * s.m (cG 0)) = 1) :
    Post (run inv? boaAllV s) fun s' =>
    (∀ c, c ≠ w1 → s'.m c = s.m c) ∧ (∀ c, c ≠ v1 → c ≠ v2 → c ≠ cP 0 → c ≠ cM 0 → s'.v c = s.v c) ∧ Fact inv? q s' ∧
      s'.v (cM 0) = q *ᵥ (s.m (cR 0) *ᵥ s.v (cX 0) + s.m (cT 0) *ᵥ s.v (cY 0) + s.v (cS 0)) ∧
      s'.v (cP 0) = s.m (cG 0) *ᵥ s'.v (cM 0) + s.v (cX 0) := by
  have e : inv? (1 - s.m (cR 0) * s.m (cG 0)) = some q := (hinv _ _).2 (mul_eq_one_comm.1 hq)
  simp only [cR, cG] at e
  unfold boaAllV Fact
  simp +contextual [run, step, cP, cM, cX, cY, cS, cR, cT, cG, cm, cv, cms, cvs, csm, csv, v1, v2, w1, w2, w3, e]

theorem boaRefV_post (hinv : Exact inv?) {s : Mem n K} {q : M n K} (hq : q * (1 - s.m (cR 0) * s.m (cG 0)) = 1) :
    Post (run inv? boaRefV s) fun s' =>
    (∀ c, c ≠ w1 → s'.m c = s.m c) ∧ (∀ c, c ≠ v1 → c ≠ v2 → c ≠ cP 0 → c ≠ cM 0 → s'.v c = s.v c) ∧ Fact inv? q s' ∧
      s'.v (cM 0) = q *ᵥ (s.m (cR 0) *ᵥ s.v (cX 0) + s.v (cS 0)) ∧
      s'.v (cP 0) = s.m (cG 0) *ᵥ s'.v (cM 0) + s.v (cX 0) := by
  have e : inv? (1 - s.m (cR 0) * s.m (cG 0)) = some q := (hinv _ _).2 (mul_eq_one_comm.1 hq)
  simp only [cR, cG] at e
  unfold boaRefV Fact
  simp +contextual [run, step, cP, cM, cX, cY, cS, cR, cT, cG, cm, cv, cms, cvs, csm, csv, v1, v2, w1, w2, w3, e]

theorem boa_singular (hinv : Exact inv?) {s : Mem n K} (p : List (Instr K))
    (h : ∀ q : M n K, q * (1 - s.m (cR 0) * s.m (cG 0)) ≠ 1) :
    run inv? ([.mul (cR 0) (cG 0) w1, .isub w1 w1, .getrf w1] ++ p) s = .error .singular := by
  have e : inv? (1 - s.m (cR 0) * s.m (cG 0)) = none := by
    cases he : inv? (1 - s.m (cR 0) * s.m (cG 0)) with
    | none => rfl
    | some q => exact absurd (mul_eq_one_comm.1 ((hinv _ _).1 he)) (h q)
  simp only [cR, cG] at e
  simp [run, step, cR, cG, cms, csm, w1, e]

/-- The codes `radiance_boa_ref` gets right. -/
def refGood (a b : Act) : Bool :=
  match a, b with
  | .U, .U | .U, .L | .U, .B | .L, .U | .L, .L | .B, .U | .B, .S | .B, .L | .B, .B => true
  | _, _ => false

/-- The codes `radiance_boa_all` gets right. -/
def allGood (a b : Act) : Bool :=
  match a, b with
  | .U, .U | .U, .S | .U, .L | .U, .B | .L, .U | .B, .U | .B, .S | .B, .L | .B, .B => true
  | _, _ => false

/-- What the derivative of the light down should be, before the inverse. `t`: with the transmission. -/
def rhs (t : Bool) (a b : Act) (j : Nat) (s : Mem n K) : V n K :=
  (dR a j s * s.m (cG 0) + s.m (cR 0) * dG b j s) *ᵥ s.v (cM 0) + (dR a j s *ᵥ s.v (cX 0) + s.m (cR 0) *ᵥ s.v (cX j)) +
    (if t then dT a j s *ᵥ s.v (cY 0) + s.m (cT 0) *ᵥ s.v (cY j) else 0) + dS a j s

theorem boaRefD_post {j : Nat} (hj : j ≠ 0) (a b : Act) (hc : refGood a b = true) {s : Mem n K} {q : M n K} (hq : Fact inv? q s) :
    Post (runDo inv? [boaRefD j a b] s) fun s' => Keep j s s' ∧ s'.v (cM j) = q *ᵥ rhs false a b j s ∧
    s'.v (cP j) = dG b j s *ᵥ s.v (cM 0) + s.m (cG 0) *ᵥ s'.v (cM j) + s.v (cX j) := by
  have hj' := hj.symm
  simp only [Fact, w1] at hq
  cases a <;> cases b <;> simp only [refGood, Bool.false_eq_true] at hc <;>
    simp only [boaRefD, runDo_calls, tailU, tailG, rhs, dR, dT, dS, dG, Act.l, Act.s, keep_iff, List.cons_append, List.nil_append] <;>
    simp +contextual [run, step, cP, cM, cX, cY, cS, cR, cT, cG, cm, cv, cms, cvs, csm, csv, v1, v2, w1, w2, w3, hj, hj', hq]
  all_goals (congr 1; abel)

theorem boaAllD_post {j : Nat} (hj : j ≠ 0) (a b : Act) (hc : allGood a b = true) {s : Mem n K} {q : M n K} (hq : Fact inv? q s) :
    Post (runDo inv? [boaAllD j a b] s) fun s' => Keep j s s' ∧ s'.v (cM j) = q *ᵥ rhs true a b j s ∧
    s'.v (cP j) = dG b j s *ᵥ s.v (cM 0) + s.m (cG 0) *ᵥ s'.v (cM j) + s.v (cX j) := by
  have hj' := hj.symm
  simp only [Fact, w1] at hq
  cases a <;> cases b <;> simp only [allGood, Bool.false_eq_true] at hc <;>
    simp only [boaAllD, runDo_calls, tailU, tailG, rhs, dR, dT, dS, dG, Act.l, Act.s, keep_iff, List.cons_append, List.nil_append] <;>
    simp +contextual [run, step, cP, cM, cX, cY, cS, cR, cT, cG, cm, cv, cms, cvs, csm, csv, v1, v2, w1, w2, w3, hj, hj', hq]
  all_goals (congr 1; abel)

/-- `S_U`: only the sources. -/
theorem boaAllD_SU {j : Nat} (hj : j ≠ 0) {s : Mem n K} {q : M n K} (hq : Fact inv? q s) :
    Post (runDo inv? [boaAllD j .S .U] s) fun s' => Keep j s s' ∧ s'.v (cM j) = q *ᵥ s.v (cS j) ∧
    s'.v (cP j) = s.m (cG 0) *ᵥ s'.v (cM j) := by
  have hj' := hj.symm
  simp only [Fact, w1] at hq
  simp only [boaAllD, runDo_calls, keep_iff]
  simp +contextual [run, step, cP, cM, cX, cY, cS, cR, cT, cG, cm, cv, cms, cvs, csm, csv, v1, v2, w1, w2, w3, hj, hj', hq]

/-- `L_L`: without the change of the light that starts at the bottom. -/
theorem boaAllD_LL {j : Nat} (hj : j ≠ 0) {s : Mem n K} {q : M n K} (hq : Fact inv? q s) :
    Post (runDo inv? [boaAllD j .L .L] s) fun s' => Keep j s s' ∧
    s'.v (cM j) = q *ᵥ (rhs true .L .L j s - s.m (cR 0) *ᵥ s.v (cX j)) ∧
    s'.v (cP j) = s.m (cG j) *ᵥ s.v (cM 0) + s.m (cG 0) *ᵥ s'.v (cM j) := by
  have hj' := hj.symm
  simp only [Fact, w1] at hq
  simp only [boaAllD, runDo_calls, rhs, dR, dT, dS, dG, Act.l, Act.s, keep_iff]
  simp +contextual [run, step, cP, cM, cX, cY, cS, cR, cT, cG, cm, cv, cms, cvs, csm, csv, v1, v2, w1, w2, w3, hj, hj', hq]
  congr 1; abel

/-! ### The loop over the derivatives -/

/-- The results of the first `k` derivatives may have changed. -/
structure Agree (k : Nat) (s s' : Mem n K) : Prop where
  m : ∀ c, c ≠ w2 → c ≠ w3 → s'.m c = s.m c
  v : ∀ c, c ≠ v1 → c ≠ v2 → (∀ i, i < k → c ≠ cP (i + 1) ∧ c ≠ cM (i + 1)) → s'.v c = s.v c

theorem loop_post {nd : Nat} {act : Nat → Act × Act} {body : Nat → Act → Act → Do K} {s : Mem n K} {out : Nat → Pair n K}
    (h : ∀ i, i < nd → ∀ s', Agree i s s' → Post (runDo inv? [body i (act i).1 (act i).2] s') fun s'' =>
      Keep (i + 1) s' s'' ∧ results s'' (i + 1) = out i) :
    Post (runDo inv? (derivLoop nd act body) s) fun s' => Agree nd s s' ∧ ∀ i, i < nd → results s' (i + 1) = out i := by
  unfold derivLoop
  refine copyLoop (I := fun k s' => Agree k s s' ∧ ∀ i, i < k → results s' (i + 1) = out i) ?_ ?_
  · exact ⟨⟨fun _ _ _ => rfl, fun _ _ _ _ => rfl⟩, fun i hi => absurd hi (by omega)⟩
  · rintro i hi s' ⟨h1, h2⟩
    refine (h i hi s' h1).mono fun s'' ⟨h3, h4⟩ => ⟨⟨fun c a b => ?_, fun c a b hc => ?_⟩, fun k hk => ?_⟩
    · rw [h3.m c a b, h1.m c a b]
    · rw [h3.v c a b (hc i (by omega)).1 (hc i (by omega)).2, h1.v c a b fun k hk => hc k (by omega)]
    · by_cases e : k = i
      · rw [e]; exact h4
      · rw [← h2 k (by omega)]
        unfold results
        rw [h3.v (cP (k + 1)), h3.v (cM (k + 1))] <;> simp [cP, cM, cv, cvs, v1, v2, e]

/-- The operands of block `j` are as they were. -/
structure Ops (k : Nat) (s s' : Mem n K) : Prop where
  r : ∀ j, s'.m (cR j) = s.m (cR j)
  t : ∀ j, s'.m (cT j) = s.m (cT j)
  g : ∀ j, s'.m (cG j) = s.m (cG j)
  hs : ∀ j, s'.v (cS j) = s.v (cS j)
  x : ∀ j, s'.v (cX j) = s.v (cX j)
  y : ∀ j, s'.v (cY j) = s.v (cY j)
  m0 : s'.v (cM 0) = s.v (cM 0)
  p0 : s'.v (cP 0) = s.v (cP 0)
  w : s'.m w1 = s.m w1
  old : ∀ j, k < j → results s' j = results s j

theorem Agree.ops {k : Nat} {s s' : Mem n K} (h : Agree k s s') : Ops k s s' := by
  constructor
  case r => intro j; apply h.m <;> simp [cR, cms, w2, w3]
  case t => intro j; apply h.m <;> simp [cT, cms, w2, w3]
  case g => intro j; apply h.m <;> simp [cG, cms, w2, w3]
  case hs => intro j; apply h.v <;> simp [cS, cP, cM, cv, cvs, v1, v2]
  case x => intro j; apply h.v <;> simp [cX, cP, cM, cv, cvs, v1, v2]
  case y => intro j; apply h.v <;> simp [cY, cP, cM, cv, cvs, v1, v2]
  case m0 => apply h.v <;> simp [cP, cM, cv, cvs, v1, v2]
  case p0 => apply h.v <;> simp [cP, cM, cv, cvs, v1, v2]
  case w => apply h.m <;> simp [w1, w2, w3]
  case old =>
    intro j hj
    unfold results
    rw [h.v (cP j), h.v (cM j)] <;> simp [cP, cM, cv, cvs, v1, v2] <;> intros <;> omega

theorem Ops.lin {k : Nat} {s s' : Mem n K} (h : Ops k s s') (a b : Act) (j : Nat) :
    dR a j s' = dR a j s ∧ dT a j s' = dT a j s ∧ dS a j s' = dS a j s ∧ dG b j s' = dG b j s ∧
    (∀ t, rhs t a b j s' = rhs t a b j s) := by
  have e1 : dR a j s' = dR a j s := by simp [dR, h.r]
  have e2 : dT a j s' = dT a j s := by simp [dT, h.t]
  have e3 : dS a j s' = dS a j s := by simp [dS, h.hs]
  have e4 : dG b j s' = dG b j s := by simp [dG, h.g]
  exact ⟨e1, e2, e3, e4, fun t => by simp only [rhs, e1, e2, e3, e4, h.r, h.g, h.m0, h.x, h.t, h.y]⟩

/-! ### The routines -/

/-- The derivative of `R x + T y + S`. -/
def slabL (a : Act) (j : Nat) (s : Mem n K) : V n K :=
  dR a j s *ᵥ s.v (cX 0) + s.m (cR 0) *ᵥ s.v (cX j) + (dT a j s *ᵥ s.v (cY 0) + s.m (cT 0) *ᵥ s.v (cY j)) + dS a j s

theorem slab_post (nd : Nat) (act : Nat → Act × Act) (s : Mem n K) : Post (runDo inv? (slab nd act) s) fun s' =>
    s'.v (cP 0) = s.m (cR 0) *ᵥ s.v (cX 0) + s.m (cT 0) *ᵥ s.v (cY 0) + s.v (cS 0) ∧
    ∀ i, i < nd → s'.v (cP (i + 1)) = slabL (act i).1 (i + 1) s := by
  rw [slab, Post_calls_cons]
  refine (slabV_post s).mono fun s1 ⟨h1, h2, h3⟩ => ?_
  have o : Ops 0 s1 s1 := ⟨fun _ => rfl, fun _ => rfl, fun _ => rfl, fun _ => rfl, fun _ => rfl, fun _ => rfl, rfl, rfl, rfl, fun _ _ => rfl⟩
  have e : ∀ a j, slabL a j s1 = slabL a j s := by
    intro a j
    have : ∀ k, k ≠ 3 → k < 8 → ∀ j, s1.v (cellV j k) = s.v (cellV j k) := fun k hk hk' j => by
      apply h2 <;> simp [cvs, cv, v1, cP, hk, hk']
    simp only [slabL, dR, dT, dS, cX, cY, cS, h1, this 0 (by decide) (by decide), this 1 (by decide) (by decide),
      this 2 (by decide) (by decide)]
  refine (loop_post (out := fun i => (slabL (act i).1 (i + 1) s, s1.v (cM (i + 1)))) fun i _ s' hs' => ?_).mono
    fun s' h => ⟨by rw [h.1.ops.p0, h3], fun i hi => congrArg Prod.fst (h.2 i hi)⟩
  refine (slabD_post (Nat.succ_ne_zero i) _ _ s').mono fun s'' ⟨k1, k2, k3⟩ => ⟨k1, ?_⟩
  obtain ⟨e1, e2, e3, -, -⟩ := hs'.ops.lin (act i).1 .U (i + 1)
  refine Prod.ext ?_ ?_
  · show s''.v (cP (i + 1)) = _
    rw [k2, e1, e2, e3, hs'.ops.r, hs'.ops.t, hs'.ops.x, hs'.ops.x, hs'.ops.y, hs'.ops.y]
    exact e _ _
  · show s''.v (cM (i + 1)) = s1.v (cM (i + 1))
    rw [k3]
    exact congrArg Prod.snd (hs'.ops.old (i + 1) (Nat.lt_succ_self i))

theorem toaRef_post (nd : Nat) (act : Nat → Act × Act) (s : Mem n K) : Post (runDo inv? (toaRef nd act) s) fun s' =>
    s'.v (cP 0) = s.m (cR 0) *ᵥ s.v (cX 0) + s.v (cS 0) ∧
    ∀ i, i < nd → s'.v (cP (i + 1)) = (if (act i).1.l || (act i).2.l then s.m (cR (i + 1)) else 0) *ᵥ s.v (cX 0) +
      s.m (cR 0) *ᵥ s.v (cX (i + 1)) + (if (act i).1.s || (act i).2.s then s.v (cS (i + 1)) else 0) := by
  rw [toaRef, Post_calls_cons]
  refine (toaRefV_post s).mono fun s1 ⟨h1, h2, h3⟩ => ?_
  have hv : ∀ k, k ≠ 3 → k < 8 → ∀ j, s1.v (cellV j k) = s.v (cellV j k) := fun k hk hk' j => by
    apply h2 <;> simp [cvs, cv, v1, cP, hk, hk']
  refine (loop_post (out := fun i => ((if (act i).1.l || (act i).2.l then s.m (cR (i + 1)) else 0) *ᵥ s.v (cX 0) +
      s.m (cR 0) *ᵥ s.v (cX (i + 1)) + (if (act i).1.s || (act i).2.s then s.v (cS (i + 1)) else 0), s1.v (cM (i + 1))))
      fun i _ s' hs' => ?_).mono
    fun s' h => ⟨by rw [h.1.ops.p0, h3], fun i hi => congrArg Prod.fst (h.2 i hi)⟩
  refine (toaRefD_post (Nat.succ_ne_zero i) _ _ s').mono fun s'' ⟨k1, k2, k3⟩ => ⟨k1, ?_⟩
  refine Prod.ext ?_ ?_
  · show s''.v (cP (i + 1)) = _
    rw [k2, hs'.ops.r, hs'.ops.r, hs'.ops.x, hs'.ops.x, hs'.ops.hs]
    simp only [cX, cS, h1, hv 0 (by decide) (by decide), hv 1 (by decide) (by decide)]
  · show s''.v (cM (i + 1)) = s1.v (cM (i + 1))
    rw [k3]
    exact congrArg Prod.snd (hs'.ops.old (i + 1) (Nat.lt_succ_self i))

/-- The derivatives of the light at the surface, from the light `m` down. -/
def boaL (t : Bool) (q : M n K) (p : Act × Act) (j : Nat) (s : Mem n K) (m : V n K) : Pair n K :=
  let r := (dR p.1 j s * s.m (cG 0) + s.m (cR 0) * dG p.2 j s) *ᵥ m + (dR p.1 j s *ᵥ s.v (cX 0) + s.m (cR 0) *ᵥ s.v (cX j)) +
    (if t then dT p.1 j s *ᵥ s.v (cY 0) + s.m (cT 0) *ᵥ s.v (cY j) else 0) + dS p.1 j s
  (dG p.2 j s *ᵥ m + s.m (cG 0) *ᵥ (q *ᵥ r) + s.v (cX j), q *ᵥ r)

theorem boa_ops {s s1 : Mem n K} (h1 : ∀ c, c ≠ w1 → s1.m c = s.m c)
    (h2 : ∀ c, c ≠ v1 → c ≠ v2 → c ≠ cP 0 → c ≠ cM 0 → s1.v c = s.v c) :
    (∀ j, s1.m (cR j) = s.m (cR j)) ∧ (∀ j, s1.m (cT j) = s.m (cT j)) ∧ (∀ j, s1.m (cG j) = s.m (cG j)) ∧
    (∀ j, s1.v (cS j) = s.v (cS j)) ∧ (∀ j, s1.v (cX j) = s.v (cX j)) ∧ (∀ j, s1.v (cY j) = s.v (cY j)) ∧
    ∀ j, j ≠ 0 → results s1 j = results s j := by
  refine ⟨fun j => ?_, fun j => ?_, fun j => ?_, fun j => ?_, fun j => ?_, fun j => ?_, fun j hj => ?_⟩
  · apply h1; simp [cR, w1, cms]
  · apply h1; simp [cT, w1, cms]
  · apply h1; simp [cG, w1, cms]
  · apply h2 <;> simp [cS, cP, cM, cv, cvs, v1, v2]
  · apply h2 <;> simp [cX, cP, cM, cv, cvs, v1, v2]
  · apply h2 <;> simp [cY, cP, cM, cv, cvs, v1, v2]
  · unfold results
    rw [h2 (cP j), h2 (cM j)] <;> simp [cP, cM, cv, cvs, v1, v2, hj]

theorem runDo_nothing (s : Mem n K) : runDo inv? [.nothing] s = .ok s := rfl

theorem Keep.refl (j : Nat) (s : Mem n K) : Keep j s s := ⟨fun _ _ _ => rfl, fun _ _ _ _ _ => rfl⟩

/-- What `radiance_boa_ref` leaves for a derivative. -/
def refOut (q : M n K) (p : Act × Act) (j : Nat) (s : Mem n K) (m : V n K) : Pair n K :=
  if refGood p.1 p.2 then boaL false q p j s m else results s j

theorem boaRef_post (hinv : Exact inv?) (nd : Nat) (act : Nat → Act × Act) {s : Mem n K} {q : M n K}
    (hq : q * (1 - s.m (cR 0) * s.m (cG 0)) = 1) : Post (runDo inv? (boaRef nd act) s) fun s' =>
    s'.v (cM 0) = q *ᵥ (s.m (cR 0) *ᵥ s.v (cX 0) + s.v (cS 0)) ∧
    s'.v (cP 0) = s.m (cG 0) *ᵥ s'.v (cM 0) + s.v (cX 0) ∧
    ∀ i, i < nd → results s' (i + 1) = refOut q (act i) (i + 1) s (s'.v (cM 0)) := by
  rw [boaRef, Post_calls_cons]
  refine (boaRefV_post hinv hq).mono fun s1 ⟨h1, h2, h3, h4, h5⟩ => ?_
  obtain ⟨o1, o2, o3, o4, o5, o6, o7⟩ := boa_ops h1 h2
  refine (loop_post (out := fun i => refOut q (act i) (i + 1) s (s1.v (cM 0))) fun i _ s' hs' => ?_).mono
    fun s' h => ⟨by rw [h.1.ops.m0, h4], by rw [h.1.ops.p0, h.1.ops.m0, h5], fun i hi => by rw [h.2 i hi, h.1.ops.m0]⟩
  have O := hs'.ops
  have hf : Fact inv? q s' := by unfold Fact; rw [O.w]; exact h3
  unfold refOut
  cases hg : refGood (act i).1 (act i).2 with
  | true =>
      refine (boaRefD_post (Nat.succ_ne_zero i) _ _ hg hf).mono fun s'' ⟨k1, k2, k3⟩ => ⟨k1, ?_⟩
      obtain ⟨-, -, -, e4, e5⟩ := O.lin (act i).1 (act i).2 (i + 1)
      refine Prod.ext ?_ ?_
      · show s''.v (cP (i + 1)) = _
        rw [k3, k2, e5, e4, O.g, O.m0, O.x]
        simp only [rhs, boaL, dR, dT, dS, dG, o1, o2, o3, o4, o5, o6, if_true, Bool.false_eq_true, if_false]
      · show s''.v (cM (i + 1)) = _
        rw [k2, e5]
        simp only [rhs, boaL, dR, dT, dS, dG, o1, o2, o3, o4, o5, o6, if_true, Bool.false_eq_true, if_false]
  | false =>
      have : (boaRefD (i + 1) (act i).1 (act i).2 : Do K) = .nothing := by
        revert hg
        cases (act i).1 <;> cases (act i).2 <;> simp [refGood, boaRefD]
      rw [this, runDo_nothing]
      exact ⟨Keep.refl _ _, by rw [O.old _ (Nat.lt_succ_self i), o7 _ (Nat.succ_ne_zero i)]; rfl⟩

/-- What `radiance_boa_all` leaves for a derivative. -/
def allOut (q : M n K) (p : Act × Act) (j : Nat) (s : Mem n K) (m : V n K) : Pair n K :=
  if allGood p.1 p.2 then boaL true q p j s m
  else if p = (.S, .U) then (s.m (cG 0) *ᵥ (q *ᵥ s.v (cS j)), q *ᵥ s.v (cS j))
  else if p = (.L, .L) then
    let m' := (boaL true q p j s m).2 - q *ᵥ (s.m (cR 0) *ᵥ s.v (cX j))
    (s.m (cG j) *ᵥ m + s.m (cG 0) *ᵥ m', m')
  else results s j

theorem boaAll_post (hinv : Exact inv?) (nd : Nat) (act : Nat → Act × Act) {s : Mem n K} {q : M n K}
    (hq : q * (1 - s.m (cR 0) * s.m (cG 0)) = 1) : Post (runDo inv? (boaAll nd act) s) fun s' =>
    s'.v (cM 0) = q *ᵥ (s.m (cR 0) *ᵥ s.v (cX 0) + s.m (cT 0) *ᵥ s.v (cY 0) + s.v (cS 0)) ∧
    s'.v (cP 0) = s.m (cG 0) *ᵥ s'.v (cM 0) + s.v (cX 0) ∧
    ∀ i, i < nd → results s' (i + 1) = allOut q (act i) (i + 1) s (s'.v (cM 0)) := by
  rw [boaAll, Post_calls_cons]
  refine (boaAllV_post hinv hq).mono fun s1 ⟨h1, h2, h3, h4, h5⟩ => ?_
  obtain ⟨o1, o2, o3, o4, o5, o6, o7⟩ := boa_ops h1 h2
  refine (loop_post (out := fun i => allOut q (act i) (i + 1) s (s1.v (cM 0))) fun i _ s' hs' => ?_).mono
    fun s' h => ⟨by rw [h.1.ops.m0, h4], by rw [h.1.ops.p0, h.1.ops.m0, h5], fun i hi => by rw [h.2 i hi, h.1.ops.m0]⟩
  have O := hs'.ops
  have hf : Fact inv? q s' := by unfold Fact; rw [O.w]; exact h3
  unfold allOut
  cases hg : allGood (act i).1 (act i).2 with
  | true =>
      refine (boaAllD_post (Nat.succ_ne_zero i) _ _ hg hf).mono fun s'' ⟨k1, k2, k3⟩ => ⟨k1, ?_⟩
      obtain ⟨-, -, -, e4, e5⟩ := O.lin (act i).1 (act i).2 (i + 1)
      refine Prod.ext ?_ ?_
      · show s''.v (cP (i + 1)) = _
        rw [k3, k2, e5, e4, O.g, O.m0, O.x]
        simp only [rhs, boaL, dR, dT, dS, dG, o1, o2, o3, o4, o5, o6, if_true]
      · show s''.v (cM (i + 1)) = _
        rw [k2, e5]
        simp only [rhs, boaL, dR, dT, dS, dG, o1, o2, o3, o4, o5, o6, if_true]
  | false =>
      by_cases c1 : act i = (.S, .U)
      · rw [c1]
        refine (boaAllD_SU (Nat.succ_ne_zero i) hf).mono fun s'' ⟨k1, k2, k3⟩ => ⟨k1, ?_⟩
        refine Prod.ext ?_ ?_
        · show s''.v (cP (i + 1)) = _
          rw [k3, k2, O.g, O.hs, o3, o4]
          rfl
        · show s''.v (cM (i + 1)) = _
          rw [k2, O.hs, o4]
          rfl
      by_cases c2 : act i = (.L, .L)
      · rw [c2]
        refine (boaAllD_LL (Nat.succ_ne_zero i) hf).mono fun s'' ⟨k1, k2, k3⟩ => ⟨k1, ?_⟩
        obtain ⟨-, -, -, e4, e5⟩ := O.lin .L .L (i + 1)
        have e : s''.v (cM (i + 1)) = (boaL true q (.L, .L) (i + 1) s (s1.v (cM 0))).2 -
            q *ᵥ (s.m (cR 0) *ᵥ s.v (cX (i + 1))) := by
          rw [k2, e5, O.r, O.x, mulVec_sub]
          simp only [rhs, boaL, dR, dT, dS, dG, o1, o2, o3, o4, o5, o6, if_true]
        refine Prod.ext ?_ ?_
        · show s''.v (cP (i + 1)) = _
          rw [k3, e, O.g, O.g, O.m0, o3, o3]
          rfl
        · exact e
      have : (boaAllD (i + 1) (act i).1 (act i).2 : Do K) = .nothing := by
        revert hg c1 c2
        generalize act i = p
        obtain ⟨a, b⟩ := p
        cases a <;> cases b <;> simp [allGood, boaAllD]
      rw [this, runDo_nothing]
      refine ⟨Keep.refl _ _, ?_⟩
      simp only [c1, c2, Bool.false_eq_true, if_false]
      rw [O.old _ (Nat.lt_succ_self i), o7 _ (Nat.succ_ne_zero i)]

end Xrtm.Radiance
