import Verif.Proof.AddingA

/-! The halves of the adding routines: factors, loop over the derivatives, results. -/

namespace Xrtm.Adding

open Mat

variable {K : Type} [CommRing K] {n : Nat} {inv? : M n K → Option (M n K)}

theorem Post.mono {r : Except Fault (Mem n K)} {Q Q' : Mem n K → Prop} (h : Post r Q) (hq : ∀ s, Q s → Q' s) :
    Post r Q' := by
  cases r with
  | ok s => exact hq s h
  | error e => exact h

theorem Post.elim {r : Except Fault (Mem n K)} {Q : Mem n K → Prop} (h : Post r Q) : ∃ s, r = .ok s ∧ Q s := by
  cases r with
  | ok s => exact ⟨s, rfl, h⟩
  | error e => exact False.elim h

theorem Post_run_append (p q : List (Instr K)) (s : Mem n K) (Q : Mem n K → Prop) :
    Post (run inv? (p ++ q) s) Q ↔ Post (run inv? p s) fun s' => Post (run inv? q s') Q := by
  induction p generalizing s with
  | nil => simp [run]
  | cons i is ih =>
      simp only [List.cons_append, run]
      cases step inv? s i with
      | ok s' => exact ih s'
      | error e => simp [Post]

theorem Post_runDo_append (p q : List (Do K)) (s : Mem n K) (Q : Mem n K → Prop) :
    Post (runDo inv? (p ++ q) s) Q ↔ Post (runDo inv? p s) fun s' => Post (runDo inv? q s') Q := by
  induction p generalizing s with
  | nil => simp [runDo]
  | cons i is ih =>
      cases i with
      | calls c =>
          simp only [List.cons_append, runDo]
          cases run inv? c s with
          | ok s' => exact ih s'
          | error e => simp [Post]
      | nothing => simpa [runDo] using ih s
      | exit => simp [runDo, Post]

theorem Post_calls (p : List (Instr K)) (s : Mem n K) (Q : Mem n K → Prop) :
    Post (runDo inv? [.calls p] s) Q ↔ Post (run inv? p s) Q := by
  simp only [runDo]
  cases run inv? p s <;> simp [Post]

theorem Post_calls_cons (p : List (Instr K)) (ds : List (Do K)) (s : Mem n K) (Q : Mem n K → Prop) :
    Post (runDo inv? (.calls p :: ds) s) Q ↔ Post (run inv? p s) fun s' => Post (runDo inv? ds s') Q := by
  rw [show (Do.calls p :: ds) = [Do.calls p] ++ ds from rfl, Post_runDo_append, Post_calls]

/-- The values of the operators. -/
def vals (f : Fr) (s : Mem n K) : Lin n K := ⟨fun x => s.m (f.m x), fun x => s.v (f.v x)⟩

/-- What the factors need of the places. -/
structure SepF (f : Fr) : Prop where
  mExt : ∀ x k, f.m x ≠ .scratch k
  vExt : ∀ x k, f.v x ≠ .scratch k
  pbig : ∀ k, 3 ≤ k → f.P ≠ .scratch k
  abig : ∀ k, 3 ≤ k → f.A ≠ .scratch k
  bbig : ∀ k, 3 ≤ k → f.B ≠ .scratch k
  pm : ∀ x, f.m x ≠ f.P
  am : ∀ x, f.m x ≠ f.A
  bm : ∀ x, f.m x ≠ f.B
  pa : f.P ≠ f.A
  pb : f.P ≠ f.B
  ab : f.A ≠ f.B

/-- The arrays hold the factors; `q` is the inverse of `1 - R23 R21`. -/
structure Fac (inv? : M n K → Option (M n K)) (f : Fr) (q : M n K) (withB : Bool) (s : Mem n K) : Prop where
  inv : q * (1 - s.m (f.m .R23) * s.m (f.m .R21)) = 1
  p : inv? (s.m f.P) = some q.transpose
  a : s.m f.A = s.m (f.m .T21) * q
  b : withB = true → s.m f.B = s.m (f.m .R23) * s.m (f.m .T12)

set_option hygiene false in
macro "sepf" h:ident : tactic => `(tactic| (
  obtain ⟨a1,a2,b1,b2,b3,b4,b5,b6,b7,b8,b9⟩ := $h
  have c1 := fun x k => (a1 x k).symm
  have c2 := fun x k => (a2 x k).symm
  have d1 := fun x k => (b1 x k).symm
  have d2 := fun x k => (b2 x k).symm
  have d3 := fun x k => (b3 x k).symm
  have d4 := fun x => (b4 x).symm
  have d5 := fun x => (b5 x).symm
  have d6 := fun x => (b6 x).symm
  have d7 := b7.symm
  have d8 := b8.symm
  have d9 := b9.symm
  simp only [ne_eq] at a1 a2 b1 b2 b3 b4 b5 b6 b7 b8 b9 c1 c2 d1 d2 d3 d4 d5 d6 d7 d8 d9))

theorem run_factors (hinv : Exact inv?) {f : Fr} (h : SepF f) {s : Mem n K} {q : M n K}
    (hq : q * (1 - s.m (f.m .R23) * s.m (f.m .R21)) = 1) :
    Post (run inv? (factors f) s) fun s' =>
      Fac inv? f q true s' ∧ s'.v = s.v ∧
        ∀ c, c ≠ w1 → c ≠ f.P → c ≠ f.A → c ≠ f.B → s'.m c = s.m c := by
  have hp : inv? (1 - s.m (f.m .R23) * s.m (f.m .R21)).transpose = some q.transpose := by
    rw [hinv, ← Matrix.transpose_mul, hq, Matrix.transpose_one]
  have hp' : inv? (1 - (s.m (f.m .R21)).transpose * (s.m (f.m .R23)).transpose) = some q.transpose := by
    simpa using hp
  sepf h
  simp (config := {decide := true}) [factors, run, step, a1,a2,b1,b2,b3,b4,b5,b6,b7,b8,b9,c1,c2,d1,d2,d3,d4,d5,d6,
    d7,d8,d9, w1, hp']
  refine ⟨⟨?_, ?_, ?_, ?_⟩, ?_⟩
  all_goals simp_all (config := {decide := true}) [w1]

theorem run_srcFactors (hinv : Exact inv?) {f : Fr} (h : SepF f) {s : Mem n K} {q : M n K}
    (hq : q * (1 - s.m (f.m .R23) * s.m (f.m .R21)) = 1) :
    Post (run inv? (srcFactors f) s) fun s' =>
      Fac inv? f q false s' ∧ s'.v = s.v ∧
        ∀ c, c ≠ w1 → c ≠ f.P → c ≠ f.A → c ≠ f.B → s'.m c = s.m c := by
  have hp : inv? (1 - s.m (f.m .R23) * s.m (f.m .R21)).transpose = some q.transpose := by
    rw [hinv, ← Matrix.transpose_mul, hq, Matrix.transpose_one]
  have hp' : inv? (1 - (s.m (f.m .R21)).transpose * (s.m (f.m .R23)).transpose) = some q.transpose := by
    simpa using hp
  sepf h
  simp (config := {decide := true}) [srcFactors, run, step, a1,a2,b1,b2,b3,b4,b5,b6,b7,b8,b9,c1,c2,d1,d2,d3,d4,d5,d6,
    d7,d8,d9, w1, hp']
  refine ⟨⟨?_, ?_, ?_, ?_⟩, ?_⟩
  all_goals simp_all (config := {decide := true}) [w1]

/-- If the matrix is singular, the routine exits there. -/
theorem run_factors_singular (hinv : Exact inv?) {f : Fr} (h : SepF f) {s : Mem n K}
    (hq : ¬ ∃ q, q * (1 - s.m (f.m .R23) * s.m (f.m .R21)) = 1) (rest : List (Instr K)) :
    run inv? (factors f ++ rest) s = .error .singular := by
  have hp : inv? (1 - s.m (f.m .R23) * s.m (f.m .R21)).transpose = none := by
    by_contra hne
    obtain ⟨x, hx⟩ := Option.ne_none_iff_exists'.1 hne
    rw [hinv] at hx
    apply hq
    refine ⟨x.transpose, ?_⟩
    rw [← Matrix.transpose_inj, Matrix.transpose_mul, Matrix.transpose_transpose, hx, Matrix.transpose_one]
  have hp' : inv? (1 - (s.m (f.m .R21)).transpose * (s.m (f.m .R23)).transpose) = none := by simpa using hp
  sepf h
  simp (config := {decide := true}) [factors, run, step, a1,a2,b1,b2,b3,b4,b5,b6,b7,b8,b9,c1,c2,d1,d2,d3,d4,d5,d6,
    d7,d8,d9, w1, hp, hp']

theorem run_sourceUp {f : Fr} (h : SepF f) (t : K) (s : Mem n K) :
    Post (run inv? (sourceUp f t) s) fun s' =>
      s'.m = s.m ∧ s'.v C = t • s.v (f.v .S32) + (s.m (f.m .R23)).mulVec (s.v (f.v .S12)) ∧
        ∀ c, c ≠ v1 → c ≠ v2 → c ≠ C → s'.v c = s.v c := by
  sepf h
  simp (config := {decide := true}) [sourceUp, run, step, a2, c2, C, v1, v2]
  intro c h1 h2 h3
  simp [h1, h2, h3]

theorem run_sourceDown {f : Fr} (h : SepF f) (t : K) (s : Mem n K) :
    Post (run inv? (sourceDown f t) s) fun s' =>
      s'.m = s.m ∧ s'.v C = s.v (f.v .S32) + t • (s.m (f.m .R23)).mulVec (s.v (f.v .S12)) ∧
        ∀ c, c ≠ v1 → c ≠ v2 → c ≠ C → s'.v c = s.v c := by
  sepf h
  simp (config := {decide := true}) [sourceDown, run, step, a2, c2, C, v1, v2]
  intro c h1 h2 h3
  simp [h1, h2, h3]

theorem run_preD {f : Fr} (h : SepF f) (nd : Nat) (s : Mem n K) :
    Post (run inv? (preD f nd) s) fun s' =>
      s'.v = s.v ∧ (nd ≠ 0 → s'.m DXX = s'.m f.A * s'.m (f.m .R23)) ∧ ∀ c, c ≠ DXX → s'.m c = s.m c := by
  sepf h
  unfold preD
  split
  · simp_all [run]
  · simp (config := {decide := true}) [run, step, DXX, c1, d2, a1, b2]
    intro c hc
    simp [hc]

/-- The results for derivative `i`, where the activity says that there are any. -/
structure Done (wT : Bool) (f : Fr) (i : Nat) (a b : Act) (L : Lin n K) (q : M n K) (t tl : K) (s s' : Mem n K) :
    Prop where
  rr : a.l = true ∨ b.l = true → s'.m (f.ml i .R13) = dR13 f L s q
  tt : wT = true → a.l = true ∨ b.l = true → s'.m (f.ml i .T31) = dT31 f L s q
  ss : a.s = true ∨ b.s = true → s'.v (f.vl i .S31) = dS31 f L s q t tl

/-- The cases `layer_add_ref` treats; upper and lower in the order of its arguments. -/
def refHas (flag : Bool) (a b : Act) : Bool :=
  match a, b with
  | .L, .S | .S, .L | .L, .B => false
  | .B, .L => !flag
  | _, _ => true

def flip (flag : Bool) (p : Act × Act) : Act × Act := if flag then (p.2, p.1) else p

theorem runDo_calls (p : List (Instr K)) (s : Mem n K) : runDo inv? [.calls p] s = run inv? p s := by
  simp only [runDo]
  cases run inv? p s <;> rfl

theorem run_nil (s : Mem n K) : run inv? [] s = .ok s := rfl

theorem Only.refl (f : Fr) (i : Nat) (s : Mem n K) : Only f i s s := ⟨fun _ _ _ _ _ _ _ => rfl, fun _ _ _ _ => rfl⟩

section body
variable {f : Fr} {i : Nat} (h : Sep f i) {s : Mem n K} {q : M n K} (hp : inv? (s.m f.P) = some q.transpose)
  (t tl : K) {L : Lin n K}

include h hp in
theorem ref_body (flag : Bool) (a b : Act) (hs : refHas flag (flip flag (a, b)).1 (flip flag (a, b)).2 = true)
    (hh : Holds f i (flip flag (a, b)).1 (flip flag (a, b)).2 L s)
    (ht : (flip flag (a, b)).1.l = false → tl = 0) :
    Post (runDo inv? [refDo f i t tl flag a b] s) fun s' => Only f i s s' ∧
      Done false f i (flip flag (a, b)).1 (flip flag (a, b)).2 L q t tl s s' := by
  have main : ∀ a' b', flip flag (a, b) = (a', b') → refHas flag a' b' = true → Holds f i a' b' L s →
      (a'.l = false → tl = 0) →
      Post (runDo inv? [refDo f i t tl flag a b] s) fun s' => Only f i s s' ∧ Done false f i a' b' L q t tl s s' := by
    intro a' b' e hs hh ht
    have e' : (if flag then (b, a) else (a, b)) = (a', b') := e
    unfold refDo
    rw [e']
    cases a' <;> cases b' <;> simp only [refHas, Bool.false_eq_true, reduceCtorEq] at hs <;>
      simp only [Act.l, forall_const] at ht <;>
      (try subst ht) <;> (try simp only [runDo_calls])
    case U.U => exact ⟨Only.refl _ _ _, by simp [Act.l], by simp, by simp [Act.s]⟩
    case U.S =>
      exact (run_refUS t h q hh).mono fun s' hs' => ⟨hs'.1, by simp [Act.l], by simp, fun _ => hs'.2⟩
    case S.U =>
      exact (run_refSU t h q hh).mono fun s' hs' => ⟨hs'.1, by simp [Act.l], by simp, fun _ => hs'.2⟩
    case S.S =>
      exact (run_refSS t h q hh).mono fun s' hs' => ⟨hs'.1, by simp [Act.l], by simp, fun _ => hs'.2⟩
    case U.L =>
      exact (run_refUL h hp hh).mono fun s' hs' => ⟨hs'.1, fun _ => hs'.2, by simp, by simp [Act.s]⟩
    case L.U =>
      exact (run_refLU h hp hh).mono fun s' hs' => ⟨hs'.1, fun _ => hs'.2, by simp, by simp [Act.s]⟩
    case L.L =>
      exact (run_refLL h hp hh).mono fun s' hs' => ⟨hs'.1, fun _ => hs'.2, by simp, by simp [Act.s]⟩
    case U.B =>
      exact (run_refUB t h hp hh).mono fun s' hs' => ⟨hs'.1, fun _ => hs'.2.1, by simp, fun _ => hs'.2.2⟩
    case S.B =>
      exact (run_refSB t h hp hh).mono fun s' hs' => ⟨hs'.1, fun _ => hs'.2.1, by simp, fun _ => hs'.2.2⟩
    case B.U =>
      exact (run_refBU t tl h hp hh).mono fun s' hs' => ⟨hs'.1, fun _ => hs'.2.1, by simp, fun _ => hs'.2.2⟩
    case B.S =>
      exact (run_refBS t tl h hp hh).mono fun s' hs' => ⟨hs'.1, fun _ => hs'.2.1, by simp, fun _ => hs'.2.2⟩
    case B.B =>
      exact (run_refBB t tl h hp hh).mono fun s' hs' => ⟨hs'.1, fun _ => hs'.2.1, by simp, fun _ => hs'.2.2⟩
    case B.L =>
      cases flag
      · simp only [flip, Bool.false_eq_true, if_false, Prod.mk.injEq] at e
        obtain ⟨rfl, rfl⟩ := e
        simp only [runDo_calls]
        exact (run_refBL t tl h hp hh).mono fun s' hs' => ⟨hs'.1, fun _ => hs'.2.1, by simp, fun _ => hs'.2.2⟩
      · simp at hs
  exact main _ _ rfl hs hh ht

/-- The cases `layer_add_ref2` treats. -/
def ref2Has (a b : Act) : Bool :=
  match a, b with
  | .U, .L | .L, .U | .L, .L | .L, .S | .S, .L | .L, .B | .B, .L => false
  | _, _ => true

theorem ref2Do_eq (flag : Bool) (a b : Act) (hs : ref2Has (flip flag (a, b)).1 (flip flag (a, b)).2 = true) :
    ref2Do f i t tl flag a b = refDo f i t tl flag a b := by
  cases flag <;> cases a <;> cases b <;> simp [flip, ref2Has] at hs <;> rfl

include h hp in
theorem ref2_body (flag : Bool) (a b : Act) (hs : ref2Has (flip flag (a, b)).1 (flip flag (a, b)).2 = true)
    (hh : Holds f i (flip flag (a, b)).1 (flip flag (a, b)).2 L s)
    (ht : (flip flag (a, b)).1.l = false → tl = 0) :
    Post (runDo inv? [ref2Do f i t tl flag a b] s) fun s' => Only f i s s' ∧
      Done false f i (flip flag (a, b)).1 (flip flag (a, b)).2 L q t tl s s' := by
  rw [ref2Do_eq t tl flag a b hs]
  refine ref_body h hp t tl flag a b ?_ hh ht
  revert hs
  generalize (flip flag (a, b)).1 = x, (flip flag (a, b)).2 = y
  cases x <;> cases y <;> simp [ref2Has, refHas]

/-- The cases `layer_add_all` treats. -/
def allHas (a b : Act) : Bool :=
  match a, b with
  | .S, .U | .L, .S | .S, .L | .L, .B | .B, .L => false
  | _, _ => true

include h hp in
theorem all_body (hD : s.m DXX = s.m f.A * s.m (f.m .R23)) (a b : Act) (hs : allHas a b = true)
    (hh : Holds f i a b L s) (ht : a.l = false → tl = 0) :
    Post (runDo inv? [allDo f i t tl a b] s) fun s' => Only f i s s' ∧ Done true f i a b L q t tl s s' := by
  unfold allDo
  cases a <;> cases b <;> simp only [allHas, Bool.false_eq_true, reduceCtorEq] at hs <;>
      simp only [Act.l, forall_const] at ht <;>
      (try subst ht) <;> (try simp only [runDo_calls])
  case U.U => exact ⟨Only.refl _ _ _, by simp [Act.l], by simp [Act.l], by simp [Act.s]⟩
  case U.S =>
    exact (run_refUS t h q hh).mono fun s' hs' => ⟨hs'.1, by simp [Act.l], by simp [Act.l], fun _ => hs'.2⟩
  case S.S =>
    exact (run_refSS t h q hh).mono fun s' hs' => ⟨hs'.1, by simp [Act.l], by simp [Act.l], fun _ => hs'.2⟩
  case U.L =>
    exact (run_allUL h hp hh).mono fun s' hs' => ⟨hs'.1, fun _ => hs'.2.1, fun _ _ => hs'.2.2, by simp [Act.s]⟩
  case L.U =>
    exact (run_allLU h hp hD hh).mono fun s' hs' => ⟨hs'.1, fun _ => hs'.2.1, fun _ _ => hs'.2.2, by simp [Act.s]⟩
  case L.L =>
    exact (run_allLL h hp hh).mono fun s' hs' => ⟨hs'.1, fun _ => hs'.2.1, fun _ _ => hs'.2.2, by simp [Act.s]⟩
  case U.B =>
    exact (run_allUB t h hp hh).mono fun s' hs' =>
      ⟨hs'.1, fun _ => hs'.2.1, fun _ _ => hs'.2.2.1, fun _ => hs'.2.2.2⟩
  case S.B =>
    exact (run_allSB t h hp hh).mono fun s' hs' =>
      ⟨hs'.1, fun _ => hs'.2.1, fun _ _ => hs'.2.2.1, fun _ => hs'.2.2.2⟩
  case B.U =>
    exact (run_allBU t tl h hp hD hh).mono fun s' hs' =>
      ⟨hs'.1, fun _ => hs'.2.1, fun _ _ => hs'.2.2.1, fun _ => hs'.2.2.2⟩
  case B.S =>
    exact (run_allBS t tl h hp hD hh).mono fun s' hs' =>
      ⟨hs'.1, fun _ => hs'.2.1, fun _ _ => hs'.2.2.1, fun _ => hs'.2.2.2⟩
  case B.B =>
    exact (run_allBB t tl h hp hh).mono fun s' hs' =>
      ⟨hs'.1, fun _ => hs'.2.1, fun _ _ => hs'.2.2.1, fun _ => hs'.2.2.2⟩

include h hp in
/-- The second half does for `(a, b)` what the first half does for `(b, a)` (where there is anything to do). -/
theorem allDown_body (hD : s.m DXX = s.m f.A * s.m (f.m .R23)) (a b : Act) (hs : allHas a b = true)
    (hh : Holds f i b a L s) (ht : b.l = false → tl = 0) :
    Post (runDo inv? [allDoDown f i t tl a b] s) fun s' => Only f i s s' ∧ Done true f i b a L q t tl s s' := by
  by_cases hb : a = .U ∧ b = .S
  · obtain ⟨rfl, rfl⟩ := hb
    simp only [Act.l, forall_const] at ht
    subst ht
    simp only [allDoDown, runDo_calls]
    exact (run_refSU t h q hh).mono fun s' hs' => ⟨hs'.1, by simp [Act.l], by simp [Act.l], fun _ => hs'.2⟩
  · have e : allDoDown f i t tl a b = allDo f i t tl b a := by
      cases a <;> cases b <;> simp_all [allHas] <;> rfl
    rw [e]
    refine all_body h hp t tl hD b a ?_ hh ht
    cases a <;> cases b <;> simp_all [allHas]

include h in
theorem src_body (a b : Act) (hs : srcHas a b = true) (hh : Holds f i a b L s) (ht : tl = 0) :
    Post (runDo inv? [srcDo f i t tl a b] s) fun s' => Only f i s s' ∧ Done true f i a b L q t tl s s' := by
  subst ht
  cases a <;> cases b <;> simp only [srcHas, Bool.false_eq_true, reduceCtorEq] at hs <;>
    simp only [srcDo, srcHas, allDo, runDo_calls, if_true]
  case U.U => exact ⟨Only.refl _ _ _, by simp [Act.l], by simp [Act.l], by simp [Act.s]⟩
  case U.S =>
    exact (run_refUS t h q hh).mono fun s' hs' => ⟨hs'.1, by simp [Act.l], by simp [Act.l], fun _ => hs'.2⟩
  case S.S =>
    exact (run_refSS t h q hh).mono fun s' hs' => ⟨hs'.1, by simp [Act.l], by simp [Act.l], fun _ => hs'.2⟩

include h in
theorem srcDown_body (a b : Act) (hs : srcHas a b = true) (hh : Holds f i b a L s) (ht : tl = 0) :
    Post (runDo inv? [srcDoDown f i t tl a b] s) fun s' => Only f i s s' ∧ Done true f i b a L q t tl s s' := by
  subst ht
  cases a <;> cases b <;> simp only [srcHas, Bool.false_eq_true, reduceCtorEq] at hs <;>
    simp only [srcDoDown, srcHas, allDoDown, runDo_calls, if_true]
  case U.U => exact ⟨Only.refl _ _ _, by simp [Act.l], by simp [Act.l], by simp [Act.s]⟩
  case U.S =>
    exact (run_refSU t h q hh).mono fun s' hs' => ⟨hs'.1, by simp [Act.l], by simp [Act.l], fun _ => hs'.2⟩
  case S.S =>
    exact (run_refSS t h q hh).mono fun s' hs' => ⟨hs'.1, by simp [Act.l], by simp [Act.l], fun _ => hs'.2⟩

end body

end Xrtm.Adding
