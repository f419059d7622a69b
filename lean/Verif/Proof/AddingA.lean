import Verif.Model.Adding

/-! Running the helpers of the adding routines on a memory. -/

namespace Xrtm.Adding

open Mat

variable {K : Type} [CommRing K] {n : Nat} {inv? : M n K → Option (M n K)}

@[simp] theorem setM_m (s : Mem n K) (c : MCell) (x : M n K) (c' : MCell) :
    (s.setM c x).m c' = if c' = c then x else s.m c' := rfl
@[simp] theorem setM_v (s : Mem n K) (c : MCell) (x : M n K) : (s.setM c x).v = s.v := rfl
@[simp] theorem setV_v (s : Mem n K) (c : VCell) (x : V n K) (c' : VCell) :
    (s.setV c x).v c' = if c' = c then x else s.v c' := rfl
@[simp] theorem setV_m (s : Mem n K) (c : VCell) (x : V n K) : (s.setV c x).m = s.m := rfl

/-- What a helper needs of the places of its arguments: results for derivative `i` overlap no operand except the ones
that are read no more when the result is written. -/
structure Sep (f : Fr) (i : Nat) : Prop where
  mExt : ∀ x k, f.m x ≠ .scratch k
  vExt : ∀ x k, f.v x ≠ .scratch k
  mlExt : ∀ x k, f.ml i x ≠ .scratch k
  vlExt : ∀ x k, f.vl i x ≠ .scratch k
  mml : ∀ x y, f.m x ≠ f.ml i y
  vvl : ∀ x y, f.v x ≠ f.vl i y
  r13 : ∀ x, x ≠ .R13 → x ≠ .R12 → x ≠ .R23 → f.ml i x ≠ f.ml i .R13
  t31 : ∀ x, x ≠ .T31 → x ≠ .T21 → x ≠ .T32 → f.ml i x ≠ f.ml i .T31
  s31 : ∀ x, x ≠ .S31 → x ≠ .S21 → x ≠ .S32 → f.vl i x ≠ f.vl i .S31
  pbig : ∀ k, 3 ≤ k → f.P ≠ .scratch k
  abig : ∀ k, 3 ≤ k → f.A ≠ .scratch k
  bbig : ∀ k, 3 ≤ k → f.B ≠ .scratch k
  pl : ∀ x, f.ml i x ≠ f.P
  al : ∀ x, f.ml i x ≠ f.A
  bl : ∀ x, f.ml i x ≠ f.B

/-- Nothing but scratch arrays and the results for derivative `i` changed. -/
structure Only (f : Fr) (i : Nat) (s s' : Mem n K) : Prop where
  m : ∀ c, c ≠ w1 → c ≠ w2 → c ≠ D → c ≠ E → c ≠ f.ml i .R13 → c ≠ f.ml i .T31 → s'.m c = s.m c
  v : ∀ c, c ≠ v1 → c ≠ v2 → c ≠ f.vl i .S31 → s'.v c = s.v c

/-- The run ends without fault in a memory with the property. -/
def Post (r : Except Fault (Mem n K)) (Q : Mem n K → Prop) : Prop :=
  match r with
  | .ok s => Q s
  | .error _ => False

@[simp] theorem Post_ok (s : Mem n K) (Q : Mem n K → Prop) : Post (.ok s) Q = Q s := rfl

variable {f : Fr} {i : Nat} (t tl : K)

/-- Derivatives of the operators, by argument. -/
structure Lin (n : Nat) (K : Type) where
  m : MArg → M n K
  v : VArg → V n K

def Act.l : Act → Bool
  | .L | .B => true
  | _ => false

def Act.s : Act → Bool
  | .S | .B => true
  | _ => false

/-- The arrays of derivative `i` hold the derivatives `L` where the activity says so; elsewhere the derivative is
zero and the array may hold anything. Only what the first half reads. -/
structure Holds (f : Fr) (i : Nat) (a b : Act) (L : Lin n K) (s : Mem n K) : Prop where
  up : ∀ x, x = .R12 ∨ x = .T12 ∨ x = .R21 ∨ x = .T21 → if a.l then s.m (f.ml i x) = L.m x else L.m x = 0
  upS : ∀ x, x = .S12 ∨ x = .S21 → if a.s then s.v (f.vl i x) = L.v x else L.v x = 0
  lo : ∀ x, x = .R23 ∨ x = .T32 → if b.l then s.m (f.ml i x) = L.m x else L.m x = 0
  loS : if b.s then s.v (f.vl i .S32) = L.v .S32 else L.v .S32 = 0

section formula
variable (f : Fr) (L : Lin n K) (s : Mem n K) (q : M n K) (t tl : K)

/-- Derivative of `A31` (`q` is the inverse of `1 - R23 R21`). -/
def dA : M n K :=
  (L.m .T21 + s.m f.A * (L.m .R23 * s.m (f.m .R21) + s.m (f.m .R23) * L.m .R21)) * q

def dR13 : M n K :=
  L.m .R12 + dA f L s q * s.m f.B +
    s.m f.A * (L.m .R23 * s.m (f.m .T12) + s.m (f.m .R23) * L.m .T12)

def dT31 : M n K := dA f L s q * s.m (f.m .T32) + s.m f.A * L.m .T32

def dS31 : V n K :=
  L.v .S21 + (dA f L s q).mulVec (s.v C) +
    (s.m f.A).mulVec (t • L.v .S32 + tl • s.v (f.v .S32) + (L.m .R23).mulVec (s.v (f.v .S12)) +
      (s.m (f.m .R23)).mulVec (L.v .S12))

end formula

/-- Run the calls of a helper. -/
macro "execs" h:ident hh:ident "[" ts:Lean.Parser.Tactic.simpLemma,* "]" : tactic => `(tactic| (
  obtain ⟨a1,a2,a3,a4,a5,a6,a7,a8,a9,b1,b2,b3,b4,b5,b6⟩ := $h
  have c1 := fun x k => (a1 x k).symm
  have c2 := fun x k => (a2 x k).symm
  have c3 := fun x k => (a3 x k).symm
  have c4 := fun x k => (a4 x k).symm
  have c5 := fun x k => (a5 x k).symm
  have c6 := fun x k => (a6 x k).symm
  have d1 := fun x k => (b1 x k).symm
  have d2 := fun x k => (b2 x k).symm
  have d3 := fun x k => (b3 x k).symm
  have d4 := fun x => (b4 x).symm
  have d5 := fun x => (b5 x).symm
  have d6 := fun x => (b6 x).symm
  obtain ⟨e1, e2, e3, e4⟩ := $hh
  simp only [Act.l, Act.s, Bool.false_eq_true, if_false, if_true] at e1 e2 e3 e4
  have f1 := e1 .R12 (by simp)
  have f2 := e1 .T12 (by simp)
  have f3 := e1 .R21 (by simp)
  have f4 := e1 .T21 (by simp)
  have f5 := e2 .S12 (by simp)
  have f6 := e2 .S21 (by simp)
  have f7 := e3 .R23 (by simp)
  have f8 := e3 .T32 (by simp)
  have f9 := e4
  clear e1 e2 e3
  simp only [ne_eq] at a1 a2 a3 a4 a5 a6 a7 a8 a9 b1 b2 b3 b4 b5 b6 c1 c2 c3 c4 c5 c6 d1 d2 d3 d4 d5 d6
  simp (config := {decide := true}) [run, step, a1,a2,a3,a4,a5,a6,a7,a8,a9,b1,b2,b3,b4,b5,b6,c1,c2,c3,c4,c5,c6,d1,d2,
      d3,d4,d5,d6, w1, w2, D, E, C, v1, v2, $ts,*]
  refine ⟨⟨fun c h1 h2 h3 h4 h5 h6 => ?_, fun c h1 h2 h3 => ?_⟩, ?_⟩
  · simp_all [w1, w2, D, E]
  · simp_all [v1, v2]
  all_goals
    simp only [dR13, dS31, dT31, dA, C, f1, f2, f3, f4, f5, f6, f7, f8, f9, Matrix.zero_mulVec, Matrix.mulVec_zero, zero_mul,
      mul_zero, zero_add, add_zero, smul_zero, zero_smul, mul_add, add_mul, ← mul_assoc, Matrix.mulVec_add,
      Matrix.add_mulVec, Matrix.mulVec_mulVec, Matrix.mulVec_smul]
  all_goals and_intros
  all_goals first | trivial | rfl | abel | skip))

theorem run_refUS (h : Sep f i) {s : Mem n K} (q : M n K)
    {L : Lin n K} (hh : Holds f i .U .S L s) :
    Post (run inv? (refUS f i t) s) fun s' => Only f i s s' ∧
      s'.v (f.vl i .S31) = dS31 f L s q t 0 := by
  execs h hh [refUS]

theorem run_refSU (h : Sep f i) {s : Mem n K} (q : M n K)
    {L : Lin n K} (hh : Holds f i .S .U L s) :
    Post (run inv? (refSU f i) s) fun s' => Only f i s s' ∧
      s'.v (f.vl i .S31) = dS31 f L s q t 0 := by
  execs h hh [refSU]

theorem run_refSS (h : Sep f i) {s : Mem n K} (q : M n K)
    {L : Lin n K} (hh : Holds f i .S .S L s) :
    Post (run inv? (refSS f i t) s) fun s' => Only f i s s' ∧
      s'.v (f.vl i .S31) = dS31 f L s q t 0 := by
  execs h hh [refSS]

theorem run_refUL (h : Sep f i) {s : Mem n K} {q : M n K} (hp : inv? (s.m f.P) = some q.transpose)
    {L : Lin n K} (hh : Holds f i .U .L L s) :
    Post (run inv? (refUL f i) s) fun s' => Only f i s s' ∧
      s'.m (f.ml i .R13) = dR13 f L s q := by
  execs h hh [refUL, hp]

theorem run_refLU (h : Sep f i) {s : Mem n K} {q : M n K} (hp : inv? (s.m f.P) = some q.transpose)
    {L : Lin n K} (hh : Holds f i .L .U L s) :
    Post (run inv? (refLU f i) s) fun s' => Only f i s s' ∧
      s'.m (f.ml i .R13) = dR13 f L s q := by
  execs h hh [refLU, hp]

theorem run_refLL (h : Sep f i) {s : Mem n K} {q : M n K} (hp : inv? (s.m f.P) = some q.transpose)
    {L : Lin n K} (hh : Holds f i .L .L L s) :
    Post (run inv? (refLL f i) s) fun s' => Only f i s s' ∧
      s'.m (f.ml i .R13) = dR13 f L s q := by
  execs h hh [refLL, hp]

theorem run_refUB (h : Sep f i) {s : Mem n K} {q : M n K} (hp : inv? (s.m f.P) = some q.transpose)
    {L : Lin n K} (hh : Holds f i .U .B L s) :
    Post (run inv? (refUB f i t) s) fun s' => Only f i s s' ∧
      s'.m (f.ml i .R13) = dR13 f L s q ∧
      s'.v (f.vl i .S31) = dS31 f L s q t 0 := by
  execs h hh [refUB, hp]

theorem run_refBU (h : Sep f i) {s : Mem n K} {q : M n K} (hp : inv? (s.m f.P) = some q.transpose)
    {L : Lin n K} (hh : Holds f i .B .U L s) :
    Post (run inv? (refBU f i tl) s) fun s' => Only f i s s' ∧
      s'.m (f.ml i .R13) = dR13 f L s q ∧
      s'.v (f.vl i .S31) = dS31 f L s q t tl := by
  execs h hh [refBU, hp]

theorem run_refSB (h : Sep f i) {s : Mem n K} {q : M n K} (hp : inv? (s.m f.P) = some q.transpose)
    {L : Lin n K} (hh : Holds f i .S .B L s) :
    Post (run inv? (refSB f i t) s) fun s' => Only f i s s' ∧
      s'.m (f.ml i .R13) = dR13 f L s q ∧
      s'.v (f.vl i .S31) = dS31 f L s q t 0 := by
  execs h hh [refSB, hp]

theorem run_refBS (h : Sep f i) {s : Mem n K} {q : M n K} (hp : inv? (s.m f.P) = some q.transpose)
    {L : Lin n K} (hh : Holds f i .B .S L s) :
    Post (run inv? (refBS f i t tl) s) fun s' => Only f i s s' ∧
      s'.m (f.ml i .R13) = dR13 f L s q ∧
      s'.v (f.vl i .S31) = dS31 f L s q t tl := by
  execs h hh [refBS, hp]

theorem run_refBL (h : Sep f i) {s : Mem n K} {q : M n K} (hp : inv? (s.m f.P) = some q.transpose)
    {L : Lin n K} (hh : Holds f i .B .L L s) :
    Post (run inv? (refBL f i tl) s) fun s' => Only f i s s' ∧
      s'.m (f.ml i .R13) = dR13 f L s q ∧
      s'.v (f.vl i .S31) = dS31 f L s q t tl := by
  execs h hh [refBL, hp]

theorem run_refBB (h : Sep f i) {s : Mem n K} {q : M n K} (hp : inv? (s.m f.P) = some q.transpose)
    {L : Lin n K} (hh : Holds f i .B .B L s) :
    Post (run inv? (refBB f i t tl) s) fun s' => Only f i s s' ∧
      s'.m (f.ml i .R13) = dR13 f L s q ∧
      s'.v (f.vl i .S31) = dS31 f L s q t tl := by
  execs h hh [refBB, hp]

theorem run_allUL (h : Sep f i) {s : Mem n K} {q : M n K} (hp : inv? (s.m f.P) = some q.transpose)
    {L : Lin n K} (hh : Holds f i .U .L L s) :
    Post (run inv? (allUL f i) s) fun s' => Only f i s s' ∧
      s'.m (f.ml i .R13) = dR13 f L s q ∧
      s'.m (f.ml i .T31) = dT31 f L s q := by
  execs h hh [allUL, hp]

theorem run_allLU (h : Sep f i) {s : Mem n K} {q : M n K} (hp : inv? (s.m f.P) = some q.transpose)
    (hD : s.m DXX = s.m f.A * s.m (f.m .R23))
    {L : Lin n K} (hh : Holds f i .L .U L s) :
    Post (run inv? (allLU f i) s) fun s' => Only f i s s' ∧
      s'.m (f.ml i .R13) = dR13 f L s q ∧
      s'.m (f.ml i .T31) = dT31 f L s q := by
  have hD' : s.m (.scratch 5) = _ := hD
  execs h hh [allLU, hp, hD', DXX]

theorem run_allLL (h : Sep f i) {s : Mem n K} {q : M n K} (hp : inv? (s.m f.P) = some q.transpose)
    {L : Lin n K} (hh : Holds f i .L .L L s) :
    Post (run inv? (allLL f i) s) fun s' => Only f i s s' ∧
      s'.m (f.ml i .R13) = dR13 f L s q ∧
      s'.m (f.ml i .T31) = dT31 f L s q := by
  execs h hh [allLL, hp]

theorem run_allUB (h : Sep f i) {s : Mem n K} {q : M n K} (hp : inv? (s.m f.P) = some q.transpose)
    {L : Lin n K} (hh : Holds f i .U .B L s) :
    Post (run inv? (allUB f i t) s) fun s' => Only f i s s' ∧
      s'.m (f.ml i .R13) = dR13 f L s q ∧
      s'.m (f.ml i .T31) = dT31 f L s q ∧
      s'.v (f.vl i .S31) = dS31 f L s q t 0 := by
  execs h hh [allUB, hp]

theorem run_allBU (h : Sep f i) {s : Mem n K} {q : M n K} (hp : inv? (s.m f.P) = some q.transpose)
    (hD : s.m DXX = s.m f.A * s.m (f.m .R23))
    {L : Lin n K} (hh : Holds f i .B .U L s) :
    Post (run inv? (allBU f i tl) s) fun s' => Only f i s s' ∧
      s'.m (f.ml i .R13) = dR13 f L s q ∧
      s'.m (f.ml i .T31) = dT31 f L s q ∧
      s'.v (f.vl i .S31) = dS31 f L s q t tl := by
  have hD' : s.m (.scratch 5) = _ := hD
  execs h hh [allBU, hp, hD', DXX]

theorem run_allSB (h : Sep f i) {s : Mem n K} {q : M n K} (hp : inv? (s.m f.P) = some q.transpose)
    {L : Lin n K} (hh : Holds f i .S .B L s) :
    Post (run inv? (allSB f i t) s) fun s' => Only f i s s' ∧
      s'.m (f.ml i .R13) = dR13 f L s q ∧
      s'.m (f.ml i .T31) = dT31 f L s q ∧
      s'.v (f.vl i .S31) = dS31 f L s q t 0 := by
  execs h hh [allSB, hp]

theorem run_allBS (h : Sep f i) {s : Mem n K} {q : M n K} (hp : inv? (s.m f.P) = some q.transpose)
    (hD : s.m DXX = s.m f.A * s.m (f.m .R23))
    {L : Lin n K} (hh : Holds f i .B .S L s) :
    Post (run inv? (allBS f i t tl) s) fun s' => Only f i s s' ∧
      s'.m (f.ml i .R13) = dR13 f L s q ∧
      s'.m (f.ml i .T31) = dT31 f L s q ∧
      s'.v (f.vl i .S31) = dS31 f L s q t tl := by
  have hD' : s.m (.scratch 5) = _ := hD
  execs h hh [allBS, hp, hD', DXX]

theorem run_allBB (h : Sep f i) {s : Mem n K} {q : M n K} (hp : inv? (s.m f.P) = some q.transpose)
    {L : Lin n K} (hh : Holds f i .B .B L s) :
    Post (run inv? (allBB f i t tl) s) fun s' => Only f i s s' ∧
      s'.m (f.ml i .R13) = dR13 f L s q ∧
      s'.m (f.ml i .T31) = dT31 f L s q ∧
      s'.v (f.vl i .S31) = dS31 f L s q t tl := by
  execs h hh [allBB, hp]

end Xrtm.Adding
