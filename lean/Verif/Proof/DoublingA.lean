import Verif.Model.Doubling
import Verif.Proof.AddingG

/-! Running the parts of `layer_double` and `layer_double_l` on a memory. -/

namespace Xrtm.Doubling

open Mat Adding Matrix

variable {K : Type} [CommRing K] {n : Nat} {inv? : M n K → Option (M n K)}

section formula

/-- Results of doubling: operators `R`, `T`, `q` the inverse of `1 - R R`; own light of the upper half `p1`, `m1` (up,
down), of the lower half `p2`, `m2`. -/
def oR (R T q : M n K) : M n K := R + T * q * (R * T)
def oT (T q : M n K) : M n K := T * q * T
def oP (R T q : M n K) (p1 m1 p2 : V n K) : V n K := p1 + (T * q) *ᵥ (R *ᵥ m1 + p2)
def oM (R T q : M n K) (m1 p2 m2 : V n K) : V n K := m2 + (T * q) *ᵥ (R *ᵥ p2 + m1)

/-- Their derivatives. -/
def gA (R T q R' T' : M n K) : M n K := (T' + T * q * (R' * R + R * R')) * q
def gR (R T q R' T' : M n K) : M n K := R' + gA R T q R' T' * (R * T) + T * q * (R' * T + R * T')
def gT (R T q R' T' : M n K) : M n K := gA R T q R' T' * T + T * q * T'
def gP (R T q R' T' : M n K) (m1 p2 p1' m1' p2' : V n K) : V n K :=
  p1' + gA R T q R' T' *ᵥ (R *ᵥ m1 + p2) + (T * q) *ᵥ (R' *ᵥ m1 + R *ᵥ m1' + p2')
def gM (R T q R' T' : M n K) (m1 p2 m1' p2' m2' : V n K) : V n K :=
  m2' + gA R T q R' T' *ᵥ (R *ᵥ p2 + m1) + (T * q) *ᵥ (R' *ᵥ p2 + R *ᵥ p2' + m1')

end formula

theorem inv_eq (hinv : Exact inv?) {r q : M n K} (hq : q * (1 - r * r) = 1) : inv? (1 - rᵀ * rᵀ) = some qᵀ := by
  rw [hinv, ← transpose_mul, ← transpose_one, ← transpose_sub, ← transpose_mul, hq]

/-- Run the calls. -/
macro "cells" "[" ts:Lean.Parser.Tactic.simpLemma,* "]" : tactic => `(tactic|
  simp (config := {decide := true}) [run, step, R, T, Rl, Tl, Sem, Sep, Slm, Slp, Lm, Lp, Seml, Sepl, Slml, Slpl, Lml, Lpl, w1, w2,
    P, A, B, Al, v1, v2, v3, v4, v5, a, b, c, d, e, f, $ts,*])

/-- Close an equation of sums of products. -/
macro "sums" : tactic => `(tactic|
  ((try simp only [mul_add, add_mul, ← mul_assoc, Matrix.mulVec_add, Matrix.add_mulVec, Matrix.mulVec_mulVec,
      Matrix.mulVec_smul, smul_add]) <;> (try abel)))

section plain

theorem head_post {s : Mem n K} {q : M n K} (hinv : Exact inv?) (hq : q * (1 - s.m R * s.m R) = 1) :
    Post (run inv? head s) fun s' => s'.m A = s.m T * q ∧ (∀ k, s'.m (.ext k) = s.m (.ext k)) ∧ s'.v = s.v := by
  have h := inv_eq hinv hq
  simp only [R] at h
  cells [head, h]

theorem head_fail {s : Mem n K} (hinv : Exact inv?) (hq : ¬ ∃ q, q * (1 - s.m R * s.m R) = 1) :
    run inv? head s = .error .singular := by
  have h : inv? (1 - (s.m R)ᵀ * (s.m R)ᵀ) = none := by
    cases e : inv? (1 - (s.m R)ᵀ * (s.m R)ᵀ) with
    | none => rfl
    | some q =>
        refine absurd ⟨qᵀ, ?_⟩ hq
        rw [hinv] at e
        have := congrArg transpose e
        simpa [transpose_mul] using this
  simp only [R] at h
  cells [head, h]

theorem headL_fail {s : Mem n K} (hinv : Exact inv?) (hq : ¬ ∃ q, q * (1 - s.m R * s.m R) = 1) :
    run inv? headL s = .error .singular := by
  have h : inv? (1 - (s.m R)ᵀ * (s.m R)ᵀ) = none := by
    cases e : inv? (1 - (s.m R)ᵀ * (s.m R)ᵀ) with
    | none => rfl
    | some q =>
        refine absurd ⟨qᵀ, ?_⟩ hq
        rw [hinv] at e
        have := congrArg transpose e
        simpa [transpose_mul] using this
  simp only [R] at h
  cells [headL, h]

theorem solar_post (t : K) (s : Mem n K) :
    Post (run inv? (solar t) s) fun s' => s'.m = s.m ∧
      s'.v Sep = s.v Sep + s.m A *ᵥ (s.m R *ᵥ s.v Sem + t • s.v Sep) ∧
      s'.v Sem = t • s.v Sem + s.m A *ᵥ (s.m R *ᵥ (t • s.v Sep) + s.v Sem) ∧
      ∀ k, k ≠ 0 → k ≠ 1 → s'.v (.ext k) = s.v (.ext k) := by
  cells [solar]
  refine ⟨?_, ?_, fun k h1 h2 => by simp [h1, h2]⟩ <;> sums

theorem initL_post (s : Mem n K) :
    Post (run inv? initL s) fun s' => s'.m = s.m ∧ s'.v Lp = s.v Slp ∧ s'.v Lm = s.v Slm ∧
      ∀ c, c ≠ Lp → c ≠ Lm → s'.v c = s.v c := by
  cells [initL]
  exact fun c h1 h2 => by simp [h1, h2]

theorem thermal_post (g : K) (s : Mem n K) :
    Post (run inv? (thermal g) s) fun s' => s'.m = s.m ∧
      s'.v Slp = s.v Slp + s.m A *ᵥ (s.m R *ᵥ s.v Slm + (s.v Slp + g • s.v Lp)) ∧
      s'.v Slm = s.v Slm + g • s.v Lm + s.m A *ᵥ (s.m R *ᵥ (s.v Slp + g • s.v Lp) + s.v Slm) ∧
      s'.v Lp = s.v Lp + s.m A *ᵥ (s.m R *ᵥ s.v Lm + s.v Lp) ∧
      s'.v Lm = s.v Lm + s.m A *ᵥ (s.m R *ᵥ s.v Lp + s.v Lm) ∧
      ∀ k, k ≠ 2 → k ≠ 3 → k ≠ 4 → k ≠ 5 → s'.v (.ext k) = s.v (.ext k) := by
  cells [thermal]
  refine ⟨?_, ?_, ?_, ?_, fun k h1 h2 h3 h4 => by simp [h1, h2, h3, h4]⟩ <;> sums

theorem tail_post (s : Mem n K) :
    Post (run inv? tail s) fun s' => s'.v = s.v ∧ s'.m R = s.m R + s.m A * (s.m R * s.m T) ∧ s'.m T = s.m A * s.m T ∧
      ∀ k, k ≠ 0 → k ≠ 1 → s'.m (.ext k) = s.m (.ext k) := by
  cells [tail]
  refine ⟨?_, fun k h1 h2 => by simp [h1, h2]⟩ <;> sums

end plain

section lin

theorem headL_post {s : Mem n K} {q : M n K} (hinv : Exact inv?) (hq : q * (1 - s.m R * s.m R) = 1) :
    Post (run inv? headL s) fun s' => s'.m A = s.m T * q ∧ s'.m B = s.m R * s.m T ∧ inv? (s'.m P) = some qᵀ ∧
      (∀ k, s'.m (.ext k) = s.m (.ext k)) ∧ s'.v = s.v := by
  have h := inv_eq hinv hq
  simp only [R] at h
  cells [headL, h]

theorem preSolar_post (t : K) (s : Mem n K) :
    Post (run inv? (preSolar t) s) fun s' => s'.m = s.m ∧
      s'.v a = s.m R *ᵥ s.v Sem + t • s.v Sep ∧ s'.v b = s.m R *ᵥ (t • s.v Sep) + s.v Sem ∧
      ∀ k, s'.v (.ext k) = s.v (.ext k) := by
  cells [preSolar]
  sums

theorem preThermal_post (g : K) (s : Mem n K) :
    Post (run inv? (preThermal g) s) fun s' => s'.m = s.m ∧
      s'.v e = s.m R *ᵥ s.v Slm + (s.v Slp + g • s.v Lp) ∧ s'.v f = s.m R *ᵥ (s.v Slp + g • s.v Lp) + s.v Slm ∧
      s'.v c = s.m R *ᵥ s.v Lm + s.v Lp ∧ s'.v d = s.m R *ᵥ s.v Lp + s.v Lm ∧ s'.v a = s.v a ∧ s'.v b = s.v b ∧
      ∀ k, s'.v (.ext k) = s.v (.ext k) := by
  cells [preThermal]
  sums

/-- What a turn for derivative `i` may change. -/
structure Only (i : Nat) (s s' : Mem n K) : Prop where
  m : ∀ x, x ≠ w1 → x ≠ w2 → x ≠ Al → x ≠ Rl i → x ≠ Tl i → s'.m x = s.m x
  v : ∀ x, x ≠ v1 → x ≠ v2 → x ≠ v3 → x ≠ v4 → x ≠ v5 → x ≠ Seml i → x ≠ Sepl i → x ≠ Slml i → x ≠ Slpl i → x ≠ Lml i →
    x ≠ Lpl i → s'.v x = s.v x

variable {i : Nat}

theorem derivA_post {s : Mem n K} {q : M n K} (hp : inv? (s.m P) = some qᵀ) :
    Post (run inv? (derivA i) s) fun s' => s'.v = s.v ∧
      s'.m Al = (s.m (Tl i) + s.m A * (s.m (Rl i) * s.m R + s.m R * s.m (Rl i))) * q ∧
      ∀ x, x ≠ w1 → x ≠ w2 → x ≠ Al → s'.m x = s.m x := by
  simp only [P] at hp
  cells [derivA, hp]
  refine ⟨?_, fun x h1 h2 h3 => by simp [h1, h2, h3]⟩ <;> sums

theorem solarL_post (t tl : K) (s : Mem n K) :
    Post (run inv? (solarL i t tl) s) fun s' => s'.m = s.m ∧
      s'.v (Sepl i) = s.v (Sepl i) + s.m Al *ᵥ s.v a +
        s.m A *ᵥ (s.m (Rl i) *ᵥ s.v Sem + s.m R *ᵥ s.v (Seml i) + (t • s.v (Sepl i) + tl • s.v Sep)) ∧
      s'.v (Seml i) = t • s.v (Seml i) + tl • s.v Sem + s.m Al *ᵥ s.v b +
        s.m A *ᵥ (s.m (Rl i) *ᵥ (t • s.v Sep) + s.m R *ᵥ (t • s.v (Sepl i) + tl • s.v Sep) + s.v (Seml i)) ∧
      ∀ x, x ≠ v1 → x ≠ v2 → x ≠ v3 → x ≠ v4 → x ≠ Seml i → x ≠ Sepl i → s'.v x = s.v x := by
  cells [solarL]
  refine ⟨?_, ?_, fun x h1 h2 h3 h4 h5 h6 => by simp [h1, h2, h3, h4, h5, h6]⟩ <;> sums

theorem initLl_post (s : Mem n K) :
    Post (run inv? (initLl i) s) fun s' => s'.m = s.m ∧ s'.v (Lpl i) = s.v (Slpl i) ∧ s'.v (Lml i) = s.v (Slml i) ∧
      ∀ x, x ≠ Lpl i → x ≠ Lml i → s'.v x = s.v x := by
  cells [initLl]
  exact fun x h1 h2 => by simp [h1, h2]

theorem thermalL1_post (g gl : K) (s : Mem n K) :
    Post (run inv? (thermalL1 i g gl) s) fun s' => s'.m = s.m ∧
      s'.v (Slpl i) = s.v (Slpl i) + s.m Al *ᵥ s.v e +
        s.m A *ᵥ (s.m (Rl i) *ᵥ s.v Slm + s.m R *ᵥ s.v (Slml i) + (s.v (Slpl i) + g • s.v (Lpl i) + gl • s.v Lp)) ∧
      s'.v (Slml i) = s.v (Slml i) + g • s.v (Lml i) + gl • s.v Lm + s.m Al *ᵥ s.v f +
        s.m A *ᵥ (s.m (Rl i) *ᵥ (s.v Slp + g • s.v Lp) + s.m R *ᵥ (s.v (Slpl i) + g • s.v (Lpl i) + gl • s.v Lp) +
          s.v (Slml i)) ∧
      ∀ x, x ≠ v1 → x ≠ v2 → x ≠ v3 → x ≠ v4 → x ≠ v5 → x ≠ Slml i → x ≠ Slpl i → s'.v x = s.v x := by
  cells [thermalL1]
  refine ⟨?_, ?_, fun x h1 h2 h3 h4 h5 h6 h7 => by simp [h1, h2, h3, h4, h5, h6, h7]⟩ <;> sums

theorem thermalL2_post (s : Mem n K) :
    Post (run inv? (thermalL2 i) s) fun s' => s'.m = s.m ∧
      s'.v (Lpl i) = s.v (Lpl i) + s.m Al *ᵥ s.v c + s.m A *ᵥ (s.m (Rl i) *ᵥ s.v Lm + s.m R *ᵥ s.v (Lml i) + s.v (Lpl i)) ∧
      s'.v (Lml i) = s.v (Lml i) + s.m Al *ᵥ s.v d + s.m A *ᵥ (s.m (Rl i) *ᵥ s.v Lp + s.m R *ᵥ s.v (Lpl i) + s.v (Lml i)) ∧
      ∀ x, x ≠ v1 → x ≠ v2 → x ≠ v3 → x ≠ v4 → x ≠ Lml i → x ≠ Lpl i → s'.v x = s.v x := by
  cells [thermalL2]
  refine ⟨?_, ?_, fun x h1 h2 h3 h4 h5 h6 => by simp [h1, h2, h3, h4, h5, h6]⟩ <;> sums

theorem derivRT_post (s : Mem n K) :
    Post (run inv? (derivRT i) s) fun s' => s'.v = s.v ∧
      s'.m (Rl i) = s.m (Rl i) + s.m Al * s.m B + s.m A * (s.m (Rl i) * s.m T + s.m R * s.m (Tl i)) ∧
      s'.m (Tl i) = s.m Al * s.m T + s.m A * s.m (Tl i) ∧
      ∀ x, x ≠ w1 → x ≠ w2 → x ≠ Rl i → x ≠ Tl i → s'.m x = s.m x := by
  cells [derivRT]
  refine ⟨?_, fun x h1 h2 h3 h4 => by simp [h1, h2, h3, h4]⟩ <;> sums

theorem solarS_post (t tl : K) (s : Mem n K) :
    Post (run inv? (solarS i t tl) s) fun s' => s'.m = s.m ∧
      s'.v (Sepl i) = s.v (Sepl i) + s.m A *ᵥ (s.m R *ᵥ s.v (Seml i) + (t • s.v (Sepl i) + tl • s.v Sep)) ∧
      s'.v (Seml i) = t • s.v (Seml i) + tl • s.v Sem +
        s.m A *ᵥ (s.m R *ᵥ (t • s.v (Sepl i) + tl • s.v Sep) + s.v (Seml i)) ∧
      ∀ x, x ≠ v1 → x ≠ v2 → x ≠ v3 → x ≠ v4 → x ≠ Seml i → x ≠ Sepl i → s'.v x = s.v x := by
  cells [solarS]
  refine ⟨?_, ?_, fun x h1 h2 h3 h4 h5 h6 => by simp [h1, h2, h3, h4, h5, h6]⟩ <;> sums

theorem thermalS1_post (g gl : K) (s : Mem n K) :
    Post (run inv? (thermalS1 i g gl) s) fun s' => s'.m = s.m ∧
      s'.v (Slpl i) = s.v (Slpl i) +
        s.m A *ᵥ (s.m R *ᵥ s.v (Slml i) + (s.v (Slpl i) + g • s.v (Lpl i) + gl • s.v Lp)) ∧
      s'.v (Slml i) = s.v (Slml i) + g • s.v (Lml i) + gl • s.v Lm +
        s.m A *ᵥ (s.m R *ᵥ (s.v (Slpl i) + g • s.v (Lpl i) + gl • s.v Lp) + s.v (Slml i)) ∧
      ∀ x, x ≠ v1 → x ≠ v2 → x ≠ v3 → x ≠ v4 → x ≠ v5 → x ≠ Slml i → x ≠ Slpl i → s'.v x = s.v x := by
  cells [thermalS1]
  refine ⟨?_, ?_, fun x h1 h2 h3 h4 h5 h6 h7 => by simp [h1, h2, h3, h4, h5, h6, h7]⟩ <;> sums

theorem thermalS2_post (s : Mem n K) :
    Post (run inv? (thermalS2 i) s) fun s' => s'.m = s.m ∧
      s'.v (Lpl i) = s.v (Lpl i) + s.m A *ᵥ (s.m R *ᵥ s.v (Lml i) + s.v (Lpl i)) ∧
      s'.v (Lml i) = s.v (Lml i) + s.m A *ᵥ (s.m R *ᵥ s.v (Lpl i) + s.v (Lml i)) ∧
      ∀ x, x ≠ v1 → x ≠ v2 → x ≠ v3 → x ≠ v4 → x ≠ Lml i → x ≠ Lpl i → s'.v x = s.v x := by
  cells [thermalS2]
  refine ⟨?_, ?_, fun x h1 h2 h3 h4 h5 h6 => by simp [h1, h2, h3, h4, h5, h6]⟩ <;> sums

theorem postSolar_post (t : K) (s : Mem n K) :
    Post (run inv? (postSolar t) s) fun s' => s'.m = s.m ∧ s'.v Sep = s.v Sep + s.m A *ᵥ s.v a ∧
      s'.v Sem = t • s.v Sem + s.m A *ᵥ s.v b ∧ ∀ x, x ≠ v1 → x ≠ Sem → x ≠ Sep → s'.v x = s.v x := by
  cells [postSolar]
  refine ⟨?_, ?_, fun x h1 h2 h3 => by simp [h1, h2, h3]⟩ <;> sums

theorem postThermal_post (g : K) (s : Mem n K) :
    Post (run inv? (postThermal g) s) fun s' => s'.m = s.m ∧ s'.v Slp = s.v Slp + s.m A *ᵥ s.v e ∧
      s'.v Slm = s.v Slm + g • s.v Lm + s.m A *ᵥ s.v f ∧ s'.v Lp = s.v Lp + s.m A *ᵥ s.v c ∧
      s'.v Lm = s.v Lm + s.m A *ᵥ s.v d ∧
      ∀ x, x ≠ v1 → x ≠ Slm → x ≠ Slp → x ≠ Lm → x ≠ Lp → s'.v x = s.v x := by
  cells [postThermal]
  refine ⟨?_, ?_, ?_, ?_, fun x h1 h2 h3 h4 h5 => by simp [h1, h2, h3, h4, h5]⟩ <;> sums

theorem tailL_post (s : Mem n K) :
    Post (run inv? tailL s) fun s' => s'.v = s.v ∧ s'.m R = s.m R + s.m A * s.m B ∧ s'.m T = s.m A * s.m T ∧
      ∀ k, k ≠ 0 → k ≠ 1 → s'.m (.ext k) = s.m (.ext k) := by
  cells [tailL]
  exact fun k h1 h2 => by simp [h1, h2]

end lin

end Xrtm.Doubling
