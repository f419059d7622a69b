import Verif.Model.Sos
import Verif.Spec.Orders
import Verif.Proof.Whole
import Mathlib.Analysis.SpecificLimits.Basic

/-! # Successive orders: lemmas -/

namespace Xrtm.Sos
open Xrtm.Transfer Xrtm.Spec

section levels
variable {n : Nat} {S : Slabs n}

/-- A slab with an even source that only dims. -/
theorem slab {m : Medium n} (hmu : ∀ i, m.mu i ≠ 0) {qp qm : Fin n → ℝ} {up dn : ℝ → Fin n → ℝ}
    (h : m.clear.Carries (fun _ => qp) (fun _ => qm) up dn) (T : ℝ) (i : Fin n) :
    up 0 i = Real.exp (-T / m.mu i) * up T i + (1 - Real.exp (-T / m.mu i)) * qp i ∧
      dn T i = Real.exp (-T / m.mu i) * dn 0 i + (1 - Real.exp (-T / m.mu i)) * qm i := by
  have z1 : ∀ u d i, m.clear.intoUp u d i = 0 := fun u d i => by simp [Medium.clear, Medium.intoUp]
  have z2 : ∀ u d i, m.clear.intoDn u d i = 0 := fun u d i => by simp [Medium.clear, Medium.intoDn]
  have := Whole.clear_fills (m := m.clear) hmu z1 z2 T (fun s => up s - qp) (fun s => dn s - qm) fun s k => by
    obtain ⟨u, d, h1, h2, h3, h4⟩ := h s k
    refine ⟨u, d, by simpa using h1.sub_const (qp k), by simpa using h2.sub_const (qm k), ?_, ?_⟩
    · rw [h3, z1, z1]; simp
    · rw [h4, z2, z2]; simp
  have h1 := congrFun this.1 i
  have h2 := congrFun this.2 i
  simp only [NoScatter.trans, Matrix.mulVec_diagonal, Pi.add_apply, Pi.sub_apply, Matrix.zero_mulVec,
    Pi.zero_apply, zero_add, add_zero] at h1 h2
  have e : m.clear.mu = m.mu := rfl
  rw [e] at h1 h2
  constructor <;> linarith

/-- The other way. -/
theorem slab_carries {m : Medium n} (hmu : ∀ i, m.mu i ≠ 0) (qp qm a b : Fin n → ℝ) (T : ℝ) :
    m.clear.Carries (fun _ => qp) (fun _ => qm) (fun s i => qp i + (a i - qp i) * Real.exp ((s - T) / m.mu i))
      (fun s i => qm i + (b i - qm i) * Real.exp (-s / m.mu i)) := by
  intro s i
  have e1 : HasDerivAt (fun s => Real.exp ((s - T) / m.mu i)) (Real.exp ((s - T) / m.mu i) * (1 / m.mu i)) s :=
    (((hasDerivAt_id s).sub_const T).div_const _).exp
  have e2 : HasDerivAt (fun s => Real.exp (-s / m.mu i)) (Real.exp (-s / m.mu i) * (-1 / m.mu i)) s :=
    (((hasDerivAt_id s).neg).div_const _).exp
  refine ⟨_, _, (e1.const_mul (a i - qp i)).const_add (qp i), (e2.const_mul (b i - qm i)).const_add (qm i), ?_, ?_⟩
  · have := hmu i
    simp only [Medium.clear, Medium.intoUp, zero_mul, sub_zero]
    field_simp
    ring
  · have := hmu i
    simp only [Medium.clear, Medium.intoDn, zero_mul, sub_zero]
    field_simp
    ring

/-- The factors of the slabs. -/
noncomputable def dim (S : Slabs n) (j : Nat) (k : Fin n) : ℝ := Real.exp (-S.T j / (S.med j).mu k)

theorem face_succ {S : Slabs n} {qp qm : Nat → Fin n → ℝ} {top bot : Fin n → ℝ} {up dn : Nat → ℝ → Fin n → ℝ}
    (h : (S.lamp qp qm top bot).Lit up dn) {j : Nat} (hj : j < S.N) :
    S.face up (j + 1) = up j (S.T j) ∧ S.face dn (j + 1) = dn j (S.T j) := by
  by_cases h1 : j + 1 < S.N
  · have := h.meet j h1
    simp only [Slabs.face, if_pos h1]
    exact ⟨this.1.symm, this.2.symm⟩
  · have e : S.N - 1 = j := by omega
    simp only [Slabs.face, if_neg h1, e, and_self]

/-- Light of given even sources, from face to face. -/
theorem lamp_faces {S : Slabs n} (hN : 0 < S.N) (hmu : ∀ j, j < S.N → ∀ k, (S.med j).mu k ≠ 0)
    {qp qm : Nat → Fin n → ℝ} {top bot : Fin n → ℝ} {up dn : Nat → ℝ → Fin n → ℝ}
    (h : (S.lamp qp qm top bot).Lit up dn) :
    S.face up S.N = bot ∧ S.face dn 0 = top ∧ ∀ j, j < S.N → ∀ k,
      S.face up j k = dim S j k * S.face up (j + 1) k + (1 - dim S j k) * qp j k ∧
      S.face dn (j + 1) k = dim S j k * S.face dn j k + (1 - dim S j k) * qm j k := by
  refine ⟨?_, ?_, fun j hj k => ?_⟩
  · have := h.ground
    simp only [Slabs.lamp, Matrix.zero_mulVec, add_zero] at this
    simpa [Slabs.face] using this
  · rw [Slabs.face, if_pos hN]
    exact h.sky
  · have f := face_succ h hj
    rw [f.1, f.2]
    simp only [Slabs.face, if_pos hj]
    exact slab (hmu j hj) (h.layer j hj) (S.T j) k

theorem rise_eq {T q U : Nat → Fin n → ℝ} {N : Nat} (h : ∀ j, j < N → ∀ k, U j k = T j k * U (j + 1) k + q j k) :
    ∀ d, d ≤ N → rise T q N (U N) d = U (N - d) := by
  intro d
  induction d with
  | zero => intro _; rfl
  | succ d ih =>
    intro hd
    funext k
    have e : N - 1 - d + 1 = N - d := by omega
    have e' : N - (d + 1) = N - 1 - d := by omega
    rw [rise, ih (by omega), e', h _ (by omega) k, e]

theorem fall_eq {T q D : Nat → Fin n → ℝ} {N : Nat} (h : ∀ j, j < N → ∀ k, D (j + 1) k = T j k * D j k + q j k) :
    ∀ j, j ≤ N → fall T q (D 0) j = D j := by
  intro j
  induction j with
  | zero => intro _; rfl
  | succ j ih =>
    intro hd
    funext k
    rw [fall, ih (by omega), h _ (by omega) k]

/-- What a sweep leaves goes from level to level. -/
theorem sweep_step {T qp qm : Nat → Fin n → ℝ} {N : Nat} {bot top : Fin n → ℝ} :
    (sweep T qp qm N bot top).ip N = bot ∧ (sweep T qp qm N bot top).im 0 = top ∧ ∀ j, j < N → ∀ k,
      (sweep T qp qm N bot top).ip j k = T j k * (sweep T qp qm N bot top).ip (j + 1) k + qp j k ∧
      (sweep T qp qm N bot top).im (j + 1) k = T j k * (sweep T qp qm N bot top).im j k + qm j k := by
  refine ⟨by simp [sweep, rise], rfl, fun j hj k => ⟨?_, rfl⟩⟩
  have e : N - j = (N - (j + 1)) + 1 := by omega
  have e' : N - 1 - (N - (j + 1)) = j := by omega
  simp only [sweep]
  rw [e, rise, e']

/-- Numbers at the faces that go from face to face are those of some light. -/
theorem lamp_exists {S : Slabs n} (hmu : ∀ j, j < S.N → ∀ k, (S.med j).mu k ≠ 0)
    {qp qm U D : Nat → Fin n → ℝ} (hN : 0 < S.N)
    (hU : ∀ j, j < S.N → ∀ k, U j k = dim S j k * U (j + 1) k + (1 - dim S j k) * qp j k)
    (hD : ∀ j, j < S.N → ∀ k, D (j + 1) k = dim S j k * D j k + (1 - dim S j k) * qm j k) :
    ∃ up dn, (S.lamp qp qm (D 0) (U S.N)).Lit up dn ∧
      ∀ j, j < S.N → up j 0 = U j ∧ up j (S.T j) = U (j + 1) ∧ dn j 0 = D j ∧ dn j (S.T j) = D (j + 1) := by
  let up : Nat → ℝ → Fin n → ℝ := fun j s i => qp j i + (U (j + 1) i - qp j i) * Real.exp ((s - S.T j) / (S.med j).mu i)
  let dn : Nat → ℝ → Fin n → ℝ := fun j s i => qm j i + (D j i - qm j i) * Real.exp (-s / (S.med j).mu i)
  have e1 : ∀ j, j < S.N → up j 0 = U j := fun j hj => by
    funext k
    rw [hU j hj k]
    simp only [up, dim, zero_sub]
    ring
  have e2 : ∀ j, up j (S.T j) = U (j + 1) := fun j => by
    funext k
    simp [up]
  have e3 : ∀ j, dn j 0 = D j := fun j => by
    funext k
    simp [dn]
  have e4 : ∀ j, j < S.N → dn j (S.T j) = D (j + 1) := fun j hj => by
    funext k
    rw [hD j hj k]
    simp only [dn, dim]
    ring
  have hlast : S.N - 1 + 1 = S.N := by omega
  refine ⟨up, dn, ⟨fun j hj => slab_carries (hmu j hj) _ _ _ _ _, fun j hj => ?_, e3 0, ?_⟩, fun j hj =>
    ⟨e1 j hj, e2 j, e3 j, e4 j hj⟩⟩
  · have hj' : j + 1 < S.N := hj
    refine ⟨?_, ?_⟩
    · show up j (S.T j) = up (j + 1) 0
      rw [e2, e1 _ hj']
    · show dn j (S.T j) = dn (j + 1) 0
      rw [e3, e4 _ (by omega)]
  · show up (S.N - 1) (S.T (S.N - 1)) = _
    rw [e2, hlast]
    simp [Slabs.lamp]

/-! ## What is sent back -/

theorem into_le {m : Medium n} {P Q : Matrix (Fin n) (Fin n) ℝ} {c B : ℝ} {u d : Fin n → ℝ} (hu : ∀ j, |u j| ≤ B)
    (hd : ∀ j, |d j| ≤ B) (k : Fin n)
    (h : |m.k| * ∑ j, |m.w j| * (|P k j| + |Q k j|) ≤ c) :
    |m.k * ∑ j, m.w j * (P k j * u j + Q k j * d j)| ≤ c * B := by
  have hB : 0 ≤ B := (abs_nonneg _).trans (hu k)
  rw [abs_mul]
  refine le_trans ?_ (mul_le_mul_of_nonneg_right h hB)
  rw [mul_assoc]
  refine mul_le_mul_of_nonneg_left ?_ (abs_nonneg _)
  refine (Finset.abs_sum_le_sum_abs _ _).trans ?_
  rw [Finset.sum_mul]
  refine Finset.sum_le_sum fun j _ => ?_
  rw [abs_mul, mul_assoc]
  refine mul_le_mul_of_nonneg_left ?_ (abs_nonneg _)
  refine (abs_add_le _ _).trans ?_
  rw [abs_mul, abs_mul, add_mul]
  exact add_le_add (mul_le_mul_of_nonneg_left (hu j) (abs_nonneg _)) (mul_le_mul_of_nonneg_left (hd j) (abs_nonneg _))

theorem mean_le {a b c t : ℝ} (h0 : 0 ≤ t) (h1 : t ≤ 1) (ha : |a| ≤ c) (hb : |b| ≤ c) : |t * a + (1 - t) * b| ≤ c := by
  have h2 : 0 ≤ 1 - t := by linarith
  refine (abs_add_le _ _).trans ?_
  rw [abs_mul, abs_mul, abs_of_nonneg h0, abs_of_nonneg h2]
  nlinarith [mul_le_mul_of_nonneg_left ha h0, mul_le_mul_of_nonneg_left hb h2]

/-- Faces of light are within `c` where what is sent in is. -/
theorem faces_le {S : Slabs n} (hT : ∀ j, j < S.N → ∀ k, 0 ≤ S.T j ∧ 0 < (S.med j).mu k)
    {qp qm U D : Nat → Fin n → ℝ} {c : ℝ}
    (hU : ∀ j, j < S.N → ∀ k, U j k = dim S j k * U (j + 1) k + (1 - dim S j k) * qp j k)
    (hD : ∀ j, j < S.N → ∀ k, D (j + 1) k = dim S j k * D j k + (1 - dim S j k) * qm j k)
    (hq : ∀ j, j < S.N → ∀ k, |qp j k| ≤ c ∧ |qm j k| ≤ c) (hb : ∀ k, |U S.N k| ≤ c) (ht : ∀ k, |D 0 k| ≤ c) :
    ∀ j, j ≤ S.N → ∀ k, |U j k| ≤ c ∧ |D j k| ≤ c := by
  have hd : ∀ j, j < S.N → ∀ k, 0 ≤ dim S j k ∧ dim S j k ≤ 1 := fun j hj k => by
    refine ⟨(Real.exp_pos _).le, Real.exp_le_one_iff.2 ?_⟩
    have := hT j hj k
    exact div_nonpos_of_nonpos_of_nonneg (by linarith) this.2.le
  have up : ∀ d, d ≤ S.N → ∀ k, |U (S.N - d) k| ≤ c := by
    intro d
    induction d with
    | zero => intro _ k; exact hb k
    | succ d ih =>
      intro h k
      have e : S.N - (d + 1) + 1 = S.N - d := by omega
      rw [hU _ (by omega) k, e]
      exact mean_le (hd _ (by omega) k).1 (hd _ (by omega) k).2 (ih (by omega) k) (hq _ (by omega) k).1
  have dn : ∀ j, j ≤ S.N → ∀ k, |D j k| ≤ c := by
    intro j
    induction j with
    | zero => intro _ k; exact ht k
    | succ j ih =>
      intro h k
      rw [hD _ (by omega) k]
      exact mean_le (hd _ (by omega) k).1 (hd _ (by omega) k).2 (ih (by omega) k) (hq _ (by omega) k).2
  intro j hj k
  refine ⟨?_, dn j hj k⟩
  have := up (S.N - j) (by omega) k
  rwa [show S.N - (S.N - j) = j by omega] at this

theorem back_le {S : Slabs n} {c B : ℝ} (h : S.Keeps c) {d : Fin n → ℝ} (hd : ∀ k, |d k| ≤ B) (k : Fin n) :
    |S.Rs.mulVec d k| ≤ c * B := by
  have hB : 0 ≤ B := (abs_nonneg _).trans (hd k)
  refine le_trans ?_ (mul_le_mul_of_nonneg_right (h.ground k) hB)
  show |∑ j, S.Rs k j * d j| ≤ _
  refine (Finset.abs_sum_le_sum_abs _ _).trans ?_
  rw [Finset.sum_mul]
  refine Finset.sum_le_sum fun j _ => ?_
  rw [abs_mul]
  exact mul_le_mul_of_nonneg_left (hd j) (abs_nonneg _)

theorem evenUp_eq {S : Slabs n} {qp qm : Nat → Fin n → ℝ} {top bot : Fin n → ℝ} {up dn : Nat → ℝ → Fin n → ℝ}
    (h : (S.lamp qp qm top bot).Lit up dn) {j : Nat} (hj : j < S.N) (k : Fin n) :
    S.evenUp up dn j k = (S.med j).k / 2 * ∑ l, (S.med j).w l * ((S.med j).Ppp k l * (S.face up j + S.face up (j + 1)) l +
      (S.med j).Ppm k l * (S.face dn j + S.face dn (j + 1)) l) := by
  rw [(face_succ h hj).1, (face_succ h hj).2]
  simp only [Slabs.face, if_pos hj, Slabs.evenUp, Medium.intoUp, Pi.add_apply]
  rw [← mul_add, ← Finset.sum_add_distrib, mul_div_right_comm]
  congr 1
  exact Finset.sum_congr rfl fun l _ => by ring

theorem evenDn_eq {S : Slabs n} {qp qm : Nat → Fin n → ℝ} {top bot : Fin n → ℝ} {up dn : Nat → ℝ → Fin n → ℝ}
    (h : (S.lamp qp qm top bot).Lit up dn) {j : Nat} (hj : j < S.N) (k : Fin n) :
    S.evenDn up dn j k = (S.med j).k / 2 * ∑ l, (S.med j).w l * ((S.med j).Pmp k l * (S.face up j + S.face up (j + 1)) l +
      (S.med j).Pmm k l * (S.face dn j + S.face dn (j + 1)) l) := by
  rw [(face_succ h hj).1, (face_succ h hj).2]
  simp only [Slabs.face, if_pos hj, Slabs.evenDn, Medium.intoDn, Pi.add_apply]
  rw [← mul_add, ← Finset.sum_add_distrib, mul_div_right_comm]
  congr 1
  exact Finset.sum_congr rfl fun l _ => by ring

theorem back_eq {S : Slabs n} {dn : Nat → ℝ → Fin n → ℝ} : S.back dn = S.Rs.mulVec (S.face dn S.N) := by
  simp [Slabs.back, Slabs.face]

/-- What slab `j` sends on, of light `U`, `D` at its faces. -/
noncomputable def onUp (S : Slabs n) (U D : Nat → Fin n → ℝ) (j : Nat) (k : Fin n) : ℝ :=
  (S.med j).k / 2 * ∑ l, (S.med j).w l * ((S.med j).Ppp k l * (U j + U (j + 1)) l + (S.med j).Ppm k l * (D j + D (j + 1)) l)

noncomputable def onDn (S : Slabs n) (U D : Nat → Fin n → ℝ) (j : Nat) (k : Fin n) : ℝ :=
  (S.med j).k / 2 * ∑ l, (S.med j).w l * ((S.med j).Pmp k l * (U j + U (j + 1)) l + (S.med j).Pmm k l * (D j + D (j + 1)) l)

theorem on_le {S : Slabs n} {c B : ℝ} (h : S.Keeps c) {U D : Nat → Fin n → ℝ}
    (hb : ∀ j, j ≤ S.N → ∀ k, |U j k| ≤ B ∧ |D j k| ≤ B) {j : Nat} (hj : j < S.N) (k : Fin n) :
    |onUp S U D j k| ≤ c * B ∧ |onDn S U D j k| ≤ c * B := by
  have h2 : ∀ {X : Nat → Fin n → ℝ}, (∀ j, j ≤ S.N → ∀ k, |X j k| ≤ B) → ∀ l, |(X j + X (j + 1)) l| ≤ 2 * B :=
    fun hX l => by
      refine (abs_add_le _ _).trans ?_
      have := hX j hj.le l
      have := hX (j + 1) hj l
      linarith
  have half : ∀ x, (S.med j).k / 2 * x = ((S.med j).k * x) / 2 := fun x => by ring
  have key : ∀ {x : ℝ}, |x| ≤ c * (2 * B) → |x / 2| ≤ c * B := fun {x} hx => by
    rw [abs_div, abs_two]; linarith
  constructor
  · rw [onUp, half]
    exact key (into_le (h2 fun j hj k => (hb j hj k).1) (h2 fun j hj k => (hb j hj k).2) k (h.up j hj k))
  · rw [onDn, half]
    exact key (into_le (h2 fun j hj k => (hb j hj k).1) (h2 fun j hj k => (hb j hj k).2) k (h.dn j hj k))

/-- All the light less the orders up to `m`. -/
noncomputable def rest (X : Fin n → ℝ) (x : Nat → Fin n → ℝ) (m : Nat) : Fin n → ℝ := X - ∑ p ∈ Finset.range m, x p

theorem onUp_add (S : Slabs n) (U D U' D' : Nat → Fin n → ℝ) (j : Nat) (k : Fin n) :
    onUp S (fun i => U i + U' i) (fun i => D i + D' i) j k = onUp S U D j k + onUp S U' D' j k := by
  simp only [onUp, Pi.add_apply]
  rw [← mul_add, ← Finset.sum_add_distrib]
  congr 1
  exact Finset.sum_congr rfl fun l _ => by ring

theorem onDn_add (S : Slabs n) (U D U' D' : Nat → Fin n → ℝ) (j : Nat) (k : Fin n) :
    onDn S (fun i => U i + U' i) (fun i => D i + D' i) j k = onDn S U D j k + onDn S U' D' j k := by
  simp only [onDn, Pi.add_apply]
  rw [← mul_add, ← Finset.sum_add_distrib]
  congr 1
  exact Finset.sum_congr rfl fun l _ => by ring

/-- Each order takes away the share `c` of what is missing. -/
theorem orders_rest {S : Slabs n} (hN : 0 < S.N) (hT : ∀ j, j < S.N → ∀ k, 0 ≤ S.T j ∧ 0 < (S.med j).mu k) {c B : ℝ}
    (hc : S.Keeps c) {up dn : Nat → Nat → ℝ → Fin n → ℝ} (ho : S.Orders up dn) {aup adn : Nat → ℝ → Fin n → ℝ}
    (ha : S.All aup adn) (hB : ∀ j, j ≤ S.N → ∀ k, |S.face aup j k| ≤ B ∧ |S.face adn j k| ≤ B) (m : Nat) :
    ∀ j, j ≤ S.N → ∀ k, |rest (S.face aup j) (fun p => S.face (up p) j) m k| ≤ c ^ m * B ∧
      |rest (S.face adn j) (fun p => S.face (dn p) j) m k| ≤ c ^ m * B := by
  have hmu : ∀ j, j < S.N → ∀ k, (S.med j).mu k ≠ 0 := fun j hj k => (hT j hj k).2.ne'
  induction m with
  | zero => intro j hj k; simpa [rest] using hB j hj k
  | succ m ih =>
    have fa := lamp_faces hN hmu ha
    have f0 := lamp_faces hN hmu ho.first
    have fs := fun p => lamp_faces hN hmu (ho.next p)
    have qa : ∀ j, j < S.N → ∀ k, S.evenUp aup adn j k = onUp S (S.face aup) (S.face adn) j k ∧
        S.evenDn aup adn j k = onDn S (S.face aup) (S.face adn) j k := fun j hj k => ⟨evenUp_eq ha hj k, evenDn_eq ha hj k⟩
    have qo : ∀ p j, j < S.N → ∀ k, S.evenUp (up p) (dn p) j k = onUp S (S.face (up p)) (S.face (dn p)) j k ∧
        S.evenDn (up p) (dn p) j k = onDn S (S.face (up p)) (S.face (dn p)) j k := fun p j hj k => by
      cases p with
      | zero => exact ⟨evenUp_eq ho.first hj k, evenDn_eq ho.first hj k⟩
      | succ p => exact ⟨evenUp_eq (ho.next p) hj k, evenDn_eq (ho.next p) hj k⟩
    -- the rest after `m` orders, at the faces
    let U : Nat → Nat → Fin n → ℝ := fun m j => rest (S.face aup j) (fun p => S.face (up p) j) m
    let D : Nat → Nat → Fin n → ℝ := fun m j => rest (S.face adn j) (fun p => S.face (dn p) j) m
    have Us : ∀ m j, U (m + 1) j = U m j - S.face (up m) j := fun m j => by
      simp only [U, rest, Finset.sum_range_succ]; abel
    have Ds : ∀ m j, D (m + 1) j = D m j - S.face (dn m) j := fun m j => by
      simp only [D, rest, Finset.sum_range_succ]; abel
    have U1 : ∀ j, U 0 j = S.face aup j := fun j => by simp [U, rest]
    have D1 : ∀ j, D 0 j = S.face adn j := fun j => by simp [D, rest]
    have split : ∀ m j k, onUp S (U m) (D m) j k = onUp S (U (m + 1)) (D (m + 1)) j k +
        onUp S (S.face (up m)) (S.face (dn m)) j k ∧ onDn S (U m) (D m) j k = onDn S (U (m + 1)) (D (m + 1)) j k +
        onDn S (S.face (up m)) (S.face (dn m)) j k := fun m j k => by
      rw [← onUp_add, ← onDn_add]
      have e1 : (fun i => U (m + 1) i + S.face (up m) i) = U m := funext fun i => by rw [Us]; abel
      have e2 : (fun i => D (m + 1) i + S.face (dn m) i) = D m := funext fun i => by rw [Ds]; abel
      rw [e1, e2]
      exact ⟨rfl, rfl⟩
    have stp : ∀ m, U (m + 1) S.N = S.Rs.mulVec (D m S.N) ∧ D (m + 1) 0 = 0 ∧ ∀ j, j < S.N → ∀ k,
        U (m + 1) j k = dim S j k * U (m + 1) (j + 1) k + (1 - dim S j k) * onUp S (U m) (D m) j k ∧
        D (m + 1) (j + 1) k = dim S j k * D (m + 1) j k + (1 - dim S j k) * onDn S (U m) (D m) j k := by
      intro m
      induction m with
      | zero =>
        refine ⟨?_, ?_, fun j hj k => ?_⟩
        · rw [Us, U1, D1, fa.1, f0.1, back_eq]; abel
        · rw [Ds, D1, fa.2.1, f0.2.1]; abel
        · have a := fa.2.2 j hj k
          have b := f0.2.2 j hj k
          rw [Us, Us, Ds, Ds]
          have hU : U 0 = S.face aup := funext U1
          have hD : D 0 = S.face adn := funext D1
          simp only [Pi.sub_apply, hU, hD, ← (qa j hj k).1, ← (qa j hj k).2]
          simp only [Pi.add_apply] at a
          constructor
          · rw [a.1, b.1]; ring
          · rw [a.2, b.2]; ring
      | succ m ih =>
        refine ⟨?_, ?_, fun j hj k => ?_⟩
        · rw [Us, ih.1, (fs m).1, back_eq, Ds, Matrix.mulVec_sub]
        · rw [Ds, ih.2.1, (fs m).2.1]; abel
        · have a := ih.2.2 j hj k
          have b := (fs m).2.2 j hj k
          have s := split m j k
          rw [(qo m j hj k).1, (qo m j hj k).2] at b
          rw [Us (m + 1), Us (m + 1), Ds (m + 1), Ds (m + 1)]
          simp only [Pi.sub_apply]
          constructor
          · rw [a.1, b.1, s.1]; ring
          · rw [a.2, b.2, s.2]; ring
    have r := stp m
    intro j hj k
    have ihb : ∀ j, j ≤ S.N → ∀ k, |U m j k| ≤ c ^ m * B ∧ |D m j k| ≤ c ^ m * B := ih
    have c0 : 0 ≤ c := (Finset.sum_nonneg fun _ _ => abs_nonneg _).trans (hc.ground k)
    have B0 : 0 ≤ B := (abs_nonneg _).trans (hB 0 (Nat.zero_le _) k).1
    have e : c ^ (m + 1) * B = c * (c ^ m * B) := by ring
    rw [e]
    refine faces_le (U := U (m + 1)) (D := D (m + 1)) hT (fun j hj k => (r.2.2 j hj k).1) (fun j hj k => (r.2.2 j hj k).2)
      (fun j hj k => on_le hc ihb hj k) (fun k => ?_) (fun k => ?_) j hj k
    · rw [r.1]
      exact back_le hc (fun k => (ihb S.N le_rfl k).2) k
    · rw [r.2.1]
      simp only [Pi.zero_apply, abs_zero]
      exact mul_nonneg c0 (mul_nonneg (pow_nonneg c0 _) B0)

/-- The orders, at the faces. -/
theorem orders_faces {S : Slabs n} (hN : 0 < S.N) (hT : ∀ j, j < S.N → ∀ k, 0 ≤ S.T j ∧ 0 < (S.med j).mu k)
    {up dn : Nat → Nat → ℝ → Fin n → ℝ} (ho : S.Orders up dn) (p : Nat) :
    S.face (up (p + 1)) S.N = S.Rs.mulVec (S.face (dn p) S.N) ∧ S.face (dn (p + 1)) 0 = 0 ∧ ∀ j, j < S.N → ∀ k,
      S.face (up (p + 1)) j k = dim S j k * S.face (up (p + 1)) (j + 1) k +
        (1 - dim S j k) * onUp S (S.face (up p)) (S.face (dn p)) j k ∧
      S.face (dn (p + 1)) (j + 1) k = dim S j k * S.face (dn (p + 1)) j k +
        (1 - dim S j k) * onDn S (S.face (up p)) (S.face (dn p)) j k := by
  have hmu : ∀ j, j < S.N → ∀ k, (S.med j).mu k ≠ 0 := fun j hj k => (hT j hj k).2.ne'
  obtain ⟨a, b, c⟩ := lamp_faces hN hmu (ho.next p)
  refine ⟨a.trans back_eq, b, fun j hj k => ?_⟩
  have := c j hj k
  have q : S.evenUp (up p) (dn p) j k = onUp S (S.face (up p)) (S.face (dn p)) j k ∧
      S.evenDn (up p) (dn p) j k = onDn S (S.face (up p)) (S.face (dn p)) j k := by
    cases p with
    | zero => exact ⟨evenUp_eq ho.first hj k, evenDn_eq ho.first hj k⟩
    | succ p => exact ⟨evenUp_eq (ho.next p) hj k, evenDn_eq (ho.next p) hj k⟩
  rwa [q.1, q.2] at this

theorem on_hasSum {S : Slabs n} {u d : Nat → Nat → Fin n → ℝ} {U D : Nat → Fin n → ℝ} {j : Nat}
    (h : ∀ i, i = j ∨ i = j + 1 → ∀ k, HasSum (fun p => u p i k) (U i k) ∧ HasSum (fun p => d p i k) (D i k)) (k : Fin n) :
    HasSum (fun p => onUp S (u p) (d p) j k) (onUp S U D j k) ∧
    HasSum (fun p => onDn S (u p) (d p) j k) (onDn S U D j k) := by
  have hu := fun l => (h j (Or.inl rfl) l).1.add (h (j + 1) (Or.inr rfl) l).1
  have hd := fun l => (h j (Or.inl rfl) l).2.add (h (j + 1) (Or.inr rfl) l).2
  exact ⟨(hasSum_sum fun l _ => (((hu l).mul_left _).add ((hd l).mul_left _)).mul_left _).mul_left _,
    (hasSum_sum fun l _ => (((hu l).mul_left _).add ((hd l).mul_left _)).mul_left _).mul_left _⟩

/-- Where less than all is sent back, the orders add up to all the light. -/
theorem all_exists {S : Slabs n} (hN : 0 < S.N) (hT : ∀ j, j < S.N → ∀ k, 0 ≤ S.T j ∧ 0 < (S.med j).mu k) {c : ℝ}
    (hc : S.Keeps c) (c0 : 0 ≤ c) (c1 : c < 1) {up dn : Nat → Nat → ℝ → Fin n → ℝ} (ho : S.Orders up dn) :
    ∃ aup adn, S.All aup adn := by
  have hmu : ∀ j, j < S.N → ∀ k, (S.med j).mu k ≠ 0 := fun j hj k => (hT j hj k).2.ne'
  let M : ℝ := ∑ j ∈ Finset.range (S.N + 1), ∑ k, (|S.face (up 0) j k| + |S.face (dn 0) j k|)
  have M0 : 0 ≤ M := Finset.sum_nonneg fun j _ => Finset.sum_nonneg fun k _ => by positivity
  have hM : ∀ j, j ≤ S.N → ∀ k, |S.face (up 0) j k| ≤ M ∧ |S.face (dn 0) j k| ≤ M := fun j hj k => by
    have h1 : |S.face (up 0) j k| + |S.face (dn 0) j k| ≤ ∑ k, (|S.face (up 0) j k| + |S.face (dn 0) j k|) :=
      Finset.single_le_sum (f := fun k => |S.face (up 0) j k| + |S.face (dn 0) j k|) (fun k _ => by positivity)
        (Finset.mem_univ k)
    have h2 : ∑ k, (|S.face (up 0) j k| + |S.face (dn 0) j k|) ≤ M :=
      Finset.single_le_sum (f := fun j => ∑ k, (|S.face (up 0) j k| + |S.face (dn 0) j k|))
        (fun j _ => Finset.sum_nonneg fun k _ => by positivity) (Finset.mem_range.2 (by omega))
    have := abs_nonneg (S.face (up 0) j k)
    have := abs_nonneg (S.face (dn 0) j k)
    constructor <;> linarith
  have bd : ∀ p j, j ≤ S.N → ∀ k, |S.face (up p) j k| ≤ c ^ p * M ∧ |S.face (dn p) j k| ≤ c ^ p * M := by
    intro p
    induction p with
    | zero => simpa using hM
    | succ p ih =>
      obtain ⟨a, b, e⟩ := orders_faces hN hT ho p
      have s : c ^ (p + 1) * M = c * (c ^ p * M) := by ring
      rw [s]
      refine faces_le hT (fun j hj k => (e j hj k).1) (fun j hj k => (e j hj k).2) (fun j hj k => on_le hc ih hj k)
        (fun k => ?_) (fun k => ?_)
      · rw [a]
        exact back_le hc (fun k => (ih S.N le_rfl k).2) k
      · rw [b]
        simp only [Pi.zero_apply, abs_zero]
        positivity
  have geo : Summable fun p : Nat => c ^ p * M := (summable_geometric_of_lt_one c0 c1).mul_right M
  have su : ∀ j, j ≤ S.N → ∀ k, HasSum (fun p => S.face (up p) j k) (∑' p, S.face (up p) j k) ∧
      HasSum (fun p => S.face (dn p) j k) (∑' p, S.face (dn p) j k) := fun j hj k =>
    ⟨(Summable.of_norm_bounded geo fun p => (bd p j hj k).1).hasSum,
      (Summable.of_norm_bounded geo fun p => (bd p j hj k).2).hasSum⟩
  let U : Nat → Fin n → ℝ := fun j k => ∑' p, S.face (up p) j k
  let D : Nat → Fin n → ℝ := fun j k => ∑' p, S.face (dn p) j k
  have sh : ∀ j, j ≤ S.N → ∀ k, HasSum (fun p => S.face (up (p + 1)) j k) (U j k - S.face (up 0) j k) ∧
      HasSum (fun p => S.face (dn (p + 1)) j k) (D j k - S.face (dn 0) j k) := fun j hj k => by
    have a := (hasSum_nat_add_iff' 1).2 (su j hj k).1
    have b := (hasSum_nat_add_iff' 1).2 (su j hj k).2
    simp only [Finset.sum_range_one] at a b
    exact ⟨a, b⟩
  have on := fun j (hj : j < S.N) k => on_hasSum (S := S) (u := fun p => S.face (up p)) (d := fun p => S.face (dn p))
    (U := U) (D := D) (j := j) (fun i hi l => su i (by omega) l) k
  obtain ⟨f1, f2, f3⟩ := lamp_faces hN hmu ho.first
  have bot : U S.N = S.bot + S.Rs.mulVec (D S.N) := by
    funext k
    have e : HasSum (fun p => S.face (up (p + 1)) S.N k) (S.Rs.mulVec (D S.N) k) := by
      have : (fun p => S.face (up (p + 1)) S.N k) = fun p => ∑ l, S.Rs k l * S.face (dn p) S.N l :=
        funext fun p => by rw [(orders_faces hN hT ho p).1]; rfl
      rw [this]
      exact hasSum_sum fun l _ => ((su S.N le_rfl l).2.mul_left _)
    have := (sh S.N le_rfl k).1.unique e
    rw [f1] at this
    rw [Pi.add_apply]
    linarith
  have top : D 0 = S.top := by
    funext k
    have e : HasSum (fun p => S.face (dn (p + 1)) 0 k) 0 := by
      have : (fun p => S.face (dn (p + 1)) 0 k) = fun _ => 0 := funext fun p => by
        rw [(orders_faces hN hT ho p).2.1]; rfl
      rw [this]
      exact hasSum_zero
    have := (sh 0 (Nat.zero_le _) k).2.unique e
    rw [f2] at this
    linarith
  have stp : ∀ j, j < S.N → ∀ k, U j k = dim S j k * U (j + 1) k + (1 - dim S j k) * (S.qp j + onUp S U D j) k ∧
      D (j + 1) k = dim S j k * D j k + (1 - dim S j k) * (S.qm j + onDn S U D j) k := fun j hj k => by
    have o := fun p => (orders_faces hN hT ho p).2.2 j hj k
    have eu : (fun p => S.face (up (p + 1)) j k) = fun p => dim S j k * S.face (up (p + 1)) (j + 1) k +
        (1 - dim S j k) * onUp S (S.face (up p)) (S.face (dn p)) j k := funext fun p => (o p).1
    have ed : (fun p => S.face (dn (p + 1)) (j + 1) k) = fun p => dim S j k * S.face (dn (p + 1)) j k +
        (1 - dim S j k) * onDn S (S.face (up p)) (S.face (dn p)) j k := funext fun p => (o p).2
    have a := (sh j hj.le k).1
    have b := (sh (j + 1) hj k).2
    rw [eu] at a
    rw [ed] at b
    have a' := a.unique ((((sh (j + 1) hj k).1.mul_left _)).add ((on j hj k).1.mul_left _))
    have b' := b.unique ((((sh j hj.le k).2.mul_left _)).add ((on j hj k).2.mul_left _))
    have g := f3 j hj k
    simp only [Pi.add_apply]
    constructor
    · linear_combination a' + g.1
    · linear_combination b' + g.2
  obtain ⟨aup, adn, hl, hf⟩ := lamp_exists hmu hN (fun j hj k => (stp j hj k).1) (fun j hj k => (stp j hj k).2)
  refine ⟨aup, adn, ?_⟩
  rw [top, bot] at hl
  have fu : ∀ j, j ≤ S.N → S.face aup j = U j ∧ S.face adn j = D j := fun j hj => by
    rcases hj.lt_or_eq with h | h
    · simp only [Slabs.face, if_pos h]
      exact ⟨(hf j h).1, (hf j h).2.2.1⟩
    · have e : S.N - 1 + 1 = S.N := by omega
      have := hf (S.N - 1) (by omega)
      rw [e] at this
      simp only [Slabs.face, h, lt_irrefl, if_false]
      exact ⟨this.2.1, this.2.2.2⟩
  have q : ∀ j, j < S.N → ∀ k, S.evenUp aup adn j k = onUp S U D j k ∧ S.evenDn aup adn j k = onDn S U D j k := fun j hj k => by
    rw [evenUp_eq hl hj k, evenDn_eq hl hj k, (fu j hj.le).1, (fu j hj.le).2, (fu (j + 1) hj).1, (fu (j + 1) hj).2]
    exact ⟨rfl, rfl⟩
  refine ⟨fun j hj τ k => ?_, hl.meet, hl.sky, ?_⟩
  · obtain ⟨u, d, h1, h2, h3, h4⟩ := hl.layer j hj τ k
    refine ⟨u, d, h1, h2, ?_, ?_⟩
    · refine h3.trans ?_
      show _ - (S.qp j + onUp S U D j) k = _ - (S.qp j + S.evenUp aup adn j) k
      rw [Pi.add_apply, Pi.add_apply, (q j hj k).1]
      rfl
    · refine h4.trans ?_
      show _ - (S.qm j + onDn S U D j) k = _ - (S.qm j + S.evenDn aup adn j) k
      rw [Pi.add_apply, Pi.add_apply, (q j hj k).2]
      rfl
  · have := hl.ground
    rw [← (fu S.N le_rfl).2, ← back_eq] at this
    exact this

end levels
end Xrtm.Sos
