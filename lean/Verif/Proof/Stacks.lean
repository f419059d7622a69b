import Verif.Spec.Stacks
import Mathlib.Data.Fintype.Card
import Mathlib.Data.List.Range
import Mathlib.Tactic.Linarith

/-!
# The chain of stacks: building it
-/

namespace Xrtm.Stacks

open Spec

/-! ## The next layer of a column -/

theorem nextFrom_iff (g : Grid) (j : Nat) : ∀ (d a r : Nat), nextFrom g j (List.range' a d) = some r ↔
    a ≤ r ∧ r < a + d ∧ (g r j).varies = false ∧ (g r j).active = true ∧
      ∀ x, a ≤ x → x < r → (g x j).varies = false ∧ (g x j).active = false := by
  intro d
  induction d with
  | zero => intro a r; simp [nextFrom]; omega
  | succ d ih =>
    intro a r
    rw [List.range'_succ]
    unfold nextFrom
    by_cases hv : (g a j).varies = true
    · rw [if_pos hv]
      constructor
      · intro h; cases h
      · rintro ⟨h1, h2, h3, h4, h5⟩
        by_cases hr : r = a
        · subst hr; rw [hv] at h3; cases h3
        · have := (h5 a (Nat.le_refl _) (by omega)).1; rw [hv] at this; cases this
    · rw [if_neg hv]
      have hv' : (g a j).varies = false := by simpa using hv
      by_cases ha : (g a j).active = true
      · rw [if_pos ha]
        constructor
        · intro h; cases h
          exact ⟨Nat.le_refl _, by omega, hv', ha, fun x h1 h2 => by omega⟩
        · rintro ⟨h1, h2, h3, h4, h5⟩
          by_cases hr : r = a
          · rw [hr]
          · have := (h5 a (Nat.le_refl _) (by omega)).2; rw [ha] at this; cases this
      · rw [if_neg ha, ih]
        have ha' : (g a j).active = false := by simpa using ha
        constructor
        · rintro ⟨h1, h2, h3, h4, h5⟩
          refine ⟨by omega, by omega, h3, h4, fun x hx1 hx2 => ?_⟩
          by_cases hxa : x = a
          · rw [hxa]; exact ⟨hv', ha'⟩
          · exact h5 x (by omega) hx2
        · rintro ⟨h1, h2, h3, h4, h5⟩
          have hra : r ≠ a := by rintro rfl; rw [ha'] at h4; cases h4
          exact ⟨by omega, by omega, h3, h4, fun x hx1 hx2 => h5 x (by omega) hx2⟩

theorem nextLayer_iff (n : Nat) (g : Grid) (i j r : Nat) : nextLayer n g i j = some r ↔
    i < r ∧ r < n ∧ (g r j).varies = false ∧ (g r j).active = true ∧
      ∀ x, i < x → x < r → (g x j).varies = false ∧ (g x j).active = false := by
  unfold nextLayer
  rw [nextFrom_iff]
  constructor
  · rintro ⟨h1, h2, h3, h4, h5⟩
    exact ⟨by omega, by omega, h3, h4, fun x a b => h5 x (by omega) b⟩
  · rintro ⟨h1, h2, h3, h4, h5⟩
    exact ⟨by omega, by omega, h3, h4, fun x a b => h5 x (by omega) b⟩

/-! ## The pair that most neighbouring columns share -/

/-- Column `j` has in row `i` the stack `pr.1` and next the stack `pr.2`. -/
def HasPair (n : Nat) (g : Grid) (i j : Nat) (pr : Nat × Nat) : Prop :=
  (g i j).varies = false ∧ (g i j).active = true ∧ ∃ r, nextLayer n g i j = some r ∧ pr = ((g i j).s, (g r j).s)

structure PInv (n m : Nat) (g : Grid) (i : Nat) (p : Pairs) : Prop where
  cur : 0 < p.count → ∃ j, j < m ∧ HasPair n g i j p.cur
  max : 0 < p.maxC → ∃ j, j < m ∧ HasPair n g i j p.max

theorem PInv.close {n m : Nat} {g : Grid} {i : Nat} {p : Pairs} (h : PInv n m g i p) : PInv n m g i p.close := by
  unfold Pairs.close
  split_ifs with hc
  · exact ⟨fun h0 => absurd h0 (Nat.lt_irrefl 0), fun _ => h.cur (by omega)⟩
  · exact ⟨fun h0 => absurd h0 (Nat.lt_irrefl 0), h.max⟩

theorem PInv.meet {n m : Nat} {g : Grid} {i : Nat} {p : Pairs} (h : PInv n m g i p) {pr : Nat × Nat}
    (hp : ∃ j, j < m ∧ HasPair n g i j pr) : PInv n m g i (p.meet pr) := by
  unfold Pairs.meet
  by_cases hc : pr = (if p.count = 0 then pr else p.cur)
  · rw [if_pos hc]; exact ⟨fun _ => hp, h.max⟩
  · rw [if_neg hc]; exact h.close

theorem PInv.step {n m : Nat} {g : Grid} {i : Nat} {p : Pairs} (h : PInv n m g i p) {j : Nat} (hj : j < m) :
    PInv n m g i (pairStep n g i p j) := by
  unfold pairStep
  by_cases hv : (g i j).varies = true
  · rw [if_pos hv]; exact h.close
  · rw [if_neg hv]
    by_cases ha : (g i j).active = true
    · rw [if_pos ha]
      cases hn : nextLayer n g i j with
      | none => exact h.close
      | some r => exact h.meet ⟨j, hj, by simpa using hv, ha, r, hn, rfl⟩
    · rw [if_neg ha]; exact h

/-- Some column has been counted. -/
def Pairs.seen (p : Pairs) : Prop := 0 < p.count ∨ 0 < p.maxC

theorem Pairs.seen_close {p : Pairs} (h : p.seen) : 0 < p.close.maxC := by
  unfold Pairs.close
  unfold Pairs.seen at h
  split_ifs with hc
  · show 0 < p.count; omega
  · show 0 < p.maxC; omega

theorem Pairs.seen_meet (p : Pairs) (pr : Nat × Nat) : (p.meet pr).seen := by
  unfold Pairs.meet
  by_cases hc : pr = (if p.count = 0 then pr else p.cur)
  · rw [if_pos hc]; left; show 0 < p.count + 1; omega
  · rw [if_neg hc]
    right
    refine Pairs.seen_close (Or.inl ?_)
    by_contra h0
    exact hc (by rw [if_pos (by omega)])

theorem Pairs.seen_step {n : Nat} {g : Grid} {i : Nat} {p : Pairs} (h : p.seen) (j : Nat) :
    (pairStep n g i p j).seen := by
  unfold pairStep
  by_cases hv : (g i j).varies = true
  · rw [if_pos hv]; exact Or.inr (Pairs.seen_close h)
  · rw [if_neg hv]
    by_cases ha : (g i j).active = true
    · rw [if_pos ha]
      cases hn : nextLayer n g i j with
      | none => exact Or.inr (Pairs.seen_close h)
      | some r => exact Pairs.seen_meet _ _
    · rw [if_neg ha]; exact h

theorem foldl_inv {α β : Type} {P : α → Prop} {f : α → β → α} : ∀ (l : List β) (a : α), P a →
    (∀ a b, b ∈ l → P a → P (f a b)) → P (l.foldl f a) := by
  intro l
  induction l with
  | nil => intro a h _; exact h
  | cons b l ih =>
    intro a h hf
    exact ih _ (hf a b (by simp) h) fun a' b' hb' h' => hf a' b' (by simp [hb']) h'

theorem maxPairs_pos {n m : Nat} {g : Grid} {i : Nat} (h : 0 < (maxPairs n m g i).1) :
    ∃ j, j < m ∧ HasPair n g i j (maxPairs n m g i).2 := by
  have hi : PInv n m g i ((List.range m).foldl (pairStep n g i) ⟨0, (0, 0), 0, (0, 0)⟩) :=
    foldl_inv (P := PInv n m g i) _ _ ⟨fun h => absurd h (Nat.lt_irrefl 0), fun h => absurd h (Nat.lt_irrefl 0)⟩
      fun a b hb ha => ha.step (List.mem_range.mp hb)
  exact hi.close.max h

theorem seen_fold {n : Nat} {g : Grid} {i j : Nat} {pr : Nat × Nat} (h : HasPair n g i j pr) :
    ∀ (l : List Nat) (p : Pairs), j ∈ l → (l.foldl (pairStep n g i) p).seen := by
  intro l
  induction l with
  | nil => intro p hm; cases hm
  | cons b l ih =>
    intro p hm
    rcases List.mem_cons.mp hm with rfl | hm
    · rw [List.foldl_cons]
      refine foldl_inv (P := Pairs.seen) l _ ?_ fun a b _ ha => Pairs.seen_step ha b
      obtain ⟨h1, h2, r, h3, _⟩ := h
      unfold pairStep
      rw [h1, h2, h3]
      exact Pairs.seen_meet _ _
    · exact ih _ hm

theorem maxPairs_zero {n m : Nat} {g : Grid} {i : Nat} (h : (maxPairs n m g i).1 = 0) {j : Nat} (hj : j < m)
    {pr : Nat × Nat} : ¬ HasPair n g i j pr := by
  intro hp
  have := Pairs.seen_close (seen_fold hp (List.range m) ⟨0, (0, 0), 0, (0, 0)⟩ (List.mem_range.mpr hj))
  unfold maxPairs at h
  dsimp only at h
  omega

theorem bestRow_inv (n m : Nat) (g : Grid) (l : List Nat) (b : Nat × Nat × Nat × Nat)
    (hb : 0 < b.1 → b.2.1 < n - 1 ∧ ∃ j, j < m ∧ HasPair n g b.2.1 j b.2.2) (hl : ∀ i ∈ l, i < n - 1) :
    let e := l.foldl (fun best i => if (maxPairs n m g i).1 > best.1 then
      ((maxPairs n m g i).1, i, (maxPairs n m g i).2) else best) b
    (0 < e.1 → e.2.1 < n - 1 ∧ ∃ j, j < m ∧ HasPair n g e.2.1 j e.2.2) ∧
      b.1 ≤ e.1 ∧ ∀ i ∈ l, (maxPairs n m g i).1 ≤ e.1 := by
  induction l generalizing b with
  | nil => exact ⟨hb, Nat.le_refl _, fun i hi => by cases hi⟩
  | cons i l ih =>
    dsimp only
    rw [List.foldl_cons]
    by_cases hc : (maxPairs n m g i).1 > b.1
    · rw [if_pos hc]
      obtain ⟨h1, h2, h3⟩ := ih ((maxPairs n m g i).1, i, (maxPairs n m g i).2)
        (fun h => ⟨hl i (by simp), maxPairs_pos h⟩) fun i' hi' => hl i' (by simp [hi'])
      refine ⟨h1, ?_, fun i' hi' => ?_⟩
      · dsimp only at h2; omega
      · rcases List.mem_cons.mp hi' with rfl | hi'
        · exact h2
        · exact h3 i' hi'
    · rw [if_neg hc]
      obtain ⟨h1, h2, h3⟩ := ih b hb fun i' hi' => hl i' (by simp [hi'])
      refine ⟨h1, h2, fun i' hi' => ?_⟩
      rcases List.mem_cons.mp hi' with rfl | hi'
      · omega
      · exact h3 i' hi'

theorem bestRow_pos {n m : Nat} {g : Grid} (h : (bestRow n m g).1 ≠ 0) :
    (bestRow n m g).2.1 < n - 1 ∧ ∃ j, j < m ∧ HasPair n g (bestRow n m g).2.1 j (bestRow n m g).2.2 :=
  (bestRow_inv n m g (List.range (n - 1)) (0, 0, 0, 0) (fun h => absurd h (Nat.lt_irrefl 0))
    fun i hi => List.mem_range.mp hi).1 (by unfold bestRow at h; omega)

theorem bestRow_zero {n m : Nat} {g : Grid} (h : (bestRow n m g).1 = 0) {i j : Nat} (hi : i < n - 1) (hj : j < m)
    {pr : Nat × Nat} : ¬ HasPair n g i j pr := by
  have := (bestRow_inv n m g (List.range (n - 1)) (0, 0, 0, 0) (fun h => absurd h (Nat.lt_irrefl 0))
    fun i hi => List.mem_range.mp hi).2.2 i (List.mem_range.mpr hi)
  unfold bestRow at h
  exact maxPairs_zero (by omega) hj

/-! ## The grid -/

/-- No stack of column `j` reaches across the top of row `r`. -/
def Cut (n : Nat) (g : Grid) (j r : Nat) : Prop := r = n ∨ (g r j).varies = true ∨ (g r j).active = true

/-- Column `j` has the layers `a .. b` in stacks of their own. -/
def Fits (n : Nat) (g : Grid) (j a b : Nat) : Prop :=
  (∀ i, a ≤ i → i ≤ b → (g i j).varies = false) ∧ (g a j).active = true ∧ Cut n g j (b + 1)

structure GInv (n m : Nat) (lay : Nat → Nat → Bool) (c : Chain) (g : Grid) : Prop where
  varies : ∀ i j, (g i j).varies = lay i j
  off : ∀ i j, (g i j).varies = true → (g i j).active = false
  act : ∀ i j, i < n → j < m → (g i j).active = true → ∃ s, c[(g i j).s]? = some s ∧ s.i1 = i ∧
    ∀ r, i < r → r ≤ s.i2 → (g r j).varies = false ∧ (g r j).active = false
  cov : ∀ i j, i < n → j < m → (g i j).varies = false → ∃ r, r ≤ i ∧ (g r j).active = true ∧
    ∃ s, c[(g r j).s]? = some s ∧ i ≤ s.i2
  same : ∀ j j' a b, j < m → j' < m → a ≤ b → b < n → Fits n g j a b → Fits n g j' a b →
    ∀ i, a ≤ i → i ≤ b → (g i j).active = (g i j').active ∧ ((g i j).active = true → (g i j).s = (g i j').s)
  known : ∀ k s, c[k]? = some s → ∀ j, j < m → Fits n g j s.i1 s.i2 → (g s.i1 j).s = k

theorem cut_after {n m : Nat} {lay : Nat → Nat → Bool} {c : Chain} {g : Grid} (hs : Sound n c) (h : GInv n m lay c g)
    {i j : Nat} (hi : i < n) (hj : j < m) (ha : (g i j).active = true) {s : Stack} (hc : c[(g i j).s]? = some s) :
    Cut n g j (s.i2 + 1) := by
  have he := hs.ends _ _ hc
  by_cases hn : s.i2 + 1 = n
  · exact Or.inl hn
  right
  by_cases hv : (g (s.i2 + 1) j).varies = true
  · exact Or.inl hv
  right
  obtain ⟨s0, h1, h2, h3⟩ := h.act i j hi hj ha
  rw [hc] at h1; cases h1
  obtain ⟨r, hr, hra, s', hs', hle⟩ := h.cov (s.i2 + 1) j (by omega) hj (by simpa using hv)
  by_cases hr1 : r = s.i2 + 1
  · rw [← hr1]; exact hra
  exfalso
  rcases Nat.lt_trichotomy r i with hlt | heq | hgt
  · obtain ⟨s1, g1, g2, g3⟩ := h.act r j (by omega) hj hra
    rw [hs'] at g1; cases g1
    have := (g3 i hlt (by omega)).2
    rw [ha] at this; cases this
  · subst heq; rw [hc] at hs'; cases hs'; omega
  · have := (h3 r hgt (by omega)).2
    rw [hra] at this; cases this

/-- The stack of a row reaches to just above the next one. -/
theorem reaches {n m : Nat} {lay : Nat → Nat → Bool} {c : Chain} {g : Grid} (hs : Sound n c) (h : GInv n m lay c g)
    {i j r : Nat} (hj : j < m) (ha : (g i j).active = true) (hr : nextLayer n g i j = some r) {s : Stack}
    (hc : c[(g i j).s]? = some s) : s.i2 + 1 = r := by
  obtain ⟨r1, r2, r3, r4, r5⟩ := (nextLayer_iff n g i j r).mp hr
  obtain ⟨s0, h1, h2, h3⟩ := h.act i j (by omega) hj ha
  rw [hc] at h1; cases h1
  have hsi := hs.ends _ _ hc
  rcases cut_after hs h (by omega) hj ha hc with hn | hv | hac
  · have := (h3 r r1 (by omega)).2
    rw [r4] at this; cases this
  · rcases Nat.lt_trichotomy (s.i2 + 1) r with hl | he | hg
    · have := (r5 (s.i2 + 1) (by omega) hl).1; rw [hv] at this; cases this
    · exact he
    · have := (h3 r r1 (by omega)).2; rw [r4] at this; cases this
  · rcases Nat.lt_trichotomy (s.i2 + 1) r with hl | he | hg
    · have := (r5 (s.i2 + 1) (by omega) hl).2; rw [hac] at this; cases this
    · exact he
    · have := (h3 r r1 (by omega)).2; rw [r4] at this; cases this

theorem pairAt_iff (n : Nat) (g : Grid) (i s1 s2 j r : Nat) : pairAt n g i s1 s2 j = some r ↔
    (g i j).active = true ∧ (g i j).varies = false ∧ (g i j).s = s1 ∧ nextLayer n g i j = some r ∧ (g r j).s = s2 := by
  unfold pairAt
  by_cases ha : (g i j).active = true
  · rw [if_pos ha]
    cases hn : nextLayer n g i j with
    | none => simp
    | some r' =>
      obtain ⟨_, _, h3, _, _⟩ := (nextLayer_iff n g i j r').mp hn
      simp only [h3]
      by_cases hv : (g i j).varies = true
      · simp [hv]
      · have hv' : (g i j).varies = false := by simpa using hv
        simp only [hv', Bool.not_false, Bool.true_and]
        constructor
        · intro h
          split_ifs at h with hc
          cases h
          simp only [Bool.and_eq_true, beq_iff_eq] at hc
          exact ⟨ha, trivial, hc.1, rfl, hc.2⟩
        · rintro ⟨_, _, h1, h2, h4⟩
          cases h2
          simp [h1, h4]
  · rw [if_neg ha]; simp [ha]

/-- One round of the loop: what the step does, in terms of the two rows. -/
structure Step (n m : Nat) (c : Chain) (g g' : Grid) (i q s1 s2 k : Nat) (sp sq : Stack) : Prop where
  iq : i < q
  qn : q < n
  hp : c[s1]? = some sp
  hq : c[s2]? = some sq
  pi : sp.i1 = i
  pq : sp.i2 + 1 = q
  qi : sq.i1 = q
  /-- A column with the pair ... -/
  yes : ∀ j, j < m → pairAt n g i s1 s2 j = some q →
    g' i j = { g i j with s := k } ∧ g' q j = { g q j with active := false } ∧ ∀ r, r ≠ i → r ≠ q → g' r j = g r j
  /-- ... and one without. -/
  no : ∀ j, j < m → pairAt n g i s1 s2 j ≠ some q → ∀ r, g' r j = g r j

theorem step_of {n m : Nat} {lay : Nat → Nat → Bool} {c : Chain} {g : Grid} (hs : Sound n c) (h : GInv n m lay c g)
    {i j0 : Nat} {pr : Nat × Nat} (hj0 : j0 < m) (hp : HasPair n g i j0 pr) (k : Nat) :
    ∃ q sp sq, Step n m c g (combineGrid n m g i pr.1 pr.2 k) i q pr.1 pr.2 k sp sq ∧
      pairAt n g i pr.1 pr.2 j0 = some q := by
  obtain ⟨hv, ha, q, hn, hpr⟩ := hp
  obtain ⟨n1, n2, n3, n4, n5⟩ := (nextLayer_iff n g i j0 q).mp hn
  obtain ⟨sp, p1, p2, p3⟩ := h.act i j0 (by omega) hj0 ha
  obtain ⟨sq, q1, q2, q3⟩ := h.act q j0 (by omega) hj0 n4
  have hpr1 : pr.1 = (g i j0).s := by rw [hpr]
  have hpr2 : pr.2 = (g q j0).s := by rw [hpr]
  have huniq : ∀ j, j < m → ∀ r, pairAt n g i pr.1 pr.2 j = some r → r = q := by
    intro j hj r hr
    obtain ⟨_, _, _, e4, e5⟩ := (pairAt_iff n g i pr.1 pr.2 j r).mp hr
    obtain ⟨m1, m2, m3, m4, m5⟩ := (nextLayer_iff n g i j r).mp e4
    obtain ⟨sr, t1, t2, t3⟩ := h.act r j m2 hj m4
    rw [e5, hpr2, q1] at t1
    cases t1
    omega
  refine ⟨q, sp, sq, ⟨n1, n2, by rw [hpr1]; exact p1, by rw [hpr2]; exact q1, p2, reaches hs h hj0 ha hn p1, q2, ?_, ?_⟩,
    (pairAt_iff n g i pr.1 pr.2 j0 q).mpr ⟨ha, hv, hpr1.symm, hn, hpr2.symm⟩⟩
  · intro j hj hy
    refine ⟨?_, ?_, fun r hr1 hr2 => ?_⟩
    · unfold combineGrid; rw [if_pos hj, hy]; dsimp only; rw [if_pos rfl]
    · unfold combineGrid; rw [if_pos hj, hy]; dsimp only; rw [if_neg (by omega), if_pos rfl]
    · unfold combineGrid; rw [if_pos hj, hy]; dsimp only; rw [if_neg hr1, if_neg hr2]
  · intro j hj hn' r
    unfold combineGrid
    rw [if_pos hj]
    cases hx : pairAt n g i pr.1 pr.2 j with
    | none => rfl
    | some r' => exact absurd (by rw [hx, huniq j hj r' hx]) hn'

theorem Step.varies {n m : Nat} {c : Chain} {g g' : Grid} {i q s1 s2 k : Nat} {sp sq : Stack}
    (st : Step n m c g g' i q s1 s2 k sp sq) {j : Nat} (hj : j < m) (r : Nat) : (g' r j).varies = (g r j).varies := by
  by_cases hy : pairAt n g i s1 s2 j = some q
  · obtain ⟨h1, h2, h3⟩ := st.yes j hj hy
    by_cases hi : r = i
    · rw [hi, h1]
    · by_cases hq : r = q
      · rw [hq, h2]
      · rw [h3 r hi hq]
  · rw [st.no j hj hy r]

theorem Step.active {n m : Nat} {c : Chain} {g g' : Grid} {i q s1 s2 k : Nat} {sp sq : Stack}
    (st : Step n m c g g' i q s1 s2 k sp sq) {j : Nat} (hj : j < m) (r : Nat) (ha : (g' r j).active = true) :
    (g r j).active = true := by
  by_cases hy : pairAt n g i s1 s2 j = some q
  · obtain ⟨h1, h2, h3⟩ := st.yes j hj hy
    by_cases hi : r = i
    · rw [hi, h1] at ha; rw [hi]; exact ha
    · by_cases hq : r = q
      · rw [hq, h2] at ha; cases ha
      · rw [h3 r hi hq] at ha; exact ha
  · rw [st.no j hj hy r] at ha; exact ha

theorem Step.fits {n m : Nat} {c : Chain} {g g' : Grid} {i q s1 s2 k : Nat} {sp sq : Stack}
    (st : Step n m c g g' i q s1 s2 k sp sq) {j a b : Nat} (hj : j < m) (h : Fits n g' j a b) : Fits n g j a b := by
  obtain ⟨h1, h2, h3⟩ := h
  refine ⟨fun r ha hb => by rw [← st.varies hj r]; exact h1 r ha hb, st.active hj a h2, ?_⟩
  rcases h3 with h3 | h3 | h3
  · exact Or.inl h3
  · right; left; rw [← st.varies hj]; exact h3
  · exact Or.inr (Or.inr (st.active hj _ h3))

/-- A column that is changed, changes within whatever it still fits. -/
theorem Step.within {n m : Nat} {c : Chain} {g g' : Grid} {i q s1 s2 k : Nat} {sp sq : Stack}
    (st : Step n m c g g' i q s1 s2 k sp sq) {j a b x : Nat} (hj : j < m) (h : Fits n g' j a b) (hax : a ≤ x)
    (hxb : x ≤ b) (hx : x = i ∨ x = q) (hy : pairAt n g i s1 s2 j = some q) : a ≤ i ∧ q ≤ b := by
  obtain ⟨e1, e2, e3, e4, e5⟩ := (pairAt_iff n g i s1 s2 j q).mp hy
  obtain ⟨m1, m2, m3, m4, m5⟩ := (nextLayer_iff n g i j q).mp e4
  obtain ⟨y1, y2, y3⟩ := st.yes j hj hy
  obtain ⟨h1, h2, h3⟩ := h
  have hia : a ≤ i := by
    by_contra hc
    have ha := st.active hj a h2
    by_cases haq : a = q
    · rw [haq, y2] at h2; cases h2
    · have := (m5 a (by omega) (by rcases hx with hx | hx <;> omega)).2
      rw [ha] at this; cases this
  refine ⟨hia, ?_⟩
  by_contra hc
  have hib : i ≤ b := by rcases hx with hx | hx <;> omega
  rcases h3 with h3 | h3 | h3
  · omega
  · rw [st.varies hj] at h3
    by_cases hbq : b + 1 = q
    · rw [hbq, m3] at h3; cases h3
    · have := (m5 (b + 1) (by omega) (by omega)).1
      rw [h3] at this; cases this
  · by_cases hbq : b + 1 = q
    · rw [hbq, y2] at h3; cases h3
    · have := (m5 (b + 1) (by omega) (by omega)).2
      rw [st.active hj _ h3] at this; cases this

/-- Two columns that fit the same layers are changed together. -/
theorem Step.together {n m : Nat} {lay : Nat → Nat → Bool} {c : Chain} {g g' : Grid} {i q s1 s2 k : Nat}
    {sp sq : Stack} (h : GInv n m lay c g) (st : Step n m c g g' i q s1 s2 k sp sq) {j j' a b : Nat} (hj : j < m)
    (hj' : j' < m) (hb : b < n) (hf : Fits n g j a b) (hf' : Fits n g j' a b) (hai : a ≤ i) (hqb : q ≤ b)
    (hy : pairAt n g i s1 s2 j = some q) : pairAt n g i s1 s2 j' = some q := by
  have hiq := st.iq
  obtain ⟨e1, e2, e3, e4, e5⟩ := (pairAt_iff n g i s1 s2 j q).mp hy
  obtain ⟨m1, m2, m3, m4, m5⟩ := (nextLayer_iff n g i j q).mp e4
  have hsame := h.same j j' a b hj hj' (by omega) hb hf hf'
  refine (pairAt_iff n g i s1 s2 j' q).mpr ⟨?_, hf'.1 i hai (by omega), ?_, ?_, ?_⟩
  · rw [← (hsame i hai (by omega)).1]; exact e1
  · rw [← (hsame i hai (by omega)).2 e1]; exact e3
  · refine (nextLayer_iff n g i j' q).mpr ⟨m1, m2, hf'.1 q (by omega) hqb, ?_, fun x h1 h2 => ?_⟩
    · rw [← (hsame q (by omega) hqb).1]; exact m4
    · refine ⟨hf'.1 x (by omega) (by omega), ?_⟩
      rw [← (hsame x (by omega) (by omega)).1]; exact (m5 x h1 h2).2
  · rw [← (hsame q (by omega) hqb).2 m4]; exact e5

theorem get_append_old {c : Chain} {x : Stack} {k : Nat} {s : Stack} (h : c[k]? = some s) : (c ++ [x])[k]? = some s := by
  rw [List.getElem?_append_left (by
    by_contra hc
    rw [List.getElem?_eq_none (by omega)] at h; cases h)]
  exact h

theorem get_append_cases {c : Chain} {x : Stack} {k : Nat} {s : Stack} (h : (c ++ [x])[k]? = some s) :
    c[k]? = some s ∨ (k = c.length ∧ s = x) := by
  by_cases hk : k < c.length
  · rw [List.getElem?_append_left hk] at h; exact Or.inl h
  · rw [List.getElem?_append_right (by omega)] at h
    right
    by_cases h0 : k = c.length
    · subst h0; simp at h; exact ⟨rfl, h.symm⟩
    · rw [List.getElem?_eq_none (by simp; omega)] at h; cases h

theorem lt_of_get {c : Chain} {k : Nat} {s : Stack} (h : c[k]? = some s) : k < c.length := by
  by_contra hc
  rw [List.getElem?_eq_none (by omega)] at h; cases h

theorem fits_new {n m : Nat} {lay : Nat → Nat → Bool} {c : Chain} {g g' : Grid} {i q s1 s2 k : Nat}
    {sp sq : Stack} (hs : Sound n c) (h : GInv n m lay c g) (st : Step n m c g g' i q s1 s2 k sp sq) {j : Nat} (hj : j < m)
    (hy : pairAt n g i s1 s2 j = some q) : Fits n g j i sq.i2 := by
  obtain ⟨e1, e2, e3, e4, e5⟩ := (pairAt_iff n g i s1 s2 j q).mp hy
  obtain ⟨m1, m2, m3, m4, m5⟩ := (nextLayer_iff n g i j q).mp e4
  have hq : c[(g q j).s]? = some sq := by rw [e5]; exact st.hq
  obtain ⟨s0, t1, t2, t3⟩ := h.act q j m2 hj m4
  rw [hq] at t1; cases t1
  refine ⟨fun r h1 h2 => ?_, e1, cut_after hs h m2 hj m4 hq⟩
  rcases Nat.lt_trichotomy r q with hl | he | hg
  · by_cases hri : r = i
    · rw [hri]; exact e2
    · exact (m5 r (by omega) hl).1
  · rw [he]; exact m3
  · exact (t3 r hg h2).1

theorem sound_step {n m : Nat} {lay : Nat → Nat → Bool} {c : Chain} {g g' : Grid} {i q s1 s2 k : Nat}
    {sp sq : Stack} (hs : Sound n c) (h : GInv n m lay c g) (st : Step n m c g g' i q s1 s2 k sp sq) {j : Nat} (hj : j < m)
    (hy : pairAt n g i s1 s2 j = some q) (hn : n ≤ c.length) : Sound n (c ++ [⟨i, sq.i2, some (s1, s2)⟩]) := by
  have hiq := st.iq
  have hqe := hs.ends _ _ st.hq
  have hqi := st.qi
  have hpq := st.pq
  have hnew : ∀ (k' : Nat) (s' : Stack), c[k']? = some s' → s'.i1 = i → s'.i2 = sq.i2 → False := by
    intro k' s' hk' h1 h2
    have hf := fits_new hs h st hj hy
    rw [← h1, ← h2] at hf
    have := h.known k' s' hk' j hj hf
    obtain ⟨e1, e2, e3, e4, e5⟩ := (pairAt_iff n g i s1 s2 j q).mp hy
    rw [h1, e3] at this
    rw [← this, st.hp] at hk'
    cases hk'
    omega
  refine ⟨fun k' hk' => get_append_old (hs.single k' hk'), fun k' s hk' => ?_, fun k' s hk' hk'' => ?_, ?_⟩
  · rcases get_append_cases hk' with hk' | ⟨_, rfl⟩
    · exact hs.ends k' s hk'
    · dsimp only; omega
  · rcases get_append_cases hk'' with hk'' | ⟨hl, rfl⟩
    · obtain ⟨p, p', tp, tq, a1, a2, a3, a4, a5, a6⟩ := hs.joined k' s hk' hk''
      exact ⟨p, p', tp, tq, a1, a2, a3, get_append_old a4, get_append_old a5, a6⟩
    · exact ⟨s1, s2, sp, sq, rfl, by rw [hl]; exact lt_of_get st.hp, by rw [hl]; exact lt_of_get st.hq,
        get_append_old st.hp, get_append_old st.hq, st.pi, by omega, rfl⟩
  · intro k1 k2 t1 t2 g1 g2 e1 e2
    rcases get_append_cases g1 with g1 | ⟨l1, rfl⟩
    · rcases get_append_cases g2 with g2 | ⟨l2, rfl⟩
      · exact hs.distinct k1 k2 t1 t2 g1 g2 e1 e2
      · exact (hnew k1 t1 g1 e1 e2).elim
    · rcases get_append_cases g2 with g2 | ⟨l2, rfl⟩
      · exact (hnew k2 t2 g2 e1.symm e2.symm).elim
      · omega

theorem grid_step {n m : Nat} {lay : Nat → Nat → Bool} {c : Chain} {g g' : Grid} {i q s1 s2 : Nat}
    {sp sq : Stack} (hs : Sound n c) (h : GInv n m lay c g) (st : Step n m c g g' i q s1 s2 c.length sp sq) {j0 : Nat}
    (hj0 : j0 < m) (hy0 : pairAt n g i s1 s2 j0 = some q) (hout : ∀ r j, ¬ j < m → g' r j = g r j) :
    GInv n m lay (c ++ [⟨i, sq.i2, some (s1, s2)⟩]) g' := by
  have hiq := st.iq
  have hqe := hs.ends _ _ st.hq
  have hqi := st.qi
  have hpq := st.pq
  have hvar : ∀ r j, (g' r j).varies = (g r j).varies := by
    intro r j
    by_cases hj : j < m
    · exact st.varies hj r
    · rw [hout r j hj]
  have hnew : (c ++ [(⟨i, sq.i2, some (s1, s2)⟩ : Stack)])[c.length]? = some ⟨i, sq.i2, some (s1, s2)⟩ := by simp
  have hact0 : ∀ r j, (g' r j).active = true → (g r j).active = true := by
    intro r j ha
    by_cases hj : j < m
    · exact st.active hj r ha
    · rw [hout r j hj] at ha; exact ha
  have hinact : ∀ r j, (g r j).active = false → (g' r j).active = false := by
    intro r j ha
    cases hx : (g' r j).active with
    | false => rfl
    | true => rw [hact0 r j hx] at ha; cases ha
  refine ⟨fun r j => by rw [hvar]; exact h.varies r j, fun r j hv => hinact r j (h.off r j (by rw [← hvar]; exact hv)),
    ?_, ?_, ?_, ?_⟩
  · -- act
    intro x j hx hj ha
    by_cases hy : pairAt n g i s1 s2 j = some q
    · obtain ⟨y1, y2, y3⟩ := st.yes j hj hy
      by_cases hxi : x = i
      · subst hxi
        refine ⟨_, by rw [y1]; exact hnew, rfl, fun r h1 h2 => ?_⟩
        dsimp only at h2
        have hf := fits_new hs h st hj hy
        refine ⟨by rw [hvar]; exact hf.1 r (by omega) h2, ?_⟩
        obtain ⟨e1, e2, e3, e4, e5⟩ := (pairAt_iff n g x s1 s2 j q).mp hy
        obtain ⟨m1, m2, m3, m4, m5⟩ := (nextLayer_iff n g x j q).mp e4
        rcases Nat.lt_trichotomy r q with hl | he | hg
        · exact hinact r j (m5 r h1 hl).2
        · rw [he, y2]
        · obtain ⟨s0, t1, t2, t3⟩ := h.act q j m2 hj m4
          rw [e5, st.hq] at t1; cases t1
          exact hinact r j (t3 r hg h2).2
      · have hxq : x ≠ q := by rintro rfl; rw [y2] at ha; cases ha
        have hc := y3 x hxi hxq
        rw [hc] at ha
        obtain ⟨s, t1, t2, t3⟩ := h.act x j hx hj ha
        exact ⟨s, by rw [hc]; exact get_append_old t1, t2, fun r h1 h2 =>
          ⟨by rw [hvar]; exact (t3 r h1 h2).1, hinact r j (t3 r h1 h2).2⟩⟩
    · have hc := st.no j hj hy
      rw [hc x] at ha
      obtain ⟨s, t1, t2, t3⟩ := h.act x j hx hj ha
      exact ⟨s, by rw [hc x]; exact get_append_old t1, t2, fun r h1 h2 =>
          ⟨by rw [hvar]; exact (t3 r h1 h2).1, hinact r j (t3 r h1 h2).2⟩⟩
  · -- cov
    intro x j hx hj hv
    rw [hvar] at hv
    obtain ⟨r, r1, r2, s, r3, r4⟩ := h.cov x j hx hj hv
    by_cases hy : pairAt n g i s1 s2 j = some q
    · obtain ⟨y1, y2, y3⟩ := st.yes j hj hy
      obtain ⟨e1, e2, e3, e4, e5⟩ := (pairAt_iff n g i s1 s2 j q).mp hy
      by_cases hri : r = i
      · refine ⟨i, by omega, by rw [y1]; exact e1, _, by rw [y1]; exact hnew, ?_⟩
        rw [hri, e3, st.hp] at r3; cases r3
        dsimp only; omega
      · by_cases hrq : r = q
        · refine ⟨i, by omega, by rw [y1]; exact e1, _, by rw [y1]; exact hnew, ?_⟩
          rw [hrq, e5, st.hq] at r3; cases r3
          exact r4
        · have hc := y3 r hri hrq
          exact ⟨r, r1, by rw [hc]; exact r2, s, by rw [hc]; exact get_append_old r3, r4⟩
    · have hc := st.no j hj hy
      exact ⟨r, r1, by rw [hc]; exact r2, s, by rw [hc]; exact get_append_old r3, r4⟩
  · -- same
    intro j j' a b hj hj' hab hb hf hf' x hax hxb
    have hg := st.fits hj hf
    have hg' := st.fits hj' hf'
    have hsame := h.same j j' a b hj hj' hab hb hg hg' x hax hxb
    by_cases hx : x = i ∨ x = q
    · by_cases hy : pairAt n g i s1 s2 j = some q
      · obtain ⟨w1, w2⟩ := st.within hj hf hax hxb hx hy
        have hy' := st.together h hj hj' hb hg hg' w1 w2 hy
        obtain ⟨y1, y2, y3⟩ := st.yes j hj hy
        obtain ⟨z1, z2, z3⟩ := st.yes j' hj' hy'
        rcases hx with rfl | rfl
        · rw [y1, z1]; exact ⟨hsame.1, fun _ => rfl⟩
        · rw [y2, z2]; exact ⟨rfl, fun hh => by cases hh⟩
      · have hy' : pairAt n g i s1 s2 j' ≠ some q := by
          intro hy'
          obtain ⟨w1, w2⟩ := st.within hj' hf' hax hxb hx hy'
          exact hy (st.together h hj' hj hb hg' hg w1 w2 hy')
        rw [st.no j hj hy, st.no j' hj' hy']; exact hsame
    · have e : ∀ j, j < m → g' x j = g x j := by
        intro j hj
        by_cases hy : pairAt n g i s1 s2 j = some q
        · exact (st.yes j hj hy).2.2 x (fun hh => hx (Or.inl hh)) fun hh => hx (Or.inr hh)
        · exact st.no j hj hy x
      rw [e j hj, e j' hj']; exact hsame
  · -- known
    intro k s hk j hj hf
    have hg := st.fits hj hf
    rcases get_append_cases hk with hk | ⟨hl, rfl⟩
    · have hkn := h.known k s hk j hj hg
      by_cases hy : pairAt n g i s1 s2 j = some q
      · obtain ⟨y1, y2, y3⟩ := st.yes j hj hy
        obtain ⟨e1, e2, e3, e4, e5⟩ := (pairAt_iff n g i s1 s2 j q).mp hy
        have hse := hs.ends k s hk
        by_cases hsi : s.i1 = i
        · obtain ⟨_, w2⟩ := st.within hj hf (Nat.le_refl _) hse.1 (Or.inl hsi) hy
          rw [hsi, e3] at hkn
          rw [← hkn, st.hp] at hk
          cases hk
          omega
        · by_cases hsq : s.i1 = q
          · have := hf.2.1
            rw [hsq, y2] at this; cases this
          · rw [y3 s.i1 hsi hsq]; exact hkn
      · rw [st.no j hj hy]; exact hkn
    · dsimp only at hf hg ⊢
      have hf0 := fits_new hs h st hj0 hy0
      have hy := st.together h hj0 hj hqe.2 hf0 hg (Nat.le_refl _) (by omega) hy0
      rw [(st.yes j hj hy).1, hl]

/-! ## The loop -/

theorem sound_length {n : Nat} {c : Chain} (hs : Sound n c) : c.length ≤ n * n := by
  have hget : ∀ k : Fin c.length, c[k.1]? = some c[k.1] := fun k => List.getElem?_eq_getElem k.2
  have hlt : ∀ k : Fin c.length, c[k.1].i1 * n + c[k.1].i2 < n * n := by
    intro k
    have := hs.ends _ _ (hget k)
    have h1 : c[k.1].i1 + 1 ≤ n := by omega
    calc c[k.1].i1 * n + c[k.1].i2 < c[k.1].i1 * n + n := by omega
      _ = (c[k.1].i1 + 1) * n := (Nat.succ_mul _ _).symm
      _ ≤ n * n := Nat.mul_le_mul_right n h1
  have hinj : Function.Injective (fun k : Fin c.length => (⟨c[k.1].i1 * n + c[k.1].i2, hlt k⟩ : Fin (n * n))) := by
    intro k k' hk
    have he := Fin.mk.inj_iff.mp hk
    have e1 := hs.ends _ _ (hget k)
    have e2 := hs.ends _ _ (hget k')
    have hn : 0 < n := by omega
    have d1 : (c[k.1].i1 * n + c[k.1].i2) / n = c[k.1].i1 := by
      rw [Nat.mul_comm, Nat.mul_add_div hn, Nat.div_eq_of_lt e1.2]; rfl
    have d2 : (c[k'.1].i1 * n + c[k'.1].i2) / n = c[k'.1].i1 := by
      rw [Nat.mul_comm, Nat.mul_add_div hn, Nat.div_eq_of_lt e2.2]; rfl
    have hi : c[k.1].i1 = c[k'.1].i1 := by rw [← d1, ← d2, he]
    have hj : c[k.1].i2 = c[k'.1].i2 := by rw [hi] at he; omega
    exact Fin.ext (hs.distinct _ _ _ _ (hget k) (hget k') hi hj)
  have := Fintype.card_le_of_injective _ hinj
  simpa using this

theorem joinOf_eq {c : Chain} {s1 s2 : Nat} {sp sq : Stack} (hp : c[s1]? = some sp) (hq : c[s2]? = some sq) :
    joinOf c s1 s2 = ⟨sp.i1, sq.i2, some (s1, s2)⟩ := by
  unfold joinOf
  rw [List.getD_eq_getElem?_getD, List.getD_eq_getElem?_getD, hp, hq]
  rfl

/-- Nothing is left to combine. -/
def Done (n m : Nat) (g : Grid) : Prop := ∀ i j pr, i < n - 1 → j < m → ¬ HasPair n g i j pr

theorem buildLoop_ok {n m : Nat} {lay : Nat → Nat → Bool} : ∀ (fuel : Nat) (c : Chain) (g : Grid), Sound n c →
    GInv n m lay c g → n ≤ c.length → n * n ≤ c.length + fuel → ∃ c' g', buildLoop n m (n * n) fuel c g = .ok (c', g') ∧
      Sound n c' ∧ GInv n m lay c' g' ∧ n ≤ c'.length ∧ Done n m g' := by
  intro fuel
  induction fuel with
  | zero =>
    intro c g hs hg hn hf
    unfold buildLoop
    by_cases hb : (bestRow n m g).1 = 0
    · rw [if_pos hb]
      exact ⟨c, g, rfl, hs, hg, hn, fun i j pr hi hj => bestRow_zero hb hi hj⟩
    · exfalso
      obtain ⟨b1, j, hj, hp⟩ := bestRow_pos hb
      obtain ⟨q, sp, sq, st, hy⟩ := step_of hs hg hj hp c.length
      have := sound_length (sound_step hs hg st hj hy hn)
      simp at this
      omega
  | succ fuel ih =>
    intro c g hs hg hn hf
    unfold buildLoop
    by_cases hb : (bestRow n m g).1 = 0
    · rw [if_pos hb]
      exact ⟨c, g, rfl, hs, hg, hn, fun i j pr hi hj => bestRow_zero hb hi hj⟩
    · rw [if_neg hb]
      obtain ⟨b1, j, hj, hp⟩ := bestRow_pos hb
      obtain ⟨q, sp, sq, st, hy⟩ := step_of hs hg hj hp c.length
      have hs' := sound_step hs hg st hj hy hn
      have hl := sound_length hs'
      simp only [List.length_append, List.length_cons, List.length_nil] at hl
      dsimp only
      rw [if_pos (by omega)]
      have hjo := joinOf_eq st.hp st.hq
      rw [st.pi] at hjo
      rw [hjo]
      refine ih _ _ hs' ?_ (by simp; omega) (by simp; omega)
      refine grid_step hs hg st hj hy fun r j hj' => ?_
      unfold combineGrid
      rw [if_neg hj']

theorem singles_get {n k : Nat} {s : Stack} : (singles n)[k]? = some s ↔ k < n ∧ s = ⟨k, k, none⟩ := by
  unfold singles
  rw [List.getElem?_map]
  by_cases hk : k < n
  · rw [List.getElem?_range hk]
    simp [hk, eq_comm]
  · rw [List.getElem?_eq_none (by simp; omega)]
    simp [hk]

theorem sound_singles (n : Nat) : Sound n (singles n) := by
  refine ⟨fun k hk => singles_get.mpr ⟨hk, rfl⟩, fun k s hk => ?_, fun k s hk hk' => ?_, fun k k' s s' h h' e _ => ?_⟩
  · obtain ⟨h1, rfl⟩ := singles_get.mp hk
    exact ⟨Nat.le_refl _, h1⟩
  · have := (singles_get.mp hk').1
    omega
  · obtain ⟨_, rfl⟩ := singles_get.mp h
    obtain ⟨_, rfl⟩ := singles_get.mp h'
    exact e

theorem grid_start (n m : Nat) (lay : Nat → Nat → Bool) : GInv n m lay (singles n) (startGrid lay) := by
  refine ⟨fun i j => rfl, fun i j h => ?_, fun i j hi hj ha => ?_, fun i j hi hj hv => ?_, ?_, ?_⟩
  · simp only [startGrid] at h ⊢; rw [h]; rfl
  · exact ⟨⟨i, i, none⟩, singles_get.mpr ⟨hi, rfl⟩, rfl, fun r h1 h2 => by dsimp only at h2; omega⟩
  · refine ⟨i, Nat.le_refl _, ?_, ⟨i, i, none⟩, singles_get.mpr ⟨hi, rfl⟩, Nat.le_refl _⟩
    simp only [startGrid] at hv ⊢; rw [hv]; rfl
  · intro j j' a b hj hj' hab hb hf hf' i hi hi'
    have h1 := hf.1 i hi hi'
    have h2 := hf'.1 i hi hi'
    simp only [startGrid] at h1 h2 ⊢
    rw [h1, h2]
    exact ⟨rfl, fun _ => trivial⟩
  · intro k s hk j hj hf
    obtain ⟨_, rfl⟩ := singles_get.mp hk
    rfl

/-- Each run of layers that do not vary is one stack. -/
theorem run_stack {n m : Nat} {lay : Nat → Nat → Bool} {c : Chain} {g : Grid} (hs : Sound n c) (h : GInv n m lay c g)
    (hd : Done n m g) {j a b : Nat} (hj : j < m) (hr : Run n (fun i => lay i j) a b) :
    ∃ (k : Nat) (s : Stack), c[k]? = some s ∧ s.i1 = a ∧ s.i2 = b := by
  obtain ⟨r1, r2, r3, r4, r5⟩ := hr
  have hva : (g a j).varies = false := by rw [h.varies]; exact r3 a (Nat.le_refl _) r1
  obtain ⟨r, c1, c2, s0, c3, c4⟩ := h.cov a j (by omega) hj hva
  obtain ⟨s, t1, t2, t3⟩ := h.act r j (by omega) hj c2
  rw [c3] at t1; cases t1
  have hra : r = a := by
    by_contra hne
    rcases r4 with r4 | r4
    · omega
    · by_cases hr1 : r = a - 1
      · have := h.off r j (by rw [h.varies, hr1]; exact r4)
        rw [c2] at this; cases this
      · have := (t3 (a - 1) (by omega) (by omega)).1
        rw [h.varies] at this
        dsimp only at r4
        rw [this] at r4; cases r4
  subst hra
  refine ⟨_, s0, c3, t2, ?_⟩
  have hse := hs.ends _ _ c3
  have hle : s0.i2 ≤ b := by
    by_contra hc
    rcases r5 with r5 | r5
    · omega
    · have := (t3 (b + 1) (by omega) (by omega)).1
      rw [h.varies] at this
      dsimp only at r5
      rw [this] at r5; cases r5
  by_contra hne
  have hcut := cut_after hs h (by omega) hj c2 c3
  have hv1 : (g (s0.i2 + 1) j).varies = false := by rw [h.varies]; exact r3 _ (by omega) (by omega)
  rcases hcut with hcut | hcut | hcut
  · omega
  · rw [hv1] at hcut; cases hcut
  · refine hd r j ((g r j).s, (g (s0.i2 + 1) j).s) (by omega) hj ⟨hva, c2, s0.i2 + 1, ?_, rfl⟩
    exact (nextLayer_iff n g r j _).mpr ⟨by omega, by omega, hv1, hcut, fun x h1 h2 => t3 x h1 (by omega)⟩

theorem buildChain_ok (n m : Nat) (lay : Nat → Nat → Bool) (fuel : Nat) (hf : n * n ≤ n + fuel) :
    ∃ c, buildChain n m fuel lay = .ok c ∧ Sound n c ∧ n ≤ c.length ∧
      ∀ j, j < m → ∀ a b, Run n (fun i => lay i j) a b → ∃ (k : Nat) (s : Stack), c[k]? = some s ∧ s.i1 = a ∧ s.i2 = b := by
  have hlen : (singles n).length = n := by simp [singles]
  obtain ⟨c, g, h1, h2, h3, h4, h5⟩ := buildLoop_ok fuel (singles n) (startGrid lay) (sound_singles n)
    (grid_start n m lay) (by omega) (by omega)
  refine ⟨c, ?_, h2, h4, fun j hj a b hr => run_stack h2 h3 h5 hj hr⟩
  unfold buildChain
  rw [h1]

/-! ## Looking stacks up -/

theorem getD_of {c : Chain} {k : Nat} {s : Stack} (h : c[k]? = some s) : c.getD k ⟨0, 0, none⟩ = s := by
  rw [List.getD_eq_getElem?_getD, h]; rfl

theorem stackGrid_fold (c : Chain) (a b : Nat) : ∀ (d : Nat), d ≤ c.length →
    (∀ k, (List.range d).foldl (fun r k => if (c.getD k ⟨0, 0, none⟩).i1 = a ∧ (c.getD k ⟨0, 0, none⟩).i2 = b then
      some k else r) none = some k → k < d ∧ ∃ s, c[k]? = some s ∧ s.i1 = a ∧ s.i2 = b) ∧
    ((List.range d).foldl (fun r k => if (c.getD k ⟨0, 0, none⟩).i1 = a ∧ (c.getD k ⟨0, 0, none⟩).i2 = b then
      some k else r) none = none → ∀ k s, k < d → c[k]? = some s → ¬ (s.i1 = a ∧ s.i2 = b)) := by
  intro d
  induction d with
  | zero => intro _; exact ⟨fun k h => (by cases h), fun _ k s hk => (by omega)⟩
  | succ d ih =>
    intro hd
    obtain ⟨i1, i2⟩ := ih (by omega)
    have hget : c[d]? = some c[d] := List.getElem?_eq_getElem (by omega)
    rw [List.range_succ, List.foldl_append]
    simp only [List.foldl_cons, List.foldl_nil]
    rw [getD_of hget]
    by_cases hc : c[d].i1 = a ∧ c[d].i2 = b
    · rw [if_pos hc]
      exact ⟨fun k h => (by cases h; exact ⟨by omega, _, hget, hc⟩), fun h => (by cases h)⟩
    · rw [if_neg hc]
      refine ⟨fun k h => ?_, fun h k s hk hks => ?_⟩
      · obtain ⟨j1, j2⟩ := i1 k h
        exact ⟨by omega, j2⟩
      · by_cases hkd : k = d
        · subst hkd; rw [hget] at hks; cases hks; exact hc
        · exact i2 h k s (by omega) hks

theorem stackGrid_iff {n : Nat} {c : Chain} (hs : Sound n c) (a b k : Nat) :
    stackGrid c a b = some k ↔ ∃ s, c[k]? = some s ∧ s.i1 = a ∧ s.i2 = b := by
  obtain ⟨h1, h2⟩ := stackGrid_fold c a b c.length (Nat.le_refl _)
  constructor
  · intro h
    exact (h1 k h).2
  · rintro ⟨s, e1, e2, e3⟩
    cases hx : stackGrid c a b with
    | none => exact absurd ⟨e2, e3⟩ (h2 hx k s (lt_of_get e1) e1)
    | some k' =>
      obtain ⟨s', f1, f2, f3⟩ := (h1 k' hx).2
      rw [hs.distinct k k' s s' e1 f1 (by omega) (by omega)]

theorem find_iff {n : Nat} {c : Chain} (hs : Sound n c) (a b k : Nat) :
    find c a b = some k ↔ ∃ s, c[k]? = some s ∧ s.i1 = a ∧ s.i2 = b := by
  unfold find
  constructor
  · intro h
    obtain ⟨hlt, hp, _⟩ := List.findIdx?_eq_some_iff_getElem.mp h
    simp only [Bool.and_eq_true, beq_iff_eq] at hp
    exact ⟨_, List.getElem?_eq_getElem hlt, hp⟩
  · rintro ⟨s, e1, e2, e3⟩
    have hlt := lt_of_get e1
    refine List.findIdx?_eq_some_iff_getElem.mpr ⟨hlt, ?_, fun k' hk' hc => ?_⟩
    · rw [List.getElem?_eq_getElem hlt] at e1
      cases e1
      simp [e2, e3]
    · simp only [Bool.and_eq_true, beq_iff_eq] at hc
      have := hs.distinct k k' s _ e1 (List.getElem?_eq_getElem (by omega)) (by omega) (by omega)
      omega

theorem duplicates_zero {n : Nat} {c : Chain} (hs : Sound n c) : duplicates c = 0 := by
  unfold duplicates
  rw [List.length_eq_zero_iff, List.filter_eq_nil_iff]
  intro k hk hc
  have hk := List.mem_range.mp hk
  have hget : c[k]? = some c[k] := List.getElem?_eq_getElem hk
  rw [getD_of hget, List.any_eq_true] at hc
  obtain ⟨s, h1, h2⟩ := hc
  obtain ⟨k', hk', h3⟩ := List.mem_iff_getElem.mp h1
  simp only [Bool.and_eq_true, beq_iff_eq] at h2
  rw [List.length_take] at hk'
  have hk2 : k' < c.length := by omega
  have : c[k']? = some s := by
    rw [List.getElem?_eq_getElem hk2, ← h3, List.getElem_take]
  have := hs.distinct k' k s _ this hget h2.1 h2.2
  omega

end Xrtm.Stacks
