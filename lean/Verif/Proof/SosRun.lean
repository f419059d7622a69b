import Verif.Proof.Sos

/-! # Successive orders: the cut, the orders and the loop -/

namespace Xrtm.Sos
open Xrtm.Transfer Xrtm.Spec

variable {n : Nat}

/-! ## The cut -/

theorem pieces_pos (m l : ℝ) : 0 < pieces m l := by unfold pieces; dsimp only; omega

theorem cut_length (z : Args n ℝ) (i : Nat) : (cut Real.exp z i).length = pieces z.maxTau (z.ltau i) := by
  simp [cut]

theorem piece_le {m l : ℝ} (hm : 0 < m) (hl : 0 ≤ l) : l / pieces m l ≤ m := by
  rw [div_le_iff₀ (by exact_mod_cast pieces_pos m l)]
  unfold pieces
  dsimp only
  by_cases h : 1 < l / m
  · rw [if_pos h]
    have := Nat.lt_floor_add_one (l / m)
    rw [div_lt_iff₀ hm] at this
    push_cast
    nlinarith
  · rw [if_neg h]
    rw [not_lt, div_le_one hm] at h
    simpa using h

/-- The first `m` layers. -/
noncomputable def upto (z : Args n ℝ) (m : Nat) : List (Piece ℝ) := (List.range m).flatMap (cut Real.exp z)

theorem upto_succ (z : Args n ℝ) (m : Nat) : upto z (m + 1) = upto z m ++ cut Real.exp z m := by
  simp [upto, List.range_succ]

noncomputable def topOf (z : Args n ℝ) (m j : Nat) : ℝ := ((upto z m)[j]?.map Piece.btran).getD (z.btran m)

theorem upto_facts (z : Args n ℝ) (L : Nat)
    (hb : ∀ i, i < L → z.btran (i + 1) = z.btran i * Real.exp (-z.as0 i * z.ltau i)) :
    ∀ m, m ≤ L → ∀ j, (hj : j < (upto z m).length) → (upto z m)[j].index < m ∧
      (upto z m)[j].ltau = z.ltau (upto z m)[j].index / pieces z.maxTau (z.ltau (upto z m)[j].index) ∧
      topOf z m (j + 1) = topOf z m j * Real.exp (-z.as0 (upto z m)[j].index * (upto z m)[j].ltau) := by
  intro m
  induction m with
  | zero => intro _ j hj; simp [upto] at hj
  | succ m ih =>
    intro hm j hj
    have hP : (0 : ℝ) < pieces z.maxTau (z.ltau m) := by exact_mod_cast pieces_pos _ _
    -- the tops of the new pieces
    have new : ∀ i, i ≤ pieces z.maxTau (z.ltau m) → topOf z (m + 1) ((upto z m).length + i) =
        z.btran m * Real.exp (i * -(z.ltau m / pieces z.maxTau (z.ltau m)) * z.as0 m) := by
      intro i hi
      unfold topOf
      rw [upto_succ, List.getElem?_append_right (by omega), Nat.add_sub_cancel_left]
      rcases hi.lt_or_eq with h | h
      · simp [cut, h]
      · have e : (cut Real.exp z m)[i]? = none := by rw [List.getElem?_eq_none_iff, cut_length]; omega
        rw [e]
        simp only [Option.map_none, Option.getD_none]
        rw [hb m (by omega), h]
        congr 2
        field_simp
    have old : ∀ i, i ≤ (upto z m).length → topOf z (m + 1) i = topOf z m i := by
      intro i hi
      rcases hi.lt_or_eq with h | h
      · unfold topOf
        rw [upto_succ, List.getElem?_append_left h]
        simp [h]
      · have : topOf z (m + 1) (upto z m).length = _ := new 0 (Nat.zero_le _)
        rw [h, this]
        unfold topOf
        simp
    by_cases h : j < (upto z m).length
    · have e : (upto z (m + 1))[j] = (upto z m)[j] := by
        simp only [upto_succ]
        rw [List.getElem_append_left h]
      have := ih (by omega) j h
      rw [e, old _ h, old _ h.le]
      exact ⟨by omega, this.2.1, this.2.2⟩
    · obtain ⟨i, rfl⟩ : ∃ i, j = (upto z m).length + i := ⟨j - (upto z m).length, by omega⟩
      have hi : i < pieces z.maxTau (z.ltau m) := by
        rw [upto_succ, List.length_append, cut_length] at hj
        omega
      have e : (upto z (m + 1))[(upto z m).length + i] = ⟨m, z.ltau m / pieces z.maxTau (z.ltau m),
          z.btran m * Real.exp (i * -(z.ltau m / pieces z.maxTau (z.ltau m)) * z.as0 m)⟩ := by
        simp only [upto_succ]
        rw [List.getElem_append_right (by omega)]
        simp [cut]
      rw [e]
      refine ⟨by simp, rfl, ?_⟩
      have e' : (upto z m).length + i + 1 = (upto z m).length + (i + 1) := by omega
      rw [e', new _ (by omega), new _ (by omega), mul_assoc (z.btran m), ← Real.exp_add]
      congr 2
      push_cast
      ring

theorem grid_facts (z : Args n ℝ) (hb : ∀ i, i < z.L → z.btran (i + 1) = z.btran i * Real.exp (-z.as0 i * z.ltau i)) (j : Nat)
    (hj : j < (grid Real.exp z).N) :
    (grid Real.exp z).index j < z.L ∧
      (grid Real.exp z).ltau j = z.ltau ((grid Real.exp z).index j) / pieces z.maxTau (z.ltau ((grid Real.exp z).index j)) ∧
      (grid Real.exp z).btran (j + 1) =
        (grid Real.exp z).btran j * Real.exp (-z.as0 ((grid Real.exp z).index j) * (grid Real.exp z).ltau j) := by
  have hj' : j < (upto z z.L).length := hj
  have := upto_facts z z.L hb z.L le_rfl j hj'
  have hj2 : j < (cuts Real.exp z).length := hj
  simp only [grid, List.getElem?_eq_getElem hj2, Option.map_some, Option.getD_some]
  have t : topOf z z.L j = (cuts Real.exp z)[j].btran := by
    unfold topOf
    rw [List.getElem?_eq_getElem hj']
    rfl
  refine ⟨this.1, this.2.1, ?_⟩
  rw [← t]
  exact this.2.2

theorem upto_length (z : Args n ℝ) (m : Nat) :
    (upto z m).length = ∑ i ∈ Finset.range m, pieces z.maxTau (z.ltau i) := by
  induction m with
  | zero => simp [upto]
  | succ m ih => rw [upto_succ, List.length_append, ih, cut_length, Finset.sum_range_succ]

theorem grid_N (z : Args n ℝ) : (grid Real.exp z).N = ∑ i ∈ Finset.range z.L, pieces z.maxTau (z.ltau i) :=
  upto_length z z.L

theorem grid_pos (z : Args n ℝ) (hL : 0 < z.L) : 0 < (grid Real.exp z).N := by
  rw [grid_N]
  exact Finset.sum_pos (fun i _ => pieces_pos _ _) ⟨0, Finset.mem_range.2 hL⟩

theorem upto_sum (z : Args n ℝ) (i m : Nat) :
    (((upto z m).filter fun p => p.index = i).map Piece.ltau).sum = if i < m then z.ltau i else 0 := by
  induction m with
  | zero => simp [upto]
  | succ m ih =>
    rw [upto_succ, List.filter_append, List.map_append, List.sum_append, ih]
    by_cases h : i = m
    · subst h
      have : ((cut Real.exp z i).filter fun p => p.index = i) = cut Real.exp z i := by
        rw [List.filter_eq_self]
        intro p hp
        simp only [cut, List.mem_map] at hp
        obtain ⟨_, _, rfl⟩ := hp
        simp
      rw [this]
      simp only [cut, List.map_map, lt_irrefl, if_false, zero_add, Nat.lt_succ_self, if_true]
      have e : (Piece.ltau ∘ fun j : ℕ => (⟨i, z.ltau i / pieces z.maxTau (z.ltau i), z.btran i *
          Real.exp (j * -(z.ltau i / pieces z.maxTau (z.ltau i)) * z.as0 i)⟩ : Piece ℝ)) =
          fun _ => z.ltau i / pieces z.maxTau (z.ltau i) := rfl
      rw [e, List.map_const', List.sum_replicate, List.length_range, nsmul_eq_mul]
      have := pieces_pos z.maxTau (z.ltau i)
      field_simp
    · have : ((cut Real.exp z m).filter fun p => p.index = i) = [] := by
        rw [List.filter_eq_nil_iff]
        intro p hp
        simp only [cut, List.mem_map] at hp
        obtain ⟨_, _, rfl⟩ := hp
        simpa using fun h' => h h'.symm
      rw [this]
      simp only [List.map_nil, List.sum_nil, add_zero]
      by_cases h1 : i < m
      · rw [if_pos h1, if_pos (by omega)]
      · rw [if_neg h1, if_neg (by omega)]

theorem count_some (z : Args n ℝ) (m : Nat) : ∀ c, (List.range m).foldl (fun s i => s.bind fun m =>
      let c := m + pieces z.maxTau (z.ltau i)
      if c < 2 ^ 31 then some c else none) (some 0) = some c → c = (upto z m).length := by
  induction m with
  | zero => intro c h; simp at h; simp [upto, ← h]
  | succ m ih =>
    intro c h
    rw [List.range_succ, List.foldl_append] at h
    simp only [List.foldl_cons, List.foldl_nil] at h
    obtain ⟨c', h1, h2⟩ := Option.bind_eq_some_iff.1 h
    have := ih c' h1
    split_ifs at h2 with h3
    rw [upto_succ, List.length_append, cut_length, ← this]
    exact (Option.some.inj h2).symm

/-! ## The orders -/

/-- The orders, one from the other. -/
noncomputable def ord (z : Args n ℝ) (g : Grid ℝ) : Nat → Buf n ℝ
  | 0 => first Real.exp Real.pi z g
  | p + 1 => next Real.exp z g (ord z g p)

/-- The atmosphere of the arguments, in the pieces. -/
noncomputable def slabs (z : Args n ℝ) (g : Grid ℝ) : Slabs n where
  N := g.N
  med j := Medium.of z.first z.qx z.qw (z.omega (g.index j)) (z.Ppp (g.index j)) (z.Pmp (g.index j)) (z.Pmm (g.index j))
    (z.Ppm (g.index j))
  T := g.ltau
  qp j k := g.btran j * (beamSource z.F0 (z.omega (g.index j)) (z.as0 (g.index j)) (z.P0pm (g.index j)) 0 k +
    beamSource z.F0 (z.omega (g.index j)) (z.as0 (g.index j)) (z.P0pm (g.index j)) (g.ltau j) k) / 2
  qm j k := g.btran j * (beamSource z.F0 (z.omega (g.index j)) (z.as0 (g.index j)) (z.P0mm (g.index j)) 0 k +
    beamSource z.F0 (z.omega (g.index j)) (z.as0 (g.index j)) (z.P0mm (g.index j)) (g.ltau j) k) / 2
  top := z.I1m
  bot := z.Inp
  Rs := if z.surface then z.Rs else 0

variable {z : Args n ℝ} {g : Grid ℝ}

theorem tp_mulVec (j : Nat) (v : Fin n → ℝ) (k : Fin n) (P : Matrix (Fin n) (Fin n) ℝ) :
    (Matrix.of fun a b => P a b * share z g j b).mulVec v k =
      ((slabs z g).med j).k / 2 * ∑ l, z.qw l * (P k l * v l) := by
  simp only [Matrix.mulVec, dotProduct, Matrix.of_apply, slabs, Medium.of, share]
  rw [Finset.mul_sum]
  refine Finset.sum_congr rfl fun l _ => ?_
  have := Real.pi_ne_zero
  cases z.first
  · simp only [Bool.false_eq_true, if_false]; field_simp; ring
  · simp only [if_true]; field_simp; ring

theorem addUp_eq (hs : z.vector = false → ∀ i, z.Ppm i = z.Pmp i ∧ z.Pmm i = z.Ppp i) (o : Buf n ℝ) (j : Nat) (k : Fin n) :
    addUp Real.exp z g o j k = (1 - dim (slabs z g) j k) * onUp (slabs z g) o.ip o.im j k ∧
    addDn Real.exp z g o j k = (1 - dim (slabs z g) j k) * onDn (slabs z g) o.ip o.im j k := by
  have e : E Real.exp z g j k = 1 - dim (slabs z g) j k := rfl
  have e1 : rm z g j = Matrix.of fun a b => z.Ppm (g.index j) a b * share z g j b := by
    unfold rm
    cases h : z.vector
    · rw [if_neg (by simp), (hs h _).1]; rfl
    · rw [if_pos rfl]
  have e2 : tm z g j = Matrix.of fun a b => z.Pmm (g.index j) a b * share z g j b := by
    unfold tm
    cases h : z.vector
    · rw [if_neg (by simp), (hs h _).2]; rfl
    · rw [if_pos rfl]
  unfold addUp addDn onUp onDn
  rw [e, e1, e2, tp, rp, tp_mulVec, tp_mulVec, tp_mulVec, tp_mulVec, ← mul_add, ← mul_add, ← Finset.sum_add_distrib,
    ← Finset.sum_add_distrib]
  constructor
  · congr 2
    exact Finset.sum_congr rfl fun l _ => by rw [← mul_add]; rfl
  · congr 2
    exact Finset.sum_congr rfl fun l _ => by rw [← mul_add]; rfl

/-- The first order from level to level. -/
theorem first_eq (hb : ∀ j, j < g.N → g.btran (j + 1) = g.btran j * Real.exp (-z.as0 (g.index j) * g.ltau j)) :
    (ord z g 0).ip g.N = z.Inp ∧ (ord z g 0).im 0 = z.I1m ∧ ∀ j, j < g.N → ∀ k,
      (ord z g 0).ip j k = dim (slabs z g) j k * (ord z g 0).ip (j + 1) k + (1 - dim (slabs z g) j k) * (slabs z g).qp j k ∧
      (ord z g 0).im (j + 1) k = dim (slabs z g) j k * (ord z g 0).im j k + (1 - dim (slabs z g) j k) * (slabs z g).qm j k := by
  obtain ⟨h1, h2, h3⟩ := @sweep_step n (T Real.exp z g)
    (fun j k => beam Real.pi z g j * E Real.exp z g j k * z.P0pm (g.index j) k)
    (fun j k => beam Real.pi z g j * E Real.exp z g j k * z.P0mm (g.index j) k) g.N z.Inp z.I1m
  refine ⟨h1, h2, fun j hj k => ?_⟩
  obtain ⟨a, b⟩ := h3 j hj k
  have e : E Real.exp z g j k = 1 - dim (slabs z g) j k := rfl
  have q : ∀ P : Fin n → ℝ, beam Real.pi z g j * E Real.exp z g j k * P k = (1 - dim (slabs z g) j k) *
      (g.btran j * (beamSource z.F0 (z.omega (g.index j)) (z.as0 (g.index j)) P 0 k +
        beamSource z.F0 (z.omega (g.index j)) (z.as0 (g.index j)) P (g.ltau j) k) / 2) := fun P => by
    rw [e, beam, hb j hj]
    simp only [beamSource, mul_zero, Real.exp_zero]
    ring
  exact ⟨a.trans (congrArg _ (q _)), b.trans (congrArg _ (q _))⟩

/-- The further orders. -/
theorem next_eq (hs : z.vector = false → ∀ i, z.Ppm i = z.Pmp i ∧ z.Pmm i = z.Ppp i) (p : Nat) :
    (ord z g (p + 1)).ip g.N = (slabs z g).Rs.mulVec ((ord z g p).im g.N) ∧ (ord z g (p + 1)).im 0 = z.I1m ∧
    ∀ j, j < g.N → ∀ k,
      (ord z g (p + 1)).ip j k = dim (slabs z g) j k * (ord z g (p + 1)).ip (j + 1) k +
        (1 - dim (slabs z g) j k) * onUp (slabs z g) (ord z g p).ip (ord z g p).im j k ∧
      (ord z g (p + 1)).im (j + 1) k = dim (slabs z g) j k * (ord z g (p + 1)).im j k +
        (1 - dim (slabs z g) j k) * onDn (slabs z g) (ord z g p).ip (ord z g p).im j k := by
  obtain ⟨h1, h2, h3⟩ := @sweep_step n (T Real.exp z g) (addUp Real.exp z g (ord z g p)) (addDn Real.exp z g (ord z g p))
    g.N (if z.surface then z.Rs.mulVec ((ord z g p).im g.N) else 0) z.I1m
  refine ⟨h1.trans ?_, h2, fun j hj k => ?_⟩
  · simp only [slabs]
    cases z.surface <;> simp
  · obtain ⟨a, b⟩ := h3 j hj k
    rw [(addUp_eq hs _ j k).1] at a
    rw [(addUp_eq hs _ j k).2] at b
    exact ⟨a, b⟩

/-! ## The loop -/

/-- 394, 520: the measure after the orders up to `p`. -/
noncomputable def meas (z : Args n ℝ) (g : Grid ℝ) : Nat → Option ℝ
  | 0 => none
  | p + 1 => least (meas z g p) (largest z.ns ((ord z g (p + 1)).ip 0)) (largest z.ns ((ord z g (p + 1)).im g.N))

/-- The state before order `p + 1`. -/
structure Inv (z : Args n ℝ) (g : Grid ℝ) (p : Nat) (s : Run n ℝ) : Prop where
  other : s.buf (!s.i) = ord z g p
  a : s.a = meas z g p
  Ip : s.Ip = ∑ q ∈ Finset.range (p + 1), (ord z g q).ip 0
  Im : s.Im = ∑ q ∈ Finset.range (p + 1), (ord z g q).im g.N

theorem body_inv {p : Nat} {s : Run n ℝ} (h : Inv z g p s) :
    Inv z g (p + 1) { body Real.exp z g s with i := !(body Real.exp z g s).i } where
  other := by
    simp only [body, Bool.not_not, if_true]
    rw [h.other]
    rfl
  a := by
    simp only [body]
    rw [h.other, h.a]
    rfl
  Ip := by
    simp only [body]
    rw [h.other, h.Ip, Finset.sum_range_succ _ (p + 1)]
    rfl
  Im := by
    simp only [body]
    rw [h.other, h.Im, Finset.sum_range_succ _ (p + 1)]
    rfl

theorem loop_done (m : Nat) : ∀ {p : Nat} {s : Run n ℝ}, Inv z g p s → stop z.tol (meas z g p) = false →
    ∃ q, p ≤ q ∧ q ≤ p + m ∧ (loop Real.exp z g m s).Ip = ∑ r ∈ Finset.range (q + 1), (ord z g r).ip 0 ∧
      (loop Real.exp z g m s).Im = ∑ r ∈ Finset.range (q + 1), (ord z g r).im g.N ∧
      (q < p + m → stop z.tol (meas z g q) = true) ∧ ∀ r, p ≤ r → r < q → stop z.tol (meas z g r) = false := by
  induction m with
  | zero =>
    intro p s h _
    exact ⟨p, le_rfl, le_rfl, h.Ip, h.Im, fun h => absurd h (by omega), fun r h1 h2 => absurd h1 (by omega)⟩
  | succ m ih =>
    intro p s h h0
    have hb := body_inv h
    unfold loop
    dsimp only
    by_cases hst : stop z.tol (body Real.exp z g s).a = true
    · rw [if_pos hst]
      refine ⟨p + 1, by omega, by omega, hb.Ip, hb.Im, fun _ => ?_, fun r h1 h2 => ?_⟩
      · rw [← hb.a]; exact hst
      · rw [show r = p by omega]; exact h0
    · rw [if_neg hst]
      have h1 : stop z.tol (meas z g (p + 1)) = false := by rw [← hb.a]; simpa using hst
      obtain ⟨q, a, b, c, d, e, f⟩ := ih hb h1
      refine ⟨q, by omega, by omega, c, d, fun h => e (by omega), fun r h2 h3 => ?_⟩
      rcases h2.eq_or_lt with h4 | h4
      · rw [← h4]; exact h0
      · exact f r h4 h3

theorem start_inv : Inv z g 0 (start Real.exp Real.pi z g) where
  other := by simp [start, ord]
  a := rfl
  Ip := by simp [start, ord]
  Im := by simp [start, ord]

/-! ## The measure -/

theorem fold_lt (v : Fin n → ℝ) (t : ℝ) (l : List (Fin n)) : ∀ b0 : ℝ, ∃ b, l.foldl (larger v) (some b0) = some b ∧
      (b < t ↔ b0 < t ∧ ∀ i ∈ l, v i < t) := by
  induction l with
  | nil => intro b0; exact ⟨b0, rfl, by simp⟩
  | cons a l ih =>
    intro b0
    obtain ⟨b, h1, h2⟩ := ih (if b0 < v a then v a else b0)
    refine ⟨b, h1, h2.trans ?_⟩
    simp only [List.mem_cons, forall_eq_or_imp]
    rw [← and_assoc]
    refine and_congr_left fun _ => ?_
    split_ifs with h
    · exact ⟨fun h' => ⟨h.trans h', h'⟩, fun h' => h'.2⟩
    · exact ⟨fun h' => ⟨h', (not_lt.1 h).trans_lt h'⟩, fun h' => h'.1⟩

theorem largest_lt (ns : Nat) (hn : 0 < n) (v : Fin n → ℝ) (t : ℝ) :
    ∃ b, largest ns v = some b ∧ (b < t ↔ ∀ i : Fin n, i.val % ns = 0 → v i < t) := by
  unfold largest
  have mem : ∀ i : Fin n, i ∈ (List.finRange n).filter (fun i => i.val % ns = 0) ↔ i.val % ns = 0 := fun i => by
    simp
  cases h : (List.finRange n).filter (fun i => i.val % ns = 0) with
  | nil =>
    have := (mem ⟨0, hn⟩).2 (by simp)
    rw [h] at this
    simp at this
  | cons a l =>
    obtain ⟨b, h1, h2⟩ := fold_lt v t l (v a)
    refine ⟨b, h1, h2.trans ?_⟩
    rw [h] at mem
    constructor
    · rintro ⟨ha, hl⟩ i hi
      rcases List.mem_cons.1 ((mem i).2 hi) with e | e
      · exact e ▸ ha
      · exact hl i e
    · intro hh
      exact ⟨hh a ((mem a).1 (List.mem_cons_self)), fun i hi => hh i ((mem i).1 (List.mem_cons_of_mem _ hi))⟩

/-- The light of the order is weaker than `t` where it leaves. -/
def Weak (z : Args n ℝ) (g : Grid ℝ) (t : ℝ) (o : Buf n ℝ) : Prop :=
  ∀ i : Fin n, i.val % z.ns = 0 → o.ip 0 i < t ∧ o.im g.N i < t

theorem stop_iff (hn : 0 < n) (p : Nat) :
    stop z.tol (meas z g p) = true ↔ ∃ q, 1 ≤ q ∧ q ≤ p ∧ Weak z g z.tol (ord z g q) := by
  induction p with
  | zero => simp only [meas, stop]; constructor; · simp
            · rintro ⟨q, h1, h2, _⟩; omega
  | succ p ih =>
    obtain ⟨b, hb, hb'⟩ := largest_lt z.ns hn ((ord z g (p + 1)).ip 0) z.tol
    obtain ⟨c, hc, hc'⟩ := largest_lt z.ns hn ((ord z g (p + 1)).im g.N) z.tol
    have weak : max b c < z.tol ↔ Weak z g z.tol (ord z g (p + 1)) := by
      rw [max_lt_iff, hb', hc']
      exact ⟨fun h i hi => ⟨h.1 i hi, h.2 i hi⟩, fun h => ⟨fun i hi => (h i hi).1, fun i hi => (h i hi).2⟩⟩
    have key : stop z.tol (meas z g (p + 1)) = true ↔ stop z.tol (meas z g p) = true ∨ max b c < z.tol := by
      rw [meas, hb, hc]
      unfold least
      cases meas z g p with
      | none => simp [stop]
      | some a => simp [stop, min_lt_iff]
    rw [key, ih, weak]
    constructor
    · rintro (⟨q, h1, h2, h3⟩ | h)
      · exact ⟨q, h1, by omega, h3⟩
      · exact ⟨p + 1, by omega, le_rfl, h⟩
    · rintro ⟨q, h1, h2, h3⟩
      rcases Nat.lt_or_ge q (p + 1) with h | h
      · exact Or.inl ⟨q, h1, by omega, h3⟩
      · rw [show q = p + 1 by omega] at h3
        exact Or.inr h3

end Xrtm.Sos
