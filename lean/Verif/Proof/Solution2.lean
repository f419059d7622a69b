import Verif.Model.Solution2
import Verif.Spec.Solution2
import Mathlib.Tactic.Ring
import Mathlib.Tactic.Linarith

/-! # The loop index and the loop of `xrtm_solution_2` -/

namespace Xrtm.Solution2

variable {F : Type}

/-- The place is an element of the arrays. -/
structure InRange (d : Dims) (p : Place) : Prop where
  lev : p.lev < d.nLev
  mu : p.mu < d.nMu
  phi : p.phi < d.nPhi
  st : p.st < d.nSt

/-- Row-major position. -/
def pos (d : Dims) (p : Place) : Nat := ((p.lev * d.nMu + p.mu) * d.nPhi + p.phi) * d.nSt + p.st

theorem pos_lt {d : Dims} {p : Place} (h : InRange d p) : pos d p < d.block := by
  obtain ⟨h1, h2, h3, h4⟩ := h
  unfold pos Dims.block
  have a : p.lev * d.nMu + p.mu + 1 ≤ d.nLev * d.nMu := by
    calc p.lev * d.nMu + p.mu + 1 ≤ (p.lev + 1) * d.nMu := by rw [Nat.add_mul]; omega
      _ ≤ _ := Nat.mul_le_mul_right _ h1
  have b : (p.lev * d.nMu + p.mu) * d.nPhi + p.phi + 1 ≤ d.nLev * d.nMu * d.nPhi := by
    calc (p.lev * d.nMu + p.mu) * d.nPhi + p.phi + 1 ≤ (p.lev * d.nMu + p.mu + 1) * d.nPhi := by
          rw [Nat.add_mul _ 1]; omega
      _ ≤ _ := Nat.mul_le_mul_right _ a
  calc ((p.lev * d.nMu + p.mu) * d.nPhi + p.phi) * d.nSt + p.st
      < ((p.lev * d.nMu + p.mu) * d.nPhi + p.phi + 1) * d.nSt := by rw [Nat.add_mul _ 1]; omega
    _ ≤ _ := Nat.mul_le_mul_right _ b

private theorem divmod {a b n : Nat} (h : b < n) : (a * n + b) / n = a ∧ (a * n + b) % n = b := by
  have hn : 0 < n := by omega
  constructor
  · rw [Nat.mul_comm, Nat.mul_add_div hn, Nat.div_eq_of_lt h, Nat.add_zero]
  · rw [Nat.mul_comm, Nat.mul_add_mod, Nat.mod_eq_of_lt h]

theorem decodeAt_pos {d : Dims} {p : Place} (h : InRange d p) : decodeAt d p.dir (pos d p) = p := by
  obtain ⟨h1, h2, h3, h4⟩ := h
  have r3 : p.phi * d.nSt + p.st < d.nPhi * d.nSt := by
    calc p.phi * d.nSt + p.st < (p.phi + 1) * d.nSt := by rw [Nat.add_mul]; omega
      _ ≤ _ := Nat.mul_le_mul_right _ h3
  have r2 : p.mu * (d.nPhi * d.nSt) + (p.phi * d.nSt + p.st) < d.nMu * d.nPhi * d.nSt := by
    calc p.mu * (d.nPhi * d.nSt) + (p.phi * d.nSt + p.st) < (p.mu + 1) * (d.nPhi * d.nSt) := by
          rw [Nat.add_mul]; omega
      _ ≤ d.nMu * (d.nPhi * d.nSt) := Nat.mul_le_mul_right _ h2
      _ = _ := by ring
  have e : pos d p = p.lev * (d.nMu * d.nPhi * d.nSt) + (p.mu * (d.nPhi * d.nSt) + (p.phi * d.nSt + p.st)) := by
    unfold pos; ring
  obtain ⟨a1, a2⟩ := divmod (a := p.lev) r2
  obtain ⟨b1, b2⟩ := divmod (a := p.mu) r3
  obtain ⟨c1, c2⟩ := divmod (a := p.phi) h4
  cases p
  simp only [decodeAt, e, a1, a2, b1, b2, c1, c2]

theorem decodeAt_range {d : Dims} {a ii : Nat} (h : ii < d.block) :
    InRange d (decodeAt d a ii) ∧ pos d (decodeAt d a ii) = ii := by
  have e0 : d.block = d.nLev * (d.nMu * d.nPhi * d.nSt) := by unfold Dims.block; ring
  have hA : 0 < d.nMu * d.nPhi * d.nSt := by
    rcases Nat.eq_zero_or_pos (d.nMu * d.nPhi * d.nSt) with h0 | h0
    · rw [e0, h0] at h; omega
    · exact h0
  have hB : 0 < d.nPhi * d.nSt := by
    rcases Nat.eq_zero_or_pos (d.nPhi * d.nSt) with h0 | h0
    · rw [Nat.mul_assoc, h0] at hA; omega
    · exact h0
  have hC : 0 < d.nSt := Nat.pos_of_mul_pos_left hB
  have m1 := Nat.mod_lt ii hA
  have m2 := Nat.mod_lt (ii % (d.nMu * d.nPhi * d.nSt)) hB
  refine ⟨⟨?_, ?_, ?_, Nat.mod_lt _ hC⟩, ?_⟩
  · exact Nat.div_lt_of_lt_mul (by rw [e0] at h; rwa [Nat.mul_comm] at h)
  · exact Nat.div_lt_of_lt_mul (by rw [Nat.mul_assoc, Nat.mul_comm] at m1; rw [Nat.mul_assoc, Nat.mul_comm d.nMu]; exact m1)
  · exact Nat.div_lt_of_lt_mul (by rw [Nat.mul_comm] at m2 ⊢; simpa [Nat.mul_comm] using m2)
  · have d1 := Nat.div_add_mod ii (d.nMu * d.nPhi * d.nSt)
    have d2 := Nat.div_add_mod (ii % (d.nMu * d.nPhi * d.nSt)) (d.nPhi * d.nSt)
    have d3 := Nat.div_add_mod (ii % (d.nMu * d.nPhi * d.nSt) % (d.nPhi * d.nSt)) d.nSt
    simp only [pos, decodeAt]
    set x := ii / (d.nMu * d.nPhi * d.nSt)
    set r := ii % (d.nMu * d.nPhi * d.nSt)
    set y := r / (d.nPhi * d.nSt)
    set t := r % (d.nPhi * d.nSt)
    set z := t / d.nSt
    set u := t % d.nSt
    rw [← d1, ← d2, ← d3]
    ring

/-- Where the loop comes to a place. -/
def at' (d : Dims) (input : List Nat) (p : Place) : Nat :=
  if input[0]? = some p.dir then pos d p else d.block + pos d p

/-- `input[]` as `dirsOf` gives it. -/
theorem dirsOf_cases {o : Word} {input : List Nat} (h : dirsOf o = some input) :
    input = [0, 1] ∨ input = [0] ∨ input = [1] := by
  unfold dirsOf at h
  split at h
  · exact .inl (by injection h with h; exact h.symm)
  · split at h
    · exact .inr (.inl (by injection h with h; exact h.symm))
    · split at h
      · exact .inr (.inr (by injection h with h; exact h.symm))
      · cases h

theorem decode_some {d : Dims} {input : List Nat} (hi : input = [0, 1] ∨ input = [0] ∨ input = [1]) {i : Nat}
    (h : i < input.length * d.block) :
    ∃ p, decode d input i = some p ∧ p.dir ∈ input ∧ InRange d p ∧ at' d input p = i := by
  have first : ∀ a, input[0]? = some a → i < d.block →
      ∃ p, decode d input i = some p ∧ p.dir ∈ input ∧ InRange d p ∧ at' d input p = i := by
    intro a ha hb
    refine ⟨decodeAt d a i, by simp [decode, hb, ha], ?_, (decodeAt_range hb).1, ?_⟩
    · exact List.mem_of_getElem? ha
    · unfold at'
      rw [if_pos (show input[0]? = some (decodeAt d a i).dir from ha)]
      exact (decodeAt_range hb).2
  rcases hi with rfl | rfl | rfl
  · by_cases hb : i < d.block
    · exact first 0 rfl hb
    · have h2 : i - d.block < d.block := by
        have : i < 2 * d.block := h
        omega
      refine ⟨decodeAt d 1 (i - d.block), by simp [decode, hb], by simp [decodeAt], (decodeAt_range h2).1, ?_⟩
      unfold at'
      rw [if_neg (by simp [decodeAt]), (decodeAt_range h2).2]
      omega
  · exact first 0 rfl (by simpa using h)
  · exact first 1 rfl (by simpa using h)

theorem at_decode {d : Dims} {input : List Nat} (hi : input = [0, 1] ∨ input = [0] ∨ input = [1]) {p : Place}
    (hd : p.dir ∈ input) (hr : InRange d p) :
    at' d input p < input.length * d.block ∧ decode d input (at' d input p) = some p := by
  have hp := pos_lt hr
  have first : ∀ a, input[0]? = some a → p.dir = a → decode d input (pos d p) = some p := by
    intro a ha e
    simp only [decode, hp, if_true, ha, Option.map_some]
    rw [← e, decodeAt_pos hr]
  rcases hi with rfl | rfl | rfl
  · rcases List.mem_cons.1 hd with e | e
    · have : at' d [0, 1] p = pos d p := if_pos (by rw [e]; rfl)
      rw [this]
      exact ⟨by show pos d p < 2 * d.block; omega, first 0 rfl e⟩
    · have e : p.dir = 1 := by simpa using e
      have : at' d [0, 1] p = d.block + pos d p := if_neg (by rw [e]; simp)
      rw [this]
      refine ⟨by show _ < 2 * d.block; omega, ?_⟩
      have hn : ¬ (d.block + pos d p < d.block) := by omega
      simp only [decode, hn, if_false]
      show some (decodeAt d 1 (d.block + pos d p - d.block)) = some p
      rw [Nat.add_sub_cancel_left, ← e, decodeAt_pos hr]
  · have e : p.dir = 0 := by simpa using hd
    have : at' d [0] p = pos d p := if_pos (by rw [e]; rfl)
    rw [this]
    exact ⟨by show pos d p < 1 * d.block; omega, first 0 rfl e⟩
  · have e : p.dir = 1 := by simpa using hd
    have : at' d [1] p = pos d p := if_pos (by rw [e]; rfl)
    rw [this]
    exact ⟨by show pos d p < 1 * d.block; omega, first 1 rfl e⟩

variable [Arith F] {X : Type}

/-- The loop reads nothing that was not set. -/
theorem loop_some (E : Env F X) (s : State F) (nD : Nat) {d : Dims} {input : List Nat}
    (hi : input = [0, 1] ∨ input = [0] ∨ input = [1]) :
    ∀ n, n ≤ input.length * d.block → ∀ w, ∃ w', loop E s nD d input n w = some w' := by
  intro n
  induction n with
  | zero => exact fun _ w => ⟨w, rfl⟩
  | succ n ih =>
      intro hn w
      obtain ⟨w', h⟩ := ih (by omega) w
      obtain ⟨p, hp, -⟩ := decode_some hi (d := d) (i := n) (by omega)
      exact ⟨pass E s nD p w', by simp [loop, h, hp]⟩

/-- The adjoint runs succeed, each gives the adjoints `G`, and leaves no adjoint of a radiance behind. -/
def Faithful (E : Env F X) (s : State F) (d : Dims) (G : Place → Adj F) (Good : X → Prop) : Prop :=
  ∀ x p, Good x → InRange d p →
    let r := E.adjoint s x fun q => if q = p then Arith.one else Arith.zero
    r.adj = G p ∧ r.seeds = (fun _ => Arith.zero) ∧ Good r.rest

theorem loop_out {E : Env F X} {s : State F} {nD : Nat} {d : Dims} {input : List Nat}
    (hi : input = [0, 1] ∨ input = [0] ∨ input = [1]) {G : Place → Adj F} {Good : X → Prop}
    (hE : Faithful E s d G Good) (w : Loop F X) (h0 : w.seeds = fun _ => Arith.zero) (hg : Good w.rest) :
    ∀ n, n ≤ input.length * d.block → ∃ w', loop E s nD d input n w = some w' ∧
      w'.seeds = (fun _ => Arith.zero) ∧ Good w'.rest ∧
      (∀ q k, q.dir ∈ input → InRange d q → at' d input q < n → k < nD → w'.out q k = contract (E.lin s) (G q) k) ∧
      ∀ q k, (¬ (q.dir ∈ input ∧ InRange d q ∧ at' d input q < n) ∨ nD ≤ k) → w'.out q k = w.out q k := by
  intro n
  induction n with
  | zero =>
      intro _
      exact ⟨w, rfl, h0, hg, fun q k _ _ h => absurd h (Nat.not_lt_zero _), fun _ _ _ => rfl⟩
  | succ n ih =>
      intro hn
      obtain ⟨w', h1, h2, h3, h4, h5⟩ := ih (by omega)
      obtain ⟨p, hp, hpd, hpr, hpa⟩ := decode_some hi (d := d) (i := n) (by omega)
      obtain ⟨a1, a2, a3⟩ := hE w'.rest p h3 hpr
      refine ⟨pass E s nD p w', by simp [loop, h1, hp], ?_, ?_, ?_, ?_⟩
      · simp only [pass, h2]; exact a2
      · simp only [pass, h2]; exact a3
      · intro q k hd hr ha hk
        simp only [pass, h2]
        by_cases e : q = p
        · subst e
          rw [if_pos ⟨rfl, hk⟩, a1]
        · rw [if_neg (fun h => e h.1)]
          have : at' d input q ≠ n := by
            intro e2
            have := (at_decode hi hd hr).2
            rw [e2, hp] at this
            exact e (by injection this with this; exact this.symm)
          exact h4 q k hd hr (by omega) hk
      · intro q k h
        have hne : ¬ (q = p ∧ k < nD) := by
          rintro ⟨rfl, hk⟩
          rcases h with h | h
          · exact h ⟨hpd, hpr, by omega⟩
          · omega
        simp only [pass]
        rw [if_neg hne]
        refine h5 q k ?_
        rcases h with h | h
        · exact .inl fun h' => h ⟨h'.1, h'.2.1, by omega⟩
        · exact .inr h

end Xrtm.Solution2
