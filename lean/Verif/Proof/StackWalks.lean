import Verif.Proof.Stacks

/-!
# The chain of stacks: using it
-/

namespace Xrtm.Stacks

open Spec

/-- What the loops rely on: single layers at their own index and every run of the column in
`stack_grid`. -/
structure Lookup (n : Nat) (lay : Nat → Bool) (c : Chain) (sg : Nat → Nat → Option Nat) : Prop where
  single : ∀ k : Nat, k < n → c[k]? = some ⟨k, k, none⟩
  run : ∀ a b, Run n lay a b → ∃ (k : Nat) (s : Stack), sg a b = some k ∧ c[k]? = some s ∧ s.i1 = a ∧ s.i2 = b

theorem anyIn_true {lay : Nat → Bool} {a b l : Nat} (h1 : a ≤ l) (h2 : l < b) (h : lay l = true) :
    anyIn lay a b = true := by
  unfold anyIn
  rw [List.any_eq_true]
  exact ⟨l, by rw [List.mem_range'_1]; omega, h⟩

theorem anyIn_false {lay : Nat → Bool} {a b : Nat} (h : ∀ l, a ≤ l → l < b → lay l = false) :
    anyIn lay a b = false := by
  unfold anyIn
  rw [List.any_eq_false]
  intro l hl
  rw [List.mem_range'_1] at hl
  rw [h l hl.1 (by omega)]
  simp

theorem tiles_snoc {c : Chain} {k : Nat} {s : Stack} (hk : c[k]? = some s) (hle : s.i1 ≤ s.i2) :
    ∀ (l : List Nat) (a : Nat), Tiles c a l s.i1 → Tiles c a (l ++ [k]) (s.i2 + 1) := by
  intro l
  induction l with
  | nil => intro a h; exact ⟨s, hk, h.symm, hle, rfl⟩
  | cons x l ih =>
    intro a h
    obtain ⟨t, h1, h2, h3, h4⟩ := h
    exact ⟨t, h1, h2, h3, ih _ h4⟩

/-! ## Downward -/

structure DInv (n : Nat) (lay : Nat → Bool) (c : Chain) (i : Nat) (w : Walk) : Prop where
  le : w.i1 ≤ i
  last : i = n → w.i1 = n
  quiet : ∀ l, w.i1 ≤ l → l < i → lay l = false
  edge : i < n → w.i1 = 0 ∨ lay (w.i1 - 1) = true
  flag : w.flag2 = decide (0 < w.i1)
  tiles : Tiles c 0 (w.uses.map Use.stack) w.i1
  good : ∀ u ∈ w.uses, DownGood n lay c u
  shape : if w.i1 = 0 then w.uses = [] else CopyThenAdd w.uses

theorem snoc_shape {us : List Use} (h : CopyThenAdd us) (k x : Nat) : CopyThenAdd (us ++ [.add k x]) := by
  obtain ⟨k', x', rest, rfl, h⟩ := h
  refine ⟨k', x', rest ++ [.add k x], rfl, fun u hu => ?_⟩
  rcases List.mem_append.mp hu with hu | hu
  · exact h u hu
  · simp at hu; subst hu; trivial

theorem down_step {n : Nat} {lay : Nat → Bool} {c : Chain} {sg : Nat → Nat → Option Nat} (hl : Lookup n lay c sg)
    {i : Nat} {w : Walk} (hi : i < n) (h : DInv n lay c i w) :
    ∃ w', downStep n lay sg w i = .ok w' ∧ DInv n lay c (i + 1) w' := by
  obtain ⟨i1, flag2, uses⟩ := w
  obtain ⟨hle, hlast, hq, hedge, hflag, ht, hg, hsh⟩ := h
  dsimp only at hle hlast hq hedge hflag ht hg hsh
  have hedge := hedge hi
  have hsi := hl.single i hi
  by_cases hv : lay i = true
  · by_cases h0 : i1 = 0
    · subst h0
      rw [if_pos rfl] at hsh
      subst hsh
      have hf : flag2 = false := by rw [hflag]; rfl
      subst hf
      by_cases hi0 : i = 0
      · subst hi0
        refine ⟨⟨1, true, [.copy 0 3]⟩, by simp [downStep, hv], ⟨Nat.le_refl _, ?_, fun l h1 h2 => ?_, fun _ => Or.inr hv, rfl,
          ⟨_, hsi, rfl, Nat.le_refl _, rfl⟩, fun u hu => ?_, ?_⟩⟩
        · intro h; exact h
        · dsimp only at h1; omega
        · simp at hu; subst hu
          refine ⟨_, hsi, Or.inl ⟨rfl, hi, hv⟩, ?_⟩
          show 3 = _
          unfold copyNeed
          dsimp only
          rw [anyIn_true (Nat.le_refl 0) (Nat.lt_succ_self 0) hv]; rfl
        · rw [if_neg (by simp)]; exact ⟨0, 3, [], rfl, fun u hu => by cases hu⟩
      · obtain ⟨k, s, r1, r2, r3, r4⟩ := hl.run 0 (i - 1) ⟨by omega, by omega, fun l _ h2 => hq l (by omega) (by omega),
          Or.inl rfl, Or.inr (by rw [show i - 1 + 1 = i by omega]; exact hv)⟩
        have hA : anyIn lay 0 i = false := anyIn_false fun l h1 h2 => hq l h1 h2
        refine ⟨⟨i + 1, true, [.copy k 0, .add i 3]⟩, by simp [downStep, hv, hi0, r1, taken, bind, Except.bind],
          ⟨Nat.le_refl _, fun h => h, fun l h1 h2 => ?_, fun _ => Or.inr hv, by simp, ?_, fun u hu => ?_, ?_⟩⟩
        · dsimp only at h1; omega
        · refine ⟨s, r2, r3, by omega, ?_⟩
          rw [r4, show i - 1 + 1 = i by omega]
          exact ⟨_, hsi, rfl, Nat.le_refl _, rfl⟩
        · rcases List.mem_cons.mp hu with rfl | hu
          · refine ⟨s, r2, Or.inr ?_, ?_⟩
            · rw [r3, r4]
              exact ⟨by omega, by omega, fun l _ h2 => hq l (by omega) (by omega), Or.inl rfl,
                Or.inr (by rw [show i - 1 + 1 = i by omega]; exact hv)⟩
            · show 0 = _
              unfold copyNeed
              rw [r3, r4, show i - 1 + 1 = i by omega, hA]; rfl
          · simp at hu; subst hu
            refine ⟨_, hsi, Or.inl ⟨rfl, hi, hv⟩, ?_⟩
            show 3 = _
            unfold downNeed
            dsimp only
            rw [hA, anyIn_true (Nat.le_refl i) (Nat.lt_succ_self i) hv,
              anyIn_true (Nat.zero_le i) (Nat.lt_succ_self i) hv]; rfl
        · rw [if_neg (by simp)]; exact ⟨k, 0, [.add i 3], rfl, fun u hu => by simp at hu; subst hu; trivial⟩
    · rw [if_neg h0] at hsh
      have hf : flag2 = true := by rw [hflag]; simp; omega
      subst hf
      have hlv : lay (i1 - 1) = true := by rcases hedge with h | h; · exact absurd h h0
                                           · exact h
      have hA : anyIn lay 0 i1 = true := anyIn_true (Nat.zero_le _) (by omega) hlv
      have hAi : anyIn lay 0 i = true := anyIn_true (Nat.zero_le _) (by omega) hlv
      have hlast' : DownGood n lay c (.add i 15) := by
        refine ⟨_, hsi, Or.inl ⟨rfl, hi, hv⟩, ?_⟩
        show 15 = _
        unfold downNeed
        dsimp only
        rw [hAi, anyIn_true (Nat.le_refl i) (Nat.lt_succ_self i) hv,
          anyIn_true (Nat.zero_le i) (Nat.lt_succ_self i) hv]; rfl
      by_cases hii : i = i1
      · subst hii
        refine ⟨⟨i + 1, true, uses ++ [.add i 15]⟩, by simp [downStep, hv, h0], ⟨Nat.le_refl _, fun h => h,
          fun l h1 h2 => ?_, fun _ => Or.inr hv, by simp, ?_, fun u hu => ?_, ?_⟩⟩
        · dsimp only at h1; omega
        · dsimp only
          rw [List.map_append]
          exact tiles_snoc hsi (Nat.le_refl _) _ _ ht
        · rcases List.mem_append.mp hu with hu | hu
          · exact hg u hu
          · simp at hu; subst hu; exact hlast'
        · rw [if_neg (by simp)]; exact snoc_shape hsh _ _
      · have hrun : Run n lay i1 (i - 1) := ⟨by omega, by omega, fun l h1 h2 => hq l h1 (by omega), Or.inr hlv,
          Or.inr (by rw [show i - 1 + 1 = i by omega]; exact hv)⟩
        obtain ⟨k, s, r1, r2, r3, r4⟩ := hl.run i1 (i - 1) hrun
        refine ⟨⟨i + 1, true, uses ++ [.add k 13, .add i 15]⟩,
          by simp [downStep, hv, hii, show i ≠ 0 by omega, r1, taken, bind, Except.bind],
          ⟨Nat.le_refl _, fun h => h, fun l h1 h2 => ?_, fun _ => Or.inr hv, by simp, ?_, fun u hu => ?_, ?_⟩⟩
        · dsimp only at h1; omega
        · dsimp only
          rw [show uses ++ [Use.add k 13, Use.add i 15] = (uses ++ [.add k 13]) ++ [.add i 15] by simp, List.map_append,
            List.map_append]
          refine tiles_snoc hsi (Nat.le_refl _) _ _ ?_
          have := tiles_snoc r2 (by omega) _ 0 (by rw [r3]; exact ht)
          rw [r4, show i - 1 + 1 = i by omega] at this
          exact this
        · rcases List.mem_append.mp hu with hu | hu
          · exact hg u hu
          · rcases List.mem_cons.mp hu with rfl | hu
            · refine ⟨s, r2, Or.inr (by rw [r3, r4]; exact hrun), ?_⟩
              show 13 = _
              unfold downNeed
              rw [r3, r4, show i - 1 + 1 = i by omega, hA, hAi, anyIn_false (a := i1) (b := i) fun l h1 h2 => hq l h1 h2]
              rfl
            · simp at hu; subst hu; exact hlast'
        · rw [if_neg (by simp)]
          rw [show uses ++ [Use.add k 13, Use.add i 15] = (uses ++ [.add k 13]) ++ [.add i 15] by simp]
          exact snoc_shape (snoc_shape hsh _ _) _ _
  · have hv' : lay i = false := by simpa using hv
    by_cases hin : i + 1 = n
    · have hrun : Run n lay i1 i := ⟨hle, hi, fun l h1 h2 => by
          by_cases hli : l = i
          · rw [hli]; exact hv'
          · exact hq l h1 (by omega), hedge, Or.inl hin⟩
      obtain ⟨k, s, r1, r2, r3, r4⟩ := hl.run i1 i hrun
      have hB : anyIn lay i1 (i + 1) = false := anyIn_false fun l h1 h2 => hrun.2.2.1 l h1 (by omega)
      by_cases h0 : i1 = 0
      · subst h0
        rw [if_pos rfl] at hsh
        subst hsh
        have hf : flag2 = false := by rw [hflag]; rfl
        subst hf
        refine ⟨⟨i + 1, true, [.copy k 0]⟩, by simp [downStep, hv', hin, r1, taken, bind, Except.bind],
          ⟨Nat.le_refl _, fun h => h, fun l h1 h2 => ?_, fun h => by omega, by simp,
            ⟨s, r2, r3, by omega, ?_⟩, fun u hu => ?_, ?_⟩⟩
        · dsimp only at h1; omega
        · rw [r4]; rfl
        · simp at hu; subst hu
          refine ⟨s, r2, Or.inr (by rw [r3, r4]; exact hrun), ?_⟩
          show 0 = _
          unfold copyNeed
          rw [r3, r4, hB]; rfl
        · rw [if_neg (by simp)]; exact ⟨k, 0, [], rfl, fun u hu => by cases hu⟩
      · rw [if_neg h0] at hsh
        have hf : flag2 = true := by rw [hflag]; simp; omega
        subst hf
        have hlv : lay (i1 - 1) = true := by rcases hedge with h | h; · exact absurd h h0
                                             · exact h
        refine ⟨⟨i + 1, true, uses ++ [.add k 13]⟩, by simp [downStep, hv', hin, r1, taken, bind, Except.bind],
          ⟨Nat.le_refl _, fun h => h, fun l h1 h2 => ?_, fun h => by omega, by simp, ?_, fun u hu => ?_, ?_⟩⟩
        · dsimp only at h1; omega
        · dsimp only
          rw [List.map_append]
          have := tiles_snoc r2 (by omega) _ 0 (by rw [r3]; exact ht)
          rw [r4] at this
          exact this
        · rcases List.mem_append.mp hu with hu | hu
          · exact hg u hu
          · simp at hu; subst hu
            refine ⟨s, r2, Or.inr (by rw [r3, r4]; exact hrun), ?_⟩
            show 13 = _
            unfold downNeed
            rw [r3, r4, hB, anyIn_true (l := i1 - 1) (Nat.zero_le _) (by omega) hlv,
              anyIn_true (l := i1 - 1) (Nat.zero_le _) (by omega) hlv]; rfl
        · rw [if_neg (by simp)]; exact snoc_shape hsh _ _
    · refine ⟨⟨i1, flag2, uses⟩, by simp [downStep, hv', hin], ⟨by dsimp only; omega, fun h => absurd h hin,
        fun l h1 h2 => ?_, fun _ => hedge, hflag, ht, hg, hsh⟩⟩
      by_cases hli : l = i
      · rw [hli]; exact hv'
      · exact hq l h1 (by omega)

theorem down_fold {n : Nat} {lay : Nat → Bool} {c : Chain} {sg : Nat → Nat → Option Nat} (hl : Lookup n lay c sg) :
    ∀ (d i : Nat) (w : Walk), i + d = n → DInv n lay c i w →
      ∃ w', (List.range' i d).foldlM (downStep n lay sg) w = .ok w' ∧ DInv n lay c n w' := by
  intro d
  induction d with
  | zero => intro i w hd h; exact ⟨w, rfl, by rw [show n = i by omega]; rw [show i = n by omega] at h ⊢; exact h⟩
  | succ d ih =>
    intro i w hd h
    obtain ⟨w1, h1, h2⟩ := down_step hl (by omega) h
    obtain ⟨w2, h3, h4⟩ := ih (i + 1) w1 (by omega) h2
    refine ⟨w2, ?_, h4⟩
    rw [List.range'_succ, List.foldlM_cons, h1]
    exact h3

theorem walkDown_ok {n : Nat} {lay : Nat → Bool} {c : Chain} {sg : Nat → Nat → Option Nat} (hl : Lookup n lay c sg)
    (hn : 0 < n) : ∃ w, walkDown n lay sg = .ok w ∧ Tiles c 0 (w.uses.map Use.stack) n ∧ CopyThenAdd w.uses ∧
      ∀ u ∈ w.uses, DownGood n lay c u := by
  obtain ⟨w, h1, h2⟩ := down_fold hl n 0 ⟨0, false, []⟩ (by omega) ⟨Nat.le_refl _, fun h => h, fun l _ h => by omega,
    fun _ => Or.inl rfl, rfl, rfl, fun u hu => (by cases hu), by rw [if_pos rfl]⟩
  refine ⟨w, by unfold walkDown; rw [List.range_eq_range']; exact h1, ?_, ?_, h2.good⟩
  · have := h2.tiles; rw [h2.last rfl] at this; exact this
  · have := h2.shape
    rw [h2.last rfl, if_neg (by omega)] at this
    exact this

/-! ## Upward -/

structure UInv (n : Nat) (lay : Nat → Bool) (sfc surface : Bool) (sol : Prop) (c : Chain) (i : Nat) (w : Walk) : Prop where
  ge : i ≤ w.i1
  le : w.i1 ≤ n
  last : i = 0 → w.i1 = 0
  quiet : ∀ l, i ≤ l → l < w.i1 → lay l = false
  edge : 0 < i → w.i1 = n ∨ lay w.i1 = true
  flag : w.flag2 = decide (w.i1 < n)
  tiles : Tiles c w.i1 (w.uses.map Use.stack).reverse n
  good : sol → ∀ u ∈ w.uses, UpGood n lay (surface && sfc) c u
  shape : if w.i1 = n then w.uses = [] else if surface then ∀ u ∈ w.uses, isAdd u else CopyThenAdd w.uses

theorem tiles_cons {c : Chain} {k a b e : Nat} {s : Stack} {l : List Nat} (hk : c[k]? = some s) (h1 : s.i1 = a)
    (hle : s.i1 ≤ s.i2) (h2 : s.i2 + 1 = e) (h : Tiles c e l b) : Tiles c a (k :: l) b :=
  ⟨s, hk, h1, hle, by rw [h2]; exact h⟩

/-- What has been done when the stacks in `new` have been added to `uses`. -/
theorem shape_append {surface : Bool} {uses new : List Use}
    (h : if surface then ∀ u ∈ uses, isAdd u else CopyThenAdd uses) (hn : ∀ u ∈ new, isAdd u) :
    if surface then ∀ u ∈ uses ++ new, isAdd u else CopyThenAdd (uses ++ new) := by
  cases surface with
  | true =>
    simp only [if_true] at h ⊢
    intro u hu
    rcases List.mem_append.mp hu with hu | hu
    · exact h u hu
    · exact hn u hu
  | false =>
    simp only [Bool.false_eq_true, if_false] at h ⊢
    obtain ⟨k', x', rest, rfl, h⟩ := h
    refine ⟨k', x', rest ++ new, rfl, fun u hu => ?_⟩
    rcases List.mem_append.mp hu with hu | hu
    · exact h u hu
    · exact hn u hu

theorem up_step {n : Nat} {lay src : Nat → Bool} {sfc surface : Bool} {sol : Prop} {c : Chain} {sg : Nat → Nat → Option Nat}
    (hl : Lookup n lay c sg) (hsrc : sol → ∀ i, i < n → src i = anyIn lay 0 (i + 1))
    {i : Nat} {w : Walk} (hi : i < n) (h : UInv n lay sfc surface sol c (i + 1) w) :
    ∃ w', upStep n lay src sfc surface sg w i = .ok w' ∧ UInv n lay sfc surface sol c i w' := by
  obtain ⟨i1, flag2, uses⟩ := w
  obtain ⟨hge, hle, hlast, hq, hedge, hflag, ht, hg, hsh⟩ := h
  dsimp only at hge hle hlast hq hedge hflag ht hg hsh
  replace hedge := hedge (by omega)
  have hsi := hl.single i hi
  by_cases hv : lay i = true
  · have hBi : anyIn lay i (i + 1) = true := anyIn_true (Nat.le_refl i) (Nat.lt_succ_self i) hv
    have hAi : anyIn lay 0 (i + 1) = true := anyIn_true (Nat.zero_le i) (Nat.lt_succ_self i) hv
    have hall : anyIn lay 0 n = true := anyIn_true (Nat.zero_le i) hi hv
    have hwi : Whole n lay i i := Or.inl ⟨rfl, hi, hv⟩
    by_cases h0 : i1 = n
    · subst h0
      rw [if_pos rfl] at hsh
      subst hsh
      have hf : flag2 = false := by rw [hflag]; simp
      subst hf
      have hlow : anyIn lay (i + 1) i1 = false := anyIn_false fun l h1 h2 => hq l h1 h2
      by_cases hi0 : i + 1 = i1
      · cases hsu : surface with
        | false =>
          refine ⟨⟨i, true, [.copy i (2 + if src i then 1 else 0)]⟩, ?_, ⟨Nat.le_refl _, by dsimp only; omega, fun h => h, fun l h1 h2 => ?_,
            fun _ => Or.inr hv, ?_, ?_, fun hso u hu => ?_, ?_⟩⟩
          · simp [upStep, hv, hi0]
          · dsimp only at h2; omega
          · simp; omega
          · exact tiles_cons hsi rfl (Nat.le_refl _) hi0 rfl
          · simp at hu; subst hu
            refine ⟨_, hsi, hwi, ?_⟩
            show (2 + if src i then 1 else 0) = _
            unfold copyNeed
            dsimp only
            rw [hBi, hAi, hsrc hso i hi, hAi]; rfl
          · rw [if_neg (by dsimp only; omega)]; exact ⟨i, _, [], rfl, fun u hu => by cases hu⟩
        | true =>
          refine ⟨⟨i, true, [.add i (bySurface sfc 15 13)]⟩, by simp [upStep, hv, hi0],
            ⟨Nat.le_refl _, by dsimp only; omega, fun h => h, fun l h1 h2 => ?_,
            fun _ => Or.inr hv, ?_, ?_, fun hso u hu => ?_, ?_⟩⟩
          · dsimp only at h2; omega
          · simp; omega
          · exact tiles_cons hsi rfl (Nat.le_refl _) hi0 rfl
          · simp at hu; subst hu
            refine ⟨_, hsi, hwi, ?_⟩
            show bySurface sfc 15 13 = _
            unfold upNeed
            dsimp only
            rw [hBi, hAi, hlow, hall]; cases sfc <;> rfl
          · rw [if_neg (by dsimp only; omega)]
            intro u hu; simp at hu; subst hu; trivial
      · have hrun : Run i1 lay (i + 1) (i1 - 1) := ⟨by omega, by omega, fun l h1 h2 => hq l h1 (by omega),
          Or.inr hv, Or.inl (by omega)⟩
        obtain ⟨k, s, r1, r2, r3, r4⟩ := hl.run _ _ hrun
        have hA2 : anyIn lay 0 i1 = true := hall
        cases hsu : surface with
        | false =>
          refine ⟨⟨i, true, [.copy k 1, .add i 13]⟩, by simp [upStep, hv, hi0, r1, taken, bind, Except.bind],
            ⟨Nat.le_refl _, by dsimp only; omega, fun h => h, fun l h1 h2 => ?_,
            fun _ => Or.inr hv, ?_, ?_, fun hso u hu => ?_, ?_⟩⟩
          · dsimp only at h2; omega
          · simp; omega
          · refine tiles_cons hsi rfl (Nat.le_refl _) rfl ?_
            exact tiles_cons r2 r3 (by omega) (by omega) rfl
          · rcases List.mem_cons.mp hu with rfl | hu
            · refine ⟨s, r2, Or.inr (by rw [r3, r4]; exact hrun), ?_⟩
              show 1 = _
              unfold copyNeed
              rw [r3, r4, show i1 - 1 + 1 = i1 by omega, hlow, hall]; rfl
            · simp at hu; subst hu
              refine ⟨_, hsi, hwi, ?_⟩
              show 13 = _
              unfold upNeed
              dsimp only
              rw [hBi, hAi, hlow, hall]; rfl
          · rw [if_neg (by dsimp only; omega)]
            exact ⟨k, 1, [.add i 13], rfl, fun u hu => by simp at hu; subst hu; trivial⟩
        | true =>
          refine ⟨⟨i, true, [.add k (bySurface sfc 7 5), .add i (bySurface sfc 15 13)]⟩,
            by simp [upStep, hv, hi0, r1, taken, bind, Except.bind],
            ⟨Nat.le_refl _, by dsimp only; omega, fun h => h, fun l h1 h2 => ?_,
            fun _ => Or.inr hv, ?_, ?_, fun hso u hu => ?_, ?_⟩⟩
          · dsimp only at h2; omega
          · simp; omega
          · refine tiles_cons hsi rfl (Nat.le_refl _) rfl ?_
            exact tiles_cons r2 r3 (by omega) (by omega) rfl
          · rcases List.mem_cons.mp hu with rfl | hu
            · refine ⟨s, r2, Or.inr (by rw [r3, r4]; exact hrun), ?_⟩
              show bySurface sfc 7 5 = _
              unfold upNeed
              rw [r3, r4, show i1 - 1 + 1 = i1 by omega, hlow, hall,
                anyIn_false (lay := lay) (a := i1) (b := i1) fun l h1 h2 => by omega]; cases sfc <;> rfl
            · simp at hu; subst hu
              refine ⟨_, hsi, hwi, ?_⟩
              show bySurface sfc 15 13 = _
              unfold upNeed
              dsimp only
              rw [hBi, hAi, hlow, hall]; cases sfc <;> rfl
          · rw [if_neg (by dsimp only; omega)]
            intro u hu
            simp at hu
            rcases hu with rfl | rfl <;> trivial
    · rw [if_neg h0] at hsh
      have hf : flag2 = true := by rw [hflag]; simp; omega
      subst hf
      have hlv : lay i1 = true := by rcases hedge with h | h; · exact absurd h h0
                                     · exact h
      have hlast' : UpGood n lay (surface && sfc) c (.add i 15) := by
        refine ⟨_, hsi, hwi, ?_⟩
        show 15 = _
        unfold upNeed
        dsimp only
        rw [hBi, hAi, hall, anyIn_true (l := i1) (by omega) (by omega) hlv]; rfl
      by_cases hii : i + 1 = i1
      · refine ⟨⟨i, true, uses ++ [.add i 15]⟩, by simp [upStep, hv, hii, h0], ⟨Nat.le_refl _, by dsimp only; omega,
          fun h => h, fun l h1 h2 => ?_, fun _ => Or.inr hv, by simp; omega, ?_, fun hso u hu => ?_, ?_⟩⟩
        · dsimp only at h2; omega
        · dsimp only
          rw [List.map_append, List.reverse_append]
          exact tiles_cons hsi rfl (Nat.le_refl _) hii ht
        · rcases List.mem_append.mp hu with hu | hu
          · exact hg hso u hu
          · simp at hu; subst hu; exact hlast'
        · rw [if_neg (by dsimp only; omega)]
          exact shape_append hsh fun u hu => by simp at hu; subst hu; trivial
      · have hrun : Run n lay (i + 1) (i1 - 1) := ⟨by omega, by omega, fun l h1 h2 => hq l h1 (by omega), Or.inr hv,
          Or.inr (by rw [show i1 - 1 + 1 = i1 by omega]; exact hlv)⟩
        obtain ⟨k, s, r1, r2, r3, r4⟩ := hl.run _ _ hrun
        refine ⟨⟨i, true, uses ++ [.add k 7, .add i 15]⟩,
          by simp [upStep, hv, hii, show i + 1 ≠ n by omega, r1, taken, bind, Except.bind],
          ⟨Nat.le_refl _, by dsimp only; omega, fun h => h, fun l h1 h2 => ?_, fun _ => Or.inr hv, by simp; omega, ?_,
            fun hso u hu => ?_, ?_⟩⟩
        · dsimp only at h2; omega
        · dsimp only
          rw [List.map_append, List.reverse_append]
          refine tiles_cons hsi rfl (Nat.le_refl _) rfl ?_
          exact tiles_cons r2 r3 (by omega) (by omega) ht
        · rcases List.mem_append.mp hu with hu | hu
          · exact hg hso u hu
          · rcases List.mem_cons.mp hu with rfl | hu
            · refine ⟨s, r2, Or.inr (by rw [r3, r4]; exact hrun), ?_⟩
              show 7 = _
              unfold upNeed
              rw [r3, r4, show i1 - 1 + 1 = i1 by omega, hall, anyIn_true (l := i1) (Nat.le_refl _) (by omega) hlv,
                anyIn_true (l := i) (Nat.zero_le _) (by omega) hv,
                anyIn_false (a := i + 1) (b := i1) fun l h1 h2 => hq l h1 h2]
              rfl
            · simp at hu; subst hu; exact hlast'
        · rw [if_neg (by dsimp only; omega)]
          refine shape_append hsh fun u hu => ?_
          simp at hu
          rcases hu with rfl | rfl <;> trivial
  · have hv' : lay i = false := by simpa using hv
    by_cases hi0 : i = 0
    · subst hi0
      have hrun : Run n lay 0 (i1 - 1) := ⟨Nat.zero_le _, by omega, fun l h1 h2 => by
          by_cases hli : l = 0
          · rw [hli]; exact hv'
          · exact hq l (by omega) (by omega), Or.inl rfl, by rw [show i1 - 1 + 1 = i1 by omega]; exact hedge⟩
      obtain ⟨k, s, r1, r2, r3, r4⟩ := hl.run _ _ hrun
      have hB : anyIn lay 0 i1 = false := anyIn_false fun l h1 h2 => hrun.2.2.1 l h1 (by omega)
      by_cases h0 : i1 = n
      · subst h0
        rw [if_pos rfl] at hsh
        subst hsh
        have hf : flag2 = false := by rw [hflag]; simp
        subst hf
        cases hsu : surface with
        | false =>
          refine ⟨⟨0, true, [.copy k 0]⟩, by simp [upStep, hv', r1, taken, bind, Except.bind],
            ⟨Nat.le_refl _, by dsimp only; omega, fun h => h, fun l h1 h2 => ?_, fun h => by omega, by simp; omega, ?_,
              fun hso u hu => ?_, ?_⟩⟩
          · dsimp only at h2; omega
          · exact tiles_cons r2 r3 (by omega) (by omega) rfl
          · simp at hu; subst hu
            refine ⟨s, r2, Or.inr (by rw [r3, r4]; exact hrun), ?_⟩
            show 0 = _
            unfold copyNeed
            rw [r3, r4, show i1 - 1 + 1 = i1 by omega, hB]; rfl
          · rw [if_neg (by dsimp only; omega)]; exact ⟨k, 0, [], rfl, fun u hu => by cases hu⟩
        | true =>
          refine ⟨⟨0, true, [.add k (bySurface sfc 3 0)]⟩, by simp [upStep, hv', r1, taken, bind, Except.bind],
            ⟨Nat.le_refl _, by dsimp only; omega, fun h => h, fun l h1 h2 => ?_, fun h => by omega, by simp; omega, ?_,
              fun hso u hu => ?_, ?_⟩⟩
          · dsimp only at h2; omega
          · exact tiles_cons r2 r3 (by omega) (by omega) rfl
          · simp at hu; subst hu
            refine ⟨s, r2, Or.inr (by rw [r3, r4]; exact hrun), ?_⟩
            show bySurface sfc 3 0 = _
            unfold upNeed
            rw [r3, r4, show i1 - 1 + 1 = i1 by omega, hB,
              anyIn_false (lay := lay) (a := i1) (b := i1) fun l h1 h2 => by omega]; cases sfc <;> rfl
          · rw [if_neg (by dsimp only; omega)]
            intro u hu; simp at hu; subst hu; trivial
      · rw [if_neg h0] at hsh
        have hf : flag2 = true := by rw [hflag]; simp; omega
        subst hf
        have hlv : lay i1 = true := by rcases hedge with h | h; · exact absurd h h0
                                       · exact h
        refine ⟨⟨0, true, uses ++ [.add k 3]⟩, by simp [upStep, hv', r1, taken, bind, Except.bind],
          ⟨Nat.le_refl _, by dsimp only; omega, fun h => h, fun l h1 h2 => ?_, fun h => by omega, by simp; omega, ?_,
            fun hso u hu => ?_, ?_⟩⟩
        · dsimp only at h2; omega
        · dsimp only
          rw [List.map_append, List.reverse_append]
          exact tiles_cons r2 r3 (by omega) (by omega) ht
        · rcases List.mem_append.mp hu with hu | hu
          · exact hg hso u hu
          · simp at hu; subst hu
            refine ⟨s, r2, Or.inr (by rw [r3, r4]; exact hrun), ?_⟩
            show 3 = _
            unfold upNeed
            rw [r3, r4, show i1 - 1 + 1 = i1 by omega, hB, anyIn_true (l := i1) (Nat.zero_le _) (by omega) hlv,
              anyIn_true (l := i1) (Nat.le_refl _) (by omega) hlv]; rfl
        · rw [if_neg (by dsimp only; omega)]
          exact shape_append hsh fun u hu => by simp at hu; subst hu; trivial
    · refine ⟨⟨i1, flag2, uses⟩, by simp [upStep, hv', hi0], ⟨by dsimp only; omega, hle, fun h => absurd h hi0,
        fun l h1 h2 => ?_, fun _ => hedge, hflag, ht, hg, hsh⟩⟩
      by_cases hli : l = i
      · rw [hli]; exact hv'
      · exact hq l (by omega) h2

theorem up_fold {n : Nat} {lay src : Nat → Bool} {sfc surface : Bool} {sol : Prop} {c : Chain} {sg : Nat → Nat → Option Nat}
    (hl : Lookup n lay c sg) (hsrc : sol → ∀ i, i < n → src i = anyIn lay 0 (i + 1)) :
    ∀ (d : Nat) (w : Walk), d ≤ n → UInv n lay sfc surface sol c d w →
      ∃ w', (List.range d).reverse.foldlM (upStep n lay src sfc surface sg) w = .ok w' ∧
        UInv n lay sfc surface sol c 0 w' := by
  intro d
  induction d with
  | zero => intro w _ h; exact ⟨w, rfl, h⟩
  | succ d ih =>
    intro w hd h
    obtain ⟨w1, h1, h2⟩ := up_step hl hsrc (by omega) h
    obtain ⟨w2, h3, h4⟩ := ih w1 (by omega) h2
    refine ⟨w2, ?_, h4⟩
    rw [List.range_succ, List.reverse_append]
    simp only [List.reverse_cons, List.reverse_nil, List.nil_append, List.singleton_append, List.foldlM_cons, h1]
    exact h3

theorem walkUp_ok {n : Nat} {lay src : Nat → Bool} {sfc surface : Bool} {sol : Prop} {c : Chain} {sg : Nat → Nat → Option Nat}
    (hl : Lookup n lay c sg) (hsrc : sol → ∀ i, i < n → src i = anyIn lay 0 (i + 1)) (hn : 0 < n) :
    ∃ w, walkUp n lay src sfc surface sg = .ok w ∧ Tiles c 0 (w.uses.map Use.stack).reverse n ∧
      (if surface then ∀ u ∈ w.uses, isAdd u else CopyThenAdd w.uses) ∧
      (sol → ∀ u ∈ w.uses, UpGood n lay (surface && sfc) c u) := by
  obtain ⟨w, h1, h2⟩ := up_fold (sfc := sfc) (surface := surface) (sol := sol) hl hsrc n ⟨n, false, []⟩ (Nat.le_refl _)
    ⟨Nat.le_refl _, Nat.le_refl _, fun h => h, fun l _ h => by dsimp only at h; omega, fun _ => Or.inl rfl, by simp, rfl,
      fun _ u hu => (by cases hu), by rw [if_pos rfl]⟩
  refine ⟨w, h1, ?_, ?_, h2.good⟩
  · have := h2.tiles; rw [h2.last rfl] at this; exact this
  · have := h2.shape
    rw [h2.last rfl, if_neg (by omega)] at this
    exact this

/-! ## Values -/

theorem added_append {α : Type} {op : α → α → α} (hop : ∀ x y z, op (op x y) z = op x (op y z)) (layer : Nat → α)
    (a d : Nat) : ∀ e, op (added op layer a d) (added op layer (a + d + 1) e) = added op layer a (d + 1 + e) := by
  intro e
  induction e with
  | zero => rfl
  | succ e ih =>
    rw [show d + 1 + (e + 1) = (d + 1 + e) + 1 by omega]
    show op _ (op _ _) = op _ _
    rw [← hop, ih, show a + d + 1 + e + 1 = a + (d + 1 + e) + 1 by omega]

theorem value_eq {α : Type} {op : α → α → α} (hop : ∀ x y z, op (op x y) z = op x (op y z)) {layer : Nat → α} {n : Nat}
    {c : Chain} (hs : Sound n c) {k : Nat} {x : α} (h : Value op layer c k x) :
    ∀ s, c[k]? = some s → x = added op layer s.i1 (s.i2 - s.i1) := by
  induction h with
  | single k hk => intro s hs'; rw [hk] at hs'; cases hs'; simp [added]
  | join k p q s x y hk hp _ _ ih1 ih2 =>
    intro s' hs'
    rw [hk] at hs'; cases hs'
    have hkn : n ≤ k := by
      by_contra hc
      have := hs.single k (by omega)
      rw [hk] at this; cases this; cases hp
    obtain ⟨p', q', sp, sq, a1, a2, a3, a4, a5, a6, a7, a8⟩ := hs.joined k s hkn hk
    rw [hp] at a1; cases a1
    have e1 := hs.ends _ _ a4
    have e2 := hs.ends _ _ a5
    rw [ih1 sp a4, ih2 sq a5, a6]
    have := added_append hop layer s.i1 (sp.i2 - s.i1) (sq.i2 - sq.i1)
    rw [show s.i1 + (sp.i2 - s.i1) + 1 = sq.i1 by omega] at this
    rw [this]
    congr 1
    omega

theorem value_exists {α : Type} (op : α → α → α) (layer : Nat → α) {n : Nat} {c : Chain} (hs : Sound n c) :
    ∀ (k : Nat) (s : Stack), c[k]? = some s → ∃ x, Value op layer c k x := by
  intro k
  induction k using Nat.strong_induction_on with
  | _ k ih =>
    intro s hk
    by_cases hkn : k < n
    · exact ⟨_, .single k (hs.single k hkn)⟩
    · obtain ⟨p, q, sp, sq, a1, a2, a3, a4, a5, _⟩ := hs.joined k s (by omega) hk
      obtain ⟨x, hx⟩ := ih p a2 sp a4
      obtain ⟨y, hy⟩ := ih q a3 sq a5
      exact ⟨_, .join k p q s x y hk a1 hx hy⟩

theorem tiles_fold {α : Type} {op : α → α → α} (hop : ∀ x y z, op (op x y) z = op x (op y z)) {layer : Nat → α} {n : Nat}
    {c : Chain} (hs : Sound n c) : ∀ (ks : List Nat) (a d b : Nat) (val : Nat → α), (∀ k ∈ ks, Value op layer c k (val k)) →
      Tiles c (a + d + 1) ks b → ∃ e, ks.foldl (fun x k => op x (val k)) (added op layer a d) = added op layer a e ∧
        a + e + 1 = b := by
  intro ks
  induction ks with
  | nil => intro a d b val _ ht; exact ⟨d, rfl, ht⟩
  | cons k ks ih =>
    intro a d b val hv ht
    obtain ⟨s, h1, h2, h3, h4⟩ := ht
    have hx := value_eq hop hs (hv k (by simp)) s h1
    rw [List.foldl_cons, hx, h2, added_append hop]
    refine ih a (d + 1 + (s.i2 - (a + d + 1))) b val (fun k' hk' => hv k' (by simp [hk'])) ?_
    rw [show a + (d + 1 + (s.i2 - (a + d + 1))) + 1 = s.i2 + 1 by omega]
    exact h4

end Xrtm.Stacks
