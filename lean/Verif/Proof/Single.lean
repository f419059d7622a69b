import Verif.Model.Single
import Mathlib.Tactic.Tauto

/-! The loops of the single scattering code, for any numbers. -/

namespace Xrtm.Single

variable {F : Type} [SNum F] (p : Prof F)

local instance : Add F := ⟨Arith.add⟩
local instance : Sub F := ⟨Arith.sub⟩
local instance : Mul F := ⟨Arith.mul⟩
local instance : Div F := ⟨Arith.div⟩
local instance : Neg F := ⟨Arith.neg⟩

/-- The arrays agree in the cells in use. -/
def Agree (a b : Buf F) : Prop :=
  ∀ kk, kk < p.nUv → a.v kk = b.v kk ∧ ∀ j, j < p.nDerivs → a.l j kk = b.l j kk

variable {p}

theorem Agree.refl (a : Buf F) : Agree p a a := fun _ _ => ⟨rfl, fun _ _ => rfl⟩
theorem Agree.symm {a b : Buf F} (h : Agree p a b) : Agree p b a :=
  fun kk hk => ⟨(h kk hk).1.symm, fun j hj => ((h kk hk).2 j hj).symm⟩
theorem Agree.trans {a b c : Buf F} (h : Agree p a b) (h' : Agree p b c) : Agree p a c :=
  fun kk hk => ⟨(h kk hk).1.trans (h' kk hk).1, fun j hj => ((h kk hk).2 j hj).trans ((h' kk hk).2 j hj)⟩

variable (p)

/-- The value of a cell after a layer. -/
def Wv (n : Nat) (f : Fac F) (r : Buf F) (kk : Nat) : F := f.att * r.v kk + f.src * p.P n kk

/-- A derivative after a layer. -/
def Wl (n : Nat) (f : Fac F) (r : Buf F) (j kk : Nat) : F :=
  let x := f.attL j * r.v kk + f.att * r.l j kk + p.P n kk * f.srcL j
  if p.flag n j then x + f.pre * p.PL n j kk * f.fac else x

/-- All cells after a layer. -/
def after (fac : Nat → Fac F) (n : Nat) (r : Buf F) : Buf F :=
  ⟨fun kk => Wv p n (fac (kk / p.nStokes)) r kk, fun j kk => Wl p n (fac (kk / p.nStokes)) r j kk⟩

variable {p}

theorem after_congr {fac : Nat → Fac F} {n : Nat} {a b : Buf F} (h : Agree p a b) :
    Agree p (after p fac n a) (after p fac n b) := by
  intro kk hk
  obtain ⟨h1, h2⟩ := h kk hk
  refine ⟨?_, fun j hj => ?_⟩
  · simp only [after, Wv, h1]
  · simp only [after, Wl, h1, h2 j hj]

theorem cellL_eq (n j : Nat) (f : Fac F) (src : Option (Buf F)) (dst : Buf F) (kk : Nat) :
    cellL p n j f src dst kk = dst.setL j kk (Wl p n f (rd src dst) j kk) := by
  unfold cellL Wl
  dsimp only
  by_cases h : p.flag n j = true
  · rw [if_pos h, if_pos h]
    simp only [Buf.setL, and_self, if_true]
    congr 1
    funext j' k'
    by_cases hc : j' = j ∧ k' = kk
    · rw [if_pos hc, if_pos hc]
    · rw [if_neg hc, if_neg hc, if_neg hc]
  · rw [if_neg h, if_neg h]

theorem Wl_congr {n : Nat} {f : Fac F} {r r' : Buf F} {j kk : Nat} (h1 : r.v kk = r'.v kk) (h2 : r.l j kk = r'.l j kk) :
    Wl p n f r j kk = Wl p n f r' j kk := by simp only [Wl, h1, h2]

theorem Wv_congr {n : Nat} {f : Fac F} {r r' : Buf F} {kk : Nat} (h1 : r.v kk = r'.v kk) :
    Wv p n f r kk = Wv p n f r' kk := by simp only [Wv, h1]

theorem rd_v {src : Option (Buf F)} {a b : Buf F} {kk : Nat} (h : a.v kk = b.v kk) : (rd src a).v kk = (rd src b).v kk := by
  cases src
  · exact h
  · rfl

theorem rd_l {src : Option (Buf F)} {a b : Buf F} {j kk : Nat} (h : a.l j kk = b.l j kk) :
    (rd src a).l j kk = (rd src b).l j kk := by
  cases src
  · exact h
  · rfl

theorem rowL (n j : Nat) (f : Fac F) (src : Option (Buf F)) (dst : Buf F) (base : Nat) : ∀ K,
    let d := (List.range K).foldl (fun dst k => cellL p n j f src dst (base + k)) dst
    d.v = dst.v ∧ ∀ j' kk, d.l j' kk =
      if j' = j ∧ base ≤ kk ∧ kk < base + K then Wl p n f (rd src dst) j kk else dst.l j' kk := by
  intro K
  induction K with
  | zero =>
      refine ⟨rfl, fun j' kk => ?_⟩
      rw [if_neg (by omega)]; rfl
  | succ K ih =>
      obtain ⟨h1, h2⟩ := ih
      dsimp only
      rw [List.range_succ, List.foldl_append, List.foldl_cons, List.foldl_nil, cellL_eq]
      generalize (List.range K).foldl (fun dst k => cellL p n j f src dst (base + k)) dst = d at h1 h2
      refine ⟨h1, fun j' kk => ?_⟩
      have hw : Wl p n f (rd src d) j (base + K) = Wl p n f (rd src dst) j (base + K) := by
        refine Wl_congr (rd_v (by rw [h1])) (rd_l ?_)
        rw [h2, if_neg (by omega)]
      simp only [Buf.setL]
      by_cases hc : j' = j ∧ kk = base + K
      · obtain ⟨rfl, rfl⟩ := hc
        rw [if_pos ⟨rfl, rfl⟩, if_pos (by omega), hw]
      · rw [if_neg hc, h2]
        by_cases hd : j' = j ∧ base ≤ kk ∧ kk < base + K
        · rw [if_pos hd, if_pos (by omega)]
        · rw [if_neg hd, if_neg (by omega)]

theorem blockL (n : Nat) (f : Fac F) (src : Option (Buf F)) (dst : Buf F) (base K : Nat) : ∀ J,
    let d := (List.range J).foldl
      (fun dst j => (List.range K).foldl (fun dst k => cellL p n j f src dst (base + k)) dst) dst
    d.v = dst.v ∧ ∀ j kk, d.l j kk =
      if j < J ∧ base ≤ kk ∧ kk < base + K then Wl p n f (rd src dst) j kk else dst.l j kk := by
  intro J
  induction J with
  | zero =>
      refine ⟨rfl, fun j kk => ?_⟩
      rw [if_neg (by omega)]; rfl
  | succ J ih =>
      obtain ⟨h1, h2⟩ := ih
      dsimp only
      rw [List.range_succ, List.foldl_append, List.foldl_cons, List.foldl_nil]
      generalize (List.range J).foldl
        (fun dst j => (List.range K).foldl (fun dst k => cellL p n j f src dst (base + k)) dst) dst = d at h1 h2
      obtain ⟨h3, h4⟩ := rowL (p := p) n J f src d base K
      refine ⟨h3.trans h1, fun j kk => ?_⟩
      rw [h4]
      by_cases hc : j = J ∧ base ≤ kk ∧ kk < base + K
      · rw [if_pos hc, if_pos (by omega)]
        obtain ⟨rfl, -⟩ := hc
        refine Wl_congr (rd_v (by rw [h1])) (rd_l ?_)
        rw [h2, if_neg (by omega)]
      · rw [if_neg hc, h2]
        by_cases hd : j < J ∧ base ≤ kk ∧ kk < base + K
        · rw [if_pos hd, if_pos (by omega)]
        · rw [if_neg hd, if_neg (by omega)]

theorem rowV (n : Nat) (f : Fac F) (src : Option (Buf F)) (dst : Buf F) (base : Nat) : ∀ K,
    let d := (List.range K).foldl (fun dst k => cellV p n f src dst (base + k)) dst
    d.l = dst.l ∧ ∀ kk, d.v kk = if base ≤ kk ∧ kk < base + K then Wv p n f (rd src dst) kk else dst.v kk := by
  intro K
  induction K with
  | zero =>
      refine ⟨rfl, fun kk => ?_⟩
      rw [if_neg (by omega)]; rfl
  | succ K ih =>
      obtain ⟨h1, h2⟩ := ih
      dsimp only
      rw [List.range_succ, List.foldl_append, List.foldl_cons, List.foldl_nil]
      generalize (List.range K).foldl (fun dst k => cellV p n f src dst (base + k)) dst = d at h1 h2
      refine ⟨h1, fun kk => ?_⟩
      have hw : Wv p n f (rd src d) (base + K) = Wv p n f (rd src dst) (base + K) := by
        refine Wv_congr (rd_v ?_)
        rw [h2, if_neg (by omega)]
      show (if kk = base + K then Wv p n f (rd src d) (base + K) else d.v kk) = _
      by_cases hc : kk = base + K
      · subst hc
        rw [if_pos rfl, if_pos (by omega), hw]
      · rw [if_neg hc, h2]
        by_cases hd : base ≤ kk ∧ kk < base + K
        · rw [if_pos hd, if_pos (by omega)]
        · rw [if_neg hd, if_neg (by omega)]

theorem angle_eq (n : Nat) (f : Fac F) (src : Option (Buf F)) (dst : Buf F) (i : Nat) :
    let d := angle p n f src dst i
    let base := i * p.nStokes
    (∀ kk, d.v kk = if base ≤ kk ∧ kk < base + p.nStokes then Wv p n f (rd src dst) kk else dst.v kk) ∧
    ∀ j kk, d.l j kk = if j < p.nDerivs ∧ base ≤ kk ∧ kk < base + p.nStokes then Wl p n f (rd src dst) j kk
      else dst.l j kk := by
  dsimp only
  unfold angle
  dsimp only
  obtain ⟨h1, h2⟩ := blockL (p := p) n f src dst (i * p.nStokes) p.nStokes p.nDerivs
  generalize (List.range p.nDerivs).foldl (fun dst j => (List.range p.nStokes).foldl
    (fun dst k => cellL p n j f src dst (i * p.nStokes + k)) dst) dst = d at h1 h2
  obtain ⟨h3, h4⟩ := rowV (p := p) n f src d (i * p.nStokes) p.nStokes
  refine ⟨fun kk => ?_, fun j kk => ?_⟩
  · rw [h4, h1, Wv_congr (r := rd src d) (r' := rd src dst) (rd_v (by rw [h1]))]
  · rw [h3, h2]

theorem layer_eq (fac : Nat → Fac F) (n : Nat) (src : Option (Buf F)) (dst : Buf F) : ∀ M,
    let d := (List.range M).foldl (fun dst i => angle p n (fac i) src dst i) dst
    (∀ kk, d.v kk = if kk < M * p.nStokes then Wv p n (fac (kk / p.nStokes)) (rd src dst) kk else dst.v kk) ∧
    ∀ j kk, d.l j kk = if j < p.nDerivs ∧ kk < M * p.nStokes then Wl p n (fac (kk / p.nStokes)) (rd src dst) j kk
      else dst.l j kk := by
  intro M
  induction M with
  | zero =>
      refine ⟨fun kk => ?_, fun j kk => ?_⟩
      · rw [if_neg (by omega)]; rfl
      · rw [if_neg (by omega)]; rfl
  | succ M ih =>
      obtain ⟨h1, h2⟩ := ih
      dsimp only
      rw [List.range_succ, List.foldl_append, List.foldl_cons, List.foldl_nil]
      generalize (List.range M).foldl (fun dst i => angle p n (fac i) src dst i) dst = d at h1 h2
      obtain ⟨h3, h4⟩ := angle_eq (p := p) n (fac M) src d M
      have hs : (M + 1) * p.nStokes = M * p.nStokes + p.nStokes := Nat.succ_mul _ _
      rw [hs]
      have hdiv : ∀ kk, M * p.nStokes ≤ kk → kk < M * p.nStokes + p.nStokes → kk / p.nStokes = M := by
        intro kk ha hb
        exact Nat.div_eq_of_lt_le ha (by rw [hs]; exact hb)
      refine ⟨fun kk => ?_, fun j kk => ?_⟩
      · rw [h3]
        by_cases hc : M * p.nStokes ≤ kk ∧ kk < M * p.nStokes + p.nStokes
        · rw [if_pos hc, if_pos hc.2, hdiv kk hc.1 hc.2]
          refine Wv_congr (rd_v ?_)
          rw [h1, if_neg (by omega)]
        · rw [if_neg hc, h1]
          by_cases hd : kk < M * p.nStokes
          · rw [if_pos hd, if_pos (by omega)]
          · rw [if_neg hd, if_neg (by omega)]
      · rw [h4]
        by_cases hc : j < p.nDerivs ∧ M * p.nStokes ≤ kk ∧ kk < M * p.nStokes + p.nStokes
        · rw [if_pos hc, if_pos ⟨hc.1, hc.2.2⟩, hdiv kk hc.2.1 hc.2.2]
          refine Wl_congr (rd_v ?_) (rd_l ?_)
          · rw [h1, if_neg (by omega)]
          · rw [h2, if_neg (by omega)]
        · rw [if_neg hc, h2]
          by_cases hd : j < p.nDerivs ∧ kk < M * p.nStokes
          · rw [if_pos hd, if_pos (by omega)]
          · rw [if_neg hd, if_neg (by omega)]

theorem upLayer_agree (n : Nat) (u : F) (src : Option (Buf F)) (dst : Buf F) :
    Agree p (upLayer p n u src dst) (after p (upFac p n u) n (rd src dst)) := by
  intro kk hk
  obtain ⟨h1, h2⟩ := layer_eq (p := p) (upFac p n u) n src dst p.nUmus
  exact ⟨(h1 kk).trans (if_pos hk), fun j hj => (h2 j kk).trans (if_pos ⟨hj, hk⟩)⟩

theorem dnLayer_agree (n : Nat) (u : F) (src : Option (Buf F)) (dst : Buf F) :
    Agree p (dnLayer p n u src dst) (after p (dnFac p n u) n (rd src dst)) := by
  intro kk hk
  obtain ⟨h1, h2⟩ := layer_eq (p := p) (dnFac p n u) n src dst p.nUmus
  exact ⟨(h1 kk).trans (if_pos hk), fun j hj => (h2 j kk).trans (if_pos ⟨hj, hk⟩)⟩

theorem copy_agree (a b : Buf F) : Agree p (copy p a b) a := by
  intro kk hk
  exact ⟨if_pos hk, fun j hj => if_pos ⟨hj, hk⟩⟩

theorem scaled_congr {a b : Buf F} (h : Agree p a b) : Agree p (scaled p a) (scaled p b) := by
  intro kk hk
  obtain ⟨h1, h2⟩ := h kk hk
  refine ⟨?_, fun j hj => ?_⟩
  · simp only [scaled, h1]
  · simp only [scaled, h2 j hj]

/-! ### The loops over layers -/

/-- A request that the rest of the library can make on `n` layers: levels in increasing order, or
positions inside layers from the top down, of which only the first may be the top. -/
structure Req.Ok (q : Req F) (n : Nat) : Prop where
  some : 0 < q.nUl
  levels : q.tau = false → (∀ k, k < q.nUl → q.ul k ≤ n) ∧ ∀ k k', k < k' → k' < q.nUl → q.ul k < q.ul k'
  taus : q.tau = true → (∀ k, k < q.nUl → q.ul k < n) ∧ (∀ k k', k < k' → k' < q.nUl → q.ul k ≤ q.ul k') ∧
    ∀ k, 0 < k → k < q.nUl → ¬ (q.ul k = 0 ∧ SNum.isZero (q.ut k) = true)

theorem Req.Ok.mono {q : Req F} {n : Nat} (h : q.Ok n) {k k' : Nat} (hk : k ≤ k') (hk' : k' < q.nUl) : q.ul k ≤ q.ul k' := by
  rcases Nat.lt_or_ge k k' with hlt | hge
  · cases ht : q.tau
    · exact Nat.le_of_lt ((h.levels ht).2 k k' hlt hk')
    · exact (h.taus ht).2.1 k k' hlt hk'
  · have : k = k' := by omega
    rw [this]

variable (p)

/-- The upward radiance at level `i`, in units of the source, from `st` at the bottom: `d` layers up. -/
def upStage (st : Buf F) : Nat → Buf F
  | 0 => st
  | d + 1 => after p (upFac p (p.nLayers - 1 - d) Arith.zero) (p.nLayers - 1 - d) (upStage st d)

/-- The output for a request. -/
def upTarget (q : Req F) (st : Buf F) (k : Nat) : Buf F :=
  if q.tau then after p (upFac p (q.ul k) (q.ut k)) (q.ul k) (upStage p st (p.nLayers - (q.ul k + 1)))
  else upStage p st (p.nLayers - q.ul k)

/-- The downward radiance at level `d`. -/
def dnStage (st : Buf F) : Nat → Buf F
  | 0 => st
  | d + 1 => after p (dnFac p d (p.ltau d)) d (dnStage st d)

def dnTarget (q : Req F) (st : Buf F) (k : Nat) : Buf F :=
  if q.tau then
    if q.ul k = 0 ∧ SNum.isZero (q.ut k) = true then st
    else after p (dnFac p (q.ul k) (q.ut k)) (q.ul k) (dnStage p st (q.ul k))
  else dnStage p st (q.ul k)

variable {p} {q : Req F}

theorem put_self (o : Nat → Buf F) (k : Nat) (b : Buf F) : put o k b k = b := if_pos rfl
theorem put_ne (o : Nat → Buf F) {k k' : Nat} (b : Buf F) (h : k' ≠ k) : put o k b k' = o k' := if_neg h

theorem upStage_step {st I : Buf F} {i : Nat} (hi : i < p.nLayers) (h : Agree p I (upStage p st (p.nLayers - (i + 1)))) :
    Agree p (upLayer p i Arith.zero none I) (upStage p st (p.nLayers - i)) := by
  have e : p.nLayers - i = p.nLayers - (i + 1) + 1 := by omega
  have e2 : p.nLayers - 1 - (p.nLayers - (i + 1)) = i := by omega
  rw [e]
  show Agree p _ (after p (upFac p (p.nLayers - 1 - (p.nLayers - (i + 1))) Arith.zero) _ _)
  rw [e2]
  exact (upLayer_agree i _ none I).trans (after_congr h)

theorem upWhile_spec {st I : Buf F} {i : Nat} (hq : q.Ok p.nLayers) (ht : q.tau = true)
    (hI : Agree p I (upStage p st (p.nLayers - (i + 1)))) : ∀ m o, m ≤ q.nUl →
    (∀ k, m ≤ k → k < q.nUl → Agree p (o k) (upTarget p q st k)) → (∀ k, k < m → q.ul k ≤ i) →
    ∃ m' o', upWhile p q i I m o = (m', o') ∧ m' ≤ m ∧
      (∀ k, m' ≤ k → k < q.nUl → Agree p (o' k) (upTarget p q st k)) ∧ ∀ k, k < m' → q.ul k < i
  | 0, o, hm, ho, hl => ⟨0, o, rfl, Nat.le_refl _, ho, fun k hk => by omega⟩
  | m + 1, o, hm, ho, hl => by
      unfold upWhile
      by_cases he : i = q.ul m
      · rw [if_pos he]
        obtain ⟨m', o', h1, h2, h3, h4⟩ := upWhile_spec (st := st) (i := i) hq ht hI m
          (put o m (upLayer p i (q.ut m) (some I) (o m))) (by omega) (fun k hk hk' => by
            by_cases hkm : k = m
            · subst hkm
              rw [put_self]
              unfold upTarget
              rw [if_pos ht, ← he]
              exact (upLayer_agree i _ (some I) _).trans (after_congr hI)
            · rw [put_ne _ _ hkm]
              exact ho k (by omega) hk') (fun k hk => hl k (by omega))
        exact ⟨m', o', h1, by omega, h3, h4⟩
      · rw [if_neg he]
        refine ⟨m + 1, o, rfl, Nat.le_refl _, ho, fun k hk => ?_⟩
        have h1 := hl m (by omega)
        have h2 := hq.mono (show k ≤ m by omega) (by omega)
        omega

theorem upLoop_spec {st : Buf F} (hq : q.Ok p.nLayers) : ∀ k I m o, q.ul 0 + k ≤ p.nLayers → m ≤ q.nUl →
    Agree p I (upStage p st (p.nLayers - (q.ul 0 + k))) →
    (∀ k', m ≤ k' → k' < q.nUl → Agree p (o k') (upTarget p q st k') ∧ (q.tau = false → q.ul 0 + k ≤ q.ul k')) →
    (∀ k', k' < m → q.ul k' < q.ul 0 + k) →
    ∃ o', upLoop p q (q.ul 0) k I m o = some o' ∧ ∀ k', k' < q.nUl → Agree p (o' k') (upTarget p q st k')
  | 0, I, m, o, hk, hm, hI, hd, hl => by
      refine ⟨o, rfl, fun k' hk' => (hd k' ?_ hk').1⟩
      apply Nat.le_of_not_lt
      intro h
      have h1 := hl k' h
      have h2 := hq.mono (Nat.zero_le k') hk'
      omega
  | k + 1, I, m, o, hk, hm, hI, hd, hl => by
      unfold upLoop
      dsimp only
      have hI' := upStage_step (p := p) (st := st) (I := I) (i := q.ul 0 + k) (by omega) (by rw [Nat.add_assoc]; exact hI)
      cases ht : q.tau
      · simp only [Bool.false_eq_true, if_false]
        obtain ⟨hr, hs⟩ := hq.levels ht
        have hm0 : 0 < m := by
          apply Nat.pos_of_ne_zero
          rintro rfl
          have := (hd 0 (Nat.le_refl _) hq.some).2 ht
          omega
        obtain ⟨m, rfl⟩ : ∃ m', m = m' + 1 := ⟨m - 1, by omega⟩
        unfold upMark
        dsimp only
        by_cases he : q.ul 0 + k = q.ul m
        · rw [if_pos he]
          dsimp only
          refine upLoop_spec (st := st) hq k _ m _ (by omega) (by omega) hI' (fun k' h1 h2 => ?_) (fun k' h1 => ?_)
          · by_cases hkm : k' = m
            · subst hkm
              rw [put_self]
              refine ⟨?_, fun _ => by omega⟩
              unfold upTarget
              rw [if_neg (by rw [ht]; decide), ← he]
              exact (copy_agree _ _).trans hI'
            · rw [put_ne _ _ hkm]
              have := hd k' (by omega) h2
              exact ⟨this.1, fun h => by have := this.2 h; omega⟩
          · have := hs k' m h1 (by omega)
            omega
        · rw [if_neg he]
          dsimp only
          refine upLoop_spec (st := st) hq k _ (m + 1) _ (by omega) hm hI' (fun k' h1 h2 => ?_) (fun k' h1 => ?_)
          · have := hd k' h1 h2
            exact ⟨this.1, fun h => by have := this.2 h; omega⟩
          · have h3 := hl m (by omega)
            have h4 := hq.mono (show k' ≤ m by omega) (by omega)
            omega
      · simp only [if_true]
        obtain ⟨m', o', h1, h2, h3, h4⟩ := upWhile_spec (st := st) (i := q.ul 0 + k) hq ht
          (by rw [Nat.add_assoc]; exact hI) m o hm (fun k' a b => (hd k' a b).1)
          (fun k' a => by have := hl k' a; omega)
        rw [h1]
        dsimp only
        exact upLoop_spec (st := st) hq k _ m' o' (by omega) (by omega) hI'
          (fun k' a b => ⟨h3 k' a b, fun h => by rw [ht] at h; cases h⟩) h4

theorem up_spec (hq : q.Ok p.nLayers) (hF : SNum.isZero p.F0 = false) (inp w : Buf F) (o : Nat → Buf F) :
    ∃ o', up p q inp w o = some o' ∧
      ∀ k, k < q.nUl → Agree p (o' k) (scaled p (upTarget p q (start p inp w) k)) := by
  unfold up
  rw [if_neg (by rw [hF]; decide)]
  have hs := hq.some
  obtain ⟨m, hm⟩ : ∃ m, q.nUl = m + 1 := ⟨q.nUl - 1, by omega⟩
  have hul : q.ul 0 ≤ p.nLayers := by
    cases ht : q.tau
    · exact (hq.levels ht).1 0 hs
    · exact Nat.le_of_lt ((hq.taus ht).1 0 hs)
  have e0 : q.ul 0 + (p.nLayers - q.ul 0) = p.nLayers := by omega
  have hI : Agree p (start p inp w) (upStage p (start p inp w) (p.nLayers - (q.ul 0 + (p.nLayers - q.ul 0)))) := by
    rw [e0, Nat.sub_self]; exact Agree.refl _
  have fin : ∀ o', (∀ k, k < q.nUl → Agree p (o' k) (upTarget p q (start p inp w) k)) →
      ∀ k, k < q.nUl → Agree p (each q (scaled p) o' k) (scaled p (upTarget p q (start p inp w) k)) := by
    intro o' h k hk
    unfold each
    rw [if_pos hk]
    exact scaled_congr (h k hk)
  rw [hm]
  dsimp only
  by_cases hb : atBottom p q m = true
  · rw [if_pos hb]
    dsimp only
    have hlev : q.tau = false ∧ p.nLayers = q.ul m := by
      unfold atBottom at hb
      cases ht : q.tau
      · simpa [ht] using hb
      · simp only [ht, Bool.not_true, Bool.false_and, Bool.true_and, Bool.false_or, Bool.and_eq_true, beq_iff_eq] at hb
        have := (hq.taus ht).1 m (by omega)
        omega
    obtain ⟨ht, hbot⟩ := hlev
    obtain ⟨o', h1, h2⟩ := upLoop_spec (st := start p inp w) hq (p.nLayers - q.ul 0) (start p inp w) m
      (put o m (copy p (start p inp w) (o m))) (by omega) (by omega) hI (fun k' a b => by
        have hkm : k' = m := by omega
        subst hkm
        rw [put_self]
        refine ⟨?_, fun _ => by omega⟩
        unfold upTarget
        rw [if_neg (by rw [ht]; decide), ← hbot, Nat.sub_self]
        exact copy_agree _ _) (fun k' a => by
        have := (hq.levels ht).2 k' m a (by omega)
        omega)
    rw [h1]
    exact ⟨_, rfl, fun k hk => by rw [hm] at *; exact fin o' h2 k (by omega)⟩
  · rw [if_neg hb]
    dsimp only
    obtain ⟨o', h1, h2⟩ := upLoop_spec (st := start p inp w) hq (p.nLayers - q.ul 0) (start p inp w) (m + 1)
      o (by omega) (by omega) hI (fun k' a b => by omega) (fun k' a => by
        cases ht : q.tau
        · have h1 := (hq.levels ht).1 m (by omega)
          have h2 := hq.mono (show k' ≤ m by omega) (by omega)
          have h3 : p.nLayers ≠ q.ul m := by
            intro h
            apply hb
            simp [atBottom, ht, h]
          omega
        · have := (hq.taus ht).1 k' (by omega)
          omega)
    rw [h1]
    exact ⟨_, rfl, fun k hk => by rw [hm] at *; exact fin o' h2 k (by omega)⟩

/-! ### Down -/

theorem dnStage_step {st I : Buf F} {i : Nat} (h : Agree p I (dnStage p st i)) :
    Agree p (dnLayer p i (p.ltau i) none I) (dnStage p st (i + 1)) :=
  (dnLayer_agree i _ none I).trans (after_congr h)

theorem dnWhile_spec {st I : Buf F} {i : Nat} (hq : q.Ok p.nLayers) (ht : q.tau = true)
    (hI : Agree p I (dnStage p st i)) : ∀ m o, m ≤ q.nUl →
    (∀ k, k < q.nUl - m → Agree p (o k) (dnTarget p q st k)) →
    (∀ k, q.nUl - m ≤ k → k < q.nUl → i ≤ q.ul k ∧ ¬ (q.ul k = 0 ∧ SNum.isZero (q.ut k) = true)) →
    ∃ m' o', dnWhile p q i I m o = (m', o') ∧ m' ≤ m ∧
      (∀ k, k < q.nUl - m' → Agree p (o' k) (dnTarget p q st k)) ∧ ∀ k, q.nUl - m' ≤ k → k < q.nUl → i < q.ul k
  | 0, o, hm, ho, hl => ⟨0, o, rfl, Nat.le_refl _, ho, fun k h1 h2 => by omega⟩
  | m + 1, o, hm, ho, hl => by
      unfold dnWhile
      dsimp only
      by_cases he : i = q.ul (q.nUl - (m + 1))
      · rw [if_pos he]
        obtain ⟨m', o', h1, h2, h3, h4⟩ := dnWhile_spec (st := st) (i := i) hq ht hI m
          (put o (q.nUl - (m + 1)) (dnLayer p i (q.ut (q.nUl - (m + 1))) (some I) (o (q.nUl - (m + 1))))) (by omega)
          (fun k hk => by
            by_cases hkm : k = q.nUl - (m + 1)
            · subst hkm
              rw [put_self]
              unfold dnTarget
              rw [if_pos ht, if_neg (hl _ (Nat.le_refl _) (by omega)).2, ← he]
              exact (dnLayer_agree i _ (some I) _).trans (after_congr hI)
            · rw [put_ne _ _ hkm]
              exact ho k (by omega)) (fun k h1 h2 => hl k (by omega) h2)
        exact ⟨m', o', h1, by omega, h3, h4⟩
      · rw [if_neg he]
        refine ⟨m + 1, o, rfl, Nat.le_refl _, ho, fun k hk hk' => ?_⟩
        have h1 := (hl (q.nUl - (m + 1)) (Nat.le_refl _) (by omega)).1
        have h2 := hq.mono hk hk'
        omega

theorem dnLoop_spec {st : Buf F} (hq : q.Ok p.nLayers) : ∀ k n I m o,
    n + k = (if q.tau then q.ul (q.nUl - 1) + 1 else q.ul (q.nUl - 1)) → m ≤ q.nUl →
    Agree p I (dnStage p st n) →
    (∀ k', k' < q.nUl - m → Agree p (o k') (dnTarget p q st k') ∧ (q.tau = false → q.ul k' ≤ n)) →
    (∀ k', q.nUl - m ≤ k' → k' < q.nUl →
      (if q.tau then n ≤ q.ul k' else n < q.ul k') ∧ (q.tau = true → ¬ (q.ul k' = 0 ∧ SNum.isZero (q.ut k') = true))) →
    ∃ o', dnLoop p q k n I m o = some o' ∧ ∀ k', k' < q.nUl → Agree p (o' k') (dnTarget p q st k')
  | 0, n, I, m, o, hn, hm, hI, hd, hl => by
      refine ⟨o, rfl, fun k' hk' => (hd k' ?_).1⟩
      apply Nat.lt_of_not_le
      intro h
      have h1 := (hl k' h hk').1
      have h2 := hq.mono (show k' ≤ q.nUl - 1 by omega) (by omega)
      cases ht : q.tau
      · rw [if_neg (by rw [ht]; decide)] at h1 hn; omega
      · rw [if_pos ht] at h1 hn; omega
  | k + 1, n, I, m, o, hn, hm, hI, hd, hl => by
      unfold dnLoop
      dsimp only
      have hI' := dnStage_step (st := st) hI
      cases ht : q.tau
      · simp only [Bool.false_eq_true, if_false]
        rw [if_neg (by rw [ht]; decide)] at hn
        have hl' : ∀ k', q.nUl - m ≤ k' → k' < q.nUl → n < q.ul k' := by
          intro k' a b
          have := (hl k' a b).1
          rwa [if_neg (by rw [ht]; decide)] at this
        obtain ⟨hr, hs⟩ := hq.levels ht
        have hpos := hq.some
        have hm0 : 0 < m := by
          apply Nat.pos_of_ne_zero
          rintro rfl
          have := (hd (q.nUl - 1) (by omega)).2 ht
          omega
        obtain ⟨m, rfl⟩ : ∃ m', m = m' + 1 := ⟨m - 1, by omega⟩
        unfold dnMark
        dsimp only
        have hc := hl' (q.nUl - (m + 1)) (Nat.le_refl _) (by omega)
        by_cases he : n + 1 = q.ul (q.nUl - (m + 1))
        · rw [if_pos he]
          dsimp only
          refine dnLoop_spec (st := st) hq k (n + 1) _ m _ (by rw [if_neg (by rw [ht]; decide)]; omega) (by omega) hI'
            (fun k' h1 => ?_) (fun k' h1 h2 => ?_)
          · by_cases hkm : k' = q.nUl - (m + 1)
            · subst hkm
              rw [put_self]
              refine ⟨?_, fun _ => by omega⟩
              unfold dnTarget
              rw [if_neg (by rw [ht]; decide), ← he]
              exact (copy_agree _ _).trans hI'
            · rw [put_ne _ _ hkm]
              have := hd k' (by omega)
              exact ⟨this.1, fun h => by have := this.2 h; omega⟩
          · refine ⟨?_, fun h => by rw [ht] at h; cases h⟩
            rw [if_neg (by rw [ht]; decide)]
            have := hs (q.nUl - (m + 1)) k' (by omega) h2
            omega
        · rw [if_neg he]
          dsimp only
          refine dnLoop_spec (st := st) hq k (n + 1) _ (m + 1) _ (by rw [if_neg (by rw [ht]; decide)]; omega) hm hI'
            (fun k' h1 => ?_) (fun k' h1 h2 => ?_)
          · have := hd k' h1
            exact ⟨this.1, fun h => by have := this.2 h; omega⟩
          · refine ⟨?_, fun h => by rw [ht] at h; cases h⟩
            rw [if_neg (by rw [ht]; decide)]
            have := hq.mono h1 h2
            omega
      · simp only [if_true]
        rw [if_pos ht] at hn
        obtain ⟨m', o', h1, h2, h3, h4⟩ := dnWhile_spec (st := st) hq ht hI m o hm (fun k' a => (hd k' a).1)
          (fun k' a b => by
            have := hl k' a b
            rw [if_pos ht] at this
            exact ⟨this.1, this.2 ht⟩)
        rw [h1]
        dsimp only
        refine dnLoop_spec (st := st) hq k (n + 1) _ m' o' (by rw [if_pos ht]; omega) (by omega) hI'
          (fun k' a => ⟨h3 k' a, fun h => by rw [ht] at h; cases h⟩) (fun k' a b => ?_)
        rw [if_pos ht]
        exact ⟨h4 k' a b, fun _ => (hl k' (by omega) b).2 ht⟩

theorem dn_spec (hq : q.Ok p.nLayers) (hF : SNum.isZero p.F0 = false) (inp w : Buf F) (o : Nat → Buf F) :
    ∃ o', dn p q inp w o = some o' ∧
      ∀ k, k < q.nUl → Agree p (o' k) (scaled p (dnTarget p q (start p inp w) k)) := by
  unfold dn
  rw [if_neg (by rw [hF]; decide)]
  have hs := hq.some
  obtain ⟨m, hm⟩ : ∃ m, q.nUl = m + 1 := ⟨q.nUl - 1, by omega⟩
  have hI : Agree p (start p inp w) (dnStage p (start p inp w) 0) := Agree.refl _
  have fin : ∀ o', (∀ k, k < q.nUl → Agree p (o' k) (dnTarget p q (start p inp w) k)) →
      ∀ k, k < q.nUl → Agree p (each q (scaled p) o' k) (scaled p (dnTarget p q (start p inp w) k)) := by
    intro o' h k hk
    unfold each
    rw [if_pos hk]
    exact scaled_congr (h k hk)
  have hlast : (0 : Nat) + (if q.tau then q.ul m + 1 else q.ul m) =
      (if q.tau then q.ul (q.nUl - 1) + 1 else q.ul (q.nUl - 1)) := by
    rw [hm, Nat.add_sub_cancel, Nat.zero_add]
  rw [hm]
  dsimp only
  by_cases hb : atTop q = true
  · rw [if_pos hb]
    dsimp only
    have h0 : q.ul 0 = 0 ∧ (q.tau = true → SNum.isZero (q.ut 0) = true) := by
      unfold atTop at hb
      cases ht : q.tau
      · simp only [ht, Bool.not_false, Bool.true_and, Bool.false_and, Bool.or_false, beq_iff_eq] at hb
        exact ⟨hb.symm, fun h => by cases h⟩
      · simp only [ht, Bool.not_true, Bool.false_and, Bool.true_and, Bool.false_or, Bool.and_eq_true, beq_iff_eq] at hb
        exact ⟨hb.1.symm, fun _ => hb.2⟩
    obtain ⟨o', h1, h2⟩ := dnLoop_spec (st := start p inp w) hq (if q.tau then q.ul m + 1 else q.ul m) 0
      (start p inp w) m (put o 0 (copy p (start p inp w) (o 0))) hlast (by omega) hI (fun k' a => by
        have hkm : k' = 0 := by omega
        subst hkm
        rw [put_self]
        refine ⟨?_, fun _ => by omega⟩
        unfold dnTarget
        cases ht : q.tau
        · rw [if_neg (by decide), h0.1]
          exact copy_agree _ _
        · rw [if_pos rfl, if_pos ⟨h0.1, h0.2 ht⟩]
          exact copy_agree _ _) (fun k' a b => by
        cases ht : q.tau
        · rw [if_neg (by decide)]
          refine ⟨?_, fun h => by cases h⟩
          have := (hq.levels ht).2 0 k' (by omega) b
          omega
        · rw [if_pos rfl]
          exact ⟨Nat.zero_le _, fun _ => (hq.taus ht).2.2 k' (by omega) b⟩)
    rw [h1]
    exact ⟨_, rfl, fun k hk => by rw [hm] at *; exact fin o' h2 k (by omega)⟩
  · rw [if_neg hb]
    dsimp only
    obtain ⟨o', h1, h2⟩ := dnLoop_spec (st := start p inp w) hq (if q.tau then q.ul m + 1 else q.ul m) 0
      (start p inp w) (m + 1) o hlast (by omega) hI (fun k' a => by omega) (fun k' a b => by
        cases ht : q.tau
        · rw [if_neg (by decide)]
          refine ⟨?_, fun h => by cases h⟩
          have h1 := hq.mono (Nat.zero_le k') b
          have h3 : 0 ≠ q.ul 0 := by
            intro h
            apply hb
            simp [atTop, ht, ← h]
          omega
        · rw [if_pos rfl]
          refine ⟨Nat.zero_le _, fun _ => ?_⟩
          by_cases hk0 : k' = 0
          · subst hk0
            rintro ⟨h1, h2⟩
            apply hb
            simp [atTop, ht, h1, h2]
          · exact (hq.taus ht).2.2 k' (by omega) b)
    rw [h1]
    exact ⟨_, rfl, fun k hk => by rw [hm] at *; exact fin o' h2 k (by omega)⟩

end Xrtm.Single
