import Verif.Spec.SingleA
import Verif.Proof.SingleReal
import Mathlib.Algebra.BigOperators.Group.Finset.Basic
import Mathlib.Algebra.BigOperators.Ring.Finset
import Mathlib.Tactic.Ring
import Mathlib.Tactic.Linarith

/-! The reverse mode of the single scattering code: every step keeps what the weights give. -/

namespace Xrtm.SingleA

open Single Spec

theorem vdot_addAt (N : Nat) (f g : Nat → ℝ) {k : Nat} (hk : k < N) (x : ℝ) :
    vdot N (addAt f k x) g = vdot N f g + x * g k := by
  unfold vdot
  have h : ∀ i, addAt f k x i * g i = f i * g i + if i = k then x * g k else 0 := by
    intro i
    unfold addAt
    by_cases h : i = k
    · subst h; rw [if_pos rfl, if_pos rfl]; ring
    · rw [if_neg h, if_neg h, add_zero]
  simp only [h, Finset.sum_add_distrib]
  rw [Finset.sum_ite_eq' (Finset.range N) k, if_pos (Finset.mem_range.2 hk)]

theorem vdot_zeroAt (N : Nat) (f g : Nat → ℝ) {k : Nat} (hk : k < N) :
    vdot N (fun i => if i = k then 0 else f i) g = vdot N f g - f k * g k := by
  have h := vdot_addAt N (fun i => if i = k then 0 else f i) g hk (f k)
  have e : addAt (fun i => if i = k then 0 else f i) k (f k) = f := by
    funext i
    unfold addAt
    by_cases h : i = k
    · subst h; simp
    · simp [h]
  rw [e] at h
  linarith

theorem vdot_congr {N : Nat} {a a' b b' : Nat → ℝ} (ha : ∀ k, k < N → a k = a' k) (hb : ∀ k, k < N → b k = b' k) :
    vdot N a b = vdot N a' b' :=
  Finset.sum_congr rfl fun k hk => by rw [ha k (Finset.mem_range.1 hk), hb k (Finset.mem_range.1 hk)]

theorem vdot_zero (N : Nat) {a : Nat → ℝ} (b : Nat → ℝ) (h : ∀ k, k < N → a k = 0) : vdot N a b = 0 :=
  Finset.sum_eq_zero fun k hk => by rw [h k (Finset.mem_range.1 hk), zero_mul]

theorem vdot_add (N : Nat) (a a' b : Nat → ℝ) : vdot N (fun k => a k + a' k) b = vdot N a b + vdot N a' b := by
  unfold vdot
  rw [← Finset.sum_add_distrib]
  exact Finset.sum_congr rfl fun k _ => by ring

variable {p : Prof ℝ} {j : Nat}

theorem dot_cell (n kk : Nat) (hn : n < p.nLayers) (hk : kk < p.nUv) (inc : Inc) (s : LSt) :
    dot p j (cellA n inc s kk).w = dot p j s.w + (inc.omega * p.omegaL n j + inc.ltau * p.ltauL n j +
      inc.btran * p.btranL n j + inc.as0 * p.as0L n j + inc.P * (if p.flag n j then p.PL n j kk else 0)) := by
  unfold dot
  simp only [cellA]
  rw [vdot_addAt _ _ _ hn, vdot_addAt _ _ _ hn, vdot_addAt _ _ _ hn, vdot_addAt _ _ _ hn]
  have hP : ∀ n', vdot (p.nUmus * p.nStokes) (if n' = n then addAt (s.w.P n') kk inc.P else s.w.P n')
      (fun kk => if p.flag n' j then p.PL n' j kk else 0) =
      vdot (p.nUmus * p.nStokes) (s.w.P n') (fun kk => if p.flag n' j then p.PL n' j kk else 0) +
        if n' = n then inc.P * (if p.flag n j then p.PL n j kk else 0) else 0 := by
    intro n'
    by_cases h : n' = n
    · subst h
      rw [if_pos rfl, if_pos rfl]
      exact vdot_addAt _ _ _ hk _
    · rw [if_neg h, if_neg h, add_zero]
  simp only [hP, Finset.sum_add_distrib]
  rw [Finset.sum_ite_eq' (Finset.range p.nLayers) n, if_pos (Finset.mem_range.2 hn)]
  ring

/-- What all weights give inside a layer function. -/
noncomputable def inner (p : Prof ℝ) (j n : Nat) (utau : ℝ) (l W : Nat → ℝ) (s : LSt) : ℝ :=
  dot p j s.w + s.utau * (utau * p.ltauL n j / p.ltau n) + vdot p.nUv s.inp l + vdot p.nUv s.out W

/-- What a cell adds is what it takes away. -/
def Right (p : Prof ℝ) (j n : Nat) (utau : ℝ) (l W : Nat → ℝ) (inc : Nat → Nat → ℝ → Inc) : Prop :=
  ∀ kk x, kk < p.nUv → let c := inc (kk / p.nStokes) kk x
    c.omega * p.omegaL n j + c.ltau * p.ltauL n j + c.btran * p.btranL n j + c.as0 * p.as0L n j +
      c.P * (if p.flag n j then p.PL n j kk else 0) + c.utau * (utau * p.ltauL n j / p.ltau n) + c.inp * l kk = x * W kk

theorem cell_keeps {n : Nat} {utau : ℝ} {l W : Nat → ℝ} {inc : Nat → Nat → ℝ → Inc} (hn : n < p.nLayers)
    (h : Right p j n utau l W inc) {i kk : Nat} (hk : kk < p.nUv) (hi : kk / p.nStokes = i) (s : LSt) :
    inner p j n utau l W (cellA n (inc i kk (s.out kk)) s kk) = inner p j n utau l W s := by
  have h1 := h kk (s.out kk) hk
  rw [hi] at h1
  dsimp only at h1
  unfold inner
  rw [dot_cell n kk hn hk]
  simp only [cellA]
  rw [vdot_addAt _ _ _ hk, vdot_zeroAt _ _ _ hk]
  linarith

theorem row_keeps {n : Nat} {utau : ℝ} {l W : Nat → ℝ} {inc : Nat → Nat → ℝ → Inc} (hn : n < p.nLayers)
    (h : Right p j n utau l W inc) {i : Nat} (hi : i < p.nUmus) : ∀ K, K ≤ p.nStokes → ∀ s : LSt,
    let s' := (List.range K).foldl (fun s k => cellA n (inc i (i * p.nStokes + k) (s.out (i * p.nStokes + k))) s (i * p.nStokes + k)) s
    inner p j n utau l W s' = inner p j n utau l W s ∧
      ∀ kk, s'.out kk = if i * p.nStokes ≤ kk ∧ kk < i * p.nStokes + K then 0 else s.out kk := by
  intro K
  induction K with
  | zero =>
      intro _ s
      exact ⟨rfl, fun kk => by rw [if_neg (by omega)]; rfl⟩
  | succ K ih =>
      intro hK s
      obtain ⟨h1, h2⟩ := ih (by omega) s
      dsimp only
      rw [List.range_succ, List.foldl_append, List.foldl_cons, List.foldl_nil]
      generalize (List.range K).foldl
        (fun s k => cellA n (inc i (i * p.nStokes + k) (s.out (i * p.nStokes + k))) s (i * p.nStokes + k)) s = s1 at h1 h2
      have hlt : i * p.nStokes + K < p.nUv := by
        have : (i + 1) * p.nStokes ≤ p.nUmus * p.nStokes := Nat.mul_le_mul_right _ hi
        rw [Nat.succ_mul] at this
        unfold Prof.nUv
        omega
      have hdiv : (i * p.nStokes + K) / p.nStokes = i :=
        Nat.div_eq_of_lt_le (by omega) (by rw [Nat.succ_mul]; omega)
      refine ⟨(cell_keeps hn h hlt hdiv s1).trans h1, fun kk => ?_⟩
      show (if kk = i * p.nStokes + K then 0 else s1.out kk) = _
      rw [h2]
      by_cases hc : kk = i * p.nStokes + K
      · rw [if_pos hc, if_pos (by omega)]
      · rw [if_neg hc]
        by_cases hd : i * p.nStokes ≤ kk ∧ kk < i * p.nStokes + K
        · rw [if_pos hd, if_pos (by omega)]
        · rw [if_neg hd, if_neg (by omega)]

theorem rows_keep {n : Nat} {utau : ℝ} {l W : Nat → ℝ} {inc : Nat → Nat → ℝ → Inc} (hn : n < p.nLayers)
    (h : Right p j n utau l W inc) : ∀ M, M ≤ p.nUmus → ∀ s : LSt,
    let s' := (List.range M).foldl (fun s i => (List.range p.nStokes).foldl
      (fun s k => cellA n (inc i (i * p.nStokes + k) (s.out (i * p.nStokes + k))) s (i * p.nStokes + k)) s) s
    inner p j n utau l W s' = inner p j n utau l W s ∧
      ∀ kk, s'.out kk = if kk < M * p.nStokes then 0 else s.out kk := by
  intro M
  induction M with
  | zero =>
      intro _ s
      exact ⟨rfl, fun kk => by rw [if_neg (by omega)]; rfl⟩
  | succ M ih =>
      intro hM s
      obtain ⟨h1, h2⟩ := ih (by omega) s
      dsimp only
      rw [List.range_succ, List.foldl_append, List.foldl_cons, List.foldl_nil]
      generalize (List.range M).foldl (fun s i => (List.range p.nStokes).foldl
        (fun s k => cellA n (inc i (i * p.nStokes + k) (s.out (i * p.nStokes + k))) s (i * p.nStokes + k)) s) s = s1 at h1 h2
      obtain ⟨h3, h4⟩ := row_keeps hn h (show M < p.nUmus by omega) p.nStokes (Nat.le_refl _) s1
      refine ⟨h3.trans h1, fun kk => ?_⟩
      rw [h4, h2, Nat.succ_mul]
      by_cases hd : kk < M * p.nStokes
      · rw [if_neg (by omega), if_pos hd, if_pos (by omega)]
      · rw [if_neg hd]
        by_cases hc : M * p.nStokes ≤ kk ∧ kk < M * p.nStokes + p.nStokes
        · rw [if_pos hc, if_pos (by omega)]
        · rw [if_neg hc, if_neg (by omega)]

theorem layer_keeps {n : Nat} {utau : ℝ} {l W : Nat → ℝ} {inc : Nat → Nat → ℝ → Inc} (hn : n < p.nLayers)
    (h : Right p j n utau l W inc) (w : Wt) (inp out : Nat → ℝ) :
    let s := layerA p inc n utau w inp out
    dot p j s.w + vdot p.nUv s.inp l = dot p j w + vdot p.nUv inp l + vdot p.nUv out W ∧
      ∀ kk, s.out kk = if kk < p.nUv then 0 else out kk := by
  obtain ⟨h1, h2⟩ := rows_keep hn h p.nUmus (Nat.le_refl _) { w := w, utau := 0, inp := inp, out := out }
  dsimp only [layerA]
  generalize (List.range p.nUmus).foldl (fun s i => (List.range p.nStokes).foldl
      (fun s k => cellA n (inc i (i * p.nStokes + k) (s.out (i * p.nStokes + k))) s (i * p.nStokes + k)) s)
      { w := w, utau := 0, inp := inp, out := out } = s at h1 h2
  refine ⟨?_, h2⟩
  have hz : vdot p.nUv s.out W = 0 := vdot_zero _ _ fun k hk => by rw [h2]; exact if_pos hk
  have hd : dot p j { s.w with ltau := addAt s.w.ltau n (s.utau * utau / p.ltau n) } =
      dot p j s.w + s.utau * (utau * p.ltauL n j / p.ltau n) := by
    unfold dot
    rw [vdot_addAt _ _ _ hn]
    ring
  unfold inner at h1
  rw [hz] at h1
  rw [hd]
  simp only [zero_mul] at h1
  linarith

/-! ### The two layer functions -/

theorem Wl_up (p : Prof ℝ) (n : Nat) (u : ℝ) (i j : Nat) (r : Buf ℝ) (kk : Nat) :
    Wl p n (upFac p n u i) r j kk =
      (let f := upFac p n u i
       f.attL j * r.v kk + f.att * r.l j kk + p.P n kk * f.srcL j +
        f.pre * (if p.flag n j then p.PL n j kk else 0) * f.fac) := by
  unfold Wl
  dsimp only
  by_cases h : p.flag n j = true
  · rw [if_pos h, if_pos h]
  · rw [if_neg h, if_neg h, mul_zero, zero_mul, add_zero]

theorem Wl_dn (p : Prof ℝ) (n : Nat) (u : ℝ) (i j : Nat) (r : Buf ℝ) (kk : Nat) :
    Wl p n (dnFac p n u i) r j kk =
      (let f := dnFac p n u i
       f.attL j * r.v kk + f.att * r.l j kk + p.P n kk * f.srcL j +
        f.pre * (if p.flag n j then p.PL n j kk else 0) * f.fac) := by
  unfold Wl
  dsimp only
  by_cases h : p.flag n j = true
  · rw [if_pos h, if_pos h]
  · rw [if_neg h, if_neg h, mul_zero, zero_mul, add_zero]

theorem up_right (n : Nat) (u : ℝ) (r : Buf ℝ) {I : Nat → ℝ} (hI : ∀ kk, kk < p.nUv → I kk = r.v kk) :
    Right p j n u (r.l j) ((after p (upFac p n u) n r).l j) (upInc p n u I) := by
  intro kk x hk
  dsimp only
  show _ = x * Wl p n (upFac p n u (kk / p.nStokes)) r j kk
  rw [Wl_up, ← hI kk hk]
  generalize (if p.flag n j = true then p.PL n j kk else 0) = PL
  generalize kk / p.nStokes = i
  show _ = x * (-(p.ltauL n j - u * p.ltauL n j / p.ltau n) * (Real.exp (-(p.ltau n - u) / p.umus i) / p.umus i) * I kk +
      Real.exp (-(p.ltau n - u) / p.umus i) * r.l j kk +
      p.P n kk * ((1 - Real.exp (-(p.ltau n - u) / p.umus i) * Real.exp (-(p.ltau n - u) * p.as0 n)) / (1 / p.umus i + p.as0 n) *
        ((p.btranL n j + p.btran n * (-(u * p.ltauL n j / p.ltau n) * p.as0 n - u * p.as0L n j)) * (Real.exp (-u * p.as0 n) * p.omega n) +
          p.btran n * Real.exp (-u * p.as0 n) * p.omegaL n j) +
        p.btran n * Real.exp (-u * p.as0 n) * p.omega n *
          (-(-(p.ltauL n j - u * p.ltauL n j / p.ltau n) * (Real.exp (-(p.ltau n - u) / p.umus i) / p.umus i)) *
              Real.exp (-(p.ltau n - u) * p.as0 n) -
            Real.exp (-(p.ltau n - u) / p.umus i) *
              ((-(p.ltauL n j - u * p.ltauL n j / p.ltau n) * p.as0 n - (p.ltau n - u) * p.as0L n j) *
                Real.exp (-(p.ltau n - u) * p.as0 n)) -
            (1 - Real.exp (-(p.ltau n - u) / p.umus i) * Real.exp (-(p.ltau n - u) * p.as0 n)) / (1 / p.umus i + p.as0 n) *
              p.as0L n j) / (1 / p.umus i + p.as0 n)) +
      p.btran n * Real.exp (-u * p.as0 n) * p.omega n * PL *
        ((1 - Real.exp (-(p.ltau n - u) / p.umus i) * Real.exp (-(p.ltau n - u) * p.as0 n)) / (1 / p.umus i + p.as0 n)))
  simp only [upInc]
  generalize Real.exp (-(p.ltau n - u) / p.umus i) = e
  generalize Real.exp (-(p.ltau n - u) * p.as0 n) = d
  generalize Real.exp (-u * p.as0 n) = a
  generalize 1 / p.umus i + p.as0 n = f
  ring

theorem dn_right (n : Nat) (u : ℝ) (r : Buf ℝ) {I : Nat → ℝ} (hI : ∀ kk, kk < p.nUv → I kk = r.v kk) :
    Right p j n u (r.l j) ((after p (dnFac p n u) n r).l j) (dnInc p n u I) := by
  intro kk x hk
  dsimp only
  show _ = x * Wl p n (dnFac p n u (kk / p.nStokes)) r j kk
  rw [Wl_dn, ← hI kk hk]
  generalize (if p.flag n j = true then p.PL n j kk else 0) = PL
  generalize kk / p.nStokes = i
  show _ = x * (-(u * p.ltauL n j / p.ltau n) * (Real.exp (-u / p.umus i) / p.umus i) * I kk +
      Real.exp (-u / p.umus i) * r.l j kk +
      p.P n kk * ((Real.exp (-u / p.umus i) - Real.exp (-u * p.as0 n)) / (p.as0 n - 1 / p.umus i) *
        (p.btranL n j * p.omega n + p.btran n * p.omegaL n j) +
        p.btran n * p.omega n *
          (-(u * p.ltauL n j / p.ltau n) * (Real.exp (-u / p.umus i) / p.umus i) -
            (-(u * p.ltauL n j / p.ltau n) * p.as0 n - u * p.as0L n j) * Real.exp (-u * p.as0 n) -
            (Real.exp (-u / p.umus i) - Real.exp (-u * p.as0 n)) / (p.as0 n - 1 / p.umus i) * p.as0L n j) /
          (p.as0 n - 1 / p.umus i)) +
      p.btran n * p.omega n * PL *
        ((Real.exp (-u / p.umus i) - Real.exp (-u * p.as0 n)) / (p.as0 n - 1 / p.umus i)))
  simp only [dnInc]
  generalize Real.exp (-u / p.umus i) = c
  generalize Real.exp (-u * p.as0 n) = b
  generalize p.as0 n - 1 / p.umus i = d
  ring

/-! ### The loops over layers: up -/

theorem upSaved_agree (st : Buf ℝ) : ∀ d, Agree p (upSaved p st d) (upStage p st d)
  | 0 => Agree.refl _
  | d + 1 => (upLayer_agree _ _ none _).trans (after_congr (upSaved_agree st d))

theorem dnSaved_agree (st : Buf ℝ) : ∀ d, Agree p (dnSaved p st d) (dnStage p st d)
  | 0 => Agree.refl _
  | d + 1 => (dnLayer_agree _ _ none _).trans (after_congr (dnSaved_agree st d))

/-- What all weights give: `l` are the derivatives that `I_a` weighs, `K` the outputs left, `T` their derivatives. -/
noncomputable def full (p : Prof ℝ) (j : Nat) (K : Finset Nat) (T : Nat → Nat → ℝ) (l : Nat → ℝ) (s : RSt) : ℝ :=
  dot p j s.w + vdot p.nUv s.inp l + ∑ k ∈ K, vdot p.nUv (s.out k) (T k)

theorem passLayer_keeps {K : Finset Nat} {T : Nat → Nat → ℝ} {n : Nat} {utau : ℝ} {l W : Nat → ℝ}
    {inc : Nat → Nat → ℝ → Inc} (hn : n < p.nLayers) (h : Right p j n utau l W inc) (s : RSt) :
    full p j K T l (passLayer (layerA p inc n utau) s) = full p j K T W s := by
  obtain ⟨h1, -⟩ := layer_keeps hn h s.w (fun _ => 0) s.inp
  unfold full passLayer
  dsimp only
  rw [vdot_zero p.nUv (a := fun _ => 0) l (fun _ _ => rfl)] at h1
  linarith

theorem passOut_keeps {K K' : Finset Nat} {T : Nat → Nat → ℝ} {n m : Nat} {utau : ℝ} {l : Nat → ℝ}
    {inc : Nat → Nat → ℝ → Inc} (hn : n < p.nLayers) (h : Right p j n utau l (T m) inc) (hm : m ∉ K')
    (hK : K = insert m K') (s : RSt) :
    full p j K' T l (passOut (layerA p inc n utau) m s) = full p j K T l s := by
  obtain ⟨h1, -⟩ := layer_keeps hn h s.w s.inp (s.out m)
  unfold full passOut
  rw [hK, Finset.sum_insert hm]
  have e : ∑ k ∈ K', vdot p.nUv (if k = m then (layerA p inc n utau s.w s.inp (s.out m)).out else s.out k) (T k) =
      ∑ k ∈ K', vdot p.nUv (s.out k) (T k) :=
    Finset.sum_congr rfl fun k hk => by rw [if_neg (fun h : k = m => hm (h ▸ hk))]
  rw [e]
  linarith

theorem takeOut_keeps {K K' : Finset Nat} {T : Nat → Nat → ℝ} {m : Nat} {l : Nat → ℝ}
    (hl : ∀ kk, kk < p.nUv → T m kk = l kk) (hm : m ∉ K') (hK : K = insert m K') (s : RSt) :
    full p j K' T l (takeOut p m s) = full p j K T l s := by
  unfold full takeOut
  rw [hK, Finset.sum_insert hm]
  have e : vdot p.nUv (fun kk => if kk < p.nUv then s.inp kk + s.out m kk else s.inp kk) l =
      vdot p.nUv s.inp l + vdot p.nUv (s.out m) (T m) := by
    rw [vdot_congr (b := T m) (a' := s.out m) (b' := l) (fun _ _ => rfl) hl, ← vdot_add]
    exact vdot_congr (fun k hk => if_pos hk) (fun _ _ => rfl)
  rw [e]
  ring

variable {q : Req ℝ}

theorem ico_insert {a b : Nat} (h : a < b) : Finset.Ico a b = insert a (Finset.Ico (a + 1) b) := by
  ext x
  simp only [Finset.mem_insert, Finset.mem_Ico]
  omega

theorem upTarget_tau (ht : q.tau = true) (st : Buf ℝ) (k : Nat) :
    upTarget p q st k = after p (upFac p (q.ul k) (q.ut k)) (q.ul k) (upStage p st (p.nLayers - (q.ul k + 1))) := if_pos ht

theorem upTarget_lev (ht : q.tau = false) (st : Buf ℝ) (k : Nat) :
    upTarget p q st k = upStage p st (p.nLayers - q.ul k) := if_neg (by rw [ht]; decide)

theorem upWhileA_keeps (hq : q.Ok p.nLayers) (ht : q.tau = true) {st : Buf ℝ} {n : Nat} (hn : n < p.nLayers) {I : Nat → ℝ}
    (hI : ∀ kk, kk < p.nUv → I kk = (upStage p st (p.nLayers - (n + 1))).v kk) : ∀ r (s : RSt), r ≤ q.nUl →
    (∀ k, q.nUl - r ≤ k → k < q.nUl → n ≤ q.ul k) →
    let x := upWhileA p q n I r s
    full p j (Finset.Ico (q.nUl - x.1) q.nUl) (fun k => (upTarget p q st k).l j) ((upStage p st (p.nLayers - (n + 1))).l j) x.2 =
      full p j (Finset.Ico (q.nUl - r) q.nUl) (fun k => (upTarget p q st k).l j) ((upStage p st (p.nLayers - (n + 1))).l j) s ∧
    x.1 ≤ r ∧ ∀ k, q.nUl - x.1 ≤ k → k < q.nUl → n + 1 ≤ q.ul k
  | 0, s, _, _ => ⟨rfl, Nat.le_refl _, fun k h1 h2 => by simp only [upWhileA] at h1; omega⟩
  | r + 1, s, hr, hge => by
      unfold upWhileA
      by_cases hc : n = q.ul (q.nUl - (r + 1))
      · rw [if_pos hc]
        have hs : q.nUl - r = q.nUl - (r + 1) + 1 := by omega
        obtain ⟨h1, h2, h3⟩ := upWhileA_keeps hq ht hn hI r
          (passOut (upLayerA p n (q.ut (q.nUl - (r + 1))) I) (q.nUl - (r + 1)) s) (by omega) (fun k a b => hge k (by omega) b)
        refine ⟨h1.trans ?_, by omega, h3⟩
        refine passOut_keeps hn ?_ (by rw [hs]; simp) (by rw [hs]; exact ico_insert (by omega)) s
        rw [upTarget_tau ht, ← hc]
        exact up_right n _ _ hI
      · rw [if_neg hc]
        refine ⟨rfl, Nat.le_refl _, fun k h1 h2 => ?_⟩
        have h3 := hge (q.nUl - (r + 1)) (Nat.le_refl _) (by omega)
        have h4 := hq.mono (show q.nUl - (r + 1) ≤ k from h1) h2
        omega

theorem upMarkA_keeps (hq : q.Ok p.nLayers) (ht : q.tau = false) {st : Buf ℝ} {n : Nat} : ∀ r (s : RSt), r ≤ q.nUl →
    (∀ k, q.nUl - r ≤ k → k < q.nUl → n ≤ q.ul k) →
    let x := upMarkA p q n r s
    full p j (Finset.Ico (q.nUl - x.1) q.nUl) (fun k => (upTarget p q st k).l j) ((upStage p st (p.nLayers - n)).l j) x.2 =
      full p j (Finset.Ico (q.nUl - r) q.nUl) (fun k => (upTarget p q st k).l j) ((upStage p st (p.nLayers - n)).l j) s ∧
    x.1 ≤ r ∧ ∀ k, q.nUl - x.1 ≤ k → k < q.nUl → n + 1 ≤ q.ul k
  | 0, s, _, _ => ⟨rfl, Nat.le_refl _, fun k h1 h2 => by simp only [upMarkA] at h1; omega⟩
  | r + 1, s, hr, hge => by
      dsimp only [upMarkA]
      by_cases hc : n = q.ul (q.nUl - (r + 1))
      · rw [if_pos hc]
        have hs : q.nUl - r = q.nUl - (r + 1) + 1 := by omega
        refine ⟨?_, by dsimp only; omega, fun k h1 h2 => ?_⟩
        · refine takeOut_keeps ?_ (by dsimp only; rw [hs]; simp) (by dsimp only; rw [hs]; exact ico_insert (by omega)) s
          intro kk _
          rw [upTarget_lev ht, ← hc]
        · dsimp only at h1
          have := (hq.levels ht).2 (q.nUl - (r + 1)) k (by omega) h2
          omega
      · rw [if_neg hc]
        refine ⟨rfl, Nat.le_refl _, fun k h1 h2 => ?_⟩
        have h3 := hge (q.nUl - (r + 1)) (Nat.le_refl _) (by omega)
        have h4 := hq.mono (show q.nUl - (r + 1) ≤ k from h1) h2
        omega

theorem upLoopA_keeps (hq : q.Ok p.nLayers) {st : Buf ℝ} {saved : Nat → Nat → ℝ}
    (hS : ∀ n kk, n < p.nLayers → kk < p.nUv → saved n kk = (upStage p st (p.nLayers - (n + 1))).v kk) : ∀ k n r (s : RSt),
    n + k = p.nLayers → r ≤ q.nUl → (∀ i, q.nUl - r ≤ i → i < q.nUl → n ≤ q.ul i) →
    let x := upLoopA p q saved k n r s
    full p j (Finset.Ico (q.nUl - x.1) q.nUl) (fun k => (upTarget p q st k).l j) (st.l j) x.2 =
      full p j (Finset.Ico (q.nUl - r) q.nUl) (fun k => (upTarget p q st k).l j) ((upStage p st (p.nLayers - n)).l j) s ∧
    x.1 ≤ r ∧ ∀ i, q.nUl - x.1 ≤ i → i < q.nUl → p.nLayers ≤ q.ul i
  | 0, n, r, s, hn, hr, hge => by
      have e : p.nLayers - n = 0 := by omega
      rw [e]
      exact ⟨rfl, Nat.le_refl _, fun i a b => by have := hge i a b; omega⟩
  | k + 1, n, r, s, hn, hr, hge => by
      have hnl : n < p.nLayers := by omega
      have e1 : p.nLayers - n = p.nLayers - (n + 1) + 1 := by omega
      have e2 : p.nLayers - 1 - (p.nLayers - (n + 1)) = n := by omega
      have hst : upStage p st (p.nLayers - n) = after p (upFac p n 0) n (upStage p st (p.nLayers - (n + 1))) := by
        rw [e1]
        show after p (upFac p (p.nLayers - 1 - (p.nLayers - (n + 1))) Arith.zero) _ _ = _
        rw [e2]
        rfl
      have hlay : ∀ (K : Finset Nat) (s : RSt), full p j K (fun k => (upTarget p q st k).l j)
          ((upStage p st (p.nLayers - (n + 1))).l j) (passLayer (upLayerA p n 0 (saved n)) s) =
          full p j K (fun k => (upTarget p q st k).l j) ((upStage p st (p.nLayers - n)).l j) s := by
        intro K s
        rw [hst]
        exact passLayer_keeps hnl (up_right n 0 _ fun kk hk => hS n kk hnl hk) s
      cases ht : q.tau
      · obtain ⟨h1, h2, h3⟩ := upMarkA_keeps (j := j) (st := st) hq ht r s hr hge
        have ih := upLoopA_keeps hq hS k (n + 1) (upMarkA p q n r s).1 (passLayer (upLayerA p n 0 (saved n)) (upMarkA p q n r s).2)
          (by omega) (by omega) h3
        simp only [upLoopA, ht, Bool.false_eq_true, if_false]
        exact ⟨ih.1.trans ((hlay _ _).trans h1), Nat.le_trans ih.2.1 h2, ih.2.2⟩
      · obtain ⟨h1, h2, h3⟩ := upWhileA_keeps (j := j) (st := st) hq ht hnl (I := saved n) (fun kk hk => hS n kk hnl hk) r
          (passLayer (upLayerA p n 0 (saved n)) s) hr hge
        have ih := upLoopA_keeps hq hS k (n + 1) (upWhileA p q n (saved n) r (passLayer (upLayerA p n 0 (saved n)) s)).1
          (upWhileA p q n (saved n) r (passLayer (upLayerA p n 0 (saved n)) s)).2 (by omega) (by omega) h3
        simp only [upLoopA, ht, if_true]
        exact ⟨ih.1.trans (h1.trans (hlay _ _)), Nat.le_trans ih.2.1 h2, ih.2.2⟩

theorem upLastA_keeps (hq : q.Ok p.nLayers) {st : Buf ℝ} : ∀ r (s : RSt), r ≤ q.nUl →
    (∀ i, q.nUl - r ≤ i → i < q.nUl → p.nLayers ≤ q.ul i) →
    dot p j (upLastA p q r s).w + vdot p.nUv (upLastA p q r s).inp (st.l j) =
      full p j (Finset.Ico (q.nUl - r) q.nUl) (fun k => (upTarget p q st k).l j) (st.l j) s
  | 0, s, _, _ => by simp [upLastA, full]
  | r + 1, s, hr, hge => by
      have h1 := hge (q.nUl - (r + 1)) (Nat.le_refl _) (by omega)
      cases ht : q.tau
      · have h2 := (hq.levels ht).1 (q.nUl - (r + 1)) (by omega)
        have h3 : q.ul (q.nUl - (r + 1)) = p.nLayers := by omega
        have hr0 : r = 0 := by
          by_contra hne
          have h4 := (hq.levels ht).2 (q.nUl - (r + 1)) (q.nUl - (r + 1) + 1) (by omega) (by omega)
          have h5 := (hq.levels ht).1 (q.nUl - (r + 1) + 1) (by omega)
          omega
        subst hr0
        have hb : atBottom p q (q.nUl - (0 + 1)) = true := by simp [atBottom, ht, h3]
        dsimp only [upLastA]
        rw [if_pos hb]
        have := takeOut_keeps (p := p) (j := j) (K := Finset.Ico (q.nUl - (0 + 1)) q.nUl) (K' := ∅) (T := fun k => (upTarget p q st k).l j)
          (m := q.nUl - (0 + 1)) (l := st.l j) (fun kk _ => by
            rw [upTarget_lev ht, h3, Nat.sub_self]; rfl) (by simp) (by
            rw [ico_insert (by omega), show q.nUl - (0 + 1) + 1 = q.nUl by omega, Finset.Ico_self]) s
        rw [← this]
        simp [full]
      · have := (hq.taus ht).1 (q.nUl - (r + 1)) (by omega)
        omega

theorem vdot_scaleOut (x : Nat → Nat → ℝ) {k : Nat} (hk : k < q.nUl) (l : Nat → ℝ) :
    vdot p.nUv (scaleOut p q x k) l = vdot p.nUv (x k) (fun kk => l kk * scale p kk) :=
  Finset.sum_congr rfl fun kk h => by
    show (if k < q.nUl ∧ kk < p.nUv then x k kk * scale p kk else _) * l kk = _
    rw [if_pos ⟨hk, Finset.mem_range.1 h⟩]
    ring

theorem start_l (inp w : Buf ℝ) (hj : j < p.nDerivs) {kk : Nat} (hk : kk < p.nUv) :
    (start p inp w).l j kk = inp.l j kk / scale p kk := if_pos ⟨hj, hk⟩

theorem scaled_l (b : Buf ℝ) (hj : j < p.nDerivs) {kk : Nat} (hk : kk < p.nUv) :
    (scaled p b).l j kk = b.l j kk * scale p kk := if_pos ⟨hj, hk⟩

theorem upA_keeps (hq : q.Ok p.nLayers) (hj : j < p.nDerivs) (hF : SNum.isZero p.F0 = false) (inp w : Buf ℝ)
    {saved : Nat → Nat → ℝ} (hS : ∀ n, n < p.nLayers → saved n = (upSaved p (start p inp w) (p.nLayers - (n + 1))).v)
    (x : Res) : ∃ y, upA p q saved x = some y ∧ (∀ k kk, k < q.nUl → kk < p.nUv → y.out k kk = 0) ∧
      dot p j y.w + vdot p.nUv y.inA (inp.l j) = dot p j x.w + vdot p.nUv x.inA (inp.l j) +
        ∑ k ∈ Finset.range q.nUl, vdot p.nUv (x.out k) ((scaled p (upTarget p q (start p inp w) k)).l j) := by
  have hul : q.ul 0 ≤ p.nLayers := by
    cases ht : q.tau
    · exact (hq.levels ht).1 0 hq.some
    · exact Nat.le_of_lt ((hq.taus ht).1 0 hq.some)
  obtain ⟨h1, h2, h3⟩ := upLoopA_keeps (j := j) (st := start p inp w) (saved := saved) hq
    (fun n kk hn hk => by rw [hS n hn]; exact (upSaved_agree _ _ kk hk).1) (p.nLayers - q.ul 0) (q.ul 0) q.nUl
    { w := x.w, inp := fun _ => 0, out := scaleOut p q x.out } (by omega) (Nat.le_refl _)
    (fun i _ h => hq.mono (Nat.zero_le _) h)
  have h4 := upLastA_keeps (j := j) (st := start p inp w) hq _
    (upLoopA p q saved (p.nLayers - q.ul 0) (q.ul 0) q.nUl { w := x.w, inp := fun _ => 0, out := scaleOut p q x.out }).2 h2 h3
  unfold upA
  rw [if_neg (by rw [hF]; decide)]
  refine ⟨_, rfl, fun k kk a b => if_pos ⟨a, b⟩, ?_⟩
  dsimp only
  rw [h1] at h4
  generalize upLastA p q _ _ = s at h4 ⊢
  have e1 : vdot p.nUv (fun kk => if kk < p.nUv then x.inA kk + s.inp kk / scale p kk else x.inA kk) (inp.l j) =
      vdot p.nUv x.inA (inp.l j) + vdot p.nUv s.inp ((start p inp w).l j) := by
    unfold vdot
    rw [← Finset.sum_add_distrib]
    refine Finset.sum_congr rfl fun kk h => ?_
    have hk := Finset.mem_range.1 h
    dsimp only
    rw [if_pos hk, start_l inp w hj hk]
    ring
  rw [e1]
  have e2 : full p j (Finset.Ico (q.nUl - q.nUl) q.nUl) (fun k => (upTarget p q (start p inp w) k).l j)
      ((upStage p (start p inp w) (p.nLayers - q.ul 0)).l j) { w := x.w, inp := fun _ => 0, out := scaleOut p q x.out } =
      dot p j x.w + ∑ k ∈ Finset.range q.nUl, vdot p.nUv (x.out k) ((scaled p (upTarget p q (start p inp w) k)).l j) := by
    unfold full
    dsimp only
    rw [vdot_zero p.nUv (a := fun _ => 0) _ (fun _ _ => rfl), add_zero, Nat.sub_self, ← Finset.range_eq_Ico]
    congr 1
    refine Finset.sum_congr rfl fun k hk => ?_
    rw [vdot_scaleOut _ (Finset.mem_range.1 hk)]
    exact vdot_congr (fun _ _ => rfl) fun kk hkk => (scaled_l _ hj hkk).symm
  rw [e2] at h4
  linarith

/-! ### Down -/

theorem range_insert (r : Nat) : Finset.range (r + 1) = insert r (Finset.range r) := Finset.range_add_one

/-- Before any depth of the layer has been passed, nothing has changed. -/
theorem dn_none (n : Nat) (r : Buf ℝ) (kk : Nat) : (after p (dnFac p n 0) n r).l j kk = r.l j kk := by
  show Wl p n (dnFac p n 0 (kk / p.nStokes)) r j kk = _
  rw [Wl_dn]
  generalize kk / p.nStokes = i
  show -((0 : ℝ) * p.ltauL n j / p.ltau n) * (Real.exp (-0 / p.umus i) / p.umus i) * r.v kk +
      Real.exp (-0 / p.umus i) * r.l j kk +
      p.P n kk * ((Real.exp (-0 / p.umus i) - Real.exp (-0 * p.as0 n)) / (p.as0 n - 1 / p.umus i) *
        (p.btranL n j * p.omega n + p.btran n * p.omegaL n j) +
        p.btran n * p.omega n *
          (-((0 : ℝ) * p.ltauL n j / p.ltau n) * (Real.exp (-0 / p.umus i) / p.umus i) -
            (-((0 : ℝ) * p.ltauL n j / p.ltau n) * p.as0 n - 0 * p.as0L n j) * Real.exp (-0 * p.as0 n) -
            (Real.exp (-0 / p.umus i) - Real.exp (-0 * p.as0 n)) / (p.as0 n - 1 / p.umus i) * p.as0L n j) /
          (p.as0 n - 1 / p.umus i)) +
      p.btran n * p.omega n * (if p.flag n j then p.PL n j kk else 0) *
        ((Real.exp (-0 / p.umus i) - Real.exp (-0 * p.as0 n)) / (p.as0 n - 1 / p.umus i)) = _
  simp

theorem dnTarget_tau (ht : q.tau = true) (st : Buf ℝ) (k : Nat) (kk : Nat) :
    (dnTarget p q st k).l j kk = (after p (dnFac p (q.ul k) (q.ut k)) (q.ul k) (dnStage p st (q.ul k))).l j kk := by
  unfold dnTarget
  rw [if_pos ht]
  by_cases h : q.ul k = 0 ∧ SNum.isZero (q.ut k) = true
  · have h0 : q.ut k = 0 := of_decide_eq_true h.2
    rw [if_pos h, h.1, h0, dn_none]
    rfl
  · rw [if_neg h]

theorem dnTarget_lev (ht : q.tau = false) (st : Buf ℝ) (k : Nat) : dnTarget p q st k = dnStage p st (q.ul k) :=
  if_neg (by rw [ht]; decide)

theorem dnWhileA_keeps (hq : q.Ok p.nLayers) (ht : q.tau = true) {st : Buf ℝ} {n : Nat} (hn : n < p.nLayers) {I : Nat → ℝ}
    (hI : ∀ kk, kk < p.nUv → I kk = (dnStage p st n).v kk) : ∀ r (s : RSt), r ≤ q.nUl →
    (∀ k, k < r → q.ul k ≤ n) →
    let x := dnWhileA p q n I r s
    full p j (Finset.range x.1) (fun k => (dnTarget p q st k).l j) ((dnStage p st n).l j) x.2 =
      full p j (Finset.range r) (fun k => (dnTarget p q st k).l j) ((dnStage p st n).l j) s ∧
    x.1 ≤ r ∧ (∀ k, k < x.1 → q.ul k < n) ∧ ∀ k, q.ul k < n → k < r → k < x.1
  | 0, s, _, _ => ⟨rfl, Nat.le_refl _, fun k h => absurd h (Nat.not_lt_zero k), fun k _ h => h⟩
  | r + 1, s, hr, hle => by
      unfold dnWhileA
      by_cases hc : n = q.ul r
      · rw [if_pos hc]
        obtain ⟨h1, h2, h3, h4⟩ := dnWhileA_keeps hq ht hn hI r (passOut (dnLayerA p n (q.ut r) I) r s) (by omega)
          (fun k a => hle k (by omega))
        refine ⟨h1.trans ?_, by omega, h3, fun k a b => h4 k a (by
          rcases Nat.lt_or_ge k r with h | h
          · exact h
          · obtain rfl : k = r := by omega
            omega)⟩
        refine passOut_keeps hn ?_ Finset.notMem_range_self (range_insert r) s
        have e : (dnTarget p q st r).l j = (after p (dnFac p n (q.ut r)) n (dnStage p st n)).l j := by
          funext kk
          rw [dnTarget_tau ht, ← hc]
        rw [e]
        exact dn_right n _ _ hI
      · rw [if_neg hc]
        refine ⟨rfl, Nat.le_refl _, fun k h1 => ?_, fun k _ h => h⟩
        have h3 := hle r (by omega)
        have h4 := hq.mono (show k ≤ r by dsimp only at h1; omega) (by omega)
        omega

theorem dnMarkA_keeps (hq : q.Ok p.nLayers) (ht : q.tau = false) {st : Buf ℝ} {n : Nat} : ∀ r (s : RSt), r ≤ q.nUl →
    (∀ k, k < r → q.ul k ≤ n + 1) →
    let x := dnMarkA p q n r s
    full p j (Finset.range x.1) (fun k => (dnTarget p q st k).l j) ((dnStage p st (n + 1)).l j) x.2 =
      full p j (Finset.range r) (fun k => (dnTarget p q st k).l j) ((dnStage p st (n + 1)).l j) s ∧
    x.1 ≤ r ∧ ∀ k, k < x.1 → q.ul k ≤ n
  | 0, s, _, _ => ⟨rfl, Nat.le_refl _, fun k h => absurd h (Nat.not_lt_zero k)⟩
  | r + 1, s, hr, hle => by
      dsimp only [dnMarkA]
      by_cases hc : n + 1 = q.ul r
      · rw [if_pos hc]
        refine ⟨takeOut_keeps (fun kk _ => ?_) Finset.notMem_range_self (range_insert r) s, by dsimp only; omega, fun k h1 => ?_⟩
        · rw [dnTarget_lev ht, ← hc]
        · dsimp only at h1
          have := (hq.levels ht).2 k r h1 (by omega)
          omega
      · rw [if_neg hc]
        refine ⟨rfl, Nat.le_refl _, fun k h1 => ?_⟩
        have h3 := hle r (by omega)
        have h4 := hq.mono (show k ≤ r by dsimp only at h1; omega) (by omega)
        omega

theorem dnLoopA_keeps (hq : q.Ok p.nLayers) {st : Buf ℝ} {saved : Nat → Nat → ℝ}
    (hS : ∀ n kk, n < p.nLayers → kk < p.nUv → saved n kk = (dnStage p st n).v kk) : ∀ k r (s : RSt),
    k ≤ p.nLayers → r ≤ q.nUl → (∀ i, i < r → if q.tau = true then q.ul i < k else q.ul i ≤ k) →
    let x := dnLoopA p q saved k r s
    full p j (Finset.range x.2.1) (fun k => (dnTarget p q st k).l j) (st.l j) x.2.2 =
      full p j (Finset.range r) (fun k => (dnTarget p q st k).l j) ((dnStage p st k).l j) s ∧
    x.2.1 ≤ r ∧ ∀ i, i < x.2.1 → if q.tau = true then q.ul i < 0 else q.ul i ≤ 0
  | 0, r, s, hn, hr, hle => ⟨rfl, Nat.le_refl _, hle⟩
  | k + 1, r, s, hn, hr, hle => by
      have hlay : ∀ (K : Finset Nat) (s : RSt), full p j K (fun k => (dnTarget p q st k).l j)
          ((dnStage p st k).l j) (passLayer (dnLayerA p k (p.ltau k) (saved k)) s) =
          full p j K (fun k => (dnTarget p q st k).l j) ((dnStage p st (k + 1)).l j) s := by
        intro K s
        exact passLayer_keeps (by omega) (dn_right k _ _ fun kk hk => hS k kk (by omega) hk) s
      cases ht : q.tau
      · simp only [ht, Bool.false_eq_true, if_false] at hle
        obtain ⟨h1, h2, h3⟩ := dnMarkA_keeps (j := j) (st := st) hq ht r s hr hle
        have ih := dnLoopA_keeps hq hS k (dnMarkA p q k r s).1
          (passLayer (dnLayerA p k (p.ltau k) (saved k)) (dnMarkA p q k r s).2) (by omega) (by omega) (by
            simp only [ht, Bool.false_eq_true, if_false]; exact h3)
        simp only [dnLoopA, ht, Bool.false_eq_true, if_false]
        simp only [ht, Bool.false_eq_true, if_false] at ih
        exact ⟨ih.1.trans ((hlay _ _).trans h1), Nat.le_trans ih.2.1 h2, ih.2.2⟩
      · simp only [ht, if_true] at hle
        obtain ⟨h1, h2, h3, -⟩ := dnWhileA_keeps (j := j) (st := st) hq ht (show k < p.nLayers by omega) (I := saved k)
          (fun kk hk => hS k kk (by omega) hk) r (passLayer (dnLayerA p k (p.ltau k) (saved k)) s) hr
          (fun i hi => by have := hle i hi; omega)
        have ih := dnLoopA_keeps hq hS k (dnWhileA p q k (saved k) r (passLayer (dnLayerA p k (p.ltau k) (saved k)) s)).1
          (dnWhileA p q k (saved k) r (passLayer (dnLayerA p k (p.ltau k) (saved k)) s)).2 (by omega) (by omega) (by
            simp only [ht, if_true]; exact h3)
        simp only [dnLoopA, ht, if_true]
        simp only [ht, if_true] at ih
        exact ⟨ih.1.trans (h1.trans (hlay _ _)), Nat.le_trans ih.2.1 h2, ih.2.2⟩

theorem dnLastA_keeps (hq : q.Ok p.nLayers) {st : Buf ℝ} : ∀ r (s : RSt), r ≤ q.nUl →
    (∀ i, i < r → if q.tau = true then q.ul i < 0 else q.ul i ≤ 0) →
    dot p j (dnLastA p q r s).w + vdot p.nUv (dnLastA p q r s).inp (st.l j) =
      full p j (Finset.range r) (fun k => (dnTarget p q st k).l j) (st.l j) s
  | 0, s, _, _ => by simp [dnLastA, full]
  | r + 1, s, hr, hle => by
      cases ht : q.tau
      · simp only [ht, Bool.false_eq_true, if_false] at hle
        have h3 : q.ul r = 0 := by have := hle r (by omega); omega
        have hr0 : r = 0 := by
          by_contra hne
          have h4 := (hq.levels ht).2 0 r (by omega) (by omega)
          omega
        subst hr0
        dsimp only [dnLastA]
        rw [if_pos (by simp [ht, h3])]
        have := takeOut_keeps (p := p) (j := j) (K := Finset.range (0 + 1)) (K' := ∅) (T := fun k => (dnTarget p q st k).l j)
          (m := 0) (l := st.l j) (fun kk _ => by
            rw [dnTarget_lev ht, h3]; rfl) (by simp) (by simp) s
        rw [← this]
        simp [full]
      · simp only [ht, if_true] at hle
        exact absurd (hle 0 (by omega)) (Nat.not_lt_zero _)

theorem dnA_keeps (hq : q.Ok p.nLayers) (hj : j < p.nDerivs) (hF : SNum.isZero p.F0 = false) (inp w : Buf ℝ)
    {saved : Nat → Nat → ℝ} (hS : ∀ n, n < p.nLayers → saved n = (dnSaved p (start p inp w) n).v)
    (x : Res) : ∃ bad y, dnA p q saved x = some (bad, y) ∧ (∀ k kk, k < q.nUl → kk < p.nUv → y.out k kk = 0) ∧
      dot p j y.w + vdot p.nUv y.inA (inp.l j) = dot p j x.w +
        ∑ k ∈ Finset.range q.nUl, vdot p.nUv (x.out k) ((scaled p (dnTarget p q (start p inp w) k)).l j) := by
  have hs := hq.some
  have hk : (if q.tau then q.ul (q.nUl - 1) + 1 else q.ul (q.nUl - 1)) ≤ p.nLayers := by
    cases ht : q.tau
    · exact (hq.levels ht).1 _ (by omega)
    · exact (hq.taus ht).1 _ (by omega)
  obtain ⟨h1, h2, h3⟩ := dnLoopA_keeps (j := j) (st := start p inp w) (saved := saved) hq
    (fun n kk hn hk => by rw [hS n hn]; exact (dnSaved_agree _ _ kk hk).1)
    (if q.tau then q.ul (q.nUl - 1) + 1 else q.ul (q.nUl - 1)) q.nUl
    { w := x.w, inp := fun _ => 0, out := scaleOut p q x.out } hk (Nat.le_refl _)
    (fun i h => by
      have := hq.mono (show i ≤ q.nUl - 1 by omega) (by omega)
      cases ht : q.tau
      · simpa [ht] using this
      · simp only [if_true]; omega)
  have h4 := dnLastA_keeps (j := j) (st := start p inp w) hq _
    (dnLoopA p q saved (if q.tau then q.ul (q.nUl - 1) + 1 else q.ul (q.nUl - 1)) q.nUl
      { w := x.w, inp := fun _ => 0, out := scaleOut p q x.out }).2.2 h2 h3
  unfold dnA
  rw [if_neg (by rw [hF]; decide)]
  refine ⟨_, _, rfl, fun k kk a b => if_pos ⟨a, b⟩, ?_⟩
  dsimp only
  rw [h1] at h4
  generalize dnLastA p q _ _ = s at h4 ⊢
  have e1 : vdot p.nUv (fun kk => if kk < p.nUv then s.inp kk / scale p kk else x.inA kk) (inp.l j) =
      vdot p.nUv s.inp ((start p inp w).l j) := by
    refine Finset.sum_congr rfl fun kk h => ?_
    have hk := Finset.mem_range.1 h
    dsimp only
    rw [if_pos hk, start_l inp w hj hk]
    ring
  rw [e1]
  have e2 : full p j (Finset.range q.nUl) (fun k => (dnTarget p q (start p inp w) k).l j)
      ((dnStage p (start p inp w) (if q.tau then q.ul (q.nUl - 1) + 1 else q.ul (q.nUl - 1))).l j)
      { w := x.w, inp := fun _ => 0, out := scaleOut p q x.out } =
      dot p j x.w + ∑ k ∈ Finset.range q.nUl, vdot p.nUv (x.out k) ((scaled p (dnTarget p q (start p inp w) k)).l j) := by
    unfold full
    dsimp only
    rw [vdot_zero p.nUv (a := fun _ => 0) _ (fun _ _ => rfl), add_zero]
    congr 1
    refine Finset.sum_congr rfl fun k hk => ?_
    rw [vdot_scaleOut _ (Finset.mem_range.1 hk)]
    exact vdot_congr (fun _ _ => rfl) fun kk hkk => (scaled_l _ hj hkk).symm
  rw [e2] at h4
  linarith

theorem dnWhileA_count (hq : q.Ok p.nLayers) (n : Nat) (I : Nat → ℝ) : ∀ r (s : RSt), r ≤ q.nUl → (∀ i, i < r → q.ul i ≤ n) →
    let x := dnWhileA p q n I r s
    x.1 ≤ r ∧ (∀ k, k < x.1 → q.ul k < n) ∧ ∀ k, q.ul k < n → k < r → k < x.1
  | 0, s, _, _ => ⟨Nat.le_refl _, fun k h => absurd h (Nat.not_lt_zero k), fun k _ h => h⟩
  | r + 1, s, hr, hle => by
      unfold dnWhileA
      by_cases hc : n = q.ul r
      · rw [if_pos hc]
        obtain ⟨h2, h3, h4⟩ := dnWhileA_count hq n I r (passOut (dnLayerA p n (q.ut r) I) r s) (by omega)
          (fun k a => hle k (by omega))
        refine ⟨by omega, h3, fun k a b => h4 k a ?_⟩
        rcases Nat.lt_or_ge k r with h | h
        · exact h
        · obtain rfl : k = r := by omega
          omega
      · rw [if_neg hc]
        refine ⟨Nat.le_refl _, fun k h1 => ?_, fun k _ h => h⟩
        have h3 := hle r (by omega)
        have h4 := hq.mono (show k ≤ r by dsimp only at h1; omega) (by omega)
        omega

/-- Is `ulevels[-1]` read? -/
theorem dnLoopA_bad (hq : q.Ok p.nLayers) (ht : q.tau = true) (saved : Nat → Nat → ℝ) : ∀ k r (s : RSt), r ≤ q.nUl →
    (∀ i, i < r → q.ul i < k) → (∀ i, q.ul i < k → i < q.nUl → i < r) →
    ((dnLoopA p q saved k r s).1 = true ↔ 0 < q.ul 0 ∧ 0 < k)
  | 0, r, s, _, _, _ => by simp [dnLoopA]
  | k + 1, r, s, hr, hle, hge => by
      obtain ⟨h2, h3, h4⟩ := dnWhileA_count hq k (saved k) r (passLayer (dnLayerA p k (p.ltau k) (saved k)) s) hr
        (fun i hi => by have := hle i hi; omega)
      have ih := dnLoopA_bad hq ht saved k _ (dnWhileA p q k (saved k) r (passLayer (dnLayerA p k (p.ltau k) (saved k)) s)).2
        (Nat.le_trans h2 hr) h3 (fun i a b => h4 i a (hge i (by omega) b))
      have h0 := hq.some
      simp only [dnLoopA, ht, if_true, Bool.true_and, Bool.or_eq_true, beq_iff_eq]
      rw [ih]
      constructor
      · rintro (h | ⟨h, -⟩)
        · refine ⟨?_, by omega⟩
          by_contra hc
          have := hge 0 (by omega) h0
          omega
        · exact ⟨h, by omega⟩
      · rintro ⟨h, -⟩
        rcases Nat.eq_zero_or_pos k with hk | hk
        · left
          by_contra hc
          have := hle 0 (by omega)
          omega
        · exact Or.inr ⟨h, hk⟩

theorem dnLoopA_good (ht : q.tau = false) (saved : Nat → Nat → ℝ) : ∀ k r (s : RSt), (dnLoopA p q saved k r s).1 = false
  | 0, r, s => rfl
  | k + 1, r, s => by
      simp only [dnLoopA, ht, Bool.false_and, Bool.false_or, Bool.false_eq_true, if_false]
      exact dnLoopA_good ht saved k _ _

end Xrtm.SingleA
