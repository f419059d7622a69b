import Verif.Spec.Brdf
import Mathlib.Tactic.Ring
import Mathlib.Tactic.Linarith
import Mathlib.Tactic.FieldSimp

/-!
# The loops of the surface
-/

namespace Xrtm.Brdf

open Loops Spec

/-- What one kernel adds to a slot. -/
noncomputable def contrib (E : Env) (T : Term) (i j slot : Nat) : ℝ :=
  if T.kern.needsFourier then
    if 1 ≤ slot ∧ slot ≤ E.nQ then
      kernelValue E.A T.U E.g T.kern i j (slot - 1) (E.qx (slot - 1)) T.p * T.amp
    else if E.nQ < slot ∧ slot ≤ 2 * E.nQ then
      kernelValue E.A T.U E.g T.kern i j (slot - E.nQ - 1) (-E.qx (slot - E.nQ - 1)) T.p * T.amp
    else 0
  else if slot = 0 then kernelValue E.A T.U E.g T.kern i j 0 0 T.p * T.amp else 0

/-- What one kernel adds to a slot of a linearised column, if its `f_l` is `s`. -/
noncomputable def contribL (E : Env) (T : Term) (l : Nat) (s : Nat → Nat → Nat → ℝ → ℝ)
    (i j slot : Nat) : ℝ :=
  if T.kern.needsFourier then
    if 1 ≤ slot ∧ slot ≤ E.nQ then
      s i j (slot - 1) (E.qx (slot - 1)) * T.amp
        + kernelValue E.A T.U E.g T.kern i j (slot - 1) (E.qx (slot - 1)) T.p * T.ampL l
    else if E.nQ < slot ∧ slot ≤ 2 * E.nQ then
      s i j (slot - E.nQ - 1) (-E.qx (slot - E.nQ - 1)) * T.amp
        + kernelValue E.A T.U E.g T.kern i j (slot - E.nQ - 1) (-E.qx (slot - E.nQ - 1)) T.p
          * T.ampL l
    else 0
  else if slot = 0 then
    s i j 0 0 * T.amp + kernelValue E.A T.U E.g T.kern i j 0 0 T.p * T.ampL l
  else 0

theorem bump_at (A : Nat → ℝ) (i j : Nat) (x : ℝ) :
    bump A i x j = A j + if j = i then x else 0 := by
  by_cases h : j = i
  · subst h; simp
  · simp [bump_other _ _ h, h]

/-- The loop over the azimuths, on any quantity that a sample increases in its slot only. -/
theorem cell_slot (E : Env) (T : Term) (i j : Nat) (c : Col) (φ : Col → Nat → ℝ)
    (κ : Nat → ℝ → ℝ)
    (h : ∀ k ph slot c s, φ (sample E T i j k ph slot c) s
      = φ c s + if s = slot then κ k ph else 0) (s : Nat) :
    φ (cell E T i j c) s = φ c s +
      if T.kern.needsFourier then
        if 1 ≤ s ∧ s ≤ E.nQ then κ (s - 1) (E.qx (s - 1))
        else if E.nQ < s ∧ s ≤ 2 * E.nQ then κ (s - E.nQ - 1) (-E.qx (s - E.nQ - 1))
        else 0
      else if s = 0 then κ 0 0 else 0 := by
  unfold cell
  by_cases hf : T.kern.needsFourier = true
  · rw [if_pos hf, if_pos hf]
    have hmain := forN_ind_lt E.nQ (fun m c' => φ c' s = φ c s +
        if 1 ≤ s ∧ s ≤ m then κ (s - 1) (E.qx (s - 1))
        else if E.nQ < s ∧ s ≤ E.nQ + m then κ (s - E.nQ - 1) (-E.qx (s - E.nQ - 1))
        else 0)
      (fun k c => sample E T i j k (-E.qx k) (E.nQ + k + 1)
        (sample E T i j k (E.qx k) (k + 1) c)) c
      (by
        rw [if_neg (by omega), if_neg (by omega), add_zero])
      (by
        intro k c' hk ih
        rw [h, h, ih]
        by_cases h1 : s = k + 1
        · subst h1
          rw [if_pos rfl, if_neg (by omega), if_neg (by omega), if_neg (by omega),
            if_pos (by omega)]
          simp
        · by_cases h2 : s = E.nQ + k + 1
          · subst h2
            rw [if_pos rfl, if_neg h1, if_neg (by omega), if_neg (by omega), if_neg (by omega),
              if_pos (by omega)]
            have e : E.nQ + k + 1 - E.nQ - 1 = k := by omega
            rw [e]; ring
          · rw [if_neg h1, if_neg h2]
            by_cases h3 : 1 ≤ s ∧ s ≤ k
            · rw [if_pos h3, if_pos (by omega)]; ring
            · have h3' : ¬ (1 ≤ s ∧ s ≤ k + 1) := by omega
              rw [if_neg h3, if_neg h3']
              by_cases h4 : E.nQ < s ∧ s ≤ E.nQ + k
              · have h4' : E.nQ < s ∧ s ≤ E.nQ + (k + 1) := by omega
                rw [if_pos h4, if_pos h4']; ring
              · have h4' : ¬ (E.nQ < s ∧ s ≤ E.nQ + (k + 1)) := by omega
                rw [if_neg h4, if_neg h4']; ring)
    rw [hmain]
    by_cases h1 : 1 ≤ s ∧ s ≤ E.nQ
    · rw [if_pos h1, if_pos h1]
    · rw [if_neg h1, if_neg h1]
      by_cases h2 : E.nQ < s ∧ s ≤ 2 * E.nQ
      · rw [if_pos h2, if_pos (by omega)]
      · rw [if_neg h2, if_neg (by omega)]
  · rw [if_neg hf, if_neg hf, h]

theorem cell_f (E : Env) (T : Term) (i j : Nat) (c : Col) (s : Nat) :
    (cell E T i j c).f s = c.f s + contrib E T i j s := by
  rw [cell_slot E T i j c (fun c s => c.f s)
    (fun k ph => kernelValue E.A T.U E.g T.kern i j k ph T.p * T.amp)
    (fun k ph slot c s => by
      show bump c.f slot _ s = _
      rw [bump_at])]
  rfl

/-- A kernel that fills `f_l` for derivative `l` without regard to what it held. -/
def Fills (E : Env) (T : Term) (l : Nat) (s : Nat → Nat → Nat → ℝ → ℝ) : Prop :=
  ∀ i j k phi (m : Nat → ℝ),
    kernelLin T.U E.g T.kern i j k phi E.act T.p T.pL m l = s i j k phi

theorem cell_fl (E : Env) (T : Term) (l : Nat) (hl : E.act l = true)
    (w : Nat → Nat → Nat → ℝ → ℝ) (hw : Fills E T l w) (i j : Nat) (c : Col) (s : Nat) :
    (cell E T i j c).fl l s = c.fl l s + contribL E T l w i j s := by
  rw [cell_slot E T i j c (fun c s => c.fl l s)
    (fun k ph => w i j k ph * T.amp
      + kernelValue E.A T.U E.g T.kern i j k ph T.p * T.ampL l)
    (fun k ph slot c s => by
      show (if E.act l then bump (c.fl l) slot _ else c.fl l) s = _
      rw [if_pos hl, bump_at, hw])]
  rfl

/-! ### Directions and kernels -/

/-- A quantity of columns that does not look at the scratch memory and to which a kernel adds
a known amount. -/
structure Additive (E : Env) (φ : Col → ℝ) (κ : Term → Nat → Nat → ℝ) (ok : Term → Prop) :
    Prop where
  blind : ∀ c s, φ { c with scratch := s } = φ c
  step : ∀ T i j c, ok T → φ (cell E T i j c) = φ c + κ T i j

theorem vecs_additive (E : Env) (iOff n jOff : Nat) (g₀ : Nat → ℝ) (φ : Col → ℝ)
    (κ : Term → Nat → Nat → ℝ) (ok : Term → Prop) (h : Additive E φ κ ok) (Ts : List Term)
    (hok : ∀ T ∈ Ts, ok T) (jj : Nat) (hj : jj < n) :
    φ ((vecs E iOff n jOff g₀ Ts).1 jj)
      = φ { f := fun _ => 0, fl := fun _ _ => 0, scratch := g₀ }
        + (Ts.map fun T => κ T jOff (iOff + jj)).sum := by
  unfold vecs
  generalize hx : ((fun _ => { f := fun _ => 0, fl := fun _ _ => 0, scratch := g₀ }, g₀) :
    (Nat → Col) × (Nat → ℝ)) = x
  have h0 : φ { f := fun _ => 0, fl := fun _ _ => 0, scratch := g₀ } = φ (x.1 jj) := by
    rw [← hx]
  rw [h0]
  clear hx h0
  induction Ts generalizing x with
  | nil => simp
  | cons T Ts ih =>
    rw [List.foldl_cons, ih (fun T' hT' => hok T' (List.mem_cons_of_mem _ hT'))]
    have hT := hok T (List.mem_cons_self ..)
    have := forN_ind (fun m (y : (Nat → Col) × (Nat → ℝ)) =>
        φ (y.1 jj) = φ (x.1 jj) + if jj < m then κ T jOff (iOff + jj) else 0)
      (fun jj x =>
        let c := cell E T jOff (iOff + jj) { x.1 jj with scratch := x.2 }
        (put x.1 jj c, c.scratch)) x (by simp)
      (by
        intro m y ih
        dsimp only
        by_cases hm : jj = m
        · subst hm
          rw [put_same, h.step _ _ _ _ hT, h.blind, ih, if_neg (by omega), if_pos (by omega),
            add_zero]
        · rw [put_other _ _ hm, ih]
          by_cases h1 : jj < m
          · rw [if_pos h1, if_pos (by omega)]
          · rw [if_neg h1, if_neg (by omega)]) n
    rw [this, if_pos hj, List.map_cons, List.sum_cons, add_assoc]

theorem mats_additive (E : Env) (iOff n1 jOff n2 : Nat) (g₀ : Nat → ℝ) (φ : Col → ℝ)
    (κ : Term → Nat → Nat → ℝ) (ok : Term → Prop) (h : Additive E φ κ ok) (Ts : List Term)
    (hok : ∀ T ∈ Ts, ok T) (jj kk : Nat) (hj : jj < n1) (hk : kk < n2) :
    φ ((mats E iOff n1 jOff n2 g₀ Ts).1 jj kk)
      = φ { f := fun _ => 0, fl := fun _ _ => 0, scratch := g₀ }
        + (Ts.map fun T => κ T (jOff + kk) (iOff + jj)).sum := by
  unfold mats
  generalize hx : ((fun _ _ => { f := fun _ => 0, fl := fun _ _ => 0, scratch := g₀ }, g₀) :
    (Nat → Nat → Col) × (Nat → ℝ)) = x
  have h0 : φ { f := fun _ => 0, fl := fun _ _ => 0, scratch := g₀ } = φ (x.1 jj kk) := by
    rw [← hx]
  rw [h0]
  clear hx h0
  induction Ts generalizing x with
  | nil => simp
  | cons T Ts ih =>
    rw [List.foldl_cons, ih (fun T' hT' => hok T' (List.mem_cons_of_mem _ hT'))]
    have hT := hok T (List.mem_cons_self ..)
    have inner : ∀ (m : Nat) (y : (Nat → Nat → Col) × (Nat → ℝ)),
        φ ((forN n2 (fun kk x =>
            let c := cell E T (jOff + kk) (iOff + m) { x.1 m kk with scratch := x.2 }
            (put x.1 m (put (x.1 m) kk c), c.scratch)) y).1 jj kk)
          = φ (y.1 jj kk) + if jj = m then κ T (jOff + kk) (iOff + jj) else 0 := by
      intro m y
      have := forN_ind (fun r (z : (Nat → Nat → Col) × (Nat → ℝ)) =>
          φ (z.1 jj kk) = φ (y.1 jj kk)
            + if jj = m ∧ kk < r then κ T (jOff + kk) (iOff + jj) else 0)
        (fun kk x =>
            let c := cell E T (jOff + kk) (iOff + m) { x.1 m kk with scratch := x.2 }
            (put x.1 m (put (x.1 m) kk c), c.scratch)) y (by simp)
        (by
          intro r z ih
          dsimp only
          by_cases hm : jj = m
          · subst hm
            rw [put_same]
            by_cases hr : kk = r
            · subst hr
              rw [put_same, h.step _ _ _ _ hT, h.blind, ih, if_neg (by omega),
                if_pos ⟨rfl, by omega⟩, add_zero]
            · rw [put_other _ _ hr, ih]
              by_cases h1 : kk < r
              · rw [if_pos ⟨rfl, h1⟩, if_pos ⟨rfl, by omega⟩]
              · rw [if_neg (by omega), if_neg (by omega)]
          · rw [put_other _ _ hm, ih, if_neg (by omega), if_neg (by omega)]) n2
      rw [this]
      by_cases hm : jj = m
      · rw [if_pos ⟨hm, hk⟩, if_pos hm]
      · rw [if_neg (fun e => hm e.1), if_neg hm]
    have := forN_ind (fun m (y : (Nat → Nat → Col) × (Nat → ℝ)) =>
        φ (y.1 jj kk) = φ (x.1 jj kk) + if jj < m then κ T (jOff + kk) (iOff + jj) else 0)
      (fun m x => forN n2 (fun kk x =>
            let c := cell E T (jOff + kk) (iOff + m) { x.1 m kk with scratch := x.2 }
            (put x.1 m (put (x.1 m) kk c), c.scratch)) x) x (by simp)
      (by
        intro m y ih
        rw [inner, ih]
        by_cases hm : jj = m
        · subst hm
          rw [if_pos rfl, if_neg (by omega), if_pos (by omega), add_zero]
        · rw [if_neg hm, add_zero]
          by_cases h1 : jj < m
          · rw [if_pos h1, if_pos (by omega)]
          · rw [if_neg h1, if_neg (by omega)]) n1
    rw [this, if_pos hj, List.map_cons, List.sum_cons, add_assoc]

theorem additive_f (E : Env) (s : Nat) :
    Additive E (fun c => c.f s) (fun T i j => contrib E T i j s) (fun _ => True) :=
  ⟨fun _ _ => rfl, fun T i j c _ => cell_f E T i j c s⟩

theorem additive_fl (E : Env) (l s : Nat) (hl : E.act l = true)
    (w : Term → Nat → Nat → Nat → ℝ → ℝ) :
    Additive E (fun c => c.fl l s) (fun T i j => contribL E T l (w T) i j s)
      (fun T => Fills E T l (w T)) :=
  ⟨fun _ _ => rfl, fun T i j c h => cell_fl E T l hl (w T) h i j c s⟩

/-! ### Fourier terms -/

theorem fourierTerm_eq (E : Env) (m : Nat) (f : Nat → ℝ) :
    fourierTerm E true m f = (if m = 0 then f 0 else 0)
      + ∑ k ∈ Finset.range E.nQ, E.qw k * ((f (k + 1) * Real.cos (m * E.qx k)
          + f (E.nQ + k + 1) * Real.cos (m * -E.qx k)) / 2) := by
  unfold fourierTerm
  rw [if_pos rfl]
  have : (fun k (r : ℝ) =>
        r + f (k + 1) * (E.qw k * Real.cos (m * E.qx k) / 2)
          + f (E.nQ + k + 1) * (E.qw k * Real.cos (m * -E.qx k) / 2))
      = fun k r => r + E.qw k * ((f (k + 1) * Real.cos (m * E.qx k)
          + f (E.nQ + k + 1) * Real.cos (m * -E.qx k)) / 2) := by
    funext k r; ring
  rw [this, forN_sum]

theorem sum_contrib_even (E : Env) (Ts : List Term) (i j : Nat) :
    (Ts.map fun T => contrib E T i j 0).sum = even E Ts i j := by
  induction Ts with
  | nil => rfl
  | cons T Ts ih =>
    rw [List.map_cons, List.sum_cons, ih]
    unfold even contrib
    by_cases h : T.kern.needsFourier = true
    · rw [if_pos h, if_neg (by omega), if_neg (by omega), List.filter_cons_of_neg (by simp [h]),
        zero_add]
    · rw [if_neg h, if_pos rfl, List.filter_cons_of_pos (by simp [h]), List.map_cons,
        List.sum_cons, mul_comm]

theorem sum_contrib_plus (E : Env) (Ts : List Term) (i j k : Nat) (hk : k < E.nQ) :
    (Ts.map fun T => contrib E T i j (k + 1)).sum = uneven E Ts i j k (E.qx k) := by
  induction Ts with
  | nil => rfl
  | cons T Ts ih =>
    rw [List.map_cons, List.sum_cons, ih]
    unfold uneven contrib
    by_cases h : T.kern.needsFourier = true
    · rw [if_pos h, if_pos (by omega), List.filter_cons_of_pos (by simp [h]), List.map_cons,
        List.sum_cons, Nat.add_sub_cancel, mul_comm]
    · rw [if_neg h, if_neg (by omega), List.filter_cons_of_neg (by simp [h]), zero_add]

theorem sum_contrib_minus (E : Env) (Ts : List Term) (i j k : Nat) (hk : k < E.nQ) :
    (Ts.map fun T => contrib E T i j (E.nQ + k + 1)).sum = uneven E Ts i j k (-E.qx k) := by
  induction Ts with
  | nil => rfl
  | cons T Ts ih =>
    rw [List.map_cons, List.sum_cons, ih]
    unfold uneven contrib
    by_cases h : T.kern.needsFourier = true
    · have e : E.nQ + k + 1 - E.nQ - 1 = k := by omega
      rw [if_pos h, if_neg (by omega), if_pos (by omega), List.filter_cons_of_pos (by simp [h]),
        List.map_cons, List.sum_cons, e, mul_comm]
    · rw [if_neg h, if_neg (by omega), List.filter_cons_of_neg (by simp [h]), zero_add]

theorem uneven_none (E : Env) (Ts : List Term) (h : needsFourier Ts = false) (i j k : Nat)
    (phi : ℝ) : uneven E Ts i j k phi = 0 := by
  unfold uneven
  have : Ts.filter (fun T => T.kern.needsFourier) = [] := by
    rw [List.filter_eq_nil_iff]
    intro T hT hc
    have : needsFourier Ts = true := List.any_eq_true.2 ⟨T, hT, hc⟩
    rw [h] at this
    exact Bool.noConfusion this
  rw [this]; rfl

/-- The Fourier term of a column that holds the sums over the kernels. -/
theorem fourierTerm_col (E : Env) (Ts : List Term) (i j m : Nat) (f : Nat → ℝ)
    (hf : ∀ s, f s = (Ts.map fun T => contrib E T i j s).sum)
    (hm : m = 0 ∨ needsFourier Ts = true) :
    fourierTerm E (needsFourier Ts) m f = (if m = 0 then even E Ts i j else 0)
      + average E fun k phi => uneven E Ts i j k phi * Real.cos (m * phi) := by
  by_cases h : needsFourier Ts = true
  · rw [h, fourierTerm_eq, hf 0, sum_contrib_even]
    congr 1
    unfold average
    refine Finset.sum_congr rfl fun k hk => ?_
    have hk' := Finset.mem_range.1 hk
    rw [hf, hf, sum_contrib_plus E Ts i j k hk', sum_contrib_minus E Ts i j k hk']
  · have h' : needsFourier Ts = false := by simpa using h
    have hm0 : m = 0 := hm.resolve_right h
    subst hm0
    rw [h']
    unfold fourierTerm
    rw [if_neg (by simp), if_pos rfl, hf 0, sum_contrib_even]
    have : average E (fun k phi => uneven E Ts i j k phi * Real.cos ((0 : Nat) * phi)) = 0 := by
      unfold average
      refine Finset.sum_eq_zero fun k _ => ?_
      dsimp only
      rw [uneven_none E Ts h', uneven_none E Ts h']
      ring
    rw [this, add_zero]

/-! ### Linearity -/

theorem fourierTerm_deriv (E : Env) (flag : Bool) (m : Nat) (f : ℝ → Nat → ℝ) (f' : Nat → ℝ)
    (t₀ : ℝ) (h : ∀ s, HasDerivAt (fun t => f t s) (f' s) t₀) :
    HasDerivAt (fun t => fourierTerm E flag m (f t)) (fourierTerm E flag m f') t₀ := by
  cases flag with
  | false => exact h 0
  | true =>
    simp only [fourierTerm_eq]
    refine HasDerivAt.add ?_ ?_
    · by_cases hm : m = 0
      · simp only [if_pos hm]; exact h 0
      · simp only [if_neg hm]; exact hasDerivAt_const _ _
    · refine HasDerivAt.fun_sum fun k _ => ?_
      exact ((((h _).mul_const _).add ((h _).mul_const _)).div_const 2).const_mul _

end Xrtm.Brdf
