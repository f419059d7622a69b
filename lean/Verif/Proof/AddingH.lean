import Verif.Model.Total
import Verif.Proof.AddingF
import Verif.Proof.AddingG

/-! The loops over the layers. -/

namespace Xrtm.Adding

open Mat Spec Matrix

variable {K : Type} [CommRing K] {n : Nat} {inv? : M n K → Option (M n K)}

theorem hasL_eq (a : Act) : a.hasL = a.l := by cases a <;> rfl
theorem hasS_eq (a : Act) : a.hasS = a.s := by cases a <;> rfl

theorem cellM_inj {i j k l : Nat} (hk : k < 8) (hl : l < 8) : cellM i k = cellM j l ↔ i = j ∧ k = l := by
  simp only [cellM, MCell.ext.injEq]; omega

theorem cellV_inj {i j k l : Nat} (hk : k < 8) (hl : l < 8) : cellV i k = cellV j l ↔ i = j ∧ k = l := by
  simp only [cellV, VCell.ext.injEq]; omega

theorem allM_lt (x : MArg) : allM x < 8 := by cases x <;> decide
theorem allV_lt (x : VArg) : allV x < 8 := by cases x <;> decide
theorem refM_lt (x : MArg) : refM x < 8 := by cases x <;> decide
theorem refV_lt (x : VArg) : refV x < 8 := by cases x <;> decide

theorem places_all (nd : Nat) : Places frameAll nd := by
  have hm : ∀ z w x : MArg, z.res = some w → x ≠ z → x ≠ w → allM x ≠ allM z := by
    intro z w x; cases z <;> cases x <;> simp [MArg.res, allM] <;> rintro rfl <;> simp
  have hv : ∀ z w x : VArg, z.res = some w → x ≠ z → x ≠ w → allV x ≠ allV z := by
    intro z w x; cases z <;> cases x <;> simp [VArg.res, allV] <;> rintro rfl <;> simp
  constructor
  case mExt => intro x k; simp [frameAll, cellM]
  case vExt => intro x k; simp [frameAll, cellV]
  case mlExt => intro i _ x k; simp [frameAll, cellM]
  case vlExt => intro i _ x k; simp [frameAll, cellV]
  case mml => intro i _ x y; simp [frameAll, cellM_inj, allM_lt]
  case vvl => intro i _ x y; simp [frameAll, cellV_inj, allV_lt]
  case mres => intro z w x h1 h2 h3; simpa [frameAll, cellM_inj, allM_lt] using hm z w x h1 h2 h3
  case vres => intro z w x h1 h2 h3; simpa [frameAll, cellV_inj, allV_lt] using hv z w x h1 h2 h3
  case mlres => intro i _ z w x h1 h2 h3; simpa [frameAll, cellM_inj, allM_lt] using hm z w x h1 h2 h3
  case vlres => intro i _ z w x h1 h2 h3; simpa [frameAll, cellV_inj, allV_lt] using hv z w x h1 h2 h3
  case mcross => intro i j _ _ h x y; simp [frameAll, cellM_inj, allM_lt, h]
  case vcross => intro i j _ _ h x y; simp [frameAll, cellV_inj, allV_lt, h]

theorem aux_all (nd : Nat) : AuxPlaces frameAll nd := by
  refine ⟨?_, ?_, ?_, by decide, by decide, by decide⟩
  · rintro c (rfl | rfl | rfl) k hk <;> simp [frameAll] <;> omega
  · rintro c (rfl | rfl | rfl) x <;> simp [frameAll, cellM]
  · rintro c (rfl | rfl | rfl) i _ x <;> simp [frameAll, cellM]

theorem aux_all' (nd : Nat) : AuxPlaces frameAll.swap nd := by
  refine ⟨?_, ?_, ?_, by decide, by decide, by decide⟩
  · rintro c (rfl | rfl | rfl) k hk <;> simp [frameAll, Fr.swap] <;> omega
  · rintro c (rfl | rfl | rfl) x <;> simp [frameAll, Fr.swap, cellM]
  · rintro c (rfl | rfl | rfl) i _ x <;> simp [frameAll, Fr.swap, cellM]

theorem sepF_ref : SepF frameRef := by
  constructor <;> first | decide | (intros; simp [frameRef, cellM, cellV]; try omega)

theorem sepL_ref (nd : Nat) : SepL frameRef nd := by
  refine ⟨fun i _ => ?_, fun i j _ _ h x => ?_, fun i j _ _ h x => ?_, fun i j _ _ h x => ?_⟩
  · constructor
    case mml => intro x y; simp [frameRef, cellM_inj, refM_lt]
    case vvl => intro x y; simp [frameRef, cellV_inj, refV_lt]
    case r13 => intro x; cases x <;> simp [frameRef, cellM, refM]
    case t31 => intro x; cases x <;> simp [frameRef, cellM, refM]
    case s31 => intro x; cases x <;> simp [frameRef, cellV, refV]
    all_goals (intros; simp [frameRef, cellM, cellV]; try omega)
  · simp [frameRef, cellM_inj, refM_lt, h]
  · simp [frameRef, cellM_inj, refM_lt, h]
  · simp [frameRef, cellV_inj, refV_lt, h]

section load
variable (nd : Nat) (sM : Ops n K → Nat → Option (M n K)) (sV : Ops n K → Nat → Option (V n K)) (o : Ops n K)
  (ol : Nat → Ops n K) (al : Nat → Act) (s : Mem n K)

theorem load_m {k : Nat} (hk : k < 8) : (load nd sM sV o ol al s).m (cellM 0 k) = (sM o k).getD (s.m (cellM 0 k)) := by
  have h1 : k / 8 = 0 := by omega
  have h2 : k % 8 = k := by omega
  simp only [load, cellM, Nat.mul_zero, Nat.zero_add, h1, h2, if_true]

theorem load_v {k : Nat} (hk : k < 8) : (load nd sM sV o ol al s).v (cellV 0 k) = (sV o k).getD (s.v (cellV 0 k)) := by
  have h1 : k / 8 = 0 := by omega
  have h2 : k % 8 = k := by omega
  simp only [load, cellV, Nat.mul_zero, Nat.zero_add, h1, h2, if_true]

theorem load_ml {j k : Nat} (hj : j < nd) (hk : k < 8) : (load nd sM sV o ol al s).m (cellM (j + 1) k) =
    if (al j).l then (sM (ol j) k).getD (s.m (cellM (j + 1) k)) else s.m (cellM (j + 1) k) := by
  have h1 : (8 * (j + 1) + k) / 8 = j + 1 := by omega
  have h2 : (8 * (j + 1) + k) % 8 = k := by omega
  simp only [load, cellM, h1, h2, Nat.add_sub_cancel, hasL_eq]
  simp [hj]

theorem load_vl {j k : Nat} (hj : j < nd) (hk : k < 8) : (load nd sM sV o ol al s).v (cellV (j + 1) k) =
    if (al j).s then (sV (ol j) k).getD (s.v (cellV (j + 1) k)) else s.v (cellV (j + 1) k) := by
  have h1 : (8 * (j + 1) + k) / 8 = j + 1 := by omega
  have h2 : (8 * (j + 1) + k) % 8 = k := by omega
  simp only [load, cellV, h1, h2, Nat.add_sub_cancel, hasS_eq]
  simp [hj]

end load

/-- As a layer of the specification. -/
def Ops.layer (o : Ops n K) : Layer n K := ⟨o.Rm, o.Tm, o.Sm, o.Rp, o.Tp, o.Sp⟩

/-- What the arrays of derivative `i` stand for. -/
theorem HoldsAll.exists (f : Fr) (i : Nat) (a b : Act) (s : Mem n K) : ∃ L, HoldsAll f i a b L s := by
  refine ⟨⟨fun x => if (match x with | .R12 | .T12 | .R21 | .T21 => a.l | _ => b.l) then s.m (f.ml i x) else 0,
    fun x => if (match x with | .S12 | .S21 => a.s | _ => b.s) then s.v (f.vl i x) else 0⟩, ?_⟩
  constructor
  · rintro x (rfl | rfl | rfl | rfl) <;> cases a.l <;> simp
  · rintro x (rfl | rfl) <;> cases a.s <;> simp
  · rintro x (rfl | rfl | rfl | rfl) <;> cases b.l <;> simp
  · rintro x (rfl | rfl) <;> cases b.s <;> simp

theorem runDo_singular (hinv : Exact inv?) {f : Fr} (h : SepF f) {s : Mem n K}
    (hq : ¬ ∃ q, q * (1 - s.m (f.m .R23) * s.m (f.m .R21)) = 1) (rest : List (Instr K)) (ds : List (Do K)) :
    runDo inv? (.calls (factors f ++ rest) :: ds) s = .error .singular := by
  simp [runDo, run_factors_singular hinv h hq rest]

theorem both_of {f : Fr} {nd : Nat} {act : Nat → Act × Act} {o : Lin n K} {q q' : M n K} {t : K} {tl : Nat → K}
    {L : Nat → Lin n K} {s s' : Mem n K} (h : AllPost true f nd act true o q q' t tl L s s') :
    both (vals f s') = sum o q q' t := by
  obtain ⟨m1, m2, m3, m4⟩ := h.mats rfl rfl
  obtain ⟨v1, v2⟩ := h.srcs rfl
  simp [both, vals, sum, m1, m2, m3, m4, v1, v2]

theorem choose_all {f : Fr} {act : Nat → Act × Act} {s : Mem n K} :
    ∃ L : Nat → Lin n K, ∀ i, HoldsAll f i (act i).1 (act i).2 (L i) s :=
  ⟨fun i => (HoldsAll.exists f i (act i).1 (act i).2 s).choose, fun i => (HoldsAll.exists f i _ _ s).choose_spec⟩

/-! A case that is not there does what nothing to do does. -/

def still (p : Act × Act) : Act × Act := if allHas p.1 p.2 then p else (.U, .U)

/-- The cases with an `exit(1)`. -/
def allExits (p : Act × Act) : Bool :=
  match p with
  | (.L, .B) | (.B, .L) => true
  | _ => false

theorem still_has (p : Act × Act) : allHas (still p).1 (still p).2 = true := by
  obtain ⟨a, b⟩ := p
  cases a <;> cases b <;> rfl

theorem still_l (p : Act × Act) (h : allExits p = false) (h' : (still p).1.l = false ∨ (still p).2.l = false) :
    p.1.l = false ∨ p.2.l = false := by
  obtain ⟨a, b⟩ := p
  cases a <;> cases b <;> simp_all [still, allHas, Act.l, allExits]

theorem runDo_cons_congr {d d' : Do K} {ds ds' : List (Do K)} (h : ∀ s, runDo inv? [d] s = runDo inv? [d'] s)
    (h' : ∀ s, runDo inv? ds s = runDo inv? ds' s) (s : Mem n K) : runDo inv? (d :: ds) s = runDo inv? (d' :: ds') s := by
  have key : ∀ (d : Do K) (ds : List (Do K)), runDo inv? (d :: ds) s = (match runDo inv? [d] s with
      | .ok s' => runDo inv? ds s'
      | .error e => .error e) := by
    intro d ds
    cases d with
    | calls p => simp only [runDo]; cases run inv? p s <;> rfl
    | nothing => rfl
    | exit => rfl
  rw [key d, key d', h]
  cases runDo inv? [d'] s with
  | ok a => exact h' a
  | error e => rfl

theorem runDo_append_congr {as as' ds ds' : List (Do K)}
    (h : List.Forall₂ (fun d d' => ∀ s, runDo inv? [d] s = runDo inv? [d'] s) as as')
    (h' : ∀ s, runDo inv? ds s = runDo inv? ds' s) (s : Mem n K) : runDo inv? (as ++ ds) s = runDo inv? (as' ++ ds') s := by
  induction h generalizing s with
  | nil => exact h' s
  | cons h1 _ ih => exact runDo_cons_congr h1 ih s

theorem derivLoop_congr {nd : Nat} {act act' : Nat → Act × Act} {body body' : Nat → Act → Act → Do K}
    (h : ∀ i, i < nd → ∀ s, runDo inv? [body i (act i).1 (act i).2] s = runDo inv? [body' i (act' i).1 (act' i).2] s) :
    List.Forall₂ (fun d d' => ∀ s, runDo inv? [d] s = runDo inv? [d'] s) (derivLoop nd act body)
      (derivLoop nd act' body') := by
  simp only [derivLoop, List.forall₂_map_left_iff, List.forall₂_map_right_iff, List.forall₂_same, List.mem_range]
  exact h

theorem layerAddAll_still (f : Fr) (nd : Nat) (t : K) (tl : Nat → K) (act : Nat → Act × Act) (flag : Bool)
    (h : ∀ i, i < nd → allExits (act i) = false) (s : Mem n K) :
    runDo inv? (layerAddAll f nd t tl act flag) s = runDo inv? (layerAddAll f nd t tl (fun i => still (act i)) flag) s := by
  simp only [layerAddAll, List.append_assoc, List.cons_append]
  refine runDo_cons_congr (fun _ => rfl) (fun s => runDo_append_congr (derivLoop_congr fun i hi s => ?_) (fun s => ?_) s) s
  · have := h i hi
    revert this
    generalize act i = p
    obtain ⟨a, b⟩ := p
    cases a <;> cases b <;> simp [allExits, still, allHas, allDo, runDo, run]
  · refine runDo_cons_congr (fun _ => rfl) (fun s => runDo_cons_congr (fun _ => rfl)
      (fun s => runDo_append_congr (derivLoop_congr fun i hi s => ?_) (fun s => rfl) s) s) s
    have := h i hi
    revert this
    generalize act i = p
    obtain ⟨a, b⟩ := p
    cases a <;> cases b <;> simp [allExits, still, allHas, allDoDown, runDo, run]

/-- `layer_add_all`: either the two layers together, or the exit of the factorisation. -/
theorem layerAddAll_value (hinv : Exact inv?) {f : Fr} {nd : Nat} (hp : Places f nd) (ha : AuxPlaces f nd)
    (ha' : AuxPlaces f.swap nd) (s : Mem n K) {act : Nat → Act × Act} (t : K) {tl : Nat → K}
    (hs : ∀ i, i < nd → allExits (act i) = false)
    (ht : ∀ i, i < nd → (act i).1.l = false ∨ (act i).2.l = false → tl i = 0) :
    ((∃ q, q * (1 - s.m (f.m .R23) * s.m (f.m .R21)) = 1) ∧
      Post (runDo inv? (layerAddAll f nd t tl act true) s) fun s' =>
        Stacked (upper (vals f s)) ((lower (vals f s)).dim t) (both (vals f s'))) ∨
    ((¬ ∃ q, q * (1 - s.m (f.m .R23) * s.m (f.m .R21)) = 1) ∧
      runDo inv? (layerAddAll f nd t tl act true) s = .error .singular) := by
  by_cases hq : ∃ q, q * (1 - s.m (f.m .R23) * s.m (f.m .R21)) = 1
  · left
    refine ⟨hq, ?_⟩
    obtain ⟨q, hq⟩ := hq
    have hq' : inv13 (vals f s) q * (1 - s.m (f.m .R21) * s.m (f.m .R23)) = 1 := inv13_spec (o := vals f s) hq
    obtain ⟨L, hL⟩ := choose_all (f := f) (act := fun i => still (act i)) (s := s)
    rw [layerAddAll_still f nd t tl act true hs]
    refine (layerAddAll_post hinv hp ha ha' true hq hq' (fun i _ => still_has (act i)) (fun i _ => hL i)
      (fun i hi h => ht i hi (still_l _ (hs i hi) h))).mono fun s' h => ?_
    rw [both_of h]
    exact stacked (o := vals f s) hq hq' t
  · right
    refine ⟨hq, ?_⟩
    rw [layerAddAll, List.append_assoc, List.cons_append]
    exact runDo_singular hinv (ha.sepF hp.mExt hp.vExt) hq _ _

/-- Seen from the side of `R13`. -/
def mirror (o : Lin n K) : Mirror n K := ⟨o.m .R23, o.v .S32⟩
def mirrorOut (o : Lin n K) : Mirror n K := ⟨o.m .R13, o.v .S31⟩

theorem layerAddRef_value (hinv : Exact inv?) {f : Fr} {nd : Nat} (hf : SepF f) (h : SepL f nd) (s : Mem n K)
    {act : Nat → Act × Act} {flag : Bool} (t : K) {tl : Nat → K}
    (hs : ∀ i, i < nd → refHas flag (flip flag (act i)).1 (flip flag (act i)).2 = true)
    (ht : ∀ i, i < nd → (flip flag (act i)).1.l = false → tl i = 0) :
    ((∃ q, q * (1 - s.m (f.m .R23) * s.m (f.m .R21)) = 1) ∧
      Post (runDo inv? (layerAddRef f nd t tl act flag true) s) fun s' =>
        Backed (upper (vals f s)) ((mirror (vals f s)).dim t) (mirrorOut (vals f s'))) ∨
    ((¬ ∃ q, q * (1 - s.m (f.m .R23) * s.m (f.m .R21)) = 1) ∧
      runDo inv? (layerAddRef f nd t tl act flag true) s = .error .singular) := by
  by_cases hq : ∃ q, q * (1 - s.m (f.m .R23) * s.m (f.m .R21)) = 1
  · left
    refine ⟨hq, ?_⟩
    obtain ⟨q, hq⟩ := hq
    obtain ⟨L, hL⟩ := choose_all (f := f) (act := fun i => flip flag (act i)) (s := s)
    refine (layerAddRef_post hinv hf h true hq hs (fun i _ => (hL i).holds) ht).mono fun s' h' => ?_
    have ho := h'.2.1 rfl
    have e : mirrorOut (vals f s') = ⟨oR13 (vals f s) q, oS31 (vals f s) q t⟩ := by
      simp [mirrorOut, vals, ho.r rfl, ho.s]
    rw [e]
    exact backed (o := vals f s) hq t
  · right
    refine ⟨hq, ?_⟩
    rw [layerAddRef, List.cons_append]
    exact runDo_singular hinv hf hq _ _

end Xrtm.Adding
