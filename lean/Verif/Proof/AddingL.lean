import Verif.Proof.AddingK

/-! Derivatives through the loops. -/

namespace Xrtm.Adding

open Mat Spec Matrix Filter Topology

variable {n : Nat} {x : ℝ} {inv? : M n ℝ → Option (M n ℝ)}

/-- The layer `l` and its derivative number `j` come from the curve `c`, and where the layer is not active (`a`) the
derivative is zero. -/
structure From (x : ℝ) (j : Nat) (al : LayerIn n ℝ → Act) (l : LayerIn n ℝ) (c : ℝ → Layer n ℝ) : Prop where
  at_ : c x = l.ops.layer
  deriv : LDeriv c (l.dops j).layer x
  quiet : Quiet (al l) (l.dops j).layer

/-- Rows of `derivs.adding_down` for derivative `j`: the upper letter is what the layers before had (`a` at the
start). -/
def ChainDown (j : Nat) : Act → List (LayerIn n ℝ) → Prop
  | _, [] => True
  | a, l :: ls => (l.act j).1 = a ∧ ChainDown j (a.join (l.act j).2) ls

/-- Activity after all layers. -/
def endDown (j : Nat) : Act → List (LayerIn n ℝ) → Act
  | a, [] => a
  | a, l :: ls => endDown j (a.join (l.act j).2) ls

/-- The same for `derivs.adding_up`, layers from the bottom up: the lower letter is what was below. -/
def ChainUp (j : Nat) : Act → List (LayerIn n ℝ) → Prop
  | _, [] => True
  | a, l :: ls => (l.act j).2 = a ∧ ChainUp j (Act.join (l.act j).1 a) ls

def endUp (j : Nat) : Act → List (LayerIn n ℝ) → Act
  | a, [] => a
  | a, l :: ls => endUp j (Act.join (l.act j).1 a) ls

/-- Sources are active wherever the layer is, in all layers; or all layers are without sources. -/
def LitLayers (j : Nat) (al : LayerIn n ℝ → Act) (ls : List (LayerIn n ℝ)) : Prop :=
  (∀ l ∈ ls, (al l).l = true → (al l).s = true) ∨ (∀ l ∈ ls, l.ops.Sm = 0 ∧ l.ops.Sp = 0)

theorem totalLoop_deriv (hinv : Exact inv?) {nd j : Nat} (hj : j < nd) {ls : List (LayerIn n ℝ)}
    {cs : List (ℝ → Layer n ℝ)} (hF : List.Forall₂ (From x j fun l => (l.act j).2) ls cs)
    (hc : ∀ l ∈ ls, ∀ i, i < nd → allExits (l.act i) = false)
    (hcj : ∀ l ∈ ls, allHas (l.act j).1 (l.act j).2 = true) {a : Act} (hch : ChainDown j a ls)
    {s s' : Mem n ℝ} (hrun : totalLoop inv? nd false ls s = .ok s')
    {r : ℝ → Layer n ℝ} {r' : Layer n ℝ} (hr : r x = both (vals frameAll s)) (hd : LDeriv r r' x)
    (hk : Kept frameAll j a r' s) {pre : ℝ → List (Layer n ℝ)} (hpre : ∀ᶠ y in 𝓝 x, Joined (pre y) (r y))
    (hlit : ((a.l = true → a.s = true) ∧ ∀ l ∈ ls, (l.act j).2.l = true → (l.act j).2.s = true) ∨
      (((r x).Sm = 0 ∧ (r x).Sp = 0) ∧ ∀ l ∈ ls, l.ops.Sm = 0 ∧ l.ops.Sp = 0)) :
    ∃ R R', (∀ᶠ y in 𝓝 x, Joined (pre y ++ cs.map (fun c => c y)) (R y)) ∧ LDeriv R R' x ∧
      Kept frameAll j (endDown j a ls) R' s' := by
  induction hF generalizing a s r r' pre with
  | nil =>
      simp only [totalLoop, Except.ok.injEq] at hrun
      subst hrun
      exact ⟨r, r', by simpa using hpre, hd, hk⟩
  | @cons l c ls cs hl hF ih =>
      obtain ⟨hch1, hch2⟩ := hch
      rcases total_step hinv nd l (hc l (by simp)) s with ⟨h1, s1, e1, h2⟩ | ⟨h1, e1⟩
      · have e : totalLoop inv? nd false (l :: ls) s = totalLoop inv? nd false ls s1 := by simp [totalLoop, e1]
        rw [e] at hrun
        obtain ⟨r2, hr2⟩ := exists_stacked hd hl.deriv (by rw [hl.at_, hr]; exact h1)
        have hh : HoldsAll frameAll j (l.act j).1 (l.act j).2 (linOf r' (l.dops j).layer)
            (load nd lowM lowV l.ops l.dops (fun j => (l.act j).2) s) := by
          rw [hch1]
          constructor
          · intro y hy
            cases ea : a.l
            · obtain ⟨z1, z2, z3, z4⟩ := hk.m0 ea
              rcases hy with rfl | rfl | rfl | rfl <;> simpa [linOf]
            · obtain ⟨z1, z2, z3, z4⟩ := hk.m ea
              rcases hy with rfl | rfl | rfl | rfl <;>
                simp only [frameAll, allM, if_true, linOf] at z1 z2 z3 z4 ⊢ <;>
                rw [load_ml _ _ _ _ _ _ _ hj (by omega)] <;> simpa [lowM]
          · intro y hy
            cases ea : a.s
            · obtain ⟨z1, z2⟩ := hk.v0 ea
              rcases hy with rfl | rfl <;> simpa [linOf]
            · obtain ⟨z1, z2⟩ := hk.v ea
              rcases hy with rfl | rfl <;>
                simp only [frameAll, allV, if_true, linOf] at z1 z2 ⊢ <;>
                rw [load_vl _ _ _ _ _ _ _ hj (by omega)] <;> simpa [lowV]
          · intro y hy
            cases eb : (l.act j).2.l
            · obtain ⟨z1, z2, z3, z4⟩ := hl.quiet.m0 eb
              rcases hy with rfl | rfl | rfl | rfl <;> simpa [linOf]
            · rcases hy with rfl | rfl | rfl | rfl <;>
                simp only [frameAll, allM, if_true, linOf] <;>
                rw [load_ml _ _ _ _ _ _ _ hj (by omega)] <;> simp [lowM, eb, Ops.layer]
          · intro y hy
            cases eb : (l.act j).2.s
            · obtain ⟨z1, z2⟩ := hl.quiet.v0 eb
              rcases hy with rfl | rfl <;> simpa [linOf]
            · rcases hy with rfl | rfl <;>
                simp only [frameAll, allV, if_true, linOf] <;>
                rw [load_vl _ _ _ _ _ _ _ hj (by omega)] <;> simp [lowV, eb, Ops.layer]
        have hu := upper_load nd l.ops l.dops (fun j => (l.act j).2) s
        have hw := lower_load nd l.ops l.dops (fun j => (l.act j).2) s
        have hlt : Lit (l.act j).1 (l.act j).2
            (vals frameAll (load nd lowM lowV l.ops l.dops (fun j => (l.act j).2) s)) := by
          rw [hch1]
          rcases hlit with ⟨k1, k2⟩ | ⟨k1, k2⟩
          · exact .inl ⟨k1, k2 l (by simp)⟩
          · refine .inr ⟨?_, ?_⟩
            · have := congrArg Layer.Sm hu
              rw [← hr, k1.1] at this
              exact this
            · have := congrArg Layer.Sp hw
              rw [show l.ops.layer.Sp = l.ops.Sp from rfl, (k2 l (by simp)).2] at this
              exact this
        obtain ⟨r2', hd2, hk2⟩ := layerAddAll_deriv hinv (places_all nd) (aux_all nd) (aux_all' nd) (hc l (by simp)) e1 hj
          (hcj l (by simp)) (by rw [hr, hu]) (by rw [hl.at_, hw]) hd hl.deriv hh hlt hr2
        rw [hch1] at hk2
        have hr2x : r2 x = both (vals frameAll s1) := by
          have := hr2.self_of_nhds
          rw [hr, hl.at_] at this
          exact Stacked.unique this h2
        have hpre2 : ∀ᶠ y in 𝓝 x, Joined (pre y ++ [c y]) (r2 y) := by
          filter_upwards [hpre, hr2] with y g1 g2
          exact g1.append (Joined.one _) g2
        have hlit2 : (((a.join (l.act j).2).l = true → (a.join (l.act j).2).s = true) ∧
            ∀ l ∈ ls, (l.act j).2.l = true → (l.act j).2.s = true) ∨
            (((r2 x).Sm = 0 ∧ (r2 x).Sp = 0) ∧ ∀ l ∈ ls, l.ops.Sm = 0 ∧ l.ops.Sp = 0) := by
          rcases hlit with ⟨k1, k2⟩ | ⟨k1, k2⟩
          · left
            refine ⟨?_, fun l' hl' => k2 l' (by simp [hl'])⟩
            have := k2 l (by simp)
            simp only [join_l, join_s, Bool.or_eq_true]
            tauto
          · right
            refine ⟨?_, fun l' hl' => k2 l' (by simp [hl'])⟩
            rw [hr2x]
            rw [hr] at k1
            exact h2.dark k1 (k2 l (by simp))
        obtain ⟨R, R', g1, g2, g3⟩ := ih (fun l' hl' => hc l' (by simp [hl']))
          (fun l' hl' => hcj l' (by simp [hl'])) hch2 hrun hr2x hd2 hk2 hpre2 hlit2
        exact ⟨R, R', by simpa using g1, g2, g3⟩
      · simp [totalLoop, e1] at hrun

/-- `get_total_R_T_S_U_W_V`. -/
theorem total_deriv (hinv : Exact inv?) {nd j : Nat} (hj : j < nd) {l : LayerIn n ℝ} {ls : List (LayerIn n ℝ)}
    {cs : List (ℝ → Layer n ℝ)} (hF : List.Forall₂ (From x j fun l => (l.act j).2) (l :: ls) cs)
    (hc : ∀ l ∈ ls, ∀ i, i < nd → allExits (l.act i) = false)
    (hcj : ∀ l ∈ ls, allHas (l.act j).1 (l.act j).2 = true) (hch : ChainDown j .U (l :: ls))
    (hlit : LitLayers j (fun l => (l.act j).2) (l :: ls))
    {s s' : Mem n ℝ} (hrun : totalLoop inv? nd true (l :: ls) s = .ok s') :
    ∃ R R', (∀ᶠ y in 𝓝 x, Joined (cs.map fun c => c y) (R y)) ∧ LDeriv R R' x ∧ Kept frameAll j (endDown j .U (l :: ls)) R' s' := by
  cases hF with
  | @cons _ c _ cs hl hF =>
    obtain ⟨hch1, hch2⟩ := hch
    obtain ⟨s1, e1, h1, h2⟩ := (copyAll_post (inv? := inv?) nd l.act
      (load nd lowM lowV l.ops l.dops (fun j => (l.act j).2) s)).elim
    rw [lower_load] at h1
    have e : totalLoop inv? nd true (l :: ls) s = totalLoop inv? nd false ls s1 := by simp [totalLoop, e1]
    rw [e] at hrun
    have hjn : Act.join .U (l.act j).2 = (l.act j).2 := by cases (l.act j).2 <;> rfl
    rw [hjn] at hch2
    have hk : Kept frameAll j (l.act j).2 (l.dops j).layer s1 := by
      obtain ⟨d1, d2⟩ := h2 j hj hch1
      refine ⟨fun w => ?_, hl.quiet.m0, fun w => ?_, hl.quiet.v0⟩
      · obtain ⟨z1, z2, z3, z4⟩ := d1 w
        rw [z1, z2, z3, z4]
        simp only [frameAll, allM]
        refine ⟨?_, ?_, ?_, ?_⟩ <;> rw [load_ml _ _ _ _ _ _ _ hj (by omega)] <;> simp [lowM, w, Ops.layer]
      · obtain ⟨z1, z2⟩ := d2 w
        rw [z1, z2]
        simp only [frameAll, allV]
        refine ⟨?_, ?_⟩ <;> rw [load_vl _ _ _ _ _ _ _ hj (by omega)] <;> simp [lowV, w, Ops.layer]
    have hlit2 : (((l.act j).2.l = true → (l.act j).2.s = true) ∧
        ∀ l ∈ ls, (l.act j).2.l = true → (l.act j).2.s = true) ∨
        (((c x).Sm = 0 ∧ (c x).Sp = 0) ∧ ∀ l ∈ ls, l.ops.Sm = 0 ∧ l.ops.Sp = 0) := by
      rcases hlit with k | k
      · exact .inl ⟨k l (by simp), fun l' hl' => k l' (by simp [hl'])⟩
      · refine .inr ⟨?_, fun l' hl' => k l' (by simp [hl'])⟩
        rw [hl.at_]
        exact k l (by simp)
    obtain ⟨Q, Q', g1, g2, g3⟩ := totalLoop_deriv hinv hj hF hc hcj hch2 hrun (by rw [hl.at_, h1]) hl.deriv hk
      (pre := fun y => [c y]) (Eventually.of_forall fun y => Joined.one _) hlit2
    exact ⟨Q, Q', by simpa using g1, g2, by simpa [endDown, hjn] using g3⟩

/-! ### Reflection only -/

theorem Lit_of {a b : Act} {o : Lin n ℝ} (h : ((a.l = true → a.s = true) ∧ (b.l = true → b.s = true)) ∨
    ((upper o).Sm = 0 ∧ (mirror o).S = 0)) : Lit a b o := h

theorem toaLoop_deriv (hinv : Exact inv?) {nd j : Nat} (hj : j < nd) {ls : List (LayerIn n ℝ)}
    {cs : List (ℝ → Layer n ℝ)} (hF : List.Forall₂ (From x j fun l => (l.act j).1) ls cs)
    (hc : RefCodes false nd ls) {a : Act} (hch : ChainUp j a ls)
    {s s' : Mem n ℝ} (hrun : toaLoop inv? nd false ls s = .ok s')
    {r : ℝ → Mirror n ℝ} {r' : Mirror n ℝ} (hr : r x = mirrorOut (vals frameRef s)) (hd : RDeriv r r' x)
    (hk : KeptM frameRef j a r' s) {post : ℝ → List (Layer n ℝ)} {base : ℝ → Mirror n ℝ}
    (hpost : ∀ᶠ y in 𝓝 x, Resting (post y) (base y) (r y))
    (hlit : ((a.l = true → a.s = true) ∧ ∀ l ∈ ls, (l.act j).1.l = true → (l.act j).1.s = true) ∨
      ((r x).S = 0 ∧ ∀ l ∈ ls, l.ops.Sm = 0 ∧ l.ops.Sp = 0)) :
    ∃ R R', (∀ᶠ y in 𝓝 x, Resting ((cs.map (fun c => c y)).reverse ++ post y) (base y) (R y)) ∧ RDeriv R R' x ∧
      KeptM frameRef j (endUp j a ls) R' s' := by
  induction hF generalizing a s r r' post with
  | nil =>
      simp only [toaLoop, Except.ok.injEq] at hrun
      subst hrun
      exact ⟨r, r', by simpa using hpost, hd, hk⟩
  | @cons l c ls cs hl hF ih =>
      obtain ⟨hch1, hch2⟩ := hch
      have hu := upper_above nd l.ops l.dops (fun j => (l.act j).1) s
      have hw := mirror_above nd l.ops l.dops (fun j => (l.act j).1) s
      rcases ref_step hinv nd l.act false (hc l (by simp)) s _ l.ops.layer hu hw with ⟨h1, s1, e1, h2⟩ | ⟨h1, e1⟩
      · have e : toaLoop inv? nd false (l :: ls) s = toaLoop inv? nd false ls s1 := by simp [toaLoop, e1]
        rw [e] at hrun
        obtain ⟨r2, hr2⟩ := exists_backed hl.deriv hd (by rw [hl.at_, hr]; exact h1)
        have hh : HoldsM frameRef j (l.act j).1 (l.act j).2 (l.dops j).layer r'
            (load nd aboveM aboveV l.ops l.dops (fun j => (l.act j).1) s) := by
          rw [hch1]
          refine ⟨fun w => ?_, fun w => ?_, hl.quiet, fun w => ?_, hk.m0, fun w => ?_, hk.v0⟩
          · simp only [frameRef, refM]
            refine ⟨?_, ?_, ?_, ?_⟩ <;> rw [load_ml _ _ _ _ _ _ _ hj (by omega)] <;> simp [aboveM, w, Ops.layer]
          · simp only [frameRef, refV]
            refine ⟨?_, ?_⟩ <;> rw [load_vl _ _ _ _ _ _ _ hj (by omega)] <;> simp [aboveV, w, Ops.layer]
          · have := hk.m w
            simp only [frameRef, refM] at this ⊢
            rw [load_ml _ _ _ _ _ _ _ hj (by omega)]
            simpa [aboveM] using this
          · have := hk.v w
            simp only [frameRef, refV] at this ⊢
            rw [load_vl _ _ _ _ _ _ _ hj (by omega)]
            simpa [aboveV] using this
        have hlt : Lit (l.act j).1 (l.act j).2
            (vals frameRef (load nd aboveM aboveV l.ops l.dops (fun j => (l.act j).1) s)) := by
          refine Lit_of ?_
          rw [hch1, hu, hw]
          rcases hlit with ⟨k1, k2⟩ | ⟨k1, k2⟩
          · exact .inl ⟨k2 l (by simp), k1⟩
          · exact .inr ⟨(k2 l (by simp)).1, by rw [← hr]; exact k1⟩
        obtain ⟨r2', hd2, hk2⟩ := layerAddRef_deriv hinv sepF_ref (sepL_ref nd) (hc l (by simp)) e1 hj
          (by rw [hl.at_, hu]) (by rw [hr, hw]) hl.deriv hd hh hlt hr2
        simp only [flip, Bool.false_eq_true, if_false, hch1] at hk2
        have hr2x : r2 x = mirrorOut (vals frameRef s1) := by
          have := hr2.self_of_nhds
          rw [hr, hl.at_] at this
          exact Backed.unique this h2
        have hpost2 : ∀ᶠ y in 𝓝 x, Resting (c y :: post y) (base y) (r2 y) := by
          filter_upwards [hpost, hr2] with y g1 g2
          exact g1.cons g2
        have hlit2 : (((Act.join (l.act j).1 a).l = true → (Act.join (l.act j).1 a).s = true) ∧
            ∀ l ∈ ls, (l.act j).1.l = true → (l.act j).1.s = true) ∨
            ((r2 x).S = 0 ∧ ∀ l ∈ ls, l.ops.Sm = 0 ∧ l.ops.Sp = 0) := by
          rcases hlit with ⟨k1, k2⟩ | ⟨k1, k2⟩
          · left
            refine ⟨?_, fun l' hl' => k2 l' (by simp [hl'])⟩
            have := k2 l (by simp)
            simp only [join_l, join_s, Bool.or_eq_true]
            tauto
          · right
            refine ⟨?_, fun l' hl' => k2 l' (by simp [hl'])⟩
            rw [hr2x]
            rw [hr] at k1
            exact h2.dark (k2 l (by simp)) k1
        obtain ⟨R, R', g1, g2, g3⟩ := ih (fun l' hl' => hc l' (by simp [hl'])) hch2 hrun hr2x hd2 hk2 hpost2 hlit2
        exact ⟨R, R', by simpa using g1, g2, g3⟩
      · simp [toaLoop, e1] at hrun

theorem boaLoop_deriv (hinv : Exact inv?) {nd j : Nat} (hj : j < nd) {ls : List (LayerIn n ℝ)}
    {cs : List (ℝ → Layer n ℝ)} (hF : List.Forall₂ (From x j fun l => (l.act j).2) ls cs)
    (hc : RefCodes true nd ls) {a : Act} (hch : ChainDown j a ls)
    {s s' : Mem n ℝ} (hrun : boaLoop inv? nd false ls s = .ok s')
    {r : ℝ → Mirror n ℝ} {r' : Mirror n ℝ} (hr : r x = mirrorOut (vals frameRef s)) (hd : RDeriv r r' x)
    (hk : KeptM frameRef j a r' s) {pre : ℝ → List (Layer n ℝ)}
    (hpre : ∀ᶠ y in 𝓝 x, Hanging (pre y) (r y))
    (hlit : ((a.l = true → a.s = true) ∧ ∀ l ∈ ls, (l.act j).2.l = true → (l.act j).2.s = true) ∨
      ((r x).S = 0 ∧ ∀ l ∈ ls, l.ops.Sm = 0 ∧ l.ops.Sp = 0)) :
    ∃ R R', (∀ᶠ y in 𝓝 x, Hanging (pre y ++ cs.map (fun c => c y)) (R y)) ∧ RDeriv R R' x ∧
      KeptM frameRef j (endDown j a ls) R' s' := by
  induction hF generalizing a s r r' pre with
  | nil =>
      simp only [boaLoop, Except.ok.injEq] at hrun
      subst hrun
      exact ⟨r, r', by simpa using hpre, hd, hk⟩
  | @cons l c ls cs hl hF ih =>
      obtain ⟨hch1, hch2⟩ := hch
      have hu := upper_below nd l.ops l.dops (fun j => (l.act j).2) s
      have hw := mirror_below nd l.ops l.dops (fun j => (l.act j).2) s
      rcases ref_step hinv nd l.act true (hc l (by simp)) s _ l.ops.layer.flip hu hw with ⟨h1, s1, e1, h2⟩ | ⟨h1, e1⟩
      · have e : boaLoop inv? nd false (l :: ls) s = boaLoop inv? nd false ls s1 := by simp [boaLoop, e1]
        rw [e] at hrun
        obtain ⟨r2, hr2⟩ := exists_backed hl.deriv.flip hd (by simp only [hl.at_, hr]; exact h1)
        have hq : Quiet (l.act j).2 (l.dops j).layer.flip :=
          ⟨fun w => by obtain ⟨a1, a2, a3, a4⟩ := hl.quiet.m0 w; exact ⟨a3, a4, a1, a2⟩, fun w => (hl.quiet.v0 w).symm⟩
        have hh : HoldsM frameRef j (l.act j).2 (l.act j).1 (l.dops j).layer.flip r'
            (load nd belowM belowV l.ops l.dops (fun j => (l.act j).2) s) := by
          rw [hch1]
          refine ⟨fun w => ?_, fun w => ?_, hq, fun w => ?_, hk.m0, fun w => ?_, hk.v0⟩
          · simp only [frameRef, refM]
            refine ⟨?_, ?_, ?_, ?_⟩ <;> rw [load_ml _ _ _ _ _ _ _ hj (by omega)] <;>
              simp [belowM, w, Ops.layer, Layer.flip]
          · simp only [frameRef, refV]
            refine ⟨?_, ?_⟩ <;> rw [load_vl _ _ _ _ _ _ _ hj (by omega)] <;> simp [belowV, w, Ops.layer, Layer.flip]
          · have := hk.m w
            simp only [frameRef, refM] at this ⊢
            rw [load_ml _ _ _ _ _ _ _ hj (by omega)]
            simpa [belowM] using this
          · have := hk.v w
            simp only [frameRef, refV] at this ⊢
            rw [load_vl _ _ _ _ _ _ _ hj (by omega)]
            simpa [belowV] using this
        have hlt : Lit (l.act j).2 (l.act j).1
            (vals frameRef (load nd belowM belowV l.ops l.dops (fun j => (l.act j).2) s)) := by
          refine Lit_of ?_
          rw [hch1, hu, hw]
          rcases hlit with ⟨k1, k2⟩ | ⟨k1, k2⟩
          · exact .inl ⟨k2 l (by simp), k1⟩
          · exact .inr ⟨(k2 l (by simp)).2, by rw [← hr]; exact k1⟩
        obtain ⟨r2', hd2, hk2⟩ := layerAddRef_deriv hinv sepF_ref (sepL_ref nd) (hc l (by simp)) e1 hj
          (by simp only [hl.at_, hu]) (by rw [hr, hw]) hl.deriv.flip hd hh hlt hr2
        have hjc : Act.join (l.act j).2 (l.act j).1 = Act.join (l.act j).1 (l.act j).2 := by
          cases (l.act j).2 <;> cases (l.act j).1 <;> rfl
        simp only [flip, if_true] at hk2
        rw [hjc, hch1] at hk2
        have hr2x : r2 x = mirrorOut (vals frameRef s1) := by
          have := hr2.self_of_nhds
          simp only [hr, hl.at_] at this
          exact Backed.unique this h2
        have hpre2 : ∀ᶠ y in 𝓝 x, Hanging (pre y ++ [c y]) (r2 y) := by
          filter_upwards [hpre, hr2] with y g1 g2
          exact g1.append g2
        have hlit2 : (((a.join (l.act j).2).l = true → (a.join (l.act j).2).s = true) ∧
            ∀ l ∈ ls, (l.act j).2.l = true → (l.act j).2.s = true) ∨
            ((r2 x).S = 0 ∧ ∀ l ∈ ls, l.ops.Sm = 0 ∧ l.ops.Sp = 0) := by
          rcases hlit with ⟨k1, k2⟩ | ⟨k1, k2⟩
          · left
            refine ⟨?_, fun l' hl' => k2 l' (by simp [hl'])⟩
            have := k2 l (by simp)
            simp only [join_l, join_s, Bool.or_eq_true]
            tauto
          · right
            refine ⟨?_, fun l' hl' => k2 l' (by simp [hl'])⟩
            rw [hr2x]
            rw [hr] at k1
            exact h2.dark (k2 l (by simp)).symm k1
        obtain ⟨R, R', g1, g2, g3⟩ := ih (fun l' hl' => hc l' (by simp [hl'])) hch2 hrun hr2x hd2 hk2 hpre2 hlit2
        exact ⟨R, R', by simpa using g1, g2, g3⟩
      · simp [boaLoop, e1] at hrun

/-- `get_total_TOA_R_S_U_V` with a surface; `ls` from the top down. -/
theorem toaSurface_deriv (hinv : Exact inv?) {nd j : Nat} (hj : j < nd) {ls : List (LayerIn n ℝ)}
    {cs : List (ℝ → Layer n ℝ)} (hF : List.Forall₂ (From x j fun l => (l.act j).1) ls cs)
    (hc : RefCodes false nd ls) {Rs : M n ℝ} {Ss : V n ℝ} {Rl : Nat → M n ℝ} {Sl : Nat → V n ℝ} {al : Nat → Act}
    {base : ℝ → Mirror n ℝ} (hb : base x = ⟨Rs, Ss⟩) (hbd : RDeriv base ⟨Rl j, Sl j⟩ x)
    (hb0 : (al j).l = false → Rl j = 0) (hb1 : (al j).s = false → Sl j = 0)
    (hch : ChainUp j (al j) ls.reverse)
    (hlit : ((((al j).l = true → (al j).s = true) ∧ ∀ l ∈ ls, (l.act j).1.l = true → (l.act j).1.s = true)) ∨
      (Ss = 0 ∧ ∀ l ∈ ls, l.ops.Sm = 0 ∧ l.ops.Sp = 0))
    {s s' : Mem n ℝ} (hrun : toaSurface inv? nd Rs Ss Rl Sl al ls s = .ok s') :
    ∃ R R', (∀ᶠ y in 𝓝 x, Resting (cs.map fun c => c y) (base y) (R y)) ∧ RDeriv R R' x ∧ KeptM frameRef j (endUp j (al j) ls.reverse) R' s' := by
  have hk : KeptM frameRef j (al j) ⟨Rl j, Sl j⟩ (loadSurface nd Rs Ss Rl Sl al s) := by
    refine ⟨fun w => ?_, hb0, fun w => ?_, hb1⟩
    · simp only [frameRef, refM, loadSurface]
      rw [load_ml _ _ _ _ _ _ _ hj (by omega)]
      simp [w]
    · simp only [frameRef, refV, loadSurface]
      rw [load_vl _ _ _ _ _ _ _ hj (by omega)]
      simp [w]
  obtain ⟨Q, Q', g1, g2, g3⟩ := toaLoop_deriv (ls := ls.reverse) (cs := cs.reverse) hinv hj
    (List.forall₂_reverse_iff.2 hF) (fun l hl => hc l (by simpa using hl)) hch hrun
    (by rw [hb, mirror_surface]) hbd hk (post := fun _ => []) (base := base)
    (Eventually.of_forall fun y => Resting.nil _)
    (by
      rcases hlit with ⟨k1, k2⟩ | ⟨k1, k2⟩
      · exact .inl ⟨k1, fun l hl => k2 l (by simpa using hl)⟩
      · exact .inr ⟨by rw [hb]; exact k1, fun l hl => k2 l (by simpa using hl)⟩)
  exact ⟨Q, Q', by simpa using g1, g2, g3⟩

/-- `get_total_TOA_R_S_U_V` without a surface. -/
theorem toaBare_deriv (hinv : Exact inv?) {nd j : Nat} (hj : j < nd) {ls : List (LayerIn n ℝ)} {l : LayerIn n ℝ}
    {cs : List (ℝ → Layer n ℝ)} {c : ℝ → Layer n ℝ} (hF : List.Forall₂ (From x j fun l => (l.act j).1) ls cs)
    (hl : From x j (fun l => (l.act j).1) l c)
    (hc : RefCodes false nd ls) (hch : ChainUp j (l.act j).1 ls.reverse)
    (hlit : LitLayers j (fun l => (l.act j).1) (ls ++ [l]))
    {s s' : Mem n ℝ} (hrun : toaBare inv? nd (ls ++ [l]) s = .ok s') :
    ∃ R R', (∀ᶠ y in 𝓝 x, Resting ((cs ++ [c]).map fun c => c y) Mirror.dark (R y)) ∧ RDeriv R R' x ∧ KeptM frameRef j (endUp j (l.act j).1 ls.reverse) R' s' := by
  obtain ⟨s1, e1, h1, h2⟩ := (copyRef_post (inv? := inv?) nd (fun j => (l.act j).1)
    (load nd aboveM aboveV l.ops l.dops (fun j => (l.act j).1) s)).elim
  rw [upper_above] at h1
  have e : toaBare inv? nd (ls ++ [l]) s = toaLoop inv? nd false ls.reverse s1 := by
    simp [toaBare, toaLoop, e1]
  rw [e] at hrun
  have hk : KeptM frameRef j (l.act j).1 ⟨(l.dops j).Rm, (l.dops j).Sp⟩ s1 := by
    obtain ⟨d1, d2⟩ := h2 j hj
    refine ⟨fun w => ?_, fun w => (hl.quiet.m0 w).1, fun w => ?_, fun w => (hl.quiet.v0 w).2⟩
    · rw [d1 w]
      simp only [frameRef, refM]
      rw [load_ml _ _ _ _ _ _ _ hj (by omega)]
      simp [aboveM, w]
    · rw [d2 w]
      simp only [frameRef, refV]
      rw [load_vl _ _ _ _ _ _ _ hj (by omega)]
      simp [aboveV, w]
  obtain ⟨Q, Q', g1, g2, g3⟩ := toaLoop_deriv (ls := ls.reverse) (cs := cs.reverse) hinv hj
    (List.forall₂_reverse_iff.2 hF) (fun l hl => hc l (by simpa using hl)) hch hrun
    (r := fun y => ⟨(c y).Rm, (c y).Sp⟩) (by simp only [hl.at_, h1]) ⟨hl.deriv.Rm, hl.deriv.Sp⟩ hk
    (post := fun y => [c y]) (base := fun _ => Mirror.dark)
    (Eventually.of_forall fun y => (Resting.nil _).cons (backed_dark _))
    (by
      rcases hlit with k | k
      · exact .inl ⟨k l (by simp), fun l hl => k l (by simp at hl; simp [hl])⟩
      · exact .inr ⟨by simp only [hl.at_]; exact (k l (by simp)).2, fun l hl => k l (by simp at hl; simp [hl])⟩)
  exact ⟨Q, Q', by simpa using g1, g2, g3⟩

/-- `get_total_BOA_R_S_U_V`. -/
theorem boa_deriv (hinv : Exact inv?) {nd j : Nat} (hj : j < nd) {ls : List (LayerIn n ℝ)} {l : LayerIn n ℝ}
    {cs : List (ℝ → Layer n ℝ)} (hF : List.Forall₂ (From x j fun l => (l.act j).2) (l :: ls) cs)
    (hc : RefCodes true nd ls) (hch : ChainDown j (l.act j).2 ls)
    (hlit : LitLayers j (fun l => (l.act j).2) (l :: ls))
    {s s' : Mem n ℝ} (hrun : boaLoop inv? nd true (l :: ls) s = .ok s') :
    ∃ R R', (∀ᶠ y in 𝓝 x, Hanging (cs.map fun c => c y) (R y)) ∧ RDeriv R R' x ∧ KeptM frameRef j (endDown j (l.act j).2 ls) R' s' := by
  cases hF with
  | @cons _ c _ cs hl hF =>
    obtain ⟨s1, e1, h1, h2⟩ := (copyRef_post (inv? := inv?) nd (fun j => (l.act j).2)
      (load nd belowM belowV l.ops l.dops (fun j => (l.act j).2) s)).elim
    rw [upper_below] at h1
    have e : boaLoop inv? nd true (l :: ls) s = boaLoop inv? nd false ls s1 := by simp [boaLoop, e1]
    rw [e] at hrun
    have hk : KeptM frameRef j (l.act j).2 ⟨(l.dops j).Rp, (l.dops j).Sm⟩ s1 := by
      obtain ⟨d1, d2⟩ := h2 j hj
      refine ⟨fun w => ?_, fun w => (hl.quiet.m0 w).2.2.1, fun w => ?_, fun w => (hl.quiet.v0 w).1⟩
      · rw [d1 w]
        simp only [frameRef, refM]
        rw [load_ml _ _ _ _ _ _ _ hj (by omega)]
        simp [belowM, w]
      · rw [d2 w]
        simp only [frameRef, refV]
        rw [load_vl _ _ _ _ _ _ _ hj (by omega)]
        simp [belowV, w]
    obtain ⟨Q, Q', g1, g2, g3⟩ := boaLoop_deriv hinv hj hF hc hch hrun
      (r := fun y => ⟨(c y).Rp, (c y).Sm⟩) (by simp only [hl.at_, h1]; rfl) ⟨hl.deriv.Rp, hl.deriv.Sm⟩ hk
      (pre := fun y => [c y]) (Eventually.of_forall fun y => Hanging.one _)
      (by
        rcases hlit with k | k
        · exact .inl ⟨k l (by simp), fun l hl => k l (by simp [hl])⟩
        · exact .inr ⟨by simp only [hl.at_]; exact (k l (by simp)).1, fun l hl => k l (by simp [hl])⟩)
    exact ⟨Q, Q', by simpa using g1, g2, g3⟩

end Xrtm.Adding
