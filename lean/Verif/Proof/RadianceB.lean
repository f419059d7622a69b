import Verif.Proof.RadianceA

/-! The ends of the three ways, in terms of the atmosphere. -/

namespace Xrtm.Radiance

open Mat Adding Matrix Spec

variable {K : Type} [CommRing K] {n : Nat} {inv? : M n K → Option (M n K)}

section cells
variable (a : Arg n K) (d : Nat → Arg n K) (old : Nat → Pair n K)

theorem blk (i k : Nat) (h : k < 8) : (8 * i + k) / 8 = i ∧ (8 * i + k) % 8 = k := by omega

theorem call_R0 : (call a d old).m (cR 0) = a.R := rfl
theorem call_T0 : (call a d old).m (cT 0) = a.T := rfl
theorem call_G0 : (call a d old).m (cG 0) = a.G := rfl
theorem call_S0 : (call a d old).v (cS 0) = a.S := rfl
theorem call_X0 : (call a d old).v (cX 0) = a.x := rfl
theorem call_Y0 : (call a d old).v (cY 0) = a.y := rfl

set_option hygiene false in
macro "cellEval" k:term : tactic => `(tactic| (
  obtain ⟨h1, h2⟩ := blk (i + 1) $k (by decide)
  simp only [call, cR, cT, cG, cS, cX, cY, cP, cM, cellM, cellV, h1, h2, results] <;> simp))

theorem call_R (i : Nat) : (call a d old).m (cR (i + 1)) = (d i).R := by cellEval 0
theorem call_T (i : Nat) : (call a d old).m (cT (i + 1)) = (d i).T := by cellEval 1
theorem call_G (i : Nat) : (call a d old).m (cG (i + 1)) = (d i).G := by cellEval 2
theorem call_S (i : Nat) : (call a d old).v (cS (i + 1)) = (d i).S := by cellEval 0
theorem call_X (i : Nat) : (call a d old).v (cX (i + 1)) = (d i).x := by cellEval 1
theorem call_Y (i : Nat) : (call a d old).v (cY (i + 1)) = (d i).y := by cellEval 2
theorem call_P (i : Nat) : (call a d old).v (cP (i + 1)) = (old (i + 1)).1 := by cellEval 3
theorem call_M (i : Nat) : (call a d old).v (cM (i + 1)) = (old (i + 1)).2 := by cellEval 4

theorem call_results (i : Nat) : results (call a d old) (i + 1) = old (i + 1) := by
  unfold results; rw [call_P, call_M]
end cells

/-- A derivative as its code has it: what is not varied is zero. -/
def Atm.seen (p : Act × Act) (d : Atm n K) : Atm n K where
  Rp := if p.1.l then d.Rp else 0
  Tp := if p.1.l then d.Tp else 0
  Rm := if p.1.l then d.Rm else 0
  Tm := if p.1.l then d.Tm else 0
  Sp := if p.1.s then d.Sp else 0
  Sm := if p.1.s then d.Sm else 0
  Rs := if p.2.l then d.Rs else 0
  In := d.In
  I1 := d.I1

/-- Light up at the top, down at the bottom, from what comes in; and how it changes. -/
def topOf (a : Atm n K) (up : V n K) : V n K := a.Rm *ᵥ a.I1 + a.Tp *ᵥ up + a.Sp
def botOf (a : Atm n K) : V n K := a.Rp *ᵥ a.In + a.Tm *ᵥ a.I1 + a.Sm
def topL (a d : Atm n K) (up up' : V n K) : V n K :=
  d.Rm *ᵥ a.I1 + a.Rm *ᵥ d.I1 + (d.Tp *ᵥ up + a.Tp *ᵥ up') + d.Sp
def botL (a d : Atm n K) : V n K := d.Rp *ᵥ a.In + a.Rp *ᵥ d.In + (d.Tm *ᵥ a.I1 + a.Tm *ᵥ d.I1) + d.Sm

/-- Above the surface, with `m` the light down. -/
def surfL (q : M n K) (a d : Atm n K) (m : V n K) : Pair n K :=
  let m' := q *ᵥ ((d.Rp * a.Rs + a.Rp * d.Rs) *ᵥ m + (d.Rp *ᵥ a.In + a.Rp *ᵥ d.In) + (d.Tm *ᵥ a.I1 + a.Tm *ᵥ d.I1) + d.Sm)
  (d.Rs *ᵥ m + a.Rs *ᵥ m' + d.In, m')

/-- What `radiance_boa_all` leaves for a derivative with code `p`. -/
def surfOut (q : M n K) (p : Act × Act) (a d : Atm n K) (m : V n K) (old : Pair n K) : Pair n K :=
  if allGood p.1 p.2 then surfL q a (d.seen p) m
  else if p = (.S, .U) then (a.Rs *ᵥ (q *ᵥ d.Sm), q *ᵥ d.Sm)
  else if p = (.L, .L) then
    let m' := (surfL q a (d.seen p) m).2 - q *ᵥ (a.Rp *ᵥ d.In)
    (d.Rs *ᵥ m + a.Rs *ᵥ m', m')
  else old

theorem map_ok {β : Type} {x : Except Fault (Mem n K)} {f : Mem n K → β} {P : Mem n K → Prop} (h : Post x P) :
    ∃ y, x.map f = .ok (f y) ∧ P y := by
  obtain ⟨y, h1, h2⟩ := h.elim
  exact ⟨y, by rw [h1]; rfl, h2⟩

theorem atTop_post (nd : Nat) (act : Nat → Act × Act) (a : Atm n K) (d : Nat → Atm n K) (up : Nat → V n K)
    (old : Nat → Pair n K) : ∃ r, atTop inv? nd act a d up old = .ok r ∧ r 0 = (topOf a (up 0), a.I1) ∧
      ∀ i, i < nd → r (i + 1) = (topL a ((d i).seen (act i)) (up 0) (up (i + 1)), (d i).I1) := by
  unfold atTop
  obtain ⟨s, h1, h2, h3⟩ := map_ok (f := fun (s : Mem n K) (b : Nat) => ((results s b).1, match b with
      | 0 => a.I1
      | i + 1 => if i < nd then (d i).I1 else (old b).2)) (slab_post (inv? := inv?) nd act (call ⟨a.Rm, a.Tp, 0, a.Sp, a.I1, up 0⟩
      (fun i => ⟨(d i).Rm, (d i).Tp, 0, (d i).Sp, (d i).I1, up (i + 1)⟩) old))
  refine ⟨_, h1, Prod.ext ?_ rfl, fun i hi => Prod.ext ?_ ?_⟩
  · exact h2
  · refine (h3 i hi).trans ?_
    simp only [slabL, dR, dT, dS, call_R0, call_T0, call_X0, call_Y0, call_R, call_T, call_S, call_X, call_Y, topL, Atm.seen]
  · simp [hi]

theorem atBottom_post (nd : Nat) (act : Nat → Act × Act) (a : Atm n K) (d : Nat → Atm n K)
    (old : Nat → Pair n K) : ∃ r, atBottom inv? nd act a d old = .ok r ∧ r 0 = (a.In, botOf a) ∧
      ∀ i, i < nd → r (i + 1) = ((d i).In, botL a ((d i).seen (act i))) := by
  unfold atBottom
  obtain ⟨s, h1, h2, h3⟩ := map_ok (f := fun (s : Mem n K) (b : Nat) => (match b with
      | 0 => a.In
      | i + 1 => if i < nd then (d i).In else (old b).1, (results s b).1))
      (slab_post (inv? := inv?) nd act (call ⟨a.Rp, a.Tm, 0, a.Sm, a.In, a.I1⟩
      (fun i => ⟨(d i).Rp, (d i).Tm, 0, (d i).Sm, (d i).In, (d i).I1⟩) fun b => ((old b).2, (old b).1)))
  refine ⟨_, h1, Prod.ext rfl ?_, fun i hi => Prod.ext ?_ ?_⟩
  · exact h2
  · simp [hi]
  · refine (h3 i hi).trans ?_
    simp only [slabL, dR, dT, dS, call_R0, call_T0, call_X0, call_Y0, call_R, call_T, call_S, call_X, call_Y, botL, Atm.seen]

theorem onSurface_post (hinv : Exact inv?) (nd : Nat) (act : Nat → Act × Act) (a : Atm n K) (d : Nat → Atm n K)
    (old : Nat → Pair n K) {q : M n K} (hq : q * (1 - a.Rp * a.Rs) = 1) :
    ∃ r, onSurface inv? nd act a d old = .ok r ∧ r 0 = (a.Rs *ᵥ (q *ᵥ botOf a) + a.In, q *ᵥ botOf a) ∧
      ∀ i, i < nd → r (i + 1) = surfOut q (act i) a (d i) (q *ᵥ botOf a) (old (i + 1)) := by
  unfold onSurface
  obtain ⟨s, h1, h2, h3, h4⟩ := map_ok (f := results) (boaAll_post (inv? := inv?) hinv nd act
    (s := call ⟨a.Rp, a.Tm, a.Rs, a.Sm, a.In, a.I1⟩
      (fun i => ⟨(d i).Rp, (d i).Tm, (d i).Rs, (d i).Sm, (d i).In, (d i).I1⟩) old) (q := q) hq)
  have h2' : s.v (cM 0) = q *ᵥ botOf a := h2
  refine ⟨_, h1, Prod.ext ?_ ?_, fun i hi => ?_⟩
  · show s.v (cP 0) = _
    rw [h3, h2']; rfl
  · exact h2'
  · rw [h4 i hi, h2', surfOut, allOut]
    simp only [surfL, boaL, dR, dT, dS, dG, call_R0, call_T0, call_G0, call_X0, call_Y0, call_R, call_T, call_G, call_S, call_X,
      call_Y, Atm.seen, call_results, if_true]

theorem topDown_post (hinv : Exact inv?) (nd : Nat) (act : Nat → Act × Act) (a : Atm n K) (d : Nat → Atm n K)
    (old : Nat → Pair n K) {q : M n K} (hq : q * (1 - a.Rp * a.Rs) = 1) :
    ∃ r, topDown inv? nd act true a d old = .ok r ∧
      r 0 = (a.Rs *ᵥ (q *ᵥ (a.Rp *ᵥ a.In + a.Sm)) + a.In, q *ᵥ (a.Rp *ᵥ a.In + a.Sm)) ∧
      ∀ i, i < nd → r (i + 1) = if refGood (act i).1 (act i).2 then
        surfL q { a with I1 := 0 } { (d i).seen (act i) with I1 := 0 } (q *ᵥ (a.Rp *ᵥ a.In + a.Sm)) else old (i + 1) := by
  unfold topDown
  obtain ⟨s, h1, h2, h3, h4⟩ := map_ok (f := results) (boaRef_post (inv? := inv?) hinv nd act
    (s := call ⟨a.Rp, 0, a.Rs, a.Sm, a.In, 0⟩ (fun i => ⟨(d i).Rp, 0, (d i).Rs, (d i).Sm, (d i).In, 0⟩) old) (q := q) hq)
  have h2' : s.v (cM 0) = q *ᵥ (a.Rp *ᵥ a.In + a.Sm) := h2
  refine ⟨_, by rw [if_pos rfl]; exact h1, Prod.ext ?_ ?_, fun i hi => ?_⟩
  · show s.v (cP 0) = _
    rw [h3, h2']; rfl
  · exact h2'
  · rw [h4 i hi, h2', refOut]
    simp [surfL, boaL, dR, dT, dS, dG, call_R0, call_T0, call_G0, call_X0, call_Y0, call_R, call_T, call_G, call_S, call_X,
      call_Y, Atm.seen, call_results]

theorem bottomUp_post (nd : Nat) (act : Nat → Act × Act) (R : M n K) (S : V n K) (Rl : Nat → M n K) (Sl : Nat → V n K)
    (I1 : V n K) (I1l : Nat → V n K) (old : Nat → Pair n K) :
    ∃ r, bottomUp inv? nd act R S Rl Sl I1 I1l old = .ok r ∧ r 0 = (R *ᵥ I1 + S, I1) ∧
      ∀ i, i < nd → r (i + 1) = ((if (act i).1.l || (act i).2.l then Rl i else 0) *ᵥ I1 + R *ᵥ I1l i +
        (if (act i).1.s || (act i).2.s then Sl i else 0), I1l i) := by
  unfold bottomUp
  obtain ⟨s, h1, h2, h3⟩ := map_ok (f := fun (s : Mem n K) (b : Nat) => ((results s b).1, match b with
      | 0 => I1
      | i + 1 => if i < nd then I1l i else (old b).2)) (toaRef_post (inv? := inv?) nd act
      (call ⟨R, 0, 0, S, I1, 0⟩ (fun i => ⟨Rl i, 0, 0, Sl i, I1l i, 0⟩) old))
  refine ⟨_, h1, Prod.ext h2 rfl, fun i hi => Prod.ext ?_ ?_⟩
  · refine (h3 i hi).trans ?_
    simp only [call_R0, call_X0, call_R, call_S, call_X]
  · simp [hi]

theorem singular_map {β : Type} {p : List (Instr K)} {ds : List (Do K)} {s : Mem n K} {f : Mem n K → β}
    (h : run inv? p s = .error .singular) : (runDo inv? (.calls p :: ds) s).map f = .error .singular := by
  simp only [runDo, h]
  rfl

theorem onSurface_singular (hinv : Exact inv?) (nd : Nat) (act : Nat → Act × Act) (a : Atm n K) (d : Nat → Atm n K)
    (old : Nat → Pair n K) (h : ¬ Regular a.Rp a.Rs) : onSurface inv? nd act a d old = .error .singular :=
  singular_map (boa_singular hinv _ fun q hq => h ⟨q, hq⟩)

theorem topDown_singular (hinv : Exact inv?) (nd : Nat) (act : Nat → Act × Act) (a : Atm n K) (d : Nat → Atm n K)
    (old : Nat → Pair n K) (h : ¬ Regular a.Rp a.Rs) : topDown inv? nd act true a d old = .error .singular := by
  unfold topDown
  rw [if_pos rfl]
  exact singular_map (boa_singular hinv _ fun q hq => h ⟨q, hq⟩)

/-- The light at the bottom as `fourier_get_add_both_ways` has it. -/
structure Bottom (q : M n K) (nd : Nat) (act : Nat → Act × Act) (surface : Bool) (a : Atm n K) (d : Nat → Atm n K)
    (bot : Nat → Pair n K) : Prop where
  lit : surface = true → bot 0 = (a.Rs *ᵥ (q *ᵥ botOf a) + a.In, q *ᵥ botOf a)
  litL : surface = true → ∃ old : Nat → Pair n K, ∀ i, i < nd → bot (i + 1) = surfOut q (act i) a (d i) (q *ᵥ botOf a) (old i)
  bare : surface = false → bot 0 = (a.In, botOf a)
  bareL : surface = false → ∀ i, i < nd → bot (i + 1) = ((d i).In, botL a ((d i).seen (act i)))

/-- ... and at the top. -/
structure Top (nd : Nat) (act : Nat → Act × Act) (a : Atm n K) (d : Nat → Atm n K) (bot top : Nat → Pair n K) : Prop where
  val : top 0 = (topOf a (bot 0).1, a.I1)
  lin : ∀ i, i < nd → top (i + 1) = (topL a ((d i).seen (act i)) (bot 0).1 (bot (i + 1)).1, (d i).I1)

/-- The output levels the adding solvers can have. -/
theorem levels_cases {nLayers : Nat} {ul : List Nat} (h : ul.Pairwise (· < ·)) (h2 : ∀ l ∈ ul, l = 0 ∨ l = nLayers)
    (h3 : ul ≠ []) : ul = [0] ∨ ul = [nLayers] ∨ (ul = [0, nLayers] ∧ 0 < nLayers) := by
  match ul, h3 with
  | [x], _ => rcases h2 x (by simp) with e | e <;> simp [e]
  | x :: y :: ys, _ =>
      have hx := h2 x (by simp)
      have hy := h2 y (by simp)
      simp only [List.pairwise_cons, List.mem_cons, forall_eq_or_imp] at h
      have h0 : x = 0 := by omega
      have h1 : y = nLayers := by omega
      match ys with
      | [] => right; right; exact ⟨by rw [h0, h1], by omega⟩
      | z :: zs =>
          have hz := h2 z (by simp)
          have := h.2.1 z (by simp)
          omega

theorem bothWays_post (hinv : Exact inv?) (nd nLayers : Nat) (act : Nat → Act × Act) (surface : Bool) {ul : List Nat}
    (hn : 0 < nLayers) (hul : ul.Pairwise (· < ·)) (hul2 : ∀ l ∈ ul, l = 0 ∨ l = nLayers) (hul3 : ul ≠ [])
    (a : Atm n K) (d : Nat → Atm n K) (old : Nat → Nat → Pair n K) (work : Nat → Pair n K) {q : M n K}
    (hq : surface = true → q * (1 - a.Rp * a.Rs) = 1) :
    ∃ out bot top, bothWays inv? nd nLayers act surface ul a d old work = .ok out ∧
      Bottom q nd act surface a d bot ∧ Top nd act a d bot top ∧
      ∀ k, (ul[k]? = some 0 → out k = top) ∧ (ul[k]? = some nLayers → out k = bot) := by
  cases surface with
  | true =>
      have hq := hq rfl
      unfold bothWays
      simp only [if_true]
      generalize hk : (if ul[0]? = some nLayers then some 0 else if ul[1]? = some nLayers then some 1 else none) = k
      generalize (k.map old).getD work = w
      obtain ⟨bot, b1, b2, b3⟩ := onSurface_post hinv nd act a d w hq
      rw [b1]
      have B : Bottom q nd act true a d bot := ⟨fun _ => b2, fun _ => ⟨fun i => _, b3⟩, fun h => by simp at h, fun h => by simp at h⟩
      simp only
      obtain ⟨top, t1, t2, t3⟩ := atTop_post (inv? := inv?) nd act a d (fun b => (bot b).1)
        ((fun i => if some i = k then bot else old i) 0)
      have T : Top nd act a d bot top := ⟨t2, t3⟩
      rcases levels_cases hul hul2 hul3 with e | e | ⟨e, -⟩
      · subst e
        simp only [List.getElem?_cons_zero, if_true, t1]
        refine ⟨_, bot, top, rfl, B, T, fun k => ?_⟩
        cases k <;> simp
        omega
      · subst e
        have : ¬ nLayers = 0 := by omega
        simp only [List.getElem?_cons_zero, if_true, Option.some.injEq, this, if_false] at hk ⊢
        subst hk
        refine ⟨_, bot, top, rfl, B, T, fun k => ?_⟩
        cases k <;> simp [this]
      · subst e
        have h1 : ¬ nLayers = 0 := by omega
        have h2 : ¬ 0 = nLayers := by omega
        simp only [List.getElem?_cons_zero, List.getElem?_cons_succ, if_true, Option.some.injEq, h2, if_false, t1] at hk ⊢
        subst hk
        refine ⟨_, bot, top, rfl, B, T, fun k => ?_⟩
        match k with
        | 0 => simp [h2]
        | 1 => simp [h1]
        | k + 2 => simp
  | false =>
      unfold bothWays
      simp only [Bool.false_eq_true, if_false]
      have h1 : ¬ nLayers = 0 := by omega
      have h2 : ¬ 0 = nLayers := by omega
      have bt : ∀ old : Nat → Pair n K, ∃ r, atBottom inv? nd act a d old = .ok r ∧ Bottom q nd act false a d r := fun old => by
        obtain ⟨r, r1, r2, r3⟩ := atBottom_post (inv? := inv?) nd act a d old
        exact ⟨r, r1, fun h => by simp at h, fun h => by simp at h, fun _ => r2, fun _ => r3⟩
      have tp : ∀ (old bot : Nat → Pair n K), Bottom q nd act false a d bot →
          ∃ r, atTop inv? nd act a d (fun b => if b = 0 then a.In else (d (b - 1)).In) old = .ok r ∧ Top nd act a d bot r :=
        fun old bot hb => by
          obtain ⟨r, r1, r2, r3⟩ := atTop_post (inv? := inv?) nd act a d (fun b => if b = 0 then a.In else (d (b - 1)).In) old
          refine ⟨r, r1, ?_, fun i hi => ?_⟩
          · rw [r2, hb.bare rfl]; rfl
          · rw [r3 i hi, hb.bare rfl, hb.bareL rfl i hi]; rfl
      rcases levels_cases hul hul2 hul3 with e | e | ⟨e, -⟩
      · subst e
        obtain ⟨bot, b1, B⟩ := bt (fun _ => 0)
        obtain ⟨top, t1, T⟩ := tp (old 0) bot B
        refine ⟨fun k => if k = 0 then top else old k, bot, top, ?_, B, T, fun k => ?_⟩
        · simp [List.zipIdx, List.foldlM, t1, Except.map, bind, Except.bind, pure, Except.pure]
        · cases k <;> simp
          omega
      · subst e
        obtain ⟨bot, b1, B⟩ := bt (old 0)
        obtain ⟨top, t1, T⟩ := tp (old 0) bot B
        refine ⟨fun k => if k = 0 then bot else old k, bot, top, ?_, B, T, fun k => ?_⟩
        · simp [List.zipIdx, List.foldlM, b1, h1, Except.map, bind, Except.bind, pure, Except.pure]
        · cases k <;> simp [h1]
      · subst e
        obtain ⟨bot, b1, B⟩ := bt (old 1)
        obtain ⟨top, t1, T⟩ := tp (old 0) bot B
        refine ⟨fun k => if k = 1 then bot else if k = 0 then top else old k, bot, top, ?_, B, T, fun k => ?_⟩
        · simp [List.zipIdx, List.foldlM, b1, t1, h1, Except.map, bind, Except.bind, pure, Except.pure]
        · match k with
          | 0 => simp [h2]
          | 1 => simp [h1]
          | k + 2 => simp

end Xrtm.Radiance
