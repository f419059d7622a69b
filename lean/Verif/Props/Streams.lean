import Verif.Proof.StreamsX

/-!
# C60, C61: the four and six stream solvers give the light of the atmosphere

`dir four m j` and `dir six m j` are the tables of the solvers, up to the sign
`calc_Y_x` gives to the functions of both directions; that they are the functions of the
nodes of Gauss is C60_tables and C61_tables.
-/

namespace Xrtm.Streams
open Matrix Xrtm.Transfer Xrtm.Legendre Xrtm.Legendre.Spec Xrtm.Streams.Spec

variable {n : Nat} {k : Kind n} {z : Inp n} {junk : Nat → Source.V n × Source.V n}
  {inv? : {N : Nat} → Matrix (Fin N) (Fin N) ℝ → Option (Matrix (Fin N) (Fin N) ℝ)}

theorem not_out (hL : 1 ≤ z.L) : solve k z junk inv? ≠ .out := by
  unfold solve
  rw [system_inside k z hL]
  split
  · exact fun h => by cases h
  · split
    · rw [if_pos rfl]
      split <;> exact fun h => by cases h
    · exact fun h => by cases h

theorem reads (hm : z.m < 2 * n) (hc : z.nCoef < 2 * n) : solve k z junk inv? = .read := by
  unfold solve
  rw [if_pos ⟨hm, hc⟩]

theorem lights_solves {simple : Source.M n → Prop} (laws : Laws k simple) (hn3 : n ≤ 3) (hex : Bvp.ExactAll inv?) (hf : Fine z)
    (hn : Numbers k z) (hc : 2 * n ≤ z.nCoef) (hs : ∀ i, i < z.L → simple (gamma k z i))
    (hp : (stack (dir k z.m) z).Passive z.qx z.qw) (hsf : z.surface = true) (J : Source.V n) :
    Fine (lights z z.I1m J) ∧ ∃ x, solve k (lights z z.I1m J) junk inv? = .ok x := by
  have hf' : Fine (lights z z.I1m J) := ⟨hf.one, hf.q0, hf.m1, hf.decay, hf.plane, hf.sun, hf.sky, fun h => by
    have h' : z.surface = false := h
    rw [hsf] at h'; cases h'⟩
  refine ⟨hf', solves laws hn3 hex hf' (by rw [numbers_w]; exact hn) hc (by rw [gamma_w]; exact hs) ?_⟩
  exact ⟨hp.cos, hp.weight, hp.thick, hp.dirs, hp.layer, hp.ground⟩

/-! ## Four streams -/

section four
variable {z : Inp 2} {junk : Nat → Source.V 2 × Source.V 2} {again : Source.V 2 × Source.V 2}

theorem four_ok {w : Want} {r : Source.V 2 × Source.V 2} (h : runFour z junk inv? again w = .ok r) :
    ∃ x, solve four z junk inv? = .ok x ∧ ((∃ l, w = .level l) → callAs declared defined again = .ok r) ∧
      ∀ i t, w = .tau i t → r = atTau four z junk x i t := by
  unfold runFour at h
  cases hs : solve four z junk inv? with
  | ok x =>
    rw [hs] at h
    cases w with
    | level l => exact ⟨x, rfl, fun _ => h, fun i t e => by cases e⟩
    | tau i t =>
      refine ⟨x, rfl, fun ⟨l, e⟩ => (by cases e), fun i t e => ?_⟩
      cases e
      exact (Res.ok.inj h).symm
  | nan => rw [hs] at h; cases h
  | singular => rw [hs] at h; cases h
  | out => rw [hs] at h; cases h
  | read => rw [hs] at h; cases h
  | call => rw [hs] at h; cases h

/-- Nothing is written out of the band array. -/
theorem C60_in_bounds (hL : 1 ≤ z.L) (w : Want) : runFour z junk inv? again w ≠ .out := by
  have := not_out (k := four) (junk := junk) (inv? := inv?) hL
  unfold runFour
  cases hs : solve four z junk inv? with
  | ok x =>
    cases w with
    | level l =>
      change callAs declared defined again ≠ .out
      unfold callAs
      split
      · exact fun h => by cases h
      · exact fun h => by cases h
    | tau i t => exact fun h => by cases h
  | out => exact absurd hs this
  | nan => exact fun h => by cases h
  | singular => exact fun h => by cases h
  | read => exact fun h => by cases h
  | call => exact fun h => by cases h

example : 1 ≤ (iso4 2 true).L := by change 1 ≤ 2; norm_num

/-- The directions of the tables are the zeros of the Legendre polynomial of degree two, brought to the
interval from 0 to 1. -/
theorem C60_nodes (j : Fin 2) : (legendre 2).eval (2 * node4 j - 1) = 0 ∧ 0 < node4 j ∧ node4 j < 1 ∧ node4 0 < node4 1 := by
  have h3 : √(1 / 3) * √(1 / 3) = (1 / 3 : ℝ) := Real.mul_self_sqrt (by norm_num)
  have h0 : 0 < √(1 / 3 : ℝ) := Real.sqrt_pos.2 (by norm_num)
  have h1 : √(1 / 3 : ℝ) < 1 := by nlinarith
  have e := (T_values (2 * node4 j - 1)).2.2.1
  refine ⟨e.trans ?_, ?_, ?_, ?_⟩
  · unfold node4
    obtain rfl | rfl : j = 0 ∨ j = 1 := by omega
    · change (3 * (2 * ((1 - √(1 / 3)) / 2) - 1) ^ 2 - 1) / 2 = (0 : ℝ); linear_combination 3 / 2 * h3
    · change (3 * (2 * ((1 + √(1 / 3)) / 2) - 1) ^ 2 - 1) / 2 = (0 : ℝ); linear_combination 3 / 2 * h3
  · unfold node4
    obtain rfl | rfl : j = 0 ∨ j = 1 := by omega
    · change 0 < (1 - √(1 / 3)) / 2; linarith
    · change 0 < (1 + √(1 / 3)) / 2; linarith
  · unfold node4
    obtain rfl | rfl : j = 0 ∨ j = 1 := by omega
    · change (1 - √(1 / 3)) / 2 < 1; linarith
    · change (1 + √(1 / 3)) / 2 < 1; linarith
  · unfold node4
    change (1 - √(1 / 3)) / 2 < (1 + √(1 / 3)) / 2; linarith

/-- Every entry is right in the digits a `double` holds. -/
theorem C60_tables (j : Fin 2) (m l : Nat) (hm : m ≤ l) (hl : l < 4) : |dir four m j l - Y m l (node4 j)| ≤ 1 / 10 ^ 15 :=
  tab2 j m l hm hl

example : |dir four 1 0 3 - Y 1 3 ((1 - √(1 / 3)) / 2)| ≤ 1 / 10 ^ 15 := C60_tables 0 1 3 (by norm_num) (by norm_num)

/-- The phase matrices are Fourier terms of the phase function for these directions and that of the beam. -/
theorem C60_phase (hm : z.mu0 ^ 2 ≤ 1) (i : Nat) (a b : Fin 2) :
    (|(Pqq four z i a b).1 - same z.m 4 (z.coef i) (fun l => Y z.m l (node4 a)) fun l => Y z.m l (node4 b)| ≤
        2 * (∑ l ∈ Finset.Ico z.m 4, |z.coef i l|) * (3 / 10 ^ 15) ∧
      |(Pqq four z i a b).2 - other z.m 4 (z.coef i) (fun l => Y z.m l (node4 a)) fun l => Y z.m l (node4 b)| ≤
        2 * (∑ l ∈ Finset.Ico z.m 4, |z.coef i l|) * (3 / 10 ^ 15)) ∧
    Pqq four z i a b = (same z.m 4 (z.coef i) (dir four z.m a) (dir four z.m b), other z.m 4 (z.coef i) (dir four z.m a) (dir four z.m b)) ∧
    Pq0 four z i a = (same z.m 4 (z.coef i) (dir four z.m a) (fun l => Y z.m l (-z.mu0)),
      other z.m 4 (z.coef i) (dir four z.m a) fun l => Y z.m l (-z.mu0)) := by
  refine ⟨?_, Pqq_eq four z i a b, Pq0_eq four z (by norm_num) hm i a⟩
  rw [Pqq_eq]
  exact same_near z.m 4 _ _ _ _ _ fun l h1 h2 => prod_near (dir_le (fun j m l => Y4_le j m l) _ a l) (dir_le (fun j m l => Y4_le j m l) _ b l)
    (tab2 a z.m l h1 h2) (tab2 b z.m l h1 h2)

example : (iso4 2 true).mu0 ^ 2 ≤ 1 := by change (1 / 2 : ℝ) ^ 2 ≤ 1; norm_num

/-- At any depth of plane layers under the beam, with light from below from the ground only, what is returned is the light of
the atmosphere. -/
theorem C60_taus_partial (hex : Bvp.ExactAll inv?) (hf : Fine z) (hs : ∀ i, i < z.L → disc2 (gamma four z i) ≠ 0)
    {up dn : Nat → ℝ → Fin 2 → ℝ} (hl : (stack (dir four z.m) z).Lit up dn) {i : Nat} (hi : i < z.L) (t : ℝ)
    {r : Source.V 2 × Source.V 2} (h : runFour z junk inv? again (.tau i t) = .ok r) : r = (up i t, dn i t) := by
  obtain ⟨x, hx, -, hr⟩ := four_ok h
  rw [hr i t rfl]
  exact taus_lit four_laws (by norm_num) hex hf hs hx hl i hi t

/-- At the levels that light is in the arrays before the call that has no meaning. -/
theorem C60_levels_before (hex : Bvp.ExactAll inv?) (hf : Fine z) (hs : ∀ i, i < z.L → disc2 (gamma four z i) ≠ 0)
    {up dn : Nat → ℝ → Fin 2 → ℝ} (hl : (stack (dir four z.m) z).Lit up dn) {x : Nat → ℝ} (h : solve four z junk inv? = .ok x)
    (lev : Nat) (hlev : lev ≤ z.L) :
    level four z junk x lev = ((stack (dir four z.m) z).on up lev, (stack (dir four z.m) z).on dn lev) :=
  levels_lit four_laws (by norm_num) hex hf hs h hl lev hlev

/-- An atmosphere that makes no light is solved, wherever the roots and ratios have values; and there is light. -/
theorem C60_solves (hex : Bvp.ExactAll inv?) (hf : Fine z) (hs : ∀ i, i < z.L → disc2 (gamma four z i) ≠ 0)
    (hn : Numbers four z) (hc : 4 ≤ z.nCoef) (hp : (stack (dir four z.m) z).Passive z.qx z.qw) :
    (∃ up dn, (stack (dir four z.m) z).Lit up dn) ∧ ∀ i t, ∃ r, runFour z junk inv? again (.tau i t) = .ok r := by
  obtain ⟨x, hx⟩ := solves (junk := junk) four_laws (by norm_num) hex hf hn hc hs hp
  refine ⟨exists_lit four_laws (by norm_num) hex hf hs hx, fun i t => ⟨atTau four z junk x i t, ?_⟩⟩
  unfold runFour
  rw [hx]

theorem q4_ne (j : Fin 2) : (![1 / 4, 3 / 4] : Source.V 2) j ≠ 0 := by fin_cases j <;> norm_num

/-- All of this is met at once. -/
theorem iso4_lit (sf : Bool) (junk : Nat → Source.V 2 × Source.V 2) (again : Source.V 2 × Source.V 2) : ∃ up dn,
    (stack (dir four 0) (iso4 2 sf)).Lit up dn ∧
      ∀ t, runFour (iso4 2 sf) junk (fun {N} => Eig.inverseK) again (.tau 1 t) = .ok (up 1 t, dn 1 t) := by
  have h0 : ∀ j : Fin 2, 0 < (![1 / 4, 3 / 4] : Source.V 2) j := fun j => by fin_cases j <;> norm_num
  have hw : ∀ j : Fin 2, 0 < (![1 / 2, 1 / 2] : Source.V 2) j := fun j => by fin_cases j <;> norm_num
  have hf : Fine (iso4 2 sf) := iso_fine fun j => (h0 j).ne'
  have hp := iso_passive (k := four) (as0 := 2) (sf := sf) four_Y h0 hw (by norm_num [Fin.sum_univ_two])
  have hs : ∀ i, i < (iso4 2 sf).L → disc2 (gamma four (iso4 2 sf) i) ≠ 0 := fun i _ => iso4_simple 2 sf i
  obtain ⟨⟨up, dn, hl⟩, hr⟩ := C60_solves (junk := junk) (again := again) (fun N => Eig.inverseK_exact) hf hs
    (iso4_numbers 2 sf (by norm_num)) le_rfl hp
  refine ⟨up, dn, hl, fun t => ?_⟩
  obtain ⟨r, h⟩ := hr 1 t
  rw [h, C60_taus_partial (fun N => Eig.inverseK_exact) hf hs hl one_lt_two t h]

example : ∃ up dn, (stack (dir four 0) (iso4 2 true)).Lit up dn := by
  obtain ⟨up, dn, h, -⟩ := iso4_lit true (fun _ => (0, 0)) (0, 0)
  exact ⟨up, dn, h⟩

theorem iso4_found (as0 : ℝ) (sf : Bool) (h2 : as0 = 2)
    (junk : Nat → Source.V 2 × Source.V 2) (I J : Source.V 2) (hJ : sf = true → J = 0) :
    ∃ x, solve four (lights (iso4 as0 sf) I J) junk (fun {N} => Eig.inverseK) = .ok x := by
  subst h2
  obtain ⟨up, dn, -, hr⟩ := iso4_lit sf junk (0, 0)
  obtain ⟨x, hx, -⟩ := four_ok (hr 0)
  exact ⟨x, (solve_w I J hJ).trans hx⟩

/-! ### What is wrong -/

/-- At the levels without further directions, whatever the inputs, there is a call of `calc_radiance_levels` through a
declaration with other parameters than the function has. -/
theorem C60_violated_levels (lev : Nat) (r : Source.V 2 × Source.V 2) :
    runFour z junk inv? again (.level lev) ≠ .ok r ∧
      ∀ x, solve four z junk inv? = .ok x → runFour z junk inv? again (.level lev) = .call := by
  have hd : declared ≠ defined := by decide
  have hc : ∀ a : Source.V 2 × Source.V 2, callAs declared defined a = .call := fun a => if_neg hd
  constructor
  · intro h
    obtain ⟨x, -, h1, -⟩ := four_ok h
    rw [hc] at h1
    cases h1 ⟨lev, rfl⟩
  · intro x hx
    unfold runFour
    rw [hx]
    exact hc again

example : ∃ x, solve four (iso4 2 true) (fun _ => (0, 0)) (fun {N} => Eig.inverseK) = .ok x := by
  obtain ⟨up, dn, -, hr⟩ := iso4_lit true (fun _ => (0, 0)) (0, 0)
  obtain ⟨x, hx, -⟩ := four_ok (hr 0)
  exact ⟨x, hx⟩

/-- Light that comes from above is left out. -/
theorem C60_violated_sky (hex : Bvp.ExactAll inv?) (hf : Fine (lights z 0 z.Inp)) (hs : ∀ i, i < z.L → disc2 (gamma four z i) ≠ 0)
    (hz : z.I1m ≠ 0) {up dn : Nat → ℝ → Fin 2 → ℝ} (hl : (stack (dir four z.m) z).Lit up dn) {r : Source.V 2 × Source.V 2}
    (h : runFour z junk inv? again (.tau 0 0) = .ok r) : r.2 ≠ dn 0 0 := by
  obtain ⟨x, hx, -, hr⟩ := four_ok h
  have h' : solve four (lights z 0 z.Inp) junk inv? = .ok x := (solve_w _ _ fun _ => rfl).trans hx
  have hs' : ∀ i, i < z.L → disc2 (gamma four (lights z 0 z.Inp) i) ≠ 0 := by rw [gamma_w]; exact hs
  obtain ⟨up', dn', hl'⟩ := exists_lit four_laws (by norm_num) hex hf hs' h'
  have := taus_lit four_laws (by norm_num) hex hf hs' h' hl' 0 hf.one 0
  have e : atTau four (lights z 0 z.Inp) junk x 0 0 = atTau four z junk x 0 0 := tau_w four z junk _ _ x 0 0
  rw [hr 0 0 rfl, ← e, this]
  have e1 : dn' 0 0 = 0 := hl'.sky
  have e2 : dn 0 0 = z.I1m := hl.sky
  dsimp only
  rw [e1, e2]
  exact hz.symm

example : ∃ r, runFour (lights (iso4 2 true) (fun _ => 1) 0) (fun _ => (0, 0)) (fun {N} => Eig.inverseK) (0, 0) (.tau 0 0) = .ok r ∧
    Fine (lights (lights (iso4 2 true) (fun _ => 1) 0) 0 0) ∧ (lights (iso4 2 true) (fun _ => 1) 0).I1m ≠ 0 := by
  obtain ⟨x, hx⟩ := iso4_found 2 true rfl (fun _ => (0, 0)) (fun _ => 1) 0 fun _ => rfl
  refine ⟨atTau four (lights (iso4 2 true) (fun _ => 1) 0) (fun _ => (0, 0)) x 0 0, ?_,
    iso_fine q4_ne, fun h => ?_⟩
  · unfold runFour; rw [hx]
  · have := congrFun h 0
    change (1 : ℝ) = 0 at this
    norm_num at this

/-- Light that comes from below is left out, if there is no surface. -/
theorem C60_violated_ground (hex : Bvp.ExactAll inv?) (hf : Fine (lights z z.I1m 0)) (hs : ∀ i, i < z.L → disc2 (gamma four z i) ≠ 0)
    (hsf : z.surface = false) (hz : z.Inp ≠ 0) {up dn : Nat → ℝ → Fin 2 → ℝ} (hl : (stack (dir four z.m) z).Lit up dn)
    {r : Source.V 2 × Source.V 2} (h : runFour z junk inv? again (.tau (z.L - 1) (z.ltau (z.L - 1))) = .ok r) :
    r.1 ≠ up (z.L - 1) (z.ltau (z.L - 1)) := by
  obtain ⟨x, hx, -, hr⟩ := four_ok h
  have h' : solve four (lights z z.I1m 0) junk inv? = .ok x :=
    (solve_w _ _ fun h => by rw [hsf] at h; cases h).trans hx
  have hs' : ∀ i, i < z.L → disc2 (gamma four (lights z z.I1m 0) i) ≠ 0 := by rw [gamma_w]; exact hs
  obtain ⟨up', dn', hl'⟩ := exists_lit four_laws (by norm_num) hex hf hs' h'
  have hL : z.L - 1 < z.L := by have : 1 ≤ z.L := hf.one; omega
  have := taus_lit four_laws (by norm_num) hex hf hs' h' hl' (z.L - 1) hL (z.ltau (z.L - 1))
  have e : atTau four (lights z z.I1m 0) junk x (z.L - 1) (z.ltau (z.L - 1)) = atTau four z junk x (z.L - 1) (z.ltau (z.L - 1)) :=
    tau_w four z junk _ _ x _ _
  rw [hr _ _ rfl, ← e, this]
  have e1 : up' (z.L - 1) (z.ltau (z.L - 1)) = 0 + (if z.surface then z.Rs else 0) *ᵥ _ := hl'.ground
  have e2 : up (z.L - 1) (z.ltau (z.L - 1)) = z.Inp + (if z.surface then z.Rs else 0) *ᵥ _ := hl.ground
  rw [hsf] at e1 e2
  simp only [Bool.false_eq_true, if_false, Matrix.zero_mulVec, add_zero] at e1 e2
  dsimp only
  rw [e1, e2]
  exact hz.symm

example : ∃ r, runFour (lights (iso4 2 false) 0 fun _ => 1) (fun _ => (0, 0)) (fun {N} => Eig.inverseK) (0, 0) (.tau 1 1) = .ok r ∧
    Fine (lights (lights (iso4 2 false) 0 fun _ => 1) 0 0) ∧ (lights (iso4 2 false) 0 fun _ => 1).Inp ≠ 0 := by
  obtain ⟨x, hx⟩ := iso4_found 2 false rfl (fun _ => (0, 0)) 0 (fun _ => 1) fun h => by cases h
  refine ⟨atTau four (lights (iso4 2 false) 0 fun _ => 1) (fun _ => (0, 0)) x 1 1, ?_,
    iso_fine q4_ne, fun h => ?_⟩
  · unfold runFour; rw [hx]
  · have := congrFun h 0
    change (1 : ℝ) = 0 at this
    norm_num at this

/-- In shells, where the beam decays otherwise than with the cosine of its angle, what is returned at the depths of a layer
is not light with the source of that beam, whatever comes from the other layers. -/
theorem C60_violated_shells (h0 : ∀ j, z.qx j ≠ 0) (hm : z.mu0 ^ 2 ≤ 1) (hsun : z.solar = true) (hn : Numbers four z)
    {i : Nat} (hi : i < z.L) (hs : disc2 (gamma four z i) ≠ 0) (hb : z.btran i ≠ 0) (hsh : z.as0 i * z.mu0 ≠ 1)
    (hh0 : ∃ j, hh four z i j ≠ 0) {up dn : ℝ → Fin 2 → ℝ}
    (hc : (medium (dir four z.m) z i).Carries ((stack (dir four z.m) z).qp i) ((stack (dir four z.m) z).qm i) up dn) :
    ¬ ∀ t, runFour z junk inv? again (.tau i t) = .ok (up t, dn t) := by
  intro h
  obtain ⟨j, hj⟩ := hh0
  obtain ⟨x, hx, -⟩ := four_ok (h 0)
  refine hj (shell_tau (junk := junk) four_laws (by norm_num) h0 hm hsun hn hi hs hb hsh hc x (fun t => ?_) j)
  obtain ⟨x', hx', -, hr⟩ := four_ok (h t)
  rw [hx] at hx'
  rw [hr i t rfl, Res.ok.inj hx']

/-- So it is with layers that scatter alike in all directions. -/
theorem iso4_shells {i : Nat} (hi : i < 2) {up dn : ℝ → Fin 2 → ℝ}
    (hc : (medium (dir four 0) (iso4 3 true) i).Carries ((stack (dir four 0) (iso4 3 true)).qp i) ((stack (dir four 0) (iso4 3 true)).qm i) up dn) :
    ¬ ∀ t, runFour (iso4 3 true) junk inv? again (.tau i t) = .ok (up t, dn t) := by
  have h0 : ∀ j : Fin 2, (![1 / 4, 3 / 4] : Source.V 2) j ≠ 0 := fun j => by fin_cases j <;> norm_num
  have hn := iso4_numbers 3 true (by norm_num)
  refine C60_violated_shells h0 ?_ rfl hn hi (iso4_simple 3 true i) (Real.exp_ne_zero _) ?_ ?_ hc
  · change (1 / 2 : ℝ) ^ 2 ≤ 1; norm_num
  · change (3 : ℝ) * (1 / 2) ≠ 1; norm_num
  · by_contra hne
    push Not at hne
    exact iso_hh_ne four_laws (by norm_num) four_Y h0 (by norm_num) i ((hn i hi).2.2.2 rfl) 0 hne

/-- The tables are used whatever the directions are: where the function is of degree one, the phase matrix is not that for
other directions. -/
theorem C60_violated_nodes (hm : z.m = 0) {i : Nat} (hc : ∀ l, z.coef i l = if l = 1 then 1 else 0) (j : Fin 2)
    (hq : z.qx j * z.qx j ≠ Y4 j 0 1 * Y4 j 0 1) :
    (Pqq four z i j j).1 ≠ same z.m 4 (z.coef i) (fun l => Y z.m l (z.qx j)) fun l => Y z.m l (z.qx j) := by
  rw [Pqq_eq]
  have e : z.coef i = fun l => if l = 1 then 1 else 0 := funext hc
  have key : ∀ f g : Nat → ℝ, same 0 4 (fun l => if l = 1 then 1 else 0) f g = f 1 * g 1 := by
    intro f g
    unfold same eps
    rw [if_pos rfl, ← Finset.range_eq_Ico]
    simp [Finset.sum_range_succ]
  have hY : ∀ x, Y 0 1 x = x := fun x => by
    rw [Y_eq, (T_values x).2.1, nrm_inv 0 1 1 (by norm_num)]
    norm_num
  dsimp only
  rw [hm, e, key, key, hY]
  have : dir four 0 j 1 = Y4 j 0 1 := by
    unfold dir sg
    rw [if_neg (by norm_num), one_mul]
    rfl
  rw [this]
  exact fun h => hq h.symm

example : ∃ z : Inp 2, z.m = 0 ∧ (∀ l, z.coef 0 l = if l = 1 then 1 else 0) ∧ z.qx 0 * z.qx 0 ≠ Y4 0 0 1 * Y4 0 0 1 := by
  refine ⟨{ iso4 2 true with coef := fun _ l => if l = 1 then 1 else 0 }, rfl, fun _ => rfl, ?_⟩
  change (1 / 4 : ℝ) * (1 / 4) ≠ 2.1132486540518713e-1 * 2.1132486540518713e-1
  norm_num

/-- With fewer coefficients than streams the rows are read beyond their end. -/
theorem C60_violated_read (hm : z.m < 4) (hc : z.nCoef < 4) (w : Want) : runFour z junk inv? again w = .read := by
  unfold runFour
  rw [reads hm hc]

example : ∃ z : Inp 2, z.m < 4 ∧ z.nCoef < 4 := ⟨{ iso4 2 true with nCoef := 3 }, by change 0 < 4; norm_num, by change 3 < 4; norm_num⟩

/-- The derivatives returned are zero, also where the light varies. -/
theorem C60_violated_derivs (hex : Bvp.ExactAll inv?) (q : Source.V 2) (y : ℝ)
    (hf : ∀ s : ℝ, Fine (lights z z.I1m (z.Inp + s • q))) (hs : ∀ i, i < z.L → disc2 (gamma four z i) ≠ 0) (hq : q ≠ 0)
    {x : ℝ → Nat → ℝ} (h : ∀ s, solve four (lights z z.I1m (z.Inp + s • q)) junk inv? = .ok (x s)) :
    ¬ (HasDerivAt (fun s => (level four (lights z z.I1m (z.Inp + s • q)) junk (x s) z.L).1) derivs.1 y ∧
      HasDerivAt (fun s => (level four (lights z z.I1m (z.Inp + s • q)) junk (x s) z.L).2) derivs.2 y) :=
  derivs_wrong four_laws (by norm_num) hex q y hf hs hq h

example : ∃ (q : Source.V 2) (x : ℝ → Nat → ℝ), q ≠ 0 ∧ (∀ s : ℝ, Fine (lights (iso4 2 true) 0 (0 + s • q))) ∧
    ∀ s : ℝ, solve four (lights (iso4 2 true) 0 (0 + s • q)) (fun _ => (0, 0)) (fun {N} => Eig.inverseK) = .ok (x s) := by
  have h0 : ∀ j : Fin 2, 0 < (![1 / 4, 3 / 4] : Source.V 2) j := fun j => by fin_cases j <;> norm_num
  have hw : ∀ j : Fin 2, 0 < (![1 / 2, 1 / 2] : Source.V 2) j := fun j => by fin_cases j <;> norm_num
  have key := fun s : ℝ => lights_solves (z := iso4 2 true) (junk := fun _ => (0, 0)) four_laws (by norm_num)
    (fun N => Eig.inverseK_exact) (iso_fine q4_ne) (iso4_numbers 2 true (by norm_num)) le_rfl (fun i _ => iso4_simple 2 true i)
    (iso_passive four_Y h0 hw (by norm_num [Fin.sum_univ_two])) rfl (0 + s • fun _ => 1)
  choose hf x hx using key
  refine ⟨fun _ => 1, x, fun h => ?_, hf, hx⟩
  have := congrFun h 0
  change (1 : ℝ) = 0 at this
  norm_num at this

end four

/-! ## Six streams -/

section six
variable {z : Inp 3} {junk : Nat → Source.V 3 × Source.V 3}

theorem six_ok {w : Want} {r : Source.V 3 × Source.V 3} (h : runSix z junk inv? w = .ok r) :
    ∃ x, solve six z junk inv? = .ok x ∧ (∀ l, w = .level l → r = level six z junk x l) ∧
      ∀ i t, w = .tau i t → r = atTau six z junk x i t := by
  unfold runSix at h
  cases hs : solve six z junk inv? with
  | ok x =>
    rw [hs] at h
    cases w with
    | level l =>
      refine ⟨x, rfl, fun l e => ?_, fun i t e => by cases e⟩
      cases e
      exact (Res.ok.inj h).symm
    | tau i t =>
      refine ⟨x, rfl, fun l e => (by cases e), fun i t e => ?_⟩
      cases e
      exact (Res.ok.inj h).symm
  | nan => rw [hs] at h; cases h
  | singular => rw [hs] at h; cases h
  | out => rw [hs] at h; cases h
  | read => rw [hs] at h; cases h
  | call => rw [hs] at h; cases h

/-- Nothing is written out of the band array. -/
theorem C61_in_bounds (hL : 1 ≤ z.L) (w : Want) : runSix z junk inv? w ≠ .out := by
  have := not_out (k := six) (junk := junk) (inv? := inv?) hL
  unfold runSix
  cases hs : solve six z junk inv? with
  | ok x =>
    cases w with
    | level l => exact fun h => by cases h
    | tau i t => exact fun h => by cases h
  | out => exact absurd hs this
  | nan => exact fun h => by cases h
  | singular => exact fun h => by cases h
  | read => exact fun h => by cases h
  | call => exact fun h => by cases h

example : 1 ≤ (iso6 2 true).L := by change 1 ≤ 2; norm_num

/-- The directions of the tables are the zeros of the Legendre polynomial of degree three, brought to the
interval from 0 to 1. -/
theorem C61_nodes (j : Fin 3) :
    (legendre 3).eval (2 * node6 j - 1) = 0 ∧ 0 < node6 j ∧ node6 j < 1 ∧ node6 0 < node6 1 ∧ node6 1 < node6 2 := by
  have h3 : √(3 / 5) * √(3 / 5) = (3 / 5 : ℝ) := Real.mul_self_sqrt (by norm_num)
  have h0 : 0 < √(3 / 5 : ℝ) := Real.sqrt_pos.2 (by norm_num)
  have h1 : √(3 / 5 : ℝ) < 1 := by nlinarith
  have e := (T_values (2 * node6 j - 1)).2.2.2.1
  refine ⟨e.trans ?_, ?_, ?_, ?_, ?_⟩
  · unfold node6
    obtain rfl | rfl | rfl : j = 0 ∨ j = 1 ∨ j = 2 := by omega
    · change (5 * (2 * ((1 - √(3 / 5)) / 2) - 1) ^ 3 - 3 * (2 * ((1 - √(3 / 5)) / 2) - 1)) / 2 = (0 : ℝ)
      linear_combination -5 / 2 * √(3 / 5) * h3
    · change (5 * (2 * (1 / 2) - 1) ^ 3 - 3 * (2 * (1 / 2) - 1)) / 2 = (0 : ℝ); norm_num
    · change (5 * (2 * ((1 + √(3 / 5)) / 2) - 1) ^ 3 - 3 * (2 * ((1 + √(3 / 5)) / 2) - 1)) / 2 = (0 : ℝ)
      linear_combination 5 / 2 * √(3 / 5) * h3
  · unfold node6
    obtain rfl | rfl | rfl : j = 0 ∨ j = 1 ∨ j = 2 := by omega
    · change 0 < (1 - √(3 / 5)) / 2; linarith
    · change (0 : ℝ) < 1 / 2; norm_num
    · change 0 < (1 + √(3 / 5)) / 2; linarith
  · unfold node6
    obtain rfl | rfl | rfl : j = 0 ∨ j = 1 ∨ j = 2 := by omega
    · change (1 - √(3 / 5)) / 2 < 1; linarith
    · change (1 / 2 : ℝ) < 1; norm_num
    · change (1 + √(3 / 5)) / 2 < 1; linarith
  · unfold node6
    change (1 - √(3 / 5)) / 2 < 1 / 2; linarith
  · unfold node6
    change 1 / 2 < (1 + √(3 / 5)) / 2; linarith

/-- Every entry is right in the digits a `double` holds. -/
theorem C61_tables (j : Fin 3) (m l : Nat) (hm : m ≤ l) (hl : l < 6) : |dir six m j l - Y m l (node6 j)| ≤ 1 / 10 ^ 15 :=
  tab3 j m l hm hl

example : |dir six 1 0 4 - Y 1 4 ((1 - √(3 / 5)) / 2)| ≤ 1 / 10 ^ 15 := C61_tables 0 1 4 (by norm_num) (by norm_num)

/-- The phase matrices are Fourier terms of the phase function for these directions and that of the beam. -/
theorem C61_phase (hm : z.mu0 ^ 2 ≤ 1) (i : Nat) (a b : Fin 3) :
    (|(Pqq six z i a b).1 - same z.m 6 (z.coef i) (fun l => Y z.m l (node6 a)) fun l => Y z.m l (node6 b)| ≤
        2 * (∑ l ∈ Finset.Ico z.m 6, |z.coef i l|) * (3 / 10 ^ 15) ∧
      |(Pqq six z i a b).2 - other z.m 6 (z.coef i) (fun l => Y z.m l (node6 a)) fun l => Y z.m l (node6 b)| ≤
        2 * (∑ l ∈ Finset.Ico z.m 6, |z.coef i l|) * (3 / 10 ^ 15)) ∧
    Pqq six z i a b = (same z.m 6 (z.coef i) (dir six z.m a) (dir six z.m b), other z.m 6 (z.coef i) (dir six z.m a) (dir six z.m b)) ∧
    Pq0 six z i a = (same z.m 6 (z.coef i) (dir six z.m a) (fun l => Y z.m l (-z.mu0)),
      other z.m 6 (z.coef i) (dir six z.m a) fun l => Y z.m l (-z.mu0)) := by
  refine ⟨?_, Pqq_eq six z i a b, Pq0_eq six z (by norm_num) hm i a⟩
  rw [Pqq_eq]
  exact same_near z.m 6 _ _ _ _ _ fun l h1 h2 => prod_near (dir_le (fun j m l => Y6_le j m l) _ a l) (dir_le (fun j m l => Y6_le j m l) _ b l)
    (tab3 a z.m l h1 h2) (tab3 b z.m l h1 h2)

example : (iso6 2 true).mu0 ^ 2 ≤ 1 := by change (1 / 2 : ℝ) ^ 2 ≤ 1; norm_num

/-- At any depth of plane layers under the beam, with light from below from the ground only, what is returned is the light of
the atmosphere. -/
theorem C61_taus_partial (hex : Bvp.ExactAll inv?) (hf : Fine z) (hs : ∀ i, i < z.L → simple6 (gamma six z i))
    {up dn : Nat → ℝ → Fin 3 → ℝ} (hl : (stack (dir six z.m) z).Lit up dn) {i : Nat} (hi : i < z.L) (t : ℝ)
    {r : Source.V 3 × Source.V 3} (h : runSix z junk inv? (.tau i t) = .ok r) : r = (up i t, dn i t) := by
  obtain ⟨x, hx, -, hr⟩ := six_ok h
  rw [hr i t rfl]
  exact taus_lit six_laws (by norm_num) hex hf hs hx hl i hi t

/-- And at the levels. -/
theorem C61_levels_partial (hex : Bvp.ExactAll inv?) (hf : Fine z) (hs : ∀ i, i < z.L → simple6 (gamma six z i))
    {up dn : Nat → ℝ → Fin 3 → ℝ} (hl : (stack (dir six z.m) z).Lit up dn) {lev : Nat} (hlev : lev ≤ z.L)
    {r : Source.V 3 × Source.V 3} (h : runSix z junk inv? (.level lev) = .ok r) :
    r = ((stack (dir six z.m) z).on up lev, (stack (dir six z.m) z).on dn lev) := by
  obtain ⟨x, hx, hr, -⟩ := six_ok h
  rw [hr lev rfl]
  exact levels_lit six_laws (by norm_num) hex hf hs hx hl lev hlev

/-- An atmosphere that makes no light is solved, wherever the roots and ratios have values; and there is light. -/
theorem C61_solves (hex : Bvp.ExactAll inv?) (hf : Fine z) (hs : ∀ i, i < z.L → simple6 (gamma six z i))
    (hn : Numbers six z) (hc : 6 ≤ z.nCoef) (hp : (stack (dir six z.m) z).Passive z.qx z.qw) :
    (∃ up dn, (stack (dir six z.m) z).Lit up dn) ∧ ∀ w, ∃ r, runSix z junk inv? w = .ok r := by
  obtain ⟨x, hx⟩ := solves (junk := junk) six_laws (by norm_num) hex hf hn hc hs hp
  refine ⟨exists_lit six_laws (by norm_num) hex hf hs hx, fun w => ?_⟩
  unfold runSix
  rw [hx]
  cases w with
  | level l => exact ⟨_, rfl⟩
  | tau i t => exact ⟨_, rfl⟩

theorem q6_sum : ∑ j, (![1 / 3, 1 / 3, 1 / 3] : Source.V 3) j = 1 := by
  rw [Fin.sum_univ_three]
  change (1 / 3 : ℝ) + 1 / 3 + 1 / 3 = 1
  norm_num

theorem q6_ne (j : Fin 3) : (![1 / 4, 1 / 2, 3 / 4] : Source.V 3) j ≠ 0 := by fin_cases j <;> norm_num

/-- All of this is met at once. -/
theorem iso6_lit (sf : Bool) (junk : Nat → Source.V 3 × Source.V 3) : ∃ up dn,
    (stack (dir six 0) (iso6 2 sf)).Lit up dn ∧
      ∀ t, runSix (iso6 2 sf) junk (fun {N} => Eig.inverseK) (.tau 1 t) = .ok (up 1 t, dn 1 t) := by
  have h0 : ∀ j : Fin 3, 0 < (![1 / 4, 1 / 2, 3 / 4] : Source.V 3) j := fun j => by fin_cases j <;> norm_num
  have hw : ∀ j : Fin 3, 0 < (![1 / 3, 1 / 3, 1 / 3] : Source.V 3) j := fun j => by fin_cases j <;> norm_num
  have hf : Fine (iso6 2 sf) := iso_fine fun j => (h0 j).ne'
  have hp := iso_passive (k := six) (as0 := 2) (sf := sf) six_Y h0 hw q6_sum
  have hs : ∀ i, i < (iso6 2 sf).L → simple6 (gamma six (iso6 2 sf) i) := fun i _ => iso6_simple 2 sf i
  obtain ⟨⟨up, dn, hl⟩, hr⟩ := C61_solves (junk := junk) (fun N => Eig.inverseK_exact) hf hs
    (iso6_numbers 2 sf (by norm_num)) le_rfl hp
  refine ⟨up, dn, hl, fun t => ?_⟩
  obtain ⟨r, h⟩ := hr (.tau 1 t)
  rw [h, C61_taus_partial (fun N => Eig.inverseK_exact) hf hs hl one_lt_two t h]

example : ∃ up dn, (stack (dir six 0) (iso6 2 true)).Lit up dn := by
  obtain ⟨up, dn, h, -⟩ := iso6_lit true fun _ => (0, 0)
  exact ⟨up, dn, h⟩

theorem iso6_found (as0 : ℝ) (sf : Bool) (h2 : as0 = 2)
    (junk : Nat → Source.V 3 × Source.V 3) (I J : Source.V 3) (hJ : sf = true → J = 0) :
    ∃ x, solve six (lights (iso6 as0 sf) I J) junk (fun {N} => Eig.inverseK) = .ok x := by
  subst h2
  obtain ⟨up, dn, -, hr⟩ := iso6_lit sf junk
  obtain ⟨x, hx, -⟩ := six_ok (hr 0)
  exact ⟨x, (solve_w I J hJ).trans hx⟩

/-! ### What is wrong -/

/-- A layer that only absorbs has all its eigenvectors the ratio of zeros. -/
theorem C61_violated_absorbing (hc : 6 ≤ z.nCoef) {i : Nat} (hi : i < z.L) (h0 : z.om i = 0) (w : Want) :
    runSix z junk inv? w = .nan := by
  have hn : ¬ Numbers six z := fun hn => by
    have := (hn i hi).1.1
    refine this ?_
    unfold n10
    rw [gamma_diag h0 0 2 (by decide), gamma_diag h0 1 2 (by decide)]
    ring
  unfold runSix
  have : solve six z junk inv? = .nan := by
    unfold solve
    rw [if_neg (by omega), if_neg hn]
  rw [this]

example : ∃ z : Inp 3, 6 ≤ z.nCoef ∧ 1 < z.L ∧ z.om 1 = 0 :=
  ⟨{ iso6 2 true with om := fun _ => 0 }, le_rfl, one_lt_two, rfl⟩

/-- Light that comes from above is left out. -/
theorem C61_violated_sky (hex : Bvp.ExactAll inv?) (hf : Fine (lights z 0 z.Inp)) (hs : ∀ i, i < z.L → simple6 (gamma six z i))
    (hz : z.I1m ≠ 0) {up dn : Nat → ℝ → Fin 3 → ℝ} (hl : (stack (dir six z.m) z).Lit up dn) {r : Source.V 3 × Source.V 3}
    (h : runSix z junk inv? (.tau 0 0) = .ok r) : r.2 ≠ dn 0 0 := by
  obtain ⟨x, hx, -, hr⟩ := six_ok h
  have h' : solve six (lights z 0 z.Inp) junk inv? = .ok x := (solve_w _ _ fun _ => rfl).trans hx
  have hs' : ∀ i, i < z.L → simple6 (gamma six (lights z 0 z.Inp) i) := by rw [gamma_w]; exact hs
  obtain ⟨up', dn', hl'⟩ := exists_lit six_laws (by norm_num) hex hf hs' h'
  have := taus_lit six_laws (by norm_num) hex hf hs' h' hl' 0 hf.one 0
  have e : atTau six (lights z 0 z.Inp) junk x 0 0 = atTau six z junk x 0 0 := tau_w six z junk _ _ x 0 0
  rw [hr 0 0 rfl, ← e, this]
  have e1 : dn' 0 0 = 0 := hl'.sky
  have e2 : dn 0 0 = z.I1m := hl.sky
  dsimp only
  rw [e1, e2]
  exact hz.symm

example : ∃ r, runSix (lights (iso6 2 true) (fun _ => 1) 0) (fun _ => (0, 0)) (fun {N} => Eig.inverseK) (.tau 0 0) = .ok r ∧
    Fine (lights (lights (iso6 2 true) (fun _ => 1) 0) 0 0) ∧ (lights (iso6 2 true) (fun _ => 1) 0).I1m ≠ 0 := by
  obtain ⟨x, hx⟩ := iso6_found 2 true rfl (fun _ => (0, 0)) (fun _ => 1) 0 fun _ => rfl
  refine ⟨atTau six (lights (iso6 2 true) (fun _ => 1) 0) (fun _ => (0, 0)) x 0 0, ?_,
    iso_fine q6_ne, fun h => ?_⟩
  · unfold runSix; rw [hx]
  · have := congrFun h 0
    change (1 : ℝ) = 0 at this
    norm_num at this

/-- Light that comes from below is left out, if there is no surface. -/
theorem C61_violated_ground (hex : Bvp.ExactAll inv?) (hf : Fine (lights z z.I1m 0)) (hs : ∀ i, i < z.L → simple6 (gamma six z i))
    (hsf : z.surface = false) (hz : z.Inp ≠ 0) {up dn : Nat → ℝ → Fin 3 → ℝ} (hl : (stack (dir six z.m) z).Lit up dn)
    {r : Source.V 3 × Source.V 3} (h : runSix z junk inv? (.tau (z.L - 1) (z.ltau (z.L - 1))) = .ok r) :
    r.1 ≠ up (z.L - 1) (z.ltau (z.L - 1)) := by
  obtain ⟨x, hx, -, hr⟩ := six_ok h
  have h' : solve six (lights z z.I1m 0) junk inv? = .ok x :=
    (solve_w _ _ fun h => by rw [hsf] at h; cases h).trans hx
  have hs' : ∀ i, i < z.L → simple6 (gamma six (lights z z.I1m 0) i) := by rw [gamma_w]; exact hs
  obtain ⟨up', dn', hl'⟩ := exists_lit six_laws (by norm_num) hex hf hs' h'
  have hL : z.L - 1 < z.L := by have : 1 ≤ z.L := hf.one; omega
  have := taus_lit six_laws (by norm_num) hex hf hs' h' hl' (z.L - 1) hL (z.ltau (z.L - 1))
  have e : atTau six (lights z z.I1m 0) junk x (z.L - 1) (z.ltau (z.L - 1)) = atTau six z junk x (z.L - 1) (z.ltau (z.L - 1)) :=
    tau_w six z junk _ _ x _ _
  rw [hr _ _ rfl, ← e, this]
  have e1 : up' (z.L - 1) (z.ltau (z.L - 1)) = 0 + (if z.surface then z.Rs else 0) *ᵥ _ := hl'.ground
  have e2 : up (z.L - 1) (z.ltau (z.L - 1)) = z.Inp + (if z.surface then z.Rs else 0) *ᵥ _ := hl.ground
  rw [hsf] at e1 e2
  simp only [Bool.false_eq_true, if_false, Matrix.zero_mulVec, add_zero] at e1 e2
  dsimp only
  rw [e1, e2]
  exact hz.symm

example : ∃ r, runSix (lights (iso6 2 false) 0 fun _ => 1) (fun _ => (0, 0)) (fun {N} => Eig.inverseK) (.tau 1 1) = .ok r ∧
    Fine (lights (lights (iso6 2 false) 0 fun _ => 1) 0 0) ∧ (lights (iso6 2 false) 0 fun _ => 1).Inp ≠ 0 := by
  obtain ⟨x, hx⟩ := iso6_found 2 false rfl (fun _ => (0, 0)) 0 (fun _ => 1) fun h => by cases h
  refine ⟨atTau six (lights (iso6 2 false) 0 fun _ => 1) (fun _ => (0, 0)) x 1 1, ?_,
    iso_fine q6_ne, fun h => ?_⟩
  · unfold runSix; rw [hx]
  · have := congrFun h 0
    change (1 : ℝ) = 0 at this
    norm_num at this

/-- In shells, where the beam decays otherwise than with the cosine of its angle, what is returned at the depths of a layer
is not light with the source of that beam, whatever comes from the other layers. -/
theorem C61_violated_shells (h0 : ∀ j, z.qx j ≠ 0) (hm : z.mu0 ^ 2 ≤ 1) (hsun : z.solar = true) (hn : Numbers six z)
    {i : Nat} (hi : i < z.L) (hs : simple6 (gamma six z i)) (hb : z.btran i ≠ 0) (hsh : z.as0 i * z.mu0 ≠ 1)
    (hh0 : ∃ j, hh six z i j ≠ 0) {up dn : ℝ → Fin 3 → ℝ}
    (hc : (medium (dir six z.m) z i).Carries ((stack (dir six z.m) z).qp i) ((stack (dir six z.m) z).qm i) up dn) :
    ¬ ∀ t, runSix z junk inv? (.tau i t) = .ok (up t, dn t) := by
  intro h
  obtain ⟨j, hj⟩ := hh0
  obtain ⟨x, hx, -⟩ := six_ok (h 0)
  refine hj (shell_tau (junk := junk) six_laws (by norm_num) h0 hm hsun hn hi hs hb hsh hc x (fun t => ?_) j)
  obtain ⟨x', hx', -, hr⟩ := six_ok (h t)
  rw [hx] at hx'
  rw [hr i t rfl, Res.ok.inj hx']

/-- So it is with layers that scatter alike in all directions. -/
theorem iso6_shells {i : Nat} (hi : i < 2) {up dn : ℝ → Fin 3 → ℝ}
    (hc : (medium (dir six 0) (iso6 3 true) i).Carries ((stack (dir six 0) (iso6 3 true)).qp i) ((stack (dir six 0) (iso6 3 true)).qm i) up dn) :
    ¬ ∀ t, runSix (iso6 3 true) junk inv? (.tau i t) = .ok (up t, dn t) := by
  have h0 : ∀ j : Fin 3, (![1 / 4, 1 / 2, 3 / 4] : Source.V 3) j ≠ 0 := fun j => by fin_cases j <;> norm_num
  have hn := iso6_numbers 3 true (by norm_num)
  refine C61_violated_shells h0 ?_ rfl hn hi (iso6_simple 3 true i) (Real.exp_ne_zero _) ?_ ?_ hc
  · change (1 / 2 : ℝ) ^ 2 ≤ 1; norm_num
  · change (3 : ℝ) * (1 / 2) ≠ 1; norm_num
  · by_contra hne
    push Not at hne
    exact iso_hh_ne six_laws (by norm_num) six_Y h0 (by norm_num) i ((hn i hi).2.2.2 rfl) 0 hne

/-- The tables are used whatever the directions are: where the function is of degree one, the phase matrix is not that for
other directions. -/
theorem C61_violated_nodes (hm : z.m = 0) {i : Nat} (hc : ∀ l, z.coef i l = if l = 1 then 1 else 0) (j : Fin 3)
    (hq : z.qx j * z.qx j ≠ Y6 j 0 1 * Y6 j 0 1) :
    (Pqq six z i j j).1 ≠ same z.m 6 (z.coef i) (fun l => Y z.m l (z.qx j)) fun l => Y z.m l (z.qx j) := by
  rw [Pqq_eq]
  have e : z.coef i = fun l => if l = 1 then 1 else 0 := funext hc
  have key : ∀ f g : Nat → ℝ, same 0 6 (fun l => if l = 1 then 1 else 0) f g = f 1 * g 1 := by
    intro f g
    unfold same eps
    rw [if_pos rfl, ← Finset.range_eq_Ico]
    simp [Finset.sum_range_succ]
  have hY : ∀ x, Y 0 1 x = x := fun x => by
    rw [Y_eq, (T_values x).2.1, nrm_inv 0 1 1 (by norm_num)]
    norm_num
  dsimp only
  rw [hm, e, key, key, hY]
  have : dir six 0 j 1 = Y6 j 0 1 := by
    unfold dir sg
    rw [if_neg (by norm_num), one_mul]
    rfl
  rw [this]
  exact fun h => hq h.symm

example : ∃ z : Inp 3, z.m = 0 ∧ (∀ l, z.coef 0 l = if l = 1 then 1 else 0) ∧ z.qx 0 * z.qx 0 ≠ Y6 0 0 1 * Y6 0 0 1 := by
  refine ⟨{ iso6 2 true with coef := fun _ l => if l = 1 then 1 else 0 }, rfl, fun _ => rfl, ?_⟩
  change (1 / 4 : ℝ) * (1 / 4) ≠ 1.1270166537925830e-1 * 1.1270166537925830e-1
  norm_num

/-- With fewer coefficients than streams the rows are read beyond their end. -/
theorem C61_violated_read (hm : z.m < 6) (hc : z.nCoef < 6) (w : Want) : runSix z junk inv? w = .read := by
  unfold runSix
  rw [reads hm hc]

example : ∃ z : Inp 3, z.m < 6 ∧ z.nCoef < 6 := ⟨{ iso6 2 true with nCoef := 5 }, by change 0 < 6; norm_num, by change 5 < 6; norm_num⟩

/-- The derivatives returned are zero, also where the light varies. -/
theorem C61_violated_derivs (hex : Bvp.ExactAll inv?) (q : Source.V 3) (y : ℝ)
    (hf : ∀ s : ℝ, Fine (lights z z.I1m (z.Inp + s • q))) (hs : ∀ i, i < z.L → simple6 (gamma six z i)) (hq : q ≠ 0)
    {x : ℝ → Nat → ℝ} (h : ∀ s, solve six (lights z z.I1m (z.Inp + s • q)) junk inv? = .ok (x s)) :
    ¬ (HasDerivAt (fun s => (level six (lights z z.I1m (z.Inp + s • q)) junk (x s) z.L).1) derivs.1 y ∧
      HasDerivAt (fun s => (level six (lights z z.I1m (z.Inp + s • q)) junk (x s) z.L).2) derivs.2 y) :=
  derivs_wrong six_laws (by norm_num) hex q y hf hs hq h

example : ∃ (q : Source.V 3) (x : ℝ → Nat → ℝ), q ≠ 0 ∧ (∀ s : ℝ, Fine (lights (iso6 2 true) 0 (0 + s • q))) ∧
    ∀ s : ℝ, solve six (lights (iso6 2 true) 0 (0 + s • q)) (fun _ => (0, 0)) (fun {N} => Eig.inverseK) = .ok (x s) := by
  have h0 : ∀ j : Fin 3, 0 < (![1 / 4, 1 / 2, 3 / 4] : Source.V 3) j := fun j => by fin_cases j <;> norm_num
  have hw : ∀ j : Fin 3, 0 < (![1 / 3, 1 / 3, 1 / 3] : Source.V 3) j := fun j => by fin_cases j <;> norm_num
  have key := fun s : ℝ => lights_solves (z := iso6 2 true) (junk := fun _ => (0, 0)) six_laws (by norm_num)
    (fun N => Eig.inverseK_exact) (iso_fine q6_ne) (iso6_numbers 2 true (by norm_num)) le_rfl (fun i _ => iso6_simple 2 true i)
    (iso_passive six_Y h0 hw q6_sum) rfl (0 + s • fun _ => 1)
  choose hf x hx using key
  refine ⟨fun _ => 1, x, fun h => ?_, hf, hx⟩
  have := congrFun h 0
  change (1 : ℝ) = 0 at this
  norm_num at this

end six

end Xrtm.Streams
