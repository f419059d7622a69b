import Verif.Proof.SosDeriv

/-!
# C53: successive orders of scattering

The light that `rtm_sos` returns is the sum of the light scattered no, one, two, … times in slabs with an even source,
and close to all the light there is.
-/

namespace Xrtm.Sos
open Xrtm.Transfer Xrtm.Spec

variable {n : Nat}

/-- What a caller may pass. -/
structure Sound (z : Args n ℝ) : Prop where
  n : 0 < n
  L : 0 < z.L
  qx : ∀ k, 0 < z.qx k
  ltau : ∀ i, i < z.L → 0 ≤ z.ltau i
  maxTau : 0 < z.maxTau
  maxOs : 0 < z.maxOs
  beam : ∀ i, i < z.L → z.btran (i + 1) = z.btran i * Real.exp (-z.as0 i * z.ltau i)
  scalar : z.vector = false → ∀ i, z.Ppm i = z.Pmp i ∧ z.Pmm i = z.Ppp i

/-- **C53_split.** The layers are cut evenly: the pieces of a layer add up to it, none is thicker than the limit, the
arrays are made as long as they are written, and the beam is dimmed along the pieces as it is along the layers. -/
theorem C53_split (z : Args n ℝ) (h : Sound z) :
    (∀ i, i < z.L → (((cuts Real.exp z).filter fun p => p.index = i).map Piece.ltau).sum = z.ltau i) ∧
    (∀ p ∈ cuts Real.exp z, p.index < z.L ∧ 0 ≤ p.ltau ∧ p.ltau ≤ z.maxTau) ∧
    (∀ p ∈ cuts Real.exp z, ∀ q ∈ cuts Real.exp z, p.index = q.index → p.ltau = q.ltau) ∧
    (∀ c, count? z = some c → (cuts Real.exp z).length = c) ∧
    ∀ j, j < (grid Real.exp z).N → (grid Real.exp z).btran (j + 1) =
      (grid Real.exp z).btran j * Real.exp (-z.as0 ((grid Real.exp z).index j) * (grid Real.exp z).ltau j) := by
  have fact : ∀ p ∈ cuts Real.exp z, p.index < z.L ∧ p.ltau = z.ltau p.index / pieces z.maxTau (z.ltau p.index) := by
    intro p hp
    obtain ⟨j, hj, rfl⟩ := List.getElem_of_mem hp
    have := upto_facts z z.L h.beam z.L le_rfl j hj
    exact ⟨this.1, this.2.1⟩
  refine ⟨fun i hi => ?_, fun p hp => ?_, fun p hp q hq e => ?_, fun c hc => ?_, fun j hj => (grid_facts z h.beam j hj).2.2⟩
  · have := upto_sum z i z.L
    rwa [if_pos hi] at this
  · obtain ⟨h1, h2⟩ := fact p hp
    refine ⟨h1, ?_, ?_⟩
    · rw [h2]; exact div_nonneg (h.ltau _ h1) (Nat.cast_nonneg _)
    · rw [h2]; exact piece_le h.maxTau (h.ltau _ h1)
  · rw [(fact p hp).2, (fact q hq).2, e]
  · exact (count_some z z.L c hc).symm

/-- The atmosphere in the pieces of the routine. -/
noncomputable def atmos (z : Args n ℝ) : Slabs n := slabs z (grid Real.exp z)

theorem atmos_ok (z : Args n ℝ) (h : Sound z) : 0 < (atmos z).N ∧
    ∀ j, j < (atmos z).N → ∀ k, 0 ≤ (atmos z).T j ∧ 0 < ((atmos z).med j).mu k := by
  refine ⟨grid_pos z h.L, fun j hj k => ⟨?_, h.qx k⟩⟩
  obtain ⟨a, b, -⟩ := grid_facts z h.beam j hj
  show 0 ≤ (grid Real.exp z).ltau j
  rw [b]
  exact div_nonneg (h.ltau _ a) (Nat.cast_nonneg _)

/-- The orders of the routine are those of the light, where no light comes from the sky. -/
theorem ord_light (z : Args n ℝ) (h : Sound z) (hsky : z.I1m = 0) {up dn : Nat → Nat → ℝ → Fin n → ℝ}
    (ho : (atmos z).Orders up dn) (p : Nat) : ∀ j, j ≤ (atmos z).N →
      (ord z (grid Real.exp z) p).ip j = (atmos z).face (up p) j ∧ (ord z (grid Real.exp z) p).im j = (atmos z).face (dn p) j := by
  obtain ⟨hN, hT⟩ := atmos_ok z h
  have hmu : ∀ j, j < (atmos z).N → ∀ k, ((atmos z).med j).mu k ≠ 0 := fun j hj k => (hT j hj k).2.ne'
  -- two that start alike and go on alike are alike
  have same : ∀ {U U' : Nat → Fin n → ℝ} {D D' q r : Nat → Fin n → ℝ}, U (atmos z).N = U' (atmos z).N → D 0 = D' 0 →
      (∀ j, j < (atmos z).N → ∀ k, U j k = dim (atmos z) j k * U (j + 1) k + q j k ∧
        D (j + 1) k = dim (atmos z) j k * D j k + r j k) →
      (∀ j, j < (atmos z).N → ∀ k, U' j k = dim (atmos z) j k * U' (j + 1) k + q j k ∧
        D' (j + 1) k = dim (atmos z) j k * D' j k + r j k) →
      ∀ j, j ≤ (atmos z).N → U j = U' j ∧ D j = D' j := by
    intro U U' D D' q r e1 e2 h1 h2 j hj
    have a := rise_eq (fun j hj k => (h1 j hj k).1) ((atmos z).N - j) (by omega)
    have b := rise_eq (fun j hj k => (h2 j hj k).1) ((atmos z).N - j) (by omega)
    rw [show (atmos z).N - ((atmos z).N - j) = j by omega] at a b
    refine ⟨?_, ?_⟩
    · rw [← a, ← b, e1]
    · rw [← fall_eq (fun j hj k => (h1 j hj k).2) j hj, ← fall_eq (fun j hj k => (h2 j hj k).2) j hj, e2]
  induction p with
  | zero =>
    obtain ⟨a, b, c⟩ := @first_eq n z (grid Real.exp z) fun j hj => (grid_facts z h.beam j hj).2.2
    obtain ⟨a', b', c'⟩ := lamp_faces hN hmu ho.first
    exact same (a.trans a'.symm) (b.trans b'.symm) c c'
  | succ p ih =>
    obtain ⟨a, b, c⟩ := @next_eq n z (grid Real.exp z) h.scalar p
    obtain ⟨a', b', c'⟩ := lamp_faces hN hmu (ho.next p)
    have q : ∀ j, j < (atmos z).N → ∀ k, (atmos z).evenUp (up p) (dn p) j k =
          onUp (atmos z) (ord z (grid Real.exp z) p).ip (ord z (grid Real.exp z) p).im j k ∧
        (atmos z).evenDn (up p) (dn p) j k =
          onDn (atmos z) (ord z (grid Real.exp z) p).ip (ord z (grid Real.exp z) p).im j k := fun j hj k => by
      have e : (atmos z).evenUp (up p) (dn p) j k = onUp (atmos z) ((atmos z).face (up p)) ((atmos z).face (dn p)) j k ∧
          (atmos z).evenDn (up p) (dn p) j k = onDn (atmos z) ((atmos z).face (up p)) ((atmos z).face (dn p)) j k := by
        cases p with
        | zero => exact ⟨evenUp_eq ho.first hj k, evenDn_eq ho.first hj k⟩
        | succ p => exact ⟨evenUp_eq (ho.next p) hj k, evenDn_eq (ho.next p) hj k⟩
      rw [e.1, e.2]
      unfold onUp onDn
      rw [(ih j hj.le).1, (ih j hj.le).2, (ih (j + 1) hj).1, (ih (j + 1) hj).2]
      exact ⟨rfl, rfl⟩
    refine same ?_ ?_ c fun j hj k => ?_
    · rw [a', back_eq]
      refine a.trans ?_
      have : (ord z (grid Real.exp z) p).im (grid Real.exp z).N = (atmos z).face (dn p) (atmos z).N := (ih _ le_rfl).2
      rw [this]
      rfl
    · rw [b', b, hsky]
    · have := c' j hj k
      rw [(q j hj k).1, (q j hj k).2] at this
      exact this

/-- There is light of every order. -/
theorem C53_exists (z : Args n ℝ) (h : Sound z) : ∃ up dn, (atmos z).Orders up dn := by
  obtain ⟨hN, hT⟩ := atmos_ok z h
  have hmu : ∀ j, j < (atmos z).N → ∀ k, ((atmos z).med j).mu k ≠ 0 := fun j hj k => (hT j hj k).2.ne'
  have mk : ∀ qp qm : Nat → Fin n → ℝ, ∀ top bot : Fin n → ℝ, ∃ ud : (Nat → ℝ → Fin n → ℝ) × (Nat → ℝ → Fin n → ℝ),
      ((atmos z).lamp qp qm top bot).Lit ud.1 ud.2 := fun qp qm top bot => by
    obtain ⟨a, b, c⟩ := @sweep_step n (dim (atmos z)) (fun j k => (1 - dim (atmos z) j k) * qp j k)
      (fun j k => (1 - dim (atmos z) j k) * qm j k) (atmos z).N bot top
    obtain ⟨up, dn, hl, -⟩ := lamp_exists hmu hN (fun j hj k => (c j hj k).1) (fun j hj k => (c j hj k).2)
    rw [a, b] at hl
    exact ⟨(up, dn), hl⟩
  choose f hf using mk
  let ud : Nat → (Nat → ℝ → Fin n → ℝ) × (Nat → ℝ → Fin n → ℝ) := fun p =>
    Nat.rec (f (atmos z).qp (atmos z).qm (atmos z).top (atmos z).bot)
      (fun _ o => f ((atmos z).evenUp o.1 o.2) ((atmos z).evenDn o.1 o.2) 0 ((atmos z).back o.2)) p
  exact ⟨fun p => (ud p).1, fun p => (ud p).2, hf _ _ _ _, fun p => hf _ _ _ _⟩

/-- Light `up`, `dn` is, in the first Stokes parameters, below `t` where it leaves. -/
def Faint (z : Args n ℝ) (t : ℝ) (up dn : Nat → ℝ → Fin n → ℝ) : Prop :=
  ∀ i : Fin n, i.val % z.ns = 0 → (atmos z).face up 0 i < t ∧ (atmos z).face dn (atmos z).N i < t

/-- **C53_light_partial.** With no light from the sky: what leaves at the top and at the bottom is the sum of the orders
of the light; there are as many as were asked for, unless one after the first was below the limit, when it is the last.
Missing, and not so: light from the sky (`C53_violated_sky`), and the light that comes in at the ends
(`C53_violated_ends`). -/
theorem C53_light_partial (z : Args n ℝ) (h : Sound z) (hsky : z.I1m = 0) {up dn : Nat → Nat → ℝ → Fin n → ℝ}
    (ho : (atmos z).Orders up dn) :
    ∃ m, 1 ≤ m ∧ m ≤ z.maxOs ∧ outUp Real.exp Real.pi z 0 = ∑ p ∈ Finset.range m, (atmos z).face (up p) 0 ∧
      outDn Real.exp Real.pi z z.L = ∑ p ∈ Finset.range m, (atmos z).face (dn p) (atmos z).N ∧
      (m < z.maxOs → 2 ≤ m ∧ Faint z z.tol (up (m - 1)) (dn (m - 1))) ∧
      ∀ p, 1 ≤ p → p + 1 < m → ¬Faint z z.tol (up p) (dn p) := by
  have hl := ord_light z h hsky ho
  obtain ⟨q, -, h2, h3, h4, h5, h6⟩ := loop_done (z.maxOs - 1) (start_inv (z := z) (g := grid Real.exp z)) rfl
  have weak : ∀ p, Weak z (grid Real.exp z) z.tol (ord z (grid Real.exp z) p) ↔ Faint z z.tol (up p) (dn p) := fun p => by
    unfold Weak Faint
    have a : (ord z (grid Real.exp z) p).ip 0 = _ := (hl p 0 (Nat.zero_le _)).1
    have b : (ord z (grid Real.exp z) p).im (grid Real.exp z).N = _ := (hl p (atmos z).N le_rfl).2
    rw [a, b]
  refine ⟨q + 1, by omega, by have := h.maxOs; omega, ?_, ?_, fun hm => ?_, fun p hp1 hp2 hf => ?_⟩
  · rw [outUp, if_pos rfl]
    exact h3.trans (Finset.sum_congr rfl fun p _ => (hl p 0 (Nat.zero_le _)).1)
  · rw [outDn, if_pos rfl]
    exact h4.trans (Finset.sum_congr rfl fun p _ => (hl p (atmos z).N le_rfl).2)
  · obtain ⟨r, r1, r2, r3⟩ := (stop_iff h.n q).1 (h5 (by omega))
    have : r = q := by
      by_contra hne
      have := h6 r (Nat.zero_le _) (by omega)
      have := (stop_iff (z := z) (g := grid Real.exp z) h.n r).2 ⟨r, r1, le_rfl, r3⟩
      simp_all
    subst this
    exact ⟨by omega, (weak r).1 r3⟩
  · have := h6 p (Nat.zero_le _) (by omega)
    rw [(stop_iff h.n p).2 ⟨p, hp1, le_rfl, (weak p).2 hf⟩] at this
    cases this

/-- **C53_error_partial.** Where no slab and no ground sends back more than the share `c` of the light, what is returned
after `m` orders is within `c ^ m` times the brightest light of all the light there is; and with limit zero, and no order
negative, all the orders asked for are made.  Missing as in `C53_light_partial`. -/
theorem C53_error_partial (z : Args n ℝ) (h : Sound z) (hsky : z.I1m = 0) {c B : ℝ} (hc : (atmos z).Keeps c)
    {up dn : Nat → ℝ → Fin n → ℝ} (ha : (atmos z).All up dn)
    (hB : ∀ j, j ≤ (atmos z).N → ∀ k, |(atmos z).face up j k| ≤ B ∧ |(atmos z).face dn j k| ≤ B) :
    ∃ m, 1 ≤ m ∧ m ≤ z.maxOs ∧
      (∀ k, |(atmos z).face up 0 k - outUp Real.exp Real.pi z 0 k| ≤ c ^ m * B ∧
        |(atmos z).face dn (atmos z).N k - outDn Real.exp Real.pi z z.L k| ≤ c ^ m * B) ∧
      ∀ up' dn', (atmos z).Orders up' dn' → z.tol = 0 →
        (∀ p k, 0 ≤ (atmos z).face (up' p) 0 k ∧ 0 ≤ (atmos z).face (dn' p) (atmos z).N k) → m = z.maxOs := by
  obtain ⟨hN, hT⟩ := atmos_ok z h
  obtain ⟨u, d, ho⟩ := C53_exists z h
  obtain ⟨m, m1, m2, e1, e2, h3, -⟩ := C53_light_partial z h hsky ho
  refine ⟨m, m1, m2, fun k => ?_, fun u' d' ho' ht hp => ?_⟩
  · rw [e1, e2]
    exact ⟨(orders_rest hN hT hc ho ha hB m 0 (Nat.zero_le _) k).1, (orders_rest hN hT hc ho ha hB m _ le_rfl k).2⟩
  · by_contra hne
    obtain ⟨-, hf⟩ := h3 (by omega)
    have a := (hf ⟨0, h.n⟩ (by simp)).1
    have s : (atmos z).face (u (m - 1)) 0 = (atmos z).face (u' (m - 1)) 0 := by
      rw [← (ord_light z h hsky ho _ 0 (Nat.zero_le _)).1, ← (ord_light z h hsky ho' _ 0 (Nat.zero_le _)).1]
    rw [s, ht] at a
    exact absurd a (not_lt.2 (hp _ _).1)

/-- **C53_all.** Where no slab and no ground sends back more than the share `c < 1`, there is all the light that
`C53_error_partial` speaks of, and it is the only one. -/
theorem C53_all (z : Args n ℝ) (h : Sound z) {c : ℝ} (hc : (atmos z).Keeps c) (c1 : c < 1) :
    ∃ up dn, (atmos z).All up dn ∧ ∀ up' dn', (atmos z).All up' dn' → ∀ j, j ≤ (atmos z).N →
      (atmos z).face up' j = (atmos z).face up j ∧ (atmos z).face dn' j = (atmos z).face dn j := by
  obtain ⟨hN, hT⟩ := atmos_ok z h
  have hmu : ∀ j, j < (atmos z).N → ∀ k, ((atmos z).med j).mu k ≠ 0 := fun j hj k => (hT j hj k).2.ne'
  have c0 : 0 ≤ c := (Finset.sum_nonneg fun _ _ => abs_nonneg _).trans (hc.ground ⟨0, h.n⟩)
  obtain ⟨ou, od, ho⟩ := C53_exists z h
  obtain ⟨aup, adn, ha⟩ := all_exists hN hT hc c0 c1 ho
  refine ⟨aup, adn, ha, fun bup bdn hb j hj => ?_⟩
  -- the difference of the two is less than any power of `c`
  have bd : ∀ {f g : Nat → Fin n → ℝ}, ∃ B, ∀ j, j ≤ (atmos z).N → ∀ k, |f j k| ≤ B ∧ |g j k| ≤ B := fun {f g} => by
    refine ⟨∑ j ∈ Finset.range ((atmos z).N + 1), ∑ k, (|f j k| + |g j k|), fun j hj k => ?_⟩
    have h1 : |f j k| + |g j k| ≤ ∑ k, (|f j k| + |g j k|) :=
      Finset.single_le_sum (f := fun k => |f j k| + |g j k|) (fun k _ => by positivity) (Finset.mem_univ k)
    have h2 : ∑ k, (|f j k| + |g j k|) ≤ ∑ j ∈ Finset.range ((atmos z).N + 1), ∑ k, (|f j k| + |g j k|) :=
      Finset.single_le_sum (f := fun j => ∑ k, (|f j k| + |g j k|)) (fun j _ => Finset.sum_nonneg fun k _ => by positivity)
        (Finset.mem_range.2 (by omega))
    have := abs_nonneg (f j k)
    have := abs_nonneg (g j k)
    constructor <;> linarith
  obtain ⟨A, hA⟩ := bd (f := (atmos z).face aup) (g := (atmos z).face adn)
  obtain ⟨B, hB⟩ := bd (f := (atmos z).face bup) (g := (atmos z).face bdn)
  have lim : Filter.Tendsto (fun m : ℕ => c ^ m * A + c ^ m * B) Filter.atTop (nhds 0) := by
    have := tendsto_pow_atTop_nhds_zero_of_lt_one c0 c1
    simpa using (this.mul_const A).add (this.mul_const B)
  have eq : ∀ {X Y : Fin n → ℝ} {x : Nat → Fin n → ℝ}, (∀ m k, |rest X x m k| ≤ c ^ m * A) →
      (∀ m k, |rest Y x m k| ≤ c ^ m * B) → Y = X := fun {X Y x} h1 h2 => by
    funext k
    have : |Y k - X k| ≤ 0 := ge_of_tendsto' lim fun m => by
      have e : Y k - X k = rest Y x m k - rest X x m k := by simp [rest]
      rw [e]
      refine (abs_sub _ _).trans ?_
      have := h1 m k
      have := h2 m k
      linarith
    have := abs_nonpos_iff.1 this
    linarith
  exact ⟨eq (fun m k => (orders_rest hN hT hc ho ha hA m j hj k).1) (fun m k => (orders_rest hN hT hc ho hb hB m j hj k).1),
    eq (fun m k => (orders_rest hN hT hc ho ha hA m j hj k).2) (fun m k => (orders_rest hN hT hc ho hb hB m j hj k).2)⟩

/-- **C53_deriv.** The derivatives returned are those of the sum of as many orders as the values were summed of, where
no layer is a whole multiple of the limit in thickness. -/
theorem C53_deriv {z : ℝ → Args n ℝ} {l : Lin n ℝ} {x : ℝ} (h : Along z l x)
    (hk : ∀ i, i < (z x).L → ∀ k : ℕ, 1 ≤ k → (z x).ltau i / (z x).maxTau ≠ k) :
    (runL Real.exp Real.pi (z x) l).val = run Real.exp Real.pi (z x) ∧
    ∃ (m : Nat) (up dn : ℝ → Nat → Fin n → ℝ),
      (run Real.exp Real.pi (z x)).Ip = ∑ p ∈ Finset.range m, up x p ∧
      (run Real.exp Real.pi (z x)).Im = ∑ p ∈ Finset.range m, dn x p ∧
      (∀ y p, up y p = (ord (z y) (grid Real.exp (z y)) p).ip 0 ∧
        dn y p = (ord (z y) (grid Real.exp (z y)) p).im (grid Real.exp (z y)).N) ∧
      VDeriv (fun y => ∑ p ∈ Finset.range m, up y p) (runL Real.exp Real.pi (z x) l).IpL x ∧
      VDeriv (fun y => ∑ p ∈ Finset.range m, dn y p) (runL Real.exp Real.pi (z x) l).ImL x := by
  obtain ⟨e, q, -, -, h3, h4, h5, h6⟩ := loopL_done ((z x).maxOs - 1)
    (startL_inv (w := z x) (l := l) (gr := grid Real.exp (z x)) (gl := gridL Real.exp (z x) l))
  refine ⟨e, q + 1, fun y p => (ord (z y) (grid Real.exp (z y)) p).ip 0,
    fun y p => (ord (z y) (grid Real.exp (z y)) p).im (grid Real.exp (z y)).N, h3, h4, fun _ _ => ⟨rfl, rfl⟩,
    fun k => ?_, fun k => ?_⟩
  · have e5 : (runL Real.exp Real.pi (z x) l).IpL = _ := h5
    rw [e5]
    simp only [Finset.sum_apply]
    exact HasDerivAt.fun_sum fun p _ => (run_ord_deriv h hk p).1 k
  · have e6 : (runL Real.exp Real.pi (z x) l).ImL = _ := h6
    rw [e6]
    simp only [Finset.sum_apply]
    exact HasDerivAt.fun_sum fun p _ => (run_ord_deriv h hk p).2 k

/-! ## One layer, one direction -/

/-- One layer of one piece. -/
noncomputable def one (om P t0 t1 Rs sky F0 : ℝ) (surf : Bool) (m : Nat) : Args 1 ℝ where
  first := false
  ns := 1
  L := 1
  F0 := F0
  qx := fun _ => 1
  qw := fun _ => 1
  omega := fun _ => om
  ltau := fun _ => 1
  btran := fun i => if i = 0 then t0 else t1
  as0 := fun _ => 1
  P0mm := fun _ _ => P
  P0pm := fun _ _ => P
  Ppp := fun _ _ _ => P
  Pmp := fun _ _ _ => P
  Pmm := fun _ _ _ => P
  Ppm := fun _ _ _ => P
  Rs := fun _ _ => Rs
  I1m := fun _ => sky
  Inp := 0
  maxOs := m
  maxTau := 2
  tol := 0
  surface := surf
  vector := false

theorem one_sound (om P t0 Rs sky F0 : ℝ) (surf : Bool) (m : Nat) :
    Sound (one om P t0 (t0 * Real.exp (-1)) Rs sky F0 surf (m + 1)) where
  n := Nat.one_pos
  L := Nat.one_pos
  qx _ := one_pos
  ltau _ _ := zero_le_one
  maxTau := two_pos
  maxOs := Nat.succ_pos _
  beam i hi := by
    have : i = 0 := by simp only [one] at hi; omega
    subst this
    simp [one]
  scalar _ _ := ⟨rfl, rfl⟩

theorem one_grid (om P t0 t1 Rs sky F0 : ℝ) (surf : Bool) (m : Nat) :
    (grid Real.exp (one om P t0 t1 Rs sky F0 surf m)).N = 1 ∧
    (grid Real.exp (one om P t0 t1 Rs sky F0 surf m)).index 0 = 0 ∧
    (grid Real.exp (one om P t0 t1 Rs sky F0 surf m)).ltau 0 = 1 ∧
    (grid Real.exp (one om P t0 t1 Rs sky F0 surf m)).btran 0 = t0 ∧
    (grid Real.exp (one om P t0 t1 Rs sky F0 surf m)).btran 1 = t1 := by
  have hp : pieces (2 : ℝ) 1 = 1 := by
    unfold pieces
    norm_num
  have e : cuts Real.exp (one om P t0 t1 Rs sky F0 surf m) = [⟨0, 1, t0⟩] := by
    simp [cuts, cut, one, hp]
  simp only [grid, e]
  simp [one]

/-- The first order in the one layer. -/
theorem one_first (om P t0 t1 Rs sky F0 : ℝ) (surf : Bool) (m : Nat) (k : Fin 1) :
    let o := ord (one om P t0 t1 Rs sky F0 surf m) (grid Real.exp (one om P t0 t1 Rs sky F0 surf m)) 0
    let b := F0 / (4 * Real.pi) / 2 * om * (t0 + t1) * (1 - Real.exp (-1)) * P
    o.ip 0 k = b ∧ o.ip 1 k = 0 ∧ o.im 0 k = sky ∧ o.im 1 k = Real.exp (-1) * sky + b := by
  obtain ⟨h1, h2, h3, h4, h5⟩ := one_grid om P t0 t1 Rs sky F0 surf m
  simp only [ord, first, sweep, h1]
  simp only [rise, fall, beam, E, T, h2, h3, h4, h5, Nat.sub_self, Nat.sub_zero]
  simp [one]

/-- The further ones. -/
theorem one_next (om P t0 t1 Rs sky F0 : ℝ) (surf : Bool) (m p : Nat) (k : Fin 1) :
    let o := ord (one om P t0 t1 Rs sky F0 surf m) (grid Real.exp (one om P t0 t1 Rs sky F0 surf m)) p
    let o' := ord (one om P t0 t1 Rs sky F0 surf m) (grid Real.exp (one om P t0 t1 Rs sky F0 surf m)) (p + 1)
    let b := (1 - Real.exp (-1)) * (P * (om / 8) * (o.ip 0 k + o.ip 1 k + o.im 0 k + o.im 1 k))
    let g := if surf then Rs * o.im 1 k else 0
    o'.ip 0 k = Real.exp (-1) * g + b ∧ o'.ip 1 k = g ∧ o'.im 0 k = sky ∧ o'.im 1 k = Real.exp (-1) * sky + b := by
  obtain ⟨h1, h2, h3, h4, h5⟩ := one_grid om P t0 t1 Rs sky F0 surf m
  have k0 : k = 0 := Subsingleton.elim _ _
  subst k0
  intro o o' b g
  have e : o' = next Real.exp (one om P t0 t1 Rs sky F0 surf m) (grid Real.exp (one om P t0 t1 Rs sky F0 surf m)) o := rfl
  have gr : ∀ v : Fin 1 → ℝ, (if (one om P t0 t1 Rs sky F0 surf m).surface then
      (one om P t0 t1 Rs sky F0 surf m).Rs.mulVec v else 0) 0 = if surf then Rs * v 0 else 0 := fun v => by
    cases surf <;> simp [one, Matrix.mulVec, dotProduct]
  rw [e]
  simp only [next, sweep, h1]
  simp only [rise, fall, addUp, addDn, E, T, h2, h3, Nat.sub_self, Nat.sub_zero, gr]
  have hr : ∀ g j, rm (one om P t0 t1 Rs sky F0 surf m) g j = rp (one om P t0 t1 Rs sky F0 surf m) g j := fun _ _ =>
    if_neg (by simp [one])
  have ht : ∀ g j, tm (one om P t0 t1 Rs sky F0 surf m) g j = tp (one om P t0 t1 Rs sky F0 surf m) g j := fun _ _ =>
    if_neg (by simp [one])
  rw [hr, ht]
  simp only [tp, rp, share, h2, Matrix.mulVec, dotProduct, Finset.univ_unique, Finset.sum_singleton,
    Fin.default_eq_zero, Fin.isValue, Pi.add_apply, Matrix.of_apply]
  simp only [one, Bool.false_eq_true, if_false, add_zero, mul_one, div_one, zero_add, Nat.reduceAdd, Nat.sub_zero]
  refine ⟨?_, by first | trivial | rfl, by first | trivial | rfl, ?_⟩
  · simp only [g, b]; ring
  · simp only [b]; ring

/-- The sum of the orders in one layer, where none after the first is below zero at the bottom. -/
theorem one_run (om P t0 t1 Rs sky F0 : ℝ) (surf : Bool) (m : Nat)
    (hp : ∀ p, 1 ≤ p → 0 ≤ (ord (one om P t0 t1 Rs sky F0 surf (m + 1))
      (grid Real.exp (one om P t0 t1 Rs sky F0 surf (m + 1))) p).im 1 0) :
    (run Real.exp Real.pi (one om P t0 t1 Rs sky F0 surf (m + 1))).Im 0 = ∑ p ∈ Finset.range (m + 1),
      (ord (one om P t0 t1 Rs sky F0 surf (m + 1)) (grid Real.exp (one om P t0 t1 Rs sky F0 surf (m + 1))) p).im 1 0 := by
  obtain ⟨h1, -⟩ := one_grid om P t0 t1 Rs sky F0 surf (m + 1)
  obtain ⟨q, -, h2, h3, h4, h5, -⟩ := loop_done m
    (start_inv (z := one om P t0 t1 Rs sky F0 surf (m + 1)) (g := grid Real.exp (one om P t0 t1 Rs sky F0 surf (m + 1)))) rfl
  have : q = m := by
    by_contra hne
    obtain ⟨r, r1, -, r3⟩ := (stop_iff Nat.one_pos q).1 (h5 (by omega))
    have := (r3 0 (by simp)).2
    rw [h1] at this
    exact absurd this (not_lt.2 (hp r r1))
  subst this
  have e : (run Real.exp Real.pi (one om P t0 t1 Rs sky F0 surf (q + 1))).Im = _ := h4
  rw [e, Finset.sum_apply, h1]

/-- **C53_violated_sky.** The light from the sky is let in again with every order (`xrtm_sos.c:470`): through a layer that
does not scatter, over black ground, as many times the light comes down as orders are asked for. -/
theorem C53_violated_sky (m : Nat) : ∃ z : Args 1 ℝ, Sound z ∧ z.maxOs = m + 1 ∧ (atmos z).Keeps 0 ∧
    (∃ up dn, (atmos z).All up dn) ∧ ∀ up dn, (atmos z).All up dn → (atmos z).face dn (atmos z).N 0 = Real.exp (-1) ∧
      outDn Real.exp Real.pi z z.L 0 = (m + 1) * (atmos z).face dn (atmos z).N 0 := by
  have hs := one_sound 0 0 0 0 1 0 false m
  rw [zero_mul] at hs
  have kp : (atmos (one 0 0 0 0 0 1 0 false (m + 1))).Keeps 0 := by
    refine ⟨fun i _ k => ?_, fun i _ k => ?_, fun k => ?_⟩ <;> simp [atmos, slabs, one, Medium.of]
  refine ⟨one 0 0 0 0 0 1 0 false (m + 1), hs, rfl, kp, ?_, fun up dn ha => ?_⟩
  · obtain ⟨up, dn, h, -⟩ := C53_all _ hs kp one_pos
    exact ⟨up, dn, h⟩
  obtain ⟨g1, -, g3, -⟩ := one_grid 0 0 0 0 0 1 0 false (m + 1)
  obtain ⟨hN, hT⟩ := atmos_ok _ hs
  have e : (atmos (one 0 0 0 0 0 1 0 false (m + 1))).face dn (atmos (one 0 0 0 0 0 1 0 false (m + 1))).N 0 = Real.exp (-1) := by
    obtain ⟨-, b, c⟩ := lamp_faces hN (fun j hj k => (hT j hj k).2.ne') ha
    have hN1 : (atmos (one 0 0 0 0 0 1 0 false (m + 1))).N = 1 := g1
    have := (c 0 hN 0).2
    rw [b] at this
    rw [hN1]
    refine this.trans ?_
    have q : ((atmos (one 0 0 0 0 0 1 0 false (m + 1))).qm 0 + (atmos (one 0 0 0 0 0 1 0 false (m + 1))).evenDn up dn 0) 0 = 0 := by
      simp [atmos, slabs, one, Slabs.evenDn, Medium.intoDn, Medium.of, beamSource]
    rw [q]
    have d : dim (atmos (one 0 0 0 0 0 1 0 false (m + 1))) 0 0 = Real.exp (-1) := by
      show Real.exp (-(grid Real.exp (one 0 0 0 0 0 1 0 false (m + 1))).ltau 0 / 1) = _
      rw [g3, div_one]
    rw [d]
    show Real.exp (-1) * 1 + _ = _
    ring
  refine ⟨e, ?_⟩
  rw [e]
  have o : ∀ p, (ord (one 0 0 0 0 0 1 0 false (m + 1)) (grid Real.exp (one 0 0 0 0 0 1 0 false (m + 1))) p).im 1 0 =
      Real.exp (-1) := fun p => by
    cases p with
    | zero => have := (one_first 0 0 0 0 0 1 0 false (m + 1) 0).2.2.2; simpa using this
    | succ p => have := (one_next 0 0 0 0 0 1 0 false (m + 1) p 0).2.2.2; simpa using this
  rw [outDn, if_pos rfl, one_run _ _ _ _ _ _ _ _ _ fun p _ => by rw [o]; exact (Real.exp_pos _).le]
  simp only [o, Finset.sum_const, Finset.card_range, nsmul_eq_mul]
  push_cast
  ring

/-- **C53_violated_ends.** The light that comes in at the top, and that which the ground sends up, are returned as zero
(`xrtm_sos.c:224-227`), whatever they are. -/
theorem C53_violated_ends (z : Args n ℝ) (h : Sound z) {up dn : Nat → ℝ → Fin n → ℝ} (ha : (atmos z).All up dn) :
    outDn Real.exp Real.pi z 0 = 0 ∧ (atmos z).face dn 0 = z.I1m ∧
    outUp Real.exp Real.pi z z.L = 0 ∧
      (atmos z).face up (atmos z).N = z.Inp + (if z.surface then z.Rs else 0).mulVec ((atmos z).face dn (atmos z).N) := by
  obtain ⟨hN, hT⟩ := atmos_ok z h
  obtain ⟨a, b, -⟩ := lamp_faces hN (fun j hj k => (hT j hj k).2.ne') ha
  have hL := h.L
  refine ⟨?_, b, ?_, ?_⟩
  · rw [outDn, if_neg (by omega)]
  · rw [outUp, if_neg (by omega)]
  · rw [a, back_eq]
    rfl

/-- Light from the sky of one, and a ground that reflects half: neither is returned. -/
example : ∃ up dn, (atmos (one 0 0 0 0 (1 / 2) 1 0 true 1)).All up dn ∧
    (atmos (one 0 0 0 0 (1 / 2) 1 0 true 1)).face dn 0 0 = 1 ∧ outDn Real.exp Real.pi (one 0 0 0 0 (1 / 2) 1 0 true 1) 0 0 = 0 := by
  have hs := one_sound 0 0 0 (1 / 2) 1 0 true 0
  rw [zero_mul] at hs
  have kp : (atmos (one 0 0 0 0 (1 / 2) 1 0 true 1)).Keeps (1 / 2) := by
    refine ⟨fun i _ k => ?_, fun i _ k => ?_, fun k => ?_⟩ <;> simp [atmos, slabs, one, Medium.of]
  obtain ⟨up, dn, h, -⟩ := C53_all _ hs kp (by norm_num)
  have := C53_violated_ends _ hs h
  exact ⟨up, dn, h, by rw [this.2.1]; rfl, by rw [this.1]; rfl⟩

/-- The layer of `C53_violated_stop`: the second term of the Fourier series of the phase function `1 - cos`, which is
negative in all directions; no limit. -/
noncomputable def backward : Args 1 ℝ := one (1 / 2) (-1) 1 (1 * Real.exp (-1)) 0 0 (8 * Real.pi) false 4

theorem backward_ord (p : Nat) :
    let o := ord backward (grid Real.exp backward) p
    let E := 1 - Real.exp (-1)
    let x := (-(E / 8)) ^ p * -((1 + Real.exp (-1)) * E / 2)
    o.ip 0 0 = x ∧ o.ip 1 0 = 0 ∧ o.im 0 0 = 0 ∧ o.im 1 0 = x := by
  have hpi := Real.pi_ne_zero
  induction p with
  | zero =>
    obtain ⟨a, b, c, d⟩ := one_first (1 / 2) (-1) 1 (1 * Real.exp (-1)) 0 0 (8 * Real.pi) false 4 0
    have e : 8 * Real.pi / (4 * Real.pi) / 2 = 1 := by field_simp; norm_num
    rw [e] at a d
    refine ⟨a.trans ?_, b, c, d.trans ?_⟩ <;> ring
  | succ p ih =>
    obtain ⟨i1, i2, i3, i4⟩ := ih
    obtain ⟨a, b, c, d⟩ := one_next (1 / 2) (-1) 1 (1 * Real.exp (-1)) 0 0 (8 * Real.pi) false 4 p 0
    rw [show ord (one (1 / 2) (-1) 1 (1 * Real.exp (-1)) 0 0 (8 * Real.pi) false 4)
      (grid Real.exp (one (1 / 2) (-1) 1 (1 * Real.exp (-1)) 0 0 (8 * Real.pi) false 4)) p =
      ord backward (grid Real.exp backward) p from rfl] at a b d
    simp only [i1, i2, i3, i4, Bool.false_eq_true, if_false] at a b d
    refine ⟨a.trans ?_, b, c, d.trans ?_⟩
    · rw [pow_succ]; ring
    · rw [pow_succ]; ring

/-- **C53_violated_stop.** The test for weak light takes the largest and not the largest in size (`xrtm_sos.c:452-458`,
`511-520`), so light that is negative, as terms of the Fourier series may be, is taken for weak: with limit zero, which
asks for all four orders, three are made, and the fourth is not zero. -/
theorem C53_violated_stop : Sound backward ∧ backward.I1m = 0 ∧ backward.tol = 0 ∧ backward.maxOs = 4 ∧
    ∀ up dn, (atmos backward).Orders up dn →
      outUp Real.exp Real.pi backward 0 0 = ∑ p ∈ Finset.range 3, (atmos backward).face (up p) 0 0 ∧
      outUp Real.exp Real.pi backward 0 0 ≠ ∑ p ∈ Finset.range 4, (atmos backward).face (up p) 0 0 := by
  have hs : Sound backward := one_sound (1 / 2) (-1) 1 0 0 (8 * Real.pi) false 3
  have hsky : backward.I1m = 0 := rfl
  refine ⟨hs, hsky, rfl, rfl, fun up dn ho => ?_⟩
  have hN : (grid Real.exp backward).N = 1 := (one_grid (1 / 2) (-1) 1 (1 * Real.exp (-1)) 0 0 (8 * Real.pi) false 4).1
  have fu : ∀ p, (atmos backward).face (up p) 0 0 =
      (-((1 - Real.exp (-1)) / 8)) ^ p * -((1 + Real.exp (-1)) * (1 - Real.exp (-1)) / 2) := fun p => by
    rw [← (ord_light _ hs hsky ho p 0 (Nat.zero_le _)).1]
    exact (backward_ord p).1
  have fd : ∀ p, (atmos backward).face (dn p) (atmos backward).N 0 =
      (-((1 - Real.exp (-1)) / 8)) ^ p * -((1 + Real.exp (-1)) * (1 - Real.exp (-1)) / 2) := fun p => by
    rw [← (ord_light _ hs hsky ho p _ le_rfl).2]
    show (ord backward (grid Real.exp backward) p).im (grid Real.exp backward).N 0 = _
    rw [hN]
    exact (backward_ord p).2.2.2
  have E0 : 0 < 1 - Real.exp (-1) := by
    have : Real.exp (-1) < 1 := by rw [Real.exp_lt_one_iff]; norm_num
    linarith
  have y0 : 0 < (1 + Real.exp (-1)) * (1 - Real.exp (-1)) / 2 := by have := Real.exp_pos (-1); positivity
  have faint : ∀ p, Faint backward backward.tol (up p) (dn p) ↔
      (-((1 - Real.exp (-1)) / 8)) ^ p * -((1 + Real.exp (-1)) * (1 - Real.exp (-1)) / 2) < 0 := fun p => by
    have t : backward.tol = 0 := rfl
    constructor
    · intro h
      have := (h 0 (by simp)).1
      rwa [fu, t] at this
    · intro h i _
      rw [Subsingleton.elim i 0, fu, fd, t]
      exact ⟨h, h⟩
  have f1 : ¬Faint backward backward.tol (up 1) (dn 1) := by
    rw [faint, not_lt]
    have := mul_pos (div_pos E0 (by norm_num : (0 : ℝ) < 8)) y0
    nlinarith
  have f2 : Faint backward backward.tol (up 2) (dn 2) := by
    rw [faint]
    have := mul_pos (pow_pos (div_pos E0 (by norm_num : (0 : ℝ) < 8)) 2) y0
    nlinarith
  obtain ⟨m, m1, m2, e, -, h3, h4⟩ := C53_light_partial _ hs hsky ho
  have mo : backward.maxOs = 4 := rfl
  rw [mo] at m2 h3
  have m3 : m = 3 := by
    have : m < 4 := by
      by_contra hm
      exact h4 2 (by norm_num) (by omega) f2
    obtain ⟨a, b⟩ := h3 this
    by_contra hm
    have : m = 2 := by omega
    subst this
    exact f1 b
  subst m3
  have e' := congrFun e 0
  rw [Finset.sum_apply] at e'
  refine ⟨e', ?_⟩
  rw [e', Finset.sum_range_succ _ 3, fu 3]
  intro hc
  have : (-((1 - Real.exp (-1)) / 8)) ^ 3 * -((1 + Real.exp (-1)) * (1 - Real.exp (-1)) / 2) = 0 := by linarith
  have := mul_pos (pow_pos (div_pos E0 (by norm_num : (0 : ℝ) < 8)) 3) y0
  nlinarith

/-- The theorems hold of something: a layer that scatters half the light of a beam over a ground that reflects half. -/
example : ∃ c B up dn, (atmos (one (1 / 2) 1 1 (1 * Real.exp (-1)) (1 / 2) 0 1 true 5)).Keeps c ∧ c < 1 ∧
    (atmos (one (1 / 2) 1 1 (1 * Real.exp (-1)) (1 / 2) 0 1 true 5)).All up dn ∧
    (∀ j, j ≤ (atmos (one (1 / 2) 1 1 (1 * Real.exp (-1)) (1 / 2) 0 1 true 5)).N → ∀ k,
      |(atmos (one (1 / 2) 1 1 (1 * Real.exp (-1)) (1 / 2) 0 1 true 5)).face up j k| ≤ B ∧
      |(atmos (one (1 / 2) 1 1 (1 * Real.exp (-1)) (1 / 2) 0 1 true 5)).face dn j k| ≤ B) ∧
    Sound (one (1 / 2) 1 1 (1 * Real.exp (-1)) (1 / 2) 0 1 true 5) ∧
    (one (1 / 2) 1 1 (1 * Real.exp (-1)) (1 / 2) 0 1 true 5).I1m = 0 := by
  have hs := one_sound (1 / 2) 1 1 (1 / 2) 0 1 true 4
  have hpi := Real.pi_pos
  have q : |(1 / 2 : ℝ) / (4 * Real.pi) * Real.pi| = 1 / 8 := by
    rw [abs_of_pos (by positivity)]; field_simp; norm_num
  have kp : (atmos (one (1 / 2) 1 1 (1 * Real.exp (-1)) (1 / 2) 0 1 true 5)).Keeps (1 / 2) := by
    refine ⟨fun i _ k => ?_, fun i _ k => ?_, fun k => ?_⟩
    · simp only [atmos, slabs, one, Medium.of, Bool.false_eq_true, if_false, q]; norm_num
    · simp only [atmos, slabs, one, Medium.of, Bool.false_eq_true, if_false, q]; norm_num
    · simp [atmos, slabs, one]
  obtain ⟨up, dn, h, -⟩ := C53_all _ hs kp (by norm_num)
  have hN : (atmos (one (1 / 2) 1 1 (1 * Real.exp (-1)) (1 / 2) 0 1 true 5)).N = 1 :=
    (one_grid (1 / 2) 1 1 (1 * Real.exp (-1)) (1 / 2) 0 1 true 5).1
  let f := (atmos (one (1 / 2) 1 1 (1 * Real.exp (-1)) (1 / 2) 0 1 true 5)).face up
  let g := (atmos (one (1 / 2) 1 1 (1 * Real.exp (-1)) (1 / 2) 0 1 true 5)).face dn
  refine ⟨1 / 2, |f 0 0| + |f 1 0| + |g 0 0| + |g 1 0|, up, dn, kp, by norm_num, h, fun j hj k => ?_, hs, rfl⟩
  have a := abs_nonneg (f 0 0)
  have b := abs_nonneg (f 1 0)
  have c := abs_nonneg (g 0 0)
  have d := abs_nonneg (g 1 0)
  rw [hN] at hj
  rw [Subsingleton.elim k 0]
  have : j = 0 ∨ j = 1 := by omega
  rcases this with rfl | rfl
  · exact ⟨by show |f 0 0| ≤ _; linarith, by show |g 0 0| ≤ _; linarith⟩
  · exact ⟨by show |f 1 0| ≤ _; linarith, by show |g 1 0| ≤ _; linarith⟩

/-- A curve of arguments: the albedo of the layer. -/
example : ∃ (z : ℝ → Args 1 ℝ) (l : Lin 1 ℝ), Along z l (1 / 2) ∧ l.omega 0 = 1 ∧
    ∀ i, i < (z (1 / 2)).L → ∀ k : ℕ, 1 ≤ k → (z (1 / 2)).ltau i / (z (1 / 2)).maxTau ≠ k := by
  refine ⟨fun y => one y 1 1 (1 * Real.exp (-1)) (1 / 2) 0 1 true 5, ⟨fun _ => 1, fun _ => 0, fun _ => 0, fun _ => 0, 0, 0, 0, 0,
    0, 0, 0, 0, 0, fun _ => true⟩, ?_, rfl, ?_⟩
  · constructor <;> intros <;> try rfl
    · exact hasDerivAt_id _
    all_goals first
      | exact hasDerivAt_const (1 / 2 : ℝ) (_ : ℝ)
      | (intro k; exact hasDerivAt_const (1 / 2 : ℝ) (_ : ℝ))
      | (intro k j; exact hasDerivAt_const (1 / 2 : ℝ) (_ : ℝ))
  · intro i _ k hk
    simp only [one]
    intro h
    have : (1 : ℝ) ≤ k := by exact_mod_cast hk
    linarith

end Xrtm.Sos
