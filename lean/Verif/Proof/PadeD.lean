import Verif.Proof.PadeC

/-! Padé solver: derivatives. -/

namespace Xrtm.Pade
open Matrix Filter Topology Xrtm.Spec Source

variable {n : Nat} {x0 : ℝ}

/-! ## The numerator -/

structure SumDeriv (S : ℝ → Sum (M n)) (s' : Sum (M n)) (x0 : ℝ) : Prop where
  x : MDeriv (fun y => (S y).x) s'.x x0
  N : MDeriv (fun y => (S y).N) s'.N x0
  D : MDeriv (fun y => (S y).D) s'.D x0

structure BlocksDeriv (B : ℝ → Blocks (M n)) (b' : Blocks (M n)) (x0 : ℝ) : Prop where
  b11 : MDeriv (fun y => (B y).b11) b'.b11 x0
  b12 : MDeriv (fun y => (B y).b12) b'.b12 x0
  b21 : MDeriv (fun y => (B y).b21) b'.b21 x0
  b22 : MDeriv (fun y => (B y).b22) b'.b22 x0

theorem MDeriv.csmul {A : ℝ → M n} {A' : M n} (c : ℝ) (h : MDeriv A A' x0) : MDeriv (fun y => c • A y) (c • A') x0 :=
  fun i j => (h i j).const_mul c

variable {w : ℝ → M n} {w' : M n} {c : Nat → ℝ} {r : Nat}

theorem turns_deriv (hw : MDeriv w w' x0) (k : Nat) : SumDeriv (fun y => turns c r (w y) k) (turnsL c r (w x0) w' k) x0 := by
  induction k with
  | zero =>
      exact ⟨hw, ((MDeriv.const _).add (MDeriv.csmul _ hw)), ((MDeriv.const _).add (MDeriv.csmul _ hw))⟩
  | succ k ih =>
      have hx := Spec.MDeriv.mul ih.x hw
      exact ⟨hx, ih.N.add (MDeriv.csmul _ hx), ih.D.add (MDeriv.csmul _ hx)⟩

theorem series_deriv (hw : MDeriv w w' x0) :
    MDeriv (fun y => (series c r (w y)).1) (seriesL c r (w x0) w').1 x0 ∧
      MDeriv (fun y => (series c r (w y)).2) (seriesL c r (w x0) w').2 x0 :=
  ⟨(turns_deriv hw _).N, (turns_deriv hw _).D⟩

theorem high_deriv (hw : MDeriv w w' x0) :
    MDeriv (fun y => (high c r (w y)).1) (highL c r (w x0) w').1 x0 ∧
      MDeriv (fun y => (high c r (w y)).2) (highL c r (w x0) w').2 x0 := by
  have h2 := hw.mul hw
  have h3 := h2.mul hw
  constructor
  · refine ((h3.mul ((((MDeriv.const _).add (MDeriv.csmul (c 8) hw)).add (MDeriv.csmul (c 10) h2)).add (MDeriv.csmul (c 12) h3))).add
      (((MDeriv.const (c 0 • (1 : M n))).add (MDeriv.csmul (c 2) hw)).add (MDeriv.csmul (c 4) h2))).congr ?_
    simp only [highL]
    abel
  · refine ((h3.mul ((((MDeriv.const (c 7 • (1 : M n))).add (MDeriv.csmul (if 8 < r then c 9 else 0) hw)).add
      (MDeriv.csmul (if 10 < r then c 11 else 0) h2)).add (MDeriv.csmul (if 12 < r then c 13 else 0) h3))).add
      (((MDeriv.const (c 1 • (1 : M n))).add (MDeriv.csmul (if 2 < r then c 3 else 0) hw)).add
        (MDeriv.csmul (if 4 < r then c 5 else 0) h2))).congr ?_
    simp only [highL]
    abel

theorem numer_deriv {A B : ℝ → M n} {A' B' : M n} (hA : MDeriv A A' x0) (hB : MDeriv B B' x0) :
    BlocksDeriv (fun y => numer c r (A y) (B y)) (numerL c r (A x0) (B x0) A' B') x0 := by
  have h1 := hA.mul hB
  have h2 := hB.mul hA
  unfold numer numerL
  split_ifs with e1 e2 e3
  · exact ⟨(MDeriv.const _).congr (by simp), MDeriv.csmul _ hA, MDeriv.csmul _ hB, (MDeriv.const _).congr (by simp)⟩
  · exact ⟨((MDeriv.const _).add (MDeriv.csmul _ h1)).congr (by simp), MDeriv.csmul _ hA, MDeriv.csmul _ hB,
      ((MDeriv.const _).add (MDeriv.csmul _ h2)).congr (by simp)⟩
  · exact ⟨(high_deriv (r := r) h1).1, hA.mul (high_deriv (r := r) h2).2, hB.mul (high_deriv (r := r) h1).2, (high_deriv (r := r) h2).1⟩
  · exact ⟨(series_deriv h1).1, hA.mul (series_deriv h2).2, hB.mul (series_deriv h1).2, (series_deriv h2).1⟩

theorem recover_deriv {B : ℝ → Blocks (M n)} {b' : Blocks (M n)} (h : BlocksDeriv B b' x0) :
    BlocksDeriv (fun y => recover (B y)) (recover b') x0 := by
  have a := MDeriv.csmul (1 / 2) (h.b11.add h.b21)
  have b := MDeriv.csmul (1 / 2) (h.b11.sub h.b21)
  have c := MDeriv.csmul (1 / 2) (h.b12.add h.b22)
  have d := MDeriv.csmul (1 / 2) (h.b12.sub h.b22)
  exact ⟨a.add c, a.sub c, b.add d, b.sub d⟩

/-! ## The thin layer -/

theorem inv_eq {inv? : M n → Option (M n)} (hinv : Mat.Exact inv?) {a : M n} (h : a.det ≠ 0) : inv? a = some a⁻¹ :=
  (hinv a a⁻¹).2 (Matrix.mul_nonsing_inv _ (isUnit_iff_ne_zero.2 h))

theorem det_of_inv {inv? : M n → Option (M n)} (hinv : Mat.Exact inv?) {a b : M n} (h : inv? a = some b) : a.det ≠ 0 ∧ b = a⁻¹ := by
  have e := (hinv a b).1 h
  refine ⟨fun h0 => ?_, (Matrix.inv_eq_right_inv e).symm⟩
  have := congrArg Matrix.det e
  simp [h0] at this

theorem calcRT_deriv {inv? : M n → Option (M n)} (hinv : Mat.Exact inv?) {N : ℝ → Blocks (M n)} {O : Blocks (M n)}
    (hN : BlocksDeriv N O x0) {o : Thin n} (h : calcRT inv? (N x0) = some o) :
    ∃ out : ℝ → Thin n, out x0 = o ∧ (∀ᶠ y in 𝓝 x0, calcRT inv? (N y) = some (out y)) ∧
      MDeriv (fun y => (out y).R) (calcRTL (N x0) O o).1 x0 ∧ MDeriv (fun y => (out y).T) (calcRTL (N x0) O o).2 x0 := by
  unfold calcRT at h
  dsimp only at h
  split at h
  · simp at h
  · rename_i x hx
    split at h
    · simp at h
    · rename_i y0 hy
      simp only [Option.some.injEq] at h
      obtain ⟨d1, hx'⟩ := det_of_inv hinv hx
      obtain ⟨d2, hy'⟩ := det_of_inv hinv hy
      have hc : MDeriv (fun y => ((N y).b22)⁻¹ * (N y).b12) (x * (O.b12 - O.b22 * (x * (N x0).b12))) x0 := by
        refine ((hN.b22.inv d1).mul hN.b12).congr ?_
        rw [← hx']; noncomm_ring
      have hd : MDeriv (fun y => ((N y).b22)⁻¹ * (N y).b21) (x * (O.b21 - O.b22 * (x * (N x0).b21))) x0 := by
        refine ((hN.b22.inv d1).mul hN.b21).congr ?_
        rw [← hx']; noncomm_ring
      have ha := (hN.b12.mul hc).sub hN.b22
      have hb := (hN.b12.mul hd).sub hN.b11
      have d2' : ((N x0).b12 * (((N x0).b22)⁻¹ * (N x0).b12) - (N x0).b22).det ≠ 0 := by rw [← hx']; exact d2
      have hT : MDeriv (fun y => ((N y).b12 * (((N y).b22)⁻¹ * (N y).b12) - (N y).b22)⁻¹ *
          ((N y).b12 * (((N y).b22)⁻¹ * (N y).b21) - (N y).b11)) (calcRTL (N x0) O o).2 x0 := by
        refine ((ha.inv d2').mul hb).congr ?_
        rw [← hx', ← hy', ← h]
        simp only [calcRTL]
        noncomm_ring
      refine ⟨fun y =>
        let x := ((N y).b22)⁻¹
        let c := x * (N y).b12
        let d := x * (N y).b21
        let y' := ((N y).b12 * c - (N y).b22)⁻¹
        let T := y' * ((N y).b12 * d - (N y).b11)
        ⟨x, y', c, d, c * T - d, T⟩, ?_, ?_, ?_, hT⟩
      · dsimp only
        rw [← hx', ← hy', ← h]
      · filter_upwards [hN.b22.det_near d1, ha.det_near d2'] with y y1 y2
        simp only [calcRT, inv_eq hinv y1, inv_eq hinv y2]
      · refine ((hc.mul hT).sub hd).congr ?_
        rw [← hx', ← hy', ← h]
        simp only [calcRTL]

/-! ## The layer -/

/-- A curve of inputs with its derivative. -/
structure InDeriv (z : ℝ → In n) (z' : In n) (x0 : ℝ) : Prop where
  r : MDeriv (fun y => (z y).r) z'.r x0
  t : MDeriv (fun y => (z y).t) z'.t x0
  ltau : HasDerivAt (fun y => (z y).ltau) z'.ltau x0

theorem turnM_deriv {ns : Nat} {A : ℝ → M n} {A' : M n} (h : MDeriv A A' x0) : MDeriv (fun y => turnM ns (A y)) (turnM ns A') x0 := by
  intro i j
  simp only [turnM_apply]
  exact (h i j).const_mul _

theorem otherSide_deriv {ns : Nat} {A : ℝ → M n} {A' : M n} (h : MDeriv A A' x0) :
    MDeriv (fun y => Eig.otherSide ns (A y)) (Eig.otherSide ns A') x0 := by
  intro i j
  simp only [Eig.otherSide_apply]
  exact (h i j).const_mul _

theorem scaled_deriv {ns s : Nat} (hns : 0 < ns) {z : ℝ → In n} {z' : In n} (h : InDeriv z z' x0) :
    MDeriv (fun y => (scaled ns s (z y)).1) (scaledL ns s (z x0) z').1 x0 ∧
      MDeriv (fun y => (scaled ns s (z y)).2) (scaledL ns s (z x0) z').2 x0 := by
  have hl := h.ltau.div_const ((2 ^ s : Nat) : ℝ)
  have h1 := h.t.add (turnM_deriv (ns := ns) h.r)
  have h2 := h.t.sub (turnM_deriv (ns := ns) h.r)
  simp only [scaled, scaledL, txr_eq hns]
  refine ⟨(Spec.MDeriv.smul hl h1).congr ?_, (Spec.MDeriv.smul hl h2).congr ?_⟩ <;> abel

theorem thin_deriv {inv? : M n → Option (M n)} (hinv : Mat.Exact inv?) {ns s r : Nat} (hns : 0 < ns) {z : ℝ → In n} {z' : In n}
    (h : InDeriv z z' x0) {o : Thin n} (ho : thin inv? ns s r (z x0) = some o) :
    ∃ out : ℝ → Thin n, out x0 = o ∧ (∀ᶠ y in 𝓝 x0, thin inv? ns s r (z y) = some (out y)) ∧
      MDeriv (fun y => (out y).R) (thinL ns s r (z x0) z' o).1 x0 ∧ MDeriv (fun y => (out y).T) (thinL ns s r (z x0) z' o).2 x0 :=
  calcRT_deriv hinv (recover_deriv (numer_deriv (scaled_deriv hns h).1 (scaled_deriv hns h).2)) ho

/-- `R_p_l`, `T_p_l`, `R_m_l`, `T_m_l`, src/xrtm_pade_rts.c:2656-2664. -/
def sidesL (ns : Nat) (i : Nat) (m : Mat.Mem n ℝ) : M n × M n × M n × M n :=
  let Rp := turnM ns (m.m (Doubling.Rl i))
  let Tp := m.m (Doubling.Tl i)
  (Rp, Tp, Eig.otherSide ns Rp, Eig.otherSide ns Tp)

theorem layer_deriv {inv? : M n → Option (M n)} (hinv : Mat.Exact inv?) {ns s r nd i : Nat} (hns : 0 < ns) {fl : Doubling.Flags}
    {z : ℝ → In n} {dz : Nat → In n} (hi : i < nd) (hf : fl.lay i = true) (h : InDeriv z (dz i) x0) {m : Mat.Mem n ℝ}
    (hm : layer inv? ns s r nd fl (z x0) dz = .ok m) :
    ∃ out : ℝ → Mat.Mem n ℝ, (∀ᶠ y in 𝓝 x0, layer inv? ns s r 0 Doubling.off (z y) (fun _ => ⟨0, 0, 0⟩) = .ok (out y)) ∧
      m.m Doubling.R = (out x0).m Doubling.R ∧ m.m Doubling.T = (out x0).m Doubling.T ∧
      MDeriv (fun y => (out y).m Doubling.R) (m.m (Doubling.Rl i)) x0 ∧
      MDeriv (fun y => (out y).m Doubling.T) (m.m (Doubling.Tl i)) x0 := by
  obtain ⟨hr, hs, o, x, ho, hx⟩ := layer_ok hm
  obtain ⟨th, e0, e1, e2, e3⟩ := thin_deriv hinv hns h ho
  have tr : Doubling.Tracks i fl false false true
      (fun y => mem0 ns s r Doubling.off (z y) (fun _ => ⟨0, 0, 0⟩) (th y)) (fun _ => ⟨0, fun _ => 0, 0, fun _ => 0⟩)
      (mem0 ns s r fl (z x0) dz o) ⟨0, fun _ => 0, 0, fun _ => 0⟩ x0 := by
    refine ⟨?_, ?_, ?_, ?_, by simp, by simp, by simp, by simp⟩
    · simp only [mem0, Doubling.R, e0]
    · simp only [mem0, Doubling.T, e0]
    · refine MDeriv.congr (A := fun y => (th y).R) e2 ?_
      have h1 : 2 * i / 2 = i := by omega
      have h2 : 2 * i % 2 = 0 := by omega
      simp [Doubling.R', Doubling.Rl, mem0, hf]
    · refine MDeriv.congr (A := fun y => (th y).T) e3 ?_
      have h1 : (2 * i + 1) / 2 = i := by omega
      have h2 : ¬ (2 * i + 1) % 2 = 0 := by omega
      simp only [Doubling.T', Doubling.Tl, mem0, hf, if_true, h1, h2, if_false]
      simp [hf]
  obtain ⟨out, xout, init', f1, f2⟩ := Doubling.tracks_loop (pth0 := fun _ _ => 0) (c0 := fun _ => 1) hinv hi tr (by simp) hx
  have hR : Doubling.R' fl i m = m.m (Doubling.Rl i) := by simp [Doubling.R', hf]
  have hT : Doubling.T' fl i m = m.m (Doubling.Tl i) := by simp [Doubling.T', hf]
  refine ⟨out, ?_, f2.r, f2.t, hR ▸ f2.dr, hT ▸ f2.dt⟩
  filter_upwards [e1, f1] with y y1 y2
  have hw : ¬ (written r).any (fun i => decide (maxR ≤ i)) = true := by
    rw [List.any_eq_true]
    rintro ⟨k, hk, h2⟩
    have h3 : maxR ≤ k := by simpa using h2
    simp only [written, List.mem_cons, List.mem_map, List.mem_range] at hk
    rcases hk with rfl | ⟨a, ha, rfl⟩
    · simp [maxR] at h3
    · omega
  unfold layer
  rw [if_neg hw, if_neg (by omega), y1]
  dsimp only
  rw [y2]

end Xrtm.Pade
