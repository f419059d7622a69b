import Verif.Proof.SingleA
import Verif.Props.Single

/-!
# C67: single scattering in reverse mode

`dot p j w` is what the weights `w` give for derivative `j` of the atmosphere, `vdot` the same for a radiance. A reverse
routine is right if the weights it leaves on the inputs give, for every derivative of the inputs, what the weights on inputs
and results gave before.
-/

namespace Xrtm.SingleA

open Single Spec

variable {p : Prof ℝ} {q : Req ℝ} {j : Nat}

/-- **C67**: `ssr_up_layer_a`, for every depth in the layer: the weights of the result are used up, and what they gave for
the derivative of the forward routine is in the weights of the inputs. -/
theorem C67_up_layer {n : Nat} (hn : n < p.nLayers) (hj : j < p.nDerivs) (utau : ℝ) (r dst : Buf ℝ) (w : Wt) (inp out : Nat → ℝ) :
    let s := upLayerA p n utau r.v w inp out
    (∀ kk, kk < p.nUmus * p.nStokes → s.out kk = 0) ∧
      dot p j s.w + vdot (p.nUmus * p.nStokes) s.inp (r.l j) =
        dot p j w + vdot (p.nUmus * p.nStokes) inp (r.l j) +
          vdot (p.nUmus * p.nStokes) out ((upLayer p n utau (some r) dst).l j) := by
  obtain ⟨h1, h2⟩ := layer_keeps hn (up_right (j := j) n utau r fun _ _ => rfl) w inp out
  refine ⟨fun kk hk => (h2 kk).trans (if_pos hk), h1.trans ?_⟩
  congr 1
  exact vdot_congr (fun _ _ => rfl) fun kk hk => ((upLayer_agree n utau (some r) dst kk hk).2 j hj).symm

/-- `ssr_dn_layer_a`. -/
theorem C67_dn_layer {n : Nat} (hn : n < p.nLayers) (hj : j < p.nDerivs) (utau : ℝ) (r dst : Buf ℝ) (w : Wt) (inp out : Nat → ℝ) :
    let s := dnLayerA p n utau r.v w inp out
    (∀ kk, kk < p.nUmus * p.nStokes → s.out kk = 0) ∧
      dot p j s.w + vdot (p.nUmus * p.nStokes) s.inp (r.l j) =
        dot p j w + vdot (p.nUmus * p.nStokes) inp (r.l j) +
          vdot (p.nUmus * p.nStokes) out ((dnLayer p n utau (some r) dst).l j) := by
  obtain ⟨h1, h2⟩ := layer_keeps hn (dn_right (j := j) n utau r fun _ _ => rfl) w inp out
  refine ⟨fun kk hk => (h2 kk).trans (if_pos hk), h1.trans ?_⟩
  congr 1
  exact vdot_congr (fun _ _ => rfl) fun kk hk => ((dnLayer_agree n utau (some r) dst kk hk).2 j hj).symm

/-- **C67**: `single_scattered_radiance_up_a` is the transpose of the linearisation in `single_scattered_radiance_up`, for
every atmosphere and every set of levels or depths, with the radiances the forward routine saves. -/
theorem C67_up (hq : q.Ok p.nLayers) (hj : j < p.nDerivs) (hF : p.F0 ≠ 0) (inp w : Buf ℝ) (o : Nat → Buf ℝ)
    {saved : Nat → Nat → ℝ} (hS : ∀ n, n < p.nLayers → saved n = (upSaved p (start p inp w) (p.nLayers - (n + 1))).v) (x : Res) :
    ∃ o' y, up p q inp w o = some o' ∧ upA p q saved x = some y ∧
      (∀ k kk, k < q.nUl → kk < p.nUmus * p.nStokes → y.out k kk = 0) ∧
      dot p j y.w + vdot (p.nUmus * p.nStokes) y.inA (inp.l j) =
        dot p j x.w + vdot (p.nUmus * p.nStokes) x.inA (inp.l j) +
          ∑ k ∈ Finset.range q.nUl, vdot (p.nUmus * p.nStokes) (x.out k) ((o' k).l j) := by
  obtain ⟨o', h1, h2⟩ := up_spec hq (nz hF) inp w o
  obtain ⟨y, h3, h4, h5⟩ := upA_keeps hq hj (nz hF) inp w hS x
  refine ⟨o', y, h1, h3, h4, h5.trans ?_⟩
  congr 1
  exact Finset.sum_congr rfl fun k hk => vdot_congr (fun _ _ => rfl) fun kk hkk =>
    ((h2 k (Finset.mem_range.1 hk) kk hkk).2 j hj).symm

/-- `single_scattered_radiance_dn_a`. Full statement: as `C67_up`, with `x.inA` on the right. What the weights of the incoming
radiance held before is overwritten, `C67_violated_top`. -/
theorem C67_dn_partial (hq : q.Ok p.nLayers) (hj : j < p.nDerivs) (hF : p.F0 ≠ 0) (inp w : Buf ℝ) (o : Nat → Buf ℝ)
    {saved : Nat → Nat → ℝ} (hS : ∀ n, n < p.nLayers → saved n = (dnSaved p (start p inp w) n).v) (x : Res) :
    ∃ o' bad y, dn p q inp w o = some o' ∧ dnA p q saved x = some (bad, y) ∧
      (∀ k kk, k < q.nUl → kk < p.nUmus * p.nStokes → y.out k kk = 0) ∧
      dot p j y.w + vdot (p.nUmus * p.nStokes) y.inA (inp.l j) =
        dot p j x.w + ∑ k ∈ Finset.range q.nUl, vdot (p.nUmus * p.nStokes) (x.out k) ((o' k).l j) := by
  obtain ⟨o', h1, h2⟩ := dn_spec hq (nz hF) inp w o
  obtain ⟨bad, y, h3, h4, h5⟩ := dnA_keeps hq hj (nz hF) inp w hS x
  refine ⟨o', bad, y, h1, h3, h4, h5.trans ?_⟩
  congr 1
  exact Finset.sum_congr rfl fun k hk => vdot_congr (fun _ _ => rfl) fun kk hkk =>
    ((h2 k (Finset.mem_range.1 hk) kk hkk).2 j hj).symm

/-- **C67**: the weights give true derivatives. Along every way to vary the atmosphere and the incoming radiance, the weighted
sum of the upward radiances changes at the rate the weights left by the reverse routine say, if they started from zero. -/
theorem C67_up_gradient {c : Path} (hq : q.Ok p.nLayers) (hc : c.Rates p j) (hj : j < p.nDerivs) (hF : p.F0 ≠ 0)
    (hf : ∀ n i, n < p.nLayers → i < p.nUmus → 1 / p.umus i + p.as0 n ≠ 0) {inp : ℝ → Buf ℝ} {inp0 : Buf ℝ}
    (hi : ∀ kk, kk < p.nUmus * p.nStokes → (inp 0).v kk = inp0.v kk ∧ HasDerivAt (fun t => (inp t).v kk) (inp0.l j kk) 0)
    (w : Buf ℝ) (o : Nat → Buf ℝ) {saved : Nat → Nat → ℝ}
    (hS : ∀ n, n < p.nLayers → saved n = (upSaved p (start p inp0 w) (p.nLayers - (n + 1))).v) (out : Nat → Nat → ℝ) :
    ∃ (x : ℝ → Nat → Buf ℝ) (y : Res), (∀ t, up (c.at p t) (q.move c p t) (inp t) w o = some (x t)) ∧
      upA p q saved ⟨⟨fun _ => 0, fun _ => 0, fun _ => 0, fun _ => 0, fun _ _ => 0⟩, fun _ => 0, out⟩ = some y ∧
      HasDerivAt (fun t => ∑ k ∈ Finset.range q.nUl, vdot (p.nUmus * p.nStokes) (out k) (x t k).v)
        (dot p j y.w + vdot (p.nUmus * p.nStokes) y.inA (inp0.l j)) 0 := by
  obtain ⟨x, h1, x0, h2, h3⟩ := C33_up_derivative hq hc hj hF hf hi w o
  obtain ⟨o', y, h4, h5, -, h6⟩ := C67_up hq hj hF inp0 w o hS
    ⟨⟨fun _ => 0, fun _ => 0, fun _ => 0, fun _ => 0, fun _ _ => 0⟩, fun _ => 0, out⟩
  rw [h2] at h4
  cases h4
  refine ⟨x, y, h1, h5, ?_⟩
  rw [h6]
  have e : dot p j ⟨fun _ => 0, fun _ => 0, fun _ => 0, fun _ => 0, fun _ _ => 0⟩ = 0 := by simp [dot, vdot]
  have e2 : vdot (p.nUmus * p.nStokes) (fun _ => 0) (inp0.l j) = 0 := vdot_zero _ _ fun _ _ => rfl
  dsimp only
  rw [e, e2, zero_add, zero_add]
  refine HasDerivAt.fun_sum fun k hk => HasDerivAt.fun_sum fun kk hkk => ?_
  exact ((h3 k kk (Finset.mem_range.1 hk) (Finset.mem_range.1 hkk)).2).const_mul _

/-- The same for the downward radiances. -/
theorem C67_dn_gradient {c : Path} (hq : q.Ok p.nLayers) (hc : c.Rates p j) (hj : j < p.nDerivs) (hF : p.F0 ≠ 0)
    (hf : ∀ n i, n < p.nLayers → i < p.nUmus → p.as0 n - 1 / p.umus i ≠ 0) {inp : ℝ → Buf ℝ} {inp0 : Buf ℝ}
    (hi : ∀ kk, kk < p.nUmus * p.nStokes → (inp 0).v kk = inp0.v kk ∧ HasDerivAt (fun t => (inp t).v kk) (inp0.l j kk) 0)
    (w : Buf ℝ) (o : Nat → Buf ℝ) {saved : Nat → Nat → ℝ}
    (hS : ∀ n, n < p.nLayers → saved n = (dnSaved p (start p inp0 w) n).v) (out : Nat → Nat → ℝ) :
    ∃ (x : ℝ → Nat → Buf ℝ) (bad : Bool) (y : Res), (∀ t, dn (c.at p t) (q.move c p t) (inp t) w o = some (x t)) ∧
      dnA p q saved ⟨⟨fun _ => 0, fun _ => 0, fun _ => 0, fun _ => 0, fun _ _ => 0⟩, fun _ => 0, out⟩ = some (bad, y) ∧
      HasDerivAt (fun t => ∑ k ∈ Finset.range q.nUl, vdot (p.nUmus * p.nStokes) (out k) (x t k).v)
        (dot p j y.w + vdot (p.nUmus * p.nStokes) y.inA (inp0.l j)) 0 := by
  obtain ⟨x, h1, x0, h2, h3⟩ := C33_dn_derivative hq hc hj hF hf hi w o
  obtain ⟨o', bad, y, h4, h5, -, h6⟩ := C67_dn_partial hq hj hF inp0 w o hS
    ⟨⟨fun _ => 0, fun _ => 0, fun _ => 0, fun _ => 0, fun _ _ => 0⟩, fun _ => 0, out⟩
  rw [h2] at h4
  cases h4
  refine ⟨x, bad, y, h1, h5, ?_⟩
  rw [h6]
  have e : dot p j ⟨fun _ => 0, fun _ => 0, fun _ => 0, fun _ => 0, fun _ _ => 0⟩ = 0 := by simp [dot, vdot]
  dsimp only
  rw [e, zero_add]
  refine HasDerivAt.fun_sum fun k hk => HasDerivAt.fun_sum fun kk hkk => ?_
  exact ((h3 k kk (Finset.mem_range.1 hk) (Finset.mem_range.1 hkk)).2).const_mul _

/-! ### The correction of Nakajima and Tanaka -/

theorem dot_shift (pt : Prof ℝ) (om2L : Nat → Nat → ℝ) (om2 : Nat → ℝ) (Pf : Nat → Nat → ℝ) (PfL : Nat → Nat → Nat → ℝ) (j : Nat)
    (o1 o2 lt bt as : Nat → ℝ) (P1 P2 : Nat → Nat → ℝ) :
    dot pt j ⟨o1, lt, bt, as, P1⟩ + dot { pt with omega := om2, omegaL := om2L, P := Pf, PL := PfL } j
      ⟨o2, fun _ => 0, fun _ => 0, fun _ => 0, P2⟩ =
    dot pt j ⟨o1, fun _ => 0, fun _ => 0, fun _ => 0, P1⟩ +
      dot { pt with omega := om2, omegaL := om2L, P := Pf, PL := PfL } j ⟨o2, lt, bt, as, P2⟩ := by
  unfold dot
  dsimp only
  have h : ∀ N g, vdot N (fun _ => 0) g = 0 := fun N g => vdot_zero N g fun _ _ => rfl
  simp only [h]
  ring

theorem dot_split (pt : Prof ℝ) (j : Nat) (o1 lt bt as : Nat → ℝ) (P1 : Nat → Nat → ℝ) :
    dot pt j ⟨o1, lt, bt, as, P1⟩ = dot pt j ⟨o1, fun _ => 0, fun _ => 0, fun _ => 0, P1⟩ +
      dot pt j ⟨fun _ => 0, lt, bt, as, fun _ _ => 0⟩ := by
  unfold dot
  have h : ∀ N g, vdot N (fun _ => 0) g = 0 := fun N g => vdot_zero N g fun _ _ => rfl
  simp only [h, Finset.sum_const_zero]
  ring

theorem vdot_neg (N : Nat) (a b : Nat → ℝ) : vdot N (fun k => -1 * a k) b = -vdot N a b := by
  unfold vdot
  rw [← Finset.sum_neg_distrib]
  exact Finset.sum_congr rfl fun k _ => by ring

theorem sum_minus (p : Prof ℝ) (q : Req ℝ) (hj : j < p.nDerivs) (out : Nat → Nat → ℝ) (a b : Nat → Buf ℝ) :
    (∑ k ∈ Finset.range q.nUl, vdot (p.nUmus * p.nStokes) (fun kk => -1 * out k kk) ((a k).l j)) +
      ∑ k ∈ Finset.range q.nUl, vdot (p.nUmus * p.nStokes) (out k) ((b k).l j) =
    ∑ k ∈ Finset.range q.nUl, vdot (p.nUmus * p.nStokes) (out k)
      ((if k < q.nUl then minus p (b k) (a k) else b k).l j) := by
  rw [← Finset.sum_add_distrib]
  refine Finset.sum_congr rfl fun k hk => ?_
  rw [vdot_neg, if_pos (Finset.mem_range.1 hk)]
  unfold vdot
  rw [← Finset.sum_neg_distrib, ← Finset.sum_add_distrib]
  refine Finset.sum_congr rfl fun kk hkk => ?_
  show _ = out k kk * (if j < p.nDerivs ∧ kk < p.nUv then (b k).l j kk - (a k).l j kk else _)
  rw [if_pos ⟨hj, Finset.mem_range.1 hkk⟩]
  ring

/-- **C67**: `n_t_tms_correction_up_a` is the transpose of the linearisation in `n_t_tms_correction_up`. -/
theorem C67_tms_up (hq : q.Ok p.nLayers) (hj : j < p.nDerivs) (hF : p.F0 ≠ 0) (om2 : Nat → ℝ) (om2L : Nat → Nat → ℝ)
    (Pf : Nat → Nat → ℝ) (PfL : Nat → Nat → Nat → ℝ) (inp w1 w2 : Buf ℝ) (a o : Nat → Buf ℝ)
    {savedT savedF : Nat → Nat → ℝ}
    (hT : ∀ n, n < p.nLayers → savedT n = (upSaved p (start p inp w1) (p.nLayers - (n + 1))).v)
    (hU : ∀ n, n < p.nLayers → savedF n = (upSaved { p with omega := om2, omegaL := om2L, P := Pf, PL := PfL }
      (start { p with omega := om2, omegaL := om2L, P := Pf, PL := PfL } inp w2) (p.nLayers - (n + 1))).v) (x : TRes) :
    let pf := { p with omega := om2, omegaL := om2L, P := Pf, PL := PfL }
    ∃ o' y, tmsUp q p pf inp w1 w2 a o = some o' ∧ tmsUpA p pf q savedT savedF x = some y ∧
      (∀ k kk, k < q.nUl → kk < p.nUmus * p.nStokes → y.out k kk = 0) ∧
      tdot p pf j y + vdot (p.nUmus * p.nStokes) y.inA (inp.l j) =
        tdot p pf j x + vdot (p.nUmus * p.nStokes) x.inA (inp.l j) +
          ∑ k ∈ Finset.range q.nUl, vdot (p.nUmus * p.nStokes) (x.out k) ((o' k).l j) := by
  dsimp only
  obtain ⟨a', y, h1, h2, -, h3⟩ := C67_up hq hj hF inp w1 a hT x.trun
  obtain ⟨b', z, h4, h5, h6, h7⟩ := C67_up (p := { p with omega := om2, omegaL := om2L, P := Pf, PL := PfL }) hq hj hF inp w2 o hU
    (x.full y)
  refine ⟨_, TRes.after y z, by rw [tmsUp, h1]; dsimp only; rw [h4], by rw [tmsUpA, h2]; dsimp only; rw [h5], h6, ?_⟩
  have hm := sum_minus (j := j) { p with omega := om2, omegaL := om2L, P := Pf, PL := PfL } q hj x.out a' b'
  dsimp only at hm ⊢
  rw [← hm]
  simp only [TRes.trun] at h3
  simp only [TRes.full] at h7
  unfold tdot TRes.after
  dsimp only
  rw [dot_shift, dot_split p j x.omega]
  have e1 := dot_split p j y.w.omega y.w.ltau y.w.btran y.w.as0 y.w.P
  have e2 := dot_split p j x.omega x.ltau x.btran x.as0 x.Ptrun
  have e3 := dot_split { p with omega := om2, omegaL := om2L, P := Pf, PL := PfL } j x.omega2 y.w.ltau y.w.btran y.w.as0 x.Pfull
  have e4 : dot { p with omega := om2, omegaL := om2L, P := Pf, PL := PfL } j
      ⟨fun _ => 0, y.w.ltau, y.w.btran, y.w.as0, fun _ _ => 0⟩ =
      dot p j ⟨fun _ => 0, y.w.ltau, y.w.btran, y.w.as0, fun _ _ => 0⟩ := by
    unfold dot
    have h : ∀ N g, vdot N (fun _ => 0) g = 0 := fun N g => vdot_zero N g fun _ _ => rfl
    simp only [h]
  linarith

/-- `n_t_tms_correction_dn_a`. Full statement: as `C67_tms_up`. It is proved where the radiance coming in at the top does not
vary: the second call overwrites the weights of that radiance that the first has left, `C67_violated_tms`. -/
theorem C67_tms_dn_partial (hq : q.Ok p.nLayers) (hj : j < p.nDerivs) (hF : p.F0 ≠ 0) (om2 : Nat → ℝ) (om2L : Nat → Nat → ℝ)
    (Pf : Nat → Nat → ℝ) (PfL : Nat → Nat → Nat → ℝ) (inp w1 w2 : Buf ℝ) (a o : Nat → Buf ℝ)
    (hin : ∀ kk, kk < p.nUmus * p.nStokes → inp.l j kk = 0) {savedT savedF : Nat → Nat → ℝ}
    (hT : ∀ n, n < p.nLayers → savedT n = (dnSaved p (start p inp w1) n).v)
    (hU : ∀ n, n < p.nLayers → savedF n = (dnSaved { p with omega := om2, omegaL := om2L, P := Pf, PL := PfL }
      (start { p with omega := om2, omegaL := om2L, P := Pf, PL := PfL } inp w2) n).v) (x : TRes) :
    let pf := { p with omega := om2, omegaL := om2L, P := Pf, PL := PfL }
    ∃ o' y, tmsDn q p pf inp w1 w2 a o = some o' ∧ tmsDnA p pf q savedT savedF x = some y ∧
      (∀ k kk, k < q.nUl → kk < p.nUmus * p.nStokes → y.out k kk = 0) ∧
      tdot p pf j y = tdot p pf j x + ∑ k ∈ Finset.range q.nUl, vdot (p.nUmus * p.nStokes) (x.out k) ((o' k).l j) := by
  dsimp only
  obtain ⟨a', b1, y, h1, h2, -, h3⟩ := C67_dn_partial hq hj hF inp w1 a hT x.trun
  obtain ⟨b', b2, z, h4, h5, h6, h7⟩ := C67_dn_partial (p := { p with omega := om2, omegaL := om2L, P := Pf, PL := PfL }) hq hj hF
    inp w2 o hU (x.full y)
  refine ⟨_, TRes.after y z, by rw [tmsDn, h1]; dsimp only; rw [h4], by rw [tmsDnA, h2]; dsimp only; rw [h5], h6, ?_⟩
  have hz : ∀ v : Nat → ℝ, vdot (p.nUmus * p.nStokes) v (inp.l j) = 0 := fun v =>
    Finset.sum_eq_zero fun k hk => by rw [hin k (Finset.mem_range.1 hk), mul_zero]
  have hm := sum_minus (j := j) { p with omega := om2, omegaL := om2L, P := Pf, PL := PfL } q hj x.out a' b'
  dsimp only at hm ⊢
  rw [← hm]
  simp only [TRes.trun, hz] at h3
  simp only [TRes.full, hz] at h7
  unfold tdot TRes.after
  dsimp only
  rw [dot_shift, dot_split p j x.omega]
  have e1 := dot_split p j y.w.omega y.w.ltau y.w.btran y.w.as0 y.w.P
  have e2 := dot_split p j x.omega x.ltau x.btran x.as0 x.Ptrun
  have e3 := dot_split { p with omega := om2, omegaL := om2L, P := Pf, PL := PfL } j x.omega2 y.w.ltau y.w.btran y.w.as0 x.Pfull
  have e4 : dot { p with omega := om2, omegaL := om2L, P := Pf, PL := PfL } j
      ⟨fun _ => 0, y.w.ltau, y.w.btran, y.w.as0, fun _ _ => 0⟩ =
      dot p j ⟨fun _ => 0, y.w.ltau, y.w.btran, y.w.as0, fun _ _ => 0⟩ := by
    unfold dot
    have h : ∀ N g, vdot N (fun _ => 0) g = 0 := fun N g => vdot_zero N g fun _ _ => rfl
    simp only [h]
  linarith

/-! ### Violations -/

/-- **C67, violated**: on the way down the weights of the incoming radiance are overwritten (`src/xrtm_single_a.c:466`), so what
other results have left there is lost: whatever they were, the same comes out. `get_single_a` calls this for every azimuth with
the same array (`src/xrtm_model_a.c:2058`). -/
theorem C67_violated_top (saved : Nat → Nat → ℝ) (w : Wt) (inA inA' : Nat → ℝ) (out : Nat → Nat → ℝ) (hF : p.F0 ≠ 0) :
    ∃ bad y y', dnA p q saved ⟨w, inA, out⟩ = some (bad, y) ∧ dnA p q saved ⟨w, inA', out⟩ = some (bad, y') ∧ y.w = y'.w ∧
      ∀ kk, kk < p.nUmus * p.nStokes → y.inA kk = y'.inA kk := by
  have h : ¬ SNum.isZero p.F0 = true := by rw [nz hF]; decide
  refine ⟨_, _, _, if_neg h, if_neg h, rfl, fun kk hk => ?_⟩
  dsimp only
  rw [if_pos (show kk < p.nUv from hk), if_pos (show kk < p.nUv from hk)]

/-- **C67, violated**: the correction of the downward radiance at the top is the incoming radiance less itself, so it does not
vary with it. Its reverse mode leaves the weights of the result as weights of the incoming radiance, in place of what was
there. -/
theorem C67_violated_tms (hj : j < p.nDerivs) (hF : p.F0 ≠ 0) (hm : ∀ i, i < p.nUmus → p.umus i ≠ 0)
    (om2 : Nat → ℝ) (om2L : Nat → Nat → ℝ) (Pf : Nat → Nat → ℝ) (PfL : Nat → Nat → Nat → ℝ) (inp w1 w2 : Buf ℝ)
    (a o : Nat → Buf ℝ) (savedT savedF : Nat → Nat → ℝ) (x : TRes) :
    let pf := { p with omega := om2, omegaL := om2L, P := Pf, PL := PfL }
    ∃ o' y, tmsDn (oneLevel 0) p pf inp w1 w2 a o = some o' ∧ tmsDnA p pf (oneLevel 0) savedT savedF x = some y ∧
      ∀ kk, kk < p.nUmus * p.nStokes → (o' 0).l j kk = 0 ∧ y.inA kk = x.out 0 kk := by
  dsimp only
  have hq : (oneLevel 0 : Req ℝ).Ok p.nLayers := oneLevel_ok (Nat.zero_le _)
  obtain ⟨a', h1, h2⟩ := dn_spec (p := p) hq (nz hF) inp w1 a
  obtain ⟨b', h3, h4⟩ := dn_spec (p := { p with omega := om2, omegaL := om2L, P := Pf, PL := PfL }) hq (nz hF) inp w2 o
  have h : ¬ SNum.isZero p.F0 = true := by rw [nz hF]; decide
  refine ⟨_, _, by rw [tmsDn, h1]; dsimp only; rw [h3], by
    rw [tmsDnA, dnA, if_neg h]; dsimp only; rw [dnA, if_neg h], fun kk hk => ⟨?_, ?_⟩⟩
  · show (if (0 : Nat) < 1 then minus _ (b' 0) (a' 0) else b' 0).l j kk = 0
    rw [if_pos Nat.one_pos]
    show (if j < p.nDerivs ∧ kk < p.nUv then (b' 0).l j kk - (a' 0).l j kk else _) = 0
    rw [if_pos ⟨hj, hk⟩, (h4 0 Nat.one_pos kk hk).2 j hj, (h2 0 Nat.one_pos kk hk).2 j hj]
    have e1 : (scaled { p with omega := om2, omegaL := om2L, P := Pf, PL := PfL } (dnTarget
        { p with omega := om2, omegaL := om2L, P := Pf, PL := PfL } (oneLevel 0) (start { p with omega := om2, omegaL := om2L, P := Pf, PL := PfL }
          inp w2) 0)).l j kk = inp.l j kk / scale p kk * scale p kk :=
      (scaled_l (p := { p with omega := om2, omegaL := om2L, P := Pf, PL := PfL }) _ hj hk).trans (by
        congr 1
        exact start_l (p := { p with omega := om2, omegaL := om2L, P := Pf, PL := PfL }) inp w2 hj hk)
    have e2 : (scaled p (dnTarget p (oneLevel 0) (start p inp w1) 0)).l j kk = inp.l j kk / scale p kk * scale p kk :=
      (scaled_l _ hj hk).trans (by
        congr 1
        exact start_l inp w1 hj hk)
    rw [e1, e2]
    exact sub_self _
  · show (if kk < p.nUv then (if kk < p.nUv then (0 : ℝ) + scaleOut p (oneLevel 0) x.out 0 kk else 0) / scale p kk else _) = _
    have hk' : kk < p.nUv := hk
    rw [if_pos hk', if_pos hk', zero_add]
    show (if (0 : Nat) < 1 ∧ kk < p.nUv then x.out 0 kk * scale p kk else _) / scale p kk = _
    rw [if_pos ⟨Nat.one_pos, hk'⟩]
    exact mul_div_cancel_right₀ _ (scale_ne hF (hm _ (cell_angle hk)))

/-- **C67, violated**: with output at depths, the downward routine reads `ulevels[-1]` if and only if the first depth asked for
is below the first layer. -/
theorem C67_read_iff (hq : q.Ok p.nLayers) (hF : p.F0 ≠ 0) (saved : Nat → Nat → ℝ) (x : Res) :
    ∃ bad y, dnA p q saved x = some (bad, y) ∧ (bad = true ↔ q.tau = true ∧ 0 < q.ul 0) := by
  unfold dnA
  rw [if_neg (by rw [nz hF]; decide)]
  refine ⟨_, _, rfl, ?_⟩
  have hs := hq.some
  cases ht : q.tau
  · rw [dnLoopA_good ht]
    simp
  · simp only [if_true, true_and]
    rw [dnLoopA_bad hq ht saved (q.ul (q.nUl - 1) + 1) q.nUl _ (Nat.le_refl _)
      (fun i hi => by have := hq.mono (show i ≤ q.nUl - 1 by omega) (by omega); omega) (fun i _ h => h)]
    constructor
    · exact fun h => h.1
    · exact fun h => ⟨h, by omega⟩

/-- **C67, violated**: without a sun there are no weights. The forward routine returns zeros and saves nothing; the reverse
routine reads what would have been saved, and divides zero by zero. -/
theorem C67_violated_no_sun (hF : p.F0 = 0) (inp w : Buf ℝ) (o : Nat → Buf ℝ) (saved : Nat → Nat → ℝ) (x : Res) :
    (∃ o', up p q inp w o = some o') ∧ upA p q saved x = none ∧ dnA p q saved x = none := by
  have h : SNum.isZero p.F0 = true := decide_eq_true hF
  exact ⟨⟨_, if_pos h⟩, if_pos h, if_pos h⟩

/-! ### Examples -/

/-- The sum of what the forward routine saves, for the sky of C33, half way down the first layer: the hypotheses of
`C67_up_gradient` hold, for a result of weight 5. -/
example (om : ℝ) (inp w : Buf ℝ) (h : inp.l 0 0 = 0) (o : Nat → Buf ℝ) :
    ∃ (x : ℝ → Nat → Buf ℝ) (y : Res),
      (∀ t, up ((exPath om).at (exSky om) t) (exPlace.move (exPath om) (exSky om) t) inp w o = some (x t)) ∧
      HasDerivAt (fun t => 5 * (x t 0).v 0) (dot (exSky om) 0 y.w) 0 := by
  obtain ⟨x, y, h1, -, h2⟩ := C67_up_gradient (p := exSky om) (q := exPlace) (c := exPath om) (j := 0) exPlace_ok (exPath_rates om)
    Nat.one_pos (exSky_F0 om) (fun n i _ _ => show (1 : ℝ) / 1 + 2 ≠ 0 by norm_num) (inp := fun _ => inp) (inp0 := inp)
    (fun kk hkk => by
      have : kk < 1 := hkk
      obtain rfl : kk = 0 := by omega
      exact ⟨rfl, by rw [h]; exact hasDerivAt_const _ _⟩) w o (fun n _ => rfl) (fun _ _ => 5)
  refine ⟨x, y, h1, ?_⟩
  have e1 : ∀ a b : Nat → ℝ, vdot ((exSky om).nUmus * (exSky om).nStokes) a b = a 0 * b 0 := fun a b => by
    show vdot 1 a b = _
    simp [vdot]
  simp only [e1, h, mul_zero, add_zero] at h2
  have e2 : Finset.range (exPlace).nUl = {0} := rfl
  rw [e2] at h2
  simpa using h2

/-- Two layers, a depth in the second: the routine reads in front of the array. -/
example (om : ℝ) (saved : Nat → Nat → ℝ) (x : Res) :
    ∃ y, dnA (exSky om) ⟨1, fun _ => 1, fun _ => 1, true⟩ saved x = some (true, y) := by
  have hq : (⟨1, fun _ => 1, fun _ => 1, true⟩ : Req ℝ).Ok (exSky om).nLayers :=
    { some := Nat.one_pos
      levels := fun h => by cases h
      taus := fun _ => ⟨fun _ _ => (by decide : 1 < 2), fun _ _ _ _ => Nat.le_refl _, fun k h1 h2 => by
        have : k < 1 := h2
        omega⟩ }
  obtain ⟨bad, y, h1, h2⟩ := C67_read_iff hq (exSky_F0 om) saved x
  have : bad = true := h2.2 ⟨rfl, (by decide : 0 < 1)⟩
  subst this
  exact ⟨y, h1⟩

/-- A layer, with weights that are not zero. -/
example (om : ℝ) (r dst : Buf ℝ) :
    let w : Wt := ⟨fun _ => 1, fun _ => 2, fun _ => 3, fun _ => 4, fun _ _ => 5⟩
    let s := dnLayerA (exSky om) 1 (1 / 2) r.v w (fun _ => 6) (fun _ => 7)
    dot (exSky om) 0 s.w + s.inp 0 * r.l 0 0 =
      dot (exSky om) 0 w + 6 * r.l 0 0 + 7 * (dnLayer (exSky om) 1 (1 / 2) (some r) dst).l 0 0 := by
  have h := (C67_dn_layer (p := exSky om) (j := 0) (n := 1) (by decide : 1 < 2) Nat.one_pos (1 / 2) r dst
    ⟨fun _ => 1, fun _ => 2, fun _ => 3, fun _ => 4, fun _ _ => 5⟩ (fun _ => 6) (fun _ => 7)).2
  have e1 : ∀ a b : Nat → ℝ, vdot ((exSky om).nUmus * (exSky om).nStokes) a b = a 0 * b 0 := fun a b => by
    show vdot 1 a b = _
    simp [vdot]
  simpa only [e1] using h

end Xrtm.SingleA
