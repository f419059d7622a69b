import Verif.Proof.PadeD
import Verif.Props.Eig
import Verif.Props.Adding
import Mathlib.Analysis.Complex.ExponentialBounds

/-!
# C59: the Padé solver approximates the layer to a known order
-/

namespace Xrtm.Pade
open Matrix Filter Topology Xrtm.Spec Xrtm.Transfer Source

variable {n : Nat}

/-! ## Coefficients -/

/-- The coefficients are those of the diagonal Padé approximant of the exponential. -/
theorem C59_coefs (p k : Nat) (h : k ≤ p) :
    coef p k = (p.factorial * (2 * p - k).factorial : ℝ) / ((2 * p).factorial * (k.factorial * (p - k).factorial)) := by
  have : ((2 * p).factorial * (k.factorial * (p - k).factorial) : ℝ) ≠ 0 := by positivity
  rw [eq_div_iff this, coef_fact h]

example : coef 2 1 = 1 / 2 ∧ coef 2 2 = 1 / 12 := by
  rw [C59_coefs 2 1 (by norm_num), C59_coefs 2 2 (by norm_num)]
  norm_num [Nat.factorial]

/-! ## Rows of further directions -/

/-- The operations on the rows kept apart are those on the whole matrix. -/
theorem C59_rows {q u : Type} [Fintype q] [Fintype u] [DecidableEq q] [DecidableEq u] (x y : Rows q u) (c : ℝ) :
    (x.mul y).full = x.full * y.full ∧ (x.add y).full = x.full + y.full ∧ (x.sub y).full = x.full - y.full ∧
      (x.scale c).full = c • x.full ∧ (x.scaleAdd y c).full = x.full + c • y.full ∧
      (Rows.init c : Rows q u).full = c • 1 ∧
      ∀ z, x.a * z = y.a → (∀ i, x.d2 i ≠ 0) → x.full * (Rows.invMul z x y).full = y.full :=
  ⟨x.full_mul y, x.full_add y, x.full_sub y, x.full_scale c, x.full_scaleAdd c y, Rows.full_init c,
    fun _ hz hx => Rows.full_invMul hz hx⟩

example : ∃ (x y : Rows (Fin 1) (Fin 1)) (z : Matrix (Fin 1) (Fin 1) ℝ), x.a * z = y.a ∧ (∀ i, x.d2 i ≠ 0) ∧ x.d1 0 0 ≠ 0 :=
  ⟨⟨!![2], !![3], fun _ => 5⟩, ⟨!![8], !![1], fun _ => 7⟩, !![4], by ext i j; fin_cases i; fin_cases j; simp [Matrix.mul_apply]; norm_num,
    fun _ => by norm_num, by simp⟩

/-! ## The numerator -/

/-- In all cases of the order the blocks are the polynomial of the whole matrix. -/
theorem C59_numer (r : Nat) (hr : 1 ≤ r) (A B : M n) :
    let N := numer (coef r) r A B
    (fromBlocks N.b11 N.b12 N.b21 N.b22 : Matrix (Fin n ⊕ Fin n) (Fin n ⊕ Fin n) ℝ) =
      ∑ k ∈ Finset.range (r + 1), coef r k • (fromBlocks 0 A B 0) ^ k :=
  numer_mat hr (fun _ hk => coef_zero_of_lt hk) A B

example : ∃ r : Nat, 1 ≤ r ∧ ¬ r = 1 ∧ ¬ r = 2 ∧ ¬ (r = 12 ∨ r = 13) := ⟨5, by norm_num⟩

/-! ## The layer -/

/-- What the solver gives for a layer of thickness `T` is off from what the layer does to light by no more than a
constant of the medium times the power `2 r` of the thickness of the thin layer. -/
theorem C59_error (first : Bool) {ns : Nat} (hns : 0 < ns) (mu w : V n) (om : ℝ) (Ppp Pmp Pmm Ppm : M n)
    (hmu : ∀ i, mu i ≠ 0) (hm : (Medium.of first mu w om Ppp Pmp Pmm Ppm).Mirrored ns) (r : Nat) (hr : 1 ≤ r) :
    ∃ K : ℝ, 0 < K ∧ ∀ (T : ℝ) (s : Nat), 0 < T → T / 2 ^ s ≤ 1 / K → ∀ l : Layer n ℝ,
      (Medium.of first mu w om Ppp Pmp Pmm Ppm).Fills 0 0 T l → ∀ b ρ : ℝ, 0 ≤ b → 0 ≤ ρ →
      (∀ i, ∑ j, |l.Tp i j| ≤ b) → (∀ i, ∑ j, |l.Rp i j| ≤ ρ) →
      let e := K * Real.exp (K * T) * T * (T / 2 ^ s) ^ (2 * r)
      b * e ≤ 1 / 2 →
      ∀ (inv? : M n → Option (M n)), Mat.Exact inv? → ∀ (nd : Nat) (fl : Doubling.Flags) (dz : Nat → In n) (m : Mat.Mem n ℝ),
        let z := localRT first mu w om Ppp Pmp
        layer inv? ns s r nd fl ⟨z.1, z.2, T⟩ dz = .ok m → ∀ i j,
          |(sides ns m).1 i j - l.Rp i j| ≤ 2 * b * (1 + ρ) * e ∧ |(sides ns m).2.1 i j - l.Tp i j| ≤ 2 * b ^ 2 * e ∧
          |(sides ns m).2.2.1 i j - l.Rm i j| ≤ 2 * b * (1 + ρ) * e ∧ |(sides ns m).2.2.2 i j - l.Tm i j| ≤ 2 * b ^ 2 * e := by
  open scoped Matrix.Norms.Operator in
  rcases Nat.eq_zero_or_pos n with h0 | h0
  · subst h0
    exact ⟨1, one_pos, fun T s _ _ l _ b ρ _ _ _ _ => fun _ inv? _ nd fl dz m _ i => i.elim0⟩
  · haveI : Nonempty (Fin n ⊕ Fin n) := ⟨.inl ⟨0, h0⟩⟩
    obtain ⟨K, hK, hsteps⟩ := steps r (along (turnM ns (localRT first mu w om Ppp Pmp).1) (localRT first mu w om Ppp Pmp).2)
    refine ⟨K, hK, ?_⟩
    intro T s hT hs l hl b ρ hb hρ hbT hρR e he inv? hinv nd fl dz m z hm' i j
    obtain ⟨hu, hE⟩ := hsteps T s hT hs
    obtain ⟨u, hu'⟩ := hu
    obtain ⟨-, -, o, x, ho, hloop⟩ := layer_ok hm'
    set E := (↑u⁻¹ : MM n) * pad (coef r) r ((T / 2 ^ s) • along (turnM ns z.1) z.2) with hEdef
    have hDE : pad (coef r) r (-((T / 2 ^ s) • along (turnM ns z.1) z.2)) * E =
        pad (coef r) r ((T / 2 ^ s) • along (turnM ns z.1) z.2) := by
      rw [hEdef, ← mul_assoc, ← hu', Units.mul_inv, one_mul]
    have h1 : Runs E o.R o.T := thin_runs hinv hns hr ho (hu' ▸ u.isUnit) hDE
    have h2 := loop_runs hinv hloop (E := E) h1
    obtain ⟨f1, f2, f3, -, -⟩ := fills_runs hmu hm hl
    have hsum : ∀ i, ∑ j, |turnM ns l.Rp i j| ≤ ρ := by
      intro i
      refine le_trans (le_of_eq ?_) (hρR i)
      refine Finset.sum_congr rfl fun j _ => ?_
      rw [turnM_apply, abs_mul]
      have : |stokesSign ns i| = 1 := by unfold stokesSign; split_ifs <;> simp
      rw [this, one_mul]
    obtain ⟨g1, g2⟩ := near_runs h2 f1 hb (norm_le hb hbT) (norm_le hρ hsum) (hE E hDE) he
    have sg : ∀ k : Nat, |stokesSign ns k| = 1 := fun k => by unfold stokesSign; split_ifs <;> simp
    have a1 : |(sides ns m).1 i j - l.Rp i j| ≤ 2 * b * (1 + ρ) * e := by
      have : (sides ns m).1 i j - l.Rp i j = stokesSign ns i * (m.m Doubling.R - turnM ns l.Rp) i j := by
        rw [Matrix.sub_apply, mul_sub, ← turnM_apply, ← turnM_apply, turnM_turnM]; rfl
      rw [this, abs_mul, sg, one_mul]
      exact (entry_le _ i j).trans g2
    have a2 : |(sides ns m).2.1 i j - l.Tp i j| ≤ 2 * b ^ 2 * e := (entry_le (m.m Doubling.T - l.Tp) i j).trans g1
    refine ⟨a1, a2, ?_, ?_⟩
    · rw [f2]
      change |Eig.otherSide ns (sides ns m).1 i j - _| ≤ _
      rw [Eig.otherSide_apply, Eig.otherSide_apply, ← mul_sub, abs_mul, abs_mul, sg, sg, one_mul, one_mul]
      exact a1
    · rw [f3]
      change |Eig.otherSide ns (sides ns m).2.1 i j - _| ≤ _
      rw [Eig.otherSide_apply, Eig.otherSide_apply, ← mul_sub, abs_mul, abs_mul, sg, sg, one_mul, one_mul]
      exact a2

/-- Each doubling more divides the bound by four to the power `r`. -/
theorem C59_order (K T : ℝ) (s r : Nat) :
    K * Real.exp (K * T) * T * (T / 2 ^ (s + 1)) ^ (2 * r) = K * Real.exp (K * T) * T * (T / 2 ^ s) ^ (2 * r) / 4 ^ r := by
  have : T / 2 ^ (s + 1) = T / 2 ^ s / 2 := by rw [pow_succ]; field_simp
  rw [this, div_pow _ (2 : ℝ), pow_mul (2 : ℝ) 2 r]
  norm_num
  ring

/-- A layer that scatters. -/
example : ∃ l : Layer 1 ℝ, (Medium.of true (fun _ : Fin 1 => (1:ℝ) / 2) (fun _ => 1) (3 / 4) 1 1 1 1).Fills 0 0 2 l ∧
    (Medium.of true (fun _ : Fin 1 => (1:ℝ) / 2) (fun _ => 1) (3 / 4) 1 1 1 1).Mirrored 1 := by
  obtain ⟨o, ho⟩ := Eig.demo_solver 2 (by norm_num)
  exact ⟨_, Eig.C50_layer Eig.exp_real Eig.inverseK_exact true 1 one_pos _ _ _ 2 1 1 1 1 (fun _ => by norm_num)
    (Source.demo_mirrored _) _ _ Eig.demo_solved o ho, Source.demo_mirrored _⟩

theorem num_ext {a : M 1} {x : ℝ} (h : a 0 0 = x) : a = x • 1 := by
  ext i j
  fin_cases i; fin_cases j
  simpa using h

/-- A call that succeeds: a layer that only absorbs. -/
theorem demo_thin (inv? : M 1 → Option (M 1)) (hinv : Mat.Exact inv?) :
    ∃ o, thin inv? 1 0 1 ⟨0, (-1 : ℝ) • 1, 1⟩ = some o ∧ o.T = (1 / 3 : ℝ) • 1 ∧ o.R = 0 := by
  have hN : recover (numer (coef 1) 1 (scaled 1 0 (⟨0, (-1 : ℝ) • 1, 1⟩ : In 1)).1 (scaled 1 0 (⟨0, (-1 : ℝ) • 1, 1⟩ : In 1)).2) =
      (⟨(1 / 2 : ℝ) • 1, 0, 0, (3 / 2 : ℝ) • 1⟩ : Blocks (M 1)) := by
    have ht : turnM 1 (0 : M 1) = 0 := by funext i j; rw [turnM_apply]; simp
    simp only [scaled, txr_eq one_pos, ht, add_zero, sub_zero, numer, if_true, coef, recover]
    norm_num
    refine ⟨?_, ?_, ?_, ?_⟩ <;> ext i j <;> fin_cases i <;> fin_cases j <;> norm_num [Matrix.smul_apply]
  have i1 : inv? ((3 / 2 : ℝ) • (1 : M 1)) = some ((2 / 3 : ℝ) • 1) := by
    rw [hinv]; rw [smul_mul_smul_comm, mul_one]; norm_num
  have i2 : inv? ((0 : M 1) * ((2 / 3 : ℝ) • (1 : M 1) * 0) - (3 / 2 : ℝ) • 1) = some (-((2 / 3 : ℝ) • 1)) := by
    rw [hinv, zero_mul, zero_sub, neg_mul_neg, smul_mul_smul_comm, mul_one]; norm_num
  have h : thin inv? 1 0 1 ⟨0, (-1 : ℝ) • 1, 1⟩ = calcRT inv? (⟨(1 / 2 : ℝ) • 1, 0, 0, (3 / 2 : ℝ) • 1⟩ : Blocks (M 1)) := by
    unfold thin
    dsimp only
    rw [hN]
  unfold calcRT at h
  dsimp only at h
  rw [i1] at h
  dsimp only at h
  rw [i2] at h
  refine ⟨_, h, ?_, ?_⟩
  · dsimp only
    rw [mul_zero, mul_zero, zero_sub, neg_mul_neg, smul_mul_smul_comm, mul_one]; norm_num
  · dsimp only
    simp

example : ∃ m, layer Adding.idealInv 1 0 1 0 Doubling.off (⟨0, (-1 : ℝ) • 1, 1⟩ : In 1) (fun _ => ⟨0, 0, 0⟩) = .ok m ∧
    m.m Doubling.T = (1 / 3 : ℝ) • 1 := by
  obtain ⟨o, ho, hT, -⟩ := demo_thin Adding.idealInv Adding.idealInv_exact
  refine ⟨mem0 1 0 1 Doubling.off ⟨0, (-1 : ℝ) • 1, 1⟩ (fun _ => ⟨0, 0, 0⟩) o, ?_, hT⟩
  unfold layer
  rw [if_neg (by decide), if_neg (by decide), ho]
  rfl

/-! ## Derivatives -/

/-- For given `s` and `r` what is returned as derivatives are the derivatives of what is returned without. -/
theorem C59_deriv {inv? : M n → Option (M n)} (hinv : Mat.Exact inv?) {ns s r nd i : Nat} (hns : 0 < ns) {fl : Doubling.Flags}
    {z : ℝ → In n} {dz : Nat → In n} {x0 : ℝ} (hi : i < nd) (hf : fl.lay i = true) (h : InDeriv z (dz i) x0) {m : Mat.Mem n ℝ}
    (hm : layer inv? ns s r nd fl (z x0) dz = .ok m) :
    ∃ out : ℝ → Mat.Mem n ℝ, (∀ᶠ y in 𝓝 x0, layer inv? ns s r 0 Doubling.off (z y) (fun _ => ⟨0, 0, 0⟩) = .ok (out y)) ∧
      sides ns m = sides ns (out x0) ∧
      MDeriv (fun y => (sides ns (out y)).1) (sidesL ns i m).1 x0 ∧
      MDeriv (fun y => (sides ns (out y)).2.1) (sidesL ns i m).2.1 x0 ∧
      MDeriv (fun y => (sides ns (out y)).2.2.1) (sidesL ns i m).2.2.1 x0 ∧
      MDeriv (fun y => (sides ns (out y)).2.2.2) (sidesL ns i m).2.2.2 x0 := by
  obtain ⟨out, h1, h2, h3, h4, h5⟩ := layer_deriv hinv hns hi hf h hm
  refine ⟨out, h1, ?_, turnM_deriv h4, h5, otherSide_deriv (turnM_deriv h4), otherSide_deriv h5⟩
  unfold sides
  rw [h2, h3]

example : ∃ (z : ℝ → In 1) (z' : In 1) (fl : Doubling.Flags) (m : Mat.Mem 1 ℝ), InDeriv z z' 1 ∧ z'.ltau ≠ 0 ∧ fl.lay 0 = true ∧
    layer Adding.idealInv 1 0 1 1 fl (z 1) (fun _ => z') = .ok m := by
  obtain ⟨o, ho, -, -⟩ := demo_thin Adding.idealInv Adding.idealInv_exact
  refine ⟨fun y => ⟨0, (-1 : ℝ) • 1, y⟩, ⟨0, 0, 1⟩, ⟨fun _ => true, fun _ => false, fun _ => false⟩,
    mem0 1 0 1 ⟨fun _ => true, fun _ => false, fun _ => false⟩ ⟨0, (-1 : ℝ) • 1, 1⟩ (fun _ => ⟨0, 0, 1⟩) o,
    ⟨MDeriv.const _, MDeriv.const _, hasDerivAt_id _⟩, one_ne_zero, rfl, ?_⟩
  unfold layer
  rw [if_neg (by decide), if_neg (by decide), ho]
  rfl

/-! ## The choice of the parameters -/

/-- When the parameters are looked up: what is found is safe to use; there is a range of thicknesses for which a place
beyond the table is read, and above it the process ends. -/
theorem C59_lookup (derivs : Bool) (a : ℝ) (ha : 0 < a) :
    (a ≤ Real.exp 5.76 → ∃ s r, lookup derivs a = .use s r ∧ s < 31 ∧ 1 ≤ r ∧ r < maxR) ∧
      (Real.exp 5.76 < a → a ≤ Real.exp 6 → lookup derivs a = .outside) ∧
      (Real.exp 6 < a → lookup derivs a = .exits) := by
  have tab : ∀ d : Bool, ∀ i : Nat, i < 50 → ∃ s r, (if d then tableL else table)[i]? = some (s, r) ∧ s < 31 ∧ 1 ≤ r ∧ r < maxR := by
    intro d i hi
    have len : (if d then tableL else table).length = 50 := by cases d <;> rfl
    have ok : ∀ p ∈ (if d then tableL else table), p.1 < 31 ∧ 1 ≤ p.2 ∧ p.2 < maxR := by cases d <;> decide
    have hi' : i < (if d then tableL else table).length := by omega
    refine ⟨((if d then tableL else table)[i]'hi').1, ((if d then tableL else table)[i]'hi').2, ?_, ok _ (List.getElem_mem hi')⟩
    rw [List.getElem?_eq_getElem hi']
  refine ⟨fun h => ?_, fun h1 h2 => ?_, fun h => ?_⟩
  · have hl : Real.log a ≤ 5.76 := by
      rw [← Real.log_exp 5.76]; exact Real.log_le_log ha h
    have hc : ⌈Real.log a / 0.24⌉ ≤ 24 := by
      rw [Int.ceil_le]
      push_cast
      rw [div_le_iff₀ (by norm_num)]
      norm_num at hl ⊢
      linarith
    unfold lookup
    dsimp only
    by_cases g1 : 25 + ⌈Real.log a / 0.24⌉ < 0
    · rw [if_pos g1]
      obtain ⟨s, r, e1, e2⟩ := tab derivs 0 (by norm_num)
      rw [e1]; exact ⟨s, r, rfl, e2⟩
    · rw [if_neg g1, if_neg (by omega)]
      obtain ⟨s, r, e1, e2⟩ := tab derivs (25 + ⌈Real.log a / 0.24⌉).toNat (by omega)
      rw [e1]; exact ⟨s, r, rfl, e2⟩
  · have hl : 5.76 < Real.log a := by
      rw [← Real.log_exp 5.76]; exact Real.log_lt_log (Real.exp_pos _) h1
    have hl2 : Real.log a ≤ 6 := by
      rw [← Real.log_exp 6]; exact Real.log_le_log ha h2
    have hc : ⌈Real.log a / 0.24⌉ = 25 := by
      rw [Int.ceil_eq_iff]
      push_cast
      rw [div_le_iff₀ (by norm_num), lt_div_iff₀ (by norm_num)]
      norm_num at hl hl2 ⊢
      constructor <;> linarith
    unfold lookup
    dsimp only
    rw [hc, if_neg (by norm_num), if_neg (by norm_num)]
    cases derivs <;> rfl
  · have hl : 6 < Real.log a := by
      rw [← Real.log_exp 6]; exact Real.log_lt_log (Real.exp_pos _) h
    have hc : 25 < ⌈Real.log a / 0.24⌉ := by
      rw [Int.lt_ceil]
      push_cast
      rw [lt_div_iff₀ (by norm_num)]
      norm_num at hl ⊢
      linarith
    unfold lookup
    dsimp only
    rw [if_neg (by omega), if_pos (by omega)]

example : ∃ a : ℝ, 0 < a ∧ Real.exp 5.76 < a ∧ a ≤ Real.exp 6 :=
  ⟨Real.exp 6, Real.exp_pos _, Real.exp_lt_exp.2 (by norm_num), le_rfl⟩

/-- Whatever a medium does to light, there is a thickness for which the solver reads beyond its table, and for all
thicknesses above it ends the process. -/
theorem C59_violated_table (inv? : M n → Option (M n)) (ns nd : Nat) (fl : Doubling.Flags) (r t : M n) (dz : Nat → In n)
    (h : 0 < oneNorm r t) :
    ∃ T : ℝ, 0 < T ∧ pade inv? ns (-1) (-1) nd fl ⟨r, t, T⟩ dz = .outside ∧
      ∀ T', T < T' → pade inv? ns (-1) (-1) nd fl ⟨r, t, T'⟩ dz = .exits := by
  have hc : ∀ T : ℝ, choose (-1) (-1) ((List.range nd).any fl.lay) (thickness r t T) =
      lookup ((List.range nd).any fl.lay) (thickness r t T) := fun T => by
    unfold choose; rw [if_pos (Or.inl (by norm_num))]
  have hd : 0 < oneNorm r t / 189.8268 := by positivity
  refine ⟨Real.exp 6 / (oneNorm r t / 189.8268), by positivity, ?_, fun T' hT' => ?_⟩
  · unfold pade
    have e : thickness r t (Real.exp 6 / (oneNorm r t / 189.8268)) = Real.exp 6 := by
      unfold thickness; exact mul_div_cancel₀ _ hd.ne'
    dsimp only
    rw [hc, e, (C59_lookup _ _ (Real.exp_pos 6)).2.1 (Real.exp_lt_exp.2 (by norm_num)) le_rfl]
  · have e : Real.exp 6 < thickness r t T' := by
      unfold thickness
      rwa [div_lt_iff₀ hd, mul_comm] at hT'
    unfold pade
    dsimp only
    rw [hc, (C59_lookup _ _ ((Real.exp_pos 6).trans e)).2.2 e]

theorem demo_norm : 0 < oneNorm (0 : M 1) 1 := by
  norm_num [oneNorm, List.finRange_succ]

example : ∃ T : ℝ, 0 < T ∧ pade Adding.idealInv 1 (-1) (-1) 0 Doubling.off (⟨0, 1, T⟩ : In 1) (fun _ => ⟨0, 0, 0⟩) = .outside := by
  obtain ⟨T, h1, h2, -⟩ := C59_violated_table Adding.idealInv 1 0 Doubling.off (0 : M 1) 1 (fun _ => ⟨0, 0, 0⟩) demo_norm
  exact ⟨T, h1, h2⟩

/-- Orders from 32 are taken from the user and the coefficients are written beyond their array; from 31 doublings the
shift that counts the thin layers has no value. -/
theorem C59_violated_params (inv? : M n → Option (M n)) (ns nd : Nat) (ps pr : ℤ) (fl : Doubling.Flags) (z : In n) (dz : Nat → In n) :
    (0 ≤ ps → 32 ≤ pr → pade inv? ns ps pr nd fl z dz = .overrun) ∧
      (31 ≤ ps → 0 < pr → pr < 32 → pade inv? ns ps pr nd fl z dz = .shift) := by
  constructor
  · intro h1 h2
    unfold pade choose
    rw [if_neg (by omega)]
    dsimp only
    unfold layer
    rw [if_pos]
    rw [List.any_eq_true]
    refine ⟨pr.toNat, ?_, ?_⟩
    rotate_left
    · have : maxR = 32 := rfl
      have : maxR ≤ pr.toNat := by omega
      simpa using this
    obtain ⟨k, hk⟩ : ∃ k, pr.toNat = k + 1 := ⟨pr.toNat - 1, by omega⟩
    rw [hk]
    simp [written]
  · intro h1 h2 h3
    unfold pade choose
    rw [if_neg (by omega)]
    dsimp only
    unfold layer
    rw [if_neg, if_pos (by omega)]
    rw [List.any_eq_true]
    rintro ⟨k, hk, h4⟩
    have h5 : maxR = 32 := rfl
    have h6 : maxR ≤ k := by simpa using h4
    simp only [written, List.mem_cons, List.mem_map, List.mem_range] at hk
    rcases hk with rfl | ⟨a, ha, rfl⟩
    · omega
    · omega

example : pade Adding.idealInv 1 0 40 0 Doubling.off (⟨0, 1, 1⟩ : In 1) (fun _ => ⟨0, 0, 0⟩) = .overrun :=
  (C59_violated_params _ _ _ _ _ _ _ _).1 (by norm_num) (by norm_num)

end Xrtm.Pade
