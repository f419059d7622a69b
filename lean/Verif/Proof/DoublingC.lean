import Verif.Proof.DoublingB

/-! A whole call of `layer_double_l`. -/

namespace Xrtm.Doubling

open Mat Adding Matrix

variable {K : Type} [CommRing K] {n : Nat} {inv? : M n K → Option (M n K)} {q : M n K} {x : Scal K} {fl : Flags}
  {sol th init : Bool}

theorem gA_zero (R T q : M n K) : gA R T q 0 0 = 0 := by simp [gA]

/-- The thermal part of a turn for a derivative that varies the layer. -/
theorem thermalAllL_post (g gl : K) (i : Nat) (s : Mem n K) :
    Post (run inv? ((if init then initLl i else []) ++ thermalL1 i g gl ++ thermalL2 i) s) fun s' => s'.m = s.m ∧
      s'.v (Slpl i) = s.v (Slpl i) + s.m Al *ᵥ s.v e +
        s.m A *ᵥ (s.m (Rl i) *ᵥ s.v Slm + s.m R *ᵥ s.v (Slml i) + (s.v (Slpl i) + g • Lpl0 init i s + gl • s.v Lp)) ∧
      s'.v (Slml i) = s.v (Slml i) + g • Lml0 init i s + gl • s.v Lm + s.m Al *ᵥ s.v f +
        s.m A *ᵥ (s.m (Rl i) *ᵥ (s.v Slp + g • s.v Lp) + s.m R *ᵥ (s.v (Slpl i) + g • Lpl0 init i s + gl • s.v Lp) +
          s.v (Slml i)) ∧
      s'.v (Lpl i) = Lpl0 init i s + s.m Al *ᵥ s.v c +
        s.m A *ᵥ (s.m (Rl i) *ᵥ s.v Lm + s.m R *ᵥ Lml0 init i s + Lpl0 init i s) ∧
      s'.v (Lml i) = Lml0 init i s + s.m Al *ᵥ s.v d +
        s.m A *ᵥ (s.m (Rl i) *ᵥ s.v Lp + s.m R *ᵥ Lpl0 init i s + Lml0 init i s) ∧
      ∀ x, x ≠ v1 → x ≠ v2 → x ≠ v3 → x ≠ v4 → x ≠ v5 → x ≠ Slml i → x ≠ Slpl i → x ≠ Lml i → x ≠ Lpl i →
        s'.v x = s.v x := by
  rw [List.append_assoc]
  refine Post.bind (Q1 := fun s' => s'.m = s.m ∧ s'.v (Lpl i) = Lpl0 init i s ∧ s'.v (Lml i) = Lml0 init i s ∧
    ∀ x, x ≠ Lpl i → x ≠ Lml i → s'.v x = s.v x) (Post.if ?_ ?_) ?_
  · rintro rfl; exact initLl_post s
  · rintro rfl; exact ⟨rfl, rfl, rfl, fun _ _ _ => rfl⟩
  rintro s1 ⟨h1, h2, h3, h4⟩
  refine Post.bind (thermalL1_post g gl s1) fun s2 ⟨k1, k2, k3, k4⟩ => ?_
  refine (thermalL2_post s2).mono fun s3 ⟨l1, l2, l3, l4⟩ => ?_
  have e4 : ∀ x : VCell, x = e ∨ x = f ∨ x = c ∨ x = d ∨ x = Slm ∨ x = Slp ∨ x = Lm ∨ x = Lp ∨ x = Slml i ∨ x = Slpl i →
      s1.v x = s.v x := by
    rintro x (rfl | rfl | rfl | rfl | rfl | rfl | rfl | rfl | rfl | rfl) <;> apply h4 <;>
      simp [e, f, c, d, Slm, Slp, Lm, Lp, Slml, Slpl, Lml, Lpl] <;> omega
  have f4 : ∀ x : VCell, x = c ∨ x = d ∨ x = Lm ∨ x = Lp ∨ x = Lml i ∨ x = Lpl i → s2.v x = s1.v x := by
    rintro x (rfl | rfl | rfl | rfl | rfl | rfl) <;> apply k4 <;>
      simp [c, d, Lm, Lp, Slml, Slpl, Lml, Lpl, v1, v2, v3, v4, v5] <;> omega
  have g4 : ∀ x : VCell, x = Slml i ∨ x = Slpl i → s3.v x = s2.v x := by
    rintro x (rfl | rfl) <;> apply l4 <;> simp [Slml, Slpl, Lml, Lpl, v1, v2, v3, v4] <;> omega
  refine ⟨by rw [l1, k1, h1], ?_, ?_, ?_, ?_, fun x a1 a2 a3 a4 a5 a6 a7 a8 a9 => by
    rw [l4 x a1 a2 a3 a4 a8 a9, k4 x a1 a2 a3 a4 a5 a6 a7, h4 x a9 a8]⟩
  · rw [g4 _ (by simp), k2, h1, h2]
    simp only [e4 e (by simp), e4 Slm (by simp), e4 Lp (by simp), e4 (Slml i) (by simp), e4 (Slpl i) (by simp)]
  · rw [g4 _ (by simp), k3, h1, h2, h3]
    simp only [e4 f (by simp), e4 Slp (by simp), e4 Lp (by simp), e4 Lm (by simp), e4 (Slml i) (by simp), e4 (Slpl i) (by simp)]
  · rw [l2, k1, h1, f4 (Lpl i) (by simp), f4 (Lml i) (by simp), f4 c (by simp), f4 Lm (by simp), h2, h3, e4 c (by simp),
      e4 Lm (by simp)]
  · rw [l3, k1, h1, f4 (Lpl i) (by simp), f4 (Lml i) (by simp), f4 d (by simp), f4 Lp (by simp), h2, h3, e4 d (by simp),
      e4 Lp (by simp)]

/-- The same where the layer does not vary. -/
theorem thermalAllS_post (g gl : K) (i : Nat) (s : Mem n K) :
    Post (run inv? ((if init then initLl i else []) ++ thermalS1 i g gl ++ thermalS2 i) s) fun s' => s'.m = s.m ∧
      s'.v (Slpl i) = s.v (Slpl i) +
        s.m A *ᵥ (s.m R *ᵥ s.v (Slml i) + (s.v (Slpl i) + g • Lpl0 init i s + gl • s.v Lp)) ∧
      s'.v (Slml i) = s.v (Slml i) + g • Lml0 init i s + gl • s.v Lm +
        s.m A *ᵥ (s.m R *ᵥ (s.v (Slpl i) + g • Lpl0 init i s + gl • s.v Lp) + s.v (Slml i)) ∧
      s'.v (Lpl i) = Lpl0 init i s + s.m A *ᵥ (s.m R *ᵥ Lml0 init i s + Lpl0 init i s) ∧
      s'.v (Lml i) = Lml0 init i s + s.m A *ᵥ (s.m R *ᵥ Lpl0 init i s + Lml0 init i s) ∧
      ∀ x, x ≠ v1 → x ≠ v2 → x ≠ v3 → x ≠ v4 → x ≠ v5 → x ≠ Slml i → x ≠ Slpl i → x ≠ Lml i → x ≠ Lpl i →
        s'.v x = s.v x := by
  rw [List.append_assoc]
  refine Post.bind (Q1 := fun s' => s'.m = s.m ∧ s'.v (Lpl i) = Lpl0 init i s ∧ s'.v (Lml i) = Lml0 init i s ∧
    ∀ x, x ≠ Lpl i → x ≠ Lml i → s'.v x = s.v x) (Post.if ?_ ?_) ?_
  · rintro rfl; exact initLl_post s
  · rintro rfl; exact ⟨rfl, rfl, rfl, fun _ _ _ => rfl⟩
  rintro s1 ⟨h1, h2, h3, h4⟩
  refine Post.bind (thermalS1_post g gl s1) fun s2 ⟨k1, k2, k3, k4⟩ => ?_
  refine (thermalS2_post s2).mono fun s3 ⟨l1, l2, l3, l4⟩ => ?_
  have e4 : ∀ x : VCell, x = Lm ∨ x = Lp ∨ x = Slml i ∨ x = Slpl i → s1.v x = s.v x := by
    rintro x (rfl | rfl | rfl | rfl) <;> apply h4 <;> simp [Lm, Lp, Slml, Slpl, Lml, Lpl] <;> omega
  have f4 : ∀ x : VCell, x = Lml i ∨ x = Lpl i → s2.v x = s1.v x := by
    rintro x (rfl | rfl) <;> apply k4 <;> simp [Slml, Slpl, Lml, Lpl, v1, v2, v3, v4, v5] <;> omega
  have g4 : ∀ x : VCell, x = Slml i ∨ x = Slpl i → s3.v x = s2.v x := by
    rintro x (rfl | rfl) <;> apply l4 <;> simp [Slml, Slpl, Lml, Lpl, v1, v2, v3, v4] <;> omega
  refine ⟨by rw [l1, k1, h1], ?_, ?_, ?_, ?_, fun x a1 a2 a3 a4 a5 a6 a7 a8 a9 => by
    rw [l4 x a1 a2 a3 a4 a8 a9, k4 x a1 a2 a3 a4 a5 a6 a7, h4 x a9 a8]⟩
  · rw [g4 _ (by simp), k2, h1, h2]
    simp only [e4 Lp (by simp), e4 (Slml i) (by simp), e4 (Slpl i) (by simp)]
  · rw [g4 _ (by simp), k3, h1, h2, h3]
    simp only [e4 Lp (by simp), e4 Lm (by simp), e4 (Slml i) (by simp), e4 (Slpl i) (by simp)]
  · rw [l2, k1, h1, f4 (Lpl i) (by simp), f4 (Lml i) (by simp), h2, h3]
  · rw [l3, k1, h1, f4 (Lpl i) (by simp), f4 (Lml i) (by simp), h2, h3]

/-- A turn of the loop over the derivatives. -/
theorem deriv_post {s0 s : Mem n K} (i : Nat) (h : Env inv? q x.t x.g sol th init s0 s) :
    Post (run inv? (deriv x fl sol th init i) s) fun s' => Only i s s' ∧ Out q x fl sol th init i s0 s s' := by
  unfold deriv
  cases hl : fl.lay i with
  | true =>
    have hR : R' fl i s = s.m (Rl i) := by simp [R', hl]
    have hT : T' fl i s = s.m (Tl i) := by simp [T', hl]
    rw [if_pos rfl, List.append_assoc, List.append_assoc]
    refine Post.bind (derivA_post h.hp) fun s1 ⟨a1, a2, a3⟩ => ?_
    have hG : s1.m Al = gA (s0.m R) (s0.m T) q (s.m (Rl i)) (s.m (Tl i)) := by rw [a2, h.ha, h.hr, gA]
    have hm : ∀ y, y = R ∨ y = T ∨ y = A ∨ y = B ∨ y = Rl i ∨ y = Tl i → s1.m y = s.m y := by
      rintro y (rfl | rfl | rfl | rfl | rfl | rfl) <;> apply a3 <;> simp [R, T, A, B, w1, w2, Al, Rl, Tl]
    have hmR : s1.m R = s0.m R := by rw [hm _ (by simp), h.hr]
    have hmT : s1.m T = s0.m T := by rw [hm _ (by simp), h.ht]
    have hmA : s1.m A = s0.m T * q := by rw [hm _ (by simp), h.ha]
    have hmB : s1.m B = s0.m R * s0.m T := by rw [hm _ (by simp), h.hb]
    have hmr : s1.m (Rl i) = s.m (Rl i) := hm _ (by simp)
    have hmt : s1.m (Tl i) = s.m (Tl i) := hm _ (by simp)
    refine Post.bind (Q1 := fun s' => s'.m = s1.m ∧
      (sol = true → fl.beam i = true → s'.v (Sepl i) = gP (s0.m R) (s0.m T) q (s.m (Rl i)) (s.m (Tl i)) (s0.v Sem)
        (x.t • s0.v Sep) (s.v (Sepl i)) (s.v (Seml i)) (x.t • s.v (Sepl i) + x.tl i • s0.v Sep) ∧
      s'.v (Seml i) = gM (s0.m R) (s0.m T) q (s.m (Rl i)) (s.m (Tl i)) (s0.v Sem) (x.t • s0.v Sep) (s.v (Seml i))
        (x.t • s.v (Sepl i) + x.tl i • s0.v Sep) (x.t • s.v (Seml i) + x.tl i • s0.v Sem)) ∧
      ∀ y, y ≠ v1 → y ≠ v2 → y ≠ v3 → y ≠ v4 → y ≠ Seml i → y ≠ Sepl i → s'.v y = s.v y) (Post.if (fun w => ?_) fun w => ?_) ?_
    · rw [Bool.and_eq_true] at w
      refine (solarL_post _ _ s1).mono fun s' hs => ?_
      rw [a1, hG, hmR, hmA, hmr, h.va w.1, h.vb w.1, h.sem, h.sep] at hs
      exact ⟨hs.1, fun _ _ => ⟨hs.2.1, hs.2.2.1⟩, hs.2.2.2⟩
    · exact ⟨rfl, fun w1 w2 => by simp [w1, w2] at w, fun _ _ _ _ _ _ _ => by rw [a1]⟩
    rintro s2 ⟨b1, b2, b3⟩
    have bv : ∀ y, y = e ∨ y = f ∨ y = c ∨ y = d ∨ y = Slm ∨ y = Slp ∨ y = Lm ∨ y = Lp ∨ y = Slml i ∨ y = Slpl i ∨
        y = Lml i ∨ y = Lpl i → s2.v y = s.v y := by
      rintro y (rfl | rfl | rfl | rfl | rfl | rfl | rfl | rfl | rfl | rfl | rfl | rfl) <;> apply b3 <;>
        simp [e, f, c, d, Slm, Slp, Lm, Lp, Slml, Slpl, Lml, Lpl, Seml, Sepl, v1, v2, v3, v4] <;> omega
    have lp : Lpl0 init i s2 = Lpl0 init i s := by simp only [Lpl0, bv (Slpl i) (by simp), bv (Lpl i) (by simp)]
    have lm : Lml0 init i s2 = Lml0 init i s := by simp only [Lml0, bv (Slml i) (by simp), bv (Lml i) (by simp)]
    refine Post.bind (Q1 := fun s' => s'.m = s1.m ∧
      (th = true → fl.therm i = true →
        s'.v (Slpl i) = gP (s0.m R) (s0.m T) q (s.m (Rl i)) (s.m (Tl i)) (s0.v Slm) (s0.v Slp + x.g • Lp0 init s0)
          (s.v (Slpl i)) (s.v (Slml i)) (s.v (Slpl i) + x.g • Lpl0 init i s + x.gl i • Lp0 init s0) ∧
        s'.v (Slml i) = gM (s0.m R) (s0.m T) q (s.m (Rl i)) (s.m (Tl i)) (s0.v Slm) (s0.v Slp + x.g • Lp0 init s0)
          (s.v (Slml i)) (s.v (Slpl i) + x.g • Lpl0 init i s + x.gl i • Lp0 init s0)
          (s.v (Slml i) + x.g • Lml0 init i s + x.gl i • Lm0 init s0) ∧
        s'.v (Lpl i) = gP (s0.m R) (s0.m T) q (s.m (Rl i)) (s.m (Tl i)) (Lm0 init s0) (Lp0 init s0) (Lpl0 init i s)
          (Lml0 init i s) (Lpl0 init i s) ∧
        s'.v (Lml i) = gM (s0.m R) (s0.m T) q (s.m (Rl i)) (s.m (Tl i)) (Lm0 init s0) (Lp0 init s0) (Lml0 init i s)
          (Lpl0 init i s) (Lml0 init i s)) ∧
      ∀ y, y ≠ v1 → y ≠ v2 → y ≠ v3 → y ≠ v4 → y ≠ v5 → y ≠ Slml i → y ≠ Slpl i → y ≠ Lml i → y ≠ Lpl i →
        s'.v y = s2.v y) (Post.if (fun w => ?_) fun w => ?_) ?_
    · rw [Bool.and_eq_true] at w
      refine (thermalAllL_post _ _ i s2).mono fun s' hs => ?_
      rw [b1, hG, hmR, hmA, hmr, lp, lm] at hs
      simp only [bv e (by simp), bv f (by simp), bv c (by simp), bv d (by simp), bv Slm (by simp), bv Slp (by simp),
        bv Lm (by simp), bv Lp (by simp), bv (Slml i) (by simp), bv (Slpl i) (by simp), h.ve w.1, h.vf w.1, h.vc w.1,
        h.vd w.1, h.slm, h.slp, h.lm w.1, h.lp w.1] at hs
      exact ⟨hs.1, fun _ _ => ⟨hs.2.1, hs.2.2.1, hs.2.2.2.1, hs.2.2.2.2.1⟩, hs.2.2.2.2.2⟩
    · exact ⟨b1, fun w1 w2 => by simp [w1, w2] at w, fun _ _ _ _ _ _ _ _ _ _ => rfl⟩
    rintro s3 ⟨c1, c2, c3⟩
    refine (derivRT_post s3).mono fun s4 ⟨d1, d2, d3, d4⟩ => ?_
    have cv : ∀ y, y = Seml i ∨ y = Sepl i → s3.v y = s2.v y := by
      rintro y (rfl | rfl) <;> apply c3 <;> simp [Slml, Slpl, Lml, Lpl, Seml, Sepl, v1, v2, v3, v4, v5] <;> omega
    refine ⟨⟨fun y k1 k2 k3 k4 k5 => ?_, fun y k1 k2 k3 k4 k5 k6 k7 k8 k9 k10 k11 => ?_⟩, ⟨fun _ => ?_, fun w1 w2 => ?_,
      fun w1 w2 => ?_⟩⟩
    · rw [d4 y k1 k2 k4 k5, c1, a3 y k1 k2 k3]
    · rw [d1, c3 y k1 k2 k3 k4 k5 k8 k9 k10 k11, b3 y k1 k2 k3 k4 k6 k7]
    · rw [d2, d3, c1, hR, hT, hG, hmR, hmT, hmA, hmB, hmr, hmt]
      exact ⟨rfl, rfl⟩
    · rw [d1, cv _ (by simp), cv _ (by simp), hR, hT]
      exact b2 w1 w2
    · rw [d1, hR, hT]
      exact c2 w1 w2
  | false =>
    have hR : R' fl i s = 0 := by simp [R', hl]
    have hT : T' fl i s = 0 := by simp [T', hl]
    rw [if_neg (by simp)]
    refine Post.bind (Q1 := fun s' => s'.m = s.m ∧
      (sol = true → fl.beam i = true → s'.v (Sepl i) = gP (s0.m R) (s0.m T) q 0 0 (s0.v Sem)
        (x.t • s0.v Sep) (s.v (Sepl i)) (s.v (Seml i)) (x.t • s.v (Sepl i) + x.tl i • s0.v Sep) ∧
      s'.v (Seml i) = gM (s0.m R) (s0.m T) q 0 0 (s0.v Sem) (x.t • s0.v Sep) (s.v (Seml i))
        (x.t • s.v (Sepl i) + x.tl i • s0.v Sep) (x.t • s.v (Seml i) + x.tl i • s0.v Sem)) ∧
      ∀ y, y ≠ v1 → y ≠ v2 → y ≠ v3 → y ≠ v4 → y ≠ Seml i → y ≠ Sepl i → s'.v y = s.v y) (Post.if (fun w => ?_) fun w => ?_) ?_
    · rw [Bool.and_eq_true] at w
      refine (solarS_post _ _ s).mono fun s' hs => ?_
      rw [h.hr, h.ha, h.sem, h.sep] at hs
      refine ⟨hs.1, fun _ _ => ⟨?_, ?_⟩, hs.2.2.2⟩
      · rw [hs.2.1, gP, gA_zero]; simp
      · rw [hs.2.2.1, gM, gA_zero]; simp
    · exact ⟨rfl, fun w1 w2 => by simp [w1, w2] at w, fun _ _ _ _ _ _ _ => rfl⟩
    rintro s2 ⟨b1, b2, b3⟩
    have bv : ∀ y, y = Slm ∨ y = Slp ∨ y = Lm ∨ y = Lp ∨ y = Slml i ∨ y = Slpl i ∨
        y = Lml i ∨ y = Lpl i → s2.v y = s.v y := by
      rintro y (rfl | rfl | rfl | rfl | rfl | rfl | rfl | rfl) <;> apply b3 <;>
        simp [Slm, Slp, Lm, Lp, Slml, Slpl, Lml, Lpl, Seml, Sepl, v1, v2, v3, v4] <;> omega
    have lp : Lpl0 init i s2 = Lpl0 init i s := by simp only [Lpl0, bv (Slpl i) (by simp), bv (Lpl i) (by simp)]
    have lm : Lml0 init i s2 = Lml0 init i s := by simp only [Lml0, bv (Slml i) (by simp), bv (Lml i) (by simp)]
    have key : Post (run inv? (if (th && fl.therm i) = true then (if init = true then initLl i else []) ++
          thermalS1 i x.g (x.gl i) ++ thermalS2 i else []) s2) fun s' => s'.m = s.m ∧
      (th = true → fl.therm i = true →
        s'.v (Slpl i) = gP (s0.m R) (s0.m T) q 0 0 (s0.v Slm) (s0.v Slp + x.g • Lp0 init s0)
          (s.v (Slpl i)) (s.v (Slml i)) (s.v (Slpl i) + x.g • Lpl0 init i s + x.gl i • Lp0 init s0) ∧
        s'.v (Slml i) = gM (s0.m R) (s0.m T) q 0 0 (s0.v Slm) (s0.v Slp + x.g • Lp0 init s0)
          (s.v (Slml i)) (s.v (Slpl i) + x.g • Lpl0 init i s + x.gl i • Lp0 init s0)
          (s.v (Slml i) + x.g • Lml0 init i s + x.gl i • Lm0 init s0) ∧
        s'.v (Lpl i) = gP (s0.m R) (s0.m T) q 0 0 (Lm0 init s0) (Lp0 init s0) (Lpl0 init i s)
          (Lml0 init i s) (Lpl0 init i s) ∧
        s'.v (Lml i) = gM (s0.m R) (s0.m T) q 0 0 (Lm0 init s0) (Lp0 init s0) (Lml0 init i s)
          (Lpl0 init i s) (Lml0 init i s)) ∧
      ∀ y, y ≠ v1 → y ≠ v2 → y ≠ v3 → y ≠ v4 → y ≠ v5 → y ≠ Slml i → y ≠ Slpl i → y ≠ Lml i → y ≠ Lpl i →
        s'.v y = s2.v y := by
      refine Post.if (fun w => ?_) fun w => ?_
      · rw [Bool.and_eq_true] at w
        refine (thermalAllS_post _ _ i s2).mono fun s' hs => ?_
        rw [b1, h.hr, h.ha, lp, lm] at hs
        simp only [bv Lm (by simp), bv Lp (by simp), bv (Slml i) (by simp), bv (Slpl i) (by simp), h.lm w.1, h.lp w.1] at hs
        refine ⟨hs.1, fun _ _ => ⟨?_, ?_, ?_, ?_⟩, hs.2.2.2.2.2⟩
        · rw [hs.2.1, gP, gA_zero]; simp
        · rw [hs.2.2.1, gM, gA_zero]; simp
        · rw [hs.2.2.2.1, gP, gA_zero]; simp
        · rw [hs.2.2.2.2.1, gM, gA_zero]; simp
      · exact ⟨b1, fun w1 w2 => by simp [w1, w2] at w, fun _ _ _ _ _ _ _ _ _ _ => rfl⟩
    refine key.mono fun s3 ⟨c1, c2, c3⟩ => ?_
    have cv : ∀ y, y = Seml i ∨ y = Sepl i → s3.v y = s2.v y := by
      rintro y (rfl | rfl) <;> apply c3 <;> simp [Slml, Slpl, Lml, Lpl, Seml, Sepl, v1, v2, v3, v4, v5] <;> omega
    refine ⟨⟨fun y _ _ _ _ _ => by rw [c1], fun y k1 k2 k3 k4 k5 k6 k7 k8 k9 k10 k11 => ?_⟩, ⟨fun w => ?_, fun w1 w2 => ?_,
      fun w1 w2 => ?_⟩⟩
    · rw [c3 y k1 k2 k3 k4 k5 k8 k9 k10 k11, b3 y k1 k2 k3 k4 k6 k7]
    · simp [hl] at w
    · rw [cv _ (by simp), cv _ (by simp), hR, hT]
      exact b2 w1 w2
    · rw [hR, hT]
      exact c2 w1 w2

theorem Out.before {i : Nat} {s0 s1 s s' : Mem n K} (h : Out q x fl sol th init i s0 s s') (hs : Same i s1 s) :
    Out q x fl sol th init i s0 s1 s' := by
  have e1 : R' fl i s = R' fl i s1 := by simp only [R', hs.r]
  have e2 : T' fl i s = T' fl i s1 := by simp only [T', hs.t]
  have e3 : Lpl0 init i s = Lpl0 init i s1 := by simp only [Lpl0, hs.slp, hs.lp]
  have e4 : Lml0 init i s = Lml0 init i s1 := by simp only [Lml0, hs.slm, hs.lm]
  obtain ⟨a1, a2, a3⟩ := h
  rw [e1, e2] at a1 a2 a3
  rw [hs.sem, hs.sep] at a2
  rw [e3, e4, hs.slm, hs.slp] at a3
  exact ⟨a1, a2, a3⟩

theorem Out.after {i : Nat} {s0 s s1 s2 : Mem n K} (h : Out q x fl sol th init i s0 s s1) (hs : Same i s1 s2) :
    Out q x fl sol th init i s0 s s2 := by
  obtain ⟨a1, a2, a3⟩ := h
  refine ⟨?_, ?_, ?_⟩
  · rw [hs.r, hs.t]; exact a1
  · rw [hs.sem, hs.sep]; exact a2
  · rw [hs.slm, hs.slp, hs.lm, hs.lp]; exact a3

/-- The loop over the derivatives. -/
theorem derivs_post {s0 s : Mem n K} (h : Env inv? q x.t x.g sol th init s0 s) (k : Nat) :
    Post (run inv? (derivs x fl sol th init k) s) fun s' => Env inv? q x.t x.g sol th init s0 s' ∧
      (∀ i, i < k → Out q x fl sol th init i s0 s s') ∧ ∀ i, k ≤ i → Same i s s' := by
  induction k with
  | zero => exact ⟨h, fun i hi => absurd hi (by omega), fun i _ => Same.refl i s⟩
  | succ k ih =>
    refine Post.bind ih fun s1 ⟨h1, h2, h3⟩ => (deriv_post k h1).mono fun s2 ⟨g1, g2⟩ => ⟨h1.only g1, fun i hi => ?_,
      fun i hi => (h3 i (by omega)).trans (g1.same (by omega))⟩
    by_cases hik : i = k
    · subst hik
      exact g2.before (h3 i (le_refl i))
    · exact (h2 i (by omega)).after (g1.same hik)

theorem pre_post (hinv : Exact inv?) {s : Mem n K} (hq : q * (1 - s.m R * s.m R) = 1) (t g : K) :
    Post (run inv? (headL ++ ((if sol then preSolar t else []) ++ (if th then (if init then initL else []) ++ preThermal g
      else []))) s) fun s' => Env inv? q t g sol th init s s' ∧ ∀ i, Same i s s' := by
  refine Post.bind (headL_post hinv hq) fun s1 ⟨a1, a2, a3, a4, a5⟩ => ?_
  have hr : s1.m R = s.m R := a4 0
  refine Post.bind (Q1 := fun s' => s'.m = s1.m ∧ (sol = true → s'.v a = s.m R *ᵥ s.v Sem + t • s.v Sep ∧
    s'.v b = s.m R *ᵥ (t • s.v Sep) + s.v Sem) ∧ ∀ k, s'.v (.ext k) = s.v (.ext k)) (Post.if (fun _ => ?_) fun w => ?_) ?_
  · refine (preSolar_post t s1).mono fun s' hs => ?_
    rw [hr, a5] at hs
    exact ⟨hs.1, fun _ => ⟨hs.2.1, hs.2.2.1⟩, hs.2.2.2⟩
  · exact ⟨rfl, fun w' => by simp [w] at w', fun k => by rw [a5]⟩
  rintro s2 ⟨b1, b2, b3⟩
  have key : Post (run inv? (if th then (if init then initL else []) ++ preThermal g else []) s2) fun s' => s'.m = s2.m ∧
      s'.v a = s2.v a ∧ s'.v b = s2.v b ∧
      (th = true → s'.v Lm = Lm0 init s ∧ s'.v Lp = Lp0 init s ∧
        s'.v e = s.m R *ᵥ s.v Slm + (s.v Slp + g • Lp0 init s) ∧ s'.v f = s.m R *ᵥ (s.v Slp + g • Lp0 init s) + s.v Slm ∧
        s'.v c = s.m R *ᵥ Lm0 init s + Lp0 init s ∧ s'.v d = s.m R *ᵥ Lp0 init s + Lm0 init s) ∧
      ∀ k, k ≠ 4 → k ≠ 5 → s'.v (.ext k) = s.v (.ext k) := by
    refine Post.if (fun _ => ?_) fun w => ⟨rfl, rfl, rfl, fun w' => by simp [w] at w', fun k _ _ => b3 k⟩
    refine Post.bind (Q1 := fun s' => s'.m = s2.m ∧ s'.v a = s2.v a ∧ s'.v b = s2.v b ∧ s'.v Lp = Lp0 init s ∧
      s'.v Lm = Lm0 init s ∧ ∀ k, k ≠ 4 → k ≠ 5 → s'.v (.ext k) = s.v (.ext k)) (Post.if ?_ ?_) ?_
    · rintro rfl
      refine (initL_post s2).mono fun s' hs => ⟨hs.1, hs.2.2.2 _ (by decide) (by decide), hs.2.2.2 _ (by decide) (by decide),
        ?_, ?_, fun k k1 k2 => ?_⟩
      · rw [hs.2.1, show s2.v Slp = s.v Slp from b3 3]; rfl
      · rw [hs.2.2.1, show s2.v Slm = s.v Slm from b3 2]; rfl
      · rw [hs.2.2.2 _ (by simp [Lp, k2]) (by simp [Lm, k1]), b3]
    · rintro rfl
      exact ⟨rfl, rfl, rfl, b3 5, b3 4, fun k _ _ => b3 k⟩
    rintro s3 ⟨c1, c2, c3, c4, c5, c6⟩
    refine (preThermal_post g s3).mono fun s4 ⟨d1, d2, d3, d4, d5, d6, d7, d8⟩ => ?_
    have hm : s3.m R = s.m R := by rw [c1, b1, hr]
    rw [hm, c4, show s3.v Slm = s.v Slm from c6 2 (by decide) (by decide),
      show s3.v Slp = s.v Slp from c6 3 (by decide) (by decide)] at d2 d3
    rw [hm, c4, c5] at d4 d5
    exact ⟨by rw [d1, c1], by rw [d6, c2], by rw [d7, c3], fun _ => ⟨by rw [← c5]; exact d8 4, by rw [← c4]; exact d8 5,
      d2, d3, d4, d5⟩, fun k k1 k2 => by rw [d8, c6 k k1 k2]⟩
  refine key.mono fun s3 ⟨c1, c2, c3, c4, c5⟩ => ?_
  have hm : s3.m = s1.m := by rw [c1, b1]
  refine ⟨⟨by rw [hm, hr], by rw [hm]; exact a4 1, by rw [hm, a1], by rw [hm, a2], by rw [hm, a3],
    c5 0 (by decide) (by decide), c5 1 (by decide) (by decide), c5 2 (by decide) (by decide), c5 3 (by decide) (by decide),
    fun w => (c4 w).1, fun w => (c4 w).2.1, fun w => by rw [c2, (b2 w).1], fun w => by rw [c3, (b2 w).2],
    fun w => (c4 w).2.2.1, fun w => (c4 w).2.2.2.1, fun w => (c4 w).2.2.2.2.1, fun w => (c4 w).2.2.2.2.2⟩, fun i => ?_⟩
  constructor
  · rw [hm]; exact a4 _
  · rw [hm]; exact a4 _
  all_goals exact c5 _ (by omega) (by omega)

theorem post_post {s0 s : Mem n K} {t g : K} (h : Env inv? q t g sol th init s0 s) :
    Post (run inv? ((if sol then postSolar t else []) ++ ((if th then postThermal g else []) ++ tailL)) s) fun s' =>
      Val q t g sol th init s0 s' ∧ ∀ i, Same i s s' := by
  refine Post.bind (Q1 := fun s' => s'.m = s.m ∧
      (sol = true → s'.v Sep = oP (s0.m R) (s0.m T) q (s0.v Sep) (s0.v Sem) (t • s0.v Sep) ∧
        s'.v Sem = oM (s0.m R) (s0.m T) q (s0.v Sem) (t • s0.v Sep) (t • s0.v Sem)) ∧
      ∀ x, x ≠ v1 → x ≠ Sem → x ≠ Sep → s'.v x = s.v x) (Post.if (fun w => ?_) fun w => ?_) ?_
  · refine (postSolar_post t s).mono fun s' hs => ?_
    rw [h.ha, h.va w, h.vb w, h.sem, h.sep] at hs
    exact ⟨hs.1, fun _ => ⟨hs.2.1, hs.2.2.1⟩, hs.2.2.2⟩
  · exact ⟨rfl, fun w' => by simp [w] at w', fun _ _ _ _ => rfl⟩
  rintro s1 ⟨a1, a2, a3⟩
  refine Post.bind (Q1 := fun s' => s'.m = s.m ∧
      (th = true → s'.v Slp = oP (s0.m R) (s0.m T) q (s0.v Slp) (s0.v Slm) (s0.v Slp + g • Lp0 init s0) ∧
        s'.v Slm = oM (s0.m R) (s0.m T) q (s0.v Slm) (s0.v Slp + g • Lp0 init s0) (s0.v Slm + g • Lm0 init s0) ∧
        s'.v Lp = oP (s0.m R) (s0.m T) q (Lp0 init s0) (Lm0 init s0) (Lp0 init s0) ∧
        s'.v Lm = oM (s0.m R) (s0.m T) q (Lm0 init s0) (Lp0 init s0) (Lm0 init s0)) ∧
      ∀ x, x ≠ v1 → x ≠ Slm → x ≠ Slp → x ≠ Lm → x ≠ Lp → s'.v x = s1.v x) (Post.if (fun w => ?_) fun w => ?_) ?_
  · refine (postThermal_post g s1).mono fun s' hs => ?_
    have e : ∀ x : VCell, x = e ∨ x = f ∨ x = c ∨ x = d ∨ x = Slm ∨ x = Slp ∨ x = Lm ∨ x = Lp → s1.v x = s.v x := by
      rintro x (rfl | rfl | rfl | rfl | rfl | rfl | rfl | rfl) <;> apply a3 <;> simp [Doubling.e, f, c, d, Slm, Slp, Lm, Lp, v1, Sem, Sep]
    rw [a1, h.ha, e _ (by simp), e _ (by simp), e _ (by simp), e _ (by simp), e _ (by simp), e _ (by simp), e _ (by simp),
      e _ (by simp), h.ve w, h.vf w, h.vc w, h.vd w, h.slm, h.slp, h.lm w, h.lp w] at hs
    exact ⟨hs.1, fun _ => ⟨hs.2.1, hs.2.2.1, hs.2.2.2.1, hs.2.2.2.2.1⟩, hs.2.2.2.2.2⟩
  · exact ⟨a1, fun w' => by simp [w] at w', fun _ _ _ _ _ _ => rfl⟩
  rintro s2 ⟨b1, b2, b3⟩
  refine (tailL_post s2).mono fun s3 ⟨c1, c2, c3, c4⟩ => ?_
  rw [b1, h.hr, h.ha, h.hb] at c2
  rw [b1, h.ht, h.ha] at c3
  refine ⟨⟨c2, c3, fun w => ?_, fun w => ?_⟩, fun i => ?_⟩
  · rw [c1, b3 Sep (by decide) (by decide) (by decide) (by decide) (by decide),
      b3 Sem (by decide) (by decide) (by decide) (by decide) (by decide)]
    exact a2 w
  · rw [c1]; exact b2 w
  · have hv : ∀ k, s3.v (.ext (k + 6)) = s.v (.ext (k + 6)) := fun k => by
      rw [c1, b3, a3] <;> simp [v1, Sem, Sep, Slm, Slp, Lm, Lp]
    have hm : ∀ k, s3.m (.ext (k + 2)) = s.m (.ext (k + 2)) := fun k => by rw [c4 _ (by omega) (by omega), b1]
    exact ⟨hm _, hm (2 * i + 1), hv _, hv (6 * i + 1), hv (6 * i + 2), hv (6 * i + 3), hv (6 * i + 4), hv (6 * i + 5)⟩

theorem layerDoubleL_post (hinv : Exact inv?) {s : Mem n K} (hq : q * (1 - s.m R * s.m R) = 1) (nd : Nat) (x : Scal K)
    (fl : Flags) (sol th init : Bool) :
    Post (run inv? (layerDoubleL nd x fl sol th init) s) fun s' => Val q x.t x.g sol th init s s' ∧
      (∀ i, i < nd → Out q x fl sol th init i s s s') ∧ ∀ i, nd ≤ i → Same i s s' := by
  have e : layerDoubleL nd x fl sol th init = (headL ++ ((if sol then preSolar x.t else []) ++
      (if th then (if init then initL else []) ++ preThermal x.g else []))) ++ (derivs x fl sol th init nd ++
      ((if sol then postSolar x.t else []) ++ ((if th then postThermal x.g else []) ++ tailL))) := by
    simp only [layerDoubleL, List.append_assoc]
  rw [e]
  refine Post.bind (pre_post hinv hq x.t x.g) fun s1 ⟨a1, a2⟩ => ?_
  refine Post.bind (derivs_post a1 nd) fun s2 ⟨b1, b2, b3⟩ => ?_
  refine (post_post b1).mono fun s3 ⟨c1, c2⟩ => ⟨c1, fun i hi => ((b2 i hi).before (a2 i)).after (c2 i),
    fun i hi => ((a2 i).trans (b3 i hi)).trans (c2 i)⟩

end Xrtm.Doubling
