import Verif.Spec.Stack

/-!
# Media that give no more light than they get

Nothing here refers to the routines.
-/

namespace Xrtm.Transfer

variable {n : Nat}

/-- What is scattered is, on the whole, no more than what came. -/
def Medium.Passive (m : Medium n) : Prop :=
  ∀ u d : Fin n → ℝ, 0 ≤ ∑ j, m.w j * (u j * (u j - m.intoUp u d j) + d j * (d j - m.intoDn u d j))

/-- No layer and no ground makes light; the directions are the same everywhere. -/
structure Stack.Passive (S : Stack n) (mu w : Fin n → ℝ) : Prop where
  cos : ∀ j, 0 < mu j
  weight : ∀ j, 0 < w j
  thick : ∀ i, i < S.L → 0 ≤ S.T i
  dirs : ∀ i, i < S.L → (S.med i).mu = mu ∧ (S.med i).w = w
  layer : ∀ i, i < S.L → (S.med i).Passive
  ground : ∀ d : Fin n → ℝ, ∑ j, w j * mu j * (S.Rs.mulVec d j) ^ 2 ≤ ∑ j, w j * mu j * d j ^ 2

/-- The phase matrices are those of a phase function: not below zero, the same for the
way back, and together no more than one. -/
structure Medium.Normal (m : Medium n) : Prop where
  k : 0 ≤ m.k
  w : ∀ j, 0 ≤ m.w j
  pos : ∀ i j, 0 ≤ m.Ppp i j ∧ 0 ≤ m.Ppm i j ∧ 0 ≤ m.Pmp i j ∧ 0 ≤ m.Pmm i j
  back : ∀ i j, m.Ppp i j = m.Ppp j i ∧ m.Pmm i j = m.Pmm j i ∧ m.Ppm i j = m.Pmp j i
  up : ∀ i, m.k * ∑ j, m.w j * (m.Ppp i j + m.Ppm i j) ≤ 1
  dn : ∀ i, m.k * ∑ j, m.w j * (m.Pmp i j + m.Pmm i j) ≤ 1

end Xrtm.Transfer
