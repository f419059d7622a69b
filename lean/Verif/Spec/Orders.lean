import Verif.Spec.Stack

/-!
# Light by the number of times it has been scattered

Slabs over a ground.  In each slab the light that is scattered is taken to be even over the slab, the mean of what it is
at the two faces.  Nothing here refers to the routines.
-/

namespace Xrtm.Transfer

variable {n : Nat}

/-- The slabs: media, thickness, and the light that the beam puts into each; the light from the sky, the light the
ground gives off, and what it reflects. -/
structure Slabs (n : Nat) where
  N : Nat
  med : Nat → Medium n
  T : Nat → ℝ
  qp : Nat → Fin n → ℝ
  qm : Nat → Fin n → ℝ
  top : Fin n → ℝ
  bot : Fin n → ℝ
  Rs : Matrix (Fin n) (Fin n) ℝ

/-- The medium, only dimming light. -/
def Medium.clear (m : Medium n) : Medium n := { m with k := 0 }

/-- The slabs with given even sources, and nothing scattered further. -/
def Slabs.lamp (s : Slabs n) (qp qm : Nat → Fin n → ℝ) (top bot : Fin n → ℝ) : Stack n :=
  ⟨s.N, fun i => (s.med i).clear, s.T, fun i _ => qp i, fun i _ => qm i, top, bot, 0⟩

/-- The mean over the two faces of slab `i` of what is scattered upwards. -/
noncomputable def Slabs.evenUp (s : Slabs n) (up dn : Nat → ℝ → Fin n → ℝ) (i : Nat) (k : Fin n) : ℝ :=
  ((s.med i).intoUp (up i 0) (dn i 0) k + (s.med i).intoUp (up i (s.T i)) (dn i (s.T i)) k) / 2

/-- ... downwards. -/
noncomputable def Slabs.evenDn (s : Slabs n) (up dn : Nat → ℝ → Fin n → ℝ) (i : Nat) (k : Fin n) : ℝ :=
  ((s.med i).intoDn (up i 0) (dn i 0) k + (s.med i).intoDn (up i (s.T i)) (dn i (s.T i)) k) / 2

/-- What the ground reflects. -/
def Slabs.back (s : Slabs n) (dn : Nat → ℝ → Fin n → ℝ) : Fin n → ℝ := s.Rs.mulVec (dn (s.N - 1) (s.T (s.N - 1)))

/-- `up p`, `dn p` is the light that has been scattered, or reflected, `p` times since the beam, the sky or the ground
sent it out. -/
structure Slabs.Orders (s : Slabs n) (up dn : Nat → Nat → ℝ → Fin n → ℝ) : Prop where
  first : (s.lamp s.qp s.qm s.top s.bot).Lit (up 0) (dn 0)
  next : ∀ p, (s.lamp (s.evenUp (up p) (dn p)) (s.evenDn (up p) (dn p)) 0 (s.back (dn p))).Lit (up (p + 1)) (dn (p + 1))

/-- All the light, scattered any number of times. -/
def Slabs.All (s : Slabs n) (up dn : Nat → ℝ → Fin n → ℝ) : Prop :=
  (s.lamp (fun i => s.qp i + s.evenUp up dn i) (fun i => s.qm i + s.evenDn up dn i) s.top (s.bot + s.back dn)).Lit up dn

/-- The light at a face: the top of the slab below it, or the bottom of the last. -/
def Slabs.face (s : Slabs n) (f : Nat → ℝ → Fin n → ℝ) (j : Nat) : Fin n → ℝ :=
  if j < s.N then f j 0 else f (s.N - 1) (s.T (s.N - 1))

/-- No slab and no ground sends back more than the share `c` of the light that it meets. -/
structure Slabs.Keeps (s : Slabs n) (c : ℝ) : Prop where
  up : ∀ i, i < s.N → ∀ k, |(s.med i).k| * ∑ j, |(s.med i).w j| * (|(s.med i).Ppp k j| + |(s.med i).Ppm k j|) ≤ c
  dn : ∀ i, i < s.N → ∀ k, |(s.med i).k| * ∑ j, |(s.med i).w j| * (|(s.med i).Pmp k j| + |(s.med i).Pmm k j|) ≤ c
  ground : ∀ k, ∑ j, |s.Rs k j| ≤ c

end Xrtm.Transfer
