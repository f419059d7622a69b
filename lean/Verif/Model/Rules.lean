import Verif.Model.Gauss

/-!
# Rules of quadrature with equal steps, and rules moved to other intervals

`misc/rtutil_math.c` 40-67 and 329-442, `misc/rtutil_size_dist.c` 128-195.
-/

namespace Xrtm.Gauss
open Loops

/-- `gauss_leg_quad_fit_l`, `misc/rtutil_math.c` 329-387, for one of the
derivatives: the rule `a` moved to the interval from `x1` to `x2`. -/
noncomputable def fit (n : Nat) (x1 x2 x1l x2l : ℝ) (a : Lin) (s : Lin) : Lin :=
  let db := (x1 + x2) / 2
  let dc := (x2 - x1) / 2
  let dbl := (x1l + x2l) / 2
  let dcl := (x2l - x1l) / 2
  forN ((n + 1) / 2) (fun i s =>
    let ii := n - 1 - i
    let dd := dc * a.x ii
    let w := put s.w i (a.w i * dc)
    let ddl := dcl * a.x ii + dc * a.xl ii
    let wl := put s.wl i (a.wl i * dc + a.w i * dcl)
    ⟨put (put s.x i (db - dd)) ii (db + dd), put w ii (w i),
     put (put s.xl i (dbl - ddl)) ii (dbl + ddl), put wl ii (wl i)⟩) s

/-- The arrays from element `k` on, `qx + k` in C. -/
def Lin.shift (s : Lin) (k : Nat) : Lin :=
  ⟨fun j => s.x (k + j), fun j => s.w (k + j), fun j => s.xl (k + j), fun j => s.wl (k + j)⟩

/-- The arrays after a call that was given `qx + k`. -/
def Lin.paste (s : Lin) (k : Nat) (t : Lin) : Lin :=
  ⟨fun j => if k ≤ j then t.x (j - k) else s.x j, fun j => if k ≤ j then t.w (j - k) else s.w j,
   fun j => if k ≤ j then t.xl (j - k) else s.xl j, fun j => if k ≤ j then t.wl (j - k) else s.wl j⟩

/-- The loop of `get_particle_dist_quad`, `misc/rtutil_size_dist.c` 167-180: the rule `t` on each of `m` equal
pieces of the interval from `r1` to `r2`. -/
noncomputable def pieces (m n : Nat) (r1 r2 r1l r2l : ℝ) (t : Lin) (s : Lin) : Lin :=
  let a := (r2 - r1) / m
  let al := (r2l - r1l) / m
  forN m (fun i s =>
    let ii := i * n
    let b := r1 + i * a
    let bl := r1l + i * al
    let cl := bl + al
    s.paste ii (fit n b (b + a) bl cl t (s.shift ii))) s

/-- `trapezoidal_quad`, `misc/rtutil_math.c` 427-442. -/
noncomputable def trapezoid (n : Nat) (a b : ℝ) (s : (Nat → ℝ) × (Nat → ℝ)) : (Nat → ℝ) × (Nat → ℝ) :=
  let f := (b - a) / (n - 1)
  (forN n (fun i x => put x i (a + i * f)) s.1,
   forN (n - 2) (fun i w => put w (i + 1) f) (put (put s.2 0 (1 / 2 * f)) (n - 1) (1 / 2 * f)))

/-- `simpsons_rule_quad`, `misc/rtutil_math.c` 394-420; `none` for an even number
of points.  The loops with steps of two run over half the index. -/
noncomputable def simpson (n : Nat) (a b : ℝ) (s : (Nat → ℝ) × (Nat → ℝ)) : Option ((Nat → ℝ) × (Nat → ℝ)) :=
  if n % 2 = 0 then none
  else
    let f := (b - a) / (n - 1)
    some (forN n (fun i x => put x i (a + i * f)) s.1,
      forN ((n - 1) / 2 - 1) (fun i w => put w (2 + 2 * i) (2 * f / 3))
        (forN ((n - 1) / 2) (fun i w => put w (1 + 2 * i) (4 * f / 3))
          (put (put s.2 0 (f / 3)) (n - 1) (f / 3))))

/-- `extended_trapezoidal_quad`, `misc/rtutil_math.c` 40-67. -/
noncomputable def extended (n : Nat) (a b : ℝ) (s : (Nat → ℝ) × (Nat → ℝ)) : (Nat → ℝ) × (Nat → ℝ) :=
  if n = 1 then (put s.1 0 ((a + b) / 2), put s.2 0 1)
  else
    let dx := (b - a) / (n - 1)
    (put (forN (n - 2) (fun i x => put x (i + 1) (a + ((i + 1 : Nat) - 1) * dx)) (put s.1 0 a)) (n - 1) b,
     put (forN (n - 2) (fun i w => put w (i + 1) dx) (put s.2 0 (dx / 2))) (n - 1) (dx / 2))

end Xrtm.Gauss
