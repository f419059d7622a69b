import Mathlib.Analysis.SpecialFunctions.ExpDeriv
import Mathlib.Analysis.Real.Pi.Bounds

/-!
# The solver of two orders of scattering

src/xrtm_two_os.c:25-788.

`n` is `n_quad_v_x` and `m` is `n_xmus_v`: the quadrature nodes themselves, or the
further directions with `flag`.  What stands under `if (0)` is left out.  Numbers are
real.  One parameter to be differentiated by at a time, the loops over them are
independent.
-/

namespace Xrtm.TwoOs

variable {m n : Nat}

/-- The arguments; `Ppp`, `Pmp`, `Ppm` are `P_qq_*` or, with `flag`, `P_uq_*`; so is `Rs`. -/
structure Inp (m n : Nat) where
  L : Nat
  first : Bool
  vector : Bool
  surface : Bool
  F0 : ℝ
  mu0 : ℝ
  qx : Fin n → ℝ
  qw : Fin n → ℝ
  mu : Fin m → ℝ
  om : Nat → ℝ
  ltau : Nat → ℝ
  as0 : Nat → ℝ
  atran : Nat → ℝ
  Rs0 : Fin n → ℝ
  Rs : Matrix (Fin m) (Fin n) ℝ
  P0mm : Nat → Fin n → ℝ
  P0pm : Nat → Fin n → ℝ
  Ppp : Nat → Matrix (Fin m) (Fin n) ℝ
  Pmp : Nat → Matrix (Fin m) (Fin n) ℝ
  Ppm : Nat → Matrix (Fin m) (Fin n) ℝ

/-- A loop from the last layer to the first, `for (j = n_layers - 1; j >= 0; --j)`: what is
left after `c` turns. -/
def climb {σ : Type} (L : Nat) (base : σ) (step : Nat → σ → σ) : Nat → σ
  | 0 => base
  | c + 1 => step (L - 1 - c) (climb L base step c)

variable (z : Inp m n)

/-- `r_0`, `t_0`, src/xrtm_two_os.c:299-303. -/
def r0 (i : Nat) (l : Fin n) : ℝ := z.om i * z.P0pm i l
def t0 (i : Nat) (l : Fin n) : ℝ := z.om i * z.P0mm i l

/-- `x`, `y`, src/xrtm_two_os.c:322-326. -/
noncomputable def x (l : Fin n) : ℝ := 1 / z.qx l
noncomputable def y (k : Fin m) : ℝ := 1 / z.mu k

/-- `alpha`, `beta`, src/xrtm_two_os.c:328-334. -/
noncomputable def alpha (i : Nat) (l : Fin n) : ℝ := Real.exp (-z.ltau i * x z l)
noncomputable def beta (i : Nat) (k : Fin m) : ℝ := Real.exp (-z.ltau i * y z k)

/-- `Psi1` as it is first, src/xrtm_two_os.c:342. -/
noncomputable def psiX (i : Nat) (l : Fin n) : ℝ := alpha z i l * z.atran i

/-- `v1`, src/xrtm_two_os.c:385. -/
noncomputable def gain (j : Nat) (l : Fin n) : ℝ := x z l * 1 / z.mu0 / (x z l + z.as0 j)

/-- `i_p[0]`, src/xrtm_two_os.c:365-394: the first order, upwards, `c` layers above the
ground. -/
noncomputable def up1 : Nat → Fin n → ℝ :=
  climb z.L (fun l => if z.surface then z.Rs0 l else 0) fun j below l =>
    psiX z j l * below l + 1 / 4 * (gain z j l * (1 - psiX z j l)) * r0 z j l

/-- `a * omega[i]`, src/xrtm_two_os.c:478-482. -/
noncomputable def share (i : Nat) : ℝ := (1 + if z.first then 1 else 0) / 4 * z.om i

/-- `P_qq_pm`, src/xrtm_two_os.c:468-476. -/
def Pin (i : Nat) : Matrix (Fin m) (Fin n) ℝ := if !z.vector then z.Pmp i else z.Ppm i

/-- `r_m`, `t_p`, src/xrtm_two_os.c:482-488. -/
noncomputable def rm (i : Nat) (k : Fin m) (l : Fin n) : ℝ := Pin z i k l * (share z i * z.qw l)
noncomputable def tp (i : Nat) (k : Fin m) (l : Fin n) : ℝ := z.Ppp i k l * (share z i * z.qw l)

/-- `Psi1`, `Psi3`, src/xrtm_two_os.c:542-546. -/
noncomputable def psiY (i : Nat) (k : Fin m) : ℝ := beta z i k * z.atran i
noncomputable def psi3 (i : Nat) (k : Fin m) (l : Fin n) : ℝ := beta z i k * alpha z i l

/-- `w1`, src/xrtm_two_os.c:589. -/
noncomputable def both (k : Fin m) (l : Fin n) : ℝ := y z k * x z l / (y z k + x z l)

/-- `R_p`, src/xrtm_two_os.c:565-593: the reflection of all below, of one order. -/
noncomputable def refl : Nat → Fin m → Fin n → ℝ :=
  climb z.L (fun k l => if z.surface then z.Rs k l * x z l else 0) fun j below k l =>
    below k l * psi3 z j k l + both z k l * (1 - psi3 z j k l) * rm z j k l

open Classical in
/-- `Phi2`, src/xrtm_two_os.c:647-650. -/
noncomputable def phi2 (j : Nat) (k : Fin m) (l : Fin n) : ℝ :=
  if y z k = x z l then z.ltau j * (beta z j k * z.atran j)
  else (beta z j k * z.atran j - alpha z j l * z.atran j) / (x z l - y z k)

open Classical in
/-- `Phi3`, src/xrtm_two_os.c:651-654. -/
noncomputable def phi3 (j : Nat) (k : Fin m) (l : Fin n) : ℝ :=
  if z.as0 j = x z l then z.ltau j * (beta z j k * alpha z j l)
  else (beta z j k * alpha z j l - z.atran j * beta z j k) / (z.as0 j - x z l)

/-- `w1`, `w2`, src/xrtm_two_os.c:685-686. -/
noncomputable def w1u (j : Nat) (k : Fin m) (l : Fin n) : ℝ :=
  x z l * 1 / z.mu0 / (4 * (x z l + z.as0 j) * (y z k + z.as0 j))
noncomputable def w2u (j : Nat) (k : Fin m) (l : Fin n) : ℝ :=
  1 - psiY z j k - (y z k + z.as0 j) * phi2 z j k l

/-- `a`, src/xrtm_two_os.c:691-693, where `below` is `i_p[0][j+1]`. -/
noncomputable def fromUp (j : Nat) (below : Fin n → ℝ) (k : Fin m) : ℝ :=
  ∑ l, tp z j k l * (phi2 z j k l * below l + r0 z j l * (w1u z j k l * w2u z j k l))

/-- `w1`, `w2`, src/xrtm_two_os.c:727-728. -/
noncomputable def w1d (j : Nat) (k : Fin m) (l : Fin n) : ℝ :=
  x z l * y z k / ((y z k + z.as0 j) * (x z l + y z k))
noncomputable def w2d (j : Nat) (k : Fin m) (l : Fin n) : ℝ :=
  1 - psiY z j k - (y z k + z.as0 j) * phi3 z j k l

/-- `v1`, src/xrtm_two_os.c:733-735, where `R` is `R_p[j+1]`. -/
noncomputable def fromDn (j : Nat) (R : Fin m → Fin n → ℝ) (k : Fin m) : ℝ :=
  ∑ l, (phi3 z j k l * R k l + rm z j k l * (w1d z j k l * w2d z j k l)) * t0 z j l

/-- One turn of src/xrtm_two_os.c:677-738 with `f` for `as_0[j]` in 737; `c` layers lie
below. -/
noncomputable def turn (f : Nat → ℝ) (c j : Nat) (below : Fin m → ℝ) (k : Fin m) : ℝ :=
  psiY z j k * below k + y z k * fromUp z j (up1 z c) k + f j / 4 * fromDn z j (refl z c) k

/-- `i_p[1]` with `f` for `as_0` in 737. -/
noncomputable def up2With (f : Nat → ℝ) : Nat → Fin m → ℝ
  | 0 => fun _ => 0
  | c + 1 => turn z f c (z.L - 1 - c) (up2With f c)

/-- `i_p[1]`, src/xrtm_two_os.c:606-738. -/
noncomputable def up2 : Nat → Fin m → ℝ := up2With z z.as0

/-- `rtm_two_os`: `I_p[i_out]`, src/xrtm_two_os.c:278-284, 756, 770-775. -/
noncomputable def outUp (io : Nat) (k : Fin m) : ℝ :=
  if io = 0 then up2 z z.L k * (z.F0 * z.mu0 / Real.pi) else 0

/-- `I_m[i_out]`, src/xrtm_two_os.c:278-284: zero, and nothing is written to it. -/
def outDn (_io : Nat) (_k : Fin m) : ℝ := 0

/-! ## Derivatives -/

variable (z' : Inp m n) (lay : Nat → Bool)

/-- `r_0_l`, `t_0_l`, src/xrtm_two_os.c:305-315. -/
def r0L (i : Nat) (l : Fin n) : ℝ := z'.om i * z.P0pm i l + if lay i then z.om i * z'.P0pm i l else 0
def t0L (i : Nat) (l : Fin n) : ℝ := z'.om i * z.P0mm i l + if lay i then z.om i * z'.P0mm i l else 0

/-- `Psi1_l`, src/xrtm_two_os.c:347-352. -/
noncomputable def psiXL (i : Nat) (l : Fin n) : ℝ :=
  (-z'.ltau i * (x z l + z.as0 i) - z.ltau i * z'.as0 i) * psiX z i l

/-- `i_p_l[0]`, src/xrtm_two_os.c:367-406. -/
noncomputable def up1L : Nat → Fin n → ℝ
  | 0 => fun l => if z.surface then (if lay z.L then z'.Rs0 l else 0) else 0
  | c + 1 => fun l =>
    let j := z.L - 1 - c
    let b := (-gain z j l * z'.as0 j / (x z l + z.as0 j)) * ((1 - psiX z j l) * r0 z j l) +
      gain z j l * r0 z j l * -psiXL z z' j l +
      if lay j then gain z j l * (1 - psiX z j l) * r0L z z' lay j l else 0
    psiXL z z' j l * up1 z c l + psiX z j l * up1L c l + 1 / 4 * b

/-- `r_m_l`, `t_p_l`, src/xrtm_two_os.c:490-510. -/
noncomputable def rmL (i : Nat) (k : Fin m) (l : Fin n) : ℝ :=
  Pin z i k l * ((1 + if z.first then 1 else 0) / 4 * z'.om i * z.qw l) +
    if lay i then (if !z.vector then z'.Pmp i k l else z'.Ppm i k l) * (share z i * z.qw l) else 0
noncomputable def tpL (i : Nat) (k : Fin m) (l : Fin n) : ℝ :=
  z.Ppp i k l * ((1 + if z.first then 1 else 0) / 4 * z'.om i * z.qw l) +
    if lay i then z'.Ppp i k l * (share z i * z.qw l) else 0

/-- `Psi1_l`, `Psi3_l`, src/xrtm_two_os.c:548-557. -/
noncomputable def psiYL (i : Nat) (k : Fin m) : ℝ :=
  (-z'.ltau i * (y z k + z.as0 i) - z.ltau i * z'.as0 i) * psiY z i k
noncomputable def psi3L (i : Nat) (k : Fin m) (l : Fin n) : ℝ := -z'.ltau i * (y z k + x z l) * psi3 z i k l

/-- `R_p_l`, src/xrtm_two_os.c:567-602. -/
noncomputable def reflL : Nat → Fin m → Fin n → ℝ
  | 0 => fun k l => if z.surface then (if lay z.L then z'.Rs k l * x z l else 0) else 0
  | c + 1 => fun k l =>
    let j := z.L - 1 - c
    reflL c k l * psi3 z j k l + refl z c k l * psi3L z z' j k l +
      both z k l * (-psi3L z z' j k l * rm z j k l + (1 - psi3 z j k l) * rmL z z' lay j k l)

open Classical in
/-- `Phi2_l`, src/xrtm_two_os.c:657-660. -/
noncomputable def phi2L (j : Nat) (k : Fin m) (l : Fin n) : ℝ :=
  let b := beta z j k * z.atran j
  let c := alpha z j l * z.atran j
  if y z k = x z l then (z'.ltau j + z.ltau j * (-z'.ltau j * (y z k + z.as0 j) - z'.as0 j)) * b
  else ((-z'.ltau j * (y z k + z.as0 j) - z.ltau j * z'.as0 j) * b -
    (-z'.ltau j * (x z l + z.as0 j) - z.ltau j * z'.as0 j) * c) / (x z l - y z k)

open Classical in
/-- `Phi3_l`, src/xrtm_two_os.c:661-664. -/
noncomputable def phi3L (j : Nat) (k : Fin m) (l : Fin n) : ℝ :=
  let d := beta z j k * alpha z j l
  let e := z.atran j * beta z j k
  if z.as0 j = x z l then (z'.ltau j + z.ltau j * -z.ltau j * (x z l + y z k)) * d
  else ((-z'.ltau j * (x z l + y z k) * d - (-z'.ltau j * (z.as0 j + y z k) - z.ltau j * z'.as0 j) * e) -
    phi3 z j k l * z'.as0 j) / (z.as0 j - x z l)

/-- `a`, src/xrtm_two_os.c:699-719. -/
noncomputable def fromUpL (j : Nat) (below below' : Fin n → ℝ) (k : Fin m) : ℝ :=
  ∑ l, (tpL z z' lay j k l * (phi2 z j k l * below l + r0 z j l * (w1u z j k l * w2u z j k l)) +
    tp z j k l * (phi2L z z' j k l * below l + phi2 z j k l * below' l +
      r0 z j l * (-w1u z j k l * (4 * (z'.as0 j * (y z k + z.as0 j) + (x z l + z.as0 j) * z'.as0 j)) /
        (4 * (x z l + z.as0 j) * (y z k + z.as0 j))) * w2u z j k l +
      r0 z j l * w1u z j k l * (-psiYL z z' j k - z'.as0 j * phi2 z j k l - (y z k + z.as0 j) * phi2L z z' j k l) +
      if lay j then r0L z z' lay j l * (w1u z j k l * w2u z j k l) else 0))

/-- `a`, src/xrtm_two_os.c:742-749. -/
noncomputable def fromDnL (j : Nat) (R R' : Fin m → Fin n → ℝ) (k : Fin m) : ℝ :=
  ∑ l, ((phi3L z z' j k l * R k l + phi3 z j k l * R' k l + rmL z z' lay j k l * (w1d z j k l * w2d z j k l) +
      rm z j k l * w1d z j k l * z'.as0 j * (x z l + y z k) / ((y z k + z.as0 j) * (x z l + y z k)) * w2d z j k l +
      rm z j k l * w1d z j k l *
        (-psiYL z z' j k - z'.as0 j * phi3 z j k l - (y z k + z.as0 j) * phi3L z z' j k l)) * t0 z j l +
    if lay j then (phi3 z j k l * R k l + rm z j k l * (w1d z j k l * w2d z j k l)) * t0L z z' lay j l else 0)

/-- `i_p_l[1]`, src/xrtm_two_os.c:695-753. -/
noncomputable def up2L : Nat → Fin m → ℝ
  | 0 => fun _ => 0
  | c + 1 => fun k =>
    let j := z.L - 1 - c
    psiYL z z' j k * up2 z c k + psiY z j k * up2L c k + y z k * fromUpL z z' lay j (up1 z c) (up1L z z' lay c) k +
      (z'.as0 j * fromDn z j (refl z c) k + z.as0 j * fromDnL z z' lay j (refl z c) (reflL z z' lay c) k) / 4

/-- `I_p_l[i_out]`, src/xrtm_two_os.c:285-293, 757-758, 777-780. -/
noncomputable def outUpL (io : Nat) (k : Fin m) : ℝ :=
  if io = 0 then up2L z z' lay z.L k * (z.F0 * z.mu0 / Real.pi) else 0

end Xrtm.TwoOs
