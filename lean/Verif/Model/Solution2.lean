import Verif.Model.State
import Verif.Model.Arith

/-!
# Derivatives by the adjoint: `xrtm_solution_2`

`xrtm_solution_2` (`src/xrtm_interface.c:5774-5992`). It solves once with the derivatives switched off,
then for each radiance in turn sets that radiance's adjoint to one, runs the adjoint code and adds up the
adjoints of the inputs times the inputs' derivatives.

`get_solution` and `get_solution_internal_a` are given functions of the instance and of a state `X` that
stands for everything else they keep (saved results, work arrays, misc output); either may fail. Neither
writes `options` or `n_derivs`: in `src/*.c` these are assigned in `xrtm_create*` and here alone
(`d->options = options` in `xrtm_model_a.c` is the member of a record of saved results).

`XRTM_SOLVERS_EXT_EXTERNAL` is 0 in the public source (`src/xrtm_support.h:34`), so the branch for
external solvers (5816-5824) is never taken. Counts are natural numbers, their product does not overflow.
The results `I_p`, `I_m`, means and fluxes are what `get_solution` wrote and are part of `X`.
-/

namespace Xrtm.Solution2

open Arith

/-- An element of `I_p` (`dir = 0`) or `I_m` (`dir = 1`): level, angle, azimuth, Stokes component. -/
structure Place where
  dir : Nat
  lev : Nat
  mu : Nat
  phi : Nat
  st : Nat
  deriving DecidableEq, Repr

/-- `n_ulevels`, `n_mus2`, `n_out_phis`, `n_stokes`. -/
structure Dims where
  nLev : Nat
  nMu : Nat
  nPhi : Nat
  nSt : Nat

/-- `d->n_ulevels * n_mus2 * n_out_phis * d->n_stokes` (5912). -/
def Dims.block (d : Dims) : Nat := d.nLev * d.nMu * d.nPhi * d.nSt

/-- One half of the decomposition of the loop index (5914-5919, 5922-5927). -/
def decodeAt (d : Dims) (dir ii : Nat) : Place where
  dir := dir
  lev := ii / (d.nMu * d.nPhi * d.nSt)
  mu := ii % (d.nMu * d.nPhi * d.nSt) / (d.nPhi * d.nSt)
  phi := ii % (d.nMu * d.nPhi * d.nSt) % (d.nPhi * d.nSt) / d.nSt
  st := ii % (d.nMu * d.nPhi * d.nSt) % (d.nPhi * d.nSt) % d.nSt

/-- `n_dirs` and `input[]` (5892-5908); `none`: not initialised. -/
def dirsOf (options : Word) : Option (List Nat) :=
  if has options OPT_UPWELLING_OUTPUT && has options OPT_DOWNWELLING_OUTPUT then some [0, 1]
  else if has options OPT_UPWELLING_OUTPUT then some [0]
  else if has options OPT_DOWNWELLING_OUTPUT then some [1]
  else none

/-- The decomposition of the loop index (5913-5928); `none`: `input[1]` is not initialised. -/
def decode (d : Dims) (input : List Nat) (i : Nat) : Option Place :=
  if i < d.block then input[0]?.map fun a => decodeAt d a i
  else input[1]?.map fun a => decodeAt d a (i - d.block)

/-- The adjoints of the inputs that are read afterwards (5960-5982). -/
structure Adj (F : Type) where
  ampfac : Nat → F
  ltau : Nat → F
  omega : Nat → F
  coef : Nat → Nat → Nat → F

/-- The derivatives of the inputs that are read (5960-5982), with `derivs.layers`. -/
structure Lin (F : Type) where
  nKernels : Nat
  nLayers : Nat
  nElem : Nat
  nCoefLayer : Nat → Nat
  /-- `kernel_ampfac_l[j][k]` -/
  ampfac : Nat → Nat → F
  /-- `ltau0_l[j][k]` -/
  ltau : Nat → Nat → F
  /-- `omega0_l[j][k]` -/
  omega : Nat → Nat → F
  /-- `coef0_l[j][k][l][m]` -/
  coef : Nat → Nat → Nat → Nat → F
  /-- `derivs.layers[j][k]` -/
  flag : Nat → Nat → Bool

variable {F : Type} [Arith F]

/-- `for (x = 0; x < n; ++x) acc += f(x)` -/
def addUp (n : Nat) (f : Nat → F) (acc : F) : F := (List.range n).foldl (fun a x => add a (f x)) acc

/-- The sum for derivative `k` (5957-5982). -/
def layerTerm (L : Lin F) (A : Adj F) (k j : Nat) (acc : F) : F :=
  let acc := add acc (mul (L.ltau j k) (A.ltau j))
  if L.flag j k then
    (List.range L.nElem).foldl
      (fun a l => addUp (L.nCoefLayer j) (fun m => mul (L.coef j k l m) (A.coef j l m)) a)
      (add acc (mul (L.omega j k) (A.omega j)))
  else acc

/-- Kernels, then layers (5962-5982). The source runs `k` inside `j`; each `k` has its own cell. -/
def contract (L : Lin F) (A : Adj F) (k : Nat) : F :=
  (List.range L.nLayers).foldl (fun a j => layerTerm L A k j a)
    (addUp L.nKernels (fun j => mul (L.ampfac j k) (A.ampfac j)) zero)

/-- What the adjoint run returns: its code, the adjoints, what it leaves in `I_p_a`, `I_m_a`, and `X`. -/
structure AdjRun (F X : Type) where
  failed : Bool
  adj : Adj F
  seeds : Place → F
  rest : X

/-- The routines that are not modelled. -/
structure Env (F X : Type) where
  /-- `get_solution`, 5861 -/
  forward : State F → X → Bool × X
  /-- 5933-5942 (adjoints set to zero) and `get_solution_internal_a`, 5950 -/
  adjoint : State F → X → (Place → F) → AdjRun F X
  /-- the derivatives of the inputs; they are the arrays of the instance -/
  lin : State F → Lin F

/-- The loop's state: `I_p_a`/`I_m_a`, `I_p_l`/`I_m_l` (place, derivative), `X`. -/
structure Loop (F X : Type) where
  seeds : Place → F
  out : Place → Nat → F
  rest : X

/-- One pass (5913-5983). The code of the adjoint run is ignored (5950). -/
def pass {X : Type} (E : Env F X) (s : State F) (nD : Nat) (p : Place) (w : Loop F X) : Loop F X :=
  let r := E.adjoint s w.rest fun q => if q = p then one else w.seeds q
  { seeds := r.seeds
    out := fun q k => if q = p ∧ k < nD then contract (E.lin s) r.adj k else w.out q k
    rest := r.rest }

/-- The loop over all radiances (5912-5983). -/
def loop {X : Type} (E : Env F X) (s : State F) (nD : Nat) (d : Dims) (input : List Nat) :
    Nat → Loop F X → Option (Loop F X)
  | 0, w => some w
  | n + 1, w => (loop E s nD d input n w).bind fun w => (decode d input n).map fun p => pass E s nD p w

/-- `init_array5_d`, `init_array4_d` (5874-5890): all places in range are set to zero. -/
def cleared {X : Type} (d : Dims) (nD : Nat) (out : Place → Nat → F) (x : X) : Loop F X :=
  { seeds := fun _ => zero
    out := fun q k => if q.lev < d.nLev ∧ k < nD ∧ q.mu < d.nMu ∧ q.phi < d.nPhi ∧ q.st < d.nSt then zero else out q k
    rest := x }

/-- The instance while derivatives are off (5854-5859). -/
def off (c : Config) : Config := { c with options := c.options ^^^ OPT_CALC_DERIVS, nDerivs := 0 }

/-- The outcome of the call: code, instance, derivatives, `X`. -/
structure Ret (F X : Type) where
  code : Code
  st : State F
  out : Place → Nat → F
  rest : X

/-- `n_mus2` (5843-5846), and the other counts. -/
def dims (c : Config) (nPhi : Nat) : Dims where
  nLev := c.nOutLevels.toNat
  nMu := if c.nOutThetas = 0 then c.nQuad.toNat else c.nOutThetas.toNat
  nPhi := nPhi
  nSt := c.nStokes.toNat

/-- `xrtm_solution_2` (5774-5992); `none`: a variable that was never set is read. -/
def solution2 {X : Type} (E : Env F X) (nPhi : Nat) (s : State F) (out : Place → Nat → F) (x : X) :
    Option (Ret F X) :=
  if !(has s.cfg.options OPT_CALC_DERIVS) then some ⟨.minusOne, s, out, x⟩
  else if !(has s.cfg.options OPT_REVERSE_DERIVS) then some ⟨.minusOne, s, out, x⟩
  else
    let s' := { s with cfg := off s.cfg }
    match E.forward s' x with
    | (true, x) => some ⟨.minusOne, s', out, x⟩
    | (false, x) =>
      let d := dims s.cfg nPhi
      let nD := s.cfg.nDerivs.toNat
      (dirsOf s.cfg.options).bind fun input =>
        (loop E s nD d input (input.length * d.block) (cleared d nD out x)).map fun w =>
          ⟨.ok, s, w.out, w.rest⟩

end Xrtm.Solution2
