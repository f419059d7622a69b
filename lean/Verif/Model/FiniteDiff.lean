import Mathlib.Algebra.Field.Basic
import Mathlib.Data.List.Basic

/-!
# Derivatives by finite differences (src/xrtm_fd_interface.c)

`xrtm_fd_solution` moves the inputs of an ordinary instance by the steps the
caller stored with the `xrtm_fd_set_*_p_*` functions, solves again and divides
the change of the radiances by `delta`.

Simplified:
* The setters of the instance are reduced to one predicate per call: a call is
  accepted with the values it is given or refused without a change.  (What a
  refused setter of `xrtm_interface.c` may already have written is modelled in
  `Model/State.lean`.)
* A solution is a partial function of the inputs.
* Both output arrays, up and down, and their four indices are one index type.
* Numbers are a field, so that sums and differences are exact.
-/

namespace Xrtm.FiniteDiff

/-- What can be moved, one value each: the inputs that `perturb_values` reads
and writes back, src/xrtm_fd_interface.c:988-1092. -/
inductive In
  | isoTop | isoBot
  | levelB (i : Nat)
  | surfB
  | g (i : Nat)
  | coef (i k l : Nat)
  | omega (i : Nat)
  | ltau (i : Nat)
  | amp (i : Nat)
  | par (i k : Nat)
  deriving DecidableEq, Repr

/-- What `perturb_values` looks at in the instance: the option for thermal
sources, whether the solver works with `g`, and the sizes. -/
structure Shape where
  thermal : Bool
  useG : Bool
  nLayers : Nat
  nElem : Nat
  nCoef : Nat → Nat
  nKernels : Nat
  nParams : Nat → Nat

/-- The calls for the thermal inputs, src/xrtm_fd_interface.c:1000-1035. -/
def thermalCalls (s : Shape) : List (List In) :=
  if s.thermal then
    [[.isoTop], [.isoBot], (List.range (s.nLayers + 1)).map .levelB, [.surfB]]
  else []

/-- The calls for the phase function, src/xrtm_fd_interface.c:1037-1062.  The
coefficients of one layer are set in one call. -/
def phaseCalls (s : Shape) : List (List In) :=
  if s.useG then (List.range s.nLayers).map fun i => [.g i]
  else (List.range s.nLayers).map fun i =>
    (List.range s.nElem).flatMap fun k => (List.range (s.nCoef i)).map fun l => .coef i k l

/-- The calls for one kernel, src/xrtm_fd_interface.c:1078-1091. -/
def kernelCalls (s : Shape) (i : Nat) : List (List In) :=
  [.amp i] :: (List.range (s.nParams i)).map fun k => [.par i k]

/-- All setter calls of `perturb_values`, in order,
src/xrtm_fd_interface.c:988-1094. -/
def calls (s : Shape) : List (List In) :=
  thermalCalls s ++ phaseCalls s ++ ((List.range s.nLayers).map fun i => [.omega i]) ++
    ((List.range s.nLayers).map fun i => [.ltau i]) ++
    (List.range s.nKernels).flatMap (kernelCalls s)

variable {K : Type} [Field K] {O : Type}

/-- One setter call: read the values, add `f * p`, set. -/
def moved (f : K) (p x : In → K) (c : List In) : In → K :=
  fun a => if a ∈ c then x a + f * p a else x a

/-- The instance below: which calls are accepted with which inputs, and the
radiances for given inputs. -/
structure Inst (K O : Type) where
  accepts : List In → (In → K) → Bool
  solve : (In → K) → Option (O → K)

/-- Result of `perturb_values`: the inputs it leaves, and whether it returned
zero. -/
structure Moved (K : Type) where
  inputs : In → K
  ok : Bool

/-- The sequence of calls; the first refusal ends it. -/
def runCalls (d : Inst K O) (f : K) (p : In → K) : List (List In) → (In → K) → Moved K
  | [], x => ⟨x, true⟩
  | c :: cs, x =>
    if d.accepts c (moved f p x c) then runCalls d f p cs (moved f p x c) else ⟨x, false⟩

/-- `perturb_values`, src/xrtm_fd_interface.c:988-1094. -/
def perturb (s : Shape) (d : Inst K O) (f : K) (p x : In → K) : Moved K :=
  runCalls d f p (calls s) x

/-- src/xrtm_fd_interface.h:21-25. -/
inductive Method | forward | backward | central
  deriving DecidableEq, Repr

/-- The caller's `solutions` word, as far as it matters here: the bit for
radiances, and whether a bit for mean radiances, fluxes or flux divergences is
set. -/
structure Ask where
  radiance : Bool
  other : Bool

/-- How a call ends. -/
inductive End
  | done
  /-- a perturbation was refused, or a solution failed: return value -1 -/
  | refused
  /-- a result was written through the null pointer handed down -/
  | null
  deriving DecidableEq, Repr

/-- What a call changes: the inputs of the instance, the derivatives, and the
buffer `I_p2`, `I_m2`. -/
structure Mem (K O : Type) where
  inputs : In → K
  table : Nat → O → K
  buf : O → K

/-- The inner `xrtm_solution` call, src/xrtm_fd_interface.c:1171, 1203, 1227:
all arguments but the radiances are `NULL`, and `solutions` is passed on. -/
def solveInto (d : Inst K O) (w : Ask) (m : Mem K O) : Mem K O × End :=
  match d.solve m.inputs with
  | none => (m, .refused)
  | some r =>
    if w.other then (m, .null)
    else if w.radiance then ({ m with buf := r }, .done) else (m, .done)

/-- `perturb_values` on the memory of the call. -/
def perturbMem (s : Shape) (d : Inst K O) (f : K) (p : In → K) (m : Mem K O) : Mem K O × End :=
  let r := perturb s d f p m.inputs
  ({ m with inputs := r.inputs }, if r.ok then .done else .refused)

/-- Sequencing of two parts of a call: the second runs if the first ended
well. -/
def thenDo (r : Mem K O × End) (g : Mem K O → Mem K O × End) : Mem K O × End :=
  match r with
  | (m, .done) => g m
  | (m, e) => (m, e)

/-- Write row `j` of the derivatives. -/
def setRow (m : Mem K O) (j : Nat) (v : O → K) : Mem K O :=
  { m with table := fun j' => if j' = j then v else m.table j' }

/-- The body for the forward and backward methods,
src/xrtm_fd_interface.c:1158-1186. -/
def oneSided (s : Shape) (d : Inst K O) (w : Ask) (f : K) (p : In → K) (delta : K)
    (base : O → K) (j : Nat) (m : Mem K O) : Mem K O × End :=
  thenDo (perturbMem s d f p m) fun m =>
  thenDo (solveInto d w m) fun m =>
  (setRow m j fun o => (m.buf o - base o) / delta, .done)

/-- The body for the central method, src/xrtm_fd_interface.c:1192-1245. -/
def twoSided (s : Shape) (d : Inst K O) (w : Ask) (p : In → K) (delta : K)
    (j : Nat) (m : Mem K O) : Mem K O × End :=
  thenDo (perturbMem s d 1 p m) fun m =>
  thenDo (solveInto d w m) fun m =>
  thenDo (setRow m j fun o => m.buf o / delta, .done) fun m =>
  thenDo (perturbMem s d (-2) p m) fun m =>
  thenDo (solveInto d w m) fun m =>
  thenDo (setRow m j fun o => m.table j o - m.buf o / delta, .done) fun m =>
  perturbMem s d 1 p m

/-- One pass of the loop over the derivatives. -/
def body (s : Shape) (d : Inst K O) (w : Ask) (me : Method) (p : Nat → In → K)
    (delta : Nat → K) (base : O → K) (j : Nat) (m : Mem K O) : Mem K O × End :=
  match me with
  | .forward => oneSided s d w 1 (p j) (delta j) base j m
  | .backward => oneSided s d w (-1) (p j) (delta j) base j m
  | .central => twoSided s d w (p j) (delta j) j m

/-- The loop over the derivatives, src/xrtm_fd_interface.c:1157-1247. -/
def loop (s : Shape) (d : Inst K O) (w : Ask) (me : Method) (p : Nat → In → K)
    (delta : Nat → K) (base : O → K) : Nat → Mem K O → Mem K O × End
  | 0, m => (m, .done)
  | n + 1, m =>
    thenDo (loop s d w me p delta base n m) fun m => body s d w me p delta base n m

/-- What `xrtm_fd_solution` leaves: the radiances if the first solution
succeeded, the rest of the memory, and the end. -/
structure Left (K O : Type) where
  radiance : Option (O → K)
  mem : Mem K O
  status : End

/-- `xrtm_fd_solution`, src/xrtm_fd_interface.c:1102-1261.  `table` and `buf`
are what is in the caller's arrays and in the fresh buffers beforehand. -/
def solution (s : Shape) (d : Inst K O) (w : Ask) (me : Method) (n : Nat) (p : Nat → In → K)
    (delta : Nat → K) (x : In → K) (table : Nat → O → K) (buf : O → K) : Left K O :=
  match d.solve x with
  | none => ⟨none, ⟨x, table, buf⟩, .refused⟩
  | some base =>
    let r := loop s d w me p delta base n ⟨x, table, buf⟩
    ⟨some base, r.1, r.2⟩

/-- `xrtm_fd_set_levels_b_p_1`, src/xrtm_fd_interface.c:305-325.  `table i j`
is `d->levels_b_p[i][j]`; `junk` is what the uninitialised `j` happens to
hold; `arg` is the caller's array. -/
def setLevelsBP1 (nLayers : Nat) (junk : Nat) (iDeriv : Nat) (arg : Nat → K)
    (table : Nat → Nat → K) : Nat → Nat → K :=
  fun i j => if i < nLayers + 1 ∧ j = junk then arg iDeriv else table i j

end Xrtm.FiniteDiff
