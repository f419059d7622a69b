import Verif.Model.Options

/-!
# What `fourier_get_bvp` hands to the boundary value solvers

Models `fourier_get_bvp` (`src/xrtm_model.c:4960-5393`), which points its locals to memory,
computes what the solver asked for works on, calls the solver and, with `REVERSE_DERIVS`, keeps
copies for `fourier_get_bvp_a` (`src/xrtm_model_a.c:2557-2780`). Here only which array is pointed to,
computed, read and copied when; the numbers are in the models of the solvers.

An array stands for its variants (`_pp`, `_mp`, `_mm`, `_pm`, `_p`, `_m`) and for the arrays
with the derivatives, which are set under the same conditions and `CALC_DERIVS`; only for the
light at the boundaries the two are apart, because the first is kept in the instance and the second
reached by locals.
-/

namespace Xrtm.Call

/-- The arrays. -/
inductive Item
  | Rsq0 | Rsqq | Rsu0 | Rsuq
  | Pq0 | Pu0 | Pqq | Puq
  /-- `r_p`, `t_p`, `r_m`, `t_m` -/
  | rt
  /-- `In_p[i_four]`, `I1_m[i_four]` -/
  | bound
  /-- `In_p_l`, `I1_m_l` -/
  | boundL
  deriving DecidableEq, Repr

/-- `wild`: nothing to point to; `blank`: memory never written; `old`: computed from inputs that
have been replaced; `full`: computed from the inputs of now. -/
inductive Cell | wild | blank | old | full
  deriving DecidableEq, Repr

/-- What is done to an array. -/
inductive Act
  /-- pointed to memory -/
  | point (x : Item)
  /-- computed -/
  | fill (x : Item)
  /-- its numbers are used -/
  | read (x : Item)
  /-- its numbers are copied, whatever they are -/
  | copy (x : Item)
  /-- rows are accessed, `true`: more than there are -/
  | rows (x : Item) (over : Bool)
  deriving DecidableEq, Repr

abbrev Mem := Item → Cell

/-- How it ends. -/
inductive Out
  | done (m : Mem)
  /-- an access through a pointer that was never set -/
  | wild (x : Item)
  /-- numbers never written are used -/
  | blank (x : Item)
  /-- numbers of earlier inputs are used -/
  | stale (x : Item)
  /-- rows beyond the last -/
  | beyond (x : Item)

def put (m : Mem) (x : Item) (c : Cell) : Mem := fun y => if y = x then c else m y

def run : List Act → Mem → Out
  | [], m => .done m
  | .point x :: l, m => run l (put m x .blank)
  | .fill x :: l, m => run l (put m x .full)
  | .read x :: l, m => match m x with
    | .wild => .wild x
    | .blank => .blank x
    | .old => .stale x
    | .full => run l m
  | .copy x :: l, m => match m x with
    | .wild => .wild x
    | _ => run l m
  | .rows x over :: l, m => if over then .beyond x else run l m

/-- What the branches of the function look at. -/
structure Sw where
  /-- `d->options & XRTM_OPTION_REVERSE_DERIVS` -/
  reverse : Bool
  /-- `d->options & XRTM_OPTION_CALC_DERIVS` -/
  derivs : Bool
  /-- `d->options & XRTM_OPTION_SOURCE_SOLAR` -/
  solar : Bool
  /-- `d->options & XRTM_OPTION_SFI` -/
  sfi : Bool
  /-- `d->n_umus > 0` -/
  umus : Bool
  /-- `d->solvers & XRTM_SOLVER_TWO_STREAM` -/
  twoNamed : Bool
  /-- `solar_surface_for_i_four(d, i_four)` -/
  surface : Bool
  /-- `n_umus_v > n_quad_v_x` -/
  more : Bool
  /-- the bits of `solver` -/
  eigBvp : Bool
  memBvp : Bool
  sos : Bool
  twoOs : Bool
  twoStream : Bool
  fourStream : Bool
  sixStream : Bool
  deriving DecidableEq, Repr

/-- `if (b) { … }` -/
def when (b : Bool) (l : List Act) : List Act := if b then l else []

variable (s : Sw)

/-- `src/xrtm_model.c:5051-5071`. -/
def places : List Act :=
  when s.surface ([.point .Rsq0, .point .Rsqq] ++ when s.umus [.point .Rsu0, .point .Rsuq])

/-- `src/xrtm_model.c:5080-5114`. -/
def phases : List Act :=
  when (!(s.twoStream || s.fourStream || s.sixStream)) (
    when s.solar [.fill .Pq0] ++
    when (s.sos || (s.twoOs && !s.sfi)) [.fill .Pqq] ++
    when s.solar (when (s.sfi && s.umus) [.fill .Pu0]) ++
    when (s.sfi && s.umus) [.fill .Puq] ++
    when (s.eigBvp || s.memBvp) [.fill .rt])

/-- `src/xrtm_model.c:5115-5122`: asks for the solvers named at creation. -/
def bounds : List Act :=
  when (!s.twoNamed) ([.fill .bound] ++ when s.derivs [.fill .boundL])

/-- `src/xrtm_model.c:5123-5131`. -/
def ground : List Act :=
  when s.surface [.fill .Rsq0, .fill .Rsqq] ++
  when (s.surface && s.sfi && s.umus) [.fill .Rsu0, .fill .Rsuq]

/-- `rtm_eig_bvp` (`src/xrtm_eig_bvp.c:136-`): 312-480 with `SOLVE_BVP` (`src/xrtm_eig_bvp_x.c:311-314`,
`433`, `511`), and 700-860 for the user angles. -/
def usesEig : List Act :=
  [.read .rt] ++ when s.solar [.read .Pq0] ++ [.read .bound] ++ when s.derivs [.read .boundL] ++
  when s.surface [.read .Rsqq] ++
  when (s.sfi && s.umus) ([.read .Puq] ++ when s.solar [.read .Pu0] ++
    when s.surface ([.read .Rsuq] ++ when s.solar [.read .Rsu0]))

/-- `rtm_mem_bvp` (`src/xrtm_mem_bvp.c:340-460`, `src/xrtm_mem_bvp_x.c:191`, `340`). -/
def usesMem : List Act :=
  [.read .rt, .read .Pq0, .read .bound] ++ when s.derivs [.read .boundL] ++ when s.surface [.read .Rsqq]

/-- `rtm_sos` (`src/xrtm_sos.c:242-475`). -/
def usesSos : List Act :=
  [.read .bound] ++ when s.derivs [.read .boundL] ++ [.read .Pq0, .read .Pqq] ++ when s.surface [.read .Rsqq]

/-- `rtm_two_os` (`src/xrtm_two_os.c:300-625`), the calls `5236-5270`. -/
def usesTwoOs : List Act :=
  if !s.sfi then [.read .Pq0, .read .Pqq] ++ when s.surface [.read .Rsq0, .read .Rsqq]
  else [.read .Pq0, .read .Puq] ++ when s.surface [.read .Rsq0, .read .Rsuq]

/-- `rtm_two_stream` (`src/xrtm_two_stream.c:502-824`, `1130-1180`): its own phase functions, and no light
at the boundaries. -/
def usesTwo : List Act :=
  when s.surface ([.read .Rsqq, .read .Rsq0] ++ when s.umus ([.read .Rsuq] ++ when s.solar [.read .Rsu0]))

/-- `rtm_four_stream` (`src/xrtm_four_stream.c:709-751`, `1253`), `rtm_six_stream`
(`src/xrtm_six_stream.c:940-982`, `1560`). -/
def usesStreams : List Act :=
  when s.surface ([.read .Rsqq, .read .bound] ++ when s.umus ([.read .Rsuq] ++ when s.solar [.read .Rsu0]))

/-- The chain of `else if`, `src/xrtm_model.c:5137-5337`. -/
def solve : List Act :=
  if s.eigBvp then usesEig s
  else if s.memBvp then usesMem s
  else if s.sos then usesSos s
  else if s.twoOs then usesTwoOs s
  else if s.twoStream then usesTwo s
  else if s.fourStream then usesStreams s
  else if s.sixStream then usesStreams s
  else []

/-- `src/xrtm_model.c:5341-5389`; there is a layer at least. Of `r_p` with its `n_quad_v_x` rows (`src/xrtm_work.c:1231`)
`n_umus_v` rows are copied (5370-5376); the way back is handed the copy and reads none of its numbers
(`src/xrtm_utility_a.c:236-260`), so rows that are left out do no harm. -/
def keep : List Act :=
  when s.reverse (
    [.copy .Pq0] ++
    when (s.sos || (s.twoOs && !s.sfi)) [.copy .Pqq] ++
    when (s.sfi && s.umus) [.copy .Pu0, .copy .Puq] ++
    [.copy .rt, .rows .rt s.more] ++
    when s.surface ([.copy .Rsq0, .copy .Rsqq] ++ when s.umus [.copy .Rsu0, .copy .Rsuq]))

/-- `fourier_get_bvp`. -/
def forward : List Act := places s ++ phases s ++ bounds s ++ ground s ++ solve s ++ keep s

/-- The switches of a call with the word `solver` for a Fourier term with `surface`. -/
def switches (c : Config) (solver : Word) (surface : Bool) : Sw where
  reverse := has c.options OPT_REVERSE_DERIVS
  derivs := has c.options OPT_CALC_DERIVS
  solar := has c.options OPT_SOURCE_SOLAR
  sfi := has c.options OPT_SFI
  umus := decide (0 < c.nOutThetas)
  twoNamed := has c.solvers SOLVER_TWO_STREAM
  surface := surface
  more := decide (c.nQuadX * c.nStokes < c.nOutThetas * c.nStokes)
  eigBvp := has solver SOLVER_EIG_BVP
  memBvp := has solver SOLVER_MEM_BVP
  sos := has solver SOLVER_SOS
  twoOs := has solver SOLVER_TWO_OS
  twoStream := has solver SOLVER_TWO_STREAM
  fourStream := has solver SOLVER_FOUR_STREAM
  sixStream := has solver SOLVER_SIX_STREAM

/-- The memory at the start: locals are wild, `In_p` and `I1_m` are kept in the instance. -/
def start (b : Cell) : Mem := put (fun _ => .wild) .bound b

/-- What happens to an instance, for one Fourier term. -/
inductive Step
  /-- an input that the light at the boundaries depends on is replaced (and announced) -/
  | set
  /-- a solver that calls `update_diff_bound_input` whatever the solvers named: single scattering and
  those that add (`src/xrtm_model.c:4348`, `4539`, `4664`, `4827`) -/
  | other
  /-- a boundary value solver -/
  | bvp (solver : Word) (surface : Bool)

/-- One step, on the cell of `In_p` and `I1_m`. -/
def step (c : Config) (b : Cell) : Step → Except Out Cell
  | .set => .ok (if b = .full then .old else b)
  | .other => .ok .full
  | .bvp sv sf => match run (forward (switches c sv sf)) (start b) with
    | .done m => .ok (m .bound)
    | o => .error o

/-- A new instance has memory for them (`src/xrtm_interface.c:1463-1464`) that nothing was written to. -/
def history (c : Config) : List Step → Except Out Cell
  | [] => .ok .blank
  | a :: l => match history c l with
    | .ok b => step c b a
    | .error o => .error o

end Xrtm.Call
