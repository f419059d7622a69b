import Verif.Model.Options

/-!
# Names, indices and values

`misc/gindex_name_value.c` and the tables of `src/xrtm_interface.c`,
`src/xrtm_brdf.c`, `src/xrtm_fd_interface.c` and `src/xrtm_support.c` that the
templates of `misc/gindex_name_value.h` are used with.

A C string is the list of its characters before the terminating null. A `long`
is a 64 bit word, an `int` a 32 bit word. A table is the array of names, the
array of values and the count the template is given; reading an array past its
last element is a fault.
-/

namespace Xrtm.Names

abbrev Str := List Char
abbrev Long := BitVec 64

inductive Fault where
  /-- an element past the end of a table is read -/
  | table
  /-- a character past the end of a buffer is written -/
  | buffer
  deriving DecidableEq, Repr

/-- The arrays `NAME_names` and `NAME_types`/`NAME_masks` and `N_VALUES`
(`misc/gindex_name_value.h:23-60`, `:71-130`). -/
structure Table where
  names : List Str
  values : List Long
  n : Nat

/-- `names[i]`. -/
def Table.name (t : Table) (i : Nat) : Except Fault Str :=
  match t.names[i]? with
  | some s => .ok s
  | none => .error .table

/-- `values[i]`. -/
def Table.value (t : Table) (i : Nat) : Except Fault Long :=
  match t.values[i]? with
  | some v => .ok v
  | none => .error .table

/-- `max_name_length` (`misc/gindex_name_value.c:18-32`); `k` is the number of
iterations left of `n - i`. -/
def maxNameLength (t : Table) : Nat → Nat → Nat → Except Fault Nat
  | 0, _, m => .ok m
  | k + 1, i, m => do
    let s ← t.name i
    maxNameLength t k (i + 1) (if s.length > m then s.length else m)

/-- `index_to_name` (`misc/gindex_name_value.c:39-49`); `none` is `NULL`. -/
def indexToName (t : Table) (index : Int) : Except Fault (Option Str) :=
  if index < 0 ∨ index ≥ t.n then .ok none
  else do
    let s ← t.name index.toNat
    .ok (some s)

/-- The loop of `name_to_index` (`misc/gindex_name_value.c:53-66`) with `k`
iterations left, at index `i`. -/
def nameToIndexFrom (t : Table) (name : Str) : Nat → Nat → Except Fault Int
  | 0, _ => .ok (-1)
  | k + 1, i => do
    let s ← t.name i
    if s = name then .ok i else nameToIndexFrom t name k (i + 1)

def nameToIndex (t : Table) (name : Str) : Except Fault Int := nameToIndexFrom t name t.n 0

/-- `index_to_value` (`misc/gindex_name_value.c:73-83`). -/
def indexToValue (t : Table) (index : Int) : Except Fault Long :=
  if index < 0 ∨ index ≥ t.n then .ok (-1)
  else t.value index.toNat

/-- The loop of `value_to_index` (`misc/gindex_name_value.c:87-99`). -/
def valueToIndexFrom (t : Table) (v : Long) : Nat → Nat → Except Fault Int
  | 0, _ => .ok (-1)
  | k + 1, i => do
    let w ← t.value i
    if v = w then .ok i else valueToIndexFrom t v k (i + 1)

def valueToIndex (t : Table) (v : Long) : Except Fault Int := valueToIndexFrom t v t.n 0

/-- The loop of `name_to_value` (`misc/gindex_name_value.c:126-138`). -/
def nameToValueFrom (t : Table) (name : Str) : Nat → Nat → Except Fault Long
  | 0, _ => .ok (-1)
  | k + 1, i => do
    let s ← t.name i
    if name = s then t.value i else nameToValueFrom t name k (i + 1)

def nameToValue (t : Table) (name : Str) : Except Fault Long := nameToValueFrom t name t.n 0

/-- The loop of `value_to_name` (`misc/gindex_name_value.c:142-154`). -/
def valueToNameFrom (t : Table) (v : Long) : Nat → Nat → Except Fault (Option Str)
  | 0, _ => .ok none
  | k + 1, i => do
    let w ← t.value i
    if v = w then do
      let s ← t.name i
      .ok (some s)
    else valueToNameFrom t v k (i + 1)

def valueToName (t : Table) (v : Long) : Except Fault (Option Str) := valueToNameFrom t v t.n 0

/-! ## Lists of indices and of values -/

/-- A buffer of `cap` elements of the caller; an element not yet written is
`none`. -/
structure Buf (α : Type) where
  cap : Nat
  cell : Nat → Option α

/-- `buf[i] = a`. -/
def Buf.write {α : Type} (b : Buf α) (i : Nat) (a : α) : Except Fault (Buf α) :=
  if i < b.cap then .ok { b with cell := fun j => if j = i then some a else b.cell j }
  else .error .buffer

/-- The loop of `mask_to_index_list` (`misc/gindex_name_value.c:103-119`): `k`
iterations left, at index `i`, `ii` elements written. The result is the buffer
and the number returned. -/
def maskToIndexFrom (t : Table) (mask : Long) (length : Int) :
    Nat → Nat → Nat → Buf Int → Except Fault (Buf Int × Nat)
  | 0, _, ii, b => .ok (b, ii)
  | k + 1, i, ii, b => do
    let v ← t.value i
    if mask &&& v ≠ 0 then do
      let b ← b.write ii i
      if (ii + 1 : Int) ≥ length then .ok (b, ii + 1)
      else maskToIndexFrom t mask length k (i + 1) (ii + 1) b
    else if (ii : Int) ≥ length then .ok (b, ii)
    else maskToIndexFrom t mask length k (i + 1) ii b

def maskToIndexList (t : Table) (mask : Long) (b : Buf Int) (length : Int) :
    Except Fault (Buf Int × Nat) := maskToIndexFrom t mask length t.n 0 0 b

/-- The loop of `mask_to_value_list` (`misc/gindex_name_value.c:212-228`). -/
def maskToValueFrom (t : Table) (mask : Long) (length : Int) :
    Nat → Nat → Nat → Buf Long → Except Fault (Buf Long × Nat)
  | 0, _, ii, b => .ok (b, ii)
  | k + 1, i, ii, b => do
    let v ← t.value i
    if mask &&& v ≠ 0 then do
      let b ← b.write ii v
      if (ii + 1 : Int) ≥ length then .ok (b, ii + 1)
      else maskToValueFrom t mask length k (i + 1) (ii + 1) b
    else if (ii : Int) ≥ length then .ok (b, ii)
    else maskToValueFrom t mask length k (i + 1) ii b

def maskToValueList (t : Table) (mask : Long) (b : Buf Long) (length : Int) :
    Except Fault (Buf Long × Nat) := maskToValueFrom t mask length t.n 0 0 b

/-- `value_list_to_mask` (`misc/gindex_name_value.c:232-243`): `mask` is an
`int`, so every `mask |= values[i]` keeps the low 32 bits; the result is
converted to `long`. -/
def valueListToMask (vs : List Long) : Long :=
  (vs.foldl (fun (m : Word) v => (m.signExtend 64 ||| v).truncate 32) 0).signExtend 64

/-! ## Lists of names -/

/-- The characters of `a`, written from place `i`. -/
def writeStr (b : Buf Char) (i : Nat) : Str → Except Fault (Buf Char)
  | [] => .ok b
  | c :: cs => do
    let b ← b.write i c
    writeStr b (i + 1) cs

/-- `snprintf(s + n, size, "%s", a)`: nothing if `size` is zero, otherwise the
first `size - 1` characters of `a` and a null. The number returned is the length
of `a`. `length - n` is passed for a `size_t`: a negative difference is a size of
at least `2^63`, which no string here reaches. -/
def snprintf (b : Buf Char) (n : Nat) (length : Int) (a : Str) :
    Except Fault (Buf Char × Nat) :=
  let size := length - n
  if size = 0 then .ok (b, n + a.length)
  else
    let w := if size < 0 then a else a.take (size - 1).toNat
    do
      let b ← writeStr b n w
      let b ← b.write (n + w.length) '\x00'
      .ok (b, n + a.length)

/-- The loop of `mask_to_name_list` (`misc/gindex_name_value.c:158-180`). -/
def maskToNamesFrom (t : Table) (mask : Long) (length : Int) :
    Nat → Nat → Bool → Nat → Buf Char → Except Fault (Buf Char × Nat)
  | 0, _, _, n, b => .ok (b, n)
  | k + 1, i, flag, n, b => do
    let v ← t.value i
    if mask &&& v ≠ 0 then do
      let (b, n) ← if flag then snprintf b n length [','] else .ok (b, n)
      let s ← t.name i
      let (b, n) ← snprintf b n length s
      maskToNamesFrom t mask length k (i + 1) true n b
    else maskToNamesFrom t mask length k (i + 1) flag n b

def maskToNameList (t : Table) (mask : Long) (b : Buf Char) (length : Int) :
    Except Fault (Buf Char) := do
  let (b, n) ← maskToNamesFrom t mask length t.n 0 false 0 b
  b.write n '\x00'

/-- The delimiters `", \t"`. -/
def delim (c : Char) : Bool := c == ',' || c == ' ' || c == '\t'

/-- `strtok_r`: skip delimiters, then the characters up to the next delimiter,
which is stepped over. -/
def strtok (s : Str) : Option (Str × Str) :=
  match s.dropWhile delim with
  | [] => none
  | c :: cs => some ((c :: cs).takeWhile (fun c => !delim c), ((c :: cs).dropWhile (fun c => !delim c)).tail)

/-- The loop of `name_list_to_mask` (`misc/gindex_name_value.c:184-205`). `temp`
and `mask` are `int`. `fuel` bounds the number of tokens. -/
def nameListFrom (t : Table) : Nat → Str → Word → Except Fault Long
  | 0, _, mask => .ok (mask.signExtend 64)
  | fuel + 1, s, mask =>
    match strtok s with
    | none => .ok (mask.signExtend 64)
    | some (token, rest) => do
      let v ← nameToValue t token
      let temp : Word := v.truncate 32
      if temp.slt 0 then .ok (-1)
      else nameListFrom t fuel rest (mask ||| temp)

def nameListToMask (t : Table) (s : Str) : Except Fault Long :=
  nameListFrom t (s.length + 1) s 0

/-- `xrtm_string_list_to_mask` (`utils/input_util.c:424-446`) with the function
`NAME_name_to_mask` of the table. That function returns an enumeration of 32
bits, and it is called through a pointer to a function returning `long`: the
upper half is taken to be zero here, and only whether the result is zero is
looked at. -/
def stringListToMask (t : Table) : List Str → Long → Except Fault Long
  | [], options => .ok options
  | s :: ss, options => do
    let v ← nameToValue t s
    let mask : Long := ((v.truncate 32 : Word)).zeroExtend 64
    if mask = 0 then .ok (-1) else stringListToMask t ss (options ||| mask)

/-! ## The tables -/

/-- `xrtm_option_names` and `xrtm_option_masks` (`src/xrtm_interface.c:33-108`),
side by side. -/
def optionRows : List (Str × Word) := [
  ("calc_derivs".toList, OPT_CALC_DERIVS), ("reverse_derivs".toList, OPT_REVERSE_DERIVS),
  ("delta_m".toList, OPT_DELTA_M), ("n_t_tms".toList, OPT_N_T_TMS),
  ("four_conv_old".toList, OPT_FOUR_CONV_OLD), ("four_conv_new".toList, OPT_FOUR_CONV_NEW),
  ("no_azimuthal".toList, OPT_NO_AZIMUTHAL), ("output_at_levels".toList, OPT_OUTPUT_AT_LEVELS),
  ("output_at_taus".toList, OPT_OUTPUT_AT_TAUS),
  ("part_sol_classical".toList, OPT_PART_SOL_CLASSICAL),
  ("part_sol_greens".toList, OPT_PART_SOL_GREENS), ("phase_scalar".toList, OPT_PHASE_SCALAR),
  ("phase_matrix_gc".toList, OPT_PHASE_MATRIX_GC),
  ("phase_matrix_lc".toList, OPT_PHASE_MATRIX_LC), ("psa".toList, OPT_PSA),
  ("quad_norm_gaus_leg".toList, OPT_QUAD_NORM_GAUS_LEG),
  ("quad_doub_gaus_leg".toList, OPT_QUAD_DOUB_GAUS_LEG),
  ("quad_lobatto".toList, OPT_QUAD_LOBATTO), ("save_leg_polys".toList, OPT_SAVE_LEG_POLYS),
  ("save_phase_mats".toList, OPT_SAVE_PHASE_MATS),
  ("save_local_r_t".toList, OPT_SAVE_LOCAL_R_T),
  ("save_layer_r_t_s".toList, OPT_SAVE_LAYER_R_T_S),
  ("save_total_r_t_s".toList, OPT_SAVE_TOTAL_R_T_S), ("sfi".toList, OPT_SFI),
  ("source_solar".toList, OPT_SOURCE_SOLAR), ("source_thermal".toList, OPT_SOURCE_THERMAL),
  ("stack_reuse_adding".toList, OPT_STACK_REUSE_ADDING),
  ("top_down_adding".toList, OPT_TOP_DOWN_ADDING),
  ("bottom_up_adding".toList, OPT_BOTTOM_UP_ADDING),
  ("upwelling_output".toList, OPT_UPWELLING_OUTPUT),
  ("downwelling_output".toList, OPT_DOWNWELLING_OUTPUT), ("vector".toList, OPT_VECTOR)]

/-- `xrtm_solver_names` and `xrtm_solver_masks` (`src/xrtm_interface.c:114-147`). -/
def solverRows : List (Str × Word) := [
  ("doub_add".toList, SOLVER_DOUB_ADD), ("eig_add".toList, SOLVER_EIG_ADD),
  ("eig_bvp".toList, SOLVER_EIG_BVP), ("four_stream".toList, SOLVER_FOUR_STREAM),
  ("mem_bvp".toList, SOLVER_MEM_BVP), ("pade_add".toList, SOLVER_PADE_ADD),
  ("single".toList, SOLVER_SINGLE), ("six_stream".toList, SOLVER_SIX_STREAM),
  ("sos".toList, SOLVER_SOS), ("two_os".toList, SOLVER_TWO_OS),
  ("two_stream".toList, SOLVER_TWO_STREAM)]

/-- `xrtm_output_names` and `xrtm_output_masks` (`src/xrtm_interface.c:272-284`). -/
def outputRows : List (Str × Word) := [
  ("radiance".toList, OUTPUT_RADIANCE), ("radiance_mean".toList, OUTPUT_RADIANCE_MEAN),
  ("flux".toList, OUTPUT_FLUX), ("flux_divergence".toList, OUTPUT_FLUX_DIVERGENCE)]

/-- The two arrays of a list of rows of words; the masks are positive `long`s
(`1L<<31` too). -/
def tableOf (rows : List (Str × Word)) (n : Nat) : Table :=
  { names := rows.map (·.1), values := rows.map (fun r => r.2.zeroExtend 64), n := n }

/-- `N_XRTM_OPTIONS` is 32 (`src/xrtm_interface.h:36`). -/
def optionTable : Table := tableOf optionRows 32
/-- `N_XRTM_SOLVERS` is 11. -/
def solverTable : Table := tableOf solverRows 11
/-- `N_XRTM_OUTPUTS` is 4. -/
def outputTable : Table := tableOf outputRows 4

/-- `xrtm_kernel_names` and `xrtm_kernel_types` (`src/xrtm_brdf.c:25-51`). -/
def kernelTable : Table :=
  { names := ["lambertian".toList, "direct_and_diffuse".toList, "roujean".toList,
      "li_sparse".toList, "li_dense".toList, "ross_thin".toList, "ross_thick".toList,
      "hapke".toList, "rahman".toList, "cox_munk".toList, "user_defined".toList],
    values := [0, 1, 2, 3, 4, 5, 6, 7, 8, 9, 10], n := 11 }

/-- `xrtm_fd_method_names` and `_types` (`src/xrtm_fd_interface.c:21-31`). -/
def fdMethodTable : Table :=
  { names := ["forward".toList, "backward".toList, "central".toList],
    values := [0, 1, 2], n := 3 }

/-- `xrtm_input_names` and `xrtm_input_types` (`src/xrtm_interface.c:153-265`).
The names begin with an empty one, since the enumeration begins at one; there is
no comma between the last two, so they are one string; the values begin with the
first of the enumeration, `INPUT_DOUB_D_TAU`, and end with the last but one.
`N_INPUTS` is 35. -/
def inputTable : Table :=
  { names := ["".toList, "doub_d_tau".toList, "pade_params".toList, "sos_params".toList,
      "fourier_tol".toList, "lambda".toList, "planet_r".toList, "levels_z".toList,
      "out_levels".toList, "out_taus".toList, "out_thetas".toList, "F_iso_top".toList,
      "F_iso_top_l".toList, "F_iso_bot".toList, "F_iso_bot_l".toList, "F_0".toList,
      "theta_0".toList, "phi_0".toList, "levels_b".toList, "levels_b_l".toList,
      "surface_b".toList, "surface_b_l".toList, "g".toList, "g_l".toList, "coef".toList,
      "coef_l".toList, "omega".toList, "omega_l".toList, "ltau".toList, "ltau_l".toList,
      "kernel_ampfac".toList, "kernel_ampfac_l".toList, "kernel_params".toList,
      "kernel_params_lkernel_funcs".toList],
    values := (List.range 33).map (fun i => BitVec.ofNat 64 (i + 1)), n := 35 }

/-- `eigen_solver_gen_real_names` and `_types` (`src/xrtm_support.c:19-38`): the
names do not depend on what the library is built with, the values do
(`fortran` is `HAVE_FORTRAN_COMPILER`, `eispack` is `HAVE_EISPACK_LIBRARY`); the
enumeration counts the same members, and the array ends with its size. -/
def eigenRealTable (fortran eispack : Bool) : Table :=
  let n := (if fortran then 1 else 0) + (if eispack then 1 else 0) + 1
  { names := ["asymtx".toList, "eispack".toList, "lapack".toList],
    values := (List.range (n + 1)).map (BitVec.ofNat 64), n := n }

end Xrtm.Names
