# Formal model of XRTM in Lean 4: design

Subject: `/repo` (gmcgarragh/xrtm, C).  The model lives in `lean/Verif/`, one
directory per role:

* `Verif/Model/*.lean`  definitions only; every definition cites the C file and
  lines it models and says where it simplifies.
* `Verif/Spec/*.lean`   small specifications, written without reference to the
  model's helpers.
* `Verif/Proof/*.lean`  helper lemmas.
* `Verif/Props/*.lean`  the property theorems (one file per group), each with a
  concrete `example` beside it showing the hypotheses can be met.

## Trusted base

* Lean 4.33.0 kernel; Mathlib as installed.
* Axioms: at most `propext`, `Classical.choice`, `Quot.sound` (checked with
  `#print axioms` in `Verif/Audit.lean`).  No axioms of our own, no `sorry`, no
  `native_decide`, no `bv_decide`.
* The correspondence between the C text and the Lean definitions is by reading;
  the line citations are there so that it can be audited.

## Modelling conventions

* C `int` counts and indices: `Nat` where the code has already range checked
  them, `Int` where an argument is still unchecked.  Overflow of `int`
  arithmetic on sizes is not modelled unless stated.
* Bit masks: `BitVec 32` (the C type is a 32 bit `int`).
* Doubles: in the state machine modules the number type is a *parameter* `F`
  with uninterpreted operations and comparisons (class `Fp`), so theorems hold
  for IEEE doubles (incl. NaN) as well as for exact reals.  In the numerical
  algebra modules quantities are elements of an arbitrary field / real numbers /
  an arbitrary (non commutative) ring standing for n x n matrices: rounding is
  not modelled and this is said at each theorem.
* Undefined behaviour (out-of-range array access, use of a missing allocation)
  is a distinct outcome `ub`, never a default value.
* Matrix factorisation + back substitution (`dmat_getrf`/`dmat_getrs`) is
  modelled as multiplication by a two sided inverse, given as hypothesis.

## Plan per property

C01-C03 `Model/Options`: the three check functions and the defaulting code of
  `xrtm_create` over `BitVec 32`/`Int`; theorem: accepted iff rule list of
  `Spec/Options` holds.
C04-C08 `Model/State`: instance record, each setter/getter as total function
  to `Outcome`; histories = `List Op`; invariants by induction over histories.
  Where the code violates the property (see Disagreements) the negation is
  proved with a witness and the largest true part is kept as `_partial`.
C09-C13 `Model/Cache`: every cached quantity with its dependency word; physics
  uninterpreted; coherence invariant "clean flag => stored = fresh".
C14 `Model/Utau`: `update_utaus` over an ordered field.
C15-C16 `Model/Derivs`, `Model/Flags`.
C17 `Model/Stacks`.
C18-C19 `Model/SaveTree`, `Model/AATree`.
C20, C39 `Model/Work`: page arena and typed lists with nested scopes.
C21 `Model/Alloc`: pointer table layout for arbitrary rank.
C22-C23 `Model/Names`.
C24-C25 `Model/Fourier`.
C26-C27, C35 `Model/DeltaM`, `Model/Singular`: exact derivatives via `HasDerivAt`.
C28-C32 `Model/Adding`, `Model/Doubling`, `Model/Radiance`: operators in an
  arbitrary ring with a module of source vectors; derivatives through an
  arbitrary first order perturbation (dual numbers).
C33 `Model/Single`.  C34 `Model/Adjoint`.  C36 `Model/Beam`.
C37 `Model/Resources`.  C38 `Model/Solution2`.  C40 part of `Model/Cache`.

(Updated as the model grows; see the sections below.)

## What is modelled so far, and where it is simplified

| Module | C code | Simplifications |
|---|---|---|
| `Model/Options` | `check_options`, `check_counts`, `check_solvers`, defaulting in `xrtm_create` | messages dropped |
| `Model/State` | every `xrtm_set_*`/`xrtm_get_*` input accessor, the input gate | numbers uninterpreted; memory as cells |
| `Model/Cache` | the `dep_flags_*` words, `init_deps`, `set_deps`, `resolve_deps*`, SAVE_* caches, `xrtm_solution` skeleton | physics uninterpreted (`Physics`); direct-beam arrays treated as computed at each use (their own staleness is `Model/Beam`); the solver is fixed per `Physics`; normalisation check is a function of the stored value; `runs` is a ghost recomputation counter |
| `Model/Beam` | `beam_params_update` 406-470, its callers' `clear`/`upto` arguments, the beam dependency words | one flag bit per (layer) word instead of the 32 bit word; layer thickness and Chapman factors are functions of the inputs; arithmetic in class `Arith` (order of operations kept) |
| `Model/Chapman` | `chapman_functions` (`xrtm_utility.c:891`) | exact reals; reading `chap[i][-1]` is `none` |
| `Model/DeltaM` | `delta_m_*`, `n_t_tms_scaling`, `singularity_adjust_*`, `get_delta_m_f`, `mu_0_singularity_adjust` | exact reals; one derivative instead of a loop; conditional flags of `update_opt_props` all on |
| `Model/Utau` | `update_utaus`, `check_inputs_post_checks` | any linear order and any (rounded) sums; NaN excluded; out-of-bounds read is `none` |
| `Model/Derivs` | `build_derivs_*`, `update_varied_layers`, `flags_*`, `derivs_merge_s`, union words | flag tables as functions of row and derivative; zero test on any number type with decidable `= 0` |
| `Model/MatProg` | the `dmat_*`/`dm_v_*` calls | arrays as cells of a memory, each call one instruction with its own in-place hazards; `dmat_getrf` is exact inversion or the outcome `singular`; exact ring arithmetic |
| `Model/Adding` | `layer_add_ref/all/ref2/all2`, `source_add_all(2)` and all their helpers, `layer_copy_*_l` (`xrtm_adding.c`) | each helper is the list of its library calls; the argument arrays are a `Fr`ame so that aliasing is part of the model; polarised phase (`U_W_V` matrices) not modelled |
| `Model/Total` | loops of `get_total_TOA_R_S_U_V`, `get_total_BOA_R_S_U_V`, `get_total_R_T_S_U_W_V`, codes of `xrtm_adding.h:20-46` | dependency flags of these routines are in `Model/Cache` |
| `Model/Doubling` | `layer_double(_s)(_l)` and helpers (`xrtm_doubling.c`), `rtm_doub_rts` start and loop, `calc_doub_params` (`xrtm_doub_rts.c:25-300`) | each helper is the list of its library calls; `exp`, `log2`, `ceil` of reals |
| `Model/NoScatter` | `no_scatter_r_t_s` (`xrtm_utility.c:1400`), its choice at `xrtm_model.c:2276` | whole arrays written at once; `exit(1)` is an outcome |
| `Model/Radiance` | `radiance_slab`, `radiance_toa_ref/all`, `radiance_boa_ref/all` (`xrtm_radiance.c`), ends of `fourier_get_add_top_down/bottom_up/both_ways` (`xrtm_model.c:4496-4950`) | argument arrays all different; saved results for the adjoint left out; `radiance_to_mean/flux` not modelled |
| `Model/AATree` | `gstruct_aatree.h`: insert, find, delete, rebalance, min/max, advance/retreat, count, print, empty | nodes as trees with their addresses and `parent` members; `malloc` succeeds; a write that would change the shared null node is an outcome; the `_type` functions (same code with `<`) not repeated |
| `Model/SaveTree` | `xrtm_save_tree.c` (all), tree use of `get_local_r_t_u_w_all` (`xrtm_model.c:1886-1985`) | on `Model/AATree`; calls as copy/restore of `i`; sizes of records left out; one label string per `encode` (`encode_i_j`'s `snprintf` is a string) |
| `Model/Alloc` | `misc/gutil_alloc.c`: `array_mem_length`, `ptr_array_init/assign`, `from_mem_ptr_array`, `alloc_array`, `array_from_mem` (flag 0), `dup_array`, `realloc_array7`'s dimensions | one block with the pointers in it; `int` temporaries taken not to overflow; `malloc` succeeds |
| `Names` | `misc/gindex_name_value.c` (whole), tables of `src/xrtm_interface.c:33-288`, `src/xrtm_brdf.c:25-51`, `src/xrtm_fd_interface.c:21-31`, `src/xrtm_support.c:19-38`, `utils/input_util.c:424-446` | C strings are lists of characters; reading past a table and writing past a buffer are faults; `snprintf` with a size above `INT_MAX` is taken to write everything, as the GNU library does; that `strtok_r` overwrites the list is not modelled |
| C20, C39 | `Model/Work`, `Spec/Work`, `Proof/Work`, `Proof/WorkLists`, `Props/Work` | `xrtm_work.c` as compiled with `LEGACY`: pages, cursor, typed lists, tables, `work_free`; not the `#else` variants |
| C17 | `Model/Stacks`, `Spec/Stacks`, `Proof/Stacks`, `Proof/StackWalks`, `Proof/StackStore`, `Props/Stacks` | `build_stack_chain`, `stack_chain_alloc` (who takes over what), `stack_chain_find`, the stack grid, `build_layer_stacks` (what is computed when), the loops of `get_total_R_T_S_U_W_V_2` and `get_total_TOA_R_S_U_V_2`; not `get_total_BOA_R_S_U_V_2`, whose option pair is refused, nor the reuse of factors found by `stack_chain_find2` |
| C24, C25, C45 | `Model/Fourier`, `Spec/Fourier`, `Proof/Fourier`, `Proof/FourierState`, `Props/Fourier` | `get_solution_internal`, `max_radiance_ratio`, `radiance_to_mean`, `radiance_to_flux`, `update_n_four2`, `xrtm_set_out_levels`; a term (`get_fourier`) and the corrections are arbitrary functions that may fail; rounding is left out of the test of the tolerance (`C24_enough` is over the reals, `C24_sum` over any numbers) |
| C33 | `Model/Single`, `Spec/Single`, `Proof/Single`, `Proof/SingleReal`, `Props/Single` | `ssr_up_layer`, `ssr_dn_layer` (with their input as their output), `single_scattered_radiance_up`, `single_scattered_radiance_dn`, `n_t_tms_correction_up`, `n_t_tms_correction_dn`; the loops over any numbers, the formulas over the reals and over reals with a value for what is not finite; not the copies kept for the adjoint |
| C38 | `Model/Solution2`, `Spec/Solution2`, `Proof/Solution2`, `Props/Solution2` | `xrtm_solution_2` whole; `get_solution` and `get_solution_internal_a` are given functions that may fail; products of counts do not overflow |
| C37 | `Model/Resources`, `Proof/Resources`, `Proof/ResourcesRun`, `Props/Resources` | every allocation of `xrtm_create` and every free of `xrtm_destroy` and `check_inputs_initialized` as tables of guarded statements (generated from the text), `stack_chain_alloc`, `stack_chain_free`, `layer_add_aux_*`, `xrtm_create2`, `xrtm_destroy2`; memory is a multiset of named pieces; allocation does not fail; work structures and the save tree are left to C39 and C18 |
| C34 | `Model/Adjoint`, `Model/AdjointU`, `Spec/Adjoint`, `Proof/Adjoint`, `Proof/AdjointRun`, `Proof/AdjointTotal`, `Props/Adjoint` | `src/xrtm_adding_a.c` as lists of matrix calls, the loop of `get_total_TOA_R_S_U_V_a` with a surface, `src/xrtm_utility_a.c`, `opt_props_update_a`, `get_delta_m_f_a`; over exact reals; `atran = 1` as both callers have it; not the other `*_a.c` files |
| C43 | `Model/Loops`, `Model/Boundary`, `Spec/Boundary`, `Proof/Boundary`, `Props/Boundary` | `diff_bound_input_update` loop by loop with its two locals that outlive their loops; exact numbers; the reflection arrays are inputs; not the copies for the reverse mode |
| C46 | `Model/Loops`, `Model/Brdf`, `Spec/Brdf`, `Proof/Brdf`, `Props/Brdf` | `src/xrtm_brdf.c`: all kernels, the loops over kernels, directions and azimuths with the scratch array `f_l`, the Fourier terms; exact reals and real functions for doubles and the C library; first Stokes element only (the others are cleared); not the symmetric form of `brdf_vecs_get` |
| C47 | `Model/FiniteDiff`, `Spec/FiniteDiff`, `Proof/FiniteDiff`, `Props/FiniteDiff` | `src/xrtm_fd_interface.c`: `perturb_values`, `xrtm_fd_solution`, `xrtm_fd_set_levels_b_p_1`; the instance below is any rule of acceptance and any response; exact field arithmetic; not the other setters and getters of steps nor the allocation |
| C48 | `Model/Legendre`, `Spec/Legendre`, `Proof/LegendreMath`, `Proof/Legendre`, `Props/Legendre` | `leg_poly2`, `leg_poly_assoc2` (misc/rtutil_math.c), `Y_x_get`, `get_Y_p/0/u` (xrtm_model.c), `scat_angle`, `phase_func`, `calc_Y_x`, `build_phase_vecs_scalar`, `build_phase_mats_scalar` (xrtm_scatter.c); real arithmetic; not the vector matrices |
| C49 | `Model/Source`, `Spec/Transfer`, `Proof/Source`, `Proof/SourceD`, `Props/Source` | `build_local_r_and_t`, `build_txr`, `build_gamma`, `dm_v_mul_D_A`, `dmat_mul_D_A` (xrtm_utility.c), `build_source_vectors_solar_classic_1n`, `build_thermal_source_coefficients`, `build_source_vectors_thermal`, `build_global_source_solar2`, `build_global_source_thermal` (xrtm_source.c); real arithmetic, an exact linear solver; not the Green's function solution, not the 2n variant |
| C50 | `Model/Eig`, `Proof/Eig`, `Proof/EigD`, `Props/Eig` | `is_trivial_eigenvector`, `zero_eigen_derivs`, `eigen_derivatives_real`, `eig_1n_gen_real`, `eig_1n_to_2n_real` (xrtm_eig_util.c), `calc_global_r_and_t`, `calc_global_r_and_t2` (xrtm_eig_rts_x.c), the homogeneous part of `rtm_eig_rts`, `phase_matrix_symmetry_ldx3` for a square matrix; real and complex arithmetic, an exact linear solver, eigenvectors given; not the packing of complex pairs |
| C51 | `Model/Bvp`, `Spec/Stack`, `Proof/Bvp`, `Proof/BvpRows`, `Proof/BvpModes`, `Proof/BvpStack`, `Proof/BvpD`, `Proof/BvpSing`, `Props/Bvp` | `SOLVE_BVP`, `CALC_RADIANCE_LEVELS`, `CALC_RADIANCE_TAUS` and their derivatives (xrtm_eig_bvp_x.c), `insert_matrix_band_storage1/2` (xrtm_matrix.c), the turn of the result (xrtm_eig_bvp.c:988-999); real and complex arithmetic, writes to the band array checked, an exact band solver, modes and particular solutions from `Model/Eig` and `Model/Source`; not sfi, not the Green's function source, not the adjoint |
| C52 | `Model/Whole`, `Proof/Whole`, `Props/Whole` | `get_layer_R_T_S_U_W_V` for the eigenmatrix solver (xrtm_model.c:2276-2335), `scale_add_source_vectors`, `scale_source_vectors_solar` (xrtm_source.c:1044-1143); put together with `Model/Eig`, `Model/Source`, `Model/NoScatter`, `Model/Total`, `Model/Radiance`, `Model/Bvp` |
| C53 | `Model/Sos`, `Spec/Orders`, `Proof/Sos`, `Proof/SosRun`, `Proof/SosDeriv`, `Props/Sos` | `rtm_sos` (xrtm_sos.c:21-540), values and derivatives; `DBL_MAX` as no bound |
| C54 | `Model/PhaseVec`, `Spec/PhaseVec`, `Proof/PhaseVecMath`, `Proof/PhaseVec`, `Proof/PhaseVecSum`, `Proof/PhaseVecAdd`, `Proof/PhaseVecFull`, `Props/PhaseVec` | `basic_matrix`, `gc_to_B`, `build_phase_vecs_vector_gc`, `build_phase_mats_vector_gc`, `phase_matrix_symmetry3`, `build_scat_vector_gc`, `scat_vector_rotate_hovenier` (xrtm_scatter.c), rows `p00`, `p0p2` of `gen_spher_funcs_prt`; over the reals |
| C55 | `Model/TwoStream`, `Spec/TwoStream`, `Proof/TwoStream`, `Proof/TwoStreamSing`, `Proof/TwoStreamD`, `Proof/TwoStreamI`, `Proof/TwoStreamP`, `Props/TwoStream` | `rtm_two_stream` without radiances for other directions (xrtm_two_stream.c:50-1025); over the reals with not-a-number an outcome of its own, LAPACK as an exact solver that is given |
| C56 | `Model/Sfi`, `Spec/View`, `Proof/View`, `Proof/SfiSweep`, `Proof/Sfi`, `Proof/SfiAir`, `Proof/SfiSeen`, `Proof/SfiD`, `Props/Sfi` | `sfi_up`, `sfi_dn`, `sfi_layer`, the beam and thermal sources (xrtm_sfi_x.c:1-153, 283-1514, sfi_block.h), and their use in `rtm_eig_bvp` (xrtm_eig_bvp.c:783-999); not the beam by Green's functions (155-280) |
| C57 | `Model/MemBvp`, `Proof/MemBvp`, `Proof/MemBvpLight`, `Proof/MemBvpStack`, `Proof/MemBvpSame`, `Proof/MemBvpD`, `Props/MemBvp` | `SOLVE_BVP`, `CALC_RADIANCE_LEVELS`, `CALC_RADIANCE_TAUS` and their derivatives (xrtm_mem_bvp_x.c), and their use in `rtm_mem_bvp` (xrtm_mem_bvp.c:94-482); the linear solver is taken as exact |
| C58 | `Model/TwoOs`, `Proof/TwoOs`, `Proof/TwoOsD`, `Props/TwoOs` | `rtm_two_os` (xrtm_two_os.c:25-788) with its derivatives, what stands under `if (0)` left out |
| C59 | `Model/Pade`, `Proof/PadeA`–`PadeD`, `Props/Pade` | xrtm_pade_rts.c without `use_symmetric_form`: choice of `s` and `r`, coefficients, numerator, denominator, `calc_r_and_t`, doubling, derivatives |
| C60, C61 | `Model/Streams`, `Spec/Streams`, `Spec/Loss`, `Proof/Streams`, `Proof/StreamsP`, `K`, `L`, `T`, `V`, `X`, `Proof/Loss`, `Props/Streams` | xrtm_four_stream.c and xrtm_six_stream.c without further directions: tables, phase matrices, closed forms, source, band system, radiances at levels and depths |
| C62 | `Spec/Loss`, `Proof/Loss`, `Proof/Tame`, `Proof/TameL`, `Props/Loss` | the exits for singular matrices in the adding, boundary value and eigenmatrix routines |
| C63 | `Spec/Quad`, `Model/Gauss`, `Proof/GaussMath`, `Proof/Gauss`, `Props/Gauss` | `misc/rtutil_math.c` 73-316, `xrtm_interface.c` 1132-1135; the fitted, trapezoidal and Simpson rules are C71 |
| C64 | `Spec/Phase`, `Proof/Phase`, `Proof/PhaseEig`, `Props/Phase` | joins C46, C48, C51, C52, C62, C63: `xrtm_scatter.c` 262-297, `xrtm_utility.c` 960-1115, `xrtm_brdf.c` 1009-1069 for the Lambertian kernel; scalar |
| C65 | `Model/BvpCall`, `Props/BvpCall` | `fourier_get_bvp` (xrtm_model.c:4960-5393): which array is pointed to, computed, read by the solver and copied under which condition; the numbers are in the models of the solvers |
| C66 | `Model/Clear`, `Proof/Clear`, `Props/Clear` | `init_array1_d`–`init_array5_d` (galloc.h) on the blocks of C21; the clearing in `get_solution_internal` (xrtm_model.c:6215-6223), clearing and stores of `get_single` (4374-4380, 4386-4474) |
| C67 | `Model/SingleA`, `Spec/SingleA`, `Proof/SingleA`, `Props/SingleA` | `single_scattered_radiance_up_a`, `..._dn_a`, `n_t_tms_correction_up_a`, `..._dn_a` (xrtm_single_a.c) |
| C68 | `Model/AdjointS`, `Spec/AdjointS`, `Proof/AdjointS`, `Props/AdjointS` | `build_source_vectors_1n_a`, `build_global_source_a`, `..._a2`, `scale_source_vectors_a` (xrtm_source_a.c), `radiance_slab_a`, `radiance_toa_ref_a`, `radiance_toa_all_a`, `radiance_boa_all_a` (xrtm_radiance_a.c), their calls in `fourier_get_add_bottom_up_a` and `fourier_get_add_both_ways_a` (xrtm_model_a.c) |
| C69 | `Model/EigA`, `Proof/EigA`, `Props/EigA`, `Props/EigPol` | `calc_global_r_and_t_a` (xrtm_eig_rts_x_a.c), `eigen_derivatives_real_a`, `eig_1n_gen_real_a`, `eig_1n_to_2n_real_a`, `eig_2n_gen_real_a` (xrtm_eig_util_a.c), `eig_1n_gen_complex_a`, `eig_1n_to_2n_complex_a` (pairs of complex eigenvalues), the choice of columns of `eig_1n_gen_complex` with real eigenvalue |
| C70 | `Model/EigRounds`, `Proof/EigRounds`, `Props/EigRounds` | the loops over columns of `eig_1n_gen_complex`, `eig_1n_to_2n_complex` (xrtm_eig_util.c) and their reverse (xrtm_eig_util_a.c) |
| C71 | `Model/Rules`, `Proof/Rules`, `Props/Rules` | `extended_trapezoidal_quad`, `gauss_leg_quad_fit_l`, `simpsons_rule_quad`, `trapezoidal_quad` (misc/rtutil_math.c 40-67, 320-442), the loop of `get_particle_dist_quad` (misc/rtutil_size_dist.c 167-180); exact reals; `r1_l == NULL` is the derivative zero |
| C72 | `Model/Peak`, `Spec/Peak`, `Props/Peak` | `delta_m_coef` (of `Model/DeltaM`), `build_scat_matrix_lc` (src/xrtm_scatter.c) |

Hypotheses special to the cache theorems: `Calm` (no refused call with a lasting
effect and no setter that fails to announce its change), `NoSave` (no SAVE_*
option), `Covered` (the dependency word of the quantity contains every input the
physics reads), each shown satisfiable by an example.

## Disagreements between code and property

Where the code does not have the property, the negation is proved by a witness
(`*_violated*`) and the largest part we could prove is kept as `*_partial`.

Witnesses stated on the state machine are reached by listed calls. For those
stated on a numerical routine alone, that its inputs can be stored is not proved
but was read off the setters: equal heights (`xrtm_interface.c:3100` refuses
`>`), albedo zero (4311 refuses `< 0`, `> 1`), emission zero (3644 refuses `< 0`),
`F_0 = 0` (3514 refuses `< 0`); no rule of 500-730 refuses VECTOR or
STACK_REUSE_ADDING together with SOURCE_THERMAL for the adding solvers. A
thickness of zero is refused (4477), so `C33_thin_not_finite` is no disagreement.

* C03 words combining several solver bits pass the solver check
  (`C03_combined_words_slip_through`).
* C04 the gate does not ask for everything a solution reads (`C04_violated`).
* C05 refused calls can leave a trace: `set_out_taus`, `set_coef*`,
  `set_theta_0`, `set_out_thetas` (`C05_violated_*`).
* C06 getters returning something else than the last accepted value
  (`C06_violated_lambda`, `C06_violated_coef`).
* C07 accessors that do not check an index (`C07_violated_layers`,
  `C07_violated_kernel`).
* C08 stored values out of range: unnormalised coefficients, NaN
  (`C08_violated_norm`, `C08_violated_nan`).
* C09 forgotten dependencies: `diff_bound_input_deps` lacks `SURFACE_B`;
  `layer_R_T_S_U_W_V_deps` lacks `F_0`, `DOUB_D_TAU`, `LEVELS_B`; the singularity
  adjustment of `mu_0` is not announced (`C09_violated_*`).
* C40 after a failing solution a second one can succeed with stale values
  (`C40_violated`).
* C10 the beam arrays are updated only down to the last layer asked for, and
  their flag is cleared for all: after a change and a solution that reads few
  layers a later one reads stale values (`C10_violated_both_ways`,
  `C10_stale_both_ways`); `xrtm_solution_2` switches derivatives off and clears
  the flags, so later derivatives of the beam are stale (`C10_stale_derivs`).
* C14 the validation is skipped when a refused `set_out_taus` changed the depths
  (`C14_violated_validation`).
* C35 `singularity_adjust_up`/`_down` move values that are far above the base
  (`C35_violated_up`, `C35_violated_down`); moving `mu_0` off one node can put it
  exactly on another (`C35_violated_nodes`).
* C15 a derivative of the isotropic input from below is in no source table, so
  with a surface the bottom-up adding drops it (`C15_violated_iso`).
* C16 the metadata `and` of a word with more than one kind of flag
  (`C16_violated_and`); the `_m` unions are filled from the tables of term 0
  and `beam_m_union` is never written (`C16_violated_beam_m`,
  `C16_violated_layers_m`).
* C36 two equal level heights at the top, which `xrtm_set_levels_z` accepts,
  make `chapman_functions` read index -1 (`C36_violated_top`); in the pseudo
  spherical geometry the transmittance can increase with depth
  (`C36_violated_increasing`).
* C30 `layer_add_all` has no case for the code `S_U` and leaves the derivatives
  of the sources as they were. With thermal emission the tables give this code
  for the layers below a level whose temperature varies (`C30_violated_SU`).
  The codes `L_S`, `S_L` have no case either and `L_B`, `B_L` exit; the tables
  never give these (`down_codes`, `up_codes`). `layer_add_ref` called with
  `flag` has roles exchanged for `B_L`; never given either. The derivative
  theorems are for `t = 1`, `t_l = 0`, which is what all callers pass.
* C31 `rtm_doub_rts` starts the source derivative of a derivative that varies
  only the beam at zero (`xrtm_doub_rts.c:240-243`) although the source of the
  thin layer depends on the attenuation per thickness (`C31_violated_beam`).
* C31 The thermal start divides by the emission at the layer's top and treats
  zero there as no emission at all, so a layer whose top is at zero emission
  emits nothing whatever its bottom emits (`C31_violated_planck`).
* C31 The thermal start is put in every Stokes component, so with VECTOR the
  emission of a layer is polarised (`C31_violated_stokes`). VECTOR with
  SOURCE_THERMAL is not refused. At the end the code multiplies `S_m` but not
  `Sl_m` by the symmetry matrix `D`.
* C42 `no_scatter_r_t_s` ends the process for thermal sources; albedo zero is
  an accepted input (`C42_violated_exit`). The derivative by the albedo is
  dropped there as well: `R_l = 0`.
* C32 `fourier_get_add_top_down` never uses the light that comes in at the top:
  `F_iso_top` is lost (`C32_violated_iso_top`). Without a surface it writes zero
  for the light up, and `fourier_get_add_bottom_up` starts from the lowest layer:
  `F_iso_bot` is lost in both (`C32_violated_iso_bot`). Both ways has neither.
* C32 `radiance_boa_all` has no case for `S_S`, `S_L`, `S_B`, `L_S`, `L_B`: the
  derivative arrays keep what they held (`C32_violated_SS`). `S_U` forgets the
  variation of the light that comes in at the top or starts at the bottom
  (`C32_violated_SU`), `L_L` that of the light that starts at the bottom
  (`C32_violated_LL`). `radiance_boa_ref` moreover has none for `U_S` and `S_U`
  (`C32_violated_top_down_codes`). `S_S`, `S_B`, `S_U`, `U_S` arise with thermal
  emission, `L_L` without sources.
* C44 `aatree_create` does not set `dele_node`: the first deletion, of a key
  smaller than all, reads through it (`C44_violated_first`). Deletion does not
  mend `parent` when a right child takes the place of the freed node, so walking
  reads freed memory (`C44_violated_walk`). `aatree_empty` leaves `dele_node`
  pointing at a freed node (`C44_violated_empty`). xrtm itself never deletes.
* C18 The saved results are keyed by a 64-bit hash of the joined labels: labels
  that join to the same string, or collide, share a record
  (`C18_violated_join`, `C18_violated_hash`); the 128th nested label is written
  beyond `hash` (`C18_violated_depth`). With SAVE_LOCAL_R_T
  `get_local_r_t_u_w_all` does not encode the layer, so all layers get one
  record (`C18_violated_local`); its adjoint (`xrtm_model_a.c:941`) does nothing
  in that case.
* C21 `alloc_array` with a zero dimension that is not the last writes a pointer
  beyond its block (`C21_violated_zero`; xrtm guards the counts that can be
  zero). `dup_array` copies the table of pointers, so the copy shares the
  original's elements (`C21_violated_dup`). `realloc_array7` assigns `dimen[3]`
  twice and never `dimen[4]` (`C21_violated_realloc7`).
* C22 the table of input names lacks a comma (`xrtm_interface.c:187-188`), so the
  name of `INPUT_KERNEL_FUNCS`, printed when it is not set, is read past the end
  of the table, and any unknown name runs past the end; its values are one row
  away from its names. `mask_to_index_list` with no room writes one element. The
  names of the eigenvalue solvers are not conditional where the values are. The
  input file reader (`utils/input_util.c:437`) and `utils/callxrtm.c:203` take
  the error value -1 of an unknown name for a mask with all bits.
* C23 `name_list_to_mask` keeps each value in an `int`, so the option `vector`
  (bit 31) is negative and any list with it is refused. `mask_to_name_list` runs
  past a buffer that is too short (`length - n` becomes a huge `size_t`).
* C39 `work_free` does not go through the list of `WORK_DQQ`; an array of
  that type is never freed (`C39_violated_dqq`). No code asks for one.
* C39 `work_get2` given `WORK_BOTH_V` goes on with unset pointers, and the
  count kept in front of flags is trusted: where it is short, pointers are read
  from past the end of the list (`C39_violated_both`, `C39_violated_count`).
* C17 `stack_chain_alloc` marks a stack taken over from the last chain as
  computed (`new_ = 0`) though it may not have been: after two calls of
  `xrtm_update_varied_layers` without a solution between them, or with one that
  stopped before that Fourier term, a stack that was new in the first is added
  with matrices that were never written (`C17_violated_unwritten`).
* C17 the codes in the two `_2` loops are derived from `derivs.layers` alone, so
  the derivative of a layer's thermal emission is not copied or added when no
  optical property of the layer varies (`C17_violated_thermal`); nothing refuses
  `STACK_REUSE_ADDING` with `SOURCE_THERMAL`.
* C24 the single scattering solver leaves `misc_output.fourier_count` as it was,
  so it reports the number of terms of an earlier solution or whatever the
  structure held (`C24_violated_single`).
* C24 the test of the tolerance looks at the first Stokes component of the
  radiances alone; derivatives that have not converged are cut with them
  (`C24_derivatives_cut`).
* C25 the direct beam of outputs after the first is taken at the bottom, that of
  the first at the top (`jj = j == 0 ? 0 : n_layers`), whatever levels were asked
  for (`C25_violated_bottom`, `C25_violated_inside`).
* C45 with more than one Stokes component the means and fluxes add all components,
  since the weights are stored once per component (`C45_violated_stokes`).
* C45 the derivatives of means and fluxes and the flux divergence are arguments of
  the function and are never written (`C45_violated_not_written`).
* C33 with `F_0 = 0`, which is accepted, the single scattering code returns zero
  although a radiance comes in at the boundary (`F_iso_top`, `F_iso_bot`; thermal
  sources are refused for this solver) (`C33_violated_no_sun`).
* C33 when the mean slope of the beam in a layer is `1 / mu` of an output angle the
  downward radiance is `0 / 0`; the adjustment of `mu_0` (C35) guards against this
  in plane parallel geometry only (`C33_violated_resonance`).
* C33 for output at optical depths the derivatives are those for a place that
  keeps its relative depth in its layer, not for the depth the user set
  (`C33_violated_fixed_depth`).
* C38 if `get_solution` fails inside `xrtm_solution_2`, it returns -1 with
  `CALC_DERIVS` cleared and `n_derivs = 0` (`xrtm_interface.c:5861-5864`)
  (`C38_violated_failure`); nothing sets them again (`C38_violated_lasting`).
* C38 `xrtm_solution_2` ignores the code of the adjoint (5950)
  (`C38_violated_ignored`) and checks neither inputs nor solver
  (`C38_violated_gate`).
* C38 the derivatives set for `F_iso_top`, `F_iso_bot`, `levels_b`, `surface_b` and
  the kernel parameters are left out of the sum (5957-5982)
  (`C38_violated_inputs`).
* C37 `check_inputs_initialized` frees five or six of the `set_flags_*` arrays but not
  `set_flags_kernel_func` (`xrtm_interface.c:2573-2581`), which `xrtm_destroy` then
  passes over (1872): one array per instance with kernels is lost
  (`C37_violated_kernel_func`).
* C37 after an `xrtm_solution_2` that fails half way, `xrtm_destroy` skips all arrays
  that depend on `CALC_DERIVS` (`C37_violated_failure`).
* C37 `xrtm_create2` does not free its structure when `xrtm_create` refuses (771-775)
  (`C37_violated_create2`).
* C34 `add_ref_p_u_a` and `add_ref_l_u_a` (`xrtm_adding_a.c:37-40`, `107-111`) only clear
  the adjoints of the result, and `layer_add_ref_a` has no case for codes with an L:
  reverse derivatives of runs without the sun are lost (`C34_violated_SU`, `_BU`, `_LU`).
  All codes of solar runs are served (`C34_solar_codes`).
* C34 `build_txr_a` puts the signs of D on the whole of `r_p_a`, not only on what it adds
  (`xrtm_utility_a.c:236-260`, `C34_violated_txr`). Both callers hand over zeros, so it is
  not reached.
* C43 `diff_bound_input_update` (`xrtm_model.c:4115`, `4132`) linearises the emission with
  `a` and `b` as the loops above left them: the row sums of the last direction. With a
  surface that is not Lambertian the derivative with respect to the temperature of the
  surface is wrong in all other directions (`C43_violated_emission`). In a thermal run
  without separate user angles line 4132 also reads `b` before it is assigned
  (`C43_uninitialised_read`); the value is not used.
* C46 Eight of the kernels in `xrtm_brdf.c` (Roujean, Li, Ross, Hapke, Rahman, Cox-Munk)
  never write `f_l`, which `brdf_build_kernel_vecs` and `_mats` take from scratch memory and
  use for every active derivative: derivatives with respect to their parameters are not
  computed, and those with respect to amplitudes have a term added that depends on what an
  earlier kernel or routine left in memory (`C46_violated_scratch`, `C46_violated_stale`).
  No setter or option check refuses this.
* C46 `cox_munk_kernel` (`xrtm_brdf.c:672-678`) uses `p[1]` as the square of the index of
  refraction; the comment above it calls it the index (`C46_violated_index`, `C46_facet`).
* C46 The Li kernels are not reciprocal (`C46_violated_reciprocity`); neither is the formula
  of Wanner 1995 that the code follows.
* C47 `xrtm_fd_solution` does not undo the steps of the forward and backward methods: row
  `j` mixes the steps of all derivatives up to `j`, and the instance keeps moved inputs
  (`C47_violated_later`, `C47_violated_restored`).  Backward needs a negative `delta` and
  central twice the `delta` of forward (`C47_violated_delta`); nothing documents this.
* C47 A refused step leaves the inputs moved (`C47_violated_refusal`); the buffers leak too.
* C47 Outputs other than radiances are solved into null pointers
  (`C47_violated_other`) and their derivatives are never written.
* C47 `xrtm_fd_set_levels_b_p_1` writes with an uninitialised index and reads the caller's
  array at the index of the derivative (`C47_violated_levels_b`).
* C48 `xrtm_create` means to refuse `max_coef` zero (message "must be > zero") but tests
  `< 0`; the Legendre tables then have rows of no elements and are written at element
  zero (`C48_violated_empty`).
* C48 `calc_Y_x` gives orders 1, 3 and 5 mixed signs (`C48_violated_sign`); only products
  of two values of one degree are used, in which the signs cancel (`C48_closed`).
* C49 `build_thermal_source_coefficients` sets the emission for all Stokes parameters
  (`dvec_init`); a vector instance with thermal sources is accepted and gets polarised
  emission (`C49_violated_thermal`).
* C49 The particular solution for the beam does not exist where the square of the beam's
  rate of decay is an eigenvalue of `gamma` (`C49_sun_none`, `C49_violated_resonance`);
  the code factorises the singular matrix.
* C49 `build_global_source_solar2` takes a zero derivative of the transmittance for a
  derivative that changes nothing; for an optically thick layer the transmittance and
  its derivative underflow while the particular solution still changes
  (`C49_violated_underflow`).
* C50 `eig_1n_gen_real` takes an eigenvector with a single component for the one of a
  direction without weight and sets its derivatives to zero. Where a Fourier term of the
  phase function vanishes all eigenvectors are of that kind, and the derivatives of `R`
  and `T` with respect to the coefficient of that term come out wrong
  (`C50_violated_trivial`).
* C50 The bordered system is singular for an eigenvalue that is there twice
  (`C50_eigen_double`); only the complex path tests for that, and sets zeros.
* C51 At depths within the layers (`XRTM_OPTION_OUTPUT_AT_TAUS`) the boundary value
  solver never adds the thermal particular solution, xrtm_eig_bvp_x.c:957-1077, so the
  radiance at the depth of a level differs from that at the level by exactly that
  solution (`C51_violated_taus_thermal`).
* C51 `In_p` is added to the right hand side always, xrtm_eig_bvp_x.c:313-314, its
  derivative `In_p_l` only inside `if (surface)`, :511. Without a surface the derivative
  with respect to `F_iso_bot` is zero at the ground (`C51_violated_ground`).
* C51 (read, not modelled) With the Green's function particular solutions
  `scale_source_vectors_solar` scales `Fs_p`, `Fs_m` by the transmission above the layer
  but not `Fs1_p`, `Fs1_m`; the output at depths uses the exponential profile of the
  classical solution; the complex routine does not assign its results.
* C52 The adding solvers apply the matrix of the ground to the light that comes down,
  the boundary value solver to the same light with the third and fourth Stokes
  parameters turned (xrtm_eig_bvp_x.c, `-X_m`, `Fs_m` after `dm_v_mul_D_A`). For the
  kernels of xrtm_brdf.c, which fill the first element only, the two are the same.
* C53 `rtm_sos` copies `I1_m` into the top of every order (xrtm_sos.c:470) and not only
  of the first (271): with isotropic light from above (`xrtm_set_F_iso_top`, accepted for
  every solver) it is counted once per order.
* C53 `rtm_sos` sets the light down at the top and the light up at the bottom to zero
  (xrtm_sos.c:224-227) and never adds to it; the other solvers return `I1_m` and the light
  that the ground sends up.
* C53 The test for the end of the series (xrtm_sos.c:452-459, 511-520) takes the largest
  radiance with its sign: light that is negative in all directions, as in terms of the
  Fourier series, counts as weak for every limit, zero included.
* C53 `(int) a` of xrtm_sos.c:121, 149 is undefined for layers thicker than 2^31 times the
  limit; no setter bounds the ratio.
* C54 `scat_vector_rotate_hovenier` (xrtm_scatter.c:1026-1082) takes the sine of the angle
  of rotation as the nonnegative root: the third Stokes parameter of the single scattering
  solver (and of the corrections that use it) is even in the difference of azimuths. The
  Fourier sum of all other solvers is odd: between half a turn and a full one the signs
  differ.
* C54 For light straight down (`mu` = 1 with the sense of that routine) it sets the cosine of
  the rotation to cos(dphi); the limit from neighbouring directions is -cos(dphi). The sign
  of the third Stokes parameter is wrong there in the first half of the turn. Straight up it
  is right.
* C54 `basic_matrix` for the first Fourier term writes `A[1]` without asking whether there
  is a second coefficient (xrtm_scatter.c:614): for a layer with one coefficient the
  element is behind the end of the array that was asked for.
* C55 `rtm_two_stream` takes the root of alpha^2 - beta^2 without looking at its sign
  (xrtm_two_stream.c:343-346). With double Gauss (node 1/2) and the second Fourier term it is
  negative for omega * coef[1] > 8/3, e.g. a cloud with an asymmetry of 0.9: all radiances
  are not-a-number.
* C55 The particular solution divides by as_0^2 - nu^2 (366-369): air that does not scatter
  with the sun in the direction of the node gives not-a-number.
* C55 The second coefficient is taken whatever `n_coef_layer` is (318-333): with one
  coefficient for the layer the value of an earlier call is used, and in a model made for one
  coefficient the read is out of the row.
* C55 `xrtm_set_F_iso_top` is accepted and ignored by the solver.
* C55 Without a solar source `derivs->beam` is the address 1 (xrtm_interface.c:1378-1380), but
  lines 906, 950 and 1017 of xrtm_two_stream.c read through it.
* C56 `SFI_LAYER` divides by 1 - umus[j] * nu[k] (xrtm_sfi_x.c:746-759) and by
  1 - umus[j] * as_0 (90-95). The setters keep the sun away from the directions asked for,
  but nothing keeps the eigenvalues away: such a direction gives not-a-number though the
  light is finite.
* C56 With one output depth that is the top of the air the sweep down has written it before
  the loop, and line 995 reads `ulevels[1]` of a list of one.
* C56 `SFI_SOURCE_THERMAL` adds (1 - omega) B to every Stokes parameter (369-377) where only
  the first has any.
* C56 The derivative of the beam within a layer is made only where the layer itself has a
  derivative (xrtm_sfi_x.c:97-147). For shells `as_0_l` of the layers below is not zero and
  is left out, though the flag for the beam is set.
* C56 The variable `a` in the derivative of the emission of the ground (1275-1295) keeps the
  reflection of the last direction from the loop before, for all directions.
* C57 `SOLVE_BVP` of the matrix exponential solver puts zero in the rows of the top of the
  air (xrtm_mem_bvp_x.c:186-187) and never reads `I1_m` or its derivative.
  `xrtm_set_F_iso_top` (xrtm_interface.c:3365-3375) takes any value that is not negative for
  every solver, so with it this solver gives other radiances than the rest.
* C58 in `rtm_two_os` the light that the beam sends down and that is then sent up counts
  with `as_0[j] / 4.` (xrtm_two_os.c:737), all other light with `1. / mu_0` (385, 685).
  They are the same in plane layers only; in shells the result is too small.
* C58 the derivative of `w1` by `as_0` at xrtm_two_os.c:745 has the wrong sign. It matters
  in shells, where `as_0` of a layer depends on the optical thickness of those above. The
  witness changes the arguments of the function and not those of the interface.  In the
  cases `y == x` and `as_0 == x` (658, 662) the derivatives lack a factor `ltau` and have
  `ltau` for its derivative; the first matters in shells too, the second is kept from by
  the adjustment of `mu_0` in plane layers.
* C58 `rtm_two_os` takes `qf` and does not use it, so that the beam sent up by the ground is
  `F_0 * mu_0 / PI` times the reflectance where the other solvers have `qf` more
  (xrtm_two_os.c:767, xrtm_model.c:4022).
* C58 `rtm_two_os` takes `out_levels` and the depths and does not use them: `I_p[0]` is
  always the light at the top, `I_p[1]`, `I_m[0]` and `I_m[1]` are zero. A single level
  `n_layers` and output at depths are accepted (xrtm_interface.c:3160-3170, 679-683).
* C58 only the second order is returned; the first is used and dropped, and the correction
  that would add single scattering is refused (xrtm_interface.c:673-676).
* C59 `pade_get_s_and_r` tests its index with `> n` (xrtm_pade_rts.c:68-76), so that for
  `a` between exp(5.76) and exp(6) place 50 of 50 is read, and for larger ones the process
  ends with `exit(1)` and not with an error of the interface.
* C59 the checks in `xrtm_set_pade_params` are commented out (xrtm_interface.c:2869-2884);
  orders from 32 are written beyond `pade_c`, from 31 doublings `1 << s` has no value.
* C59 (not modelled) `calc_n_d_sym_3` for orders 12 and 13 with further directions adds
  `wx1[j]` where `wx2[j]` is meant for N21 and D21 (xrtm_pade_rts.c:1464-1473);
  `dmat_init(gamma, n_quad_v, n_quad_v, 1.)` has its arguments in another order than the
  function (not reached).
* C60 `rtm_four_stream` declares `calc_radiance_levels` for itself with 38 parameters
  (xrtm_four_stream.c:929-942); the function has 44 (xrtm_eig_bvp_x.c:568-597). At levels
  without further directions it is called, so that what comes out has no meaning.
* C60, C61 `F_p` has `mu_0 * h` (xrtm_four_stream.c:536-540, xrtm_six_stream.c:795-805)
  where the secant `as_0` of the layer is meant: wrong in shells.
* C60, C61 `I1_m` is not used, `In_p` only with a surface; the derivatives are set to zero
  (xrtm_four_stream.c:314-324) without an error.
* C60, C61 the tables are for two and three nodes of Gauss; other quadratures are accepted
  (only Lobatto is refused), and `2 n` coefficients are read in rows of `max_coef`.
* C61 with `omega = 0` all eigenvectors are 0 / 0 (xrtm_six_stream.c:639-649).
* C65 `fourier_get_bvp` updates the light at the boundaries unless the two stream solver is
  among those *named at creation* (`d->solvers`, xrtm_model.c:5115) where the one *asked for*
  (`solver`) is meant. Naming the two stream solver beside EIG_BVP, MEM_BVP or SOS is accepted
  (with `n_quad = 1`); these then start from memory that was never written to, or from
  the light of old inputs, and read derivatives by pointers that were never set.
* C65 with `REVERSE_DERIVS` the copies at the end (5341-5389) take `P_q0` and `r_p` for all
  solvers; without the sun `P_q0`, and for SOS, TWO_OS and the streams `r_p`, are pointers
  never set. Of `r_p`, which has `n_quad_v_x` rows, `n_umus_v` are copied (5370), too many
  with source function integration into more user angles than the quadrature has.
* C66 `get_single` clears `I_m` and `I_p_l` with `n_phis` before `n_mus2`
  (xrtm_model.c:4374, 4377), where the arrays have the polar angle first, as the stores at
  4425-4429 and the clearing at 6217-6222. With more azimuths than polar angles the table of
  pointers ends before the loop does and numbers are taken for pointers.
* C67 The reverse of downward single scattering overwrites the weights of what comes in at the
  top (`=`, xrtm_single_a.c:466) where the upward one adds (`+=`, 250). `get_single_a` calls it
  once for each azimuth and `n_t_tms_correction_dn_a` twice, so all but the last call are lost;
  today those weights are set to zero later (xrtm_model_a.c:1858).
* C67 Line 435 tests `i_ulevel < n_ulevels` where the index counts down, so `ulevels[-1]` is
  read when output is at depths and the first depth lies below the first layer.
* C67 For `F_0 = 0` the forward routine returns before it saves (xrtm_single.c:161-166, 449); the
  reverse routine reads the record all the same and divides zero by zero.
* C68 `fourier_get_add_both_ways_a` without a surface hands `I1_m` and `In_p` to `radiance_slab_a`
  in the order for the top also at the bottom (xrtm_model_a.c:2347; forward xrtm_model.c:4869), and
  does not read the weights `I_p_a` there. With light coming in at the top the gradient of what
  arrives at the bottom is wrong.
* C69 The reverse of the eigenvalue derivatives leaves out eigenvalues that lie within
  `100 DBL_EPSILON` of another (xrtm_eig_util_a.c:38); without polarisation the forward call does
  not (xrtm_eig_util.c:341-347). There the reverse gradient lacks their part.
* C69 With polarisation the forward call leaves out close eigenvalues only (xrtm_eig_util.c:496);
  the reverse one leaves out eigenvectors with a single component as well (xrtm_eig_util_a.c:32).
* C70 With polarisation the loops over eigenvalues look for pairs in the imaginary parts of the
  eigenvalues (xrtm_eig_util.c:494, xrtm_eig_util_a.c:217), those over roots in the imaginary parts
  of the roots (xrtm_eig_util.c:816,868, xrtm_eig_util_a.c:453,478). The root of a real negative
  eigenvalue is imaginary: the latter take it for the first of a pair, and in the last column read
  a column that is not there.
* C71 `extended_trapezoidal_quad` sets the points inside to `a + (i - 1) dx` where the weights need
  `a + i dx` (misc/rtutil_math.c:59): the first point appears twice and `x` is not integrated. With
  one point the weight is 1 whatever the length of the interval (misc/rtutil_math.c:50). No caller
  in the repository.
* C72 With coefficients in Legendre polynomials truncation leaves the elements off the diagonal as
  they are (src/xrtm_utility.c:690-693, their derivatives alike), where it has to divide them by
  `1 - f` as it does with generalised spherical functions: the scaled layer polarises too little.
