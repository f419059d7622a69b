{
 "claims": [
  {
   "property": "C01",
   "status": "proved",
   "theorems": [
    "Xrtm.C01_check_options_iff",
    "Xrtm.C01_defaults",
    "Xrtm.C01_C02_C03_create_iff",
    "Xrtm.C01_no_output_placement_refused"
   ],
   "note": "All option words."
  },
  {
   "property": "C02",
   "status": "proved",
   "theorems": [
    "Xrtm.C02_check_counts_iff",
    "Xrtm.C02_ranges_iff",
    "Xrtm.C02_created_sizes",
    "Xrtm.C01_C02_C03_create_iff"
   ],
   "note": "All size tuples as unbounded integers; overflow of 2*n_quad+1 for n_quad >= 2^30 not modelled."
  },
  {
   "property": "C03",
   "status": "proved",
   "theorems": [
    "Xrtm.C03_check_solvers_iff",
    "Xrtm.C03_gate_iff",
    "Xrtm.C03_runs_only_supported",
    "Xrtm.C03_supported_not_refused",
    "Xrtm.C03_combined_words_slip_through"
   ],
   "note": "For solver arguments that name one solver; combined words slip through the gate, proved as a counterexample."
  },
  {
   "property": "C04",
   "status": "partial",
   "theorems": [
    "Xrtm.C04_accepted_iff_partial",
    "Xrtm.C04_accepted_had_inputs_partial",
    "Xrtm.C04_never_refused_again",
    "Xrtm.C04_violated"
   ],
   "note": "Exact characterisation for all histories in which no leaky setter call failed; the unrestricted statement is false (C04_violated: a failing set_coef_n marks its first layers as set)."
  },
  {
   "property": "C05",
   "status": "partial",
   "theorems": [
    "Xrtm.C05_rejected_no_effect_partial",
    "Xrtm.C05_rejected_frame_partial",
    "Xrtm.C05_failed_solution",
    "Xrtm.C05_violated_out_taus",
    "Xrtm.C05_violated_coef",
    "Xrtm.C05_violated_theta_0",
    "Xrtm.C05_violated_out_thetas"
   ],
   "note": "All setters except five that write before they validate; exact frame for those; the violations are proved with witnesses."
  },
  {
   "property": "C06",
   "status": "partial",
   "theorems": [
    "Xrtm.C06_get_value_partial",
    "Xrtm.C06_last_accepted",
    "Xrtm.C06_get_answers_partial",
    "Xrtm.C06_never_set_partial",
    "Xrtm.C06_violated_lambda",
    "Xrtm.C06_violated_coef",
    "Xrtm.C06_angle_round_trip"
   ],
   "note": "Values and availability for all histories without failed leaky calls; local form for all histories; lambda and coefficient counterexamples proved."
  },
  {
   "property": "C07",
   "status": "partial",
   "theorems": [
    "Xrtm.C07_setters_in_bounds",
    "Xrtm.C07_getters_in_bounds_partial",
    "Xrtm.C07_violated_layers",
    "Xrtm.C07_get_kernel_partial",
    "Xrtm.C07_violated_kernel"
   ],
   "note": "Setters outright; getters with indices in range or after an accepted solution; otherwise false (flag array read before the range check)."
  },
  {
   "property": "C08",
   "status": "partial",
   "theorems": [
    "Xrtm.C08_ranges",
    "Xrtm.C08_orderings",
    "Xrtm.C08_first_coef_partial",
    "Xrtm.C08_real",
    "Xrtm.C08_violated_norm",
    "Xrtm.C08_violated_nan"
   ],
   "note": "All ranges outright over an abstract number type and over the reals; first coefficient only where the code checks it; NaN passes the comparisons."
  },
  {
   "property": "C09",
   "status": "partial",
   "theorems": [
    "Xrtm.C09_history_partial",
    "Xrtm.C09_fresh_partial",
    "Xrtm.C09_calm",
    "Xrtm.C09_violated_surface_b",
    "Xrtm.C09_violated_F_0",
    "Xrtm.C09_violated_doub_d_tau",
    "Xrtm.C09_violated_levels_b",
    "Xrtm.C09_violated_mu0"
   ],
   "note": "Proved for quantities whose dependency masks are complete and histories that leave no unannounced trace, for arbitrary physics. False in general: the code forgets dependencies, five witnesses."
  },
  {
   "property": "C10",
   "status": "partial",
   "theorems": [
    "Xrtm.C10_reads_partial",
    "Xrtm.C10_full_first",
    "Xrtm.C10_stale_both_ways",
    "Xrtm.C10_violated_both_ways",
    "Xrtm.C10_stale_derivs"
   ],
   "note": "Holds for sessions whose solutions read all layers with derivatives on first; fails otherwise, with witnesses."
  },
  {
   "property": "C11",
   "status": "proved",
   "theorems": [
    "Xrtm.C11_request",
    "Xrtm.C11_solution",
    "Xrtm.C11_change_noticed",
    "Xrtm.C11_not_concerned",
    "Xrtm.C11_count"
   ],
   "note": "For accepted setters; inputs written by refused calls are C05."
  },
  {
   "property": "C12",
   "status": "proved",
   "theorems": [
    "Xrtm.C12_clear_saved",
    "Xrtm.C12_clear_saved_value"
   ],
   "note": "For the cached quantities of Model/Cache; direct-beam arrays and Legendre polynomials have their own models."
  },
  {
   "property": "C13",
   "status": "proved",
   "theorems": [
    "Xrtm.C13_repeat",
    "Xrtm.C13_repeat_later"
   ],
   "note": "Successful solutions; failing ones are C40."
  },
  {
   "property": "C14",
   "status": "partial",
   "theorems": [
    "Xrtm.C14_located",
    "Xrtm.C14_offsets",
    "Xrtm.C14_unique",
    "Xrtm.C14_deltaM",
    "Xrtm.C14_accepted_depths_partial",
    "Xrtm.C14_violated_validation"
   ],
   "note": "Location proved for all accepted depths; the validation itself can be bypassed after a refused set_out_taus."
  },
  {
   "property": "C15",
   "status": "partial",
   "theorems": [
    "Xrtm.Derivs.C15_layers",
    "Xrtm.Derivs.C15_beam_rows",
    "Xrtm.Derivs.C15_beam",
    "Xrtm.Derivs.C15_thermal",
    "Xrtm.Derivs.C15_sources",
    "Xrtm.Derivs.C15_total",
    "Xrtm.Derivs.C15_adding_down",
    "Xrtm.Derivs.C15_adding_up",
    "Xrtm.Derivs.C15_stacks",
    "Xrtm.Derivs.C15_zero",
    "Xrtm.Derivs.C15_violated_iso"
   ],
   "note": "All activity tables are characterised exactly by the inputs a derivative reaches. The property fails for the isotropic input from below with a surface (C15_violated_iso)."
  },
  {
   "property": "C16",
   "status": "partial",
   "theorems": [
    "Xrtm.Derivs.C16_meta",
    "Xrtm.Derivs.C16_meta2",
    "Xrtm.Derivs.C16_bits",
    "Xrtm.Derivs.C16_unions",
    "Xrtm.Derivs.C16_unions_m_partial",
    "Xrtm.Derivs.C16_violated_and",
    "Xrtm.Derivs.C16_violated_beam_m",
    "Xrtm.Derivs.C16_violated_layers_m",
    "Xrtm.Derivs.C16_merge",
    "Xrtm.Derivs.C16_merge_ok"
   ],
   "note": "Union words and metadata are exact for the azimuthal mean; for the higher terms three counterexamples are proved."
  },
  {
   "property": "C17",
   "status": "partial",
   "theorems": [
    "Xrtm.Stacks.C17_chain",
    "Xrtm.Stacks.C17_chain_total",
    "Xrtm.Stacks.C17_runs",
    "Xrtm.Stacks.C17_down",
    "Xrtm.Stacks.C17_up",
    "Xrtm.Stacks.C17_up_layers",
    "Xrtm.Stacks.C17_total",
    "Xrtm.Stacks.C17_take_over",
    "Xrtm.Stacks.C17_take_over_kind",
    "Xrtm.Stacks.C17_fill_partial",
    "Xrtm.Stacks.C17_violated_unwritten",
    "Xrtm.Stacks.C17_violated_thermal"
   ],
   "note": "Cover, order, storage bounds, termination and the absence of duplicates hold for every pattern of varying layers. That every stack used was computed first holds when there is a solution between any two calls of xrtm_update_varied_layers (C17_fill_partial) and fails without (C17_violated_unwritten). With thermal emission the derivative codes are wrong (C17_violated_thermal). The reuse of saved factors of an earlier addition through stack_chain_find2 is not modelled."
  },
  {
   "property": "C18",
   "status": "partial",
   "theorems": [
    "Xrtm.SaveTree.C18_records_partial",
    "Xrtm.SaveTree.C18_freed",
    "Xrtm.SaveTree.C18_index",
    "Xrtm.SaveTree.C18_index_small",
    "Xrtm.SaveTree.C18_temp",
    "Xrtm.SaveTree.C18_local_layers",
    "Xrtm.SaveTree.C18_violated_join",
    "Xrtm.SaveTree.C18_violated_hash",
    "Xrtm.SaveTree.C18_violated_depth",
    "Xrtm.SaveTree.C18_violated_local"
   ],
   "note": "Proved for all call sequences whose places have different hashes: records found again, one per place, freed once. The hash provably separates loop indices (equal digit counts, or below 79). False in general: labels that join alike, 64-bit collisions, the 128th label, and all layers under SAVE_LOCAL_R_T."
  },
  {
   "property": "C19",
   "status": "proved",
   "theorems": [
    "Xrtm.AATree.C19_insert",
    "Xrtm.AATree.C19_any_insertions",
    "Xrtm.AATree.C19_find",
    "Xrtm.AATree.C19_traversal",
    "Xrtm.AATree.C19_depth",
    "Xrtm.AATree.C19_walk",
    "Xrtm.AATree.C19_empty"
   ],
   "note": "All insertion sequences from a new tree: first value per key kept, duplicates refused without change, find, sorted traversal, count, logarithmic depth, walking by parent links, freeing each node once; the shared null node is never changed."
  },
  {
   "property": "C20",
   "status": "proved",
   "theorems": [
    "Xrtm.Work.C20_live",
    "Xrtm.Work.C20_given",
    "Xrtm.Work.C20_exit",
    "Xrtm.Work.C20_rows",
    "Xrtm.Work.C20_addresses",
    "Xrtm.Work.C20_array",
    "Xrtm.Work.C20_again",
    "Xrtm.Work.C20_side_by_side"
   ],
   "note": "All sequences of requests and all nesting of copies of the work_data. malloc is taken to succeed. Copies used side by side, not one inside the other, do get the same memory (C20_side_by_side); reading the callers found none that does so."
  },
  {
   "property": "C21",
   "status": "proved",
   "theorems": [
    "Xrtm.Alloc.C21_alloc",
    "Xrtm.Alloc.C21_from_mem",
    "Xrtm.Alloc.C21_violated_zero",
    "Xrtm.Alloc.C21_violated_dup",
    "Xrtm.Alloc.C21_violated_realloc7"
   ],
   "note": "Any rank, any positive dimensions, also array_from_mem. Shown beside it: a zero dimension before the last writes beyond the block, dup_array copies the pointer table, realloc_array7 loses a dimension (neither is called by xrtm)."
  },
  {
   "property": "C22",
   "status": "partial",
   "theorems": [
    "Xrtm.Names.C22_index_name",
    "Xrtm.Names.C22_name_value",
    "Xrtm.Names.C22_index_value",
    "Xrtm.Names.C22_tables",
    "Xrtm.Names.C22_kernels",
    "Xrtm.Names.C22_index_list",
    "Xrtm.Names.C22_value_list",
    "Xrtm.Names.C22_value_list_to_mask",
    "Xrtm.Names.C22_inputs_partial",
    "Xrtm.Names.C22_violated_inputs",
    "Xrtm.Names.C22_violated_no_room",
    "Xrtm.Names.C22_violated_eigen",
    "Xrtm.Names.C22_violated_unknown"
   ],
   "note": "Proved for any table without repetitions and instantiated for options, solvers, outputs, kernels and difference methods. Fails for the table of inputs (missing comma), the table of eigenvalue solvers (names not conditional), lists with no room, and names in input files (error -1 taken for a mask)."
  },
  {
   "property": "C23",
   "status": "partial",
   "theorems": [
    "Xrtm.Names.C23_parse",
    "Xrtm.Names.C23_unknown",
    "Xrtm.Names.C23_print",
    "Xrtm.Names.C23_round_trip",
    "Xrtm.Names.C23_solvers",
    "Xrtm.Names.C23_violated_vector",
    "Xrtm.Names.C23_violated_room"
   ],
   "note": "Parsing, printing and the round trip are proved for any table of single bits below bit 31. A list with the option vector (bit 31) is refused, and a buffer that is too short is overrun."
  },
  {
   "property": "C24",
   "status": "partial",
   "theorems": [
    "Xrtm.C24_sum",
    "Xrtm.C24_no_tolerance",
    "Xrtm.C24_enough",
    "Xrtm.C24_enough_unique",
    "Xrtm.C24_integrals_only",
    "Xrtm.C24_consecutive",
    "Xrtm.C24_failure",
    "Xrtm.C24_available",
    "Xrtm.C24_violated_single",
    "Xrtm.C24_derivatives_cut"
   ],
   "note": "For every run that goes term by term: the sum, the number of terms, the reported count, for every tolerance. The single scattering solver leaves the count of the previous run in place (C24_violated_single), and the test does not look at the derivatives (C24_derivatives_cut). The number of available terms after any history is proved for the state machine, apart from failed calls that leave traces (C05). What one term is, and the corrections, are arbitrary functions here."
  },
  {
   "property": "C25",
   "status": "partial",
   "theorems": [
    "Xrtm.C25_levels",
    "Xrtm.C25_stored",
    "Xrtm.C25_direct_partial",
    "Xrtm.C25_violated_bottom",
    "Xrtm.C25_violated_inside"
   ],
   "note": "The accepted levels are characterised exactly for every history. The transmittance used is that of the level only if the outputs are the top, or the top and the bottom (C25_direct_partial); otherwise it is that of another level."
  },
  {
   "property": "C26",
   "status": "proved",
   "theorems": [
    "Xrtm.C26_derivatives",
    "Xrtm.C26_g",
    "Xrtm.C26_coef",
    "Xrtm.C26_omega",
    "Xrtm.C26_ltau",
    "Xrtm.C26_f",
    "Xrtm.C26_identity",
    "Xrtm.C26_range",
    "Xrtm.C26_absorption",
    "Xrtm.C26_truncated"
   ],
   "note": "Exact reals, all coefficient counts."
  },
  {
   "property": "C27",
   "status": "proved",
   "theorems": [
    "Xrtm.C27_tms",
    "Xrtm.C27_ratio"
   ],
   "note": "Exact reals."
  },
  {
   "property": "C28",
   "status": "proved",
   "theorems": [
    "Xrtm.Adding.C28_unique",
    "Xrtm.Adding.C28_layer_add_all",
    "Xrtm.Adding.C28_layer_add_ref",
    "Xrtm.Adding.C28_layer_add_all2",
    "Xrtm.Adding.C28_kept_factors",
    "Xrtm.Adding.C28_layer_add_ref2",
    "Xrtm.Adding.C28_source_add_all",
    "Xrtm.Adding.C28_result_unique"
   ],
   "note": "Any commutative ring and any size; both directions (regular interface: the result is the two layers joined; singular interface: the factorisation stops). Factorisation is exact inversion. Memory model with aliasing of arguments as in the callers."
  },
  {
   "property": "C29",
   "status": "proved",
   "theorems": [
    "Xrtm.Adding.C29_total",
    "Xrtm.Adding.C29_toa_surface",
    "Xrtm.Adding.C29_toa",
    "Xrtm.Adding.C29_boa",
    "Xrtm.Adding.C29_toa_ok",
    "Xrtm.Adding.C29_boa_ok",
    "Xrtm.Adding.C29_total_ok",
    "Xrtm.Adding.C29_same",
    "Xrtm.Adding.C29_surface_last",
    "Xrtm.Adding.C29_history",
    "Xrtm.Adding.C29_brackets"
   ],
   "note": "All numbers of layers; the loops of get_total_* as programs on arrays. Exact arithmetic."
  },
  {
   "property": "C30",
   "status": "partial",
   "theorems": [
    "Xrtm.Adding.C30_layer_add_all_partial",
    "Xrtm.Adding.C30_layer_add_ref_partial",
    "Xrtm.Adding.C30_total_partial",
    "Xrtm.Adding.C30_total_thermal_partial",
    "Xrtm.Adding.C30_toa_partial",
    "Xrtm.Adding.C30_boa_partial",
    "Xrtm.Adding.C30_SU_left_alone",
    "Xrtm.Adding.C30_violated_SU"
   ],
   "note": "Exact derivative for every code layer_add_all / layer_add_ref have, and for the whole loops with the codes the derivative tables produce. Fails for S_U, reachable with thermal emission (C30_violated_SU)."
  },
  {
   "property": "C31",
   "status": "partial",
   "theorems": [
    "Xrtm.Doubling.C31_double",
    "Xrtm.Doubling.C31_fails",
    "Xrtm.Doubling.C31_powers",
    "Xrtm.Doubling.C31_loop_fault",
    "Xrtm.Doubling.C31_solar",
    "Xrtm.Doubling.C31_thermal",
    "Xrtm.Doubling.C31_derivative_partial",
    "Xrtm.Doubling.C31_violated_beam",
    "Xrtm.Doubling.C31_violated_planck",
    "Xrtm.Doubling.C31_violated_stokes"
   ],
   "note": "One doubling is the joining of two equal layers (with the beam and the emission of the second one), any number of doublings is the stack of 2^n thin ones, faults exactly when a joining is singular, the loop carries exact derivatives and so does the start for derivatives that vary the layer. Fails: the start of a derivative that only varies the beam, zero emission at the layer's top, emission in every Stokes component."
  },
  {
   "property": "C32",
   "status": "partial",
   "theorems": [
    "Xrtm.Radiance.C32_unique",
    "Xrtm.Radiance.C32_both_ways",
    "Xrtm.Radiance.C32_both_ways_singular",
    "Xrtm.Radiance.C32_top_down_partial",
    "Xrtm.Radiance.C32_bottom_up_partial",
    "Xrtm.Radiance.C32_routes_agree",
    "Xrtm.Radiance.C32_both_ways_derivative_partial",
    "Xrtm.Radiance.C32_top_down_derivative_partial",
    "Xrtm.Radiance.C32_top_down_bare_derivative_partial",
    "Xrtm.Radiance.C32_bottom_up_derivative",
    "Xrtm.Radiance.C32_violated_iso_top",
    "Xrtm.Radiance.C32_violated_iso_bot",
    "Xrtm.Radiance.C32_violated_SS",
    "Xrtm.Radiance.C32_violated_SU",
    "Xrtm.Radiance.C32_violated_LL",
    "Xrtm.Radiance.C32_violated_top_down_codes"
   ],
   "note": "The light at the output levels is the unique light that obeys layers and surface (both ways), the exit happens exactly for a singular interface, the three ways agree; derivatives exact for the codes the routines have. Fails: top down loses F_iso_top, top down and bottom up lose F_iso_bot without a surface, missing and incomplete derivative cases for thermal sources."
  },
  {
   "property": "C33",
   "status": "partial",
   "theorems": [
    "Xrtm.C33_up",
    "Xrtm.C33_dn",
    "Xrtm.C33_up_independent",
    "Xrtm.C33_dn_independent",
    "Xrtm.C33_up_finite",
    "Xrtm.C33_dn_finite",
    "Xrtm.C33_up_derivative",
    "Xrtm.C33_dn_derivative",
    "Xrtm.C33_tms_up",
    "Xrtm.C33_tms_dn",
    "Xrtm.C33_violated_no_sun",
    "Xrtm.C33_thin_not_finite",
    "Xrtm.C33_violated_resonance",
    "Xrtm.C33_violated_fixed_depth"
   ],
   "note": "The sum over layers, independence of the other places asked for (to the last bit, for any arithmetic) and the derivatives are proved for every sky with sun. They fail without sun, and where the slope of the beam is that of a downward line of sight; for output at optical depths the derivative is that for a place moving with its layer. The sum and derivatives are over the reals; C33_up_finite and C33_dn_finite say when all results are finite; C33_thin_not_finite shows that their hypothesis on the thickness is needed, but no setter stores a thickness of zero."
  },
  {
   "property": "C34",
   "status": "partial",
   "theorems": [
    "Xrtm.Adjoint.C34_layer_add_all",
    "Xrtm.Adjoint.C34_layer_add_ref_partial",
    "Xrtm.Adjoint.C34_saved",
    "Xrtm.Adjoint.C34_total_toa_partial",
    "Xrtm.Adjoint.C34_solar_codes",
    "Xrtm.Adjoint.C34_violated_SU",
    "Xrtm.Adjoint.C34_violated_BU",
    "Xrtm.Adjoint.C34_violated_LU",
    "Xrtm.Adjoint.C34_delta_m_coef",
    "Xrtm.Adjoint.C34_opt_props",
    "Xrtm.Adjoint.C34_tms",
    "Xrtm.Adjoint.C34_local",
    "Xrtm.Adjoint.C34_txr_partial",
    "Xrtm.Adjoint.C34_violated_txr",
    "Xrtm.Adjoint.C34_gamma"
   ],
   "note": "layer_add_all_a for every code, layer_add_ref_a for the codes it has cases for (all that a solar run can produce), the loop of get_total_TOA_R_S_U_V_a over any number of layers, delta-M and TMS scaling, local matrices, txr and gamma: the reverse step is the transpose of the forward derivative. False for S_U, B_U and L codes. Missing: the reverse modes of the eigenvalue, Pade and doubling solvers and of the boundary value problem (single scattering is C67, source vectors and radiances C68)."
  },
  {
   "property": "C35",
   "status": "partial",
   "theorems": [
    "Xrtm.C35_auto",
    "Xrtm.C35_down_partial",
    "Xrtm.C35_violated_down",
    "Xrtm.C35_violated_up",
    "Xrtm.C35_mu0_partial",
    "Xrtm.C35_violated_nodes"
   ],
   "note": "auto proved outright; down only below the base; mu_0 can be moved onto another node."
  },
  {
   "property": "C36",
   "status": "partial",
   "theorems": [
    "Xrtm.C36_path",
    "Xrtm.C36_plane_secant",
    "Xrtm.C36_multiplicative",
    "Xrtm.C36_multiplicative_stack",
    "Xrtm.C36_decreasing_plane",
    "Xrtm.C36_only_above",
    "Xrtm.C36_chapman_bounds",
    "Xrtm.C36_chapman_overhead",
    "Xrtm.C36_psa_depth",
    "Xrtm.C36_violated_top",
    "Xrtm.C36_violated_increasing",
    "Xrtm.C36_derivatives"
   ],
   "note": "Exact reals. Monotone decrease holds for plane geometry, fails for pseudo spherical; equal top levels read out of bounds."
  },
  {
   "property": "C37",
   "status": "partial",
   "theorems": [
    "Xrtm.Resources.C37_partial",
    "Xrtm.Resources.C37_no_kernels",
    "Xrtm.Resources.C37_violated_kernel_func",
    "Xrtm.Resources.C37_violated_failure",
    "Xrtm.Resources.C37_violated_create2"
   ],
   "note": "All 213 members that xrtm_create allocates under 24 conditions, the chain of stacks that xrtm_update_varied_layers replaces, and the frees of check_inputs_initialized and xrtm_destroy: for every configuration and every history in which no xrtm_solution_2 fails half way, destroy frees all that is held once, except set_flags_kernel_func. Missing: the memory of the work structures is in C39, that of saved layers (save_tree) in C18; malloc never fails."
  },
  {
   "property": "C38",
   "status": "partial",
   "theorems": [
    "Xrtm.C38_index",
    "Xrtm.C38_directions",
    "Xrtm.C38_config_partial",
    "Xrtm.C38_entries",
    "Xrtm.C38_derivative_partial",
    "Xrtm.C38_violated_failure",
    "Xrtm.C38_violated_lasting",
    "Xrtm.C38_violated_ignored",
    "Xrtm.C38_violated_gate",
    "Xrtm.C38_violated_inputs"
   ],
   "note": "The index is a bijection, every exit but one restores the configuration, and each derivative is the sum formed from the adjoints of its own run, for any arithmetic. If the solution without derivatives fails, derivatives stay off for good; that it can fail is a hypothesis, the numerical solvers are not modelled here. The sum leaves out isotropic sources, Planck terms and kernel parameters. The adjoint run is a given function (see C34)."
  },
  {
   "property": "C39",
   "status": "proved",
   "theorems": [
    "Xrtm.Work.C39_served",
    "Xrtm.Work.C39_distinct",
    "Xrtm.Work.C39_reuse",
    "Xrtm.Work.C39_freed",
    "Xrtm.Work.C39_freed_all",
    "Xrtm.Work.C39_pages_freed",
    "Xrtm.Work.C39_violated_dqq",
    "Xrtm.Work.C39_violated_count",
    "Xrtm.Work.C39_violated_both"
   ],
   "note": "For requests whose flags carry the right count and whose table type is one the routine knows; what happens otherwise is shown. work_free passes over WORK_DQQ, which nothing in src asks for."
  },
  {
   "property": "C40",
   "status": "partial",
   "theorems": [
    "Xrtm.C40_fails_again_partial",
    "Xrtm.C40_violated"
   ],
   "note": "Holds without SAVE_* options, false with them."
  },
  {
   "property": "C41",
   "status": "proved",
   "theorems": [
    "Xrtm.Doubling.C41_thin_layer"
   ],
   "note": "Over the reals: logarithm and ceil exact."
  },
  {
   "property": "C42",
   "status": "partial",
   "theorems": [
    "Xrtm.NoScatter.C42_beer",
    "Xrtm.NoScatter.C42_sum",
    "Xrtm.NoScatter.C42_derivative",
    "Xrtm.NoScatter.C42_exit_iff",
    "Xrtm.NoScatter.C42_violated_exit"
   ],
   "note": "Everything but the last clause holds; thermal sources with albedo zero end the process (C42_violated_exit)."
  },
  {
   "property": "C43",
   "status": "partial",
   "theorems": [
    "Xrtm.Boundary.C43_value",
    "Xrtm.Boundary.C43_kirchhoff",
    "Xrtm.Boundary.C43_derivative_top",
    "Xrtm.Boundary.C43_derivative_partial",
    "Xrtm.Boundary.C43_derivative_no_emission",
    "Xrtm.Boundary.C43_violated_emission",
    "Xrtm.Boundary.C43_uninitialised_read"
   ],
   "note": "Values proved in full; derivatives proved except for directions whose emissivity differs from that of the last direction of their group while the temperature of the surface varies, where they are wrong (C43_violated_emission)."
  },
  {
   "property": "C44",
   "status": "partial",
   "theorems": [
    "Xrtm.AATree.C44_delete_partial",
    "Xrtm.AATree.C44_insert",
    "Xrtm.AATree.C44_violated_first",
    "Xrtm.AATree.C44_violated_walk",
    "Xrtm.AATree.C44_violated_empty"
   ],
   "note": "The entry and no other is removed, order and balance kept, for every history, except a first deletion of a key below all others, which reads a member never set. The parent links can point at freed nodes afterwards."
  },
  {
   "property": "C45",
   "status": "partial",
   "theorems": [
    "Xrtm.C45_written",
    "Xrtm.C45_up_partial",
    "Xrtm.C25_direct_partial",
    "Xrtm.C45_violated_stokes",
    "Xrtm.C45_violated_not_written"
   ],
   "note": "What is written is proved for every run; it is the hemispheric integral for unpolarised light. With polarisation all components are added, and the derivatives and the divergence are never written."
  },
  {
   "property": "C46",
   "status": "partial",
   "theorems": [
    "Xrtm.Brdf.C46_vec",
    "Xrtm.Brdf.C46_mat",
    "Xrtm.Brdf.C46_guard_needed",
    "Xrtm.Brdf.C46_derivative_partial",
    "Xrtm.Brdf.C46_reciprocal",
    "Xrtm.Brdf.C46_even_azimuth",
    "Xrtm.Brdf.C46_violated_reciprocity",
    "Xrtm.Brdf.C46_facet",
    "Xrtm.Brdf.C46_violated_index",
    "Xrtm.Brdf.C46_silent_alone",
    "Xrtm.Brdf.C46_violated_scratch",
    "Xrtm.Brdf.C46_violated_stale"
   ],
   "note": "Values proved for all lists of kernels. Derivatives proved for Lambertian, direct and diffuse and user kernels; false for the other eight, which never write their linearised value (C46_silent_alone, C46_violated_scratch, C46_violated_stale). Reciprocity proved but for the Li kernels, where it is false. The Cox-Munk kernel takes its parameter for the square of the index."
  },
  {
   "property": "C47",
   "status": "partial",
   "theorems": [
    "Xrtm.FiniteDiff.C47_succeeds",
    "Xrtm.FiniteDiff.C47_central",
    "Xrtm.FiniteDiff.C47_central_limit",
    "Xrtm.FiniteDiff.C47_one_sided_formula",
    "Xrtm.FiniteDiff.C47_one_sided_partial",
    "Xrtm.FiniteDiff.C47_one_sided_limit_partial",
    "Xrtm.FiniteDiff.C47_violated_delta",
    "Xrtm.FiniteDiff.C47_violated_later",
    "Xrtm.FiniteDiff.C47_violated_restored",
    "Xrtm.FiniteDiff.C47_violated_refusal",
    "Xrtm.FiniteDiff.C47_violated_other",
    "Xrtm.FiniteDiff.C47_violated_levels_b"
   ],
   "note": "Proved for the central method (value, restored inputs, limit). For the forward and backward methods only the first derivative is right: inputs are never put back, the backward method has the sign of a negative delta, and later rows mix steps. Refused steps, outputs other than radiances and the setter of Planck level steps are shown wrong."
  },
  {
   "property": "C48",
   "status": "partial",
   "theorems": [
    "Xrtm.Legendre.C48_legendre",
    "Xrtm.Legendre.C48_legendre_meaning",
    "Xrtm.Legendre.C48_tables",
    "Xrtm.Legendre.C48_rows",
    "Xrtm.Legendre.C48_orders",
    "Xrtm.Legendre.C48_addition",
    "Xrtm.Legendre.C48_phase",
    "Xrtm.Legendre.C48_phase_sides",
    "Xrtm.Legendre.C48_fourier",
    "Xrtm.Legendre.C48_conserves",
    "Xrtm.Legendre.C48_closed",
    "Xrtm.Legendre.C48_violated_sign",
    "Xrtm.Legendre.C48_violated_empty"
   ],
   "note": "Proved for all histories and inputs in exact real arithmetic, including the theorem of addition from the formula of Rodrigues. Two failures shown: the closed forms of calc_Y_x have mixed signs within an order (harmless in products), and an instance for no coefficients is accepted and the tables are then written past their rows. Vector (Stokes) phase matrices are not part of it."
  },
  {
   "property": "C49",
   "status": "partial",
   "theorems": [
    "Xrtm.Source.C49_local",
    "Xrtm.Source.C49_sun",
    "Xrtm.Source.C49_sun_none",
    "Xrtm.Source.C49_sun_layer",
    "Xrtm.Source.C49_heat_partial",
    "Xrtm.Source.C49_heat_layer_partial",
    "Xrtm.Source.C49_local_deriv",
    "Xrtm.Source.C49_sun_deriv",
    "Xrtm.Source.C49_sun_beam_deriv",
    "Xrtm.Source.C49_sun_near",
    "Xrtm.Source.C49_heat_deriv",
    "Xrtm.Source.C49_heat_only_deriv",
    "Xrtm.Source.C49_global_deriv",
    "Xrtm.Source.C49_global_beam_deriv",
    "Xrtm.Source.C49_beam_together",
    "Xrtm.Source.C49_global_heat_deriv",
    "Xrtm.Source.C49_violated_resonance",
    "Xrtm.Source.C49_violated_thermal",
    "Xrtm.Source.C49_violated_underflow"
   ],
   "note": "Proved in exact real arithmetic for every exact linear solver. Three failures shown: there are layers for which no solution of the assumed form exists and the factorisation is singular; with more than one Stokes parameter the emission is set for all of them, so the thermal theorems are for one (full statement: thermalSource ns for every ns); and a transmittance that underflows makes the linearised source of the layer zero. The Green's function solution and the 2n variant, that is not compiled in, are not modelled."
  },
  {
   "property": "C50",
   "status": "partial",
   "theorems": [
    "Xrtm.Eig.C50_layer",
    "Xrtm.Eig.C50_layer_sun",
    "Xrtm.Eig.C50_scale",
    "Xrtm.Eig.C50_rt_deriv",
    "Xrtm.Eig.C50_together",
    "Xrtm.Eig.C50_near",
    "Xrtm.Eig.C50_modes_deriv",
    "Xrtm.Eig.C50_eigen_deriv",
    "Xrtm.Eig.C50_eigen_simple",
    "Xrtm.Eig.C50_eigen_double",
    "Xrtm.Eig.C50_grad_partial",
    "Xrtm.Eig.C50_violated_trivial"
   ],
   "note": "Proved over the reals and the complex numbers in exact arithmetic for every exact linear solver; what the eigenvalue routines return is an input. The derivative fails: an eigenvector with a single component is taken to be constant, which is wrong where a Fourier term of the phase function vanishes and its coefficient is linearised; the theorem about all of the scalar path together assumes such eigenvectors to be constant. The packing of complex pairs in two real columns, the degenerate eigenvalues of the complex path and the adjoint are not modelled."
  },
  {
   "property": "C51",
   "status": "partial",
   "theorems": [
    "Xrtm.Bvp.C51_in_bounds",
    "Xrtm.Bvp.C51_levels",
    "Xrtm.Bvp.C51_taus_partial",
    "Xrtm.Bvp.C51_exists",
    "Xrtm.Bvp.C51_singular",
    "Xrtm.Bvp.C51_unknowns_deriv_partial",
    "Xrtm.Bvp.C51_levels_deriv_partial",
    "Xrtm.Bvp.C51_taus_deriv_partial",
    "Xrtm.Bvp.C51_near",
    "Xrtm.Bvp.C51_violated_ground",
    "Xrtm.Bvp.C51_violated_taus_thermal"
   ],
   "note": "Proved over the reals and the complex numbers in exact arithmetic for every exact linear solver, with the particular solutions of Model/Source; what the eigenvalue routines return is an input. Two parts are false of the code: at depths within the layers the thermal particular solution is left out, and without a surface the derivative of the light emitted by the ground is left out; the theorems exclude these. The Green's function particular solutions, source function integration and the adjoint are not modelled."
  },
  {
   "property": "C52",
   "status": "proved",
   "theorems": [
    "Xrtm.Whole.C52_levels",
    "Xrtm.Whole.C52_no_dark",
    "Xrtm.Whole.C52_layer",
    "Xrtm.Whole.C52_adding",
    "Xrtm.Whole.C52_same",
    "Xrtm.Whole.C52_sources_deriv"
   ],
   "note": "Exact arithmetic, any exact linear solvers, any complete set of eigenvectors; thermal emission for one Stokes parameter (for more it is wrong, C49_violated_thermal). C52_levels and C52_no_dark hold for layers of any solver. The derivatives of the whole run are not put together; C52_sources_deriv closes the gap between C49 and C30."
  },
  {
   "property": "C53",
   "status": "partial",
   "theorems": [
    "Xrtm.Sos.C53_split",
    "Xrtm.Sos.C53_exists",
    "Xrtm.Sos.C53_light_partial",
    "Xrtm.Sos.C53_error_partial",
    "Xrtm.Sos.C53_all",
    "Xrtm.Sos.C53_deriv",
    "Xrtm.Sos.C53_violated_sky",
    "Xrtm.Sos.C53_violated_ends",
    "Xrtm.Sos.C53_violated_stop"
   ],
   "note": "Proved without light from the sky, for what leaves the atmosphere. Violated: light from the sky is let in again with every order; what comes in at the top and leaves the ground is returned as zero; negative light counts as weak, so Fourier terms end early whatever the limit. Derivatives hold the number of orders and of pieces; where a layer is a whole multiple of the limit the number of pieces jumps."
  },
  {
   "property": "C54",
   "status": "partial",
   "theorems": [
    "Xrtm.PhaseVec.C54_basis",
    "Xrtm.PhaseVec.C54_basis_poles",
    "Xrtm.PhaseVec.C54_matrix",
    "Xrtm.PhaseVec.C54_sides",
    "Xrtm.PhaseVec.C54_mirrored",
    "Xrtm.PhaseVec.C54_scalar",
    "Xrtm.PhaseVec.C54_angle",
    "Xrtm.PhaseVec.C54_fourier_partial",
    "Xrtm.PhaseVec.C54_violated_half",
    "Xrtm.PhaseVec.C54_violated_pole",
    "Xrtm.PhaseVec.C54_bounds_partial",
    "Xrtm.PhaseVec.C54_violated_bounds"
   ],
   "note": "Proved for all orders, degrees and directions. Violated: the third Stokes parameter of the single scattering solver is even in the difference of azimuths while the Fourier sum is odd, so their signs differ in half of the turn; straight down the sign is the other one; with a single coefficient basic_matrix writes one element behind the table."
  },
  {
   "property": "C55",
   "status": "partial",
   "theorems": [
    "Xrtm.TwoStream.C55_in_bounds",
    "Xrtm.TwoStream.C55_phase",
    "Xrtm.TwoStream.C55_levels",
    "Xrtm.TwoStream.C55_taus",
    "Xrtm.TwoStream.C55_exists",
    "Xrtm.TwoStream.C55_solves",
    "Xrtm.TwoStream.C55_lossy",
    "Xrtm.TwoStream.C55_outcomes",
    "Xrtm.TwoStream.C55_levels_deriv",
    "Xrtm.TwoStream.C55_taus_deriv",
    "Xrtm.TwoStream.C55_near",
    "Xrtm.TwoStream.C55_same",
    "Xrtm.TwoStream.C55_coef",
    "Xrtm.TwoStream.C55_violated_nan",
    "Xrtm.TwoStream.C55_violated_resonance",
    "Xrtm.TwoStream.C55_violated_still",
    "Xrtm.TwoStream.C55_violated_sky",
    "Xrtm.TwoStream.C55_violated_stale",
    "Xrtm.TwoStream.C55_violated_row",
    "Xrtm.TwoStream.C55_violated_wild",
    "Xrtm.TwoStream.C55_violated_dark_air"
   ],
   "note": "Proved for all inputs with exact linear algebra. Violated: strongly forward scattering layers give no number with the node of double Gauss; so does a beam that falls off as a mode (air that does not scatter with the sun in the direction of the node); a single coefficient leaves the second stale or is read out of the row; light from the sky is ignored; derivatives without the sun read flags from the address 1."
  },
  {
   "property": "C56",
   "status": "partial",
   "theorems": [
    "Xrtm.Sfi.C56_more",
    "Xrtm.Sfi.C56_one",
    "Xrtm.Sfi.C56_exists",
    "Xrtm.Sfi.C56_levels_up",
    "Xrtm.Sfi.C56_taus_up",
    "Xrtm.Sfi.C56_levels_dn",
    "Xrtm.Sfi.C56_taus_dn_partial",
    "Xrtm.Sfi.C56_derivs_up_partial",
    "Xrtm.Sfi.C56_derivs_dn_partial",
    "Xrtm.Sfi.C56_violated_resonance",
    "Xrtm.Sfi.C56_violated_read",
    "Xrtm.Sfi.C56_violated_stokes",
    "Xrtm.Sfi.C56_violated_shells",
    "Xrtm.Sfi.C56_violated_glow"
   ],
   "note": "Proved for all inputs with exact linear algebra and thermal emission without polarisation. Violated: a direction whose cosine is one over an eigenvalue gives no number though there is light; the light down at the top as the only depth reads past the list; thermal emission goes to all Stokes parameters; for shells the derivative by a layer above leaves out the change of the decay of the beam; the derivative of the emission of the ground takes the emissivity of the last direction for all. The beam by Green's functions is not modelled."
  },
  {
   "property": "C57",
   "status": "partial",
   "theorems": [
    "Xrtm.MemBvp.C57_in_bounds",
    "Xrtm.MemBvp.C57_safe",
    "Xrtm.MemBvp.C57_memory",
    "Xrtm.MemBvp.C57_levels_partial",
    "Xrtm.MemBvp.C57_taus_partial",
    "Xrtm.MemBvp.C57_singular",
    "Xrtm.MemBvp.C57_same_partial",
    "Xrtm.MemBvp.C57_violated_sky",
    "Xrtm.MemBvp.C57_sky_ignored",
    "Xrtm.MemBvp.C57_unknowns_deriv",
    "Xrtm.MemBvp.C57_levels_deriv",
    "Xrtm.MemBvp.C57_taus_deriv",
    "Xrtm.MemBvp.C57_near"
   ],
   "note": "Proved for all inputs with exact linear algebra, a beam that decays with the slant depths, and no light from above. Violated: light from above (xrtm_set_F_iso_top, accepted for this solver) is left out and the light down at the top is returned as zero; so is its derivative."
  },
  {
   "property": "C58",
   "status": "partial",
   "theorems": [
    "Xrtm.TwoOs.C58_exists",
    "Xrtm.TwoOs.C58_top_partial",
    "Xrtm.TwoOs.C58_top_scaled",
    "Xrtm.TwoOs.C58_shell_error",
    "Xrtm.TwoOs.C58_violated_shell",
    "Xrtm.TwoOs.C58_violated_ground",
    "Xrtm.TwoOs.C58_violated_levels",
    "Xrtm.TwoOs.C58_deriv_partial",
    "Xrtm.TwoOs.C58_violated_deriv",
    "Xrtm.TwoOs.C58_violated_deriv_same",
    "Xrtm.TwoOs.C58_violated_deriv_sun"
   ],
   "note": "Proved for the light that leaves the top of plane layers, and its derivatives off the case as_0 = 1/qx. Violated: in shells (as_0[j] for 1/mu_0 in one term), where the weights do not add up to one half (qf left out), at other levels and downwards (the top is always returned, the light down is zero), and the derivative by a parameter that changes as_0 (sign)."
  },
  {
   "property": "C59",
   "status": "partial",
   "theorems": [
    "Xrtm.Pade.C59_coefs",
    "Xrtm.Pade.C59_rows",
    "Xrtm.Pade.C59_numer",
    "Xrtm.Pade.C59_error",
    "Xrtm.Pade.C59_order",
    "Xrtm.Pade.C59_deriv",
    "Xrtm.Pade.C59_lookup",
    "Xrtm.Pade.C59_violated_table",
    "Xrtm.Pade.C59_violated_params"
   ],
   "note": "The bound has a constant of the medium that is shown to exist and not computed; the symmetric form and the sources through the layer are left out; derivatives for fixed s and r. Violated: for layers thick enough the table is read one place beyond its end, and for thicker ones the process ends by exit(1); orders from 32 given by the user overrun pade_c, doublings from 31 shift by too much."
  },
  {
   "property": "C60",
   "status": "partial",
   "theorems": [
    "Xrtm.Streams.C60_in_bounds",
    "Xrtm.Streams.C60_nodes",
    "Xrtm.Streams.C60_tables",
    "Xrtm.Streams.C60_phase",
    "Xrtm.Streams.C60_taus_partial",
    "Xrtm.Streams.C60_levels_before",
    "Xrtm.Streams.C60_solves",
    "Xrtm.Streams.C60_violated_levels",
    "Xrtm.Streams.C60_violated_sky",
    "Xrtm.Streams.C60_violated_ground",
    "Xrtm.Streams.C60_violated_shells",
    "Xrtm.Streams.C60_violated_nodes",
    "Xrtm.Streams.C60_violated_read",
    "Xrtm.Streams.C60_violated_derivs"
   ],
   "note": "Proved for plane layers under the beam, no light from above, light from below from the ground only, distinct eigenvalues, and the roots and ratios having values. Violated: at levels calc_radiance_levels is called through a declaration with other parameters than the function has; light from above is left out, and light from below without a surface; in shells the source has mu_0 where the secant of the layer is meant; the tables are used whatever the quadrature is; rows of coefficients shorter than four are read beyond their end; derivatives are returned as zero. Further directions (n_umus > 0) are left out."
  },
  {
   "property": "C61",
   "status": "partial",
   "theorems": [
    "Xrtm.Streams.C61_in_bounds",
    "Xrtm.Streams.C61_nodes",
    "Xrtm.Streams.C61_tables",
    "Xrtm.Streams.C61_phase",
    "Xrtm.Streams.C61_taus_partial",
    "Xrtm.Streams.C61_levels_partial",
    "Xrtm.Streams.C61_solves",
    "Xrtm.Streams.C61_violated_absorbing",
    "Xrtm.Streams.C61_violated_sky",
    "Xrtm.Streams.C61_violated_ground",
    "Xrtm.Streams.C61_violated_shells",
    "Xrtm.Streams.C61_violated_nodes",
    "Xrtm.Streams.C61_violated_read",
    "Xrtm.Streams.C61_violated_derivs"
   ],
   "note": "As C60, with the levels; violated also: a layer that only absorbs gives not-a-number, since every eigenvector is a ratio of zeros."
  },
  {
   "property": "C62",
   "status": "proved",
   "theorems": [
    "Xrtm.Whole.C62_normal",
    "Xrtm.Whole.C62_unique",
    "Xrtm.Whole.C62_share",
    "Xrtm.Whole.C62_levels",
    "Xrtm.Whole.C62_toa_surface",
    "Xrtm.Whole.C62_toa",
    "Xrtm.Whole.C62_boa",
    "Xrtm.Whole.C62_bvp",
    "Xrtm.Whole.C62_layer",
    "Xrtm.Whole.C62_adding"
   ],
   "note": "In exact numbers, for eigenvalues with positive real part. A layer that neither scatters nor is free of emission ends the process (C52), and is left out by hypothesis. The conditions are on squares of light weighted by cosine and weight, which phase matrices that are symmetric, not negative and normalised meet (C62_normal); for more than one Stokes parameter the condition itself is the hypothesis."
  },
  {
   "property": "C63",
   "status": "partial",
   "theorems": [
    "Xrtm.Gauss.C63_zeros",
    "Xrtm.Gauss.C63_climb",
    "Xrtm.Gauss.C63_turn",
    "Xrtm.Gauss.C63_search",
    "Xrtm.Gauss.C63_ends",
    "Xrtm.Gauss.C63_one",
    "Xrtm.Gauss.C63_between",
    "Xrtm.Gauss.C63_between_deriv",
    "Xrtm.Gauss.C63_double",
    "Xrtm.Gauss.C63_norm",
    "Xrtm.Gauss.C63_norm_cosine_violated",
    "Xrtm.Gauss.C63_factor"
   ],
   "note": "In exact numbers. That the first guess of the search, a formula with a tangent, lies within reach of its zero is proved for one stream only (C63_one); for others it is the hypothesis of C63_ends. That the single rule does not integrate the cosine itself is C63_norm_cosine_violated: the factor qf makes up for it in what the ground reflects of diffuse light."
  },
  {
   "property": "C64",
   "status": "partial",
   "theorems": [
    "Xrtm.Phase.C64_term",
    "Xrtm.Phase.C64_rules",
    "Xrtm.Phase.C64_total",
    "Xrtm.Phase.C64_scattered",
    "Xrtm.Phase.C64_passive",
    "Xrtm.Phase.C64_ground",
    "Xrtm.Phase.C64_lambert",
    "Xrtm.Phase.C64_natural",
    "Xrtm.Phase.C64_eigen",
    "Xrtm.Phase.C64_eigen_exists",
    "Xrtm.Phase.C64_heat",
    "Xrtm.Phase.C64_bvp",
    "Xrtm.Phase.C64_adding"
   ],
   "note": "Scalar. That the phase function is not negative is asked of the series with the coefficients in use, so after truncation or delta-M scaling; it is needed (last example in Props/Phase). Albedo one is not covered: an eigenvalue is then zero. What is left to ask of the beam is that it is not in resonance with an eigenvalue; of a layer without scattering in the adding solver that it does not emit (C52)."
  },
  {
   "property": "C65",
   "status": "partial",
   "theorems": [
    "Xrtm.Call.C65_forward_iff",
    "Xrtm.Call.C65_history_partial",
    "Xrtm.Call.C65_reverse_iff",
    "Xrtm.Call.C65_reverse_plain_partial",
    "Xrtm.Call.C65_violated_rows",
    "Xrtm.Call.C65_violated_keep",
    "Xrtm.Call.C65_violated_blank",
    "Xrtm.Call.C65_violated_stale",
    "Xrtm.Call.C65_violated_pointer"
   ],
   "note": "Which array is pointed to, computed, read and copied, not the numbers. Holds for every history when the two stream solver was not named and derivatives are not taken backwards; with the two stream solver named the solvers that need the light at the boundaries get memory that was not written to, old values, or pointers not set. With reverse derivatives it holds for the eigenvector solver exactly with a sun and not more user angles than directions of light, and fails for all but it and the matrix exponential solver."
  },
  {
   "property": "C66",
   "status": "partial",
   "theorems": [
    "Xrtm.Clear.C66_init",
    "Xrtm.Clear.C66_clear",
    "Xrtm.Clear.C66_single",
    "Xrtm.Clear.C66_store",
    "Xrtm.Clear.C66_rows_iff",
    "Xrtm.Clear.C66_violated_azimuths"
   ],
   "note": "The clearing of get_solution_internal and the stores of the single scattering solver meet exactly the elements. The clearing in the single scattering solver has azimuths and polar angles in the wrong order: within the array exactly when there are not more azimuths than polar angles (arrays of alloc_array) or as many (rows allocated one by one). Element size eight; int overflow left out."
  },
  {
   "property": "C67",
   "status": "partial",
   "theorems": [
    "Xrtm.SingleA.C67_up_layer",
    "Xrtm.SingleA.C67_dn_layer",
    "Xrtm.SingleA.C67_up",
    "Xrtm.SingleA.C67_dn_partial",
    "Xrtm.SingleA.C67_up_gradient",
    "Xrtm.SingleA.C67_dn_gradient",
    "Xrtm.SingleA.C67_tms_up",
    "Xrtm.SingleA.C67_tms_dn_partial",
    "Xrtm.SingleA.C67_violated_top",
    "Xrtm.SingleA.C67_violated_tms",
    "Xrtm.SingleA.C67_read_iff",
    "Xrtm.SingleA.C67_violated_no_sun"
   ],
   "note": "Upward radiances: keeps, in full. Downward: for weights that are zero before (the routine overwrites those of what comes in, C67_violated_top, C67_violated_tms). ulevels[-1] is read exactly when output is at depths and the first depth is below the first layer. Without a beam the reverse reads a record that was not filled. Simplified: exact reals; the save tree is a record."
  },
  {
   "property": "C68",
   "status": "partial",
   "theorems": [
    "Xrtm.AdjointS.C68_sun",
    "Xrtm.AdjointS.C68_global",
    "Xrtm.AdjointS.C68_global_same",
    "Xrtm.AdjointS.C68_scale",
    "Xrtm.AdjointS.C68_both_ways",
    "Xrtm.AdjointS.C68_both_ways_bare_partial",
    "Xrtm.AdjointS.C68_bottom_exchanged",
    "Xrtm.AdjointS.C68_violated_bottom",
    "Xrtm.AdjointS.C68_bottom_up"
   ],
   "note": "Sun, sources, scaling, bottom up and both ways over a surface in full, against the derivative of what the forward routines (C49, C32) compute. Without a surface: output at the top in full, at the bottom the arguments are exchanged (C68_bottom_exchanged, C68_violated_bottom). Not here: the reverse of the thermal source (there is none in the code) and of the eigenproblem."
  },
  {
   "property": "C69",
   "status": "partial",
   "theorems": [
    "Xrtm.EigA.C69_rt",
    "Xrtm.EigA.C69_rt_goes",
    "Xrtm.EigA.C69_modes",
    "Xrtm.EigA.C69_eigen_partial",
    "Xrtm.EigA.C69_eigen_goes",
    "Xrtm.EigA.C69_grad_partial",
    "Xrtm.EigA.C69_violated_close",
    "Xrtm.EigA.C69_real_column_partial",
    "Xrtm.EigA.C69_violated_vector",
    "Xrtm.EigA.C69_pair",
    "Xrtm.EigA.C69_pair_goes",
    "Xrtm.EigA.C69_pair_modes",
    "Xrtm.EigA.C69_pair_all",
    "Xrtm.EigA.C69_pol_partial",
    "Xrtm.EigA.C69_pol_grad_partial"
   ],
   "note": "R and T, and modes, in full over every field; eigenvalues and eigenvectors, and the whole scalar path against the derivative of what the solver computes, if no two eigenvalues lie within 100 eps (C69_violated_close) and under the provision of C50_grad_partial. With polarisation the columns with real eigenvalues, if the eigenvector has more than one component (C69_violated_vector), pairs of complex eigenvalues in full, all columns together against the linearised R and T (C69_pol_partial) and against derivatives of what the solver computes, if besides no real eigenvalue lies close to another (C69_pol_grad_partial)."
  },
  {
   "property": "C70",
   "status": "partial",
   "theorems": [
    "Xrtm.EigA.C70_rounds",
    "Xrtm.EigA.C70_same_partial",
    "Xrtm.EigA.C70_violated_negative",
    "Xrtm.EigA.C70_pol_partial"
   ],
   "note": "If no eigenvalue is real and negative; for such a one the loops over roots pair other columns than those over eigenvalues (C70_violated_negative)."
  },
  {
   "property": "C71",
   "status": "partial",
   "theorems": [
    "Xrtm.Gauss.C71_trapezoid",
    "Xrtm.Gauss.C71_simpson",
    "Xrtm.Gauss.C71_simpson_refuses",
    "Xrtm.Gauss.C71_extended_partial",
    "Xrtm.Gauss.C71_violated_extended",
    "Xrtm.Gauss.C71_violated_single",
    "Xrtm.Gauss.C71_fit",
    "Xrtm.Gauss.C71_fit_deriv",
    "Xrtm.Gauss.C71_pieces",
    "Xrtm.Gauss.C71_gauss",
    "Xrtm.Gauss.C71_gauss_deriv"
   ],
   "note": "The extended trapezoidal rule has the right weights, but from three points on wrong points (C71_violated_extended), and with one point the wrong weight (C71_violated_single). The trapezoidal and Simpson's rule with one point divide by zero and are not covered. The points of the search are taken to be the zeros, as in C63."
  },
  {
   "property": "C72",
   "status": "partial",
   "theorems": [
    "Xrtm.DeltaM.C72_shape",
    "Xrtm.DeltaM.C72_coef",
    "Xrtm.DeltaM.C72_diagonal_partial",
    "Xrtm.DeltaM.C72_scalar",
    "Xrtm.DeltaM.C72_violated_lc",
    "Xrtm.DeltaM.C72_as_gc"
   ],
   "note": "In full without polarisation, and coefficient for coefficient with generalised spherical functions; with coefficients in Legendre polynomials the diagonal only (C72_violated_lc)."
  }
 ]
}