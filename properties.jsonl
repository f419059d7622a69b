{"id": "C01", "title": "Option consistency is decided exactly", "statement": "xrtm_create accepts a requested option set (after its documented defaults are filled in) exactly when it is consistent: exactly one FOUR_CONV, OUTPUT_AT, PART_SOL, phase-type and QUAD option, at least one of up/downwelling output, PHASE_MATRIX iff VECTOR, STACK_REUSE only with CALC_DERIVS and without SAVE_LAYER_R_T_S or TOP_DOWN, TOP_DOWN and BOTTOM_UP never together, N_T_TMS never with NO_AZIMUTHAL.", "quantifier": "all 2^32 option words", "why_tests_cant": "There are 2^32 option words and the check is a conjunction of interacting rules; a test samples a handful.", "anchors": ["src/xrtm_interface.c: xrtm_check_options, xrtm_create", "src/xrtm_interface.h: enum xrtm_option_mask"]}
{"id": "C02", "title": "Counts are validated against options", "statement": "xrtm_create accepts a (max_coef, n_quad, n_stokes, n_derivs, n_layers, n_theta_0s, n_kernels, n_kernel_quad, n_out_levels, n_out_thetas) tuple exactly when every count is in range and consistent with the options; a created instance therefore always has n_quad, n_layers, n_out_levels > 0, 1<=n_stokes<=4 and derivative storage iff CALC_DERIVS.", "quantifier": "all integer count tuples and option words", "why_tests_cant": "Unbounded integer inputs.", "anchors": ["src/xrtm_interface.c: xrtm_create, xrtm_check_counts"]}
{"id": "C03", "title": "Solvers can never run in an unsupported configuration", "statement": "If xrtm_create succeeds, every solver that xrtm_solution will later agree to run is compatible with every option and count of the instance according to the documented solver/option exclusion table; conversely a compatible request is not rejected.", "quantifier": "all solver masks x option words x counts", "why_tests_cant": "2^11 solver masks x 2^32 options x unbounded counts.", "anchors": ["src/xrtm_interface.c: xrtm_check_solvers, xrtm_solution, check_solvers"]}
{"id": "C04", "title": "No solution before all required inputs are set", "statement": "xrtm_solution returns an error unless every input required by the configuration (per layer, per kernel, per level) has been successfully set at least once since creation, whatever the order and repetition of the setter calls; once it has been accepted it is never again refused for missing inputs.", "quantifier": "all finite histories of setter/solution calls, any configuration", "why_tests_cant": "The set of orderings of setter calls is unbounded; the gate is re-armed through freed bookkeeping arrays.", "anchors": ["src/xrtm_interface.c: check_inputs_initialized, SOLUTION_PREPROCESS"]}
{"id": "C05", "title": "Failed calls have no effect", "statement": "A setter call that returns an error leaves every observable input of the instance and every future result unchanged.", "quantifier": "all histories, all rejected argument vectors", "why_tests_cant": "A test would need to enumerate each rejection point inside each multi-element write loop.", "anchors": ["src/xrtm_interface.c: xrtm_set_* functions", "src/xrtm_support.c: xrtm_set_layer_x"]}
{"id": "C06", "title": "Getters return the last accepted value", "statement": "After any history, each getter returns exactly the value of the last accepted setter for that same input, layer, element and derivative index (modulo the documented singularity adjustment), unaffected by setters of other inputs, layers or derivatives; an input never set is reported as an error.", "quantifier": "all histories of setter calls and all indices", "why_tests_cant": "Non-interference between all pairs of inputs/indices over unbounded histories.", "anchors": ["src/xrtm_interface.c: xrtm_set_*, xrtm_get_*", "src/xrtm_support.c: xrtm_set_layer_x, xrtm_set_layer_x_l"]}
{"id": "C07", "title": "Accessors never touch memory outside the instance arrays", "statement": "For every index argument, each per-layer, per-derivative, per-element or per-kernel setter and getter either accesses an element inside the arrays sized at creation or returns an error without accessing them.", "quantifier": "all integer index arguments, all histories", "why_tests_cant": "Out-of-range integers are unbounded and the fault depends on the history (whether inputs are already complete).", "anchors": ["src/xrtm_interface.c: xrtm_get_ltau, xrtm_get_omega, xrtm_get_n_coef, xrtm_get_coef ...", "src/xrtm_support.h: GET_INPUTS_CHECK_SET_FLAGS, CHECK_INDEX_RANGE"]}
{"id": "C08", "title": "Stored inputs always satisfy their documented ranges", "statement": "After any history of calls, every input that has been set satisfies its documented range: omega in [0,1-1e-5], ltau > 0, F_0, F_iso, Planck terms and Fourier tolerance >= 0, output and solar zenith angles in [0,90), output levels strictly increasing in [0,n_layers], altitude levels non-increasing, kernel amplitudes in [0,1], first expansion coefficient 1.", "quantifier": "all histories, all argument values", "why_tests_cant": "Requires an invariant over all histories and values.", "anchors": ["src/xrtm_interface.c: xrtm_set_omega_1, xrtm_set_ltau_1, xrtm_set_out_levels, xrtm_set_levels_z, ...", "src/xrtm_utility.c: singularity_adjust_down"]}
{"id": "C09", "title": "Results do not depend on call history", "statement": "The result of xrtm_solution after any history of setter and solution calls equals the result a freshly created instance gives when only the final input values are set: every cached intermediate quantity that is reused is the one the final inputs would produce.", "quantifier": "all configurations, all finite histories of setters and solutions, any (uninterpreted) physics", "why_tests_cant": "The caches are invalidated by 32-bit dependency masks; a missing bit shows only for a specific history (set, solve, set one layer, solve).", "anchors": ["src/xrtm_interface.c: set_deps, xrtm_set_*", "src/xrtm_model.c: resolve_deps0/1/2, *_deps, update_*, get_*"]}
{"id": "C10", "title": "Solar-beam profile is consistent with the optical depths used", "statement": "Whenever a solver reads the direct-beam transmittance at a level, the value equals that computed from the current optical depths of all layers above, for every solver and adding strategy.", "quantifier": "all histories of per-layer and all-layer optical-depth updates and all solver calls", "why_tests_cant": "Fails only after a single-layer update of an inner layer between two solutions with a specific adding strategy.", "anchors": ["src/xrtm_model.c: beam_params_update, update_beam_params, update_beam_params_all, fourier_get_add_both_ways"]}
{"id": "C11", "title": "Every input change is noticed exactly once by every consumer", "statement": "After a setter changes an input, the next request for each cached quantity that declares a dependence on it recomputes; a second request without intervening changes does not recompute; changes of inputs the quantity does not declare never trigger recomputation; changes to one layer never invalidate only other layers.", "quantifier": "all histories, all dependency words", "why_tests_cant": "Depends on the interleaving of flag setting and test-and-clear over unbounded histories.", "anchors": ["src/xrtm_interface.c: set_deps, init_deps", "src/xrtm_model.c: resolve_deps0, resolve_deps1, resolve_deps2"]}
{"id": "C12", "title": "xrtm_clear_saved restores a clean slate", "statement": "After xrtm_clear_saved, the next xrtm_solution equals that of a fresh instance with the same inputs, whatever happened before.", "quantifier": "all histories", "why_tests_cant": "Needs to hold from every reachable cache state.", "anchors": ["src/xrtm_interface.c: xrtm_clear_saved", "src/xrtm_model.c: resolve_deps*"]}
{"id": "C13", "title": "Repeating a solution gives the same answer", "statement": "Two successive xrtm_solution calls with no intervening setter return identical results.", "quantifier": "all configurations and histories preceding the two calls", "why_tests_cant": "Second call exercises the cached path from an arbitrary reachable state.", "anchors": ["src/xrtm_model.c: get_solution_internal, resolve_deps*"]}
{"id": "C14", "title": "Output optical depths are located in the right layer", "statement": "For output at optical depths, each requested depth accepted by the validation is assigned to the layer that contains it, with an in-layer offset between 0 and the layer thickness, indices always inside [0,n_layers), and offsets plus the depth above reproduce the requested depth.", "quantifier": "all layer thickness vectors and all increasing output depth vectors", "why_tests_cant": "Boundary equalities (depth exactly on a layer interface or at the bottom) and unbounded sizes.", "anchors": ["src/xrtm_model.c: update_utaus", "src/xrtm_interface.c: check_inputs_post_checks"]}
{"id": "C15", "title": "Derivative activity flags are sound", "statement": "After xrtm_update_varied_layers, a derivative is treated as identically zero for a quantity (layer, beam at a level, thermal source, total reflection, sources) only if no linearised input that the quantity depends on is non-zero for that derivative; beam activity is exactly 'some layer above is active'.", "quantifier": "all n_layers, n_derivs and all linearised input tables", "why_tests_cant": "Unbounded tables; a wrong 'inactive' flag silently drops a derivative.", "anchors": ["src/xrtm_interface.c: xrtm_update_varied_layers, build_derivs_layers, build_derivs_beam, build_derivs_adding_down, build_derivs_adding_up", "src/xrtm_utility.c: derivs_merge_s, flags_or, flags_and"]}
{"id": "C16", "title": "Derivative union flags match the tables", "statement": "The union (any-derivative) flags the solver consults per layer equal the logical OR over derivatives of the corresponding table, and the flag metadata (or/and/count) reports 'any', 'all' and 'how many' of the flags.", "quantifier": "all flag tables of any size", "why_tests_cant": "Unbounded sizes.", "anchors": ["src/xrtm_utility.c: flags_or, flags_and, flags_count, flags_fill_meta, derivs_union_*", "src/xrtm_interface.c: xrtm_update_varied_layers"]}
{"id": "C17", "title": "Layer-stack reuse covers every layer exactly once", "statement": "With STACK_REUSE_ADDING, the stacks that are combined to form the total for a derivative partition the layers 0..n-1: no layer is skipped or added twice, every stack used was built from its own two halves first, and chain storage bounds are respected.", "quantifier": "all n_layers and all varied-layer patterns", "why_tests_cant": "Combinatorially many patterns.", "anchors": ["src/xrtm_stacks.c: build_stack_chain, stack_chain_find, stack_chain_find2", "src/xrtm_model.c: get_total_R_T_S_U_W_V_2, build_layer_stacks"]}
{"id": "C18", "title": "Saved forward data is found by the same path and only by it", "statement": "The forward-run save tree returns for a call path the record stored for that same path, encode/decode bracket each other, and distinct call paths never share a record.", "quantifier": "all sequences of encode/decode operations and all path strings", "why_tests_cant": "All strings; hash-keyed.", "anchors": ["src/xrtm_save_tree.c: save_tree_encode_s, save_tree_encode_i, save_tree_decode_s, save_tree_retrieve_data"]}
{"id": "C19", "title": "Balanced tree keeps its elements and order", "statement": "The generic ordered tree behaves as a finite map/set: after any sequence of insertions, an element is found iff it was inserted, duplicates are refused without change, traversal is sorted, count is the number of distinct elements, and depth stays logarithmic.", "quantifier": "all insertion sequences over any totally ordered keys", "why_tests_cant": "Unbounded sequences, rebalancing.", "anchors": ["misc/gstruct_aatree.h: aatree_insert_comp, aatree_find_comp, aatree_skew, aatree_split, aatree_count"]}
{"id": "C20", "title": "Scratch arrays handed to live callers never overlap", "statement": "The work-array allocator never gives two simultaneously live callers overlapping memory and never frees or moves a block still held by a caller up the call chain, for any call tree and any request sizes.", "quantifier": "all call trees (nested scopes) and request sizes", "why_tests_cant": "Unbounded nesting and sizes; overlap appears only when pages are grown by a callee.", "anchors": ["src/xrtm_work.c: get_work_common, work_init, get_work_x1, get_work_x2_m_flags, work_get1", "src/xrtm_work.h: work_data"]}
{"id": "C21", "title": "Multi-dimensional arrays are laid out without overlap", "statement": "alloc_array of any rank and dimensions yields pointers such that element (i0,...,ik) lies at the row-major position of one contiguous block that is inside the single allocation, distinct elements are disjoint, and the pointer tables do not overlap the data.", "quantifier": "all ranks and all positive dimensions", "why_tests_cant": "Unbounded ranks and sizes.", "anchors": ["misc/gutil_alloc.c: array_mem_length, ptr_array_init, ptr_array_assign, alloc_array, realloc_array7, dup_array"]}
{"id": "C22", "title": "Names, indices, masks and values convert consistently", "statement": "For options, solvers, solutions, kernels and inputs: index->name->index, mask->name->mask and index->value->index are identities, unknown names/values are rejected, and no index inside the declared range reads outside the table.", "quantifier": "all indices, names and mask words", "why_tests_cant": "All strings/words.", "anchors": ["src/xrtm_interface.c: xrtm_option_names, xrtm_input_names, GINDEX_*", "misc/gindex_name_value.c"]}
{"id": "C23", "title": "Comma-separated option lists parse to the union of their masks", "statement": "Parsing a list of names yields the OR of the masks and printing a mask then parsing it returns the mask, for every mask.", "quantifier": "all name lists / all mask words", "why_tests_cant": "2^32 words.", "anchors": ["misc/gindex_name_value.c: name_list_to_mask, mask_to_name_list, mask_to_index_list"]}
{"id": "C24", "title": "Fourier series truncation is sound", "statement": "The azimuthal Fourier sum includes terms 0..k-1 where k is the number of available terms unless two consecutive terms after the first fell below the tolerance; with tolerance 0 no term is ever dropped; flux-only requests use exactly one term; the reported Fourier count equals the number of terms summed.", "quantifier": "all term sequences, tolerances and configurations", "why_tests_cant": "Unbounded sequences.", "anchors": ["src/xrtm_model.c: get_solution_internal", "src/xrtm_interface.c: update_n_four2, xrtm_get_fourier_count"]}
{"id": "C25", "title": "Output level selection addresses valid levels", "statement": "Every output level accepted by xrtm_set_out_levels is a valid level index of the profile for the solver enabled; flux and mean outputs for an output level use the direct-beam transmittance of that level.", "quantifier": "all level vectors, layers counts and solver masks", "why_tests_cant": "Unbounded integers; needs relation between two arrays.", "anchors": ["src/xrtm_interface.c: xrtm_set_out_levels", "src/xrtm_model.c: get_solution_internal"]}
{"id": "C26", "title": "Delta-M scaling derivatives are exact", "statement": "The linearised delta-M scaled expansion coefficients, single scattering albedo, optical thickness and asymmetry equal the exact derivatives of the scaled quantities for every input perturbation, wherever the scaling is defined; scaling with f=0 is the identity; scaled omega stays in [0,1) and scaled ltau positive.", "quantifier": "all real inputs and perturbations, all coefficient counts", "why_tests_cant": "Continuous domain; finite differences only sample.", "anchors": ["src/xrtm_utility.c: delta_m_coef, delta_m_omega, delta_m_ltau, delta_m_coef_l, delta_m_omega_l, delta_m_ltau_l"]}
{"id": "C27", "title": "TMS correction factor derivative is exact", "statement": "The truncated-multiple-scattering scaling of omega used by the Nakajima-Tanaka correction and its linearisation are the exact quotient and its exact derivative.", "quantifier": "all real inputs", "why_tests_cant": "Continuous domain.", "anchors": ["src/xrtm_utility.c: n_t_tms_scaling"]}
{"id": "C28", "title": "Adding equations solve the interface conditions", "statement": "Combining two layers yields reflection/transmission/source operators such that the fields they predict at the outer boundaries are the unique solution of the two layers' own equations joined at the interface.", "quantifier": "all layer operators of any size with an invertible interface operator", "why_tests_cant": "All matrices of all sizes.", "anchors": ["src/xrtm_adding.c: layer_add_all, layer_add_ref"]}
{"id": "C29", "title": "Order of adding does not matter", "statement": "Top-down, bottom-up and both-ways accumulation of the same layers give the same total reflection, transmission and sources (in exact arithmetic).", "quantifier": "all numbers of layers and all layer operators with invertible interface operators", "why_tests_cant": "Unbounded number of layers and sizes.", "anchors": ["src/xrtm_adding.c: layer_add_all, layer_add_ref", "src/xrtm_model.c: get_total_TOA_R_S_U_V, get_total_BOA_R_S_U_V, get_total_R_T_S_U_W_V"]}
{"id": "C30", "title": "Linearised adding is the exact derivative in every activity case", "statement": "For each of the combinations of active/inactive derivatives in the two layers, the linearised adding step returns the exact derivative of the added operators, so skipping inactive terms never changes a derivative.", "quantifier": "all operators, all perturbations consistent with the activity flags, all 16 activity codes", "why_tests_cant": "All matrices x 16 code paths.", "anchors": ["src/xrtm_adding.c: layer_add_all, layer_add_ref, layer_add_ref2, layer_add_all2, add_all_*_up, add_ref_*"]}
{"id": "C31", "title": "Doubling equals adding a layer to itself", "statement": "Layer doubling produces exactly the result of adding the layer to an identical copy (with solar sources attenuated by the layer transmittance), its linearisation is the exact derivative, and k doublings represent 2^k sub-layers.", "quantifier": "all operators, all numbers of doublings", "why_tests_cant": "All matrices, unbounded iterations.", "anchors": ["src/xrtm_doubling.c: layer_double, layer_double_l, layer_double_s"]}
{"id": "C32", "title": "Radiances satisfy the boundary equations", "statement": "The upwelling and downwelling radiances computed at the top and bottom satisfy the reflection/transmission equations of the atmosphere and the surface simultaneously, and their linearisations are exact derivatives in every activity case.", "quantifier": "all operators, sources and activity codes", "why_tests_cant": "All matrices x codes.", "anchors": ["src/xrtm_radiance.c: radiance_slab, radiance_toa_ref, radiance_boa_ref, radiance_boa_all"]}
{"id": "C33", "title": "Single-scattering recursion and derivatives are exact", "statement": "The single-scattered radiance at each requested level equals the sum over layers of the attenuated layer contributions, independent of which other levels are requested, and its linearisation is the exact derivative.", "quantifier": "all layer counts, level selections and real inputs", "why_tests_cant": "Unbounded layers and continuous inputs.", "anchors": ["src/xrtm_single.c: ssr_up_layer, single_scattered_radiance_up, ssr_dn_layer, single_scattered_radiance_dn"]}
{"id": "C34", "title": "Adjoint derivatives agree with tangent-linear ones", "statement": "The reverse-mode (adjoint) code of a linearised step is the exact transpose of its forward linearisation, so reverse and forward derivative modes give the same derivatives.", "quantifier": "all operators, perturbations and adjoint seeds", "why_tests_cant": "Continuous domain; dot-product test samples only.", "anchors": ["src/xrtm_adding_a.c: layer_add_ref_a, layer_add_all_a", "src/xrtm_utility_a.c: delta_m_*_a"]}
{"id": "C35", "title": "Singularity avoidance moves values off the singular point and only there", "statement": "Adjusted values are at least the threshold away from the singular base, values already that far are returned unchanged, and an adjustment never moves a value by more than twice the threshold.", "quantifier": "all real values, bases and positive thresholds", "why_tests_cant": "Continuous domain.", "anchors": ["src/xrtm_utility.c: singularity_adjust_up, singularity_adjust_down, singularity_adjust_auto", "src/xrtm_interface.c: mu_0_singularity_adjust"]}
{"id": "C36", "title": "Beam geometry factors", "statement": "Without pseudo-spherical approximation the direct beam optical path is proportional to the accumulated optical depth; the beam transmittance is multiplicative over layers and non-increasing with depth; the average secant of each layer reproduces the layer transmittance; Chapman factors only use the layers above, and equal-altitude levels are handled.", "quantifier": "all profiles", "why_tests_cant": "Unbounded profiles.", "anchors": ["src/xrtm_model.c: beam_params_update", "src/xrtm_utility.c: chapman_functions"]}
{"id": "C37", "title": "Everything allocated at creation is released exactly once at destruction", "statement": "For every configuration and every history, xrtm_destroy frees each buffer allocated by xrtm_create and by later calls exactly once.", "quantifier": "all configurations and histories", "why_tests_cant": "Conditional allocation in ~2^10 option combinations.", "anchors": ["src/xrtm_interface.c: xrtm_create, xrtm_destroy, check_inputs_initialized", "src/xrtm_work.c: work_free"]}
{"id": "C38", "title": "A failed or reverse-mode solution does not change the configuration", "statement": "xrtm_solution_2 temporarily disables forward derivatives; on every exit path (success or error) the configuration is what it was before the call, and the flat output index maps bijectively to (direction, level, angle, azimuth, Stokes).", "quantifier": "all histories and all failure points", "why_tests_cant": "Failure points inside the nested call.", "anchors": ["src/xrtm_interface.c: xrtm_solution_2"]}
{"id": "C39", "title": "Work lists grow without losing or aliasing entries", "statement": "The typed work lists give each live request a distinct array, grow their tables before they are written beyond capacity, and give back the same arrays after a scope ends.", "quantifier": "all request sequences", "why_tests_cant": "Unbounded sequences.", "anchors": ["src/xrtm_work.c: work_get1, get_work_vector, get_work_vectors, check_work_bounds"]}
{"id": "C40", "title": "A failing solution does not poison later ones", "statement": "If xrtm_solution fails (for example the phase function normalisation check), repeating the call with unchanged inputs fails again rather than returning results from half-updated caches.", "quantifier": "all histories and failure points", "why_tests_cant": "Crash-point style property.", "anchors": ["src/xrtm_model.c: phase_mats_get, phase_vecs_get, check_phase_mat_norm"]}
{"id": "C41", "title": "The thin layer doubling starts from is at most the requested thickness", "statement": "The number of doublings and the thickness of the starting layer chosen for a layer satisfy: thickness times two to the number of doublings is the layer's thickness, the starting layer is at most doub_d_tau thick, and no fewer doublings would do.", "quantifier": "all positive thicknesses and all positive doub_d_tau", "why_tests_cant": "Continuum of thicknesses, including exact powers of two where rounding up and down differ.", "anchors": ["src/xrtm_doub_rts.c: calc_doub_params", "src/xrtm_doub_rts.c: rtm_doub_rts"]}
{"id": "C42", "title": "Layers that do not scatter only dim, and no accepted input ends the process", "statement": "A layer with albedo zero (or beyond its Fourier order) reflects and emits nothing and dims each direction by exp(-ltau/mu); two such layers are one with the summed thickness; the derivative by thickness is exact; and no combination of accepted inputs makes the library end the calling process there.", "quantifier": "all thicknesses, quadratures, orders, option sets", "why_tests_cant": "Continuum of thicknesses, all combinations of options with albedo zero.", "anchors": ["src/xrtm_utility.c: no_scatter_r_t_s", "src/xrtm_model.c: get_layer_R_T_S_U_W_V"]}
{"id": "C44", "title": "Deleting from the ordered tree removes exactly one entry", "statement": "Deleting a key from the ordered tree answers whether it was there, removes its entry and no other, keeps order, balance and the links used for walking, and reads only members that have been set and nodes that are alive.", "quantifier": "all histories of insertions and deletions, all keys", "why_tests_cant": "Unbounded histories; the faulty reads depend on indeterminate and freed memory that tests may happen to find harmless.", "anchors": ["misc/gstruct_aatree.h: aatree_delete_comp, aatpos_rebalance, aatree_create"]}
{"id": "C45", "title": "Mean intensity and flux are the hemispheric integrals plus the direct beam", "statement": "The mean intensity and flux outputs of a level are the quadrature integrals over the hemisphere of the intensity at that level, downward ones plus the direct beam there; their derivatives and the flux divergence are written when asked for.", "quantifier": "all radiances, quadratures, option sets, output levels, numbers of Stokes components and of derivatives", "why_tests_cant": "Continuum of radiances and quadratures, any number of levels and derivatives; integrals that are never written look like zeros in a fresh buffer.", "anchors": ["src/xrtm_model.c: get_solution_internal", "src/xrtm_radiance.c: radiance_to_mean, radiance_to_flux"]}
{"id": "C43", "title": "Boundary radiances and their derivatives", "statement": "The radiances that enter the medium at the bottom are, for every direction and Stokes element, the isotropic input plus the attenuated solar beam of flux mu_0*F_0 reflected by the surface plus thermal emission with emissivity one minus the reflected fraction of isotropic light; at the top they are the isotropic input; isotropic light and emission are unpolarised and only in the first Fourier term. The linearised arrays hold the derivatives of these radiances.", "quantifier": "all numbers of directions, user angles, Stokes elements, derivatives and Fourier terms, all sources, all reflection matrices and all differentiable dependences on a parameter", "why_tests_cant": "A test fixes one surface; the Lambertian surface used in tests has equal row sums, for which a wrong row goes unnoticed.", "anchors": ["src/xrtm_model.c:3912-4157", "src/xrtm_model.c:138-148"]}
{"id": "C46", "title": "Surface reflection is the Fourier expansion of the weighted kernels", "statement": "For every list of kernels with amplitudes and parameters, every pair of directions and every Fourier term that is asked for, the reflection vectors and matrices are the azimuth averages of the amplitude weighted sum of kernels with the cosine of that term (azimuth independent kernels only in the first term), times the factor of the hemispherical integral; the linearised ones are their derivatives with respect to the linearised amplitudes and kernel parameters and depend on nothing else; the kernels of the library are even in azimuth and reciprocal; the sea reflects with the formulas of Fresnel for the index of refraction that is its parameter.", "quantifier": "all lists of kernels, amplitudes, parameters, directions, azimuth quadratures, Fourier terms, numbers of derivatives and all contents of scratch memory", "why_tests_cant": "Real valued inputs and any number of kernels; scratch memory is usually zero in a test.", "anchors": ["src/xrtm_brdf.c:61-1069", "src/xrtm_model.c:3775-3905"]}
{"id": "C47", "title": "Finite differences are quotients along the caller's own step and leave the inputs as they were", "statement": "When a finite difference solution returns zero, every derivative is the difference of two radiances along the step of that derivative alone over its delta, so it converges to the derivative along that step; the three methods agree on what delta means; the inputs of the instance are afterwards what they were before, also when a step is refused; every stored step is the one the caller gave; and derivatives of every output asked for are computed.", "quantifier": "all sizes, steps, deltas, numbers of derivatives, methods, instances (any rule of acceptance, any response) and inputs", "why_tests_cant": "One derivative at a time with the central method shows none of the failures; convergence is a limit.", "anchors": ["src/xrtm_fd_interface.c:305-325", "src/xrtm_fd_interface.c:988-1094", "src/xrtm_fd_interface.c:1102-1261"]}
{"id": "C48", "title": "The tables of Legendre functions are the ones of the order and directions asked for, and the Fourier terms built from them sum up to the phase function", "statement": "Whatever was asked before and however the directions moved, the table handed out for a Fourier order holds the normalised associated Legendre functions at the directions of the moment, within its rows; leg_poly2 gives the Legendre polynomials; the elements of the scalar phase matrices and vectors are the Fourier terms of the phase function for directions on one side and on opposite sides, they sum up to phase_func at the cosine of the scattering angle, and under a quadrature exact for the even polynomials scattering conserves twice the first coefficient; the closed forms of the four and six stream solvers agree with the tables.", "quantifier": "all histories, orders, degrees, numbers of directions and coefficients, directions with cosine in [-1,1], azimuths and coefficients", "why_tests_cant": "The identity holds for all angles and degrees (theorem of addition), and the constants carried from order to order depend on the whole history of calls.", "anchors": ["misc/rtutil_math.c:477-613", "src/xrtm_model.c:535-642", "src/xrtm_scatter.c:24-300", "src/xrtm_interface.c:828-834"]}
{"id": "C49", "title": "The local matrices, the particular solutions and the sources of a layer are the ones of the equation of transfer, and their linearised values are derivatives", "statement": "With the r and t of build_local_r_and_t the discrete equation of transfer takes the form the solvers use; the particular solution for the direct beam, scaled by the beam, and the one for thermal emission solve it with the single scattering of the beam and the emission as sources; if R and T describe the layer without sources then with the S_p and S_m built from a particular solution they describe all light in the layer with them; the linearised r, t, t+r, t-r, gamma, particular solutions and sources are derivatives along every curve of inputs.", "quantifier": "all numbers of directions and Stokes parameters, phase matrices, albedos, thicknesses, beams, temperatures, and all differentiable curves of them", "why_tests_cant": "It is a statement about every solution of a differential equation in the layer and every differentiable curve of inputs; tests compare the solvers with each other at a few points.", "anchors": ["src/xrtm_utility.c:925-1119", "src/xrtm_source.c:23-236", "src/xrtm_source.c:404-753", "src/xrtm_source.c:821-1041"]}
{"id": "C50", "title": "The eigenmatrix solver gives the reflection and transmission matrices of the layer, and their derivatives", "statement": "For every complete set of eigenvectors of gamma, real or complex and of any length, the R and T that calc_global_r_and_t makes of them, with the signs rtm_eig_rts gives them, are those of the layer: every solution of the discrete equation of transfer in the layer obeys them, and with the sources for the beam every solution with the beam does. The linearised eigenvalues, eigenvectors, modes, R and T are derivatives.", "quantifier": "all numbers of directions and Stokes parameters, phase matrices with the mirror symmetry, albedos, thicknesses, eigenvector sets, and all differentiable curves of them", "why_tests_cant": "It quantifies over every solution of a system of differential equations, over every choice of eigenvectors the library routine may return, and over differentiable curves; tests compare with other solvers for a few layers and the derivatives with finite differences at a few points.", "anchors": ["src/xrtm_eig_util.c:39-111", "src/xrtm_eig_util.c:245-355", "src/xrtm_eig_util.c:654-717", "src/xrtm_eig_util.c:798-935", "src/xrtm_eig_rts_x.c:77-308", "src/xrtm_eig_rts.c:311-352"]}
{"id": "C51", "title": "The boundary value solver gives the radiance of the whole atmosphere, and its derivatives", "statement": "The band matrix of the eigenmatrix boundary value solver is built within its array, and the unknowns found with it give at every level the radiance of the atmosphere: the light that obeys the equation of transfer in each layer with the beam and the thermal emission, is continuous between the layers, comes from above as given and leaves the ground as the sum of what it reflects and emits. There is such light, no other light is possible, and the solver fails exactly where light without a source is possible. The linearised unknowns and radiances are derivatives, at levels and at depths within the layers.", "quantifier": "all numbers of layers, directions and Stokes parameters, all phase matrices with the mirror symmetry, albedos, thicknesses, complete sets of eigenvectors, surfaces, beams, Planck values, boundary values, and all differentiable curves of them", "why_tests_cant": "It quantifies over all solutions of coupled differential equations and over all sizes of the band matrix; tests compare a few atmospheres with other solvers to some digits, and those that share a defect agree.", "anchors": ["src/xrtm_eig_bvp_x.c:31-640", "src/xrtm_eig_bvp_x.c:644-880", "src/xrtm_eig_bvp_x.c:930-1078", "src/xrtm_matrix.c:1044-1142", "src/xrtm_eig_bvp.c:988-999"]}
{"id": "C52", "title": "Adding layers and solving the boundary value problem give the same radiance, that of the atmosphere", "statement": "The adding solver over the layers of the eigenmatrix solver, from the local matrices through the reflection, transmission and source of each layer, their scaling by the beam above, the loop that adds them and the end with the surface, gives at the top and at the bottom the radiance of the atmosphere: the light that obeys the equation of transfer in each layer, is continuous, comes from above as given and leaves the ground as given. Layers that do not scatter in a Fourier term, which the code does not give to the solver, are included. Wherever the adding solver comes to an end the boundary value solver does too, and the two give the same radiances.", "quantifier": "all numbers of layers, directions and Stokes parameters, all phase matrices with the mirror symmetry, albedos including zero, thicknesses, complete sets of eigenvectors, beams, Planck values, boundary values and grounds that do not turn the third and fourth Stokes parameters into anything", "why_tests_cant": "The two solvers share nothing but the local matrices; tests compare them on a few atmospheres to some digits. That one succeeds wherever the other does is a statement on all atmospheres.", "anchors": ["src/xrtm_model.c:2276-2335", "src/xrtm_model.c:3417-3472", "src/xrtm_model.c:4845-4925", "src/xrtm_source.c:1044-1143", "src/xrtm_eig_rts.c:300-400", "src/xrtm_eig_bvp_x.c:31-640"]}
{"id": "C53", "title": "Successive orders of scattering add up to the light of the atmosphere", "statement": "The solver of successive orders cuts layers evenly into pieces that add up to the layer, none thicker than the limit set, with the beam dimmed along them as along the layers. What it returns is the sum of the light scattered no, one, two, ... times, each order the light of the even source that the order before leaves in each piece and on the ground; at most the number asked for, fewer only where an order falls below the limit. Where each piece and the ground send back at most the share c of the light, the sum of m orders is within c^m of all the light there is. The derivatives are those of the sum.", "quantifier": "all numbers of layers, pieces, directions, Stokes parameters and orders, all phase matrices, albedos, thicknesses, limits, beams, grounds", "why_tests_cant": "A test compares a few atmospheres with another solver within a tolerance that hides the order lost or counted twice; how the error falls with the number of orders, and when the loop stops, are statements on all inputs.", "anchors": ["src/xrtm_sos.c:21-540", "src/xrtm_model.c:5209-5226", "src/xrtm_interface.c:2918-2945", "doc/xrtm.tex:875-890"]}
{"id": "C54", "title": "Phase matrices with polarisation are the Fourier terms of the phase matrix of the angle", "statement": "The tables built by recurrence hold, for every order, degree and direction, the Legendre functions for intensity and circular polarisation and their second derivatives on the sphere for linear polarisation. The four matrices and two vectors built from them are the Fourier terms of the phase matrix between directions of both sides, with the symmetry under reflection that the eigenmatrix solvers rely on; their first elements are those of the scalar routines. The Fourier terms of the beam sum up to the rotated phase vector of the angle of scattering that the single scattering solver uses. No element outside the tables is written.", "quantifier": "all orders, degrees, directions (zenith and nadir included), numbers of Stokes parameters, coefficients, azimuths, contents of the working memory", "why_tests_cant": "A test compares some tables of numbers for a few atmospheres; a sign that depends on the half of the turn or on a single direction is met only by chance, and the identity of two different sums over degrees and orders is a statement for all of them.", "anchors": ["src/xrtm_scatter.c:358-384", "src/xrtm_scatter.c:503-1018", "src/xrtm_scatter.c:1026-1082", "src/xrtm_scatter.c:1287-1390", "misc/rtutil_math.c:859-1016", "src/xrtm_model.c:649-741", "src/xrtm_model.c:1109-1125", "src/xrtm_model.c:1343"]}
{"id": "C55", "title": "The two stream solver gives the light in an atmosphere with one direction up and one down, and its derivatives", "statement": "The closed formulas of the two stream solver (phase terms, mode, particular solution, band of the matrix, right hand side, radiances at levels and within layers) give the one light in the stack of layers with two coefficients of the phase function that obeys the equation of transfer with one direction up and one down, the sun above and a reflecting ground below. It is the same as the eigenmatrix boundary value solver gives. The unknowns are found whenever every layer loses light, the ground gives back no more than it gets and the beam does not fall off as a mode does. The linearised radiances are derivatives along any curve of inputs. No write leaves the matrix.", "quantifier": "all numbers of layers, inputs, depths, curves of inputs, solvers of linear systems that are exact", "why_tests_cant": "Tests compare a few cases to stored numbers; that the formulas solve the equation for every input, that the matrix is never singular and which inputs give no number are statements over a continuum.", "anchors": ["src/xrtm_two_stream.c:50-1025", "src/xrtm_model.c:5266-5295", "src/xrtm_interface.c:4022-4075", "src/xrtm_interface.c:1378-1398"]}
{"id": "C56", "title": "The source function integration gives the light seen in directions that are not quadrature nodes, and its derivatives", "statement": "For the light the eigenmatrix boundary value solver finds, the sweeps of the source function integration upwards and downwards write to every output asked for, at levels and at depths within layers, with the sun, thermal emission, single scattering added or left out and a reflecting and emitting ground, the one light in each further direction that obeys the equation of transfer with the scattered light of the nodes as its source; it is the light of the stack that has these directions among its own without weight. The linearised values are derivatives along any curve of inputs for plane layers. No output is left unwritten.", "quantifier": "all numbers of layers, streams, Stokes parameters, further directions and outputs; all inputs, depths and curves of inputs; exact linear algebra", "why_tests_cant": "Tests compare a few angles to stored numbers; that the closed integrals solve the equation for every direction and depth, that the sweep hits every output in order, and which directions give no number are statements over a continuum.", "anchors": ["src/xrtm_sfi_x.c:1-153", "src/xrtm_sfi_x.c:283-1514", "src/sfi_block.h:1-60", "src/xrtm_eig_bvp.c:783-999"]}
{"id": "C57", "title": "The matrix exponential solver gives the light of the atmosphere and agrees with the boundary value solver", "statement": "For an atmosphere lit by the sun alone, the unknowns of the matrix exponential solver are the radiances up and down at the levels: all light that obeys the equation of transfer in the layers, meets at the levels, and keeps the condition at the ground, and of which none comes from above, is what the solver returns at every level and at every depth within a layer. It finds unknowns for exactly the atmospheres for which the eigenmatrix boundary value solver does, and then gives the same radiances. Its linearised unknowns and radiances are the derivatives along any curve of inputs. The unknowns do not depend on what was in memory and the rows of the system fit into the band array.", "quantifier": "all numbers of layers, streams and Stokes parameters, all inputs, depths and curves of inputs; real or complex eigenvalues; exact linear algebra", "why_tests_cant": "Tests compare solvers on a few atmospheres to a tolerance; equality for all atmospheres and depths, the derivatives, and that a legal input (light from above) is dropped by this solver only are statements over all inputs.", "anchors": ["src/xrtm_mem_bvp.c:94-482", "src/xrtm_mem_bvp_x.c:31-545", "src/xrtm_mem_bvp_x.c:552-911", "src/xrtm_model.c:3980-3999", "src/xrtm_interface.c:3365-3375"]}
{"id": "C58", "title": "The solver of two orders of scattering gives the light scattered twice", "statement": "Take the light that the beam gives when scattered once, in the layers or by the ground, as the equation of transfer with the beam as its only source defines it, and then the light that this gives when scattered once more, in the layers or by the ground, into a direction asked for. Both exist. In plane layers what the solver returns is the light of the second kind that leaves the top, whichever of the directions coincide with streams; what it returns as derivatives are the derivatives along any curve of inputs.", "quantifier": "all numbers of layers, streams, directions and Stokes parameters, all inputs and curves of inputs", "why_tests_cant": "A test compares with other solvers that return all orders, to a tolerance that hides terms of the second order; that the closed forms are the integrals over all layers, cases and directions is a statement over all inputs.", "anchors": ["src/xrtm_two_os.c:25-788", "src/xrtm_model.c:5228-5262", "src/xrtm_interface.c:3160-3170"]}
{"id": "C59", "title": "The Pad\u00e9 solver gives a layer to a known order of its thickness", "statement": "The coefficients used are those of the diagonal Pad\u00e9 approximant of the exponential, the numerator and denominator built block by block are the polynomials of the whole matrix in every case of the order, and the operations on rows kept apart for further directions are those on the whole matrix. What is returned for a layer is off from what the layer does to light, as the equation of transfer defines it, by no more than a constant of the medium times the power 2r of the thickness of the thin layer started from, so that each doubling more divides the bound by 4^r. What is returned as derivatives, for the same numbers of doublings and order, are the derivatives of what is returned. Numbers of doublings and orders looked up are in range for all thicknesses.", "quantifier": "all media, thicknesses, orders, numbers of doublings, streams, directions and Stokes parameters", "why_tests_cant": "A test compares numbers of a few layers with other solvers; that an error has an order, and that no thickness falls outside of the table, are statements over all thicknesses.", "anchors": ["src/xrtm_pade_rts.c:34-110", "src/xrtm_pade_rts.c:193-397", "src/xrtm_pade_rts.c:460-721", "src/xrtm_pade_rts.c:776-1081", "src/xrtm_pade_rts.c:1829-2275", "src/xrtm_pade_rts.c:2282-2665", "src/pade_table.h:15-183", "src/xrtm_interface.c:2869-2891"]}
{"id": "C60", "title": "The four stream solver gives the light of the atmosphere", "statement": "The tables of the four stream solver hold, in all digits of a double, the associated Legendre functions at the zeros of the Legendre polynomial of degree two on the interval from 0 to 1; the phase matrices are the Fourier terms of the phase function for these directions and the beam. The closed forms of the eigenvalues, eigenvectors and the inverse solve the layer, nothing is written out of the band array, and the radiances returned at levels and depths are the unique light that obeys the equation of transfer in each layer, the conditions at the top and the ground, and continuity between the layers. An atmosphere that makes no light never makes the solver stop with a singular matrix.", "quantifier": "all numbers of layers, optical properties, Fourier terms, beams, surfaces, levels and depths", "why_tests_cant": "A test compares numbers for a few atmospheres with another solver to some digits; that the closed forms hold for all coefficients, that every table entry is right, and that no atmosphere gives a singular matrix are statements over all of them.", "anchors": ["src/xrtm_four_stream.c:57-108", "src/xrtm_four_stream.c:243-781", "src/xrtm_four_stream.c:784-1050", "src/xrtm_model.c:5294-5318"]}
{"id": "C61", "title": "The six stream solver gives the light of the atmosphere", "statement": "The tables of the six stream solver hold, in all digits of a double, the associated Legendre functions at the zeros of the Legendre polynomial of degree three on the interval from 0 to 1; the phase matrices are the Fourier terms of the phase function for these directions and the beam. The closed forms of the eigenvalues, eigenvectors and the inverse solve the layer, nothing is written out of the band array, and the radiances returned at levels and depths are the unique light that obeys the equation of transfer in each layer, the conditions at the top and the ground, and continuity between the layers. An atmosphere that makes no light never makes the solver stop with a singular matrix.", "quantifier": "all numbers of layers, optical properties, Fourier terms, beams, surfaces, levels and depths", "why_tests_cant": "A test compares numbers for a few atmospheres with another solver to some digits; that the closed forms hold for all coefficients, that every table entry is right, and that no atmosphere gives a singular matrix are statements over all of them.", "anchors": ["src/xrtm_six_stream.c:56-221", "src/xrtm_six_stream.c:400-1012", "src/xrtm_six_stream.c:1014-1345", "src/xrtm_model.c:5318-5340"]}
{"id": "C62", "title": "For an atmosphere that makes no light no solver stops with a singular matrix", "statement": "If the phase matrices are those of a phase function, the albedo of each layer is at most one and the ground gives back no more than it gets, then there is at most one light in the atmosphere; the eigenmatrix solver makes the reflection and transmission of every layer, the routines that add layers (all at once, bottom up over a ground or over nothing, top down) and the one that adds the ground come to an end, the boundary value solver finds its coefficients, and what the two solvers return is this light. Of the light that falls on a layer no more comes out than went in.", "quantifier": "all numbers of layers, directions and Stokes parameters, thicknesses from zero on, sources, grounds, and eigenvalues with positive real part", "why_tests_cant": "A test runs a solver for some atmospheres; that no atmosphere of infinitely many leads to the exit of the factorisation is a statement over all of them, and near it a test sees only large numbers.", "anchors": ["src/xrtm_eig_rts_x.c:77-142", "src/xrtm_eig_bvp_x.c:31-640", "src/xrtm_adding.c: layer_add_all, layer_add_ref", "src/xrtm_radiance.c: radiance_boa_all", "src/xrtm_model.c: get_total_TOA_R_S_U_V, get_total_BOA_R_S_U_V, get_total_R_T_S_U_W_V", "src/xrtm_model.c:2276-2335"]}
{"id": "C63", "title": "The streams are those of Gauss: the points are zeros of Legendre polynomials and the weights integrate", "statement": "A turn of the search for a point is the step of third order with the true derivatives of the Legendre polynomial; from within reach of a zero it ends, as near as the cube of the bound. With the zeros found, the rule for the double quadrature integrates every polynomial of degree below twice the number of streams over the hemisphere, the rule for the single one every even polynomial of degree below four times that number; the weights are positive and the cosines inside; the rule for an interval integrates likewise and its derivatives are right. With the factor of the ground the cosines integrate to a half.", "quantifier": "all numbers of streams, bounds, contents of the arrays, intervals and polynomials", "why_tests_cant": "A test compares a few tables with printed ones; exactness for all polynomials, and for every number of streams, is a theorem about the zeros.", "anchors": ["misc/rtutil_math.c:73-316", "src/xrtm_interface.c:1111-1135"]}
{"id": "C64", "title": "Phase functions, quadratures and grounds as the user gives them make no light, and no solver fails for them", "statement": "For a phase function that is not negative, with any number of coefficients the interface admits, and either rule of quadrature, the phase matrices of every Fourier term scatter no more than the albedo of the light; a Lambertian ground as the code builds it gives back no more than it gets. With albedos below one the eigenvalues sought are all real and positive and there always is a full set of eigenvectors, the solution for thermal emission always exists, and the boundary value solver and the adding of eigenmatrix layers always come to an end with the one light there is.", "quantifier": "all numbers of streams, coefficients, layers, thicknesses, Fourier terms, directions and sources; scalar", "why_tests_cant": "Whether a system of equations can be singular for some accepted input is a statement about all of them; a test meets the singular one by luck only.", "anchors": ["src/xrtm_scatter.c:262-297", "src/xrtm_interface.c:1011-1025", "src/xrtm_interface.c:1111-1135", "src/xrtm_brdf.c:1009-1069", "src/xrtm_utility.c:960-1115", "src/xrtm_eig_bvp.c"]}
{"id": "C65", "title": "What a boundary value solver works on has been computed in the call", "statement": "Whenever a boundary value solver runs, every array it reads (local reflection and transmission, phase matrices, ground, light at both boundaries, and their derivatives) has been pointed to and computed from the inputs of now; with reverse derivatives every array that is kept is there to be kept.", "quantifier": "all instances that can be created, all solvers of that kind, all Fourier terms, all histories of changed inputs and calls of other solvers", "why_tests_cant": "Arrays left over from an earlier call, and memory that was never written to, often hold values that look right; which combinations of options, solvers named and histories lead there is a question about all of them.", "anchors": ["src/xrtm_model.c:4960-5393", "src/xrtm_model_a.c:2420-2480", "src/xrtm_eig_bvp.c", "src/xrtm_mem_bvp.c", "src/xrtm_sos.c", "src/xrtm_two_os.c", "src/xrtm_two_stream.c", "src/xrtm_four_stream.c", "src/xrtm_six_stream.c"]}
{"id": "C66", "title": "Results are cleared and stored within the arrays given for them", "statement": "What a solution clears before it computes, and what it stores, are the elements of the arrays given for the results: all of them, and no other memory.", "quantifier": "all numbers of levels, derivatives, polar angles, azimuths and Stokes parameters; arrays as alloc_array makes them and arrays whose rows are allocated one by one", "why_tests_cant": "Writing through a table of pointers in the wrong order of dimensions goes unseen for equal numbers, and often for others, when what lies behind the table is other valid memory.", "anchors": ["src/xrtm_model.c:4231-4491", "src/xrtm_model.c:6215-6223", "misc/galloc.h:133-152", "misc/galloc.h:346-363", "misc/galloc.h:444-461", "misc/gutil_alloc.c"]}
{"id": "C67", "title": "Reverse mode of single scattering keeps what the weights give", "statement": "The reverse routines of single scattering move the weights of the radiances to scattered fractions, phase functions, beam and layer transmittances and what comes in, so that for every direction of change of the inputs the weights give what the forward linearisation gives for the radiances; weights that are there already are kept.", "quantifier": "all numbers of layers, output levels, angles; all inputs, weights and directions; output at levels and at depths; both with and without the TMS correction", "why_tests_cant": "A reverse sweep has a term for every input of every layer; a test along a few directions, or with a single azimuth, sees neither a missing term nor weights that are overwritten instead of added to.", "anchors": ["src/xrtm_single_a.c:45-259", "src/xrtm_single_a.c:266-525", "src/xrtm_single.c:161-166", "src/xrtm_model_a.c:2058"]}
{"id": "C68", "title": "Reverse mode of sources and radiances keeps what the weights give", "statement": "The reverse routines of the solution for the beam, the sources of a layer, their scaling and the light at top and bottom move weights so that, along every curve of inputs, the weighted results change as the moved weights say; weights of results are cleared where the routine says so.", "quantifier": "all numbers of angles and Stokes parameters, all inputs with a regular matrix, all weights, all differentiable curves, all sets of output levels of the adding solvers", "why_tests_cant": "Exchanged arguments go unseen where nothing comes in at top or bottom, which is what test cases have; a gradient is right or wrong for all directions at once.", "anchors": ["src/xrtm_source_a.c:57-277", "src/xrtm_radiance_a.c:22-263", "src/xrtm_model_a.c:2184-2186", "src/xrtm_model_a.c:2333-2379", "src/xrtm_model.c:4845-4925"]}
{"id": "C69", "title": "Reverse mode of the eigenmatrix solver keeps what the weights give", "statement": "The reverse routines of the eigenmatrix solver move the weights of the reflection and transmission of a layer to its thickness and local matrices so that, along every curve of layers, the weighted reflection and transmission change as the moved weights say; they fail only where the forward derivative fails.", "quantifier": "all numbers of directions, all layers whose eigenvectors are independent, all weights, all curves that can be differentiated; the steps over every field", "why_tests_cant": "The reverse sweep undoes ten matrix steps and one bordered system for every eigenvalue; which eigenvalues it leaves out depends on how close they lie, which no set of layers explores.", "anchors": ["src/xrtm_eig_rts_x_a.c:59-187", "src/xrtm_eig_util_a.c:24-82", "src/xrtm_eig_util_a.c:115-141", "src/xrtm_eig_util_a.c:216-218", "src/xrtm_eig_util_a.c:300-354", "src/xrtm_eig_util_a.c:578-606", "src/xrtm_eig_rts_a.c:318-336", "src/xrtm_eig_util.c:339-347", "src/xrtm_eig_util.c:493-501"]}
{"id": "C70", "title": "Loops over the columns of a polarised layer work on every column once", "statement": "The loops over eigenvalues, eigenvectors and modes of a polarised layer, which take two columns at once where an imaginary part is positive, work on every column exactly once, forward and in reverse, and all of them pair the same columns.", "quantifier": "all numbers of columns, all eigenvalues of which the complex ones come in neighbouring conjugate pairs", "why_tests_cant": "Which columns are pairs depends on all eigenvalues of a layer; a test sees a few layers, and a negative real eigenvalue needs a special one.", "anchors": ["src/xrtm_eig_util.c:493-511", "src/xrtm_eig_util.c:815-868", "src/xrtm_eig_util_a.c:216-222", "src/xrtm_eig_util_a.c:452-478"]}
{"id": "C71", "title": "Rules of quadrature with equal steps, moved rules and rules on pieces integrate the degrees they should", "statement": "The trapezoidal rules integrate every polynomial of degree one and Simpson's rule every one of degree three, which refuses even numbers of points only; a Gauss rule moved to another interval, or to each of the equal pieces of one, integrates every polynomial of degree below twice the number of points of a piece, and its linearised points and weights are derivatives.", "quantifier": "all numbers of points from two on (three for Simpson's), all numbers of pieces, all intervals, all polynomials of the degree, all curves of ends", "why_tests_cant": "A rule is right for all polynomials of a degree and all intervals at once; a test compares one integral within a tolerance.", "anchors": ["misc/rtutil_math.c:40-67", "misc/rtutil_math.c:320-387", "misc/rtutil_math.c:394-442", "misc/rtutil_size_dist.c:128-195"]}
{"id": "C72", "title": "Truncation takes the forward peak, and nothing else, out of the scattering matrix", "statement": "The scattering matrix is the truncated part of the forward peak, which keeps polarisation, and the rest of the matrix the scaled coefficients give, for both kinds of coefficients.", "quantifier": "all scattering matrices, all truncated parts other than one, all numbers of coefficients, all directions", "why_tests_cant": "The two parts have to add up for all coefficients and directions; a test compares radiances that truncation changes anyway.", "anchors": ["src/xrtm_utility.c:667-702", "src/xrtm_scatter.c:449-505", "src/xrtm_model.c:113-131"]}
