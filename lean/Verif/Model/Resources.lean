import Verif.Model.Stacks
import Verif.Model.Solution2

/-!
# What is allocated and what is freed

`xrtm_create` (`src/xrtm_interface.c:1043-1728`), `xrtm_destroy` (1855-2402), the freeing of the
`set_flags` arrays by `check_inputs_initialized` (2573-2583), `xrtm_create2` and `xrtm_destroy2`
(765-783, 2406-2417), the change of the chain of stacks by `xrtm_update_varied_layers` (5453-5485) with
`stack_chain_alloc` and `stack_chain_free` (`src/xrtm_stacks.c:429-735`), `layer_add_aux_alloc` and `_free`
(`src/xrtm_adding.c:25-66`), `brdf_aux_alloc` and `_free` (`src/xrtm_brdf.c:112-201`).

Memory is a list of the pieces that are allocated and not yet freed. Freeing a piece that is not there is
a fault (in C: freed twice, or never allocated). An allocation never fails. An array of rank `r` is one
piece: its rank and element type are kept, because `free_array` walks down by rank
(`misc/gutil_alloc.c:262`). Left as one piece each: what `work_init`/`work_free` and
`save_tree_init`/`save_tree_free` look after (properties C39 and C44). Where `xrtm_create` stores a second
pointer to an array (`ltau0 = ltau` without delta-M, 1259-1264), nothing is allocated. Options, solvers
and counts are tests of bits, as in the source; `INCLUDE_DEV_SOURCE` is not defined.
-/

namespace Xrtm.Resources

/-- What the allocations depend on. -/
inductive Atom
  | internal | useCoef | useG | adding | symmetric | kernels | umus | inputsInit
  | sfi | psa | atLevels | atTaus | thermal | solar | deltaM | calcDerivs | reverseDerivs
  | saveLeg | savePhase | saveLocal | saveLayer | saveTotal | vector | stackReuse
  deriving DecidableEq, Repr

/-- The members of `xrtm_data` that hold allocated memory; `derivs_x` is `derivs.x`, `kernel_aux_x` is
`kernel_aux.x`. -/
inductive Field
  | set_flags_g | set_flags_coef | set_flags_omega | set_flags_ltau | set_flags_kernel_ampfac
  | set_flags_kernel_params | set_flags_kernel_func | dep_flags_Y_p | dep_flags_Y_0 | dep_flags_Y_u
  | dep_flags_opt_props | dep_flags_beam_params | dep_flags_diff_bound_input | dep_flags_total_R_T_S_U_W_V
  | dep_flags_phase_mats_qq | dep_flags_phase_mats_uq | dep_flags_phase_vecs_q0 | dep_flags_phase_vecs_u0
  | dep_flags_local_r_t_u_w | dep_flags_layer_R_T_S_U_W_V | qx | qw | qx_v | qw_v | alpha1 | alpha2 | Y_p
  | Y_0 | Y_u | kernel_qx | kernel_qw | kernel_aux_cos_theta | kernel_aux_sin_theta | kernel_aux_tan_theta
  | kernel_aux_tan_theta2 | kernel_aux_cos_phi | kernel_aux_sin_phi | kernel_aux_sin_phi2 | levels_z
  | ulevels | utaus | utaus2 | utaus20 | levels_b | ltau | ttau | omega | g | n_coef_layer | n_coef_layer2
  | coef | ltau0 | omega0 | g0 | coef0 | kernels | kernel_ampfac | kernel_params | kernel_func
  | F_iso_top_l | F_iso_bot_l | levels_b_l | surface_b_l | ltau_l | omega_l | g_l | coef_l | ltau0_l
  | omega0_l | g0_l | coef0_l | kernel_ampfac_l | kernel_params_l | ltau_a | omega_a | g_a | coef_a
  | ltau0_a | omega0_a | g0_a | coef0_a | kernel_ampfac_a | kernel_params_a | derivs_layers | derivs_total
  | derivs_stacks | derivs_sources | derivs_adding_up | derivs_adding_down | derivs_beam | derivs_thermal
  | derivs_layers_m | derivs_total_m | derivs_stacks_m | derivs_sources_m | derivs_adding_up_m
  | derivs_adding_down_m | derivs_beam_m | derivs_thermal_m | derivs_layers_union | derivs_total_union
  | derivs_stacks_union | derivs_sources_union | derivs_beam_union | derivs_thermal_union
  | derivs_adding_up_union | derivs_adding_down_union | derivs_layers_m_union | derivs_total_m_union
  | derivs_stacks_m_union | derivs_sources_m_union | derivs_beam_m_union | derivs_thermal_m_union
  | derivs_adding_up_m_union | derivs_adding_down_m_union | btau | btran | as_0 | atran | chapman | In_p
  | I1_m | kernel_f_qq | kernel_f_q0 | kernel_f_uq | kernel_f_u0 | btau_l | btran_l | as_0_l | atran_l
  | In_p_l | I1_m_l | kernel_f_qq_l | kernel_f_q0_l | kernel_f_uq_l | kernel_f_u0_l | btau_a | btran_a
  | as_0_a | atran_a | In_p_a | I1_m_a | kernel_f_qq_a | kernel_f_q0_a | kernel_f_uq_a | kernel_f_u0_a
  | P_qq_pp | P_qq_mp | P_q0_mm | P_q0_pm | P_uq_pp | P_uq_mp | P_u0_mm | P_u0_pm | r_p | t_p | P_qq_mm
  | P_qq_pm | P_uq_mm | P_uq_pm | r_m | t_m | P_qq_pp_l | P_qq_mp_l | P_q0_mm_l | P_q0_pm_l | P_uq_pp_l
  | P_uq_mp_l | P_u0_mm_l | P_u0_pm_l | r_p_l | t_p_l | P_qq_mm_l | P_qq_pm_l | P_uq_mm_l | P_uq_pm_l
  | r_m_l | t_m_l | stack_grid | Rl_p | Tl_p | Rl_m | Tl_m | Sl_p | Sl_m | Sll_p | Sll_m | Ra_p | Ta_p
  | Ra_m | Ta_m | Sa_p | Sa_m | Sla_p | Sla_m | Rl_p_l | Tl_p_l | Rl_m_l | Tl_m_l | Sl_p_l | Sl_m_l
  | Sll_p_l | Sll_m_l | Ra_p_l | Ta_p_l | Ra_m_l | Ta_m_l | Sa_p_l | Sa_m_l | Sla_p_l | Sla_m_l | work
  | save_tree
  deriving DecidableEq, Repr

/-- The element type in the name of the allocating and of the freeing function. -/
inductive Elem
  | uc | i | d | any
  deriving DecidableEq, Repr

/-- How a piece is allocated, and has to be freed: `ALLOC_ARRAYr_E`/`free_arrayr_E`,
`flags_alloc2`/`flags_free2`, or the structure's own pair of functions. -/
inductive Kind
  | arr (rank : Nat) (e : Elem)
  | flags2
  | whole
  deriving DecidableEq, Repr

structure Buf where
  field : Field
  kind : Kind
  deriving DecidableEq, Repr

/-- A condition and its negation (`else`). -/
inductive Lit
  | yes (a : Atom)
  | no (a : Atom)
  deriving DecidableEq, Repr

def Lit.holds (v : Atom → Bool) : Lit → Bool
  | .yes a => v a
  | .no a => !(v a)

/-- An allocating or freeing statement, with the conditions it is under. -/
structure Entry where
  guard : List Lit
  buf : Buf
  deriving DecidableEq, Repr

def always (bs : List Buf) : List Entry := bs.map fun b => ⟨[], b⟩

/-- `if (g) { ... }` -/
def under (g : List Lit) (es : List Entry) : List Entry := es.map fun e => ⟨g ++ e.guard, e.buf⟩

/-- The statements that are executed. -/
def taken (v : Atom → Bool) (t : List Entry) : List Buf :=
  (t.filter fun e => e.guard.all (·.holds v)).map (·.buf)

/-! ## The statements of `xrtm_create`, `xrtm_destroy` and `check_inputs_initialized` -/

/-- `src/xrtm_interface.c:1047-1050` -/
def at1047 : List Entry :=
  always [⟨.set_flags_g, .arr 1 .uc⟩, ⟨.set_flags_coef, .arr 1 .uc⟩, ⟨.set_flags_omega, .arr 1 .uc⟩,
    ⟨.set_flags_ltau, .arr 1 .uc⟩]

/-- `src/xrtm_interface.c:1052-1055` -/
def at1052 : List Entry :=
  under [.yes .kernels] (
    always [⟨.set_flags_kernel_ampfac, .arr 1 .uc⟩, ⟨.set_flags_kernel_params, .arr 2 .uc⟩,
      ⟨.set_flags_kernel_func, .arr 1 .uc⟩])

/-- `src/xrtm_interface.c:1062-1109` -/
def at1062 : List Entry :=
  always [⟨.dep_flags_Y_p, .arr 1 .i⟩, ⟨.dep_flags_Y_0, .arr 1 .i⟩, ⟨.dep_flags_Y_u, .arr 1 .i⟩,
    ⟨.dep_flags_opt_props, .arr 1 .i⟩, ⟨.dep_flags_beam_params, .arr 1 .i⟩,
    ⟨.dep_flags_diff_bound_input, .arr 1 .i⟩, ⟨.dep_flags_total_R_T_S_U_W_V, .arr 1 .i⟩,
    ⟨.dep_flags_phase_mats_qq, .arr 2 .i⟩, ⟨.dep_flags_phase_mats_uq, .arr 2 .i⟩,
    ⟨.dep_flags_phase_vecs_q0, .arr 2 .i⟩, ⟨.dep_flags_phase_vecs_u0, .arr 2 .i⟩,
    ⟨.dep_flags_local_r_t_u_w, .arr 2 .i⟩, ⟨.dep_flags_layer_R_T_S_U_W_V, .arr 2 .i⟩,
    ⟨.qx, .arr 1 .d⟩, ⟨.qw, .arr 1 .d⟩]

/-- `src/xrtm_interface.c:1141-1143` -/
def at1141 : List Entry :=
  under [.yes .internal] (
    always [⟨.qx_v, .arr 1 .d⟩, ⟨.qw_v, .arr 1 .d⟩])

/-- `src/xrtm_interface.c:1163-1165` -/
def at1163 : List Entry :=
  under [.yes .internal, .yes .symmetric] (
    always [⟨.alpha1, .arr 1 .d⟩, ⟨.alpha2, .arr 1 .d⟩])

/-- `src/xrtm_interface.c:1174-1187` -/
def at1174 : List Entry :=
  under [.yes .useCoef] (
    under [.no .saveLeg] (
      always [⟨.Y_p, .arr 3 .d⟩, ⟨.Y_0, .arr 2 .d⟩] ++
      under [.yes .umus] (
        always [⟨.Y_u, .arr 3 .d⟩])) ++
    under [.yes .saveLeg] (
      always [⟨.Y_p, .arr 3 .d⟩, ⟨.Y_0, .arr 2 .d⟩] ++
      under [.yes .umus] (
        always [⟨.Y_u, .arr 3 .d⟩])))

/-- `src/xrtm_interface.c:1195-1204` -/
def at1195 : List Entry :=
  under [.yes .internal, .yes .kernels] (
    always [⟨.kernel_qx, .arr 1 .d⟩, ⟨.kernel_qw, .arr 1 .d⟩, ⟨.kernel_aux_cos_theta, .arr 1 .d⟩,
      ⟨.kernel_aux_sin_theta, .arr 1 .d⟩, ⟨.kernel_aux_tan_theta, .arr 1 .d⟩,
      ⟨.kernel_aux_tan_theta2, .arr 1 .d⟩, ⟨.kernel_aux_cos_phi, .arr 1 .d⟩,
      ⟨.kernel_aux_sin_phi, .arr 1 .d⟩, ⟨.kernel_aux_sin_phi2, .arr 1 .d⟩])

/-- `src/xrtm_interface.c:1215-1216` -/
def at1215 : List Entry :=
  under [.yes .psa] (
    always [⟨.levels_z, .arr 1 .d⟩])

/-- `src/xrtm_interface.c:1218-1219` -/
def at1218 : List Entry :=
  under [.yes .atLevels] (
    always [⟨.ulevels, .arr 1 .i⟩])

/-- `src/xrtm_interface.c:1218-1233` -/
def at1218' : List Entry :=
  under [.no .atLevels] (
    always [⟨.ulevels, .arr 1 .i⟩, ⟨.utaus, .arr 1 .d⟩, ⟨.utaus2, .arr 1 .d⟩] ++
    under [.yes .deltaM] (
      always [⟨.utaus20, .arr 1 .d⟩]))

/-- `src/xrtm_interface.c:1236-1237` -/
def at1236 : List Entry :=
  under [.yes .thermal] (
    always [⟨.levels_b, .arr 1 .d⟩])

/-- `src/xrtm_interface.c:1243` -/
def at1243 : List Entry :=
  always [⟨.ltau, .arr 1 .d⟩]

/-- `src/xrtm_interface.c:1245-1246` -/
def at1245 : List Entry :=
  under [.yes .atTaus] (
    always [⟨.ttau, .arr 1 .d⟩])

/-- `src/xrtm_interface.c:1248` -/
def at1248 : List Entry :=
  always [⟨.omega, .arr 1 .d⟩]

/-- `src/xrtm_interface.c:1250-1251` -/
def at1250 : List Entry :=
  under [.yes .useG] (
    always [⟨.g, .arr 1 .d⟩])

/-- `src/xrtm_interface.c:1252-1256` -/
def at1252 : List Entry :=
  under [.yes .useCoef] (
    always [⟨.n_coef_layer, .arr 1 .i⟩, ⟨.n_coef_layer2, .arr 1 .i⟩, ⟨.coef, .arr 3 .d⟩])

/-- `src/xrtm_interface.c:1259-1272` -/
def at1259 : List Entry :=
  under [.yes .deltaM] (
    always [⟨.ltau0, .arr 1 .d⟩, ⟨.omega0, .arr 1 .d⟩] ++
    under [.yes .useG] (
      always [⟨.g0, .arr 1 .d⟩]) ++
    under [.yes .useCoef] (
      always [⟨.coef0, .arr 3 .d⟩]))

/-- `src/xrtm_interface.c:1275-1282` -/
def at1275 : List Entry :=
  under [.yes .kernels] (
    always [⟨.kernels, .arr 1 .i⟩, ⟨.kernel_ampfac, .arr 1 .d⟩, ⟨.kernel_params, .arr 2 .d⟩,
      ⟨.kernel_func, .arr 1 .any⟩])

/-- `src/xrtm_interface.c:1289-1319` -/
def at1289 : List Entry :=
  under [.yes .calcDerivs] (
    always [⟨.F_iso_top_l, .arr 1 .d⟩, ⟨.F_iso_bot_l, .arr 1 .d⟩] ++
    under [.yes .thermal] (
      always [⟨.levels_b_l, .arr 2 .d⟩, ⟨.surface_b_l, .arr 1 .d⟩]) ++
    always [⟨.ltau_l, .arr 2 .d⟩, ⟨.omega_l, .arr 2 .d⟩] ++
    under [.yes .useG] (
      always [⟨.g_l, .arr 2 .d⟩]) ++
    under [.yes .useCoef] (
      always [⟨.coef_l, .arr 4 .d⟩]) ++
    under [.yes .deltaM] (
      always [⟨.ltau0_l, .arr 2 .d⟩, ⟨.omega0_l, .arr 2 .d⟩] ++
      under [.yes .useG] (
        always [⟨.g0_l, .arr 2 .d⟩]) ++
      under [.yes .useCoef] (
        always [⟨.coef0_l, .arr 4 .d⟩])))

/-- `src/xrtm_interface.c:1323-1326` -/
def at1323 : List Entry :=
  under [.yes .calcDerivs, .yes .kernels] (
    always [⟨.kernel_ampfac_l, .arr 2 .d⟩, ⟨.kernel_params_l, .arr 3 .d⟩])

/-- `src/xrtm_interface.c:1333-1355` -/
def at1333 : List Entry :=
  under [.yes .reverseDerivs] (
    always [⟨.ltau_a, .arr 1 .d⟩, ⟨.omega_a, .arr 1 .d⟩] ++
    under [.yes .useG] (
      always [⟨.g_a, .arr 1 .d⟩]) ++
    under [.yes .useCoef] (
      always [⟨.coef_a, .arr 3 .d⟩]) ++
    under [.yes .deltaM] (
      always [⟨.ltau0_a, .arr 1 .d⟩, ⟨.omega0_a, .arr 1 .d⟩] ++
      under [.yes .useG] (
        always [⟨.g0_a, .arr 1 .d⟩]) ++
      under [.yes .useCoef] (
        always [⟨.coef0_a, .arr 3 .d⟩])))

/-- `src/xrtm_interface.c:1359-1362` -/
def at1359 : List Entry :=
  under [.yes .reverseDerivs, .yes .kernels] (
    always [⟨.kernel_ampfac_a, .arr 1 .d⟩, ⟨.kernel_params_a, .arr 2 .d⟩])

/-- `src/xrtm_interface.c:1369-1400` -/
def at1369 : List Entry :=
  under [.yes .calcDerivs] (
    always [⟨.derivs_layers, .flags2⟩, ⟨.derivs_total, .flags2⟩, ⟨.derivs_stacks, .flags2⟩,
      ⟨.derivs_sources, .flags2⟩, ⟨.derivs_adding_up, .flags2⟩, ⟨.derivs_adding_down, .flags2⟩] ++
    under [.yes .solar] (
      always [⟨.derivs_beam, .flags2⟩]) ++
    under [.yes .thermal] (
      always [⟨.derivs_thermal, .flags2⟩]) ++
    always [⟨.derivs_layers_m, .flags2⟩, ⟨.derivs_total_m, .flags2⟩, ⟨.derivs_stacks_m, .flags2⟩,
      ⟨.derivs_sources_m, .flags2⟩, ⟨.derivs_adding_up_m, .flags2⟩, ⟨.derivs_adding_down_m, .flags2⟩] ++
    under [.yes .solar] (
      always [⟨.derivs_beam_m, .flags2⟩]) ++
    under [.yes .thermal] (
      always [⟨.derivs_thermal_m, .flags2⟩]))

/-- `src/xrtm_interface.c:1408-1435` -/
def at1408 : List Entry :=
  under [.yes .reverseDerivs] (
    always [⟨.derivs_layers_union, .arr 1 .uc⟩, ⟨.derivs_total_union, .arr 1 .uc⟩,
      ⟨.derivs_stacks_union, .arr 1 .uc⟩, ⟨.derivs_sources_union, .arr 1 .uc⟩] ++
    under [.yes .solar] (
      always [⟨.derivs_beam_union, .arr 1 .uc⟩]) ++
    under [.yes .thermal] (
      always [⟨.derivs_thermal_union, .arr 1 .uc⟩]) ++
    always [⟨.derivs_adding_up_union, .arr 1 .uc⟩, ⟨.derivs_adding_down_union, .arr 1 .uc⟩,
      ⟨.derivs_layers_m_union, .arr 1 .uc⟩, ⟨.derivs_total_m_union, .arr 1 .uc⟩,
      ⟨.derivs_stacks_m_union, .arr 1 .uc⟩, ⟨.derivs_sources_m_union, .arr 1 .uc⟩] ++
    under [.yes .solar] (
      always [⟨.derivs_beam_m_union, .arr 1 .uc⟩]) ++
    under [.yes .thermal] (
      always [⟨.derivs_thermal_m_union, .arr 1 .uc⟩]) ++
    always [⟨.derivs_adding_up_m_union, .arr 1 .uc⟩, ⟨.derivs_adding_down_m_union, .arr 1 .uc⟩])

/-- `src/xrtm_interface.c:1442-1472` -/
def at1442 : List Entry :=
  under [.yes .internal] (
    always [⟨.btau, .arr 1 .d⟩, ⟨.btran, .arr 1 .d⟩, ⟨.as_0, .arr 1 .d⟩, ⟨.atran, .arr 1 .d⟩,
      ⟨.chapman, .arr 2 .d⟩, ⟨.In_p, .arr 2 .d⟩, ⟨.I1_m, .arr 2 .d⟩] ++
    under [.yes .kernels] (
      always [⟨.kernel_f_qq, .arr 3 .d⟩, ⟨.kernel_f_q0, .arr 2 .d⟩] ++
      under [.yes .sfi, .yes .umus] (
        always [⟨.kernel_f_uq, .arr 3 .d⟩, ⟨.kernel_f_u0, .arr 2 .d⟩])))

/-- `src/xrtm_interface.c:1481-1510` -/
def at1481 : List Entry :=
  under [.yes .internal] (
    under [.yes .calcDerivs] (
      always [⟨.btau_l, .arr 2 .d⟩, ⟨.btran_l, .arr 2 .d⟩, ⟨.as_0_l, .arr 2 .d⟩, ⟨.atran_l, .arr 2 .d⟩,
        ⟨.In_p_l, .arr 3 .d⟩, ⟨.I1_m_l, .arr 3 .d⟩] ++
      under [.yes .kernels] (
        always [⟨.kernel_f_qq_l, .arr 4 .d⟩, ⟨.kernel_f_q0_l, .arr 3 .d⟩] ++
        under [.yes .sfi, .yes .umus] (
          always [⟨.kernel_f_uq_l, .arr 4 .d⟩, ⟨.kernel_f_u0_l, .arr 3 .d⟩]))))

/-- `src/xrtm_interface.c:1520-1549` -/
def at1520 : List Entry :=
  under [.yes .internal] (
    under [.yes .reverseDerivs] (
      always [⟨.btau_a, .arr 1 .d⟩, ⟨.btran_a, .arr 1 .d⟩, ⟨.as_0_a, .arr 1 .d⟩, ⟨.atran_a, .arr 1 .d⟩,
        ⟨.In_p_a, .arr 2 .d⟩, ⟨.I1_m_a, .arr 2 .d⟩] ++
      under [.yes .kernels] (
        always [⟨.kernel_f_qq_a, .arr 3 .d⟩, ⟨.kernel_f_q0_a, .arr 2 .d⟩] ++
        under [.yes .sfi, .yes .umus] (
          always [⟨.kernel_f_uq_a, .arr 3 .d⟩, ⟨.kernel_f_u0_a, .arr 2 .d⟩]))))

/-- `src/xrtm_interface.c:1559-1631` -/
def at1559 : List Entry :=
  under [.yes .internal] (
    under [.yes .savePhase] (
      always [⟨.P_qq_pp, .arr 4 .d⟩, ⟨.P_qq_mp, .arr 4 .d⟩, ⟨.P_q0_mm, .arr 3 .d⟩, ⟨.P_q0_pm, .arr 3 .d⟩] ++
      under [.yes .sfi, .yes .umus] (
        always [⟨.P_uq_pp, .arr 4 .d⟩, ⟨.P_uq_mp, .arr 4 .d⟩, ⟨.P_u0_mm, .arr 3 .d⟩, ⟨.P_u0_pm, .arr 3 .d⟩])) ++
    under [.yes .saveLocal] (
      always [⟨.r_p, .arr 4 .d⟩, ⟨.t_p, .arr 4 .d⟩]) ++
    under [.yes .savePhase, .yes .vector] (
      always [⟨.P_qq_mm, .arr 4 .d⟩, ⟨.P_qq_pm, .arr 4 .d⟩] ++
      under [.yes .sfi, .yes .umus] (
        always [⟨.P_uq_mm, .arr 4 .d⟩, ⟨.P_uq_pm, .arr 4 .d⟩])) ++
    under [.yes .saveLocal, .yes .vector] (
      always [⟨.r_m, .arr 4 .d⟩, ⟨.t_m, .arr 4 .d⟩]) ++
    under [.yes .calcDerivs, .yes .savePhase] (
      always [⟨.P_qq_pp_l, .arr 5 .d⟩, ⟨.P_qq_mp_l, .arr 5 .d⟩, ⟨.P_q0_mm_l, .arr 4 .d⟩,
        ⟨.P_q0_pm_l, .arr 4 .d⟩] ++
      under [.yes .sfi, .yes .umus] (
        always [⟨.P_uq_pp_l, .arr 5 .d⟩, ⟨.P_uq_mp_l, .arr 5 .d⟩, ⟨.P_u0_mm_l, .arr 4 .d⟩,
          ⟨.P_u0_pm_l, .arr 4 .d⟩])) ++
    under [.yes .calcDerivs, .yes .saveLocal] (
      always [⟨.r_p_l, .arr 5 .d⟩, ⟨.t_p_l, .arr 5 .d⟩]) ++
    under [.yes .calcDerivs, .yes .savePhase, .yes .vector] (
      always [⟨.P_qq_mm_l, .arr 5 .d⟩, ⟨.P_qq_pm_l, .arr 5 .d⟩] ++
      under [.yes .sfi, .yes .umus] (
        always [⟨.P_uq_mm_l, .arr 5 .d⟩, ⟨.P_uq_pm_l, .arr 5 .d⟩])) ++
    under [.yes .calcDerivs, .yes .saveLocal, .yes .vector] (
      always [⟨.r_m_l, .arr 5 .d⟩, ⟨.t_m_l, .arr 5 .d⟩]))

/-- `src/xrtm_interface.c:1639-1695` -/
def at1639 : List Entry :=
  under [.yes .adding] (
    under [.yes .stackReuse] (
      always [⟨.stack_grid, .arr 2 .any⟩]) ++
    under [.yes .saveLayer] (
      always [⟨.Rl_p, .arr 4 .d⟩, ⟨.Tl_p, .arr 4 .d⟩, ⟨.Rl_m, .arr 4 .d⟩, ⟨.Tl_m, .arr 4 .d⟩,
        ⟨.Sl_p, .arr 3 .d⟩, ⟨.Sl_m, .arr 3 .d⟩, ⟨.Sll_p, .arr 3 .d⟩, ⟨.Sll_m, .arr 3 .d⟩]) ++
    under [.yes .saveTotal] (
      always [⟨.Ra_p, .arr 3 .d⟩, ⟨.Ta_p, .arr 3 .d⟩, ⟨.Ra_m, .arr 3 .d⟩, ⟨.Ta_m, .arr 3 .d⟩,
        ⟨.Sa_p, .arr 2 .d⟩, ⟨.Sa_m, .arr 2 .d⟩, ⟨.Sla_p, .arr 2 .d⟩, ⟨.Sla_m, .arr 2 .d⟩]) ++
    under [.yes .saveLayer, .yes .calcDerivs] (
      always [⟨.Rl_p_l, .arr 5 .d⟩, ⟨.Tl_p_l, .arr 5 .d⟩, ⟨.Rl_m_l, .arr 5 .d⟩, ⟨.Tl_m_l, .arr 5 .d⟩,
        ⟨.Sl_p_l, .arr 4 .d⟩, ⟨.Sl_m_l, .arr 4 .d⟩, ⟨.Sll_p_l, .arr 4 .d⟩, ⟨.Sll_m_l, .arr 4 .d⟩]) ++
    under [.yes .saveTotal, .yes .calcDerivs] (
      always [⟨.Ra_p_l, .arr 4 .d⟩, ⟨.Ta_p_l, .arr 4 .d⟩, ⟨.Ra_m_l, .arr 4 .d⟩, ⟨.Ta_m_l, .arr 4 .d⟩,
        ⟨.Sa_p_l, .arr 3 .d⟩, ⟨.Sa_m_l, .arr 3 .d⟩, ⟨.Sla_p_l, .arr 3 .d⟩, ⟨.Sla_m_l, .arr 3 .d⟩]))

/-- `src/xrtm_interface.c:1712-1716` -/
def at1712 : List Entry :=
  under [.yes .internal] (
    always [⟨.work, .whole⟩])

/-- `src/xrtm_interface.c:1727-1728` -/
def at1727 : List Entry :=
  under [.yes .reverseDerivs] (
    always [⟨.save_tree, .whole⟩])

/-- `src/xrtm_interface.c:1872-1881` -/
def at1872 : List Entry :=
  under [.yes .inputsInit] (
    always [⟨.set_flags_g, .arr 1 .uc⟩, ⟨.set_flags_coef, .arr 1 .uc⟩, ⟨.set_flags_omega, .arr 1 .uc⟩,
      ⟨.set_flags_ltau, .arr 1 .uc⟩] ++
    under [.yes .kernels] (
      always [⟨.set_flags_kernel_ampfac, .arr 1 .uc⟩, ⟨.set_flags_kernel_params, .arr 2 .uc⟩,
        ⟨.set_flags_kernel_func, .arr 1 .uc⟩]))

/-- `src/xrtm_interface.c:1889-1917` -/
def at1889 : List Entry :=
  always [⟨.dep_flags_Y_p, .arr 1 .i⟩, ⟨.dep_flags_Y_0, .arr 1 .i⟩, ⟨.dep_flags_Y_u, .arr 1 .i⟩,
    ⟨.dep_flags_opt_props, .arr 1 .i⟩, ⟨.dep_flags_beam_params, .arr 1 .i⟩,
    ⟨.dep_flags_diff_bound_input, .arr 1 .i⟩, ⟨.dep_flags_total_R_T_S_U_W_V, .arr 1 .i⟩,
    ⟨.dep_flags_phase_mats_qq, .arr 2 .i⟩, ⟨.dep_flags_phase_mats_uq, .arr 2 .i⟩,
    ⟨.dep_flags_phase_vecs_q0, .arr 2 .i⟩, ⟨.dep_flags_phase_vecs_u0, .arr 2 .i⟩,
    ⟨.dep_flags_local_r_t_u_w, .arr 2 .i⟩, ⟨.dep_flags_layer_R_T_S_U_W_V, .arr 2 .i⟩,
    ⟨.qx, .arr 1 .d⟩, ⟨.qw, .arr 1 .d⟩]

/-- `src/xrtm_interface.c:1923-1925` -/
def at1923 : List Entry :=
  under [.yes .internal] (
    always [⟨.qx_v, .arr 1 .d⟩, ⟨.qw_v, .arr 1 .d⟩])

/-- `src/xrtm_interface.c:1932-1934` -/
def at1932 : List Entry :=
  under [.yes .internal, .yes .symmetric] (
    always [⟨.alpha1, .arr 1 .d⟩, ⟨.alpha2, .arr 1 .d⟩])

/-- `src/xrtm_interface.c:1941-1945` -/
def at1941 : List Entry :=
  under [.yes .useCoef] (
    always [⟨.Y_p, .arr 3 .d⟩, ⟨.Y_0, .arr 2 .d⟩] ++
    under [.yes .umus] (
      always [⟨.Y_u, .arr 3 .d⟩]))

/-- `src/xrtm_interface.c:1952-1956` -/
def at1952 : List Entry :=
  under [.yes .internal, .yes .kernels] (
    always [⟨.kernel_qx, .arr 1 .d⟩, ⟨.kernel_qw, .arr 1 .d⟩, ⟨.kernel_aux_cos_theta, .arr 1 .d⟩,
      ⟨.kernel_aux_sin_theta, .arr 1 .d⟩, ⟨.kernel_aux_tan_theta, .arr 1 .d⟩,
      ⟨.kernel_aux_tan_theta2, .arr 1 .d⟩, ⟨.kernel_aux_cos_phi, .arr 1 .d⟩,
      ⟨.kernel_aux_sin_phi, .arr 1 .d⟩, ⟨.kernel_aux_sin_phi2, .arr 1 .d⟩])

/-- `src/xrtm_interface.c:1963-1964` -/
def at1963 : List Entry :=
  under [.yes .psa] (
    always [⟨.levels_z, .arr 1 .d⟩])

/-- `src/xrtm_interface.c:1966-1967` -/
def at1966 : List Entry :=
  under [.yes .atLevels] (
    always [⟨.ulevels, .arr 1 .i⟩])

/-- `src/xrtm_interface.c:1966-1974` -/
def at1966' : List Entry :=
  under [.no .atLevels] (
    always [⟨.ulevels, .arr 1 .i⟩, ⟨.utaus, .arr 1 .d⟩, ⟨.utaus2, .arr 1 .d⟩] ++
    under [.yes .deltaM] (
      always [⟨.utaus20, .arr 1 .d⟩]))

/-- `src/xrtm_interface.c:1977-1978` -/
def at1977 : List Entry :=
  under [.yes .thermal] (
    always [⟨.levels_b, .arr 1 .d⟩])

/-- `src/xrtm_interface.c:1980` -/
def at1980 : List Entry :=
  always [⟨.ltau, .arr 1 .d⟩]

/-- `src/xrtm_interface.c:1982-1983` -/
def at1982 : List Entry :=
  under [.yes .atTaus] (
    always [⟨.ttau, .arr 1 .d⟩])

/-- `src/xrtm_interface.c:1985` -/
def at1985 : List Entry :=
  always [⟨.omega, .arr 1 .d⟩]

/-- `src/xrtm_interface.c:1987-1988` -/
def at1987 : List Entry :=
  under [.yes .useG] (
    always [⟨.g, .arr 1 .d⟩])

/-- `src/xrtm_interface.c:1989-1993` -/
def at1989 : List Entry :=
  under [.yes .useCoef] (
    always [⟨.n_coef_layer, .arr 1 .i⟩, ⟨.n_coef_layer2, .arr 1 .i⟩, ⟨.coef, .arr 3 .d⟩])

/-- `src/xrtm_interface.c:1996-2003` -/
def at1996 : List Entry :=
  under [.yes .deltaM] (
    always [⟨.ltau0, .arr 1 .d⟩, ⟨.omega0, .arr 1 .d⟩] ++
    under [.yes .useG] (
      always [⟨.g0, .arr 1 .d⟩]) ++
    under [.yes .useCoef] (
      always [⟨.coef0, .arr 3 .d⟩]))

/-- `src/xrtm_interface.c:2006-2011` -/
def at2006 : List Entry :=
  under [.yes .kernels] (
    always [⟨.kernels, .arr 1 .i⟩, ⟨.kernel_ampfac, .arr 1 .d⟩, ⟨.kernel_params, .arr 2 .d⟩,
      ⟨.kernel_func, .arr 1 .any⟩])

/-- `src/xrtm_interface.c:2018-2042` -/
def at2018 : List Entry :=
  under [.yes .calcDerivs] (
    always [⟨.F_iso_top_l, .arr 1 .d⟩, ⟨.F_iso_bot_l, .arr 1 .d⟩] ++
    under [.yes .thermal] (
      always [⟨.levels_b_l, .arr 2 .d⟩, ⟨.surface_b_l, .arr 1 .d⟩]) ++
    always [⟨.ltau_l, .arr 2 .d⟩, ⟨.omega_l, .arr 2 .d⟩] ++
    under [.yes .useG] (
      always [⟨.g_l, .arr 2 .d⟩]) ++
    under [.yes .useCoef] (
      always [⟨.coef_l, .arr 4 .d⟩]) ++
    under [.yes .deltaM] (
      always [⟨.ltau0_l, .arr 2 .d⟩, ⟨.omega0_l, .arr 2 .d⟩] ++
      under [.yes .useG] (
        always [⟨.g0_l, .arr 2 .d⟩]) ++
      under [.yes .useCoef] (
        always [⟨.coef0_l, .arr 4 .d⟩])))

/-- `src/xrtm_interface.c:2046-2049` -/
def at2046 : List Entry :=
  under [.yes .calcDerivs, .yes .kernels] (
    always [⟨.kernel_ampfac_l, .arr 2 .d⟩, ⟨.kernel_params_l, .arr 3 .d⟩])

/-- `src/xrtm_interface.c:2056-2072` -/
def at2056 : List Entry :=
  under [.yes .reverseDerivs] (
    always [⟨.ltau_a, .arr 1 .d⟩, ⟨.omega_a, .arr 1 .d⟩] ++
    under [.yes .useG] (
      always [⟨.g_a, .arr 1 .d⟩]) ++
    under [.yes .useCoef] (
      always [⟨.coef_a, .arr 3 .d⟩]) ++
    under [.yes .deltaM] (
      always [⟨.ltau0_a, .arr 1 .d⟩, ⟨.omega0_a, .arr 1 .d⟩] ++
      under [.yes .useG] (
        always [⟨.g0_a, .arr 1 .d⟩]) ++
      under [.yes .useCoef] (
        always [⟨.coef0_a, .arr 3 .d⟩])))

/-- `src/xrtm_interface.c:2076-2079` -/
def at2076 : List Entry :=
  under [.yes .reverseDerivs, .yes .kernels] (
    always [⟨.kernel_ampfac_a, .arr 1 .d⟩, ⟨.kernel_params_a, .arr 2 .d⟩])

/-- `src/xrtm_interface.c:2086-2111` -/
def at2086 : List Entry :=
  under [.yes .calcDerivs] (
    always [⟨.derivs_layers, .flags2⟩, ⟨.derivs_total, .flags2⟩, ⟨.derivs_stacks, .flags2⟩,
      ⟨.derivs_sources, .flags2⟩, ⟨.derivs_adding_down, .flags2⟩, ⟨.derivs_adding_up, .flags2⟩] ++
    under [.yes .solar] (
      always [⟨.derivs_beam, .flags2⟩]) ++
    under [.yes .thermal] (
      always [⟨.derivs_thermal, .flags2⟩]) ++
    always [⟨.derivs_layers_m, .flags2⟩, ⟨.derivs_total_m, .flags2⟩, ⟨.derivs_stacks_m, .flags2⟩,
      ⟨.derivs_sources_m, .flags2⟩, ⟨.derivs_adding_down_m, .flags2⟩, ⟨.derivs_adding_up_m, .flags2⟩] ++
    under [.yes .solar] (
      always [⟨.derivs_beam_m, .flags2⟩]) ++
    under [.yes .thermal] (
      always [⟨.derivs_thermal_m, .flags2⟩]))

/-- `src/xrtm_interface.c:2114-2141` -/
def at2114 : List Entry :=
  under [.yes .reverseDerivs] (
    always [⟨.derivs_layers_union, .arr 1 .uc⟩, ⟨.derivs_total_union, .arr 1 .uc⟩,
      ⟨.derivs_stacks_union, .arr 1 .uc⟩, ⟨.derivs_sources_union, .arr 1 .uc⟩] ++
    under [.yes .solar] (
      always [⟨.derivs_beam_union, .arr 1 .uc⟩]) ++
    under [.yes .thermal] (
      always [⟨.derivs_thermal_union, .arr 1 .uc⟩]) ++
    always [⟨.derivs_adding_up_union, .arr 1 .uc⟩, ⟨.derivs_adding_down_union, .arr 1 .uc⟩,
      ⟨.derivs_layers_m_union, .arr 1 .uc⟩, ⟨.derivs_total_m_union, .arr 1 .uc⟩,
      ⟨.derivs_stacks_m_union, .arr 1 .uc⟩, ⟨.derivs_sources_m_union, .arr 1 .uc⟩] ++
    under [.yes .solar] (
      always [⟨.derivs_beam_m_union, .arr 1 .uc⟩]) ++
    under [.yes .thermal] (
      always [⟨.derivs_thermal_m_union, .arr 1 .uc⟩]) ++
    always [⟨.derivs_adding_up_m_union, .arr 1 .uc⟩, ⟨.derivs_adding_down_m_union, .arr 1 .uc⟩])

/-- `src/xrtm_interface.c:2148-2172` -/
def at2148 : List Entry :=
  under [.yes .internal] (
    always [⟨.btau, .arr 1 .d⟩, ⟨.btran, .arr 1 .d⟩, ⟨.as_0, .arr 1 .d⟩, ⟨.atran, .arr 1 .d⟩,
      ⟨.chapman, .arr 2 .d⟩, ⟨.In_p, .arr 2 .d⟩, ⟨.I1_m, .arr 2 .d⟩] ++
    under [.yes .kernels] (
      always [⟨.kernel_f_qq, .arr 3 .d⟩, ⟨.kernel_f_q0, .arr 2 .d⟩] ++
      under [.yes .sfi, .yes .umus] (
        always [⟨.kernel_f_uq, .arr 3 .d⟩, ⟨.kernel_f_u0, .arr 2 .d⟩])))

/-- `src/xrtm_interface.c:2181-2204` -/
def at2181 : List Entry :=
  under [.yes .internal] (
    under [.yes .calcDerivs] (
      always [⟨.btau_l, .arr 2 .d⟩, ⟨.btran_l, .arr 2 .d⟩, ⟨.as_0_l, .arr 2 .d⟩, ⟨.atran_l, .arr 2 .d⟩,
        ⟨.In_p_l, .arr 3 .d⟩, ⟨.I1_m_l, .arr 3 .d⟩] ++
      under [.yes .kernels] (
        always [⟨.kernel_f_qq_l, .arr 4 .d⟩, ⟨.kernel_f_q0_l, .arr 3 .d⟩] ++
        under [.yes .sfi, .yes .umus] (
          always [⟨.kernel_f_uq_l, .arr 4 .d⟩, ⟨.kernel_f_u0_l, .arr 3 .d⟩]))))

/-- `src/xrtm_interface.c:2214-2237` -/
def at2214 : List Entry :=
  under [.yes .internal] (
    under [.yes .reverseDerivs] (
      always [⟨.btau_a, .arr 1 .d⟩, ⟨.btran_a, .arr 1 .d⟩, ⟨.as_0_a, .arr 1 .d⟩, ⟨.atran_a, .arr 1 .d⟩,
        ⟨.In_p_a, .arr 2 .d⟩, ⟨.I1_m_a, .arr 2 .d⟩] ++
      under [.yes .kernels] (
        always [⟨.kernel_f_qq_a, .arr 3 .d⟩, ⟨.kernel_f_q0_a, .arr 2 .d⟩] ++
        under [.yes .sfi, .yes .umus] (
          always [⟨.kernel_f_uq_a, .arr 3 .d⟩, ⟨.kernel_f_u0_a, .arr 2 .d⟩]))))

/-- `src/xrtm_interface.c:2247-2319` -/
def at2247 : List Entry :=
  under [.yes .internal] (
    under [.yes .savePhase] (
      always [⟨.P_qq_pp, .arr 4 .d⟩, ⟨.P_qq_mp, .arr 4 .d⟩, ⟨.P_q0_mm, .arr 3 .d⟩, ⟨.P_q0_pm, .arr 3 .d⟩] ++
      under [.yes .sfi, .yes .umus] (
        always [⟨.P_uq_pp, .arr 4 .d⟩, ⟨.P_uq_mp, .arr 4 .d⟩, ⟨.P_u0_mm, .arr 3 .d⟩, ⟨.P_u0_pm, .arr 3 .d⟩])) ++
    under [.yes .saveLocal] (
      always [⟨.r_p, .arr 4 .d⟩, ⟨.t_p, .arr 4 .d⟩]) ++
    under [.yes .savePhase, .yes .vector] (
      always [⟨.P_qq_mm, .arr 4 .d⟩, ⟨.P_qq_pm, .arr 4 .d⟩] ++
      under [.yes .sfi, .yes .umus] (
        always [⟨.P_uq_mm, .arr 4 .d⟩, ⟨.P_uq_pm, .arr 4 .d⟩])) ++
    under [.yes .saveLocal, .yes .vector] (
      always [⟨.r_m, .arr 4 .d⟩, ⟨.t_m, .arr 4 .d⟩]) ++
    under [.yes .calcDerivs, .yes .savePhase] (
      always [⟨.P_qq_pp_l, .arr 5 .d⟩, ⟨.P_qq_mp_l, .arr 5 .d⟩, ⟨.P_q0_mm_l, .arr 4 .d⟩,
        ⟨.P_q0_pm_l, .arr 4 .d⟩] ++
      under [.yes .sfi, .yes .umus] (
        always [⟨.P_uq_pp_l, .arr 5 .d⟩, ⟨.P_uq_mp_l, .arr 5 .d⟩, ⟨.P_u0_mm_l, .arr 4 .d⟩,
          ⟨.P_u0_pm_l, .arr 4 .d⟩])) ++
    under [.yes .calcDerivs, .yes .saveLocal] (
      always [⟨.r_p_l, .arr 5 .d⟩, ⟨.t_p_l, .arr 5 .d⟩]) ++
    under [.yes .calcDerivs, .yes .savePhase, .yes .vector] (
      always [⟨.P_qq_mm_l, .arr 5 .d⟩, ⟨.P_qq_pm_l, .arr 5 .d⟩] ++
      under [.yes .sfi, .yes .umus] (
        always [⟨.P_uq_mm_l, .arr 5 .d⟩, ⟨.P_uq_pm_l, .arr 5 .d⟩])) ++
    under [.yes .calcDerivs, .yes .saveLocal, .yes .vector] (
      always [⟨.r_m_l, .arr 5 .d⟩, ⟨.t_m_l, .arr 5 .d⟩]))

/-- `src/xrtm_interface.c:2327-2382` -/
def at2327 : List Entry :=
  under [.yes .adding] (
    under [.yes .stackReuse] (
      always [⟨.stack_grid, .arr 2 .any⟩]) ++
    under [.yes .saveLayer] (
      always [⟨.Rl_p, .arr 4 .d⟩, ⟨.Tl_p, .arr 4 .d⟩, ⟨.Rl_m, .arr 4 .d⟩, ⟨.Tl_m, .arr 4 .d⟩,
        ⟨.Sl_p, .arr 3 .d⟩, ⟨.Sl_m, .arr 3 .d⟩, ⟨.Sll_p, .arr 3 .d⟩, ⟨.Sll_m, .arr 3 .d⟩]) ++
    under [.yes .saveTotal] (
      always [⟨.Ra_p, .arr 3 .d⟩, ⟨.Ta_p, .arr 3 .d⟩, ⟨.Ra_m, .arr 3 .d⟩, ⟨.Ta_m, .arr 3 .d⟩,
        ⟨.Sa_p, .arr 2 .d⟩, ⟨.Sa_m, .arr 2 .d⟩, ⟨.Sla_p, .arr 2 .d⟩, ⟨.Sla_m, .arr 2 .d⟩]) ++
    under [.yes .saveLayer, .yes .calcDerivs] (
      always [⟨.Rl_p_l, .arr 5 .d⟩, ⟨.Tl_p_l, .arr 5 .d⟩, ⟨.Rl_m_l, .arr 5 .d⟩, ⟨.Tl_m_l, .arr 5 .d⟩,
        ⟨.Sl_p_l, .arr 4 .d⟩, ⟨.Sl_m_l, .arr 4 .d⟩, ⟨.Sll_p_l, .arr 4 .d⟩, ⟨.Sll_m_l, .arr 4 .d⟩]) ++
    under [.yes .saveTotal, .yes .calcDerivs] (
      always [⟨.Ra_p_l, .arr 4 .d⟩, ⟨.Ta_p_l, .arr 4 .d⟩, ⟨.Ra_m_l, .arr 4 .d⟩, ⟨.Ta_m_l, .arr 4 .d⟩,
        ⟨.Sa_p_l, .arr 3 .d⟩, ⟨.Sa_m_l, .arr 3 .d⟩, ⟨.Sla_p_l, .arr 3 .d⟩, ⟨.Sla_m_l, .arr 3 .d⟩]))

/-- `src/xrtm_interface.c:2390-2391` -/
def at2390 : List Entry :=
  under [.yes .internal] (
    always [⟨.work, .whole⟩])

/-- `src/xrtm_interface.c:2397-2398` -/
def at2397 : List Entry :=
  under [.yes .reverseDerivs] (
    always [⟨.save_tree, .whole⟩])

/-- `src/xrtm_interface.c:2573-2576` -/
def at2573 : List Entry :=
  always [⟨.set_flags_g, .arr 1 .uc⟩, ⟨.set_flags_coef, .arr 1 .uc⟩, ⟨.set_flags_omega, .arr 1 .uc⟩,
    ⟨.set_flags_ltau, .arr 1 .uc⟩]

/-- `src/xrtm_interface.c:2578-2580` -/
def at2578 : List Entry :=
  under [.yes .kernels] (
    always [⟨.set_flags_kernel_ampfac, .arr 1 .uc⟩, ⟨.set_flags_kernel_params, .arr 2 .uc⟩])

/-- The allocating statements of `xrtm_create`, in order (1047-1728). -/
def createTab : List Entry :=
  at1047 ++ at1052 ++ at1062 ++ at1141 ++ at1163 ++ at1174 ++ at1195 ++ at1215 ++ at1218 ++
  at1218' ++ at1236 ++ at1243 ++ at1245 ++ at1248 ++ at1250 ++ at1252 ++ at1259 ++ at1275 ++
  at1289 ++ at1323 ++ at1333 ++ at1359 ++ at1369 ++ at1408 ++ at1442 ++ at1481 ++ at1520 ++
  at1559 ++ at1639 ++ at1712 ++ at1727

/-- The freeing statements of `xrtm_destroy`, in order (1872-2398), without those for the chain of
stacks. -/
def destroyTab : List Entry :=
  at1872 ++ at1889 ++ at1923 ++ at1932 ++ at1941 ++ at1952 ++ at1963 ++ at1966 ++ at1966' ++
  at1977 ++ at1980 ++ at1982 ++ at1985 ++ at1987 ++ at1989 ++ at1996 ++ at2006 ++ at2018 ++
  at2046 ++ at2056 ++ at2076 ++ at2086 ++ at2114 ++ at2148 ++ at2181 ++ at2214 ++ at2247 ++
  at2327 ++ at2390 ++ at2397

/-- The freeing statements of `check_inputs_initialized` (2573-2581). -/
def checkTab : List Entry :=
  at2573 ++ at2578

/-! ## The stacks -/

/-- `XRTM_SOLVERS_ADDING` (`src/xrtm_support.h:100-103`). -/
def SOLVERS_ADDING : Word := SOLVER_DOUB_ADD ||| SOLVER_EIG_ADD ||| SOLVER_PADE_ADD

/-- The conditions for a configuration; `sym` is `misc_input.use_symmetric_form`, which only
`xrtm_create` writes. -/
def val (c : Config) (sym inputsInit : Bool) : Atom → Bool
  | .internal => has c.solvers SOLVER_ALL
  | .useCoef => Xrtm.useCoef c
  | .useG => Xrtm.useG c
  | .adding => has c.solvers (SOLVER_ALL &&& SOLVERS_ADDING)
  | .symmetric => sym
  | .kernels => decide (0 < c.nKernels)
  | .umus => decide (0 < c.nOutThetas)
  | .inputsInit => inputsInit
  | .sfi => has c.options OPT_SFI
  | .psa => has c.options OPT_PSA
  | .atLevels => has c.options OPT_OUTPUT_AT_LEVELS
  | .atTaus => has c.options OPT_OUTPUT_AT_TAUS
  | .thermal => has c.options OPT_SOURCE_THERMAL
  | .solar => has c.options OPT_SOURCE_SOLAR
  | .deltaM => has c.options OPT_DELTA_M
  | .calcDerivs => has c.options OPT_CALC_DERIVS
  | .reverseDerivs => has c.options OPT_REVERSE_DERIVS
  | .saveLeg => has c.options OPT_SAVE_LEG_POLYS
  | .savePhase => has c.options OPT_SAVE_PHASE_MATS
  | .saveLocal => has c.options OPT_SAVE_LOCAL_R_T
  | .saveLayer => has c.options OPT_SAVE_LAYER_R_T_S
  | .saveTotal => has c.options OPT_SAVE_TOTAL_R_T_S
  | .vector => has c.options OPT_VECTOR
  | .stackReuse => has c.options OPT_STACK_REUSE_ADDING

/-- `d->solvers & (XRTM_SOLVERS_INTERNAL & XRTM_SOLVERS_ADDING)` and
`d->options & XRTM_OPTION_STACK_REUSE_ADDING` (1861-1862, 2327-2328, 5453). -/
def reuses (c : Config) : Bool :=
  has c.solvers (SOLVER_ALL &&& SOLVERS_ADDING) && has c.options OPT_STACK_REUSE_ADDING

/-- The arrays of a `stack_data`. -/
inductive Part
  | R_p | T_p | R_m | T_m | S_p | S_m | Sl_p | Sl_m
  | R_p_l | T_p_l | R_m_l | T_m_l | S_p_l | S_m_l | Sl_p_l | Sl_m_l | d
  deriving DecidableEq, Repr

/-- The arrays of a `layer_add_aux_data`. -/
inductive Aux
  | i13 | i31 | P13 | P31 | A13 | A31 | B13 | B31 | C13 | C31
  deriving DecidableEq, Repr

/-- A piece of the memory of a stack: an array, the array `[j][k]` that it points to, or an array of
`d[j]`. -/
inductive Piece
  | outer (p : Part) (kind : Kind)
  | inner (p : Part) (kind : Kind) (j k : Nat)
  | aux (a : Aux) (kind : Kind) (j : Nat)
  deriving DecidableEq, Repr

/-- The two nested loops over Fourier terms and derivatives, with the statements of the body. -/
def loops (nf nd : Nat) (body : Nat → Nat → List Piece) : List Piece :=
  (List.range nf).flatMap fun j => (List.range nd).flatMap fun k => body j k

/-- `layer_add_aux_alloc` (`src/xrtm_adding.c:27-42`). -/
def auxAlloc (j : Nat) : List Piece :=
  [.aux .i13 (.arr 1 .i) j, .aux .i31 (.arr 1 .i) j, .aux .P13 (.arr 2 .d) j, .aux .P31 (.arr 2 .d) j,
   .aux .A13 (.arr 2 .d) j, .aux .A31 (.arr 2 .d) j, .aux .B13 (.arr 2 .d) j, .aux .B31 (.arr 2 .d) j,
   .aux .C13 (.arr 1 .d) j, .aux .C31 (.arr 1 .d) j]

/-- `layer_add_aux_free` (`src/xrtm_adding.c:54-66`). -/
def auxFree (j : Nat) : List Piece :=
  [.aux .i13 (.arr 1 .i) j, .aux .i31 (.arr 1 .i) j, .aux .P13 (.arr 2 .d) j, .aux .P31 (.arr 2 .d) j,
   .aux .A13 (.arr 2 .d) j, .aux .A31 (.arr 2 .d) j, .aux .B13 (.arr 2 .d) j, .aux .B31 (.arr 2 .d) j,
   .aux .C13 (.arr 1 .d) j, .aux .C31 (.arr 1 .d) j]

/-- What `stack_chain_alloc` allocates for a stack it does not find in the old chain
(`src/xrtm_stacks.c:495-594`); `single`: `i < n_layers`. -/
def stackAlloc (nf nd : Nat) (single : Bool) : List Piece :=
  [.outer .R_p (.arr 3 .d), .outer .T_p (.arr 3 .d), .outer .R_m (.arr 3 .d), .outer .T_m (.arr 3 .d),
   .outer .S_p (.arr 2 .d), .outer .S_m (.arr 2 .d), .outer .Sl_p (.arr 2 .d), .outer .Sl_m (.arr 2 .d)] ++
  if single then
    [.outer .R_p_l (.arr 2 .any), .outer .T_p_l (.arr 2 .any), .outer .R_m_l (.arr 2 .any),
     .outer .T_m_l (.arr 2 .any)] ++
    loops nf nd (fun j k => [.inner .R_p_l (.arr 2 .d) j k, .inner .T_p_l (.arr 2 .d) j k,
      .inner .R_m_l (.arr 2 .d) j k, .inner .T_m_l (.arr 2 .d) j k]) ++
    [.outer .S_p_l (.arr 2 .any), .outer .S_m_l (.arr 2 .any), .outer .Sl_p_l (.arr 2 .any),
     .outer .Sl_m_l (.arr 2 .any)] ++
    loops nf nd (fun j k => [.inner .S_p_l (.arr 1 .d) j k, .inner .S_m_l (.arr 1 .d) j k,
      .inner .Sl_p_l (.arr 1 .d) j k, .inner .Sl_m_l (.arr 1 .d) j k])
  else
    [.outer .S_p_l (.arr 2 .any), .outer .S_m_l (.arr 2 .any), .outer .Sl_p_l (.arr 2 .any),
     .outer .Sl_m_l (.arr 2 .any)] ++
    loops nf nd (fun j k => [.inner .S_p_l (.arr 1 .d) j k, .inner .S_m_l (.arr 1 .d) j k,
      .inner .Sl_p_l (.arr 1 .d) j k, .inner .Sl_m_l (.arr 1 .d) j k]) ++
    [.outer .d (.arr 1 .any)] ++ (List.range nf).flatMap auxAlloc

/-- What `stack_chain_free` frees for a stack that is still `allocated`
(`src/xrtm_stacks.c:630-725`). -/
def stackFree (nf nd : Nat) (single : Bool) : List Piece :=
  [.outer .R_p (.arr 3 .d), .outer .T_p (.arr 3 .d), .outer .R_m (.arr 3 .d), .outer .T_m (.arr 3 .d),
   .outer .S_p (.arr 2 .d), .outer .S_m (.arr 2 .d), .outer .Sl_p (.arr 2 .d), .outer .Sl_m (.arr 2 .d)] ++
  if single then
    loops nf nd (fun j k => [.inner .R_p_l (.arr 2 .d) j k, .inner .T_p_l (.arr 2 .d) j k,
      .inner .R_m_l (.arr 2 .d) j k, .inner .T_m_l (.arr 2 .d) j k]) ++
    [.outer .R_p_l (.arr 2 .any), .outer .T_p_l (.arr 2 .any), .outer .R_m_l (.arr 2 .any),
     .outer .T_m_l (.arr 2 .any)] ++
    loops nf nd (fun j k => [.inner .S_p_l (.arr 1 .d) j k, .inner .S_m_l (.arr 1 .d) j k,
      .inner .Sl_p_l (.arr 1 .d) j k, .inner .Sl_m_l (.arr 1 .d) j k]) ++
    [.outer .S_p_l (.arr 2 .any), .outer .S_m_l (.arr 2 .any), .outer .Sl_p_l (.arr 2 .any),
     .outer .Sl_m_l (.arr 2 .any)]
  else
    loops nf nd (fun j k => [.inner .S_p_l (.arr 1 .d) j k, .inner .S_m_l (.arr 1 .d) j k,
      .inner .Sl_p_l (.arr 1 .d) j k, .inner .Sl_m_l (.arr 1 .d) j k]) ++
    [.outer .S_p_l (.arr 2 .any), .outer .S_m_l (.arr 2 .any), .outer .Sl_p_l (.arr 2 .any),
     .outer .Sl_m_l (.arr 2 .any)] ++
    (List.range nf).flatMap auxFree ++ [.outer .d (.arr 1 .any)]

/-! ## Memory -/

/-- The pieces of memory. A stack's arrays are taken over by stacks of later chains, so they carry a
number of their own, given when they are allocated, as does the array that is the chain. -/
inductive Tok
  | data
  | buf (b : Buf)
  | chain (id : Nat)
  | piece (id : Nat) (p : Piece)
  deriving DecidableEq, Repr

/-- Free these in turn; `none`: one of them is not allocated. -/
def freeAll : List Tok → List Tok → Option (List Tok)
  | [], h => some h
  | t :: ts, h => if t ∈ h then freeAll ts (h.erase t) else none

/-- The chain: the array, the stacks and the number of the arrays of each stack. -/
structure Held where
  id : Nat
  chain : Stacks.Chain
  own : Nat → Nat

/-- What is allocated, and the members of `xrtm_data` that what is freed depends on. -/
structure RState where
  cfg : Config
  sym : Bool
  inputsInit : Bool
  held : Option Held
  heap : List Tok
  /-- the next number -/
  next : Nat

/-- `xrtm_create` for a configuration it accepts. -/
def start (c : Config) (sym : Bool) : RState where
  cfg := c
  sym := sym
  inputsInit := true
  held := none
  heap := (taken (val c sym true) createTab).map .buf
  next := 0

/-- `xrtm_create2` (765-783): the structure, then `xrtm_create`; a refusal returns NULL at once. -/
def create2 (opts solvers : Word) (counts : Counts) (kernels : List Int) (sym : Bool) :
    Option RState × List Tok :=
  match create opts solvers counts kernels with
  | .ok c => (some { start c sym with heap := .data :: (start c sym).heap }, .data :: (start c sym).heap)
  | .error _ => (none, [.data])

/-- `check_inputs_initialized` when everything has been set (2423-2587). It is only called while
`inputs_initialized` is 1 (5365, 5660). -/
def checked (s : RState) : Option RState :=
  if s.inputsInit then
    (freeAll ((taken (val s.cfg s.sym true) checkTab).map .buf) s.heap).map fun h =>
      { s with heap := h, inputsInit := false }
  else some s

/-- The pieces of stack `k` of a chain for `n` layers. -/
def pieces (f : Bool → List Piece) (n : Nat) (own : Nat → Nat) (k : Nat) : List Tok :=
  (f (decide (k < n))).map (.piece (own k))

/-- The number of the arrays of stack `k` of the new chain (456-487, or the next). -/
def owner (old : Option Held) (new : Stacks.Chain) (next k : Nat) : Nat :=
  match old, Stacks.takeOver (old.map (·.chain)) new k with
  | some o, some ii => o.own ii
  | _, _ => next + 1 + k

/-- `allocated` of stack `ii` of the old chain after `stack_chain_alloc`: not taken over (489). -/
def kept (old : Stacks.Chain) (new : Stacks.Chain) (ii : Nat) : Bool :=
  (List.range new.length).all fun k => !(Stacks.takeOver (some old) new k == some ii)

/-- `stack_chain_free` (612-735), for the stacks of the chain that are still `allocated`. -/
def chainFree (nf nd n : Nat) (o : Held) (still : Nat → Bool) : List Tok :=
  ((List.range o.chain.length).filter still).flatMap (pieces (stackFree nf nd) n o.own)

/-- The chain of stacks is replaced (5453-5485). -/
def replace (s : RState) (new : Stacks.Chain) : Option RState :=
  let nf := s.cfg.nFour.toNat
  let nd := s.cfg.nDerivs.toNat
  let n := s.cfg.nLayers.toNat
  let own := owner s.held new s.next
  let fresh := ((List.range new.length).filter fun k => (Stacks.takeOver (s.held.map (·.chain)) new k).isNone).flatMap
    (pieces (stackAlloc nf nd) n own)
  let h := .chain s.next :: fresh ++ s.heap
  let gone := match s.held with
    | none => []
    | some o => chainFree nf nd n o (kept o.chain new) ++ [.chain o.id]
  (freeAll gone h).map fun h =>
    { s with held := some ⟨s.next, new, own⟩, heap := h, next := s.next + 1 + new.length }

/-- What happens to the memory between `xrtm_create` and `xrtm_destroy`. -/
inductive Ev
  /-- a call that finds all inputs set -/
  | checked
  /-- `xrtm_update_varied_layers` that gets to its end; `lay`: the layers that vary -/
  | varied (lay : Nat → Nat → Bool)
  /-- `xrtm_solution_2` whose solution without derivatives fails -/
  | failed2

/-- `xrtm_update_varied_layers` (5347-5489): refused without `XRTM_OPTION_CALC_DERIVS`. -/
def varied (s : RState) (lay : Nat → Nat → Bool) : Option RState :=
  if has s.cfg.options OPT_CALC_DERIVS then
    (checked s).bind fun s =>
      if reuses s.cfg then
        match Stacks.buildChain s.cfg.nLayers.toNat s.cfg.nDerivs.toNat (Stacks.rounds s.cfg.nLayers.toNat) lay with
        | .ok c => replace s c
        | .error _ => none
      else some s
  else some s

/-- `xrtm_solution_2` (5783-5791, 5854-5864): refused without both kinds of derivatives. -/
def failed2 (s : RState) : RState :=
  if has s.cfg.options OPT_CALC_DERIVS && has s.cfg.options OPT_REVERSE_DERIVS then
    { s with cfg := Solution2.off s.cfg }
  else s

def step (s : RState) : Ev → Option RState
  | .checked => checked s
  | .varied lay => varied s lay
  | .failed2 => some (failed2 s)

def run : List Ev → RState → Option RState
  | [], s => some s
  | e :: es, s => (step s e).bind (run es)

/-- What `xrtm_destroy` frees (1861-2398); `free_array1` of the chain is free of NULL when there is
none. -/
def frees (s : RState) : List Tok :=
  (if reuses s.cfg then
    match s.held with
    | none => []
    | some o => chainFree s.cfg.nFour.toNat s.cfg.nDerivs.toNat s.cfg.nLayers.toNat o (fun _ => true) ++ [.chain o.id]
   else []) ++
  (taken (val s.cfg s.sym s.inputsInit) destroyTab).map .buf

/-- `xrtm_destroy`: what is left. -/
def destroy (s : RState) : Option (List Tok) := freeAll (frees s) s.heap

/-- `xrtm_destroy2` (2406-2417). -/
def destroy2 (s : RState) : Option (List Tok) := (destroy s).bind (freeAll [.data])

end Xrtm.Resources
