"""Writes MANIFEST.json from the table below (property, status, theorems, note)."""
import json
P = 'Dg1d.Props.'
CLAIMS = [
    ('C01', 'proved', 'C01_clock', 'any scheme, residual and limiter that keeps t and n'),
    ('C02', 'proved', 'C02_terminates C02_terminates_exists', ''),
    ('C03', 'partial', 'C03_outputs_partial C03_outputs_general_partial C03_outputs_skipped',
     'false in general (witness C03_outputs_skipped); proved when no CFL step exceeds the output spacing'),
    ('C04', 'proved', 'C04_numbering C04_one_output C04_final_output', ''),
    ('C05', 'proved', 'C05_low_storage C05_low_storage_generic', ''),
    ('C06', 'proved', 'C06_textbook_step C06_textbook_step_generic C06_successful_step C07_no_tiny_coefficient',
     'the residual is any function of the array that leaves the discretisation data of its argument alone'),
    ('C07', 'proved', 'C07_exact_tables C07_rounded_tables C07_no_tiny_coefficient',
     'the tables are the exact decimals/fractions written in the source'),
    ('C08', 'proved', 'C08_order C08_order_rational C08_order_rk6 C08_integrate_order', 'order conditions of all rooted trees'),
    ('C09', 'proved', 'C09_truncated_exponential C09_exact_rk3_rk4 C09_integrate_step C09_integrate_series', ''),
    ('C10', 'proved', 'C10_stability_function C10_same_table C10_solver C10_solver_deck', ''),
    ('C11', 'proved', 'C11_default C11_residual_evaluations C11_names_distinct', ''),
    ('C12', 'proved', 'C12_cfl_size C12_abort', ''),
    ('C22', 'proved', 'C22_basis_tables C22_numpy_routines', 'leggauss is a parameter'),
    ('C23', 'proved', 'C23_mass_matrix C23_mass_matrix_integral', ''),
    ('C24', 'proved', 'C24_projection C24_projection_missing_component',
     'legfit is any least-squares minimiser, leggauss any Gauss rule (exists for every order: exists_gauss)'),
    ('C25', 'proved', 'C25_shift C25_integrate_product', 'Legendre objects are modelled by the polynomials they denote'),
    ('C13', 'proved', 'C13_weak_form C13_residual_fails C13_advection', 'for every flux and interface-wise Riemann solver'),
    ('C14', 'proved', 'C14_conservation', ''),
    ('C17', 'proved', 'C17_stencil', ''),
    ('C19', 'proved', 'C19_energy', ''),
    ('C20', 'proved', 'C20_exact_derivative', ''),
    ('C27', 'proved', 'C27_apply_bc', ''),
    ('C15', 'proved', 'C15_limited C15_conservation', 'C15_limited: solver, physics and limiter of the code'),
    ('C16', 'proved', 'C16_limited C16_uniform_residual C16_uniform_flow', 'C16_limited: solver, physics, enhancement and limiter of the code; periodic or zero-gradient boundaries'),
    ('C18', 'proved', 'C18_residual_shift C18_run_shift C18_run_code', ''),
    ('C21', 'partial', 'C21_residual_ghosts C21_run_ghosts_partial C21_run_code_partial C21_first_step C21_steps_partial C21_stale_ghosts', 'a run needs filled ghost cells at its start (C21_first_step, C21_run_code_partial); second sentence is false: C21_stale_ghosts; it holds at the end of every step: C21_steps_partial'),
    ('C37', 'proved', 'C37_interior_flux C37_advection', ''),
    ('C38', 'proved', 'C38_consistent C38_godunov C38_advection', 'physical states'),
    ('C39', 'proved', 'C39_rusanov C39_roe C39_roe_property', ''),
    ('C40', 'proved', 'C40_mirror C40_godunov_mirror C40_godunov_not_mirror', 'Godunov: true unless both states run into each other supersonically, with a witness for that case'),
    ('C41', 'proved', 'C41_roe_supersonic C41_godunov_left C41_godunov_right', ''),
    ('C42', 'proved', 'C42_roe_contact C42_godunov_contact C42_rusanov_contact', ''),
    ('C43', 'proved', 'C43_entropy_fix', ''),
    ('C46', 'proved', 'C46_bound C46_breakdown C46_advection', ''),
    ('C47', 'proved', 'C47_local C47_fails C47_advection', ''),
    ('C44', 'proved', 'C44_iteration C44_vacuum C44_onset C44_onset_witness', 'exact real arithmetic, physical states; at the onset of vacuum the claim about the sonic cases is false, with a witness'),
    ('C45', 'proved', 'C45_velocity C45_shock C45_expansion C45_sonic C45_two_expansions C44_iteration', 'C44_iteration ties the code to these formulas'),
    ('C48', 'proved', 'C48_flags C48_window C48_none C48_no_threshold', ''),
    ('C49', 'proved', 'C49_flags C49_thresholds C49_uniform C49_contact', 'physical cell averages'),
    ('C50', 'partial', 'C50_advection_partial C50_advection_product_partial C50_advection_fails C50_advection_counterexample C50_shock', 'advection: false in general; proved for jumps up to 1, and for pairs of jumps whose product is at most 1, which is exactly where it holds for all thresholds (C50_advection_fails gives a threshold for every other pair); Euler shock flag: proved'),
    ('C51', 'partial', 'C51_contact_partial C51_mirror_partial C51_waves_partial C51_counterexample', 'false in general (witness); proved for the discontinuity flag, for flows where the test on the characteristics and its mirror image agree, and for flows of single waves (gamma at most 5/3)'),
    ('C52', 'proved', 'C52_averages C52_hr', ''),
    ('C53', 'proved', 'C53_smooth', 'order >= 1 (order 0 raises, C60)'),
    ('C54', 'proved', 'C54_minmod', ''),
    ('C55', 'proved', 'C55_extrema C55_hr_twice C55_twice C55_advection C55_euler', ''),
    ('C56', 'proved', 'C56_mirror C56_constant C56_scalar', ''),
    ('C57', 'proved', 'C57_limit C57_disabled C57_no_sensors', ''),
    ('C58', 'proved', 'C58_transforms', 'numpy.linalg.inv is modelled as the exact inverse'),
    ('C59', 'proved', 'C59_integral C59_bounds', ''),
    ('C60', 'partial', 'C60_init C60_works_partial C60_order_zero', 'false for order 0 (the limiter raises as soon as a cell is flagged); proved for every order >= 1'),
    ('C66', 'proved', 'C66_reconstruction', ''),
 ("C61","proved","C61_faces_exact C61_weights_exact","np.linalg.inv taken exact"),
 ("C62","proved","C62_lengths C62_excluded C62_unique C62_perm C62_too_high C62_bad_modes","placement stated as uniqueness of exact weights"),
 ("C63","proved","C63_mirror",""),
 ("C64","proved","C64_leading","over the reals, any m"),
 ("C26","proved","C26_mesh",""),
 ("C28","proved","C28_simplew C28_simplew_covers C28_entrpyw C28_acsticw C28_shuoshe C28_scktube","exact real arithmetic"),
 ("C29","partial","C29_independent_partial C29_shared_gamma","false in general (witness); proved for histories that agree in using simplew, and for advection"),
 ("C30","partial","C30_never_raises_partial C30_unknown_name C30_bad_count C30_half_built C30_shock_tube_exits C30_blank_line_raises C30_negative_cells","first sentence false (half-built solutions, exits); proved: which lines raise and which give an empty solution"),
 ("C67","proved","C67_construct C67_no_enhancement C67_enhancement",""),
    ('C31', 'proved', 'C31_names C31_fields C31_form', 'Names over any field names that do not end in a digit; the fields of both systems and the sensor file are shown to be such.'),
    ('C32', 'proved', 'C32_files', 'The whole text of every file, and no other file touched.'),
    ('C33', 'proved', 'C33_round_trip C33_one_cell C33_missing', 'Relative to a contract for number text (FloatText.Ok): printing with 19 digits and reading back gives the same number.'),
    ('C34', 'partial', 'C34_not_reapplied C34_ghosts_lost C34_literal_names_partial C34_resume_euler C34_resume_advection', 'False of the code; negation proved. With the names replaced by literals apply_bc restores the ghost cells. A resumed Euler run stops at its first time step (C34_resume_euler); resumed advection loses its inflow (C34_resume_advection).'),
    ('C35', 'proved', 'C35_round_trip C35_bad_value', ''),
    ('C36', 'proved', 'C36_entries C36_keyword_last C36_cover C36_bad_value C36_file', ''),
    ('C65', 'proved', 'C65_dg_cell C65_dg C65_icb_cell C65_icb C65_icb_defined', 'the sympy symbol T is a complex number, numerical quadrature and np.linalg.inv are exact'),
    ('C68', 'proved', 'C68_energy C68_spectrum', ''),
    ('C69', 'proved', 'C69_starts', ''),
    ('C70', 'proved', 'C70_files C70_regression_decks', ''),
    ('C71', 'proved', 'C71_advection_finishes', ''),
    ('C72', 'proved', 'C72_conservation', ''),
    ('C73', 'proved', 'C73_constant_state', ''),
    ('C74', 'proved', 'C74_superposition', ''),
    ('C75', 'proved', 'C75_rk3_energy C75_deck', ''),
    ('C76', 'proved', 'C76_local_error C76_exact_solution C76_smooth C76_smooth_advection C76_smooth_rusanov C76_smooth_roe', 'exact arithmetic, schemes of order 3 to 6, limiter off; where the fluxes are not differentiable (ties of max and abs, entropy fix thresholds) no order is claimed; Godunov is not covered because its iteration stops after a data dependent number of steps'),
    ('C77', 'proved', 'C77_convergence C77_exact_solution C77_advection_solution C77_advection', 'exact arithmetic, convergence to the semi-discrete solution on a fixed mesh; in the nonlinear theorem the runs are assumed not to fail and to take steps up to H'),
    ('C78', 'proved', 'C78_convergence C78_solution C78_deck C78_order', 'Stability from C75, consistency by a projection exact at the outflow edge of each cell.'),
    ('C79', 'proved', 'C79_bounds C79_comparison C79_variation C79_deck C79_sharp', 'Comparison uses the superposition theorem C74.'),
    ('C80', 'proved', 'C80_run_mirror C80_symmetric', 'Whole runs of the code with the limiter off, errors and NaN included. `IsMirror` compares the polynomials at every point, ghost cells included. Exact arithmetic.'),
    ('C81', 'proved', 'C81_refines C81_outputs C81_one_output', 'The clock with a rounding function after every operation; refinement to the program for rnd = id.'),
    ('C82', 'proved', 'C82_final_time C82_final_time_near C82_output_times C82_final_time_missed', 'C82_final_time_missed shows that the step condition of C82_final_time is needed.'),
    ('C83', 'proved', 'C83_terminates C83_stuck', 'C83_stuck: the loop that never ends above time 128.'),
    ('C84', 'proved', 'C84_final_set C84_pass_iff C84_reproduces C84_other_files C84_regression_suite', 'Numbers as read back from 19 digits; exact arithmetic in the run.'),
    ('C85', 'proved', 'C85_norms C85_study C85_rates', 'The step at the last output is exact because the CFL step is below the output interval (C03).'),
    ('C86', 'proved', 'C86_exact_boundary C86_gap C86_schemes C86_sampled C86_eigenvalues', 'np.roots and nla.eigvals enter through their contracts (all roots with multiplicity); exact arithmetic.'),
    ('C87', 'proved', 'C87_advection C87_euler C87_air C87_wrong_pressure C87_sensors C87_left_over C87_tool C87_missing C87_averages', 'The claim includes the wrong pressure for gamma other than 1.4. Markers only; curves of exact solutions, colours and windows are not modelled. Exact arithmetic.'),
    ('C88', 'proved', 'C88_reading C88_run C88_time_bound C88_godunov C88_advection_sensor', 'The claim includes the three absolute constants: time step bound, Godunov tolerance, advection sensor. Exact arithmetic.'),
    ('C89', 'proved', 'C89_order_zero C89_cfl C89_averages C89_trapezoid C89_simpson C89_roe_negative', 'About the state plus dt times the residual, the increment every scheme of the code is built from, not about a full Runge-Kutta step. The claim includes the failure of the Roe flux. Exact arithmetic.'),
    ('C90', 'proved', 'C90_near_order C90_sharp C90_local_error', 'The coefficients are the decimals of the source as exact rationals, not the nearest doubles. For rk12 and rk14, which the statement leaves out, C90_near_order_rk12_rk14_partial covers orders up to 10 and 9.'),
    ('C91', 'proved', 'C91_run C91_separate C91_frame C91_program C91_shared', 'The store after an exception is not described. Attributes that are never changed in place are values in the store model too.'),
    ('C92', 'proved', 'C92_committed C92_as_committed C92_run C92_twice C92_plot C92_four C92_theory', 'The committed scripts fail (C92_committed, C92_as_committed); the other theorems are about run.py with the full path of the program. Data directory modelled down to two levels; the shell splits at blanks only.'),
    ('C93', 'proved', 'C93_timer C93_day', 'Any deck with a valid initial condition; without warnings of numpy. float is assumed to refuse texts with colons. C93_day is about the scripts of C92 with the full path of the program.'),
    ('C94', 'proved', 'C94_deck_name C94_starts C94_usage C94_no_git C94_launch C94_not_started', 'Words with a leading dash other than -d and --deck are not modelled. The shell splits at blanks only.'),
    ('C95', 'proved', 'C95_figures C95_no_figure', 'Coordinates of circles and lines and the names of the files; colours and labels are not modelled.'),
    ('C96', 'proved', 'C96_clock C96_continue C96_program', 'Continuation in memory; from the files see C34. Exact arithmetic.'),
    ('C97', 'proved', 'C97_limit C97_run C97_program C97_sharp_advection C97_sharp_euler', 'Exact arithmetic. The program statement is about the deck as parsed.'),
    ('C98', 'proved', 'C98_bounds C98_variation C98_monotone C98_deck', 'Exact arithmetic. Left boundary zero gradient only: with periodic boundaries the ghost cells are stale inside a step, and the statement is not proved there. The CFL limits are sufficient, not claimed to be sharp.'),
    ('C99', 'proved', 'C99_flux C99_run C99_checked C99_density C99_reading', 'Exact arithmetic, limiter off. The run theorem is about the residual stopped at quadrature points of zero density (NaN in the code); C99_checked shows that its run is the run of the code until it stops.'),
    ('C100', 'proved', 'C100_solution C100_convergence C100_fine C100_deck', 'Exact arithmetic. C100_convergence is about the residual stopped at inadmissible densities (NaN in the code); C100_fine and C100_deck show that on fine meshes this is the run of the code.'),
    ('C101', 'proved', 'C101_order C101_solver', 'Exact arithmetic, unlimited unenhanced advection on a periodic domain.'),
    ('C102', 'proved', 'C102_flux C102_rusanov C102_expansion C102_rest C102_run C102_blurred C102_program', 'Exact arithmetic. C102_run and C102_program without enhancement.'),
    ('C103', 'proved', 'C103_averages C103_start C103_deck C103_order C103_study', 'Exact arithmetic. rk3, rk4, low_storage_rk4, rk5, rk6; the study itself uses rk12, whose decimal coefficients meet no order condition exactly.'),
    ('C104', 'proved', 'C104_refines C104_program C104_binary64 C104_step C104_run C104_error C104_deck', 'Overflow excluded. Accuracy of the stored tables is a hypothesis. The steps are given (clock and outputs with rounding: C81-C83). Step bound for any table, run bounds for rk3.'),
    ('C105', 'proved', 'C105_linear_order C105_linear_sharp C105_moderate C105_linear_step C105_averages C105_deck C105_study', 'The conditions of trees that branch up to order 12 and 14 stay open for rk12 and rk14 (C90, partial); linear problems do not need them.'),
    ('C106', 'proved', 'C106_real C106_stops C106_outputs C106_detect C106_silent C106_solvers C106_deck C106_wave', 'C106_silent shows that the converse reading, runs that end normally hold no NaN, is false. A product of zero and NaN in np.dot counts as NaN; infinities other than those that turn into NaN at once are not modelled.'),
    ('C107', 'proved', 'C107_face C107_found C107_flags C107_missed', 'gamma is 1.4 in the code (dg1d/constants.py), so the bound 5/3 holds there.'),
    ('C108', 'proved', 'C108_upstream C108_quiet C108_enhanced', 'Exact arithmetic. With a periodic left boundary the first cell has the last one as neighbour, so the zero-gradient hypothesis is needed.'),
    ('C109', 'proved', 'C109_real C109_own C109_right C109_left C109_array C109_kept C109_average C109_model', 'NaN is modelled as absorbing with all comparisons false; list.sort of three elements as in CPython up to 3.12. The flags are arbitrary; those of the Euler sensor are in C111.'),
    ('C110', 'proved', 'C110_barrier C110_linear', 'The counterpart of C79. Euler and the limited runs are not covered.'),
    ('C111', 'proved', 'C111_total C111_blind C111_model C111_real C111_stops C111_outputs C111_detect C111_deck C111_silent', 'C111_deck covers decks whose initial limiting succeeds in the model (C69). Infinities are treated as in C106.'),
    ('C112', 'proved', 'C112_own C112_off C112_deck C112_advection C112_euler C112_silent C112_share', 'C112_euler speaks of outputs whose cell averages are physical states.'),
    ('C113', 'proved', 'C113_counts C113_skips C113_rest C113_idle C113_deck C113_wasted', 'Finding: when the output interval is a multiple of the CFL step the code makes one step of length zero per output. Exact arithmetic; C81-C83 treat the clock with rounding.'),
    ('C114', 'proved', 'C114_steady C114_step C114_deck C114_limit C114_damped C114_rk4 C114_rk4_limit', 'Exact arithmetic. The factor rho is shown to exist, not computed. C114_step, C114_deck and C114_limit are for rk3, C114_rk4 and C114_rk4_limit for rk4 and low_storage_rk4.'),
    ('C115', 'proved', 'C115_steps C115_outputs C115_deck C115_gain C115_single', 'Companion of C75 (rk3) for the fourth order schemes. The CFL bound is a sixth of that of C75.'),
    ('C116', 'proved', 'C116_rk3 C116_rk4 C116_rk4_outputs C116_converge C116_converge_rk3', 'Sensitivity to the initial data; the difference of two runs is a run (C74), to which C75, C114 and C115 apply.'),
    ('C117', 'proved', 'C117_drawn C117_time C117_between C117_other C117_outputs C117_apart', 'The curve is independent of the time of the output, which is right for runs of whole periods such as the default deck (final time 1) and the convergence study (final time 8).'),
    ('C118', 'proved', 'C118_made C118_exists C118_fails C118_twice', 'os.path.exists, os.mkdir and os.makedirs of the Python library are modelled by hand after the source of Python 3.11 (os.py): no links, permissions, races, absolute paths, or . and .. as names. makedir is called nowhere in the repository.'),
]
done = {c[0] for c in CLAIMS}
ids = [json.loads(l)['id'] for l in open('/verif/properties.jsonl')]
json.dump({'claims': [{'property': p, 'status': s, 'theorems': [P + t for t in th.split()], 'note': n}
                      for p, s, th, n in CLAIMS]},
          open('/verif/MANIFEST.json', 'w'), indent=1)
print('missing:', [i for i in ids if i not in done])
