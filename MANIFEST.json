{
 "claims": [
  {
   "property": "C01",
   "status": "proved",
   "theorems": [
    "Verif.C01_scan_prefix_paren",
    "Verif.C01_scan_prefix_foldl"
   ],
   "note": ""
  },
  {
   "property": "C02",
   "status": "proved",
   "theorems": [
    "Verif.C02_scan_suffix_paren",
    "Verif.C02_scan_suffix_foldr"
   ],
   "note": ""
  },
  {
   "property": "C03",
   "status": "proved",
   "theorems": [
    "Verif.C03_scan_schedule_independent"
   ],
   "note": "Same returned list; if op raises, every schedule raises, but which of several failing op calls raises first may differ."
  },
  {
   "property": "C04",
   "status": "proved",
   "theorems": [
    "Verif.C04_scan_empty",
    "Verif.C04_scan_none_identity",
    "Verif.C04_scan_none_identity_reverse",
    "Verif.C04_scan_total",
    "Verif.C04_scan_only_op_errors"
   ],
   "note": ""
  },
  {
   "property": "C05",
   "status": "proved",
   "theorems": [
    "Verif.C05_seqBackward_value",
    "Verif.C05_seqBackward_policy"
   ],
   "note": ""
  },
  {
   "property": "C06",
   "status": "proved",
   "theorems": [
    "Verif.C06_seqForward_optimal",
    "Verif.C06_no_better"
   ],
   "note": ""
  },
  {
   "property": "C07",
   "status": "proved",
   "theorems": [
    "Verif.C07_par_eq_seq_iff",
    "Verif.C07_par_eq_seq_bounded",
    "Verif.C07_empty",
    "Verif.C07_sentinel_jump"
   ],
   "note": "The sentinel condition is necessary and sufficient; C07_sentinel_jump is a witness that the two passes differ beyond it."
  },
  {
   "property": "C08",
   "status": "proved",
   "theorems": [
    "Verif.C08_parForward_eq_seq",
    "Verif.C08_parForward_closed_loop",
    "Verif.C08_wrong_lengths"
   ],
   "note": ""
  },
  {
   "property": "C09",
   "status": "proved",
   "theorems": [
    "Verif.C09_fwdbwd_on_optimal",
    "Verif.C09_fwdbwd2_on_optimal",
    "Verif.C09_unique",
    "Verif.C09_below_sentinel_of_bounded",
    "Verif.C09_ties_no_trajectory"
   ],
   "note": ""
  },
  {
   "property": "C10",
   "status": "proved",
   "theorems": [
    "Verif.C10_batch_visits_all",
    "Verif.C10_batch_optimal",
    "Verif.C10_batch_first",
    "Verif.C10_batch_dummy"
   ],
   "note": ""
  },
  {
   "property": "C100",
   "status": "proved",
   "theorems": [
    "Verif.C100_blkdiag",
    "Verif.C100_condense",
    "Verif.C100_completion",
    "Verif.C100_zero",
    "Verif.C100_convert",
    "Verif.C100_round_trip"
   ],
   "note": "matrix products need equal numbers of items (no broadcasting of a single item); convertUX is claimed for at least one state and tensors of matching lengths; data types are not modelled"
  },
  {
   "property": "C101",
   "status": "proved",
   "theorems": [
    "Verif.C101_seq_backward",
    "Verif.C101_par_backward",
    "Verif.C101_general",
    "Verif.C101_seq_forward",
    "Verif.C101_par_forward",
    "Verif.C101_forward_fail",
    "Verif.C101_fwdbwd",
    "Verif.C101_cost",
    "Verif.C101_convex"
   ],
   "note": "exact arithmetic; factorisations are represented by the inverse; matrix products need equal numbers of items (no broadcasting of a single item); data types are not modelled"
  },
  {
   "property": "C102",
   "status": "proved",
   "theorems": [
    "Verif.C102_vehicle",
    "Verif.C102_linearize",
    "Verif.C102_simulate",
    "Verif.C102_cost",
    "Verif.C102_seq",
    "Verif.C102_par",
    "Verif.C102_convex",
    "Verif.C102_fail"
   ],
   "note": "exact arithmetic; the model functions are parameters that compute the model item by item, which is proved for the vehicle; simplifications of C101"
  },
  {
   "property": "C103",
   "status": "proved",
   "theorems": [
    "Verif.C103_lqe",
    "Verif.C103_lqe_none",
    "Verif.C103_derivatives",
    "Verif.C103_sqp",
    "Verif.C103_items",
    "Verif.C103_quadratic"
   ],
   "note": "exact arithmetic and derivatives; only batch=True, the use in hjb_grid_1d_tf.py; the functions of the program are parameters that compute it item by item"
  },
  {
   "property": "C104",
   "status": "proved",
   "theorems": [
    "Verif.C104_plain",
    "Verif.C104_interp",
    "Verif.C104_single",
    "Verif.C104_symfd",
    "Verif.C104_upwind",
    "Verif.C104_few",
    "Verif.C104_stable",
    "Verif.C104_assoc",
    "Verif.C104_parallel",
    "Verif.C104_pointwise"
   ],
   "note": "exact arithmetic with nan; the functions f, L, LT are parameters that work entry by entry; a gather out of range raises, as on a CPU"
  },
  {
   "property": "C105",
   "status": "proved",
   "theorems": [
    "Verif.C105_rk4",
    "Verif.C105_fun1",
    "Verif.C105_fun2",
    "Verif.C105_lengths",
    "Verif.C105_eval1",
    "Verif.C105_eval2",
    "Verif.C105_zero_iter",
    "Verif.C105_exact"
   ],
   "note": "exact arithmetic, so that tf.range(0, T, dt) has one entry per interval; derivatives are exact; the functions g and L are parameters that work entry by entry"
  },
  {
   "property": "C106",
   "status": "proved",
   "theorems": [
    "Verif.C106_defaults",
    "Verif.C106_seq_backward",
    "Verif.C106_seq_forward",
    "Verif.C106_forward_errors",
    "Verif.C106_seq_fwdbwd",
    "Verif.C106_combine",
    "Verif.C106_par_backward",
    "Verif.C106_par_forward",
    "Verif.C106_par_errors",
    "Verif.C106_forward_same",
    "Verif.C106_par_fwdbwd",
    "Verif.C106_no_steps"
   ],
   "note": "exact arithmetic; times are numbers; parallel passes with at least one block; tf.vectorized_map applies the function to every item and stacks the results"
  },
  {
   "property": "C107",
   "status": "proved",
   "theorems": [
    "Verif.C107_backward",
    "Verif.C107_backward_exact",
    "Verif.C107_forward",
    "Verif.C107_forward_exact",
    "Verif.C107_fwdbwd",
    "Verif.C107_fwdbwd_exact",
    "Verif.C107_pipelines",
    "Verif.C107_no_iterations",
    "Verif.C107_gains"
   ],
   "note": "exact arithmetic; at least one block and step; tf.vectorized_map applies the function to every item and stacks the results"
  },
  {
   "property": "C108",
   "status": "proved",
   "theorems": [
    "Verif.C108_linear",
    "Verif.C108_models",
    "Verif.C108_empty",
    "Verif.C108_passes",
    "Verif.C108_block_V",
    "Verif.C108_converges",
    "Verif.C108_tracking"
   ],
   "note": "exact arithmetic; scalar tensors used only as numbers are numbers"
  },
  {
   "property": "C109",
   "status": "proved",
   "theorems": [
    "Verif.C109_parallel",
    "Verif.C109_fwdbwd",
    "Verif.C109_tracking",
    "Verif.C109_upwind",
    "Verif.C109_upwind_model"
   ],
   "note": "exact arithmetic; clqt_par_forwardpass with zero-order hold is in C110"
  },
  {
   "property": "C11",
   "status": "proved",
   "theorems": [
    "Verif.C11_combineV_least",
    "Verif.C11_combineV_assoc",
    "Verif.C11_combineF"
   ],
   "note": ""
  },
  {
   "property": "C110",
   "status": "proved",
   "theorems": [
    "Verif.C110_steps",
    "Verif.C110_one",
    "Verif.C110_block",
    "Verif.C110_control",
    "Verif.C110_tensors"
   ],
   "note": "exact arithmetic; at least one step in each block"
  },
  {
   "property": "C111",
   "status": "proved",
   "theorems": [
    "Verif.C111_setup",
    "Verif.C111_optimum",
    "Verif.C111_trajectory",
    "Verif.C111_any_problem",
    "Verif.C111_unique_optimum",
    "Verif.C111_tests_pass",
    "Verif.C111_ties_fail"
   ],
   "note": "exact arithmetic; a test returns the conjunction of its assertions"
  },
  {
   "property": "C112",
   "status": "proved",
   "theorems": [
    "Verif.C112_setup",
    "Verif.C112_optimum",
    "Verif.C112_first_argmin",
    "Verif.C112_any_argmin",
    "Verif.C112_tests_pass",
    "Verif.C112_tie"
   ],
   "note": "exact arithmetic; on the functional model of fsc_tf.py, whose tensors C98 treats"
  },
  {
   "property": "C113",
   "status": "proved",
   "theorems": [
    "Verif.C113_par_back",
    "Verif.C113_tf_parback",
    "Verif.C113_tf_sequential",
    "Verif.C113_tf_parfwd",
    "Verif.C113_par_fbscan",
    "Verif.C113_fbscan2_blind"
   ],
   "note": "exact arithmetic"
  },
  {
   "property": "C114",
   "status": "proved",
   "theorems": [
    "Verif.C114_linear",
    "Verif.C114_order4",
    "Verif.C114_sharp",
    "Verif.C114_scalar_tests",
    "Verif.C114_matrix_test",
    "Verif.C114_tests_pass"
   ],
   "note": "exact arithmetic; the tests with time-dependent right hand sides (test_rk4_2, test_rk4_6) are not covered"
  },
  {
   "property": "C115",
   "status": "proved",
   "theorems": [
    "Verif.C115_never_fails",
    "Verif.C115_convex",
    "Verif.C115_trans",
    "Verif.C115_cost",
    "Verif.C115_regulator",
    "Verif.C115_data",
    "Verif.C115_rnd",
    "Verif.C115_unlucky"
   ],
   "note": "exact arithmetic; test_nonstationary_lqr and test_stationary_lqr, which compare with printed numbers, are not covered"
  },
  {
   "property": "C116",
   "status": "proved",
   "theorems": [
    "Verif.C116_disc",
    "Verif.C116_linearize",
    "Verif.C116_jacobians",
    "Verif.C116_simulate"
   ],
   "note": "exact arithmetic; test_cost and test_iterate of test_nlqt_np.py are not covered"
  },
  {
   "property": "C117",
   "status": "proved",
   "theorems": [
    "Verif.C117_never_fails",
    "Verif.C117_convex",
    "Verif.C117_blocks",
    "Verif.C117_regulator",
    "Verif.C117_rnd",
    "Verif.C117_rank",
    "Verif.C117_lucky"
   ],
   "note": "exact arithmetic; broadcasting of vectors of length one left out; for test_condensing_1 with a block length that does not divide the number of steps nothing is claimed"
  },
  {
   "property": "C118",
   "status": "proved",
   "theorems": [
    "Verif.C118_log",
    "Verif.C118_fsc",
    "Verif.C118_par",
    "Verif.C118_gilbert_elliot"
   ],
   "note": "exact arithmetic; test_ge_model1 and test_ref_viterbi, which compare with stored data, are not covered"
  },
  {
   "property": "C119",
   "status": "proved",
   "theorems": [
    "Verif.C119_first",
    "Verif.C119_same",
    "Verif.C119_viterbi",
    "Verif.C119_ties"
   ],
   "note": "exact arithmetic; the sentinel condition is that of C09 and C16"
  },
  {
   "property": "C12",
   "status": "proved",
   "theorems": [
    "Verif.C12_ok_iff",
    "Verif.C12_errors",
    "Verif.C12_T_ignored"
   ],
   "note": ""
  },
  {
   "property": "C120",
   "status": "proved",
   "theorems": [
    "Verif.C120_scans",
    "Verif.C120_first",
    "Verif.C120_unique",
    "Verif.C120_init",
    "Verif.C120_detects",
    "Verif.C120_detects_passes",
    "Verif.C120_detects_init"
   ],
   "note": "exact arithmetic; model and observations are parameters; broadcasting of tensors of different lengths left out; test_viterbi_par_backwardpass_init and the speed tests of the file are not modelled here"
  },
  {
   "property": "C13",
   "status": "proved",
   "theorems": [
    "Verif.C13_ref_isMAP",
    "Verif.C13_ref_values"
   ],
   "note": ""
  },
  {
   "property": "C14",
   "status": "proved",
   "theorems": [
    "Verif.C14_real_log",
    "Verif.C14_real_log_pos",
    "Verif.C14_log_eq_log2",
    "Verif.C14_log_values",
    "Verif.C14_log_isMAP",
    "Verif.C14_log_eq_ref",
    "Verif.C14_zero_differs"
   ],
   "note": "if every path has probability zero the paths may differ (C14_zero_differs)"
  },
  {
   "property": "C15",
   "status": "proved",
   "theorems": [
    "Verif.C15_reduction_exact",
    "Verif.C15_empty"
   ],
   "note": ""
  },
  {
   "property": "C16",
   "status": "proved",
   "theorems": [
    "Verif.C16_par_eq_seq",
    "Verif.C16_path_below_sentinel",
    "Verif.C16_zero_values_differ",
    "Verif.C16_fwdbwd_on_MAP"
   ],
   "note": ""
  },
  {
   "property": "C17",
   "status": "proved",
   "theorems": [
    "Verif.C17_seq",
    "Verif.C17_seq_eq",
    "Verif.C17_par_eq_seq",
    "Verif.C17_fwbwfw",
    "Verif.C17_scan_example"
   ],
   "note": "for every scan primitive meeting IsAssocScan"
  },
  {
   "property": "C18",
   "status": "proved",
   "theorems": [
    "Verif.C18_optimal",
    "Verif.C18_excess",
    "Verif.C18_value",
    "Verif.C18_tail"
   ],
   "note": "only needs symmetric weights and a completing backward pass"
  },
  {
   "property": "C19",
   "status": "proved",
   "theorems": [
    "Verif.C19_seq_psd",
    "Verif.C19_par_psd",
    "Verif.C19_combinations"
   ],
   "note": ""
  },
  {
   "property": "C20",
   "status": "proved",
   "theorems": [
    "Verif.C20_assoc",
    "Verif.C20_psd",
    "Verif.C20_psd_assoc",
    "Verif.C20_fc_compose",
    "Verif.C20_fc_assoc"
   ],
   "note": ""
  },
  {
   "property": "C21",
   "status": "proved",
   "theorems": [
    "Verif.C21_par_eq_seq",
    "Verif.C21_convex",
    "Verif.C21_empty"
   ],
   "note": ""
  },
  {
   "property": "C22",
   "status": "proved",
   "theorems": [
    "Verif.C22_par_eq_seq",
    "Verif.C22_empty",
    "Verif.C22_meaning"
   ],
   "note": ""
  },
  {
   "property": "C23",
   "status": "proved",
   "theorems": [
    "Verif.C23_fwdbwd",
    "Verif.C23_fwdbwd2",
    "Verif.C23_convex",
    "Verif.C23_empty"
   ],
   "note": ""
  },
  {
   "property": "C24",
   "status": "proved",
   "theorems": [
    "Verif.C24_batch_eq_seq",
    "Verif.C24_convex",
    "Verif.C24_empty",
    "Verif.C24_broadcast_differs",
    "Verif.C24_shape_error"
   ],
   "note": "needs the same output dimension at every step and at the end; otherwise batchSolution raises or broadcasts"
  },
  {
   "property": "C25",
   "status": "proved",
   "theorems": [
    "Verif.C25_transformed",
    "Verif.C25_differ"
   ],
   "note": "needs U invertible and a constant output dimension, without which the code raises although seqBackwardPass completes"
  },
  {
   "property": "C26",
   "status": "proved",
   "theorems": [
    "Verif.C26_seq_backward",
    "Verif.C26_seq_forward",
    "Verif.C26_par_forward",
    "Verif.C26_par_backward",
    "Verif.C26_convex",
    "Verif.C26_optimal"
   ],
   "note": ""
  },
  {
   "property": "C27",
   "status": "proved",
   "theorems": [
    "Verif.C27_iter",
    "Verif.C27_double",
    "Verif.C27_convex",
    "Verif.C27_zero"
   ],
   "note": ""
  },
  {
   "property": "C28",
   "status": "proved",
   "theorems": [
    "Verif.C28_solve",
    "Verif.C28_solve_par",
    "Verif.C28_negative_U"
   ],
   "note": "the conversion chain returns exactly the general result and completes iff all U are positive definite and the general recursion completes; C28_negative_U is a witness where only the conversion fails"
  },
  {
   "property": "C29",
   "status": "proved",
   "theorems": [
    "Verif.C29_ok_iff",
    "Verif.C29_errors",
    "Verif.C29_T_ignored",
    "Verif.C29_object",
    "Verif.C29_object_of"
   ],
   "note": "an empty list for F, L or X gives IndexError instead of ValueError; a negative T is accepted and gives an empty horizon; C29_object ties the constructor to the LQT type of the other theorems"
  },
  {
   "property": "C30",
   "status": "proved",
   "theorems": [
    "Verif.C30_seq_backward",
    "Verif.C30_par_backward",
    "Verif.C30_seq_forward",
    "Verif.C30_par_forward",
    "Verif.C30_forward_empty",
    "Verif.C30_fwdbwd",
    "Verif.C30_cost",
    "Verif.C30_convex"
   ],
   "note": "given the associative scan contract; C30_convex adds completion and optimality"
  },
  {
   "property": "C31",
   "status": "proved",
   "theorems": [
    "Verif.C31_dynamics_cost",
    "Verif.C31_controls",
    "Verif.C31_completion",
    "Verif.C31_errors",
    "Verif.C31_ignored"
   ],
   "note": "when condensing completes; C31_completion says exactly when it does; the costs also differ by the weight of the padding controls"
  },
  {
   "property": "C32",
   "status": "proved",
   "theorems": [
    "Verif.C32_optimal",
    "Verif.C32_same",
    "Verif.C32_convex",
    "Verif.C32_completes",
    "Verif.C32_limitation"
   ],
   "note": "C32_limitation is a convex problem for which condense raises LinAlgError"
  },
  {
   "property": "C33",
   "status": "proved",
   "theorems": [
    "Verif.C33_linearize",
    "Verif.C33_fixed_point",
    "Verif.C33_affine"
   ],
   "note": "C33_linearize also says exactly when linearize raises IndexError"
  },
  {
   "property": "C34",
   "status": "proved",
   "theorems": [
    "Verif.C34_methods",
    "Verif.C34_agree",
    "Verif.C34_empty"
   ],
   "note": "C34_empty: for an empty horizon the sequential method returns and the parallel ones raise IndexError"
  },
  {
   "property": "C35",
   "status": "proved",
   "theorems": [
    "Verif.C35_eq",
    "Verif.C35_errors",
    "Verif.C35_completes",
    "Verif.C35_zoh",
    "Verif.C35_steps"
   ],
   "note": "C35_zoh is the witness for u_zoh=True"
  },
  {
   "property": "C36",
   "status": "proved",
   "theorems": [
    "Verif.C36_np",
    "Verif.C36_tf",
    "Verif.C36_layout"
   ],
   "note": ""
  },
  {
   "property": "C37",
   "status": "proved",
   "theorems": [
    "Verif.C37_exact",
    "Verif.C37_progress",
    "Verif.C37_blocks",
    "Verif.C37_completes",
    "Verif.C37_default_inexact"
   ],
   "note": "C37_default_inexact: the default niter=steps is not enough for 4 blocks of 2 steps"
  },
  {
   "property": "C38",
   "status": "proved",
   "theorems": [
    "Verif.C38_exact",
    "Verif.C38_progress",
    "Verif.C38_blocks",
    "Verif.C38_completes",
    "Verif.C38_errors",
    "Verif.C38_default_inexact"
   ],
   "note": "on blocks*steps gains; for both values of u_zoh"
  },
  {
   "property": "C39",
   "status": "proved",
   "theorems": [
    "Verif.C39_exact",
    "Verif.C39_progress",
    "Verif.C39_blocks",
    "Verif.C39_completes",
    "Verif.C39_default_inexact"
   ],
   "note": ""
  },
  {
   "property": "C40",
   "status": "proved",
   "theorems": [
    "Verif.C40_seq",
    "Verif.C40_par_lists",
    "Verif.C40_par_blocks",
    "Verif.C40_par_boundary",
    "Verif.C40_par_last",
    "Verif.C40_gain_mismatch",
    "Verif.C40_inexact"
   ],
   "note": "C40_gain_mismatch and C40_inexact are witnesses for the block starts"
  },
  {
   "property": "C41",
   "status": "proved",
   "theorems": [
    "Verif.C41_affine",
    "Verif.C41_simpson",
    "Verif.C41_cubic",
    "Verif.C41_quartic",
    "Verif.C41_taylor",
    "Verif.C41_forms",
    "Verif.C41_errors"
   ],
   "note": ""
  },
  {
   "property": "C42",
   "status": "proved",
   "theorems": [
    "Verif.C42_bounds",
    "Verif.C42_nan",
    "Verif.C42_nan_one",
    "Verif.C42_boundary",
    "Verif.C42_parabola",
    "Verif.C42_loops",
    "Verif.C42_tf",
    "Verif.C42_passes",
    "Verif.C42_tf_passes",
    "Verif.C42_one_block",
    "Verif.C42_plain",
    "Verif.C42_undershoot",
    "Verif.C42_not_assoc",
    "Verif.C42_par_ne_seq",
    "Verif.C42_not_monotone"
   ],
   "note": "bounds and exactness of the interpolated combination, nan characterised, plain passes optimal and equal, rational witnesses for non-associativity and for different parallel and sequential results"
  },
  {
   "property": "C43",
   "status": "proved",
   "theorems": [
    "Verif.C43_errors",
    "Verif.C43_tf",
    "Verif.C43_const",
    "Verif.C43_bellman",
    "Verif.C43_monotone",
    "Verif.C43_stable",
    "Verif.C43_consistent",
    "Verif.C43_outward",
    "Verif.C43_no_cfl",
    "Verif.C43_symfd_not_monotone"
   ],
   "note": "the upwind step is the dynamic programming step of a Markov chain under the conditions; witnesses show that each condition is needed"
  },
  {
   "property": "C44",
   "status": "proved",
   "theorems": [
    "Verif.C44_kkt",
    "Verif.C44_errors",
    "Verif.C44_optimal",
    "Verif.C44_unique",
    "Verif.C44_nonsingular"
   ],
   "note": ""
  },
  {
   "property": "C45",
   "status": "proved",
   "theorems": [
    "Verif.C45_basic",
    "Verif.C45_damped",
    "Verif.C45_zero",
    "Verif.C45_run"
   ],
   "note": "the damped update is undefined for s = 0 (C45_zero)"
  },
  {
   "property": "C46",
   "status": "proved",
   "theorems": [
    "Verif.C46_search",
    "Verif.C46_leap",
    "Verif.C46_loop",
    "Verif.C46_completes"
   ],
   "note": "C46_leap is a witness for a full step that increases the merit function"
  },
  {
   "property": "C47",
   "status": "proved",
   "theorems": [
    "Verif.C47_loop",
    "Verif.C47_tf",
    "Verif.C47_newton",
    "Verif.C47_residual",
    "Verif.C47_fixed",
    "Verif.C47_qp",
    "Verif.C47_criterion"
   ],
   "note": "C47_criterion is the negation for the stopping criterion"
  },
  {
   "property": "C48",
   "status": "proved",
   "theorems": [
    "Verif.C48_errors",
    "Verif.C48_compose",
    "Verif.C48_zoh",
    "Verif.C48_covariance",
    "Verif.C48_defaults"
   ],
   "note": "expm is the matrix exponential; float dtype of F"
  },
  {
   "property": "C49",
   "status": "proved",
   "theorems": [
    "Verif.C49_gilbert_elliot",
    "Verif.C49_text_Po",
    "Verif.C49_text_Pi",
    "Verif.C49_text_prior",
    "Verif.C49_text_first_Pi",
    "Verif.C49_text_first_prior",
    "Verif.C49_text_errors",
    "Verif.C49_noisy_text"
   ],
   "note": "exact arithmetic; error probability in (0,1], order at least one for the transition matrix"
  },
  {
   "property": "C50",
   "status": "proved",
   "theorems": [
    "Verif.C50_enumeration",
    "Verif.C50_bijective",
    "Verif.C50_roundtrip",
    "Verif.C50_last_character",
    "Verif.C50_repetition"
   ],
   "note": "the index is recovered from the text only for an alphabet without repetitions"
  },
  {
   "property": "C51",
   "status": "proved",
   "theorems": [
    "Verif.C51_getFSC",
    "Verif.C51_parallel",
    "Verif.C51_genData"
   ],
   "note": "the random numbers are arbitrary"
  },
  {
   "property": "C52",
   "status": "proved",
   "theorems": [
    "Verif.C52_jacobians",
    "Verif.C52_tf"
   ],
   "note": "over the reals"
  },
  {
   "property": "C53",
   "status": "proved",
   "theorems": [
    "Verif.C53_numpy",
    "Verif.C53_tf",
    "Verif.C53_tf_differs"
   ],
   "note": "over the reals; the TensorFlow version differs at negative grid points"
  },
  {
   "property": "C54",
   "status": "proved",
   "theorems": [
    "Verif.C54_levels",
    "Verif.C54_enough",
    "Verif.C54_tight",
    "Verif.C54_fsc",
    "Verif.C54_fsc_one",
    "Verif.C54_viterbi",
    "Verif.C54_viterbi_one",
    "Verif.C54_hjb",
    "Verif.C54_lqt",
    "Verif.C54_default"
   ],
   "note": "requirement as documented by the library; the violation at max_parallel = 1 is proved for the FSC, Viterbi and HJB code"
  },
  {
   "property": "C55",
   "status": "proved",
   "theorems": [
    "Verif.C55_backward",
    "Verif.C55_terminal",
    "Verif.C55_forward",
    "Verif.C55_trajectory",
    "Verif.C55_superposition"
   ],
   "note": "over the real numbers, derivatives entry by entry"
  },
  {
   "property": "C56",
   "status": "proved",
   "theorems": [
    "Verif.C56_values",
    "Verif.C56_trajectory"
   ],
   "note": ""
  },
  {
   "property": "C57",
   "status": "proved",
   "theorems": [
    "Verif.C57_optimal",
    "Verif.C57_gap"
   ],
   "note": "about exact solutions of the ODEs; discretisation is not covered"
  },
  {
   "property": "C58",
   "status": "proved",
   "theorems": [
    "Verif.C58_slope",
    "Verif.C58_descent",
    "Verif.C58_search",
    "Verif.C58_ascent"
   ],
   "note": "C58_ascent is the witness for large multipliers"
  },
  {
   "property": "C59",
   "status": "proved",
   "theorems": [
    "Verif.C59_parametrisations",
    "Verif.C59_errors",
    "Verif.C59_tf",
    "Verif.C59_integrator",
    "Verif.C59_grid",
    "Verif.C59_convex"
   ],
   "note": "exact arithmetic; the time vector of arange is taken as i*dt"
  },
  {
   "property": "C60",
   "status": "proved",
   "theorems": [
    "Verif.C60_convergence"
   ],
   "note": "over the reals"
  },
  {
   "property": "C61",
   "status": "proved",
   "theorems": [
    "Verif.C61_fwdbwd",
    "Verif.C61_fwdbwd_errors",
    "Verif.C61_block_offset",
    "Verif.C61_block_cost",
    "Verif.C61_combine"
   ],
   "note": "the integration over the interval of the block is shown exactly where Runge-Kutta is Simpson's rule"
  },
  {
   "property": "C62",
   "status": "proved",
   "theorems": [
    "Verif.C62_seq_backward",
    "Verif.C62_seq_backward_np",
    "Verif.C62_forward",
    "Verif.C62_optimal",
    "Verif.C62_elem",
    "Verif.C62_elem_differ",
    "Verif.C62_par_eq_seq_iff",
    "Verif.C62_par_eq_seq_bounded",
    "Verif.C62_par_differ",
    "Verif.C62_fwdbwd",
    "Verif.C62_fwdbwd_unique",
    "Verif.C62_fwdbwd_errors"
   ],
   "note": "tf.argmin is any minimiser, the scan any IsAssocScan"
  },
  {
   "property": "C63",
   "status": "proved",
   "theorems": [
    "Verif.C63_seq",
    "Verif.C63_empty",
    "Verif.C63_par",
    "Verif.C63_par_bwfwbw"
   ],
   "note": "bounded negative log probabilities"
  },
  {
   "property": "C64",
   "status": "proved",
   "theorems": [
    "Verif.C64_seq_bw",
    "Verif.C64_seq_bw_zero",
    "Verif.C64_par_bw",
    "Verif.C64_fw",
    "Verif.C64_par_seq_fw",
    "Verif.C64_fwdbwd"
   ],
   "note": "any ordered field"
  },
  {
   "property": "C65",
   "status": "proved",
   "theorems": [
    "Verif.C65_exact",
    "Verif.C65_total",
    "Verif.C65_optimal",
    "Verif.C65_conjugate"
   ],
   "note": "real arithmetic, linalg.expm is the matrix exponential"
  },
  {
   "property": "C66",
   "status": "proved",
   "theorems": [
    "Verif.C66_forward"
   ],
   "note": "real arithmetic, linalg.expm is the matrix exponential"
  },
  {
   "property": "C67",
   "status": "proved",
   "theorems": [
    "Verif.C67_methods",
    "Verif.C67_par_methods",
    "Verif.C67_weight",
    "Verif.C67_lengths",
    "Verif.C67_order",
    "Verif.C67_division"
   ],
   "note": "exceptions as values"
  },
  {
   "property": "C68",
   "status": "proved",
   "theorems": [
    "Verif.C68_descent",
    "Verif.C68_fixed",
    "Verif.C68_vehicle",
    "Verif.C68_increase"
   ],
   "note": "real arithmetic; the Jacobians are assumed to be the derivative of the model along the trajectory"
  },
  {
   "property": "C69",
   "status": "proved",
   "theorems": [
    "Verif.C69_seq",
    "Verif.C69_par",
    "Verif.C69_convex",
    "Verif.C69_cost"
   ],
   "note": "any ordered field, exact arithmetic"
  },
  {
   "property": "C70",
   "status": "proved",
   "theorems": [
    "Verif.C70_np",
    "Verif.C70_convex",
    "Verif.C70_completion",
    "Verif.C70_dynamics_cost",
    "Verif.C70_convert",
    "Verif.C70_solve",
    "Verif.C70_same",
    "Verif.C70_complete",
    "Verif.C70_errors",
    "Verif.C70_indefinite"
   ],
   "note": "any ordered field, exact arithmetic; problems with at least one step"
  },
  {
   "property": "C71",
   "status": "proved",
   "theorems": [
    "Verif.C71_defaults",
    "Verif.C71_seq_backward",
    "Verif.C71_seq_forward",
    "Verif.C71_seq_fwdbwd",
    "Verif.C71_combine",
    "Verif.C71_par_backward",
    "Verif.C71_par_complete",
    "Verif.C71_par_forward",
    "Verif.C71_forward_same",
    "Verif.C71_par_fwdbwd",
    "Verif.C71_errors",
    "Verif.C71_indefinite"
   ],
   "note": "any ordered field, exact arithmetic; default terminal value in the parallel passes"
  },
  {
   "property": "C72",
   "status": "proved",
   "theorems": [
    "Verif.C72_backward",
    "Verif.C72_backward_exact",
    "Verif.C72_backward_blocks",
    "Verif.C72_forward",
    "Verif.C72_forward_exact",
    "Verif.C72_fwdbwd",
    "Verif.C72_fwdbwd_exact",
    "Verif.C72_pipelines",
    "Verif.C72_no_iterations",
    "Verif.C72_gains",
    "Verif.C72_gains_numpy"
   ],
   "note": "any ordered field, exact arithmetic; blocks and steps positive"
  },
  {
   "property": "C73",
   "status": "proved",
   "theorems": [
    "Verif.C73_init",
    "Verif.C73_ode",
    "Verif.C73_x0",
    "Verif.C73_energy",
    "Verif.C73_getLQT",
    "Verif.C73_stable",
    "Verif.C73_optimal"
   ],
   "note": "real numbers, exact matrix exponential; the plotting methods are not modelled"
  },
  {
   "property": "C74",
   "status": "proved",
   "theorems": [
    "Verif.C74_genData",
    "Verif.C74_errors",
    "Verif.C74_optimal",
    "Verif.C74_continuous"
   ],
   "note": "real numbers, exact matrix exponential; the random numbers are a parameter"
  },
  {
   "property": "C75",
   "status": "proved",
   "theorems": [
    "Verif.C75_genData",
    "Verif.C75_getLQT",
    "Verif.C75_guess_zero",
    "Verif.C75_guess",
    "Verif.C75_guess_axis",
    "Verif.C75_iterations"
   ],
   "note": "real numbers; stepping and number of points are natural numbers"
  },
  {
   "property": "C76",
   "status": "proved",
   "theorems": [
    "Verif.C76_ad",
    "Verif.C76_crit",
    "Verif.C76_crit_tf",
    "Verif.C76_exact1",
    "Verif.C76_exact2",
    "Verif.C76_order",
    "Verif.C76_methods",
    "Verif.C76_degenerate",
    "Verif.C76_grid",
    "Verif.C76_tf",
    "Verif.C76_tf_zero"
   ],
   "note": "real numbers; automatic differentiation is the derivative; a singular system is an error value of the entry"
  },
  {
   "property": "C77",
   "status": "proved",
   "theorems": [
    "Verif.C77_models",
    "Verif.C77_grid",
    "Verif.C77_necessary",
    "Verif.C77_not_monotone",
    "Verif.C77_upwind",
    "Verif.C77_symfd",
    "Verif.C77_symfd_even",
    "Verif.C77_value",
    "Verif.C77_error",
    "Verif.C77_blocks",
    "Verif.C77_stuck",
    "Verif.C77_shooting"
   ],
   "note": "elements of an ordered field for the finite difference passes, real numbers for the exact values"
  },
  {
   "property": "C78",
   "status": "proved",
   "theorems": [
    "Verif.C78_draw",
    "Verif.C78_data",
    "Verif.C78_distribution",
    "Verif.C78_err",
    "Verif.C78_maxdiff",
    "Verif.C78_short",
    "Verif.C78_blind",
    "Verif.C78_gilbert_elliot"
   ],
   "note": "uniform random numbers are a parameter; exact arithmetic; time measurement omitted"
  },
  {
   "property": "C79",
   "status": "proved",
   "theorems": [
    "Verif.C79_monotone",
    "Verif.C79_rate",
    "Verif.C79_rate_double",
    "Verif.C79_converges",
    "Verif.C79_stabilisable",
    "Verif.C79_riccati",
    "Verif.C79_value",
    "Verif.C79_double",
    "Verif.C79_definite",
    "Verif.C79_stable",
    "Verif.C79_dare",
    "Verif.C79_disagree"
   ],
   "note": "exact arithmetic; scipy's Riccati solver is a parameter, C79_dare assumes what its documentation says"
  },
  {
   "property": "C80",
   "status": "proved",
   "theorems": [
    "Verif.C80_convert",
    "Verif.C80_convert_gen",
    "Verif.C80_pipelines",
    "Verif.C80_speed",
    "Verif.C80_logspace",
    "Verif.C80_tracking_item",
    "Verif.C80_mass_item",
    "Verif.C80_tracking",
    "Verif.C80_tracking_fits",
    "Verif.C80_mass",
    "Verif.C80_mass_2",
    "Verif.C80_errors",
    "Verif.C80_lossy"
   ],
   "note": "exact arithmetic; times omitted; np.logspace exact, so that astype(int) does not lose a unit by rounding"
  },
  {
   "property": "C81",
   "status": "proved",
   "theorems": [
    "Verif.C81_convert",
    "Verif.C81_pipelines",
    "Verif.C81_one",
    "Verif.C81_item",
    "Verif.C81_game",
    "Verif.C81_ties",
    "Verif.C81_speed",
    "Verif.C81_errors"
   ],
   "note": "exact arithmetic; times omitted; transitions fit into int32; at least one lane"
  },
  {
   "property": "C82",
   "status": "proved",
   "theorems": [
    "Verif.C82_iterations",
    "Verif.C82_speed",
    "Verif.C82_item",
    "Verif.C82_first",
    "Verif.C82_runs",
    "Verif.C82_generator",
    "Verif.C82_errors"
   ],
   "note": "exact arithmetic; times omitted; numpy iterations as in C34/C69/C75"
  },
  {
   "property": "C83",
   "status": "proved",
   "theorems": [
    "Verif.C83_levels",
    "Verif.C83_maxdiff",
    "Verif.C83_seq",
    "Verif.C83_parareal",
    "Verif.C83_parareal_blocks",
    "Verif.C83_par",
    "Verif.C83_one_block",
    "Verif.C83_errors",
    "Verif.C83_tracking",
    "Verif.C83_par_witness",
    "Verif.C83_parareal_witness",
    "Verif.C83_start"
   ],
   "note": "exact arithmetic; times omitted; statements on the parallel passes assume that they complete (see C71_par_complete)"
  },
  {
   "property": "C84",
   "status": "proved",
   "theorems": [
    "Verif.C84_model",
    "Verif.C84_upwind",
    "Verif.C84_errors",
    "Verif.C84_assoc",
    "Verif.C84_assoc_tests",
    "Verif.C84_affine",
    "Verif.C84_velocity",
    "Verif.C84_blocks"
   ],
   "note": "exact arithmetic; times omitted; a block value function that is not finite ends the run with an error in the model"
  },
  {
   "property": "C85",
   "status": "proved",
   "theorems": [
    "Verif.C85_exists",
    "Verif.C85_backward",
    "Verif.C85_control",
    "Verif.C85_parallel_forward",
    "Verif.C85_tf"
   ],
   "note": "exact arithmetic; no rate is given"
  },
  {
   "property": "C86",
   "status": "proved",
   "theorems": [
    "Verif.C86_backward",
    "Verif.C86_control",
    "Verif.C86_tf_backward",
    "Verif.C86_tf_complete",
    "Verif.C86_speed"
   ],
   "note": "exact arithmetic; the number of blocks is fixed while the number of steps grows; no rate is given"
  },
  {
   "property": "C87",
   "status": "proved",
   "theorems": [
    "Verif.C87_control",
    "Verif.C87_tf",
    "Verif.C87_speed"
   ],
   "note": "exact arithmetic; the number of blocks is fixed while the number of steps grows; no rate is given"
  },
  {
   "property": "C88",
   "status": "proved",
   "theorems": [
    "Verif.C88_parse",
    "Verif.C88_int",
    "Verif.C88_mask",
    "Verif.C88_no_files",
    "Verif.C88_usage",
    "Verif.C88_names_linear",
    "Verif.C88_names_contlin"
   ],
   "note": "ASCII arguments; float() is a parameter; the measured run times are not modelled and writing a file does not fail"
  },
  {
   "property": "C89",
   "status": "proved",
   "theorems": [
    "Verif.C89_tracking",
    "Verif.C89_mass",
    "Verif.C89_linear_fails",
    "Verif.C89_finite",
    "Verif.C89_finite_fails",
    "Verif.C89_nonlinear"
   ],
   "note": "exact arithmetic; the run-time column is omitted"
  },
  {
   "property": "C90",
   "status": "proved",
   "theorems": [
    "Verif.C90_contlin",
    "Verif.C90_contlin_sequential",
    "Verif.C90_contlin_model",
    "Verif.C90_nonlin"
   ],
   "note": "exact arithmetic; the run-time column is omitted; the nonlinear script is split into cases on the outcome of the direct shooting of the velocity model"
  },
  {
   "property": "C91",
   "status": "proved",
   "theorems": [
    "Verif.C91_viterbi",
    "Verif.C91_text_error",
    "Verif.C91_text",
    "Verif.C91_text_chars",
    "Verif.C91_text_steps"
   ],
   "note": "exact arithmetic; the run-time column is omitted; the two texts are parameters, since the files are read from disk"
  },
  {
   "property": "C92",
   "status": "proved",
   "theorems": [
    "Verif.C92_tracking",
    "Verif.C92_mass",
    "Verif.C92_finite_nonlinear",
    "Verif.C92_viterbi",
    "Verif.C92_text",
    "Verif.C92_text_steps",
    "Verif.C92_nonlin",
    "Verif.C92_nonlin_upwind",
    "Verif.C92_ctracking",
    "Verif.C92_repeat",
    "Verif.C92_lost_viterbi",
    "Verif.C92_lost_mass",
    "Verif.C92_lost_ctracking",
    "Verif.C92_lost_text",
    "Verif.C92_distinct"
   ],
   "note": "exact arithmetic; the run-time column is omitted; splitting of the command lines at blanks is done in the model; res exists; whether the direct shooting and the later continuous-time tests succeed is left open, both outcomes are described"
  },
  {
   "property": "C93",
   "status": "proved",
   "theorems": [
    "Verif.C93_errors",
    "Verif.C93_raises",
    "Verif.C93_blind",
    "Verif.C93_model",
    "Verif.C93_demo",
    "Verif.C93_linear"
   ],
   "note": "exact real arithmetic; scipy's Riccati solver is a parameter that meets its documentation; the plot is the list of its points"
  },
  {
   "property": "C94",
   "status": "proved",
   "theorems": [
    "Verif.C94_coefficients",
    "Verif.C94_least_squares",
    "Verif.C94_recovery",
    "Verif.C94_cell",
    "Verif.C94_rounding",
    "Verif.C94_sequential",
    "Verif.C94_compare",
    "Verif.C94_parallel",
    "Verif.C94_notebook",
    "Verif.C94_par_speed"
   ],
   "note": "exact real arithmetic; random numbers are a parameter; plots, number formatting and run times are not modelled; whether the parallel cells complete for 500 blocks of 10 steps is left open, both outcomes are described"
  },
  {
   "property": "C95",
   "status": "proved",
   "theorems": [
    "Verif.C95_sequential",
    "Verif.C95_numpy",
    "Verif.C95_compare",
    "Verif.C95_compare_tf",
    "Verif.C95_compare_ge",
    "Verif.C95_tensorflow",
    "Verif.C95_ties",
    "Verif.C95_viterbi",
    "Verif.C95_gilbert_elliot"
   ],
   "note": "exact arithmetic; random numbers are a parameter; plots and number formatting are not modelled; the recorded difference 7e-14 of the value functions is rounding"
  },
  {
   "property": "C96",
   "status": "proved",
   "theorems": [
    "Verif.C96_sequential",
    "Verif.C96_differences",
    "Verif.C96_compare",
    "Verif.C96_times",
    "Verif.C96_speed",
    "Verif.C96_mass"
   ],
   "note": "exact arithmetic, so the float64 and float32 cells coincide; random numbers are a parameter; run times and plots other than their data are not modelled"
  },
  {
   "property": "C97",
   "status": "proved",
   "theorems": [
    "Verif.C97_data",
    "Verif.C97_numpy",
    "Verif.C97_first",
    "Verif.C97_tensorflow",
    "Verif.C97_fixed"
   ],
   "note": "exact arithmetic; whether the ten iterations of the notebook reach a fixed point exactly is not claimed, only what a fixed point means; plots other than the headings are not modelled"
  },
  {
   "property": "C98",
   "status": "proved",
   "theorems": [
    "Verif.C98_convert",
    "Verif.C98_combine",
    "Verif.C98_elements",
    "Verif.C98_index",
    "Verif.C98_sequential",
    "Verif.C98_parallel",
    "Verif.C98_empty",
    "Verif.C98_optimal"
   ],
   "note": "integer tensors hold natural numbers; data types are not modelled; tf.scan and scan_associative work on the items along the first axis"
  },
  {
   "property": "C99",
   "status": "proved",
   "theorems": [
    "Verif.C99_elements",
    "Verif.C99_sequential",
    "Verif.C99_parallel",
    "Verif.C99_index",
    "Verif.C99_control",
    "Verif.C99_empty",
    "Verif.C99_map"
   ],
   "note": "integer tensors hold natural numbers; data types are not modelled; gather raises for indices out of range, as TensorFlow does on the CPU"
  }
 ]
}