{"id": "C01", "title": "Simulated parallel scan returns exactly the in-order prefix combinations", "statement": "my_assoc_scan(op, a) returns a list of len(a) items whose k-th item is an in-order parenthesisation of a[0],...,a[k] under op (no element dropped, duplicated or reordered), for ANY op; hence, when op is associative on the values that occur, it is the left fold op(...op(op(a[0],a[1]),a[2])...,a[k]).", "quantifier": "for every non-empty list length (power of two or not), every element type, every binary operation, every index k", "why_tests_cant": "tests check a few lengths with one or two operators; the up/down sweep index arithmetic is length dependent and padding only occurs for non powers of two", "anchors": ["parallel_control/my_assoc_scan.py:my_assoc_scan"]}
{"id": "C02", "title": "Reverse scan returns suffix combinations in the original operand order", "statement": "my_assoc_scan(op, a, reverse=True)[k] is an in-order parenthesisation of a[k],...,a[n-1] under op; for associative op it is the right fold a[k] op (a[k+1] op (... op a[n-1])). Operands are never swapped, so it is right for non-commutative op.", "quantifier": "for every non-empty list, every operation (commutative or not), every index", "why_tests_cant": "operand order errors only show for non-commutative operators and particular lengths", "anchors": ["parallel_control/my_assoc_scan.py:my_assoc_scan"]}
{"id": "C03", "title": "The loops marked parallel may run in any order", "statement": "Executing the iterations of each inner 'parallel loop' of my_assoc_scan (up pass level, down pass level, extra pass) in any order gives the same returned list as the sequential order, for any op whatsoever.", "quantifier": "for every schedule (permutation) of each inner loop, every list, every op", "why_tests_cant": "the simulated code only ever runs one order; the claim in the comments is about all schedules", "anchors": ["parallel_control/my_assoc_scan.py:my_assoc_scan"]}
{"id": "C04", "title": "Scan edge behaviour: empty input, None entries and operator failures", "statement": "my_assoc_scan raises ValueError on the empty list; a None entry behaves as an identity element (it is skipped, leading Nones stay None); a scan whose op never fails on the values reachable from the inputs never fails; the output length always equals the input length.", "quantifier": "for every list with or without None entries, every op", "why_tests_cant": "which entries are combined depends on the positions of None and of padding, a combinatorial family", "anchors": ["parallel_control/my_assoc_scan.py:my_assoc_scan"]}
{"id": "C05", "title": "Finite-state backward pass computes the optimal cost-to-go", "statement": "FSC.seqBackwardPass returns V_list with V_list[k][x] equal to the least total cost sum L + LT over all control sequences u_k..u_{T-1} started in x at step k, and u_list[k][x] is the smallest-index control attaining it.", "quantifier": "for every horizon T, every number of states and controls, all transition tables, all costs, all k and x", "why_tests_cant": "optimality quantifies over udim^T control sequences for every model; tests only compare two programs on one 9-step model", "anchors": ["parallel_control/fsc_np.py:FSC.seqBackwardPass"]}
{"id": "C06", "title": "Finite-state forward pass attains the optimum and is a genuine trajectory", "statement": "For the policy returned by seqBackwardPass, FSC.seqForwardPass(x0,u_list) returns controls and states of lengths T and T+1 which obey x_{k+1}=f[k][x_k,u_k], FSC.seqSimulation on the controls reproduces the states, and FSC.cost of them equals V_list[0][x0], which no other control sequence beats.", "quantifier": "for every model, every horizon, every initial state", "why_tests_cant": "quantifies over all competitor control sequences and all models", "anchors": ["parallel_control/fsc_np.py:FSC.seqForwardPass", "parallel_control/fsc_np.py:FSC.seqSimulation", "parallel_control/fsc_np.py:FSC.cost"]}
{"id": "C07", "title": "Parallel finite-state backward pass equals the sequential one (below the 1e20 sentinel)", "statement": "FSC.parBackwardPass returns exactly the same u_list and V_list as FSC.seqBackwardPass if and only if (for V_list) no cost-to-go exceeds 1e20 plus the cost-to-go of some state one step later; in particular whenever |L|,|LT| <= B with (2T+1)B <= 1e20. Without such a bound the two genuinely differ (illegal 'jumps' at cost 1e20 are taken).", "quantifier": "for every model, horizon T>=1, state and step", "why_tests_cant": "the failing region is reached only with astronomically large or infinite costs, and the agreement claim is over all models", "anchors": ["parallel_control/fsc_np.py:FSC.parBackwardPass", "parallel_control/fsc_np.py:FSC.parBackwardPass_init", "parallel_control/fsc_np.py:FSC.parBackwardPass_extract", "parallel_control/fsc_np.py:_FSC_NP_INFTY"]}
{"id": "C08", "title": "Parallel finite-state forward pass equals the sequential one for any policy", "statement": "FSC.parForwardPass(x0,u_list) returns exactly seqForwardPass(x0,u_list) for any policy tables (optimal or not) of length T, ties and all.", "quantifier": "for every model, T>=1, initial state, policy list", "why_tests_cant": "universal over policies and models; function-composition operand order matters", "anchors": ["parallel_control/fsc_np.py:FSC.parForwardPass"]}
{"id": "C09", "title": "Forward value-function passes return states lying on optimal trajectories", "statement": "Every state x_k returned by parFwdBwdPass / parFwdBwdPass2 (given the backward values, costs below the sentinel) lies on some optimal trajectory from x0; if the optimal state trajectory is unique the returned list is that trajectory and equals seqForwardPass's. With ties the returned states need not form a trajectory at all (the states picked at successive steps may belong to different optimal trajectories).", "quantifier": "for every model, horizon, initial state, step", "why_tests_cant": "ties are usually removed from tests by adding noise ('To make solution unique'), so the failing case is never exercised", "anchors": ["parallel_control/fsc_np.py:FSC.parFwdBwdPass", "parallel_control/fsc_np.py:FSC.parFwdBwdPass2"]}
{"id": "C10", "title": "Brute-force solution visits every control sequence once and returns the global optimum", "statement": "FSC.batch_solution terminates after exactly udim^T evaluations, one per control sequence, and if some sequence costs less than 1e10 it returns controls, states and cost of a cheapest sequence (cost equal to V_list[0][x0]); if all cost at least 1e10 it returns the dummy answer (zeros, [], 1e10).", "quantifier": "for every model, T>=1, initial state", "why_tests_cant": "termination and exhaustiveness of the odometer is a statement for all T and udim", "anchors": ["parallel_control/fsc_np.py:FSC.batch_solution"]}
{"id": "C11", "title": "The finite-state combination operators are associative and have the claimed meaning", "statement": "combine_V(Vij,Vjk)[i,k] is the least Vij[i,j]+Vjk[j,k], it is associative; combine_f is function composition in time order and associative.", "quantifier": "for all dimensions and all matrices, including non-commuting ones", "why_tests_cant": "algebraic identity over all matrices", "anchors": ["parallel_control/fsc_np.py:combine_V", "parallel_control/fsc_np.py:combine_f", "parallel_control/fsc_tf.py:fsc_par_comb_V", "parallel_control/fsc_tf.py:fsc_par_comb_f"]}
{"id": "C12", "title": "Finite-state model constructor accepts exactly the well-shaped inputs", "statement": "FSC.checkAndExpand succeeds iff T can be deduced and is positive, the lists have equal length and all shapes agree; on success both lists have length T with every entry either the given list entry or the replicated matrix, LT defaults to ones; otherwise it raises ValueError (IndexError for an empty horizon). A T argument is ignored as soon as f or L is a list.", "quantifier": "for all combinations of list/matrix arguments, shapes and T", "why_tests_cant": "combinatorial number of argument shapes", "anchors": ["parallel_control/fsc_np.py:FSC.checkAndExpand"]}
{"id": "C13", "title": "Reference Viterbi returns a maximum a posteriori state path", "statement": "Viterbi_np.ref_viterbi(y_list) returns a state sequence whose joint probability with the observations prior[x0]*prod Pi[x_k,x_{k+1}]*Po[x_{k+1},y_k] is maximal among all state sequences, and V_list[k][x] is the largest joint probability of a path ending in x after k observations.", "quantifier": "for every HMM (zero probabilities allowed), every observation sequence, every competitor path", "why_tests_cant": "maximality over xdim^(T+1) paths for every model", "anchors": ["parallel_control/viterbi_np.py:Viterbi_np.ref_viterbi"]}
{"id": "C14", "title": "Log-domain Viterbi variants agree with the probability-domain one", "statement": "ref_viterbi_log and ref_viterbi_log_v2 return the same path and V_list equal to -log of ref_viterbi's V_list (with -log 0 = +inf), ref_viterbi_log and _v2 agree always and both agree with ref_viterbi whenever the observations have a path of positive probability.", "quantifier": "for every HMM with nonnegative entries, every observation sequence", "why_tests_cant": "tie-breaking and zero probabilities must agree in all cases", "anchors": ["parallel_control/viterbi_np.py:Viterbi_np.ref_viterbi_log", "parallel_control/viterbi_np.py:Viterbi_np.ref_viterbi_log_v2"]}
{"id": "C15", "title": "Reduction of Viterbi to finite-state control is exact", "statement": "seqViterbi (build the reversed-time control problem with getFSC, solve it with seqBackwardPass/seqForwardPass, convert back with fscToViterbi) returns exactly the path and value functions of ref_viterbi_log_v2, including tie-breaking.", "quantifier": "for every HMM, every observation sequence", "why_tests_cant": "universal over models and sequence lengths; index reversal errors are easy to miss on symmetric examples", "anchors": ["parallel_control/viterbi_np.py:Viterbi_np.getFSC", "parallel_control/viterbi_np.py:Viterbi_np.fscToViterbi", "parallel_control/viterbi_np.py:Viterbi_np.seqViterbi"]}
{"id": "C16", "title": "Parallel Viterbi agrees with sequential Viterbi (finite costs below the sentinel)", "statement": "parBwdFwdViterbi returns the path and value functions of seqViterbi for strictly positive HMMs whose negative log probabilities stay below the 1e20 sentinel bound; with impossible transitions (probability 0) the value functions differ (1e20-based instead of +inf).", "quantifier": "for every strictly positive HMM and every non-empty observation sequence", "why_tests_cant": "needs all models; the failing case needs zero probabilities", "anchors": ["parallel_control/viterbi_np.py:Viterbi_np.parBwdFwdViterbi", "parallel_control/viterbi_np.py:Viterbi_np.parBwdFwdBwdViterbi"]}
{"id": "C17", "title": "Direct TensorFlow Viterbi passes agree with the reference", "statement": "viterbi_seq_forwardpass+backwardpass, and the parallel forward/backward passes (given a correct associative scan primitive), compute the same value functions and a maximising path as the reference log Viterbi, also with zero probabilities.", "quantifier": "for every HMM, every non-empty observation sequence", "why_tests_cant": "universal over models; parallel passes use a different factorisation of the cost", "anchors": ["parallel_control/viterbi_tf.py:viterbi_seq_forwardpass", "parallel_control/viterbi_tf.py:viterbi_seq_backwardpass", "parallel_control/viterbi_tf.py:viterbi_par_forwardpass", "parallel_control/viterbi_tf.py:viterbi_par_backwardpass"]}
{"id": "C18", "title": "LQT sequential solution is optimal among all control sequences", "statement": "For LQT models whose stage costs are convex (U positive definite, Z invertible, [[X,M],[M^T,U]] and XT positive semidefinite), controls and states from seqBackwardPass+seqForwardPass minimise LQT.cost over all controls; LQT.cost of any feasible trajectory minus the optimum equals the sum of the weighted squared deviations from the feedback law, and 1/2 x^T S_k x - v_k^T x is the optimal cost-to-go up to a constant.", "quantifier": "for every horizon, dimensions, time-varying parameters, initial state, competitor control sequence", "why_tests_cant": "optimality over a continuum of competitors for every model", "anchors": ["parallel_control/lqt_np.py:LQT.seqBackwardPass", "parallel_control/lqt_np.py:LQT.seqForwardPass", "parallel_control/lqt_np.py:LQT.cost"]}
{"id": "C19", "title": "LQT backward passes never hit a singular solve and keep S symmetric positive semidefinite", "statement": "Under the same convexity conditions every linear system solved by seqBackwardPass and parBackwardPass (including each combination inside the scan) is nonsingular, in exact arithmetic, and every returned S_list[k] is symmetric positive semidefinite.", "quantifier": "for every horizon, dimensions, parameters", "why_tests_cant": "singularity is a measure-zero event sampling does not find; the claim is over all models", "anchors": ["parallel_control/lqt_np.py:LQT.seqBackwardPass", "parallel_control/lqt_np.py:LQT.parBackwardPass", "parallel_control/lqt_np.py:combine_abcej"]}
{"id": "C20", "title": "The LQT combination operators are associative", "statement": "combine_abcej is associative on elements with symmetric C,J whenever both bracketings are defined, always defined and closed when C,J are positive semidefinite; combine_fc is associative and means composition of affine maps.", "quantifier": "for all dimensions and all elements", "why_tests_cant": "algebraic law over all matrices", "anchors": ["parallel_control/lqt_np.py:combine_abcej", "parallel_control/lqt_np.py:combine_fc", "parallel_control/lqt_tf.py:lqt_par_comb_V", "parallel_control/lqt_tf.py:lqt_par_comb_f"]}
{"id": "C21", "title": "Parallel LQT backward pass equals the sequential one", "statement": "LQT.parBackwardPass returns exactly the gains, offsets and value functions of LQT.seqBackwardPass (exact arithmetic) for every model with symmetric X,U,XT and invertible U,Z on which both complete; under convexity both complete.", "quantifier": "for every horizon T>=1, dimensions, time-varying parameters", "why_tests_cant": "equality over all models, including the cross term M, offsets s, r, c and non-identity Z which interact", "anchors": ["parallel_control/lqt_np.py:LQT.parBackwardPass", "parallel_control/lqt_np.py:LQT.parBackwardPass_init", "parallel_control/lqt_np.py:LQT.parBackwardPass_extract"]}
{"id": "C22", "title": "Parallel LQT forward pass equals the sequential one for any gains", "statement": "LQT.parForwardPass(x0,Kx_list,d_list) returns exactly seqForwardPass(x0,Kx_list,d_list) for arbitrary gains and offsets (T>=1); on an empty horizon the parallel one raises ValueError while the sequential one returns ([], [x0]).", "quantifier": "for every model, horizon, initial state and gain lists", "why_tests_cant": "universal equality", "anchors": ["parallel_control/lqt_np.py:LQT.parForwardPass", "parallel_control/lqt_np.py:LQT.seqForwardPass"]}
{"id": "C23", "title": "Forward value-function LQT passes reproduce the optimal trajectory", "statement": "LQT.parFwdBwdPass and LQT.parFwdBwdPass2, given the backward pass results, return exactly the optimal states and controls of seqForwardPass.", "quantifier": "for every model with symmetric data on which the solves succeed, every x0, T>=1", "why_tests_cant": "universal equality involving forward and backward recursions meeting at every step", "anchors": ["parallel_control/lqt_np.py:LQT.parFwdBwdPass", "parallel_control/lqt_np.py:LQT.parFwdBwdPass2"]}
{"id": "C24", "title": "Batch (one big QP) LQT solution equals the recursive one", "statement": "If all steps and the final cost have the same output dimension, LQT.batchSolution(x0) returns exactly the controls and states of seqBackwardPass followed by seqForwardPass; with a differing output dimension it raises ValueError, except that a 1-dimensional output is silently broadcast and gives another control; T=0 raises IndexError.", "quantifier": "for every convex model, horizon T>=1, x0", "why_tests_cant": "the batch method builds block matrices by index arithmetic; equality is over all horizons and dimensions", "anchors": ["parallel_control/lqt_np.py:LQT.batchSolution"]}
{"id": "C25", "title": "Transformed (cross-term eliminating) Riccati recursion equals the direct one when Z=I, not otherwise", "statement": "For models with Z=I, LQT.seqTransformedBackwardPass completes exactly when T>=1, every U is invertible, the output dimension is constant over time and seqBackwardPass completes, and then returns the same gains, offsets and value functions; there are models with Z different from I on which both complete and differ.", "quantifier": "for every model with Z=I, every horizon", "why_tests_cant": "universal equality plus a silent restriction", "anchors": ["parallel_control/lqt_np.py:LQT.seqTransformedBackwardPass"]}
{"id": "C26", "title": "LQR class is the special case of LQT", "statement": "LQR.seqBackwardPass/seqForwardPass/parBackwardPass/parForwardPass agree with each other and with the LQT routines on the model with constant F,L,X,U, identity H,Z and zero c,r,s,M.", "quantifier": "for every LQR model, horizon, x0", "why_tests_cant": "universal equality", "anchors": ["parallel_control/lqt_np.py:LQR"]}
{"id": "C27", "title": "Stationary Riccati iterations: doubling does 2^n steps", "statement": "LQR.lqrIter(n) performs n Riccati steps from X, its S equals S_list[0] of seqBackwardPass(n) with XT=X; LQR.lqrDouble(n) returns S equal to lqrIter(2^n - 1)'s S and the gain computed from it; lqrIter(0) returns K=None.", "quantifier": "for every LQR model with U positive definite and X positive semidefinite, every n", "why_tests_cant": "exact step counts for all n", "anchors": ["parallel_control/lqt_np.py:LQR.lqrIter", "parallel_control/lqt_np.py:LQR.lqrDouble"]}
{"id": "C28", "title": "Conversion between general and canonical LQT form preserves the optimal solution", "statement": "Solving the model produced by lqt_gen_to_canon with the canonical routines and mapping the gains back with lqt_canon_to_gen gives exactly the gains, offsets and value functions of the general recursion (Z=I).", "quantifier": "for every model with Z=I and U, X, XT symmetric; the chain completes iff every U is positive definite and the general recursion completes", "why_tests_cant": "universal algebraic equivalence", "anchors": ["parallel_control/lqt_tf.py:lqt_gen_to_canon", "parallel_control/lqt_tf.py:lqt_canon_to_gen", "parallel_control/lqt_tf.py:lqt_seq_backwardpass"]}
{"id": "C29", "title": "LQT model constructor accepts exactly the well-shaped inputs and fills documented defaults", "statement": "LQT.checkAndExpand replicates matrices to the common horizon, fills the documented defaults (XT, c, H, r, HT, rT, Z, s, M) and succeeds iff every shape agrees; otherwise it raises ValueError, except IndexError exactly when F, L or X is an empty list; the horizon comes from the first list among F, L, X, U and T is ignored if one exists; the objects returned are exactly those described by the problem type of the other properties.", "quantifier": "for all combinations of list/matrix/None arguments and shapes", "why_tests_cant": "combinatorial argument space", "anchors": ["parallel_control/lqt_np.py:LQT.checkAndExpand"]}
{"id": "C30", "title": "TensorFlow canonical LQT passes agree with the numpy ones", "statement": "lqt_seq_backwardpass/lqt_par_backwardpass/lqt_par_forwardpass/lqt_par_fwdbwdpass compute, in exact arithmetic and given a correct associative scan primitive, the same gains, value functions and trajectories as the numpy LQT routines with M=0, s=0, Z=I.", "quantifier": "for every canonical model", "why_tests_cant": "universal equality across two implementations", "anchors": ["parallel_control/lqt_tf.py:lqt_seq_backwardpass", "parallel_control/lqt_tf.py:lqt_par_backwardpass", "parallel_control/lqt_tf.py:lqt_par_forwardpass", "parallel_control/lqt_tf.py:lqt_par_fwdbwdpass"]}
{"id": "C31", "title": "Partial condensing preserves dynamics and cost", "statement": "For every state/control trajectory of the original LQT (M=0,s=0,Z=I), the condensed model steps through exactly the block boundary states, and the condensed cost equals the original cost minus a constant independent of the trajectory.", "quantifier": "for every model, block size Nc>=1 (dividing T or not), every trajectory", "why_tests_cant": "index arithmetic over Nc blocks and padding; equality is over all trajectories", "anchors": ["parallel_control/condensing_np.py:LQTCondenser.condense"]}
{"id": "C32", "title": "Solving the condensed problem and expanding gives the optimal solution of the original problem", "statement": "convertUX applied to the optimal condensed controls/states yields controls and states of lengths T and T+1 that obey the original dynamics and minimise the original cost (padding controls are dropped).", "quantifier": "for every convex model for which the condensed weights are nonsingular, every Nc, every x0", "why_tests_cant": "optimality over all competitors for all models", "anchors": ["parallel_control/condensing_np.py:LQTCondenser.convertUX", "parallel_control/condensing_np.py:LQTCondenser.condense"]}
{"id": "C33", "title": "Nonlinear LQT: linearisation is exact at the nominal trajectory, fixed points are feasible", "statement": "After linearize the affine model reproduces f at the nominal point, so if iterate returns its input trajectory then that trajectory satisfies the nonlinear dynamics; and for an affine model a single iterate (whatever the nominal trajectory) returns the globally optimal trajectory.", "quantifier": "for every model, nominal trajectory, horizon", "why_tests_cant": "universal over models and trajectories", "anchors": ["parallel_control/nlqt_np.py:NLQT.linearize", "parallel_control/nlqt_np.py:NLQT.iterate"]}
{"id": "C34", "title": "The three inner solvers of the nonlinear LQT iteration are interchangeable", "statement": "NLQT.iterate returns the same controls and states for lqt_method 0 (parallel), 1 (parallel forward-backward) and any other value (sequential).", "quantifier": "for every model, nominal trajectory, horizon T>=1 with convex costs", "why_tests_cant": "universal equality", "anchors": ["parallel_control/nlqt_np.py:NLQT.iterate"]}
{"id": "C35", "title": "Continuous-time parallel forward pass equals the sequential one exactly", "statement": "CLQT.parForwardPass (u_zoh=False) returns exactly the states and controls of seqForwardPass on the same gains, for both forward=True and forward=False block initialisation: Runge-Kutta steps of affine ODEs are affine maps and the block maps compose them. With u_zoh=True the block boundaries differ from the sequential ones in general. Every step of seqForwardPass is a Runge-Kutta step of x' = F x + L u + c at the time of the step.", "quantifier": "for every time-varying model, gains, number of blocks and steps, x0", "why_tests_cant": "exact equality over all models; u_zoh=True mismatch only shows with more than one block", "anchors": ["parallel_control/clqt_np.py:CLQT.parForwardPass", "parallel_control/clqt_np.py:CLQT.seqForwardPass", "parallel_control/clqt_np.py:CLQT.parForwardPass_init"]}
{"id": "C36", "title": "Packing and unpacking of ODE states are inverse", "statement": "unpack_X(pack_X(...)) returns the arguments and pack_X(unpack_X(x)) returns x, for all four state layouts of the continuous-time solvers, in the numpy and the TensorFlow code, and both use the same layouts.", "quantifier": "for every dimension and all contents", "why_tests_cant": "offset arithmetic for every n", "anchors": ["parallel_control/clqt_np.py:pack_abcej", "parallel_control/clqt_np.py:unpack_abcej", "parallel_control/clqt_np.py:pack_Psiphi", "parallel_control/clqt_np.py:pack_abc", "parallel_control/clqt_np.py:pack_Sv", "parallel_control/clqt_tf.py:pack_abcej"]}
{"id": "C37", "title": "Parareal backward pass becomes exact after blocks-1 iterations", "statement": "After k Parareal iterations the last k+1 block-boundary value functions (the terminal one included) equal those of the fine sequential backward pass, and the last k+1 blocks of the lists returned with niter=k equal the sequential ones; with niter>=blocks-1 backwardPass returns exactly the fine sequential S,v,Kx,d lists. The default niter=steps therefore guarantees exactness when steps>=blocks-1; for steps=2, blocks=4 there is a problem where the default result differs.", "quantifier": "for every model (any time-varying coefficients), number of blocks and steps, iteration count", "why_tests_cant": "finite termination is an induction over iterations and blocks", "anchors": ["parallel_control/parareal_clqt_np.py:Parareal_CLQT_np.backwardPass"]}
{"id": "C38", "title": "Parareal forward pass becomes exact after blocks-1 iterations", "statement": "After k iterations of forwardPass the states at the block boundaries 0..k are exact and the first k+1 blocks of the returned lists are exact; with niter>=blocks-1 the returned u_list,x_list equal the fine sequential forward pass. With the default niter=steps and steps=2, blocks=4 there is a problem where the result differs.", "quantifier": "for every model, gains, blocks, steps, iteration count, u_zoh on or off", "why_tests_cant": "induction over iterations and blocks", "anchors": ["parallel_control/parareal_clqt_np.py:Parareal_CLQT_np.forwardPass"]}
{"id": "C39", "title": "Parareal forward value-function pass becomes exact after blocks-1 iterations", "statement": "After k iterations of fwdBwdPass the A,b,C at the block boundaries 0..k are exact; with niter>=blocks-1 the returned A,b,C lists equal seqFwdBwdPass on the fine grid. With the default niter=steps and steps=2, blocks=4 there is a problem where the result differs.", "quantifier": "for every model, blocks, steps, iteration count", "why_tests_cant": "induction over iterations and blocks", "anchors": ["parallel_control/parareal_clqt_np.py:Parareal_CLQT_np.fwdBwdPass"]}
{"id": "C40", "title": "Continuous-time backward pass keeps value matrices symmetric and respects block structure", "statement": "CLQT.seqBackwardPass returns steps gains and steps+1 value functions, S symmetric at every step before the last; each is the symmetrised RK4 step of the next and its gains are U^-1 L^T S and U^-1 L^T v. parBackwardPass returns blocks*steps gains and blocks*steps+1 symmetric value functions; inside each block the gains and the value functions after the first are those of the sequential pass restarted from the scanned block boundary; block boundaries are the block element combined with the next boundary; the last block agrees with the sequential pass. The value function at the start of a block is not the one its gain is computed from (witness).", "quantifier": "for every model, blocks, steps", "why_tests_cant": "list bookkeeping for all block/step counts", "anchors": ["parallel_control/clqt_np.py:CLQT.seqBackwardPass", "parallel_control/clqt_np.py:CLQT.parBackwardPass"]}
{"id": "C41", "title": "Runge-Kutta step: affine ODEs give affine maps, cubic exactness, forward/backward adjointness", "statement": "diffeq_np.rk4 on x'=A(t)x+c(t) is an affine map of x, equal to the map obtained by integrating (Psi,phi); on x'=g(t) it is Simpson's rule and exact for cubics; on x'=Ax with constant A its step matrix is the degree-4 Taylor polynomial.", "quantifier": "for all matrices, step sizes, times", "why_tests_cant": "polynomial identity over all matrices", "anchors": ["parallel_control/diffeq_np.py:rk4", "parallel_control/diffeq_tf.py:rk4"]}
{"id": "C42", "title": "Interpolated grid combination never exceeds, and stays close to, the plain minimum; it is not associative", "statement": "combine_V_interp(Vij,Vjk)[i,k] <= combine_V(Vij,Vjk)[i,k] and is at least that minus an eighth of the local second difference, equal at grid-boundary minimisers, exact for parabolas; it is not associative, so parBackwardPass and seqBackwardPass_assoc can return different values; a flat neighbourhood makes the denominator zero.", "quantifier": "for all grid sizes >= 2 and all matrices", "why_tests_cant": "bounds over all matrices; non-associativity contradicts the use of an associative scan", "anchors": ["parallel_control/hjb_grid_1d_np.py:combine_V_interp", "parallel_control/hjb_grid_1d_np.py:combine_V", "parallel_control/hjb_grid_1d_np.py:HJB_Grid_1d.parBackwardPass", "parallel_control/hjb_grid_1d_np.py:HJB_Grid_1d.seqBackwardPass_assoc"]}
{"id": "C43", "title": "Upwind HJB step is monotone under the CFL condition with inward boundary drift", "statement": "One step (hence the whole pass) of seqBackwardPass_upwind is order preserving in the value function and commutes with adding constants if dt*|f|<=dx and the drift does not point outwards at the two boundary points; with outward boundary drift monotonicity fails.", "quantifier": "for every grid, model, control grid, value functions", "why_tests_cant": "monotonicity quantifies over pairs of value functions", "anchors": ["parallel_control/hjb_grid_1d_np.py:HJB_Grid_1d.seqBackwardPass_upwind"]}
{"id": "C44", "title": "Equality-constrained QP solver returns the constrained minimiser", "statement": "lqe_solve returns x, lam exactly when the KKT matrix is nonsingular, with A x = b and G x + c = A^T lam; for symmetric G, x minimises 1/2 x^T G x + c^T x over the feasible points if and only if G is positive semidefinite on the null space of A, and is then the only minimiser; a positive definite G and full row rank A suffice.", "quantifier": "for all dimensions, all G,c,A,b with nonsingular KKT matrix", "why_tests_cant": "optimality over a continuum", "anchors": ["parallel_control/sqp_np.py:lqe_solve", "parallel_control/sqp_tf.py:lqe_solve"]}
{"id": "C45", "title": "BFGS updates keep the Hessian approximation symmetric positive definite", "statement": "bfgs_basic_update and bfgs_damped_update map a symmetric positive definite B and s != 0 to a symmetric positive definite matrix for every y; the basic update satisfies the secant equation B s = y when s.y > 0 and otherwise leaves B unchanged; the damped one uses a y' with s.y' >= 0.2 s.Bs.", "quantifier": "for all dimensions, B, s, y", "why_tests_cant": "positive definiteness over all vectors", "anchors": ["parallel_control/sqp_np.py:bfgs_basic_update", "parallel_control/sqp_np.py:bfgs_damped_update"]}
{"id": "C46", "title": "SQP line search and loops: merit decrease or full step, bounded iterations", "statement": "In bfgs_eq_bt each step length is the first of 1, 1/2, 1/4, ... that does not increase the merit function, or the full step if max_backtrack lengths increase it, even when the next halving would decrease it (witness); the loop does at most max_iter iterations and stops earlier only with crit <= tol; with a full row rank constraint Jacobian it never needs an undefined number.", "quantifier": "for all objective/constraint functions and all inner solver results", "why_tests_cant": "all histories of the loop", "anchors": ["parallel_control/sqp_np.py:bfgs_eq_bt"]}
{"id": "C47", "title": "Local SQP solves an equality constrained QP in one step; its stopping criterion does not certify the returned point", "statement": "One iteration of local_eq is a Newton step for the KKT equations and leaves x unchanged exactly at KKT points; for quadratic fun with affine con, local_eq returns the exact KKT point after one or two iterations; local_eq, local_eq_fast and the TensorFlow local_eq_fast return the same iterates; but crit is evaluated before the last step and ignores con, so that crit = 0 does not bound con(x) (witness).", "quantifier": "for all quadratic problems with nonsingular KKT matrix; all tolerances", "why_tests_cant": "universal over problems; failing case needs a crafted start", "anchors": ["parallel_control/sqp_np.py:local_eq"]}
{"id": "C48", "title": "Discretisation of LTI systems composes", "statement": "lti_disc_u(F,L,G,Qc,dt) returns (A,B,Q) with A(s+t)=A(s)A(t), B(s+t)=A(t)B(s)+B(t), A(0)=I, B(0)=0 (matrix exponential semantics).", "quantifier": "for all matrices and step sizes", "why_tests_cant": "identity over all matrices and all real steps", "anchors": ["parallel_control/disc.py:lti_disc_u", "parallel_control/disc.py:lti_disc"]}
{"id": "C49", "title": "HMM example models are valid stochastic models", "statement": "GEModel and TextModel produce transition, emission and prior arrays with positive entries whose rows sum to one, for every training text and order.", "quantifier": "for every parameter values in range / every training text, alphabet and order", "why_tests_cant": "all training texts", "anchors": ["parallel_control/ge_model_np.py:GEModel", "parallel_control/text_model.py:TextModel"]}
{"id": "C50", "title": "Text model index coding is a bijection and decoding returns the last character", "statement": "In TextModel of order N over n characters, conditioning strings are enumerated so that string i is the N-digit base-n representation of i; indexToText maps a composite state to its last character; textToIndex followed by indexToText returns the text for every text over the alphabet.", "quantifier": "for every alphabet, order, text", "why_tests_cant": "all texts", "anchors": ["parallel_control/text_model.py:TextModel.__init__", "parallel_control/text_model.py:TextModel.textToIndex", "parallel_control/text_model.py:TextModel.indexToText", "parallel_control/text_model.py:TextModel.getNthOrderPo"]}
{"id": "C51", "title": "Finite tracking example is a well-formed control problem", "statement": "FiniteModel.getFSC builds transition tables whose entries are valid states moving at most one lane, for every track, and generated tracks have valid shapes.", "quantifier": "for every track", "why_tests_cant": "all tracks", "anchors": ["parallel_control/finite_model_np.py:FiniteModel.getFSC"]}
{"id": "C52", "title": "Nonlinear model Jacobians are the true derivatives", "statement": "NonlinearModel.Fx and Fu are the partial derivative matrices of NonlinearModel.f with respect to state and control at every point.", "quantifier": "for every state, control, step size", "why_tests_cant": "finite differences only sample", "anchors": ["parallel_control/nonlinear_model_np.py:NonlinearModel.f", "parallel_control/nonlinear_model_np.py:NonlinearModel.Fx", "parallel_control/nonlinear_model_np.py:NonlinearModel.Fu"]}
{"id": "C53", "title": "Closed-form block value function of the upwind example is the reachability indicator (numpy), the TensorFlow variant is not", "statement": "numpy upwind_model_block_V is 0 exactly on pairs (x0,xf) such that xf is reachable from x0 under the model dynamics within block_dt and inf_value elsewhere; the TensorFlow version tests x0>=0 in the branch meant for negative x0 and differs.", "quantifier": "for every grid, block length, inf_value", "why_tests_cant": "needs all grid points, including negative ones", "anchors": ["parallel_control/cnonlin_models_np.py:upwind_model_block_V", "parallel_control/cnonlin_models_tf.py:upwind_model_block_V"]}
{"id": "C54", "title": "TensorFlow scan level budgets are sufficient", "statement": "The max_num_levels passed to tfp scan_associative is large enough for the number of elements scanned (documented requirement size < 2^(levels+1)) for every horizon T <= max_parallel with max_parallel >= 2, also max_parallel = 1 in the LQT code; the FSC, HJB and Viterbi code passes 0 levels for max_parallel=1 where 1 is needed, so there the requirement is violated for T = 1; the budget is never more than one level too large, and the default 10000 serves horizons exactly up to 32766.", "quantifier": "for every T and max_parallel", "why_tests_cant": "all horizons", "anchors": ["parallel_control/lqt_tf.py:lqt_par_backwardpass", "parallel_control/fsc_tf.py:fsc_par_backwardpass", "parallel_control/viterbi_tf.py:viterbi_par_forwardpass", "parallel_control/hjb_grid_1d_tf.py:par_bw_pass"]}
{"id": "C55", "title": "Element ODEs, Riccati ODE and closed-loop ODE describe the same flow", "statement": "If (A,b,C,eta,J) satisfy the backward element ODE of CLQT.parBackwardPass then combining them with any terminal (S_T,v_T) satisfies the Riccati ODE of CLQT.seqBackwardPass. If they satisfy the forward element ODE, their combination with a Riccati solution is constant. If (A,b,C) satisfy the ODE of seqFwdBwdPass, the state of combineForwardBackward satisfies the closed-loop ODE of seqForwardPass. A is the derivative of b with respect to the initial state.", "quantifier": "for all time-varying models and terminal conditions", "why_tests_cant": "differential identity over all models", "anchors": ["parallel_control/clqt_np.py:CLQT.bwpass_bw_ode_f", "parallel_control/clqt_np.py:CLQT.riccati_ode_f", "parallel_control/lqt_np.py:combine_abcej", "parallel_control/clqt_np.py:CLQT.bwpass_fw_ode_f", "parallel_control/clqt_np.py:CLQT.fwdbwdpass_ode_f", "parallel_control/clqt_np.py:CLQT.combineForwardBackward"]}
{"id": "C56", "title": "Parallel finite-state passes agree with the sequential ones below the sentinel, infinite costs included", "statement": "With non-negative stage and terminal costs (+inf allowed) every value of FSC.parBackwardPass equals the value of seqBackwardPass or both are at least the 1e20 sentinel, and from every initial state whose optimal cost is below the sentinel parForwardPass with the parallel policy returns exactly the controls and states of the sequential passes.", "quantifier": "for every finite-state problem with non-negative costs, every horizon T>=1, every initial state", "why_tests_cant": "forbidden transitions are encoded by a finite magic constant; agreement for all cost patterns cannot be sampled", "anchors": ["parallel_control/fsc_np.py:FSC.parBackwardPass", "parallel_control/fsc_np.py:FSC.parForwardPass"]}
{"id": "C57", "title": "The Riccati feedback law minimises the continuous-time cost", "statement": "If S, v solve the Riccati ODE coded in CLQT.riccati_ode_f with the terminal values used by seqBackwardPass, then the closed loop x' = F x + L(-Kx x + d) + c with the coded gains Kx = U^-1 L^T S, d = U^-1 L^T v minimises the cost of the class documentation over all trajectories from the same state; the excess cost of any trajectory is the integral of 1/2 |u - (-Kx x + d)|_U^2.", "quantifier": "for all time-varying models with symmetric weights and positive definite U, all horizons, initial states and competing trajectories", "why_tests_cant": "optimality over an infinite-dimensional set of trajectories", "anchors": ["parallel_control/clqt_np.py:CLQT", "parallel_control/clqt_np.py:CLQT.riccati_ode_f", "parallel_control/clqt_np.py:CLQT.seqBackwardPass"]}
{"id": "C58", "title": "The SQP search direction decreases the merit function when the multipliers are at most one", "statement": "If B is positive definite, fun and con are differentiable along p and the multipliers returned by lqe_solve are at most 1 in absolute value, then the slope of the merit function of bfgs_eq_bt (mu = 1) along p is at most -p.Bp, all short steps decrease it and the line search accepts a step for every sufficiently large max_backtrack. With larger multipliers this fails: there is a problem where every step increases the merit function and the full step is taken for every max_backtrack.", "quantifier": "for all dimensions, functions differentiable along the direction, positive definite B, points", "why_tests_cant": "infinitely many functions, points and step lengths; needs derivatives", "anchors": ["parallel_control/sqp_np.py:bfgs_eq_bt", "parallel_control/sqp_np.py:lqe_solve"]}
{"id": "C59", "title": "Direct shooting: the two control parametrisations agree, are exact for the integrator and convex for affine dynamics", "statement": "fun_and_con_2(a0, b) returns the same cost and constraint as fun_and_con_1 with the slopes b and the interval start values a0 + dt*(b_0+..+b_{i-1}); the TensorFlow versions agree with numpy; for x'=u with cost u^2 both are the exact integrals; for affine dynamics and a convex running cost the constraint is affine and the cost convex in the parameters; V_eval puts the value for x0_grid[i], xf_grid[k] at entry (i,k).", "quantifier": "for all model functions, horizons, numbers of intervals >= 1, parameter vectors and grids", "why_tests_cant": "functions and parameter vectors are infinite families; convexity quantifies over pairs of parameters", "anchors": ["parallel_control/hjb_grid_1d_np.py:fun_and_con_1", "parallel_control/hjb_grid_1d_np.py:fun_and_con_2", "parallel_control/hjb_grid_1d_np.py:V_eval_1", "parallel_control/hjb_grid_1d_np.py:V_eval_2", "parallel_control/hjb_grid_1d_tf.py:fun_and_con_2"]}
{"id": "C60", "title": "The upwind pass converges with first order to the solution of the Hamilton-Jacobi-Bellman equation", "statement": "If W solves the Hamilton-Jacobi-Bellman equation for the controls of the control grid with terminal value LT, with time derivative A-Lipschitz in time and space derivative B-Lipschitz in space on the grid range, the results of seqBackwardPass_upwind at the block times differ from W by at most T*(A*dt + max|f|*B*dx), under dt*|f| <= dx and inward drift at the ends.", "quantifier": "for all models, uniform grids, control grids, numbers of blocks and steps", "why_tests_cant": "statement about real-valued solutions and all grid sizes", "anchors": ["parallel_control/hjb_grid_1d_np.py:HJB_Grid_1d.seqBackwardPass_upwind"]}
{"id": "C61", "title": "Continuous-time forward-backward pass: block structure and recovery of the trajectory", "statement": "CLQT.parFwdBwdPass returns blocks*steps controls and blocks*steps+1 states; the scanned element at the start of block 0 is the fixed state x0, the one at the start of block q+1 is the combination of the one of block q with the element of block q, and inside a block every state solves (I + C S) x = b + C v with the sequential (b, C) restarted at the block and the value function at the same index, the control being d - Kx x. Elements of blocks integrate over the interval of the block. Wrong list lengths raise ValueError, no blocks UnboundLocalError.", "quantifier": "all models, initial states, backward results, numbers of blocks and steps, step sizes, start times and both integration directions", "why_tests_cant": "tests compare a few trajectories up to a tolerance; index shifts between blocks and time shifts of a constant model are invisible to them", "anchors": ["parallel_control/clqt_np.py:CLQT.parFwdBwdPass", "parallel_control/clqt_np.py:CLQT.parFwdBwdPass_extract", "parallel_control/clqt_np.py:CLQT.combineForwardBackward", "parallel_control/clqt_np.py:CLQT.parBackwardPass_init"]}
{"id": "C62", "title": "TensorFlow finite-state control passes", "statement": "fsc_seq_backwardpass returns the numpy value functions with attaining policies for any tie rule of argmin; sequential and parallel forward passes agree and produce an optimal trajectory; the parallel element equals the one-step cost where reachable, is bounded by the sentinel elsewhere, and (unlike numpy) keeps costs above the sentinel when all controls lead to one state; the parallel backward pass equals the sequential pass iff a stated sentinel condition holds, in particular when (2T+1)B <= inf; under the strict sentinel condition the forward-backward pass returns only states and controls of optimal trajectories, and the trajectory itself if the optimum is unique.", "quantifier": "for every finite-state model, horizon, sentinel, argmin tie rule and associative-scan implementation", "why_tests_cant": "all models, tie rules and scan bracketings", "anchors": ["parallel_control/fsc_tf.py:fsc_seq_backwardpass", "parallel_control/fsc_tf.py:fsc_seq_forwardpass", "parallel_control/fsc_tf.py:fsc_par_backwardpass", "parallel_control/fsc_tf.py:fsc_par_forwardpass", "parallel_control/fsc_tf.py:fsc_par_fwdbwdpass"]}
{"id": "C63", "title": "TensorFlow Viterbi through the control problem is a MAP decoder", "statement": "viterbi_fsc_seq_bwfw returns a most probable state sequence for any tie rule; viterbi_fsc_par_bwfw equals it, and with numpy's tie rule equals the numpy class, when the negative log probabilities are bounded by B with (2T+1)(2B) <= inf; viterbi_fsc_par_bwfwbw returns states of most probable sequences; the empty observation list is an error.", "quantifier": "for every hidden Markov model with bounded negative log probabilities and every observation sequence", "why_tests_cant": "all models and sequences", "anchors": ["parallel_control/viterbi_tf.py:make_viterbi_fsc", "parallel_control/viterbi_tf.py:viterbi_fsc_seq_bwfw", "parallel_control/viterbi_tf.py:viterbi_fsc_par_bwfw", "parallel_control/viterbi_tf.py:viterbi_fsc_par_bwfwbw"]}
{"id": "C64", "title": "Continuous-time regulator passes equal the tracker passes on the same problem", "statement": "With 'rk4' every pass of CLQR (sequential and parallel backward, forward, forward-backward) returns exactly what the corresponding pass of CLQT returns for constant matrices, no offset and no reference, including exceptions; the parallel passes may integrate a single block and repeat the element; without zero order hold the parallel forward pass equals the sequential one.", "quantifier": "for every regulator, step number, block number, initial time, terminal value and gain list", "why_tests_cant": "all dimensions, matrices and grids over any ordered field", "anchors": ["parallel_control/clqt_np.py:CLQR.seqBackwardPass", "parallel_control/clqt_np.py:CLQR.parBackwardPass", "parallel_control/clqt_np.py:CLQR.parForwardPass", "parallel_control/clqt_np.py:CLQR.parFwdBwdPass"]}
{"id": "C65", "title": "The exact method of the regulator solves the Riccati equation and is optimal", "statement": "CLQR.seqBackwardPass with method 'exact' returns the values at the grid points of the solution of the Riccati differential equation whenever one exists, and the gains U^-1 L^T S; for positive semidefinite weights a solution exists and is positive semidefinite, so the pass never fails, and 1/2 x0^T S_k x0 is the least cost from grid point k, attained by a trajectory whose control starts with -Kx_k x0; for indefinite weights it raises LinAlgError if the solution escapes at a grid point (witness).", "quantifier": "for every regulator over the reals, step length and step number", "why_tests_cant": "infinite-dimensional optimality and a differential equation; all matrices", "anchors": ["parallel_control/clqt_np.py:CLQR.seqBackwardPass"]}
{"id": "C66", "title": "The exact forward pass of the regulator solves the closed-loop system", "statement": "CLQR.seqForwardPass with method 'exact' returns controls -Kx x and states that are the values after dt of the (unique) solution of dx/dt = (F - L Kx) x, or of dx/dt = F x + L u with zero order hold, over each interval.", "quantifier": "for every regulator over the reals, gain list and step length", "why_tests_cant": "matrix exponentials and differential equations for all matrices", "anchors": ["parallel_control/clqt_np.py:CLQR.seqForwardPass", "parallel_control/disc.py:lti_disc_u"]}
{"id": "C67", "title": "Exceptions of the regulator passes", "statement": "Unknown methods raise ValueError; 'exact' raises ValueError in every initialisation of the parallel passes and in the forward-backward pass; a symmetric U that is not positive definite raises LinAlgError even without steps; a wrong number of gains raises ValueError before the division by the number of steps (the tracker class divides first); no steps or blocks raise ZeroDivisionError.", "quantifier": "for every regulator and argument", "why_tests_cant": "all argument combinations", "anchors": ["parallel_control/clqt_np.py:CLQR.seqBackwardPass", "parallel_control/clqt_np.py:CLQR.parBackwardPass_init", "parallel_control/clqt_np.py:CLQR.parForwardPass_init", "parallel_control/clqt_np.py:CLQR.parFwdBwdPass_init"]}
{"id": "C68", "title": "The iteration of the nonlinear tracker is a Gauss-Newton descent step and its fixed points are stationary", "statement": "From a trajectory of the model, the step of NLQT.iterate from the given to the returned controls is a direction of strict descent of the nonlinear cost unless it is zero. For a convex cost the iteration returns its input exactly if the input is a trajectory of the model at which the derivative of the nonlinear cost vanishes in every direction. The vehicle model satisfies the differentiability assumption everywhere. The full step can increase the cost (witness 145/2 to 745/2).", "quantifier": "for every differentiable model over the reals, symmetric or convex weights, horizon, trajectory and method", "why_tests_cant": "derivatives along all directions of a nonlinear cost, all models and horizons", "anchors": ["parallel_control/nlqt_np.py:NLQT.iterate", "parallel_control/nlqt_np.py:NLQT.cost", "parallel_control/nonlinear_model_np.py:NonlinearModel"]}
{"id": "C69", "title": "The TensorFlow iterations of the nonlinear tracker equal the numpy iteration", "statement": "nlqt_iterate_seq returns exactly what the sequential method of NLQT.iterate returns; if nlqt_iterate_par_1 or nlqt_iterate_par_2 completes it returns the same, for every grouping of scan_associative; for convex costs all of them complete. nlqt_simulate and nlqt_cost equal the numpy functions.", "quantifier": "for every model, symmetric weights, horizon of at least one step, nominal trajectory and associative scan", "why_tests_cant": "all models, dimensions, horizons and scan groupings", "anchors": ["parallel_control/nlqt_tf.py:nlqt_iterate_seq", "parallel_control/nlqt_tf.py:nlqt_iterate_par_1", "parallel_control/nlqt_tf.py:nlqt_iterate_par_2", "parallel_control/nlqt_tf.py:nlqt_cost"]}
{"id": "C70", "title": "Partial condensing in TensorFlow equals the numpy class, is exact, and solves strictly more problems", "statement": "Where the numpy class condenses, condense of condensing_tf.py returns the same blocks; for convex problems both complete together. It completes if and only if no block has a nonzero direction along which its homogeneous cost is constant everywhere, else it raises an error. The condensed problem has the states of the problem at block borders and its cost up to a constant and the cost of padding controls, without any definiteness. convertUX expands the condensed trajectory to the trajectory of the problem. If the pipeline condense, canonical form, backward pass, gains, forward pass, convertUX completes, with sequential or parallel passes, the result is the unique optimum and equals the recursions on the uncondensed problem. It completes for convex problems with H'XH positive definite at block starts. A witness with a negative state weight is solved in TensorFlow while numpy raises LinAlgError.", "quantifier": "for every problem with symmetric weights and at least one step, block length, initial state and associative scan", "why_tests_cant": "all dimensions, horizons, block lengths, weights and scan groupings", "anchors": ["parallel_control/condensing_tf.py:condense", "parallel_control/condensing_tf.py:convertUX", "parallel_control/condensing_np.py:LQTCondenser.condense", "parallel_control/condensing_np.py:LQTCondenser.convertUX", "tests/test_condensing_tf.py"]}
{"id": "C71", "title": "The continuous-time tracker in TensorFlow returns the results of the numpy class", "statement": "For symmetric control weights, the sequential backward and forward-backward passes of clqt_tf.py return the results of the numpy methods whenever those complete; for positive definite weights they complete together. The sequential forward pass, with and without zero-order hold, and the combination agree in both directions. The parallel forward pass with any associative scan returns the result of the numpy parallel pass and completes exactly when it does; without zero-order hold it equals the sequential pass. The parallel backward and forward-backward passes agree with numpy whenever both complete; with positive definite control weights, semidefinite terminal weight and semidefinite C and J in the block elements the backward passes both complete. Default arguments agree. A witness with negative control weight is processed in TensorFlow while numpy raises LinAlgError; without steps the TensorFlow block elements raise an error where numpy has the identity.", "quantifier": "for every continuous-time problem with symmetric control weight, number of blocks, positive number of steps, time step, start time, gain sequence and associative scan", "why_tests_cant": "all dimensions, time-varying data, block counts and scan groupings; tests compare a few problems up to rounding", "anchors": ["parallel_control/clqt_tf.py:clqt_seq_backwardpass", "parallel_control/clqt_tf.py:clqt_seq_forwardpass", "parallel_control/clqt_tf.py:clqt_seq_fwdbwdpass", "parallel_control/clqt_tf.py:clqt_combine_fwdbwd", "parallel_control/clqt_tf.py:clqt_par_backwardpass", "parallel_control/clqt_tf.py:clqt_par_forwardpass", "parallel_control/clqt_tf.py:clqt_par_fwdbwdpass", "parallel_control/clqt_np.py:CLQT", "tests/test_clqt_tf.py"]}
{"id": "C72", "title": "Parareal in TensorFlow returns the numpy results and terminates finitely", "statement": "With at least one block, step and iteration, the backward and forward-backward Parareal passes of parareal_clqt_tf.py return what the numpy methods return for the same number of iterations, for symmetric control weights; with positive definite weights one completes exactly when the other does. On blocks*steps gains the forward passes agree in both directions. With at least blocks-1 iterations each pass and both pipelines return the results of the sequential TensorFlow passes on the fine grid, and after k iterations the last k+1 blocks of the backward pass are already exact. Without iterations the TensorFlow passes fail where numpy returns the result of the coarse start. Gains of another number are rejected, while numpy accepts some of them.", "quantifier": "for every continuous-time problem with symmetric control weight, positive number of blocks, steps and iterations, initial state and gain sequence", "why_tests_cant": "all dimensions, time-varying data and counts of blocks, steps and iterations; tests compare one problem up to rounding", "anchors": ["parallel_control/parareal_clqt_tf.py:pclqt_backwardpass", "parallel_control/parareal_clqt_tf.py:pclqt_forwardpass", "parallel_control/parareal_clqt_tf.py:pclqt_backwardforwardpass", "parallel_control/parareal_clqt_tf.py:pclqt_fwdbwdpass", "parallel_control/parareal_clqt_tf.py:pclqt_backwardbwdfwdpass", "parallel_control/parareal_clqt_np.py:Parareal_CLQT_np", "tests/test_parareal_clqt_tf.py"]}
{"id": "C73", "title": "The chain of masses: equations of motion, dissipation, sampling and optimal control", "statement": "The constructor of MassModel completes exactly for at least one mass and builds matrices that give the equations of motion at the top of the file; initially the chain is at rest with the first and the middle mass displaced by one. The derivative of the energy is the power of the controls minus the dissipation of the dampers, and without control the sampled chain loses a fixed fraction of its energy in every step. getLQT raises ZeroDivisionError for dt = 0 and otherwise returns a convex problem with int(Tf/dt) steps whose dynamics are exactly the motion of the chain with constant controls over a step. For 0 < dt <= Tf all sequential and parallel passes complete with the same controls and states, the states are those of the chain, and the controls uniquely minimise the documented cost among all piecewise constant controls.", "quantifier": "for every number of masses, step length, horizon, state and control sequence", "why_tests_cant": "arbitrary chain length, step and horizon; optimality against all controls and an exact solution of the differential equation cannot be tested in floating point", "anchors": ["parallel_control/mass_model_np.py:MassModel", "parallel_control/disc.py:lti_disc_u", "parallel_control/lqt_np.py:LQT"]}
{"id": "C74", "title": "The linear tracking example: data, problem and optimal motion", "statement": "genData produces N points starting at (5,5) that stay more than 1/2 away from the border of the square and are at distance one from each other, whatever the random numbers. getLQT raises ZeroDivisionError exactly for zero steps, IndexError exactly for a negative number of steps or no points, and otherwise returns a convex problem with steps*N steps. All sequential and parallel passes of this problem complete with the same controls and states; the states are those of a point moving with piecewise constant acceleration, and among all such motions the computed one uniquely minimises the tracking cost with the targets xy[:,k // steps]. getCLQT and its TensorFlow version define the same problem; the reference curve has the horizon as period, and the final target is its end point with velocity zero.", "quantifier": "for every sequence of random numbers, list of points, number of steps and competing control sequence", "why_tests_cant": "all seeds, point lists and step counts; optimality against all motions cannot be sampled", "anchors": ["parallel_control/linear_model_np.py:LinearModel", "parallel_control/linear_model_tf.py:get_clqt", "parallel_control/disc.py:lti_disc_u", "parallel_control/lqt_np.py:LQT"]}
{"id": "C75", "title": "The nonlinear tracking example: data, problem, initial guess and iterations", "statement": "genData raises ValueError for zero stepping and otherwise returns points of a closed curve at equidistant parameters whose heading is the direction to the next point, consecutive headings differing by at most half a turn, together with the subsampled columns. getLQT raises IndexError without points or positive steps and otherwise returns a convex problem whose cost along the vehicle is the tracking cost. initialGuess has zero controls, the targets as positions and headings, and speeds given by distance over time at the updates; it fails exactly for dt = 0 with a target far from the first one or without targets, and a trajectory parallel to an axis always gets speed zero. From either guess the iterations never fail, all methods agree, and an iterate is repeated exactly if it is a trajectory of the vehicle at which the derivative of the tracking cost vanishes in every direction.", "quantifier": "for every number of points, stepping, sampling period, target list, initial guess and number of iterations", "why_tests_cant": "all target lists, sampling periods and numbers of iterations; stationarity in every direction cannot be sampled", "anchors": ["parallel_control/nonlinear_model_np.py:NonlinearModel", "parallel_control/nlqt_np.py:NLQT"]}
{"id": "C76", "title": "The conditional value function by direct shooting is the optimal shooting cost", "statement": "For affine dynamics with a control that acts and the cost (X x^2 + U u^2)/2 with X >= 0, U > 0, every entry of the matrix of V_eval_1 (V_eval_2) is the minimum of the shooting cost over all piecewise linear (continuous piecewise linear) controls on the steps that reach the final state; the minimising parameters are unique and any number of SQP iterations from one on gives the same value. The value of the second method is never below the first, and there is a problem where it is above. Entry (i,j) of directShootingValueFunction belongs to grid[i], grid[j] and the block length T/blocks, every method other than 2 is the first, and zero blocks or zero steps raise ZeroDivisionError; zero iterations give the cost of the zero control in numpy and an error in TensorFlow. With at least one iteration the batched TensorFlow functions return a matrix exactly if all numpy entries are finite, and it is the same matrix. For twice continuously differentiable functions the derivatives used by the SQP step are the derivatives of the Lagrangian and its second derivative is symmetric.", "quantifier": "for all affine dynamics, weights, horizons, numbers of steps and iterations, grids, and competing control parameters", "why_tests_cant": "optimality against all controls and independence of the number of iterations for all problems; the TensorFlow batch for all grids", "anchors": ["parallel_control/hjb_grid_1d_np.py:V_eval_1", "parallel_control/hjb_grid_1d_np.py:V_eval_2", "parallel_control/hjb_grid_1d_np.py:HJB_Grid_1d.directShootingValueFunction", "parallel_control/hjb_grid_1d_tf.py:V_eval_1", "parallel_control/hjb_grid_1d_tf.py:V_eval_2", "parallel_control/hjb_grid_1d_tf.py:direct_shooting_block_V", "parallel_control/sqp_np.py:local_eq_fast", "parallel_control/sqp_tf.py:lag_value_grad_hess"]}
{"id": "C77", "title": "The grid solvers on the one-dimensional example models: exact values, error bound, and loss of monotonicity", "statement": "The TensorFlow example models equal the numpy models for at least one grid point and raise otherwise; their grids run in equal steps between the end points. If some control drives the state out of the grid at an end, the upwind step is not monotone for any positive time step (so the drift condition of C43 is necessary), and this is so on all three models with at least two points. On upwind_model with at least three states and two controls the upwind pass (numpy and TensorFlow) returns exactly -x for x <= 0 and -(1+dt)^j x for x >= 0 with j remaining steps on every grid; the symmetric scheme returns the same for an odd number of states, and there is an even number where it does not. The exact value is -exp(tau) x for x >= 0 and -x otherwise, and the upwind values lie above it by at most max(x,0) exp(tau) tau dt/2. The plain block pass with upwind_model_block_V lies between the exact value and the terminal cost, and returns the terminal cost at all times once exp(T/blocks)-1 is below the grid spacing. For linear_model every entry of directShootingValueFunction is the smallest shooting cost.", "quantifier": "for all grid sizes, numbers of blocks, steps and iterations, time steps, dynamics and costs (necessity of the drift condition), and all reachable final states", "why_tests_cant": "closed form and error bound for every grid and every number of steps, and failure of monotonicity for every time step", "anchors": ["parallel_control/cnonlin_models_np.py:linear_model", "parallel_control/cnonlin_models_np.py:velocity_model", "parallel_control/cnonlin_models_np.py:upwind_model", "parallel_control/cnonlin_models_np.py:upwind_model_block_V", "parallel_control/cnonlin_models_tf.py:linear_model", "parallel_control/cnonlin_models_tf.py:velocity_model", "parallel_control/cnonlin_models_tf.py:upwind_model", "parallel_control/hjb_grid_1d_np.py:HJB_Grid_1d.seqBackwardPass_upwind", "parallel_control/hjb_grid_1d_np.py:HJB_Grid_1d.seqBackwardPass_symfd", "parallel_control/hjb_grid_1d_tf.py:seq_bw_pass_upwind"]}
{"id": "C78", "title": "Generated data have the distribution of the model, and the Viterbi speed tests report error zero", "statement": "A draw with a random number in [0,1) returns index i exactly on an interval of length p[i] and raises if the numbers are no distribution. GEModel.genData on any stochastic hidden Markov model returns states and observations of the requested length and of positive joint probability, every sequence of positive probability occurs, and with independent uniform random numbers the probability of a sequence is its joint probability in the model. With at least two steps, one iteration and negative log probabilities below the sentinel, all seven Viterbi speed tests report the error 0; for the Gilbert-Elliot model this is so for every number of steps from 2 to 10^18. With one step the two sequential tests report 0 and the other five raise; with no step all raise, and with no iteration the sequential tests raise ZeroDivisionError. The error does not depend on the state sequences.", "quantifier": "for all stochastic models, data lengths, random numbers, associative scans and choices among equal minima", "why_tests_cant": "equality for every data set and the exact probability of every sequence; a sampling test sees a few seeds", "anchors": ["parallel_control/ge_model_np.py:GEModel.genData", "parallel_control/viterbi_tf.py:viterbi_fsc_seq_bwfw_speedtest", "parallel_control/viterbi_tf.py:viterbi_fsc_par_bwfw_speedtest", "parallel_control/viterbi_tf.py:viterbi_fsc_par_bwfwbw_speedtest", "parallel_control/viterbi_tf.py:viterbi_seq_fwbw_speedtest", "parallel_control/viterbi_tf.py:viterbi_par_fwbw_speedtest", "parallel_control/viterbi_tf.py:viterbi_seqpar_fwbw_speedtest", "parallel_control/viterbi_tf.py:viterbi_par_fwbwfw_speedtest"]}
{"id": "C79", "title": "The stationary LQR iterations converge to the optimal infinite-horizon cost; rate and disagreement with the Riccati solver", "statement": "For U positive definite and X positive semidefinite the matrices of lqrIter increase and stay below every positive semidefinite solution of the discrete algebraic Riccati equation. They and the gains converge exactly if every state has a control sequence of finite cost, in particular if some feedback is stable. The limit solves the Riccati equation, is its smallest positive semidefinite solution and the optimal infinite-horizon cost, attained by the feedback of the limit gain; lqrDouble has the same limit. If N iterations recover the fraction a of a solution, j rounds leave at most (1-a)^j, and i more doublings at most (1-a)^(2^i); such an a>0 exists if an iterate is positive definite. If trajectories of finite cost tend to zero, the closed loop is stable, the solution unique, and lqrDare, with a solver that returns the stabilising solution, returns the same gain and matrix. Without this they disagree: for F=2, L=1, X=0, U=1 the iterations return gain 0 and matrix 0 for ever and lqrDare returns 3/2 and 3.", "quantifier": "for all dimensions, real or ordered-field matrices, numbers of iterations, initial states and control sequences", "why_tests_cant": "limits, infinite horizons and all control sequences; tests run finitely many iterations on one system", "anchors": ["parallel_control/lqt_np.py:LQR.lqrIter", "parallel_control/lqt_np.py:LQR.lqrDouble", "parallel_control/lqt_np.py:LQR.lqrDare"]}
{"id": "C80", "title": "The speed tests of the linear models solve the problems they report, and when condensing fails in them", "statement": "lqt_np_to_tf succeeds exactly if all outputs have one dimension, and the tensors are then those of the problem without Z, s and M, which are dropped silently; lqt_np_to_tf_gen drops only Z. For every convex problem with at least one step all eight pipelines of linear_speedtest.py (sequential, parallel, both forward types, with and without partial condensing, with max_parallel equal to the number of steps) return the gains, states and controls of lqt_reference, which are optimal; those with condensing exactly if no block of Nc steps has a direction of constant cost, otherwise they raise LinAlgError. The speed tests then report the number of steps and of states of every problem. The mass generators yield T steps and 2N states and every Nc works. The tracking generator yields 10*(T//10) steps and 4 states, and condensing works exactly if Nc is not 1 and no number of steps leaves remainder 1 modulo Nc, so for all Nc sharing a factor with 10 but not for Nc=3 and T=100. T<10, n_iter=0, Nc=0, N=0 and nstep=0 raise.", "quantifier": "for all convex problems, block lengths, generator arguments, random numbers, numbers of iterations and every associative scan", "why_tests_cant": "the speed tests compute no error at all; all problems, lengths and block lengths", "anchors": ["parallel_control/linear_speedtest.py:lqt_reference", "parallel_control/linear_speedtest.py:lqt_sequential_bw", "parallel_control/linear_speedtest.py:lqt_parallel_bw", "parallel_control/linear_speedtest.py:lqt_sequential_bwfw", "parallel_control/linear_speedtest.py:lqt_parallel_bwfw_1", "parallel_control/linear_speedtest.py:lqt_parallel_bwfw_2", "parallel_control/linear_speedtest.py:lqt_sequential_cond_bwfw", "parallel_control/linear_speedtest.py:lqt_parallel_cond_bwfw_1", "parallel_control/linear_speedtest.py:lqt_parallel_cond_bwfw_2", "parallel_control/linear_speedtest.py:tracking_generator", "parallel_control/linear_speedtest.py:mass_generator", "parallel_control/linear_speedtest.py:mass_generator_2", "parallel_control/lqt_tf.py:lqt_np_to_tf", "parallel_control/lqt_tf.py:lqt_np_to_tf_gen"]}
{"id": "C81", "title": "The speed tests of the finite-state game run optimal trajectories, and picking states one by one is safe in the game", "statement": "fsc_np_to_tf returns exactly the problem held by the arrays and raises ValueError if there is none. For at least two steps, costs small against 1e20, every minimiser and every associative scan, fsc_seq_bw and fsc_par_bw return the same policies and values; fsc_seq_bwfw returns (states, controls) and fsc_par_bwfw_1 (controls, states) of the same optimal trajectory, whose cost is the value of the start; every state of fsc_par_bwfw_2 lies on an optimal trajectory. With one step the parallel functions raise. finite_generator yields the game on the generated track from the middle lane, for which, with ties broken in favour of the smallest index, fsc_par_bwfw_2 returns the same trajectory as the others although optima are not unique, since optimal trajectories of the game do not cross; with ties broken differently for states and controls its states are not those of its controls. The speed tests report the lengths and the number of lanes; lengths 0 and 1 and n_iter=0 raise.", "quantifier": "for all random numbers, numbers of lanes, lengths up to 1e19, minimisers and associative scans", "why_tests_cant": "the speed tests compare nothing; ties and all tracks and lengths", "anchors": ["parallel_control/finite_speedtest.py:fsc_seq_bw", "parallel_control/finite_speedtest.py:fsc_par_bw", "parallel_control/finite_speedtest.py:fsc_seq_bwfw", "parallel_control/finite_speedtest.py:fsc_par_bwfw_1", "parallel_control/finite_speedtest.py:fsc_par_bwfw_2", "parallel_control/finite_speedtest.py:finite_generator", "parallel_control/fsc_tf.py:fsc_np_to_tf"]}
{"id": "C82", "title": "The speed tests of the nonlinear tracker run ten iterations of the numpy tracker", "statement": "With convex costs, at least one step and an initial guess of the right lengths, nlqt_iter_seq, nlqt_iter_par_1 and nlqt_iter_par_2 (max_parallel = number of steps) complete and return the tenth iterate of the numpy NLQT.iterate, which is the same for all its methods. For a length T >= 1 nonlinear_generator yields the tracking problem of NonlinearModel with 10*ceil(T/10) steps, convex costs, the vehicle with time step 0.1 and a guess that is zero after the initial state, which lies in (13, 7) with speed zero. From this guess the first iterate never leaves the line y = 7, whatever the targets; the returned tenth iterate is a trajectory of the vehicle at which the cost is stationary exactly if an eleventh iteration would not change it. The speed tests report the lengths rounded up to multiples of ten and state dimension four; T = 0 raises IndexError and n_iter = 0 ZeroDivisionError.", "quantifier": "for all nonlinear models, convex costs, guesses, lengths and associative scans", "why_tests_cant": "the speed tests compare nothing; all models, lengths and groupings of the scan", "anchors": ["parallel_control/nonlinear_speedtest.py:nlqt_iter_seq", "parallel_control/nonlinear_speedtest.py:nlqt_iter_par_1", "parallel_control/nonlinear_speedtest.py:nlqt_iter_par_2", "parallel_control/nonlinear_speedtest.py:nlqt_iter_seq_speedtest", "parallel_control/nonlinear_speedtest.py:nonlinear_generator"]}
{"id": "C83", "title": "What the errors reported by the continuous-time speed tests measure", "statement": "With symmetric positive definite control weights, at least one block and one step and n_iter >= 1: the sequential speed tests report the error zero; the Parareal tests report zero if parareal_niter >= blocks - 1 (the forward-backward one whenever its reference completes), and in general the last parareal_niter + 1 blocks are exact, while four blocks with the default two iterations give a positive error. If the parallel backward pass completes, its last block agrees with the reference and the backward-forward pipeline returns the sequential forward pass of its gains; with one block the backward-forward test reports zero although the backward test reports the difference of the first value matrix, which can be positive. The reported errors are the largest absolute entry differences. n_iter = 0 ends in ZeroDivisionError, parareal_niter = 0 in IndexError. The number of scan levels max_parallel = blocks suffices. Both trajectories compared by the forward-backward test start at the initial state.", "quantifier": "for all problems with positive definite control weights, blocks, steps, iteration counts and associative scans", "why_tests_cant": "the tests print the errors of one model in floating point; all models, block counts and scan groupings", "anchors": ["parallel_control/contlin_speedtest.py:clqt_ref_sol_1", "parallel_control/contlin_speedtest.py:clqt_ref_sol_2", "parallel_control/contlin_speedtest.py:clqt_seq_bw_speedtest", "parallel_control/contlin_speedtest.py:clqt_par_bw", "parallel_control/contlin_speedtest.py:clqt_par_bw_fw_speedtest", "parallel_control/contlin_speedtest.py:clqt_parareal_bw_speedtest", "parallel_control/contlin_speedtest.py:clqt_parareal_bw_fwbw"]}
{"id": "C84", "title": "What the errors reported by the HJB speed tests measure", "statement": "On a grid of at least two distinct points with blocks, steps and n_iter positive: seq_upwind_speedtest reports err1 = err2 = 0. If the direct shooting block value function is finite, seq_assoc_speedtest completes for every number of blocks, and par_assoc_speedtest completes for two or more blocks but raises ValueError for one; the parallel and the sequential associative value functions agree at the last two times for every associative-scan grouping. err1 is the largest absolute difference to the upwind value functions over all times and grid points, err2 the one over the middle third, err2 <= err1, and each is nan exactly if a nan lies in its range. For affine dynamics and quadratic cost the block value function is finite and each entry is the least cost of the shooting problem. The horizon of the model is not used. n_iter = 0 ends in ZeroDivisionError. A further block adds one upwind value function in front and leaves the others unchanged.", "quantifier": "for all models, grids, block counts, steps and associative scans", "why_tests_cant": "the tests print the errors of one model in floating point; all models, grids and scan groupings", "anchors": ["parallel_control/hjb_grid_1d_speedtest.py:get_model", "parallel_control/hjb_grid_1d_speedtest.py:seq_upwind", "parallel_control/hjb_grid_1d_speedtest.py:seq_upwind_speedtest", "parallel_control/hjb_grid_1d_speedtest.py:seq_assoc", "parallel_control/hjb_grid_1d_speedtest.py:seq_assoc_speedtest", "parallel_control/hjb_grid_1d_speedtest.py:par_assoc", "parallel_control/hjb_grid_1d_speedtest.py:par_assoc_speedtest"]}
{"id": "C85", "title": "Convergence of the continuous-time passes to the optimal control", "statement": "Let the data of a continuous-time LQT problem be continuous over the horizon, U symmetric positive definite and X and XT positive semidefinite. Then the Riccati equation of riccati_ode_f has exactly one solution over the horizon, and it is positive semidefinite. For every accuracy eps there is a step count N0 such that for all N >= N0 seqBackwardPass with N steps completes and every S, v, gain and offset it returns differs by at most eps per entry from the exact value at its time; the backward pass followed by seqForwardPass, with or without zero-order hold, completes and returns states and controls within eps of an optimal trajectory. The same holds for the parallel forward pass with every split into blocks and for the sequential passes of clqt_tf.py.", "quantifier": "for all problems with continuous data, initial states, accuracies and step counts beyond N0", "why_tests_cant": "a test compares finitely many step counts of one problem in floating point; convergence is a statement about all step counts and all problems", "anchors": ["parallel_control/clqt_np.py:riccati_ode_f", "parallel_control/clqt_np.py:seqBackwardPass", "parallel_control/clqt_np.py:seqForwardPass", "parallel_control/clqt_np.py:parForwardPass", "parallel_control/clqt_tf.py:clqt_seq_backwardpass", "parallel_control/clqt_tf.py:clqt_seq_forwardpass"]}
{"id": "C86", "title": "Completion and convergence of the parallel continuous-time passes", "statement": "Let the data of a continuous-time LQT problem be continuous over the horizon, U symmetric positive definite and X and XT positive semidefinite. For every number of blocks and every accuracy eps there is a number of steps N0 such that for all steps >= N0 and both values of forward parBackwardPass completes (although the Runge-Kutta block elements need not be positive semidefinite) and every S, v, gain and offset it returns differs by at most eps per entry from the exact one; parForwardPass without zero-order hold and seqForwardPass with or without it complete on its gains with states and controls within eps of an optimal trajectory. The TensorFlow pass with any associative scan returns the same result whenever it completes, and completes with scans of finite depth. The errors reported by the speed tests of the parallel backward and backward-forward pipelines tend to zero with the number of steps.", "quantifier": "for all problems with continuous data, numbers of blocks, initial states, accuracies and step counts beyond N0", "why_tests_cant": "a test compares finitely many step counts of one problem in floating point; completion and convergence are statements about all step counts, block counts and problems", "anchors": ["parallel_control/clqt_np.py:parBackwardPass_init", "parallel_control/clqt_np.py:parBackwardPass_extract", "parallel_control/clqt_np.py:parBackwardPass", "parallel_control/clqt_np.py:parForwardPass", "parallel_control/clqt_tf.py:clqt_par_backwardpass", "parallel_control/contlin_speedtest.py:clqt_par_bw_speedtest"]}
{"id": "C87", "title": "Completion and convergence of the forward-backward passes", "statement": "Let the data of a continuous-time LQT problem be continuous over the horizon, U symmetric positive definite and X and XT positive semidefinite. Then for every initial state there is an optimal trajectory such that for every accuracy eps and enough steps the sequential backward pass, seqFwdBwdPass and combineForwardBackward complete (no matrix 1 + C S is singular) with states and controls within eps of it; the same holds, for every number of blocks and all values of forward, for parBackwardPass followed by parFwdBwdPass, and for the passes of clqt_tf.py with every associative scan of finite depth. The speed test of the parallel backward and forward-backward pipeline completes from some number of steps on and its reported error tends to zero.", "quantifier": "for all problems with continuous data, numbers of blocks, initial states, accuracies and step counts beyond N0", "why_tests_cant": "a test compares finitely many step counts of one problem in floating point; regularity of all the systems and convergence are statements about all step counts, block counts and problems", "anchors": ["parallel_control/clqt_np.py:seqFwdBwdPass", "parallel_control/clqt_np.py:combineForwardBackward", "parallel_control/clqt_np.py:parFwdBwdPass_init", "parallel_control/clqt_np.py:parFwdBwdPass_extract", "parallel_control/clqt_np.py:parFwdBwdPass", "parallel_control/clqt_tf.py:clqt_par_fwdbwdpass", "parallel_control/clqt_tf.py:clqt_combine_fwdbwd", "parallel_control/contlin_speedtest.py:clqt_par_bw_fwbw_speedtest"]}
{"id": "C88", "title": "Arguments, test masks and file names of the experiment scripts", "statement": "All eight experiment scripts accept a command line iff every argument has the form key=value with exactly one '=', a known key and a value its conversion accepts; the last value given for a key wins and defaults fill the rest. Otherwise the first bad argument decides between the exception of the conversion and sys.exit(1), and no file is written. int() accepts exactly optional white space, a sign and digit groups joined by single underscores, and reads back what %d prints. Exactly the tests whose bit is set in the two's complement mask run, in order, and a failing test leaves the files of the earlier ones. The keys in the usage text are the accepted ones in all scripts but run_viterbi_experiments.py, whose key steps exits. File names of the linear scripts determine model, test, n, block length or iteration number, the letters of the device and the thread mode, and nothing else.", "quantifier": "for all command lines, configurations, masks, test lists and device names", "why_tests_cant": "the argument lists, masks and names are unbounded; injectivity of the file names is a statement about all pairs of configurations", "anchors": ["experiments-bellman/run_linear_experiments.py:main", "experiments-bellman/run_finite_experiments.py:main", "experiments-bellman/run_nonlinear_experiments.py:main", "experiments-hjb/run_contlin_experiments.py:main", "experiments-hjb/run_nonlin_experiments.py:main", "experiments-viterbi/run_viterbi_experiments.py:main", "experiments-viterbi/run_text_experiments.py:main", "experiments-viterbi/run_text_experiments_2.py:main", "experiments-bellman/run_linear_experiments.py:write_to_file", "experiments-hjb/run_contlin_experiments.py:write_to_file"]}
{"id": "C89", "title": "End-to-end behaviour of the Bellman experiment scripts", "statement": "For every accepted command line with admissible ranges, run_linear_experiments.py (tracking and mass model), run_finite_experiments.py and run_nonlinear_experiments.py complete and write exactly one file per selected test, in the order of the mask bits, with one line per number of steps of the logarithmic grid (rounded to multiples of 10 where the generator does so) and the right dimension (4; 2 n; nx; 4). For the tracking model with a block length that leaves a block of one step only the first five files are written and the script raises LinAlgError iff a condensed test is selected; an unknown model exits iff a test is selected; too small start raises IndexError or ValueError without any file.", "quantifier": "for all command lines, ranges, sizes, block lengths, masks, devices and associative scans", "why_tests_cant": "a run covers one command line and takes hours on a GPU; the claim is about all admissible command lines", "anchors": ["experiments-bellman/run_linear_experiments.py:main", "experiments-bellman/run_finite_experiments.py:main", "experiments-bellman/run_nonlinear_experiments.py:main", "experiments-bellman/run_linear_experiments.py:get_generator", "experiments-bellman/run_finite_experiments.py:write_to_file", "experiments-bellman/run_nonlinear_experiments.py:write_to_file"]}
{"id": "C90", "title": "End-to-end behaviour of the HJB experiment scripts", "statement": "run_contlin_experiments.py: for fixed numbers of blocks and any accuracy, from some number of steps on, every accepted command line writes one table and one dictionary per selected test in the order of the mask bits and ends without failure (with niter positive for the Parareal tests and at least the number of blocks minus one for the last of them); the errors of the sequential tests are zero, those of the parallel tests are within the accuracy, and those of the Parareal tests are zero for at most niter + 1 blocks. For every positive number of steps the sequential files have zero errors; niter=0 raises IndexError after the sequential files iff a Parareal test is selected; a model other than tracking exits without files. run_nonlin_experiments.py: the upwind test reports zero errors; if the direct shooting completes all selected tests complete unless the first number of blocks is one, when the parallel test raises ValueError after the other files; if it fails its exception ends the script after the upwind file iff another test is selected; the model name only enters the file names.", "quantifier": "for all command lines, block ranges, numbers of steps, iterations, grid sizes, masks, devices and associative scans", "why_tests_cant": "The claims quantify over all command lines, block counts and numbers of steps and contain a limit in the number of steps; a test runs one command line on one device.", "anchors": ["experiments-hjb/run_contlin_experiments.py:main", "experiments-hjb/run_contlin_experiments.py:write_to_file", "experiments-hjb/run_nonlin_experiments.py:main", "experiments-hjb/run_nonlin_experiments.py:write_to_file"]}
{"id": "C91", "title": "End-to-end behaviour of the Viterbi and text experiment scripts", "statement": "run_viterbi_experiments.py: for all random numbers and accepted command lines with at least two steps everywhere, every selected test completes and its file holds zero errors; if the first number of steps is one, ValueError ends the script after the file of the sequential test iff a parallel test is selected; if it is zero no file is written and IndexError or ValueError is raised iff a test is selected. text_error is the fraction of differing positions, in [0,1], zero iff the second text begins with the first, ZeroDivisionError for an empty text and IndexError for a shorter second one. run_text_experiments.py: for every text over the alphabet with at least two characters, training text, order >= 1 and generator contract, the script writes one table with one line per selected method and the dictionary; the reported errors of methods 1 to 3 are those of one and the same most probable state sequence of the hidden Markov model of the training text given the disturbed text, every state of the sequence of method 4 lies on a most probable one, and it is the same if that is unique. One character with a parallel method: ValueError; no characters: ZeroDivisionError; a character outside the alphabet: KeyError; nothing is written. run_text_experiments_2.py ends as the first script does on the first N characters and writes the same lines with N added.", "quantifier": "for all command lines, texts, orders, random numbers and generators, masks, devices, argmins and associative scans", "why_tests_cant": "The texts, orders, random draws and ties are unbounded; a test sees one text and one draw, and the scripts do not compare the four state sequences.", "anchors": ["experiments-viterbi/run_viterbi_experiments.py:main", "experiments-viterbi/run_viterbi_experiments.py:write_to_file", "experiments-viterbi/run_text_experiments.py:main", "experiments-viterbi/run_text_experiments.py:text_error", "experiments-viterbi/run_text_experiments.py:write_to_file", "experiments-viterbi/run_text_experiments_2.py:main", "experiments-viterbi/run_text_experiments_2.py:text_error", "experiments-viterbi/run_text_experiments_2.py:write_to_file"]}
{"id": "C92", "title": "The shell files that run the experiments: what every command writes, and which results are lost", "statement": "For every scan, argmin and random generator meeting their contracts: all commands of the tracking, mass, finite-state and nonlinear shell files end without failure, and the files written by each of them, with names and tables, are exactly the listed ones; so do the Viterbi files, with zero errors, and, for texts over the alphabet of at least two characters, the text files. The HJB commands write the upwind table and, if the direct shooting for a block succeeds, the tables of the two other tests, otherwise they fail as the shooting does. The continuous-time tracking commands write the tables of the two sequential tests with zero errors and go on until a test fails. As to the directory res: the files 2b run after 2a change nothing; gpu_viterbi_2 replaces all files of gpu_viterbi_1; gpu_mass_2 replaces the tables for 256 masses by shorter ones; gpu_ctracking_2 replaces the sequential results of gpu_ctracking_1; the loop over the text lengths leaves one dictionary per device, that of the last length; the remaining Bellman files write 247 tables under different names.", "quantifier": "all scans, argmin choices, random numbers, texts over the alphabet and previous contents of the directory", "why_tests_cant": "the outcome depends on the implementation of the scan and argmin, on random numbers and on the order in which the shell files are run; the experiments take hours and need a GPU", "anchors": ["experiments-bellman/cpu_tracking_2a.sh:15-22", "experiments-bellman/gpu_tracking_2b.sh:15-21", "experiments-bellman/gpu_mass_1.sh:22-31", "experiments-bellman/gpu_mass_2.sh:15-25", "experiments-bellman/cpu_finite_1.sh:19-21", "experiments-hjb/gpu_ctracking_1.sh:15-16", "experiments-hjb/gpu_ctracking_2.sh:16-17", "experiments-hjb/gpu_nonlin_1.sh:10-18", "experiments-viterbi/gpu_viterbi_1.sh:11-12", "experiments-viterbi/gpu_viterbi_2.sh:11-12", "experiments-viterbi/gpu_text_2_steps.sh:15-19"]}
{"id": "C93", "title": "The stationary LQR notebook: exact content of its plot and printout", "statement": "For every convex regulator and every stationary positive semidefinite solution returned by the Riccati solver, the classical curve of the notebook is the Frobenius distance after k+1 Riccati steps and the doubling curve that after 2^(k+1)-1 steps; neither curve ever rises, the doubling curve never lies above the classical one and both start in the same point; the cell fails exactly when the Riccati solver fails. Without detectability the curves need not tend to zero. For the model of the notebook the printed matrix has a closed form whose digits agree with the recorded output, both curves are positive and strictly decreasing, the doubling error is at most 10^(-2^k) times and the classical one at most 10^(-floor((k+2)/2)) times the norm of the solution, and the classical error is at least c r^k for some c, r > 0, so it is only linear.", "quantifier": "all convex regulators, Riccati solvers meeting their contract and numbers of iterations", "why_tests_cant": "a plot shows 16 points in rounded arithmetic, where both curves end at the rounding level; that they never rise, never reach zero and have the stated rates are statements on all numbers of iterations", "anchors": ["notebooks/lqr_iter_demo.ipynb:74-96", "notebooks/lqr_iter_demo.ipynb:149-167", "parallel_control/lqt_np.py:335-388"]}
{"id": "C94", "title": "The continuous-time notebook: least-squares fit of the reference and printed errors", "statement": "For every 50 points the normal equations of the trigonometric fit are nonsingular; the coefficients are the mean and 2/50 times the sums against the cosines and sines of frequencies 1 to 6, they are the unique minimiser of the sum of squares, the minimum is given by Parseval's identity, and points of a curve of the model class give its coefficients back. For every sequence of random numbers the cell succeeds with means in (0.5, 9.5) and other coefficients below 9; rounding the coefficients to four decimals moves the curve by at most 6.5e-4. The NumPy and the TensorFlow sequential passes return the same states and controls, so the printed error is zero in exact arithmetic, with 5001 states at the times k/100; the sequential speed tests print 0. The parallel cells fail exactly when the parallel forward-backward pipeline does, and otherwise print the largest distances of the trajectories of the parallel, forward-backward and Parareal pipelines to the sequential one.", "quantifier": "all point sequences and random numbers; all problems with positive definite control weight, scans meeting the contract and numbers of blocks and steps", "why_tests_cant": "the fit depends on random points, uniqueness and the bounds are statements about all of them; the equality of the two implementations is hidden by rounding errors of 5e-15 in the recorded output", "anchors": ["notebooks/contlin_demo.ipynb:71-131", "notebooks/contlin_demo.ipynb:203-246", "notebooks/contlin_demo.ipynb:357-400", "notebooks/contlin_demo.ipynb:431-537", "notebooks/contlin_demo.ipynb:576-609"]}
{"id": "C95", "title": "The finite-state and Gilbert-Elliot notebooks: least cost over lane paths and printed differences", "statement": "For all random numbers, lanes and horizons the minimal cost of the finite-state notebook is the least value, over all paths that start in the middle lane and change at most one lane per step, of the visited cells plus the number of changes; the saved states are the first T lanes of such a path, the cost lies between T/100 and T and is a whole number of hundredths. Both numpy parallel solutions return the same cost and the same trajectory, so the four printed differences are 0, also when the optimal path is not unique. The TensorFlow cell completes for every minimiser, prints the shapes (T, nx, 3), (T, nx, 3), (nx,) and the same cost; its differences are all 0 if tf.argmin returns the smallest index, and may be positive otherwise (witness with seven lanes and four steps). The Gilbert-Elliot cell prints 0 for the value functions for every minimiser, 0 for the paths if ties are broken by the smallest index or the most probable path is unique, the shape (3, T), and saves the generated data with the states 1 to T of a most probable path.", "quantifier": "all random numbers, numbers of lanes, horizons up to 10^19 (numpy), 10000 (TensorFlow default of max_parallel) and 10^18 (Gilbert-Elliot), all minimisers and associative scans", "why_tests_cant": "the notebook shows one random track; that the second parallel method agrees despite several optimal paths is a statement about all tracks, and the dependence on ties is invisible in one run", "anchors": ["notebooks/finite_demo.ipynb:98-115", "notebooks/finite_demo.ipynb:160-171", "notebooks/finite_demo.ipynb:255-284", "notebooks/viterbi_ge_demo.ipynb:52-82"]}
{"id": "C96", "title": "The linear tracking and mass notebooks: optimal trajectories, printed differences, lengths and plotted times", "statement": "For all random numbers and N >= 1 points the sequential cells of the tracking notebook complete: the first file has the N points as columns, the second the 10N+1 states of the motion with piecewise constant accelerations from rest in (5, 5), and these accelerations are the unique minimiser of the tracking cost; without points genData raises IndexError. For N <= 1000 all 14 differences printed for the numpy and TensorFlow methods are 0 in exact arithmetic. The controls are plotted over 10N times from 0 to N although control k starts at k/10: every control but the first is drawn late, the last by 1/10. tracking_generator(2, 3, 10) has the lengths 100, 129, 166, 215, 278, 359, 464, 599, 774, 1000 and both speed tests report these rounded down to multiples of ten with dimension 4. For N >= 1 masses the mass notebook plots the positions of the masses and the controls at the exact times 0.005k, k <= 2000, of the motion of the chain whose controls are the unique minimiser; for five masses the printed matrix is the recorded one.", "quantifier": "all random numbers, numbers of points (<= 1000 for the TensorFlow methods with the default max_parallel) and of masses, all associative scans", "why_tests_cant": "the notebook shows one random trajectory in floating point; agreement of the methods, uniqueness of the optimum and the shift of the plotted times are statements about all inputs and continuous motions", "anchors": ["notebooks/linear_demo.ipynb:87-93", "notebooks/linear_demo.ipynb:125-128", "notebooks/linear_demo.ipynb:170-186", "notebooks/linear_demo.ipynb:218-220", "notebooks/linear_demo.ipynb:262-277", "notebooks/linear_demo.ipynb:364-380", "notebooks/linear_demo.ipynb:423-441", "notebooks/linear_demo.ipynb:480-498", "notebooks/linear_demo.ipynb:562-571", "notebooks/mass_demo.ipynb:85-106", "notebooks/mass_demo.ipynb:148-162"]}
{"id": "C97", "title": "The nonlinear tracking notebook: saved data, printed costs, agreement of numpy and TensorFlow, fixed points", "statement": "Without data points the cells raise IndexError. For N >= 1 nlqt_xyt_dense.txt has three rows and N columns: the points of the closed curve at the parameters 2 pi k/(N-1) with headings towards the next point; nlqt_xyt.txt holds every tenth column and the headings are plotted over the parameters. For every number of iterations the cells complete, the printed costs are the tracking costs of the motions of the vehicle, from rest in the first point, under the controls of the successive iterations from the zero guess (the same for all LQT methods), and nlqt_xp_np.txt holds the motion under the last controls. The states of the first iteration keep the second coordinate 7 whatever the targets are. For N <= 10000 and every associative scan the TensorFlow cell prints the same costs and the differences 0. One more iteration changes neither controls nor states exactly if the states are the plotted motion and the tracking cost is stationary at the controls in every direction.", "quantifier": "all numbers of points (<= 10000 for TensorFlow with the default max_parallel), all numbers of iterations, all associative scans, all directions", "why_tests_cant": "the notebook shows ten iterations for one N in floating point; agreement in exact arithmetic, the meaning of the costs and the stationarity of a point at which the printed cost stops changing are statements about all inputs and directions", "anchors": ["notebooks/nonlinear_demo.ipynb:100-113", "notebooks/nonlinear_demo.ipynb:145-147", "notebooks/nonlinear_demo.ipynb:203-221", "notebooks/nonlinear_demo.ipynb:274-290", "notebooks/nonlinear_demo.ipynb:426-456"]}
{"id": "C98", "title": "The batched tensor code of fsc_tf.py computes the finite-state recursions step by step", "statement": "Modelled operation by operation on tensors (reshape, tile, expand_dims, concat, broadcasting sum, reduce_min, argmin, gather, gather_nd with batch dimensions, tensor_scatter_nd_update, reverse, slicing, scan over the first axis), the functions of fsc_tf.py succeed on tensors holding a problem and return tensors holding what the functional model (C62) returns: the scatter that builds all elements at once gives min over u of L[k,x,u] where f[k,x,u]=x' and the sentinel elsewhere, the batched combinations act on each pair of items, and the sequential and parallel backward, forward and forward-backward passes agree with the functional ones for every associative scan and every minimiser. The sequential passes and the parallel forward pass return an optimal trajectory whose cost is entry [0,x0] of the value tensor. A transition to a state that does not exist raises in the scatter, and fsc_par_fwdbwdpass raises without steps.", "quantifier": "all numbers of steps, states and controls, all transitions and costs, all sentinels, all associative scans and minimisers, all values of the tensor representation outside its shape", "why_tests_cant": "index arithmetic with several axes can be right for the sizes and symmetric data of a test (for example equal numbers of states and controls or time-invariant data) and wrong for others", "anchors": ["parallel_control/fsc_tf.py:17-33", "parallel_control/fsc_tf.py:38-99", "parallel_control/fsc_tf.py:106-158", "parallel_control/fsc_tf.py:160-202", "parallel_control/fsc_tf.py:208-282", "parallel_control/fsc_tf.py:288-352"]}
{"id": "C99", "title": "The batched tensor code of viterbi_tf.py computes the Viterbi recursions and a maximum a posteriori path", "statement": "Modelled operation by operation on tensors, the functions of viterbi_tf.py succeed on tensors holding a hidden Markov model and observations in range and return tensors holding what the functional models (C17, C63) return: the elements gathered from the transposed emission matrix are -log Pi[j,x] - log Po[x,y_k] for each step after the prior repeated in every row, and viterbi_seq_fwbw, viterbi_par_fwbw, viterbi_seqpar_fwbw, viterbi_par_fwbwfw and, on the tensors of make_viterbi_fsc, viterbi_fsc_seq_bwfw, viterbi_fsc_par_bwfw and viterbi_fsc_par_bwfwbw agree with the functional ones for every associative scan and every minimiser. The first three direct routines return the same maximum a posteriori path, zero probabilities included, each state of the fourth lies on such a path, and all four return the same value functions. An observation without a column of the emission matrix raises when the elements are gathered, and make_viterbi_fsc raises without observations.", "quantifier": "all numbers of states, observation symbols and observations, all probabilities in the domain of the negative logarithm, all associative scans and minimisers", "why_tests_cant": "a transposed gather or a broadcast along the wrong axis is invisible for symmetric transition and emission matrices such as those of the Gilbert-Elliot model", "anchors": ["parallel_control/viterbi_tf.py:25-61", "parallel_control/viterbi_tf.py:69-124", "parallel_control/viterbi_tf.py:233-312", "parallel_control/viterbi_tf.py:315-397", "parallel_control/viterbi_tf.py:400-473", "parallel_control/viterbi_tf.py:476-541"]}
{"id": "C100", "title": "The batched tensor code of condensing_tf.py computes the condensed blocks", "statement": "Modelled operation by operation on tensors (concatenations, paddings, reshapes, batched products, block diagonals, slices and the batched solve), create_blkdiag puts the blocks of each item on the diagonal, with zeros elsewhere. On tensors holding the steps of a problem, condense completes exactly when the block recursions of C70 complete, its twelve tensors then hold the blocks, and otherwise it raises the same exception; for symmetric problems it completes if and only if the cost of every block is rigid, and raises LinAlgError otherwise. Blocks of length zero raise ZeroDivisionError. convertUX on tensors returns the controls and states of the block recursions, so that for any condensed controls and the states they lead to in the condensed problem it returns the controls one after the other, without those of the padding, and the states of the uncondensed problem.", "quantifier": "all numbers of steps, block lengths, state, control and output dimensions, all problems and all condensed controls", "why_tests_cant": "a reshape with exchanged factors or a padding on the wrong side is invisible for one block, for blocks of length one or for one-dimensional problems", "anchors": ["parallel_control/condensing_tf.py:15-29", "parallel_control/condensing_tf.py:31-42", "parallel_control/condensing_tf.py:44-134", "parallel_control/condensing_tf.py:136-162"]}
{"id": "C101", "title": "The batched tensor code of lqt_tf.py computes the Riccati recursions and the optimal trajectory", "statement": "Modelled operation by operation on tensors (batched products, transposes, Cholesky and LU factorisations, solves, concatenations, slices, reversals and scans over tuples of tensors), lqt_seq_backwardpass on tensors holding a symmetric problem completes exactly if seqBackwardPass of lqt_np.py does, with tensors holding its value functions, gains and offsets; so does lqt_par_backwardpass whenever it completes. lqt_gen_to_canon, lqt_seq_backwardpass and lqt_canon_to_gen in turn return tensors holding the result of the general recursion, exactly if that completes and all U are positive definite. lqt_seq_forwardpass and lqt_par_forwardpass return tensors holding the states and controls of seqForwardPass; lqt_par_fwdbwdpass does whenever it completes; lqt_cost is the cost. For convex problems all passes complete, agree and give the controls of smallest cost. Without a step both forward passes raise; with a state dimension of zero only the sequential one raises, because of Ls[0,0,:].", "quantifier": "all horizons, state, control and output dimensions, all problems over every ordered field and all associative scans", "why_tests_cant": "a transposition left out or a broadcast along the wrong axis is invisible for symmetric or one-dimensional matrices, for one step and for steps that are all equal, as in the test models", "anchors": ["parallel_control/lqt_tf.py:102-152", "parallel_control/lqt_tf.py:154-197", "parallel_control/lqt_tf.py:203-335", "parallel_control/lqt_tf.py:341-426", "parallel_control/lqt_tf.py:431-518", "parallel_control/lqt_tf.py:523-547", "parallel_control/lqt_tf.py:552-602"]}
{"id": "C102", "title": "The batched tensor code of nlqt_tf.py and nonlinear_model_tf.py computes the iterations of the nonlinear tracker", "statement": "Modelled operation by operation on tensors, nonlinear_model_f, nonlinear_model_Fx and nonlinear_model_Fu (column selections and tf.stack along axes 1 and 2) return, for any number of items, the next states of the vehicle of nonlinear_model_np.py and its two Jacobians. For any model functions that work item by item, nlqt_linearize returns the Jacobians and the offsets f - Fx x - Fu u of every step, nlqt_simulate the states of simulate and nlqt_cost the cost of nlqt_np.py. nlqt_iterate_seq completes exactly if the sequential method of iterate does, with tensors holding the same controls and states; nlqt_iterate_par_1 and nlqt_iterate_par_2 return the same whenever they complete, and for convex costs all three complete. Without a step the first two raise an IndexError while nlqt_iterate_par_2 returns the first state and no controls; with a state dimension of zero nlqt_iterate_seq raises.", "quantifier": "all horizons, dimensions, model functions on tensors that compute a model item by item, costs over every ordered field, nominal trajectories and associative scans; all steps dt of the vehicle", "why_tests_cant": "stacking the columns of a Jacobian along the wrong axis gives its transpose, which no shape check notices for a square matrix, and a test of one trajectory does not cover all dimensions and failures", "anchors": ["parallel_control/nlqt_tf.py:24-48", "parallel_control/nlqt_tf.py:51-71", "parallel_control/nlqt_tf.py:74-93", "parallel_control/nlqt_tf.py:95-119", "parallel_control/nlqt_tf.py:121-147", "parallel_control/nlqt_tf.py:149-175", "parallel_control/nonlinear_model_tf.py:19-24", "parallel_control/nonlinear_model_tf.py:26-43", "parallel_control/nonlinear_model_tf.py:45-54"]}
{"id": "C103", "title": "The batched tensor code of sqp_tf.py runs the iteration of sqp_np.py for every item", "statement": "Modelled operation by operation on tensors with batch=True: lqe_solve completes exactly if the optimality system of every item is regular, and item by item returns the x and the multiplier with G x + c = A^T lam and A x = b; without constraints it always raises, while lqe_solve of numpy has a solution. Although the tapes differentiate sums over the batch, fun_value_grad, con_value_jac and lag_value_grad_hess return the values, gradients, Jacobians and Hessians of each item. local_eq_fast completes exactly if the functional model of C76 does, with the same iterates, multipliers and criteria; it completes exactly if local_eq_fast of sqp_np.py completes for each item alone, and xs[j,b] is the point which that returns after j + 1 iterations. For strictly convex quadratic objectives and independent linear constraints it completes, and every iterate of every item is the unique minimiser of the item.", "quantifier": "all numbers of items, variables and constraints (at least one), parameters, starting points and numbers of iterations; all twice continuously differentiable programs whose tensor functions work item by item", "why_tests_cant": "that differentiating sums over the batch separates into the items, that one singular item makes the whole batch fail, and that the axes of the assembled systems fit are claims about all sizes and all programs", "anchors": ["parallel_control/sqp_tf.py:15-40", "parallel_control/sqp_tf.py:43-68", "parallel_control/sqp_tf.py:71-95", "parallel_control/sqp_tf.py:98-133", "parallel_control/sqp_tf.py:136-178"]}
{"id": "C104", "title": "The tensor code of the combinations and backward passes of hjb_grid_1d_tf.py computes what the numpy grid solver computes", "statement": "Modelled operation by operation on tensors: combine_V and combine_V2 are the min-plus product of each pair of items of a batch, whatever argmin does on ties; combine_V_interp, with its transposed gathers at reflected indices, interpolates each pair as the numpy function does if ties go to the first index; on a grid with a single point it raises. seq_bw_pass_symfd and seq_bw_pass_upwind raise exactly what the numpy passes raise and otherwise return a tensor with the value functions of the numpy passes at the block boundaries; on grids with fewer than two points they raise. Under the conditions of C43 every entry of the upwind tensor is bounded by the bounds of the costs. seq_bw_pass_assoc returns the iterated combinations; par_bw_pass completes with every associative scan, its row k is the first column of some bracketing of the remaining blocks and the terminal costs, and with at most one block it is the sequential result.", "quantifier": "all batches, grids, control grids, numbers of blocks and steps, block matrices (with nan entries), functions that work entry by entry, choices of argmin on ties and associative scans", "why_tests_cant": "the reflected indices at both ends of the grid, the slices of the differences for short grids, the strided rows and the bracketings chosen by a scan are claims about all sizes and all scans", "anchors": ["parallel_control/hjb_grid_1d_tf.py:228-239", "parallel_control/hjb_grid_1d_tf.py:241-255", "parallel_control/hjb_grid_1d_tf.py:269-295", "parallel_control/hjb_grid_1d_tf.py:316-368", "parallel_control/hjb_grid_1d_tf.py:370-421", "parallel_control/hjb_grid_1d_tf.py:428-456", "parallel_control/hjb_grid_1d_tf.py:458-486"]}
{"id": "C105", "title": "The tensor code of direct shooting in hjb_grid_1d_tf.py computes for every pair of grid points what the numpy code computes", "statement": "Modelled operation by operation on tensors: rk4 of diffeq_tf.py on a batch is the Runge-Kutta step of every item; fun_and_con_1 and fun_and_con_2 on a batch return for every item the cost and the constraint violation of the scalar shooting; different numbers of values and slopes raise. V_eval_1 and V_eval_2, with meshgrid, flattening, batched SQP and reshaping, complete exactly if the numpy function has a value for every pair of grid points, and then entry [i, j] is this value for start point i and end point j; without iterations they raise. For affine dynamics and quadratic costs V_eval_1, V_eval_2 and direct_shooting_block_V always complete and every entry is the least cost among the controls of the parametrisation that reach the end point.", "quantifier": "all grids of any two sizes, step numbers and iteration numbers from one on, twice differentiable dynamics and costs that work entry by entry, batches of any length", "why_tests_cant": "the interleaved parameters, the order of the mesh and of the reshaping, and the derivatives through the scan are claims about all grids, step numbers and smooth functions", "anchors": ["parallel_control/hjb_grid_1d_tf.py:41-79", "parallel_control/hjb_grid_1d_tf.py:82-125", "parallel_control/hjb_grid_1d_tf.py:138-178", "parallel_control/hjb_grid_1d_tf.py:181-220", "parallel_control/hjb_grid_1d_tf.py:423-426", "parallel_control/diffeq_tf.py:13-33"]}
{"id": "C106", "title": "The tensor code of clqt_tf.py computes the passes of the continuous-time tracker", "statement": "Modelled operation by operation on tensors: for functions that return the tensors of the matrices of a problem at every time, clqt_seq_backwardpass and clqt_seq_fwdbwdpass return the tensors of the gains and value functions of the numpy methods whenever those complete (for positive definite U they complete together); clqt_seq_forwardpass, clqt_combine_fwdbwd and, for any associative scan, clqt_par_forwardpass return the tensors of the numpy states and controls and complete exactly if numpy does, with and without zero-order hold; clqt_par_backwardpass and clqt_par_fwdbwdpass, with the batched passes over blocks, the slices and the reshapes, return the tensors of the numpy results if both complete, and with semidefinite elements of the blocks the backward passes do complete; without zero-order hold the parallel and the sequential forward pass return the same values. The defaults are the numpy ones. No gain, different numbers of gains and offsets, a number of gains that is not blocks*steps and blocks without steps raise.", "quantifier": "all continuous-time problems of any dimensions, numbers of blocks and steps, time steps, initial times, associative scans, both directions of integration in the blocks", "why_tests_cant": "the packing of matrices and vectors into one tensor, the positions of slices and reshapes and the order of the blocks are claims about all dimensions, numbers of blocks and numbers of steps", "anchors": ["parallel_control/clqt_tf.py:25-134", "parallel_control/clqt_tf.py:140-290", "parallel_control/clqt_tf.py:293-405", "parallel_control/clqt_tf.py:408-559", "parallel_control/clqt_tf.py:565-926", "parallel_control/clqt_tf.py:933-1210", "parallel_control/clqt_tf.py:1216-1347"]}
{"id": "C107", "title": "The tensor code of parareal_clqt_tf.py computes the parareal passes", "statement": "Modelled operation by operation on tensors (batched passes over the blocks, selections of the first and last item of a block, strides, concatenations, stacked iterates, reshapes): for functions that return the tensors of the matrices of a problem at every time and symmetric U, with at least one block, step and iteration, pclqt_backwardpass and pclqt_fwdbwdpass return the tensors of the numpy parareal passes with the same number of iterations whenever those complete (for positive definite U they complete together); pclqt_forwardpass on blocks*steps gains returns the tensors of the numpy states and controls, with and without zero-order hold, and completes exactly if numpy does. With at least blocks-1 iterations each returns the tensors of the sequential numpy pass on the fine grid, and so do the two pipelines. Without iterations all three passes raise, unlike numpy; with another number of gains or offsets the reshapes raise.", "quantifier": "all continuous-time problems of any dimensions, numbers of blocks, steps and iterations, initial states, gains", "why_tests_cant": "the positions of selections, strides, concatenations and reshapes and finite termination are claims about all dimensions, numbers of blocks, steps and iterations", "anchors": ["parallel_control/parareal_clqt_tf.py:24-41", "parallel_control/parareal_clqt_tf.py:44-70", "parallel_control/parareal_clqt_tf.py:73-117", "parallel_control/parareal_clqt_tf.py:120-160", "parallel_control/parareal_clqt_tf.py:163-202", "parallel_control/parareal_clqt_tf.py:209-352", "parallel_control/parareal_clqt_tf.py:356-415", "parallel_control/parareal_clqt_tf.py:422-571", "parallel_control/parareal_clqt_tf.py:574-637"]}
{"id": "C108", "title": "The tensors of the TensorFlow models, and what the solvers compute from them", "statement": "Modelled on tensors, get_clqt returns the tensors of the numpy tracking problem, its terminal cost and initial state; linear_model, velocity_model and upwind_model return functions and grids that hold the numpy models, and raise without states or controls; the running cost of the upwind model is a scalar tensor. On these tensors, also with the scalar running cost, the finite difference passes raise what the numpy passes raise and otherwise return their value functions. upwind_model_block_V returns the square tensor that is zero at the points reachable from a non-negative point in the time of a block and inf_value elsewhere, and inf_value in every row of a negative point. For continuous data with positive definite symmetric U and semidefinite weights there is one optimal trajectory such that, for every accuracy and with enough steps in total, the tensors of states and controls returned by the sequential passes of clqt_tf.py (with or without zero-order hold) and by pclqt_backwardforwardpass with at least blocks-1 iterations are that near to it; in particular for the tensors of get_clqt.", "quantifier": "all grid sizes, numbers of blocks, steps and iterations, accuracies, continuous-time problems with continuous data", "why_tests_cant": "agreement for all grid sizes and convergence of the returned tensors to an optimal trajectory are claims about infinitely many runs", "anchors": ["parallel_control/linear_model_tf.py:15-70", "parallel_control/cnonlin_models_tf.py:9-38", "parallel_control/cnonlin_models_tf.py:41-72", "parallel_control/cnonlin_models_tf.py:75-99", "parallel_control/cnonlin_models_tf.py:101-121", "parallel_control/hjb_grid_1d_tf.py:97", "parallel_control/clqt_tf.py:140", "parallel_control/parareal_clqt_tf.py:574-637"]}
{"id": "C109", "title": "The tensors of the parallel continuous-time passes and of the upwind pass converge", "statement": "For continuous data with positive definite symmetric U, semidefinite weights and at least one state there is an optimal trajectory such that for every number of blocks and every accuracy, from some number of steps in a block on, clqt_par_backwardpass on tensors with its default values and any associative scan of finite depth completes, and the tensors of states and controls returned by clqt_par_forwardpass (without zero-order hold) and by clqt_seq_forwardpass are that near to it. Likewise for the forward-backward passes: the sequential ones combined by clqt_combine_fwdbwd, and clqt_par_backwardpass followed by clqt_par_fwdbwdpass, in both directions of integration. In particular for the tensors of get_clqt. If the Hamilton-Jacobi-Bellman equation has a solution with Lipschitz derivatives and the step satisfies the stability conditions, every entry of the tensor of seq_bw_pass_upwind is within T(A dt + F B dx) of it; on the tensors of upwind_model the entries are above the smallest reachable terminal cost by at most max(0,x) exp(tau) tau dt/2.", "quantifier": "all continuous-time problems with continuous data, numbers of blocks and steps, accuracies, associative scans of finite depth, grids", "why_tests_cant": "completion and convergence from some number of steps on, for every scan order, are claims about infinitely many runs", "anchors": ["parallel_control/clqt_tf.py:565-584", "parallel_control/clqt_tf.py:886-930", "parallel_control/clqt_tf.py:1177-1213", "parallel_control/clqt_tf.py:1316", "parallel_control/clqt_tf.py:541-559", "parallel_control/clqt_tf.py:1216-1229", "parallel_control/hjb_grid_1d_tf.py:370-421", "parallel_control/linear_model_tf.py:15-70", "parallel_control/cnonlin_models_tf.py:75-99"]}
{"id": "C110", "title": "Parallel forward pass of the continuous-time tracker with a zero-order hold", "statement": "On blocks*steps gains parForwardPass with u_zoh=True completes: at the boundaries of the blocks its states are those of the sequential pass without hold, its controls are -Kx x + d at its states, and inside a block every state is a Runge-Kutta step from the state before with that state's control. So with one step in each block u_zoh has no effect, and with one block the controls and all states but the last are those of the sequential pass with hold while the last one is the state without hold. For continuous data with positive definite symmetric U and semidefinite weights there is an optimal trajectory such that for every number of blocks and every accuracy, from some number of steps in a block on, parBackwardPass completes and parForwardPass with either u_zoh gives states and controls that near to it; the same for the tensors of clqt_par_backwardpass and clqt_par_forwardpass with every associative scan of finite depth.", "quantifier": "all continuous-time problems, gains, numbers of blocks and steps, time steps and start times; for convergence all continuous data and accuracies", "why_tests_cant": "the tests of the repository only compare the passes without hold; the states at the boundaries and the convergence concern all problems and infinitely many runs", "anchors": ["parallel_control/clqt_np.py:1476-1622", "parallel_control/clqt_np.py:1054-1095", "parallel_control/clqt_tf.py:1177-1213", "parallel_control/clqt_tf.py:565-584"]}
{"id": "C111", "title": "The unit tests of the finite-state solvers pass for every random draw", "statement": "setupFSC builds nine stages with terminal costs one. Whatever the draws of its generator in [0,1] are, the problem has exactly one optimal control sequence [2,1,1,1,0,0,1,1,1] with states [1,2,2,2,2,1,0,0,0,0], cost 7 plus a hundredth of the draws along it, and every other sequence costs at least 0.9 more; all nine tests of test_fsc_np.py complete and their assertions hold. More generally test_par_simple, test_par_backscan, test_par_back, test_par_forscan, test_sim and test_cost pass on every problem with costs bounded by B, (2T+1)B <= 1e20, and test_par_fbscan and test_par_fbscan2 if in addition the optimal trajectory is unique; with two optimal trajectories test_par_fbscan can fail.", "quantifier": "all tables of draws in [0,1]; for the general part all finite-state problems with bounded costs and all initial states", "why_tests_cant": "the tests run with one seed only; that they do not depend on it, and which problems they would accept, concerns uncountably many tables of draws and all problems", "anchors": ["tests/test_fsc_np.py:17-164", "parallel_control/fsc_np.py:115-165", "parallel_control/fsc_np.py:169-321", "parallel_control/fsc_np.py:459-607"]}
{"id": "C112", "title": "The unit tests of the TensorFlow finite-state solvers pass for every random draw", "statement": "Whatever the draws in [0,1] of setupFSC in test_fsc_tf.py are, its problem has exactly one optimal control sequence [2,2,1,1,0,0,0,1,1] from state 1, with cost 10.9 plus a hundredth of the draws along it. With any associative scan all four tests complete and their assertions hold if tf.argmin returns the first minimiser, and test_parfwd_1 and test_parfwd_2 do whatever minimisers it returns. In general test_sequential, test_parback and test_parfwd_1 pass with the first minimiser on every problem with costs bounded by B, (2T+1)B <= 1e20, and test_parfwd_1 and test_parfwd_2 with any minimiser if the optimal control sequence is unique and (2T+2)B < 1e20; with the last minimiser test_sequential fails on a problem with a tie.", "quantifier": "all tables of draws in [0,1], all associative scans, all choices of minimisers; for the general part all finite-state problems with bounded costs", "why_tests_cant": "the tests run with one seed, one scan and one choice of minimisers only", "anchors": ["tests/test_fsc_tf.py:19-156", "parallel_control/fsc_tf.py:39-99", "parallel_control/fsc_tf.py:106-202", "parallel_control/fsc_tf.py:208-352"]}
{"id": "C113", "title": "What passing the unit tests of the finite-state solvers implies", "statement": "If test_par_back passes on a problem with at least one step, the parallel pass returns the policies of the sequential pass and value functions within 1e-10 in every entry; if test_par_fbscan passes, the combined pass returns an optimal trajectory whose cost is the value of the parallel pass up to 1e-10; if test_sequential, test_parback or test_parfwd_1 of test_fsc_tf.py pass, the TensorFlow passes complete with the policies, respectively the controls and states, of the numpy passes and value functions within 1e-6. test_par_fbscan2 implies less: it passes on a problem where both combined passes return states that no control sequence produces.", "quantifier": "all finite-state problems, initial states, sentinels, minimisers and scans", "why_tests_cant": "a test cannot tell what its own success implies for all problems it could be run on", "anchors": ["tests/test_fsc_np.py:88-98", "tests/test_fsc_np.py:116-144", "tests/test_fsc_tf.py:55-127"]}
{"id": "C114", "title": "Fourth-order accuracy of the Runge-Kutta integrator on linear equations, and its unit tests", "statement": "On dx/dt = F x in any Banach space rk4 is a method of order four: N steps over a horizon T (of either sign) with |T| ||F|| <= N complete and end within |T|^5 ||F^5|| exp(|T| ||F||) ||x0|| / (100 N^4) of the exact solution, and the order cannot be raised: one step of length dt on dx/dt = x is off by at least dt^5/120. test_rk4_1, test_rk4_4 and test_rk4_5 pass for all c, x0, dt and numbers of steps for which the tolerance exceeds these bounds, test_rk4_3 for all matrices and initial states, and all four pass on the data of the file.", "quantifier": "all Banach spaces, continuous linear maps, solutions, horizons and numbers of steps", "why_tests_cant": "the tests integrate one number and one matrix with ten steps; the order of the error is a statement on all step lengths", "anchors": ["parallel_control/diffeq_np.py:27-50", "tests/test_diffeq_np.py:15-35", "tests/test_diffeq_np.py:54-66", "tests/test_diffeq_np.py:68-110"]}
{"id": "C115", "title": "Unit tests of the linear quadratic regulator and tracker", "statement": "The tests of test_lqt_np.py that compare passes with each other pass on every convex regulator for every positive horizon and on every convex tracker with at least one step, from every initial state; the data of setUp and setupLQR are convex. On problems with symmetric weights, convex or not, the comparisons of the tracker may raise an exception but no assertion fails; test_trans_pass passes exactly if there is a step, every U is invertible, the output dimension is constant and the direct pass with Z = I completes; test_cost passes exactly if some perturbation is not zero, whenever the backward pass completes. The random problem of setupRndLQT is symmetric for all draws but not always convex: there are draws for which both backward passes raise and none of its tests passes.", "quantifier": "all regulators, trackers, horizons, initial states and random draws", "why_tests_cant": "each test runs one problem, the random ones a single seed", "anchors": ["tests/test_lqt_np.py:22-31", "tests/test_lqt_np.py:52-72", "tests/test_lqt_np.py:105-119", "tests/test_lqt_np.py:128-278", "tests/test_lqt_np.py:280-437"]}
{"id": "C116", "title": "Unit tests of the discretisation and of linearise and simulate", "statement": "Both tests of test_disc.py pass for every noise density and every nonnegative step length. test_linearize of test_nlqt_np.py passes exactly if there are at least two controls and neither the stages nor the states are fewer than the controls; in particular replacing the Jacobians of the model by any others never changes its outcome. test_simulate passes exactly if there are a control and a state.", "quantifier": "all noise densities, nonnegative step lengths, nonlinear models (with arbitrary Jacobians), trackers and nominal trajectories", "why_tests_cant": "each test runs one set of values; that a test is blind to wrong derivatives is a statement about all programs it would accept", "anchors": ["tests/test_disc.py:15-27", "tests/test_disc.py:30-45", "tests/test_nlqt_np.py:45-55", "tests/test_nlqt_np.py:57-60"]}
{"id": "C117", "title": "Unit tests of partial condensing", "statement": "For problems with symmetric weights, without Z, s and M and with one output dimension, test_convertXY_1, test_convertXY_2 and the two single-block tests may raise an exception but never fail an assertion, for any block length and positive tolerance. On convex problems they pass exactly if condensing completes; then test_condensing_2 passes as well, and so does test_condensing_1 if the block length divides the number of steps. On convex regulators with positive definite state weight condensing completes for every positive horizon and block length. The random problem of setupRndLQT is convex for all draws, but if the number of steps is one more than a multiple of the block length condensing raises LinAlgError for all draws, because three outputs do not determine four states. There are draws for which the single-block tests pass.", "quantifier": "all problems, horizons, block lengths, initial states, tolerances and random draws", "why_tests_cant": "each test runs one horizon, one block length and one seed, none with a block of a single step", "anchors": ["tests/test_condensing_np.py:34-57", "tests/test_condensing_np.py:59-89", "tests/test_condensing_np.py:91-118", "tests/test_condensing_np.py:120-165", "tests/test_condensing_np.py:167-190", "tests/test_condensing_np.py:192-213", "tests/test_condensing_np.py:215-236"]}
{"id": "C118", "title": "Unit tests that compare the Viterbi decoders", "statement": "For every hidden Markov model with positive probabilities: test_ref_viterbi_log and test_ref_viterbi_log_v2 pass for all observations; test_fsc_1, test_fsc_2, test_fsc_3 and test_seq_viterbi pass for all nonempty observations, ties included, and raise IndexError without observations. If the negative log probabilities are at most B and (2T+2)2B < 1e20, test_par_viterbi_1 passes, and test_par_viterbi_2 passes exactly if the decoder returns the reference path, in particular if the most probable path is unique. For the Gilbert-Elliot model all but test_par_viterbi_2 pass for all observations of length from 1 to 10^18.", "quantifier": "all positive hidden Markov models and observation sequences", "why_tests_cant": "each test decodes one generated sequence of the Gilbert-Elliot model", "anchors": ["tests/test_viterbi_np.py:63-89", "tests/test_viterbi_np.py:92-152", "tests/test_viterbi_np.py:154-166", "tests/test_viterbi_np.py:169-181", "tests/test_viterbi_np.py:184-200"]}
{"id": "C119", "title": "Which states the forward value passes return when the optimum is not unique", "statement": "If all optimal costs are below the sentinel, the state that parFwdBwdPass and parFwdBwdPass2 return for step k is the least one that some optimal trajectory from x0 visits at step k, and the two passes return the same controls and states, ties included. parBwdFwdBwdViterbi ends in the least state z in which a most probable path ends and returns at every other time the least state visited by a most probable path that ends in z. There is a hidden Markov model with positive probabilities and rows that sum to one, and two observations, for which it thus returns a path that is not most probable, so that test_par_viterbi_2 fails on it although test_par_viterbi_1 passes.", "quantifier": "all finite-state problems with at least one step, initial states, positive hidden Markov models and nonempty observations below the sentinel", "why_tests_cant": "each test runs one problem; a rule for ties is a statement about all problems with ties", "anchors": ["parallel_control/fsc_np.py:401-475", "parallel_control/fsc_np.py:482-553", "parallel_control/viterbi_np.py:227-246", "tests/test_viterbi_np.py:184-200"]}
{"id": "C120", "title": "When the unit tests that compare the TensorFlow Viterbi decoders pass", "statement": "For every hidden Markov model with positive probabilities, any scan primitive that meets its contract and any choice of minimisers, test_viterbi_par_backwardpass, test_viterbi_par_fwbw, test_viterbi_seqpar_fwbw and test_seq_forwardpass pass for all observations and test_viterbi_par_forwardpass for all nonempty ones. If tf.argmin returns the first minimiser, test_fsc_seq_viterbi, test_seq_backwardpass and test_seq_fwbw pass for all nonempty observations, ties included, and so does test_fsc_par_bwfw_viterbi when the costs are below the sentinel. If the most probable path is unique and the costs are strictly below the sentinel, these four, test_fsc_par_bwfwbw_viterbi, test_viterbi_par_fwbwfw and test_viterbi_par_fwdbwdfwdpass pass for any choice of minimisers. Conversely, for any scan primitive and any function in place of tf.argmin, correct or not, a pass of one of the seven tests that compare two whole decoders shows that both complete with the same path (up to a difference of two in test_seq_fwbw and test_viterbi_par_fwbw) and values closer than 1e-10, and a pass of test_viterbi_par_fwbwfw that the two paths are equal; a pass of test_seq_forwardpass, test_seq_backwardpass or test_viterbi_par_forwardpass shows that the values, the path, or the controls and values it compares agree; a pass of test_viterbi_par_fwdbwdfwdpass shows that three decoders return one path. test_viterbi_par_forwardpass_init and test_viterbi_par_fwdbwdfwdpass_init pass for all nonempty observations if no negative log probability exceeds half the sentinel, and a pass shows that the elements of each step agree up to 1e-10.", "quantifier": "all hidden Markov models with positive probabilities, observation sequences, associative scans and minimiser choices", "why_tests_cant": "each test draws one sequence from the Gilbert-Elliot model; that a failure would always point to an error of the code is a statement about all models and sequences", "anchors": ["tests/test_viterbi_tf.py:23-89", "tests/test_viterbi_tf.py:107-178", "tests/test_viterbi_tf.py:206-231", "tests/test_viterbi_tf.py:265-293", "tests/test_viterbi_tf.py:325-365", "tests/test_viterbi_tf.py:430-456", "parallel_control/viterbi_tf.py:273-294", "parallel_control/fsc_tf.py:38-352", "tests/test_viterbi_tf.py:180-204", "tests/test_viterbi_tf.py:368-428"]}
