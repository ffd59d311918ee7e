# Verification design for parallel-control-codes

Properties are listed in `properties.jsonl` (C01…).  The Lean project is `lean/`.

## Method

* **Model** (`lean/Verif/Model/*.lean`): shallow, function-by-function transcriptions of the Python code.
  Every definition cites file and lines in `/repo`.  Python exceptions are values of `Except PyErr`
  (`Verif/Model/Py.lean`).  Loops are folds or structural recursions.
* **Specification** (`lean/Verif/Spec/*.lean`): small, independent definitions (cost of a control
  sequence, path probability, parenthesisation of a list, feasible trajectory …) that do not mention the model.
* **Proof lemmas** (`lean/Verif/Proof/*.lean`), **property theorems** (`lean/Verif/Props/*.lean`),
  one file per property or family, each theorem followed by an `example` in which a concrete non-trivial
  instance meets the hypotheses.
* `MANIFEST.json` maps properties to theorem names; `seeded/LOG.jsonl` records mutation experiments.

## Trusted base

* Lean 4.33.0's kernel, and Mathlib 's definitions used in statements (`Matrix`, `Finset`, `Real`, `Fin`, …).
* Axioms: only `propext`, `Classical.choice`, `Quot.sound` (checked with `#print axioms`; `vcheck` audits it).
* The reading of the Python source into the model.  Nothing ties the two mechanically.

### What the model idealises (everywhere)

* Numbers: exact elements of a linear ordered field (or ordered additive monoid for finite-state costs, which
  includes `WithTop ℝ` i.e. `+inf`), not IEEE floats.  Rounding, overflow and NaN are not modelled, integer dtypes
  are not modelled.
* `linalg.solve`, `lu_factor/lu_solve`, `cho_factor`: a solve raises `linAlgError` if the matrix is singular
  (determinant 0) and otherwise returns the exact solution.  (scipy's `assume_a='pos'` additionally rejects
  indefinite matrices and looks at only one triangle; `lu_factor` only warns.  The theorems that establish success
  show that the matrices are symmetric positive definite where `'pos'` is used.)
* Arrays are typed by their dimensions (`Matrix (Fin n) (Fin m) K`, `Fin n → Fin m → …`); shape errors appear only
  in the models of the `checkAndExpand` constructors, where shapes are data.  The per-step parameter lists of one
  object are zipped into one list of stages (their lengths agree by `checkAndExpand`).
* State/control indices are `Fin n`; negative (wrapping) or out-of-range indices are not modelled. `xdim, udim ≥ 1`.
* Mutation/aliasing of Python lists is not modelled (functions return new values).
* TensorFlow: `tf.scan` is a fold; `tfp.math.scan_associative` is not in the repository, it is a parameter with the
  assumed contract "k-th output is an in-order parenthesisation of the first k+1 inputs".  Batch dimensions,
  `vectorized_map`, graph tracing, dtypes, devices are not modelled.
* jax autodiff: derivative functions are parameters.
* Not modelled: speed tests, notebooks, plotting, experiments, random number generation (a parameter),
  `scipy.linalg.solve_discrete_are`, `scipy.linalg.expm` (taken as the mathematical matrix exponential).

## Per property

| id | what is modelled | how proved |
|----|------------------|------------|
| C01 | `my_assoc_scan` with its index arithmetic on a list with `None` padding, op may raise | loop invariants of the up/down/extra pass in terms of in-order parenthesisations; corollary for associative op |
| C02 | same, `reverse=True` branch | reversal of C01 |
| C03 | same with the inner loops executed in an arbitrary permutation | commutation of iterations touching disjoint index pairs |
| C04 | same, empty list, None entries, totality | from the C01 invariants |
| C05 | `FSC.seqBackwardPass` | backward induction against the spec "least cost over all control sequences" |
| C06 | `seqForwardPass`, `seqSimulation`, `cost` | induction over the horizon |
| C07 | `parBackwardPass` (init, reverse scan, extract), sentinel as a parameter | scan theorem + min-plus algebra; exact iff condition; counterexample on a 2-state model |
| C08 | `parForwardPass` | scan theorem with function composition |
| C09 | `parFwdBwdPass`, `parFwdBwdPass2` | forward values are least costs-to-come; argmin characterisation; counterexample with ties |
| C10 | `batch_solution` odometer loop | odometer enumerates mixed-radix counter; fold-min invariant |
| C11 | `combine_V`, `combine_f` | finite min-plus algebra |
| C12 | `FSC.checkAndExpand` on shape-carrying arrays | case analysis |
| C13 | `ref_viterbi` over nonnegative probabilities | forward induction + backtracking invariant |
| C14 | `ref_viterbi_log`, `_v2` over `WithTop ℝ` | transfer along the order-reversing map `-log` |
| C15 | `getFSC`, `fscToViterbi`, `seqViterbi` | list-reversal refinement |
| C16 | `parBwdFwdViterbi`, `parBwdFwdBwdViterbi` | C07+C08+C15; counterexample with zero probability |
| C17 | direct TF passes of `viterbi_tf.py` | scan contract + min-plus algebra |
| C18 | `LQT.seqBackwardPass`, `seqForwardPass`, `cost` | completion of squares, backward induction |
| C19 | same + `parBackwardPass` | PSD invariants over an ordered field |
| C20 | `combine_abcej`, `combine_fc` | element = affine relation on (state, costate); relational composition is associative |
| C21 | `parBackwardPass` | scan theorem + C20 + Riccati step as a combination |
| C22 | `parForwardPass` | scan theorem + affine maps |
| C23 | `parFwdBwdPass`, `parFwdBwdPass2` | relation semantics: both halves of the trajectory satisfy the same two-point boundary system |
| C24 | `batchSolution` | the block QP's normal equations are uniquely solved by the DP trajectory |
| C25 | `seqTransformedBackwardPass` | algebra; witness for Z≠I |
| C26 | class `LQR` | specialisation of the LQT theorems |
| C27 | `lqrIter`, `lqrDouble` | C20 + powers of one element |
| C28 | `lqt_gen_to_canon`, `lqt_canon_to_gen` | algebra |
| C29 | `LQT.checkAndExpand` on shapes | case analysis |
| C30 | TF canonical passes | reduction to the numpy model |
| C31, C32 | `LQTCondenser.condense`, `convertUX` | block induction |
| C33, C34 | `NLQT.linearize`, `iterate` | from C18, C21–C23 |
| C35 | `CLQT.seqForwardPass`, `parForwardPass` on exact RK4 arithmetic | RK4 of an affine ODE is affine; scan theorem |
| C36 | pack/unpack functions | index arithmetic |
| C37–C39 | Parareal drivers | generic Parareal finite-termination theorem, instantiated |
| C40 | `CLQT.seqBackwardPass`, `parBackwardPass` | list induction |
| C41 | `rk4` | ring identities |
| C42 | HJB combination functions | order algebra, rational witnesses |
| C43 | upwind step | order algebra, rational witness |
| C44 | `lqe_solve` | KKT algebra |
| C45 | BFGS updates | Cauchy–Schwarz for the B-inner product |
| C46, C47 | SQP loops with derivative oracles as parameters | loop invariants, witness |
| C48 | `lti_disc`, `lti_disc_u` with expm = matrix exponential | `exp` of commuting matrices and block structure |
| C49 | `GEModel`, `TextModel` matrices | loop invariants of the counting loops |
| C50 | `TextModel` coding | base-n digits, dictionary invariants |
| C51 | `FiniteModel` | loop invariants, C07, C12 |
| C52 | `NonlinearModel.f/Fx/Fu` | `HasDerivAt` |
| C53 | `upwind_model_block_V` (np, tf) | closed-form reachability; witness |
| C54 | the passes of fsc_tf, viterbi_tf, hjb_grid_1d_tf, lqt_tf with `max_num_levels` | `Nat.clog` arithmetic, list lengths |
| C55 | ODE right-hand sides | derivative of the combination formula |
| C58 | `bfgs_eq_bt` merit function | expansion along the direction, KKT conditions |
| C59 | `fun_and_con_1`, `fun_and_con_2`, `V_eval_*` grid layout (np, tf) | fold induction, closure of affine and convex relations under RK4 |
| C60 | `seqBackwardPass_upwind` over ℝ | Taylor formula, monotonicity and error propagation |
| C61 | `CLQT.parFwdBwdPass`, `combineForwardBackward`, block elements | scan theorem for prefixes, list induction, Simpson sums |
| C62 | `fsc_tf.py` passes | value functions, C17 scan contract, C09 sentinel condition |
| C63 | `viterbi_fsc_*` of `viterbi_tf.py` | C62, bounds on the stage costs |
| C64 | class `CLQR`, method `'rk4'` | linear projections commute with the Runge-Kutta step |
| C65 | class `CLQR`, method `'exact'` (backward) | Hamiltonian matrix fraction, Grönwall uniqueness, completion of squares (C57) |
| C66 | class `CLQR`, method `'exact'` (forward) | matrix exponential, C48 |
| C67 | class `CLQR`, exceptions | case analysis |
| C68 | `NLQT.iterate`, derivative of `NLQT.cost` | chain rule along the trajectory, first-order condition of the linearised problem |
| C69 | `nlqt_tf.py` | C28 to C33 on the linearised problem |
| C70 | `condensing_tf.py` | C31, C32 generalised to LU solves; C30, C33 for the passes |
| C71 | `clqt_tf.py` | relational comparison of failing computations (PyRel); scans by IsAssocScan; completion from C40's regularity |
| C72 | `parareal_clqt_tf.py` | sequences characterising the scans, PyRel with the numpy passes of C37-C39, then their finite termination |
| C73 | `mass_model_np.py` | entries of the matrices by loops over the masses, zero-order hold of C48, energy as Lyapunov function with compactness for the strict decrease, C29 and C18/C23 for the object |
| C74 | `linear_model_np.py`, `linear_model_tf.py` | invariants of the walk, closed form of the zero-order hold (C48), C29 for the object, C18/C23 for optimality |
| C75 | `nonlinear_model_np.py` | loop invariants, `Complex.arg` for `arctan2`, `toIcoMod` for `unwrap`, C29 for the object, C34 and C68 for the iterations |
| C76 | `V_eval_1`, `V_eval_2`, `directShootingValueFunction`, `direct_shooting_block_V`, `local_eq_fast` with derivatives, `sqp_tf.py` | the RK4 cost is a positive definite quadratic and the final state affine of full rank in the parameters, so one SQP step from any point is exact (C44); batch row by row |
| C77 | `linear_model`, `velocity_model`, `upwind_model` (numpy and TensorFlow), the finite difference and block passes on them | the value of `upwind_model` stays piecewise linear with a kink at 0, which the one-sided difference reproduces; (1+h)^N against exp(N h); minimum over grid paths for the block pass |
| C78 | `GEModel.genData`, the seven speed tests of `viterbi_tf.py` | inversion of the distribution function: the random numbers of a sequence form a box of volume its joint probability; the value functions agree by C16, C17, C54, C63 |
| C79 | `LQR.lqrIter`, `lqrDouble`, `lqrDare` | one step is a minimum over the control, hence monotone and concave; bounded monotone forms converge; telescoping along trajectories |
| C80 | `linear_speedtest.py`, `lqt_np_to_tf`, `lqt_np_to_tf_gen` | C30, C54, C70; the transformed and the general gains give the same closed loop; positions of two steps determine the state of the tracking model |
| C81 | `finite_speedtest.py`, `fsc_np_to_tf` | C51, C54, C62; greedy steps of the game are monotone in the lane because moves cost one, so the lowest optimal states form the greedy trajectory |
| C82 | `nonlinear_speedtest.py` | C69, C75, C68, C54; every numpy iterate has the costs of the problem and linearised dynamics, so the TensorFlow iterations follow step by step |
| C83 | `contlin_speedtest.py` | C71, C72, C54; the last block of the parallel backward pass starts from the terminal element, so it repeats the sequential pass; witnesses from C37 and C40 |
| C84 | `hjb_grid_1d_speedtest.py` | C42, C48 and the shooting theorems for affine dynamics; the reductions are folds that pass on `nan` |
| C85 | `clqt_np.py`, `clqt_tf.py` | existence from the linear Hamiltonian system; RK4 in a tube around the exact solution; C57 for optimality |
| C86 | `clqt_np.py`, `clqt_tf.py`, `contlin_speedtest.py` | exact block elements exist and are semidefinite; computed ones are near; the scan is a finite number of combinations, each continuous; then C85 per block |
| C87 | `clqt_np.py`, `clqt_tf.py`, `contlin_speedtest.py` | exact (b, C) exist and are semidefinite; every Hamiltonian trajectory satisfies the relation of a block element, so exact prefixes are exact; then computed prefixes are near and 1 + C S is regular uniformly over the horizon |
| C88 | `experiments-*/run_*.py` | the parser, `int`, `%d`, the mask loop and the file names as functions on character lists; all statements about the source text of the arguments |
| C89 | `experiments-bellman/run_*.py` | whole scripts as functions from the command line to a list of files and an optional failure; composes C80, C81, C82 |
| C90 | `experiments-hjb/run_*.py` | whole scripts as functions from the command line to files and an optional failure; composes C76, C83, C84, C80 and the convergence theorems |
| C91 | `experiments-viterbi/run_*.py` | whole scripts as functions from the command line, the texts and the random numbers to files and an optional failure; composes C17, C49, C50, C54, C78, C80 |
| C92 | the `*.sh` files of the three `experiments-*` directories | commands as lists of keys and values, a shell file as a list of commands, `res` as a function from names to contents; composes C88 to C91 |
| C93 | `notebooks/lqr_iter_demo.ipynb` | the two curves through the Riccati iterates, monotonicity of the Frobenius norm on positive semidefinite matrices, closed form of the solution for the notebook's model; uses C27, C65, C79 |
| C94 | `notebooks/contlin_demo.ipynb` | discrete orthogonality of the trigonometric functions over a period, normal equations, equality of the NumPy and TensorFlow passes; uses C71, C72, C74, C83 |
| C95 | `notebooks/finite_demo.ipynb`, `notebooks/viterbi_ge_demo.ipynb` | lane paths correspond to controls, monotonicity of the greedy trajectory (as in C81) for numpy and TensorFlow; uses C05-C09, C16, C51, C62, C63, C78, C81 |
| C96 | `notebooks/linear_demo.ipynb`, `notebooks/mass_demo.ipynb` | the fields of the object determine the problem of the passes (`typed_raw`), exact ninth roots for the printed lengths; uses C30, C54, C73, C74, C80 |
| C97 | `notebooks/nonlinear_demo.ipynb` | iterates of TensorFlow and numpy coincide (`tf_iterates`), motions as recursions of the vehicle; uses C54, C68, C69, C75, C82 |
| C98 | `fsc_tf.py` on tensors (`Model/Tensor`, `Model/FSCTensor`) | representation relations between tensors and lists of functions; scatter with injective indices; transfer of scans along a relation; uses C62 |
| C99 | `viterbi_tf.py` on tensors (`Model/ViterbiTensor`) | representation relations of C98; broadcasting and gather lemmas; uses C17, C63 and C98 |
| C100 | `condensing_tf.py` on tensors (`Model/CondensingTensor`) | relations for batches of matrices with numbered rows and columns (`Props/TensorMat`); lemmas for each operation; loop invariants; uses C70 |
| C101 | `lqt_tf.py` on tensors (`Model/LQTTensor`) | relations of C100 and `Props/TensorLQT`; lemmas for each operation (`Proof/TensorLinear`); an associative scan of tensors induces one of the elements; uses C28 and C30 |
| C102 | `nlqt_tf.py` and `nonlinear_model_tf.py` on tensors (`Model/NLQTTensor`) | relations `ModelTens`, `CostTens` (`Props/TensorNLQT`); uses C69 and C101 |
| C103 | `sqp_tf.py` with `batch=True` on tensors (`Model/SQPTensor`) | relations `ProgTens`, `Tens.HoldsRuns` (`Props/TensorSQP`), derivatives of Mathlib; uses C76 |
| C104 | `hjb_grid_1d_tf.py:222-487` on tensors (`Model/HJBTensor`) | relations `Pointwise1`, `Pointwise2` (`Props/TensorHJB`), `IsVs`, `IsMs`; uses C42, C43 |
| C105 | `hjb_grid_1d_tf.py:41-220,423-426`, `diffeq_tf.py:13-33` on tensors (`Model/ShootingTensor`) | relations `Pointwise2`, `ProgTens`, `IsVt`; numpy `vEvalOne1`, `vEvalOne2`, scalar `funAndCon1TF`, `funAndCon2TF`; uses C76, C103 |
| C106 | `clqt_tf.py` on tensors (`Model/CLQTTensor`) | relations `TensCLQT.Holds`, `TensFinal.Holds`, `TensAbc.Holds` (`Props/TensorCLQT`), `TensBw.Holds`; numpy `CLQT`; uses C71 and C101 |
| C107 | `parareal_clqt_tf.py` on tensors (`Model/PararealTensor`) | relations of C106; numpy `prBackwardPass`, `prForwardPass`, `prFwdBwdPass`; uses C37–C39 and C72 |
| C108 | `linear_model_tf.py`, `cnonlin_models_tf.py` on tensors (`Model/ModelsTensor`) | `TensModel.Holds`, `Broadcast2`, `Tens.Near` (`Props/TensorModels`); optimal trajectories of `Spec/CLQT`; uses C43, C53, C74, C77, C85, C106, C107 |
| C109 | models of C104, C106, C108 | optimal trajectories of `Spec/CLQT`, `HasDepth`/`IsFiniteScan` (`Spec/ScanDepth`), `Tens.Near`, solutions of the HJB equation as in C60; uses C60, C77, C86, C87, C104, C106, C108 |
| C110 | models of C35, C106 | Runge-Kutta step `rk4T` of the equation with the control held, optimal trajectories of `Spec/CLQT`, `VecsNear`, `Tens.Near`; uses C35, C86, C106, C108 |
| C111 | `Model/FSCTests` (`test_fsc_np.py`), models of C05-C10, `fscCheckAndExpand` | `totalCost`, `IsOptimal` of `Spec/FSC`, explicit controls, states and costs; uses C05-C10 |
| C112 | `Model/FSCTFTests` (`test_fsc_tf.py`), models of C05-C09, C62 | `totalCost`, `IsOptimal` of `Spec/FSC`, explicit controls, states and costs; uses C05-C09, C62 |
| C113 | `Model/FSCTests`, `Model/FSCTFTests` | entrywise bounds, equality of policies, `IsOptimal`, `seqSimulation`; uses C05, C06, C07 |
| C114 | `Model/Diffeq`, `Model/DiffeqTests` | `HasDerivAt` of an arbitrary solution, norms, `Real.exp`, the matrix exponential |
| C115 | `Model/LQTTests` | `Passes`, `LQT.Convex`, `LQR.Convex`; uses C18, C21-C26 |
| C116 | `Model/MiscTests` | `Passes`; uses C33, C48 |
| C117 | `Model/CondensingTests` | `Passes`; uses C31, C32 |
| C118 | `Model/ViterbiTests` | `Passes`, `HMM.IsMAP`; uses C13-C16, C49 |
| C119 | `parFwdBwdPass`, `parFwdBwdPass2`, `parBwdFwdBwdViterbi` | `IsOptimal`, `HMM.IsMAP`, Mathlib's `IsLeast`; uses C07, C09, C14, C118 |
| C120 | tests of `test_viterbi_tf.py` (`vtfTest…`) | `Passes`, `IsAssocScan`, `IsArgmin`, `HMM.IsMAP`; uses C14-C17, C63 |
| C57 | `riccati_ode_f`, cost of the class documentation | completion of squares along a trajectory, fundamental theorem of calculus |
| C56 | `FSC.parBackwardPass`, `parForwardPass` | invariant: parallel value equals the true one or both are above the sentinel |

Findings about the code are collected at the end of this file as they are proved.

## Findings

- Empty horizon: `FSC.seqBackwardPass` returns `([], [LT])`, while `FSC.parBackwardPass` and the constructor path used by
  `getFSC` raise `IndexError`; `ref_viterbi*` accept an empty observation list, `seqViterbi` raises `IndexError` (C15).
- Impossible transitions: `parBwdFwdViterbi` returns 1e20-based values instead of `+inf`; the path still agrees (C16).
- If all paths have probability zero, `ref_viterbi` and `ref_viterbi_log` may return different paths (C14).
- `FSC.parFwdBwdPass`: each control or state is on some optimal trajectory, but with ties the pieces may belong to
  different trajectories (C09).
- `FSC.parForwardPass` with a `u_list` longer than the horizon returns an extra control, `seqForwardPass` raises.
- `LQT.seqTransformedBackwardPass` ignores `Z`: with `Z ≠ I` it silently returns other gains than `seqBackwardPass` (C25).
  It raises `ValueError` if the output dimension varies and `LinAlgError` if some `U` is singular, although
  `seqBackwardPass` handles both.
- `T = 0`: `LQT.parBackwardPass`, `parFwdBwdPass` raise `IndexError`, `parForwardPass` raises `ValueError`; the sequential
  passes return the trivial result (C21, C22).
- `LQT.batchSolution` needs the same output dimension everywhere. A step with a different dimension raises `ValueError`; a
  1-dimensional output is broadcast by numpy and silently yields a control that is not optimal (C24). `T = 0` raises
  `IndexError`.
- `LQR.lqrDouble(k)` returns the value function of `2^k - 1` steps but the gain of step `2^k`; `lqrIter(k)` returns the gain
  of step `k` with the value function of step `k` (C27).
- `lqt_gen_to_canon` factorises `U` alone, so it fails for an indefinite `U` even when `U + Lᵀ S L` is positive definite and
  the general recursion completes (C28).
- `LQT.checkAndExpand`: an empty list for `F`, `L` or `X` raises `IndexError`, but an empty list for `U` alone gives an empty
  horizon; a negative `T` is accepted as an empty horizon. The defaults for `XT`, `HT`, `rT` use the output dimension of the
  first step, so a terminal weight of another size needs explicit `HT` and `rT` (C29).
- `LQTCondenser.condense` solves with the joint weight of the initial state and the controls of a block, which is singular for
  convex problems whose state weight does not see some initial state within a block (for instance `X = 0`); it then raises
  `LinAlgError` although the recursions solve the problem (C32). `Z`, `s`, `M` are ignored silently (C31). `T = 0` raises
  `IndexError`, `Nc = 0` raises `ZeroDivisionError`.
- `NLQT.linearize` with a nominal trajectory shorter than the horizon silently keeps the old linearisation of the later steps;
  a longer one raises `IndexError` (C33). For `T = 0`, `iterate` returns with the sequential method and raises `IndexError`
  with the parallel ones (C34).
- Parareal: the default `niter=steps` is unrelated to the number of blocks; `blocks - 1` iterations are needed for the exact
  result (C37–C39). The final pass integrates every block once more, so that `blocks - 1` iterations suffice.
  `forwardPass` with fewer gains than blocks raises `ValueError` from a zero slice step (C38).
- `CLQT.parForwardPass(u_zoh=True)` computes the block boundaries with the feedback applied continuously and the inside of the
  blocks with the control held, so it differs from `seqForwardPass(u_zoh=True)` (C35).
- `CLQT.parBackwardPass` returns at the start of each block the value function of the scan, but the gain of that time is computed
  from the Runge-Kutta integration inside the block, so `Kx_list[k] = U⁻¹ Lᵀ S_list[k]` fails there (C40). The block elements
  and the Riccati equation describe the same flow (C55) but their Runge-Kutta discretisations differ.
- `bfgs_eq_bt`: a step accepted after exactly `max_backtrack` halvings is replaced by the full step, which is known to increase
  the merit function (C46); `mu = 1` is never adapted, so with multipliers above 1 the line search cannot succeed (C58).
- `bfgs_damped_update` divides zero by zero for `s = 0` (C45); `bfgs_eq_bt` does not use the result for `tol >= 0` (C46).
- `local_eq`: `crit` is the norm of the Lagrangian gradient before the last step and ignores the constraint; with `tol >= 1` no
  iteration is done (C47).
- `combine_V_interp` is not associative and not monotone: from four blocks on `parBackwardPass` and `seqBackwardPass_assoc` can
  return different finite values (C42). With the combination without interpolation both are optimal and equal.
- `combine_V_interp` returns `nan` exactly if an input is `nan` or the sums at the two leftmost grid points tie for the minimum; for
  a one-point grid always (C42).
- `combine_V_interp` next to the sentinel `_HJB_GRID_NP_INFTY = 1e20` (as used by `test_assoc_2`): a forbidden neighbour of the best
  point gives a value of about `-1e20/8` although all costs are nonnegative (C42).
- `seqBackwardPass_symfd` is never monotone; `seqBackwardPass_upwind` is not monotone for `upwind_model`, whose drift points out of
  the grid (C43).
- `lti_disc`, `lti_disc_u` write `L Qc L^T` and `G` into arrays of the dtype of `F`; with an integer `F` they are truncated. The model
  assumes a floating point `F` (C48).
- `upwind_model_block_V` in TensorFlow tests `x0 >= 0` in the branch meant for negative states: from a negative grid point every entry
  is `inf_value`, although the point itself is reachable (C53).
- `TextModel` of order 0 accepts no training text: `getNthOrderPi` looks up a one-character string and raises `KeyError`; the
  theorems on the transition matrix assume an order of at least one (C49).
- `TextModel` with a repeated character codes both to the last index; coding followed by decoding is still the identity on texts (C50).
- C54: with `max_parallel = 1` (a single stage or observation) the FSC, Viterbi and HJB TensorFlow passes give
  `max_num_levels = 0`, which violates the documented requirement of `tfp.math.scan_associative` (2 elements need 1 level);
  the LQT and CLQT code guards against it with `max(.., 1)`.
- C62: the TensorFlow stage element keeps costs above the sentinel when all controls lead to the same state, where the numpy
  element is cut at the sentinel (`C62_elem_differ`, `C62_par_differ`). `fsc_seq_forwardpass` returns `(xs, us)` but the
  parallel passes return `(us, xs)`.
- `CLQR`: the comment above the matrix fraction (`clqt_np.py:228-236`) gives `S(t) = (Psi11 + Psi12 S(T)) (Psi21 + Psi22)^{-1}`; the
  code computes the right formula with the roles of the blocks exchanged (C65). The class comment has a factor `1/2` too many
  on the control cost (`clqt_np.py:159`).
- `CLQR`: `'exact'` is accepted by the parallel passes only for the extraction; every initialisation raises `ValueError` (C67). For an
  indefinite weight `'exact'` raises `LinAlgError` if the Riccati solution escapes at a grid point (C65).
- `CLQR.parForwardPass_init` checks the number of gains before it divides by the number of steps, `CLQT.parForwardPass_init` after:
  without steps the exceptions differ (C67).
- `NLQT.iterate` takes the full Gauss-Newton step: it is a direction of descent, but the cost can increase (C68). The returned states are
  those of the linearised model, not of the nonlinear one.
- `condensing_tf.py` solves the condensed weight with LU factors, the numpy class with Cholesky factors: the former also solves problems
  with indefinite condensed weight, for which the latter raises `LinAlgError` (C70).
- `clqt_tf.py` solves the control weight with LU factors where the numpy class uses Cholesky factors: an indefinite control weight goes
  through without an error, giving gains of a problem that has no minimum (C71).
- With `steps = 0` the block elements of `clqt_tf.py` take the last item of an empty scan, an error; numpy returns the identity (C71).
- `parareal_clqt_tf.py` with `niter = 0` takes the last item of an empty scan, an error; the numpy class returns the result of the
  coarse start.  The numpy class has the default `niter = steps`, which is not exact for `blocks > steps + 1` (C37); in TensorFlow the
  number is given by the caller (C72).
- The numpy Parareal forward pass ignores surplus gains (two gains for one step are accepted and the second is unused); the TensorFlow
  pass rejects them at the reshape (C72).
- `mass_model_np.py`: the comment at the top repeats `dy_{i+1}` where one of the neighbours is `dy_{i-1}`; the code has the right
  neighbours (C73).  The third argument `Qc` of the discretisation only affects the discarded noise covariance.
- `linear_model_np.py`: the comment at the top has the controls in the equations of the positions (`dx1/dt = x3 + u1`); in the code they
  act on the velocities (C74).
- `NonlinearModel.initialGuess` updates the speed only if both coordinates have moved by more than 0.1 (`and`): a trajectory parallel to
  an axis gets speed zero (C75).  The documentation lists the results in the opposite order.
- `NonlinearModel.getLQT`: the placeholder `L` feeds the first control to the heading and the second to the speed, the opposite of
  `Fu`; it is overwritten by `linearize` before it is used (C75).
- `NonlinearModel.genData`: the last heading repeats the previous one although the curve is closed (C75).
- `directShootingValueFunction`: `method=2` is the default, but an unknown method falls back to `1`; the two give different values (C76).
- `V_eval_1`, `V_eval_2` with `max_iter=0`: numpy returns the cost of the zero control, which does not reach the final state, without a
  warning; TensorFlow raises (C76).
- `velocity_model`, `linear_model`, `upwind_model`: the state leaves the grid at its ends, so the upwind scheme with the code's boundary
  differences is not monotone for any time step (C77).
- `seqBackwardPass_symfd` on `upwind_model`: exact like the upwind scheme only for an odd number of states (C77).
- `upwind_model_block_V` with the plain combination: on a fixed grid, more blocks lead to the terminal cost at all times instead of the
  value function (C77).
- The Viterbi speed tests compare only the value functions: a wrong state sequence is reported as error 0; with one step five of the
  seven raise (C78).
- `lqrIter` and `lqrDouble` return the smallest solution of the Riccati equation, `lqrDare` the stabilising one. They differ for an
  unstable mode without cost: `F = 2, L = 1, X = 0, U = 1` gives gain 0 (unstable) against 3/2 (C79).
- `lqt_np_to_tf` drops `Z`, `s` and `M` without a check: a problem with `s = 1` is solved as if `s = 0` (C80).
- Condensing the tracking model fails (`LinAlgError`) when a block has a single step, since only positions are penalised: `Nc = 1`, or
  `10 * (T // 10) % Nc == 1`, e.g. `Nc = 3` with 100 steps; all values of `Nc` used in the experiments share a factor with 10 (C80).
- `fsc_seq_bwfw` returns `(states, controls)` although the names and the parallel versions say `(controls, states)`, as the comment in the code admits (C81).
- `fsc_par_bwfw_2` is only correct on problems with several optimal trajectories if `tf.argmin` breaks ties consistently; in the game the smallest index suffices (C81).
- `nonlinear_generator` starts from zero states, so that the linearised vehicle heads along the first axis and the first of the ten iterations cannot move it off the line `y = 7`; it reports lengths rounded up to multiples of ten (C82).
- The Parareal speed tests of `contlin_speedtest.py` default to two iterations, which make only the last three blocks exact; the reported errors for more blocks measure the coarse integrator (C83).
- With one block `clqt_par_bw_speedtest` reports a positive error although all gains, states and controls are those of the reference: only the first value matrix comes from the scan (C83).
- `par_assoc_speedtest` of `hjb_grid_1d_speedtest.py` raises `ValueError` for a single block, because `max_parallel = blocks` gives zero scan levels; `seq_assoc_speedtest` completes there (C84).
- The speed tests of `hjb_grid_1d_speedtest.py` take the horizon from `block_T * blocks`; the horizon of the model is ignored (C84).
- Experiment scripts (`Model/Experiments.lean`), simplifications: arguments are ASCII, `float` is a parameter, the limit of 4300 digits in `int` is omitted, the measured run times and the formatting of `%f` are left out of the files, writing never fails, and negative sizes are a `ValueError`.
- The usage text of `run_viterbi_experiments.py` lists `steps`, but `steps=...` ends the script with `sys.exit(1)` (C88).
- The file names contain neither `start`, `stop`, `num`, `steps` nor the number of the device: runs that differ only in these overwrite each other's results (C88).
- In the tracking model `n` only enters the file name; the problem has dimension 4 for every `n` (C89). An unknown model is only detected if a test is selected (C89).
- The default `niter=2` of `run_contlin_experiments.py` is far below the 99 iterations after which Parareal is exact for its 100 to 1000 blocks, so the reported Parareal errors are in general not zero (C90 gives exactness only for `B <= niter + 1`). `niter=0` raises `IndexError`, after the sequential files have been written (C90).
- `run_nonlin_experiments.py` accepts every `model` and always runs the velocity model; the given name only appears in the file names (C90). `run_contlin_experiments.py` rejects other models, also when no test is selected.
- With `start < log10 2` the parallel test of `run_nonlin_experiments.py` raises `ValueError` for one block, after the files of the other tests have been written (C90).
- The files `notebooks/text1.txt` and `notebooks/text2.txt` read by the text scripts are not in the repository; the model takes their contents as parameters. A text that ends with a line break, as most editors write it, raises `KeyError` (C91).
- `run_text_experiments_2.py` puts the number of characters into the name of the table but not into that of the dictionary, so runs that differ only in `steps` overwrite the dictionary (C91). `steps=0` raises `ZeroDivisionError`, `steps=1` raises `ValueError` if a parallel method is selected; in both cases nothing is written.
- In the text scripts all results are written at the end, so a failing method loses those of the methods before it, unlike in the other scripts (C91).
- `run_viterbi_experiments.py` does not check `model` either (C91).
- `cpu_tracking_2b.sh` and `gpu_tracking_2b.sh` repeat commands of the files `2a` (all but `nc=256`) and change nothing when run after them (C92).
- Results are lost when the shell files are run in alphabetical order: `gpu_mass_2.sh` replaces the tables for 256 masses of `gpu_mass_1.sh` (up to 10000 steps) by shorter ones (up to 1000), `gpu_viterbi_2.sh` replaces all files of `gpu_viterbi_1.sh`, and `gpu_ctracking_2.sh` replaces at least the sequential results of `gpu_ctracking_1.sh`; if it then fails, `res` holds tables of both ranges (C92).
- `gpu_mass_2.sh:24` has `n=1014` between 512 and 2048, presumably meant as 1024 (C92).
- The finite-state and nonlinear shell files only run sequential tests (`mask=5`, `mask=1`), also on the GPU (C92).
- `gpu_text_2_steps.sh` leaves only the dictionary of the last number of steps; a text shorter than a requested number of steps gives the table of the whole text (C92).
- Comments: `cpu_mass_1.sh:1` says GPU and `gpu_tracking_2a.sh:1` to `2d` say CPU; the usage lines of the `gpu_ctracking` files give `steps=100` and `niter=4`, while the script has 10 and 2.
- In `lqr_iter_demo.ipynb` the axis `iter` does not count the same work for the two curves: point k is after k Riccati steps for the classical and 2^k-1 steps for the doubling method. In exact arithmetic neither error ever becomes zero, so the floor of both recorded curves is rounding (C93).
- The reference of the continuous-time model is the fit of `contlin_demo.ipynb`, cell 3, with the coefficients rounded to four decimals. The fit has period 50 while the points have the times 0 to 49, so in the last unit of time the reference runs from the last point back to the first one (C94).
- In the recorded output of `contlin_demo.ipynb` the forward-backward trajectory `xs4` differs from the others by 0.009, the parallel and Parareal ones by 1e-7 and 7e-11. This is the discretisation error of the combination formula (C71, C87), not rounding (C94).
- The zeros printed by `finite_demo.ipynb` for TensorFlow depend on `tf.argmin` returning the smallest index for ties, which its documentation does not promise; with the largest index a track with two symmetric walks gives differences of 2 (C95).
- `linear_demo.ipynb` plots the controls over `np.linspace(0, xy.shape[1], u_seq.shape[1])`: control `k` starts at `k/10` but is drawn at `k N/(10 N - 1)`, the last one at `N` instead of `N - 1/10` (C96).
- `nonlinear_demo.ipynb` starts from a guess at rest in the origin, where the linearised vehicle only moves along the first axis: the states of the first iteration have the second coordinate 7 for all data (C97).
- The batched index code of `fsc_tf.py` agrees with the per-step reading of C62 for all sizes (C98); no disagreement was found.
- The batched index code of `viterbi_tf.py` agrees with the per-step reading of C17 and C63 for all sizes (C99).  `tf.gather` with an index out of range is modelled as raising, which holds on the CPU; on a GPU TensorFlow returns zeros instead.
- The reshapes, paddings and slices of `condensing_tf.py` compute the blocks of C70 for all sizes (C100).
- `lqt_seq_forwardpass` reads `Ls[0,0,:]` only to get the shape of a control, so it raises for a state dimension of zero although `lqt_par_forwardpass` completes (C101).
- Without a step `nlqt_iterate_seq` and `nlqt_iterate_par_1` raise, but `nlqt_iterate_par_2` returns the first state and no controls (C102).
- Without constraints `lqe_solve` of `sqp_tf.py` raises, because it reads `b[..., 0]` of an empty axis, while `lqe_solve` of `sqp_np.py` solves the system (C103).
- On a grid with a single point `combine_V_interp` of `hjb_grid_1d_tf.py` raises (index 1 of an axis of length 1 in `gather_nd`, on a CPU), while the numpy function returns `nan` (C104).
- C110: with `u_zoh=True` the parallel forward pass of `clqt_np.py`/`clqt_tf.py` starts each block from the state computed *without* hold, so it jumps at
  the boundaries of the blocks and its last state is not reached from the one before by a held control (example in `Props/CLQTHold`: states
  `1, 0, 9/64`).  The jumps vanish as the steps get short.
- C111: the noise in `setupFSC` (`test_fsc_np.py:25`, "To make solution unique") is not needed: without it the optimum from `x0` is already unique, and
  with it the optimal trajectory is the same for every seed.  Uniqueness itself is needed: on `tieFSC` (costs 0) `test_par_fbscan` fails although every
  solver is right.
- C112: `test_sequential` and `test_parback` of `test_fsc_tf.py` require equal policies at all states, also those off the optimal trajectory.  Without the
  noise there would be ties at two such states (step 1, state 0 and step 3, state 2), so these two tests rely on the noise or on `tf.argmin` returning the
  first minimiser, which TensorFlow does not promise; the tests of trajectories do not.
- C113: `test_par_fbscan2` (`test_fsc_np.py:131-144`) compares `parFwdBwdPass2` with `parFwdBwdPass` only; on `tieFSC` both return `[0, 1, 1]`, which is not a
  trajectory, and the test passes.
- C114: `test_rk4_2` and `test_rk4_6` (time-dependent right hand sides) are not modelled; the proved errors of the other tests are far inside their tolerance
  (bounds of the order 1e-8 and 1e-6 against 1e-5).
- C115: `setupRndLQT` (`test_lqt_np.py:280-328`) draws the cross weights `M` freely, so the cost need not be bounded below; for such draws both backward
  passes raise and all tests on the problem end with an exception. The tests depend on the fixed seed.
- C116: `test_linearize` (`test_nlqt_np.py:45-55`) compares the linearisation only at the nominal point, where the offset `c` cancels every error of the
  Jacobians; it passes for arbitrary Jacobians.
- C117: the random problem of `test_condensing_np.py:120-165` (three outputs, four states) cannot be condensed, for any draw, with a block length that
  leaves a last block of one step, for example `T = 11` with `Nc = 5` or `Nc = 1`; the tests use block lengths that do not meet this case.
- C118: `test_par_viterbi_2` (`test_viterbi_np.py:184-200`) asserts equality of paths, which C16 guarantees only for a unique most probable path; with ties
  the decoder may pick states of different optimal paths.
- C119: `parBwdFwdBwdViterbi` (`viterbi_np.py:227-246`) chooses the state of each time by itself, and with ties can return a path that is not most probable,
  although the docstring calls it the MAP state sequence: `[0, 0, 0]` for the model `tieHMM` and two observations, with a third of the largest probability.
- C120: `test_seq_fwbw` and `test_viterbi_par_fwbw` (`test_viterbi_tf.py:174,344`) accept paths that differ by up to two, although equality holds in exact arithmetic (with the first minimiser);
  a nested function `test_viterbi_par_backwardpass` (`test_viterbi_tf.py:295`) is never run.
