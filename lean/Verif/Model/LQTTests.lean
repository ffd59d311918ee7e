import Verif.Model.LQR
import Verif.Model.LQTBatch
import Verif.Model.FSCTests

/-!
Model of `/repo/tests/test_lqt_np.py`: the unit tests of the linear quadratic regulator and tracker that compare passes
with each other (`test_nonstationary_lqr` and `test_stationary_lqr`, which compare with printed numbers, are left out).

Simplifications: exact real arithmetic; the objects, initial states and horizons of the tests are parameters, as are the
random draws; a test function returns the conjunction of the conditions it asserts, or the exception raised on the way.
-/

namespace Verif

open Matrix

variable {n m : ℕ}

/-- `linalg.norm(a - b)` of two matrices, `test_lqt_np.py:56,59`. -/
noncomputable def normDiffM {p q : ℕ} (a b : Matrix (Fin p) (Fin q) ℝ) : ℝ :=
  Real.sqrt (∑ i, ∑ j, (a i j - b i j) ^ 2)

/-- `max([linalg.norm(e1 - e2) for e1, e2 in zip(l1, l2)])` for lists of matrices, `test_lqt_np.py:56,59`. -/
noncomputable def errM {p q : ℕ} (l1 l2 : List (Matrix (Fin p) (Fin q) ℝ)) : Py ℝ :=
  listMax (List.zipWith normDiffM l1 l2)

/-- `max([linalg.norm(e1 - e2) for e1, e2 in zip(l1, l2)])` for lists of vectors, `test_lqt_np.py:68,71`. -/
noncomputable def errV {p : ℕ} (l1 l2 : List (Fin p → ℝ)) : Py ℝ := listMax (List.zipWith normDiff l1 l2)

/-- `setUp`, `test_lqt_np.py:22-31`. -/
noncomputable def testLQR1 : LQR 2 1 ℝ :=
  ⟨!![1, 1 / 10; 0, 1], !![0; 1], !![1 / 2, 0; 0, 1 / 10], !![1], (1 / 10 : ℝ) • 1⟩

/-- `lqr` of `setupLQR`, `test_lqt_np.py:132-140`. -/
noncomputable def testLQR2 : LQR 2 1 ℝ :=
  ⟨!![1, 1 / 10; 0, 1], !![(1 / 10) ^ 2 / 2; 1 / 10], !![1 / 2, 0; 0, 1 / 10], !![1], (1 / 10 : ℝ) • 1⟩

/-- The draws of one step in `setupRndLQT`, `test_lqt_np.py:312-324`. -/
structure RndStage where
  c : Fin 4 → ℝ
  F : Matrix (Fin 4) (Fin 4) ℝ
  s : Fin 2 → ℝ
  r : Fin 3 → ℝ
  M : Matrix (Fin 3) (Fin 2) ℝ
  Z : Matrix (Fin 2) (Fin 2) ℝ
  H : Matrix (Fin 3) (Fin 4) ℝ
  L : Matrix (Fin 4) (Fin 2) ℝ
  X : Matrix (Fin 3) (Fin 6) ℝ
  U : Matrix (Fin 2) (Fin 4) ℝ

/-- One step of `setupRndLQT`, `test_lqt_np.py:312-324`. -/
noncomputable def RndStage.stage (d : RndStage) : LStage 4 2 ℝ :=
  ⟨3, d.F, d.L, d.X * d.Xᵀ, d.U * d.Uᵀ + 1, d.c, d.H, d.r, d.Z, d.s, d.M⟩

/-- `setupRndLQT`, `test_lqt_np.py:280-328`. -/
noncomputable def testRndLQT (d : Fin 5 → RndStage) (HT : Matrix (Fin 3) (Fin 4) ℝ) (rT : Fin 3 → ℝ)
    (XT : Matrix (Fin 3) (Fin 6) ℝ) : LQT 4 2 ℝ :=
  ⟨(List.ofFn d).map RndStage.stage, 3, XT * XTᵀ, HT, rT⟩

/-- `test_parallel_lqr`, `test_lqt_np.py:52-72`; there `T = 10`. -/
noncomputable def lqrTestParallel (R : LQR n m ℝ) (T : ℕ) (x0 : Fin n → ℝ) : Py Prop := do
  let b1 ← R.seqBackwardPass T
  let b2 ← R.parBackwardPass T
  let e1 ← errM b1.1 b2.1
  let e2 ← errM b1.2 b2.2
  let p1 := R.seqForwardPass x0 b1.1
  let p2 ← R.parForwardPass x0 b2.1
  let e3 ← errV p1.2 p2.2
  let e4 ← errV p1.1 p2.1
  return e1 < testTol ∧ e2 < testTol ∧ e3 < testTol ∧ e4 < testTol

/-- `test_single_step`, `test_lqt_np.py:105-119`. -/
noncomputable def lqrTestSingle (R : LQR n m ℝ) (x0 : Fin n → ℝ) : Py Prop := do
  let b1 ← R.seqBackwardPass 1
  let b2 ← R.parBackwardPass 1
  let p1 := R.seqForwardPass x0 b1.1
  let p2 ← R.parForwardPass x0 b2.1
  let e3 ← errV p1.2 p2.2
  let e4 ← errV p1.1 p2.1
  return e3 < testTol ∧ e4 < testTol

/-- `test_against_seq_lqr`, `test_lqt_np.py:146-181`; `R` and `P` are the objects `lqr` and `lqt`. -/
noncomputable def lqtTestSeqLQR (R : LQR n m ℝ) (P : LQT n m ℝ) (T : ℕ) (x0 : Fin n → ℝ) : Py Prop := do
  let b1 ← P.seqBackwardPass
  let b2 ← R.seqBackwardPass T
  let e1 ← errM b1.Kx_list b2.1
  let e2 ← errM b1.S_list b2.2
  let e3 ← errV b1.d_list (List.replicate T 0)
  let e4 ← errV b1.v_list (List.replicate T 0)
  let p1 ← P.seqForwardPass x0 b1.Kx_list b1.d_list
  let p2 := R.seqForwardPass x0 b2.1
  let e5 ← errV p1.2 p2.2
  let e6 ← errV p1.1 p2.1
  return e1 < testTol ∧ e2 < testTol ∧ e3 < testTol ∧ e4 < testTol ∧ e5 < testTol ∧ e6 < testTol

/-- `test_againts_par_lqr`, `test_lqt_np.py:183-218`. -/
noncomputable def lqtTestParLQR (R : LQR n m ℝ) (P : LQT n m ℝ) (T : ℕ) (x0 : Fin n → ℝ) : Py Prop := do
  let b1 ← P.parBackwardPass
  let b2 ← R.parBackwardPass T
  let e1 ← errM b1.Kx_list b2.1
  let e2 ← errM b1.S_list b2.2
  let e3 ← errV b1.d_list (List.replicate T 0)
  let e4 ← errV b1.v_list (List.replicate T 0)
  let p1 ← P.parForwardPass x0 b1.Kx_list b1.d_list
  let p2 ← R.parForwardPass x0 b2.1
  let e5 ← errV p1.2 p2.2
  let e6 ← errV p1.1 p2.1
  return e1 < testTol ∧ e2 < testTol ∧ e3 < testTol ∧ e4 < testTol ∧ e5 < testTol ∧ e6 < testTol

/-- `test_lqr_batch`, `test_lqt_np.py:220-234`. -/
noncomputable def lqtTestLQRBatch (R : LQR n m ℝ) (P : LQT n m ℝ) (T : ℕ) (x0 : Fin n → ℝ) : Py Prop := do
  let p1 ← P.batchSolution x0
  let b2 ← R.seqBackwardPass T
  let p2 := R.seqForwardPass x0 b2.1
  let e1 ← errV p1.2 p2.2
  let e2 ← errV p1.1 p2.1
  return e1 < testTol ∧ e2 < testTol

/-- `test_seq_par_init_tracking` and `test_seq_par_single_step`, `test_lqt_np.py:246-256,268-278`. -/
noncomputable def lqtTestSeqPar (P : LQT n m ℝ) (x0 : Fin n → ℝ) : Py Prop := do
  let b1 ← P.seqBackwardPass
  let b2 ← P.parBackwardPass
  let p1 ← P.seqForwardPass x0 b1.Kx_list b1.d_list
  let p2 ← P.parForwardPass x0 b2.Kx_list b2.d_list
  let e1 ← errV p1.2 p2.2
  let e2 ← errV p1.1 p2.1
  return e1 < testTol ∧ e2 < testTol

/-- `test_seq_rnd_tracking_1`, `test_lqt_np.py:331-349`. -/
noncomputable def lqtTestSeqRnd1 (P : LQT n m ℝ) (x0 : Fin n → ℝ) : Py Prop := do
  let p0 ← P.batchSolution x0
  let b1 ← P.seqBackwardPass
  let p1 ← P.seqForwardPass x0 b1.Kx_list b1.d_list
  let x2 ← P.seqSimulation x0 p1.1
  let e1 ← errV p0.2 p1.2
  let e2 ← errV p0.1 p1.1
  let e3 ← errV x2 p1.2
  return p0.2.length = p1.2.length ∧ e1 < testTol ∧ p0.1.length = p1.1.length ∧ e2 < testTol ∧
    x2.length = p1.2.length ∧ e3 < testTol

/-- `test_seq_par_rnd_tracking_1`, `test_lqt_np.py:351-365`. -/
noncomputable def lqtTestRnd1 (P : LQT n m ℝ) (x0 : Fin n → ℝ) : Py Prop := do
  let b1 ← P.seqBackwardPass
  let b2 ← P.parBackwardPass
  let p1 ← P.seqForwardPass x0 b1.Kx_list b1.d_list
  let p2 ← P.parForwardPass x0 b2.Kx_list b2.d_list
  let e1 ← errV p1.2 p2.2
  let e2 ← errV p1.1 p2.1
  return p1.2.length = p2.2.length ∧ e1 < testTol ∧ p1.1.length = p2.1.length ∧ e2 < testTol

/-- `test_seq_par_rnd_tracking_2`, `test_lqt_np.py:367-382`. -/
noncomputable def lqtTestRnd2 (P : LQT n m ℝ) (x0 : Fin n → ℝ) : Py Prop := do
  let b1 ← P.seqBackwardPass
  let p1 ← P.seqForwardPass x0 b1.Kx_list b1.d_list
  let b2 ← P.parBackwardPass
  let p2 ← P.parFwdBwdPass x0 b2
  let e1 ← errV p1.2 p2.2
  let e2 ← errV p1.1 p2.1
  return p1.2.length = p2.2.length ∧ e1 < testTol ∧ p1.1.length = p2.1.length ∧ e2 < testTol

/-- `test_seq_par_rnd_tracking_3`, `test_lqt_np.py:384-399`. -/
noncomputable def lqtTestRnd3 (P : LQT n m ℝ) (x0 : Fin n → ℝ) : Py Prop := do
  let b1 ← P.parBackwardPass
  let p1 ← P.parFwdBwdPass2 x0 b1
  let b2 ← P.parBackwardPass
  let p2 ← P.parFwdBwdPass x0 b2
  let e1 ← errV p1.2 p2.2
  let e2 ← errV p1.1 p2.1
  return p1.2.length = p2.2.length ∧ e1 < testTol ∧ p1.1.length = p2.1.length ∧ e2 < testTol

/-- `test_trans_pass`, `test_lqt_np.py:401-420`; lines 404-405 replace every `Z` by the identity. -/
noncomputable def lqtTestTrans (P : LQT n m ℝ) : Py Prop := do
  let P : LQT n m ℝ := { P with stages := P.stages.map fun s => { s with Z := 1 } }
  let b1 ← P.seqBackwardPass
  let b2 ← P.seqTransformedBackwardPass
  let e1 ← errM b1.Kx_list b2.Kx_list
  let e2 ← errM b1.S_list b2.S_list
  let e3 ← errV b1.d_list b2.d_list
  let e4 ← errV b1.v_list b2.v_list
  return e1 < testTol ∧ e2 < testTol ∧ e3 < testTol ∧ e4 < testTol

/-- `test_cost`, `test_lqt_np.py:422-437`; `w` are the draws added to the controls. -/
noncomputable def lqtTestCost (P : LQT n m ℝ) (x0 : Fin n → ℝ) (w : List (Fin m → ℝ)) : Py Prop := do
  let b1 ← P.seqBackwardPass
  let p1 ← P.seqForwardPass x0 b1.Kx_list b1.d_list
  let u2 := List.zipWith (fun u d => u + d) p1.1 w
  let x2 ← P.seqSimulation x0 u2
  let c1 ← P.cost p1.1 p1.2
  let c2 ← P.cost u2 x2
  return c2 > c1

end Verif
