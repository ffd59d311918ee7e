import Verif.Model.NotebookLinear
import Verif.Model.SpeedNonlinear

/-!
Model of the notebook `/repo/notebooks/nonlinear_demo.ipynb` (line numbers of the file).

Simplifications: those of `Verif.Model.NotebookLinear` and `Verif.Model.SpeedNonlinear`; the cost `cost0` of the guess, which is not
printed, is computed but not returned.
-/

namespace Verif

open Matrix

/-- `np.array(l)` of a list of vectors, `nonlinear_demo.ipynb:275`. -/
def rowsArr {p : ℕ} {K : Type} (l : List (Fin p → K)) : NArr2 K := ⟨l.length, p, fun i j => l.get i j⟩

/-- The model object with the default `dt=0.1`, `nonlinear_demo.ipynb:101` and `nonlinear_model_np.py:20-80`. -/
noncomputable def vehicleNp : NModel 4 2 ℝ := ⟨nlModelF 0.1, nlModelFx 0.1, nlModelFu 0.1⟩

/-- What the cells with numpy leave, print, plot and save, `nonlinear_demo.ipynb:100-113, 145-147, 203-221, 274-290`: the curve of the
headings, the last controls and states, the printed costs, the simulated states, and the three files. -/
structure NlDemo where
  xyt : List (Fin 3 → ℝ)
  headings : List (ℝ × ℝ)
  us : List (Fin 2 → ℝ)
  xs : List (Fin 4 → ℝ)
  costs : List ℝ
  xp : List (Fin 4 → ℝ)
  dense_txt : NArr2 ℝ
  xp_txt : NArr2 ℝ
  xyt_txt : NArr2 ℝ

/-- One turn of the loop, `nonlinear_demo.ipynb:206-209`, with the default `lqt_method=0`, `nlqt_np.py:48`; the problem is changed by
`iterate`. -/
noncomputable def nlDemoStep (st : LQT 4 2 ℝ × List (Fin 2 → ℝ) × List (Fin 4 → ℝ) × List ℝ) :
    Py (LQT 4 2 ℝ × List (Fin 2 → ℝ) × List (Fin 4 → ℝ) × List ℝ) := do
  let (P, us, xs, costs) := st
  let (P, us, xs) ← vehicleNp.iterate P us xs 0
  let cost ← vehicleNp.cost P (← pyGet xs 0) us
  return (P, us, xs, costs ++ [cost])

/-- The cells with numpy, `nonlinear_demo.ipynb:100-113, 145-147, 203-221, 274-290`; the notebook has `N = 1000` and `niter = 10`; the
defaults `steps=10` and `dt=0.1` are `nonlinear_model_np.py:82,158` and `nonlinear_model_np.py:20`. -/
noncomputable def nlNpCells (N niter : ℕ) : Py NlDemo := do
  let (xyt, dense) ← nlGenData N 10
  let headings ← plotRow (npLinspace 0 (2 * Real.pi) N) dense 2
  let (lqt, x0) ← nlGetLQT xyt 10
  let P ← lqt.typed 4 2
  let r ← lqt.r.mapM (tfVec 3)
  let (us, xs) ← nlInitialGuess 0.1 r x0 true
  let _ ← vehicleNp.cost P (← pyGet xs 0) us
  let (_, us, xs, costs) ← (List.range niter).foldlM (fun st _ => nlDemoStep st) (P, us, xs, [])
  let xp := vehicleNp.simulate x0 us
  return ⟨xyt, headings, us, xs, costs, xp, colsArr dense, rowsArr xp, colsArr xyt⟩

/-- `nlqt_iterate_par_2` with the default `max_parallel=10000`, `nlqt_tf.py:149-177`. -/
def NModel.iteratePar2TFDef {n m p q : ℕ} {K : Type} [Field K] [LinearOrder K] (scan : AScan) (M : NModel n m K) (C : NQCost n m p q K)
    (us : List (Fin m → K)) (xs : List (Fin n → K)) : Py (List (Fin m → K) × List (Fin n → K)) := do
  let P := M.linearizeTF C us xs.dropLast
  let r ← P.parBackwardMp (scan _) 10000
  let x0 ← tfHead xs
  let (xs, us) ← P.parFwdBwdMp (scan _) 10000 x0 r
  return (us, xs)

/-- One turn of the loop in TensorFlow, `nonlinear_demo.ipynb:445-450`. -/
noncomputable def nlDemoStepTF (scan : AScan) (C : NQCost 4 2 3 3 ℝ) (st : List (Fin 2 → ℝ) × List (Fin 4 → ℝ) × List ℝ) :
    Py (List (Fin 2 → ℝ) × List (Fin 4 → ℝ) × List ℝ) := do
  let (us, xs, costs) := st
  let (us, xs) ← vehicleTF.iteratePar2TFDef scan C us xs
  let cost ← vehicleTF.costTF C (← tfHead xs) us
  return (us, xs, costs ++ [cost])

/-- The problem and the guess of the cell with TensorFlow, `nonlinear_demo.ipynb:426-436`. -/
noncomputable def nlTfProblem (N : ℕ) : Py (List (Fin 2 → ℝ) × List (Fin 4 → ℝ) × NQCost 4 2 3 3 ℝ) := do
  let (xyt, _) ← nlGenData N 10
  let (lqt, x0) ← nlGetLQT xyt 10
  let r ← lqt.r.mapM (tfVec 3)
  let (us, xs) ← nlInitialGuess 0.1 r x0 true
  let P ← lqt.npToTf 4 2 3 3
  return (us, xs, ⟨P.stages.map fun t => ⟨t.H, t.r, t.X, t.U⟩, P.HT, P.rT, P.XT⟩)

/-- The cell with TensorFlow, `nonlinear_demo.ipynb:426-456`: the printed costs and the printed differences of states and controls. -/
noncomputable def nlTfCell (scan : AScan) (N niter : ℕ) (s : NlDemo) : Py (List ℝ × ℝ × ℝ) := do
  let (us, xs, C) ← nlTfProblem N
  let _ ← vehicleTF.costTF C (← tfHead xs) us
  let (us, xs, costs) ← (List.range niter).foldlM (fun st _ => nlDemoStepTF scan C st) (us, xs, [])
  let dx ← tfMaxAbs s.xs xs
  let du ← tfMaxAbs s.us us
  return (costs, dx, du)

/-- All numbers printed by the notebook, `nonlinear_demo.ipynb:100-456`. -/
noncomputable def nlDemo (scan : AScan) (N niter : ℕ) : Py (NlDemo × List ℝ × ℝ × ℝ) := do
  let s ← nlNpCells N niter
  let t ← nlTfCell scan N niter s
  return (s, t)

end Verif
