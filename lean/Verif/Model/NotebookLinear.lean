import Verif.Model.SpeedLinear
import Verif.Model.SpeedTest

/-!
Model of the notebooks `/repo/notebooks/linear_demo.ipynb` and `/repo/notebooks/mass_demo.ipynb` (line numbers of the files).

Simplifications: those of the modelled passes and models; the random numbers are parameters; printed numbers are the exact values, so
that the cells with `float64` and `float32` are the same; of the plots and files only the data are modelled; a difference of arrays of
different length is an error, and so is the maximum of an empty array.
-/

namespace Verif

open Matrix

section Typed
variable {K : Type}

/-- The arrays of one time step of an `LQT` object, which the passes read, `lqt_np.py:428-442`; arrays that do not fit are a
`valueError`. -/
def rawStage (n m : ℕ) (F L X U : NArr2 K) (c : NArr1 K) (H : NArr2 K) (r : NArr1 K) (Z : NArr2 K) (s : NArr1 K) (M : NArr2 K) :
    Py (LStage n m K) := do
  let p := X.rows
  return ⟨p, ← tfMat n n F, ← tfMat n m L, ← tfMat p p X, ← tfMat m m U, ← tfVec n c, ← tfMat p n H, ← tfVec p r, ← tfMat m m Z,
    ← tfVec m s, ← tfMat p m M⟩

/-- An `LQT` object as a problem of the passes, `lqt_np.py:411-442`; the number of steps is the length of `self.F`, e.g.
`lqt_np.py:618`. -/
def RawLQT.typed (n m : ℕ) (o : RawLQT K) : Py (LQT n m K) := do
  let stages ← (List.range o.F.length).mapM fun k => do
    rawStage n m (← pyGet o.F k) (← pyGet o.L k) (← pyGet o.X k) (← pyGet o.U k) (← pyGet o.c k) (← pyGet o.H k) (← pyGet o.r k)
      (← pyGet o.Z k) (← pyGet o.s k) (← pyGet o.M k)
  let q := o.XT.rows
  return ⟨stages, q, ← tfMat q q o.XT, ← tfMat q n o.HT, ← tfVec q o.rT⟩

/-- `np.array(l).T` of a list of vectors, `linear_demo.ipynb:170-171` and `mass_demo.ipynb:148-149`; also the array with the points as
columns that `genData` returns, `linear_model_np.py:64-95`. -/
def colsArr {p : ℕ} (l : List (Fin p → K)) : NArr2 K := ⟨p, l.length, fun i j => l.get j i⟩

/-- `np.linspace(a, b, num)`, `linear_demo.ipynb:182` and `mass_demo.ipynb:151`; a single point is `a`. -/
def npLinspace [Field K] (a b : K) (num : ℕ) : List K :=
  (List.range num).map fun k : ℕ => a + (k : K) * ((b - a) / ((num - 1 : ℕ) : K))

end Typed

/-- What the cells of the data and of the sequential solution leave, plot and save, `linear_demo.ipynb:87-93, 125-128` and
`170-186`. -/
structure LinSeq where
  xy : List (Fin 2 → ℝ)
  lqt : RawLQT ℝ
  x0 : Fin 4 → ℝ
  x_list : List (Fin 4 → ℝ)
  u_list : List (Fin 2 → ℝ)
  xy_txt : NArr2 ℝ
  x_seq_txt : NArr2 ℝ
  times : List ℝ
  u_plot : NArr2 ℝ

/-- The cells of the data and of the sequential solution, `linear_demo.ipynb:87-93, 125-128` and `170-186`; the notebook has `N = 50`;
the default `steps=10` of `getLQT` is `linear_model_np.py:97`. -/
noncomputable def linSeqCells (rnd : ℕ → ℝ) (N : ℕ) : Py LinSeq := do
  let xy ← linGenData rnd N
  let (lqt, x0) ← linGetLQT xy 10
  let P ← lqt.typed 4 2
  let r ← P.seqBackwardPass
  let (us, xs) ← P.seqForwardPass x0 r.Kx_list r.d_list
  let x_seq := colsArr xs
  let u_seq := colsArr us
  return ⟨xy, lqt, x0, xs, us, colsArr xy, x_seq, npLinspace 0 ((colsArr xy).cols : ℝ) u_seq.cols, u_seq⟩

/-- The printed differences of two lists of states and two lists of controls, e.g. `linear_demo.ipynb:274-275`. -/
noncomputable def linDiff (s : LinSeq) (xs : List (Fin 4 → ℝ)) (us : List (Fin 2 → ℝ)) : Py (ℝ × ℝ) := do
  let dx ← tfMaxAbs xs s.x_list
  let du ← tfMaxAbs us s.u_list
  return (dx, du)

/-- The numbers printed by the cells of the parallel solution, `linear_demo.ipynb:218-220` and `262-277`. -/
noncomputable def linParCells (s : LinSeq) : Py ((ℝ × ℝ) × (ℝ × ℝ)) := do
  let P ← s.lqt.typed 4 2
  let r ← P.parBackwardPass
  let ux1 ← P.parForwardPass s.x0 r.Kx_list r.d_list
  let ux2 ← P.parFwdBwdPass s.x0 r
  let d1 ← linDiff s ux1.2 ux1.1
  let d2 ← linDiff s ux2.2 ux2.1
  return (d1, d2)

/-- The numbers printed by the cell of the sequential solution in TensorFlow, `linear_demo.ipynb:364-380`. -/
noncomputable def linTfSeqCell (s : LinSeq) : Py (ℝ × ℝ) := do
  let P ← s.lqt.npToTf 4 2 2 4
  let r ← P.seqBackward
  let xu ← lqtTfSeqForward s.x0 (tfGains P.stages r.Kx_list r.d_list)
  linDiff s xu.1 xu.2

/-- The numbers printed by the cells of the parallel solutions in TensorFlow, `linear_demo.ipynb:423-441` and, with `float32`,
`480-498`; the default `max_parallel=10000` is `lqt_tf.py:292,396,478`. -/
noncomputable def linTfParCell (scan : AScan) (s : LinSeq) : Py ((ℝ × ℝ) × (ℝ × ℝ)) := do
  let P ← s.lqt.npToTf 4 2 2 4
  let r ← P.parBackwardMp (scan _) 10000
  let xu1 ← lqtTfParForwardMp (scan _) 10000 s.x0 (tfGains P.stages r.Kx_list r.d_list)
  let d1 ← linDiff s xu1.1 xu1.2
  let P ← s.lqt.npToTf 4 2 2 4
  let r ← P.parBackwardMp (scan _) 10000
  let xu2 ← P.parFwdBwdMp (scan _) 10000 s.x0 r
  let d2 ← linDiff s xu2.1 xu2.2
  return (d1, d2)

/-- All numbers printed by the notebook before the speed test, `linear_demo.ipynb:87-498`. -/
noncomputable def linDemo (scan : AScan) (rnd : ℕ → ℝ) (N : ℕ) : Py (LinSeq × List (ℝ × ℝ)) := do
  let s ← linSeqCells rnd N
  let p ← linParCells s
  let t ← linTfSeqCell s
  let q ← linTfParCell scan s
  let q' ← linTfParCell scan s
  return (s, [p.1, p.2, t, q.1, q.2, q'.1, q'.2])

/-- The cell of the speed test, `linear_demo.ipynb:562-571`: the lists `T1, D1` and `T2, D2`; the default `n_iter=10` is
`linear_speedtest.py:56,100`. -/
noncomputable def linSpeedCell (scan : AScan) (rnd : ℕ → ℝ) : Py ((List ℕ × List ℕ) × (List ℕ × List ℕ)) := do
  let r1 ← seqBwSpeed (trackingGen rnd 2 3 10) 10
  let r2 ← parBwSpeed scan (trackingGen rnd 2 3 10) 10
  return (r1, r2)

/-- What the cells of the mass notebook print and plot, `mass_demo.ipynb:99-106` and `148-162`: the matrix, the curves of the
positions over `times`, and the curves of the controls over `times[:-1]`. -/
structure MassDemo (N : ℕ) where
  Fc : Matrix (Fin (2 * N)) (Fin (2 * N)) ℝ
  x_list : List (Fin (2 * N) → ℝ)
  u_list : List (Fin 2 → ℝ)
  y_curves : List (List (ℝ × ℝ))
  u_curves : List (List (ℝ × ℝ))

/-- `axes[i].plot(times, x[i, :])`, `mass_demo.ipynb:154,160`: the points of the curve; lists of different length are a
`valueError`. -/
def plotRow {p : ℕ} (times : List ℝ) (l : List (Fin p → ℝ)) (i : ℕ) : Py (List (ℝ × ℝ)) :=
  if h : i < p then
    if times.length = l.length then .ok (times.zip (l.map fun x => x ⟨i, h⟩)) else .error .valueError
  else .error .indexError

/-- The cells of the mass notebook, `mass_demo.ipynb:99-106` and `148-162`; the notebook has `N = 5`; the defaults `dt=0.005, Tf=10.0`
of `getLQT` are `mass_model_np.py:67`. -/
noncomputable def massDemo (N : ℕ) : Py (MassDemo N) := do
  let model ← MassModel.init (K := ℝ) N
  let (lqt, x0) ← model.getLQT 0.005 10
  let P ← lqt.typed (2 * N) 2
  let r ← P.seqBackwardPass
  let (us, xs) ← P.seqForwardPass x0 r.Kx_list r.d_list
  let times := npLinspace 0 10 xs.length
  let ys ← (List.range (2 * N / 2)).mapM fun i => plotRow times xs (2 * i)
  let vs ← (List.range 2).mapM fun i => plotRow times.dropLast us i
  return ⟨model.Fc, xs, us, ys, vs⟩

end Verif
