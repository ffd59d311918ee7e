import Verif.Model.LQTTensor
import Verif.Model.ExamplesReal

/-!
Model of `/repo/parallel_control/nlqt_tf.py` and `/repo/parallel_control/nonlinear_model_tf.py` operation by operation on tensors.  The
functional models of the same files are `Verif.Model.NLQTTF` and `Verif.Model.ExamplesReal`.

Simplifications: those of `Verif.Model.LQTTensor`; the functions `f`, `Fx`, `Fu` are parameters that may raise.
-/

namespace Verif

/-- A function of the model on tensors, `f(xs, us)`, `Fx(xs, us)` and `Fu(xs, us)`, `nlqt_tf.py:39-41`. -/
abbrev TensFun (K : Type) := Tens K → Tens K → Py (Tens K)

variable {K : Type}

/-- `tf.stack(l, axis)`, `nonlinear_model_tf.py:20-23,43,54`. -/
def Tens.pack (l : List (Tens K)) (axis : ℤ) : Py (Tens K) := do
  Tens.concatAll (← l.mapM fun t => t.expandDims axis) axis

section Field
variable [Field K]

/-- `nlqt_linearize`, `nlqt_tf.py:24-48`; returns `(Fs, cs, Ls)`. -/
def tensNlqtLinearize (us xs : Tens K) (f Fx Fu : TensFun K) : Py (Tens K × Tens K × Tens K) := do
  let fs ← f xs us
  let Fxs ← Fx xs us
  let Fus ← Fu xs us
  let Fs := Fxs
  let Ls := Fus
  let cs ← (← fs.bin (· - ·) (← Fxs.mv xs)).bin (· - ·) (← Fus.mv us)
  return (Fs, cs, Ls)

/-- `body` of `nlqt_simulate`, `nlqt_tf.py:62-66`. -/
def tensNlqtBody (f : TensFun K) (carry inputs : Tens K) : Py (Tens K) := do
  (← f (← carry.expandDims 0) (← inputs.expandDims 0)).select 0 0

/-- `nlqt_simulate`, `nlqt_tf.py:51-71`. -/
def tensNlqtSimulate (x0 us : Tens K) (f : TensFun K) : Py (Tens K) := do
  let r ← tfScanFwdM (tensNlqtBody f) x0 (← us.items)
  let xs ← Tens.stack x0.shape x0.val r
  (← x0.expandDims 0).concat xs 0

/-- `nlqt_cost`, `nlqt_tf.py:74-93`. -/
def tensNlqtCost (x0 us : Tens K) (f : TensFun K) (Hs HT rs rT Xs XT Us : Tens K) : Py K := do
  let xs ← tensNlqtSimulate x0 us f
  tensLqtCost xs us Hs HT rs rT Xs XT Us

section Ordered
variable [LinearOrder K]

/-- `nlqt_iterate_seq`, `nlqt_tf.py:95-119`; returns `(us, xs)`. -/
def tensNlqtIterateSeq (us xs : Tens K) (f Fx Fu : TensFun K) (Hs HT rs rT Xs XT Us : Tens K) : Py (Tens K × Tens K) := do
  let (Fs, cs, Ls) ← tensNlqtLinearize us (← xs.init) f Fx Fu
  let b ← tensLqtSeqBackward Fs cs Ls Hs HT rs rT Xs XT Us
  let (xs, us) ← tensLqtSeqForward (← xs.select 0 0) Fs cs Ls b.Kxs b.ds
  return (us, xs)

/-- `nlqt_iterate_par_1`, `nlqt_tf.py:121-147`; returns `(us, xs)`. -/
def tensNlqtIteratePar1 (scan : AScan) (us xs : Tens K) (f Fx Fu : TensFun K) (Hs HT rs rT Xs XT Us : Tens K) : Py (Tens K × Tens K) := do
  let (Fs, cs, Ls) ← tensNlqtLinearize us (← xs.init) f Fx Fu
  let b ← tensLqtParBackward scan Fs cs Ls Hs HT rs rT Xs XT Us
  let (xs, us) ← tensLqtParForward scan (← xs.select 0 0) Fs cs Ls b.Kxs b.ds
  return (us, xs)

/-- `nlqt_iterate_par_2`, `nlqt_tf.py:149-175`; returns `(us, xs)`. -/
def tensNlqtIteratePar2 (scan : AScan) (us xs : Tens K) (f Fx Fu : TensFun K) (Hs HT rs rT Xs XT Us : Tens K) : Py (Tens K × Tens K) := do
  let (Fs, cs, Ls) ← tensNlqtLinearize us (← xs.init) f Fx Fu
  let b ← tensLqtParBackward scan Fs cs Ls Hs HT rs rT Xs XT Us
  let (xs, us) ← tensLqtParFwdBwd scan (← xs.select 0 0) Fs cs Ls Hs rs Xs Us b.Ss b.vs b.Kxs b.ds
  return (us, xs)

end Ordered
end Field

/-- `nonlinear_model_f`, `nonlinear_model_tf.py:19-24`. -/
noncomputable def tensModelF (dt : ℝ) (xs us : Tens ℝ) : Py (Tens ℝ) := do
  let a ← (← xs.select 1 0).bin (· + ·) ((← (← xs.select 1 3).bin (· * ·) ((← xs.select 1 2).map Real.cos)).map (· * dt))
  let b ← (← xs.select 1 1).bin (· + ·) ((← (← xs.select 1 3).bin (· * ·) ((← xs.select 1 2).map Real.sin)).map (· * dt))
  let c ← (← xs.select 1 2).bin (· + ·) ((← us.select 1 1).map (· * dt))
  let d ← (← xs.select 1 3).bin (· + ·) ((← us.select 1 0).map (· * dt))
  Tens.pack [a, b, c, d] 1

/-- `nonlinear_model_Fx`, `nonlinear_model_tf.py:26-43`. -/
noncomputable def tensModelFx (dt : ℝ) (xs _us : Tens ℝ) : Py (Tens ℝ) := do
  let one := (← xs.select 1 0).map fun _ => (1 : ℝ)
  let zero := (← xs.select 1 0).map fun _ => (0 : ℝ)
  let d_dx1 ← Tens.pack [one, zero, zero, zero] 1
  let d_dx2 ← Tens.pack [zero, one, zero, zero] 1
  let a ← ((← xs.select 1 3).map (- ·)).bin (· * ·) ((← xs.select 1 2).map Real.sin)
  let b ← (← xs.select 1 3).bin (· * ·) ((← xs.select 1 2).map Real.cos)
  let d_dx3 ← Tens.pack [a.map (· * dt), b.map (· * dt), one, zero] 1
  let d_dx4 ← Tens.pack [((← xs.select 1 2).map Real.cos).map (· * dt), ((← xs.select 1 2).map Real.sin).map (· * dt), zero, one] 1
  Tens.pack [d_dx1, d_dx2, d_dx3, d_dx4] 2

/-- `nonlinear_model_Fu`, `nonlinear_model_tf.py:45-54`. -/
noncomputable def tensModelFu (dt : ℝ) (_xs us : Tens ℝ) : Py (Tens ℝ) := do
  let one := (← us.select 1 0).map fun _ => (1 : ℝ)
  let zero := (← us.select 1 0).map fun _ => (0 : ℝ)
  let d_du1 ← Tens.pack [zero, zero, zero, one.map (· * dt)] 1
  let d_du2 ← Tens.pack [zero, zero, one.map (· * dt), zero] 1
  Tens.pack [d_du1, d_du2] 2

end Verif
