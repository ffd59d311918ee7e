import Verif.Model.NLQTTF
import Verif.Model.ExamplesReal
import Verif.Model.SpeedLinear

/-!
Model of `/repo/parallel_control/nonlinear_speedtest.py`.

Simplifications: those of `Verif.Model.SpeedLinear`, `Verif.Model.NLQTTF` and `Verif.Model.TrackModels`; the tensors `Fs`, `cs` and
`Ls` of the conversion, which the generator does not yield, are dropped after the conversion.
-/

namespace Verif

open Matrix

section Passes
variable {n m p q : ℕ} {K : Type} [Field K] [LinearOrder K]

/-- `nlqt_iterate_par_1(.., max_parallel)`, `nlqt_tf.py:121-147`, with `max_parallel=rs.shape[0]`, `nonlinear_speedtest.py:99`. -/
def NModel.iteratePar1TFMp (scan : AScan) (M : NModel n m K) (C : NQCost n m p q K) (us : List (Fin m → K)) (xs : List (Fin n → K)) :
    Py (List (Fin m → K) × List (Fin n → K)) := do
  let P := M.linearizeTF C us xs.dropLast
  let r ← P.parBackwardMp (scan _) C.stages.length
  let x0 ← tfHead xs
  let (xs, us) ← lqtTfParForwardMp (scan _) C.stages.length x0 (P.withGains r)
  return (us, xs)

/-- `nlqt_iterate_par_2(.., max_parallel)`, `nlqt_tf.py:149-175`, with `max_parallel=rs.shape[0]`, `nonlinear_speedtest.py:156`. -/
def NModel.iteratePar2TFMp (scan : AScan) (M : NModel n m K) (C : NQCost n m p q K) (us : List (Fin m → K)) (xs : List (Fin n → K)) :
    Py (List (Fin m → K) × List (Fin n → K)) := do
  let P := M.linearizeTF C us xs.dropLast
  let r ← P.parBackwardMp (scan _) C.stages.length
  let x0 ← tfHead xs
  let (xs, us) ← P.parFwdBwdMp (scan _) C.stages.length x0 r
  return (us, xs)

/-- `nlqt_iter_seq`, `nonlinear_speedtest.py:23-43`; this and the following functions return controls and states. -/
def NModel.iterSeq (M : NModel n m K) (C : NQCost n m p q K) (us : List (Fin m → K)) (xs : List (Fin n → K)) :
    Py (List (Fin m → K) × List (Fin n → K)) :=
  (List.range 10).foldlM (fun ux _ => M.iterateSeqTF C ux.1 ux.2) (us, xs)

/-- `nlqt_iter_par_1`, `nonlinear_speedtest.py:76-100`. -/
def NModel.iterPar1 (scan : AScan) (M : NModel n m K) (C : NQCost n m p q K) (us : List (Fin m → K)) (xs : List (Fin n → K)) :
    Py (List (Fin m → K) × List (Fin n → K)) :=
  (List.range 10).foldlM (fun ux _ => M.iteratePar1TFMp scan C ux.1 ux.2) (us, xs)

/-- `nlqt_iter_par_2`, `nonlinear_speedtest.py:133-157`. -/
def NModel.iterPar2 (scan : AScan) (M : NModel n m K) (C : NQCost n m p q K) (us : List (Fin m → K)) (xs : List (Fin n → K)) :
    Py (List (Fin m → K) × List (Fin n → K)) :=
  (List.range 10).foldlM (fun ux _ => M.iteratePar2TFMp scan C ux.1 ux.2) (us, xs)

/-- What the generators yield, `nonlinear_speedtest.py:224`, with its dimensions. -/
structure NLItem (K : Type) where
  (n m p q : ℕ)
  us : List (Fin m → K)
  xs : List (Fin n → K)
  M : NModel n m K
  C : NQCost n m p q K

/-- The loop for a function of the items, e.g. `nonlinear_speedtest.py:61-73`: `us.shape[0]` and `xs.shape[1]` are reported. -/
def nlSpeed {β : NLItem K → Type} (gen : List (Py (NLItem K))) (run : ∀ it, Py (β it)) (n_iter : ℕ) : Py (List ℕ × List ℕ) :=
  speedLoop gen (fun it => do let _ ← run it; return ()) (fun it => it.us.length) (fun it => it.n) n_iter

/-- `nlqt_iter_seq_speedtest`, `nonlinear_speedtest.py:45-73`. -/
def iterSeqSpeed (gen : List (Py (NLItem K))) (n_iter : ℕ) : Py (List ℕ × List ℕ) :=
  nlSpeed gen (fun it => it.M.iterSeq it.C it.us it.xs) n_iter

/-- `nlqt_iter_par_1_speedtest`, `nonlinear_speedtest.py:102-130`. -/
def iterPar1Speed (scan : AScan) (gen : List (Py (NLItem K))) (n_iter : ℕ) : Py (List ℕ × List ℕ) :=
  nlSpeed gen (fun it => it.M.iterPar1 scan it.C it.us it.xs) n_iter

/-- `nlqt_iter_par_2_speedtest`, `nonlinear_speedtest.py:159-187`. -/
def iterPar2Speed (scan : AScan) (gen : List (Py (NLItem K))) (n_iter : ℕ) : Py (List ℕ × List ℕ) :=
  nlSpeed gen (fun it => it.M.iterPar2 scan it.C it.us it.xs) n_iter

end Passes

/-- The functions `f`, `Fx`, `Fu` of the generator with the default `dt=0.1`, `nonlinear_speedtest.py:220-222`. -/
noncomputable def vehicleTF : NModel 4 2 ℝ := ⟨nlModelFTF 0.1, nlModelFxTF 0.1, nlModelFuTF 0.1⟩

/-- One iteration of `nonlinear_generator`, `nonlinear_speedtest.py:210-224`, with the default `dt=0.1` of `NonlinearModel` and
`steps=10` of `genData` and `getLQT`. -/
noncomputable def nonlinItem (T : ℕ) : Py (NLItem ℝ) := do
  let (xyt, _) ← nlGenData T 10
  let (lqt, x0) ← nlGetLQT xyt 10
  let P ← lqt.npToTf 4 2 3 3
  let (us, xs) ← nlInitialGuess 0.1 (P.stages.map fun t => t.r) x0 true
  return ⟨4, 2, 3, 3, us, xs, vehicleTF, P.stages.map fun t => ⟨t.H, t.r, t.X, t.U⟩, P.HT, P.rT, P.XT⟩

/-- `nonlinear_generator`, `nonlinear_speedtest.py:194-224`. -/
noncomputable def nonlinearGen (start stop : ℝ) (num : ℕ) : List (Py (NLItem ℝ)) :=
  (logspaceInt start stop num).map nonlinItem

end Verif
