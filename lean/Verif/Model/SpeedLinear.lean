import Verif.Model.CondensingTF
import Verif.Model.MassModel
import Verif.Model.TFLevels
import Verif.Model.TrackModels
import Mathlib.Analysis.SpecialFunctions.Pow.Real

/-!
Model of `/repo/parallel_control/linear_speedtest.py` and of the conversions `lqt_np_to_tf`, `lqt_np_to_tf_gen`,
`/repo/parallel_control/lqt_tf.py:32-96`.

Simplifications: those of the modelled passes and models; the time measurement, the choice of the device and the printing are
omitted, so that the speed tests return the lists `T` and `D` only; the dimensions of the tensors are parameters of the conversions,
and arrays of other dimensions or lists of unequal lengths, for which TensorFlow raises in the conversion or in the passes, are a
`valueError`; the random numbers are parameters; `num`, `n_iter`, `T`, `N` and the range of `mass_generator_2` are natural numbers;
`np.logspace` is exact, and `T_list[k] = 0` in `mass_generator`, where numpy only warns, is an error.
-/

namespace Verif

open Matrix

/-- `tfp.math.scan_associative` for all types of elements, e.g. `lqt_tf.py:323-325`. -/
abbrev AScan := ∀ α : Type, (α → α → Py α) → List α → Py (List α)

section Convert
variable {n m p q : ℕ} {K : Type}

/-- `tf.convert_to_tensor` of a matrix, e.g. `lqt_tf.py:53`. -/
def tfMat (p x : ℕ) (a : NArr2 K) : Py (Matrix (Fin p) (Fin x) K) :=
  if h : a.rows = p ∧ a.cols = x then .ok (of fun i j => a.data (i.cast h.1.symm) (j.cast h.2.symm)) else .error .valueError

/-- `tf.convert_to_tensor` of a vector, e.g. `lqt_tf.py:55`. -/
def tfVec (p : ℕ) (a : NArr1 K) : Py (Fin p → K) :=
  if h : a.len = p then .ok fun i => a.data (i.cast h.symm) else .error .valueError

/-- `lqt_np_to_tf`, `lqt_tf.py:32-60`; `Z`, `s` and `M` are not read. -/
def RawLQT.npToTf (n m p q : ℕ) (o : RawLQT K) : Py (TFLQT n m p q K) := do
  let Fs ← o.F.mapM (tfMat n n)
  let cs ← o.c.mapM (tfVec n)
  let Ls ← o.L.mapM (tfMat n m)
  let Hs ← o.H.mapM (tfMat p n)
  let HT ← tfMat q n o.HT
  let rs ← o.r.mapM (tfVec p)
  let rT ← tfVec q o.rT
  let Xs ← o.X.mapM (tfMat p p)
  let XT ← tfMat q q o.XT
  let Us ← o.U.mapM (tfMat m m)
  if ¬ (cs.length = Fs.length ∧ Ls.length = Fs.length ∧ Hs.length = Fs.length ∧ rs.length = Fs.length ∧ Xs.length = Fs.length ∧
    Us.length = Fs.length) then throw .valueError
  let stages := (Fs.zip (cs.zip (Ls.zip (Hs.zip (rs.zip (Xs.zip Us)))))).map fun (F, c, L, H, r, X, U) => ⟨F, c, L, H, r, X, U⟩
  return ⟨stages, HT, rT, XT⟩

/-- `lqt_np_to_tf_gen`, `lqt_tf.py:62-96`; `Z` is not read. -/
def RawLQT.npToTfGen (n m p q : ℕ) (o : RawLQT K) : Py (TFGen n m p q K) := do
  let P ← o.npToTf n m p q
  let Ms ← o.M.mapM (tfMat p m)
  let ss ← o.s.mapM (tfVec m)
  if ¬ (Ms.length = P.stages.length ∧ ss.length = P.stages.length) then throw .valueError
  return ⟨(P.stages.zip (Ms.zip ss)).map fun (t, M, s) => ⟨t, M, s⟩, P.HT, P.rT, P.XT⟩

end Convert

section Passes
variable {n m p q : ℕ} {K : Type} [Field K] [LinearOrder K]

/-- `lqt_reference`, `linear_speedtest.py:23-41`: the result of the backward pass, the states and the controls. -/
def lqtReference (x0 : Fin n → K) (P : LQT n m K) : Py (BwResult n m K × List (Fin n → K) × List (Fin m → K)) := do
  let r ← P.seqBackwardPass
  let ux ← P.seqForwardPass x0 r.Kx_list r.d_list
  return (r, ux.2, ux.1)

/-- The tensors `Fs, cs, Ls, Kxs, ds` given to the forward passes, `linear_speedtest.py:143`. -/
def tfGains (ss : List (TStage n m p K)) (Kxs : List (Matrix (Fin m) (Fin n) K)) (ds : List (Fin m → K)) : List (TFwd n m K) :=
  List.zipWith (fun s kd => ⟨s.F, s.c, s.L, kd.1, kd.2⟩) ss (Kxs.zip ds)

/-- `lqt_sequential_bw`, `linear_speedtest.py:45-55`. -/
def TFLQT.spSeqBw (P : TFLQT n m p q K) : Py (BwResult n m K) := P.seqBackward

/-- `lqt_parallel_bw`, `linear_speedtest.py:89-99`. -/
def TFLQT.spParBw (scan : AScan) (P : TFLQT n m p q K) : Py (BwResult n m K) :=
  P.parBackwardMp (scan _) P.stages.length

/-- `lqt_sequential_bwfw`, `linear_speedtest.py:132-144`; this and the following functions return states and controls. -/
def TFLQT.spSeqBwFw (P : TFLQT n m p q K) (x0 : Fin n → K) : Py (List (Fin n → K) × List (Fin m → K)) := do
  let r ← P.seqBackward
  lqtTfSeqForward x0 (tfGains P.stages r.Kx_list r.d_list)

/-- `lqt_parallel_bwfw_1`, `linear_speedtest.py:178-191`. -/
def TFLQT.spParBwFw1 (scan : AScan) (P : TFLQT n m p q K) (x0 : Fin n → K) : Py (List (Fin n → K) × List (Fin m → K)) := do
  let r ← P.parBackwardMp (scan _) P.stages.length
  lqtTfParForwardMp (scan _) P.stages.length x0 (tfGains P.stages r.Kx_list r.d_list)

/-- `lqt_parallel_bwfw_2`, `linear_speedtest.py:224-237`. -/
def TFLQT.spParBwFw2 (scan : AScan) (P : TFLQT n m p q K) (x0 : Fin n → K) : Py (List (Fin n → K) × List (Fin m → K)) := do
  let r ← P.parBackwardMp (scan _) P.stages.length
  P.parFwdBwdMp (scan _) P.stages.length x0 r

/-- `lqt_sequential_cond_bwfw`, `linear_speedtest.py:270-297`. -/
def TFLQT.spSeqCond (N : ℕ) (P : TFLQT n m p q K) (x0 : Fin n → K) : Py (List (Fin n → K) × List (Fin m → K)) := do
  let bs ← tfCondense N P.stages
  let G : TFGen n (N * m) n q K := ⟨bs.map TCBlock.stage, P.HT, P.rT, P.XT⟩
  let C ← G.canon
  let r ← C.seqBackward
  let gs ← G.back r.Kx_list r.d_list
  let xu ← lqtTfSeqForward x0 (tfGains (G.stages.map GStage.toTStage) (gs.map Prod.fst) (gs.map Prod.snd))
  let ux ← tfConvertUX P.stages.length bs xu.2 xu.1
  return (ux.2, ux.1)

/-- `lqt_parallel_cond_bwfw_1`, `linear_speedtest.py:331-359`. -/
def TFLQT.spParCond1 (scan : AScan) (N : ℕ) (P : TFLQT n m p q K) (x0 : Fin n → K) :
    Py (List (Fin n → K) × List (Fin m → K)) := do
  let bs ← tfCondense N P.stages
  let G : TFGen n (N * m) n q K := ⟨bs.map TCBlock.stage, P.HT, P.rT, P.XT⟩
  let C ← G.canon
  let r ← C.parBackwardMp (scan _) C.stages.length
  let gs ← G.back r.Kx_list r.d_list
  let xu ← lqtTfParForwardMp (scan _) C.stages.length x0
    (tfGains (G.stages.map GStage.toTStage) (gs.map Prod.fst) (gs.map Prod.snd))
  let ux ← tfConvertUX P.stages.length bs xu.2 xu.1
  return (ux.2, ux.1)

/-- `lqt_parallel_cond_bwfw_2`, `linear_speedtest.py:394-421`: the second pass gets the dynamics and weights of the transformed
problem, its value functions, and the gains of the condensed problem. -/
def TFLQT.spParCond2 (scan : AScan) (N : ℕ) (P : TFLQT n m p q K) (x0 : Fin n → K) :
    Py (List (Fin n → K) × List (Fin m → K)) := do
  let bs ← tfCondense N P.stages
  let G : TFGen n (N * m) n q K := ⟨bs.map TCBlock.stage, P.HT, P.rT, P.XT⟩
  let C ← G.canon
  let r ← C.parBackwardMp (scan _) C.stages.length
  let gs ← G.back r.Kx_list r.d_list
  let xu ← C.parFwdBwdMp (scan _) C.stages.length x0 ⟨gs.map Prod.fst, gs.map Prod.snd, r.S_list, r.v_list⟩
  let ux ← tfConvertUX P.stages.length bs xu.2 xu.1
  return (ux.2, ux.1)

/-- What the generators yield, `linear_speedtest.py:483`, with its dimensions. -/
structure LQItem (K : Type) where
  (n m p q : ℕ)
  x0 : Fin n → K
  P : TFLQT n m p q K

end Passes

/-- The common body of the speed tests, e.g. `linear_speedtest.py:70-84`: for every item of the generator a compilation run,
`n_iter` runs and a division by `n_iter`; returns `T` and `D`. -/
def speedLoop {α β : Type} (gen : List (Py α)) (run : α → Py β) (T D : α → ℕ) (n_iter : ℕ) : Py (List ℕ × List ℕ) :=
  gen.foldlM (fun (acc : List ℕ × List ℕ) item => do
    let a ← item
    let _ ← run a
    let _ ← (List.range n_iter).mapM fun _ => run a
    let acc := (acc.1 ++ [T a], acc.2 ++ [D a])
    if n_iter = 0 then throw .zeroDivisionError
    return acc) ([], [])

section Tests
variable {K : Type} [Field K] [LinearOrder K]

/-- The loop for a function of the items, e.g. `linear_speedtest.py:73-84`: `Fs.shape[0]` and `Fs.shape[1]` are reported. -/
def lqSpeed {β : LQItem K → Type} (gen : List (Py (LQItem K))) (run : ∀ it, Py (β it)) (n_iter : ℕ) : Py (List ℕ × List ℕ) :=
  speedLoop gen (fun it => do let _ ← run it; return ()) (fun it => it.P.stages.length) (fun it => it.n) n_iter

/-- `lqt_sequential_bw_speedtest`, `linear_speedtest.py:57-85`. -/
def seqBwSpeed (gen : List (Py (LQItem K))) (n_iter : ℕ) : Py (List ℕ × List ℕ) :=
  lqSpeed gen (fun it => it.P.spSeqBw) n_iter

/-- `lqt_parallel_bw_speedtest`, `linear_speedtest.py:101-129`. -/
def parBwSpeed (scan : AScan) (gen : List (Py (LQItem K))) (n_iter : ℕ) : Py (List ℕ × List ℕ) :=
  lqSpeed gen (fun it => it.P.spParBw scan) n_iter

/-- `lqt_sequential_bwfw_speedtest`, `linear_speedtest.py:146-174`. -/
def seqBwFwSpeed (gen : List (Py (LQItem K))) (n_iter : ℕ) : Py (List ℕ × List ℕ) :=
  lqSpeed gen (fun it => it.P.spSeqBwFw it.x0) n_iter

/-- `lqt_parallel_bwfw_1_speedtest`, `linear_speedtest.py:193-221`. -/
def parBwFw1Speed (scan : AScan) (gen : List (Py (LQItem K))) (n_iter : ℕ) : Py (List ℕ × List ℕ) :=
  lqSpeed gen (fun it => it.P.spParBwFw1 scan it.x0) n_iter

/-- `lqt_parallel_bwfw_2_speedtest`, `linear_speedtest.py:239-267`. -/
def parBwFw2Speed (scan : AScan) (gen : List (Py (LQItem K))) (n_iter : ℕ) : Py (List ℕ × List ℕ) :=
  lqSpeed gen (fun it => it.P.spParBwFw2 scan it.x0) n_iter

/-- `lqt_sequential_cond_bwfw_speedtest`, `linear_speedtest.py:299-328`. -/
def seqCondSpeed (gen : List (Py (LQItem K))) (n_iter Nc : ℕ) : Py (List ℕ × List ℕ) :=
  lqSpeed gen (fun it => it.P.spSeqCond Nc it.x0) n_iter

/-- `lqt_parallel_cond_bwfw_1_speedtest`, `linear_speedtest.py:361-390`. -/
def parCond1Speed (scan : AScan) (gen : List (Py (LQItem K))) (n_iter Nc : ℕ) : Py (List ℕ × List ℕ) :=
  lqSpeed gen (fun it => it.P.spParCond1 scan Nc it.x0) n_iter

/-- `lqt_parallel_cond_bwfw_2_speedtest`, `linear_speedtest.py:423-453`. -/
def parCond2Speed (scan : AScan) (gen : List (Py (LQItem K))) (n_iter Nc : ℕ) : Py (List ℕ × List ℕ) :=
  lqSpeed gen (fun it => it.P.spParCond2 scan Nc it.x0) n_iter

end Tests

/-- `np.logspace(start, stop, num=num, base=10).astype(int)`, `linear_speedtest.py:473`. -/
noncomputable def logspaceInt (start stop : ℝ) (num : ℕ) : List ℕ :=
  (List.range num).map fun k : ℕ => ⌊(10 : ℝ) ^ (start + k * ((stop - start) / (num - 1)))⌋₊

/-- One iteration of `tracking_generator`, `linear_speedtest.py:477-484`, with the default `steps=10` of `getLQT`. -/
noncomputable def trackItem (rnd : ℕ → ℝ) (T : ℕ) : Py (LQItem ℝ) := do
  let xy ← linGenData rnd (T / 10)
  let (lqt, x0) ← linGetLQT xy 10
  let P ← lqt.npToTf 4 2 2 4
  return ⟨4, 2, 2, 4, x0, P⟩

/-- `tracking_generator`, `linear_speedtest.py:460-484`: every model has the same seed, so `rnd` is the same for all. -/
noncomputable def trackingGen (rnd : ℕ → ℝ) (start stop : ℝ) (num : ℕ) : List (Py (LQItem ℝ)) :=
  (logspaceInt start stop num).map (trackItem rnd)

/-- One iteration of `mass_generator` and `mass_generator_2`, `linear_speedtest.py:506-514` and `linear_speedtest.py:533-541`. -/
noncomputable def massItem (N T : ℕ) : Py (LQItem ℝ) := do
  let model ← MassModel.init (K := ℝ) N
  let Tf : ℝ := 10
  if T = 0 then throw .zeroDivisionError
  let dt := Tf / T
  let (lqt, x0) ← model.getLQT dt Tf
  let P ← lqt.npToTf (2 * N) 2 (2 * N) (2 * N)
  return ⟨2 * N, 2, 2 * N, 2 * N, x0, P⟩

/-- `mass_generator`, `linear_speedtest.py:490-514`. -/
noncomputable def massGen (N : ℕ) (start stop : ℝ) (num : ℕ) : List (Py (LQItem ℝ)) :=
  (logspaceInt start stop num).map (massItem N)

/-- `np.arange(nstart, nend, nstep, dtype=int)`, `linear_speedtest.py:530`. -/
def npArange (nstart nend nstep : ℕ) : Py (List ℕ) :=
  if nstep = 0 then .error .zeroDivisionError
  else .ok ((List.range ((nend - nstart + nstep - 1) / nstep)).map fun k => nstart + k * nstep)

/-- `mass_generator_2`, `linear_speedtest.py:516-541`: an exception of `np.arange` is raised by the first request. -/
noncomputable def massGen2 (T nstart nend nstep : ℕ) : List (Py (LQItem ℝ)) :=
  match npArange nstart nend nstep with
  | .error e => [.error e]
  | .ok l => l.map fun N => massItem N T

end Verif
