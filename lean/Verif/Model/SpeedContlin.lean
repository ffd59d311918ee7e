import Verif.Model.PararealTF
import Verif.Model.SpeedLinear
import Verif.Model.SpeedTest

/-!
Model of `/repo/parallel_control/contlin_speedtest.py`.

Simplifications: those of the modelled passes; the tuple `x0, XT, HT, rT, T, F_f, ..` is a `CLQT` object and an initial state; the
time measurement, the choice of the device and the printing are omitted, so that the speed tests return `err` only; `blocks`, `steps`,
`parareal_niter` and `n_iter` are natural numbers; a difference of tensors of different length is an error, and so is the maximum of an
empty tensor.
-/

namespace Verif

open Matrix

variable {n m : ℕ} {K : Type} [Field K] [LinearOrder K]

/-- `clqr_get_tracking_model()`, `contlin_speedtest.py:21-35`. -/
noncomputable def contTracking : CLQT 4 2 ℝ × (Fin 4 → ℝ) := linGetCLQTTF

/-- `clqt_par_backwardpass(.., max_parallel)`, `clqt_tf.py:886-926`. -/
def CLQT.tfParBackwardMp (scan : (Elem n K → Elem n K → Py (Elem n K)) → List (Elem n K) → Py (List (Elem n K))) (mp : ℕ)
    (P : CLQT n m K) (blocks steps : ℕ) (dt t0 : K) (ST : Matrix (Fin n) (Fin n) K) (vT : Fin n → K) : Py (BwResult n m K) :=
  P.tfParBackward (budgetScan scan (tfLevels1 mp)) blocks steps dt t0 ST vT

/-- `clqt_par_forwardpass(.., forward=True, u_zoh=False, max_parallel)`, `clqt_tf.py:1177-1210`. -/
def CLQT.tfParForwardMp (scan : (Matrix (Fin n) (Fin n) K × (Fin n → K) → Matrix (Fin n) (Fin n) K × (Fin n → K) →
      Py (Matrix (Fin n) (Fin n) K × (Fin n → K))) → List (Matrix (Fin n) (Fin n) K × (Fin n → K)) →
      Py (List (Matrix (Fin n) (Fin n) K × (Fin n → K)))) (mp : ℕ)
    (P : CLQT n m K) (blocks steps : ℕ) (x0 : Fin n → K) (Kxs : List (Matrix (Fin m) (Fin n) K)) (ds : List (Fin m → K))
    (dt t0 : K) : Py (List (Fin n → K) × List (Fin m → K)) :=
  P.tfParForward (budgetScan scan (tfLevels1 mp)) blocks steps x0 Kxs ds dt t0 true false

/-- `clqt_par_fwdbwdpass(.., forward=True, max_parallel)`, `clqt_tf.py:1316-1347`. -/
def CLQT.tfParFwdBwdMp (scan : (Elem n K → Elem n K → Py (Elem n K)) → List (Elem n K) → Py (List (Elem n K))) (mp : ℕ)
    (P : CLQT n m K) (blocks steps : ℕ) (x0 : Fin n → K) (bw : BwResult n m K) (dt t0 : K) : Py (List (Fin n → K) × List (Fin m → K)) :=
  P.tfParFwdBwd (budgetScan scan (tfLevels1 mp)) blocks steps x0 bw dt t0 true

/-- The tuple `Ss, vs, Kxs, ds, xs, us` returned by the pipelines, e.g. `contlin_speedtest.py:61`; the last component is `(xs, us)`. -/
abbrev CRun (n m : ℕ) (K : Type) := BwResult n m K × List (Fin n → K) × List (Fin m → K)

/-- `clqt_ref_sol_1`, `contlin_speedtest.py:41-61`. -/
def CLQT.spRef1 (P : CLQT n m K) (x0 : Fin n → K) (blocks steps : ℕ) : Py (CRun n m K) := do
  let (dt, t0, ST, vT) := P.tfSeqDefaults (blocks * steps)
  let bw ← P.tfSeqBackward (blocks * steps) dt t0 ST vT
  let xu ← P.tfSeqForward x0 bw.Kx_list bw.d_list dt t0 false
  return (bw, xu)

/-- `clqt_ref_sol_2`, `contlin_speedtest.py:63-85`; the defaults of line 82 are those of `clqt_tf.py:408-426`. -/
def CLQT.spRef2 (P : CLQT n m K) (x0 : Fin n → K) (blocks steps : ℕ) : Py (CRun n m K) := do
  let (dt, t0, ST, vT) := P.tfSeqDefaults (blocks * steps)
  let bw ← P.tfSeqBackward (blocks * steps) dt t0 ST vT
  let fw ← P.tfSeqFwdBwd (blocks * steps) (P.T / ((blocks * steps : ℕ) : K)) 0 0 x0 0
  let xu ← clqtTfCombine bw fw
  return (bw, xu)

/-- `clqt_seq_bw`, `contlin_speedtest.py:88-107`. -/
def CLQT.spSeqBw (P : CLQT n m K) (blocks steps : ℕ) : Py (BwResult n m K) := do
  let (dt, t0, ST, vT) := P.tfSeqDefaults (blocks * steps)
  P.tfSeqBackward (blocks * steps) dt t0 ST vT

/-- `clqt_seq_bw_fw`, `contlin_speedtest.py:140-160`. -/
def CLQT.spSeqBwFw (P : CLQT n m K) (x0 : Fin n → K) (blocks steps : ℕ) : Py (CRun n m K) := do
  let (dt, t0, ST, vT) := P.tfSeqDefaults (blocks * steps)
  let bw ← P.tfSeqBackward (blocks * steps) dt t0 ST vT
  let xu ← P.tfSeqForward x0 bw.Kx_list bw.d_list dt t0 false
  return (bw, xu)

/-- `clqt_par_bw`, `contlin_speedtest.py:192-211`. -/
def CLQT.spParBw (scan : AScan) (P : CLQT n m K) (blocks steps : ℕ) : Py (BwResult n m K) := do
  let (dt, t0, ST, vT) := P.tfParDefaults blocks steps
  P.tfParBackwardMp (scan _) blocks blocks steps dt t0 ST vT

/-- `clqt_par_bw_fw`, `contlin_speedtest.py:243-263`. -/
def CLQT.spParBwFw (scan : AScan) (P : CLQT n m K) (x0 : Fin n → K) (blocks steps : ℕ) : Py (CRun n m K) := do
  let (dt, t0, ST, vT) := P.tfParDefaults blocks steps
  let bw ← P.tfParBackwardMp (scan _) blocks blocks steps dt t0 ST vT
  let xu ← P.tfParForwardMp (scan _) blocks blocks steps x0 bw.Kx_list bw.d_list dt t0
  return (bw, xu)

/-- `clqt_par_bw_fwbw`, `contlin_speedtest.py:295-316`. -/
def CLQT.spParBwFwBw (scan : AScan) (P : CLQT n m K) (x0 : Fin n → K) (blocks steps : ℕ) : Py (CRun n m K) := do
  let (dt, t0, ST, vT) := P.tfParDefaults blocks steps
  let bw ← P.tfParBackwardMp (scan _) blocks blocks steps dt t0 ST vT
  let xu ← P.tfParFwdBwdMp (scan _) blocks blocks steps x0 bw dt t0
  return (bw, xu)

/-- `clqt_parareal_bw`, `contlin_speedtest.py:349-368`. -/
def CLQT.spPrBw (P : CLQT n m K) (blocks steps niter : ℕ) : Py (BwResult n m K) := P.tfPrBackward blocks steps niter

/-- `clqt_parareal_bw_fw`, `contlin_speedtest.py:402-422`. -/
def CLQT.spPrBwFw (P : CLQT n m K) (x0 : Fin n → K) (blocks steps niter : ℕ) : Py (CRun n m K) := do
  let bw ← P.tfPrBackward blocks steps niter
  let xu ← P.tfPrForward blocks steps niter x0 bw.Kx_list bw.d_list
  return (bw, xu)

/-- `clqt_parareal_bw_fwbw`, `contlin_speedtest.py:456-477`. -/
def CLQT.spPrBwFwBw (P : CLQT n m K) (x0 : Fin n → K) (blocks steps niter : ℕ) : Py (CRun n m K) := do
  let bw ← P.tfPrBackward blocks steps niter
  let fw ← P.tfPrFwdBwd blocks steps niter x0
  let xu ← clqtTfCombine bw fw
  return (bw, xu)

/-- `tf.reduce_max(tf.math.abs(Ss1 - Ss2))`, e.g. `contlin_speedtest.py:134`. -/
def tfMaxAbsMat (Ss1 Ss2 : List (Matrix (Fin n) (Fin n) K)) : Py K :=
  if Ss1.length ≠ Ss2.length then .error .valueError else
  let entries := (Ss1.zip Ss2).flatMap fun p => (List.finRange n).flatMap fun i => (List.finRange n).map fun j => |p.1 i j - p.2 i j|
  match entries with
  | [] => .error .valueError
  | e :: es => .ok (es.foldl max e)

/-- The common body of the speed tests: a compilation run, `n_iter` runs, the time per run, the reference, and the difference `diff`,
e.g. `contlin_speedtest.py:124-137`; returns `err`. -/
def contSpeed {α β : Type} (n_iter : ℕ) (run : Py α) (ref : Py β) (diff : α → β → Py K) : Py K := do
  let r ← run
  let r ← (List.range n_iter).foldlM (fun _ _ => run) r
  if n_iter = 0 then throw .zeroDivisionError
  let r' ← ref
  diff r r'

section
variable (scan : AScan) (P : CLQT n m K) (x0 : Fin n → K) (blocks steps parareal_niter n_iter : ℕ)

/-- `clqt_seq_bw_speedtest`, `contlin_speedtest.py:109-137`. -/
def CLQT.seqBwSpeed : Py K :=
  contSpeed n_iter (P.spSeqBw blocks steps) (P.spRef1 x0 blocks steps) fun r r' => tfMaxAbsMat r.S_list r'.1.S_list

/-- `clqt_seq_bw_fw_speedtest`, `contlin_speedtest.py:162-189`. -/
def CLQT.seqBwFwSpeed : Py K :=
  contSpeed n_iter (P.spSeqBwFw x0 blocks steps) (P.spRef1 x0 blocks steps) fun r r' => tfMaxAbs r.2.1 r'.2.1

/-- `clqt_par_bw_speedtest`, `contlin_speedtest.py:213-240`. -/
def CLQT.parBwSpeed : Py K :=
  contSpeed n_iter (P.spParBw scan blocks steps) (P.spRef1 x0 blocks steps) fun r r' => tfMaxAbsMat r.S_list r'.1.S_list

/-- `clqt_par_bw_fw_speedtest`, `contlin_speedtest.py:265-292`. -/
def CLQT.parBwFwSpeed : Py K :=
  contSpeed n_iter (P.spParBwFw scan x0 blocks steps) (P.spRef1 x0 blocks steps) fun r r' => tfMaxAbs r.2.1 r'.2.1

/-- `clqt_par_bw_fwbw_speedtest`, `contlin_speedtest.py:318-346`. -/
def CLQT.parBwFwBwSpeed : Py K :=
  contSpeed n_iter (P.spParBwFwBw scan x0 blocks steps) (P.spRef2 x0 blocks steps) fun r r' => tfMaxAbs r.2.1 r'.2.1

/-- `clqt_parareal_bw_speedtest`, `contlin_speedtest.py:370-399`. -/
def CLQT.prBwSpeed : Py K :=
  contSpeed n_iter (P.spPrBw blocks steps parareal_niter) (P.spRef1 x0 blocks steps) fun r r' => tfMaxAbsMat r.S_list r'.1.S_list

/-- `clqt_parareal_bw_fw_speedtest`, `contlin_speedtest.py:424-453`. -/
def CLQT.prBwFwSpeed : Py K :=
  contSpeed n_iter (P.spPrBwFw x0 blocks steps parareal_niter) (P.spRef1 x0 blocks steps) fun r r' => tfMaxAbs r.2.1 r'.2.1

/-- `clqt_parareal_bw_fwbw_speedtest`, `contlin_speedtest.py:479-507`. -/
def CLQT.prBwFwBwSpeed : Py K :=
  contSpeed n_iter (P.spPrBwFwBw x0 blocks steps parareal_niter) (P.spRef2 x0 blocks steps) fun r r' => tfMaxAbs r.2.1 r'.2.1

end

end Verif
