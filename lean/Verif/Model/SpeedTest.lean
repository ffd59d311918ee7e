import Verif.Model.Examples
import Verif.Model.TFLevels

/-!
Model of `GEModel.genData`, `/repo/parallel_control/ge_model_np.py:69-95`, and of the speed tests
`/repo/parallel_control/viterbi_tf.py:128-227,548-690`.

Simplifications: elements of an ordered field; the uniform random numbers in `[0, 1)` are a parameter (the seed of line 79 fixes
them), and `np.random.choice` is modelled by its documented algorithm (inversion of the distribution function) without the tolerance
in the check of the sum; `T` and `n_iter` are natural numbers; the time measurement and the printing are omitted; a difference of
arrays of different length is an error, and so is the maximum of an empty array.
-/

namespace Verif

variable {n m q : ℕ} {P K : Type}

/-- The distribution function `cdf[i] = p[0] + ... + p[i]` of `np.random.choice`, `ge_model_np.py:82`. -/
def npCdf [Field K] (p : Fin n → K) (i : Fin n) : K :=
  ((List.finRange n).take (i + 1)).foldl (fun s j => s + p j) 0

/-- `categ_rnd(probs)[0]`, `ge_model_np.py:81-82`, with the random number `u`: `ValueError` if the numbers are no distribution,
otherwise the first index whose distribution function is above `u`. -/
def categRnd [Field K] [LinearOrder K] (p : Fin n → K) (u : K) : Py (Fin n) :=
  if ∃ i, p i < 0 then .error .valueError
  else if (List.finRange n).foldl (fun s j => s + p j) 0 ≠ 1 then .error .valueError
  else match (List.finRange n).find? (fun i => u < npCdf p i) with
    | some i => .ok i
    | none => .error .indexError

/-- `GEModel.genData(T)`, `ge_model_np.py:69-95`, for any hidden Markov model; `rnd` are the random numbers in the order in which
they are used. The second and third components are `x_list`, `y_list`, the first is the state drawn from the prior (line 87), which
the code does not return. -/
def HMM.genTrace [Field K] [LinearOrder K] (rnd : ℕ → K) (H : HMM n q K) (T : ℕ) : Py (Fin n × List (Fin n) × List (Fin q)) := do
  let x0 ← categRnd H.prior (rnd 0)
  let st ← (List.range T).foldlM (fun (st : Fin n × List (Fin n) × List (Fin q)) k => do
    let x ← categRnd (H.Pi st.1) (rnd (2 * k + 1))
    let y ← categRnd (H.Po x) (rnd (2 * k + 2))
    return (x, st.2.1 ++ [x], st.2.2 ++ [y])) (x0, [], [])
  return (x0, st.2.1, st.2.2)

/-- The returned values `x_list, y_list` of `GEModel.genData(T)`, `ge_model_np.py:95`. -/
def HMM.genData [Field K] [LinearOrder K] (rnd : ℕ → K) (H : HMM n q K) (T : ℕ) : Py (List (Fin n) × List (Fin q)) := do
  let r ← H.genTrace rnd T
  return (r.2.1, r.2.2)

/-- `tf.math.reduce_max(tf.math.abs(ref - Vs))`, e.g. `viterbi_tf.py:156`. -/
def tfMaxAbs [AddGroup K] [LinearOrder K] (ref Vs : List (Fin n → K)) : Py K :=
  if ref.length ≠ Vs.length then .error .valueError else
  let entries := (ref.zip Vs).flatMap fun p => (List.finRange n).map fun i => |p.1 i - p.2 i|
  match entries with
  | [] => .error .valueError
  | e :: es => .ok (es.foldl max e)

/-- The common body of the speed tests: a compilation run, `n_iter` runs, the time per run, the reference, and the largest difference
of the value functions, e.g. `viterbi_tf.py:146-159`; returns `err`. -/
def speedtest [AddGroup K] [LinearOrder K] (n_iter : ℕ) (run ref : Py (List (Fin n) × List (Fin n → K))) : Py K := do
  let r ← run
  let r ← (List.range n_iter).foldlM (fun _ _ => run) r
  if n_iter = 0 then throw .zeroDivisionError
  let r' ← ref
  tfMaxAbs r'.2 r.2

section
variable [Field P] [LinearOrder P] [AddCommGroup K] [LinearOrder K] [NeZero n]
  (scanV : ((Fin n → Fin n → K) → (Fin n → Fin n → K) → Py (Fin n → Fin n → K)) → List (Fin n → Fin n → K) → Py (List (Fin n → Fin n → K)))
  (scanF : ((Fin n → Fin n) → (Fin n → Fin n) → Py (Fin n → Fin n)) → List (Fin n → Fin n) → Py (List (Fin n → Fin n)))
  (am : (Fin n → K) → Fin n) (inf : K) (nl : P → K) (rnd : ℕ → P) (H : HMM n q P) (steps n_iter : ℕ)

/-- `viterbi_fsc_seq_bwfw_speedtest`, `viterbi_tf.py:128-159`. -/
def speedFscSeqBwFw : Py K := do
  let d ← H.genData rnd steps
  speedtest n_iter (H.tfFscSeq am nl d.2) (H.seqViterbi nl d.2)

/-- `viterbi_fsc_par_bwfw_speedtest`, `viterbi_tf.py:162-193`. -/
def speedFscParBwFw : Py K := do
  let d ← H.genData rnd steps
  speedtest n_iter (H.tfFscParMp scanV scanF am inf nl d.2) (H.parBwdFwdViterbi inf nl d.2)

/-- `viterbi_fsc_par_bwfwbw_speedtest`, `viterbi_tf.py:196-227`. -/
def speedFscParBwFwBw : Py K := do
  let d ← H.genData rnd steps
  speedtest n_iter (H.tfFscParBwFwBwMp scanV am inf nl d.2) (H.parBwdFwdBwdViterbi inf nl d.2)

/-- `viterbi_seq_fwbw_speedtest`, `viterbi_tf.py:548-581`. -/
def speedSeqFwBw : Py K := do
  let d ← H.genData rnd steps
  speedtest n_iter (H.tfSeqFwBw am nl d.2) (H.seqViterbi nl d.2)

/-- `viterbi_par_fwbw_speedtest`, `viterbi_tf.py:584-618`. -/
def speedParFwBw : Py K := do
  let d ← H.genData rnd steps
  speedtest n_iter (H.tfParFwBwMp scanV scanF am nl d.2) (H.seqViterbi nl d.2)

/-- `viterbi_seqpar_fwbw_speedtest`, `viterbi_tf.py:621-654`. -/
def speedSeqParFwBw : Py K := do
  let d ← H.genData rnd steps
  speedtest n_iter (H.tfSeqParFwBwMp scanF am nl d.2) (H.seqViterbi nl d.2)

/-- `viterbi_par_fwbwfw_speedtest`, `viterbi_tf.py:657-690`. -/
def speedParFwBwFw : Py K := do
  let d ← H.genData rnd steps
  speedtest n_iter (H.tfParFwBwFwMp scanV am nl d.2) (H.seqViterbi nl d.2)

end

end Verif
