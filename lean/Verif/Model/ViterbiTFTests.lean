import Verif.Model.ViterbiTests
import Verif.Model.ViterbiTF
import Verif.Model.FSCTF

/-!
Model of the tests of `/repo/tests/test_viterbi_tf.py` that compare decoders with each other.

Simplifications: exact real arithmetic; the hidden Markov model and the observations are parameters (the tests use the
Gilbert-Elliot model and `genData`), all probabilities are meant to be positive; the scan primitives and the function `am`
behind `tf.argmin` are parameters; the difference of two tensors raises unless they have the same number of rows
(broadcasting is left out); `tf.math.reduce_max` raises on an empty tensor (it returns the least number), which does not occur
for observations; conversions of types and printing are left out; a test function returns the conjunction of the conditions
it asserts, or the exception raised on the way.
-/

namespace Verif

variable {n q : ℕ} [NeZero n]

/-- `tf.math.reduce_max(tf.math.abs(V1 - V2))` of two tensors of values, `test_viterbi_tf.py:37,60,83,125,176,225,287,338,359`. -/
noncomputable def arrMax (a b : List (Fin n → ℝ)) : Py ℝ :=
  if a.length = b.length then listMax (List.zipWith (fun v w : Fin n → ℝ => List.ofFn fun i => |v i - w i|) a b).flatten
  else .error .valueError

/-- The common steps of the tests, `test_viterbi_tf.py:28-43` (also 51-66, 74-89, 274-293, 336-344, 357-365): values and paths
of two decoders are compared, `c` is the condition asserted on the difference of the paths. -/
noncomputable def vtfCmp (c : ℝ → Prop) (d1 d2 : Py (List (Fin n) × List (Fin n → ℝ))) : Py Prop := do
  let r1 ← d1
  let r2 ← d2
  let e1 ← arrMax r1.2 r2.2
  let e2 ← pathErr r1.1 r2.1
  return e1 < testTol ∧ c e2

/-- The contract type of a scan primitive on value functions, `viterbi_tf.py:371` and `fsc_tf.py`. -/
abbrev ScanV (n : ℕ) := ((Fin n → Fin n → ℝ) → (Fin n → Fin n → ℝ) → Py (Fin n → Fin n → ℝ)) →
  List (Fin n → Fin n → ℝ) → Py (List (Fin n → Fin n → ℝ))

/-- The contract type of a scan primitive on maps of states, `viterbi_tf.py` and `fsc_tf.py`. -/
abbrev ScanF (n : ℕ) := ((Fin n → Fin n) → (Fin n → Fin n) → Py (Fin n → Fin n)) →
  List (Fin n → Fin n) → Py (List (Fin n → Fin n))

/-- `test_fsc_seq_viterbi`, `test_viterbi_tf.py:23-43`. -/
noncomputable def vtfTestFscSeq (am : (Fin n → ℝ) → Fin n) (H : HMM n q ℝ) (ys : List (Fin q)) : Py Prop :=
  vtfCmp (· = 0) (H.seqViterbi negLog ys) (H.tfFscSeq am negLog ys)

/-- `test_fsc_par_bwfw_viterbi`, `test_viterbi_tf.py:46-66`; the sentinels are those of
`fsc_np.py:18` and `fsc_tf.py:120`. -/
noncomputable def vtfTestFscPar (scanV : ScanV n) (scanF : ScanF n) (am : (Fin n → ℝ) → Fin n) (H : HMM n q ℝ)
    (ys : List (Fin q)) : Py Prop :=
  vtfCmp (· = 0) (H.parBwdFwdViterbi (10 ^ 20) negLog ys) (H.tfFscPar scanV scanF am (10 ^ 20) negLog ys)

/-- `test_fsc_par_bwfwbw_viterbi`, `test_viterbi_tf.py:69-89`. -/
noncomputable def vtfTestFscBw (scanV : ScanV n) (am : (Fin n → ℝ) → Fin n) (H : HMM n q ℝ) (ys : List (Fin q)) : Py Prop :=
  vtfCmp (· = 0) (H.parBwdFwdBwdViterbi (10 ^ 20) negLog ys) (H.tfFscParBwFwBw scanV am (10 ^ 20) negLog ys)

/-- `test_seq_forwardpass`, `test_viterbi_tf.py:107-127`. -/
noncomputable def vtfTestSeqForward (am : (Fin n → ℝ) → Fin n) (H : HMM n q ℝ) (ys : List (Fin q)) : Py Prop := do
  let r1 ← H.refViterbiLog2 negLog ys
  let e ← arrMax r1.2 (H.tfSeqForward am negLog ys).2
  return e < testTol

/-- `test_seq_backwardpass`, `test_viterbi_tf.py:130-154`. -/
noncomputable def vtfTestSeqBackward (am : (Fin n → ℝ) → Fin n) (H : HMM n q ℝ) (ys : List (Fin q)) : Py Prop := do
  let r1 ← H.refViterbiLog2 negLog ys
  let r := H.tfSeqForward am negLog ys
  match r.2.getLast? with
  | none => throw .indexError
  | some VT =>
    let e ← pathErr r1.1 (tfSeqBackward am r.1 VT)
    return e = 0

/-- `test_seq_fwbw`, `test_viterbi_tf.py:157-178`, which allows a difference of the paths of two; it looks at the paths before the
values. -/
noncomputable def vtfTestSeqFwBw (am : (Fin n → ℝ) → Fin n) (H : HMM n q ℝ) (ys : List (Fin q)) : Py Prop :=
  vtfCmp (· ≤ 2) (H.refViterbiLog2 negLog ys) (H.tfSeqFwBw am negLog ys)

/-- `test_viterbi_par_forwardpass`, `test_viterbi_tf.py:206-231`. -/
noncomputable def vtfTestParForward (scanV : ScanV n) (am : (Fin n → ℝ) → Fin n) (H : HMM n q ℝ) (ys : List (Fin q)) :
    Py Prop := do
  let r1 := H.tfSeqForward am negLog ys
  let r2 ← H.tfParForward scanV am negLog ys
  let e1 ← arrMax r1.2 r2.2
  let e2 ← arrMax (r1.1.map fun u x => ((u x : ℕ) : ℝ)) (r2.1.map fun u x => ((u x : ℕ) : ℝ))
  return e1 < testTol ∧ e2 = 0

/-- `test_viterbi_par_backwardpass`, `test_viterbi_tf.py:265-293`, whose calls are those of `viterbi_seq_fwbw` and
`viterbi_par_fwbw`. -/
noncomputable def vtfTestParBackward (scanV : ScanV n) (scanF : ScanF n) (am : (Fin n → ℝ) → Fin n) (H : HMM n q ℝ)
    (ys : List (Fin q)) : Py Prop :=
  vtfCmp (· = 0) (H.tfSeqFwBw am negLog ys) (H.tfParFwBw scanV scanF am negLog ys)

/-- `test_viterbi_par_fwbw`, `test_viterbi_tf.py:325-344`, which allows a difference of the paths of two. -/
noncomputable def vtfTestParFwBw (scanV : ScanV n) (scanF : ScanF n) (am : (Fin n → ℝ) → Fin n) (H : HMM n q ℝ)
    (ys : List (Fin q)) : Py Prop :=
  vtfCmp (· ≤ 2) (H.tfSeqFwBw am negLog ys) (H.tfParFwBw scanV scanF am negLog ys)

/-- `test_viterbi_seqpar_fwbw`, `test_viterbi_tf.py:346-365`. -/
noncomputable def vtfTestSeqPar (scanF : ScanF n) (am : (Fin n → ℝ) → Fin n) (H : HMM n q ℝ) (ys : List (Fin q)) : Py Prop :=
  vtfCmp (· = 0) (H.tfSeqFwBw am negLog ys) (H.tfSeqParFwBw scanF am negLog ys)

/-- `test_viterbi_par_fwbwfw`, `test_viterbi_tf.py:430-456`, which compares the paths of `viterbi_fsc_par_bwfwbw` and
`viterbi_par_fwbwfw`; the numpy decoder is only called. -/
noncomputable def vtfTestFwBwFw (scanV : ScanV n) (am : (Fin n → ℝ) → Fin n) (H : HMM n q ℝ) (ys : List (Fin q)) :
    Py Prop := do
  let _ ← H.parBwdFwdBwdViterbi (10 ^ 20) negLog ys
  let r1 ← H.tfFscParBwFwBw scanV am (10 ^ 20) negLog ys
  let r2 ← H.tfParFwBwFw scanV am negLog ys
  let e ← pathErr r1.1 r2.1
  return e = 0

/-- `test_viterbi_par_fwdbwdfwdpass`, `test_viterbi_tf.py:399-428`. -/
noncomputable def vtfTestBwFw (scanV : ScanV n) (am : (Fin n → ℝ) → Fin n) (H : HMM n q ℝ) (ys : List (Fin q)) :
    Py Prop := do
  let r0 ← H.parBwdFwdBwdViterbi (10 ^ 20) negLog ys
  let r1 ← H.tfFscParBwFwBw scanV am (10 ^ 20) negLog ys
  let f ← H.tfParForward scanV am negLog ys
  let r2 ← H.tfParBwFw scanV am negLog ys f.2
  let e1 ← pathErr r0.1 r2.1
  let e2 ← pathErr r1.1 r2.1
  return e1 = 0 ∧ e2 = 0

/-- `tf.math.reduce_max(tf.math.abs(elems - Vs))` of two lists of matrices, `test_viterbi_tf.py:201,395`. -/
noncomputable def matMax (a b : List (Fin n → Fin n → ℝ)) : Py ℝ :=
  if a.length = b.length then listMax (List.zipWith (fun v w : Fin n → Fin n → ℝ =>
    (List.ofFn fun i => List.ofFn fun j => |v i j - w i j|).flatten) a b).flatten
  else .error .valueError

/-- `test_viterbi_par_forwardpass_init`, `test_viterbi_tf.py:180-204`; `top` is the transpose. -/
noncomputable def vtfTestFwdInit (H : HMM n q ℝ) (ys : List (Fin q)) : Py Prop := do
  let fsc ← H.getFSC negLog ys
  let elems := fsc.stages.map (tfStageElem (10 ^ 20)) ++ [fun x _ => fsc.LT x]
  let e ← matMax (elems.reverse.map fun v j x => v x j) (H.tfParForwardInit negLog ys)
  return e < testTol

/-- `test_viterbi_par_fwdbwdfwdpass_init`, `test_viterbi_tf.py:368-397`, with `viterbi_par_bwfwpass_init`, `viterbi_tf.py:476-490`;
the unused forward pass of line 390 is left out. -/
noncomputable def vtfTestBwFwInit (am : (Fin n → ℝ) → Fin n) (H : HMM n q ℝ) (ys : List (Fin q)) : Py Prop := do
  let fsc ← H.getFSC negLog ys
  let r ← fsc.tfSeqBackward am
  let V0 ← pyGet r.2 0
  let elems1 := ((tfFwdBwdFirst (10 ^ 20) (am V0) :: fsc.stages.map (tfStageElem (10 ^ 20))).map fun v j x => v x j).reverse
  let elems2 := ys.map (H.tfElem negLog) ++ [fun _ _ => 0]
  let e ← matMax elems1.dropLast elems2.dropLast
  return e < testTol

end Verif
