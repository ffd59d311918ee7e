import Verif.Model.LQTTests
import Verif.Model.Viterbi
import Mathlib.Analysis.SpecialFunctions.Log.Basic

/-!
Model of the tests of `/repo/tests/test_viterbi_np.py` that compare decoders with each other.

Simplifications: exact real arithmetic; the hidden Markov model and the observations are parameters (the tests use the
Gilbert-Elliot model and `genData`); all probabilities are meant to be positive, so that `-np.log` is real; the difference of
two arrays raises unless they have the same number of rows (broadcasting of a single row is left out); printing is left out;
a test function returns the conjunction of the conditions it asserts, or the exception raised on the way.
-/

namespace Verif

variable {n q : ℕ} [NeZero n]

/-- `max(abs(v_map1 - v_map2))`, `test_viterbi_np.py:75,89,128,146,163,178,197`. -/
noncomputable def pathErr (a b : List (Fin n)) : Py ℝ :=
  if a.length = b.length then listMax (List.zipWith (fun i j : Fin n => |((i : ℕ) : ℝ) - ((j : ℕ) : ℝ)|) a b)
  else .error .valueError

/-- `linalg.norm(V_list1 - V_list2)`, `test_viterbi_np.py:106,165,180,199`. -/
noncomputable def arrErr (a b : List (Fin n → ℝ)) : Py ℝ :=
  if a.length = b.length then .ok (Real.sqrt (List.zipWith (fun v w : Fin n → ℝ => ∑ i, (v i - w i) ^ 2) a b).sum)
  else .error .valueError

/-- `-np.log`, `viterbi_np.py:78-80`, on positive numbers. -/
noncomputable def negLog (p : ℝ) : ℝ := -Real.log p

/-- `test_ref_viterbi_log`, `test_viterbi_np.py:63-75`. -/
noncomputable def vitTestLog (H : HMM n q ℝ) (ys : List (Fin q)) : Py Prop := do
  let r1 := H.refViterbi ys
  let r2 ← H.refViterbiLog negLog ys
  let e ← pathErr r1.1 r2.1
  return e = 0

/-- `test_ref_viterbi_log_v2`, `test_viterbi_np.py:77-89`. -/
noncomputable def vitTestLog2 (H : HMM n q ℝ) (ys : List (Fin q)) : Py Prop := do
  let r1 ← H.refViterbiLog negLog ys
  let r2 ← H.refViterbiLog2 negLog ys
  let e ← pathErr r1.1 r2.1
  return e = 0

/-- `test_fsc_1`, `test_viterbi_np.py:92-107`. -/
noncomputable def vitTestFsc1 (H : HMM n q ℝ) (ys : List (Fin q)) : Py Prop := do
  let r1 ← H.refViterbiLog2 negLog ys
  let fsc ← H.getFSC negLog ys
  let e ← arrErr r1.2 fsc.seqBackwardPass.2.reverse
  return e < testTol

/-- `test_fsc_2`, `test_viterbi_np.py:110-128`. -/
noncomputable def vitTestFsc2 (H : HMM n q ℝ) (ys : List (Fin q)) : Py Prop := do
  let r1 ← H.refViterbiLog2 negLog ys
  let fsc ← H.getFSC negLog ys
  let V0 ← pyGet fsc.seqBackwardPass.2 0
  let p ← fsc.seqForwardPass (argmin1 V0) fsc.seqBackwardPass.1
  let e ← pathErr r1.1 p.2.reverse
  return e = 0

/-- `test_fsc_3`, `test_viterbi_np.py:130-152`. -/
noncomputable def vitTestFsc3 (H : HMM n q ℝ) (ys : List (Fin q)) : Py Prop := do
  let r1 ← H.refViterbiLog2 negLog ys
  let fsc ← H.getFSC negLog ys
  let V0 ← pyGet fsc.seqBackwardPass.2 0
  let p ← fsc.seqForwardPass (argmin1 V0) fsc.seqBackwardPass.1
  let r2 := fscToViterbi p.2 fsc.seqBackwardPass.2
  let e1 ← pathErr r1.1 r2.1
  let e2 ← errV r1.2 r2.2
  return e1 = 0 ∧ e2 < testTol

/-- The common steps of `test_seq_viterbi`, `test_par_viterbi_1` and `test_par_viterbi_2`, `test_viterbi_np.py:154-200`, for
a decoder `dec`. -/
noncomputable def vitTestDec (dec : HMM n q ℝ → List (Fin q) → Py (List (Fin n) × List (Fin n → ℝ))) (H : HMM n q ℝ)
    (ys : List (Fin q)) : Py Prop := do
  let r1 ← H.refViterbiLog2 negLog ys
  let r2 ← dec H ys
  let e1 ← pathErr r1.1 r2.1
  let e2 ← arrErr r1.2 r2.2
  return e1 = 0 ∧ e2 < testTol

/-- `test_seq_viterbi`, `test_viterbi_np.py:154-166`. -/
noncomputable def vitTestSeq (H : HMM n q ℝ) (ys : List (Fin q)) : Py Prop :=
  vitTestDec (fun H ys => H.seqViterbi negLog ys) H ys

/-- `test_par_viterbi_1`, `test_viterbi_np.py:169-181`; the sentinel is that of `fsc_np.py:18`. -/
noncomputable def vitTestPar1 (H : HMM n q ℝ) (ys : List (Fin q)) : Py Prop :=
  vitTestDec (fun H ys => H.parBwdFwdViterbi (10 ^ 20) negLog ys) H ys

/-- `test_par_viterbi_2`, `test_viterbi_np.py:184-200`. -/
noncomputable def vitTestPar2 (H : HMM n q ℝ) (ys : List (Fin q)) : Py Prop :=
  vitTestDec (fun H ys => H.parBwdFwdBwdViterbi (10 ^ 20) negLog ys) H ys

end Verif
