import Verif.Model.FSCTests
import Verif.Model.FSCTF

/-!
Model of `/repo/tests/test_fsc_tf.py`: the unit tests of the TensorFlow finite-state solvers, on the functional model of
`fsc_tf.py` (C62; its tensors are those of the functional model by C98).

Simplifications: exact real arithmetic; the uniform draws are an arbitrary table `w`; `fsc_np_to_tf` copies the data
(`C98_convert`) and is omitted; `tf.argmin` is a function `am` returning some minimiser; a test function returns the
conjunction of the conditions it asserts, or the exception raised on the way; the printing is omitted.
-/

namespace Verif

open Matrix

/-- The integer part of `track`, `test_fsc_tf.py:24-27`. -/
def testTrack4 : Fin 4 → Fin 9 → ℤ :=
  ![![0, 0, 2, 5, 5, 5, 1, 1, 0], ![0, 1, 2, 2, 2, 1, 2, 2, 1], ![0, 1, 2, 2, 2, 1, 2, 2, 1], ![0, 0, 0, 0, 0, 5, 5, 5, 5]]

/-- `f`, `test_fsc_tf.py:31-34`. -/
def testDyn4 : Fin 4 → Fin 3 → Fin 4 := ![![0, 0, 1], ![0, 1, 2], ![1, 2, 3], ![2, 3, 3]]

/-- `curr_L` of step `k`, `test_fsc_tf.py:28,41-46`, with the `u_cost` of line 40; `w` holds the draws of `rng.uniform`. -/
noncomputable def testL4 (w : Fin 4 → Fin 9 → ℝ) (k : Fin 9) (x : Fin 4) (u : Fin 3) : ℝ :=
  (testTrack4 x k + 1 / 100 * w x k) + testUCost u

/-- The object returned by `setupFSC`, `test_fsc_tf.py:19-50`; `x0` is `1`. -/
noncomputable def testFSC4 (w : Fin 4 → Fin 9 → ℝ) : FSC 4 3 ℝ where
  stages := (List.finRange 9).map fun k => ⟨testDyn4, testL4 w k⟩
  LT := ![9 / 10, 1, 11 / 10, 12 / 10]

/-- `tf.math.reduce_max(tf.math.abs(a - b))` of two matrices given by their rows, `test_fsc_tf.py:67,70,97,100`; a different
number of rows raises. -/
noncomputable def maxDiffRows {n : ℕ} (a b : List (Fin n → ℝ)) : Py ℝ :=
  if a.length ≠ b.length then .error .valueError
  else listMax (List.zipWith (fun p q => (List.finRange n).map fun x => |p x - q x|) a b).flatten

/-- The same for two lists of indices, `test_fsc_tf.py:82,85,123,126,152,155`. -/
noncomputable def maxDiffIdx {n : ℕ} (a b : List (Fin n)) : Py ℝ :=
  if a.length ≠ b.length then .error .valueError
  else listMax (List.zipWith (fun (p q : Fin n) => |(p.val : ℝ) - q.val|) a b)

/-- A table of policies as numbers (`tf.convert_to_tensor(u_list1)`, `test_fsc_tf.py:70,100`). -/
noncomputable def policyRows {n m : ℕ} (ps : List (Fin n → Fin m)) : List (Fin n → ℝ) := ps.map fun p x => ((p x).val : ℝ)

variable {n m : ℕ} [NeZero n] [NeZero m]

/-- `test_sequential`, `test_fsc_tf.py:55-86`. -/
noncomputable def fscTfTestSequential (am : (Fin m → ℝ) → Fin m) (M : FSC n m ℝ) (x0 : Fin n) : Py Prop := do
  let b1 := M.seqBackwardPass
  let p1 ← M.seqForwardPass x0 b1.1
  let b ← M.tfSeqBackward am
  let e1 ← maxDiffRows b1.2 b.2
  let e2 ← maxDiffRows (policyRows b1.1) (policyRows b.1)
  let q ← M.tfSeqForward x0 b.1
  let e3 ← maxDiffIdx p1.2 q.1
  let e4 ← maxDiffIdx p1.1 q.2
  return e1 < 1 / 10 ^ 6 ∧ e2 = 0 ∧ e3 = 0 ∧ e4 = 0

/-- `test_parback`, `test_fsc_tf.py:89-101`. -/
noncomputable def fscTfTestParback
    (scanV : ((Fin n → Fin n → ℝ) → (Fin n → Fin n → ℝ) → Py (Fin n → Fin n → ℝ)) →
      List (Fin n → Fin n → ℝ) → Py (List (Fin n → Fin n → ℝ)))
    (am : (Fin m → ℝ) → Fin m) (inf : ℝ) (M : FSC n m ℝ) : Py Prop := do
  let b1 ← M.parBackwardPass inf
  let b ← M.tfParBackward scanV am inf
  let e1 ← maxDiffRows b1.2 b.2
  let e2 ← maxDiffRows (policyRows b1.1) (policyRows b.1)
  return e1 < 1 / 10 ^ 6 ∧ e2 = 0

/-- `test_parfwd_1`, `test_fsc_tf.py:104-127`. -/
noncomputable def fscTfTestParfwd1
    (scanV : ((Fin n → Fin n → ℝ) → (Fin n → Fin n → ℝ) → Py (Fin n → Fin n → ℝ)) →
      List (Fin n → Fin n → ℝ) → Py (List (Fin n → Fin n → ℝ)))
    (scanF : ((Fin n → Fin n) → (Fin n → Fin n) → Py (Fin n → Fin n)) →
      List (Fin n → Fin n) → Py (List (Fin n → Fin n)))
    (am : (Fin m → ℝ) → Fin m) (inf : ℝ) (M : FSC n m ℝ) (x0 : Fin n) : Py Prop := do
  let b1 ← M.parBackwardPass inf
  let p1 ← M.parForwardPass x0 b1.1
  let b ← M.tfParBackward scanV am inf
  let q ← M.tfParForward scanF x0 b.1
  let e3 ← maxDiffIdx p1.2 q.2
  let e4 ← maxDiffIdx p1.1 q.1
  return e3 = 0 ∧ e4 = 0

/-- `test_parfwd_2`, `test_fsc_tf.py:130-156`. -/
noncomputable def fscTfTestParfwd2
    (scanV : ((Fin n → Fin n → ℝ) → (Fin n → Fin n → ℝ) → Py (Fin n → Fin n → ℝ)) →
      List (Fin n → Fin n → ℝ) → Py (List (Fin n → Fin n → ℝ)))
    (am : (Fin m → ℝ) → Fin m) (amX : (Fin n → ℝ) → Fin n) (inf : ℝ) (M : FSC n m ℝ) (x0 : Fin n) : Py Prop := do
  let b1 ← M.parBackwardPass inf
  let _ ← M.parFwdBwdInit inf x0
  let p1 ← M.parFwdBwdPass inf x0 b1.1 b1.2
  let b ← M.tfParBackward scanV am inf
  let q ← M.tfParFwdBwd scanV amX inf x0 b.1 b.2
  let e3 ← maxDiffIdx p1.2 q.2
  let e4 ← maxDiffIdx p1.1 q.1
  return e3 = 0 ∧ e4 = 0

end Verif
