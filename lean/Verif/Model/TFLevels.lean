import Mathlib.Data.Nat.Log
import Verif.Model.FSCTF
import Verif.Model.HJB

/-!
Model of the argument `max_num_levels` that the TensorFlow passes give to `tfp.math.scan_associative`, and of the
library's documented requirement that the number of elements be less than `2**(max_num_levels + 1)`.

Simplifications: `math.log2` is exact, `max_parallel` is a natural number (`math.log2(0)` raises `ValueError`); the library
does not say what happens when the requirement is violated, so the model returns an error in that case.
-/

namespace Verif

/-- `math.ceil(math.log2(max_parallel))`, `fsc_tf.py:195,276,345`, `viterbi_tf.py:376,431,515`,
`hjb_grid_1d_tf.py:483`. -/
def tfLevels (max_parallel : ℕ) : Py ℕ :=
  if max_parallel = 0 then .error .valueError else .ok (Nat.clog 2 max_parallel)

/-- `max(math.ceil(math.log2(max_parallel)), 1)`, `lqt_tf.py:325,420,509`, `clqt_tf.py:920,1204,1340`. -/
def tfLevels1 (max_parallel : ℕ) : Py ℕ :=
  if max_parallel = 0 then .error .valueError else .ok (max (Nat.clog 2 max_parallel) 1)

/-- `tfp.math.scan_associative(.., max_num_levels=levels)` with its documented requirement, e.g. `fsc_tf.py:193-195`. -/
def budgetScan {α : Type} (scan : (α → α → Py α) → List α → Py (List α)) (levels : Py ℕ) (op : α → α → Py α)
    (elems : List α) : Py (List α) := do
  let k ← levels
  if elems.length < 2 ^ (k + 1) then scan op elems else throw .valueError

variable {n m p q : ℕ} {P K : Type}

section
variable [LinearOrder K] [AddCommMonoid K] [NeZero n] [NeZero m]

/-- `fsc_par_backwardpass(.., max_parallel)`, `fsc_tf.py:173-202`. -/
def FSC.tfParBackwardMp (scanV : ((Fin n → Fin n → K) → (Fin n → Fin n → K) → Py (Fin n → Fin n → K)) →
      List (Fin n → Fin n → K) → Py (List (Fin n → Fin n → K)))
    (am : (Fin m → K) → Fin m) (inf : K) (mp : ℕ) (M : FSC n m K) : Py (List (Fin n → Fin m) × List (Fin n → K)) :=
  M.tfParBackward (budgetScan scanV (tfLevels mp)) am inf

/-- `fsc_par_forwardpass(.., max_parallel)`, `fsc_tf.py:256-282`. -/
def FSC.tfParForwardMp (scanF : ((Fin n → Fin n) → (Fin n → Fin n) → Py (Fin n → Fin n)) →
      List (Fin n → Fin n) → Py (List (Fin n → Fin n)))
    (mp : ℕ) (M : FSC n m K) (x0 : Fin n) (us : List (Fin n → Fin m)) : Py (List (Fin m) × List (Fin n)) :=
  M.tfParForward (budgetScan scanF (tfLevels mp)) x0 us

/-- `fsc_par_fwdbwdpass(.., max_parallel)`, `fsc_tf.py:323-352`. -/
def FSC.tfParFwdBwdMp (scanV : ((Fin n → Fin n → K) → (Fin n → Fin n → K) → Py (Fin n → Fin n → K)) →
      List (Fin n → Fin n → K) → Py (List (Fin n → Fin n → K)))
    (amX : (Fin n → K) → Fin n) (inf : K) (mp : ℕ) (M : FSC n m K) (x0 : Fin n) (us : List (Fin n → Fin m))
    (Vs : List (Fin n → K)) : Py (List (Fin m) × List (Fin n)) :=
  M.tfParFwdBwd (budgetScan scanV (tfLevels mp)) amX inf x0 us Vs

end

section
variable [LinearOrder K] [AddCommMonoid K] [NeZero n]

/-- `viterbi_fsc_par_bwfw` with `max_parallel=fs.shape[0]`, `viterbi_tf.py:87-103`. -/
def HMM.tfFscParMp [Mul P] (scanV : ((Fin n → Fin n → K) → (Fin n → Fin n → K) → Py (Fin n → Fin n → K)) →
      List (Fin n → Fin n → K) → Py (List (Fin n → Fin n → K)))
    (scanF : ((Fin n → Fin n) → (Fin n → Fin n) → Py (Fin n → Fin n)) →
      List (Fin n → Fin n) → Py (List (Fin n → Fin n)))
    (am : (Fin n → K) → Fin n) (inf : K) (nl : P → K) (H : HMM n q P) (ys : List (Fin q)) :
    Py (List (Fin n) × List (Fin n → K)) :=
  H.tfFscPar (budgetScan scanV (tfLevels ys.length)) (budgetScan scanF (tfLevels ys.length)) am inf nl ys

/-- `viterbi_fsc_par_bwfwbw` with `max_parallel=fs.shape[0]`, `viterbi_tf.py:105-124`. -/
def HMM.tfFscParBwFwBwMp [Mul P] (scanV : ((Fin n → Fin n → K) → (Fin n → Fin n → K) → Py (Fin n → Fin n → K)) →
      List (Fin n → Fin n → K) → Py (List (Fin n → Fin n → K)))
    (am : (Fin n → K) → Fin n) (inf : K) (nl : P → K) (H : HMM n q P) (ys : List (Fin q)) :
    Py (List (Fin n) × List (Fin n → K)) :=
  H.tfFscParBwFwBw (budgetScan scanV (tfLevels ys.length)) am inf nl ys

/-- `viterbi_par_fwbw` with `max_parallel=ys.shape[0]`, `viterbi_tf.py:439-454`. -/
def HMM.tfParFwBwMp (scanV : ((Fin n → Fin n → K) → (Fin n → Fin n → K) → Py (Fin n → Fin n → K)) →
      List (Fin n → Fin n → K) → Py (List (Fin n → Fin n → K)))
    (scanF : ((Fin n → Fin n) → (Fin n → Fin n) → Py (Fin n → Fin n)) →
      List (Fin n → Fin n) → Py (List (Fin n → Fin n)))
    (am : (Fin n → K) → Fin n) (nl : P → K) (H : HMM n q P) (ys : List (Fin q)) :
    Py (List (Fin n) × List (Fin n → K)) :=
  H.tfParFwBw (budgetScan scanV (tfLevels ys.length)) (budgetScan scanF (tfLevels ys.length)) am nl ys

/-- `viterbi_seqpar_fwbw` with `max_parallel=ys.shape[0]`, `viterbi_tf.py:458-473`. -/
def HMM.tfSeqParFwBwMp (scanF : ((Fin n → Fin n) → (Fin n → Fin n) → Py (Fin n → Fin n)) →
      List (Fin n → Fin n) → Py (List (Fin n → Fin n)))
    (am : (Fin n → K) → Fin n) (nl : P → K) (H : HMM n q P) (ys : List (Fin q)) :
    Py (List (Fin n) × List (Fin n → K)) :=
  H.tfSeqParFwBw (budgetScan scanF (tfLevels ys.length)) am nl ys

/-- `viterbi_par_fwbwfw` with `max_parallel=ys.shape[0]`, `viterbi_tf.py:526-541`. -/
def HMM.tfParFwBwFwMp (scanV : ((Fin n → Fin n → K) → (Fin n → Fin n → K) → Py (Fin n → Fin n → K)) →
      List (Fin n → Fin n → K) → Py (List (Fin n → Fin n → K)))
    (am : (Fin n → K) → Fin n) (nl : P → K) (H : HMM n q P) (ys : List (Fin q)) :
    Py (List (Fin n) × List (Fin n → K)) :=
  H.tfParFwBwFw (budgetScan scanV (tfLevels ys.length)) am nl ys

end

section
variable [Field K] [LinearOrder K]

/-- `lqt_par_backwardpass(.., max_parallel)`, `lqt_tf.py:291-335`. -/
def TFLQT.parBackwardMp (scan : (Elem n K → Elem n K → Py (Elem n K)) → List (Elem n K) → Py (List (Elem n K)))
    (mp : ℕ) (Q : TFLQT n m p q K) : Py (BwResult n m K) :=
  Q.parBackward (budgetScan scan (tfLevels1 mp))

/-- `lqt_par_fwdbwdpass(.., max_parallel)`, `lqt_tf.py:477-518`. -/
def TFLQT.parFwdBwdMp (scan : (Elem n K → Elem n K → Py (Elem n K)) → List (Elem n K) → Py (List (Elem n K)))
    (mp : ℕ) (Q : TFLQT n m p q K) (x0 : Fin n → K) (bw : BwResult n m K) : Py (List (Fin n → K) × List (Fin m → K)) :=
  Q.parFwdBwd (budgetScan scan (tfLevels1 mp)) x0 bw

end

/-- `par_bw_pass(.., max_parallel)`, `hjb_grid_1d_tf.py:458-486`. -/
def parBwPassTFMp [Field K] [LinearOrder K] [NeZero n]
    (scan : ((Fin n → Fin n → WithBot K) → (Fin n → Fin n → WithBot K) → Py (Fin n → Fin n → WithBot K)) →
      List (Fin n → Fin n → WithBot K) → Py (List (Fin n → Fin n → WithBot K)))
    (am : (Fin n → WithBot K) → Fin n) (mp : ℕ) (M : HJB n K) (block_V : Fin n → Fin n → WithBot K) :
    Py (List (Fin n → WithBot K)) :=
  parBwPassTF (budgetScan scan (tfLevels mp)) am M block_V

/-- `lqt_par_forwardpass(.., max_parallel)`, `lqt_tf.py:395-426`. -/
def lqtTfParForwardMp [Field K] (scan : (Matrix (Fin n) (Fin n) K × (Fin n → K) → Matrix (Fin n) (Fin n) K × (Fin n → K) →
      Py (Matrix (Fin n) (Fin n) K × (Fin n → K))) → List (Matrix (Fin n) (Fin n) K × (Fin n → K)) →
      Py (List (Matrix (Fin n) (Fin n) K × (Fin n → K))))
    (mp : ℕ) (x0 : Fin n → K) (gs : List (TFwd n m K)) : Py (List (Fin n → K) × List (Fin m → K)) :=
  lqtTfParForward (budgetScan scan (tfLevels1 mp)) x0 gs

end Verif
