import Verif.Model.FSCTensor

/-!
Model of `/repo/parallel_control/viterbi_tf.py` operation by operation on tensors.  The functional model of the same file is
`Verif.Model.ViterbiTF` and, for the routines through `fsc_tf.py`, `Verif.Model.FSCTF`.

Simplifications: those of `Verif.Model.FSCTensor`; `nl` is `-tf.math.log`; the states that `tf.scan` returns along the time axis are
lists of numbers.
-/

namespace Verif

variable {K P : Type}

/-- `tf.linalg.matrix_transpose` of a matrix, `viterbi_tf.py:19,328`. -/
def Tens.transpose (t : Tens K) : Py (Tens K) :=
  match t.shape with
  | [a, b] => .ok ⟨[b, a], fun i => t.val [i.getD 1 0, i.getD 0 0]⟩
  | _ => .error .valueError

/-- `t[-1]` along the first axis, `Vs[-1, :]`, `viterbi_tf.py:311,452`. -/
def Tens.last (t : Tens K) : Py (Tens K) :=
  match t.shape with
  | 0 :: _ => .error .indexError
  | (n + 1) :: _ => t.select 0 n
  | [] => .error .indexError

/-- The entries of a tensor with one axis, on which `tf.scan` works, `viterbi_tf.py:264-266`. -/
def Tens.numbers (t : Tens K) : Py (List K) := do
  return (← t.items).map fun s => s.val []

section Value
variable [LinearOrder K] [AddCommMonoid K]

/-- `body` of `viterbi_seq_forwardpass`, `viterbi_tf.py:250-259`; the carry is `(V, u)`. -/
def tensVitBody (am : AArgmin K) (nl_Pi nl_Po : Tens K) (carry : Tens K × Tens ℕ) (y : ℕ) : Py (Tens K × Tens ℕ) := do
  let (V, _) := carry
  let psi ← (← (← nl_Po.select 1 y).expandDims 0).bin (· + ·) nl_Pi
  let temp ← psi.bin (· + ·) (← V.expandDims (-1))
  let u ← temp.argmin am 0
  let V ← temp.reduceMin 0
  return (V, u)

/-- `viterbi_seq_forwardpass`, `viterbi_tf.py:233-270`; returns `(us, Vs)`. -/
def tensVitSeqForward (am : AArgmin K) (nl : P → K) (prior Pi Po : Tens P) (ys : Tens ℕ) : Py (Tens ℕ × Tens K) := do
  let nl_prior := prior.map nl
  let nl_Pi := Pi.map nl
  let nl_Po := Po.map nl
  let u0 := Tens.const [← Pi.dim 0] 0
  let V0 := nl_prior
  let r ← tfScanFwdM (tensVitBody am nl_Pi nl_Po) (V0, u0) (← ys.numbers)
  let Vs ← Tens.stack V0.shape V0.val (r.map Prod.fst)
  let us ← Tens.stack u0.shape u0.val (r.map Prod.snd)
  let Vs ← (← V0.expandDims 0).concat Vs 0
  return (us, Vs)

/-- `body` of `viterbi_seq_backwardpass`, `viterbi_tf.py:283-287`. -/
def tensVitBwBody (x : ℕ) (u : Tens ℕ) : Py ℕ := do
  let r ← u.select 0 x
  return r.val []

/-- `viterbi_seq_backwardpass`, `viterbi_tf.py:273-294`. -/
def tensVitSeqBackward (am : AArgmin K) (us : Tens ℕ) (VT : Tens K) : Py (List ℕ) := do
  let x := (← VT.argmin am 0).val []
  let r ← tfScanRev tensVitBwBody x (← us.items)
  return r.1 ++ [x]

/-- `viterbi_seq_fwbw`, `viterbi_tf.py:297-312`; returns `(xs, Vs)`. -/
def tensVitSeqFwBw (am : AArgmin K) (nl : P → K) (prior Pi Po : Tens P) (ys : Tens ℕ) : Py (List ℕ × Tens K) := do
  let (us, Vs) ← tensVitSeqForward am nl prior Pi Po ys
  let xs ← tensVitSeqBackward am us (← Vs.last)
  return (xs, Vs)

/-- The elements of all steps, `viterbi_tf.py:328` (also 489). -/
def tensVitElems (nl : P → K) (Pi Po : Tens P) (ys : Tens ℕ) : Py (Tens K) := do
  let a ← (Pi.map nl).expandDims 0
  let b ← (← ((← Po.transpose).map nl).gather ys 0).expandDims (-2)
  a.bin (· + ·) b

/-- `viterbi_par_forwardpass_init`, `viterbi_tf.py:315-329`. -/
def tensVitFwInit (nl : P → K) (prior Pi Po : Tens P) (ys : Tens ℕ) : Py (Tens K) := do
  let V0 ← (← (prior.map nl).expandDims (-2)).tile [← prior.dim 0, 1]
  let Vs ← tensVitElems nl Pi Po ys
  (← V0.expandDims 0).concat Vs 0

/-- `viterbi_par_forwardpass`, `viterbi_tf.py:359-383`; returns `(us, Vs)`. -/
def tensVitParForward (scan : AScan) (am : AArgmin K) (nl : P → K) (prior Pi Po : Tens P) (ys : Tens ℕ) : Py (Tens ℕ × Tens K) := do
  let elems1 ← tensVitFwInit nl prior Pi Po ys
  let elems2 ← elems1.scanAssoc scan tensCombV
  let Ls ← elems1.tail
  let Vs ← elems2.select 1 0
  let Vus ← Ls.bin (· + ·) (← (← Vs.init).expandDims (-1))
  let us ← Vus.argmin am (-2)
  return (us, Vs)

/-- `viterbi_par_backwardpass_init`, `viterbi_tf.py:386-397`. -/
def tensVitBwInit (am : AArgmin K) (us : Tens ℕ) (VT : Tens K) : Py (Tens ℕ) := do
  let xT := (← VT.argmin am 0).val []
  us.concat (← (Tens.const [← VT.dim 0] xT).expandDims 0) 0

/-- `viterbi_par_backwardpass`, `viterbi_tf.py:414-436`. -/
def tensVitParBackward (scan : AScan) (am : AArgmin K) (us : Tens ℕ) (VT : Tens K) : Py (Tens ℕ) := do
  let elems ← tensVitBwInit am us VT
  let rev_elems ← elems.reverse
  let rev_elems ← rev_elems.scanAssoc scan tensCombF
  (← rev_elems.reverse).select (-1) 0

/-- `viterbi_par_fwbw`, `viterbi_tf.py:439-454`; returns `(xs, Vs)`. -/
def tensVitParFwBw (scan : AScan) (am : AArgmin K) (nl : P → K) (prior Pi Po : Tens P) (ys : Tens ℕ) : Py (Tens ℕ × Tens K) := do
  let (us, Vs) ← tensVitParForward scan am nl prior Pi Po ys
  let xs ← tensVitParBackward scan am us (← Vs.last)
  return (xs, Vs)

/-- `viterbi_seqpar_fwbw`, `viterbi_tf.py:457-473`; returns `(xs, Vs)`. -/
def tensVitSeqParFwBw (scan : AScan) (am : AArgmin K) (nl : P → K) (prior Pi Po : Tens P) (ys : Tens ℕ) : Py (Tens ℕ × Tens K) := do
  let (us, Vs) ← tensVitSeqForward am nl prior Pi Po ys
  let xs ← tensVitParBackward scan am us (← Vs.last)
  return (xs, Vs)

/-- `viterbi_par_bwfwpass_init`, `viterbi_tf.py:476-490`. -/
def tensVitBwFwInit (nl : P → K) (prior Pi Po : Tens P) (ys : Tens ℕ) : Py (Tens K) := do
  let VT := Tens.const [← prior.dim 0, ← prior.dim 0] 0
  let Vs ← tensVitElems nl Pi Po ys
  Vs.concat (← VT.expandDims 0) 0

/-- `viterbi_par_bwfwpass`, `viterbi_tf.py:493-522`; returns `(xs, Vfs)`. -/
def tensVitParBwFw (scan : AScan) (am : AArgmin K) (nl : P → K) (prior Pi Po : Tens P) (ys : Tens ℕ) (Vs : Tens K) :
    Py (Tens ℕ × Tens K) := do
  let elems ← tensVitBwFwInit nl prior Pi Po ys
  let rev_elems ← elems.reverse
  let rev_elems ← rev_elems.scanAssoc scan tensCombVRev
  let elems ← rev_elems.reverse
  let Vfs ← elems.select (-1) 0
  let xs ← (← Vfs.bin (· + ·) Vs).argmin am (-1)
  return (xs, Vfs)

/-- `viterbi_par_fwbwfw`, `viterbi_tf.py:525-541`; returns `(v_map, Vs)`. -/
def tensVitParFwBwFw (scan : AScan) (am : AArgmin K) (nl : P → K) (prior Pi Po : Tens P) (ys : Tens ℕ) : Py (Tens ℕ × Tens K) := do
  let (_, Vs) ← tensVitParForward scan am nl prior Pi Po ys
  let (v_map, _) ← tensVitParBwFw scan am nl prior Pi Po ys Vs
  return (v_map, Vs)

/-- `make_viterbi_fsc`, `viterbi_tf.py:25-45`; `H` is `viterbi_np.Viterbi_np(model.prior, model.Pi, model.Po)` (40). -/
def HMM.makeViterbiFsc {n q : ℕ} [Inhabited K] [Mul P] (nl : P → K) (H : HMM n q P) (ys : List (Fin q)) :
    Py (Tens ℕ × Tens K × Tens K) := do
  let fsc ← H.getFSC nl ys
  return fsc.toTensors

/-- `viterbi_fsc_seq_bwfw`, `viterbi_tf.py:69-85`, with `get_viterbi_from_fsc` (47-61). -/
def tensVitFscSeq (am : AArgmin K) (inputs : Tens ℕ × Tens K × Tens K) : Py (List ℕ × Tens K) := do
  let (fs, Ls, LT) := inputs
  let (us, Vs) ← tensFscSeqBackward am fs Ls LT
  let x0 := (← (← Vs.select 0 0).argmin am (-1)).val []
  let (min_xs, _) ← tensFscSeqForward x0 fs us
  return (min_xs.reverse, ← Vs.reverse)

/-- `viterbi_fsc_par_bwfw`, `viterbi_tf.py:87-103`, with `get_viterbi_from_fsc` (47-61). -/
def tensVitFscPar (scan : AScan) (am : AArgmin K) (inf : K) (inputs : Tens ℕ × Tens K × Tens K) : Py (Tens ℕ × Tens K) := do
  let (fs, Ls, LT) := inputs
  let (us, Vs) ← tensFscParBackward scan am inf fs Ls LT
  let x0 := (← (← Vs.select 0 0).argmin am (-1)).val []
  let (_, min_xs) ← tensFscParForward scan x0 fs us
  return (← min_xs.reverse, ← Vs.reverse)

/-- `viterbi_fsc_par_bwfwbw`, `viterbi_tf.py:105-124`, with `get_viterbi_from_fsc` (47-61). -/
def tensVitFscParBwFwBw (scan : AScan) (am : AArgmin K) (inf : K) (inputs : Tens ℕ × Tens K × Tens K) : Py (Tens ℕ × Tens K) := do
  let (fs, Ls, LT) := inputs
  let (us, Vs) ← tensFscParBackward scan am inf fs Ls LT
  let x0 := (← (← Vs.select 0 0).argmin am (-1)).val []
  let (_, min_xs) ← tensFscParFwdBwd scan am inf x0 fs Ls us Vs
  return (← min_xs.reverse, ← Vs.reverse)

end Value

end Verif
