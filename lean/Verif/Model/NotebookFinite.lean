import Verif.Model.SpeedFinite
import Verif.Model.SpeedTest

/-!
Model of the notebooks `/repo/notebooks/finite_demo.ipynb` and `/repo/notebooks/viterbi_ge_demo.ipynb` (line numbers of the files).

Simplifications: those of the modelled passes, of the game and of the hidden Markov model; the random numbers are parameters; printed
numbers are the exact values; of the plots and files only the data are modelled; a difference of arrays of different length is an
error, and so is the maximum of an empty array.
-/

namespace Verif

/-- `np.max(np.abs(np.array(a) - np.array(b)))` for lists of indices, `finite_demo.ipynb:168-171`, and
`tf.reduce_max(tf.abs(a - b))`, `finite_demo.ipynb:269-270,281-284`, `viterbi_ge_demo.ipynb:67`. -/
def maxAbsIdx {n : ℕ} (a b : List (Fin n)) : Py ℕ :=
  if a.length ≠ b.length then .error .valueError else
  match List.zipWith (fun i j : Fin n => ((i.val : ℤ) - (j.val : ℤ)).natAbs) a b with
  | [] => .error .valueError
  | e :: es => .ok (es.foldl max e)

section Game
variable {K : Type} [Field K] [LinearOrder K]

/-- What the cell of the sequential solution leaves, `finite_demo.ipynb:98-115`: the problem with the start, the minimal cost, the
controls and states, and the contents of the two files. -/
structure FinSeq (K : Type) where
  it : FSCItem K
  min_cost : K
  min_u : List (Fin it.m)
  min_x : List (Fin it.n)
  track_txt : NArr2 K
  min_x_txt : List (Fin it.n)

/-- The cell of the sequential solution, `finite_demo.ipynb:98-115`; the notebook has `T = 100` and `nx = 21`. -/
def finSeqCell (rnd : ℕ → ℕ → K) (nx T : ℕ) [NeZero nx] : Py (FinSeq K) := do
  let it ← laneItem rnd nx T
  let r := it.M.seqBackwardPass
  let V0 ← pyGet r.2 0
  let ux ← it.M.seqForwardPass it.x0 r.1
  return ⟨it, V0 it.x0, ux.1, ux.2, (laneGenData rnd T nx).1, ux.2.dropLast⟩

/-- The numbers printed by the cell of the parallel solutions, `finite_demo.ipynb:165-171`. -/
structure FinNp (K : Type) where
  (min_cost_seq min_cost_par : K)
  (dx1 du1 dx2 du2 : ℕ)

/-- The cell of the parallel solutions in numpy, `finite_demo.ipynb:160-171`; the constant `1e20` is `fsc_np.py:18`. -/
def finNpCell (s : FinSeq K) : Py (FinNp K) := do
  let r ← s.it.M.parBackwardPass (10 ^ 20)
  let ux1 ← s.it.M.parForwardPass s.it.x0 r.1
  let V0 ← pyGet r.2 0
  let ux2 ← s.it.M.parFwdBwdPass (10 ^ 20) s.it.x0 r.1 r.2
  let dx1 ← maxAbsIdx ux1.2 s.min_x
  let du1 ← maxAbsIdx ux1.1 s.min_u
  let dx2 ← maxAbsIdx ux2.2 s.min_x
  let du2 ← maxAbsIdx ux2.1 s.min_u
  return ⟨s.min_cost, V0 s.it.x0, dx1, du1, dx2, du2⟩

/-- What the cell of the TensorFlow solutions prints, `finite_demo.ipynb:266-284`, and `min_cost_tf_par`, line 278. -/
structure FinTf (K : Type) where
  (min_cost_seq min_cost_tf_seq min_cost_tf_par : K)
  (dx du : ℕ)
  (fs_shape Ls_shape LT_shape : List ℕ)
  (dx1 du1 dx2 du2 : ℕ)

/-- The cell of the TensorFlow solutions, `finite_demo.ipynb:255-284`; the default `max_parallel=10000` is `fsc_tf.py:174,257,323`,
the constant `1e20` is `fsc_tf.py:120,301`. The conversion is part of `laneItem`. -/
def finTfCell (scan : AScan) (am : AArgmin K) (s : FinSeq K) : Py (FinTf K) := do
  let r ← s.it.M.tfSeqBackward (am s.it.m)
  let xu ← s.it.M.tfSeqForward s.it.x0 r.1
  let V0 ← pyGet r.2 0
  let dx ← maxAbsIdx xu.1 s.min_x
  let du ← maxAbsIdx xu.2 s.min_u
  let rp ← s.it.M.tfParBackwardMp (scan _) (am s.it.m) (10 ^ 20) 10000
  let ux1 ← s.it.M.tfParForwardMp (scan _) 10000 s.it.x0 rp.1
  let Vp0 ← pyGet rp.2 0
  let ux2 ← s.it.M.tfParFwdBwdMp (scan _) (am s.it.n) (10 ^ 20) 10000 s.it.x0 rp.1 rp.2
  let dx1 ← maxAbsIdx ux1.2 s.min_x
  let du1 ← maxAbsIdx ux1.1 s.min_u
  let dx2 ← maxAbsIdx ux2.2 s.min_x
  let du2 ← maxAbsIdx ux2.1 s.min_u
  return ⟨s.min_cost, V0 s.it.x0, Vp0 s.it.x0, dx, du, [s.it.M.stages.length, s.it.n, s.it.m], [s.it.M.stages.length, s.it.n, s.it.m],
    [s.it.n], dx1, du1, dx2, du2⟩

/-- All code cells, `finite_demo.ipynb:98-284`. -/
def finDemo (scan : AScan) (am : AArgmin K) (rnd : ℕ → ℕ → K) (nx T : ℕ) [NeZero nx] : Py (FinSeq K × FinNp K × FinTf K) := do
  let s ← finSeqCell rnd nx T
  let p ← finNpCell s
  let t ← finTfCell scan am s
  return (s, p, t)

end Game

/-- What the cell of the Gilbert-Elliot notebook prints and the columns of the file, `viterbi_ge_demo.ipynb:64-71,82`. -/
structure GEDemo (n q : ℕ) (K : Type) where
  err_V : K
  err_map : ℕ
  shape : List ℕ
  x_list : List (Fin n)
  y_list : List (Fin q)
  v_map : List (Fin n)

/-- The cell of the Gilbert-Elliot notebook, `viterbi_ge_demo.ipynb:52-82`, for any hidden Markov model; the notebook has `geModel`
and `T = 100`. `np.stack` (line 70) needs lists of the same length. -/
def geDemoCell {n q : ℕ} {P K : Type} [Field P] [LinearOrder P] [AddCommGroup K] [LinearOrder K] [NeZero n] (scan : AScan)
    (am : (Fin n → K) → Fin n) (inf : K) (nl : P → K) (rnd : ℕ → P) (H : HMM n q P) (T : ℕ) : Py (GEDemo n q K) := do
  let d ← H.genData rnd T
  let r1 ← H.seqViterbi nl d.2
  let r2 ← H.tfFscParMp (scan _) (scan _) am inf nl d.2
  let err_V ← tfMaxAbs r1.2 r2.2
  let err_map ← maxAbsIdx r1.1 r2.1
  let v := r1.1.tail
  if d.1.length ≠ d.2.length ∨ v.length ≠ d.1.length then throw .valueError
  return ⟨err_V, err_map, [3, d.1.length], d.1, d.2, v⟩

end Verif
