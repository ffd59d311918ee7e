import Verif.Model.Tensor
import Verif.Model.CLQTTF

/-!
Model of `/repo/parallel_control/fsc_tf.py` operation by operation on tensors.  The functional model of the same file is
`Verif.Model.FSCTF`.

Simplifications: those of `Verif.Model.Tensor`; `tfp.math.scan_associative` and `tf.argmin` are parameters as in `Verif.Model.FSCTF`, and
the former is applied to the items along the first axis; the level bound is that of `Verif.Model.TFLevels` and left out; `inf` is the
constant `1e20`.
-/

namespace Verif

variable {K : Type}

/-- `fs.shape[k]`, e.g. `fsc_tf.py:116-118`. -/
def Tens.dim (t : Tens K) (k : ℕ) : Py ℕ :=
  match t.shape[k]? with
  | some n => .ok n
  | none => .error .indexError

/-- `fsc_np_to_tf`, `fsc_tf.py:17-33`: the transitions, the costs and the final costs as tensors. -/
def FSC.toTensors {n m : ℕ} [Inhabited K] (M : FSC n m K) : Tens ℕ × Tens K × Tens K :=
  (⟨[M.stages.length, n, m], fun i =>
      if h : i.getD 0 0 < M.stages.length ∧ i.getD 1 0 < n ∧ i.getD 2 0 < m then (M.stages[i.getD 0 0].f ⟨_, h.2.1⟩ ⟨_, h.2.2⟩).val else 0⟩,
   ⟨[M.stages.length, n, m], fun i =>
      if h : i.getD 0 0 < M.stages.length ∧ i.getD 1 0 < n ∧ i.getD 2 0 < m then M.stages[i.getD 0 0].L ⟨_, h.2.1⟩ ⟨_, h.2.2⟩ else default⟩,
   ⟨[n], fun i => if h : i.getD 0 0 < n then M.LT ⟨_, h⟩ else default⟩)

section Value
variable [LinearOrder K] [AddCommMonoid K]

/-- `body` of `fsc_seq_backwardpass`, `fsc_tf.py:51-59`; the carry is `(V, u)`. -/
def tensFscBody (am : AArgmin K) (carry : Tens K × Tens ℕ) (inputs : Tens ℕ × Tens K) : Py (Tens K × Tens ℕ) := do
  let (f, L) := inputs
  let (V, _) := carry
  let Vu ← L.bin (· + ·) (← V.gatherNd (← f.expandDims (-1)) 0)
  let u ← Vu.argmin am (-1)
  let V ← Vu.reduceMin (-1)
  return (V, u)

/-- `fsc_seq_backwardpass`, `fsc_tf.py:38-70`; returns `(us, Vs)`. -/
def tensFscSeqBackward (am : AArgmin K) (fs : Tens ℕ) (Ls : Tens K) (LT : Tens K) : Py (Tens ℕ × Tens K) := do
  let uT := Tens.const [← fs.dim (fs.shape.length - 2)] 0
  let VT := LT
  let fl ← fs.items
  let Ll ← Ls.items
  if fl.length ≠ Ll.length then throw .valueError
  let r ← tfScanRev (tensFscBody am) (VT, uT) (fl.zip Ll)
  let Vs ← Tens.stack VT.shape VT.val (r.1.map Prod.fst)
  let us ← Tens.stack uT.shape uT.val (r.1.map Prod.snd)
  let Vs ← Vs.concat (← VT.expandDims 0) 0
  return (us, Vs)

/-- `fsc_par_backwardpass_init_most`, `fsc_tf.py:106-133`. -/
def tensFscInitMost (inf : K) (fs : Tens ℕ) (Ls : Tens K) : Py (Tens K) := do
  let nb ← fs.dim 0
  let nx ← fs.dim 1
  let nu ← fs.dim 2
  let Vus := Tens.const [nb, nx, nu, nx] inf
  let bind ← (← (← (Tens.range nb).reshape [nb, 1, 1]).tile [1, nx, nu]).expandDims (-1)
  let xind ← (← (← (Tens.range nx).reshape [1, nx, 1]).tile [nb, 1, nu]).expandDims (-1)
  let uind ← (← (← (Tens.range nu).reshape [1, 1, nu]).tile [nb, nx, 1]).expandDims (-1)
  let xpind ← fs.expandDims (-1)
  let indices ← (← (← bind.concat xind (-1)).concat uind (-1)).concat xpind (-1)
  let Vus ← Vus.scatterUpdate indices Ls
  Vus.reduceMin (-2)

/-- `fsc_par_backwardpass_init_last`, `fsc_tf.py:135-145`. -/
def tensFscInitLast (LT : Tens K) : Py (Tens K) := do
  (← LT.expandDims (-1)).tile [1, ← LT.dim 0]

/-- `fsc_par_comb_V`, `fsc_tf.py:147-158`; the same code is `viterbi_par_comb_V`, `viterbi_tf.py:332-343`. -/
def tensCombV (Vij Vjk : Tens K) : Py (Tens K) := do
  let s ← (← Vij.expandDims (-1)).bin (· + ·) (← Vjk.expandDims 1)
  s.reduceMin 2

/-- `fsc_par_comb_V_rev`, `fsc_tf.py:160-170`; the same code is `viterbi_par_comb_V_rev`, `viterbi_tf.py:346-356`. -/
def tensCombVRev (Vjk Vij : Tens K) : Py (Tens K) := tensCombV Vij Vjk

/-- `fsc_par_backwardpass`, `fsc_tf.py:173-202`; returns `(us, Vs)`. -/
def tensFscParBackward (scan : AScan) (am : AArgmin K) (inf : K) (fs : Tens ℕ) (Ls : Tens K) (LT : Tens K) :
    Py (Tens ℕ × Tens K) := do
  let elems_most ← tensFscInitMost inf fs Ls
  let elems_last ← tensFscInitLast LT
  let elems ← elems_most.concat (← elems_last.expandDims 0) 0
  let rev_elems ← elems.reverse
  let rev_elems ← rev_elems.scanAssoc scan tensCombVRev
  let Vs ← (← rev_elems.reverse).select (-1) 0
  let Vus ← Ls.bin (· + ·) (← (← Vs.tail).gatherNd (← fs.expandDims (-1)) 1)
  let us ← Vus.argmin am (-1)
  return (us, Vs)

/-- `fsc_par_fwdbwdpass_init_first`, `fsc_tf.py:288-308`. -/
def tensFwdBwdFirst (inf : K) (x0 : ℕ) (L0 : Tens K) : Py (Tens K) := do
  let nx ← L0.dim 0
  let V := Tens.const [nx, nx] inf
  let ind1 ← (Tens.range nx).expandDims (-1)
  let ind2 ← (Tens.const [nx] x0).expandDims (-1)
  let indices ← ind1.concat ind2 (-1)
  V.scatterUpdate indices (Tens.const [nx] 0)

/-- `fsc_par_fwdbwdpass`, `fsc_tf.py:323-352`, with `init_most` (310-321); returns `(min_us, min_xs)`. -/
def tensFscParFwdBwd (scan : AScan) (am : AArgmin K) (inf : K) (x0 : ℕ) (fs : Tens ℕ) (Ls : Tens K) (us : Tens ℕ) (Vs : Tens K) :
    Py (Tens ℕ × Tens ℕ) := do
  let first_elem ← tensFwdBwdFirst inf x0 (← Ls.select 0 0)
  let most_elems ← tensFscInitMost inf fs Ls
  let elems ← (← first_elem.expandDims 0).concat most_elems 0
  let elems ← elems.scanAssoc scan tensCombV
  let Vfs ← elems.select 1 0
  let min_xs ← (← Vfs.bin (· + ·) Vs).argmin am (-1)
  let min_us ← us.gather (← min_xs.init) 1
  return (min_us, min_xs)

end Value

/-- `body` of `fsc_seq_forwardpass`, `fsc_tf.py:85-92`; the carry is `(min_x, min_u)`. -/
def tensFscFwdBody (carry : ℕ × ℕ) (inputs : Tens ℕ × Tens ℕ) : Py (ℕ × ℕ) := do
  let (f, u) := inputs
  let (min_x, _) := carry
  let min_u ← u.select 0 min_x
  let min_x ← (← f.select 0 min_x).select 0 (min_u.val [])
  return (min_x.val [], min_u.val [])

/-- `fsc_seq_forwardpass`, `fsc_tf.py:72-99`; returns `(min_xs, min_us)`; the states and controls along the time axis are lists. -/
def tensFscSeqForward (x0 : ℕ) (fs us : Tens ℕ) : Py (List ℕ × List ℕ) := do
  let fl ← fs.items
  let ul ← us.items
  if fl.length ≠ ul.length then throw .valueError
  let r ← tfScanFwdM tensFscFwdBody (x0, 0) (fl.zip ul)
  return (x0 :: r.map Prod.fst, r.map Prod.snd)

/-- `fsc_par_forwardpass_init_most`, `fsc_tf.py:221-239`. -/
def tensFscFwdMost (fs us : Tens ℕ) : Py (Tens ℕ) := do
  let nb ← fs.dim 0
  let nx ← fs.dim 1
  let xis ← (← (← (Tens.range nx).reshape [1, nx]).tile [nb, 1]).expandDims (-1)
  let uis ← (← us.gatherNd xis 1).expandDims (-1)
  let xuis ← xis.concat uis (-1)
  fs.gatherNd xuis 1

/-- `fsc_par_comb_f`, `fsc_tf.py:241-254`; the same code is `viterbi_par_comb_f`, `viterbi_tf.py:400-411`. -/
def tensCombF (fij fjk : Tens ℕ) : Py (Tens ℕ) := fjk.gather fij 1

/-- `fsc_par_forwardpass`, `fsc_tf.py:256-282`, with `init_first` (208-219); returns `(min_us, min_xs)`. -/
def tensFscParForward (scan : AScan) (x0 : ℕ) (fs us : Tens ℕ) : Py (Tens ℕ × Tens ℕ) := do
  let first_elem := Tens.const [← fs.dim 1] x0
  let most_elems ← tensFscFwdMost fs us
  let elems ← (← first_elem.expandDims 0).concat most_elems 0
  let elems ← elems.scanAssoc scan tensCombF
  let min_xs ← elems.select (-1) 0
  let min_us ← us.gather (← min_xs.init) 1
  return (min_us, min_xs)

end Verif
