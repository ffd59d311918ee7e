import Verif.Model.SpeedFinite

/-!
Model of the TensorFlow operations on tensors that the finite-state and Viterbi code uses
(`/repo/parallel_control/fsc_tf.py`, `/repo/parallel_control/viterbi_tf.py`).

Simplifications: a tensor is its shape and a function of the multi-index, of which only the values at indices inside the shape matter;
integer tensors hold natural numbers; data types are not distinguished; an operation on tensors that do not fit is a `valueError`;
indices out of range are an `indexError` (as on the CPU); the minimum over an empty axis is a `valueError`.
-/

namespace Verif

/-- A tensor, e.g. `fs` and `Ls`, `fsc_tf.py:29-31`. -/
structure Tens (K : Type) where
  shape : List ℕ
  val : List ℕ → K

/-- All multi-indices of a shape in row-major order, the order in which `tf.tensor_scatter_nd_update` reads its updates,
`fsc_tf.py:130`. -/
def allIdx : List ℕ → List (List ℕ)
  | [] => [[]]
  | n :: s => (List.range n).flatMap fun i => (allIdx s).map (i :: ·)

/-- A possibly negative axis of a tensor with `rank` axes, e.g. `axis=-2`, `fsc_tf.py:131`. -/
def tfAxis (rank : ℕ) (axis : ℤ) : Py ℕ :=
  if 0 ≤ axis ∧ axis < rank then .ok axis.toNat
  else if axis < 0 ∧ 0 ≤ axis + rank then .ok (axis + rank).toNat
  else .error .valueError

variable {K L : Type}

/-- `tf.expand_dims(t, axis)`, e.g. `fsc_tf.py:54`. -/
def Tens.expandDims (t : Tens K) (axis : ℤ) : Py (Tens K) := do
  let a ← tfAxis (t.shape.length + 1) axis
  return ⟨t.shape.insertIdx a 1, fun i => t.val (i.eraseIdx a)⟩

/-- The number of an entry in row-major order, `tf.reshape`, `fsc_tf.py:125`. -/
def ravel : List ℕ → List ℕ → ℕ
  | _ :: s, i :: idx => i * s.prod + ravel s idx
  | _, _ => 0

/-- The entry with a given number in row-major order, `tf.reshape`, `fsc_tf.py:125`. -/
def unravel : List ℕ → ℕ → List ℕ
  | [], _ => []
  | _ :: s, k => k / s.prod :: unravel s (k % s.prod)

/-- `tf.reshape(t, s)`, e.g. `fsc_tf.py:125-127`. -/
def Tens.reshape (t : Tens K) (s : List ℕ) : Py (Tens K) :=
  if t.shape.prod = s.prod then .ok ⟨s, fun i => t.val (unravel t.shape (ravel s i))⟩ else .error .valueError

/-- `tf.tile(t, reps)`, e.g. `fsc_tf.py:125-127`. -/
def Tens.tile (t : Tens K) (reps : List ℕ) : Py (Tens K) :=
  if t.shape.length = reps.length then .ok ⟨List.zipWith (· * ·) t.shape reps, fun i => t.val (List.zipWith (· % ·) i t.shape)⟩
  else .error .valueError

/-- `tf.range(n)`, e.g. `fsc_tf.py:125`. -/
def Tens.range (n : ℕ) : Tens ℕ := ⟨[n], fun i => i.getD 0 0⟩

/-- A tensor of equal entries, `tf.ones`, `tf.zeros` and `tf.repeat` of a scalar, `fsc_tf.py:61,120,217`. -/
def Tens.const (s : List ℕ) (c : K) : Tens K := ⟨s, fun _ => c⟩

/-- `tf.concat([a, b], axis)`, e.g. `fsc_tf.py:129`. -/
def Tens.concat (a b : Tens K) (axis : ℤ) : Py (Tens K) := do
  let ax ← tfAxis a.shape.length axis
  let n := a.shape.getD ax 0
  if a.shape.eraseIdx ax = b.shape.eraseIdx ax then
    return ⟨a.shape.set ax (n + b.shape.getD ax 0),
      fun i => if i.getD ax 0 < n then a.val i else b.val (i.set ax (i.getD ax 0 - n))⟩
  else throw .valueError

/-- The shape of the smaller tensor filled with leading ones, broadcasting, e.g. `fsc_tf.py:157`. -/
def padShape (rank : ℕ) (s : List ℕ) : List ℕ := List.replicate (rank - s.length) 1 ++ s

/-- The entry of a tensor of shape `s` that broadcasting uses for the index `i`, e.g. `fsc_tf.py:157`. -/
def bcastIdx (s i : List ℕ) : List ℕ :=
  (List.zipWith (fun k n => if n = 1 then 0 else k) i (padShape i.length s)).drop (i.length - s.length)

/-- A binary operation with broadcasting, e.g. the sum at `fsc_tf.py:54,157`. -/
def Tens.bin (f : K → K → L) (a b : Tens K) : Py (Tens L) :=
  let r := max a.shape.length b.shape.length
  let sa := padShape r a.shape
  let sb := padShape r b.shape
  if (List.zipWith (fun m n => decide (m = n ∨ m = 1 ∨ n = 1)) sa sb).all id = true then
    .ok ⟨List.zipWith (fun m n => if m = 1 then n else m) sa sb, fun i => f (a.val (bcastIdx a.shape i)) (b.val (bcastIdx b.shape i))⟩
  else .error .valueError

/-- An operation on each entry, e.g. `-tf.math.log(prior)`, `viterbi_tf.py:246-248`. -/
def Tens.map (f : K → L) (t : Tens K) : Tens L := ⟨t.shape, fun i => f (t.val i)⟩

/-- `tf.reduce_min(t, axis)`, e.g. `fsc_tf.py:131,157`. -/
def Tens.reduceMin [LinearOrder K] (t : Tens K) (axis : ℤ) : Py (Tens K) := do
  let a ← tfAxis t.shape.length axis
  let n := t.shape.getD a 0
  if n = 0 then throw .valueError
  return ⟨t.shape.eraseIdx a, fun i =>
    (List.range n).foldl (fun b k => min b (t.val (i.insertIdx a k))) (t.val (i.insertIdx a 0))⟩

/-- `tf.argmin(t, axis)`, e.g. `fsc_tf.py:56,200,348`. -/
def Tens.argmin (am : AArgmin K) (t : Tens K) (axis : ℤ) : Py (Tens ℕ) := do
  let a ← tfAxis t.shape.length axis
  let n := t.shape.getD a 0
  if h : n = 0 then throw .valueError
  else
    haveI : NeZero n := ⟨h⟩
    return ⟨t.shape.eraseIdx a, fun i => (am n fun k => t.val (i.insertIdx a k)).val⟩

/-- `tf.gather_nd(t, indices, batch_dims=b)`, `fsc_tf.py:54,199,235,237`. -/
def Tens.gatherNd (t : Tens K) (indices : Tens ℕ) (b : ℕ) : Py (Tens K) :=
  let outer := indices.shape.dropLast
  let k := indices.shape.getLastD 0
  let full := fun o : List ℕ => o.take b ++ (List.range k).map fun j => indices.val (o ++ [j])
  if b ≤ outer.length ∧ b + k ≤ t.shape.length ∧ outer.take b = t.shape.take b then
    if ((allIdx outer).all fun o => full o ∈ allIdx (t.shape.take (b + k))) = true then
      .ok ⟨outer ++ t.shape.drop (b + k), fun i => t.val (full (i.take outer.length) ++ i.drop outer.length)⟩
    else .error .indexError
  else .error .valueError

/-- `tf.gather(t, indices, axis=-1, batch_dims=1)` for a matrix `t`, `fsc_tf.py:253,280`, and `tf.gather(t, indices)`, axis zero
without batches, `viterbi_tf.py:328`: the gathered axis is the one after the `b` batch axes. -/
def Tens.gather (t : Tens K) (indices : Tens ℕ) (b : ℕ) : Py (Tens K) := do
  let ix ← indices.expandDims (-1)
  t.gatherNd ix b

/-- One update, `tf.tensor_scatter_nd_update`, `fsc_tf.py:130`. -/
def scatterStep (indices : Tens ℕ) (updates : Tens K) (v : List ℕ → K) (o : List ℕ) : List ℕ → K :=
  Function.update v ((List.range (indices.shape.getLastD 0)).map fun j => indices.val (o ++ [j])) (updates.val o)

/-- `tf.tensor_scatter_nd_update(t, indices, updates)` for full indices, `fsc_tf.py:130,307`. -/
def Tens.scatterUpdate (t : Tens K) (indices : Tens ℕ) (updates : Tens K) : Py (Tens K) :=
  let outer := indices.shape.dropLast
  let k := indices.shape.getLastD 0
  if k = t.shape.length ∧ updates.shape = outer then
    if ((allIdx outer).all fun o => ((List.range k).map fun j => indices.val (o ++ [j])) ∈ allIdx t.shape) = true then
      .ok ⟨t.shape, (allIdx outer).foldl (scatterStep indices updates) t.val⟩
    else .error .indexError
  else .error .valueError

/-- Fixing the index of one axis, e.g. `elems[..., 0]`, `fsc_tf.py:278`, and `elems[:, 0, :]`, `fsc_tf.py:347`. -/
def Tens.select (t : Tens K) (axis : ℤ) (k : ℕ) : Py (Tens K) := do
  let a ← tfAxis t.shape.length axis
  if k < t.shape.getD a 0 then return ⟨t.shape.eraseIdx a, fun i => t.val (i.insertIdx a k)⟩ else throw .indexError

/-- `t[1:]`, e.g. `fsc_tf.py:199`. -/
def Tens.tail (t : Tens K) : Py (Tens K) :=
  match t.shape with
  | [] => .error .valueError
  | n :: s => .ok ⟨(n - 1) :: s, fun i => t.val ((i.getD 0 0 + 1) :: i.tail)⟩

/-- `t[:-1]`, e.g. `fsc_tf.py:280`. -/
def Tens.init (t : Tens K) : Py (Tens K) :=
  match t.shape with
  | [] => .error .valueError
  | n :: s => .ok ⟨(n - 1) :: s, t.val⟩

/-- `tf.reverse(t, axis=[0])`, e.g. `fsc_tf.py:191,197`. -/
def Tens.reverse (t : Tens K) : Py (Tens K) :=
  match t.shape with
  | [] => .error .valueError
  | n :: s => .ok ⟨n :: s, fun i => t.val ((n - 1 - i.getD 0 0) :: i.tail)⟩

/-- The items along the first axis as tensors with first axis one, on which `tfp.math.scan_associative` works, e.g.
`fsc_tf.py:193-195`. -/
def Tens.slices (t : Tens K) : Py (List (Tens K)) :=
  match t.shape with
  | [] => .error .valueError
  | n :: s => .ok ((List.range n).map fun b => ⟨1 :: s, fun i => t.val (b :: i.tail)⟩)

/-- Joining tensors along the first axis, the result of `tfp.math.scan_associative`, e.g. `fsc_tf.py:193-195`. -/
def Tens.joinAll : List (Tens K) → Py (Tens K)
  | [] => .error .valueError
  | t :: l => l.foldlM (fun a b => a.concat b 0) t

/-- `tfp.math.scan_associative(fn, elems)` along the first axis, e.g. `fsc_tf.py:193-195`. -/
def Tens.scanAssoc (scan : AScan) (fn : Tens K → Tens K → Py (Tens K)) (t : Tens K) : Py (Tens K) := do
  let l ← t.slices
  let r ← scan _ fn l
  Tens.joinAll r

/-- The items along the first axis without it, on which `tf.scan` works, e.g. `fsc_tf.py:64-66`. -/
def Tens.items (t : Tens K) : Py (List (Tens K)) :=
  match t.shape with
  | [] => .error .valueError
  | n :: s => .ok ((List.range n).map fun b => ⟨s, fun i => t.val (b :: i)⟩)

/-- Stacking of the outputs of `tf.scan`, e.g. `fsc_tf.py:64-66`; `s` is the shape of the initializer. -/
def Tens.stack (s : List ℕ) (d : List ℕ → K) (l : List (Tens K)) : Py (Tens K) :=
  if (l.all fun t => t.shape = s) = true then
    .ok ⟨l.length :: s, fun i => match l[i.getD 0 0]? with | some t => t.val i.tail | none => d i.tail⟩
  else .error .valueError

end Verif
