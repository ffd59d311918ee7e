import Verif.Model.ViterbiTensor
import Verif.Model.CondensingTF

/-!
Model of `/repo/parallel_control/condensing_tf.py` operation by operation on tensors.  The functional model of the same file is
`Verif.Model.CondensingTF`.

Simplifications: those of `Verif.Model.Tensor`; matrix products need equal numbers of items (a single item is not repeated);
`tf.linalg.solve` fails if it fails for one item, with `linAlgError`.
-/

namespace Verif

variable {K : Type}

/-- The size of an axis, `t.shape[axis]`, also counted from the end, e.g. `condensing_tf.py:54,114`. -/
def Tens.size (t : Tens K) (axis : ℤ) : Py ℕ := do
  let a ← tfAxis t.shape.length axis
  return t.shape.getD a 0

/-- `t[..., lo:hi, ...]` on one axis, e.g. `condensing_tf.py:126-131`. -/
def Tens.slice (t : Tens K) (axis : ℤ) (lo hi : ℕ) : Py (Tens K) := do
  let a ← tfAxis t.shape.length axis
  let n := t.shape.getD a 0
  return ⟨t.shape.set a (min hi n - lo), fun i => t.val (i.set a (i.getD a 0 + lo))⟩

/-- `tf.concat(l, axis)` of a list, `condensing_tf.py:96,108,109`. -/
def Tens.concatAll (l : List (Tens K)) (axis : ℤ) : Py (Tens K) :=
  match l with
  | [] => .error .valueError
  | t :: l => l.foldlM (fun a b => a.concat b axis) t

variable [Field K]

/-- `tf.eye(n, batch_shape=(B,))`, e.g. `condensing_tf.py:59`. -/
def Tens.eye (B n : ℕ) : Tens K := ⟨[B, n, n], fun i => if i.getD 1 0 = i.getD 2 0 then 1 else 0⟩

/-- `tf.pad(t, ...)` with zeros on one axis, e.g. `condensing_tf.py:80,81,104`. -/
def Tens.pad (t : Tens K) (axis : ℤ) (before after : ℕ) : Py (Tens K) := do
  let a ← tfAxis t.shape.length axis
  let n := t.shape.getD a 0
  return ⟨t.shape.set a (before + n + after),
    fun i => if before ≤ i.getD a 0 ∧ i.getD a 0 < before + n then t.val (i.set a (i.getD a 0 - before)) else 0⟩

/-- `tf.linalg.matmul(a, b)` of batches, e.g. `condensing_tf.py:95`. -/
def Tens.matmul (a b : Tens K) : Py (Tens K) :=
  match a.shape, b.shape with
  | [B, p, q], [B', q', r] =>
    if B = B' ∧ q = q' then
      .ok ⟨[B, p, r], fun i => ∑ k ∈ Finset.range q, a.val [i.getD 0 0, i.getD 1 0, k] * b.val [i.getD 0 0, k, i.getD 2 0]⟩
    else .error .valueError
  | _, _ => .error .valueError

/-- The transposed items of a batch of matrices, the option `transpose_a=True`, `condensing_tf.py:120,123`. -/
def Tens.batchT (t : Tens K) : Py (Tens K) :=
  match t.shape with
  | [B, p, q] => .ok ⟨[B, q, p], fun i => t.val [i.getD 0 0, i.getD 2 0, i.getD 1 0]⟩
  | _ => .error .valueError

/-- `tf.linalg.matvec(a, b)` of batches, e.g. `condensing_tf.py:107`. -/
def Tens.matvec (a b : Tens K) : Py (Tens K) :=
  match a.shape, b.shape with
  | [B, p, q], [B', q'] =>
    if B = B' ∧ q = q' then
      .ok ⟨[B, p], fun i => ∑ k ∈ Finset.range q, a.val [i.getD 0 0, i.getD 1 0, k] * b.val [i.getD 0 0, k]⟩
    else .error .valueError
  | _, _ => .error .valueError

/-- `tf.linalg.solve(A, b)` of batches with one column on the right, `condensing_tf.py:124`. -/
def Tens.solve [DecidableEq K] (A b : Tens K) : Py (Tens K) :=
  match A.shape, b.shape with
  | [B, p, q], [B', p', 1] =>
    if B = B' ∧ p = q ∧ p = p' then do
      let l ← (List.range B).mapM fun k => do
        let x ← solveV (fun i j : Fin p => A.val [k, i.val, j.val]) fun i => b.val [k, i.val, 0]
        return (⟨[p, 1], fun i => if h : i.getD 0 0 < p then x ⟨_, h⟩ else 0⟩ : Tens K)
      Tens.stack [p, 1] (fun _ => 0) l
    else .error .valueError
  | _, _ => .error .valueError

/-- `_create_blkdiag`, `condensing_tf.py:15-29`; an operator needs at least one block. -/
def tensBlkdiagItem (blocks : Tens K) : Py (Tens K) :=
  match blocks.shape with
  | [M, k, l] =>
    if M = 0 then .error .valueError
    else .ok ⟨[M * k, M * l], fun i =>
      if i.getD 0 0 / k = i.getD 1 0 / l then blocks.val [i.getD 0 0 / k, i.getD 0 0 % k, i.getD 1 0 % l] else 0⟩
  | _ => .error .valueError

/-- `create_blkdiag`, `condensing_tf.py:31-42`. -/
def tensBlkdiag (blocks : Tens K) : Py (Tens K) :=
  match blocks.shape with
  | [_, M, k, l] => do
    let r ← (← blocks.items).mapM tensBlkdiagItem
    Tens.stack [M * k, M * l] (fun _ => 0) r
  | _ => .error .valueError

/-- Appending `n` items to a batch if needed, `condensing_tf.py:57-72`. -/
def tensPadTo (need : Bool) (t pad : Tens K) : Py (Tens K) := if need then t.concat pad 0 else .ok t

/-- `tf.reshape(tf.expand_dims(t, 0), (Tc, Nc, t.shape[1], t.shape[2]))`, `condensing_tf.py:77-79,86,87`. -/
def tensBlocks (Tc Nc : ℕ) (t : Tens K) : Py (Tens K) := do
  (← t.expandDims 0).reshape [Tc, Nc, ← t.size 1, ← t.size 2]

/-- The loop over `Fs_blocks`, `condensing_tf.py:91-95`; returns `(Lambda_list, Fstar)`. -/
def tensLambdaLoop (Fs_blocks : Tens K) : Py (List (Tens K) × Tens K) := do
  let Lambda_list := [Tens.eye (← Fs_blocks.size 0) (← Fs_blocks.size 2)]
  let Fstar ← Fs_blocks.select 1 0
  (List.range (← Fs_blocks.size 1)).tail.foldlM (fun (st : List (Tens K) × Tens K) k => do
    let Fstar ← (← Fs_blocks.select 1 k).matmul st.2
    return (st.1 ++ [st.2], Fstar)) (Lambda_list, Fstar)

/-- `tf.pad` of `Lbar_row` to the full width, `condensing_tf.py:104,111`. -/
def tensPadRow (Nc : ℕ) (Ls_blocks Lbar_row : Tens K) : Py (Tens K) := do
  Lbar_row.pad 2 0 ((← Ls_blocks.size 3) * Nc - (← Lbar_row.size 2))

/-- The state of the second loop, `condensing_tf.py:99-102`. -/
structure TensLRow (K : Type) where
  Lbar_list : List (Tens K)
  cbar_list : List (Tens K)
  Lbar_row : Tens K
  cbar_row : Tens K

/-- One iteration of the second loop, `condensing_tf.py:104-107`. -/
def tensRowStep (Nc : ℕ) (Fs_blocks Ls_blocks cs_blocks : Tens K) (st : TensLRow K) (k : ℕ) : Py (TensLRow K) := do
  let Lp ← tensPadRow Nc Ls_blocks st.Lbar_row
  let F ← Fs_blocks.select 1 (k + 1)
  let Lbar_row ← (← F.matmul st.Lbar_row).concat (← Ls_blocks.select 1 (k + 1)) 2
  let cbar_row ← (← F.matvec st.cbar_row).bin (· + ·) (← cs_blocks.select 1 (k + 1))
  return ⟨st.Lbar_list ++ [Lp], st.cbar_list ++ [st.cbar_row], Lbar_row, cbar_row⟩

/-- What `condense` returns, `condensing_tf.py:134`. -/
structure TensCond (K : Type) where
  (Fstar cstar Lstar Hstar rstar Xstar Ustar Mstar sstar Lambda cbar Lbar : Tens K)

/-- `condense`, `condensing_tf.py:44-134`. -/
def tensCondense [DecidableEq K] (Fs cs Ls Hs rs Xs Us : Tens K) (Nc : ℕ) : Py (TensCond K) := do
  let T ← Fs.size 0
  if Nc = 0 then throw .zeroDivisionError
  let need := decide (T % Nc ≠ 0)
  let n := Nc - T % Nc
  let Fs ← tensPadTo need Fs (Tens.eye n (← Fs.size 1))
  let cs ← tensPadTo need cs (Tens.const [n, ← cs.size 1] 0)
  let Ls ← tensPadTo need Ls (Tens.const [n, ← Ls.size 1, ← Ls.size 2] 0)
  let Hs ← tensPadTo need Hs (Tens.const [n, ← Hs.size 1, ← Hs.size 2] 0)
  let rs ← tensPadTo need rs (Tens.const [n, ← rs.size 1] 0)
  let Xs ← tensPadTo need Xs (Tens.const [n, ← Xs.size 1, ← Xs.size 2] 0)
  let Us ← tensPadTo need Us (Tens.eye n (← Us.size 1))
  let T ← Fs.size 0
  let Tc := T / Nc
  let Xbar ← tensBlkdiag (← tensBlocks Tc Nc Xs)
  let Ubar ← tensBlkdiag (← tensBlocks Tc Nc Us)
  let Hbar ← tensBlkdiag (← tensBlocks Tc Nc Hs)
  let XUbar ← (← Xbar.pad 2 0 (← Ubar.size 2)).concat (← Ubar.pad 2 (← Xbar.size 2) 0) 1
  let rsbar ← (← rs.reshape [Tc, Nc * (← rs.size 1)]).concat (Tens.const [Tc, Nc * (← Us.size 1)] 0) 1
  let Fs_blocks ← tensBlocks Tc Nc Fs
  let Ls_blocks ← tensBlocks Tc Nc Ls
  let cs_blocks ← (← cs.expandDims 0).reshape [Tc, Nc, ← cs.size 1]
  let (Lambda_list, Fstar) ← tensLambdaLoop Fs_blocks
  let Lambda ← Tens.concatAll Lambda_list 1
  let init : TensLRow K := ⟨[Tens.const [Tc, ← Ls_blocks.size 2, (← Ls_blocks.size 3) * Nc] 0], [Tens.const [Tc, ← cs_blocks.size 2] 0],
    ← Ls_blocks.select 1 0, ← cs_blocks.select 1 0⟩
  let st ← (List.range (Nc - 1)).foldlM (tensRowStep Nc Fs_blocks Ls_blocks cs_blocks) init
  let Lbar ← Tens.concatAll st.Lbar_list 1
  let cbar ← Tens.concatAll st.cbar_list 1
  let Lstar ← tensPadRow Nc Ls_blocks st.Lbar_row
  let cstar := st.cbar_row
  let nx ← Fs_blocks.size (-1)
  let nu ← Lbar.size (-1)
  let trans_r1 ← (← Hbar.matmul Lambda).concat (← Hbar.matmul Lbar) 2
  let trans_r2 ← (Tens.const [← Fs_blocks.size 0, nu, nx] 0).concat (Tens.eye (← Fs_blocks.size 0) nu) 2
  let trans ← trans_r1.concat trans_r2 1
  let XUMstar ← (← (← trans.batchT).matmul XUbar).matmul trans
  let tmp ← (← Hbar.matvec cbar).concat (Tens.const [← Fs_blocks.size 0, nu] 0) 1
  let tmp ← (← trans.batchT).matvec (← XUbar.matvec (← rsbar.bin (· - ·) tmp))
  let rsstar ← (← XUMstar.solve (← tmp.expandDims (-1))).select (-1) 0
  let d ← rsstar.size 1
  let rstar ← rsstar.slice 1 0 nx
  let sstar ← rsstar.slice 1 nx d
  let Xstar ← (← XUMstar.slice 1 0 nx).slice 2 0 nx
  let Mstar ← (← XUMstar.slice 1 0 nx).slice 2 nx d
  let Ustar ← (← XUMstar.slice 1 nx d).slice 2 nx d
  let Hstar := Tens.eye (← Fs_blocks.size 0) nx
  return ⟨Fstar, cstar, Lstar, Hstar, rstar, Xstar, Ustar, Mstar, sstar, Lambda, cbar, Lbar⟩

/-- `convertUX`, `condensing_tf.py:136-162`; returns `(us, xs)`. -/
def tensConvertUX (cond_us cond_xs Lambda cbar Lbar : Tens K) (T : ℕ) : Py (Tens K × Tens K) := do
  let xs_blocks ← (← (← Lambda.matvec (← cond_xs.init)).bin (· + ·) cbar).bin (· + ·) (← Lbar.matvec cond_us)
  let xdim ← cond_xs.size 1
  let Tc ← xs_blocks.size 0
  if xdim = 0 then throw .zeroDivisionError
  let Nc := (← xs_blocks.size 1) / xdim
  if Nc = 0 then throw .zeroDivisionError
  let udim := (← cond_us.size 1) / Nc
  let xs ← xs_blocks.reshape [Nc * Tc, xdim]
  let us ← cond_us.reshape [Nc * Tc, udim]
  let xs ← (← xs.slice 0 0 T).concat (← (← cond_xs.last).expandDims 0) 0
  let us ← us.slice 0 0 T
  return (us, xs)

end Verif
