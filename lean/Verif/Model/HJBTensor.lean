import Verif.Model.SQPTensor
import Verif.Model.FSCTensor

/-!
Model of the combination functions and backward passes of `/repo/parallel_control/hjb_grid_1d_tf.py` (lines 222-487) operation by operation on
tensors.  The functional model of the same file is in `Verif.Model.HJB`.

Simplifications: those of `Verif.Model.Tensor` and `Verif.Model.HJB`; in the combination functions an entry is an element of `WithBot K`,
where `⊥` stands for `nan`; a quotient with denominator zero is `nan`, which is right for `0/0`, the only case that occurs if
`tf.math.argmin` returns a smallest entry; the level bound of the scan is that of `Verif.Model.TFLevels` and left out; the grids have one
axis.
-/

namespace Verif

variable {K L : Type}

/-- `tf.transpose(t, perm)`: axis `a` of the result is the axis `perm[a]` of `t`, `hjb_grid_1d_tf.py:253,254,283,289`. -/
def Tens.permute (t : Tens K) (perm : List ℕ) : Py (Tens K) :=
  if perm.Perm (List.range t.shape.length) then
    .ok ⟨perm.map fun a => t.shape.getD a 0, fun i => t.val ((List.range t.shape.length).map fun a => i.getD (perm.idxOf a) 0)⟩
  else .error .valueError

/-- An integer tensor as indices of `tf.gather_nd`, `hjb_grid_1d_tf.py:291-293`: a negative index is out of range. -/
def Tens.natIdx (t : Tens ℤ) : Py (Tens ℕ) :=
  if ((allIdx t.shape).all fun i => decide (0 ≤ t.val i)) = true then .ok (t.map Int.toNat) else .error .indexError

/-- `tf.meshgrid(x, y)`, `hjb_grid_1d_tf.py:97,333,384,447,474`; returns the two meshes, the rows belong to the entries of `y`. -/
def Tens.meshgrid (x y : Tens K) : Py (Tens K × Tens K) :=
  match x.shape, y.shape with
  | [n], [m] => .ok (⟨[m, n], fun i => x.val [i.getD 1 0]⟩, ⟨[m, n], fun i => y.val [i.getD 0 0]⟩)
  | _, _ => .error .valueError

/-- `tf.broadcast_to(t, s)`, `hjb_grid_1d_tf.py:473`. -/
def Tens.broadcastTo (t : Tens K) (s : List ℕ) : Py (Tens K) :=
  if t.shape.length ≤ s.length ∧ (List.zipWith (fun m n => decide (m = n ∨ m = 1)) (padShape s.length t.shape) s).all id = true then
    .ok ⟨s, fun i => t.val (bcastIdx t.shape i)⟩
  else .error .valueError

/-- The position that an end of a slice means, e.g. `-2` in `V_fd[:-2]`, `hjb_grid_1d_tf.py:345`. -/
def sliceEnd (n : ℕ) (k : ℤ) : ℕ := min (if k < 0 then k + n else k).toNat n

/-- `t[lo:hi]` on the first axis, `hjb_grid_1d_tf.py:344-346,398-401`. -/
def Tens.pySlice (t : Tens K) (lo : ℤ) (hi : Option ℤ) : Py (Tens K) := do
  let n ← t.dim 0
  t.slice 0 (sliceEnd n lo) (match hi with | none => n | some h => sliceEnd n h)

/-- `t[0::k]` on the first axis, `hjb_grid_1d_tf.py:366,419`. -/
def Tens.stride (t : Tens K) (k : ℕ) : Py (Tens K) :=
  match t.shape with
  | [] => .error .valueError
  | n :: s => if k = 0 then .error .valueError else .ok ⟨((n + k - 1) / k) :: s, fun i => t.val (i.getD 0 0 * k :: i.tail)⟩

section Combine
variable [Field K] [LinearOrder K]

/-- A difference with `nan`, `hjb_grid_1d_tf.py:295`. -/
def nanSub : WithBot K → WithBot K → WithBot K
  | some a, some b => ((a - b : K) : WithBot K)
  | _, _ => ⊥

/-- A quotient with `nan`, `hjb_grid_1d_tf.py:295`. -/
def nanDiv : WithBot K → WithBot K → WithBot K
  | some a, some b => if b = 0 then ⊥ else ((a / b : K) : WithBot K)
  | _, _ => ⊥

/-- `Vsum = tf.expand_dims(Vij,-1) + tf.expand_dims(Vjk,1)`, `hjb_grid_1d_tf.py:238,251,281`. -/
def tensHjbVsum (Vij Vjk : Tens (WithBot K)) : Py (Tens (WithBot K)) := do
  (← Vij.expandDims (-1)).bin (· + ·) (← Vjk.expandDims 1)

/-- `combine_V(Vij, Vjk)`, `hjb_grid_1d_tf.py:228-239`. -/
def tensHjbCombineV (Vij Vjk : Tens (WithBot K)) : Py (Tens (WithBot K)) := do
  (← tensHjbVsum Vij Vjk).reduceMin 2

/-- `combine_V2(Vij, Vjk)`, `hjb_grid_1d_tf.py:241-255`; `am` is the choice of `tf.math.argmin` on ties. -/
def tensHjbCombineV2 (am : AArgmin (WithBot K)) (Vij Vjk : Tens (WithBot K)) : Py (Tens (WithBot K)) := do
  let Vsum ← tensHjbVsum Vij Vjk
  let j ← (← Vsum.argmin am 2).expandDims 2
  let jT ← j.permute [0, 1, 3, 2]
  let VsumT ← Vsum.permute [0, 1, 3, 2]
  VsumT.gatherNd jT 3

/-- `combine_V_rev(Vjk, Vij)`, `hjb_grid_1d_tf.py:257-267`. -/
def tensHjbCombineVRev (Vjk Vij : Tens (WithBot K)) : Py (Tens (WithBot K)) := tensHjbCombineV Vij Vjk

/-- `combine_V_interp(Vij, Vjk)`, `hjb_grid_1d_tf.py:269-295`. -/
def tensHjbCombineInterp (am : AArgmin (WithBot K)) (Vij Vjk : Tens (WithBot K)) : Py (Tens (WithBot K)) := do
  let lam : K := 0
  let Vsum ← tensHjbVsum Vij Vjk
  let j ← (← Vsum.argmin am 2).expandDims 2
  let jT ← (j.map Int.ofNat).permute [0, 1, 3, 2]
  let jTm1 := (jT.map (· - 1)).map (|·|)
  let nm1 : ℤ := (← Vij.dim 1) - 1
  let jTp1 := ((jT.map (nm1 - · - 1)).map (|·|)).map (nm1 - ·)
  let VsumT ← Vsum.permute [0, 1, 3, 2]
  let fi ← VsumT.gatherNd (← jT.natIdx) 3
  let fm1 ← VsumT.gatherNd (← jTm1.natIdx) 3
  let fp1 ← VsumT.gatherNd (← jTp1.natIdx) 3
  let num := (← fp1.bin nanSub fm1).map (WithBot.map (· ^ 2))
  let den := (← (← fp1.bin (· + ·) fm1).bin nanSub (fi.map (WithBot.map (2 * ·)))).map (· + (lam : WithBot K))
  fi.bin nanSub ((← num.bin nanDiv den).map (nanDiv · ((8 : K) : WithBot K)))

/-- `combine_V_interp_rev(Vjk, Vij)`, `hjb_grid_1d_tf.py:297-307`. -/
def tensHjbCombineInterpRev (am : AArgmin (WithBot K)) (Vjk Vij : Tens (WithBot K)) : Py (Tens (WithBot K)) :=
  tensHjbCombineInterp am Vij Vjk

/-- `body` of `seq_bw_pass_assoc`, `hjb_grid_1d_tf.py:442-445`; `block_V` already has the batch axis. -/
def tensAssocBody (am : AArgmin (WithBot K)) (block_V carry : Tens (WithBot K)) : Py (Tens (WithBot K)) := do
  let V_prev ← carry.expandDims 0
  (← tensHjbCombineInterp am block_V V_prev).select 0 0

/-- The meshes and `VT = LT(x_mesh)`, `hjb_grid_1d_tf.py:447-448,474-475`; the values of `LT` are numbers. -/
def tensHjbVT (LT : Tens K → Py (Tens K)) (fd_x_grid : Tens K) : Py (Tens (WithBot K)) := do
  let (_, x_mesh) ← Tens.meshgrid fd_x_grid fd_x_grid
  return (← LT x_mesh).map fun x : K => (x : WithBot K)

/-- `seq_bw_pass_assoc(LT, blocks, fd_x_grid, block_V)`, `hjb_grid_1d_tf.py:428-456`. -/
def tensSeqBwPassAssoc (am : AArgmin (WithBot K)) (LT : Tens K → Py (Tens K)) (blocks : ℕ) (fd_x_grid : Tens K) (block_V : Tens (WithBot K)) :
    Py (Tens (WithBot K)) := do
  let block_V ← block_V.expandDims 0
  let VT ← tensHjbVT LT fd_x_grid
  let r ← tfScanRev (fun carry (_ : ℕ) => tensAssocBody am block_V carry) VT (List.range blocks)
  let Vs ← Tens.stack VT.shape VT.val r.1
  let VT ← VT.select 1 0
  let Vs ← Vs.select 2 0
  Vs.concat (← VT.expandDims 0) 0

/-- `par_bw_pass(LT, blocks, fd_x_grid, block_V)`, `hjb_grid_1d_tf.py:458-486`. -/
def tensParBwPass (scan : AScan) (am : AArgmin (WithBot K)) (LT : Tens K → Py (Tens K)) (blocks : ℕ) (fd_x_grid : Tens K)
    (block_V : Tens (WithBot K)) : Py (Tens (WithBot K)) := do
  let elems ← (← block_V.expandDims 0).broadcastTo (blocks :: block_V.shape)
  let VT ← tensHjbVT LT fd_x_grid
  let elems ← elems.concat (← VT.expandDims 0) 0
  let rev_elems ← elems.reverse
  let rev_elems ← rev_elems.scanAssoc scan (tensHjbCombineInterpRev am)
  (← rev_elems.reverse).select (-1) 0

end Combine

section Differences
variable [Field K] [LinearOrder K]

/-- `body` of `seq_bw_pass_symfd`, `hjb_grid_1d_tf.py:341-357`. -/
def tensSymBody (L_mesh f_mesh : Tens K) (dx dt : K) (V_fd : Tens K) : Py (Tens K) := do
  let DV_fd_0 := (← (← V_fd.pySlice 1 (some 2)).bin (· - ·) (← V_fd.pySlice 0 (some 1))).map (· / dx)
  let DV_fd_1 := (← (← V_fd.pySlice 2 none).bin (· - ·) (← V_fd.pySlice 0 (some (-2)))).map (· / (2 * dx))
  let DV_fd_2 := (← (← V_fd.pySlice (-1) none).bin (· - ·) (← V_fd.pySlice (-2) (some (-1)))).map (· / dx)
  let DV_fd ← Tens.concatAll [DV_fd_0, DV_fd_1, DV_fd_2] 0
  let Q_fd ← L_mesh.bin (· + ·) (← f_mesh.bin (· * ·) DV_fd)
  V_fd.bin (· + ·) ((← Q_fd.reduceMin 0).map (· * dt))

/-- `body` of `seq_bw_pass_upwind`, `hjb_grid_1d_tf.py:395-410`. -/
def tensUpwindBody (L_mesh f_mesh s_mesh : Tens K) (dx dt : K) (V_fd : Tens K) : Py (Tens K) := do
  let DV_fd_0 := (← (← V_fd.pySlice 1 (some 2)).bin (· - ·) (← V_fd.pySlice 0 (some 1))).map (· / dx)
  let DV_fd_1f := (← (← V_fd.pySlice 2 none).bin (· - ·) (← V_fd.pySlice 1 (some (-1)))).map (· / dx)
  let DV_fd_1b := (← (← V_fd.pySlice 1 (some (-1))).bin (· - ·) (← V_fd.pySlice 0 (some (-2)))).map (· / dx)
  let DV_fd_2 := (← (← V_fd.pySlice (-1) none).bin (· - ·) (← V_fd.pySlice (-2) (some (-1)))).map (· / dx)
  let DV_fdf ← Tens.concatAll [DV_fd_0, DV_fd_1f, DV_fd_2] 0
  let DV_fdb ← Tens.concatAll [DV_fd_0, DV_fd_1b, DV_fd_2] 0
  let Qf ← (← (s_mesh.map fun s => 1 / 2 + 1 / 2 * s).bin (· * ·) f_mesh).bin (· * ·) DV_fdf
  let Qb ← (← (s_mesh.map fun s => 1 / 2 - 1 / 2 * s).bin (· * ·) f_mesh).bin (· * ·) DV_fdb
  let Q_fd ← (← L_mesh.bin (· + ·) Qf).bin (· + ·) Qb
  V_fd.bin (· + ·) ((← Q_fd.reduceMin 0).map (· * dt))

/-- `dx` and `dt`, `hjb_grid_1d_tf.py:335-336,386-387`; a division by zero is an error as in `HJB.dt` and `seqBwPassSymfdTF`. -/
def tensHjbSteps (T : K) (blocks steps : ℕ) (fd_x_grid : Tens K) : Py (K × K) := do
  let x1 ← fd_x_grid.select 0 1
  let x0 ← fd_x_grid.select 0 0
  let dx := x1.val [] - x0.val []
  if blocks = 0 ∨ steps = 0 then throw .zeroDivisionError
  if dx = 0 then throw .notFinite
  return (dx, T / blocks / steps)

/-- The part of the two passes after the body, `hjb_grid_1d_tf.py:359-368,412-421`. -/
def tensFdScan (body : Tens K → Py (Tens K)) (LT : Tens K → Py (Tens K)) (blocks steps : ℕ) (fd_x_grid : Tens K) : Py (Tens K) := do
  let V_fd ← LT fd_x_grid
  let r ← tfScanRev (fun carry (_ : ℕ) => body carry) V_fd (List.range (blocks * steps))
  let V_fds ← Tens.stack V_fd.shape V_fd.val r.1
  let V_fds ← V_fds.concat (← V_fd.expandDims 0) 0
  V_fds.stride steps

/-- `seq_bw_pass_symfd(f, L, LT, T, blocks, steps, fd_x_grid, fd_u_grid)`, `hjb_grid_1d_tf.py:316-368`. -/
def tensSeqBwPassSymfd (f L : TensFun K) (LT : Tens K → Py (Tens K)) (T : K) (blocks steps : ℕ) (fd_x_grid fd_u_grid : Tens K) :
    Py (Tens K) := do
  let (fd_x_mesh, fd_u_mesh) ← Tens.meshgrid fd_x_grid fd_u_grid
  let (dx, dt) ← tensHjbSteps T blocks steps fd_x_grid
  let L_mesh ← L fd_x_mesh fd_u_mesh
  let f_mesh ← f fd_x_mesh fd_u_mesh
  tensFdScan (tensSymBody L_mesh f_mesh dx dt) LT blocks steps fd_x_grid

/-- `seq_bw_pass_upwind(f, L, LT, T, blocks, steps, fd_x_grid, fd_u_grid)`, `hjb_grid_1d_tf.py:370-421`. -/
def tensSeqBwPassUpwind (f L : TensFun K) (LT : Tens K → Py (Tens K)) (T : K) (blocks steps : ℕ) (fd_x_grid fd_u_grid : Tens K) :
    Py (Tens K) := do
  let (fd_x_mesh, fd_u_mesh) ← Tens.meshgrid fd_x_grid fd_u_grid
  let (dx, dt) ← tensHjbSteps T blocks steps fd_x_grid
  let L_mesh ← L fd_x_mesh fd_u_mesh
  let f_mesh ← f fd_x_mesh fd_u_mesh
  let s_mesh := f_mesh.map jsign
  tensFdScan (tensUpwindBody L_mesh f_mesh s_mesh dx dt) LT blocks steps fd_x_grid

end Differences

end Verif
