import Verif.Model.CNonlin
import Verif.Model.ShootingSQP
import Verif.Model.SpeedLinear
import Verif.Model.TFLevels

/-!
Model of `/repo/parallel_control/hjb_grid_1d_speedtest.py`.

Simplifications: those of the modelled solvers; the time measurement, the choice of the device and the printing are omitted, so that the
speed tests return `(err1, err2)` only; `blocks`, `steps` and `n_iter` are natural numbers; the grid has at least two points.  A block
value function with an entry that is not finite ends the run with an error (in floating point it is passed on as `nan` or `inf`).  As in
`Verif.Model.HJB` the element `⊥` of `WithBot ℝ` stands for `nan`; `tf.reduce_max` passes it on.
-/

namespace Verif

variable {n m : ℕ}

/-- `get_model(x_grid_steps, u_grid_steps)`, `hjb_grid_1d_speedtest.py:14-30`. -/
noncomputable def hjbGetModel (x_grid_steps u_grid_steps : ℕ) : Py (CModel x_grid_steps u_grid_steps ℝ) :=
  velocityModelTF x_grid_steps u_grid_steps

/-- The arguments `f, L, LT, T, blocks, steps, x_grid` of the solvers with `T = block_T * blocks`, `hjb_grid_1d_speedtest.py:49-50,73`
(also 132, 191); the horizon of the model is not used. -/
noncomputable def CModel.spHJB (M : CModel n m ℝ) (block_T : ℝ) (blocks steps : ℕ) : HJB n ℝ where
  f := M.f
  L := M.L
  LT := M.LT
  T := block_T * blocks
  blocks := blocks
  steps := steps
  grid := M.x_grid

/-- The tensor returned by `direct_shooting_block_V` as a matrix, `hjb_grid_1d_speedtest.py:109,168`. -/
def hjbBlockMat (V : List (List ℝ)) : Fin n → Fin n → WithBot ℝ := fun i j =>
  match (V[(i : ℕ)]?).bind fun r => r[(j : ℕ)]? with
  | some v => (v : WithBot ℝ)
  | none => ⊥

/-- `seq_upwind`, `hjb_grid_1d_speedtest.py:32-51`. -/
noncomputable def CModel.spSeqUpwind [NeZero m] (M : CModel (n + 2) m ℝ) (block_T : ℝ) (blocks steps : ℕ) :
    Py (List (Fin (n + 2) → WithBot ℝ)) := do
  let Vs ← seqBwPassUpwindTF (M.spHJB block_T blocks steps) M.u_grid
  return Vs.map fun V i => (V i : WithBot ℝ)

/-- `seq_assoc`, `hjb_grid_1d_speedtest.py:93-111`; `am` is the choice of `tf.math.argmin` on ties. -/
noncomputable def CModel.spSeqAssoc (am : (Fin (n + 2) → WithBot ℝ) → Fin (n + 2)) (M : CModel (n + 2) m ℝ) (block_T : ℝ) (blocks steps : ℕ) :
    Py (List (Fin (n + 2) → WithBot ℝ)) := do
  let block_V ← directShootingBlockV M.f M.L block_T steps (List.ofFn M.x_grid) 10
  return seqBwPassAssocTF am (M.spHJB block_T blocks steps) (hjbBlockMat block_V)

/-- `par_assoc`, `hjb_grid_1d_speedtest.py:152-170`. -/
noncomputable def CModel.spParAssoc (scan : AScan) (am : (Fin (n + 2) → WithBot ℝ) → Fin (n + 2)) (M : CModel (n + 2) m ℝ) (block_T : ℝ)
    (blocks steps : ℕ) : Py (List (Fin (n + 2) → WithBot ℝ)) := do
  let block_V ← directShootingBlockV M.f M.L block_T steps (List.ofFn M.x_grid) 10
  parBwPassTFMp (scan _) am blocks (M.spHJB block_T blocks steps) (hjbBlockMat block_V)

/-- `tf.math.abs(a - b)`, `hjb_grid_1d_speedtest.py:85`. -/
def nanAbsDiff : WithBot ℝ → WithBot ℝ → WithBot ℝ
  | some a, some b => ((|a - b| : ℝ) : WithBot ℝ)
  | _, _ => ⊥

/-- The maximum of two entries in `tf.reduce_max`, `hjb_grid_1d_speedtest.py:85`. -/
noncomputable def nanMax : WithBot ℝ → WithBot ℝ → WithBot ℝ
  | some a, some b => ((max a b : ℝ) : WithBot ℝ)
  | _, _ => ⊥

/-- `tf.reduce_max(tf.math.abs(Vs[:, lo:hi] - Vs0[:, lo:hi]))`, `hjb_grid_1d_speedtest.py:85,87`. -/
noncomputable def hjbMaxAbs (lo hi : ℕ) (Vs Vs0 : List (Fin n → WithBot ℝ)) : Py (WithBot ℝ) :=
  if Vs.length ≠ Vs0.length then .error .valueError else
  let entries := (Vs.zip Vs0).flatMap fun p =>
    ((List.finRange n).filter fun i : Fin n => lo ≤ (i : ℕ) ∧ (i : ℕ) < hi).map fun i => nanAbsDiff (p.1 i) (p.2 i)
  match entries with
  | [] => .error .notFinite
  | e :: es => .ok (es.foldl nanMax e)

/-- The common body of the speed tests, `hjb_grid_1d_speedtest.py:75-90` (also 134-149, 193-208); returns `(err1, err2)`. -/
noncomputable def CModel.hjbSpeed [NeZero m] (M : CModel (n + 2) m ℝ) (block_T : ℝ) (blocks steps n_iter : ℕ)
    (run : Py (List (Fin (n + 2) → WithBot ℝ))) : Py (WithBot ℝ × WithBot ℝ) := do
  let Vs ← run
  let Vs ← (List.range n_iter).foldlM (fun _ _ => run) Vs
  if n_iter = 0 then throw .zeroDivisionError
  let Vs0 ← M.spSeqUpwind block_T blocks steps
  let err1 ← hjbMaxAbs 0 (n + 2) Vs Vs0
  let err2 ← hjbMaxAbs ((n + 2) / 3) (2 * (n + 2) / 3) Vs Vs0
  return (err1, err2)

/-- `seq_upwind_speedtest`, `hjb_grid_1d_speedtest.py:53-90`. -/
noncomputable def CModel.seqUpwindSpeed [NeZero m] (M : CModel (n + 2) m ℝ) (blocks steps : ℕ) (block_T : ℝ) (n_iter : ℕ) :
    Py (WithBot ℝ × WithBot ℝ) :=
  M.hjbSpeed block_T blocks steps n_iter (M.spSeqUpwind block_T blocks steps)

/-- `seq_assoc_speedtest`, `hjb_grid_1d_speedtest.py:113-149`. -/
noncomputable def CModel.seqAssocSpeed [NeZero m] (am : (Fin (n + 2) → WithBot ℝ) → Fin (n + 2)) (M : CModel (n + 2) m ℝ) (blocks steps : ℕ)
    (block_T : ℝ) (n_iter : ℕ) : Py (WithBot ℝ × WithBot ℝ) :=
  M.hjbSpeed block_T blocks steps n_iter (M.spSeqAssoc am block_T blocks steps)

/-- `par_assoc_speedtest`, `hjb_grid_1d_speedtest.py:172-208`. -/
noncomputable def CModel.parAssocSpeed [NeZero m] (scan : AScan) (am : (Fin (n + 2) → WithBot ℝ) → Fin (n + 2)) (M : CModel (n + 2) m ℝ)
    (blocks steps : ℕ) (block_T : ℝ) (n_iter : ℕ) : Py (WithBot ℝ × WithBot ℝ) :=
  M.hjbSpeed block_T blocks steps n_iter (M.spParAssoc scan am block_T blocks steps)

end Verif
