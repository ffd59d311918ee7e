import Verif.Model.LQTTests
import Verif.Model.Condensing

/-!
Model of `/repo/tests/test_condensing_np.py`.

Simplifications: exact real arithmetic; the problem, the block length, the initial state and the tolerance are parameters,
random draws are arguments; the difference of two vectors raises unless they have the same length (broadcasting of a vector
of length one is left out); printing is left out; a test function returns the conjunction of the conditions it asserts, or
the exception raised on the way.
-/

namespace Verif

open Matrix

variable {n m : ℕ}

/-- `np.concatenate(u_list)`, `test_condensing_np.py:53,78,79`; it raises on an empty list, which does not occur, since `condense`
raises before it without steps. -/
def concatV (us : List (Fin m → ℝ)) : List ℝ := us.flatMap List.ofFn

/-- `linalg.norm(a - b)` of two vectors, `test_condensing_np.py:53,82`. -/
noncomputable def normL (a b : List ℝ) : Py ℝ :=
  if a.length = b.length then .ok (Real.sqrt (List.zipWith (fun x y => (x - y) ^ 2) a b).sum) else .error .valueError

/-- The slice `l[::Nc]`, `test_condensing_np.py:56,85`, which raises `ValueError` for `Nc = 0`. -/
def everyNth {α : Type} (Nc : ℕ) (l : List α) : Py (List α) :=
  if Nc = 0 then .error .valueError
  else .ok ((List.range ((l.length + Nc - 1) / Nc)).filterMap fun j => l[Nc * j]?)

/-- `test_condensing_1`, `test_condensing_np.py:34-57`; there `T = 6`, `Nc = 3`. -/
noncomputable def condTest1 (P : LQT n m ℝ) (Nc : ℕ) (x0 : Fin n → ℝ) (tol : ℝ) : Py Prop := do
  let c ← P.condense Nc
  let b1 ← P.seqBackwardPass
  let p1 ← P.seqForwardPass x0 b1.Kx_list b1.d_list
  let b2 ← c.1.seqBackwardPass
  let p2 ← c.1.seqForwardPass x0 b2.Kx_list b2.d_list
  let e1 ← normL (concatV p1.1) (concatV p2.1)
  let xs ← everyNth Nc p1.2
  let e2 ← errV xs p2.2
  return e1 < tol ∧ e2 < tol

/-- `test_condensing_2`, `test_condensing_np.py:59-89`; there `T = 6`, `Nc = 4`. -/
noncomputable def condTest2 (P : LQT n m ℝ) (Nc : ℕ) (x0 : Fin n → ℝ) (tol : ℝ) : Py Prop := do
  let c ← P.condense Nc
  let b1 ← P.seqBackwardPass
  let p1 ← P.seqForwardPass x0 b1.Kx_list b1.d_list
  let b2 ← c.1.seqBackwardPass
  let p2 ← c.1.seqForwardPass x0 b2.Kx_list b2.d_list
  let e1 ← normL (concatV p1.1) ((concatV p2.1).take (concatV p1.1).length)
  let xs ← everyNth Nc p1.2.dropLast
  let e2 ← errV xs p2.2.dropLast
  match p1.2.getLast?, p2.2.getLast? with
  | some y1, some y2 => return e1 < tol ∧ e2 < tol ∧ normDiff y1 y2 < tol
  | _, _ => throw .indexError

/-- `test_convertXY_1`, `test_condensing_np.py:91-118`; there `T = 9`, `Nc = 4`, `x0` all ones and `tol = 1e-10`. -/
noncomputable def condTestLQR (P : LQT n m ℝ) (Nc : ℕ) (x0 : Fin n → ℝ) (tol : ℝ) : Py Prop := do
  let c ← P.condense Nc
  let b1 ← P.seqBackwardPass
  let p1 ← P.seqForwardPass x0 b1.Kx_list b1.d_list
  let b2 ← c.1.seqBackwardPass
  let p2a ← c.1.seqForwardPass x0 b2.Kx_list b2.d_list
  let p2 ← convertUX P.stages.length c.2 p2a.1 p2a.2
  let e1 ← errV p1.1 p2.1
  let e2 ← errV p1.2 p2.2
  return e1 < tol ∧ e2 < tol

/-- `test_convertXY_2`, `test_condensing_np.py:167-190`, `test_single_block_1`, `192-213`, and `test_single_block_2`,
`215-236`, which have the same steps with `Nc = 3`, `3` and `7` for `T = 11`, `3` and `3`; there `tol = 1e-8`. -/
noncomputable def condTestRnd (P : LQT n m ℝ) (Nc : ℕ) (x0 : Fin n → ℝ) (tol : ℝ) : Py Prop := do
  let b1 ← P.seqBackwardPass
  let p1 ← P.seqForwardPass x0 b1.Kx_list b1.d_list
  let c ← P.condense Nc
  let b2 ← c.1.seqBackwardPass
  let p2a ← c.1.seqForwardPass x0 b2.Kx_list b2.d_list
  let p2 ← convertUX P.stages.length c.2 p2a.1 p2a.2
  let e1 ← errV p1.1 p2.1
  let e2 ← errV p1.2 p2.2
  return e1 < tol ∧ e2 < tol

/-- `setupRndLQT(T)`, `test_condensing_np.py:120-165`: as in `test_lqt_np.py`, but `Z`, `s` and `M` are not passed on
(`None` at line 163), so that `checkAndExpand` inserts the identity and zeros. -/
noncomputable def condRndLQT (T : ℕ) (d : Fin T → RndStage) (HT : Matrix (Fin 3) (Fin 4) ℝ) (rT : Fin 3 → ℝ)
    (XT : Matrix (Fin 3) (Fin 6) ℝ) : LQT 4 2 ℝ :=
  ⟨(List.ofFn d).map fun t => { t.stage with Z := 1, s := 0, M := 0 }, 3, XT * XTᵀ, HT, rT⟩

end Verif
