import Verif.Model.LQT

/-!
Model of the class `LQR` of `/repo/parallel_control/lqt_np.py:98-388`, except `lqrDare` (lines 335-345), which is in
`Model/Dare.lean`.  Simplification: exact arithmetic; shapes are in the types.
-/

namespace Verif

open Matrix

/-- An LQR object, `lqt_np.py:109-123`. -/
structure LQR (n m : ℕ) (K : Type) where
  F : Matrix (Fin n) (Fin n) K
  L : Matrix (Fin n) (Fin m) K
  X : Matrix (Fin n) (Fin n) K
  U : Matrix (Fin m) (Fin m) K
  XT : Matrix (Fin n) (Fin n) K

variable {n m : ℕ} {K : Type} [Field K]

section Ordered
variable [LinearOrder K]

/-- The gain `linalg.solve(U + L.T @ S @ L, L.T @ S @ F, assume_a='pos')`, `lqt_np.py:147-148` (also 227-228, 343-344,
360-361, 386-387). -/
def LQR.gain (R : LQR n m K) (S : Matrix (Fin n) (Fin n) K) : Py (Matrix (Fin m) (Fin n) K) :=
  solvePos (R.U + R.Lᵀ * S * R.L) (R.Lᵀ * S * R.F)

/-- The new value function, `lqt_np.py:149`. -/
def LQR.update (R : LQR n m K) (S : Matrix (Fin n) (Fin n) K) (Kx : Matrix (Fin m) (Fin n) K) :
    Matrix (Fin n) (Fin n) K := R.Fᵀ * S * (R.F - R.L * Kx) + R.X

/-- Loop of `seqBackwardPass`, `lqt_np.py:146-151`, run `T` times on `(S, Kx_list, S_list)`. -/
def LQR.bwLoop (R : LQR n m K) : ℕ → Matrix (Fin n) (Fin n) K → List (Matrix (Fin m) (Fin n) K) →
    List (Matrix (Fin n) (Fin n) K) → Py (List (Matrix (Fin m) (Fin n) K) × List (Matrix (Fin n) (Fin n) K))
  | 0, _, Kx_list, S_list => .ok (Kx_list, S_list)
  | T + 1, S, Kx_list, S_list => do
    let Kx ← R.gain S
    let S := R.update S Kx
    R.bwLoop T S (Kx_list ++ [Kx]) (S_list ++ [S])

/-- `LQR.seqBackwardPass`, `lqt_np.py:129-156`. -/
def LQR.seqBackwardPass (R : LQR n m K) (T : ℕ) :
    Py (List (Matrix (Fin m) (Fin n) K) × List (Matrix (Fin n) (Fin n) K)) := do
  let r ← R.bwLoop T R.XT [] [R.XT]
  return (r.1.reverse, r.2.reverse)

/-- `LQR.parBackwardPass_init`, `lqt_np.py:185-209`. -/
def LQR.parBackwardInit (R : LQR n m K) (T : ℕ) : Py (List (Elem n K)) := do
  let C := R.L * (← solvePos R.U R.Lᵀ)
  return List.replicate T ⟨R.F, 0, C, 0, R.X⟩ ++ [⟨0, 0, 0, 0, R.XT⟩]

/-- `LQR.parBackwardPass_extract`, `lqt_np.py:211-232`. -/
def LQR.parBackwardExtract (R : LQR n m K) (elems : List (Elem n K)) :
    Py (List (Matrix (Fin m) (Fin n) K) × List (Matrix (Fin n) (Fin n) K)) := do
  let e0 ← pyGet elems 0
  let rs ← (List.range (elems.length - 1)).mapM (fun k => do
    let e ← pyGet elems (k + 1)
    let Kx ← R.gain e.J
    return (Kx, e.J))
  return (rs.map Prod.fst, e0.J :: rs.map Prod.snd)

/-- `LQR.parBackwardPass`, `lqt_np.py:234-252`, with `par_backward_pass_scan`, `lqt_np.py:56-65`. -/
def LQR.parBackwardPass (R : LQR n m K) (T : ℕ) :
    Py (List (Matrix (Fin m) (Fin n) K) × List (Matrix (Fin n) (Fin n) K)) := do
  let elems ← R.parBackwardInit T
  let elems ← scanVals combineABCEJ elems true
  R.parBackwardExtract elems

/-- Loop of `lqrIter`, `lqt_np.py:359-362`, run `n` times on `(K, S)`. -/
def LQR.iterLoop (R : LQR n m K) : ℕ → Option (Matrix (Fin m) (Fin n) K) → Matrix (Fin n) (Fin n) K →
    Py (Option (Matrix (Fin m) (Fin n) K) × Matrix (Fin n) (Fin n) K)
  | 0, Kx, S => .ok (Kx, S)
  | k + 1, _, S => do
    let Kx ← R.gain S
    R.iterLoop k (some Kx) (R.update S Kx)

/-- `LQR.lqrIter`, `lqt_np.py:347-364`; the gain is `None` if `n = 0`. -/
def LQR.lqrIter (R : LQR n m K) (k : ℕ) : Py (Option (Matrix (Fin m) (Fin n) K) × Matrix (Fin n) (Fin n) K) :=
  R.iterLoop k none R.X

/-- Loop of `lqrDouble`, `lqt_np.py:382-383`. -/
def doubleLoop : ℕ → Elem n K → Py (Elem n K)
  | 0, e => .ok e
  | k + 1, e => do
    let e ← combineABCEJ e e
    doubleLoop k e

/-- `LQR.lqrDouble`, `lqt_np.py:366-388`. -/
def LQR.lqrDouble (R : LQR n m K) (k : ℕ) : Py (Matrix (Fin m) (Fin n) K × Matrix (Fin n) (Fin n) K) := do
  let C := R.L * (← solve R.U R.Lᵀ)
  let e ← doubleLoop k ⟨R.F, 0, C, 0, R.X⟩
  let Kx ← R.gain e.J
  return (Kx, e.J)

end Ordered

/-- Loop of `seqForwardPass`, `lqt_np.py:173-177`. -/
def LQR.fwLoop (R : LQR n m K) : List (Matrix (Fin m) (Fin n) K) → (Fin n → K) → List (Fin m → K) × List (Fin n → K)
  | [], _ => ([], [])
  | Kx :: Ks, x =>
    let u := -Kx *ᵥ x
    let x := R.F *ᵥ x + R.L *ᵥ u
    let r := R.fwLoop Ks x
    (u :: r.1, x :: r.2)

/-- `LQR.seqForwardPass`, `lqt_np.py:158-179`. -/
def LQR.seqForwardPass (R : LQR n m K) (x0 : Fin n → K) (Kx_list : List (Matrix (Fin m) (Fin n) K)) :
    List (Fin m → K) × List (Fin n → K) := ((R.fwLoop Kx_list x0).1, x0 :: (R.fwLoop Kx_list x0).2)

/-- `LQR.parForwardPass_init`, `lqt_np.py:258-279`. -/
def LQR.parForwardInit (R : LQR n m K) (x0 : Fin n → K) (Kx_list : List (Matrix (Fin m) (Fin n) K)) :
    Py (List (Matrix (Fin n) (Fin n) K × (Fin n → K))) :=
  (List.range Kx_list.length).mapM (fun k => do
    let Kx ← pyGet Kx_list k
    if k = 0 then
      return (0, (R.F - R.L * Kx) *ᵥ x0)
    else
      return (R.F - R.L * Kx, 0))

/-- `LQR.parForwardPass_extract`, `lqt_np.py:281-309`. -/
def LQR.parForwardExtract (x0 : Fin n → K) (Kx_list : List (Matrix (Fin m) (Fin n) K))
    (elems : List (Matrix (Fin n) (Fin n) K × (Fin n → K))) : Py (List (Fin m → K) × List (Fin n → K)) := do
  let rs ← (List.range Kx_list.length).mapM (fun k => do
    let Kx ← pyGet Kx_list k
    let u ← (if k = 0 then pure (-Kx *ᵥ x0) else do
      let e ← pyGet elems (k - 1)
      pure (-Kx *ᵥ e.2))
    let e ← pyGet elems k
    return (u, e.2))
  return (rs.map Prod.fst, x0 :: rs.map Prod.snd)

/-- `LQR.parForwardPass`, `lqt_np.py:311-329`, with `par_forward_pass_scan`, `lqt_np.py:68-77`. -/
def LQR.parForwardPass (R : LQR n m K) (x0 : Fin n → K) (Kx_list : List (Matrix (Fin m) (Fin n) K)) :
    Py (List (Fin m → K) × List (Fin n → K)) := do
  let elems ← R.parForwardInit x0 Kx_list
  let elems ← scanVals (fun x y => .ok (combineFC x y)) elems
  LQR.parForwardExtract x0 Kx_list elems

end Verif
