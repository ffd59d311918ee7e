import Verif.Model.LQT

/-!
Model of `/repo/parallel_control/nlqt_np.py`.

Simplifications: exact arithmetic over an ordered field.  `lqt_method` is a natural number.  The object is changed by
`linearize`, so that method and `iterate` also return the changed problem; what an exception leaves behind is not modelled.
-/

namespace Verif

open Matrix

variable {n m : ℕ} {K : Type} [Field K]

/-- The model object given to the constructor, `nlqt_np.py:15-23`. -/
structure NModel (n m : ℕ) (K : Type) where
  f : (Fin n → K) → (Fin m → K) → Fin n → K
  Fx : (Fin n → K) → (Fin m → K) → Matrix (Fin n) (Fin n) K
  Fu : (Fin n → K) → (Fin m → K) → Matrix (Fin n) (Fin m) K

/-- The assignment `l[k] = a` through a function of the old item, `nlqt_np.py:44-46`. -/
def pyModify {α : Type} (l : List α) (k : ℕ) (g : α → α) : Py (List α) := do
  let a ← pyGet l k
  return l.set k (g a)

/-- `NLQT.linearize`, `nlqt_np.py:25-46`. -/
def NModel.linearize (M : NModel n m K) (P : LQT n m K) (us : List (Fin m → K)) (xs : List (Fin n → K)) :
    Py (LQT n m K) := do
  let ss ← (List.range us.length).foldlM (fun ss k => do
    let x ← pyGet xs k
    let u ← pyGet us k
    let f := M.f x u
    let Fx := M.Fx x u
    let Fu := M.Fu x u
    pyModify ss k fun s => { s with F := Fx, c := f - Fx *ᵥ x - Fu *ᵥ u, L := Fu }) P.stages
  return { P with stages := ss }

/-- `NLQT.iterate`, `nlqt_np.py:48-70`. -/
def NModel.iterate [LinearOrder K] (M : NModel n m K) (P : LQT n m K) (us : List (Fin m → K)) (xs : List (Fin n → K))
    (method : ℕ) : Py (LQT n m K × List (Fin m → K) × List (Fin n → K)) := do
  let P ← M.linearize P us xs
  if method = 0 then do
    let bw ← P.parBackwardPass
    let x0 ← pyGet xs 0
    let r ← P.parForwardPass x0 bw.Kx_list bw.d_list
    return (P, r)
  else if method = 1 then do
    let bw ← P.parBackwardPass
    let x0 ← pyGet xs 0
    let r ← P.parFwdBwdPass x0 bw
    return (P, r)
  else do
    let bw ← P.seqBackwardPass
    let x0 ← pyGet xs 0
    let r ← P.seqForwardPass x0 bw.Kx_list bw.d_list
    return (P, r)

/-- `NLQT.simulate`, `nlqt_np.py:72-88`. -/
def NModel.simulate (M : NModel n m K) (x0 : Fin n → K) (us : List (Fin m → K)) : List (Fin n → K) :=
  (us.foldl (fun (st : List (Fin n → K) × (Fin n → K)) u => let x := M.f st.2 u; (st.1 ++ [x], x)) ([x0], x0)).1

/-- `NLQT.cost`, `nlqt_np.py:90-101`. -/
def NModel.cost (M : NModel n m K) (P : LQT n m K) (x0 : Fin n → K) (us : List (Fin m → K)) : Py K :=
  P.cost us (M.simulate x0 us)

end Verif
