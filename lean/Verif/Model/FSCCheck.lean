import Verif.Model.Py
import Mathlib.Data.Fin.Basic

/-!
Model of `FSC.checkAndExpand`, `/repo/parallel_control/fsc_np.py:116-163`.

An argument is a numpy array or a list of numpy arrays.  Simplification: arrays passed as `f` and `L` are
two-dimensional and `LT` is one-dimensional, as documented (lines 125-127); the dtype of the default `LT` is ignored.
-/

namespace Verif

/-- A two-dimensional numpy array with its shape. -/
structure NArr2 (α : Type) where
  rows : ℕ
  cols : ℕ
  data : Fin rows → Fin cols → α

/-- A one-dimensional numpy array with its shape. -/
structure NArr1 (α : Type) where
  len : ℕ
  data : Fin len → α

/-- An argument that is either a list of arrays or a single array (`isinstance(·, list)`). -/
inductive ListOr (α : Type)
  | list (l : List α)
  | one (a : α)

/-- `if not isinstance(a, list): a = T * [a]`, `fsc_np.py:142-145`; a negative `T` gives the empty list. -/
def ListOr.expand {α : Type} (T : ℤ) : ListOr α → List α
  | .list l => l
  | .one a => List.replicate T.toNat a

/-- Fields of the FSC object built, `fsc_np.py:103-114`. -/
structure RawFSC (ι κ : Type) where
  f : List (NArr2 ι)
  L : List (NArr2 κ)
  LT : NArr1 κ

/-- `T` as determined at `fsc_np.py:133-140`. -/
def fscHorizon {ι κ : Type} (f : ListOr (NArr2 ι)) (L : ListOr (NArr2 κ)) (T : Option ℤ) : Py ℤ :=
  match f, L, T with
  | .list f, _, _ => .ok f.length
  | .one _, .list L, _ => .ok L.length
  | .one _, .one _, some T => .ok T
  | .one _, .one _, none => .error .valueError

/-- Body of the shape-checking loop, `fsc_np.py:155-158`. -/
def fscShapeStep {ι κ : Type} (xdim udim : ℕ) (p : NArr2 ι × NArr2 κ) : Py Unit :=
  if p.1.rows ≠ xdim ∨ p.1.cols ≠ udim then .error .valueError
  else if p.2.rows ≠ xdim ∨ p.2.cols ≠ udim then .error .valueError
  else .ok ()

/-- `FSC.checkAndExpand`, `fsc_np.py:116-163`; `one` is the number `1`. -/
def fscCheckAndExpand {ι κ : Type} (one : κ) (f : ListOr (NArr2 ι)) (L : ListOr (NArr2 κ))
    (LT : Option (NArr1 κ)) (T : Option ℤ) : Py (RawFSC ι κ) := do
  let T ← fscHorizon f L T
  let f := f.expand T
  let L := L.expand T
  if f.length ≠ L.length then throw .valueError
  match f with
  | [] => throw .indexError
  | f0 :: _ =>
    let LT := LT.getD ⟨f0.rows, fun _ => one⟩
    (f.zip L).forM (fscShapeStep f0.rows f0.cols)
    if f0.rows ≠ LT.len then throw .valueError
    return ⟨f, L, LT⟩

end Verif
