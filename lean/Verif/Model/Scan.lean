import Mathlib.Data.Nat.Log
import Verif.Model.Py

/-!
Model of `/repo/parallel_control/my_assoc_scan.py` (lines 10-82): the simulated (Blelloch style)
parallel associative scan used by all parallel passes.

Simplifications: `math.ceil(math.log2(n))` is the exact ceiling of the base-2 logarithm
(floating point `log2` is exact enough for every list that fits in memory); the copying of the
input list (`a = a.copy()`, line 21) is implicit because values are immutable.
-/

namespace Verif

variable {α β : Type*}

/-- `a[i]` for a Python list and a non-negative index (subscripts in `my_assoc_scan.py:46-78`);
out of range is `IndexError`. -/
def pyGet (a : List β) (i : ℕ) : Py β :=
  match a[i]? with
  | some x => .ok x
  | none => .error .indexError

/-- `a[i] = v` for a Python list and a non-negative index (assignments in
`my_assoc_scan.py:46-78`); out of range is `IndexError`. -/
def pySet (a : List β) (i : ℕ) (v : β) : Py (List β) :=
  if i < a.length then .ok (a.set i v) else .error .indexError

/-- `range(0, n, step)` (`my_assoc_scan.py:42,57`), `step > 0`. -/
def pyRangeStep (n step : ℕ) : List ℕ := List.range' 0 ((n + step - 1) / step) step

/-- One iteration of the inner loop of the up pass, `my_assoc_scan.py:42-51`. -/
def upStep (op : α → α → Py α) (d : ℕ) (a : List (Option α)) (i : ℕ) : Py (List (Option α)) := do
  let i1 := i + 2 ^ d - 1
  let i2 := i + 2 ^ (d + 1) - 1
  match ← pyGet a i2 with
  | none => pySet a i2 (← pyGet a i1)
  | some y =>
    match ← pyGet a i1 with
    | none => .ok a
    | some x => pySet a i2 (some (← op x y))

/-- One iteration of the inner loop of the down pass, `my_assoc_scan.py:57-69`. -/
def downStep (op : α → α → Py α) (d : ℕ) (a : List (Option α)) (i : ℕ) : Py (List (Option α)) := do
  let i1 := i + 2 ^ d - 1
  let i2 := i + 2 ^ (d + 1) - 1
  let t ← pyGet a i1
  let a ← pySet a i1 (← pyGet a i2)
  match ← pyGet a i2 with
  | none => pySet a i2 t
  | some y =>
    match t with
    | none => .ok a
    | some t => pySet a i2 (some (← op y t))

/-- One iteration of the extra pass, `my_assoc_scan.py:72-78`. -/
def extraStep (op : α → α → Py α) (a0 : List (Option α)) (a : List (Option α)) (i : ℕ) :
    Py (List (Option α)) := do
  match ← pyGet a i with
  | none => pySet a i (← pyGet a0 i)
  | some y =>
    match ← pyGet a0 i with
    | none => .ok a
    | some z => pySet a i (some (← op y z))

/-- The three kinds of loops carrying a "parallel loop" comment, `my_assoc_scan.py:42,57,72`. -/
inductive ScanPass
  | up
  | down
  | extra

/-- Body of `my_assoc_scan` for `reverse=False`, `my_assoc_scan.py:29-82`, with the iterations of each
"parallel loop" executed in the order chosen by `ord` (pass, level, sequential order).
The code itself uses the sequential order, see `myAssocScan`. -/
def myAssocScanOrd (ord : ScanPass → ℕ → List ℕ → List ℕ) (op : α → α → Py α) (a : List (Option α)) :
    Py (List (Option α)) := do
  let origN := a.length
  -- `math.log2(0)` raises `ValueError: math domain error` (line 30)
  if origN = 0 then throw .valueError
  let logN := Nat.clog 2 origN
  let n := 2 ^ logN
  -- lines 33-36: append `None` until the length is `n`
  let a := a ++ List.replicate (n - origN) none
  let a0 := a
  -- lines 41-51: up pass
  let a ← (List.range logN).foldlM
    (fun a d => (ord .up d (pyRangeStep n (2 ^ (d + 1)))).foldlM (upStep op d) a) a
  -- line 53
  let a ← pySet a (n - 1) none
  -- lines 56-69: down pass
  let a ← (List.range logN).reverse.foldlM
    (fun a d => (ord .down d (pyRangeStep n (2 ^ (d + 1)))).foldlM (downStep op d) a) a
  -- lines 72-78: extra pass
  let a ← (ord .extra 0 (List.range n)).foldlM (extraStep op a0) a
  -- line 80
  return a.take origN

/-- `my_assoc_scan(op, a, reverse)`, `my_assoc_scan.py:10-82`.  List entries are `Option` because
the algorithm itself stores `None` in the list. -/
def myAssocScan (op : α → α → Py α) (a : List (Option α)) (reverse : Bool := false) :
    Py (List (Option α)) :=
  if reverse then do
    let r ← myAssocScanOrd (fun _ _ l => l) (fun x y => op y x) a.reverse
    return r.reverse
  else
    myAssocScanOrd (fun _ _ l => l) op a

/-- Callers of `my_assoc_scan` use the returned items as tuples or arrays (e.g.
`(A, b, C, eta, J) = elems[k]`, `lqt_np.py:221`, `elems[k][0]`, `fsc_np.py:371`);
a `None` item would raise `TypeError` there. -/
def unwrapItems : List (Option α) → Py (List α)
  | [] => .ok []
  | none :: _ => .error .typeError
  | some x :: l => do return x :: (← unwrapItems l)

/-- `my_assoc_scan` applied to a list without `None` entries, as in `fsc_np.py:61-92` and
`lqt_np.py:56-89`, together with the use of the items as values. -/
def scanVals (op : α → α → Py α) (a : List α) (reverse : Bool := false) : Py (List α) := do
  unwrapItems (← myAssocScan op (a.map some) reverse)

end Verif
