import Verif.Model.FSCCheck
import Verif.Model.Scan
import Mathlib.Algebra.Group.Defs

/-!
Model of `LQT.checkAndExpand`, `/repo/parallel_control/lqt_np.py:444-603`.

An argument is a numpy array or a list of numpy arrays.  Simplification: the arrays have the documented number of
dimensions (`F, L, X, U, XT, H, HT, Z, M` two, `c, r, rT, s` one); dtypes are ignored.
-/

namespace Verif

/-- The arguments of `LQT.checkAndExpand`, `lqt_np.py:445-446`; `none` is `None`. -/
structure LQTArgs (K : Type) where
  F : ListOr (NArr2 K)
  L : ListOr (NArr2 K)
  X : ListOr (NArr2 K)
  U : ListOr (NArr2 K)
  XT : Option (NArr2 K) := none
  c : Option (ListOr (NArr1 K)) := none
  H : Option (ListOr (NArr2 K)) := none
  r : Option (ListOr (NArr1 K)) := none
  HT : Option (NArr2 K) := none
  rT : Option (NArr1 K) := none
  Z : Option (ListOr (NArr2 K)) := none
  s : Option (ListOr (NArr1 K)) := none
  M : Option (ListOr (NArr2 K)) := none
  T : Option ℤ := none

/-- Fields of the LQT object built, `lqt_np.py:428-442`. -/
structure RawLQT (K : Type) where
  F : List (NArr2 K)
  L : List (NArr2 K)
  X : List (NArr2 K)
  U : List (NArr2 K)
  XT : NArr2 K
  c : List (NArr1 K)
  H : List (NArr2 K)
  r : List (NArr1 K)
  HT : NArr2 K
  rT : NArr1 K
  Z : List (NArr2 K)
  s : List (NArr1 K)
  M : List (NArr2 K)

variable {K : Type}

/-- `np.eye(p, x)` (e.g. `lqt_np.py:508`); `np.eye(p)` is `np.eye(p, p)`. -/
def npEye [Zero K] [One K] (p x : ℕ) : NArr2 K := ⟨p, x, fun i j => if i.val = j.val then 1 else 0⟩

/-- `np.zeros(p)` (e.g. `lqt_np.py:506`). -/
def npZeros [Zero K] (p : ℕ) : NArr1 K := ⟨p, fun _ => 0⟩

/-- `np.zeros((p, x))`, `lqt_np.py:520`. -/
def npZeros2 [Zero K] (p x : ℕ) : NArr2 K := ⟨p, x, fun _ _ => 0⟩

/-- `T` as determined at `lqt_np.py:474-484`. -/
def LQTArgs.horizon (a : LQTArgs K) : Py ℤ :=
  match a.F, a.L, a.X, a.U, a.T with
  | .list l, _, _, _, _ => .ok l.length
  | .one _, .list l, _, _, _ => .ok l.length
  | .one _, .one _, .list l, _, _ => .ok l.length
  | .one _, .one _, .one _, .list l, _ => .ok l.length
  | .one _, .one _, .one _, .one _, some t => .ok t
  | .one _, .one _, .one _, .one _, none => .error .valueError

/-- The array whose shape is read at `lqt_np.py:487-500`: the argument or its first item. -/
def ListOr.first {α : Type} : ListOr α → Py α
  | .list l => pyGet l 0
  | .one a => .ok a

/-- Replication or length check, `lqt_np.py:523-526` (likewise 527-562). -/
def ListOr.expandLen {α : Type} (T : ℤ) : ListOr α → Py (List α)
  | .one a => .ok (List.replicate T.toNat a)
  | .list l => if (l.length : ℤ) ≠ T then .error .valueError else .ok l

/-- `if a.shape != (p, x): raise ValueError` (e.g. `lqt_np.py:566`). -/
def NArr2.check (a : NArr2 K) (p x : ℕ) : Py Unit := if (a.rows, a.cols) ≠ (p, x) then .error .valueError else .ok ()

/-- `if a.shape != (p,): raise ValueError` (e.g. `lqt_np.py:570`). -/
def NArr1.check (a : NArr1 K) (p : ℕ) : Py Unit := if a.len ≠ p then .error .valueError else .ok ()

/-- Body of the loop at `lqt_np.py:573-601`. -/
def RawLQT.checkStep (o : RawLQT K) (k : ℕ) : Py Unit := do
  let F0 ← pyGet o.F 0
  let xdim := F0.rows
  let L0 ← pyGet o.L 0
  let udim := L0.cols
  let F ← pyGet o.F k
  F.check xdim xdim
  let L ← pyGet o.L k
  L.check xdim udim
  let X ← pyGet o.X k
  let rdim := X.rows
  X.check rdim rdim
  let U ← pyGet o.U k
  U.check udim udim
  let c ← pyGet o.c k
  c.check xdim
  let H ← pyGet o.H k
  H.check rdim xdim
  let r ← pyGet o.r k
  r.check rdim
  let Z ← pyGet o.Z k
  Z.check udim udim
  let s ← pyGet o.s k
  s.check udim
  let M ← pyGet o.M k
  M.check rdim udim

/-- `LQT.checkAndExpand`, `lqt_np.py:444-603`. -/
def LQTArgs.checkAndExpand [Zero K] [One K] (a : LQTArgs K) : Py (RawLQT K) := do
  let T ← a.horizon
  let F0 ← a.F.first
  let xdim := F0.rows
  let L0 ← a.L.first
  let udim := L0.cols
  let X0 ← a.X.first
  let rdim := X0.rows
  let XT := a.XT.getD (npEye rdim rdim)
  let c := a.c.getD (.one (npZeros xdim))
  let H := a.H.getD (.one (npEye rdim xdim))
  let r := a.r.getD (.one (npZeros rdim))
  let HT := a.HT.getD (npEye rdim xdim)
  let rT := a.rT.getD (npZeros rdim)
  let Z := a.Z.getD (.one (npEye udim udim))
  let s := a.s.getD (.one (npZeros udim))
  let M := a.M.getD (.one (npZeros2 rdim udim))
  let F ← a.F.expandLen T
  let L ← a.L.expandLen T
  let X ← a.X.expandLen T
  let U ← a.U.expandLen T
  let c ← c.expandLen T
  let H ← H.expandLen T
  let r ← r.expandLen T
  let Z ← Z.expandLen T
  let s ← s.expandLen T
  let M ← M.expandLen T
  let rdim := XT.rows
  XT.check rdim rdim
  HT.check rdim xdim
  rT.check rdim
  let o : RawLQT K := ⟨F, L, X, U, XT, c, H, r, HT, rT, Z, s, M⟩
  (List.range T.toNat).forM o.checkStep
  return o

end Verif
