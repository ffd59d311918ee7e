import Verif.Model.LQTCheck
import Verif.Model.LQT

/-! What `LQT.checkAndExpand` (`/repo/parallel_control/lqt_np.py:444-603`) must accept and return. -/

namespace Verif

variable {K α : Type}

/-- A matrix with ones on the diagonal and zeros elsewhere. -/
def NArr2.IsEye [Zero K] [One K] (A : NArr2 K) (p x : ℕ) : Prop :=
  A.rows = p ∧ A.cols = x ∧ ∀ i j, (i.val = j.val → A.data i j = 1) ∧ (i.val ≠ j.val → A.data i j = 0)

/-- A zero vector. -/
def NArr1.IsZero [Zero K] (A : NArr1 K) (p : ℕ) : Prop := A.len = p ∧ ∀ i, A.data i = 0

/-- A zero matrix. -/
def NArr2.IsZero [Zero K] (A : NArr2 K) (p x : ℕ) : Prop := A.rows = p ∧ A.cols = x ∧ ∀ i j, A.data i j = 0

/-- `r` is the argument over `t` steps: the list itself, which must have `t` items, or copies of the array (none if
`t` is negative). -/
def ListOr.Expands (t : ℤ) (r : List α) : ListOr α → Prop
  | .list l => r = l ∧ (l.length : ℤ) = t
  | .one a => r.length = t.toNat ∧ ∀ b ∈ r, b = a

/-- The array itself or the first item of the list. -/
def ListOr.Leads (f : α) : ListOr α → Prop
  | .list l => ∃ tl, l = f :: tl
  | .one a => f = a

/-- The value of an optional argument with a default. -/
def OptIs (o : Option α) (D : α → Prop) (v : α) : Prop := (∀ a, o = some a → v = a) ∧ (o = none → D v)

/-- The value of an optional indexed argument with a default array. -/
def OptExpands (o : Option (ListOr α)) (D : α → Prop) (t : ℤ) (r : List α) : Prop :=
  ∃ v, OptIs o (fun v => ∃ d, v = .one d ∧ D d) v ∧ v.Expands t r

/-- `F`, `L`, `X` and `U` are all single arrays. -/
def LQTArgs.AllOne (a : LQTArgs K) : Prop := ∃ F L X U, a.F = .one F ∧ a.L = .one L ∧ a.X = .one X ∧ a.U = .one U

/-- All arrays of the object have the right shapes: constant state dimension `x` and control dimension `u`, while the
output dimension may depend on the step. -/
def RawLQT.Shaped (o : RawLQT K) (N x u : ℕ) : Prop :=
  (o.XT.cols = o.XT.rows ∧ o.HT.rows = o.XT.rows ∧ o.HT.cols = x ∧ o.rT.len = o.XT.rows) ∧
  ∀ k < N, ∃ F L X U c H r Z s M p, (o.F[k]? = some F ∧ o.L[k]? = some L ∧ o.X[k]? = some X ∧ o.U[k]? = some U ∧
      o.c[k]? = some c ∧ o.H[k]? = some H ∧ o.r[k]? = some r ∧ o.Z[k]? = some Z ∧ o.s[k]? = some s ∧
      o.M[k]? = some M) ∧
    (F.rows = x ∧ F.cols = x) ∧ (L.rows = x ∧ L.cols = u) ∧ (X.rows = p ∧ X.cols = p) ∧ (U.rows = u ∧ U.cols = u) ∧
    c.len = x ∧ (H.rows = p ∧ H.cols = x) ∧ r.len = p ∧ (Z.rows = u ∧ Z.cols = u) ∧ s.len = u ∧
    (M.rows = p ∧ M.cols = u)

/-- The inputs that `LQT.checkAndExpand` must accept and the object it must return. -/
def LQTWellShaped [Zero K] [One K] (a : LQTArgs K) (o : RawLQT K) : Prop :=
  ∃ (t : ℤ) (F0 L0 X0 : NArr2 K), (a.AllOne → a.T = some t) ∧ a.F.Leads F0 ∧ a.L.Leads L0 ∧ a.X.Leads X0 ∧
    a.F.Expands t o.F ∧ a.L.Expands t o.L ∧ a.X.Expands t o.X ∧ a.U.Expands t o.U ∧
    OptIs a.XT (fun A => A.IsEye X0.rows X0.rows) o.XT ∧
    OptExpands a.c (fun A => A.IsZero F0.rows) t o.c ∧
    OptExpands a.H (fun A => A.IsEye X0.rows F0.rows) t o.H ∧
    OptExpands a.r (fun A => A.IsZero X0.rows) t o.r ∧
    OptIs a.HT (fun A => A.IsEye X0.rows F0.rows) o.HT ∧
    OptIs a.rT (fun A => A.IsZero X0.rows) o.rT ∧
    OptExpands a.Z (fun A => A.IsEye L0.cols L0.cols) t o.Z ∧
    OptExpands a.s (fun A => A.IsZero L0.cols) t o.s ∧
    OptExpands a.M (fun A => A.IsZero X0.rows L0.cols) t o.M ∧
    o.Shaped t.toNat F0.rows L0.cols

/-- A matrix as an array. -/
def NArr2.ofMat {p x : ℕ} (A : Matrix (Fin p) (Fin x) K) : NArr2 K := ⟨p, x, A⟩

/-- A vector as an array. -/
def NArr1.ofVec {p : ℕ} (v : Fin p → K) : NArr1 K := ⟨p, v⟩

/-- The fields of the object described by an `LQT`. -/
def LQT.raw {n m : ℕ} (P : LQT n m K) : RawLQT K where
  F := P.stages.map fun s => .ofMat s.F
  L := P.stages.map fun s => .ofMat s.L
  X := P.stages.map fun s => .ofMat s.X
  U := P.stages.map fun s => .ofMat s.U
  XT := .ofMat P.XT
  c := P.stages.map fun s => .ofVec s.c
  H := P.stages.map fun s => .ofMat s.H
  r := P.stages.map fun s => .ofVec s.r
  HT := .ofMat P.HT
  rT := .ofVec P.rT
  Z := P.stages.map fun s => .ofMat s.Z
  s := P.stages.map fun s => .ofVec s.s
  M := P.stages.map fun s => .ofMat s.M

/-- All fields passed as lists. -/
def RawLQT.args (o : RawLQT K) : LQTArgs K where
  F := .list o.F
  L := .list o.L
  X := .list o.X
  U := .list o.U
  XT := some o.XT
  c := some (.list o.c)
  H := some (.list o.H)
  r := some (.list o.r)
  HT := some o.HT
  rT := some o.rT
  Z := some (.list o.Z)
  s := some (.list o.s)
  M := some (.list o.M)

end Verif
