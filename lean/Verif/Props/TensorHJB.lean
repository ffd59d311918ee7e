import Verif.Model.HJBTensor
import Verif.Props.TensorRep

/-!
What it means that a function on tensors works entry by entry; used in the statements about the grid solvers.
-/

namespace Verif

variable {K : Type}

/-- A function of two tensors of equal shape that works entry by entry, as `f` and `L` of the grid solvers. -/
def Pointwise2 (F : TensFun K) (f : K → K → K) : Prop :=
  ∀ a b : Tens K, a.shape = b.shape → ∃ r, F a b = .ok r ∧ r.shape = a.shape ∧ ∀ i ∈ allIdx a.shape, r.val i = f (a.val i) (b.val i)

/-- A function of one tensor that works entry by entry, as `LT` of the grid solvers. -/
def Pointwise1 (F : Tens K → Py (Tens K)) (f : K → K) : Prop :=
  ∀ a : Tens K, ∃ r, F a = .ok r ∧ r.shape = a.shape ∧ ∀ i ∈ allIdx a.shape, r.val i = f (a.val i)

end Verif
