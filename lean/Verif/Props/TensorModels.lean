import Verif.Model.ModelsTensor
import Verif.Model.CNonlin
import Verif.Props.TensorHJB
import Verif.Spec.CLQTReg

/-!
What it means that tensors hold the data of a model; used in the statements about the models.
-/

namespace Verif

variable {K : Type} {n m : ℕ}

/-- A function of two tensors of equal shape that works entry by entry or returns one number, which is then its value at every entry. -/
def Broadcast2 (F : TensFun K) (f : K → K → K) : Prop :=
  ∀ a b : Tens K, a.shape = b.shape → ∃ r, F a b = .ok r ∧
    ((r.shape = a.shape ∧ ∀ i ∈ allIdx a.shape, r.val i = f (a.val i) (b.val i)) ∨
      (r.shape = [] ∧ ∀ i ∈ allIdx a.shape, r.val [] = f (a.val i) (b.val i)))

/-- The functions and grids of a model of `cnonlin_models_tf.py`. -/
structure TensModel.Holds (t : TensModel K) (M : CModel n m K) : Prop where
  f : Pointwise2 t.f M.f
  L : Broadcast2 t.L M.L
  LT : Pointwise1 t.LT M.LT
  T : t.T = M.T
  x_grid : t.x_grid.IsV M.x_grid
  u_grid : t.u_grid.IsV M.u_grid

/-- The tensor has `N` rows and row `k` differs from `f (k * h)` by at most `ε` in each entry. -/
def Tens.Near (t : Tens ℝ) (N : ℕ) (h : ℝ) (f : ℝ → Fin n → ℝ) (ε : ℝ) : Prop :=
  t.shape = [N, n] ∧ ∀ k < N, ∀ i : Fin n, |t.val [k, i] - f (k * h) i| ≤ ε

end Verif
