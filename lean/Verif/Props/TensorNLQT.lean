import Verif.Model.NLQTTensor
import Verif.Model.NLQTTF
import Verif.Props.TensorLQT

/-!
What it means that tensor functions compute a nonlinear model and that tensors hold its costs; used in the statements about
`/repo/parallel_control/nlqt_tf.py`.
-/

namespace Verif

variable {n m p q : ℕ} {K : Type}

/-- The functions compute the model for every number of items. -/
structure ModelTens (M : NModel n m K) (f Fx Fu : TensFun K) : Prop where
  f : ∀ (l : List ((Fin n → K) × (Fin m → K))) (tx tu : Tens K), tx.IsVt (Equiv.refl _) l (·.1) → tu.IsVt (Equiv.refl _) l (·.2) →
    ∃ r, f tx tu = .ok r ∧ r.IsVt (Equiv.refl _) l fun a => M.f a.1 a.2
  Fx : ∀ (l : List ((Fin n → K) × (Fin m → K))) (tx tu : Tens K), tx.IsVt (Equiv.refl _) l (·.1) → tu.IsVt (Equiv.refl _) l (·.2) →
    ∃ r, Fx tx tu = .ok r ∧ r.IsMt (Equiv.refl _) (Equiv.refl _) l fun a => M.Fx a.1 a.2
  Fu : ∀ (l : List ((Fin n → K) × (Fin m → K))) (tx tu : Tens K), tx.IsVt (Equiv.refl _) l (·.1) → tu.IsVt (Equiv.refl _) l (·.2) →
    ∃ r, Fu tx tu = .ok r ∧ r.IsMt (Equiv.refl _) (Equiv.refl _) l fun a => M.Fu a.1 a.2

/-- The tensors of the costs. -/
structure CostTens (C : NQCost n m p q K) (Hs HT rs rT Xs XT Us : Tens K) : Prop where
  H : Hs.IsMt (Equiv.refl _) (Equiv.refl _) C.stages (·.H)
  r : rs.IsVt (Equiv.refl _) C.stages (·.r)
  X : Xs.IsMt (Equiv.refl _) (Equiv.refl _) C.stages (·.X)
  U : Us.IsMt (Equiv.refl _) (Equiv.refl _) C.stages (·.U)
  HT : HT.IsM C.HT
  rT : rT.IsV C.rT
  XT : XT.IsM C.XT

end Verif
