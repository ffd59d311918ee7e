import Verif.Model.CLQTTensor
import Verif.Model.CLQT
import Verif.Props.TensorLQT

/-!
What it means that the tensors of `/repo/parallel_control/clqt_tf.py` hold a continuous-time problem or the results of a pass.
-/

namespace Verif

variable {n m : ℕ} {K : Type}

/-- The functions return the matrices and vectors of the problem at every time. -/
structure TensCLQT.Holds (p : TensCLQT K) (P : CLQT n m K) : Prop where
  F : ∀ t, (p.F t).IsM (P.F t)
  L : ∀ t, (p.L t).IsM (P.L t)
  X : ∀ t, (p.X t).IsM (P.X t)
  U : ∀ t, (p.U t).IsM (P.U t)
  c : ∀ t, (p.c t).IsV (P.c t)
  H : ∀ t, (p.H t).IsM (P.H t)
  r : ∀ t, (p.r t).IsV (P.r t)

/-- The tensors of the terminal cost and the final time. -/
structure TensFinal.Holds (d : TensFinal K) (P : CLQT n m K) : Prop where
  XT : d.XT.IsM P.XT
  HT : d.HT.IsM P.HT
  rT : d.rT.IsV P.rT
  T : d.T = P.T

/-- The tensors of a forward-backward pass. -/
structure TensAbc.Holds (t : TensAbc K) (r : AbcResult n K) : Prop where
  A : t.A.HoldsM r.A_list
  b : t.b.HoldsV r.b_list
  C : t.C.HoldsM r.C_list

end Verif
