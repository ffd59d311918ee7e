import Verif.Model.LQTTensor
import Verif.Props.TensorRep
import Verif.Props.TensorMat

/-!
What it means that the tensors of `/repo/parallel_control/lqt_tf.py` hold a problem, the result of a backward pass, or a trajectory.
-/

namespace Verif

variable {n m p q : ℕ} {K : Type}

/-- The tensors of the terminal cost. -/
structure TermTens (P : TFLQT n m p q K) (HT rT XT : Tens K) : Prop where
  HT : HT.IsM P.HT
  rT : rT.IsV P.rT
  XT : XT.IsM P.XT

/-- The tensor is a batch of matrices, one for each entry of the list. -/
def Tens.HoldsM (t : Tens K) (l : List (Matrix (Fin n) (Fin m) K)) : Prop := t.IsMt (Equiv.refl _) (Equiv.refl _) l fun A => A

/-- The tensor is a batch of vectors, one for each entry of the list. -/
def Tens.HoldsV (t : Tens K) (l : List (Fin n → K)) : Prop := t.IsVt (Equiv.refl _) l fun v => v

/-- The tensors of the value functions, gains and offsets. -/
structure TensBw.Holds (t : TensBw K) (r : BwResult n m K) : Prop where
  Ss : t.Ss.HoldsM r.S_list
  vs : t.vs.HoldsV r.v_list
  Kxs : t.Kxs.HoldsM r.Kx_list
  ds : t.ds.HoldsV r.d_list

/-- The tensors of a forward pass: one item per step. -/
structure FwdTens (gs : List (TFwd n m K)) (Fs cs Ls Kxs ds : Tens K) : Prop where
  F : Fs.IsMt (Equiv.refl _) (Equiv.refl _) gs (·.F)
  c : cs.IsVt (Equiv.refl _) gs (·.c)
  L : Ls.IsMt (Equiv.refl _) (Equiv.refl _) gs (·.L)
  Kx : Kxs.IsMt (Equiv.refl _) (Equiv.refl _) gs (·.Kx)
  d : ds.IsVt (Equiv.refl _) gs (·.d)

/-- The tensors of combined elements: one item per element. -/
structure TensElem.Holds (t : TensElem K) (es : List (Elem n K)) : Prop where
  A : t.A.IsMt (Equiv.refl _) (Equiv.refl _) es (·.A)
  b : t.b.IsVt (Equiv.refl _) es (·.b)
  C : t.C.IsMt (Equiv.refl _) (Equiv.refl _) es (·.C)
  eta : t.eta.IsVt (Equiv.refl _) es (·.eta)
  J : t.J.IsMt (Equiv.refl _) (Equiv.refl _) es (·.J)

/-- The tensors of a problem in general form: one item per step. -/
structure GenTens (gs : List (GStage n m p K)) (Fs cs Ls Hs rs Xs Us Ms ss : Tens K) : Prop where
  F : Fs.IsMt (Equiv.refl _) (Equiv.refl _) gs (·.F)
  c : cs.IsVt (Equiv.refl _) gs (·.c)
  L : Ls.IsMt (Equiv.refl _) (Equiv.refl _) gs (·.L)
  H : Hs.IsMt (Equiv.refl _) (Equiv.refl _) gs (·.H)
  r : rs.IsVt (Equiv.refl _) gs (·.r)
  X : Xs.IsMt (Equiv.refl _) (Equiv.refl _) gs (·.X)
  U : Us.IsMt (Equiv.refl _) (Equiv.refl _) gs (·.U)
  M : Ms.IsMt (Equiv.refl _) (Equiv.refl _) gs (·.M)
  s : ss.IsVt (Equiv.refl _) gs (·.s)

end Verif
