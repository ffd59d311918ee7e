import Verif.Model.LQTTF
import Verif.Spec.LQT

/-! Hypotheses and the correspondence between the tensors of `lqt_tf.py` and an `LQT` object. -/

namespace Verif

variable {n m p q : ℕ} {K : Type} [Field K]

/-- The step of an `LQT` object with `Z = I`, `s = 0` and `M = 0`. -/
def TStage.toL (s : TStage n m p K) : LStage n m K := ⟨p, s.F, s.L, s.X, s.U, s.c, s.H, s.r, 1, 0, 0⟩

/-- The `LQT` object with `Z = I`, `s = 0` and `M = 0`. -/
def TFLQT.toLQT (P : TFLQT n m p q K) : LQT n m K := ⟨P.stages.map TStage.toL, q, P.XT, P.HT, P.rT⟩

/-- Symmetric weights. -/
def TFLQT.Sym (P : TFLQT n m p q K) : Prop :=
  (∀ s ∈ P.stages, s.X.transpose = s.X ∧ s.U.transpose = s.U) ∧ P.XT.transpose = P.XT

/-- `U` symmetric positive definite, `X` and `XT` positive semidefinite. -/
def TFLQT.Convex [LinearOrder K] (P : TFLQT n m p q K) : Prop :=
  (∀ s ∈ P.stages, IsPSD s.X ∧ s.U.transpose = s.U ∧ IsPD s.U) ∧ IsPSD P.XT

/-- A forward step has the dynamics of a step of an `LQT` object. -/
def LStage.SameDyn (s : LStage n m K) (g : TFwd n m K) : Prop := s.F = g.F ∧ s.c = g.c ∧ s.L = g.L

/-- The tensors passed to the forward passes after a backward pass. -/
def TFLQT.fwdData (P : TFLQT n m p q K) (r : BwResult n m K) : List (TFwd n m K) :=
  List.zipWith (fun s kd => ⟨s.F, s.c, s.L, kd.1, kd.2⟩) P.stages (r.Kx_list.zip r.d_list)

/-- The step of an `LQT` object with `Z = I`. -/
def GStage.toL (g : GStage n m p K) : LStage n m K := ⟨p, g.F, g.L, g.X, g.U, g.c, g.H, g.r, 1, g.s, g.M⟩

/-- The `LQT` object with `Z = I`. -/
def TFGen.toLQT (P : TFGen n m p q K) : LQT n m K := ⟨P.stages.map GStage.toL, q, P.XT, P.HT, P.rT⟩

/-- Symmetric weights. -/
def TFGen.Sym (P : TFGen n m p q K) : Prop :=
  (∀ s ∈ P.stages, s.X.transpose = s.X ∧ s.U.transpose = s.U) ∧ P.XT.transpose = P.XT

end Verif
