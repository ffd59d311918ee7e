import Verif.Model.CondensingTF
import Verif.Spec.Condensing
import Verif.Spec.LQTTF

/-! Reference notions for partial condensing in TensorFlow. -/

namespace Verif

variable {n m p q N : ℕ} {K : Type} [Field K]

/-- No direction, except zero, along which the cost of the steps without offset and reference is constant everywhere. -/
def Rigid (ss : List (LStage n m K)) : Prop :=
  ∀ (x : Fin n → K) (us : List (Fin m → K)), us.length = ss.length →
    (∀ (y : Fin n → K) (ws : List (Fin m → K)), ws.length = ss.length →
      lqtTotal (fun _ => 0) (ss.map LStage.homog) (x + y) (List.zipWith (· + ·) us ws) =
        lqtTotal (fun _ => 0) (ss.map LStage.homog) y ws) → x = 0 ∧ ∀ u ∈ us, u = 0

/-- The block as stored by the numpy class. -/
def TCBlock.np (c : TCBlock N n m K) : CBlock N n m K := ⟨c.stage.toL, c.Lambda, c.cbar, c.Lbar⟩

/-- The condensed problem in general form, with the final cost of the problem. -/
def TFLQT.condGen (P : TFLQT n m p q K) (bs : List (TCBlock N n m K)) : TFGen n (N * m) n q K :=
  ⟨bs.map TCBlock.stage, P.HT, P.rT, P.XT⟩

/-- Solution by condensing as in `tests/test_condensing_tf.py`: condense, transform to the canonical form, backward pass `bwd`,
transform the gains, forward pass `fwd`, expand.  Returns controls and states. -/
def TFLQT.condSolve [LinearOrder K] (P : TFLQT n m p q K) (N : ℕ) (bwd : TFLQT n (N * m) n q K → Py (BwResult n (N * m) K))
    (fwd : (Fin n → K) → List (TFwd n (N * m) K) → Py (List (Fin n → K) × List (Fin (N * m) → K))) (x0 : Fin n → K) :
    Py (List (Fin m → K) × List (Fin n → K)) := do
  let bs ← tfCondense N P.stages
  let C ← (P.condGen bs).canon
  let r ← bwd C
  let gs ← (P.condGen bs).back r.Kx_list r.d_list
  let xu ← fwd x0 (List.zipWith (fun (c : TCBlock N n m K) kd => ⟨c.stage.F, c.stage.c, c.stage.L, kd.1, kd.2⟩) bs gs)
  tfConvertUX P.stages.length bs xu.2 xu.1

end Verif
