import Verif.Model.NLQT
import Verif.Model.LQTTF

/-!
Model of `/repo/parallel_control/nlqt_tf.py`.

Simplifications: as in `Verif.Model.LQTTF`; the functions `f`, `Fx`, `Fu` act on each time step; tensors with different first
dimensions, which TensorFlow rejects or broadcasts, are not modelled (lists are cut to the shortest).
-/

namespace Verif

open Matrix

/-- One step of the tensors `Hs, rs, Xs, Us`, `nlqt_tf.py:96`. -/
structure NQStage (n m p : ℕ) (K : Type) where
  H : Matrix (Fin p) (Fin n) K
  r : Fin p → K
  X : Matrix (Fin p) (Fin p) K
  U : Matrix (Fin m) (Fin m) K

/-- The cost arguments `Hs, HT, rs, rT, Xs, XT, Us`, `nlqt_tf.py:96`. -/
structure NQCost (n m p q : ℕ) (K : Type) where
  stages : List (NQStage n m p K)
  HT : Matrix (Fin q) (Fin n) K
  rT : Fin q → K
  XT : Matrix (Fin q) (Fin q) K

variable {n m p q : ℕ} {K : Type} [Field K]

/-- `nlqt_linearize(us, xs, f, Fx, Fu)`, `nlqt_tf.py:24-48`, for one time step: `(Fs, cs, Ls)`. -/
def NModel.linTF (M : NModel n m K) (u : Fin m → K) (x : Fin n → K) :
    Matrix (Fin n) (Fin n) K × (Fin n → K) × Matrix (Fin n) (Fin m) K :=
  let f := M.f x u
  let Fx := M.Fx x u
  let Fu := M.Fu x u
  (Fx, f - Fx *ᵥ x - Fu *ᵥ u, Fu)

/-- The arguments of the LQT passes, `nlqt_tf.py:116-117`: the linearised dynamics along `us`, `xs` and the costs. -/
def NModel.linearizeTF (M : NModel n m K) (C : NQCost n m p q K) (us : List (Fin m → K)) (xs : List (Fin n → K)) :
    TFLQT n m p q K :=
  ⟨List.zipWith (fun (c : NQStage n m p K) (a : (Fin m → K) × (Fin n → K)) =>
    ⟨(M.linTF a.1 a.2).1, (M.linTF a.1 a.2).2.1, (M.linTF a.1 a.2).2.2, c.H, c.r, c.X, c.U⟩) C.stages (us.zip xs), C.HT, C.rT, C.XT⟩

/-- `nlqt_simulate(x0, us, f)`, `nlqt_tf.py:51-71`. -/
def NModel.simulateTF (M : NModel n m K) (x0 : Fin n → K) (us : List (Fin m → K)) : List (Fin n → K) :=
  x0 :: tfScanFwd (fun x u => M.f x u) x0 us

/-- `nlqt_cost(x0, us, f, Hs, HT, rs, rT, Xs, XT, Us)`, `nlqt_tf.py:74-93`; `lqt_cost` does not read the dynamics. -/
def NModel.costTF (M : NModel n m K) (C : NQCost n m p q K) (x0 : Fin n → K) (us : List (Fin m → K)) : Py K :=
  let xs := M.simulateTF x0 us
  (⟨C.stages.map fun c => ⟨0, 0, 0, c.H, c.r, c.X, c.U⟩, C.HT, C.rT, C.XT⟩ : TFLQT n m p q K).cost xs us

/-- `xs[0]`, `nlqt_tf.py:118`. -/
def tfHead {α : Type} (l : List α) : Py α :=
  match l with
  | [] => .error .valueError
  | a :: _ => .ok a

/-- The tensors `Fs, cs, Ls, Kxs, ds`, `nlqt_tf.py:118`. -/
def TFLQT.withGains (P : TFLQT n m p q K) (r : BwResult n m K) : List (TFwd n m K) :=
  List.zipWith (fun s kd => ⟨s.F, s.c, s.L, kd.1, kd.2⟩) P.stages (r.Kx_list.zip r.d_list)

section Ordered
variable [LinearOrder K]

/-- `nlqt_iterate_seq`, `nlqt_tf.py:95-119`; returns `(us, xs)`. -/
def NModel.iterateSeqTF (M : NModel n m K) (C : NQCost n m p q K) (us : List (Fin m → K)) (xs : List (Fin n → K)) :
    Py (List (Fin m → K) × List (Fin n → K)) := do
  let P := M.linearizeTF C us xs.dropLast
  let r ← P.seqBackward
  let x0 ← tfHead xs
  let (xs, us) ← lqtTfSeqForward x0 (P.withGains r)
  return (us, xs)

/-- `nlqt_iterate_par_1`, `nlqt_tf.py:121-147`; returns `(us, xs)`. -/
def NModel.iteratePar1TF (scan : (Elem n K → Elem n K → Py (Elem n K)) → List (Elem n K) → Py (List (Elem n K)))
    (scan' : (Matrix (Fin n) (Fin n) K × (Fin n → K) → Matrix (Fin n) (Fin n) K × (Fin n → K) →
      Py (Matrix (Fin n) (Fin n) K × (Fin n → K))) → List (Matrix (Fin n) (Fin n) K × (Fin n → K)) →
      Py (List (Matrix (Fin n) (Fin n) K × (Fin n → K))))
    (M : NModel n m K) (C : NQCost n m p q K) (us : List (Fin m → K)) (xs : List (Fin n → K)) :
    Py (List (Fin m → K) × List (Fin n → K)) := do
  let P := M.linearizeTF C us xs.dropLast
  let r ← P.parBackward scan
  let x0 ← tfHead xs
  let (xs, us) ← lqtTfParForward scan' x0 (P.withGains r)
  return (us, xs)

/-- `nlqt_iterate_par_2`, `nlqt_tf.py:149-175`; returns `(us, xs)`. -/
def NModel.iteratePar2TF (scan : (Elem n K → Elem n K → Py (Elem n K)) → List (Elem n K) → Py (List (Elem n K)))
    (M : NModel n m K) (C : NQCost n m p q K) (us : List (Fin m → K)) (xs : List (Fin n → K)) :
    Py (List (Fin m → K) × List (Fin n → K)) := do
  let P := M.linearizeTF C us xs.dropLast
  let r ← P.parBackward scan
  let x0 ← tfHead xs
  let (xs, us) ← P.parFwdBwd scan x0 r
  return (us, xs)

end Ordered

end Verif
