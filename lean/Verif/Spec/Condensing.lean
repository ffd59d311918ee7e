import Verif.Model.Condensing
import Verif.Spec.LQT

/-! Reference notions for partial condensing. -/

namespace Verif

open Matrix

variable {n m : ℕ} {K : Type} [Field K]

/-- The step does not use `Z`, `s`, `M`. -/
def LStage.Plain (s : LStage n m K) : Prop := s.Z = 1 ∧ s.s = 0 ∧ s.M = 0

/-- The output has the same dimension at every step. -/
def LQT.SameDim (P : LQT n m K) : Prop := ∀ s ∈ P.stages, ∀ t ∈ P.stages, s.p = t.p

/-- Cuts controls of blocks of `N` steps into controls of steps: entry `a` of the control of step `i` is entry `i * m + a`
of the control of the block. -/
def splitControls (N : ℕ) (us : List (Fin (N * m) → K)) : List (Fin m → K) :=
  us.flatMap fun u => List.ofFn fun i : Fin N => fun a => u (finProdFinEquiv (i, a))

/-- The step without offset and reference. -/
def LStage.homog (s : LStage n m K) : LStage n m K := { s with c := 0, r := 0 }

/-- The step with `Z = I`, `s = 0`, `M = 0`. -/
def LStage.strip (s : LStage n m K) : LStage n m K := { s with Z := 1, s := 0, M := 0 }

end Verif
