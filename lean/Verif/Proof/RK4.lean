import Verif.Model.CLQT
import Mathlib.Tactic.Module
import Mathlib.Tactic.FieldSimp
import Mathlib.Tactic.Abel
import Mathlib.Algebra.Order.Field.Basic

/-! Runge-Kutta steps of affine differential equations. -/

namespace Verif

open Matrix

section Pure
variable {X P K : Type} [Field K] [AddCommGroup X] [Module K X]

/-- The Runge-Kutta step for a right hand side that does not raise. -/
def rkStep (g : X → K → X) (dt : K) (x : X) (t : K) : X :=
  let dx1 := dt • g x t
  let dx2 := dt • g (x + (1 / 2 : K) • dx1) (t + dt / 2)
  let dx3 := dt • g (x + (1 / 2 : K) • dx2) (t + dt / 2)
  let dx4 := dt • g (x + dx3) (t + dt)
  x + (1 / 6 : K) • (dx1 + (2 : K) • dx2 + (2 : K) • dx3 + dx4)

theorem rk4T_pure {f : X → K → Py X} {g : X → K → X} (h : ∀ x t, f x t = .ok (g x t)) (dt : K) (x : X) (t : K) :
    rk4T f dt x t = .ok (rkStep g dt x t) := by
  unfold rk4T rkStep
  simp only [h]
  rfl

theorem rk4TP_pure {f : X → K → P → Py X} {p : P} {g : X → K → X} (h : ∀ x t, f x t p = .ok (g x t)) (dt : K) (x : X)
    (t : K) : rk4TP f dt x t p = .ok (rkStep g dt x t) := by
  unfold rk4TP rkStep
  simp only [h]
  rfl

end Pure

variable {n p : ℕ} {K : Type} [Field K]

/-- Matrix of a Runge-Kutta step of `x' = A(t) x`, given `A` at the start, the midpoint and the end. -/
def rkR (dt : K) (A1 A2 A3 : Matrix (Fin n) (Fin n) K) : Matrix (Fin n) (Fin n) K :=
  1 + (dt / 6) • (A1 + (4 : K) • A2 + A3) + (dt ^ 2 / 6) • (A2 * A1 + A2 * A2 + A3 * A2) +
    (dt ^ 3 / 12) • (A2 * A2 * A1 + A3 * A2 * A2) + (dt ^ 4 / 24) • (A3 * A2 * A2 * A1)

/-- Offset of a Runge-Kutta step of `x' = A(t) x + c(t)`. -/
def rkO (dt : K) (A2 A3 : Matrix (Fin n) (Fin n) K) (c1 c2 c3 : Fin n → K) : Fin n → K :=
  (dt / 6) • (c1 + (4 : K) • c2 + c3) + (dt ^ 2 / 6) • (A2 *ᵥ c1 + A2 *ᵥ c2 + A3 *ᵥ c2) +
    (dt ^ 3 / 12) • ((A2 * A2) *ᵥ c1 + (A3 * A2) *ᵥ c2) + (dt ^ 4 / 24) • ((A3 * A2 * A2) *ᵥ c1)

variable [CharZero K]

theorem rkStep_affine (A : K → Matrix (Fin n) (Fin n) K) (c : K → Fin n → K) (dt : K) (x : Fin n → K) (t : K) :
    rkStep (fun x t => A t *ᵥ x + c t) dt x t =
      rkR dt (A t) (A (t + dt / 2)) (A (t + dt)) *ᵥ x +
        rkO dt (A (t + dt / 2)) (A (t + dt)) (c t) (c (t + dt / 2)) (c (t + dt)) := by
  unfold rkStep rkR rkO
  dsimp only
  generalize A t = A1
  generalize A (t + dt / 2) = A2
  generalize A (t + dt) = A3
  generalize c t = c1
  generalize c (t + dt / 2) = c2
  generalize c (t + dt) = c3
  simp only [mulVec_add, add_mulVec, mulVec_smul, smul_mulVec, smul_add, smul_smul, one_mulVec, mulVec_mulVec, Matrix.mul_assoc]
  module

/-- The forward packed equation. -/
theorem rkStep_psi (A : K → Matrix (Fin n) (Fin n) K) (c : K → Fin n → K) (dt : K)
    (e : Matrix (Fin n) (Fin n) K × (Fin n → K)) (t : K) :
    rkStep (fun e t => (A t * e.1, A t *ᵥ e.2 + c t)) dt e t =
      (rkR dt (A t) (A (t + dt / 2)) (A (t + dt)) * e.1,
        rkR dt (A t) (A (t + dt / 2)) (A (t + dt)) *ᵥ e.2 +
        rkO dt (A (t + dt / 2)) (A (t + dt)) (c t) (c (t + dt / 2)) (c (t + dt))) := by
  refine Prod.ext ?_ (rkStep_affine A c dt e.2 t)
  unfold rkStep rkR
  dsimp only
  generalize A t = A1
  generalize A (t + dt / 2) = A2
  generalize A (t + dt) = A3
  simp only [Prod.fst_add, Prod.smul_fst, Matrix.mul_add, Matrix.add_mul, Matrix.mul_smul, Matrix.smul_mul, smul_add, smul_smul, Matrix.one_mul, Matrix.mul_assoc]
  module

/-- The backward packed equation, integrated from `t + dt` to `t`, gives the same step. -/
theorem rkStep_psi_bw (A : K → Matrix (Fin n) (Fin n) K) (c : K → Fin n → K) (dt : K)
    (e : Matrix (Fin n) (Fin n) K × (Fin n → K)) (t : K) :
    rkStep (fun e t => (-e.1 * A t, -e.1 *ᵥ c t)) (-dt) e (t + dt) =
      (e.1 * rkR dt (A t) (A (t + dt / 2)) (A (t + dt)),
        e.1 *ᵥ rkO dt (A (t + dt / 2)) (A (t + dt)) (c t) (c (t + dt / 2)) (c (t + dt)) + e.2) := by
  have e1 : t + dt + -dt / 2 = t + dt / 2 := by field_simp; ring
  have e2 : t + dt + -dt = t := by ring
  obtain ⟨Psi, phi⟩ := e
  unfold rkStep rkR rkO
  dsimp only
  simp only [e1, e2]
  generalize A t = A1
  generalize A (t + dt / 2) = A2
  generalize A (t + dt) = A3
  generalize c t = c1
  generalize c (t + dt / 2) = c2
  generalize c (t + dt) = c3
  refine Prod.ext ?_ ?_
  · simp only [Prod.fst_add, Prod.fst_neg, Prod.smul_fst, Matrix.mul_add, Matrix.add_mul, Matrix.mul_smul, Matrix.smul_mul, smul_add,
      smul_smul, Matrix.mul_one,
      Matrix.neg_mul, neg_add, smul_neg, neg_smul, neg_neg, ← Matrix.mul_assoc]
    module
  · simp only [Prod.fst_add, Prod.snd_add, Prod.fst_neg, Prod.snd_neg, Prod.smul_fst, Prod.smul_snd, mulVec_add, add_mulVec, mulVec_smul, smul_mulVec, 
      smul_add, smul_smul, neg_mulVec, mulVec_mulVec, Matrix.add_mul, Matrix.smul_mul,
      Matrix.neg_mul, neg_add, smul_neg, neg_smul, neg_neg, ← Matrix.mul_assoc]
    module

end Verif
