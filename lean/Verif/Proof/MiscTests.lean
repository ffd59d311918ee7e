import Verif.Model.MiscTests
import Verif.Proof.LQTTests
import Verif.Props.Disc

/-! Lemmas for `Props/MiscTests.lean`. -/

namespace Verif

open Matrix

theorem discTest_AB (dt : ℝ) (hdt : 0 ≤ dt) : discA discTestF dt = discTestA1 dt ∧
    discB discTestF discTestG dt = !![dt ^ 2; 2 * dt] := by
  have hU := ltiDiscU_eq discTestF discTestL discTestG .none 1 rfl dt
  have key : ∀ a b u : ℝ, ![a + b * dt + u * dt ^ 2, b + u * (2 * dt)] =
      discA discTestF dt *ᵥ ![a, b] + discB discTestF discTestG dt *ᵥ ![u] := by
    intro a b u
    have := C48_zoh _ _ _ _ dt _ _ _ hU hdt ![u] (fun t => ![a + b * t + u * t ^ 2, b + u * (2 * t)]) (by
      intro t _ i
      fin_cases i
      · have h1 : HasDerivAt (fun s : ℝ => a + b * s + u * s ^ 2) (b + u * (2 * t)) t := by
          have := (((hasDerivAt_id t).const_mul b).const_add a).add (((hasDerivAt_id t).pow 2).const_mul u)
          refine this.congr_deriv ?_
          simp
        simpa [discTestF, discTestG, mulVec, dotProduct, Fin.sum_univ_two] using h1
      · have h1 : HasDerivAt (fun s : ℝ => b + u * (2 * s)) (u * 2) t := by
          have := (((hasDerivAt_id t).const_mul 2).const_mul u).const_add b
          refine this.congr_deriv ?_
          simp
        simpa [discTestF, discTestG, mulVec, dotProduct, Fin.sum_univ_two] using h1)
    simpa using this
  have k1 := key 1 0 0
  have k2 := key 0 1 0
  have k3 := key 0 0 1
  have e := fun (v w : Fin 2 → ℝ) (h : v = w) => And.intro (congrFun h 0) (congrFun h 1)
  have k1 := e _ _ k1
  have k2 := e _ _ k2
  have k3 := e _ _ k3
  simp [mulVec, dotProduct, Fin.sum_univ_two] at k1 k2 k3
  constructor
  · ext i j
    fin_cases i <;> fin_cases j <;> simp [discTestA1] <;> linarith [k1.1, k1.2, k2.1, k2.2]
  · ext i j
    fin_cases i <;> fin_cases j <;> simp <;> linarith [k3.1, k3.2]

theorem discTest_Q (Qc dt : ℝ) (hdt : 0 ≤ dt) :
    discN discTestF (discTestL * !![Qc] * discTestLᵀ) dt * (discA discTestF dt)ᵀ = discTestQ1 Qc dt := by
  have hU := ltiDiscU_eq discTestF discTestL discTestG (.mat !![Qc]) !![Qc] rfl dt
  have := (C48_covariance _ _ _ _ dt _ _ _ hU hdt).1 (fun t => discTestQ1 Qc t) (by
    intro t _ i j
    have h3 : HasDerivAt (fun s : ℝ => Qc * (s ^ 3 / 3)) (Qc * t ^ 2) t := by
      refine ((((hasDerivAt_id t).pow 3).div_const 3).const_mul Qc).congr_deriv ?_
      simp
    have h2 : HasDerivAt (fun s : ℝ => Qc * (s ^ 2 / 2)) (Qc * t) t := by
      refine ((((hasDerivAt_id t).pow 2).div_const 2).const_mul Qc).congr_deriv ?_
      simp
    have h1 : HasDerivAt (fun s : ℝ => Qc * s) Qc t := by
      refine ((hasDerivAt_id t).const_mul Qc).congr_deriv ?_
      simp
    fin_cases i <;> fin_cases j
    · refine h3.congr_deriv ?_
      simp [discTestQ1, discTestF, discTestL, vecMul, vecHead, vecTail, dotProduct, Fin.sum_univ_succ]
      ring
    · refine h2.congr_deriv ?_
      simp [discTestQ1, discTestF, discTestL, vecMul, vecHead, vecTail, dotProduct, Fin.sum_univ_succ]
    · refine h2.congr_deriv ?_
      simp [discTestQ1, discTestF, discTestL, vecMul, vecHead, vecTail, dotProduct, Fin.sum_univ_succ]
    · refine h1.congr_deriv ?_
      simp [discTestQ1, discTestF, discTestL, vecMul, vecHead, vecTail, dotProduct, Fin.sum_univ_succ])
  have e : discTestQ1 Qc 0 = 0 := by
    ext i j; fin_cases i <;> fin_cases j <;> simp [discTestQ1]
  simp only [e, Matrix.mul_zero, Matrix.zero_mul, zero_add] at this
  exact this.symm

end Verif
