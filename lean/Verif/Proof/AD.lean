import Verif.Model.ShootingSQP
import Mathlib.Analysis.Calculus.ContDiff.Operations
import Mathlib.Analysis.Calculus.FDeriv.Symmetric
import Mathlib.Analysis.Calculus.Deriv.Comp
import Mathlib.Analysis.Calculus.Deriv.Add
import Mathlib.Analysis.Calculus.Deriv.Mul
import Mathlib.Analysis.Calculus.FDeriv.Mul
import Mathlib.Analysis.Calculus.FDeriv.Add
import Mathlib.Analysis.Calculus.ContDiff.Comp

/-! Derivatives of the Lagrangian. -/

namespace Verif

open Matrix

variable {n m : ℕ}

theorem fderiv_eq_sum (fn : (Fin n → ℝ) → ℝ) (x v : Fin n → ℝ) : fderiv ℝ fn x v = adGrad fn x ⬝ᵥ v := by
  have e : v = ∑ j, v j • (Pi.single j 1 : Fin n → ℝ) := by
    funext i
    simp [Finset.sum_apply, Pi.single_apply]
  conv_lhs => rw [e]
  rw [map_sum, dotProduct]
  refine Finset.sum_congr rfl fun j _ => ?_
  rw [map_smul, smul_eq_mul, mul_comm]
  rfl

theorem fderivJ_eq_sum (con : (Fin n → ℝ) → Fin m → ℝ) (x v : Fin n → ℝ) : fderiv ℝ con x v = adJac con x *ᵥ v := by
  have e : v = ∑ j, v j • (Pi.single j 1 : Fin n → ℝ) := by
    funext i
    simp [Finset.sum_apply, Pi.single_apply]
  conv_lhs => rw [e]
  funext i
  rw [map_sum, mulVec, dotProduct, Finset.sum_apply]
  refine Finset.sum_congr rfl fun j _ => ?_
  rw [map_smul, Pi.smul_apply, smul_eq_mul, mul_comm]
  rfl

theorem adJac_row {con : (Fin n → ℝ) → Fin m → ℝ} {x : Fin n → ℝ} (h : DifferentiableAt ℝ con x) (i : Fin m) :
    adGrad (fun x => con x i) x = adJac con x i := by
  funext j
  unfold adGrad adJac
  have : HasFDerivAt (fun x => con x i) ((ContinuousLinearMap.proj (R := ℝ) (φ := fun _ : Fin m => ℝ) i).comp (fderiv ℝ con x)) x :=
    ((ContinuousLinearMap.proj (R := ℝ) (φ := fun _ : Fin m => ℝ) i).hasFDerivAt).comp x h.hasFDerivAt
  rw [this.fderiv]
  rfl

theorem adGrad_lag {fn : (Fin n → ℝ) → ℝ} {con : (Fin n → ℝ) → Fin m → ℝ} {x : Fin n → ℝ} (hf : DifferentiableAt ℝ fn x)
    (hc : DifferentiableAt ℝ con x) (lam : Fin m → ℝ) :
    adGrad (fun x => fn x - lam ⬝ᵥ con x) x = adGrad fn x - ∑ i, lam i • adGrad (fun x => con x i) x := by
  have hci : ∀ i, HasFDerivAt (fun x => con x i) (fderiv ℝ (fun x => con x i) x) x := fun i =>
    ((differentiableAt_pi.1 hc) i).hasFDerivAt
  have h : HasFDerivAt (fun x => fn x - ∑ i, lam i * con x i)
      (fderiv ℝ fn x - ∑ i, lam i • fderiv ℝ (fun x => con x i) x) x :=
    hf.hasFDerivAt.sub (HasFDerivAt.fun_sum fun i _ => (hci i).const_mul (lam i))
  have e : fderiv ℝ (fun x => fn x - lam ⬝ᵥ con x) x = fderiv ℝ fn x - ∑ i, lam i • fderiv ℝ (fun x => con x i) x := h.fderiv
  funext j
  unfold adGrad
  rw [e]
  simp only [ContinuousLinearMap.sub_apply, ContinuousLinearMap.sum_apply, ContinuousLinearMap.smul_apply, Pi.sub_apply,
    Finset.sum_apply, Pi.smul_apply]

theorem adGrad_diff {fn : (Fin n → ℝ) → ℝ} (hf : ContDiff ℝ 2 fn) : Differentiable ℝ (adGrad fn) := by
  have h1 : ContDiff ℝ 1 (fderiv ℝ fn) := hf.fderiv_right (by norm_num)
  have h2 : Differentiable ℝ (fderiv ℝ fn) := h1.differentiable (by norm_num)
  rw [differentiable_pi]
  intro j
  exact h2.clm_apply (differentiable_const _)

theorem adHess_apply {fn : (Fin n → ℝ) → ℝ} (hf : ContDiff ℝ 2 fn) (x : Fin n → ℝ) (i j : Fin n) :
    adHess fn x i j = fderiv ℝ (fderiv ℝ fn) x (Pi.single j 1) (Pi.single i 1) := by
  have h1 : ContDiff ℝ 1 (fderiv ℝ fn) := hf.fderiv_right (by norm_num)
  have h2 : Differentiable ℝ (fderiv ℝ fn) := h1.differentiable (by norm_num)
  unfold adHess
  rw [← adJac_row (adGrad_diff hf x) i]
  unfold adGrad
  have : HasFDerivAt (fun x => fderiv ℝ fn x (Pi.single i 1))
      ((ContinuousLinearMap.apply ℝ ℝ (Pi.single i 1 : Fin n → ℝ)).comp (fderiv ℝ (fderiv ℝ fn) x)) x :=
    ((ContinuousLinearMap.apply ℝ ℝ (Pi.single i 1 : Fin n → ℝ)).hasFDerivAt).comp x (h2 x).hasFDerivAt
  rw [this.fderiv]
  rfl

theorem adHess_symm {fn : (Fin n → ℝ) → ℝ} (hf : ContDiff ℝ 2 fn) (x : Fin n → ℝ) : (adHess fn x)ᵀ = adHess fn x := by
  ext i j
  rw [transpose_apply, adHess_apply hf, adHess_apply hf]
  have := (hf.contDiffAt (x := x)).isSymmSndFDerivAt (by simp)
  exact this _ _

theorem adHess_lag {fn : (Fin n → ℝ) → ℝ} {con : (Fin n → ℝ) → Fin m → ℝ} (hf : ContDiff ℝ 2 fn) (hc : ContDiff ℝ 2 con)
    (lam : Fin m → ℝ) (x : Fin n → ℝ) :
    adHess (fun x => fn x - lam ⬝ᵥ con x) x = adHess fn x - ∑ i, lam i • adHess (fun x => con x i) x := by
  have hci : ∀ i, ContDiff ℝ 2 fun x => con x i := fun i => contDiff_pi.1 hc i
  have e : adGrad (fun x => fn x - lam ⬝ᵥ con x) = fun x => adGrad fn x - ∑ i, lam i • adGrad (fun x => con x i) x := by
    funext y
    exact adGrad_lag (hf.differentiable (by norm_num) y) (hc.differentiable (by norm_num) y) lam
  have h : HasFDerivAt (fun x => adGrad fn x - ∑ i, lam i • adGrad (fun x => con x i) x)
      (fderiv ℝ (adGrad fn) x - ∑ i, lam i • fderiv ℝ (adGrad fun x => con x i) x) x :=
    (adGrad_diff hf x).hasFDerivAt.sub (HasFDerivAt.fun_sum fun i _ => ((adGrad_diff (hci i) x).hasFDerivAt).const_smul (lam i))
  ext a b
  simp only [Matrix.sub_apply, Matrix.sum_apply, Matrix.smul_apply]
  unfold adHess
  rw [e]
  unfold adJac
  rw [h.fderiv]
  simp only [ContinuousLinearMap.sub_apply, ContinuousLinearMap.sum_apply, ContinuousLinearMap.smul_apply, Pi.sub_apply,
    Finset.sum_apply, Pi.smul_apply]

end Verif
