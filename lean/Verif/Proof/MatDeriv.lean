import Mathlib.Analysis.Calculus.Deriv.Mul
import Mathlib.Analysis.Calculus.Deriv.Inv
import Mathlib.Analysis.Calculus.Deriv.Add
import Mathlib.Analysis.Calculus.FDeriv.Mul
import Mathlib.LinearAlgebra.Matrix.NonsingularInverse

/-! Entrywise derivatives of matrix and vector functions of a real variable. -/

namespace Verif

open Matrix

variable {m n p : ℕ}

/-- The matrix function `M` has the derivative `D` at `t`. -/
def MD (M : ℝ → Matrix (Fin m) (Fin n) ℝ) (D : Matrix (Fin m) (Fin n) ℝ) (t : ℝ) : Prop :=
  ∀ i j, HasDerivAt (fun s => M s i j) (D i j) t

/-- The vector function `v` has the derivative `d` at `t`. -/
def VD (v : ℝ → Fin n → ℝ) (d : Fin n → ℝ) (t : ℝ) : Prop := ∀ i, HasDerivAt (fun s => v s i) (d i) t

variable {t : ℝ}

theorem MD.const (A : Matrix (Fin m) (Fin n) ℝ) : MD (fun _ => A) 0 t := fun _ _ => hasDerivAt_const _ _

theorem VD.const (v : Fin n → ℝ) : VD (fun _ => v) 0 t := fun _ => hasDerivAt_const _ _

theorem MD.add {M N : ℝ → Matrix (Fin m) (Fin n) ℝ} {M' N' : Matrix (Fin m) (Fin n) ℝ} (h : MD M M' t) (k : MD N N' t) :
    MD (fun s => M s + N s) (M' + N') t := fun i j => (h i j).add (k i j)

theorem MD.sub {M N : ℝ → Matrix (Fin m) (Fin n) ℝ} {M' N' : Matrix (Fin m) (Fin n) ℝ} (h : MD M M' t) (k : MD N N' t) :
    MD (fun s => M s - N s) (M' - N') t := fun i j => (h i j).sub (k i j)

theorem VD.add {v w : ℝ → Fin n → ℝ} {v' w' : Fin n → ℝ} (h : VD v v' t) (k : VD w w' t) :
    VD (fun s => v s + w s) (v' + w') t := fun i => (h i).add (k i)

theorem VD.sub {v w : ℝ → Fin n → ℝ} {v' w' : Fin n → ℝ} (h : VD v v' t) (k : VD w w' t) :
    VD (fun s => v s - w s) (v' - w') t := fun i => (h i).sub (k i)

theorem MD.transpose {M : ℝ → Matrix (Fin m) (Fin n) ℝ} {M' : Matrix (Fin m) (Fin n) ℝ} (h : MD M M' t) :
    MD (fun s => (M s)ᵀ) M'ᵀ t := fun i j => h j i

theorem MD.mul {M : ℝ → Matrix (Fin m) (Fin n) ℝ} {N : ℝ → Matrix (Fin n) (Fin p) ℝ} {M' : Matrix (Fin m) (Fin n) ℝ}
    {N' : Matrix (Fin n) (Fin p) ℝ} (h : MD M M' t) (k : MD N N' t) :
    MD (fun s => M s * N s) (M' * N t + M t * N') t := by
  intro i j
  simp only [Matrix.mul_apply, Matrix.add_apply]
  rw [← Finset.sum_add_distrib]
  exact HasDerivAt.fun_sum fun l _ => (h i l).mul (k l j)

theorem MD.mulVec {M : ℝ → Matrix (Fin m) (Fin n) ℝ} {v : ℝ → Fin n → ℝ} {M' : Matrix (Fin m) (Fin n) ℝ} {v' : Fin n → ℝ}
    (h : MD M M' t) (k : VD v v' t) : VD (fun s => M s *ᵥ v s) (M' *ᵥ v t + M t *ᵥ v') t := by
  intro i
  simp only [Matrix.mulVec, dotProduct, Pi.add_apply]
  rw [← Finset.sum_add_distrib]
  exact HasDerivAt.fun_sum fun l _ => (h i l).mul (k l)

theorem VD.dot {v w : ℝ → Fin n → ℝ} {v' w' : Fin n → ℝ} (h : VD v v' t) (k : VD w w' t) :
    HasDerivAt (fun s => v s ⬝ᵥ w s) (v' ⬝ᵥ w t + v t ⬝ᵥ w') t := by
  simp only [dotProduct]
  rw [← Finset.sum_add_distrib]
  exact HasDerivAt.fun_sum fun l _ => (h l).mul (k l)

theorem MD.congr {M N : ℝ → Matrix (Fin m) (Fin n) ℝ} {M' N' : Matrix (Fin m) (Fin n) ℝ} (h : MD M M' t) (e : M' = N')
    (k : ∀ s, M s = N s) : MD N N' t := by
  obtain rfl : M = N := funext k
  exact e ▸ h

theorem MD.unique {M : ℝ → Matrix (Fin m) (Fin n) ℝ} {D D' : Matrix (Fin m) (Fin n) ℝ} (h : MD M D t) (h' : MD M D' t) :
    D = D' := by
  ext i j
  exact (h i j).unique (h' i j)

theorem det_diff {M : ℝ → Matrix (Fin n) (Fin n) ℝ} (h : ∀ i j, DifferentiableAt ℝ (fun s => M s i j) t) :
    DifferentiableAt ℝ (fun s => (M s).det) t := by
  simp only [Matrix.det_apply]
  refine DifferentiableAt.fun_sum fun σ _ => ?_
  refine DifferentiableAt.const_smul (f := fun s => ∏ i, M s (σ i) i) ?_ (Equiv.Perm.sign σ)
  exact DifferentiableAt.fun_finset_prod fun i _ => h (σ i) i

theorem inv_diff {M : ℝ → Matrix (Fin n) (Fin n) ℝ} (h : ∀ i j, DifferentiableAt ℝ (fun s => M s i j) t)
    (hd : (M t).det ≠ 0) (i j : Fin n) : DifferentiableAt ℝ (fun s => (M s)⁻¹ i j) t := by
  have e : (fun s => (M s)⁻¹ i j) = fun s => ((M s).det)⁻¹ * (M s).adjugate i j := by
    funext s
    rw [Matrix.inv_def, Matrix.smul_apply, Ring.inverse_eq_inv', smul_eq_mul]
  rw [e]
  refine ((det_diff h).fun_inv hd).fun_mul ?_
  simp only [Matrix.adjugate_apply]
  refine det_diff fun a b => ?_
  by_cases ha : a = j
  · subst ha
    simp
  · simpa [Matrix.updateRow_ne ha] using h a b

theorem MD.inv {M : ℝ → Matrix (Fin n) (Fin n) ℝ} {M' : Matrix (Fin n) (Fin n) ℝ} (h : MD M M' t) (hd : (M t).det ≠ 0) :
    MD (fun s => (M s)⁻¹) (-((M t)⁻¹ * M' * (M t)⁻¹)) t := by
  have hdiff : ∀ i j, DifferentiableAt ℝ (fun s => M s i j) t := fun i j => (h i j).differentiableAt
  set W : Matrix (Fin n) (Fin n) ℝ := Matrix.of fun i j => deriv (fun s => (M s)⁻¹ i j) t with hW
  have hW' : MD (fun s => (M s)⁻¹) W t := fun i j => (inv_diff hdiff hd i j).hasDerivAt
  have hev : ∀ᶠ s in nhds t, (M s).det ≠ 0 := (det_diff hdiff).continuousAt.eventually_ne hd
  have hone : MD (fun s => M s * (M s)⁻¹) 0 t := by
    intro i j
    refine HasDerivAt.congr_of_eventuallyEq (f := fun _ => (1 : Matrix (Fin n) (Fin n) ℝ) i j) ?_ ?_
    · exact hasDerivAt_const _ _
    · filter_upwards [hev] with s hs
      rw [Matrix.mul_nonsing_inv _ (isUnit_iff_ne_zero.2 hs)]
  have key := (h.mul hW').unique hone
  have : W = -((M t)⁻¹ * M' * (M t)⁻¹) := by
    have h1 : M t * W = -(M' * (M t)⁻¹) := eq_neg_of_add_eq_zero_right key
    calc W = (M t)⁻¹ * (M t * W) := by
          rw [← Matrix.mul_assoc, Matrix.nonsing_inv_mul _ (isUnit_iff_ne_zero.2 hd), Matrix.one_mul]
      _ = _ := by rw [h1, Matrix.mul_neg, Matrix.mul_assoc]
  rw [← this]
  exact hW'

end Verif
