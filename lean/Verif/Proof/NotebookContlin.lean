import Verif.Model.NotebookContlin
import Verif.Proof.LinearModel
import Mathlib.RingTheory.RootsOfUnity.Complex
import Mathlib.Analysis.SpecialFunctions.Trigonometric.Basic

/-! Helper lemmas for the notebook `contlin_demo.ipynb`: discrete orthogonality of the trigonometric functions. -/

namespace Verif

open Matrix

/-! ### Sums over a full period -/

theorem trig_sum (N : ℕ) (hN : 0 < N) (m : ℤ) (hm : ¬ (N : ℤ) ∣ m) :
    ∑ i ∈ Finset.range N, Real.cos (2 * Real.pi * m * i / N) = 0 ∧ ∑ i ∈ Finset.range N, Real.sin (2 * Real.pi * m * i / N) = 0 := by
  have hN0 : (N : ℂ) ≠ 0 := Nat.cast_ne_zero.2 hN.ne'
  set z : ℂ := Complex.exp (2 * Real.pi * Complex.I * m / N) with hz
  have h1 : z ≠ 1 := by
    rw [hz, Ne, Complex.exp_eq_one_iff]
    rintro ⟨k, hk⟩
    refine hm ⟨k, ?_⟩
    have h2 : (2 * Real.pi * Complex.I : ℂ) ≠ 0 := Complex.two_pi_I_ne_zero
    have h3 : (m : ℂ) = N * k := by
      field_simp at hk
      have h4 : (2 * Real.pi * Complex.I : ℂ) * m = (2 * Real.pi * Complex.I) * (N * k) := by linear_combination 2 * Real.pi * Complex.I * hk
      exact mul_left_cancel₀ h2 h4
    exact_mod_cast h3
  have hp : z ^ N = 1 := by
    rw [hz, ← Complex.exp_nat_mul, Complex.exp_eq_one_iff]
    exact ⟨m, by field_simp⟩
  have hs : ∑ i ∈ Finset.range N, z ^ i = 0 := by
    rw [geom_sum_eq h1, hp, sub_self, zero_div]
  have he : ∀ i : ℕ, z ^ i = Complex.cos ((2 * Real.pi * m * i / N : ℝ) : ℂ) + Complex.sin ((2 * Real.pi * m * i / N : ℝ) : ℂ) * Complex.I := by
    intro i
    rw [← Complex.exp_mul_I, hz, ← Complex.exp_nat_mul]
    congr 1
    push_cast
    ring
  simp only [he, ← Complex.ofReal_cos, ← Complex.ofReal_sin] at hs
  constructor
  · have := congrArg Complex.re hs
    simpa only [Complex.re_sum, Complex.add_re, Complex.mul_I_re, Complex.ofReal_re, Complex.ofReal_im, neg_zero, add_zero,
      Complex.zero_re] using this
  · have := congrArg Complex.im hs
    simpa only [Complex.im_sum, Complex.add_im, Complex.mul_I_im, Complex.ofReal_re, Complex.ofReal_im, zero_add,
      Complex.zero_im] using this

theorem cos_sum (m : ℤ) : ∑ i ∈ Finset.range 50, Real.cos (2 * Real.pi * m * i / 50) = if (50 : ℤ) ∣ m then 50 else 0 := by
  split_ifs with h
  · obtain ⟨k, rfl⟩ := h
    rw [Finset.sum_congr rfl (g := fun _ => 1)]
    · simp
    · intro i _
      rw [show (2 * Real.pi * ((50 * k : ℤ) : ℝ) * i / 50 : ℝ) = ((k * i : ℤ) : ℝ) * (2 * Real.pi) by push_cast; ring]
      exact Real.cos_int_mul_two_pi _
  · exact (trig_sum 50 (by norm_num) m h).1

theorem sin_sum (m : ℤ) : ∑ i ∈ Finset.range 50, Real.sin (2 * Real.pi * m * i / 50) = 0 := by
  by_cases h : (50 : ℤ) ∣ m
  · obtain ⟨k, rfl⟩ := h
    refine Finset.sum_eq_zero fun i _ => ?_
    rw [show (2 * Real.pi * ((50 * k : ℤ) : ℝ) * i / 50 : ℝ) = ((2 * (k * i) : ℤ) : ℝ) * Real.pi by push_cast; ring]
    exact Real.sin_int_mul_pi _
  · exact (trig_sum 50 (by norm_num) m h).2

/-! ### The basis -/

/-- The frequency of a basis function. -/
def contFreq (j : Fin 13) : ℤ := ((j : ℕ) + 1) / 2

/-- The basis functions of odd number and number zero are cosines, the others sines. -/
theorem contBasis_eq (j : Fin 13) (t : ℝ) : contBasis j t =
    if (j : ℕ) = 0 ∨ (j : ℕ) % 2 = 1 then Real.cos (2 * Real.pi * contFreq j * t / 50) else Real.sin (2 * Real.pi * contFreq j * t / 50) := by
  fin_cases j <;> simp [contBasis, contFreq] <;> norm_num <;> congr 1 <;> ring

theorem contGram_sum (j k : Fin 13) : ∑ i ∈ Finset.range 50, contBasis j i * contBasis k i =
    if j = k then if (j : ℕ) = 0 then 50 else 25 else 0 := by
  have hc : ∀ a b : ℤ, ∑ i ∈ Finset.range 50, Real.cos (2 * Real.pi * a * i / 50) * Real.cos (2 * Real.pi * b * i / 50) =
      ((if (50 : ℤ) ∣ a - b then 50 else 0) + if (50 : ℤ) ∣ a + b then 50 else 0) / 2 := by
    intro a b
    rw [← cos_sum, ← cos_sum, ← Finset.sum_add_distrib, Finset.sum_div]
    refine Finset.sum_congr rfl fun i _ => ?_
    rw [show (2 * Real.pi * ((a - b : ℤ) : ℝ) * i / 50 : ℝ) = 2 * Real.pi * a * i / 50 - 2 * Real.pi * b * i / 50 by push_cast; ring,
      show (2 * Real.pi * ((a + b : ℤ) : ℝ) * i / 50 : ℝ) = 2 * Real.pi * a * i / 50 + 2 * Real.pi * b * i / 50 by push_cast; ring,
      Real.cos_sub, Real.cos_add]
    ring
  have hs : ∀ a b : ℤ, ∑ i ∈ Finset.range 50, Real.sin (2 * Real.pi * a * i / 50) * Real.sin (2 * Real.pi * b * i / 50) =
      ((if (50 : ℤ) ∣ a - b then 50 else 0) - if (50 : ℤ) ∣ a + b then 50 else 0) / 2 := by
    intro a b
    rw [← cos_sum, ← cos_sum, ← Finset.sum_sub_distrib, Finset.sum_div]
    refine Finset.sum_congr rfl fun i _ => ?_
    rw [show (2 * Real.pi * ((a - b : ℤ) : ℝ) * i / 50 : ℝ) = 2 * Real.pi * a * i / 50 - 2 * Real.pi * b * i / 50 by push_cast; ring,
      show (2 * Real.pi * ((a + b : ℤ) : ℝ) * i / 50 : ℝ) = 2 * Real.pi * a * i / 50 + 2 * Real.pi * b * i / 50 by push_cast; ring,
      Real.cos_sub, Real.cos_add]
    ring
  have hsc : ∀ a b : ℤ, ∑ i ∈ Finset.range 50, Real.sin (2 * Real.pi * a * i / 50) * Real.cos (2 * Real.pi * b * i / 50) = 0 := by
    intro a b
    have h : ∑ i ∈ Finset.range 50, Real.sin (2 * Real.pi * a * i / 50) * Real.cos (2 * Real.pi * b * i / 50) =
        (∑ i ∈ Finset.range 50, Real.sin (2 * Real.pi * ((a + b : ℤ) : ℝ) * i / 50) +
        ∑ i ∈ Finset.range 50, Real.sin (2 * Real.pi * ((a - b : ℤ) : ℝ) * i / 50)) / 2 := by
      rw [← Finset.sum_add_distrib, Finset.sum_div]
      refine Finset.sum_congr rfl fun i _ => ?_
      rw [show (2 * Real.pi * ((a - b : ℤ) : ℝ) * i / 50 : ℝ) = 2 * Real.pi * a * i / 50 - 2 * Real.pi * b * i / 50 by push_cast; ring,
        show (2 * Real.pi * ((a + b : ℤ) : ℝ) * i / 50 : ℝ) = 2 * Real.pi * a * i / 50 + 2 * Real.pi * b * i / 50 by push_cast; ring,
        Real.sin_sub, Real.sin_add]
      ring
    rw [h, sin_sum, sin_sum]
    norm_num
  have hd : ∀ j k : Fin 13, ((50 : ℤ) ∣ contFreq j - contFreq k ↔ contFreq j = contFreq k) ∧
      ((50 : ℤ) ∣ contFreq j + contFreq k ↔ (j : ℕ) = 0 ∧ (k : ℕ) = 0) := by decide
  have he : ∀ j k : Fin 13, contFreq j = contFreq k → (((j : ℕ) = 0 ∨ (j : ℕ) % 2 = 1) ↔ ((k : ℕ) = 0 ∨ (k : ℕ) % 2 = 1)) → j = k := by decide
  simp only [contBasis_eq]
  by_cases h1 : (j : ℕ) = 0 ∨ (j : ℕ) % 2 = 1 <;> by_cases h2 : (k : ℕ) = 0 ∨ (k : ℕ) % 2 = 1
  · simp only [h1, h2, if_true, hc, (hd j k).1, (hd j k).2]
    by_cases h : j = k
    · subst h
      by_cases h0 : (j : ℕ) = 0 <;> simp [h0] <;> norm_num
    · rw [if_neg fun h' => h (he j k h' (by simp only [h1, h2])), if_neg, if_neg h]
      · norm_num
      · rintro ⟨a, b⟩
        exact h (Fin.ext (a.trans b.symm))
  · have h : j ≠ k := fun h => h2 (h ▸ h1)
    simp only [h1, h2, if_true, if_false, if_neg h]
    simp only [mul_comm (Real.cos _) (Real.sin _)]
    exact hsc _ _
  · have h : j ≠ k := fun h => h1 (h ▸ h2)
    simp only [h1, h2, if_true, if_false, if_neg h]
    exact hsc _ _
  · simp only [h1, h2, if_false, hs, (hd j k).1, (hd j k).2]
    have h0 : (j : ℕ) ≠ 0 := fun h => h1 (Or.inl h)
    by_cases h : j = k
    · subst h
      simp [h0]
      norm_num
    · rw [if_neg fun h' => h (he j k h' (by simp only [h1, h2])), if_neg (fun hh => h0 hh.1), if_neg h]
      norm_num

/-- The weights of the normal equations. -/
noncomputable def contW (j : Fin 13) : ℝ := if (j : ℕ) = 0 then 50 else 25

theorem contW_pos (j : Fin 13) : 0 < contW j := by
  unfold contW
  split_ifs <;> norm_num

theorem contGram {N : ℕ} (h : N = 50) : (contPsi fun i : Fin N => ((i : ℕ) : ℝ))ᵀ * contPsi (fun i : Fin N => ((i : ℕ) : ℝ)) =
    diagonal contW := by
  subst h
  ext j k
  rw [Matrix.mul_apply, diagonal_apply]
  simp only [contPsi, transpose_apply, of_apply]
  rw [Fin.sum_univ_eq_sum_range (fun i => contBasis j (i : ℝ) * contBasis k (i : ℝ)) 50, contGram_sum]
  rfl

theorem contSolve {N : ℕ} (h : N = 50) : solve ((contPsi fun i : Fin N => ((i : ℕ) : ℝ))ᵀ * contPsi (fun i : Fin N => ((i : ℕ) : ℝ)))
    (contPsi fun i : Fin N => ((i : ℕ) : ℝ))ᵀ = .ok (diagonal (fun j => (contW j)⁻¹) * (contPsi fun i : Fin N => ((i : ℕ) : ℝ))ᵀ) := by
  rw [contGram h, solve_ok, det_diagonal, ← Matrix.mul_assoc, diagonal_mul_diagonal]
  refine ⟨Finset.prod_ne_zero_iff.2 fun j _ => (contW_pos j).ne', ?_⟩
  simp only [mul_inv_cancel₀ (contW_pos _).ne', diagonal_one, Matrix.one_mul]

/-- The fitted coefficients of the values `y 0, …, y 49`. -/
noncomputable def contCoef (y : ℕ → ℝ) (j : Fin 13) : ℝ := (∑ i ∈ Finset.range 50, contBasis j i * y i) / contW j

theorem contRef_eq (c : Fin 13 → ℝ) (t : ℝ) : linRefC c t = ∑ j, contBasis j t * c j := by
  simp only [Fin.sum_univ_succ, Fin.sum_univ_zero]
  simp [contBasis, linRefC]
  norm_num
  ring

theorem contFit_eq (pts : ℕ → Fin 2 → ℝ) : contFit ((List.range 50).map pts) = .ok ⟨(List.range 50).map pts,
    contCoef fun i => pts i 0, contCoef fun i => pts i 1, pts 49, fun k => linRefC (contCoef fun i => pts i 0) (k / 100),
    fun k => linRefC (contCoef fun i => pts i 1) (k / 100)⟩ := by
  have hb : ∀ {α β : Type} (a : α) (f : α → Py β), ((Except.ok a : Py α) >>= f) = f a := fun _ _ => rfl
  have hl : ((List.range 50).map pts).length = 50 := by simp
  have hy : ∀ i : Fin 2, (diagonal (fun j => (contW j)⁻¹) * (contPsi fun i : Fin ((List.range 50).map pts).length => ((i : ℕ) : ℝ))ᵀ) *ᵥ
      (fun k => ((List.range 50).map pts).get k i) = contCoef fun k => pts k i := by
    intro i
    ext j
    rw [← mulVec_mulVec, mulVec_diagonal, contCoef, div_eq_inv_mul]
    refine congrArg _ ?_
    simp only [mulVec, dotProduct, contPsi, transpose_apply, of_apply, List.get_eq_getElem, List.getElem_map, List.getElem_range]
    rw [Fin.sum_univ_eq_sum_range (fun k => contBasis j (k : ℝ) * pts k i) ((List.range 50).map pts).length, hl]
  have hf : ∀ c : Fin 13 → ℝ, contPsi (fun i : Fin 5000 => ((i : ℕ) : ℝ) * 0.01) *ᵥ c = fun k : Fin 5000 => linRefC c ((k : ℕ) / 100) := by
    intro c
    ext k
    rw [contRef_eq]
    simp only [mulVec, dotProduct, contPsi, of_apply]
    rw [show ((k : ℕ) : ℝ) * 0.01 = (k : ℕ) / 100 by ring]
  have hp : pyGet ((List.range 50).map pts) (((List.range 50).map pts).length - 1) = .ok (pts 49) := by
    rw [hl]
    rfl
  unfold contFit
  simp only [contSolve hl, hb, hp, hy, hf]
  rfl

end Verif
