import Verif.Model.Linalg
import Verif.Spec.Linalg
import Verif.Proof.PyLemmas
import Mathlib.LinearAlgebra.Matrix.NonsingularInverse
import Mathlib.LinearAlgebra.Matrix.ToLinearEquiv
import Mathlib.LinearAlgebra.Matrix.SchurComplement
import Mathlib.Tactic.Linarith
import Mathlib.Tactic.Ring
import Mathlib.Tactic.FieldSimp
import Mathlib.Tactic.Abel
import Mathlib.Algebra.BigOperators.Field
import Mathlib.LinearAlgebra.Matrix.DotProduct

/-! Lemmas on the exact-arithmetic linear algebra of `Verif.Model.Linalg`. -/

namespace Verif

open Matrix

variable {K : Type} [Field K] {ι κ : Type} [Fintype ι] [DecidableEq ι]

theorem mul_minv {A : Matrix ι ι K} (h : A.det ≠ 0) : A * minv A = 1 := by
  rw [minv, Matrix.mul_smul, mul_adjugate, smul_smul, inv_mul_cancel₀ h, one_smul]

theorem minv_mul {A : Matrix ι ι K} (h : A.det ≠ 0) : minv A * A = 1 := by
  rw [minv, Matrix.smul_mul, adjugate_mul, smul_smul, inv_mul_cancel₀ h, one_smul]

theorem minv_eq {A B : Matrix ι ι K} (h : A * B = 1) : minv A = B := by
  have hd : A.det ≠ 0 := by
    intro h0
    have := congrArg det h
    simp [h0] at this
  calc minv A = minv A * (A * B) := by rw [h, Matrix.mul_one]
    _ = B := by rw [← Matrix.mul_assoc, minv_mul hd, Matrix.one_mul]

theorem minv_transpose (A : Matrix ι ι K) : (minv A)ᵀ = minv Aᵀ := by
  rw [minv, minv, transpose_smul, adjugate_transpose, det_transpose]

theorem luFactor_ok [DecidableEq K] {A f : Matrix ι ι K} : luFactor A = .ok f ↔ A.det ≠ 0 ∧ f = minv A := by
  unfold luFactor
  split
  · rename_i h; simp [h]
  · rename_i h; simp [h, eq_comm]

/-- A factorisation exists iff there is an inverse. -/
theorem luFactor_ok' [DecidableEq K] {A f : Matrix ι ι K} : luFactor A = .ok f ↔ A * f = 1 ∧ f * A = 1 := by
  rw [luFactor_ok]
  constructor
  · rintro ⟨h, rfl⟩; exact ⟨mul_minv h, minv_mul h⟩
  · rintro ⟨h, -⟩
    refine ⟨?_, (minv_eq h).symm⟩
    intro h0
    have := congrArg det h
    simp [h0] at this

theorem solve_ok [DecidableEq K] {A : Matrix ι ι K} {B X : Matrix ι κ K} :
    solve A B = .ok X ↔ A.det ≠ 0 ∧ A * X = B := by
  unfold solve luSolve
  rw [bind_ok]
  constructor
  · rintro ⟨f, hf, h⟩
    have hf' := luFactor_ok'.1 hf
    simp only [pure, Except.pure, Except.ok.injEq] at h
    subst h
    exact ⟨(luFactor_ok.1 hf).1, by rw [← Matrix.mul_assoc, hf'.1, Matrix.one_mul]⟩
  · rintro ⟨h, rfl⟩
    refine ⟨_, luFactor_ok.2 ⟨h, rfl⟩, ?_⟩
    rw [← Matrix.mul_assoc, minv_mul h, Matrix.one_mul]
    rfl

theorem solveV_ok [DecidableEq K] {A : Matrix ι ι K} {b x : ι → K} :
    solveV A b = .ok x ↔ A.det ≠ 0 ∧ A *ᵥ x = b := by
  unfold solveV luSolveV
  rw [bind_ok]
  constructor
  · rintro ⟨f, hf, h⟩
    have hf' := luFactor_ok'.1 hf
    simp only [pure, Except.pure, Except.ok.injEq] at h
    subst h
    exact ⟨(luFactor_ok.1 hf).1, by rw [mulVec_mulVec, hf'.1, one_mulVec]⟩
  · rintro ⟨h, rfl⟩
    refine ⟨_, luFactor_ok.2 ⟨h, rfl⟩, ?_⟩
    rw [mulVec_mulVec, minv_mul h, one_mulVec]
    rfl

theorem mulVec_inj_of_det {A : Matrix ι ι K} (h : A.det ≠ 0) {x y : ι → K} (hxy : A *ᵥ x = A *ᵥ y) : x = y := by
  have := congrArg (fun z => minv A *ᵥ z) hxy
  simpa [mulVec_mulVec, minv_mul h] using this

theorem mul_cancel_of_det {A : Matrix ι ι K} (h : A.det ≠ 0) {B C : Matrix ι κ K} (hBC : A * B = A * C) : B = C := by
  have : minv A * (A * B) = minv A * (A * C) := by rw [hBC]
  rwa [← Matrix.mul_assoc, ← Matrix.mul_assoc, minv_mul h, Matrix.one_mul, Matrix.one_mul] at this

theorem det_ne_zero_of_mul_eq_one {A B : Matrix ι ι K} (h : A * B = 1) : A.det ≠ 0 := by
  intro h0
  have := congrArg det h
  simp [h0] at this

theorem det_ne_zero_of_inj {A : Matrix ι ι K} (h : ∀ x : ι → K, A *ᵥ x = 0 → x = 0) : A.det ≠ 0 := by
  intro h0
  obtain ⟨v, hv, hv0⟩ := exists_mulVec_eq_zero_iff.2 h0
  exact hv (h v hv0)

theorem upperSym_eq {n : ℕ} {A : Matrix (Fin n) (Fin n) K} (h : Aᵀ = A) : upperSym A = A := by
  ext i j
  unfold upperSym
  simp only [of_apply]
  split
  · rfl
  · exact congrFun (congrFun h i) j

theorem dot_symm {ι κ : Type} [Fintype ι] [Fintype κ] (A : Matrix ι κ K) (x : ι → K) (y : κ → K) :
    x ⬝ᵥ A *ᵥ y = y ⬝ᵥ Aᵀ *ᵥ x := by
  rw [dotProduct_mulVec, dotProduct_comm, mulVec_transpose]

section Ordered
variable [LinearOrder K] [IsStrictOrderedRing K]

omit [IsStrictOrderedRing K] in
theorem IsPD.det_ne_zero {A : Matrix ι ι K} (h : IsPD A) : A.det ≠ 0 := by
  apply det_ne_zero_of_inj
  intro x hx
  by_contra hne
  have := h x hne
  rw [hx, dotProduct_zero] at this
  exact lt_irrefl _ this

omit [DecidableEq ι] in
theorem IsPD.nonneg {A : Matrix ι ι K} (h : IsPD A) (x : ι → K) : 0 ≤ x ⬝ᵥ A *ᵥ x := by
  by_cases hx : x = 0
  · simp [hx]
  · exact (h x hx).le

omit [DecidableEq ι] in
/-- A vector on which a semidefinite form vanishes is in its kernel. -/
theorem IsPSD.mulVec_eq_zero {A : Matrix ι ι K} (h : IsPSD A) {x : ι → K} (hx : x ⬝ᵥ A *ᵥ x = 0) : A *ᵥ x = 0 := by
  have key : ∀ y t, 0 ≤ 2 * t * (y ⬝ᵥ A *ᵥ x) + t * t * (y ⬝ᵥ A *ᵥ y) := by
    intro y t
    have := h.2 (x + t • y)
    rw [mulVec_add, mulVec_smul, add_dotProduct, dotProduct_add, dotProduct_add, smul_dotProduct, smul_dotProduct,
      dotProduct_smul, dotProduct_smul, hx, dot_symm A x y, h.1] at this
    simp only [smul_eq_mul] at this
    linarith
  set y := A *ᵥ x with hy
  have h0 : y ⬝ᵥ A *ᵥ x ≤ 0 := by
    by_contra hc
    push Not at hc
    set a := y ⬝ᵥ A *ᵥ x
    set b := y ⬝ᵥ A *ᵥ y
    have hb : 0 ≤ b := h.2 y
    have h2 := key y (-(a / (b + 1)))
    have hb1 : 0 < b + 1 := by linarith
    have h3 : 2 * (-(a / (b + 1))) * a + (-(a / (b + 1))) * (-(a / (b + 1))) * b =
        -(a * a * (b + 2)) / ((b + 1) * (b + 1)) := by field_simp; ring
    rw [h3] at h2
    have h4 : 0 < a * a * (b + 2) / ((b + 1) * (b + 1)) := by positivity
    rw [neg_div] at h2
    linarith
  have h1 : y ⬝ᵥ y ≤ 0 := h0
  rw [← dotProduct_self_eq_zero]
  exact le_antisymm h1 (Finset.sum_nonneg fun i _ => mul_self_nonneg _)

/-- `I + C J` is nonsingular for semidefinite `C`, `J`. -/
theorem det_one_add_ne_zero {C J : Matrix ι ι K} (hC : IsPSD C) (hJ : IsPSD J) : (1 + C * J).det ≠ 0 := by
  apply det_ne_zero_of_inj
  intro x hx
  rw [add_mulVec, one_mulVec, ← mulVec_mulVec] at hx
  have h1 : (J *ᵥ x) ⬝ᵥ x + (J *ᵥ x) ⬝ᵥ C *ᵥ (J *ᵥ x) = 0 := by
    rw [← dotProduct_add, hx, dotProduct_zero]
  rw [dotProduct_comm (J *ᵥ x) x] at h1
  have h2 := hJ.2 x
  have h3 := hC.2 (J *ᵥ x)
  have h4 : x ⬝ᵥ J *ᵥ x = 0 := by linarith
  have h5 := hJ.mulVec_eq_zero h4
  rw [h5, mulVec_zero, add_zero] at hx
  exact hx

/-- Expansion of a quadratic form along the first coordinate. -/
theorem quad_succ {n : ℕ} (A : Matrix (Fin (n + 1)) (Fin (n + 1)) K) (x : Fin (n + 1) → K) (ha : A 0 0 ≠ 0)
    (hA : Aᵀ = A) :
    x ⬝ᵥ A *ᵥ x = A 0 0 * (x 0 + (∑ j : Fin n, A 0 j.succ * x j.succ) / A 0 0) ^ 2 +
      (fun i : Fin n => x i.succ) ⬝ᵥ
        (Matrix.of fun i j : Fin n => A i.succ j.succ - A i.succ 0 * A 0 j.succ / A 0 0) *ᵥ (fun i => x i.succ) := by
  set β := ∑ j : Fin n, A 0 j.succ * x j.succ with hβ
  have hs : ∀ i j, A i j = A j i := fun i j => (congrFun (congrFun hA i) j).symm
  have h1 : x ⬝ᵥ A *ᵥ x = A 0 0 * x 0 ^ 2 + 2 * x 0 * β +
      ∑ i : Fin n, x i.succ * ∑ j : Fin n, A i.succ j.succ * x j.succ := by
    simp only [dotProduct, mulVec, Fin.sum_univ_succ, ← hβ]
    have : ∑ i : Fin n, x i.succ * (A i.succ 0 * x 0 + ∑ j : Fin n, A i.succ j.succ * x j.succ) =
        x 0 * β + ∑ i : Fin n, x i.succ * ∑ j : Fin n, A i.succ j.succ * x j.succ := by
      rw [hβ, Finset.mul_sum, ← Finset.sum_add_distrib]
      refine Finset.sum_congr rfl fun i _ => ?_
      rw [hs i.succ 0]; ring
    rw [this]; ring
  have h2 : (fun i : Fin n => x i.succ) ⬝ᵥ
        (Matrix.of fun i j : Fin n => A i.succ j.succ - A i.succ 0 * A 0 j.succ / A 0 0) *ᵥ (fun i => x i.succ) =
      ∑ i : Fin n, x i.succ * ∑ j : Fin n, A i.succ j.succ * x j.succ - β ^ 2 / A 0 0 := by
    simp only [dotProduct, mulVec, of_apply]
    have : β ^ 2 / A 0 0 = ∑ i : Fin n, x i.succ * (A i.succ 0 * β / A 0 0) := by
      rw [pow_two, hβ, Finset.sum_mul, Finset.sum_div]
      refine Finset.sum_congr rfl fun i _ => ?_
      rw [hs i.succ 0]; ring
    rw [this, ← Finset.sum_sub_distrib]
    refine Finset.sum_congr rfl fun i _ => ?_
    rw [← mul_sub]
    congr 1
    rw [hβ, Finset.mul_sum, Finset.sum_div, ← Finset.sum_sub_distrib]
    refine Finset.sum_congr rfl fun j _ => ?_
    ring
  rw [h1, h2]
  field_simp
  ring

theorem choPD_iff : ∀ {n : ℕ} {A : Matrix (Fin n) (Fin n) K}, Aᵀ = A → (choPD A = true ↔ IsPD A) := by
  intro n
  induction n with
  | zero =>
    intro A _
    simp only [choPD, true_iff]
    intro x hx
    exact absurd (Subsingleton.elim x 0) hx
  | succ n ih =>
    intro A hA
    have hs : ∀ i j, A i j = A j i := fun i j => (congrFun (congrFun hA i) j).symm
    simp only [choPD, Bool.and_eq_true, decide_eq_true_eq]
    set B : Matrix (Fin n) (Fin n) K := Matrix.of fun i j => A i.succ j.succ - A i.succ 0 * A 0 j.succ / A 0 0 with hB
    have hBs : Bᵀ = B := by
      ext i j
      simp only [hB, transpose_apply, of_apply]
      rw [hs j.succ i.succ, hs j.succ 0, hs 0 i.succ]
      ring
    rw [ih hBs]
    constructor
    · rintro ⟨ha, hp⟩ x hx
      rw [quad_succ A x ha.ne' hA, ← hB]
      by_cases hx' : (fun i : Fin n => x i.succ) = 0
      · have hx0 : x 0 ≠ 0 := by
          intro h0; apply hx
          funext i
          refine Fin.cases h0 (fun i => ?_) i
          exact congrFun hx' i
        rw [hx']
        have : ∀ j : Fin n, x j.succ = 0 := fun j => congrFun hx' j
        simp only [this, mul_zero, Finset.sum_const_zero, zero_div, add_zero, zero_dotProduct]
        positivity
      · have := hp _ hx'
        have h2 : 0 ≤ A 0 0 * (x 0 + (∑ j : Fin n, A 0 j.succ * x j.succ) / A 0 0) ^ 2 := by positivity
        linarith
    · intro hp
      have ha : 0 < A 0 0 := by
        have := hp (Pi.single 0 1) (by intro h; simpa using congrFun h 0)
        simpa using this
      refine ⟨ha, fun y hy => ?_⟩
      set x : Fin (n + 1) → K := Fin.cons (-(∑ j : Fin n, A 0 j.succ * y j) / A 0 0) y with hx
      have hxne : x ≠ 0 := by
        intro h0; apply hy
        funext i
        have := congrFun h0 i.succ
        simpa [hx] using this
      have := hp x hxne
      rw [quad_succ A x ha.ne' hA, ← hB] at this
      simpa [hx, neg_div] using this

theorem choFactor_ok {n : ℕ} {A f : Matrix (Fin n) (Fin n) K} (hA : Aᵀ = A) :
    choFactor A = .ok f ↔ IsPD A ∧ f = minv A := by
  unfold choFactor
  rw [upperSym_eq hA]
  split
  · rename_i h
    simp [(choPD_iff hA).1 h, eq_comm]
  · rename_i h
    simp [← choPD_iff hA, h]

theorem solvePos_ok {n : ℕ} {κ : Type} {A : Matrix (Fin n) (Fin n) K} {B X : Matrix (Fin n) κ K} (hA : Aᵀ = A) :
    solvePos A B = .ok X ↔ IsPD A ∧ A * X = B := by
  unfold solvePos choSolve
  rw [bind_ok]
  constructor
  · rintro ⟨f, hf, h⟩
    obtain ⟨h1, rfl⟩ := (choFactor_ok hA).1 hf
    simp only [pure, Except.pure, Except.ok.injEq] at h
    subst h
    exact ⟨h1, by rw [← Matrix.mul_assoc, mul_minv h1.det_ne_zero, Matrix.one_mul]⟩
  · rintro ⟨h, rfl⟩
    refine ⟨_, (choFactor_ok hA).2 ⟨h, rfl⟩, ?_⟩
    rw [← Matrix.mul_assoc, minv_mul h.det_ne_zero, Matrix.one_mul]
    rfl

end Ordered

end Verif
