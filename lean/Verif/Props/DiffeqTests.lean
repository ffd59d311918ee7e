import Verif.Proof.DiffeqTests
import Mathlib.Analysis.Complex.ExponentialBounds

/-!
C114: accuracy of the Runge-Kutta integrator on linear differential equations, and the unit tests of it.
`y` is any solution of `dy/dt = F y`; the norms are those of the space and of the linear maps on it.
-/

namespace Verif

variable {X : Type} [NormedAddCommGroup X] [NormedSpace ℝ X] [CompleteSpace X]

/-- `N` steps of length `dt` (of either sign) with `|dt| ‖F‖ ≤ 1` complete and follow the solution with an error of order
`N |dt|⁵`. -/
theorem C114_linear (F : X →L[ℝ] X) (dt : ℝ) (h : |dt| * ‖F‖ ≤ 1) (N : ℕ) (y : ℝ → X)
    (hy : ∀ t, HasDerivAt y (F (y t)) t) :
    ∃ x, rk4Loop (fun x => .ok (F x)) dt N (y 0) = .ok x ∧
      ‖y (N * dt) - x‖ ≤ N * Real.exp ((N - 1 : ℕ) * (|dt| * ‖F‖)) * (|dt| ^ 5 * ‖F ^ 5‖ / 100) * ‖y 0‖ :=
  rk4Loop_error F dt h N y hy

/-- Over a fixed horizon `T` the error is of order `1 / N⁴`. -/
theorem C114_order4 (F : X →L[ℝ] X) (T : ℝ) (N : ℕ) (hN : 0 < N) (h : |T| * ‖F‖ ≤ N) (y : ℝ → X)
    (hy : ∀ t, HasDerivAt y (F (y t)) t) :
    ∃ x, rk4Loop (fun x => .ok (F x)) (T / N) N (y 0) = .ok x ∧
      ‖y T - x‖ ≤ |T| ^ 5 * ‖F ^ 5‖ * Real.exp (|T| * ‖F‖) / 100 * ‖y 0‖ / (N : ℝ) ^ 4 :=
  rk4Loop_order4 F T N hN h y hy

/-- The hypotheses of `C114_linear` and `C114_order4` with a growing solution: `dy/dt = 2 y`, `y(0) = 3`. -/
example : (∀ t, HasDerivAt (fun t => 3 * Real.exp (2 * t)) (scaleL 2 (3 * Real.exp (2 * t))) t) ∧
    |(1 / 4 : ℝ)| * ‖scaleL 2‖ ≤ 1 ∧ |(1 : ℝ)| * ‖scaleL 2‖ ≤ (4 : ℕ) := by
  refine ⟨scale_ode 2 3, ?_, ?_⟩ <;> rw [scaleL_norm] <;> norm_num

/-- The order cannot be raised: on `dy/dt = y`, `y(0) = 1` one forward step is off by at least `dt⁵ / 120`. -/
theorem C114_sharp (dt : ℝ) (h : 0 ≤ dt) :
    ∃ x, rk4 (fun x : ℝ => .ok x) dt 1 = .ok x ∧ dt ^ 5 / 120 ≤ Real.exp dt - x := by
  refine ⟨_, rfl, ?_⟩
  have h6 := Real.sum_le_exp_of_nonneg h 6
  simp only [Finset.sum_range_succ, Finset.sum_range_zero, Nat.factorial] at h6
  simp only [smul_eq_mul]
  norm_num at h6 ⊢
  linarith

example : (0 : ℝ) ≤ 1 / 10 := by norm_num

/-- `test_rk4_1`, `test_rk4_4` and `test_rk4_5` pass whenever the tolerance exceeds the two error bounds. -/
theorem C114_scalar_tests (c x0 dt tol : ℝ) (steps : ℕ) (hs : 0 < steps) (h1 : |c * dt| ≤ 1) (h2 : |c| ≤ steps)
    (h3 : |c * dt| ^ 5 / 100 * |x0| < tol) (h4 : |c| ^ 5 * Real.exp |c| / 100 * |x0| / (steps : ℝ) ^ 4 < tol) :
    (∃ P, rkTest1 c x0 dt tol steps = .ok P ∧ P) ∧ (∃ P, rkTest4 c x0 dt tol steps = .ok P ∧ P) ∧
      ∃ P, rkTest5 c x0 dt tol steps = .ok P ∧ P := by
  obtain ⟨x, e1, b1⟩ := rk4_scale (-c) x0 dt (by rwa [neg_mul, abs_neg])
  obtain ⟨y, e2, b2⟩ := rk4Loop_scale (-c) x0 1 steps hs (by rwa [mul_one, abs_neg])
  obtain ⟨x', e3, b3⟩ := rk4_scale (-c) x0 (-dt) (by rwa [neg_mul_neg])
  obtain ⟨y', e4, b4⟩ := rk4Loop_scale (-c) x0 (-1) steps hs (by rwa [neg_mul_neg, mul_one])
  rw [neg_mul, abs_neg] at b1
  rw [mul_one, abs_neg] at b2
  rw [neg_mul_neg] at b3 b4
  rw [mul_one] at b4
  rw [neg_div] at e4
  have p1 : |x0 * Real.exp (-c * dt) - x| < tol ∧ |x0 * Real.exp (-c * 1) - y| < tol := by
    rw [neg_mul, mul_one]; exact ⟨b1.trans_lt h3, b2.trans_lt h4⟩
  have p4 : |x0 * Real.exp (-c * 0 + c * dt) - x'| < tol ∧ |x0 * Real.exp (-c * 0 + c * 1) - y'| < tol := by
    rw [mul_zero, zero_add, zero_add, mul_one]; exact ⟨b3.trans_lt h3, b4.trans_lt h4⟩
  refine ⟨⟨_, ?_, p1⟩, ⟨_, ?_, p4⟩, ⟨_, ?_, p1⟩⟩
  · unfold rkTest1
    simp only [e1, e2, bind, Except.bind]
    rfl
  · unfold rkTest4
    simp only [e3, e4, bind, Except.bind]
    rfl
  · unfold rkTest5
    have e5 : rk4P (fun x c : ℝ => .ok (-c * x)) dt x0 c = .ok x := e1
    simp only [rk4PLoop_eq, e5, e2, bind, Except.bind]
    rfl

/-- `test_rk4_3` passes for every matrix and initial state within the bounds: `a` and `b` bound the absolute row sums of
`F` and `F⁵`, `r` bounds the entries of `x0`. -/
theorem C114_matrix_test {n : ℕ} (F : Matrix (Fin n) (Fin n) ℝ) (x0 : Fin n → ℝ) (tol a b r : ℝ) (steps : ℕ)
    (hs : 0 < steps) (ha : ∀ i, ∑ j, |F i j| ≤ a) (hb : ∀ i, ∑ j, |(F ^ 5) i j| ≤ b) (hr : ∀ i, |x0 i| ≤ r)
    (ha0 : 0 ≤ a) (hb0 : 0 ≤ b) (hr0 : 0 ≤ r) (has : a ≤ steps)
    (h : Real.sqrt n * (b * Real.exp a / 100 * r / (steps : ℝ) ^ 4) < tol) :
    ∃ P, rkTest3 F x0 tol steps = .ok P ∧ P := by
  have na := matL_norm_le F a ha0 ha
  have nb := matL_norm_le (F ^ 5) b hb0 hb
  rw [matL_pow] at nb
  have nr : ‖x0‖ ≤ r := (pi_norm_le_iff_of_nonneg hr0).2 hr
  obtain ⟨x, e, h2⟩ := rk4Loop_order4 (matL F) 1 steps hs (by rw [abs_one, one_mul]; exact na.trans has) _
    (fun t => mat_ode F x0 t)
  simp only [zero_smul, NormedSpace.exp_zero, Matrix.one_mulVec, abs_one, one_pow, one_mul] at e h2
  have h3 : ‖(NormedSpace.exp ((1 : ℝ) • F)).mulVec x0 - x‖ ≤ b * Real.exp a / 100 * r / (steps : ℝ) ^ 4 :=
    h2.trans (by gcongr)
  have hp : Real.sqrt (∑ i, ((NormedSpace.exp ((1 : ℝ) • F)).mulVec x0 i - x i) ^ 2) < tol := by
    set d := b * Real.exp a / 100 * r / (steps : ℝ) ^ 4
    have hd : 0 ≤ d := (norm_nonneg _).trans h3
    refine lt_of_le_of_lt ?_ h
    have hsum : ∑ i, ((NormedSpace.exp ((1 : ℝ) • F)).mulVec x0 i - x i) ^ 2 ≤ n * d ^ 2 := by
      refine (Finset.sum_le_card_nsmul _ _ (d ^ 2) fun i _ => ?_).trans (by simp)
      rw [← sq_abs]
      exact pow_le_pow_left₀ (abs_nonneg _) ((norm_le_pi_norm _ i).trans h3) 2
    refine (Real.sqrt_le_sqrt hsum).trans (le_of_eq ?_)
    rw [Real.sqrt_mul (by positivity), Real.sqrt_sq hd]
  refine ⟨_, ?_, hp⟩
  unfold rkTest3
  have e' : rk4Loop (fun x => .ok (F.mulVec x)) (1 / (steps : ℝ)) steps x0 = .ok x := e
  simp only [e', bind, Except.bind]
  rfl

/-- On the data of the file the four tests pass. -/
theorem C114_tests_pass :
    (∃ P, rkTest1 (1 / 2) (7 / 10) (1 / 10) (1 / 10 ^ 5) 10 = .ok P ∧ P) ∧
      (∃ P, rkTest3 rkTestF ![1, 2, 3] (1 / 10 ^ 5) 10 = .ok P ∧ P) ∧
      (∃ P, rkTest4 (1 / 2) (7 / 10) (1 / 10) (1 / 10 ^ 5) 10 = .ok P ∧ P) ∧
      ∃ P, rkTest5 (1 / 2) (7 / 10) (1 / 10) (1 / 10 ^ 5) 10 = .ok P ∧ P := by
  have he := Real.exp_one_lt_three
  have hh : Real.exp |(1 / 2 : ℝ)| < 3 :=
    lt_of_le_of_lt (Real.exp_le_exp.2 (by rw [abs_of_pos (by norm_num)]; norm_num)) he
  obtain ⟨t1, t4, t5⟩ := C114_scalar_tests (1 / 2) (7 / 10) (1 / 10) (1 / 10 ^ 5) 10 (by norm_num)
    (by rw [abs_of_pos (by norm_num)]; norm_num) (by rw [abs_of_pos (by norm_num)]; norm_num)
    (by rw [abs_of_pos (by norm_num), abs_of_pos (by norm_num)]; norm_num)
    (by
      refine lt_of_le_of_lt (b := |(1 / 2 : ℝ)| ^ 5 * 3 / 100 * |(7 / 10 : ℝ)| / ((10 : ℕ) : ℝ) ^ 4) (by gcongr) ?_
      rw [abs_of_pos (by norm_num), abs_of_pos (by norm_num)]; norm_num)
  refine ⟨t1, C114_matrix_test rkTestF _ _ 1 (7 / 100) 3 10 (by norm_num) ?_ ?_ ?_ (by norm_num) (by norm_num)
    (by norm_num) (by norm_num) ?_, t4, t5⟩
  · intro i
    fin_cases i <;> simp [rkTestF, Fin.sum_univ_succ, abs_div] <;> norm_num
  · have e5 : rkTestF ^ 5 = !![11/1000, 13/250, -7/1000; 7/10000, 31/2500, 541/10000;
        -541/100000, -253/25000, -383/100000] := by
      have e2 : rkTestF * rkTestF = !![0, 0, 1; -1/10, -1/5, -3/10; 3/100, -1/25, -11/100] := by
        ext i j
        fin_cases i <;> fin_cases j <;> simp [rkTestF, Matrix.mul_apply, Fin.sum_univ_succ] <;> norm_num
      rw [show rkTestF ^ 5 = (rkTestF * rkTestF) * (rkTestF * rkTestF) * rkTestF by
        simp only [pow_succ, pow_zero, one_mul, mul_assoc], e2]
      ext i j
      fin_cases i <;> fin_cases j <;> simp [rkTestF, Matrix.mul_apply, Fin.sum_univ_succ] <;> norm_num
    intro i
    rw [e5]
    fin_cases i <;> simp [Fin.sum_univ_succ, abs_div] <;> norm_num
  · intro i
    fin_cases i <;> norm_num
  · have hq : Real.sqrt ((3 : ℕ) : ℝ) ≤ 2 := Real.sqrt_le_iff.2 ⟨by norm_num, by norm_num⟩
    refine lt_of_le_of_lt (b := 2 * (7 / 100 * 3 / 100 * 3 / ((10 : ℕ) : ℝ) ^ 4)) ?_ (by norm_num)
    gcongr

end Verif
