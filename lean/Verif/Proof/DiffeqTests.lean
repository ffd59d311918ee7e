import Verif.Model.DiffeqTests
import Mathlib.Analysis.Complex.Exponential
import Mathlib.Analysis.Normed.Operator.NormedSpace
import Mathlib.Analysis.ODE.ExistUnique
import Mathlib.Tactic.Module
import Mathlib.Tactic.NoncommRing

/-! Lemmas for `Props/DiffeqTests.lean`. -/

namespace Verif

section alg
variable {A : Type} [NormedRing A] [NormedAlgebra ℝ A] [CompleteSpace A]

/-- The Taylor polynomial of degree four of the exponential. -/
noncomputable def taylor4 (B : A) : A := ∑ m ∈ Finset.range 5, ((m.factorial : ℝ)⁻¹) • B ^ m

theorem exp_sub_taylor4 (B : A) (hB : ‖B‖ ≤ 1) : ‖NormedSpace.exp B - taylor4 B‖ ≤ ‖B ^ 5‖ / 100 := by
  have hs : HasSum (fun n : ℕ => ((n.factorial : ℝ)⁻¹) • B ^ n) (NormedSpace.exp B) :=
    NormedSpace.exp_series_hasSum_exp' (𝕂 := ℝ) B
  have hr : HasSum (fun n : ℕ => ((n.factorial : ℝ)⁻¹) • (1 : ℝ) ^ n) (Real.exp 1) := by
    rw [Real.exp_eq_exp_ℝ]
    exact NormedSpace.exp_series_hasSum_exp' (𝕂 := ℝ) 1
  have hs5 := (hasSum_nat_add_iff (f := fun n : ℕ => ((n.factorial : ℝ)⁻¹) • B ^ n) 5
    (g := NormedSpace.exp B - taylor4 B)).2 (by simpa [taylor4] using hs)
  have hr5 := ((hasSum_nat_add_iff (f := fun n : ℕ => ((n.factorial : ℝ)⁻¹) • (1 : ℝ) ^ n) 5
    (g := Real.exp 1 - ∑ i ∈ Finset.range 5, ((i.factorial : ℝ)⁻¹) • (1 : ℝ) ^ i)).2 (by simpa using hr)).mul_right
    ‖B ^ 5‖
  have hp : ∀ i : ℕ, ‖B ^ (i + 5)‖ ≤ ‖B ^ 5‖ := by
    intro i
    induction i with
    | zero => simp
    | succ i ih =>
      rw [show i + 1 + 5 = (i + 5) + 1 by omega, pow_succ]
      exact (norm_mul_le _ _).trans ((mul_le_of_le_one_right (norm_nonneg _) hB).trans ih)
  have hle := tsum_of_norm_bounded hr5 (f := fun n : ℕ => (((n + 5).factorial : ℝ)⁻¹) • B ^ (n + 5)) (by
    intro i
    rw [norm_smul, smul_eq_mul, Real.norm_of_nonneg (by positivity), one_pow, mul_one]
    exact mul_le_mul_of_nonneg_left (hp i) (by positivity))
  rw [hs5.tsum_eq] at hle
  have hb := Real.exp_bound (x := 1) (by simp) (n := 5) (by norm_num)
  have he : ∑ i ∈ Finset.range 5, ((i.factorial : ℝ)⁻¹) • (1 : ℝ) ^ i =
      ∑ m ∈ Finset.range 5, (1 : ℝ) ^ m / (m.factorial : ℝ) :=
    Finset.sum_congr rfl fun i _ => by rw [smul_eq_mul]; ring
  rw [he] at hle
  have hb' := (le_abs_self _).trans hb
  have hc : |(1 : ℝ)| ^ 5 * ((Nat.succ 5 : ℕ) / ((Nat.factorial 5 : ℕ) * (5 : ℕ)) : ℝ) = 1 / 100 := by
    norm_num [Nat.factorial]
  rw [hc] at hb'
  refine hle.trans ((mul_le_mul_of_nonneg_right hb' (norm_nonneg _)).trans (le_of_eq ?_))
  ring

omit [CompleteSpace A] in
theorem norm_taylor4_le (h1 : ‖(1 : A)‖ ≤ 1) (B : A) : ‖taylor4 B‖ ≤ Real.exp ‖B‖ := by
  refine le_trans (norm_sum_le _ _) (le_trans (Finset.sum_le_sum fun i _ => ?_)
    (Real.sum_le_exp_of_nonneg (norm_nonneg B) 5))
  rw [norm_smul, Real.norm_of_nonneg (by positivity), div_eq_inv_mul]
  refine mul_le_mul_of_nonneg_left ?_ (by positivity)
  rcases Nat.eq_zero_or_pos i with rfl | h
  · simpa using h1
  · exact norm_pow_le' B h

theorem norm_exp_le_exp (h1 : ‖(1 : A)‖ ≤ 1) (B : A) : ‖NormedSpace.exp B‖ ≤ Real.exp ‖B‖ := by
  have hr : HasSum (fun n : ℕ => ((n.factorial : ℝ)⁻¹) • ‖B‖ ^ n) (Real.exp ‖B‖) := by
    rw [Real.exp_eq_exp_ℝ]
    exact NormedSpace.exp_series_hasSum_exp' (𝕂 := ℝ) ‖B‖
  have hs : HasSum (fun n : ℕ => ((n.factorial : ℝ)⁻¹) • B ^ n) (NormedSpace.exp B) :=
    NormedSpace.exp_series_hasSum_exp' (𝕂 := ℝ) B
  rw [← hs.tsum_eq]
  refine tsum_of_norm_bounded hr fun i => ?_
  rw [norm_smul, smul_eq_mul, Real.norm_of_nonneg (by positivity)]
  refine mul_le_mul_of_nonneg_left ?_ (by positivity)
  rcases Nat.eq_zero_or_pos i with rfl | h
  · simpa using h1
  · exact norm_pow_le' B h

omit [NormedAlgebra ℝ A] [CompleteSpace A] in
theorem norm_pow_sub_pow (a b : A) (E d : ℝ) (hE : 0 ≤ E) (h1 : ‖(1 : A)‖ ≤ 1) (ha : ‖a‖ ≤ E) (hb : ‖b‖ ≤ E)
    (hd : ‖a - b‖ ≤ d) (N : ℕ) : ‖a ^ N - b ^ N‖ ≤ N * E ^ (N - 1) * d := by
  have hd0 : 0 ≤ d := (norm_nonneg _).trans hd
  have hpow : ∀ k : ℕ, ‖b ^ k‖ ≤ E ^ k := by
    intro k
    induction k with
    | zero => simpa using h1
    | succ k ih => rw [pow_succ, pow_succ]; exact (norm_mul_le _ _).trans (mul_le_mul ih hb (norm_nonneg _) (by positivity))
  induction N with
  | zero => simp
  | succ N ih =>
    have e : a ^ (N + 1) - b ^ (N + 1) = a * (a ^ N - b ^ N) + (a - b) * b ^ N := by
      rw [pow_succ', pow_succ']; noncomm_ring
    rw [e]
    refine (norm_add_le _ _).trans ?_
    have t1 : ‖a * (a ^ N - b ^ N)‖ ≤ E * (N * E ^ (N - 1) * d) :=
      (norm_mul_le _ _).trans (mul_le_mul ha ih (norm_nonneg _) hE)
    have t2 : ‖(a - b) * b ^ N‖ ≤ d * E ^ N :=
      (norm_mul_le _ _).trans (mul_le_mul hd (hpow N) (norm_nonneg _) hd0)
    have e2 : E * (N * E ^ (N - 1) * d) = N * E ^ N * d := by
      cases N with
      | zero => simp
      | succ k => simp only [Nat.add_sub_cancel]; rw [pow_succ]; ring
    rw [e2] at t1
    have : ((N + 1 : ℕ) : ℝ) * E ^ (N + 1 - 1) * d = N * E ^ N * d + d * E ^ N := by
      simp only [Nat.add_sub_cancel]; push_cast; ring
    rw [this]
    exact add_le_add t1 t2

theorem exp_pow_sub_taylor4 (h1 : ‖(1 : A)‖ ≤ 1) (B : A) (hB : ‖B‖ ≤ 1) (N : ℕ) :
    ‖NormedSpace.exp ((N : ℝ) • B) - taylor4 B ^ N‖ ≤ N * Real.exp ((N - 1 : ℕ) * ‖B‖) * (‖B ^ 5‖ / 100) := by
  let _ : NormedAlgebra ℚ A := NormedAlgebra.restrictScalars ℚ ℝ A
  have e : NormedSpace.exp ((N : ℝ) • B) = NormedSpace.exp B ^ N := by
    rw [← NormedSpace.exp_nsmul, Nat.cast_smul_eq_nsmul]
  rw [e, Real.exp_nat_mul]
  exact norm_pow_sub_pow _ _ _ _ (Real.exp_pos _).le h1 (norm_exp_le_exp h1 B) (norm_taylor4_le h1 B)
    (exp_sub_taylor4 B hB) N

end alg

section lin
variable {A X : Type} [NormedRing A] [NormedAlgebra ℝ A] [AddCommGroup X] [Module ℝ X]

theorem rk4_taylor4 (φ : A →ₐ[ℝ] Module.End ℝ X) (F : A) (dt : ℝ) (x : X) :
    rk4 (fun x => .ok (φ F x)) dt x = .ok (φ (taylor4 (dt • F)) x) := by
  unfold rk4
  simp only [bind, Except.bind, pure, Except.pure]
  congr 1
  simp only [taylor4, Finset.sum_range_succ, Finset.sum_range_zero, Nat.factorial, pow_zero, pow_succ, zero_add,
    one_mul, map_add, map_smul, map_mul, map_one, LinearMap.add_apply, LinearMap.smul_apply, Module.End.mul_apply,
    Module.End.one_apply]
  push_cast
  module

theorem rk4Loop_taylor4 (φ : A →ₐ[ℝ] Module.End ℝ X) (F : A) (dt : ℝ) (N : ℕ) (x : X) :
    rk4Loop (fun x => .ok (φ F x)) dt N x = .ok (φ (taylor4 (dt • F) ^ N) x) := by
  induction N generalizing x with
  | zero => simp [rk4Loop]
  | succ N ih =>
    show (rk4 (fun x => .ok (φ F x)) dt x >>= fun x1 => rk4Loop (fun x => .ok (φ F x)) dt N x1) = _
    rw [rk4_taylor4]
    show rk4Loop (fun x => .ok (φ F x)) dt N _ = _
    rw [ih, pow_succ, map_mul, Module.End.mul_apply]

end lin

theorem rk4PLoop_eq {X P K : Type} [Field K] [AddCommGroup X] [Module K X] (f : X → P → Py X) (dt : K) (p : P) (N : ℕ)
    (x : X) : rk4PLoop f dt p N x = rk4Loop (fun x => f x p) dt N x := by
  induction N generalizing x with
  | zero => rfl
  | succ N ih =>
    show (rk4P f dt x p >>= fun x1 => rk4PLoop f dt p N x1) = (rk4 (fun x => f x p) dt x >>= fun x1 => _)
    simp only [ih]
    rfl

section ode
variable {X : Type} [NormedAddCommGroup X] [NormedSpace ℝ X]

theorem ode_exp [CompleteSpace X] (F : X →L[ℝ] X) (y : ℝ → X) (hy : ∀ t, HasDerivAt y (F (y t)) t) (T : ℝ) :
    y T = NormedSpace.exp (T • F) (y 0) := by
  have h := ODE_solution_unique_univ (v := fun _ x => F x) (s := fun _ => Set.univ) (K := ‖F‖₊) (t₀ := 0) (f := y)
    (g := fun t => NormedSpace.exp (t • F) (y 0)) (fun t => F.lipschitz.lipschitzOnWith)
    (fun t => ⟨hy t, trivial⟩)
    (fun t => ⟨by
      have := (hasDerivAt_exp_smul_const' (𝕂 := ℝ) F t)
      exact (this.clm_apply (hasDerivAt_const t (y 0))).congr_deriv (by simp), trivial⟩)
    (by simp)
  exact congrFun h T

/-- The continuous linear maps among the linear maps. -/
def clmEnd (X : Type) [NormedAddCommGroup X] [NormedSpace ℝ X] : (X →L[ℝ] X) →ₐ[ℝ] Module.End ℝ X where
  toFun G := (G : X →ₗ[ℝ] X)
  map_one' := rfl
  map_mul' _ _ := rfl
  map_zero' := rfl
  map_add' _ _ := rfl
  commutes' _ := rfl

theorem rk4Loop_error [CompleteSpace X] (F : X →L[ℝ] X) (dt : ℝ) (h : |dt| * ‖F‖ ≤ 1) (N : ℕ) (y : ℝ → X)
    (hy : ∀ t, HasDerivAt y (F (y t)) t) :
    ∃ x, rk4Loop (fun x => .ok (F x)) dt N (y 0) = .ok x ∧
      ‖y (N * dt) - x‖ ≤ N * Real.exp ((N - 1 : ℕ) * (|dt| * ‖F‖)) * (|dt| ^ 5 * ‖F ^ 5‖ / 100) * ‖y 0‖ := by
  have e := rk4Loop_taylor4 (clmEnd X) F dt N (y 0)
  refine ⟨(taylor4 (dt • F) ^ N) (y 0), e, ?_⟩
  have hn : ‖dt • F‖ = |dt| * ‖F‖ := by rw [norm_smul, Real.norm_eq_abs]
  have h5 : ‖(dt • F) ^ 5‖ = |dt| ^ 5 * ‖F ^ 5‖ := by rw [smul_pow, norm_smul, Real.norm_eq_abs, abs_pow]
  have hb := exp_pow_sub_taylor4 (A := X →L[ℝ] X) ContinuousLinearMap.norm_id_le (dt • F) (by rw [hn]; exact h) N
  rw [hn, h5] at hb
  rw [ode_exp F y hy, ← smul_smul]
  exact (ContinuousLinearMap.le_opNorm (NormedSpace.exp ((N : ℝ) • dt • F) - taylor4 (dt • F) ^ N) (y 0)).trans
    (mul_le_mul_of_nonneg_right hb (norm_nonneg _))

theorem rk4Loop_order4 [CompleteSpace X] (F : X →L[ℝ] X) (T : ℝ) (N : ℕ) (hN : 0 < N) (h : |T| * ‖F‖ ≤ N) (y : ℝ → X)
    (hy : ∀ t, HasDerivAt y (F (y t)) t) :
    ∃ x, rk4Loop (fun x => .ok (F x)) (T / N) N (y 0) = .ok x ∧
      ‖y T - x‖ ≤ |T| ^ 5 * ‖F ^ 5‖ * Real.exp (|T| * ‖F‖) / 100 * ‖y 0‖ / (N : ℝ) ^ 4 := by
  have hN' : (0 : ℝ) < N := by exact_mod_cast hN
  have ha : |T / N| = |T| / N := by rw [abs_div, abs_of_pos hN']
  obtain ⟨x, h1, h2⟩ := rk4Loop_error F (T / N) (by rw [ha, div_mul_eq_mul_div, div_le_one hN']; exact h) N y hy
  refine ⟨x, h1, ?_⟩
  rw [mul_div_cancel₀ _ hN'.ne', ha] at h2
  refine h2.trans ?_
  have hle : Real.exp ((N - 1 : ℕ) * (|T| / N * ‖F‖)) ≤ Real.exp (|T| * ‖F‖) := by
    refine Real.exp_le_exp.2 ?_
    have h3 : ((N - 1 : ℕ) : ℝ) ≤ N := by exact_mod_cast Nat.sub_le N 1
    calc ((N - 1 : ℕ) : ℝ) * (|T| / N * ‖F‖) ≤ N * (|T| / N * ‖F‖) := mul_le_mul_of_nonneg_right h3 (by positivity)
      _ = |T| * ‖F‖ := by field_simp
  calc N * Real.exp ((N - 1 : ℕ) * (|T| / N * ‖F‖)) * ((|T| / N) ^ 5 * ‖F ^ 5‖ / 100) * ‖y 0‖
      ≤ N * Real.exp (|T| * ‖F‖) * ((|T| / N) ^ 5 * ‖F ^ 5‖ / 100) * ‖y 0‖ := by gcongr
    _ = _ := by field_simp

end ode

section tests

/-- Multiplication by a number as a continuous linear map. -/
noncomputable def scaleL (a : ℝ) : ℝ →L[ℝ] ℝ := a • ContinuousLinearMap.id ℝ ℝ

theorem scaleL_apply (a x : ℝ) : scaleL a x = a * x := rfl

theorem scaleL_norm (a : ℝ) : ‖scaleL a‖ = |a| := by
  rw [scaleL, norm_smul, ContinuousLinearMap.norm_id, mul_one, Real.norm_eq_abs]

theorem scaleL_pow5 (a : ℝ) : ‖scaleL a ^ 5‖ ≤ |a| ^ 5 := by
  rw [← scaleL_norm]; exact norm_pow_le _ _

theorem scale_ode (a x0 t : ℝ) : HasDerivAt (fun t => x0 * Real.exp (a * t)) (scaleL a (x0 * Real.exp (a * t))) t := by
  rw [scaleL_apply]
  have := (((hasDerivAt_id t).const_mul a).exp).const_mul x0
  exact this.congr_deriv (by simp; ring)

/-- One step and several steps on `dx/dt = a x`. -/
theorem rk4_scale (a x0 dt : ℝ) (h : |a * dt| ≤ 1) :
    ∃ x, rk4 (fun x => .ok (a * x)) dt x0 = .ok x ∧ |x0 * Real.exp (a * dt) - x| ≤ |a * dt| ^ 5 / 100 * |x0| := by
  have hh : |dt| * ‖scaleL a‖ ≤ 1 := by rw [scaleL_norm, ← abs_mul, mul_comm]; exact h
  obtain ⟨x, h1, h2⟩ := rk4Loop_error (scaleL a) dt hh 1 _ (fun t => scale_ode a x0 t)
  simp only [mul_zero, Real.exp_zero, mul_one, Nat.cast_one, one_mul, Nat.sub_self, Nat.cast_zero, zero_mul,
    Real.norm_eq_abs] at h1 h2
  refine ⟨x, ?_, h2.trans ?_⟩
  · have e : rk4Loop (fun x => .ok (scaleL a x)) dt 1 x0 = rk4 (fun x => .ok (scaleL a x)) dt x0 := by
      show (rk4 (fun x => .ok (scaleL a x)) dt x0 >>= fun x1 => .ok x1) = _
      cases rk4 (fun x => .ok (scaleL a x)) dt x0 <;> rfl
    rw [e] at h1
    exact h1
  · have := scaleL_pow5 a
    rw [abs_mul, mul_pow]
    have h3 : |dt| ^ 5 * ‖scaleL a ^ 5‖ ≤ |a| ^ 5 * |dt| ^ 5 := by
      rw [mul_comm]; exact mul_le_mul_of_nonneg_right this (by positivity)
    gcongr

theorem rk4Loop_scale (a x0 T : ℝ) (N : ℕ) (hN : 0 < N) (h : |a * T| ≤ N) :
    ∃ x, rk4Loop (fun x => .ok (a * x)) (T / N) N x0 = .ok x ∧
      |x0 * Real.exp (a * T) - x| ≤ |a * T| ^ 5 * Real.exp |a * T| / 100 * |x0| / (N : ℝ) ^ 4 := by
  obtain ⟨x, h1, h2⟩ := rk4Loop_order4 (scaleL a) T N hN (by rw [scaleL_norm, ← abs_mul, mul_comm]; exact h) _
    (fun t => scale_ode a x0 t)
  simp only [mul_zero, Real.exp_zero, mul_one, Real.norm_eq_abs] at h1 h2
  refine ⟨x, h1, h2.trans ?_⟩
  have := scaleL_pow5 a
  have h3 : |T| ^ 5 * ‖scaleL a ^ 5‖ ≤ |a * T| ^ 5 := by
    rw [abs_mul, mul_pow, mul_comm]; exact mul_le_mul_of_nonneg_right this (by positivity)
  rw [scaleL_norm, mul_comm |T| |a|, ← abs_mul]
  gcongr

/-- A matrix as a continuous linear map. -/
noncomputable def matL {n : ℕ} (M : Matrix (Fin n) (Fin n) ℝ) : (Fin n → ℝ) →L[ℝ] (Fin n → ℝ) :=
  (Matrix.toLin' M).toContinuousLinearMap

theorem matL_apply {n : ℕ} (M : Matrix (Fin n) (Fin n) ℝ) (v : Fin n → ℝ) : matL M v = M.mulVec v := rfl

theorem matL_mul {n : ℕ} (M L : Matrix (Fin n) (Fin n) ℝ) : matL (M * L) = matL M * matL L := by
  ext1 v
  show (M * L).mulVec v = M.mulVec (L.mulVec v)
  rw [Matrix.mulVec_mulVec]

theorem matL_pow {n : ℕ} (M : Matrix (Fin n) (Fin n) ℝ) (k : ℕ) : matL (M ^ k) = matL M ^ k := by
  induction k with
  | zero => ext1 v; show (M ^ 0).mulVec v = v; simp
  | succ k ih => rw [pow_succ, pow_succ, matL_mul, ih]

theorem matL_norm_le {n : ℕ} (M : Matrix (Fin n) (Fin n) ℝ) (a : ℝ) (ha : 0 ≤ a) (h : ∀ i, ∑ j, |M i j| ≤ a) :
    ‖matL M‖ ≤ a := by
  refine ContinuousLinearMap.opNorm_le_bound _ ha fun v => ?_
  refine (pi_norm_le_iff_of_nonneg (by positivity)).2 fun i => ?_
  rw [matL_apply, Real.norm_eq_abs]
  show |∑ j, M i j * v j| ≤ _
  refine (Finset.abs_sum_le_sum_abs _ _).trans ?_
  refine (Finset.sum_le_sum (g := fun j => |M i j| * ‖v‖) fun j _ => ?_).trans ?_
  · rw [abs_mul]
    exact mul_le_mul_of_nonneg_left (by simpa using norm_le_pi_norm v j) (abs_nonneg _)
  · rw [← Finset.sum_mul]
    exact mul_le_mul_of_nonneg_right (h i) (norm_nonneg _)

open scoped Matrix.Norms.Operator in
theorem mat_ode {n : ℕ} (M : Matrix (Fin n) (Fin n) ℝ) (x0 : Fin n → ℝ) (t : ℝ) :
    HasDerivAt (fun t : ℝ => (NormedSpace.exp (t • M)).mulVec x0) (matL M ((NormedSpace.exp (t • M)).mulVec x0)) t := by
  have h := hasDerivAt_exp_smul_const' (𝕂 := ℝ) M t
  let L : Matrix (Fin n) (Fin n) ℝ →ₗ[ℝ] (Fin n → ℝ) :=
    { toFun := fun N => N.mulVec x0, map_add' := fun a b => Matrix.add_mulVec a b x0,
      map_smul' := fun a b => Matrix.smul_mulVec a b x0 }
  have h2 := (LinearMap.toContinuousLinearMap L).hasFDerivAt.comp_hasDerivAt t h
  refine h2.congr_deriv ?_
  show (M * NormedSpace.exp (t • M)).mulVec x0 = M.mulVec _
  rw [Matrix.mulVec_mulVec]

end tests

end Verif
