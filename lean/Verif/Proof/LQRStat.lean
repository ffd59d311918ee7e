import Verif.Spec.LQRStat
import Verif.Proof.LQR
import Mathlib.Tactic.NoncommRing

/-! The Riccati step as a minimum: order properties of the iterations of the stationary regulator. -/

namespace Verif

open Matrix

variable {n m : ℕ} {K : Type} [Field K]

/-- The quadratic form of a matrix. -/
def qf {ι : Type} [Fintype ι] (S : Matrix ι ι K) (x : ι → K) : K := x ⬝ᵥ S *ᵥ x

/-- The gain of one Riccati step, as a total function. -/
def LQR.ricK (R : LQR n m K) (S : Matrix (Fin n) (Fin n) K) : Matrix (Fin m) (Fin n) K :=
  minv (R.U + R.Lᵀ * S * R.L) * (R.Lᵀ * S * R.F)

/-- One Riccati step, as a total function. -/
def LQR.ric (R : LQR n m K) (S : Matrix (Fin n) (Fin n) K) : Matrix (Fin n) (Fin n) K := R.update S (R.ricK S)

theorem qf_conj {ι κ : Type} [Fintype ι] [Fintype κ] (S : Matrix ι ι K) (A : Matrix ι κ K) (x : κ → K) :
    qf (Aᵀ * S * A) x = qf S (A *ᵥ x) := by
  unfold qf
  rw [← mulVec_mulVec, ← mulVec_mulVec, dot_symm, transpose_transpose, dotProduct_comm]

theorem qf_add {ι : Type} [Fintype ι] (A B : Matrix ι ι K) (x : ι → K) : qf (A + B) x = qf A x + qf B x := by
  unfold qf; rw [add_mulVec, dotProduct_add]

theorem qf_sub {ι : Type} [Fintype ι] (A B : Matrix ι ι K) (x : ι → K) : qf (A - B) x = qf A x - qf B x := by
  unfold qf; rw [sub_mulVec, dotProduct_sub]

theorem qf_smul {ι : Type} [Fintype ι] (r : K) (A : Matrix ι ι K) (x : ι → K) : qf (r • A) x = r * qf A x := by
  unfold qf; rw [smul_mulVec, dotProduct_smul, smul_eq_mul]

theorem qf_vec_add {ι : Type} [Fintype ι] {S : Matrix ι ι K} (hS : Sᵀ = S) (x y : ι → K) :
    qf S (x + y) = qf S x + 2 * (x ⬝ᵥ S *ᵥ y) + qf S y := by
  unfold qf
  have h : y ⬝ᵥ S *ᵥ x = x ⬝ᵥ S *ᵥ y := by rw [dot_symm, hS, dotProduct_comm]
  rw [mulVec_add, dotProduct_add, add_dotProduct, add_dotProduct, h]; ring

theorem qf_vec_smul {ι : Type} [Fintype ι] (S : Matrix ι ι K) (r : K) (x : ι → K) : qf S (r • x) = r ^ 2 * qf S x := by
  unfold qf; rw [mulVec_smul, dotProduct_smul, smul_dotProduct]; simp only [smul_eq_mul]; ring

theorem qf_vec_neg {ι : Type} [Fintype ι] (S : Matrix ι ι K) (x : ι → K) : qf S (-x) = qf S x := by
  unfold qf; rw [mulVec_neg, dotProduct_neg, neg_dotProduct, neg_neg]

theorem qf_zero_vec {ι : Type} [Fintype ι] (S : Matrix ι ι K) : qf S 0 = 0 := by simp [qf]

/-- Completion of the square for one step. -/
theorem ric_square {R : LQR n m K} (hU : R.Uᵀ = R.U) {S : Matrix (Fin n) (Fin n) K} (hS : Sᵀ = S)
    {Kx : Matrix (Fin m) (Fin n) K} (hK : (R.U + R.Lᵀ * S * R.L) * Kx = R.Lᵀ * S * R.F) (x : Fin n → K) (u : Fin m → K) :
    qf S (R.F *ᵥ x + R.L *ᵥ u) + qf R.X x + qf R.U u =
      qf (R.update S Kx) x + qf (R.U + R.Lᵀ * S * R.L) (u + Kx *ᵥ x) := by
  have hh : (R.U + R.Lᵀ * S * R.L)ᵀ = R.U + R.Lᵀ * S * R.L := by
    simp only [transpose_add, transpose_mul, transpose_transpose, hU, hS, Matrix.mul_assoc]
  have e1 : qf (R.update S Kx) x = qf S (R.F *ᵥ x) - (R.F *ᵥ x) ⬝ᵥ S *ᵥ (R.L *ᵥ (Kx *ᵥ x)) + qf R.X x := by
    unfold LQR.update
    rw [Matrix.mul_sub, qf_add, qf_sub, qf_conj]
    congr 2
    unfold qf
    simp only [← mulVec_mulVec]
    rw [dot_symm, transpose_transpose, dotProduct_comm]
  have e2 : ∀ w : Fin m → K, (R.F *ᵥ x) ⬝ᵥ S *ᵥ (R.L *ᵥ w) = w ⬝ᵥ (R.U + R.Lᵀ * S * R.L) *ᵥ (Kx *ᵥ x) := by
    intro w
    rw [mulVec_mulVec x (R.U + R.Lᵀ * S * R.L), hK, dot_symm, hS, dotProduct_comm, dot_symm]
    simp only [← mulVec_mulVec]
  rw [qf_vec_add hS, qf_vec_add hh, e1, e2, e2, qf_add, qf_conj]
  unfold qf
  ring

section Ordered
variable [LinearOrder K] [IsStrictOrderedRing K]

theorem hess_pd {R : LQR n m K} (hU : IsPD R.U) {S : Matrix (Fin n) (Fin n) K} (hS : IsPSD S) :
    IsPD (R.U + R.Lᵀ * S * R.L) := by
  intro x hx
  have h : qf (R.U + R.Lᵀ * S * R.L) x = qf R.U x + qf S (R.L *ᵥ x) := by rw [qf_add, qf_conj]
  have h1 := hU x hx
  have h2 := hS.2 (R.L *ᵥ x)
  unfold qf at h
  rw [h]
  linarith

omit [LinearOrder K] [IsStrictOrderedRing K] in
theorem hess_symm {R : LQR n m K} (hU : R.Uᵀ = R.U) {S : Matrix (Fin n) (Fin n) K} (hS : Sᵀ = S) :
    (R.U + R.Lᵀ * S * R.L)ᵀ = R.U + R.Lᵀ * S * R.L := by
  simp only [transpose_add, transpose_mul, transpose_transpose, hU, hS, Matrix.mul_assoc]

theorem ricK_eq {R : LQR n m K} (hU : IsPD R.U) {S : Matrix (Fin n) (Fin n) K} (hS : IsPSD S) :
    (R.U + R.Lᵀ * S * R.L) * R.ricK S = R.Lᵀ * S * R.F := by
  unfold LQR.ricK
  rw [← Matrix.mul_assoc, mul_minv (hess_pd hU hS).det_ne_zero, Matrix.one_mul]

theorem gain_psd {R : LQR n m K} (hs : R.Uᵀ = R.U) (hU : IsPD R.U) {S : Matrix (Fin n) (Fin n) K} (hS : IsPSD S) :
    R.gain S = .ok (R.ricK S) := (solvePos_ok (hess_symm hs hS.1)).2 ⟨hess_pd hU hS, ricK_eq hU hS⟩

omit [LinearOrder K] [IsStrictOrderedRing K] in
theorem update_symm {R : LQR n m K} (hX : R.Xᵀ = R.X) (hU : R.Uᵀ = R.U) {S : Matrix (Fin n) (Fin n) K} (hS : Sᵀ = S)
    {Kx : Matrix (Fin m) (Fin n) K} (hK : (R.U + R.Lᵀ * S * R.L) * Kx = R.Lᵀ * S * R.F) :
    (R.update S Kx)ᵀ = R.update S Kx := by
  have h := congrArg transpose hK
  rw [transpose_mul, hess_symm hU hS, transpose_mul, transpose_mul, transpose_transpose, hS] at h
  have e : R.update S Kx = R.Fᵀ * S * R.F - Kxᵀ * (R.U + R.Lᵀ * S * R.L) * Kx + R.X := by
    rw [h]; unfold LQR.update; simp only [Matrix.mul_sub, Matrix.mul_assoc]
  rw [e]
  simp only [transpose_add, transpose_sub, transpose_mul, transpose_transpose, hU, hS, hX, Matrix.mul_assoc]

theorem ric_le {R : LQR n m K} (hs : R.Uᵀ = R.U) (hU : IsPD R.U) {S : Matrix (Fin n) (Fin n) K} (hS : IsPSD S)
    (x : Fin n → K) (u : Fin m → K) : qf (R.ric S) x ≤ qf S (R.F *ᵥ x + R.L *ᵥ u) + qf R.X x + qf R.U u := by
  rw [ric_square hs hS.1 (ricK_eq hU hS)]
  have := (hess_pd hU hS).nonneg (u + R.ricK S *ᵥ x)
  unfold LQR.ric
  unfold qf at this ⊢
  linarith

theorem ric_attained {R : LQR n m K} (hs : R.Uᵀ = R.U) (hU : IsPD R.U) {S : Matrix (Fin n) (Fin n) K} (hS : IsPSD S)
    (x : Fin n → K) : qf (R.ric S) x =
      qf S (R.F *ᵥ x + R.L *ᵥ (-(R.ricK S *ᵥ x))) + qf R.X x + qf R.U (-(R.ricK S *ᵥ x)) := by
  rw [ric_square hs hS.1 (ricK_eq hU hS), neg_add_cancel, qf_zero_vec, add_zero]
  rfl

theorem ric_psd {R : LQR n m K} (hR : R.Convex) {S : Matrix (Fin n) (Fin n) K} (hS : IsPSD S) : IsPSD (R.ric S) := by
  refine ⟨update_symm hR.2.1.1 hR.1.1 hS.1 (ricK_eq hR.1.2 hS), fun x => ?_⟩
  have h := ric_attained hR.1.1 hR.1.2 hS x
  unfold qf at h
  rw [h]
  exact add_nonneg (add_nonneg (hS.2 _) (hR.2.1.2 _)) (hR.1.2.nonneg _)

theorem ric_mono {R : LQR n m K} (hR : R.Convex) {S P : Matrix (Fin n) (Fin n) K} (hS : IsPSD S) (hP : IsPSD P)
    (h : ∀ x, qf S x ≤ qf P x) (x : Fin n → K) : qf (R.ric S) x ≤ qf (R.ric P) x := by
  rw [ric_attained hR.1.1 hR.1.2 hP]
  refine (ric_le hR.1.1 hR.1.2 hS x (-(R.ricK P *ᵥ x))).trans ?_
  have := h (R.F *ᵥ x + R.L *ᵥ (-(R.ricK P *ᵥ x)))
  linarith

theorem ric_concave {R : LQR n m K} (hR : R.Convex) {A B C : Matrix (Fin n) (Fin n) K} (hA : IsPSD A) (hB : IsPSD B)
    (hC : IsPSD C) {t : K} (h0 : 0 ≤ t) (h1 : t ≤ 1) (h : ∀ x, (1 - t) * qf A x + t * qf B x ≤ qf C x) (x : Fin n → K) :
    (1 - t) * qf (R.ric A) x + t * qf (R.ric B) x ≤ qf (R.ric C) x := by
  rw [ric_attained hR.1.1 hR.1.2 hC]
  have a := mul_le_mul_of_nonneg_left (ric_le hR.1.1 hR.1.2 hA x (-(R.ricK C *ᵥ x))) (sub_nonneg.2 h1)
  have b := mul_le_mul_of_nonneg_left (ric_le hR.1.1 hR.1.2 hB x (-(R.ricK C *ᵥ x))) h0
  have c := h (R.F *ᵥ x + R.L *ᵥ (-(R.ricK C *ᵥ x)))
  nlinarith

/-- The matrix of the iterations. -/
def LQR.iterS (R : LQR n m K) (k : ℕ) : Matrix (Fin n) (Fin n) K := R.ric^[k] R.X

theorem iterPSD {R : LQR n m K} (hR : R.Convex) {S : Matrix (Fin n) (Fin n) K} (hS : IsPSD S) (k : ℕ) :
    IsPSD (R.ric^[k] S) := by
  induction k with
  | zero => exact hS
  | succ k ih => rw [Function.iterate_succ_apply']; exact ric_psd hR ih

theorem iterS_psd {R : LQR n m K} (hR : R.Convex) (k : ℕ) : IsPSD (R.iterS k) := iterPSD hR hR.2.1 k

theorem iterS_succ (R : LQR n m K) (k : ℕ) : R.iterS (k + 1) = R.ric (R.iterS k) := Function.iterate_succ_apply' _ _ _

theorem iterLoop_ric {R : LQR n m K} (hR : R.Convex) (k : ℕ) : ∀ (o : Option (Matrix (Fin m) (Fin n) K))
    {S : Matrix (Fin n) (Fin n) K}, IsPSD S → R.iterLoop (k + 1) o S =
      .ok (some (R.ricK (R.ric^[k] S)), R.ric^[k + 1] S) := by
  induction k with
  | zero =>
    intro o S hS
    simp only [LQR.iterLoop]
    rw [gain_psd hR.1.1 hR.1.2 hS]
    rfl
  | succ k ih =>
    intro o S hS
    rw [LQR.iterLoop, gain_psd hR.1.1 hR.1.2 hS]
    show R.iterLoop (k + 1) (some (R.ricK S)) (R.ric S) = _
    rw [ih _ (ric_psd hR hS)]
    rfl

theorem lqrIter_ric {R : LQR n m K} (hR : R.Convex) (k : ℕ) :
    R.lqrIter (k + 1) = .ok (some (R.ricK (R.iterS k)), R.iterS (k + 1)) := iterLoop_ric hR k none hR.2.1

theorem lqrIter_snd {R : LQR n m K} (hR : R.Convex) {k : ℕ} {o : Option (Matrix (Fin m) (Fin n) K)}
    {S : Matrix (Fin n) (Fin n) K} (h : R.lqrIter k = .ok (o, S)) : S = R.iterS k := by
  cases k with
  | zero => cases h; rfl
  | succ k => rw [lqrIter_ric hR] at h; cases h; rfl

theorem ric_zero {R : LQR n m K} : R.ric 0 = R.X := by
  unfold LQR.ric LQR.ricK LQR.update
  simp

theorem iterS_mono {R : LQR n m K} (hR : R.Convex) (k : ℕ) (x : Fin n → K) : qf (R.iterS k) x ≤ qf (R.iterS (k + 1)) x := by
  induction k generalizing x with
  | zero =>
    rw [iterS_succ, ric_attained hR.1.1 hR.1.2 (iterS_psd hR 0)]
    have h1 := (iterS_psd hR 0).2 (R.F *ᵥ x + R.L *ᵥ (-(R.ricK (R.iterS 0) *ᵥ x)))
    have h2 := hR.1.2.nonneg (-(R.ricK (R.iterS 0) *ᵥ x))
    have : qf (R.iterS 0) x = qf R.X x := rfl
    unfold qf at *
    linarith
  | succ k ih => rw [iterS_succ, iterS_succ R (k + 1)]; exact ric_mono hR (iterS_psd hR k) (iterS_psd hR (k + 1)) ih x

omit [LinearOrder K] [IsStrictOrderedRing K] in
theorem stationary_update {R : LQR n m K} {S : Matrix (Fin n) (Fin n) K} {Kx : Matrix (Fin m) (Fin n) K}
    (h : R.Stationary S Kx) : R.update S Kx = S := by
  conv_rhs => rw [h.2]
  unfold LQR.update
  rw [Matrix.mul_sub, ← Matrix.mul_assoc]
  abel

theorem stationary_ric {R : LQR n m K} (hR : R.Convex) {S : Matrix (Fin n) (Fin n) K} {Kx : Matrix (Fin m) (Fin n) K}
    (hS : IsPSD S) (h : R.Stationary S Kx) : R.ric S = S ∧ R.ricK S = Kx := by
  have hk : R.ricK S = Kx := mul_cancel_of_det (hess_pd hR.1.2 hS).det_ne_zero ((ricK_eq hR.1.2 hS).trans h.1.symm)
  exact ⟨by unfold LQR.ric; rw [hk]; exact stationary_update h, hk⟩

theorem ric_stationary {R : LQR n m K} (hR : R.Convex) {S : Matrix (Fin n) (Fin n) K} (hS : IsPSD S)
    (h : R.ric S = S) : R.Stationary S (R.ricK S) := by
  refine ⟨ricK_eq hR.1.2 hS, ?_⟩
  conv_lhs => rw [← h]
  unfold LQR.ric LQR.update
  rw [Matrix.mul_sub, ← Matrix.mul_assoc]
  abel

theorem iterS_le {R : LQR n m K} (hR : R.Convex) {P : Matrix (Fin n) (Fin n) K} (hP : IsPSD P) (h : R.ric P = P) (k : ℕ)
    (x : Fin n → K) : qf (R.iterS k) x ≤ qf P x := by
  induction k generalizing x with
  | zero =>
    rw [← h, ric_attained hR.1.1 hR.1.2 hP]
    have h1 := hP.2 (R.F *ᵥ x + R.L *ᵥ (-(R.ricK P *ᵥ x)))
    have h2 := hR.1.2.nonneg (-(R.ricK P *ᵥ x))
    have : qf (R.iterS 0) x = qf R.X x := rfl
    unfold qf at *
    linarith
  | succ k ih => rw [iterS_succ, ← h]; exact ric_mono hR (iterS_psd hR k) hP ih x

omit [IsStrictOrderedRing K] in
theorem psd_sub {A B : Matrix (Fin n) (Fin n) K} (hA : Aᵀ = A) (hB : Bᵀ = B) (h : ∀ x, qf B x ≤ qf A x) [IsStrictOrderedRing K] :
    IsPSD (A - B) := by
  refine ⟨by rw [transpose_sub, hA, hB], fun x => ?_⟩
  have := qf_sub A B x
  unfold qf at this
  rw [this]
  exact sub_nonneg.2 (h x)

/-- The iterations are bounded by the cost of any control sequence. -/
theorem iterS_cost {R : LQR n m K} (hR : R.Convex) (k : ℕ) (x : Fin n → K) (us : ℕ → Fin m → K) :
    1 / 2 * qf (R.iterS k) x ≤ ∑ j ∈ Finset.range (k + 1), R.stepCost x us j := by
  induction k generalizing x us with
  | zero =>
    have h2 := hR.1.2.nonneg (us 0)
    rw [Finset.sum_range_one]
    show 1 / 2 * qf R.X x ≤ 1 / 2 * (x ⬝ᵥ R.X *ᵥ x) + 1 / 2 * (us 0 ⬝ᵥ R.U *ᵥ us 0)
    unfold qf
    linarith
  | succ k ih =>
    rw [Finset.sum_range_succ']
    have hst : ∀ j, R.state x us (j + 1) = R.state (R.F *ᵥ x + R.L *ᵥ us 0) (fun i => us (i + 1)) j := by
      intro j
      induction j with
      | zero => rfl
      | succ j ihj => rw [LQR.state, ihj]; rfl
    have hc : ∀ j, R.stepCost x us (j + 1) = R.stepCost (R.F *ᵥ x + R.L *ᵥ us 0) (fun i => us (i + 1)) j := by
      intro j; unfold LQR.stepCost; rw [hst]
    simp only [hc]
    have h1 := ih (R.F *ᵥ x + R.L *ᵥ us 0) (fun i => us (i + 1))
    have h2 := ric_le hR.1.1 hR.1.2 (iterS_psd hR k) x (us 0)
    rw [iterS_succ]
    have h3 : R.stepCost x us 0 = 1 / 2 * qf R.X x + 1 / 2 * qf R.U (us 0) := rfl
    rw [h3]
    linarith

omit [LinearOrder K] [IsStrictOrderedRing K] in
theorem feedback_state (R : LQR n m K) (Kx : Matrix (Fin m) (Fin n) K) (x0 : Fin n → K) (k : ℕ) :
    R.state x0 (R.feedback Kx x0) k = ((R.F - R.L * Kx) ^ k) *ᵥ x0 := by
  induction k with
  | zero => simp [LQR.state]
  | succ k ih =>
    rw [LQR.state, ih, LQR.feedback, pow_succ', ← mulVec_mulVec]
    rw [sub_mulVec, ← mulVec_mulVec, mulVec_neg, ← sub_eq_add_neg]

/-- Along any trajectory a symmetric solution of the Riccati equation is at most cost plus final value. -/
theorem stationary_traj {R : LQR n m K} (hR : R.Convex) {P : Matrix (Fin n) (Fin n) K} {Kx : Matrix (Fin m) (Fin n) K}
    (hP : IsPSD P) (h : R.Stationary P Kx) (x0 : Fin n → K) (us : ℕ → Fin m → K) (k : ℕ) :
    1 / 2 * qf P x0 ≤ ∑ j ∈ Finset.range k, R.stepCost x0 us j + 1 / 2 * qf P (R.state x0 us k) := by
  induction k with
  | zero => simp [LQR.state]
  | succ k ih =>
    rw [Finset.sum_range_succ]
    have h1 := ric_le hR.1.1 hR.1.2 hP (R.state x0 us k) (us k)
    rw [(stationary_ric hR hP h).1] at h1
    have h3 : R.stepCost x0 us k = 1 / 2 * qf R.X (R.state x0 us k) + 1 / 2 * qf R.U (us k) := rfl
    have h4 : R.state x0 us (k + 1) = R.F *ᵥ R.state x0 us k + R.L *ᵥ us k := rfl
    rw [h3, h4]
    linarith

omit [IsStrictOrderedRing K] in
/-- Along the feedback trajectory a symmetric solution equals cost plus final value. -/
theorem stationary_feedback [IsStrictOrderedRing K] {R : LQR n m K} (hU : R.Uᵀ = R.U) {P : Matrix (Fin n) (Fin n) K}
    {Kx : Matrix (Fin m) (Fin n) K} (hP : Pᵀ = P) (h : R.Stationary P Kx) (x0 : Fin n → K) (k : ℕ) :
    1 / 2 * qf P x0 = ∑ j ∈ Finset.range k, R.stepCost x0 (R.feedback Kx x0) j +
      1 / 2 * qf P (R.state x0 (R.feedback Kx x0) k) := by
  induction k with
  | zero => simp [LQR.state]
  | succ k ih =>
    rw [Finset.sum_range_succ]
    have h1 := ric_square hU hP h.1 (R.state x0 (R.feedback Kx x0) k) (R.feedback Kx x0 k)
    have h2 : R.feedback Kx x0 k + Kx *ᵥ R.state x0 (R.feedback Kx x0) k = 0 := by
      rw [feedback_state]; unfold LQR.feedback; rw [neg_add_cancel]
    rw [h2, qf_zero_vec, add_zero, stationary_update h] at h1
    have h3 : R.stepCost x0 (R.feedback Kx x0) k =
      1 / 2 * qf R.X (R.state x0 (R.feedback Kx x0) k) + 1 / 2 * qf R.U (R.feedback Kx x0 k) := rfl
    have h4 : R.state x0 (R.feedback Kx x0) (k + 1) =
      R.F *ᵥ R.state x0 (R.feedback Kx x0) k + R.L *ᵥ R.feedback Kx x0 k := rfl
    rw [h3, h4, ih]
    linear_combination (-1 / 2) * h1

/-- Convergence rate of the iterations: if `N + 1` steps recover the fraction `a`, then `j` times as many recover
`1 - (1 - a) ^ j`. -/
theorem iterS_rate {R : LQR n m K} (hR : R.Convex) {P : Matrix (Fin n) (Fin n) K} (hP : IsPSD P) (hf : R.ric P = P)
    {a : K} (ha : 0 ≤ a) (ha1 : a ≤ 1) {N : ℕ} (h : ∀ x, a * qf P x ≤ qf (R.iterS N) x) (j : ℕ) (x : Fin n → K) :
    (1 - (1 - a) ^ j) * qf P x ≤ qf (R.ric^[(N + 1) * j] 0) x := by
  have hz : IsPSD (0 : Matrix (Fin n) (Fin n) K) := ⟨by simp, fun x => by simp⟩
  have hfix : ∀ i, R.ric^[i] P = P := fun i => Function.iterate_fixed hf i
  have hconc : ∀ (i : ℕ) {A C : Matrix (Fin n) (Fin n) K} {t : K}, IsPSD A → IsPSD C → 0 ≤ t → t ≤ 1 →
      (∀ x, (1 - t) * qf A x + t * qf P x ≤ qf C x) → ∀ x, (1 - t) * qf (R.ric^[i] A) x + t * qf P x ≤ qf (R.ric^[i] C) x := by
    intro i
    induction i with
    | zero => intro A C t _ _ _ _ h; exact h
    | succ i ih =>
      intro A C t hA hC h0 h1 h
      rw [Function.iterate_succ_apply, Function.iterate_succ_apply]
      refine ih (ric_psd hR hA) (ric_psd hR hC) h0 h1 fun x => ?_
      have := ric_concave hR hA hP hC h0 h1 h x
      rwa [hf] at this
  have hN : R.ric^[N + 1] 0 = R.iterS N := by rw [Function.iterate_succ_apply, ric_zero]; rfl
  induction j generalizing x with
  | zero => simp [qf]
  | succ j ih =>
    have ht1 : (1 - a) ^ j ≤ 1 := pow_le_one₀ (sub_nonneg.2 ha1) (by linarith)
    have ht0 : 0 ≤ (1 - a) ^ j := pow_nonneg (sub_nonneg.2 ha1) _
    have := hconc (N + 1) (A := 0) (C := R.ric^[(N + 1) * j] 0) (t := 1 - (1 - a) ^ j) hz (iterPSD hR hz _)
      (by linarith) (by linarith) (fun x => by
        have := ih x
        have h0 : qf (0 : Matrix (Fin n) (Fin n) K) x = 0 := by simp [qf]
        rw [h0]; linarith) x
    rw [hN, ← Function.iterate_add_apply] at this
    have e : N + 1 + (N + 1) * j = (N + 1) * (j + 1) := by ring
    rw [e] at this
    refine le_trans ?_ this
    have h1 := mul_le_mul_of_nonneg_left (h x) ht0
    rw [pow_succ]
    nlinarith

end Ordered

end Verif
