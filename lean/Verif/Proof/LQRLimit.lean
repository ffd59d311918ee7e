import Verif.Proof.LQRStat
import Verif.Model.Dare
import Mathlib.Topology.Order.MonotoneConvergence
import Mathlib.Analysis.SpecificLimits.Basic
import Mathlib.Analysis.Normed.Module.FiniteDimension

/-! Limits of the iterations of the stationary regulator. -/

namespace Verif

open Matrix Filter Topology

variable {n m : ℕ}

theorem qf_continuous {ι : Type} [Fintype ι] (x : ι → ℝ) : Continuous fun S : Matrix ι ι ℝ => qf S x := by
  unfold qf dotProduct mulVec dotProduct
  fun_prop

theorem qf_continuous_vec {ι : Type} [Fintype ι] (S : Matrix ι ι ℝ) : Continuous fun x : ι → ℝ => qf S x := by
  unfold qf dotProduct mulVec dotProduct
  fun_prop

/-- Entries from the quadratic form. -/
theorem entry_qf {S : Matrix (Fin n) (Fin n) ℝ} (hS : Sᵀ = S) (i j : Fin n) :
    S i j = (qf S (Pi.single i 1 + Pi.single j 1) - qf S (Pi.single i 1) - qf S (Pi.single j 1)) / 2 := by
  rw [qf_vec_add hS]
  have : (Pi.single i 1 : Fin n → ℝ) ⬝ᵥ S *ᵥ (Pi.single j 1) = S i j := by simp
  rw [this]; ring

theorem tendsto_of_qf {Ss : ℕ → Matrix (Fin n) (Fin n) ℝ} (hs : ∀ k, (Ss k)ᵀ = Ss k)
    (h : ∀ x, ∃ c, Tendsto (fun k => qf (Ss k) x) atTop (𝓝 c)) : ∃ S, Tendsto Ss atTop (𝓝 S) := by
  choose c hc using h
  refine ⟨Matrix.of fun i j => (c (Pi.single i 1 + Pi.single j 1) - c (Pi.single i 1) - c (Pi.single j 1)) / 2, ?_⟩
  refine tendsto_pi_nhds.2 fun i => tendsto_pi_nhds.2 fun j => ?_
  have : (fun k => Ss k i j) = fun k =>
      (qf (Ss k) (Pi.single i 1 + Pi.single j 1) - qf (Ss k) (Pi.single i 1) - qf (Ss k) (Pi.single j 1)) / 2 := by
    funext k; exact entry_qf (hs k) i j
  rw [this]
  exact (((hc _).sub (hc _)).sub (hc _)).div_const 2

theorem psd_limit {Ss : ℕ → Matrix (Fin n) (Fin n) ℝ} {S : Matrix (Fin n) (Fin n) ℝ} (hs : ∀ k, IsPSD (Ss k))
    (h : Tendsto Ss atTop (𝓝 S)) : IsPSD S := by
  refine ⟨?_, fun x => ge_of_tendsto' ((qf_continuous x).continuousAt.tendsto.comp h) fun k => (hs k).2 x⟩
  have h1 : Tendsto (fun k => (Ss k)ᵀ) atTop (𝓝 Sᵀ) := (Continuous.matrix_transpose continuous_id).continuousAt.tendsto.comp h
  have h2 : (fun k => (Ss k)ᵀ) = Ss := funext fun k => (hs k).1
  rw [h2] at h1
  exact tendsto_nhds_unique h1 h

theorem minv_continuousAt {ι : Type} [Fintype ι] [DecidableEq ι] {A : Matrix ι ι ℝ} (h : A.det ≠ 0) : ContinuousAt minv A := by
  unfold minv
  exact (ContinuousAt.inv₀ (Continuous.matrix_det continuous_id).continuousAt h).smul
    (Continuous.matrix_adjugate continuous_id).continuousAt

theorem ricK_continuousAt {R : LQR n m ℝ} (hU : IsPD R.U) {S : Matrix (Fin n) (Fin n) ℝ} (hS : IsPSD S) :
    ContinuousAt R.ricK S := by
  have h1 : Continuous fun S : Matrix (Fin n) (Fin n) ℝ => R.U + R.Lᵀ * S * R.L :=
    continuous_const.add ((continuous_const.matrix_mul continuous_id).matrix_mul continuous_const)
  have h2 : Continuous fun S : Matrix (Fin n) (Fin n) ℝ => R.Lᵀ * S * R.F :=
    (continuous_const.matrix_mul continuous_id).matrix_mul continuous_const
  have h3 : ContinuousAt (fun S : Matrix (Fin n) (Fin n) ℝ => minv (R.U + R.Lᵀ * S * R.L)) S :=
    ContinuousAt.comp (g := minv) (f := fun S : Matrix (Fin n) (Fin n) ℝ => R.U + R.Lᵀ * S * R.L)
      (minv_continuousAt (hess_pd hU hS).det_ne_zero) h1.continuousAt
  exact ContinuousAt.comp (g := fun p : Matrix (Fin m) (Fin m) ℝ × Matrix (Fin m) (Fin n) ℝ => p.1 * p.2)
    (f := fun S : Matrix (Fin n) (Fin n) ℝ => (minv (R.U + R.Lᵀ * S * R.L), R.Lᵀ * S * R.F))
    (continuous_fst.matrix_mul continuous_snd).continuousAt (h3.prodMk h2.continuousAt)

theorem ric_continuousAt {R : LQR n m ℝ} (hU : IsPD R.U) {S : Matrix (Fin n) (Fin n) ℝ} (hS : IsPSD S) :
    ContinuousAt R.ric S := by
  have h : Continuous fun p : Matrix (Fin n) (Fin n) ℝ × Matrix (Fin m) (Fin n) ℝ =>
      R.Fᵀ * p.1 * (R.F - R.L * p.2) + R.X :=
    ((continuous_const.matrix_mul continuous_fst).matrix_mul
      (continuous_const.sub (continuous_const.matrix_mul continuous_snd))).add continuous_const
  exact ContinuousAt.comp (g := fun p : Matrix (Fin n) (Fin n) ℝ × Matrix (Fin m) (Fin n) ℝ =>
      R.Fᵀ * p.1 * (R.F - R.L * p.2) + R.X) (f := fun S => (S, R.ricK S)) h.continuousAt
    (continuousAt_id.prodMk (ricK_continuousAt hU hS))

/-- The iterations converge if the cost is finite. -/
theorem iterS_converges {R : LQR n m ℝ} (hR : R.Convex) (h : R.FiniteCost) : ∃ S, Tendsto R.iterS atTop (𝓝 S) := by
  refine tendsto_of_qf (fun k => (iterS_psd hR k).1) fun x => ?_
  obtain ⟨us, hus⟩ := h x
  have hm : Monotone fun k => qf (R.iterS k) x := monotone_nat_of_le_succ fun k => iterS_mono hR k x
  refine ⟨_, tendsto_atTop_ciSup hm ⟨2 * ∑' j, R.stepCost x us j, ?_⟩⟩
  rintro _ ⟨k, rfl⟩
  have h1 := iterS_cost hR k x us
  have h2 : ∑ j ∈ Finset.range (k + 1), R.stepCost x us j ≤ ∑' j, R.stepCost x us j := by
    refine hus.sum_le_tsum _ fun j _ => ?_
    have := hR.2.1.2 (R.state x us j)
    have := hR.1.2.nonneg (us j)
    unfold LQR.stepCost
    linarith
  dsimp only
  linarith

theorem limit_iff {R : LQR n m ℝ} (hR : R.Convex) (S : Matrix (Fin n) (Fin n) ℝ) (Kx : Matrix (Fin m) (Fin n) ℝ) :
    R.Limit S Kx ↔ Tendsto R.iterS atTop (𝓝 S) ∧ R.ricK S = Kx := by
  have key : Tendsto R.iterS atTop (𝓝 S) → Tendsto (fun k => R.ricK (R.iterS k)) atTop (𝓝 (R.ricK S)) := fun h =>
    (ricK_continuousAt hR.1.2 (psd_limit (iterS_psd hR) h)).tendsto.comp h
  constructor
  · rintro ⟨Ks, Ss, h1, h2, h3⟩
    have hs : ∀ k, Ss k = R.iterS (k + 1) := fun k => lqrIter_snd hR (h1 k)
    have hk : ∀ k, Ks k = R.ricK (R.iterS k) := by
      intro k
      have := h1 k
      rw [lqrIter_ric hR] at this
      simp only [Except.ok.injEq, Prod.mk.injEq, Option.some.injEq] at this
      exact this.1.symm
    have h4 : Tendsto R.iterS atTop (𝓝 S) := by
      rw [← tendsto_add_atTop_iff_nat 1]
      rwa [show Ss = fun k => R.iterS (k + 1) from funext hs] at h2
    refine ⟨h4, tendsto_nhds_unique (key h4) ?_⟩
    rwa [show Ks = fun k => R.ricK (R.iterS k) from funext hk] at h3
  · rintro ⟨h, rfl⟩
    exact ⟨_, _, fun k => lqrIter_ric hR k, (tendsto_add_atTop_iff_nat 1).2 h, key h⟩

theorem limit_fixed {R : LQR n m ℝ} (hR : R.Convex) {S : Matrix (Fin n) (Fin n) ℝ} (h : Tendsto R.iterS atTop (𝓝 S)) :
    IsPSD S ∧ R.ric S = S := by
  have hS := psd_limit (iterS_psd hR) h
  refine ⟨hS, tendsto_nhds_unique ?_ ((tendsto_add_atTop_iff_nat 1).2 h)⟩
  have := (ric_continuousAt hR.1.2 hS).tendsto.comp h
  refine this.congr fun k => ?_
  rw [iterS_succ]; rfl

theorem stepCost_nonneg {R : LQR n m ℝ} (hR : R.Convex) (x : Fin n → ℝ) (us : ℕ → Fin m → ℝ) (j : ℕ) :
    0 ≤ R.stepCost x us j := by
  have := hR.2.1.2 (R.state x us j)
  have := hR.1.2.nonneg (us j)
  unfold LQR.stepCost
  linarith

/-- The limit is a lower bound of the cost. -/
theorem limit_le_cost {R : LQR n m ℝ} (hR : R.Convex) {S : Matrix (Fin n) (Fin n) ℝ} (h : Tendsto R.iterS atTop (𝓝 S))
    (x : Fin n → ℝ) (us : ℕ → Fin m → ℝ) (c : ℝ) (hc : HasSum (R.stepCost x us) c) : 1 / 2 * qf S x ≤ c := by
  have h1 : Tendsto (fun k => 1 / 2 * qf (R.iterS k) x) atTop (𝓝 (1 / 2 * qf S x)) :=
    ((qf_continuous x).continuousAt.tendsto.comp h).const_mul _
  refine le_of_tendsto' h1 fun k => (iterS_cost hR k x us).trans ?_
  exact sum_le_hasSum _ (fun j _ => stepCost_nonneg hR x us j) hc

/-- A positive semidefinite solution bounds the cost of its feedback. -/
theorem feedback_summable {R : LQR n m ℝ} (hR : R.Convex) {P : Matrix (Fin n) (Fin n) ℝ} {Kx : Matrix (Fin m) (Fin n) ℝ}
    (hP : IsPSD P) (h : R.Stationary P Kx) (x : Fin n → ℝ) : Summable (R.stepCost x (R.feedback Kx x)) ∧
      ∑' j, R.stepCost x (R.feedback Kx x) j ≤ 1 / 2 * qf P x := by
  have hb : ∀ k, ∑ j ∈ Finset.range k, R.stepCost x (R.feedback Kx x) j ≤ 1 / 2 * qf P x := by
    intro k
    have h1 := stationary_feedback hR.1.1 hP.1 h x k
    have h2 := hP.2 (R.state x (R.feedback Kx x) k)
    unfold qf at *
    linarith
  have hs := summable_of_sum_range_le (stepCost_nonneg hR x _) hb
  exact ⟨hs, Real.tsum_le_of_sum_range_le (stepCost_nonneg hR x _) hb⟩

theorem limit_value {R : LQR n m ℝ} (hR : R.Convex) {S : Matrix (Fin n) (Fin n) ℝ} (h : Tendsto R.iterS atTop (𝓝 S))
    (x : Fin n → ℝ) : HasSum (R.stepCost x (R.feedback (R.ricK S) x)) (1 / 2 * qf S x) := by
  obtain ⟨hS, hf⟩ := limit_fixed hR h
  obtain ⟨h1, h2⟩ := feedback_summable hR hS (ric_stationary hR hS hf) x
  have h3 := limit_le_cost hR h x _ _ h1.hasSum
  rw [le_antisymm h3 h2]
  exact h1.hasSum

theorem qf_ext {A B : Matrix (Fin n) (Fin n) ℝ} (hA : Aᵀ = A) (hB : Bᵀ = B) (h : ∀ x, qf A x = qf B x) : A = B := by
  ext i j
  rw [entry_qf hA, entry_qf hB, h, h, h]

theorem tendsto_pow_of_mulVec {A : Matrix (Fin n) (Fin n) ℝ} (h : ∀ x, Tendsto (fun k => (A ^ k) *ᵥ x) atTop (𝓝 0)) :
    Tendsto (fun k => A ^ k) atTop (𝓝 0) := by
  refine tendsto_pi_nhds.2 fun i => tendsto_pi_nhds.2 fun j => ?_
  have := (tendsto_pi_nhds.1 (h (Pi.single j 1))) i
  simpa using this

theorem detect_stable {R : LQR n m ℝ} (hR : R.Convex) (hd : R.Detectable) {P : Matrix (Fin n) (Fin n) ℝ}
    {Kx : Matrix (Fin m) (Fin n) ℝ} (hP : IsPSD P) (h : R.Stationary P Kx) :
    Tendsto (fun k => (R.F - R.L * Kx) ^ k) atTop (𝓝 0) := by
  refine tendsto_pow_of_mulVec fun x => ?_
  have := hd x _ (feedback_summable hR hP h x).1
  exact this.congr fun k => feedback_state R Kx x k

/-- A solution is at most the limit on states from which some optimal trajectory tends to zero. -/
theorem detect_unique {R : LQR n m ℝ} (hR : R.Convex) (hd : R.Detectable) {S P : Matrix (Fin n) (Fin n) ℝ}
    {Kx : Matrix (Fin m) (Fin n) ℝ} (h : Tendsto R.iterS atTop (𝓝 S)) (hP : IsPSD P) (hs : R.Stationary P Kx) : P = S := by
  obtain ⟨hS, hf⟩ := limit_fixed hR h
  refine qf_ext hP.1 hS.1 fun x => le_antisymm ?_ ?_
  · have hv := limit_value hR h x
    have h1 := hv.tendsto_sum_nat
    have h2 := hd x _ hv.summable
    have h3 : Tendsto (fun k => 1 / 2 * qf P (R.state x (R.feedback (R.ricK S) x) k)) atTop (𝓝 (1 / 2 * qf P 0)) :=
      ((qf_continuous_vec P).continuousAt.tendsto.comp h2).const_mul _
    rw [qf_zero_vec, mul_zero] at h3
    have h4 := ge_of_tendsto' (h1.add h3) fun k => stationary_traj hR hP hs x (R.feedback (R.ricK S) x) k
    linarith
  · exact le_of_tendsto' ((qf_continuous x).continuousAt.tendsto.comp h) fun k =>
      iterS_le hR hP (stationary_ric hR hP hs).1 k x

theorem stabilising_psd {R : LQR n m ℝ} (hR : R.Convex) {P : Matrix (Fin n) (Fin n) ℝ} {Kx : Matrix (Fin m) (Fin n) ℝ}
    (hP : Pᵀ = P) (h : R.Stationary P Kx) (hs : Tendsto (fun k => (R.F - R.L * Kx) ^ k) atTop (𝓝 0)) : IsPSD P := by
  refine ⟨hP, fun x => ?_⟩
  have h2 : Tendsto (R.state x (R.feedback Kx x)) atTop (𝓝 0) := by
    have : Tendsto (fun k => (R.F - R.L * Kx) ^ k *ᵥ x) atTop (𝓝 ((0 : Matrix (Fin n) (Fin n) ℝ) *ᵥ x)) :=
      (Continuous.matrix_mulVec continuous_id continuous_const).continuousAt.tendsto.comp hs
    rw [zero_mulVec] at this
    exact this.congr fun k => (feedback_state R Kx x k).symm
  have h3 : Tendsto (fun k => 1 / 2 * qf P (R.state x (R.feedback Kx x) k)) atTop (𝓝 (1 / 2 * qf P 0)) :=
    ((qf_continuous_vec P).continuousAt.tendsto.comp h2).const_mul _
  rw [qf_zero_vec, mul_zero] at h3
  have h4 : 1 / 2 * qf P x ≥ 0 := le_of_tendsto' h3 fun k => by
    have h5 := stationary_feedback hR.1.1 hP h x k
    have h6 := Finset.sum_nonneg (s := Finset.range k) fun j _ => stepCost_nonneg hR x (R.feedback Kx x) j
    linarith
  unfold qf at h4
  linarith

/-! ### Definite forms -/

/-- A positive definite form dominates a multiple of any form. -/
theorem pd_dominates {A P : Matrix (Fin n) (Fin n) ℝ} (hA : IsPD A) (hP : IsPSD P) :
    ∃ a, 0 < a ∧ a ≤ 1 ∧ ∀ x, a * qf P x ≤ qf A x := by
  by_cases hn : (Metric.sphere (0 : Fin n → ℝ) 1).Nonempty
  · obtain ⟨y, hy, hmin⟩ := (isCompact_sphere (0 : Fin n → ℝ) 1).exists_isMinOn hn (qf_continuous_vec A).continuousOn
    obtain ⟨z, hz, hmax⟩ := (isCompact_sphere (0 : Fin n → ℝ) 1).exists_isMaxOn hn (qf_continuous_vec P).continuousOn
    have hy0 : 0 < qf A y := hA y (by rintro rfl; simp at hy)
    have hz0 : 0 ≤ qf P z := hP.2 z
    refine ⟨min 1 (qf A y / (qf P z + 1)), lt_min one_pos (div_pos hy0 (by linarith)), min_le_left _ _, fun x => ?_⟩
    by_cases hx : x = 0
    · rw [hx, qf_zero_vec, qf_zero_vec, mul_zero]
    have hnx : 0 < ‖x‖ := norm_pos_iff.2 hx
    have hu : ‖x‖⁻¹ • x ∈ Metric.sphere (0 : Fin n → ℝ) 1 := by
      rw [mem_sphere_zero_iff_norm, norm_smul, norm_inv, norm_norm, inv_mul_cancel₀ hnx.ne']
    have h1 : qf A y ≤ qf A (‖x‖⁻¹ • x) := hmin hu
    have h2 : qf P (‖x‖⁻¹ • x) ≤ qf P z := hmax hu
    have h0 : 0 ≤ qf P (‖x‖⁻¹ • x) := hP.2 _
    have h3 : min 1 (qf A y / (qf P z + 1)) * qf P (‖x‖⁻¹ • x) ≤ qf A (‖x‖⁻¹ • x) := by
      calc _ ≤ qf A y / (qf P z + 1) * qf P (‖x‖⁻¹ • x) := mul_le_mul_of_nonneg_right (min_le_right _ _) h0
        _ ≤ qf A y / (qf P z + 1) * (qf P z + 1) :=
          mul_le_mul_of_nonneg_left (by linarith) (div_pos hy0 (by linarith)).le
        _ = qf A y := div_mul_cancel₀ _ (by linarith)
        _ ≤ _ := h1
    rw [qf_vec_smul, qf_vec_smul] at h3
    have hp : 0 < (‖x‖⁻¹) ^ 2 := by positivity
    refine le_of_mul_le_mul_left ?_ hp
    linarith
  · refine ⟨1, one_pos, le_rfl, fun x => ?_⟩
    have : x = 0 := by
      by_contra hx
      have hnx : 0 < ‖x‖ := norm_pos_iff.2 hx
      exact hn ⟨‖x‖⁻¹ • x, by rw [mem_sphere_zero_iff_norm, norm_smul, norm_inv, norm_norm, inv_mul_cancel₀ hnx.ne']⟩
    rw [this, qf_zero_vec, qf_zero_vec, mul_zero]

theorem tendsto_of_pd {A : Matrix (Fin n) (Fin n) ℝ} (hA : IsPD A) {xs : ℕ → Fin n → ℝ}
    (h : Tendsto (fun k => qf A (xs k)) atTop (𝓝 0)) : Tendsto xs atTop (𝓝 0) := by
  obtain ⟨a, ha, -, hd⟩ := pd_dominates hA (P := 1) ⟨by simp, fun x => by
    rw [one_mulVec]; exact Finset.sum_nonneg fun i _ => mul_self_nonneg _⟩
  refine tendsto_pi_nhds.2 fun i => ?_
  have hb : ∀ k, xs k i ^ 2 ≤ a⁻¹ * qf A (xs k) := by
    intro k
    have h1 := hd (xs k)
    have h2 : xs k i ^ 2 ≤ qf 1 (xs k) := by
      unfold qf
      rw [one_mulVec, sq]
      exact Finset.single_le_sum (f := fun i => xs k i * xs k i) (fun j _ => mul_self_nonneg _) (Finset.mem_univ i)
    rw [← div_eq_inv_mul, le_div_iff₀ ha]
    nlinarith
  have h2 : Tendsto (fun k => xs k i ^ 2) atTop (𝓝 0) :=
    squeeze_zero (fun k => sq_nonneg _) hb (by simpa using h.const_mul a⁻¹)
  have h3 := h2.sqrt
  simp only [Real.sqrt_sq_eq_abs, Real.sqrt_zero] at h3
  exact (tendsto_zero_iff_abs_tendsto_zero _).2 h3

theorem state_shift (R : LQR n m ℝ) (x : Fin n → ℝ) (us : ℕ → Fin m → ℝ) (k j : ℕ) :
    R.state x us (k + j) = R.state (R.state x us k) (fun i => us (k + i)) j := by
  induction j with
  | zero => rfl
  | succ j ih => rw [← Nat.add_assoc, LQR.state, ih]; rfl

theorem observable_detectable {R : LQR n m ℝ} (hR : R.Convex) {N : ℕ} (hN : IsPD (R.iterS N)) : R.Detectable := by
  intro x us hs
  refine tendsto_of_pd hN ?_
  have hc : ∀ k j, R.stepCost (R.state x us k) (fun i => us (k + i)) j = R.stepCost x us (k + j) := by
    intro k j; unfold LQR.stepCost; rw [state_shift]
  have h1 : ∀ k, qf (R.iterS N) (R.state x us k) ≤ 2 * ∑' j, R.stepCost x us (j + k) := by
    intro k
    have h := iterS_cost hR N (R.state x us k) (fun i => us (k + i))
    simp only [hc] at h
    have hsk : Summable fun j => R.stepCost x us (k + j) := by
      have := (summable_nat_add_iff k).2 hs
      exact this.congr fun j => by rw [add_comm]
    have h2 := hsk.sum_le_tsum (Finset.range (N + 1)) fun j _ => stepCost_nonneg hR x us (k + j)
    simp only [add_comm _ k]
    linarith
  have h2 : Tendsto (fun k => 2 * ∑' j, R.stepCost x us (j + k)) atTop (𝓝 0) := by
    simpa using (tendsto_sum_nat_add (R.stepCost x us)).const_mul 2
  exact squeeze_zero (fun k => (iterS_psd hR N).2 _) h1 h2

/-- A small power contracts. -/
theorem contraction {A : Matrix (Fin n) (Fin n) ℝ} (h : Tendsto (fun k => A ^ k) atTop (𝓝 0)) :
    ∃ N, 0 < N ∧ ∀ x, qf 1 ((A ^ N) *ᵥ x) ≤ 1 / 2 * qf 1 x := by
  have hf : Tendsto (fun k => ∑ i, ∑ j, ((A ^ k) i j) ^ 2) atTop (𝓝 0) := by
    have : Tendsto (fun k => ∑ i, ∑ j, ((A ^ k) i j) ^ 2) atTop (𝓝 (∑ i : Fin n, ∑ j : Fin n, (0 : ℝ) ^ 2)) :=
      tendsto_finsetSum _ fun i _ => tendsto_finsetSum _ fun j _ =>
        ((tendsto_pi_nhds.1 ((tendsto_pi_nhds.1 h) i)) j).pow 2
    simpa using this
  obtain ⟨N, hN, h0⟩ := ((hf.eventually (gt_mem_nhds (by norm_num : (0 : ℝ) < 1 / 2))).and (eventually_gt_atTop 0)).exists
  refine ⟨N, h0, fun x => ?_⟩
  have hq : ∀ y : Fin n → ℝ, qf 1 y = ∑ i, y i ^ 2 := by
    intro y; unfold qf; rw [one_mulVec]; exact Finset.sum_congr rfl fun i _ => (sq _).symm
  rw [hq, hq]
  calc ∑ i, ((A ^ N) *ᵥ x) i ^ 2 ≤ ∑ i, (∑ j, ((A ^ N) i j) ^ 2) * ∑ j, x j ^ 2 :=
        Finset.sum_le_sum fun i _ => Finset.sum_mul_sq_le_sq_mul_sq Finset.univ (fun j => (A ^ N) i j) x
    _ = (∑ i, ∑ j, ((A ^ N) i j) ^ 2) * ∑ j, x j ^ 2 := by rw [Finset.sum_mul]
    _ ≤ 1 / 2 * ∑ j, x j ^ 2 := mul_le_mul_of_nonneg_right hN.le (Finset.sum_nonneg fun j _ => sq_nonneg _)

theorem sum_bounded {A Q : Matrix (Fin n) (Fin n) ℝ} (hQ : IsPSD Q) (h : Tendsto (fun k => A ^ k) atTop (𝓝 0)) :
    ∃ c, 0 ≤ c ∧ ∀ k x, ∑ j ∈ Finset.range k, qf Q ((A ^ j) *ᵥ x) ≤ c * qf 1 x := by
  obtain ⟨N, h0, hN⟩ := contraction h
  have hW : ∀ N, ∃ W : Matrix (Fin n) (Fin n) ℝ, IsPSD W ∧ ∀ x, ∑ j ∈ Finset.range N, qf Q ((A ^ j) *ᵥ x) = qf W x := by
    intro N
    induction N with
    | zero => exact ⟨0, ⟨by simp, fun x => by simp⟩, fun x => by simp [qf]⟩
    | succ N ih =>
      obtain ⟨W, h1, h2⟩ := ih
      have hp := psd_conj (H := A ^ N) hQ
      refine ⟨W + (A ^ N)ᵀ * Q * (A ^ N), ⟨by rw [transpose_add, h1.1, hp.1], fun x => ?_⟩, fun x => ?_⟩
      · rw [add_mulVec, dotProduct_add]; exact add_nonneg (h1.2 x) (hp.2 x)
      · rw [Finset.sum_range_succ, h2, qf_add, qf_conj]
  obtain ⟨W, hW1, hW2⟩ := hW N
  have h1pd : IsPD (1 : Matrix (Fin n) (Fin n) ℝ) := by
    intro x hx
    rw [one_mulVec]
    obtain ⟨i, hi⟩ := Function.ne_iff.1 hx
    exact Finset.sum_pos' (fun i _ => mul_self_nonneg _) ⟨i, Finset.mem_univ i, mul_self_pos.2 hi⟩
  obtain ⟨a, ha, -, hd⟩ := pd_dominates h1pd hW1
  have hc : ∀ x, ∑ j ∈ Finset.range N, qf Q ((A ^ j) *ᵥ x) ≤ a⁻¹ * qf 1 x := by
    intro x
    rw [hW2, ← div_eq_inv_mul, le_div_iff₀ ha, mul_comm]
    exact hd x
  have hpos : ∀ x : Fin n → ℝ, 0 ≤ qf 1 x := fun x => h1pd.nonneg x
  have hai : 0 < a⁻¹ := inv_pos.2 ha
  refine ⟨2 * a⁻¹, by linarith, fun k => ?_⟩
  induction k using Nat.strong_induction_on with
  | _ k ih =>
    intro x
    rcases le_or_gt k N with hk | hk
    · have h1 : ∑ j ∈ Finset.range k, qf Q ((A ^ j) *ᵥ x) ≤ ∑ j ∈ Finset.range N, qf Q ((A ^ j) *ᵥ x) :=
        Finset.sum_le_sum_of_subset_of_nonneg (Finset.range_mono hk) fun j _ _ => hQ.2 _
      have := hc x
      have := mul_nonneg hai.le (hpos x)
      linarith
    · obtain ⟨i, rfl⟩ := Nat.exists_eq_add_of_lt hk
      have hi := ih (i + 1) (by omega) ((A ^ N) *ᵥ x)
      rw [show N + i + 1 = N + (i + 1) by ring, Finset.sum_range_add]
      have e : ∀ j, (A ^ (N + j)) *ᵥ x = (A ^ j) *ᵥ (A ^ N) *ᵥ x := by
        intro j; rw [mulVec_mulVec, ← pow_add, add_comm]
      simp only [e]
      have h1 := hc x
      have h2 := mul_le_mul_of_nonneg_left (hN x) (by linarith : 0 ≤ 2 * a⁻¹)
      linarith

theorem stabilisable_finite {R : LQR n m ℝ} (hR : R.Convex) (h : R.Stabilisable) : R.FiniteCost := by
  obtain ⟨G, hG⟩ := h
  intro x0
  refine ⟨R.feedback G x0, ?_⟩
  have hp : IsPSD (Gᵀ * R.U * G) := psd_conj ⟨hR.1.1, hR.1.2.nonneg⟩
  have hQ : IsPSD (R.X + Gᵀ * R.U * G) := ⟨by rw [transpose_add, hR.2.1.1, hp.1], fun x => by
    rw [add_mulVec, dotProduct_add]; exact add_nonneg (hR.2.1.2 x) (hp.2 x)⟩
  obtain ⟨c, -, hc⟩ := sum_bounded hQ hG
  have e : ∀ j, R.stepCost x0 (R.feedback G x0) j = 1 / 2 * qf (R.X + Gᵀ * R.U * G) (((R.F - R.L * G) ^ j) *ᵥ x0) := by
    intro j
    rw [qf_add, qf_conj, mul_add]
    unfold LQR.stepCost
    rw [feedback_state]
    congr 2
    exact qf_vec_neg R.U _
  refine summable_of_sum_range_le (c := 1 / 2 * (c * qf 1 x0)) (stepCost_nonneg hR x0 _) fun k => ?_
  simp only [e]
  rw [← Finset.mul_sum]
  exact mul_le_mul_of_nonneg_left (hc k x0) (by norm_num)

end Verif
