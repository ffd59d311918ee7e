import Verif.Proof.RKGood
import Mathlib.Analysis.ODE.ExistUnique

/-! Solutions of linear differential equations over a whole interval, and uniqueness of solutions. -/

namespace Verif

open Set

variable {E : Type} [NormedAddCommGroup E] [NormedSpace ℝ E] {a b : ℝ}

theorem GoodRhs.mono {f : E → ℝ → E} (h : GoodRhs f a b) {a' b' : ℝ} (ha : a ≤ a') (hb : b' ≤ b) : GoodRhs f a' b' := by
  refine ⟨h.cont.mono (prod_mono_right (Icc_subset_Icc ha hb)), fun R => ?_⟩
  obtain ⟨Λ, h1, h2⟩ := h.lip R
  exact ⟨Λ, h1, fun t ht => h2 t (Icc_subset_Icc ha hb ht)⟩

/-- Two solutions with the same start agree at the end. -/
theorem GoodRhs.unique_end {f : E → ℝ → E} (hf : GoodRhs f a b) (hab : a ≤ b) {y y' : ℝ → E} (hy : ContinuousOn y (Icc a b))
    (hd : ∀ t ∈ Ioo a b, HasDerivAt y (f (y t) t) t) (hy' : ContinuousOn y' (Icc a b)) (hd' : ∀ t ∈ Ioo a b, HasDerivAt y' (f (y' t) t) t)
    (h0 : y a = y' a) : y b = y' b := by
  rcases hab.eq_or_lt with rfl | hlt
  · exact h0
  obtain ⟨R, -, h1⟩ := rk_converges hab hf hy hd (q := id) fun _ _ _ => le_rfl
  obtain ⟨R', -, h1'⟩ := rk_converges hab hf hy' hd' (q := id) fun _ _ _ => le_rfl
  rw [← sub_eq_zero, ← norm_le_zero_iff]
  refine le_of_forall_pos_le_add fun ε hε => ?_
  obtain ⟨η, hη, h2⟩ := h1 (ε / 2) (by linarith)
  obtain ⟨η', hη', h2'⟩ := h1' (ε / 2) (by linarith)
  obtain ⟨δ, hδ, h3⟩ := h2 1 one_pos
  obtain ⟨δ', hδ', h3'⟩ := h2' 1 one_pos
  obtain ⟨N, hN⟩ := exists_nat_gt ((b - a) / min δ δ')
  have hm : 0 < min δ δ' := lt_min hδ hδ'
  have hN0 : (0 : ℝ) < N := (div_nonneg (by linarith) hm.le).trans_lt hN
  have hh : 0 < (b - a) / N := div_pos (by linarith) hN0
  have hhm : (b - a) / N < min δ δ' := by
    rw [div_lt_iff₀ hm] at hN
    rw [div_lt_iff₀ hN0]
    linarith
  have hNh : a + N * ((b - a) / N) = b := by
    rw [mul_div_cancel₀ _ hN0.ne']
    ring
  let z : ℕ → E := fun j => Nat.rec (y a) (fun j z => rkMap f ((b - a) / N) z (a + j * ((b - a) / N))) j
  have e1 := h3 N _ z (fun _ => f) hh (hhm.trans_le (min_le_left _ _)) hNh.le (by simp [z, hη.le]) (fun _ _ _ _ _ _ _ _ _ => by simp [hη.le])
    (fun _ _ => rfl) N le_rfl
  have e2 := h3' N _ z (fun _ => f) hh (hhm.trans_le (min_le_right _ _)) hNh.le (by simp [z, h0, hη'.le])
    (fun _ _ _ _ _ _ _ _ _ => by simp [hη'.le]) (fun _ _ => rfl) N le_rfl
  rw [hNh] at e1 e2
  have e3 : y b - y' b = (z N - y' b) - (z N - y b) := by abel
  rw [e3]
  have e4 := norm_sub_le (z N - y' b) (z N - y b)
  linarith

/-- Two solutions with the same start agree. -/
theorem GoodRhs.unique {f : E → ℝ → E} (hf : GoodRhs f a b) {y y' : ℝ → E} (hy : ContinuousOn y (Icc a b))
    (hd : ∀ t ∈ Ioo a b, HasDerivAt y (f (y t) t) t) (hy' : ContinuousOn y' (Icc a b)) (hd' : ∀ t ∈ Ioo a b, HasDerivAt y' (f (y' t) t) t)
    (h0 : y a = y' a) : ∀ t ∈ Icc a b, y t = y' t := fun t ht =>
  (hf.mono le_rfl ht.2).unique_end ht.1 (hy.mono (Icc_subset_Icc_right ht.2)) (fun s hs => hd s ⟨hs.1, hs.2.trans_le ht.2⟩)
    (hy'.mono (Icc_subset_Icc_right ht.2)) (fun s hs => hd' s ⟨hs.1, hs.2.trans_le ht.2⟩) h0

theorem reflect_sol {f : E → ℝ → E} {y : ℝ → E} (hy : ContinuousOn y (Icc a b)) (hd : ∀ t ∈ Ioo a b, HasDerivAt y (f (y t) t) t) (c : ℝ) :
    ContinuousOn (fun t => y (c - t)) (Icc (c - b) (c - a)) ∧
      ∀ t ∈ Ioo (c - b) (c - a), HasDerivAt (fun t => y (c - t)) (-f (y (c - t)) (c - t)) t := by
  refine ⟨hy.comp (f := fun t => c - t) (by fun_prop) fun t ht => ⟨by linarith [ht.2], by linarith [ht.1]⟩, fun t ht => ?_⟩
  have h1 := hd (c - t) ⟨by linarith [ht.2], by linarith [ht.1]⟩
  have h2 := h1.scomp t ((hasDerivAt_id t).const_sub c)
  rw [neg_one_smul] at h2
  exact h2

/-- Two solutions with the same end agree. -/
theorem GoodRhs.unique_left {f : E → ℝ → E} (hf : GoodRhs f a b) {y y' : ℝ → E} (hy : ContinuousOn y (Icc a b))
    (hd : ∀ t ∈ Ioo a b, HasDerivAt y (f (y t) t) t) (hy' : ContinuousOn y' (Icc a b)) (hd' : ∀ t ∈ Ioo a b, HasDerivAt y' (f (y' t) t) t)
    (h0 : y b = y' b) : ∀ t ∈ Icc a b, y t = y' t := fun t ht => by
  obtain ⟨e1, e2⟩ := reflect_sol hy hd 0
  obtain ⟨e1', e2'⟩ := reflect_sol hy' hd' 0
  have := (hf.reflect 0).unique e1 e2 e1' e2' (by simpa using h0) (0 - t) ⟨by linarith [ht.2], by linarith [ht.1]⟩
  simpa using this

variable [CompleteSpace E]

/-- Equations with at most linear growth are solvable over the whole interval. -/
theorem GoodRhs.exists_of_growth {f : E → ℝ → E} (hf : GoodRhs f a b) (hab : a ≤ b) {M G : ℝ} (hM : 0 ≤ M) (hG : 0 ≤ G)
    (hlin : ∀ t ∈ Icc a b, ∀ x, ‖f x t‖ ≤ M * ‖x‖ + G) (x0 : E) :
    ∃ y : ℝ → E, y a = x0 ∧ ContinuousOn y (Icc a b) ∧ ∀ t ∈ Ioo a b, HasDerivAt y (f (y t) t) t := by
  set B := gronwallBound ‖x0‖ M G (b - a) with hB
  set R := max B 0 + 1 with hR
  have hRpos : 0 < R := by positivity
  let φ : E → ℝ := fun x => R / max R ‖x‖
  have hmax : ∀ x : E, 0 < max R ‖x‖ := fun x => lt_max_of_lt_left hRpos
  have hφ0 : ∀ x, 0 ≤ φ x := fun x => by positivity
  have hφ1 : ∀ x, φ x ≤ 1 := fun x => (div_le_one (hmax x)).2 (le_max_left _ _)
  have hφc : Continuous φ := continuous_const.div (continuous_const.max continuous_norm) fun x => (hmax x).ne'
  have hφl : ∀ x x', |φ x - φ x'| ≤ (1 / R) * ‖x - x'‖ := by
    intro x x'
    have h1 : φ x - φ x' = R * (max R ‖x'‖ - max R ‖x‖) / (max R ‖x‖ * max R ‖x'‖) := by
      have := (hmax x).ne'
      have := (hmax x').ne'
      simp only [φ]
      field_simp
    rw [h1, abs_div, abs_mul, abs_of_pos hRpos, abs_of_pos (mul_pos (hmax x) (hmax x')), div_le_iff₀ (mul_pos (hmax x) (hmax x'))]
    have h2 : |max R ‖x'‖ - max R ‖x‖| ≤ ‖x - x'‖ := by
      rw [abs_sub_comm]
      refine (abs_max_sub_max_le_max _ _ _ _).trans ?_
      rw [sub_self, abs_zero]
      exact max_le (norm_nonneg _) (abs_norm_sub_norm_le _ _)
    have h3 : R * R ≤ max R ‖x‖ * max R ‖x'‖ := mul_le_mul (le_max_left _ _) (le_max_left _ _) hRpos.le (hmax x).le
    calc R * |max R ‖x'‖ - max R ‖x‖| ≤ R * ‖x - x'‖ := by gcongr
      _ = 1 / R * ‖x - x'‖ * (R * R) := by field_simp
      _ ≤ 1 / R * ‖x - x'‖ * (max R ‖x‖ * max R ‖x'‖) := by gcongr
  have hbd : ∀ t ∈ Icc a b, ∀ x, ‖φ x • f x t‖ ≤ M * R + G := by
    intro t ht x
    rw [norm_smul, Real.norm_eq_abs, abs_of_nonneg (hφ0 x)]
    have h1 : φ x * ‖x‖ ≤ R := by
      simp only [φ]
      rw [div_mul_eq_mul_div, div_le_iff₀ (hmax x)]
      gcongr
      exact le_max_right _ _
    calc φ x * ‖f x t‖ ≤ φ x * (M * ‖x‖ + G) := mul_le_mul_of_nonneg_left (hlin t ht x) (hφ0 x)
      _ = M * (φ x * ‖x‖) + φ x * G := by ring
      _ ≤ M * R + 1 * G := by gcongr; exact hφ1 x
      _ = M * R + G := by ring
  set L := M * R + G with hL
  have hL0 : 0 ≤ L := by positivity
  set A := L * (b - a) with hA
  have hA0 : 0 ≤ A := mul_nonneg hL0 (by linarith)
  obtain ⟨Λ, hΛ, hlip⟩ := hf.lip (‖x0‖ + A)
  have hball : ∀ x ∈ Metric.closedBall x0 A, ‖x‖ ≤ ‖x0‖ + A := fun x hx => by
    rw [mem_closedBall_iff_norm] at hx
    have := norm_add_le x0 (x - x0)
    rw [add_sub_cancel] at this
    linarith
  have hPL : IsPicardLindelof (fun t x => φ x • f x t) (tmin := a) (tmax := b) ⟨a, left_mem_Icc.2 hab⟩ x0 ⟨A, hA0⟩ 0 ⟨L, hL0⟩
      ⟨Λ + (1 / R) * (M * (‖x0‖ + A) + G), by positivity⟩ := by
    constructor
    · intro t ht
      refine LipschitzOnWith.of_dist_le_mul fun x hx x' hx' => ?_
      have h1 := hball x hx
      have h2 := hball x' hx'
      rw [dist_eq_norm, dist_eq_norm]
      have h3 : φ x • f x t - φ x' • f x' t = φ x • (f x t - f x' t) + (φ x - φ x') • f x' t := by
        rw [smul_sub, sub_smul]
        abel
      rw [h3]
      refine (norm_add_le _ _).trans ?_
      rw [norm_smul, norm_smul, Real.norm_eq_abs, Real.norm_eq_abs, abs_of_nonneg (hφ0 x)]
      have h4 := hlip t ht x x' h1 h2
      have h5 := hlin t ht x'
      calc φ x * ‖f x t - f x' t‖ + |φ x - φ x'| * ‖f x' t‖
          ≤ 1 * (Λ * ‖x - x'‖) + ((1 / R) * ‖x - x'‖) * (M * (‖x0‖ + A) + G) := by
            gcongr
            · exact hφ1 x
            · exact hφl x x'
            · exact h5.trans (by gcongr)
        _ = (Λ + (1 / R) * (M * (‖x0‖ + A) + G)) * ‖x - x'‖ := by ring
    · intro x _
      exact continuousOn_const.smul (hf.cont.comp (f := fun t => (x, t)) (by fun_prop) fun t ht => ⟨mem_univ _, ht⟩)
    · intro t ht x _
      exact hbd t ht x
    · have : max (b - a) (a - a) = b - a := max_eq_left (by linarith)
      show L * max (b - a) (a - a) ≤ A - 0
      rw [this, sub_zero]
  obtain ⟨y, hy0, hy⟩ := hPL.exists_eq_forall_mem_Icc_hasDerivWithinAt₀
  have hyc : ContinuousOn y (Icc a b) := fun t ht => (hy t ht).continuousWithinAt
  have hgr := norm_le_gronwallBound_of_norm_deriv_right_le (f := y) (f' := fun t => φ (y t) • f (y t) t) (δ := ‖x0‖) (K := M) (ε := G) hyc
    (fun t ht => (hy t ⟨ht.1, ht.2.le⟩).mono_of_mem_nhdsWithin (Icc_mem_nhdsGE_of_mem ht)) (by rw [hy0])
    (fun t ht => by
      have h1 := hlin t ⟨ht.1, ht.2.le⟩ (y t)
      rw [norm_smul, Real.norm_eq_abs, abs_of_nonneg (hφ0 _)]
      calc φ (y t) * ‖f (y t) t‖ ≤ 1 * ‖f (y t) t‖ := by gcongr; exact hφ1 _
        _ ≤ _ := by rw [one_mul]; exact h1)
  refine ⟨y, hy0, hyc, fun t ht => ?_⟩
  have h1 := (hy t ⟨ht.1.le, ht.2.le⟩).hasDerivAt (Icc_mem_nhds ht.1 ht.2)
  have h2 : ‖y t‖ ≤ R := by
    have h3 := hgr t ⟨ht.1.le, ht.2.le⟩
    have h4 := gronwallBound_mono (norm_nonneg x0) hG hM (show t - a ≤ b - a by linarith [ht.2])
    have h5 : B ≤ max B 0 := le_max_left _ _
    linarith
  have h3 : φ (y t) = 1 := by
    simp only [φ]
    rw [max_eq_left h2, div_self hRpos.ne']
  rw [h3, one_smul] at h1
  exact h1

/-- Affine equations are solvable over the whole interval. -/
theorem GoodRhs.exists_affine {f : E → ℝ → E} (hf : GoodRhs f a b) (hab : a ≤ b)
    (haff : ∀ t (c : ℝ) x, f (c • x) t - f 0 t = c • (f x t - f 0 t)) (x0 : E) :
    ∃ y : ℝ → E, y a = x0 ∧ ContinuousOn y (Icc a b) ∧ ∀ t ∈ Ioo a b, HasDerivAt y (f (y t) t) t := by
  obtain ⟨Λ, hΛ, hlip⟩ := hf.lip 1
  have hc : ContinuousOn (fun t => f 0 t) (Icc a b) := hf.cont.comp (f := fun t => ((0 : E), t)) (by fun_prop) fun t ht => ⟨mem_univ _, ht⟩
  obtain ⟨G, hG⟩ := isCompact_Icc.exists_bound_of_continuousOn hc
  have hG0 : 0 ≤ G := (norm_nonneg _).trans (hG a (left_mem_Icc.2 hab))
  refine hf.exists_of_growth hab hΛ hG0 (fun t ht x => ?_) x0
  have h1 : ‖f x t - f 0 t‖ ≤ Λ * ‖x‖ := by
    rcases eq_or_ne x 0 with rfl | hx
    · simp
    · have hx0 : ‖x‖ ≠ 0 := norm_ne_zero_iff.2 hx
      have h2 := haff t ‖x‖ (‖x‖⁻¹ • x)
      rw [smul_smul, mul_inv_cancel₀ hx0, one_smul] at h2
      have h3 : ‖‖x‖⁻¹ • x‖ ≤ 1 := by
        rw [norm_smul, norm_inv, norm_norm, inv_mul_cancel₀ hx0]
      have h4 := hlip t ht (‖x‖⁻¹ • x) 0 h3 (by simp)
      rw [h2, norm_smul, norm_norm, mul_comm]
      refine mul_le_mul_of_nonneg_right (h4.trans ?_) (norm_nonneg _)
      rw [sub_zero]
      calc Λ * ‖‖x‖⁻¹ • x‖ ≤ Λ * 1 := by gcongr
        _ = Λ := mul_one _
  have h2 := norm_add_le (f x t - f 0 t) (f 0 t)
  rw [sub_add_cancel] at h2
  linarith [hG t ht]

/-- The same with the value at the end of the interval given. -/
theorem GoodRhs.exists_affine_left {f : E → ℝ → E} (hf : GoodRhs f a b) (hab : a ≤ b)
    (haff : ∀ t (c : ℝ) x, f (c • x) t - f 0 t = c • (f x t - f 0 t)) (x0 : E) :
    ∃ y : ℝ → E, y b = x0 ∧ ContinuousOn y (Icc a b) ∧ ∀ t ∈ Ioo a b, HasDerivAt y (f (y t) t) t := by
  obtain ⟨y, h1, h2, h3⟩ := (hf.reflect 0).exists_affine (by linarith) (fun t c x => by
    have := haff (0 - t) c x
    rw [neg_sub_neg, neg_sub_neg, ← neg_sub (f (c • x) (0 - t)), this, ← smul_neg, neg_sub]) x0
  obtain ⟨e1, e2⟩ := reflect_sol (f := fun x t => -f x (0 - t)) h2 h3 0
  rw [sub_sub_cancel, sub_sub_cancel] at e1 e2
  refine ⟨fun t => y (0 - t), by simpa using h1, e1, fun t ht => ?_⟩
  have := e2 t ht
  simpa using this

end Verif
