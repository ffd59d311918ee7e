import Verif.Model.ExamplesReal
import Mathlib.Analysis.Calculus.Deriv.MeanValue
import Mathlib.Analysis.Calculus.FDeriv.Pi
import Mathlib.Analysis.Calculus.FDeriv.Mul
import Mathlib.Topology.Algebra.Module.FiniteDimension
import Mathlib.Topology.Order.IntermediateValue
import Mathlib.Tactic.FinCases
import Mathlib.Analysis.SpecialFunctions.Log.Basic
import Mathlib.Analysis.Complex.ExponentialBounds
import Mathlib.Tactic.Tauto
import Mathlib.LinearAlgebra.Matrix.ToLin

/-! Properties C52, C53: Jacobians of the nonlinear example, block value function of the upwind example. -/

namespace Verif

open Matrix

/-- C52: `Fx` and `Fu` are the derivatives of `f` with respect to the state and the control. -/
theorem C52_jacobians (dt : ℝ) (x : Fin 4 → ℝ) (u : Fin 2 → ℝ) :
    HasFDerivAt (fun y => nlModelF dt y u) (LinearMap.toContinuousLinearMap (nlModelFx dt x u).mulVecLin) x ∧
    HasFDerivAt (fun v => nlModelF dt x v) (LinearMap.toContinuousLinearMap (nlModelFu dt x u).mulVecLin) u := by
  constructor
  · rw [hasFDerivAt_pi']
    have hp : ∀ i, HasFDerivAt (fun y : Fin 4 → ℝ => y i) (ContinuousLinearMap.proj (R := ℝ) i) x := fun i => hasFDerivAt_apply i x
    intro i
    fin_cases i
    · refine ((hp 0).add (((hp 3).mul (hp 2).cos).mul_const dt)).congr_fderiv ?_
      ext h
      simp [nlModelFx, mulVec, dotProduct, Fin.sum_univ_four]
      ring
    · refine ((hp 1).add (((hp 3).mul (hp 2).sin).mul_const dt)).congr_fderiv ?_
      ext h
      simp [nlModelFx, mulVec, dotProduct, Fin.sum_univ_four]
      ring
    · refine ((hp 2).add_const (u 1 * dt)).congr_fderiv ?_
      ext h
      simp [nlModelFx, mulVec, dotProduct, Fin.sum_univ_four]
    · refine ((hp 3).add_const (u 0 * dt)).congr_fderiv ?_
      ext h
      simp [nlModelFx, mulVec, dotProduct, Fin.sum_univ_four]
  · rw [hasFDerivAt_pi']
    have hp : ∀ i, HasFDerivAt (fun y : Fin 2 → ℝ => y i) (ContinuousLinearMap.proj (R := ℝ) i) u := fun i => hasFDerivAt_apply i u
    intro i
    fin_cases i
    · refine (hasFDerivAt_const (x 0 + x 3 * Real.cos (x 2) * dt) u).congr_fderiv ?_
      ext h
      simp [nlModelFu, mulVec, dotProduct, Fin.sum_univ_two]
    · refine (hasFDerivAt_const (x 1 + x 3 * Real.sin (x 2) * dt) u).congr_fderiv ?_
      ext h
      simp [nlModelFu, mulVec, dotProduct, Fin.sum_univ_two]
    · refine (((hp 1).mul_const dt).const_add (x 2)).congr_fderiv ?_
      ext h
      simp [nlModelFu, mulVec, dotProduct, Fin.sum_univ_two]
    · refine (((hp 0).mul_const dt).const_add (x 3)).congr_fderiv ?_
      ext h
      simp [nlModelFu, mulVec, dotProduct, Fin.sum_univ_two]

/-- C52 (TensorFlow): the TensorFlow functions agree with numpy. -/
theorem C52_tf (dt : ℝ) (x : Fin 4 → ℝ) (u : Fin 2 → ℝ) :
    nlModelFTF dt x u = nlModelF dt x u ∧ nlModelFxTF dt x u = nlModelFx dt x u ∧ nlModelFuTF dt x u = nlModelFu dt x u := by
  refine ⟨rfl, ?_, ?_⟩
  · ext i j; fin_cases i <;> fin_cases j <;> rfl
  · ext i j; fin_cases i <;> fin_cases j <;> simp [nlModelFuTF, nlModelFu]

/-- `xf` is reachable from `x0` in time `T` under `x' = u x` with a control in `[0, 1]`. -/
def UpwindReach (T x0 xf : ℝ) : Prop :=
  ∃ x u : ℝ → ℝ, x 0 = x0 ∧ x T = xf ∧ ∀ t ∈ Set.Icc 0 T, 0 ≤ u t ∧ u t ≤ 1 ∧ HasDerivAt x (upwindF (x t) (u t)) t

theorem upwindReach_iff (T x0 xf : ℝ) (hT : 0 ≤ T) :
    UpwindReach T x0 xf ↔ (0 < x0 ∧ x0 ≤ xf ∧ xf ≤ Real.exp T * x0) ∨ (x0 ≤ 0 ∧ Real.exp T * x0 ≤ xf ∧ xf ≤ x0) := by
  constructor
  · rintro ⟨x, u, h0, hf, h⟩
    have hc : ContinuousOn x (Set.Icc 0 T) := fun t ht => (h t ht).2.2.continuousAt.continuousWithinAt
    have hd : ∀ t ∈ Set.Icc 0 T, HasDerivAt x (u t * x t) t := fun t ht => (h t ht).2.2
    -- the square grows, and the square times `exp (-2 t)` decreases
    have hm : MonotoneOn (fun t => x t * x t) (Set.Icc 0 T) := by
      apply monotoneOn_of_deriv_nonneg (convex_Icc 0 T) (hc.mul hc)
      · intro t ht
        rw [interior_Icc] at ht
        exact ((hd t (Set.Ioo_subset_Icc_self ht)).mul (hd t (Set.Ioo_subset_Icc_self ht))).differentiableAt.differentiableWithinAt
      · intro t ht
        rw [interior_Icc] at ht
        have ht' := Set.Ioo_subset_Icc_self ht
        have e := ((hd t ht').mul (hd t ht')).deriv
        rw [e]
        have := (h t ht').1
        nlinarith [mul_self_nonneg (x t), mul_nonneg this (mul_self_nonneg (x t))]
    have ha : AntitoneOn (fun t => (x t * Real.exp (-t)) * (x t * Real.exp (-t))) (Set.Icc 0 T) := by
      have hd2 : ∀ t ∈ Set.Icc 0 T, HasDerivAt (fun t => x t * Real.exp (-t)) ((u t - 1) * (x t * Real.exp (-t))) t := by
        intro t ht
        refine ((hd t ht).mul (hasDerivAt_neg t).exp).congr_deriv ?_
        ring
      have hc2 : ContinuousOn (fun t => x t * Real.exp (-t)) (Set.Icc 0 T) := fun t ht => (hd2 t ht).continuousAt.continuousWithinAt
      apply antitoneOn_of_deriv_nonpos (convex_Icc 0 T) (hc2.mul hc2)
      · intro t ht
        rw [interior_Icc] at ht
        exact ((hd2 t (Set.Ioo_subset_Icc_self ht)).mul (hd2 t (Set.Ioo_subset_Icc_self ht))).differentiableAt.differentiableWithinAt
      · intro t ht
        rw [interior_Icc] at ht
        have ht' := Set.Ioo_subset_Icc_self ht
        have e := ((hd2 t ht').mul (hd2 t ht')).deriv
        rw [e]
        have := (h t ht').2.1
        nlinarith [mul_nonneg (sub_nonneg.2 this) (mul_self_nonneg (x t * Real.exp (-t)))]
    have h1 := hm (Set.left_mem_Icc.2 hT) (Set.right_mem_Icc.2 hT) hT
    have h2 := ha (Set.left_mem_Icc.2 hT) (Set.right_mem_Icc.2 hT) hT
    dsimp only at h1 h2
    rw [h0, hf] at h1 h2
    rw [neg_zero, Real.exp_zero, mul_one] at h2
    have hE : Real.exp T * Real.exp (-T) = 1 := by rw [← Real.exp_add]; simp
    have hEp := Real.exp_pos T
    have hEn := Real.exp_pos (-T)
    -- the sign does not change
    have hz : ∀ t ∈ Set.Icc 0 T, x0 ≠ 0 → x t ≠ 0 := by
      intro t ht hx0 hxt
      have := hm (Set.left_mem_Icc.2 hT) ht ht.1
      dsimp only at this
      rw [h0, hxt, mul_zero] at this
      exact hx0 (mul_self_eq_zero.1 (le_antisymm this (mul_self_nonneg _)))
    rcases lt_trichotomy x0 0 with hx | hx | hx
    · right
      have hxf : xf < 0 := by
        by_contra hcon
        obtain ⟨t, ht, hxt⟩ := intermediate_value_Icc hT hc (show (0 : ℝ) ∈ Set.Icc (x 0) (x T) by
          rw [h0, hf]; exact ⟨hx.le, not_lt.1 hcon⟩)
        exact hz t ht hx.ne hxt
      have h3 : xf ≤ x0 := by nlinarith
      have h4 : x0 ≤ xf * Real.exp (-T) := by
        have : xf * Real.exp (-T) < 0 := mul_neg_of_neg_of_pos hxf hEn
        nlinarith
      refine ⟨hx.le, ?_, h3⟩
      calc Real.exp T * x0 ≤ Real.exp T * (xf * Real.exp (-T)) := mul_le_mul_of_nonneg_left h4 hEp.le
        _ = xf * (Real.exp T * Real.exp (-T)) := by ring
        _ = xf := by rw [hE, mul_one]
    · right
      subst hx
      have h5 : xf * Real.exp (-T) = 0 := by
        have : (xf * Real.exp (-T)) * (xf * Real.exp (-T)) ≤ 0 := by linarith
        exact mul_self_eq_zero.1 (le_antisymm this (mul_self_nonneg _))
      have : xf = 0 := by
        rcases mul_eq_zero.1 h5 with h | h
        · exact h
        · exact absurd h hEn.ne'
      rw [this]
      simp
    · left
      have hxf : 0 < xf := by
        by_contra hcon
        obtain ⟨t, ht, hxt⟩ := intermediate_value_Icc' hT hc (show (0 : ℝ) ∈ Set.Icc (x T) (x 0) by
          rw [h0, hf]; exact ⟨not_lt.1 hcon, hx.le⟩)
        exact hz t ht hx.ne' hxt
      have h3 : x0 ≤ xf := by nlinarith
      have h4 : xf * Real.exp (-T) ≤ x0 := by
        have : 0 < xf * Real.exp (-T) := mul_pos hxf hEn
        nlinarith
      refine ⟨hx, h3, ?_⟩
      calc xf = xf * (Real.exp T * Real.exp (-T)) := by rw [hE, mul_one]
        _ = Real.exp T * (xf * Real.exp (-T)) := by ring
        _ ≤ Real.exp T * x0 := mul_le_mul_of_nonneg_left h4 hEp.le
  · intro h
    -- a constant control suffices
    have hcon : ∀ c : ℝ, 0 ≤ c → c ≤ 1 → Real.exp (c * T) * x0 = xf → UpwindReach T x0 xf := by
      intro c hc0 hc1 hx
      refine ⟨fun t => Real.exp (c * t) * x0, fun _ => c, by simp, hx, ?_⟩
      intro t _
      refine ⟨hc0, hc1, ?_⟩
      refine ((((hasDerivAt_id t).const_mul c).exp).mul_const x0).congr_deriv ?_
      simp [upwindF]
      ring
    by_cases hx0 : x0 = 0
    · subst hx0
      have : xf = 0 := by
        rcases h with ⟨h, -⟩ | ⟨-, h1, h2⟩
        · exact absurd h (lt_irrefl _)
        · rw [mul_zero] at h1; exact le_antisymm h2 h1
      exact hcon 0 le_rfl zero_le_one (by rw [this, mul_zero])
    · have hq : 1 ≤ xf / x0 ∧ xf / x0 ≤ Real.exp T := by
        rcases h with ⟨h, h1, h2⟩ | ⟨h, h1, h2⟩
        · exact ⟨(one_le_div h).2 h1, (div_le_iff₀ h).2 h2⟩
        · have h : x0 < 0 := lt_of_le_of_ne h hx0
          exact ⟨(one_le_div_of_neg h).2 h2, (div_le_iff_of_neg h).2 h1⟩
      have hpos : 0 < xf / x0 := lt_of_lt_of_le one_pos hq.1
      have hl0 : 0 ≤ Real.log (xf / x0) := Real.log_nonneg hq.1
      have hlT : Real.log (xf / x0) ≤ T := (Real.log_le_iff_le_exp hpos).2 hq.2
      rcases hT.lt_or_eq with hT' | hT'
      · refine hcon (Real.log (xf / x0) / T) (div_nonneg hl0 hT) ((div_le_one hT').2 hlT) ?_
        rw [div_mul_cancel₀ _ hT'.ne', Real.exp_log hpos, div_mul_cancel₀ _ hx0]
      · subst hT'
        have : Real.log (xf / x0) = 0 := le_antisymm hlT hl0
        refine hcon 0 le_rfl zero_le_one ?_
        have e := Real.exp_log hpos
        rw [this, Real.exp_zero] at e
        rw [zero_mul, Real.exp_zero, one_mul]
        rw [eq_div_iff hx0, one_mul] at e
        exact e

/-- C53 (numpy): the entry `(i, k)` of the block value function is zero if the `k`-th grid point is reachable from the `i`-th in
the block time, and `inf_value` otherwise. -/
theorem C53_numpy {n : ℕ} (inf dt : ℝ) (hdt : 0 ≤ dt) (grid : Fin n → ℝ) (i k : Fin n) :
    (UpwindReach dt (grid i) (grid k) → upwindBlockV inf dt grid i k = 0) ∧
    (¬ UpwindReach dt (grid i) (grid k) → upwindBlockV inf dt grid i k = inf) := by
  rw [upwindReach_iff dt _ _ hdt]
  have key : ∀ x0 xf : ℝ, grid i = x0 → grid k = xf → upwindBlockV inf dt grid i k =
      if (0 < x0 ∧ x0 ≤ xf ∧ xf ≤ Real.exp dt * x0) ∨ (x0 ≤ 0 ∧ Real.exp dt * x0 ≤ xf ∧ xf ≤ x0) then 0 else inf := by
    rintro _ _ rfl rfl
    unfold upwindBlockV boolVal
    by_cases h1 : (0 < grid i ∧ grid i ≤ grid k ∧ grid k ≤ Real.exp dt * grid i)
    · rw [if_pos (Or.inl h1)]
      simp [h1.1, h1.2.1, h1.2.2, not_le.2 h1.1]
    · by_cases h2 : (grid i ≤ 0 ∧ Real.exp dt * grid i ≤ grid k ∧ grid k ≤ grid i)
      · rw [if_pos (Or.inr h2)]
        simp [h2.1, h2.2.1, h2.2.2, not_lt.2 h2.1]
      · rw [if_neg (by tauto)]
        have e1 : (if grid i > 0 then (1 : ℝ) else 0) * (if grid k ≥ grid i then 1 else 0) *
            (if grid k ≤ Real.exp dt * grid i then 1 else 0) = 0 := by
          split_ifs <;> simp <;> tauto
        have e2 : (if grid i ≤ 0 then (1 : ℝ) else 0) * (if grid k ≥ Real.exp dt * grid i then 1 else 0) *
            (if grid k ≤ grid i then 1 else 0) = 0 := by
          split_ifs <;> simp <;> tauto
        dsimp only
        rw [e1, e2]
        simp
  rw [key _ _ rfl rfl]
  exact ⟨fun h => if_pos h, fun h => if_neg h⟩

/-- C53 (TensorFlow): from a non-negative grid point the entries agree with numpy; from a negative grid point the entry is always
`inf_value`, although the point itself is reachable. -/
theorem C53_tf {n : ℕ} (inf dt : ℝ) (hdt : 0 ≤ dt) (grid : Fin n → ℝ) (i k : Fin n) :
    (0 ≤ grid i → upwindBlockVTF inf dt grid i k = upwindBlockV inf dt grid i k) ∧
    (grid i < 0 → upwindBlockVTF inf dt grid i k = inf) ∧
    UpwindReach dt (grid i) (grid i) := by
  have hT : upwindBlockVTF inf dt grid i k = if ((grid i ≥ 0 ∧ grid k ≥ grid i) ∧ grid k ≤ Real.exp dt * grid i) ∨
      ((grid i ≥ 0 ∧ grid k ≥ Real.exp dt * grid i) ∧ grid k ≤ grid i) then 0 else inf * 1 := by
    unfold upwindBlockVTF
    rfl
  have h1 : 1 ≤ Real.exp dt := Real.one_le_exp hdt
  refine ⟨fun h => ?_, fun h => ?_, ?_⟩
  · have hn := C53_numpy inf dt hdt grid i k
    have hiff : (((grid i ≥ 0 ∧ grid k ≥ grid i) ∧ grid k ≤ Real.exp dt * grid i) ∨
        ((grid i ≥ 0 ∧ grid k ≥ Real.exp dt * grid i) ∧ grid k ≤ grid i)) ↔ UpwindReach dt (grid i) (grid k) := by
      rw [upwindReach_iff dt _ _ hdt]
      have hle : grid i ≤ Real.exp dt * grid i := by nlinarith
      rcases h.lt_or_eq with hp | hp
      · constructor
        · rintro (h | h)
          · exact Or.inl ⟨hp, h.1.2, h.2⟩
          · have : grid k = grid i := le_antisymm h.2 (hle.trans h.1.2)
            exact Or.inl ⟨hp, this.ge, this.le.trans hle⟩
        · rintro (h' | h')
          · exact Or.inl ⟨⟨h, h'.2.1⟩, h'.2.2⟩
          · exact absurd h'.1 (not_le.2 hp)
      · rw [← hp]
        simp only [mul_zero, le_refl, ge_iff_le, true_and, lt_irrefl, false_and, false_or, or_self]
    rw [hT]
    by_cases hr : UpwindReach dt (grid i) (grid k)
    · rw [hn.1 hr, if_pos (hiff.2 hr)]
    · rw [hn.2 hr, if_neg (fun h => hr (hiff.1 h)), mul_one]
  · rw [hT, if_neg, mul_one]
    rintro (h' | h') <;> exact absurd h'.1.1 (not_le.2 h)
  · exact ⟨fun _ => grid i, fun _ => 0, rfl, rfl, fun t _ => ⟨le_rfl, zero_le_one, (hasDerivAt_const t (grid i)).congr_deriv (by simp [upwindF])⟩⟩

/-- A pair where TensorFlow and numpy differ: staying at `-1`. -/
theorem C53_tf_differs : upwindBlockV 1000 1 (![-1, 1] : Fin 2 → ℝ) 0 0 = 0 ∧ upwindBlockVTF 1000 1 (![-1, 1] : Fin 2 → ℝ) 0 0 = 1000 := by
  have h := C53_tf 1000 1 zero_le_one (![-1, 1] : Fin 2 → ℝ) 0 0
  exact ⟨(C53_numpy 1000 1 zero_le_one _ 0 0).1 h.2.2, h.2.1 (by simp)⟩

/-- Reachable and unreachable pairs. -/
example : UpwindReach 1 1 2 ∧ ¬ UpwindReach 1 1 3 ∧ UpwindReach 1 (-1) (-2) ∧ ¬ UpwindReach 1 (-1) 0 := by
  have h2 := Real.exp_one_gt_d9
  have h3 := Real.exp_one_lt_d9
  refine ⟨(upwindReach_iff _ _ _ zero_le_one).2 (Or.inl ⟨by norm_num, by norm_num, by linarith⟩), ?_,
    (upwindReach_iff _ _ _ zero_le_one).2 (Or.inr ⟨by norm_num, by linarith, by norm_num⟩), ?_⟩
  · rw [upwindReach_iff _ _ _ zero_le_one]
    rintro (h | h)
    · linarith [h.2.2]
    · linarith [h.1]
  · rw [upwindReach_iff _ _ _ zero_le_one]
    rintro (h | h)
    · linarith [h.1]
    · linarith [h.2.2]

/-- The Jacobian at a point is not the identity. -/
example : nlModelFx 1 ![0, 0, 0, 2] ![0, 0] 1 2 = 2 ∧ nlModelF 1 ![0, 0, 0, 2] ![3, 0] = ![2, 0, 0, 5] := by
  constructor
  · simp [nlModelFx]
  · ext i; fin_cases i <;> simp [nlModelF] <;> norm_num

end Verif
