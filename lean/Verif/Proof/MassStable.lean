import Verif.Proof.MassEnergy
import Mathlib.Topology.Order.Compact
import Mathlib.Analysis.Normed.Module.FiniteDimension

/-! Helper lemmas for the chain of masses: decay of the energy without control. -/

namespace Verif

open Matrix

variable {N : ℕ}

theorem chain_ext {z : Fin (2 * N) → ℝ} (hY : ∀ i, 1 ≤ i → i ≤ N → chainY z i = 0) (hV : ∀ i, 1 ≤ i → i ≤ N → chainV z i = 0) : z = 0 := by
  funext r
  have hr := r.2
  rcases Nat.even_or_odd' r.val with ⟨j, hj | hj⟩
  · have := hY (j + 1) (by omega) (by omega)
    unfold chainY at this
    rw [dif_pos ⟨by omega, by omega⟩] at this
    rw [show r = ⟨2 * (j + 1 - 1), by omega⟩ from Fin.ext (by simp only []; omega)]
    exact this
  · have := hV (j + 1) (by omega) (by omega)
    unfold chainV at this
    rw [dif_pos ⟨by omega, by omega⟩] at this
    rw [show r = ⟨2 * (j + 1 - 1) + 1, by omega⟩ from Fin.ext (by simp only []; omega)]
    exact this

/-- A sequence that starts at zero and has no increments. -/
theorem zero_of_incr (f : ℕ → ℝ) (N : ℕ) (h0 : f 0 = 0) (h : ∑ i ∈ Finset.range (N + 1), (f (i + 1) - f i) ^ 2 = 0) :
    ∀ i ≤ N + 1, f i = 0 := by
  have h1 := (Finset.sum_eq_zero_iff_of_nonneg (fun i _ => sq_nonneg (f (i + 1) - f i))).1 h
  intro i
  induction i with
  | zero => intro _; exact h0
  | succ i ih =>
    intro hi
    have a := h1 i (Finset.mem_range.2 (by omega))
    have b := ih (by omega)
    have c := pow_eq_zero_iff (two_ne_zero) |>.1 a
    linarith

theorem chainEnergy_nonneg (z : Fin (2 * N) → ℝ) : 0 ≤ chainEnergy z := by
  unfold chainEnergy
  have h1 : 0 ≤ ∑ i ∈ Finset.range N, chainV z (i + 1) ^ 2 := Finset.sum_nonneg fun i _ => sq_nonneg _
  have h2 : 0 ≤ ∑ i ∈ Finset.range (N + 1), (chainY z (i + 1) - chainY z i) ^ 2 := Finset.sum_nonneg fun i _ => sq_nonneg _
  linarith

theorem chainEnergy_eq_zero (z : Fin (2 * N) → ℝ) (h : chainEnergy z = 0) : z = 0 := by
  unfold chainEnergy at h
  have h1 : 0 ≤ ∑ i ∈ Finset.range N, chainV z (i + 1) ^ 2 := Finset.sum_nonneg fun i _ => sq_nonneg _
  have h2 : 0 ≤ ∑ i ∈ Finset.range (N + 1), (chainY z (i + 1) - chainY z i) ^ 2 := Finset.sum_nonneg fun i _ => sq_nonneg _
  have hY := zero_of_incr (chainY z) N (chainY_wall _ _ (by omega)) (by linarith)
  have hV := (Finset.sum_eq_zero_iff_of_nonneg (fun i _ => sq_nonneg (chainV z (i + 1)))).1
    (show ∑ i ∈ Finset.range N, chainV z (i + 1) ^ 2 = 0 by linarith)
  refine chain_ext (fun i h1 h2 => hY i (by omega)) fun i h1 h2 => ?_
  have := hV (i - 1) (Finset.mem_range.2 (by omega))
  rw [show i - 1 + 1 = i by omega] at this
  exact pow_eq_zero_iff (two_ne_zero) |>.1 this

theorem energy_antitone (dt : ℝ) (x : ℝ → Fin (2 * N) → ℝ) (h : ChainMotion dt 0 x) :
    AntitoneOn (fun s => chainEnergy (x s)) (Set.Icc 0 dt) := by
  have hd : ∀ t ∈ Set.Icc 0 dt, HasDerivAt (fun s => chainEnergy (x s))
      (-((1 / 5) * ∑ i ∈ Finset.range (N + 1), (chainV (x t) (i + 1) - chainV (x t) i) ^ 2)) t := by
    intro t ht
    refine (energy_deriv dt 0 x h t ht).congr_deriv ?_
    simp
  refine antitoneOn_of_hasDerivWithinAt_nonpos (convex_Icc 0 dt) (fun t ht => (hd t ht).continuousAt.continuousWithinAt)
    (fun t ht => (hd t (interior_subset ht)).hasDerivWithinAt) fun t _ => ?_
  have : 0 ≤ ∑ i ∈ Finset.range (N + 1), (chainV (x t) (i + 1) - chainV (x t) i) ^ 2 := Finset.sum_nonneg fun i _ => sq_nonneg _
  linarith

theorem energy_strict (dt : ℝ) (hdt : 0 < dt) (x : ℝ → Fin (2 * N) → ℝ) (h : ChainMotion dt 0 x) (hx : x 0 ≠ 0) :
    chainEnergy (x dt) < chainEnergy (x 0) := by
  have ha := energy_antitone dt x h
  have h0 : (0 : ℝ) ∈ Set.Icc 0 dt := ⟨le_rfl, hdt.le⟩
  have h1 : dt ∈ Set.Icc 0 dt := ⟨hdt.le, le_rfl⟩
  refine lt_of_le_of_ne (ha h0 h1 hdt.le) fun heq => hx ?_
  have hconst : ∀ t ∈ Set.Icc 0 dt, chainEnergy (x t) = chainEnergy (x 0) := by
    intro t ht
    have a := ha h0 ht ht.1
    have b := ha ht h1 ht.2
    simp only at a b
    exact le_antisymm a (heq ▸ b)
  have hin : ∀ t ∈ Set.Ioo 0 dt, Set.Icc 0 dt ∈ nhds t := fun t ht => Icc_mem_nhds ht.1 ht.2
  have hV : ∀ t ∈ Set.Ioo 0 dt, ∀ i, chainV (x t) i = 0 := by
    intro t ht i
    have d1 := energy_deriv dt 0 x h t ⟨ht.1.le, ht.2.le⟩
    have d2 : HasDerivAt (fun s => chainEnergy (x s)) 0 t := by
      refine (hasDerivAt_const t (chainEnergy (x 0))).congr_of_eventuallyEq ?_
      filter_upwards [hin t ht] with s hs using hconst s hs
    have e := d1.unique d2
    simp only [Pi.zero_apply, zero_mul, sub_zero, zero_sub] at e
    by_cases hi : i ≤ N + 1
    · exact zero_of_incr (chainV (x t)) N (chainV_wall _ _ (by omega)) (by linarith) i hi
    · exact chainV_wall _ _ (by omega)
  have hz : ∀ t ∈ Set.Ioo 0 dt, x t = 0 := by
    intro t ht
    have hacc : ∀ i, 1 ≤ i → i ≤ N → chainAcc (x t) 0 i = 0 := by
      intro i h1 h2
      have d1 := (h t ⟨ht.1.le, ht.2.le⟩ i h1 h2).2
      have d2 : HasDerivAt (fun s => chainV (x s) i) 0 t := by
        refine (hasDerivAt_const t (0 : ℝ)).congr_of_eventuallyEq ?_
        filter_upwards [Ioo_mem_nhds ht.1 ht.2] with s hs using hV s hs i
      exact d1.unique d2
    have p1 := chain_parts_wall (chainY (x t)) (chainY (x t)) N (chainY_wall _ _ (by omega)) (chainY_wall _ _ (by omega))
    have hs : ∑ i ∈ Finset.range N, chainY (x t) (i + 1) *
        (chainY (x t) i - 2 * chainY (x t) (i + 1) + chainY (x t) (i + 2)) = 0 := by
      refine Finset.sum_eq_zero fun i hi => ?_
      have := hacc (i + 1) (by omega) (by have := Finset.mem_range.1 hi; omega)
      unfold chainAcc at this
      simp only [add_tsub_cancel_right, hV t ht, Pi.zero_apply, ite_self] at this
      rw [show chainY (x t) i - 2 * chainY (x t) (i + 1) + chainY (x t) (i + 2) = 0 by linarith, mul_zero]
    rw [hs] at p1
    have hY := zero_of_incr (chainY (x t)) N (chainY_wall _ _ (by omega)) (by
      rw [show ∑ i ∈ Finset.range (N + 1), (chainY (x t) (i + 1) - chainY (x t) i) ^ 2 =
        ∑ i ∈ Finset.range (N + 1), (chainY (x t) (i + 1) - chainY (x t) i) * (chainY (x t) (i + 1) - chainY (x t) i) from
        Finset.sum_congr rfl fun i _ => by ring]
      linarith)
    exact chain_ext (fun i h1 h2 => hY i (by omega)) fun i _ _ => hV t ht i
  have hm : dt / 2 ∈ Set.Ioo 0 dt := ⟨by linarith, by linarith⟩
  refine chainEnergy_eq_zero _ ?_
  rw [← hconst (dt / 2) ⟨hm.1.le, hm.2.le⟩, hz _ hm]
  unfold chainEnergy chainV chainY
  simp

theorem chainY_smul (a : ℝ) (z : Fin (2 * N) → ℝ) (i : ℕ) : chainY (a • z) i = a * chainY z i := by
  unfold chainY
  split_ifs <;> simp

theorem chainV_smul (a : ℝ) (z : Fin (2 * N) → ℝ) (i : ℕ) : chainV (a • z) i = a * chainV z i := by
  unfold chainV
  split_ifs <;> simp

theorem chainEnergy_smul (a : ℝ) (z : Fin (2 * N) → ℝ) : chainEnergy (a • z) = a ^ 2 * chainEnergy z := by
  unfold chainEnergy
  simp only [chainY_smul, chainV_smul]
  rw [mul_add, Finset.mul_sum, Finset.mul_sum, Finset.mul_sum, Finset.mul_sum, Finset.mul_sum, Finset.mul_sum]
  congr 1 <;> exact Finset.sum_congr rfl fun i _ => by ring

theorem chainEnergy_cont : Continuous fun z : Fin (2 * N) → ℝ => chainEnergy z := by
  have hY : ∀ i, Continuous fun z : Fin (2 * N) → ℝ => chainY z i := by
    intro i
    unfold chainY
    split_ifs
    · exact continuous_apply _
    · exact continuous_const
  have hV : ∀ i, Continuous fun z : Fin (2 * N) → ℝ => chainV z i := by
    intro i
    unfold chainV
    split_ifs
    · exact continuous_apply _
    · exact continuous_const
  unfold chainEnergy
  exact (continuous_const.mul (continuous_finset_sum _ fun i _ => (hV _).pow 2)).add
    (continuous_const.mul (continuous_finset_sum _ fun i _ => ((hY _).sub (hY _)).pow 2))

theorem energy_contract (A : Matrix (Fin (2 * N)) (Fin (2 * N)) ℝ)
    (h : ∀ z, z ≠ 0 → chainEnergy (A *ᵥ z) < chainEnergy z) :
    ∃ ρ : ℝ, 0 ≤ ρ ∧ ρ < 1 ∧ ∀ z, chainEnergy (A *ᵥ z) ≤ ρ * chainEnergy z := by
  by_cases hN : N = 0
  · subst hN
    refine ⟨0, le_rfl, zero_lt_one, fun z => ?_⟩
    have h0 : A *ᵥ z = 0 := funext fun i => absurd i.2 (by omega)
    rw [h0]
    unfold chainEnergy chainV chainY
    simp
  · haveI : Nonempty (Fin (2 * N)) := ⟨⟨0, by omega⟩⟩
    have hcomp : IsCompact (Metric.sphere (0 : Fin (2 * N) → ℝ) 1) := isCompact_sphere 0 1
    have hne : (Metric.sphere (0 : Fin (2 * N) → ℝ) 1).Nonempty := NormedSpace.sphere_nonempty.2 zero_le_one
    have hnz : ∀ z ∈ Metric.sphere (0 : Fin (2 * N) → ℝ) 1, z ≠ 0 := by
      rintro z hz rfl
      simp at hz
    have hpos : ∀ z : Fin (2 * N) → ℝ, z ≠ 0 → 0 < chainEnergy z := fun z hz =>
      lt_of_le_of_ne (chainEnergy_nonneg z) fun h' => hz (chainEnergy_eq_zero z h'.symm)
    have hcont : ContinuousOn (fun z => chainEnergy (A *ᵥ z) / chainEnergy z) (Metric.sphere (0 : Fin (2 * N) → ℝ) 1) := by
      refine ContinuousOn.div ?_ chainEnergy_cont.continuousOn fun z hz => (hpos z (hnz z hz)).ne'
      exact (chainEnergy_cont.comp (Continuous.matrix_mulVec continuous_const continuous_id)).continuousOn
    obtain ⟨y, hy, hmax⟩ := hcomp.exists_isMaxOn hne hcont
    refine ⟨chainEnergy (A *ᵥ y) / chainEnergy y, div_nonneg (chainEnergy_nonneg _) (chainEnergy_nonneg _), ?_, fun z => ?_⟩
    · rw [div_lt_one (hpos y (hnz y hy))]
      exact h y (hnz y hy)
    · by_cases hz : z = 0
      · subst hz
        rw [mulVec_zero]
        have : chainEnergy (0 : Fin (2 * N) → ℝ) = 0 := by unfold chainEnergy chainV chainY; simp
        rw [this, mul_zero]
      · have hn : ‖z‖ ≠ 0 := norm_ne_zero_iff.2 hz
        have hw : ‖z‖⁻¹ • z ∈ Metric.sphere (0 : Fin (2 * N) → ℝ) 1 := by
          rw [mem_sphere_zero_iff_norm, norm_smul, norm_inv, norm_norm, inv_mul_cancel₀ hn]
        have := hmax hw
        simp only [Set.mem_setOf_eq] at this
        rw [mulVec_smul, chainEnergy_smul, chainEnergy_smul, mul_div_mul_left _ _ (pow_ne_zero 2 (inv_ne_zero hn)),
          div_le_iff₀ (hpos z hz)] at this
        exact this

end Verif
