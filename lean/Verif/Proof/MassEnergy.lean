import Verif.Proof.MassModel
import Verif.Props.Disc
import Mathlib.Analysis.Calculus.MeanValue

/-! Helper lemmas for the chain of masses: motions, sampling and energy. -/

namespace Verif

open Matrix

variable {K : Type} [Field K] {N : ℕ}

theorem chain_parts (a b : ℕ → K) : ∀ N, ∑ i ∈ Finset.range N, a (i + 1) * (b i - 2 * b (i + 1) + b (i + 2)) +
    ∑ i ∈ Finset.range N, (b (i + 1) - b i) * (a (i + 1) - a i) = a N * (b (N + 1) - b N) - a 0 * (b 1 - b 0)
  | 0 => by simp
  | N + 1 => by
    rw [Finset.sum_range_succ, Finset.sum_range_succ]
    have := chain_parts a b N
    linear_combination this

theorem chain_parts_wall (a b : ℕ → K) (N : ℕ) (h0 : a 0 = 0) (hN : a (N + 1) = 0) :
    ∑ i ∈ Finset.range N, a (i + 1) * (b i - 2 * b (i + 1) + b (i + 2)) =
      - ∑ i ∈ Finset.range (N + 1), (b (i + 1) - b i) * (a (i + 1) - a i) := by
  have := chain_parts a b N
  rw [Finset.sum_range_succ, h0, hN] at *
  linear_combination this

theorem chainY_wall (x : Fin (2 * N) → K) (i : ℕ) (h : i = 0 ∨ N < i) : chainY x i = 0 := by
  unfold chainY
  rw [dif_neg (by omega)]

theorem chainV_wall (x : Fin (2 * N) → K) (i : ℕ) (h : i = 0 ∨ N < i) : chainV x i = 0 := by
  unfold chainV
  rw [dif_neg (by omega)]

theorem motion_iff (dt : ℝ) (u : Fin 2 → ℝ) (x : ℝ → Fin (2 * N) → ℝ) :
    ChainMotion dt u x ↔
      ∀ t ∈ Set.Icc 0 dt, ∀ i, HasDerivAt (fun s => x s i) ((massFc N *ᵥ x t + massLc N *ᵥ u) i) t := by
  have hY : ∀ (z : Fin (2 * N) → ℝ) (i : ℕ) (h1 : 1 ≤ i) (h2 : i ≤ N), chainY z i = z ⟨2 * (i - 1), by omega⟩ :=
    fun z i h1 h2 => dif_pos ⟨h1, h2⟩
  have hV : ∀ (z : Fin (2 * N) → ℝ) (i : ℕ) (h1 : 1 ≤ i) (h2 : i ≤ N), chainV z i = z ⟨2 * (i - 1) + 1, by omega⟩ :=
    fun z i h1 h2 => dif_pos ⟨h1, h2⟩
  constructor
  · intro h t ht r
    have hr := r.2
    rcases Nat.even_or_odd' r.val with ⟨j, hj | hj⟩
    · obtain ⟨h1, -⟩ := h t ht (j + 1) (by omega) (by omega)
      have e : r = ⟨2 * (j + 1 - 1), by omega⟩ := Fin.ext (by simp only []; omega)
      rw [e, massFc_pos _ _ (j + 1) (by omega) (by omega)]
      simpa only [hY _ (j + 1) (show 1 ≤ j + 1 by omega) (show j + 1 ≤ N by omega)] using h1
    · obtain ⟨-, h1⟩ := h t ht (j + 1) (by omega) (by omega)
      have e : r = ⟨2 * (j + 1 - 1) + 1, by omega⟩ := Fin.ext (by simp only []; omega)
      rw [e, massFc_vel _ _ (j + 1) (by omega) (by omega)]
      simpa only [hV _ (j + 1) (show 1 ≤ j + 1 by omega) (show j + 1 ≤ N by omega)] using h1
  · intro h t ht i h1 h2
    have a := h t ht ⟨2 * (i - 1), by omega⟩
    have b := h t ht ⟨2 * (i - 1) + 1, by omega⟩
    rw [massFc_pos _ _ i h1 h2] at a
    rw [massFc_vel _ _ i h1 h2] at b
    simp only [hY _ i h1 h2, hV _ i h1 h2] at *
    exact ⟨a, b⟩

theorem step_iff (dt : ℝ) (hdt : 0 ≤ dt) (u : Fin 2 → ℝ) (z z' : Fin (2 * N) → ℝ) :
    ChainStep dt u z z' ↔ z' = discA (massFc N) dt *ᵥ z + discB (massFc N) (massLc N) dt *ᵥ u := by
  constructor
  · rintro ⟨x, rfl, rfl, h⟩
    exact zoh_solution _ _ u x dt hdt ((motion_iff dt u x).1 h)
  · rintro rfl
    refine ⟨fun t => discA (massFc N) t *ᵥ z + discB (massFc N) (massLc N) t *ᵥ u, ?_, rfl, ?_⟩
    · simp only [discA_zero, discB_zero, one_mulVec, zero_mulVec, add_zero]
    · rw [motion_iff]
      intro t _ i
      have h1 : HasDerivAt (fun s => (discA (massFc N) s *ᵥ z) i) (((massFc N * discA (massFc N) t) *ᵥ z) i) t := by
        simp only [mulVec, dotProduct]
        exact HasDerivAt.fun_sum fun j _ => (discA_deriv (massFc N) t i j).mul_const _
      have h2 : HasDerivAt (fun s => (discB (massFc N) (massLc N) s *ᵥ u) i)
          (((massFc N * discB (massFc N) (massLc N) t + massLc N) *ᵥ u) i) t := by
        simp only [mulVec, dotProduct]
        exact HasDerivAt.fun_sum fun j _ => (discB_deriv (massFc N) (massLc N) t i j).mul_const _
      refine (h1.add h2).congr_deriv ?_
      rw [mulVec_add, add_mulVec, mulVec_mulVec, mulVec_mulVec]
      simp only [Pi.add_apply]
      ring

theorem energy_deriv (dt : ℝ) (u : Fin 2 → ℝ) (x : ℝ → Fin (2 * N) → ℝ) (h : ChainMotion dt u x) (t : ℝ)
    (ht : t ∈ Set.Icc 0 dt) :
    HasDerivAt (fun s => chainEnergy (x s)) (u 0 * chainV (x t) 1 - u 1 * chainV (x t) N -
      (1 / 5) * ∑ i ∈ Finset.range (N + 1), (chainV (x t) (i + 1) - chainV (x t) i) ^ 2) t := by
  have hY : ∀ i, HasDerivAt (fun s => chainY (x s) i) (chainV (x t) i) t := by
    intro i
    by_cases hi : 1 ≤ i ∧ i ≤ N
    · exact (h t ht i hi.1 hi.2).1
    · simp only [chainY_wall _ i (show i = 0 ∨ N < i by omega), chainV_wall _ i (show i = 0 ∨ N < i by omega)]
      exact hasDerivAt_const t 0
  have hk : HasDerivAt (fun s => ∑ i ∈ Finset.range N, chainV (x s) (i + 1) ^ 2)
      (∑ i ∈ Finset.range N, 2 * chainV (x t) (i + 1) * chainAcc (x t) u (i + 1)) t := by
    refine HasDerivAt.fun_sum fun i hi => ?_
    have := (h t ht (i + 1) (by omega) (by have := Finset.mem_range.1 hi; omega)).2.pow 2
    refine this.congr_deriv ?_
    simp
  have he : HasDerivAt (fun s => ∑ i ∈ Finset.range (N + 1), (chainY (x s) (i + 1) - chainY (x s) i) ^ 2)
      (∑ i ∈ Finset.range (N + 1), 2 * (chainY (x t) (i + 1) - chainY (x t) i) * (chainV (x t) (i + 1) - chainV (x t) i)) t := by
    refine HasDerivAt.fun_sum fun i hi => ?_
    have := ((hY (i + 1)).sub (hY i)).pow 2
    refine this.congr_deriv ?_
    simp
  unfold chainEnergy
  refine ((hk.const_mul (1 / 2)).add (he.const_mul (1 / 2))).congr_deriv ?_
  have p1 := chain_parts_wall (chainV (x t)) (chainY (x t)) N (chainV_wall _ _ (by omega)) (chainV_wall _ _ (by omega))
  have p2 := chain_parts_wall (chainV (x t)) (chainV (x t)) N (chainV_wall _ _ (by omega)) (chainV_wall _ _ (by omega))
  have hu : ∑ i ∈ Finset.range N, chainV (x t) (i + 1) * ((if i + 1 = 1 then u 0 else 0) - (if i + 1 = N then u 1 else 0)) =
      u 0 * chainV (x t) 1 - u 1 * chainV (x t) N := by
    simp only [mul_sub, Finset.sum_sub_distrib]
    congr 1
    · by_cases hN : N = 0
      · rw [chainV_wall _ 1 (by omega)]; subst hN; simp
      · rw [Finset.sum_eq_single 0]
        · simp; ring
        · intro b _ hb; rw [if_neg (by omega), mul_zero]
        · intro h'; exact absurd (Finset.mem_range.2 (by omega)) h'
    · by_cases hN : N = 0
      · rw [chainV_wall _ N (by omega)]; subst hN; simp
      · rw [Finset.sum_eq_single (N - 1)]
        · rw [if_pos (by omega), show N - 1 + 1 = N by omega]; ring
        · intro b _ hb; rw [if_neg (by omega), mul_zero]
        · intro h'; exact absurd (Finset.mem_range.2 (by omega)) h'
  have hs : ∑ i ∈ Finset.range N, 2 * chainV (x t) (i + 1) * chainAcc (x t) u (i + 1) =
      2 * (∑ i ∈ Finset.range N, chainV (x t) (i + 1) * (chainY (x t) i - 2 * chainY (x t) (i + 1) + chainY (x t) (i + 2))) +
      2 * (1 / 5) * (∑ i ∈ Finset.range N, chainV (x t) (i + 1) * (chainV (x t) i - 2 * chainV (x t) (i + 1) + chainV (x t) (i + 2))) +
      2 * (u 0 * chainV (x t) 1 - u 1 * chainV (x t) N) := by
    rw [← hu, Finset.mul_sum, Finset.mul_sum, Finset.mul_sum, ← Finset.sum_add_distrib, ← Finset.sum_add_distrib]
    refine Finset.sum_congr rfl fun i _ => ?_
    unfold chainAcc
    simp only [add_tsub_cancel_right]
    ring
  have he2 : ∑ i ∈ Finset.range (N + 1), 2 * (chainY (x t) (i + 1) - chainY (x t) i) * (chainV (x t) (i + 1) - chainV (x t) i) =
      2 * ∑ i ∈ Finset.range (N + 1), (chainY (x t) (i + 1) - chainY (x t) i) * (chainV (x t) (i + 1) - chainV (x t) i) := by
    rw [Finset.mul_sum]
    exact Finset.sum_congr rfl fun i _ => by ring
  have he3 : ∑ i ∈ Finset.range (N + 1), (chainV (x t) (i + 1) - chainV (x t) i) ^ 2 =
      ∑ i ∈ Finset.range (N + 1), (chainV (x t) (i + 1) - chainV (x t) i) * (chainV (x t) (i + 1) - chainV (x t) i) :=
    Finset.sum_congr rfl fun i _ => by ring
  rw [hs, he2, he3, p1, p2]
  ring

end Verif
