import Verif.Proof.SQPLoop
import Mathlib.Analysis.Calculus.LineDeriv.Basic
import Mathlib.Analysis.SpecificLimits.Basic

/-! The direction of the quadratic program decreases the merit function. -/

namespace Verif

open Matrix Filter Topology

variable {n m : ℕ}

theorem line_expand {E : Type} [NormedAddCommGroup E] [NormedSpace ℝ E] {f : E → ℝ} {f' : ℝ} {x p : E}
    (h : HasLineDerivAt ℝ f f' x p) {ε : ℝ} (hε : 0 < ε) : ∀ᶠ t in 𝓝 (0 : ℝ), |f (x + t • p) - f x - t * f'| ≤ ε * |t| := by
  have h1 := (hasDerivAt_iff_isLittleO.1 h).def hε
  filter_upwards [h1] with t ht
  simpa using ht

/-- Slope of the merit function along the direction. -/
theorem dir_slope {B : Matrix (Fin n) (Fin n) ℝ} {g : Fin n → ℝ} {A : Matrix (Fin m) (Fin n) ℝ} {c : Fin m → ℝ} {p : Fin n → ℝ}
    {lam : Fin m → ℝ} (h : lqeSolve B g A (-c) = .ok (p, lam)) (hl : ∀ i, |lam i| ≤ 1) :
    g ⬝ᵥ p - ∑ i, |c i| ≤ -(p ⬝ᵥ B *ᵥ p) := by
  obtain ⟨-, h1, h2⟩ := lqeSolve_ok.1 h
  dsimp only at h1 h2
  have h3 : g ⬝ᵥ p = -(p ⬝ᵥ B *ᵥ p) - lam ⬝ᵥ c := by
    have : p ⬝ᵥ (B *ᵥ p + g) = p ⬝ᵥ Aᵀ *ᵥ lam := by rw [h2]
    rw [dotProduct_add, dot_symm Aᵀ, transpose_transpose, h1, dotProduct_neg] at this
    rw [dotProduct_comm g p]
    linarith
  have h4 : -(lam ⬝ᵥ c) ≤ ∑ i, |c i| := by
    rw [dotProduct, ← Finset.sum_neg_distrib]
    apply Finset.sum_le_sum
    intro i _
    calc -(lam i * c i) ≤ |lam i * c i| := neg_le_abs _
      _ = |lam i| * |c i| := abs_mul _ _
      _ ≤ 1 * |c i| := mul_le_mul_of_nonneg_right (hl i) (abs_nonneg _)
      _ = |c i| := one_mul _
  linarith

theorem merit_decreases (P : NLP n m ℝ) (x p : Fin n → ℝ) (hp : P.dcon x *ᵥ p = -P.con x)
    (hf : HasLineDerivAt ℝ P.obj (P.dfun x ⬝ᵥ p) x p)
    (hc : ∀ i, HasLineDerivAt ℝ (fun y => P.con y i) ((P.dcon x *ᵥ p) i) x p)
    (hs : P.dfun x ⬝ᵥ p - ∑ i, |P.con x i| < 0) :
    ∀ᶠ t in 𝓝[>] (0 : ℝ), P.merit (x + t • p) 1 < P.merit x 1 := by
  obtain ⟨δ, hδ⟩ : ∃ δ, δ = -(P.dfun x ⬝ᵥ p - ∑ i, |P.con x i|) := ⟨_, rfl⟩
  have hδ0 : 0 < δ := by linarith
  obtain ⟨ε, hε⟩ : ∃ ε : ℝ, ε = δ / (2 * (m + 1)) := ⟨_, rfl⟩
  have hm : (0 : ℝ) < 2 * (m + 1) := by positivity
  have hε0 : 0 < ε := by rw [hε]; positivity
  have h1 := line_expand hf hε0
  have h2 : ∀ᶠ t in 𝓝 (0 : ℝ), ∀ i, |P.con (x + t • p) i - P.con x i - t * (P.dcon x *ᵥ p) i| ≤ ε * |t| :=
    eventually_all.2 fun i => line_expand (hc i) hε0
  have h3 : ∀ᶠ t : ℝ in 𝓝 0, t < 1 := eventually_lt_nhds one_pos
  filter_upwards [nhdsWithin_le_nhds h1, nhdsWithin_le_nhds h2, nhdsWithin_le_nhds h3, self_mem_nhdsWithin] with t k1 k2 k3 k4
  have k4' : 0 < t := k4
  rw [abs_of_pos k4'] at k1
  have k5 : ∀ i, |P.con (x + t • p) i| ≤ (1 - t) * |P.con x i| + ε * t := by
    intro i
    have := k2 i
    rw [hp, abs_of_pos k4'] at this
    have e : P.con (x + t • p) i = (1 - t) * P.con x i + (P.con (x + t • p) i - P.con x i - t * (-P.con x) i) := by
      simp only [Pi.neg_apply]; ring
    rw [e]
    refine (abs_add_le _ _).trans (add_le_add ?_ this)
    rw [abs_mul, abs_of_pos (by linarith : (0 : ℝ) < 1 - t)]
  have k6 : ∑ i, |P.con (x + t • p) i| ≤ (1 - t) * ∑ i, |P.con x i| + m * (ε * t) := by
    refine (Finset.sum_le_sum fun i _ => k5 i).trans ?_
    rw [Finset.sum_add_distrib, ← Finset.mul_sum]
    simp
  have k7 : P.obj (x + t • p) ≤ P.obj x + t * (P.dfun x ⬝ᵥ p) + ε * t := by
    have := (abs_le.1 k1).2
    linarith
  have k8 : (m + 1) * ε = δ / 2 := by rw [hε]; field_simp
  unfold NLP.merit
  rw [div_one, div_one]
  have : t * (P.dfun x ⬝ᵥ p) - t * ∑ i, |P.con x i| = -(t * δ) := by rw [hδ]; ring
  nlinarith [mul_pos k4' hδ0]

theorem half_eventually {p : ℝ → Prop} (h : ∀ᶠ t in 𝓝[>] (0 : ℝ), p t) : ∃ N : ℕ, ∀ i ≥ N, p ((1 / 2 : ℝ) ^ i) := by
  have ht : Tendsto (fun i : ℕ => (1 / 2 : ℝ) ^ i) atTop (𝓝[>] 0) := by
    rw [tendsto_nhdsWithin_iff]
    exact ⟨tendsto_pow_atTop_nhds_zero_of_lt_one (by norm_num) (by norm_num),
      Eventually.of_forall fun i => by simp⟩
  exact eventually_atTop.1 (ht.eventually h)

end Verif
