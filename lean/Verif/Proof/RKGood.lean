import Verif.Proof.RKConv
import Mathlib.Analysis.Matrix.Normed
import Mathlib.Data.Matrix.Mul
import Mathlib.Analysis.Normed.Module.FiniteDimension

/-! Right hand sides composed of continuous matrices and of the state by sums and products satisfy `GoodRhs`. -/

namespace Verif

open Set Matrix

attribute [local instance] Matrix.normedAddCommGroup Matrix.normedSpace

variable {E : Type} [NormedAddCommGroup E] [NormedSpace ℝ E] {a b : ℝ}

/-- A real function of the state and of time that is continuous, and bounded and Lipschitz on bounded sets. -/
structure RG (a b : ℝ) (φ : E → ℝ → ℝ) : Prop where
  cont : ContinuousOn (fun p : E × ℝ => φ p.1 p.2) (univ ×ˢ Icc a b)
  lip : ∀ R : ℝ, ∃ Λ B : ℝ, 0 ≤ Λ ∧ 0 ≤ B ∧ ∀ t ∈ Icc a b, (∀ x, ‖x‖ ≤ R → |φ x t| ≤ B) ∧
    ∀ x x', ‖x‖ ≤ R → ‖x'‖ ≤ R → |φ x t - φ x' t| ≤ Λ * ‖x - x'‖

theorem RG.time {φ : ℝ → ℝ} (h : ContinuousOn φ (Icc a b)) : RG a b (fun (_ : E) t => φ t) := by
  refine ⟨h.comp continuousOn_snd fun p hp => hp.2, fun R => ?_⟩
  obtain ⟨B, hB⟩ := isCompact_Icc.exists_bound_of_continuousOn h
  exact ⟨0, max B 0, le_rfl, le_max_right _ _, fun t ht => ⟨fun x _ => (hB t ht).trans (le_max_left _ _), fun x x' _ _ => by simp⟩⟩

theorem RG.const (c : ℝ) : RG a b (fun (_ : E) _ => c) := RG.time continuousOn_const

theorem RG.state {ℓ : E → ℝ} (hs : ∀ x y, ℓ (x - y) = ℓ x - ℓ y) (hb : ∀ x, |ℓ x| ≤ ‖x‖) : RG a b (fun x _ => ℓ x) := by
  have hL : LipschitzWith 1 ℓ := LipschitzWith.of_dist_le_mul fun x y => by
    rw [Real.dist_eq, ← hs, dist_eq_norm, NNReal.coe_one, one_mul]
    exact hb _
  refine ⟨(hL.continuous.comp continuous_fst).continuousOn, fun R => ⟨1, max R 0, zero_le_one, le_max_right _ _, fun t _ =>
    ⟨fun x hx => (hb x).trans (hx.trans (le_max_left _ _)), fun x x' _ _ => ?_⟩⟩⟩
  rw [← hs, one_mul]
  exact hb _

theorem RG.add {φ ψ : E → ℝ → ℝ} (h1 : RG a b φ) (h2 : RG a b ψ) : RG a b (fun x t => φ x t + ψ x t) := by
  refine ⟨h1.cont.add h2.cont, fun R => ?_⟩
  obtain ⟨Λ1, B1, a1, b1, c1⟩ := h1.lip R
  obtain ⟨Λ2, B2, a2, b2, c2⟩ := h2.lip R
  refine ⟨Λ1 + Λ2, B1 + B2, by positivity, by positivity, fun t ht => ⟨fun x hx => ?_, fun x x' hx hx' => ?_⟩⟩
  · exact (abs_add_le _ _).trans (add_le_add ((c1 t ht).1 x hx) ((c2 t ht).1 x hx))
  · have : φ x t + ψ x t - (φ x' t + ψ x' t) = (φ x t - φ x' t) + (ψ x t - ψ x' t) := by ring
    rw [this, add_mul]
    exact (abs_add_le _ _).trans (add_le_add ((c1 t ht).2 x x' hx hx') ((c2 t ht).2 x x' hx hx'))

theorem RG.mul {φ ψ : E → ℝ → ℝ} (h1 : RG a b φ) (h2 : RG a b ψ) : RG a b (fun x t => φ x t * ψ x t) := by
  refine ⟨h1.cont.mul h2.cont, fun R => ?_⟩
  obtain ⟨Λ1, B1, a1, b1, c1⟩ := h1.lip R
  obtain ⟨Λ2, B2, a2, b2, c2⟩ := h2.lip R
  refine ⟨Λ1 * B2 + B1 * Λ2, B1 * B2, by positivity, by positivity, fun t ht => ⟨fun x hx => ?_, fun x x' hx hx' => ?_⟩⟩
  · rw [abs_mul]
    exact mul_le_mul ((c1 t ht).1 x hx) ((c2 t ht).1 x hx) (abs_nonneg _) b1
  · have : φ x t * ψ x t - φ x' t * ψ x' t = (φ x t - φ x' t) * ψ x t + φ x' t * (ψ x t - ψ x' t) := by ring
    rw [this]
    refine (abs_add_le _ _).trans ?_
    rw [abs_mul, abs_mul]
    have e1 : |φ x t - φ x' t| * |ψ x t| ≤ (Λ1 * ‖x - x'‖) * B2 :=
      mul_le_mul ((c1 t ht).2 x x' hx hx') ((c2 t ht).1 x hx) (abs_nonneg _) (by positivity)
    have e2 : |φ x' t| * |ψ x t - ψ x' t| ≤ B1 * (Λ2 * ‖x - x'‖) :=
      mul_le_mul ((c1 t ht).1 x' hx') ((c2 t ht).2 x x' hx hx') (abs_nonneg _) b1
    nlinarith

theorem RG.neg {φ : E → ℝ → ℝ} (h : RG a b φ) : RG a b (fun x t => -φ x t) := by
  simpa using (RG.const (-1)).mul h

theorem RG.sub {φ ψ : E → ℝ → ℝ} (h1 : RG a b φ) (h2 : RG a b ψ) : RG a b (fun x t => φ x t - ψ x t) := by
  simpa [sub_eq_add_neg] using h1.add h2.neg

theorem RG.sum {ι : Type} (s : Finset ι) {φ : ι → E → ℝ → ℝ} (h : ∀ i ∈ s, RG a b (φ i)) : RG a b (fun x t => ∑ i ∈ s, φ i x t) := by
  classical
  induction s using Finset.induction_on with
  | empty => simpa using RG.const 0
  | insert i s hi ih =>
    simp only [Finset.sum_insert hi]
    exact (h i (Finset.mem_insert_self _ _)).add (ih fun j hj => h j (Finset.mem_insert_of_mem hj))

/-- Reflection of time. -/
theorem RG.reflect {φ : E → ℝ → ℝ} (h : RG a b φ) (c : ℝ) : RG (c - b) (c - a) (fun x t => φ x (c - t)) := by
  have hm : ∀ {t : ℝ}, t ∈ Icc (c - b) (c - a) → c - t ∈ Icc a b := fun ht => ⟨by linarith [ht.2], by linarith [ht.1]⟩
  refine ⟨?_, fun R => ?_⟩
  · exact h.cont.comp (f := fun p : E × ℝ => (p.1, c - p.2)) (by fun_prop) fun p hp => ⟨mem_univ _, hm hp.2⟩
  · obtain ⟨Λ, B, h1, h2, h3⟩ := h.lip R
    exact ⟨Λ, B, h1, h2, fun t ht => h3 _ (hm ht)⟩

/-- Matrices with such entries. -/
def GM {p q : ℕ} (a b : ℝ) (M : E → ℝ → Matrix (Fin p) (Fin q) ℝ) : Prop := ∀ i j, RG a b (fun x t => M x t i j)

/-- Vectors with such entries. -/
def GV {p : ℕ} (a b : ℝ) (v : E → ℝ → Fin p → ℝ) : Prop := ∀ i, RG a b (fun x t => v x t i)

variable {p q r : ℕ}

theorem GM.time {M : ℝ → Matrix (Fin p) (Fin q) ℝ} (h : ∀ i j, ContinuousOn (fun t => M t i j) (Icc a b)) :
    GM a b (fun (_ : E) t => M t) := fun i j => RG.time (h i j)

theorem GV.time {v : ℝ → Fin p → ℝ} (h : ∀ i, ContinuousOn (fun t => v t i) (Icc a b)) : GV a b (fun (_ : E) t => v t) :=
  fun i => RG.time (h i)

theorem GM.add {M N : E → ℝ → Matrix (Fin p) (Fin q) ℝ} (h1 : GM a b M) (h2 : GM a b N) : GM a b (fun x t => M x t + N x t) :=
  fun i j => (h1 i j).add (h2 i j)

theorem GM.sub {M N : E → ℝ → Matrix (Fin p) (Fin q) ℝ} (h1 : GM a b M) (h2 : GM a b N) : GM a b (fun x t => M x t - N x t) :=
  fun i j => (h1 i j).sub (h2 i j)

theorem GM.neg {M : E → ℝ → Matrix (Fin p) (Fin q) ℝ} (h : GM a b M) : GM a b (fun x t => -M x t) := fun i j => (h i j).neg

theorem GM.transpose {M : E → ℝ → Matrix (Fin p) (Fin q) ℝ} (h : GM a b M) : GM a b (fun x t => (M x t)ᵀ) := fun i j => h j i

theorem GM.mul {M : E → ℝ → Matrix (Fin p) (Fin q) ℝ} {N : E → ℝ → Matrix (Fin q) (Fin r) ℝ} (h1 : GM a b M) (h2 : GM a b N) :
    GM a b (fun x t => M x t * N x t) := fun i j => by
  simp only [Matrix.mul_apply]
  exact RG.sum _ fun k _ => (h1 i k).mul (h2 k j)

theorem GM.mulVec {M : E → ℝ → Matrix (Fin p) (Fin q) ℝ} {v : E → ℝ → Fin q → ℝ} (h1 : GM a b M) (h2 : GV a b v) :
    GV a b (fun x t => M x t *ᵥ v x t) := fun i => by
  simp only [Matrix.mulVec, dotProduct]
  exact RG.sum _ fun k _ => (h1 i k).mul (h2 k)

theorem GV.add {v w : E → ℝ → Fin p → ℝ} (h1 : GV a b v) (h2 : GV a b w) : GV a b (fun x t => v x t + w x t) :=
  fun i => (h1 i).add (h2 i)

theorem GV.sub {v w : E → ℝ → Fin p → ℝ} (h1 : GV a b v) (h2 : GV a b w) : GV a b (fun x t => v x t - w x t) :=
  fun i => (h1 i).sub (h2 i)

theorem GV.neg {v : E → ℝ → Fin p → ℝ} (h : GV a b v) : GV a b (fun x t => -v x t) := fun i => (h i).neg

/-- Entries of the state. -/
theorem RG.entry (i : Fin p) (j : Fin q) : RG a b (fun (x : Matrix (Fin p) (Fin q) ℝ) _ => x i j) :=
  RG.state (fun _ _ => rfl) fun x => by
    have := Matrix.norm_entry_le_entrywise_sup_norm x (i := i) (j := j)
    rwa [Real.norm_eq_abs] at this

theorem RG.vecEntry (i : Fin p) : RG a b (fun (x : Fin p → ℝ) _ => x i) :=
  RG.state (fun _ _ => rfl) fun x => by
    have := norm_le_pi_norm x i
    rwa [Real.norm_eq_abs] at this

/-- Uniform constants for finitely many functions. -/
theorem RG.uniform {ι : Type} (s : Finset ι) {φ : ι → E → ℝ → ℝ} (h : ∀ i ∈ s, RG a b (φ i)) (R : ℝ) :
    ∃ Λ : ℝ, 0 ≤ Λ ∧ ∀ i ∈ s, ∀ t ∈ Icc a b, ∀ x x', ‖x‖ ≤ R → ‖x'‖ ≤ R → |φ i x t - φ i x' t| ≤ Λ * ‖x - x'‖ := by
  classical
  induction s using Finset.induction_on with
  | empty => exact ⟨0, le_rfl, by simp⟩
  | insert i s hi ih =>
    obtain ⟨Λ1, h1, h2⟩ := ih fun j hj => h j (Finset.mem_insert_of_mem hj)
    obtain ⟨Λ2, B, h3, -, h4⟩ := (h i (Finset.mem_insert_self _ _)).lip R
    refine ⟨max Λ1 Λ2, le_max_of_le_left h1, fun j hj t ht x x' hx hx' => ?_⟩
    rcases Finset.mem_insert.1 hj with rfl | hj
    · exact ((h4 t ht).2 x x' hx hx').trans (mul_le_mul_of_nonneg_right (le_max_right _ _) (norm_nonneg _))
    · exact (h2 j hj t ht x x' hx hx').trans (mul_le_mul_of_nonneg_right (le_max_left _ _) (norm_nonneg _))

theorem GM.rhs {f : Matrix (Fin p) (Fin q) ℝ → ℝ → Matrix (Fin p) (Fin q) ℝ} (h : GM a b f) : GoodRhs f a b := by
  refine ⟨?_, fun R => ?_⟩
  · exact continuousOn_pi.2 fun i => continuousOn_pi.2 fun j => (h i j).cont
  · obtain ⟨Λ, h1, h2⟩ := RG.uniform (Finset.univ : Finset (Fin p × Fin q)) (φ := fun ij x t => f x t ij.1 ij.2) (fun ij _ => h ij.1 ij.2) R
    refine ⟨Λ, h1, fun t ht x x' hx hx' => ?_⟩
    rw [Matrix.norm_le_iff (by positivity)]
    exact fun i j => h2 (i, j) (Finset.mem_univ _) t ht x x' hx hx'

theorem GV.rhs {f : (Fin p → ℝ) → ℝ → Fin p → ℝ} (h : GV a b f) : GoodRhs f a b := by
  refine ⟨?_, fun R => ?_⟩
  · exact continuousOn_pi.2 fun i => (h i).cont
  · obtain ⟨Λ, h1, h2⟩ := RG.uniform (Finset.univ : Finset (Fin p)) (φ := fun i x t => f x t i) (fun i _ => h i) R
    refine ⟨Λ, h1, fun t ht x x' hx hx' => ?_⟩
    rw [pi_norm_le_iff_of_nonneg (by positivity)]
    exact fun i => h2 i (Finset.mem_univ _) t ht x x' hx hx'

/-- The reflected right hand side. -/
theorem GoodRhs.reflect {f : E → ℝ → E} (h : GoodRhs f a b) (c : ℝ) : GoodRhs (fun x t => -f x (c - t)) (c - b) (c - a) := by
  have hm : ∀ {t : ℝ}, t ∈ Icc (c - b) (c - a) → c - t ∈ Icc a b := fun ht => ⟨by linarith [ht.2], by linarith [ht.1]⟩
  refine ⟨?_, fun R => ?_⟩
  · exact (h.cont.comp (f := fun p : E × ℝ => (p.1, c - p.2)) (by fun_prop) fun p hp => ⟨mem_univ _, hm hp.2⟩).neg
  · obtain ⟨Λ, h1, h2⟩ := h.lip R
    refine ⟨Λ, h1, fun t ht x x' hx hx' => ?_⟩
    have : -f x (c - t) - -f x' (c - t) = -(f x (c - t) - f x' (c - t)) := by abel
    rw [this, norm_neg]
    exact h2 _ (hm ht) x x' hx hx'

end Verif
