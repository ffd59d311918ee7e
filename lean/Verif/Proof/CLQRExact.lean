import Verif.Spec.CLQR
import Verif.Proof.Disc
import Verif.Proof.CLQTOpt
import Verif.Proof.CLQTFwdBwd
import Verif.Proof.TextModel
import Mathlib.Analysis.SpecialFunctions.ExpDeriv

/-! The matrix fraction solution of the Riccati equation. -/

namespace Verif

open Matrix

variable {n m : ℕ}

/-- The matrix fraction at time-to-go `s`. -/
noncomputable def CLQR.frac (P : CLQR n m ℝ) (G S : Matrix (Fin n) (Fin n) ℝ) (s : ℝ) : Matrix (Fin n ⊕ Fin n) (Fin n) ℝ :=
  NormedSpace.exp ((-s) • P.ham G) * fromRows 1 S

noncomputable def CLQR.num (P : CLQR n m ℝ) (G S : Matrix (Fin n) (Fin n) ℝ) (s : ℝ) : Matrix (Fin n) (Fin n) ℝ :=
  (P.frac G S s).toRows₂

noncomputable def CLQR.den (P : CLQR n m ℝ) (G S : Matrix (Fin n) (Fin n) ℝ) (s : ℝ) : Matrix (Fin n) (Fin n) ℝ :=
  (P.frac G S s).toRows₁

theorem frac_eq (P : CLQR n m ℝ) (G S : Matrix (Fin n) (Fin n) ℝ) (s : ℝ) : P.frac G S s = fromRows (P.den G S s) (P.num G S s) :=
  (fromRows_toRows _).symm

theorem frac_zero (P : CLQR n m ℝ) (G S : Matrix (Fin n) (Fin n) ℝ) : P.frac G S 0 = fromRows 1 S := by
  rw [CLQR.frac, neg_zero, exp_zero_smul, Matrix.one_mul]

theorem den_zero (P : CLQR n m ℝ) (G S : Matrix (Fin n) (Fin n) ℝ) : P.den G S 0 = 1 := by
  rw [CLQR.den, frac_zero, toRows₁_fromRows]

theorem num_zero (P : CLQR n m ℝ) (G S : Matrix (Fin n) (Fin n) ℝ) : P.num G S 0 = S := by
  rw [CLQR.num, frac_zero, toRows₂_fromRows]

theorem frac_add (P : CLQR n m ℝ) (G S : Matrix (Fin n) (Fin n) ℝ) (s r : ℝ) :
    P.frac G S (s + r) = NormedSpace.exp ((-s) • P.ham G) * P.frac G S r := by
  rw [CLQR.frac, CLQR.frac, neg_add, exp_smul_add, Matrix.mul_assoc]

theorem frac_deriv (P : CLQR n m ℝ) (G S : Matrix (Fin n) (Fin n) ℝ) (s : ℝ) (i : Fin n ⊕ Fin n) (j : Fin n) :
    HasDerivAt (fun s => P.frac G S s i j) (-(P.ham G * P.frac G S s) i j) s := by
  have h : ∀ k, HasDerivAt (fun s : ℝ => NormedSpace.exp ((-s) • P.ham G) i k * (fromRows 1 S : Matrix _ _ ℝ) k j)
      (-((P.ham G * NormedSpace.exp ((-s) • P.ham G)) i k) * (fromRows 1 S : Matrix _ _ ℝ) k j) s := by
    intro k
    have := (exp_entry_deriv (P.ham G) (-s) i k).comp s (hasDerivAt_neg s)
    rw [mul_neg_one] at this
    exact this.mul_const _
  have := HasDerivAt.fun_sum (u := Finset.univ) fun k _ => h k
  refine this.congr_deriv ?_
  rw [CLQR.frac, ← Matrix.mul_assoc, Matrix.mul_apply, ← Finset.sum_neg_distrib]
  exact Finset.sum_congr rfl fun k _ => neg_mul _ _

theorem den_deriv (P : CLQR n m ℝ) (G S : Matrix (Fin n) (Fin n) ℝ) (s : ℝ) :
    MD (P.den G S) (-(P.F * P.den G S s) + G * P.num G S s) s := by
  intro i j
  refine (frac_deriv P G S s (.inl i) j).congr_deriv ?_
  rw [frac_eq, CLQR.ham, fromBlocks_mul_fromRows]
  simp
  abel

theorem num_deriv (P : CLQR n m ℝ) (G S : Matrix (Fin n) (Fin n) ℝ) (s : ℝ) :
    MD (P.num G S) (P.X * P.den G S s + P.Fᵀ * P.num G S s) s := by
  intro i j
  refine (frac_deriv P G S s (.inr i) j).congr_deriv ?_
  rw [frac_eq, CLQR.ham, fromBlocks_mul_fromRows]
  simp
  abel

/-- `Cᵀ D` is symmetric. -/
theorem frac_symm (P : CLQR n m ℝ) {G S : Matrix (Fin n) (Fin n) ℝ} (hG : Gᵀ = G) (hX : P.Xᵀ = P.X) (hS : Sᵀ = S) {s : ℝ}
    (hs : 0 ≤ s) : (P.den G S s)ᵀ * P.num G S s = (P.num G S s)ᵀ * P.den G S s := by
  have h : ∀ t ∈ Set.Icc 0 s, MD (fun s => (P.den G S s)ᵀ * P.num G S s - (P.num G S s)ᵀ * P.den G S s) 0 t := by
    intro t _
    have := ((den_deriv P G S t).transpose.mul (num_deriv P G S t)).sub ((num_deriv P G S t).transpose.mul (den_deriv P G S t))
    refine this.congr ?_ (fun _ => rfl)
    simp only [transpose_add, transpose_neg, transpose_mul, hG, hX, transpose_transpose, Matrix.mul_add, Matrix.add_mul,
      Matrix.neg_mul, Matrix.mul_neg, Matrix.mul_assoc]
    abel
  have := MD_const_of_zero h hs
  beta_reduce at this
  rw [den_zero, num_zero, transpose_one, Matrix.one_mul, Matrix.mul_one, hS, sub_self] at this
  exact sub_eq_zero.1 this

/-- Along the flow the product `c · d` grows. -/
theorem frac_dot_deriv (P : CLQR n m ℝ) (G S : Matrix (Fin n) (Fin n) ℝ) (w : Fin n → ℝ) (s : ℝ) :
    HasDerivAt (fun s => (P.den G S s *ᵥ w) ⬝ᵥ (P.num G S s *ᵥ w))
      ((P.num G S s *ᵥ w) ⬝ᵥ G *ᵥ (P.num G S s *ᵥ w) + (P.den G S s *ᵥ w) ⬝ᵥ P.X *ᵥ (P.den G S s *ᵥ w)) s := by
  have := ((den_deriv P G S s).mulVec (VD.const (t := s) w)).dot ((num_deriv P G S s).mulVec (VD.const (t := s) w))
  refine this.congr_deriv ?_
  simp only [mulVec_zero, add_zero, add_mulVec, neg_mulVec, add_dotProduct, neg_dotProduct, dotProduct_add, ← mulVec_mulVec]
  rw [dot_symm P.Fᵀ, transpose_transpose, dotProduct_comm (P.F *ᵥ _), dotProduct_comm (G *ᵥ _)]
  ring

theorem frac_mono (P : CLQR n m ℝ) {G S : Matrix (Fin n) (Fin n) ℝ} (hG : IsPSD G) (hX : IsPSD P.X) (w : Fin n → ℝ) :
    Monotone fun s => (P.den G S s *ᵥ w) ⬝ᵥ (P.num G S s *ᵥ w) := by
  apply monotone_of_deriv_nonneg (fun s => (frac_dot_deriv P G S w s).differentiableAt)
  intro s
  rw [(frac_dot_deriv P G S w s).deriv]
  exact add_nonneg (hG.2 _) (hX.2 _)

theorem frac_nonneg (P : CLQR n m ℝ) {G S : Matrix (Fin n) (Fin n) ℝ} (hG : IsPSD G) (hX : IsPSD P.X) (hS : IsPSD S) {s : ℝ}
    (hs : 0 ≤ s) (w : Fin n → ℝ) : 0 ≤ (P.den G S s *ᵥ w) ⬝ᵥ (P.num G S s *ᵥ w) := by
  have := frac_mono P hG hX (S := S) w hs
  beta_reduce at this
  rw [den_zero, num_zero, one_mulVec] at this
  exact (hS.2 w).trans this

/-- The denominator is invertible. -/
theorem den_det (P : CLQR n m ℝ) {G S : Matrix (Fin n) (Fin n) ℝ} (hG : IsPSD G) (hX : IsPSD P.X) (hS : IsPSD S) {s : ℝ}
    (hs : 0 ≤ s) : (P.den G S s).det ≠ 0 := by
  apply det_ne_zero_of_inj
  intro w hw
  set f := fun s => (P.den G S s *ᵥ w) ⬝ᵥ (P.num G S s *ᵥ w) with hf
  have hfs : f s = 0 := by simp only [hf]; rw [hw, zero_dotProduct]
  have hf0 : ∀ r ∈ Set.Icc 0 s, f r = 0 := by
    intro r hr
    refine le_antisymm ?_ (frac_nonneg P hG hX hS hr.1 w)
    rw [← hfs]
    exact frac_mono P hG hX w hr.2
  have hq : ∀ r ∈ Set.Ico 0 s, G *ᵥ (P.num G S r *ᵥ w) = 0 := by
    intro r hr
    have h1 : HasDerivWithinAt f 0 (Set.Ici r) r := by
      have h2 : HasDerivWithinAt f 0 (Set.Icc r s) r :=
        (hasDerivWithinAt_const r (Set.Icc r s) (0 : ℝ)).congr (fun y hy => hf0 y ⟨hr.1.trans hy.1, hy.2⟩)
          (hf0 r ⟨hr.1, hr.2.le⟩)
      exact h2.mono_of_mem_nhdsWithin (Icc_mem_nhdsGE hr.2)
    have h3 := (uniqueDiffWithinAt_Ici r).eq_deriv _ (frac_dot_deriv P G S w r).hasDerivWithinAt h1
    refine hG.mulVec_eq_zero (le_antisymm ?_ (hG.2 _))
    linarith [hX.2 (P.den G S r *ᵥ w)]
  have hc : ∀ t ∈ Set.Ico 0 s, VD (fun r => discA P.F r *ᵥ (P.den G S r *ᵥ w)) 0 t := by
    intro t ht
    have := (discA_deriv P.F t).mulVec ((den_deriv P G S t).mulVec (VD.const (t := t) w))
    refine this.congr ?_ (fun _ => rfl)
    rw [mulVec_zero, add_zero, add_mulVec, ← mulVec_mulVec _ G, hq t ht, add_zero, neg_mulVec, mulVec_neg, discA_comm,
      ← mulVec_mulVec, ← mulVec_mulVec, add_neg_cancel]
  have hcont : ∀ i, Continuous fun r => (discA P.F r *ᵥ (P.den G S r *ᵥ w)) i := by
    intro i
    refine continuous_iff_continuousAt.2 fun t => ?_
    exact ((discA_deriv P.F t).mulVec ((den_deriv P G S t).mulVec (VD.const (t := t) w)) i).continuousAt
  have hend : discA P.F s *ᵥ (P.den G S s *ᵥ w) = discA P.F 0 *ᵥ (P.den G S 0 *ᵥ w) := by
    funext i
    exact constant_of_has_deriv_right_zero (hcont i).continuousOn (fun t ht => (hc t ht i).hasDerivWithinAt) s ⟨hs, le_rfl⟩
  rw [hw, mulVec_zero, den_zero, discA_zero, one_mulVec, one_mulVec] at hend
  exact hend.symm

/-- The solution of the Riccati equation at time-to-go `s`. -/
noncomputable def CLQR.sol (P : CLQR n m ℝ) (G S : Matrix (Fin n) (Fin n) ℝ) (s : ℝ) : Matrix (Fin n) (Fin n) ℝ :=
  P.num G S s * (P.den G S s)⁻¹

theorem sol_zero (P : CLQR n m ℝ) (G S : Matrix (Fin n) (Fin n) ℝ) : P.sol G S 0 = S := by
  rw [CLQR.sol, den_zero, num_zero, inv_one, Matrix.mul_one]

theorem sol_den (P : CLQR n m ℝ) {G S : Matrix (Fin n) (Fin n) ℝ} {s : ℝ} (h : (P.den G S s).det ≠ 0) :
    P.sol G S s * P.den G S s = P.num G S s := by
  rw [CLQR.sol, Matrix.mul_assoc, Matrix.nonsing_inv_mul _ (isUnit_iff_ne_zero.2 h), Matrix.mul_one]

theorem sol_symm (P : CLQR n m ℝ) {G S : Matrix (Fin n) (Fin n) ℝ} (hG : Gᵀ = G) (hX : P.Xᵀ = P.X) (hS : Sᵀ = S) {s : ℝ}
    (hs : 0 ≤ s) (h : (P.den G S s).det ≠ 0) : (P.sol G S s)ᵀ = P.sol G S s := by
  have e := frac_symm P hG hX hS hs
  have hd : (P.den G S s)ᵀ.det ≠ 0 := by rwa [det_transpose]
  refine mul_cancel_of_det hd ?_
  have e1 : (P.den G S s)ᵀ * (P.sol G S s)ᵀ = (P.num G S s)ᵀ := by rw [← transpose_mul, sol_den P h]
  rw [e1, CLQR.sol, ← Matrix.mul_assoc, e, Matrix.mul_assoc, Matrix.mul_nonsing_inv _ (isUnit_iff_ne_zero.2 h), Matrix.mul_one]

theorem sol_psd (P : CLQR n m ℝ) {G S : Matrix (Fin n) (Fin n) ℝ} (hG : IsPSD G) (hX : IsPSD P.X) (hS : IsPSD S) {s : ℝ}
    (hs : 0 ≤ s) : IsPSD (P.sol G S s) := by
  have h := den_det P hG hX hS hs
  refine ⟨sol_symm P hG.1 hX.1 hS.1 hs h, fun x => ?_⟩
  have := frac_nonneg P hG hX hS hs ((P.den G S s)⁻¹ *ᵥ x)
  rwa [mulVec_mulVec, mulVec_mulVec, Matrix.mul_nonsing_inv _ (isUnit_iff_ne_zero.2 h), one_mulVec] at this

theorem sol_deriv (P : CLQR n m ℝ) {G S : Matrix (Fin n) (Fin n) ℝ} {s : ℝ} (h : (P.den G S s).det ≠ 0) :
    MD (P.sol G S) (-P.riccatiF G (P.sol G S s)) s := by
  have := (num_deriv P G S s).mul ((den_deriv P G S s).inv h)
  refine this.congr ?_ (fun _ => rfl)
  have e1 := sol_den P h
  have e2 : P.den G S s * (P.den G S s)⁻¹ = 1 := Matrix.mul_nonsing_inv _ (isUnit_iff_ne_zero.2 h)
  rw [CLQR.riccatiF]
  rw [show P.num G S s * -((P.den G S s)⁻¹ * (-(P.F * P.den G S s) + G * P.num G S s) * (P.den G S s)⁻¹) =
    -(P.sol G S s * (-(P.F * P.den G S s) + G * P.num G S s) * (P.den G S s)⁻¹) by
      rw [CLQR.sol]; simp only [Matrix.mul_neg, Matrix.mul_assoc]]
  rw [← e1]
  simp only [Matrix.add_mul, Matrix.mul_add, Matrix.mul_assoc, e2, Matrix.mul_one, Matrix.neg_mul, Matrix.mul_neg]
  abel

/-! ### Uniqueness -/

/-- Bound of a quadratic form by the entries. -/
theorem quad_bound {A : Matrix (Fin n) (Fin n) ℝ} {M : ℝ} (hA : ∀ i j, |A i j| ≤ M) (z : Fin n → ℝ) :
    z ⬝ᵥ A *ᵥ z ≤ M * n * (z ⬝ᵥ z) := by
  have h1 : z ⬝ᵥ A *ᵥ z = ∑ i, ∑ j, z i * A i j * z j := by
    simp only [dotProduct, mulVec, Finset.mul_sum, mul_assoc]
  have h2 : ∀ i j, z i * A i j * z j ≤ M * ((z i * z i + z j * z j) / 2) := by
    intro i j
    have hM : 0 ≤ M := (abs_nonneg _).trans (hA i j)
    have e : z i * A i j * z j ≤ |A i j| * |z i * z j| := by
      rw [← abs_mul]
      refine le_trans (le_of_eq ?_) (le_abs_self _)
      ring
    have e2 : |z i * z j| ≤ (z i * z i + z j * z j) / 2 := by
      rw [abs_le]
      constructor <;> nlinarith [mul_self_nonneg (z i - z j), mul_self_nonneg (z i + z j)]
    exact e.trans (mul_le_mul (hA i j) e2 (abs_nonneg _) hM)
  rw [h1]
  refine (Finset.sum_le_sum fun i _ => Finset.sum_le_sum fun j _ => h2 i j).trans (le_of_eq ?_)
  simp only [← Finset.mul_sum, ← Finset.sum_div, Finset.sum_add_distrib, Finset.sum_const, Finset.card_univ, Fintype.card_fin,
    nsmul_eq_mul, dotProduct]
  rw [show ∑ x, z x * ((n : ℝ) * z x) = n * ∑ x, z x * z x by
    rw [Finset.mul_sum]; exact Finset.sum_congr rfl fun x _ => by ring]
  ring

/-- A linear homogeneous differential equation has only the zero solution from zero. -/
theorem linear_zero {A : ℝ → Matrix (Fin n) (Fin n) ℝ} {z : ℝ → Fin n → ℝ} {b : ℝ} (hb : 0 ≤ b)
    (hA : ∀ i j, ContinuousOn (fun s => A s i j) (Set.Icc 0 b)) (hc : ∀ i, ContinuousOn (fun s => z s i) (Set.Icc 0 b))
    (hz : ∀ s ∈ Set.Ioo 0 b, VD z (A s *ᵥ z s) s) (h0 : z 0 = 0) : ∀ s ∈ Set.Icc 0 b, z s = 0 := by
  have hbd : ∃ M : ℝ, ∀ s ∈ Set.Icc 0 b, ∀ i j, |A s i j| ≤ M := by
    have : ContinuousOn (fun s => ∑ i, ∑ j, |A s i j|) (Set.Icc 0 b) :=
      continuousOn_finsetSum _ fun i _ => continuousOn_finsetSum _ fun j _ => (hA i j).abs
    obtain ⟨M, hM⟩ := isCompact_Icc.bddAbove_image this
    refine ⟨M, fun s hs i j => le_trans ?_ (hM ⟨s, hs, rfl⟩)⟩
    refine le_trans ?_ (Finset.single_le_sum (f := fun i => ∑ j, |A s i j|) (fun i _ => Finset.sum_nonneg fun j _ => abs_nonneg _)
      (Finset.mem_univ i))
    exact Finset.single_le_sum (f := fun j => |A s i j|) (fun j _ => abs_nonneg _) (Finset.mem_univ j)
  obtain ⟨M, hM⟩ := hbd
  set c := 2 * (M * n) with hcdef
  have hder : ∀ s ∈ Set.Ioo 0 b, HasDerivAt (fun s => Real.exp (-(c * s)) * (z s ⬝ᵥ z s))
      (Real.exp (-(c * s)) * (2 * (z s ⬝ᵥ A s *ᵥ z s) - c * (z s ⬝ᵥ z s))) s := by
    intro s hs
    have h1 : HasDerivAt (fun s => Real.exp (-(c * s))) (Real.exp (-(c * s)) * -c) s := by
      have h2 : HasDerivAt (fun s : ℝ => -(c * s)) (-c) s := by
        have := ((hasDerivAt_id s).const_mul c).neg
        rw [mul_one] at this
        exact this
      exact (Real.hasDerivAt_exp _).comp s h2
    have := h1.mul ((hz s hs).dot (hz s hs))
    refine this.congr_deriv ?_
    rw [dotProduct_comm (A s *ᵥ z s)]
    ring
  have hcont : ContinuousOn (fun s => Real.exp (-(c * s)) * (z s ⬝ᵥ z s)) (Set.Icc 0 b) := by
    refine ContinuousOn.mul (Continuous.continuousOn (by fun_prop)) ?_
    exact continuousOn_finsetSum _ fun i _ => (hc i).mul (hc i)
  have hanti : AntitoneOn (fun s => Real.exp (-(c * s)) * (z s ⬝ᵥ z s)) (Set.Icc 0 b) := by
    refine antitoneOn_of_deriv_nonpos (convex_Icc 0 b) hcont ?_ ?_
    · intro s hs
      rw [interior_Icc] at hs
      exact (hder s hs).differentiableAt.differentiableWithinAt
    · intro s hs
      rw [interior_Icc] at hs
      rw [(hder s hs).deriv]
      have := quad_bound (hM s ⟨hs.1.le, hs.2.le⟩) (z s)
      exact mul_nonpos_of_nonneg_of_nonpos (Real.exp_pos _).le (by rw [hcdef]; linarith)
  intro s hs
  have h := hanti ⟨le_rfl, hb⟩ hs hs.1
  beta_reduce at h
  rw [h0, zero_dotProduct, mul_zero] at h
  have h2 : z s ⬝ᵥ z s ≤ 0 := by
    by_contra hh
    exact absurd h (not_le.2 (mul_pos (Real.exp_pos _) (not_le.1 hh)))
  exact dotProduct_self_eq_zero.1 (le_antisymm h2 (Finset.sum_nonneg fun i _ => mul_self_nonneg _))

/-- Where the Riccati equation has a solution, the matrix fraction represents it. -/
theorem frac_of_riccati (P : CLQR n m ℝ) {G S : Matrix (Fin n) (Fin n) ℝ} {R : ℝ → Matrix (Fin n) (Fin n) ℝ} {b : ℝ} (hb : 0 ≤ b)
    (hc : ∀ i j, ContinuousOn (fun s => R s i j) (Set.Icc 0 b))
    (hR : ∀ s ∈ Set.Ioo 0 b, MD R (-P.riccatiF G (R s)) s) (h0 : R 0 = S) :
    ∀ s ∈ Set.Icc 0 b, (P.den G S s).det ≠ 0 ∧ P.sol G S s = R s := by
  have hcd : ∀ i j, Continuous fun s => P.den G S s i j := fun i j =>
    continuous_iff_continuousAt.2 fun t => (den_deriv P G S t i j).continuousAt
  have hcn : ∀ i j, Continuous fun s => P.num G S s i j := fun i j =>
    continuous_iff_continuousAt.2 fun t => (num_deriv P G S t i j).continuousAt
  have key : ∀ w : Fin n → ℝ, ∀ s ∈ Set.Icc 0 b, (P.num G S s - R s * P.den G S s) *ᵥ w = 0 := by
    intro w
    refine linear_zero (A := fun s => P.Fᵀ - R s * G) hb ?_ ?_ ?_ ?_
    · intro i j
      simp only [Matrix.sub_apply, Matrix.mul_apply]
      exact continuousOn_const.sub (continuousOn_finsetSum _ fun k _ => (hc i k).mul continuousOn_const)
    · intro i
      simp only [mulVec, dotProduct, Matrix.sub_apply, Matrix.mul_apply]
      exact continuousOn_finsetSum _ fun k _ => ((hcn i k).continuousOn.sub (continuousOn_finsetSum _ fun l _ =>
        (hc i l).mul (hcd l k).continuousOn)).mul continuousOn_const
    · intro s hs
      have := ((num_deriv P G S s).sub ((hR s hs).mul (den_deriv P G S s))).mulVec (VD.const (t := s) w)
      refine this.of_eq ?_
      rw [mulVec_zero, add_zero, mulVec_mulVec]
      congr 1
      rw [CLQR.riccatiF]
      simp only [Matrix.sub_mul, Matrix.mul_sub, Matrix.add_mul, Matrix.mul_add, Matrix.neg_mul, Matrix.mul_neg, Matrix.mul_assoc]
      abel
    · rw [den_zero, num_zero, h0, Matrix.mul_one, sub_self, zero_mulVec]
  intro s hs
  have hdet : (P.den G S s).det ≠ 0 := by
    apply det_ne_zero_of_inj
    intro w hw
    have h1 : P.num G S s *ᵥ w = 0 := by
      have := key w s hs
      rwa [sub_mulVec, ← mulVec_mulVec, hw, mulVec_zero, sub_zero] at this
    have h2 : P.frac G S s *ᵥ w = 0 := by
      rw [frac_eq, fromRows_mulVec, hw, h1]
      funext i
      cases i <;> rfl
    have h3 : NormedSpace.exp (s • P.ham G) * P.frac G S s = fromRows 1 S := by
      rw [CLQR.frac, ← Matrix.mul_assoc, ← exp_smul_add, add_neg_cancel, exp_zero_smul, Matrix.one_mul]
    have h4 := congrArg (fun v => NormedSpace.exp (s • P.ham G) *ᵥ v) h2
    beta_reduce at h4
    rw [mulVec_mulVec, h3, mulVec_zero, fromRows_mulVec, one_mulVec] at h4
    funext i
    exact congrFun h4 (.inl i)
  refine ⟨hdet, ?_⟩
  have h1 : P.num G S s = R s * P.den G S s := by
    rw [← sub_eq_zero]
    ext i j
    have := congrFun (key (Pi.single j 1) s hs) i
    simpa using this
  rw [CLQR.sol, h1, Matrix.mul_assoc, Matrix.mul_nonsing_inv _ (isUnit_iff_ne_zero.2 hdet), Matrix.mul_one]

/-! ### The loop -/

theorem bwExLoop (P : CLQR n m ℝ) {ULT : Matrix (Fin m) (Fin n) ℝ} {S : Matrix (Fin n) (Fin n) ℝ} {dt : ℝ}
    (hG : (P.L * ULT)ᵀ = P.L * ULT) (hX : P.Xᵀ = P.X) (hS : Sᵀ = S) (hdt : 0 ≤ dt) : ∀ (l : List ℕ) (a : ℕ) (st : RegState n m ℝ),
    (∀ k : ℕ, k ≤ a + l.length → (P.den (P.L * ULT) S (k * dt)).det ≠ 0) →
    ∃ R, l.foldlM (fun st (_ : ℕ) => CLQR.bwExStep ULT (NormedSpace.exp ((-dt) • P.ham (P.L * ULT))) st)
        (P.frac (P.L * ULT) S (a * dt), st) =
      .ok (P.frac (P.L * ULT) S ((a + l.length : ℕ) * dt),
        { S := R, Kx_list := st.Kx_list ++ (List.range l.length).map fun j => ULT * P.sol (P.L * ULT) S ((a + j + 1 : ℕ) * dt),
          S_list := st.S_list ++ (List.range l.length).map fun j => P.sol (P.L * ULT) S ((a + j + 1 : ℕ) * dt) })
  | [], a, st, _ => ⟨st.S, by simp [pure, Except.pure]⟩
  | i :: l, a, st, h => by
    have hd := h (a + 1) (by simp)
    have hnn : (0 : ℝ) ≤ (a + 1 : ℕ) * dt := by positivity
    have hsym := sol_symm P hG hX hS hnn hd
    have hstep : CLQR.bwExStep ULT (NormedSpace.exp ((-dt) • P.ham (P.L * ULT))) (P.frac (P.L * ULT) S (a * dt), st) =
        .ok (P.frac (P.L * ULT) S ((a + 1 : ℕ) * dt),
          { S := P.sol (P.L * ULT) S ((a + 1 : ℕ) * dt),
            Kx_list := st.Kx_list ++ [ULT * P.sol (P.L * ULT) S ((a + 1 : ℕ) * dt)],
            S_list := st.S_list ++ [P.sol (P.L * ULT) S ((a + 1 : ℕ) * dt)] }) := by
      unfold CLQR.bwExStep
      dsimp only
      have e : NormedSpace.exp ((-dt) • P.ham (P.L * ULT)) * P.frac (P.L * ULT) S (a * dt) =
          P.frac (P.L * ULT) S ((a + 1 : ℕ) * dt) := by
        rw [← frac_add]
        congr 1
        push_cast
        ring
      rw [e]
      have hsolve : solve (P.frac (P.L * ULT) S ((a + 1 : ℕ) * dt)).toRows₁ᵀ (P.frac (P.L * ULT) S ((a + 1 : ℕ) * dt)).toRows₂ᵀ =
          .ok (P.sol (P.L * ULT) S ((a + 1 : ℕ) * dt)) := by
        refine solve_ok.2 ⟨by rw [det_transpose]; exact hd, ?_⟩
        have := congrArg transpose (sol_den P hd)
        rw [transpose_mul, hsym] at this
        exact this
      rw [hsolve, py_ok_bind, symPart_of_symm hsym]
      rfl
    rw [List.foldlM_cons, hstep, py_ok_bind]
    obtain ⟨R, hR⟩ := bwExLoop P hG hX hS hdt l (a + 1) ⟨P.sol (P.L * ULT) S ((a + 1 : ℕ) * dt),
        st.Kx_list ++ [ULT * P.sol (P.L * ULT) S ((a + 1 : ℕ) * dt)], st.S_list ++ [P.sol (P.L * ULT) S ((a + 1 : ℕ) * dt)]⟩
      (fun k hk => h k (by simp only [List.length_cons]; omega))
    refine ⟨R, hR.trans ?_⟩
    have e1 : a + 1 + l.length = a + (i :: l).length := by simp only [List.length_cons]; omega
    have e2 : ∀ j, a + 1 + j + 1 = a + (j + 1) + 1 := fun j => by omega
    simp only [e1, List.length_cons, List.range_succ_eq_map, List.map_cons, List.map_map, List.append_assoc, List.singleton_append,
      Function.comp_def, e2, Nat.add_zero, Nat.succ_eq_add_one]

theorem reverse_range_map {β : Type} (f : ℕ → β) (N : ℕ) :
    ((List.range N).map f).reverse = (List.range N).map fun k => f (N - 1 - k) := by
  apply List.ext_getElem
  · simp
  · intro k h1 h2
    simp

/-- The exact pass in closed form. -/
theorem exactPass (P : CLQR n m ℝ) {ULT : Matrix (Fin m) (Fin n) ℝ} (hULT : solvePos P.U P.Lᵀ = .ok ULT)
    {S : Matrix (Fin n) (Fin n) ℝ} {dt : ℝ} (hU : P.Uᵀ = P.U) (hX : P.Xᵀ = P.X) (hS : Sᵀ = S) (hdt : 0 ≤ dt) (steps : ℕ)
    (hd : ∀ k : ℕ, k ≤ steps → (P.den (P.L * ULT) S (k * dt)).det ≠ 0) :
    P.seqBackwardPass (ExpOps.real n m) steps (some dt) (some S) .exact =
      .ok ((List.range steps).map fun k => ULT * P.sol (P.L * ULT) S ((steps - k : ℕ) * dt),
        (List.range (steps + 1)).map fun k => P.sol (P.L * ULT) S ((steps - k : ℕ) * dt)) := by
  have hG := lult_symm hU hULT
  obtain ⟨R, hR⟩ := bwExLoop P hG hX hS hdt (List.range steps).reverse 0 { S := S, Kx_list := [], S_list := [S] }
    (fun k hk => hd k (by simpa using hk))
  rw [Nat.cast_zero, zero_mul, frac_zero] at hR
  unfold CLQR.seqBackwardPass CLQR.dtSeq
  simp only [Option.getD_some, py_ok_bind, hULT]
  have e : (ExpOps.real n m).expm2 ((-dt) • P.ham (P.L * ULT)) = NormedSpace.exp ((-dt) • P.ham (P.L * ULT)) := rfl
  rw [e, hR]
  simp only [py_ok_bind, pure, Except.pure, List.length_reverse, List.length_range, Nat.zero_add, List.nil_append]
  congr 2
  · rw [reverse_range_map]
    refine List.map_congr_left fun k hk => ?_
    rw [List.mem_range] at hk
    rw [show steps - 1 - k + 1 = steps - k by omega]
  · rw [List.reverse_append, reverse_range_map, List.range_succ, List.map_append]
    congr 1
    · refine List.map_congr_left fun k hk => ?_
      rw [List.mem_range] at hk
      rw [show steps - 1 - k + 1 = steps - k by omega]
    · simp [sol_zero]

/-! ### The same problem as a `CLQT` object -/

theorem toCLQT_runCost (P : CLQR n m ℝ) (t : ℝ) (x : Fin n → ℝ) (u : Fin m → ℝ) : P.toCLQT.runCost t x u = P.runCost x u := by
  show (1 / 2) * (((1 : Matrix (Fin n) (Fin n) ℝ) *ᵥ x - (0 : Fin n → ℝ)) ⬝ᵥ P.X *ᵥ ((1 : Matrix (Fin n) (Fin n) ℝ) *ᵥ x - (0 : Fin n → ℝ))) +
    (1 / 2) * (u ⬝ᵥ P.U *ᵥ u) = _
  rw [one_mulVec, sub_zero, CLQR.runCost]

theorem toCLQT_totalCost (P : CLQR n m ℝ) (t0 : ℝ) (x : ℝ → Fin n → ℝ) (u : ℝ → Fin m → ℝ) :
    P.toCLQT.totalCost t0 x u = P.totalCost t0 x u := by
  unfold CLQT.totalCost CLQR.totalCost
  simp only [toCLQT_runCost]
  show (1 / 2) * (((1 : Matrix (Fin n) (Fin n) ℝ) *ᵥ x P.T - (0 : Fin n → ℝ)) ⬝ᵥ P.XT *ᵥ ((1 : Matrix (Fin n) (Fin n) ℝ) *ᵥ x P.T - (0 : Fin n → ℝ))) + _ = _
  rw [one_mulVec, sub_zero]
  rfl

theorem toCLQT_traj (P : CLQR n m ℝ) {t0 : ℝ} {x0 : Fin n → ℝ} {x : ℝ → Fin n → ℝ} {u : ℝ → Fin m → ℝ} :
    P.toCLQT.IsTraj t0 x0 x u ↔ P.IsTraj t0 x0 x u := by
  constructor
  · intro h
    refine ⟨h.start, h.cont, fun t ht i => ?_, ?_⟩
    · simpa [CLQR.toCLQT] using h.deriv t ht i
    · have := h.integrable
      simp only [toCLQT_runCost] at this
      exact this
  · intro h
    refine ⟨h.start, h.cont, fun t ht i => ?_, ?_⟩
    · simpa [CLQR.toCLQT] using h.deriv t ht i
    · simp only [toCLQT_runCost]
      exact h.integrable

theorem toCLQT_riccati (P : CLQR n m ℝ) {ULT : Matrix (Fin m) (Fin n) ℝ} (hULT : solvePos P.U P.Lᵀ = .ok ULT)
    (S : Matrix (Fin n) (Fin n) ℝ) (t : ℝ) :
    P.toCLQT.riccatiOdeF (packSv S 0) t = .ok (packSv (P.riccatiF (P.L * ULT) S) 0) := by
  unfold CLQT.riccatiOdeF
  dsimp only [CLQR.toCLQT]
  rw [hULT, unpack_packSv]
  simp only [py_ok_bind]
  show Except.ok (packSv (-P.Fᵀ * S - S * P.F + S * (P.L * ULT) * S - (1 : Matrix (Fin n) (Fin n) ℝ)ᵀ * P.X * (1 : Matrix (Fin n) (Fin n) ℝ))
    (-((1 : Matrix (Fin n) (Fin n) ℝ)ᵀ * P.X) *ᵥ (0 : Fin n → ℝ) + S *ᵥ (0 : Fin n → ℝ) - P.Fᵀ *ᵥ 0 + (S * (P.L * ULT)) *ᵥ 0)) = _
  simp [CLQR.riccatiF]

theorem sol_isRiccati (P : CLQR n m ℝ) {ULT : Matrix (Fin m) (Fin n) ℝ} (hULT : solvePos P.U P.Lᵀ = .ok ULT) (hU : P.Uᵀ = P.U)
    (hX : P.Xᵀ = P.X) (hXT : P.XTᵀ = P.XT) (t0 : ℝ) (hd : ∀ t ∈ Set.Icc t0 P.T, (P.den (P.L * ULT) P.XT (P.T - t)).det ≠ 0) :
    P.toCLQT.IsRiccati t0 (fun t => P.sol (P.L * ULT) P.XT (P.T - t)) (fun _ => 0) := by
  have hG := lult_symm hU hULT
  have hder : ∀ t ∈ Set.Icc t0 P.T, MD (fun t => P.sol (P.L * ULT) P.XT (P.T - t))
      (P.riccatiF (P.L * ULT) (P.sol (P.L * ULT) P.XT (P.T - t))) t := by
    intro t ht i j
    have := (sol_deriv P (hd t ht) i j).comp t ((hasDerivAt_id t).const_sub P.T)
    refine this.congr_deriv ?_
    simp
  refine ⟨fun i j t ht => (hder t ht i j).continuousAt.continuousWithinAt, fun i => continuousOn_const, fun t ht => ?_, fun t ht => ?_, ?_, ?_⟩
  · exact sol_symm P hG hX hXT (sub_nonneg.2 ht.2.le) (hd t ⟨ht.1.le, ht.2.le⟩)
  · exact ⟨_, toCLQT_riccati P hULT _ t, md_sv.2 ⟨hder t ⟨ht.1.le, ht.2.le⟩, VD.const 0⟩⟩
  · show P.sol _ P.XT (P.T - P.T) = (1 : Matrix (Fin n) (Fin n) ℝ)ᵀ * P.XT * (1 : Matrix (Fin n) (Fin n) ℝ)
    rw [sub_self, sol_zero, transpose_one, Matrix.one_mul, Matrix.mul_one]
  · exact (mulVec_zero _).symm

/-- The trajectory of the matrix fraction. -/
theorem frac_traj (P : CLQR n m ℝ) {ULT : Matrix (Fin m) (Fin n) ℝ} (t0 : ℝ)
    (hd : ∀ t ∈ Set.Icc t0 P.T, (P.den (P.L * ULT) P.XT (P.T - t)).det ≠ 0) (h0 : t0 ≤ P.T) (x0 : Fin n → ℝ) :
    P.IsTraj t0 x0 (fun t => P.den (P.L * ULT) P.XT (P.T - t) *ᵥ ((P.den (P.L * ULT) P.XT (P.T - t0))⁻¹ *ᵥ x0))
      (fun t => -(ULT * P.sol (P.L * ULT) P.XT (P.T - t)) *ᵥ
        (P.den (P.L * ULT) P.XT (P.T - t) *ᵥ ((P.den (P.L * ULT) P.XT (P.T - t0))⁻¹ *ᵥ x0))) := by
  set w := (P.den (P.L * ULT) P.XT (P.T - t0))⁻¹ *ᵥ x0 with hw
  have hder : ∀ t, VD (fun t => P.den (P.L * ULT) P.XT (P.T - t) *ᵥ w)
      (P.F *ᵥ (P.den (P.L * ULT) P.XT (P.T - t) *ᵥ w) - (P.L * ULT) *ᵥ (P.num (P.L * ULT) P.XT (P.T - t) *ᵥ w)) t := by
    intro t i
    have := ((den_deriv P (P.L * ULT) P.XT (P.T - t)).mulVec (VD.const (t := P.T - t) w) i).comp t
      ((hasDerivAt_id t).const_sub P.T)
    refine this.congr_deriv ?_
    simp [add_mulVec, neg_mulVec, mulVec_mulVec, Matrix.mul_assoc]
    ring
  have hnum : ∀ t, VD (fun t => P.num (P.L * ULT) P.XT (P.T - t) *ᵥ w)
      (-(P.X * P.den (P.L * ULT) P.XT (P.T - t) + P.Fᵀ * P.num (P.L * ULT) P.XT (P.T - t)) *ᵥ w) t := by
    intro t i
    have := ((num_deriv P (P.L * ULT) P.XT (P.T - t)).mulVec (VD.const (t := P.T - t) w) i).comp t
      ((hasDerivAt_id t).const_sub P.T)
    refine this.congr_deriv ?_
    simp only [mulVec_zero, add_zero, mul_neg, mul_one, neg_mulVec]
    rfl
  have hu : ∀ t ∈ Set.Icc t0 P.T, -(ULT * P.sol (P.L * ULT) P.XT (P.T - t)) *ᵥ (P.den (P.L * ULT) P.XT (P.T - t) *ᵥ w) =
      -(ULT *ᵥ (P.num (P.L * ULT) P.XT (P.T - t) *ᵥ w)) := by
    intro t ht
    rw [neg_mulVec, ← sol_den P (hd t ht)]
    simp only [mulVec_mulVec, Matrix.mul_assoc]
  refine ⟨?_, fun i t _ => (hder t i).continuousAt.continuousWithinAt, fun t ht i => ?_, ?_⟩
  · rw [hw, mulVec_mulVec, Matrix.mul_nonsing_inv _ (isUnit_iff_ne_zero.2 (hd t0 ⟨le_rfl, h0⟩)), one_mulVec]
  · refine (hder t i).congr_deriv ?_
    rw [hu t ⟨ht.1.le, ht.2.le⟩, mulVec_neg, mulVec_mulVec _ P.L, ← sub_eq_add_neg]
  · have hc : ContinuousOn (fun t => P.runCost (P.den (P.L * ULT) P.XT (P.T - t) *ᵥ w)
        (-(ULT *ᵥ (P.num (P.L * ULT) P.XT (P.T - t) *ᵥ w)))) (Set.uIcc t0 P.T) := by
      have c1 : Continuous fun t => P.den (P.L * ULT) P.XT (P.T - t) *ᵥ w :=
        continuous_pi fun i => continuous_iff_continuousAt.2 fun t => (hder t i).continuousAt
      have c2 : Continuous fun t => P.num (P.L * ULT) P.XT (P.T - t) *ᵥ w :=
        continuous_pi fun i => continuous_iff_continuousAt.2 fun t => (hnum t i).continuousAt
      have c3 : Continuous fun t => -(ULT *ᵥ (P.num (P.L * ULT) P.XT (P.T - t) *ᵥ w)) :=
        (Continuous.matrix_mulVec continuous_const c2).neg
      unfold CLQR.runCost
      exact ((continuous_const.mul (c1.dotProduct (Continuous.matrix_mulVec continuous_const c1))).add
        (continuous_const.mul (c3.dotProduct (Continuous.matrix_mulVec continuous_const c3)))).continuousOn
    refine (hc.congr fun t ht => ?_).intervalIntegrable
    rw [Set.uIcc_of_le h0] at ht
    rw [hu t ht]

/-- Cost of the trajectory of a solution of the Riccati equation. -/
theorem value_cost (P : CLQR n m ℝ) {ULT : Matrix (Fin m) (Fin n) ℝ} (hULT : solvePos P.U P.Lᵀ = .ok ULT) (hU : P.Uᵀ = P.U)
    (hX : P.Xᵀ = P.X) {t0 : ℝ} (h0 : t0 ≤ P.T) {S : ℝ → Matrix (Fin n) (Fin n) ℝ}
    (hR : P.toCLQT.IsRiccati t0 S (fun _ => 0)) {x0 : Fin n → ℝ} {x : ℝ → Fin n → ℝ} {u : ℝ → Fin m → ℝ}
    (hx : P.IsTraj t0 x0 x u) (hfb : ∀ t ∈ Set.Ioo t0 P.T, u t = -(ULT * S t) *ᵥ x t) :
    P.totalCost t0 x u = (1 / 2) * (x0 ⬝ᵥ S t0 *ᵥ x0) := by
  have hcont := valAlong_cont (v := fun _ => 0) hR.contS hR.contv hx.cont
  have hD : ∀ t ∈ Set.Ioo t0 P.T, HasDerivAt (valAlong S (fun _ => 0) x) (-P.runCost (x t) (u t)) t := by
    intro t ht
    obtain ⟨dy, hdy, hder⟩ := hR.ode t ht
    have hx' : ∀ i, HasDerivAt (fun s => x s i) ((P.toCLQT.F t *ᵥ x t + P.toCLQT.c t + P.toCLQT.L t *ᵥ u t) i) t := by
      intro i
      have e : P.toCLQT.F t *ᵥ x t + P.toCLQT.c t + P.toCLQT.L t *ᵥ u t = P.F *ᵥ x t + P.L *ᵥ u t := by
        show P.F *ᵥ x t + 0 + P.L *ᵥ u t = _
        rw [add_zero]
      rw [e]
      exact hx.deriv t ht i
    have h1 := value_deriv (P := P.toCLQT) (t := t) (S := S) (v := fun _ => 0) (Y := ULT) hU hX (hR.sym t ht) hdy hder hx' hULT
    refine h1.congr_deriv ?_
    rw [toCLQT_runCost]
    have e1 : u t - (-(ULT *ᵥ (S t *ᵥ x t)) + ULT *ᵥ (0 : Fin n → ℝ)) = 0 := by
      rw [hfb t ht, mulVec_zero, add_zero, mulVec_mulVec, neg_mulVec, sub_self]
    have e2 : P.toCLQT.r t ⬝ᵥ P.toCLQT.X t *ᵥ P.toCLQT.r t = 0 := zero_dotProduct _
    rw [e1, e2, zero_dotProduct, zero_dotProduct, zero_dotProduct]
    ring
  have key := intervalIntegral.integral_eq_sub_of_hasDeriv_right_of_le h0 hcont (fun t ht => (hD t ht).hasDerivWithinAt)
    hx.integrable.neg
  rw [intervalIntegral.integral_neg] at key
  have hT : S P.T = P.XT := by
    refine hR.termS.trans ?_
    show (1 : Matrix (Fin n) (Fin n) ℝ)ᵀ * P.XT * (1 : Matrix (Fin n) (Fin n) ℝ) = P.XT
    rw [transpose_one, Matrix.one_mul, Matrix.mul_one]
  unfold CLQR.totalCost
  simp only [valAlong, hT, hx.start, zero_dotProduct, sub_zero] at key
  linarith

end Verif
