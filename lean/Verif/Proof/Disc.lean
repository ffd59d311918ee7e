import Verif.Model.Disc
import Verif.Proof.MatDeriv
import Verif.Proof.ScanTotal
import Mathlib.Analysis.SpecialFunctions.Exponential
import Mathlib.Topology.Algebra.Module.FiniteDimension
import Mathlib.Analysis.Calculus.Deriv.MeanValue
import Mathlib.Analysis.Calculus.MeanValue
import Mathlib.LinearAlgebra.Matrix.PosDef
import Mathlib.Data.Matrix.ColumnRowPartitioned

/-! Lemmas on the discretisation of linear systems. -/

namespace Verif

open Matrix

variable {n m p : ℕ}

section Exp
variable {ι κ : Type} [Fintype ι] [DecidableEq ι] [Fintype κ] [DecidableEq κ]

open scoped Norms.Operator in
theorem exp_hasSum (M : Matrix ι ι ℝ) : HasSum (fun k : ℕ => ((k.factorial : ℝ)⁻¹) • M ^ k) (NormedSpace.exp M) :=
  NormedSpace.exp_series_hasSum_exp' (𝕂 := ℝ) M

theorem exp_intertwine (M : Matrix ι ι ℝ) (N : Matrix κ κ ℝ) (P : Matrix ι κ ℝ) (h : M * P = P * N) :
    NormedSpace.exp M * P = P * NormedSpace.exp N := by
  have h1 := (exp_hasSum M).map (addMonoidHomMulRight P) (by
    show Continuous fun X : Matrix ι ι ℝ => X * P
    exact continuous_id.matrix_mul continuous_const)
  have h2 := (exp_hasSum N).map (addMonoidHomMulLeft P) (by
    show Continuous fun X : Matrix κ κ ℝ => P * X
    exact continuous_const.matrix_mul continuous_id)
  have hp : ∀ k : ℕ, M ^ k * P = P * N ^ k := by
    intro k
    induction k with
    | zero => simp
    | succ k ih => rw [pow_succ, Matrix.mul_assoc, h, ← Matrix.mul_assoc, ih, Matrix.mul_assoc, ← pow_succ]
  have e : (addMonoidHomMulRight P ∘ fun k : ℕ => ((k.factorial : ℝ)⁻¹) • M ^ k) =
      (addMonoidHomMulLeft P ∘ fun k : ℕ => ((k.factorial : ℝ)⁻¹) • N ^ k) := by
    funext k
    show (((k.factorial : ℝ)⁻¹) • M ^ k) * P = P * (((k.factorial : ℝ)⁻¹) • N ^ k)
    rw [Matrix.smul_mul, Matrix.mul_smul, hp]
  rw [e] at h1
  exact h1.unique h2

open scoped Norms.Operator in
theorem exp_entry_deriv (M : Matrix ι ι ℝ) (t : ℝ) (i j : ι) :
    HasDerivAt (fun s : ℝ => NormedSpace.exp (s • M) i j) ((M * NormedSpace.exp (t • M)) i j) t := by
  have h := hasDerivAt_exp_smul_const' (𝕂 := ℝ) M t
  have hc := (LinearMap.toContinuousLinearMap (entryLinearMap ℝ ℝ i j)).hasFDerivAt
    (x := NormedSpace.exp (t • M))
  exact hc.comp_hasDerivAt t h

theorem exp_smul_add (M : Matrix ι ι ℝ) (s t : ℝ) :
    NormedSpace.exp ((s + t) • M) = NormedSpace.exp (s • M) * NormedSpace.exp (t • M) := by
  rw [add_smul]
  exact Matrix.exp_add_of_commute _ _ (((Commute.refl M).smul_left s).smul_right t)

theorem exp_zero_smul (M : Matrix ι ι ℝ) : NormedSpace.exp ((0 : ℝ) • M) = 1 := by
  rw [zero_smul, NormedSpace.exp_zero]

end Exp

theorem exp_upper (F : Matrix (Fin n) (Fin n) ℝ) (G : Matrix (Fin n) (Fin m) ℝ) (D : Matrix (Fin m) (Fin m) ℝ) (t : ℝ) :
    (NormedSpace.exp (t • fromBlocks F G 0 D)).toBlocks₁₁ = NormedSpace.exp (t • F) ∧
    (NormedSpace.exp (t • fromBlocks F G 0 D)).toBlocks₂₁ = 0 ∧
    (NormedSpace.exp (t • fromBlocks F G 0 D)).toBlocks₂₂ = NormedSpace.exp (t • D) := by
  have h1 := exp_intertwine (t • fromBlocks F G 0 D) (t • F) (fromRows 1 (0 : Matrix (Fin m) (Fin n) ℝ)) (by
    rw [Matrix.smul_mul, Matrix.mul_smul, fromBlocks_mul_fromRows, fromRows_mul]
    simp)
  have h2 := exp_intertwine (t • D) (t • fromBlocks F G 0 D) (fromCols (0 : Matrix (Fin m) (Fin n) ℝ) 1) (by
    rw [Matrix.smul_mul, Matrix.mul_smul, fromCols_mul_fromBlocks, mul_fromCols]
    simp)
  generalize NormedSpace.exp (t • fromBlocks F G 0 D) = E at *
  rw [← fromBlocks_toBlocks E, fromBlocks_mul_fromRows, fromRows_mul] at h1
  rw [← fromBlocks_toBlocks E, fromCols_mul_fromBlocks, mul_fromCols] at h2
  obtain ⟨a1, a2⟩ := fromRows_inj h1
  obtain ⟨b1, b2⟩ := fromCols_inj h2
  simp at a1 a2 b1 b2
  exact ⟨a1, a2, b2.symm⟩

/-- The three matrices in closed form. -/
noncomputable def discA (F : Matrix (Fin n) (Fin n) ℝ) (t : ℝ) : Matrix (Fin n) (Fin n) ℝ := NormedSpace.exp (t • F)

noncomputable def discB (F : Matrix (Fin n) (Fin n) ℝ) (G : Matrix (Fin n) (Fin m) ℝ) (t : ℝ) : Matrix (Fin n) (Fin m) ℝ :=
  (NormedSpace.exp (t • (fromBlocks F G 0 0 : Matrix (Fin n ⊕ Fin m) (Fin n ⊕ Fin m) ℝ))).toBlocks₁₂

noncomputable def discN (F S : Matrix (Fin n) (Fin n) ℝ) (t : ℝ) : Matrix (Fin n) (Fin n) ℝ :=
  (NormedSpace.exp (t • (fromBlocks F S 0 (-Fᵀ) : Matrix (Fin n ⊕ Fin n) (Fin n ⊕ Fin n) ℝ))).toBlocks₁₂

theorem ltiDisc_eq (F : Matrix (Fin n) (Fin n) ℝ) (L : Matrix (Fin n) (Fin p) ℝ) (Qc : NoiseArg p)
    (Q : Matrix (Fin p) (Fin p) ℝ) (hQ : Qc.expand = .ok Q) (t : ℝ) :
    ltiDisc F L Qc t = .ok (discA F t, discN F (L * Q * Lᵀ) t * (discA F t)ᵀ) := by
  unfold ltiDisc
  refine bind_ok.2 ⟨Q, hQ, ?_⟩
  dsimp only
  rw [(exp_upper F (L * Q * Lᵀ) (-Fᵀ) t).1]
  rfl

theorem ltiDiscU_eq (F : Matrix (Fin n) (Fin n) ℝ) (L : Matrix (Fin n) (Fin p) ℝ) (G : Matrix (Fin n) (Fin m) ℝ)
    (Qc : NoiseArg p) (Q : Matrix (Fin p) (Fin p) ℝ) (hQ : Qc.expand = .ok Q) (t : ℝ) :
    ltiDiscU F L G Qc t = .ok (discA F t, discB F G t, discN F (L * Q * Lᵀ) t * (discA F t)ᵀ) := by
  unfold ltiDiscU
  exact bind_ok.2 ⟨_, ltiDisc_eq F L Qc Q hQ t, rfl⟩

theorem discA_add (F : Matrix (Fin n) (Fin n) ℝ) (s t : ℝ) : discA F (s + t) = discA F s * discA F t := exp_smul_add F s t

theorem discA_zero (F : Matrix (Fin n) (Fin n) ℝ) : discA F 0 = 1 := exp_zero_smul F

theorem discA_neg (F : Matrix (Fin n) (Fin n) ℝ) (t : ℝ) : discA F (-t) * discA F t = 1 := by
  rw [← discA_add, neg_add_cancel, discA_zero]

theorem discA_transpose (F : Matrix (Fin n) (Fin n) ℝ) (t : ℝ) : discA (-Fᵀ) t = (discA F (-t))ᵀ := by
  unfold discA
  rw [← exp_transpose, transpose_smul, smul_neg, neg_smul]

theorem discB_add (F : Matrix (Fin n) (Fin n) ℝ) (G : Matrix (Fin n) (Fin m) ℝ) (s t : ℝ) :
    discB F G (s + t) = discA F t * discB F G s + discB F G t := by
  unfold discB
  rw [add_comm s t, exp_smul_add]
  obtain ⟨h1, -, -⟩ := exp_upper F G (0 : Matrix (Fin m) (Fin m) ℝ) t
  obtain ⟨-, -, h2⟩ := exp_upper F G (0 : Matrix (Fin m) (Fin m) ℝ) s
  rw [smul_zero, NormedSpace.exp_zero] at h2
  generalize NormedSpace.exp (t • (fromBlocks F G 0 0 : Matrix (Fin n ⊕ Fin m) (Fin n ⊕ Fin m) ℝ)) = E at *
  generalize NormedSpace.exp (s • (fromBlocks F G 0 0 : Matrix (Fin n ⊕ Fin m) (Fin n ⊕ Fin m) ℝ)) = E' at *
  conv_lhs => rw [← fromBlocks_toBlocks E, ← fromBlocks_toBlocks E', fromBlocks_multiply, toBlocks_fromBlocks₁₂]
  rw [h1, h2, Matrix.mul_one]
  rfl

theorem discB_zero (F : Matrix (Fin n) (Fin n) ℝ) (G : Matrix (Fin n) (Fin m) ℝ) : discB F G 0 = 0 := by
  unfold discB
  rw [exp_zero_smul]
  ext i j
  rfl

theorem discN_zero (F S : Matrix (Fin n) (Fin n) ℝ) : discN F S 0 = 0 := by
  unfold discN
  rw [exp_zero_smul]
  ext i j
  rfl

theorem discN_add (F S : Matrix (Fin n) (Fin n) ℝ) (s t : ℝ) :
    discN F S (s + t) = discA F t * discN F S s + discN F S t * (discA F (-s))ᵀ := by
  unfold discN
  rw [add_comm s t, exp_smul_add]
  obtain ⟨h1, -, -⟩ := exp_upper F S (-Fᵀ) t
  obtain ⟨-, -, h2⟩ := exp_upper F S (-Fᵀ) s
  have h3 := discA_transpose F s
  unfold discA at h3
  rw [h3] at h2
  generalize NormedSpace.exp (t • (fromBlocks F S 0 (-Fᵀ) : Matrix (Fin n ⊕ Fin n) (Fin n ⊕ Fin n) ℝ)) = E at *
  generalize NormedSpace.exp (s • (fromBlocks F S 0 (-Fᵀ) : Matrix (Fin n ⊕ Fin n) (Fin n ⊕ Fin n) ℝ)) = E' at *
  conv_lhs => rw [← fromBlocks_toBlocks E, ← fromBlocks_toBlocks E', fromBlocks_multiply, toBlocks_fromBlocks₁₂]
  rw [h1, h2]
  rfl

theorem discA_deriv (F : Matrix (Fin n) (Fin n) ℝ) (t : ℝ) : MD (discA F) (F * discA F t) t :=
  fun i j => exp_entry_deriv F t i j

theorem discA_comm (F : Matrix (Fin n) (Fin n) ℝ) (t : ℝ) : F * discA F t = discA F t * F := by
  have := exp_intertwine (t • F) (t • F) F (by rw [Matrix.smul_mul, Matrix.mul_smul])
  exact this.symm

theorem discB_deriv (F : Matrix (Fin n) (Fin n) ℝ) (G : Matrix (Fin n) (Fin m) ℝ) (t : ℝ) :
    MD (discB F G) (F * discB F G t + G) t := by
  intro i j
  have h := exp_entry_deriv (fromBlocks F G 0 0 : Matrix (Fin n ⊕ Fin m) (Fin n ⊕ Fin m) ℝ) t (Sum.inl i) (Sum.inr j)
  obtain ⟨-, -, h2⟩ := exp_upper F G (0 : Matrix (Fin m) (Fin m) ℝ) t
  rw [smul_zero, NormedSpace.exp_zero] at h2
  have e : ((fromBlocks F G 0 0 : Matrix (Fin n ⊕ Fin m) (Fin n ⊕ Fin m) ℝ) * NormedSpace.exp (t • (fromBlocks F G 0 0 : Matrix (Fin n ⊕ Fin m) (Fin n ⊕ Fin m) ℝ)))
      (Sum.inl i) (Sum.inr j) = (F * discB F G t + G) i j := by
    have hb : discB F G t = (NormedSpace.exp (t • (fromBlocks F G 0 0 : Matrix (Fin n ⊕ Fin m) (Fin n ⊕ Fin m) ℝ))).toBlocks₁₂ := rfl
    rw [hb]
    generalize NormedSpace.exp (t • (fromBlocks F G 0 0 : Matrix (Fin n ⊕ Fin m) (Fin n ⊕ Fin m) ℝ)) = E at *
    conv_lhs => rw [← fromBlocks_toBlocks E, fromBlocks_multiply, fromBlocks_apply₁₂, h2, Matrix.mul_one]
  rw [e] at h
  exact h

theorem discN_deriv (F S : Matrix (Fin n) (Fin n) ℝ) (t : ℝ) :
    MD (discN F S) (F * discN F S t + S * (discA F (-t))ᵀ) t := by
  intro i j
  have h := exp_entry_deriv (fromBlocks F S 0 (-Fᵀ) : Matrix (Fin n ⊕ Fin n) (Fin n ⊕ Fin n) ℝ) t (Sum.inl i) (Sum.inr j)
  obtain ⟨-, -, h2⟩ := exp_upper F S (-Fᵀ) t
  have h3 := discA_transpose F t
  unfold discA at h3
  rw [h3] at h2
  have e : ((fromBlocks F S 0 (-Fᵀ) : Matrix (Fin n ⊕ Fin n) (Fin n ⊕ Fin n) ℝ) * NormedSpace.exp (t • (fromBlocks F S 0 (-Fᵀ) : Matrix (Fin n ⊕ Fin n) (Fin n ⊕ Fin n) ℝ)))
      (Sum.inl i) (Sum.inr j) = (F * discN F S t + S * (discA F (-t))ᵀ) i j := by
    have hb : discN F S t = (NormedSpace.exp (t • (fromBlocks F S 0 (-Fᵀ) : Matrix (Fin n ⊕ Fin n) (Fin n ⊕ Fin n) ℝ))).toBlocks₁₂ := rfl
    rw [hb]
    generalize NormedSpace.exp (t • (fromBlocks F S 0 (-Fᵀ) : Matrix (Fin n ⊕ Fin n) (Fin n ⊕ Fin n) ℝ)) = E at *
    conv_lhs => rw [← fromBlocks_toBlocks E, fromBlocks_multiply, fromBlocks_apply₁₂, h2]
    rfl
  rw [e] at h
  exact h

theorem discA_neg_deriv (F : Matrix (Fin n) (Fin n) ℝ) (t : ℝ) :
    MD (fun s => discA F (-s)) (-(discA F (-t) * F)) t := by
  have e : ∀ s, discA (-F) s = discA F (-s) := by
    intro s; unfold discA; rw [smul_neg, neg_smul]
  refine (discA_deriv (-F) t).congr ?_ e
  rw [e, Matrix.neg_mul, discA_comm]

theorem discA_neg' (F : Matrix (Fin n) (Fin n) ℝ) (t : ℝ) : discA F t * discA F (-t) = 1 := by
  rw [← discA_add, add_neg_cancel, discA_zero]

/-- The covariance. -/
noncomputable def discQ (F S : Matrix (Fin n) (Fin n) ℝ) (t : ℝ) : Matrix (Fin n) (Fin n) ℝ := discN F S t * (discA F t)ᵀ

theorem discQ_zero (F S : Matrix (Fin n) (Fin n) ℝ) : discQ F S 0 = 0 := by
  unfold discQ; rw [discN_zero, Matrix.zero_mul]

theorem discQ_add (F S : Matrix (Fin n) (Fin n) ℝ) (s t : ℝ) :
    discQ F S (s + t) = discA F t * discQ F S s * (discA F t)ᵀ + discQ F S t := by
  unfold discQ
  have e : (discA F (-s))ᵀ * (discA F (s + t))ᵀ = (discA F t)ᵀ := by
    rw [← transpose_mul, ← discA_add]
    congr 2; ring
  rw [discN_add, Matrix.add_mul, Matrix.mul_assoc (discN F S t), e, discA_add, transpose_mul]
  have e2 : (discA F t)ᵀ * (discA F s)ᵀ = (discA F s)ᵀ * (discA F t)ᵀ := by
    rw [← transpose_mul, ← transpose_mul, ← discA_add, ← discA_add, add_comm]
  rw [e2]
  simp only [Matrix.mul_assoc]

theorem discQ_deriv (F S : Matrix (Fin n) (Fin n) ℝ) (t : ℝ) :
    MD (discQ F S) (F * discQ F S t + discQ F S t * Fᵀ + S) t := by
  refine ((discN_deriv F S t).mul (discA_deriv F t).transpose).congr ?_ (fun _ => rfl)
  unfold discQ
  have e : (discA F (-t))ᵀ * (discA F t)ᵀ = 1 := by rw [← transpose_mul, discA_neg', transpose_one]
  rw [discA_comm, transpose_mul, Matrix.add_mul, Matrix.mul_assoc S, e, Matrix.mul_one, Matrix.mul_assoc F]
  have e2 : discN F S t * (Fᵀ * (discA F t)ᵀ) = discN F S t * (discA F t)ᵀ * Fᵀ := by
    rw [← transpose_mul, ← discA_comm, transpose_mul, ← Matrix.mul_assoc]
  rw [e2]
  abel

theorem MD_const_of_zero {M : ℝ → Matrix (Fin n) (Fin m) ℝ} {T : ℝ} (h : ∀ t ∈ Set.Icc 0 T, MD M 0 t) (hT : 0 ≤ T) :
    M T = M 0 := by
  ext i j
  have hc : ContinuousOn (fun s => M s i j) (Set.Icc 0 T) := fun t ht => (h t ht i j).continuousAt.continuousWithinAt
  exact constant_of_has_deriv_right_zero hc
    (fun t ht => (h t (Set.Ico_subset_Icc_self ht) i j).hasDerivWithinAt) T ⟨hT, le_rfl⟩

theorem VD_const_of_zero {v : ℝ → Fin n → ℝ} {T : ℝ} (h : ∀ t ∈ Set.Icc 0 T, VD v 0 t) (hT : 0 ≤ T) : v T = v 0 := by
  funext i
  have hc : ContinuousOn (fun s => v s i) (Set.Icc 0 T) := fun t ht => (h t ht i).continuousAt.continuousWithinAt
  exact constant_of_has_deriv_right_zero hc
    (fun t ht => (h t (Set.Ico_subset_Icc_self ht) i).hasDerivWithinAt) T ⟨hT, le_rfl⟩

theorem VD.congr {v w : ℝ → Fin n → ℝ} {v' w' : Fin n → ℝ} {t : ℝ} (h : VD v v' t) (e : v' = w') (k : ∀ s, v s = w s) :
    VD w w' t := by
  have : v = w := funext k
  subst this; subst e; exact h

theorem zoh_solution (F : Matrix (Fin n) (Fin n) ℝ) (G : Matrix (Fin n) (Fin m) ℝ) (u : Fin m → ℝ) (x : ℝ → Fin n → ℝ)
    (T : ℝ) (hT : 0 ≤ T) (hx : ∀ t ∈ Set.Icc 0 T, VD x (F *ᵥ x t + G *ᵥ u) t) :
    x T = discA F T *ᵥ x 0 + discB F G T *ᵥ u := by
  have key : ∀ t ∈ Set.Icc 0 T, VD (fun s => discA F (-s) *ᵥ (x s - discB F G s *ᵥ u)) 0 t := by
    intro t ht
    have h1 := ((discB_deriv F G t).mulVec (VD.const (t := t) u))
    have h2 := (discA_neg_deriv F t).mulVec ((hx t ht).sub h1)
    refine h2.congr ?_ (fun _ => rfl)
    have e : F *ᵥ x t + G *ᵥ u - ((F * discB F G t + G) *ᵥ u + discB F G t *ᵥ 0) = F *ᵥ (x t - discB F G t *ᵥ u) := by
      rw [add_mulVec, mulVec_zero, mulVec_sub, mulVec_mulVec]; abel
    rw [e, neg_mulVec, mulVec_mulVec]
    abel
  have h := VD_const_of_zero key hT
  rw [neg_zero, discA_zero, discB_zero, one_mulVec, zero_mulVec, sub_zero] at h
  rw [← h, mulVec_mulVec, discA_neg', one_mulVec]
  abel

theorem lyapunov_solution (F S : Matrix (Fin n) (Fin n) ℝ) (P : ℝ → Matrix (Fin n) (Fin n) ℝ)
    (T : ℝ) (hT : 0 ≤ T) (hP : ∀ t ∈ Set.Icc 0 T, MD P (F * P t + P t * Fᵀ + S) t) :
    P T = discA F T * P 0 * (discA F T)ᵀ + discQ F S T := by
  have key : ∀ t ∈ Set.Icc 0 T, MD (fun s => discA F (-s) * (P s - discQ F S s) * (discA F (-s))ᵀ) 0 t := by
    intro t ht
    have h2 := ((discA_neg_deriv F t).mul ((hP t ht).sub (discQ_deriv F S t))).mul (discA_neg_deriv F t).transpose
    refine h2.congr ?_ (fun _ => rfl)
    simp only [transpose_neg, transpose_mul, Matrix.neg_mul, Matrix.mul_neg, Matrix.mul_add, Matrix.add_mul, Matrix.mul_sub,
      Matrix.sub_mul, Matrix.mul_assoc]
    abel
  have h := MD_const_of_zero key hT
  rw [neg_zero, discA_zero, discQ_zero, Matrix.one_mul, sub_zero, transpose_one, Matrix.mul_one] at h
  rw [← h]
  have e : (discA F (-T))ᵀ * (discA F T)ᵀ = 1 := by rw [← transpose_mul, discA_neg', transpose_one]
  simp only [Matrix.mul_assoc, e, Matrix.mul_one]
  rw [← Matrix.mul_assoc, discA_neg', Matrix.one_mul]
  abel

theorem discQ_symm (F S : Matrix (Fin n) (Fin n) ℝ) (hS : Sᵀ = S) (t : ℝ) (ht : 0 ≤ t) : (discQ F S t)ᵀ = discQ F S t := by
  have h := lyapunov_solution F S (fun s => (discQ F S s)ᵀ) t ht (fun s _ => by
    refine (discQ_deriv F S s).transpose.congr ?_ (fun _ => rfl)
    rw [transpose_add, transpose_add, transpose_mul, transpose_mul, transpose_transpose, hS]
    abel)
  rw [discQ_zero, transpose_zero, Matrix.mul_zero, Matrix.zero_mul, zero_add] at h
  exact h

theorem discQ_psd (F S : Matrix (Fin n) (Fin n) ℝ) (hS : ∀ v, 0 ≤ v ⬝ᵥ S *ᵥ v) (t : ℝ) (ht : 0 ≤ t) (v : Fin n → ℝ) :
    0 ≤ v ⬝ᵥ discQ F S t *ᵥ v := by
  have hd : ∀ s, MD (fun s => discA F (-s) * discQ F S s * (discA F (-s))ᵀ)
      (discA F (-s) * S * (discA F (-s))ᵀ) s := by
    intro s
    have h2 := ((discA_neg_deriv F s).mul (discQ_deriv F S s)).mul (discA_neg_deriv F s).transpose
    refine h2.congr ?_ (fun _ => rfl)
    simp only [transpose_neg, transpose_mul, Matrix.neg_mul, Matrix.mul_neg, Matrix.mul_add, Matrix.add_mul, Matrix.mul_assoc]
    abel
  have hq : ∀ w : Fin n → ℝ, Monotone fun s => w ⬝ᵥ (discA F (-s) * discQ F S s * (discA F (-s))ᵀ) *ᵥ w := by
    intro w
    have hder : ∀ s, HasDerivAt (fun s => w ⬝ᵥ (discA F (-s) * discQ F S s * (discA F (-s))ᵀ) *ᵥ w)
        (w ⬝ᵥ (discA F (-s) * S * (discA F (-s))ᵀ) *ᵥ w) s := by
      intro s
      have := (VD.const (t := s) w).dot ((hd s).mulVec (VD.const (t := s) w))
      simpa using this
    apply monotone_of_deriv_nonneg (fun s => (hder s).differentiableAt)
    intro s
    rw [(hder s).deriv, Matrix.mul_assoc, ← mulVec_mulVec, ← mulVec_mulVec, dotProduct_mulVec, ← mulVec_transpose]
    exact hS _
  have h := hq ((discA F t)ᵀ *ᵥ v) ht
  beta_reduce at h
  rw [neg_zero, discA_zero, discQ_zero, Matrix.one_mul, Matrix.zero_mul, zero_mulVec, dotProduct_zero] at h
  have e : (discA F (-t))ᵀ * (discA F t)ᵀ = 1 := by rw [← transpose_mul, discA_neg', transpose_one]
  rw [mulVec_mulVec, Matrix.mul_assoc, e, Matrix.mul_one, mulVec_transpose, ← dotProduct_mulVec, mulVec_mulVec,
    ← Matrix.mul_assoc, discA_neg', Matrix.one_mul] at h
  exact h

end Verif
