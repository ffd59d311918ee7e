import Verif.Proof.CLQTConv
import Verif.Proof.ODEExist
import Verif.Proof.CLQTFlow
import Mathlib.Analysis.Calculus.Deriv.MeanValue

/-! Solutions of the Riccati equation over a whole interval, through the linear Hamiltonian system. -/

namespace Verif

open Set Matrix

attribute [local instance] Matrix.normedAddCommGroup Matrix.normedSpace

variable {n m : ℕ} {a b : ℝ}

/-- Right hand side of the Hamiltonian system for the stacked matrices. -/
def hamF (F G Q : ℝ → Matrix (Fin n) (Fin n) ℝ) (Z : Matrix (Fin (n + n)) (Fin n) ℝ) (t : ℝ) : Matrix (Fin (n + n)) (Fin n) ℝ :=
  Matrix.of (Fin.addCases
    (fun i j => (F t * Z.submatrix (Fin.castAdd n) id - G t * Z.submatrix (Fin.natAdd n) id) i j)
    (fun i j => (-(Q t * Z.submatrix (Fin.castAdd n) id) - (F t)ᵀ * Z.submatrix (Fin.natAdd n) id) i j))

theorem hamF_good {F G Q : ℝ → Matrix (Fin n) (Fin n) ℝ} (hF : ∀ i j, ContinuousOn (fun t => F t i j) (Icc a b))
    (hG : ∀ i j, ContinuousOn (fun t => G t i j) (Icc a b)) (hQ : ∀ i j, ContinuousOn (fun t => Q t i j) (Icc a b)) :
    GM a b (hamF F G Q) := by
  have h1 : GM a b (fun (Z : Matrix (Fin (n + n)) (Fin n) ℝ) _ => Z.submatrix (Fin.castAdd n) id) := fun i j => RG.entry _ _
  have h2 : GM a b (fun (Z : Matrix (Fin (n + n)) (Fin n) ℝ) _ => Z.submatrix (Fin.natAdd n) id) := fun i j => RG.entry _ _
  have h3 := ((GM.time hF).mul h1).sub ((GM.time hG).mul h2)
  have h4 := ((GM.time hQ).mul h1).neg.sub ((GM.time hF).transpose.mul h2)
  intro i j
  refine Fin.addCases (fun i => ?_) (fun i => ?_) i
  · simp only [hamF, Matrix.of_apply, Fin.addCases_left]
    exact h3 i j
  · simp only [hamF, Matrix.of_apply, Fin.addCases_right]
    exact h4 i j

theorem hamF_affine (F G Q : ℝ → Matrix (Fin n) (Fin n) ℝ) (t c : ℝ) (Z : Matrix (Fin (n + n)) (Fin n) ℝ) :
    hamF F G Q (c • Z) t - hamF F G Q 0 t = c • (hamF F G Q Z t - hamF F G Q 0 t) := by
  ext i j
  refine Fin.addCases (fun i => ?_) (fun i => ?_) i <;>
    simp [hamF, Matrix.submatrix_smul, mul_sub, mul_add, -Fin.natAdd_eq_addNat]

/-- The Hamiltonian system over the whole interval. -/
theorem ham_exists {F G Q : ℝ → Matrix (Fin n) (Fin n) ℝ} (hab : a ≤ b) (hF : ∀ i j, ContinuousOn (fun t => F t i j) (Icc a b))
    (hG : ∀ i j, ContinuousOn (fun t => G t i j) (Icc a b)) (hQ : ∀ i j, ContinuousOn (fun t => Q t i j) (Icc a b))
    (Sb : Matrix (Fin n) (Fin n) ℝ) :
    ∃ X Y : ℝ → Matrix (Fin n) (Fin n) ℝ, X b = 1 ∧ Y b = Sb ∧ (∀ i j, ContinuousOn (fun t => X t i j) (Icc a b)) ∧
      (∀ i j, ContinuousOn (fun t => Y t i j) (Icc a b)) ∧
      ∀ t ∈ Ioo a b, MD X (F t * X t - G t * Y t) t ∧ MD Y (-(Q t * X t) - (F t)ᵀ * Y t) t := by
  obtain ⟨Z, h1, h2, h3⟩ := (hamF_good hF hG hQ).rhs.exists_affine_left hab (hamF_affine F G Q)
    (Matrix.of (Fin.addCases (fun i j => (1 : Matrix (Fin n) (Fin n) ℝ) i j) (fun i j => Sb i j)))
  have hc : ∀ i j, ContinuousOn (fun t => Z t i j) (Icc a b) := fun i j => continuousOn_pi.1 (continuousOn_pi.1 h2 i) j
  have hd : ∀ t ∈ Ioo a b, ∀ i j, HasDerivAt (fun s => Z s i j) (hamF F G Q (Z t) t i j) t := fun t ht i j =>
    hasDerivAt_pi.1 (hasDerivAt_pi.1 (h3 t ht) i) j
  refine ⟨fun t => (Z t).submatrix (Fin.castAdd n) id, fun t => (Z t).submatrix (Fin.natAdd n) id, ?_, ?_, fun i j => hc _ _,
    fun i j => hc _ _, fun t ht => ⟨fun i j => ?_, fun i j => ?_⟩⟩
  · ext i j
    simp [h1]
  · ext i j
    simp [h1, -Fin.natAdd_eq_addNat]
  · have := hd t ht (Fin.castAdd n i) j
    simp only [hamF, Matrix.of_apply, Fin.addCases_left] at this
    exact this
  · have := hd t ht (Fin.natAdd n i) j
    simp only [hamF, Matrix.of_apply, Fin.addCases_right] at this
    exact this

theorem contOn_mulVec {p q : ℕ} {M : ℝ → Matrix (Fin p) (Fin q) ℝ} {w : ℝ → Fin q → ℝ} {s : Set ℝ} (h : ∀ i j, ContinuousOn (fun t => M t i j) s)
    (hw : ∀ j, ContinuousOn (fun t => w t j) s) (i : Fin p) : ContinuousOn (fun t => (M t *ᵥ w t) i) s := by
  simp only [Matrix.mulVec, dotProduct]
  exact continuousOn_finset_sum _ fun k _ => (h i k).mul (hw k)

theorem contOn_mul {p q r : ℕ} {M : ℝ → Matrix (Fin p) (Fin q) ℝ} {N : ℝ → Matrix (Fin q) (Fin r) ℝ} {s : Set ℝ}
    (h : ∀ i j, ContinuousOn (fun t => M t i j) s) (hN : ∀ i j, ContinuousOn (fun t => N t i j) s) (i : Fin p) (j : Fin r) :
    ContinuousOn (fun t => (M t * N t) i j) s := by
  simp only [Matrix.mul_apply]
  exact continuousOn_finset_sum _ fun k _ => (h i k).mul (hN k j)

/-- A function with nonpositive derivative does not increase. -/
theorem antitone_of_deriv {φ φ' : ℝ → ℝ} (hc : ContinuousOn φ (Icc a b)) (hd : ∀ t ∈ Ioo a b, HasDerivAt φ (φ' t) t)
    (h0 : ∀ t ∈ Ioo a b, φ' t ≤ 0) : AntitoneOn φ (Icc a b) :=
  antitoneOn_of_deriv_nonpos (convex_Icc a b) hc
    (fun t ht => ((hd t (by rwa [interior_Icc] at ht)).differentiableAt).differentiableWithinAt)
    (fun t ht => by
      rw [interior_Icc] at ht
      rw [(hd t ht).deriv]
      exact h0 t ht)

/-- A function with vanishing derivative is constant. -/
theorem const_of_deriv {φ : ℝ → ℝ} (hc : ContinuousOn φ (Icc a b)) (hd : ∀ t ∈ Ioo a b, HasDerivAt φ 0 t) {s t : ℝ} (hs : s ∈ Icc a b)
    (ht : t ∈ Icc a b) : φ s = φ t := by
  have key : ∀ {s t : ℝ}, s ∈ Icc a b → t ∈ Icc a b → s ≤ t → φ s = φ t := by
    intro s t hs ht hst
    refine le_antisymm ?_ (antitone_of_deriv hc hd (fun _ _ => le_rfl) hs ht hst)
    have := antitone_of_deriv hc.neg (fun r hr => (hd r hr).neg) (fun _ _ => by simp) hs ht hst
    simpa using this
  rcases le_total s t with h | h
  · exact key hs ht h
  · exact (key ht hs h).symm

/-- The Riccati equation with semidefinite data has a semidefinite solution over the whole interval. -/
theorem riccati_exists {F G Q : ℝ → Matrix (Fin n) (Fin n) ℝ} (hab : a ≤ b) (hF : ∀ i j, ContinuousOn (fun t => F t i j) (Icc a b))
    (hG : ∀ i j, ContinuousOn (fun t => G t i j) (Icc a b)) (hQ : ∀ i j, ContinuousOn (fun t => Q t i j) (Icc a b))
    (hGp : ∀ t ∈ Icc a b, IsPSD (G t)) (hQp : ∀ t ∈ Icc a b, IsPSD (Q t)) {Sb : Matrix (Fin n) (Fin n) ℝ} (hSb : IsPSD Sb) :
    ∃ S : ℝ → Matrix (Fin n) (Fin n) ℝ, S b = Sb ∧ (∀ i j, ContinuousOn (fun t => S t i j) (Icc a b)) ∧ (∀ t ∈ Icc a b, IsPSD (S t)) ∧
      ∀ t ∈ Ioo a b, MD S (-(F t)ᵀ * S t - S t * F t + S t * G t * S t - Q t) t := by
  obtain ⟨X, Y, hXb, hYb, hXc, hYc, hXY⟩ := ham_exists hab hF hG hQ Sb
  -- the product of state and costate does not increase
  have hφ : ∀ w : Fin n → ℝ, (∀ t ∈ Ioo a b, HasDerivAt (fun t => (X t *ᵥ w) ⬝ᵥ (Y t *ᵥ w))
      (-((Y t *ᵥ w) ⬝ᵥ G t *ᵥ (Y t *ᵥ w)) - (X t *ᵥ w) ⬝ᵥ Q t *ᵥ (X t *ᵥ w)) t) ∧
      ContinuousOn (fun t => (X t *ᵥ w) ⬝ᵥ (Y t *ᵥ w)) (Icc a b) := by
    intro w
    refine ⟨fun t ht => ?_, ?_⟩
    · have h1 := ((hXY t ht).1.mulVec (VD.const w)).dot ((hXY t ht).2.mulVec (VD.const w))
      refine h1.congr_deriv ?_
      generalize hx : X t *ᵥ w = x
      generalize hy : Y t *ᵥ w = y
      simp only [Matrix.mulVec_zero, add_zero, Matrix.sub_mulVec, Matrix.neg_mulVec, ← Matrix.mulVec_mulVec, hx, hy, sub_dotProduct,
        dotProduct_sub, dotProduct_neg]
      have e1 : (F t *ᵥ x) ⬝ᵥ y = x ⬝ᵥ (F t)ᵀ *ᵥ y := by rw [dotProduct_comm, dot_symm]
      have e2 : (G t *ᵥ y) ⬝ᵥ y = y ⬝ᵥ G t *ᵥ y := dotProduct_comm _ _
      rw [e1, e2]
      ring
    · simp only [dotProduct]
      exact continuousOn_finset_sum _ fun k _ => (contOn_mulVec (w := fun _ => w) hXc (fun _ => continuousOn_const) k).mul
        (contOn_mulVec (w := fun _ => w) hYc (fun _ => continuousOn_const) k)
  have hanti : ∀ w : Fin n → ℝ, AntitoneOn (fun t => (X t *ᵥ w) ⬝ᵥ (Y t *ᵥ w)) (Icc a b) := fun w =>
    antitone_of_deriv (hφ w).2 (hφ w).1 fun t ht => by
      have h1 := (hGp t ⟨ht.1.le, ht.2.le⟩).2 (Y t *ᵥ w)
      have h2 := (hQp t ⟨ht.1.le, ht.2.le⟩).2 (X t *ᵥ w)
      linarith
  have hend : ∀ w : Fin n → ℝ, 0 ≤ (X b *ᵥ w) ⬝ᵥ (Y b *ᵥ w) := fun w => by
    rw [hXb, hYb, Matrix.one_mulVec]
    exact hSb.2 w
  have hbm : b ∈ Icc a b := right_mem_Icc.2 hab
  have hdet : ∀ t ∈ Icc a b, (X t).det ≠ 0 := by
    intro t ht
    refine det_ne_zero_of_inj fun w hw => ?_
    have hz : ∀ s ∈ Icc t b, (X s *ᵥ w) ⬝ᵥ (Y s *ᵥ w) = 0 := by
      intro s hs
      have hsm : s ∈ Icc a b := ⟨ht.1.trans hs.1, hs.2⟩
      have h1 := hanti w ht hsm hs.1
      have h2 := hanti w hsm hbm hs.2
      have h3 := hend w
      simp only [hw, zero_dotProduct] at h1 h2
      linarith
    have hode : ∀ s ∈ Ioo t b, VD (fun s => X s *ᵥ w) (F s *ᵥ (X s *ᵥ w)) s := by
      intro s hs
      have hsm : s ∈ Ioo a b := ⟨ht.1.trans_lt hs.1, hs.2⟩
      have hsm' : s ∈ Icc a b := ⟨hsm.1.le, hsm.2.le⟩
      have h1 := (hφ w).1 s hsm
      have h2 : HasDerivAt (fun t => (X t *ᵥ w) ⬝ᵥ (Y t *ᵥ w)) 0 s := by
        refine (hasDerivAt_const s (0 : ℝ)).congr_of_eventuallyEq ?_
        filter_upwards [Ioo_mem_nhds hs.1 hs.2] with r hr using hz r ⟨hr.1.le, hr.2.le⟩
      have h3 := h1.unique h2
      have h4 := (hGp s hsm').2 (Y s *ᵥ w)
      have h5 := (hQp s hsm').2 (X s *ᵥ w)
      have h6 := (hGp s hsm').mulVec_eq_zero (x := Y s *ᵥ w) (by linarith)
      have h7 := (hXY s hsm).1.mulVec (VD.const w)
      rw [Matrix.mulVec_zero, add_zero, Matrix.sub_mulVec, ← Matrix.mulVec_mulVec, ← Matrix.mulVec_mulVec, h6, sub_zero] at h7
      exact h7
    have hgood : GoodRhs (fun (x : Fin n → ℝ) s => F s *ᵥ x) t b :=
      ((GM.time fun i j => (hF i j).mono (Icc_subset_Icc_left ht.1)).mulVec fun i => RG.vecEntry i).rhs
    have h1 := hgood.unique_end ht.2 (y := fun s => X s *ᵥ w) (y' := fun _ => 0)
      (continuousOn_pi.2 fun i => (contOn_mulVec (w := fun _ => w) hXc (fun _ => continuousOn_const) i).mono (Icc_subset_Icc_left ht.1))
      (fun s hs => hasDerivAt_pi.2 (hode s hs)) continuousOn_const
      (fun s _ => by simpa using hasDerivAt_const s (0 : Fin n → ℝ)) hw
    rwa [hXb, Matrix.one_mulVec] at h1
  have hU : ∀ t ∈ Icc a b, IsUnit (X t).det := fun t ht => isUnit_iff_ne_zero.2 (hdet t ht)
  -- symmetry
  have hsym : ∀ t ∈ Icc a b, (X t)ᵀ * Y t = (Y t)ᵀ * X t := by
    intro t ht
    rw [← sub_eq_zero]
    ext i j
    have hc : ContinuousOn (fun s => ((X s)ᵀ * Y s - (Y s)ᵀ * X s) i j) (Icc a b) :=
      (contOn_mul (fun i j => hXc j i) hYc i j).sub (contOn_mul (fun i j => hYc j i) hXc i j)
    have h1 := const_of_deriv hc (fun s hs => by
      obtain ⟨h1, h2⟩ := hXY s hs
      have h3 := (h1.transpose.mul h2).sub (h2.transpose.mul h1) i j
      refine h3.congr_deriv ?_
      have hsm' : s ∈ Icc a b := ⟨hs.1.le, hs.2.le⟩
      simp only [transpose_sub, transpose_mul, transpose_neg, (hGp s hsm').1, (hQp s hsm').1, transpose_transpose]
      have : ((X s)ᵀ * (F s)ᵀ - (Y s)ᵀ * G s) * Y s + (X s)ᵀ * (-(Q s * X s) - (F s)ᵀ * Y s) -
          ((-((X s)ᵀ * Q s) - (Y s)ᵀ * F s) * X s + (Y s)ᵀ * (F s * X s - G s * Y s)) = 0 := by
        generalize (X s)ᵀ = X'
        generalize (Y s)ᵀ = Y'
        generalize (F s)ᵀ = F'
        noncomm_ring
      rw [this]
      rfl) ht hbm
    rw [h1, hXb, hYb, transpose_one, Matrix.one_mul, Matrix.mul_one, hSb.1, sub_self]
  refine ⟨fun t => Y t * (X t)⁻¹, ?_, ?_, fun t ht => ⟨?_, fun x => ?_⟩, fun t ht => ?_⟩
  · show Y b * (X b)⁻¹ = Sb
    rw [hXb, hYb, inv_one, Matrix.mul_one]
  · exact contOn_mul hYc (contOn_inv hXc hdet)
  · rw [transpose_mul, transpose_nonsing_inv]
    have hUt : IsUnit ((X t)ᵀ).det := by rw [det_transpose]; exact hU t ht
    calc ((X t)ᵀ)⁻¹ * (Y t)ᵀ = ((X t)ᵀ)⁻¹ * ((Y t)ᵀ * X t) * (X t)⁻¹ := by
          rw [Matrix.mul_assoc, Matrix.mul_assoc, Matrix.mul_nonsing_inv _ (hU t ht), Matrix.mul_one]
      _ = Y t * (X t)⁻¹ := by
          rw [← hsym t ht, ← Matrix.mul_assoc, Matrix.nonsing_inv_mul _ hUt, Matrix.one_mul]
  · have h1 := (hend ((X t)⁻¹ *ᵥ x)).trans (hanti ((X t)⁻¹ *ᵥ x) ht hbm ht.2)
    simp only at h1
    rw [Matrix.mulVec_mulVec, Matrix.mul_nonsing_inv _ (hU t ht), Matrix.one_mulVec, Matrix.mulVec_mulVec] at h1
    exact h1
  · have htm : t ∈ Icc a b := ⟨ht.1.le, ht.2.le⟩
    obtain ⟨h1, h2⟩ := hXY t ht
    refine (h2.mul (h1.inv (hdet t htm))).congr ?_ fun _ => rfl
    have hX := Matrix.mul_nonsing_inv _ (hU t htm)
    dsimp only
    generalize (X t)⁻¹ = Xi at *
    have e1 : (-(Q t * X t) - (F t)ᵀ * Y t) * Xi = -(Q t) - (F t)ᵀ * (Y t * Xi) := by
      rw [Matrix.sub_mul, Matrix.neg_mul, Matrix.mul_assoc, hX, Matrix.mul_one, Matrix.mul_assoc]
    have e2 : Y t * -(Xi * (F t * X t - G t * Y t) * Xi) = -(Y t * Xi * F t) + Y t * Xi * G t * (Y t * Xi) := by
      have : Xi * (F t * X t - G t * Y t) * Xi = Xi * F t * (X t * Xi) - Xi * G t * (Y t * Xi) := by noncomm_ring
      rw [this, hX]
      noncomm_ring
    rw [e1, e2]
    generalize Y t * Xi = S
    rw [Matrix.neg_mul]
    abel

end Verif
