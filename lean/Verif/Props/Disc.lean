import Verif.Proof.Disc
import Mathlib.LinearAlgebra.Matrix.Notation
import Mathlib.Analysis.Calculus.Deriv.Pow
import Mathlib.Tactic.FinCases

/-! Property C48: discretisation of linear time invariant systems. -/

namespace Verif

open Matrix

variable {n m p : ℕ}

/-- C48 (errors): the discretisation fails exactly for a scalar noise density and a noise gain without exactly one column. -/
theorem C48_errors (F : Matrix (Fin n) (Fin n) ℝ) (L : Matrix (Fin n) (Fin p) ℝ) (G : Matrix (Fin n) (Fin m) ℝ)
    (Qc : NoiseArg p) (dt : ℝ) :
    ((∃ r, ltiDiscU F L G Qc dt = .ok r) ↔ ((∃ q, Qc = .scalar q) → p = 1)) ∧
    ((∃ r, ltiDisc F L Qc dt = .ok r) ↔ ((∃ q, Qc = .scalar q) → p = 1)) := by
  have hex : (∃ Q, Qc.expand = .ok Q) ∧ ((∃ q, Qc = .scalar q) → p = 1) ∨
      (Qc.expand = .error .valueError ∧ ¬ ((∃ q, Qc = .scalar q) → p = 1)) := by
    cases Qc with
    | none => exact Or.inl ⟨⟨_, rfl⟩, by rintro ⟨q, h⟩; cases h⟩
    | mat Q => exact Or.inl ⟨⟨_, rfl⟩, by rintro ⟨q, h⟩; cases h⟩
    | scalar q =>
      by_cases hp : p = 1
      · exact Or.inl ⟨⟨_, if_pos hp⟩, fun _ => hp⟩
      · exact Or.inr ⟨if_neg hp, fun h => hp (h ⟨q, rfl⟩)⟩
  rcases hex with ⟨⟨Q, hQ⟩, h⟩ | ⟨he, h⟩
  · exact ⟨iff_of_true ⟨_, ltiDiscU_eq F L G Qc Q hQ dt⟩ h, iff_of_true ⟨_, ltiDisc_eq F L Qc Q hQ dt⟩ h⟩
  · have h1 : ltiDisc F L Qc dt = .error .valueError := by unfold ltiDisc; rw [he]; rfl
    have h2 : ltiDiscU F L G Qc dt = .error .valueError := by unfold ltiDiscU; rw [h1]; rfl
    rw [h1, h2]
    exact ⟨iff_of_false (by rintro ⟨r, hr⟩; cases hr) h, iff_of_false (by rintro ⟨r, hr⟩; cases hr) h⟩

theorem expand_of_ok {F : Matrix (Fin n) (Fin n) ℝ} {L : Matrix (Fin n) (Fin p) ℝ} {G : Matrix (Fin n) (Fin m) ℝ}
    {Qc : NoiseArg p} {dt : ℝ} {r : _} (h : ltiDiscU F L G Qc dt = .ok r) : ∃ Q, Qc.expand = .ok Q := by
  unfold ltiDiscU ltiDisc at h
  obtain ⟨_, h1, -⟩ := bind_ok.1 h
  obtain ⟨Q, h2, -⟩ := bind_ok.1 h1
  exact ⟨Q, h2⟩

/-- C48 (composition): the discretisation over `s + t` composes those over `s` and `t`, and over `0` it is trivial. -/
theorem C48_compose (F : Matrix (Fin n) (Fin n) ℝ) (L : Matrix (Fin n) (Fin p) ℝ) (G : Matrix (Fin n) (Fin m) ℝ)
    (Qc : NoiseArg p) (s t : ℝ) (As At : Matrix (Fin n) (Fin n) ℝ) (Bs Bt : Matrix (Fin n) (Fin m) ℝ)
    (Qs Qt : Matrix (Fin n) (Fin n) ℝ) (hs : ltiDiscU F L G Qc s = .ok (As, Bs, Qs))
    (ht : ltiDiscU F L G Qc t = .ok (At, Bt, Qt)) :
    ltiDiscU F L G Qc (s + t) = .ok (As * At, At * Bs + Bt, At * Qs * Atᵀ + Qt) ∧
    ltiDiscU F L G Qc 0 = .ok (1, 0, 0) := by
  obtain ⟨Q, hQ⟩ := expand_of_ok hs
  rw [ltiDiscU_eq F L G Qc Q hQ] at hs ht ⊢
  rw [ltiDiscU_eq F L G Qc Q hQ]
  injection hs with hs
  injection ht with ht
  injection hs with h1 h2
  injection h2 with h2 h3
  injection ht with k1 k2
  injection k2 with k2 k3
  have e := discQ_add F (L * Q * Lᵀ) s t
  have e0 := discQ_zero F (L * Q * Lᵀ)
  unfold discQ at e e0
  rw [discA_add, discB_add, ← h1, ← h2, ← h3, ← k1, ← k2, ← k3, discA_zero, discB_zero, ← discA_add, e]
  rw [discA_zero] at e0
  exact ⟨rfl, by rw [e0]⟩

/-- C48 (exact for constant inputs): every solution of `x' = F x + G u` with a constant input `u` on `[0, dt]` satisfies
`x(dt) = A x(0) + B u` for the returned `A`, `B`. -/
theorem C48_zoh (F : Matrix (Fin n) (Fin n) ℝ) (L : Matrix (Fin n) (Fin p) ℝ) (G : Matrix (Fin n) (Fin m) ℝ)
    (Qc : NoiseArg p) (dt : ℝ) (A : Matrix (Fin n) (Fin n) ℝ) (B : Matrix (Fin n) (Fin m) ℝ) (Q : Matrix (Fin n) (Fin n) ℝ)
    (h : ltiDiscU F L G Qc dt = .ok (A, B, Q)) (hdt : 0 ≤ dt) (u : Fin m → ℝ) (x : ℝ → Fin n → ℝ)
    (hx : ∀ t ∈ Set.Icc 0 dt, ∀ i, HasDerivAt (fun s => x s i) ((F *ᵥ x t + G *ᵥ u) i) t) :
    x dt = A *ᵥ x 0 + B *ᵥ u := by
  obtain ⟨Q', hQ⟩ := expand_of_ok h
  rw [ltiDiscU_eq F L G Qc Q' hQ] at h
  injection h with h
  injection h with h1 h2
  injection h2 with h2 h3
  rw [← h1, ← h2]
  exact zoh_solution F G u x dt hdt hx

/-- C48 (covariance): every solution of the Lyapunov equation `P' = F P + P Fᵀ + L Qc Lᵀ` on `[0, dt]` satisfies
`P(dt) = A P(0) Aᵀ + Q` for the returned `A`, `Q`; and for a symmetric positive semidefinite `Qc` the returned `Q` is
symmetric and positive semidefinite. -/
theorem C48_covariance (F : Matrix (Fin n) (Fin n) ℝ) (L : Matrix (Fin n) (Fin p) ℝ) (G : Matrix (Fin n) (Fin m) ℝ)
    (Qc : Matrix (Fin p) (Fin p) ℝ) (dt : ℝ) (A : Matrix (Fin n) (Fin n) ℝ) (B : Matrix (Fin n) (Fin m) ℝ)
    (Q : Matrix (Fin n) (Fin n) ℝ) (h : ltiDiscU F L G (.mat Qc) dt = .ok (A, B, Q)) (hdt : 0 ≤ dt) :
    (∀ P : ℝ → Matrix (Fin n) (Fin n) ℝ,
      (∀ t ∈ Set.Icc 0 dt, ∀ i j, HasDerivAt (fun s => P s i j) ((F * P t + P t * Fᵀ + L * Qc * Lᵀ) i j) t) →
      P dt = A * P 0 * Aᵀ + Q) ∧
    (Qcᵀ = Qc → Qᵀ = Q) ∧ ((∀ v, 0 ≤ v ⬝ᵥ Qc *ᵥ v) → ∀ v, 0 ≤ v ⬝ᵥ Q *ᵥ v) := by
  rw [ltiDiscU_eq F L G (.mat Qc) Qc rfl] at h
  injection h with h
  injection h with h1 h2
  injection h2 with h2 h3
  have h3 : discQ F (L * Qc * Lᵀ) dt = Q := h3
  rw [← h1, ← h3]
  refine ⟨fun P hP => lyapunov_solution F _ P dt hdt hP, fun hs => discQ_symm F _ ?_ dt hdt,
    fun hp v => discQ_psd F _ ?_ dt hdt v⟩
  · rw [transpose_mul, transpose_mul, transpose_transpose, hs, Matrix.mul_assoc]
  · intro w
    rw [Matrix.mul_assoc, ← mulVec_mulVec, ← mulVec_mulVec, dotProduct_mulVec, ← mulVec_transpose]
    exact hp _

/-- C48 (defaults): leaving out `Qc` means the identity, leaving out `G` means the identity, and a scalar `Qc` is the matrix with
that entry. -/
theorem C48_defaults (F : Matrix (Fin n) (Fin n) ℝ) (L : Matrix (Fin n) (Fin p) ℝ) (L1 : Matrix (Fin n) (Fin 1) ℝ)
    (G : Matrix (Fin n) (Fin m) ℝ) (q dt : ℝ) :
    ltiDiscU F L G .none dt = ltiDiscU F L G (.mat 1) dt ∧
    ltiDiscU F L1 G (.scalar q) dt = ltiDiscU F L1 G (.mat !![q]) dt ∧
    ∀ Qc, ltiDiscUDefault F L Qc dt = ltiDiscU F L (1 : Matrix (Fin n) (Fin n) ℝ) Qc dt := by
  refine ⟨rfl, ?_, fun _ => rfl⟩
  have e : (fun _ _ => q : Matrix (Fin 1) (Fin 1) ℝ) = !![q] := by
    ext i j
    rw [Subsingleton.elim i 0, Subsingleton.elim j 0]
    rfl
  rw [ltiDiscU_eq F L1 G (.scalar q) !![q] (by rw [← e]; rfl),
    ltiDiscU_eq F L1 G (.mat !![q]) !![q] rfl]

/-! Examples meeting the hypotheses. -/

/-- `C48_zoh`: position and velocity under a constant acceleration `u`; the returned matrices map `(a, b)` and `u` to the
position `a + b dt + u dt²/2` and the velocity `b + u dt`. -/
example (dt a b u : ℝ) (hdt : 0 ≤ dt) (A : Matrix (Fin 2) (Fin 2) ℝ) (B : Matrix (Fin 2) (Fin 1) ℝ)
    (Q : Matrix (Fin 2) (Fin 2) ℝ)
    (h : ltiDiscU !![0, 1; 0, 0] !![0; 1] (!![0; 1] : Matrix (Fin 2) (Fin 1) ℝ) .none dt = .ok (A, B, Q)) :
    ![a + b * dt + u * (dt ^ 2 / 2), b + u * dt] = A *ᵥ ![a, b] + B *ᵥ ![u] := by
  have := C48_zoh _ _ _ _ dt A B Q h hdt ![u] (fun t => ![a + b * t + u * (t ^ 2 / 2), b + u * t]) (by
    intro t _ i
    fin_cases i
    · have h1 : HasDerivAt (fun s : ℝ => a + b * s + u * (s ^ 2 / 2)) (b + u * t) t := by
        have := (((hasDerivAt_id t).const_mul b).const_add a).add ((((hasDerivAt_id t).pow 2).div_const 2).const_mul u)
        refine this.congr_deriv ?_
        simp
      simpa [mulVec, dotProduct, Fin.sum_univ_two] using h1
    · have h1 : HasDerivAt (fun s : ℝ => b + u * s) u t := by
        have := ((hasDerivAt_id t).const_mul u).const_add b
        simpa using this
      simpa [mulVec, dotProduct, Fin.sum_univ_two] using h1)
  simpa using this

/-- `C48_covariance`: the constant noise on the velocity; `P(t) = (t³/3, t²/2; t²/2, t)` solves the Lyapunov equation from
`P(0) = 0`, so the returned `Q` is this matrix. -/
example (dt : ℝ) (hdt : 0 ≤ dt) (A : Matrix (Fin 2) (Fin 2) ℝ) (B : Matrix (Fin 2) (Fin 1) ℝ)
    (Q : Matrix (Fin 2) (Fin 2) ℝ)
    (h : ltiDiscU !![0, 1; 0, 0] !![0; 1] (!![0; 1] : Matrix (Fin 2) (Fin 1) ℝ) (.mat 1) dt = .ok (A, B, Q)) :
    Q = !![dt ^ 3 / 3, dt ^ 2 / 2; dt ^ 2 / 2, dt] := by
  have := (C48_covariance _ _ _ _ dt A B Q h hdt).1 (fun t => !![t ^ 3 / 3, t ^ 2 / 2; t ^ 2 / 2, t]) (by
    intro t _ i j
    have h3 : HasDerivAt (fun s : ℝ => s ^ 3 / 3) (t ^ 2) t := by
      refine (((hasDerivAt_id t).pow 3).div_const 3).congr_deriv ?_
      simp
    have h2 : HasDerivAt (fun s : ℝ => s ^ 2 / 2) t t := by
      refine (((hasDerivAt_id t).pow 2).div_const 2).congr_deriv ?_
      simp
    have h1 := hasDerivAt_id t
    fin_cases i <;> fin_cases j
    · refine h3.congr_deriv ?_
      norm_num [Matrix.mul_apply, Fin.sum_univ_two, vecMul, dotProduct, Fin.sum_univ_succ, vecHead, vecTail] <;> ring
    · refine h2.congr_deriv ?_
      norm_num [Matrix.mul_apply, Fin.sum_univ_two, vecMul, dotProduct, Fin.sum_univ_succ, vecHead, vecTail]
    · refine h2.congr_deriv ?_
      norm_num [Matrix.mul_apply, Fin.sum_univ_two, vecMul, dotProduct, Fin.sum_univ_succ, vecHead, vecTail]
    · refine h1.congr_deriv ?_
      norm_num [Matrix.mul_apply, Fin.sum_univ_two, vecMul, dotProduct, Fin.sum_univ_succ, vecHead, vecTail])
  have e : (!![(0 : ℝ) ^ 3 / 3, 0 ^ 2 / 2; 0 ^ 2 / 2, 0] : Matrix (Fin 2) (Fin 2) ℝ) = 0 := by
    ext i j; fin_cases i <;> fin_cases j <;> simp
  rw [e, Matrix.mul_zero, Matrix.zero_mul, zero_add] at this
  exact this.symm

end Verif
