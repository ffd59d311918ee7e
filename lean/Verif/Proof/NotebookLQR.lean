import Verif.Model.NotebookLQR
import Verif.Proof.LQRLimit
import Verif.Proof.TrackModels
import Mathlib.Analysis.Matrix.Order
import Mathlib.NumberTheory.Real.Irrational
import Mathlib.Tactic.NormNum.Prime

/-! Lemmas for the notebook `lqr_iter_demo.ipynb`: the Frobenius norm of ordered matrices and the matrices of the demo. -/

namespace Verif

open Matrix

section Frob
variable {n : ℕ}

theorem psd_mathlib {A : Matrix (Fin n) (Fin n) ℝ} (h : IsPSD A) : A.PosSemidef :=
  .of_dotProduct_mulVec_nonneg (by rw [Matrix.IsHermitian, conjTranspose_eq_transpose_of_trivial]; exact h.1) fun x => by
    simpa using h.2 x

/-- The entrywise inner product of two positive semidefinite matrices is nonnegative. -/
theorem psd_inner {A B : Matrix (Fin n) (Fin n) ℝ} (hA : IsPSD A) (hB : IsPSD B) : 0 ≤ ∑ i, ∑ j, A i j * B i j := by
  have h := ((psd_mathlib hA).hadamard (psd_mathlib hB)).dotProduct_mulVec_nonneg (fun _ => 1)
  simpa [dotProduct, mulVec] using h

theorem frob_sq {m : ℕ} (A : Matrix (Fin n) (Fin m) ℝ) : frob A ^ 2 = ∑ i, ∑ j, A i j ^ 2 :=
  Real.sq_sqrt (Finset.sum_nonneg fun _ _ => Finset.sum_nonneg fun _ _ => sq_nonneg _)

theorem frob_nonneg {m : ℕ} (A : Matrix (Fin n) (Fin m) ℝ) : 0 ≤ frob A := Real.sqrt_nonneg _

theorem frob_zero_iff {m : ℕ} (A : Matrix (Fin n) (Fin m) ℝ) : frob A = 0 ↔ A = 0 := by
  constructor
  · intro h
    have h2 := frob_sq A
    rw [h, zero_pow two_ne_zero] at h2
    ext i j
    have h3 := (Finset.sum_eq_zero_iff_of_nonneg (fun i _ => Finset.sum_nonneg fun j _ => sq_nonneg (A i j))).1 h2.symm i
      (Finset.mem_univ i)
    have h4 := (Finset.sum_eq_zero_iff_of_nonneg (fun j _ => sq_nonneg (A i j))).1 h3 j (Finset.mem_univ j)
    exact pow_eq_zero_iff two_ne_zero |>.1 h4
  · rintro rfl
    simp [frob]

theorem frob_neg {m : ℕ} (A : Matrix (Fin n) (Fin m) ℝ) : frob (-A) = frob A := by simp [frob]

theorem frob_sub_comm {m : ℕ} (A B : Matrix (Fin n) (Fin m) ℝ) : frob (A - B) = frob (B - A) := by
  rw [← frob_neg, neg_sub]

theorem frob_smul {m : ℕ} (c : ℝ) (hc : 0 ≤ c) (A : Matrix (Fin n) (Fin m) ℝ) : frob (c • A) = c * frob A := by
  have : ∑ i, ∑ j, (c • A) i j ^ 2 = c ^ 2 * ∑ i, ∑ j, A i j ^ 2 := by
    simp only [Matrix.smul_apply, smul_eq_mul, mul_pow, Finset.mul_sum]
  unfold frob
  rw [this, Real.sqrt_mul (sq_nonneg c), Real.sqrt_sq hc]

theorem frob_expand (A D : Matrix (Fin n) (Fin n) ℝ) :
    frob (A + D) ^ 2 = frob A ^ 2 + 2 * ∑ i, ∑ j, A i j * D i j + frob D ^ 2 := by
  simp only [frob_sq, Matrix.add_apply, Finset.mul_sum, ← Finset.sum_add_distrib]
  exact Finset.sum_congr rfl fun i _ => Finset.sum_congr rfl fun j _ => by ring

theorem frob_mono {A B : Matrix (Fin n) (Fin n) ℝ} (hA : IsPSD A) (hB : IsPSD (B - A)) : frob A ≤ frob B := by
  have h1 := frob_expand A (B - A)
  rw [add_sub_cancel] at h1
  have h2 := psd_inner hA hB
  have h3 := sq_nonneg (frob (B - A))
  exact abs_le_of_sq_le_sq' (by linarith) (frob_nonneg B) |>.2

theorem frob_strict {A B : Matrix (Fin n) (Fin n) ℝ} (hA : IsPSD A) (hB : IsPSD (B - A)) (hne : A ≠ B) :
    frob A < frob B := by
  have h1 := frob_expand A (B - A)
  rw [add_sub_cancel] at h1
  have h2 := psd_inner hA hB
  have h3 : 0 < frob (B - A) := lt_of_le_of_ne (frob_nonneg _) fun h => hne (sub_eq_zero.1 ((frob_zero_iff _).1 h.symm)).symm
  have h4 : 0 < frob (B - A) ^ 2 := by positivity
  exact lt_of_pow_lt_pow_left₀ 2 (frob_nonneg B) (by linarith)

theorem entry_le_frob {m : ℕ} (A : Matrix (Fin n) (Fin m) ℝ) (i : Fin n) (j : Fin m) : A i j ≤ frob A := by
  refine le_trans (le_abs_self _) (Real.abs_le_sqrt ?_)
  refine le_trans ?_ (Finset.single_le_sum (fun i _ => Finset.sum_nonneg fun j _ => sq_nonneg (A i j)) (Finset.mem_univ i))
  exact Finset.single_le_sum (f := fun j => A i j ^ 2) (fun j _ => sq_nonneg _) (Finset.mem_univ j)

end Frob

/-! ### Change of field -/

section Map
variable {n m : ℕ} {K K' : Type} [Field K] [LinearOrder K] [Field K'] [LinearOrder K']

/-- An LQR object over another field. -/
def LQR.mapF (f : K →+* K') (R : LQR n m K) : LQR n m K' := ⟨R.F.map f, R.L.map f, R.X.map f, R.U.map f, R.XT.map f⟩

theorem minv_map (f : K →+* K') {ι : Type} [Fintype ι] [DecidableEq ι] (A : Matrix ι ι K) : minv (A.map f) = (minv A).map f := by
  unfold minv
  have h1 : (A.map f).adjugate = A.adjugate.map f := (RingHom.map_adjugate f A).symm
  have h2 : (A.map f).det = f A.det := (RingHom.map_det f A).symm
  rw [h1, h2, ← map_inv₀]
  ext i j
  simp

theorem ric_map (f : K →+* K') (R : LQR n m K) (S : Matrix (Fin n) (Fin n) K) :
    (R.mapF f).ric (S.map f) = (R.ric S).map f := by
  have hm : ∀ {a b c : ℕ} (A : Matrix (Fin a) (Fin b) K) (B : Matrix (Fin b) (Fin c) K), A.map f * B.map f = (A * B).map f :=
    fun A B => (Matrix.map_mul).symm
  have ha : ∀ {a b : ℕ} (A B : Matrix (Fin a) (Fin b) K), A.map f + B.map f = (A + B).map f :=
    fun A B => (Matrix.map_add f (map_add f) A B).symm
  have hs : ∀ {a b : ℕ} (A B : Matrix (Fin a) (Fin b) K), A.map f - B.map f = (A - B).map f :=
    fun A B => (Matrix.map_sub f (map_sub f) A B).symm
  have hd : ∀ {a : ℕ} (A : Matrix (Fin a) (Fin a) K), minv (A.map f) = (minv A).map f := fun A => minv_map f A
  simp only [LQR.ric, LQR.ricK, LQR.update, LQR.mapF, ← transpose_map, hm, ha, hs, hd]

theorem iterS_map (f : K →+* K') (R : LQR n m K) (k : ℕ) : (R.mapF f).iterS k = (R.iterS k).map f := by
  induction k with
  | zero => rfl
  | succ k ih =>
    unfold LQR.iterS at *
    rw [Function.iterate_succ_apply', Function.iterate_succ_apply', ih, ric_map]

end Map

/-! ### The matrices of the demo -/

/-- The regulator of the demo over a field. -/
def demoLQR (K : Type) [Field K] : LQR 4 2 K :=
  ⟨!![1, 0, 1, 0; 0, 1, 0, 1; 0, 0, 1, 0; 0, 0, 0, 1], !![1 / 2, 0; 0, 1 / 2; 1, 0; 0, 1], diagonal ![1, 1, 1 / 100, 1 / 100],
    diagonal ![1 / 10, 1 / 10], diagonal ![1, 1, 1 / 100, 1 / 100]⟩

theorem lqrDemoModel_eq : lqrDemoModel = .ok (demoLQR ℝ) := by
  have hb : ∀ {α β : Type} (a : α) (f : α → Py β), ((Except.ok a : Py α) >>= f) = f a := fun _ _ => rfl
  have e := cv_disc 1 zero_le_one
  unfold linF linL at e
  unfold lqrDemoModel
  dsimp only
  rw [ltiDiscU_eq _ _ _ (.mat (Matrix.diagonal ![1, 1])) _ rfl, hb, e.1, e.2]
  dsimp only
  have h1 : cvF 1 = (demoLQR ℝ).F := rfl
  have h2 : cvL 1 = (demoLQR ℝ).L := by
    ext i j
    fin_cases i <;> fin_cases j <;> simp [cvL, demoLQR]
  have h3 : diagonal ![1, 1, 0.01, 0.01] = (demoLQR ℝ).X := by
    unfold demoLQR
    norm_num
  have h4 : (0.1 : ℝ) • (1 : Matrix (Fin 2) (Fin 2) ℝ) = (demoLQR ℝ).U := by
    ext i j
    fin_cases i <;> fin_cases j <;> simp [demoLQR] <;> norm_num
  rw [h1, h2, h3, h4]
  rfl

theorem demoLQR_map : (demoLQR ℚ).mapF (Rat.castHom ℝ) = demoLQR ℝ := by
  have h : ∀ A B : LQR 4 2 ℝ, A.F = B.F → A.L = B.L → A.X = B.X → A.U = B.U → A.XT = B.XT → A = B := by
    rintro ⟨⟩ ⟨⟩ h1 h2 h3 h4 h5
    simp_all
  apply h <;> ext i j <;> fin_cases i <;> fin_cases j <;> simp [demoLQR, LQR.mapF]

theorem demoLQR_convex : (demoLQR ℝ).Convex := by
  have hX : IsPSD (diagonal ![1, 1, 1 / 100, 1 / 100] : Matrix (Fin 4) (Fin 4) ℝ) :=
    isPSD_diagonal _ fun i => by fin_cases i <;> norm_num
  exact ⟨⟨diagonal_transpose _, isPD_diagonal _ fun i => by fin_cases i <;> norm_num⟩, hX, hX⟩

/-- The number 0.32015621..., the mixed entry of the solution. -/
noncomputable def demoB : ℝ := Real.sqrt 41 / 20

/-- The number 1.44884795..., the position entry of the solution. -/
noncomputable def demoA : ℝ := (1 + Real.sqrt (104 / 100 + 8 * demoB)) / 2

/-- The number 0.30877956..., the velocity entry of the solution. -/
noncomputable def demoC : ℝ := demoA * demoB - demoB / 2 + 1 / 200

/-- The matrix printed by the notebook. -/
noncomputable def demoP : Matrix (Fin 4) (Fin 4) ℝ :=
  !![demoA, 0, demoB, 0; 0, demoA, 0, demoB; demoB, 0, demoC, 0; 0, demoB, 0, demoC]

/-- The gain of the solution. -/
noncomputable def demoK : Matrix (Fin 2) (Fin 4) ℝ :=
  !![1 / (demoA / 2 + demoB), 0, demoA / (demoA / 2 + demoB), 0; 0, 1 / (demoA / 2 + demoB), 0, demoA / (demoA / 2 + demoB)]

theorem demoB_sq : demoB ^ 2 = 41 / 400 := by
  unfold demoB
  rw [div_pow, Real.sq_sqrt (by norm_num)]
  norm_num

theorem demoB_bounds : 0.32015621187 < demoB ∧ demoB < 0.32015621188 := by
  have h0 : 0 ≤ demoB := div_nonneg (Real.sqrt_nonneg _) (by norm_num)
  have h := demoB_sq
  constructor <;> nlinarith

theorem demoA_sq : demoA ^ 2 = demoA + 2 * demoB + 1 / 100 := by
  have h : (0 : ℝ) ≤ 104 / 100 + 8 * demoB := by linarith [demoB_bounds.1]
  have h2 := Real.sq_sqrt h
  unfold demoA
  nlinarith

theorem demoA_bounds : 1.44884794552 < demoA ∧ demoA < 1.44884794556 := by
  have h0 : 1 / 2 ≤ demoA := by
    unfold demoA
    linarith [Real.sqrt_nonneg (104 / 100 + 8 * demoB)]
  have h := demoA_sq
  have h1 := demoB_bounds
  have e : (demoA - 1 / 2) ^ 2 = 1 / 4 + 2 * demoB + 1 / 100 := by linarith [h]
  constructor
  · by_contra hc
    nlinarith [mul_self_nonneg (demoA - 1 / 2)]
  · by_contra hc
    nlinarith [mul_self_nonneg (demoA - 1 / 2)]

theorem demoC_bounds : 0.30877956387 < demoC ∧ demoC < 0.30877956391 := by
  have h1 := demoB_bounds
  have h2 := demoA_bounds
  have e : demoC = (demoA - 1 / 2) * demoB + 1 / 200 := by unfold demoC; ring
  rw [e]
  constructor <;> nlinarith

theorem demo_w : 1 / 10 + demoA / 4 + demoB + demoC = (demoA / 2 + demoB) ^ 2 := by
  have h1 := demoA_sq
  have h2 := demoB_sq
  unfold demoC
  nlinarith

theorem demo_q : demoA / 2 + 3 * demoB / 2 + demoC = demoA * (demoA / 2 + demoB) := by
  have h1 := demoA_sq
  unfold demoC
  nlinarith

theorem demo_stationary : (demoLQR ℝ).Stationary demoP demoK := by
  have hp : 0 < demoA / 2 + demoB := by linarith [demoB_bounds.1, demoA_bounds.1]
  have hw := demo_w
  have hq := demo_q
  have ha := demoA_sq
  have hk : (demoA / 2 + demoB) * (1 / (demoA / 2 + demoB)) = 1 := mul_one_div_cancel hp.ne'
  have hk2 : demoA / (demoA / 2 + demoB) = demoA * (1 / (demoA / 2 + demoB)) := by ring
  unfold LQR.Stationary demoLQR demoP demoK
  rw [hk2]
  generalize demoA = a at *
  generalize demoB = b at *
  generalize demoC = c at *
  generalize 1 / (a / 2 + b) = k at *
  constructor
  · ext i j
    fin_cases i <;> fin_cases j <;> simp [mul_apply, Fin.sum_univ_succ]
    all_goals
      first
      | linear_combination k * hw + (a / 2 + b) * hk
      | linear_combination (a * k) * hw + a * (a / 2 + b) * hk - hq
      | linear_combination hk
      | linear_combination a * hk
      | linear_combination k * hq + a * hk
      | linear_combination a * k * hq + a ^ 2 * hk + ha
  · ext i j
    fin_cases i <;> fin_cases j <;> simp [mul_apply, Fin.sum_univ_succ]
    all_goals
      first
      | linear_combination k * hw + (a / 2 + b) * hk
      | linear_combination (a * k) * hw + a * (a / 2 + b) * hk - hq
      | linear_combination hk
      | linear_combination a * hk
      | linear_combination k * hq + a * hk
      | linear_combination a * k * hq + a ^ 2 * hk + ha

/-- Two copies of a symmetric two by two matrix, in the order of the states of the demo. -/
def twin (x y z : ℝ) : Matrix (Fin 4) (Fin 4) ℝ := !![x, 0, y, 0; 0, x, 0, y; y, 0, z, 0; 0, y, 0, z]

theorem qf_twin (x y z : ℝ) (v : Fin 4 → ℝ) :
    qf (twin x y z) v = x * (v 0 ^ 2 + v 1 ^ 2) + 2 * y * (v 0 * v 2 + v 1 * v 3) + z * (v 2 ^ 2 + v 3 ^ 2) := by
  simp [qf, twin, dotProduct, mulVec, Fin.sum_univ_succ]
  ring

theorem twin_symm (x y z : ℝ) : (twin x y z)ᵀ = twin x y z := by
  ext i j
  fin_cases i <;> fin_cases j <;> rfl

theorem twin_sub (x y z x' y' z' : ℝ) : twin x y z - twin x' y' z' = twin (x - x') (y - y') (z - z') := by
  ext i j
  fin_cases i <;> fin_cases j <;> simp [twin]

theorem twin_smul (r x y z : ℝ) : r • twin x y z = twin (r * x) (r * y) (r * z) := by
  ext i j
  fin_cases i <;> fin_cases j <;> simp [twin]

theorem twin_qf_ge {x y z e : ℝ} (hx : e < x) (h : y ^ 2 ≤ (x - e) * (z - e)) (v : Fin 4 → ℝ) :
    e * qf 1 v ≤ qf (twin x y z) v := by
  have h1 : qf (1 : Matrix (Fin 4) (Fin 4) ℝ) v = v 0 ^ 2 + v 1 ^ 2 + v 2 ^ 2 + v 3 ^ 2 := by
    simp [qf, dotProduct, Fin.sum_univ_succ]
    ring
  rw [qf_twin, h1]
  have hx' : 0 < x - e := by linarith
  have key : 0 ≤ (x - e) * ((x - e) * (v 0 ^ 2 + v 1 ^ 2) + 2 * y * (v 0 * v 2 + v 1 * v 3) + (z - e) * (v 2 ^ 2 + v 3 ^ 2)) := by
    nlinarith [sq_nonneg ((x - e) * v 0 + y * v 2), sq_nonneg ((x - e) * v 1 + y * v 3),
      mul_nonneg (sub_nonneg.2 h) (add_nonneg (sq_nonneg (v 2)) (sq_nonneg (v 3)))]
  nlinarith [nonneg_of_mul_nonneg_right key hx']

theorem twin_psd {x y z : ℝ} (hx : 0 < x) (h : y ^ 2 ≤ x * z) : IsPSD (twin x y z) :=
  ⟨twin_symm x y z, fun v => by simpa [qf] using twin_qf_ge (e := 0) hx (by simpa using h) v⟩

theorem demoP_twin : demoP = twin demoA demoB demoC := rfl

theorem demoX_twin : (demoLQR ℝ).X = twin 1 0 (1 / 100) := by
  ext i j
  fin_cases i <;> fin_cases j <;> simp [twin, demoLQR]

theorem demoP_psd : IsPSD demoP := by
  have h1 := demoA_bounds
  have h2 := demoB_bounds
  have h3 := demoC_bounds
  exact twin_psd (by linarith) (by nlinarith)

/-- The start of the iterations is below the solution by a definite matrix. -/
theorem demo_gap (v : Fin 4 → ℝ) : 1 / 50 * qf 1 v ≤ qf (demoP - (demoLQR ℝ).X) v := by
  have h1 := demoA_bounds
  have h2 := demoB_bounds
  have h3 := demoC_bounds
  rw [demoP_twin, demoX_twin, twin_sub]
  refine twin_qf_ge (by linarith) ?_ v
  have e : demoB ^ 2 ≤ 0.1026 := by nlinarith
  rw [sub_zero]
  nlinarith

/-- The first iterate. -/
theorem demo_first : (demoLQR ℝ).iterS 1 = twin (47 / 36) (7 / 24) (119 / 400) := by
  have hK : (demoLQR ℝ).ricK (demoLQR ℝ).X = !![25 / 18, 0, 17 / 12, 0; 0, 25 / 18, 0, 17 / 12] := by
    have h1 := ricK_eq demoLQR_convex.1.2 demoLQR_convex.2.1
    have h2 : (demoLQR ℝ).U + (demoLQR ℝ).Lᵀ * (demoLQR ℝ).X * (demoLQR ℝ).L = (9 / 25 : ℝ) • 1 := by
      ext i j
      fin_cases i <;> fin_cases j <;> simp [demoLQR, mul_apply, Fin.sum_univ_succ] <;> norm_num
    rw [h2, Matrix.smul_mul, Matrix.one_mul] at h1
    have h3 : (demoLQR ℝ).ricK (demoLQR ℝ).X = (25 / 9 : ℝ) • ((9 / 25 : ℝ) • (demoLQR ℝ).ricK (demoLQR ℝ).X) := by
      rw [smul_smul]
      norm_num
    rw [h3, h1]
    ext i j
    fin_cases i <;> fin_cases j <;> simp [demoLQR, mul_apply, Fin.sum_univ_succ] <;> norm_num
  show (demoLQR ℝ).update (demoLQR ℝ).X ((demoLQR ℝ).ricK (demoLQR ℝ).X) = _
  rw [hK]
  ext i j
  fin_cases i <;> fin_cases j <;> simp [demoLQR, LQR.update, twin, mul_apply, Fin.sum_univ_succ] <;> norm_num

/-- Nine tenths of the solution are recovered by the first iteration. -/
theorem demo_ninety : IsPSD ((demoLQR ℝ).iterS 1 - (9 / 10 : ℝ) • demoP) := by
  have h1 := demoA_bounds
  have h2 := demoB_bounds
  have h3 := demoC_bounds
  rw [demo_first, demoP_twin, twin_smul, twin_sub]
  refine twin_psd (by linarith) ?_
  nlinarith

theorem demo_irrational (k : ℕ) : (demoLQR ℝ).iterS k ≠ demoP := by
  intro h
  rw [← demoLQR_map, iterS_map] at h
  have h1 := congrFun (congrFun h 0) 2
  have h2 : demoP 0 2 = demoB := rfl
  rw [h2] at h1
  have h3 : Irrational (Real.sqrt ((41 : ℕ) : ℝ)) := Nat.Prime.irrational_sqrt (by norm_num)
  refine h3 ⟨20 * (demoLQR ℚ).iterS k 0 2, ?_⟩
  have h4 : ((demoLQR ℚ).iterS k).map (Rat.castHom ℝ) 0 2 = (((demoLQR ℚ).iterS k 0 2 : ℚ) : ℝ) := rfl
  rw [h4] at h1
  push_cast
  rw [h1]
  unfold demoB
  ring

end Verif
