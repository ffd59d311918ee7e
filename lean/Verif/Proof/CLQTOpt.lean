import Verif.Spec.CLQT
import Verif.Proof.CLQTFlow
import Mathlib.Tactic.Linarith

/-! Optimality of the feedback law computed from the Riccati equation. -/

namespace Verif

open Matrix

variable {n m : ℕ} {t : ℝ}

theorem dot_sym {n : ℕ} {U : Matrix (Fin n) (Fin n) ℝ} (hU : Uᵀ = U) (x y : Fin n → ℝ) : x ⬝ᵥ U *ᵥ y = y ⬝ᵥ U *ᵥ x := by
  rw [dot_symm, hU]

theorem quad_expand {n : ℕ} {U : Matrix (Fin n) (Fin n) ℝ} (hU : Uᵀ = U) (u a e : Fin n → ℝ) :
    (u - (-a + e)) ⬝ᵥ U *ᵥ (u - (-a + e)) = u ⬝ᵥ U *ᵥ u + a ⬝ᵥ U *ᵥ a + e ⬝ᵥ U *ᵥ e + 2 * (a ⬝ᵥ U *ᵥ u) - 2 * (e ⬝ᵥ U *ᵥ u) -
      2 * (a ⬝ᵥ U *ᵥ e) := by
  have h1 := dot_sym hU u a
  have h2 := dot_sym hU u e
  have h3 := dot_sym hU e a
  simp only [Matrix.mulVec_sub, Matrix.mulVec_add, Matrix.mulVec_neg, sub_dotProduct, dotProduct_sub, add_dotProduct,
    dotProduct_add, neg_dotProduct, dotProduct_neg]
  rw [h1, h2, h3]
  ring

theorem dot_mul_left {a b : ℕ} (A : Matrix (Fin a) (Fin b) ℝ) (x : Fin a → ℝ) (y : Fin b → ℝ) :
    x ⬝ᵥ A *ᵥ y = (Aᵀ *ᵥ x) ⬝ᵥ y := by
  rw [Matrix.dotProduct_mulVec, Matrix.mulVec_transpose]

/-- Derivative of the value function along a trajectory. -/
theorem value_deriv {P : CLQT n m ℝ} (hU : (P.U t)ᵀ = P.U t) (hX : (P.X t)ᵀ = P.X t) {S : ℝ → Matrix (Fin n) (Fin n) ℝ}
    {v : ℝ → Fin n → ℝ} (hS : (S t)ᵀ = S t) {dy : Matrix (Fin n) (Fin (n + 1)) ℝ}
    (hdy : P.riccatiOdeF (packSv (S t) (v t)) t = .ok dy)
    (hder : ∀ i j, HasDerivAt (fun s => packSv (S s) (v s) i j) (dy i j) t) {x : ℝ → Fin n → ℝ} {u : Fin m → ℝ}
    (hx : ∀ i, HasDerivAt (fun s => x s i) ((P.F t *ᵥ x t + P.c t + P.L t *ᵥ u) i) t) {Y : Matrix (Fin m) (Fin n) ℝ}
    (hY : solvePos (P.U t) (P.L t)ᵀ = .ok Y) :
    HasDerivAt (fun s => (1 / 2) * (x s ⬝ᵥ S s *ᵥ x s) - v s ⬝ᵥ x s)
      (-P.runCost t (x t) u + (1 / 2) * ((u - (-(Y *ᵥ (S t *ᵥ x t)) + Y *ᵥ v t)) ⬝ᵥ
          P.U t *ᵥ (u - (-(Y *ᵥ (S t *ᵥ x t)) + Y *ᵥ v t))) +
        ((1 / 2) * (P.r t ⬝ᵥ P.X t *ᵥ P.r t) - (1 / 2) * (v t ⬝ᵥ P.L t *ᵥ (Y *ᵥ v t)) - v t ⬝ᵥ P.c t)) t := by
  unfold CLQT.riccatiOdeF at hdy
  simp only [unpack_packSv, hY, bind, Except.bind, pure, Except.pure, Except.ok.injEq] at hdy
  subst hdy
  obtain ⟨hS', hv'⟩ := md_sv.1 hder
  have hx' : VD x (P.F t *ᵥ x t + P.c t + P.L t *ᵥ u) t := hx
  have key := ((hx'.dot (hS'.mulVec hx')).const_mul (1 / 2)).sub (hv'.dot hx')
  refine key.congr_deriv ?_
  obtain ⟨-, hUY⟩ := (solvePos_ok hU).1 hY
  have hLy : ∀ w, (P.L t)ᵀ *ᵥ w = P.U t *ᵥ (Y *ᵥ w) := by
    intro w
    rw [Matrix.mulVec_mulVec, hUY]
  rw [quad_expand hU]
  unfold CLQT.runCost
  obtain ⟨y, hy⟩ : ∃ y, y = S t *ᵥ x t := ⟨_, rfl⟩
  obtain ⟨z, hz⟩ : ∃ z, z = P.H t *ᵥ x t := ⟨_, rfl⟩
  obtain ⟨f, hf⟩ : ∃ f, f = P.F t *ᵥ x t := ⟨_, rfl⟩
  have a1 : ∀ w, x t ⬝ᵥ S t *ᵥ w = y ⬝ᵥ w := fun w => by rw [dot_mul_left, hS, hy]
  have a2 : ∀ w, x t ⬝ᵥ (P.F t)ᵀ *ᵥ w = f ⬝ᵥ w := fun w => by rw [dot_mul_left, transpose_transpose, hf]
  have a3 : ∀ w, x t ⬝ᵥ (P.H t)ᵀ *ᵥ w = z ⬝ᵥ w := fun w => by rw [dot_mul_left, transpose_transpose, hz]
  have a4 : ∀ w w', w ⬝ᵥ P.L t *ᵥ w' = (P.U t *ᵥ (Y *ᵥ w)) ⬝ᵥ w' := fun w w' => by rw [dot_mul_left, hLy]
  have c1 : ∀ w, w ⬝ᵥ x t = x t ⬝ᵥ w := fun w => dotProduct_comm _ _
  have b1 : ∀ w w', (P.U t *ᵥ w) ⬝ᵥ w' = w ⬝ᵥ P.U t *ᵥ w' := fun w w' => by rw [dot_mul_left, hU]
  have b2 : P.r t ⬝ᵥ P.X t *ᵥ z = z ⬝ᵥ P.X t *ᵥ P.r t := dot_sym hX _ _
  have b3 := dot_sym hU (Y *ᵥ y) (Y *ᵥ v t)
  have b5 : f ⬝ᵥ y = y ⬝ᵥ f := dotProduct_comm _ _
  have b6 : P.c t ⬝ᵥ y = y ⬝ᵥ P.c t := dotProduct_comm _ _
  have b7 : (P.L t *ᵥ u) ⬝ᵥ y = (Y *ᵥ y) ⬝ᵥ P.U t *ᵥ u := by rw [dotProduct_comm, a4, b1]
  have b8 : f ⬝ᵥ v t = v t ⬝ᵥ f := dotProduct_comm _ _
  rw [c1 (-((P.H t)ᵀ * P.X t) *ᵥ P.r t + S t *ᵥ P.c t - (P.F t)ᵀ *ᵥ v t + (S t * (P.L t * Y)) *ᵥ v t)]
  simp only [← hy, ← hz, ← hf, Matrix.sub_mulVec, Matrix.add_mulVec, Matrix.mulVec_sub, Matrix.mulVec_add, ← Matrix.mulVec_mulVec,
    Matrix.neg_mulVec, Matrix.mulVec_neg, sub_dotProduct, dotProduct_sub, add_dotProduct, dotProduct_add, neg_dotProduct,
    dotProduct_neg, a1, a2, a3, a4, b1, b2, b5, b6, b7, b8, b3]
  ring

theorem termCost_expand (P : CLQT n m ℝ) (hXT : P.XTᵀ = P.XT) (x : Fin n → ℝ) :
    P.termCost x = (1 / 2) * (x ⬝ᵥ (P.HTᵀ * P.XT * P.HT) *ᵥ x) - ((P.HTᵀ * P.XT) *ᵥ P.rT) ⬝ᵥ x +
      (1 / 2) * (P.rT ⬝ᵥ P.XT *ᵥ P.rT) := by
  unfold CLQT.termCost
  have h1 : x ⬝ᵥ (P.HTᵀ * P.XT * P.HT) *ᵥ x = (P.HT *ᵥ x) ⬝ᵥ P.XT *ᵥ (P.HT *ᵥ x) := by
    rw [← Matrix.mulVec_mulVec, ← Matrix.mulVec_mulVec, dot_mul_left, transpose_transpose]
  have h2 : ((P.HTᵀ * P.XT) *ᵥ P.rT) ⬝ᵥ x = (P.HT *ᵥ x) ⬝ᵥ P.XT *ᵥ P.rT := by
    rw [dotProduct_comm, ← Matrix.mulVec_mulVec, dot_mul_left, transpose_transpose]
  rw [h1, h2, Matrix.mulVec_sub, sub_dotProduct, dotProduct_sub, dotProduct_sub, dot_sym hXT P.rT]
  ring

/-- Value of a quadratic along a trajectory. -/
noncomputable def valAlong (S : ℝ → Matrix (Fin n) (Fin n) ℝ) (v x : ℝ → Fin n → ℝ) (s : ℝ) : ℝ :=
  (1 / 2) * (x s ⬝ᵥ S s *ᵥ x s) - v s ⬝ᵥ x s

theorem valAlong_cont {S : ℝ → Matrix (Fin n) (Fin n) ℝ} {v x : ℝ → Fin n → ℝ} {I : Set ℝ}
    (hS : ∀ i j, ContinuousOn (fun t => S t i j) I) (hv : ∀ i, ContinuousOn (fun t => v t i) I)
    (hx : ∀ i, ContinuousOn (fun t => x t i) I) : ContinuousOn (valAlong S v x) I := by
  unfold valAlong
  simp only [dotProduct, Matrix.mulVec]
  refine ContinuousOn.sub (continuousOn_const.mul ?_) ?_
  · exact continuousOn_finsetSum _ fun i _ => (hx i).mul (continuousOn_finsetSum _ fun j _ => (hS i j).mul (hx j))
  · exact continuousOn_finsetSum _ fun i _ => (hv i).mul (hx i)

theorem riccati_solve {P : CLQT n m ℝ} {x dy : Matrix (Fin n) (Fin (n + 1)) ℝ} (h : P.riccatiOdeF x t = .ok dy) :
    ∃ Y, solvePos (P.U t) (P.L t)ᵀ = .ok Y := by
  unfold CLQT.riccatiOdeF at h
  simp only [bind_ok] at h
  obtain ⟨Y, hY, -⟩ := h
  exact ⟨Y, hY⟩

/-- Derivative of the difference of the values along a trajectory and along a feedback trajectory. -/
theorem diff_deriv {P : CLQT n m ℝ} {t0 : ℝ} (hU : ∀ t ∈ Set.Ioo t0 P.T, (P.U t)ᵀ = P.U t)
    (hX : ∀ t ∈ Set.Ioo t0 P.T, (P.X t)ᵀ = P.X t) {S : ℝ → Matrix (Fin n) (Fin n) ℝ}
    {v : ℝ → Fin n → ℝ} (hR : P.IsRiccati t0 S v) {x0 : Fin n → ℝ} {xs : ℝ → Fin n → ℝ} {us : ℝ → Fin m → ℝ}
    (hs : P.IsTraj t0 x0 xs us)
    (hfb : ∀ t ∈ Set.Ioo t0 P.T, ∀ Y, solvePos (P.U t) (P.L t)ᵀ = .ok Y → us t = -(Y * S t) *ᵥ xs t + Y *ᵥ v t)
    {x : ℝ → Fin n → ℝ} {u : ℝ → Fin m → ℝ} (hx : P.IsTraj t0 x0 x u) {Y : ℝ → Matrix (Fin m) (Fin n) ℝ}
    (hY : ∀ t ∈ Set.Ioo t0 P.T, solvePos (P.U t) (P.L t)ᵀ = .ok (Y t)) :
    ∀ t ∈ Set.Ioo t0 P.T, HasDerivAt (fun s => valAlong S v x s - valAlong S v xs s)
      (P.runCost t (xs t) (us t) - P.runCost t (x t) (u t) + (1 / 2) * ((u t - (-(Y t * S t) *ᵥ x t + Y t *ᵥ v t)) ⬝ᵥ
          P.U t *ᵥ (u t - (-(Y t * S t) *ᵥ x t + Y t *ᵥ v t)))) t := by
  intro t ht
  obtain ⟨dy, hdy, hder⟩ := hR.ode t ht
  have d1 := value_deriv (hU t ht) (hX t ht) (hR.sym t ht) hdy hder (hx.deriv t ht) (hY t ht)
  have d2 := value_deriv (hU t ht) (hX t ht) (hR.sym t ht) hdy hder (hs.deriv t ht) (hY t ht)
  have e : us t - (-(Y t *ᵥ (S t *ᵥ xs t)) + Y t *ᵥ v t) = 0 := by
    rw [hfb t ht (Y t) (hY t ht), Matrix.neg_mulVec, Matrix.mulVec_mulVec, sub_self]
  rw [e] at d2
  refine (d1.sub d2).congr_deriv ?_
  simp only [Matrix.mulVec_zero, dotProduct_zero, Matrix.neg_mulVec, ← Matrix.mulVec_mulVec]
  ring

theorem value_ends {P : CLQT n m ℝ} {t0 : ℝ} (hXT : P.XTᵀ = P.XT) {S : ℝ → Matrix (Fin n) (Fin n) ℝ}
    {v : ℝ → Fin n → ℝ} (hR : P.IsRiccati t0 S v) {x0 : Fin n → ℝ} {xs x : ℝ → Fin n → ℝ} {us u : ℝ → Fin m → ℝ}
    (hs : P.IsTraj t0 x0 xs us) (hx : P.IsTraj t0 x0 x u) :
    (valAlong S v x P.T - valAlong S v xs P.T) - (valAlong S v x t0 - valAlong S v xs t0) =
      P.termCost (x P.T) - P.termCost (xs P.T) := by
  have e0 : valAlong S v x t0 = valAlong S v xs t0 := by
    unfold valAlong
    rw [hx.start, hs.start]
  have eT : ∀ x : ℝ → Fin n → ℝ, valAlong S v x P.T = P.termCost (x P.T) - (1 / 2) * (P.rT ⬝ᵥ P.XT *ᵥ P.rT) := by
    intro x
    unfold valAlong
    rw [termCost_expand P hXT, hR.termS, hR.termv]
    ring
  rw [e0, eT, eT]
  ring

theorem exists_gain {P : CLQT n m ℝ} {t0 : ℝ} {S : ℝ → Matrix (Fin n) (Fin n) ℝ} {v : ℝ → Fin n → ℝ}
    (hR : P.IsRiccati t0 S v) : ∃ Y : ℝ → Matrix (Fin m) (Fin n) ℝ,
      ∀ t ∈ Set.Ioo t0 P.T, solvePos (P.U t) (P.L t)ᵀ = .ok (Y t) := by
  choose! dy hdy hder using hR.ode
  choose! Y hY using fun t ht => riccati_solve (hdy t ht)
  exact ⟨Y, hY⟩

theorem cost_le {P : CLQT n m ℝ} {t0 : ℝ} (h0 : t0 ≤ P.T) (hU : ∀ t ∈ Set.Ioo t0 P.T, (P.U t)ᵀ = P.U t)
    (hX : ∀ t ∈ Set.Ioo t0 P.T, (P.X t)ᵀ = P.X t) (hXT : P.XTᵀ = P.XT) {S : ℝ → Matrix (Fin n) (Fin n) ℝ}
    {v : ℝ → Fin n → ℝ} (hR : P.IsRiccati t0 S v) {x0 : Fin n → ℝ} {xs : ℝ → Fin n → ℝ} {us : ℝ → Fin m → ℝ}
    (hs : P.IsTraj t0 x0 xs us)
    (hfb : ∀ t ∈ Set.Ioo t0 P.T, ∀ Y, solvePos (P.U t) (P.L t)ᵀ = .ok Y → us t = -(Y * S t) *ᵥ xs t + Y *ᵥ v t)
    {x : ℝ → Fin n → ℝ} {u : ℝ → Fin m → ℝ} (hx : P.IsTraj t0 x0 x u) : P.totalCost t0 xs us ≤ P.totalCost t0 x u := by
  have hcont : ContinuousOn (fun s => valAlong S v x s - valAlong S v xs s) (Set.Icc t0 P.T) :=
    (valAlong_cont hR.contS hR.contv hx.cont).sub (valAlong_cont hR.contS hR.contv hs.cont)
  obtain ⟨Y, hY⟩ := exists_gain hR
  have hD := diff_deriv hU hX hR hs hfb hx hY
  have hint : IntervalIntegrable (fun t => P.runCost t (xs t) (us t) - P.runCost t (x t) (u t)) MeasureTheory.volume t0 P.T :=
    hs.integrable.sub hx.integrable
  have key := intervalIntegral.integral_le_sub_of_hasDeriv_right_of_le h0 hcont (fun t ht => (hD t ht).hasDerivWithinAt)
    ((intervalIntegrable_iff_integrableOn_Icc_of_le h0).1 hint) (fun t ht => by
      have hpd := ((solvePos_ok (hU t ht)).1 (hY t ht)).1
      have := hpd.nonneg (u t - (-(Y t * S t) *ᵥ x t + Y t *ᵥ v t))
      linarith)
  rw [intervalIntegral.integral_sub hs.integrable hx.integrable, value_ends hXT hR hs hx] at key
  unfold CLQT.totalCost
  linarith

theorem cost_gap {P : CLQT n m ℝ} {t0 : ℝ} (h0 : t0 ≤ P.T) (hU : ∀ t ∈ Set.Ioo t0 P.T, (P.U t)ᵀ = P.U t)
    (hX : ∀ t ∈ Set.Ioo t0 P.T, (P.X t)ᵀ = P.X t) (hXT : P.XTᵀ = P.XT) {S : ℝ → Matrix (Fin n) (Fin n) ℝ}
    {v : ℝ → Fin n → ℝ} (hR : P.IsRiccati t0 S v) {x0 : Fin n → ℝ} {xs : ℝ → Fin n → ℝ} {us : ℝ → Fin m → ℝ}
    (hs : P.IsTraj t0 x0 xs us)
    (hfb : ∀ t ∈ Set.Ioo t0 P.T, ∀ Y, solvePos (P.U t) (P.L t)ᵀ = .ok Y → us t = -(Y * S t) *ᵥ xs t + Y *ᵥ v t)
    {x : ℝ → Fin n → ℝ} {u : ℝ → Fin m → ℝ} (hx : P.IsTraj t0 x0 x u) {Y : ℝ → Matrix (Fin m) (Fin n) ℝ}
    (hY : ∀ t ∈ Set.Ioo t0 P.T, solvePos (P.U t) (P.L t)ᵀ = .ok (Y t))
    (hq : IntervalIntegrable (fun t => (1 / 2) * ((u t - (-(Y t * S t) *ᵥ x t + Y t *ᵥ v t)) ⬝ᵥ
          P.U t *ᵥ (u t - (-(Y t * S t) *ᵥ x t + Y t *ᵥ v t)))) MeasureTheory.volume t0 P.T) :
    P.totalCost t0 x u = P.totalCost t0 xs us + ∫ t in t0..P.T, (1 / 2) * ((u t - (-(Y t * S t) *ᵥ x t + Y t *ᵥ v t)) ⬝ᵥ
          P.U t *ᵥ (u t - (-(Y t * S t) *ᵥ x t + Y t *ᵥ v t))) := by
  have hcont : ContinuousOn (fun s => valAlong S v x s - valAlong S v xs s) (Set.Icc t0 P.T) :=
    (valAlong_cont hR.contS hR.contv hx.cont).sub (valAlong_cont hR.contS hR.contv hs.cont)
  have hD := diff_deriv hU hX hR hs hfb hx hY
  have hint : IntervalIntegrable (fun t => P.runCost t (xs t) (us t) - P.runCost t (x t) (u t)) MeasureTheory.volume t0 P.T :=
    hs.integrable.sub hx.integrable
  have key := intervalIntegral.integral_eq_sub_of_hasDeriv_right_of_le h0 hcont (fun t ht => (hD t ht).hasDerivWithinAt)
    (hint.add hq)
  rw [intervalIntegral.integral_add hint hq, intervalIntegral.integral_sub hs.integrable hx.integrable,
    value_ends hXT hR hs hx] at key
  unfold CLQT.totalCost
  linarith

end Verif
