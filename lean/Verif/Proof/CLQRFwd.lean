import Verif.Proof.CLQRExact
import Verif.Proof.CLQREq
import Mathlib.Analysis.SpecialFunctions.Trigonometric.Deriv

/-! The exact passes of the continuous-time regulator. -/

namespace Verif

open Matrix

variable {n m : ℕ}

/-! ### Backward pass -/

theorem gain_uinv {P : CLQR n m ℝ} (hU : P.Uᵀ = P.U) (hpd : IsPD P.U) : solvePos P.U P.Lᵀ = .ok (P.U⁻¹ * P.Lᵀ) := by
  rw [solvePos_ok hU]
  refine ⟨hpd, ?_⟩
  rw [← Matrix.mul_assoc, Matrix.mul_nonsing_inv _ (isUnit_iff_ne_zero.2 hpd.det_ne_zero), Matrix.one_mul]

theorem lult_psd {P : CLQR n m ℝ} (hU : P.Uᵀ = P.U) (hpd : IsPD P.U) : IsPSD (P.L * (P.U⁻¹ * P.Lᵀ)) := by
  refine ⟨lult_symm hU (gain_uinv hU hpd), fun x => ?_⟩
  have h1 : P.U * (P.U⁻¹ * P.Lᵀ) = P.Lᵀ := ((solvePos_ok hU).1 (gain_uinv hU hpd)).2
  have h2 : x ⬝ᵥ (P.L * (P.U⁻¹ * P.Lᵀ)) *ᵥ x = ((P.U⁻¹ * P.Lᵀ) *ᵥ x) ⬝ᵥ P.U *ᵥ ((P.U⁻¹ * P.Lᵀ) *ᵥ x) := by
    rw [mulVec_mulVec, h1, ← mulVec_mulVec, dotProduct_mulVec, ← mulVec_transpose, dotProduct_comm]
  rw [h2]
  exact hpd.nonneg _

theorem md_reverse {R : ℝ → Matrix (Fin n) (Fin n) ℝ} {D : Matrix (Fin n) (Fin n) ℝ} {b s : ℝ} (h : MD R D (b - s)) :
    MD (fun s => R (b - s)) (-D) s := by
  intro i j
  have h1 := (h i j).comp s ((hasDerivAt_id s).const_sub b)
  have e : (-D) i j = D i j * -1 := by simp
  rw [e]
  exact h1

theorem cont_reverse {f : ℝ → ℝ} {b : ℝ} (h : ContinuousOn f (Set.Icc 0 b)) :
    ContinuousOn (fun s => f (b - s)) (Set.Icc 0 b) :=
  h.comp (continuousOn_const.sub continuousOn_id) fun s hs => ⟨by simpa using hs.2, by simpa using hs.1⟩

theorem exact_of_riccati (P : CLQR n m ℝ) (hU : P.Uᵀ = P.U) (hpd : IsPD P.U) (hX : P.Xᵀ = P.X) {S0 : Matrix (Fin n) (Fin n) ℝ}
    (hS : S0ᵀ = S0) (steps : ℕ) {dt : ℝ} (hdt : 0 ≤ dt) {R : ℝ → Matrix (Fin n) (Fin n) ℝ}
    (hc : ∀ i j, ContinuousOn (fun s => R s i j) (Set.Icc 0 (steps * dt)))
    (hR : ∀ t ∈ Set.Ioo 0 (steps * dt), MD R (P.riccatiF (P.L * (P.U⁻¹ * P.Lᵀ)) (R t)) t) (hT : R (steps * dt) = S0) :
    P.seqBackwardPass (ExpOps.real n m) steps (some dt) (some S0) .exact =
      .ok ((List.range steps).map fun k : ℕ => P.U⁻¹ * P.Lᵀ * R (k * dt), (List.range (steps + 1)).map fun k : ℕ => R (k * dt)) := by
  have hb : (0 : ℝ) ≤ steps * dt := by positivity
  have key := frac_of_riccati P (G := P.L * (P.U⁻¹ * P.Lᵀ)) (S := S0) (R := fun s => R (steps * dt - s)) hb
    (fun i j => cont_reverse (hc i j))
    (fun s hs => md_reverse (hR (steps * dt - s) ⟨by linarith [hs.2], by linarith [hs.1]⟩)) (by simp [hT])
  have hmem : ∀ k : ℕ, k ≤ steps → (k * dt) ∈ Set.Icc (0 : ℝ) (steps * dt) := fun k hk =>
    ⟨by positivity, by have : (k : ℝ) ≤ steps := by exact_mod_cast hk
                       nlinarith⟩
  have hd : ∀ k : ℕ, k ≤ steps → (P.den (P.L * (P.U⁻¹ * P.Lᵀ)) S0 (k * dt)).det ≠ 0 := fun k hk => (key _ (hmem k hk)).1
  have hv : ∀ k : ℕ, k ≤ steps → P.sol (P.L * (P.U⁻¹ * P.Lᵀ)) S0 ((steps - k : ℕ) * dt) = R (k * dt) := by
    intro k hk
    rw [(key _ (hmem (steps - k) (by omega))).2]
    congr 1
    rw [Nat.cast_sub hk]
    ring
  rw [exactPass P (gain_uinv hU hpd) hU hX hS hdt steps hd]
  congr 2
  · refine List.map_congr_left fun k hk => ?_
    rw [hv k (List.mem_range.1 hk).le]
  · refine List.map_congr_left fun k hk => ?_
    rw [hv k (Nat.lt_succ_iff.1 (List.mem_range.1 hk))]

theorem exact_exists (P : CLQR n m ℝ) (hU : P.Uᵀ = P.U) (hpd : IsPD P.U) (hX : IsPSD P.X) {S0 : Matrix (Fin n) (Fin n) ℝ}
    (hS : IsPSD S0) (b : ℝ) : ∃ R : ℝ → Matrix (Fin n) (Fin n) ℝ,
      (∀ t ≤ b, MD R (P.riccatiF (P.L * (P.U⁻¹ * P.Lᵀ)) (R t)) t) ∧ R b = S0 ∧ ∀ t ≤ b, IsPSD (R t) := by
  have hG := lult_psd (P := P) hU hpd
  refine ⟨fun t => P.sol (P.L * (P.U⁻¹ * P.Lᵀ)) S0 (b - t), fun t ht => ?_, by simp [sol_zero], fun t ht =>
    sol_psd P hG hX hS (by linarith)⟩
  have h := sol_deriv P (den_det P hG hX hS (s := b - t) (by linarith))
  have := md_reverse h
  rw [neg_neg] at this
  exact this

theorem exact_value (P : CLQR n m ℝ) (hU : P.Uᵀ = P.U) (hpd : IsPD P.U) (hX : IsPSD P.X) (hXT : IsPSD P.XT) (t0 : ℝ)
    (h0 : t0 ≤ P.T) (x0 : Fin n → ℝ) :
    (∀ x u, P.IsTraj t0 x0 x u → (1 / 2) * (x0 ⬝ᵥ P.sol (P.L * (P.U⁻¹ * P.Lᵀ)) P.XT (P.T - t0) *ᵥ x0) ≤ P.totalCost t0 x u) ∧
    ∃ x u, P.IsTraj t0 x0 x u ∧
      P.totalCost t0 x u = (1 / 2) * (x0 ⬝ᵥ P.sol (P.L * (P.U⁻¹ * P.Lᵀ)) P.XT (P.T - t0) *ᵥ x0) ∧
      ∀ t ∈ Set.Icc t0 P.T, u t = -(P.U⁻¹ * P.Lᵀ * P.sol (P.L * (P.U⁻¹ * P.Lᵀ)) P.XT (P.T - t)) *ᵥ x t := by
  have hG := lult_psd (P := P) hU hpd
  have hULT := gain_uinv (P := P) hU hpd
  have hd : ∀ t ∈ Set.Icc t0 P.T, (P.den (P.L * (P.U⁻¹ * P.Lᵀ)) P.XT (P.T - t)).det ≠ 0 := fun t ht =>
    den_det P hG hX hXT (by linarith [ht.2])
  have hR := sol_isRiccati P hULT hU hX.1 hXT.1 t0 hd
  have htr := frac_traj P (ULT := P.U⁻¹ * P.Lᵀ) t0 hd h0 x0
  have hval := value_cost P hULT hU hX.1 h0 hR htr (fun t _ => rfl)
  refine ⟨fun x u hx => ?_, _, _, htr, hval, fun t _ => rfl⟩
  rw [← hval, ← toCLQT_totalCost, ← toCLQT_totalCost]
  refine cost_le (P := P.toCLQT) h0 (fun _ _ => hU) (fun _ _ => hX.1) hXT.1 hR ((toCLQT_traj P).2 htr) ?_ ((toCLQT_traj P).2 hx)
  intro t _ Y hY
  have hY' : solvePos P.U P.Lᵀ = .ok Y := hY
  rw [hULT] at hY'
  obtain rfl := Except.ok.inj hY'
  rw [mulVec_zero, add_zero]

/-! ### A conjugate point -/

/-- `dx/dt = u` with running cost `1/2 (u² - x²)` over a quarter of a period. -/
noncomputable def conjP : CLQR 1 1 ℝ := ⟨0, 1, -1, 1, 0, Real.pi / 2⟩

theorem conj_den : conjP.den 1 0 (Real.pi / 2) = 0 := by
  have hn : ∀ s, HasDerivAt (fun s => conjP.num 1 0 s 0 0) (-conjP.den 1 0 s 0 0) s := by
    intro s
    have := num_deriv conjP 1 0 s 0 0
    simpa [conjP] using this
  have hd : ∀ s, HasDerivAt (fun s => conjP.den 1 0 s 0 0) (conjP.num 1 0 s 0 0) s := by
    intro s
    have := den_deriv conjP 1 0 s 0 0
    simpa [conjP] using this
  have hk : ∀ s, HasDerivAt (fun s => conjP.den 1 0 s 0 0 * Real.sin s + conjP.num 1 0 s 0 0 * Real.cos s) 0 s := by
    intro s
    have := ((hd s).mul (Real.hasDerivAt_sin s)).add ((hn s).mul (Real.hasDerivAt_cos s))
    refine this.congr_deriv ?_
    ring
  have hc := is_const_of_deriv_eq_zero (fun s => (hk s).differentiableAt) (fun s => (hk s).deriv) (Real.pi / 2) 0
  simp only [Real.sin_pi_div_two, Real.cos_pi_div_two, Real.sin_zero, Real.cos_zero, num_zero, mul_one, mul_zero, add_zero,
    zero_add, Matrix.zero_apply] at hc
  ext i j
  rw [Subsingleton.elim i 0, Subsingleton.elim j 0]
  exact hc

/-! ### Forward pass -/

/-- The states of the exact forward pass. -/
noncomputable def CLQR.exTraj (P : CLQR n m ℝ) (A : Matrix (Fin n) (Fin n) ℝ) (B : Matrix (Fin n) (Fin m) ℝ) (zoh : Bool)
    (Ks : List (Matrix (Fin m) (Fin n) ℝ)) (dt : ℝ) (x0 : Fin n → ℝ) : ℕ → Fin n → ℝ
  | 0 => x0
  | k + 1 =>
    if zoh then A *ᵥ exTraj P A B zoh Ks dt x0 k + B *ᵥ (-(Ks[k]?.getD 0) *ᵥ exTraj P A B zoh Ks dt x0 k)
    else NormedSpace.exp (dt • (P.F - P.L * Ks[k]?.getD 0)) *ᵥ exTraj P A B zoh Ks dt x0 k

theorem exFwLoop (P : CLQR n m ℝ) (A : Matrix (Fin n) (Fin n) ℝ) (B : Matrix (Fin n) (Fin m) ℝ) (zoh : Bool)
    (Ks : List (Matrix (Fin m) (Fin n) ℝ)) (dt : ℝ) (x0 : Fin n → ℝ) : ∀ N ≤ Ks.length,
    (List.range N).foldlM (P.fwExStep (ExpOps.real n m) A B zoh Ks dt) ([], [x0], x0) =
      .ok ((List.range N).map (fun k => -(Ks[k]?.getD 0) *ᵥ P.exTraj A B zoh Ks dt x0 k),
        (List.range (N + 1)).map (P.exTraj A B zoh Ks dt x0), P.exTraj A B zoh Ks dt x0 N)
  | 0, _ => rfl
  | N + 1, h => by
    rw [List.range_succ, List.foldlM_append, exFwLoop P A B zoh Ks dt x0 N (by omega)]
    have hk : N < Ks.length := h
    have e : Ks[N]?.getD 0 = Ks[N] := by simp [hk]
    show (List.foldlM _ _ [N] : Py _) = _
    rw [List.foldlM_cons]
    unfold CLQR.fwExStep
    rw [pyGet_lt hk]
    rw [List.range_succ (n := N + 1), List.map_append, List.map_append, List.map_singleton, List.map_singleton]
    conv_rhs => rw [CLQR.exTraj]
    rw [e]
    rfl

theorem exFw (P : CLQR n m ℝ) (x0 : Fin n → ℝ) (Ks : List (Matrix (Fin m) (Fin n) ℝ)) (dt : ℝ) (zoh : Bool) :
    P.seqForwardPass (ExpOps.real n m) x0 Ks (some dt) .exact zoh =
      .ok ((List.range Ks.length).map fun k => -(Ks[k]?.getD 0) *ᵥ P.exTraj (discA P.F dt) (discB P.F P.L dt) zoh Ks dt x0 k,
        (List.range (Ks.length + 1)).map (P.exTraj (discA P.F dt) (discB P.F P.L dt) zoh Ks dt x0)) := by
  unfold CLQR.seqForwardPass CLQR.dtSeq
  have h : (ExpOps.real n m).ltiDiscU P.F P.L P.L dt = _ := ltiDiscU_eq P.F P.L P.L .none _ rfl dt
  dsimp only
  rw [py_ok_bind, h, py_ok_bind, exFwLoop P _ _ zoh Ks dt x0 _ le_rfl]
  rfl

theorem discB_zero' (F : Matrix (Fin n) (Fin n) ℝ) (G : Matrix (Fin n) (Fin m) ℝ) : discB F G 0 = 0 := by
  unfold discB
  rw [exp_zero_smul]
  ext i j
  simp [toBlocks₁₂]

theorem zoh_exists (F : Matrix (Fin n) (Fin n) ℝ) (G : Matrix (Fin n) (Fin m) ℝ) (u : Fin m → ℝ) (x0 : Fin n → ℝ) (t : ℝ) :
    VD (fun s => discA F s *ᵥ x0 + discB F G s *ᵥ u) (F *ᵥ (discA F t *ᵥ x0 + discB F G t *ᵥ u) + G *ᵥ u) t := by
  have h := ((discA_deriv F t).mulVec (VD.const (t := t) x0)).add ((discB_deriv F G t).mulVec (VD.const (t := t) u))
  intro i
  refine (h i).congr_deriv ?_
  congr 1
  rw [mulVec_zero, mulVec_zero, add_zero, add_zero, mulVec_add, add_mulVec, mulVec_mulVec, mulVec_mulVec, add_assoc]

end Verif
