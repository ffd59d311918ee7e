import Verif.Proof.CLQTOpt
import Mathlib.Tactic.NormNum
import Mathlib.Tactic.FieldSimp
import Mathlib.Analysis.Calculus.Deriv.Inv

/-! Properties C55 and C57: the differential equations behind the continuous-time passes. -/

namespace Verif

open Matrix

variable {n m : ℕ}

/-! ### C55 -/

/-- C55: if an element solves the backward equation of `bwpass_bw_ode_f` at time `t` then its combination with any terminal
value function `S`, `v` solves the Riccati equation of `riccati_ode_f` at time `t`. -/
theorem C55_backward (P : CLQT n m ℝ) (t : ℝ) (hU : (P.U t)ᵀ = P.U t) (e : ℝ → Elem n ℝ) (hJ : (e t).Jᵀ = (e t).J)
    (dx : Matrix (Fin n) (Fin (3 * n + 2)) ℝ) (hdx : P.bwpassBwOdeF (packABCEJ (e t)) t = .ok dx)
    (hder : ∀ i j, HasDerivAt (fun s => packABCEJ (e s) i j) (dx i j) t) (S : Matrix (Fin n) (Fin n) ℝ) (v : Fin n → ℝ)
    (hdet : (1 + (e t).C * S).det ≠ 0) :
    ∃ (St : ℝ → Matrix (Fin n) (Fin n) ℝ) (vt : ℝ → Fin n → ℝ) (dy : Matrix (Fin n) (Fin (n + 1)) ℝ),
      (∀ᶠ s in nhds t, combineABCEJ (e s) ⟨0, 0, 0, v, S⟩ = .ok ⟨0, 0, 0, vt s, St s⟩) ∧
      P.riccatiOdeF (packSv (St t) (vt t)) t = .ok dy ∧
      ∀ i j, HasDerivAt (fun s => packSv (St s) (vt s) i j) (dy i j) t := by
  have hd : (1 + S * (e t).C).det ≠ 0 := by rwa [det_one_add_mul_comm]
  obtain ⟨dy, h1, h2⟩ := flow_bw (v := v) hU hJ hdx hder hd
  refine ⟨fun s => (e s).Aᵀ * ((1 + S * (e s).C)⁻¹ * (S * (e s).A)) + (e s).J,
    fun s => (e s).Aᵀ *ᵥ ((1 + S * (e s).C)⁻¹ *ᵥ (v - S *ᵥ (e s).b)) + (e s).eta, dy, ?_, h1, h2⟩
  have hC : ∀ i j, DifferentiableAt ℝ (fun s => (1 + S * (e s).C) i j) t := by
    obtain ⟨d, hd⟩ : ∃ d, dx = packABCEJ d := ⟨unpackABCEJ dx, (pack_unpackABCEJ dx).symm⟩
    rw [hd] at hder
    obtain ⟨-, -, hC, -⟩ := md_elem hder
    have := (MD.const (t := t) (1 : Matrix (Fin n) (Fin n) ℝ)).add ((MD.const S).mul hC)
    exact fun i j => (this i j).differentiableAt
  filter_upwards [(det_diff hC).continuousAt.eventually_ne hd] with s hs
  exact combine_value hs

/-- C55 (start of the integration): combination with the initial element `(I, 0, 0, 0, 0)` returns the terminal value
function. -/
theorem C55_terminal (S : Matrix (Fin n) (Fin n) ℝ) (v : Fin n → ℝ) :
    combineABCEJ ⟨1, 0, 0, 0, 0⟩ ⟨0, 0, 0, v, S⟩ = .ok (⟨0, 0, 0, v, S⟩ : Elem n ℝ) := by
  rw [combine_value (by simp)]
  simp

/-- C55 (forward): if an element solves the forward equation of `bwpass_fw_ode_f` and `S`, `v` solve the Riccati equation at
time `t` then their combination has derivative zero: the element carries the value function at its end to its start. -/
theorem C55_forward (P : CLQT n m ℝ) (t : ℝ) (hX : (P.X t)ᵀ = P.X t) (e : ℝ → Elem n ℝ) (hC : (e t).Cᵀ = (e t).C)
    (dx : Matrix (Fin n) (Fin (3 * n + 2)) ℝ) (hdx : P.bwpassFwOdeF (packABCEJ (e t)) t = .ok dx)
    (hder : ∀ i j, HasDerivAt (fun s => packABCEJ (e s) i j) (dx i j) t) (S : ℝ → Matrix (Fin n) (Fin n) ℝ)
    (v : ℝ → Fin n → ℝ) (dy : Matrix (Fin n) (Fin (n + 1)) ℝ) (hdy : P.riccatiOdeF (packSv (S t) (v t)) t = .ok dy)
    (hder' : ∀ i j, HasDerivAt (fun s => packSv (S s) (v s) i j) (dy i j) t) (hdet : (1 + (e t).C * S t).det ≠ 0) :
    ∃ (St : ℝ → Matrix (Fin n) (Fin n) ℝ) (vt : ℝ → Fin n → ℝ),
      (∀ᶠ s in nhds t, combineABCEJ (e s) ⟨0, 0, 0, v s, S s⟩ = .ok ⟨0, 0, 0, vt s, St s⟩) ∧
      (∀ i j, HasDerivAt (fun s => St s i j) 0 t) ∧ ∀ i, HasDerivAt (fun s => vt s i) 0 t := by
  have hd : (1 + S t * (e t).C).det ≠ 0 := by rwa [det_one_add_mul_comm]
  obtain ⟨h1, h2⟩ := flow_fw hX hC hdx hder hdy hder' hd
  refine ⟨_, _, ?_, h1, h2⟩
  have hC : ∀ i j, DifferentiableAt ℝ (fun s => (1 + S s * (e s).C) i j) t := by
    obtain ⟨d, hd⟩ : ∃ d, dx = packABCEJ d := ⟨unpackABCEJ dx, (pack_unpackABCEJ dx).symm⟩
    rw [hd] at hder
    obtain ⟨-, -, hC, -⟩ := md_elem hder
    rw [← pack_unpackSv dy] at hder'
    have := (MD.const (t := t) (1 : Matrix (Fin n) (Fin n) ℝ)).add ((md_sv.1 hder').1.mul hC)
    exact fun i j => (this i j).differentiableAt
  filter_upwards [(det_diff hC).continuousAt.eventually_ne hd] with s hs
  exact combine_value hs

/-- C55 (trajectory): if `A`, `b`, `C` solve the equation of `fwdbwdpass_ode_f` and `S`, `v` the Riccati equation at time `t`
then the state computed by `combineForwardBackward` solves the closed-loop equation integrated by `seqForwardPass` with
the gains of `seqBackwardPass`. -/
theorem C55_trajectory (P : CLQT n m ℝ) (t : ℝ) (A C : ℝ → Matrix (Fin n) (Fin n) ℝ) (b : ℝ → Fin n → ℝ)
    (dx : Matrix (Fin n) (Fin (2 * n + 1)) ℝ) (hdx : P.fwdbwdOdeF (packABC (A t) (b t) (C t)) t = .ok dx)
    (hder : ∀ i j, HasDerivAt (fun s => packABC (A s) (b s) (C s) i j) (dx i j) t) (S : ℝ → Matrix (Fin n) (Fin n) ℝ)
    (v : ℝ → Fin n → ℝ) (dy : Matrix (Fin n) (Fin (n + 1)) ℝ) (hdy : P.riccatiOdeF (packSv (S t) (v t)) t = .ok dy)
    (hder' : ∀ i j, HasDerivAt (fun s => packSv (S s) (v s) i j) (dy i j) t) (hdet : (1 + C t * S t).det ≠ 0) :
    ∃ (x : ℝ → Fin n → ℝ) (d : Fin n → ℝ) (ULT : Matrix (Fin m) (Fin n) ℝ),
      (∀ᶠ s in nhds t, solveV (1 + C s * S s) (b s + C s *ᵥ v s) = .ok (x s)) ∧
      solvePos (P.U t) (P.L t)ᵀ = .ok ULT ∧
      (∀ u, P.fwOdeF false (ULT * S t) (ULT *ᵥ v t) u (x t) t = .ok d) ∧ ∀ i, HasDerivAt (fun s => x s i) (d i) t := by
  obtain ⟨Y, hY, h⟩ := flow_x hdx hder hdy hder' hdet
  refine ⟨_, _, Y, ?_, hY, fun u => rfl, h⟩
  have hC : ∀ i j, DifferentiableAt ℝ (fun s => (1 + C s * S s) i j) t := by
    rw [← pack_unpackABC dx] at hder
    obtain ⟨-, -, hC⟩ := md_abc hder
    rw [← pack_unpackSv dy] at hder'
    have := (MD.const (t := t) (1 : Matrix (Fin n) (Fin n) ℝ)).add (hC.mul (md_sv.1 hder').1)
    exact fun i j => (this i j).differentiableAt
  filter_upwards [(det_diff hC).continuousAt.eventually_ne hdet] with s hs
  exact solveV_ok.2 ⟨hs, by rw [Matrix.mulVec_mulVec, Matrix.mul_nonsing_inv _ (isUnit_iff_ne_zero.2 hs), Matrix.one_mulVec]⟩

/-! ### C57 -/

/-- C57: if `S`, `v` solve the Riccati equation of `riccati_ode_f` with the terminal values of `seqBackwardPass`, then the
closed loop with the gains `U⁻¹ Lᵀ S` and `U⁻¹ Lᵀ v` minimises the cost over all trajectories from the same state. -/
theorem C57_optimal (P : CLQT n m ℝ) (t0 : ℝ) (h0 : t0 ≤ P.T) (hU : ∀ t ∈ Set.Ioo t0 P.T, (P.U t)ᵀ = P.U t)
    (hX : ∀ t ∈ Set.Ioo t0 P.T, (P.X t)ᵀ = P.X t) (hXT : P.XTᵀ = P.XT) (S : ℝ → Matrix (Fin n) (Fin n) ℝ)
    (v : ℝ → Fin n → ℝ) (hR : P.IsRiccati t0 S v) (x0 : Fin n → ℝ) (xs : ℝ → Fin n → ℝ) (us : ℝ → Fin m → ℝ)
    (hs : P.IsTraj t0 x0 xs us)
    (hfb : ∀ t ∈ Set.Ioo t0 P.T, ∀ ULT, solvePos (P.U t) (P.L t)ᵀ = .ok ULT →
      us t = -(ULT * S t) *ᵥ xs t + ULT *ᵥ v t)
    (x : ℝ → Fin n → ℝ) (u : ℝ → Fin m → ℝ) (hx : P.IsTraj t0 x0 x u) : P.totalCost t0 xs us ≤ P.totalCost t0 x u :=
  cost_le h0 hU hX hXT hR hs hfb hx

/-- C57 (gap): the excess cost of another trajectory is the integral of the weighted deviation from the feedback law. -/
theorem C57_gap (P : CLQT n m ℝ) (t0 : ℝ) (h0 : t0 ≤ P.T) (hU : ∀ t ∈ Set.Ioo t0 P.T, (P.U t)ᵀ = P.U t)
    (hX : ∀ t ∈ Set.Ioo t0 P.T, (P.X t)ᵀ = P.X t) (hXT : P.XTᵀ = P.XT) (S : ℝ → Matrix (Fin n) (Fin n) ℝ)
    (v : ℝ → Fin n → ℝ) (hR : P.IsRiccati t0 S v) (x0 : Fin n → ℝ) (xs : ℝ → Fin n → ℝ) (us : ℝ → Fin m → ℝ)
    (hs : P.IsTraj t0 x0 xs us)
    (hfb : ∀ t ∈ Set.Ioo t0 P.T, ∀ ULT, solvePos (P.U t) (P.L t)ᵀ = .ok ULT →
      us t = -(ULT * S t) *ᵥ xs t + ULT *ᵥ v t)
    (x : ℝ → Fin n → ℝ) (u : ℝ → Fin m → ℝ) (hx : P.IsTraj t0 x0 x u) (ULT : ℝ → Matrix (Fin m) (Fin n) ℝ)
    (hY : ∀ t ∈ Set.Ioo t0 P.T, solvePos (P.U t) (P.L t)ᵀ = .ok (ULT t))
    (hq : IntervalIntegrable (fun t => (1 / 2) * ((u t - (-(ULT t * S t) *ᵥ x t + ULT t *ᵥ v t)) ⬝ᵥ
          P.U t *ᵥ (u t - (-(ULT t * S t) *ᵥ x t + ULT t *ᵥ v t)))) MeasureTheory.volume t0 P.T) :
    P.totalCost t0 x u = P.totalCost t0 xs us + ∫ t in t0..P.T, (1 / 2) * ((u t - (-(ULT t * S t) *ᵥ x t + ULT t *ᵥ v t)) ⬝ᵥ
          P.U t *ᵥ (u t - (-(ULT t * S t) *ᵥ x t + ULT t *ᵥ v t))) :=
  cost_gap h0 hU hX hXT hR hs hfb hx hY hq

/-! ### Examples -/

/-- Scalar integrator `x' = u` over `[0, 1]` with unit control weight and terminal weight 1. -/
def exFlow : CLQT 1 1 ℝ where
  p := 1
  F := fun _ => 0
  L := fun _ => 1
  X := fun _ => 0
  U := fun _ => 1
  c := fun _ => 0
  H := fun _ => 0
  r := fun _ => 0
  pT := 1
  XT := 1
  HT := 1
  rT := 0
  T := 1

theorem exFlow_solve (t : ℝ) : solvePos (exFlow.U t) (exFlow.L t)ᵀ = .ok 1 := by
  have h1 : exFlow.U t = (1 : Matrix (Fin 1) (Fin 1) ℝ) := rfl
  have h2 : exFlow.L t = (1 : Matrix (Fin 1) (Fin 1) ℝ) := rfl
  rw [h1, h2]
  refine (solvePos_ok transpose_one).2 ⟨fun x hx => ?_, by simp⟩
  have h0 : x 0 ≠ 0 := fun h => hx (by ext i; fin_cases i; exact h)
  simpa [dotProduct] using mul_self_pos.2 h0

theorem exFlow_riccati (S : ℝ) (t : ℝ) :
    exFlow.riccatiOdeF (packSv (!![S] : Matrix (Fin 1) (Fin 1) ℝ) 0) t = .ok (packSv !![S * S] 0) := by
  unfold CLQT.riccatiOdeF
  dsimp only
  rw [exFlow_solve]
  have hF : exFlow.F t = (0 : Matrix (Fin 1) (Fin 1) ℝ) := rfl
  have hL : exFlow.L t = (1 : Matrix (Fin 1) (Fin 1) ℝ) := rfl
  have hH : exFlow.H t = 0 := rfl
  have hc : exFlow.c t = 0 := rfl
  simp only [bind, Except.bind, pure, Except.pure, unpack_packSv, hF, hL, hH, hc]
  congr 2
  · simp
  · simp

theorem exFlow_S (t : ℝ) (ht : t < 2) : HasDerivAt (fun s : ℝ => 1 / (2 - s)) (1 / (2 - t) * (1 / (2 - t))) t := by
  have h : (2 - t) ≠ 0 := by linarith
  have := ((hasDerivAt_id t).const_sub 2).inv h
  refine (this.congr_deriv ?_).congr_of_eventuallyEq (Filter.Eventually.of_forall fun s => ?_)
  · simp only [id]
    field_simp
  · simp

theorem exFlow_isRiccati : exFlow.IsRiccati 0 (fun t => !![1 / (2 - t)]) (fun _ => 0) where
  contS := by
    intro i j
    fin_cases i; fin_cases j
    intro t ht
    exact (exFlow_S t (lt_of_le_of_lt ht.2 (by norm_num [exFlow]))).continuousAt.continuousWithinAt
  contv := fun _ => continuousOn_const
  sym := by
    intro t _
    ext i j
    fin_cases i; fin_cases j; rfl
  ode := by
    intro t ht
    refine ⟨_, exFlow_riccati _ t, md_sv.2 ⟨?_, fun _ => hasDerivAt_const _ _⟩⟩
    intro i j
    fin_cases i; fin_cases j
    exact exFlow_S t (lt_trans ht.2 (by norm_num [exFlow]))
  termS := by
    have h1 : exFlow.HT = (1 : Matrix (Fin 1) (Fin 1) ℝ) := rfl
    have h2 : exFlow.XT = (1 : Matrix (Fin 1) (Fin 1) ℝ) := rfl
    rw [h1, h2]
    ext i j
    fin_cases i; fin_cases j
    have h3 : ((1 : Matrix (Fin 1) (Fin 1) ℝ)ᵀ * (1 : Matrix (Fin 1) (Fin 1) ℝ) * (1 : Matrix (Fin 1) (Fin 1) ℝ)) 0 0 = 1 := by simp
    have h4 : (1 : ℝ) / (2 - 1) = 1 := by norm_num
    exact h4.trans h3.symm
  termv := by
    have h1 : exFlow.rT = 0 := rfl
    rw [h1]
    simp

theorem exFlow_runCost (t : ℝ) (x u : Fin 1 → ℝ) : exFlow.runCost t x u = (1 / 2) * (u 0 * u 0) := by
  have h1 : exFlow.U t = (1 : Matrix (Fin 1) (Fin 1) ℝ) := rfl
  have h2 : exFlow.X t = 0 := rfl
  unfold CLQT.runCost
  rw [h1, h2]
  simp [dotProduct]

/-- Constant controls move the state along a line. -/
theorem exFlow_isTraj (a x0 : ℝ) : exFlow.IsTraj 0 (fun _ => x0) (fun t _ => x0 + a * t) (fun _ _ => a) where
  start := by simp
  cont := fun _ => by fun_prop
  deriv := by
    intro t _ i
    have hF : exFlow.F t = (0 : Matrix (Fin 1) (Fin 1) ℝ) := rfl
    have hL : exFlow.L t = (1 : Matrix (Fin 1) (Fin 1) ℝ) := rfl
    have hc : exFlow.c t = 0 := rfl
    rw [hF, hL, hc]
    simpa using ((hasDerivAt_id t).const_mul a).const_add x0
  integrable := by
    simp only [exFlow_runCost]
    exact intervalIntegrable_const

/-- The feedback from state 2 keeps the control at `-1`, and no other constant control is cheaper. -/
example (a : ℝ) : exFlow.totalCost 0 (fun t _ => 2 + (-1) * t) (fun _ _ => -1) ≤
    exFlow.totalCost 0 (fun t _ => 2 + a * t) (fun _ _ => a) := by
  refine C57_optimal exFlow 0 (by norm_num [exFlow]) (fun t _ => transpose_one) (fun t _ => transpose_zero) transpose_one _ _
    exFlow_isRiccati (fun _ => 2) _ _ (exFlow_isTraj (-1) 2) ?_ _ _ (exFlow_isTraj a 2)
  intro t ht Y hY
  rw [exFlow_solve, Except.ok.injEq] at hY
  subst hY
  have : (2 - t) ≠ 0 := by
    have : t < 1 := ht.2
    linarith
  ext i
  fin_cases i
  simp
  field_simp
  ring

/-- The element of the last part of the horizon solves the backward equation. -/
theorem exFlow_elem (t : ℝ) : exFlow.bwpassBwOdeF (packABCEJ (⟨1, 0, !![1 - t], 0, 0⟩ : Elem 1 ℝ)) t =
    .ok (packABCEJ ⟨0, 0, !![-1], 0, 0⟩) := by
  unfold CLQT.bwpassBwOdeF
  dsimp only
  rw [exFlow_solve, unpack_packABCEJ]
  have hF : exFlow.F t = (0 : Matrix (Fin 1) (Fin 1) ℝ) := rfl
  have hL : exFlow.L t = (1 : Matrix (Fin 1) (Fin 1) ℝ) := rfl
  have hH : exFlow.H t = 0 := rfl
  have hc : exFlow.c t = 0 := rfl
  simp only [bind, Except.bind, pure, Except.pure, hF, hL, hH, hc]
  congr 3
  · simp
  · simp
  · ext i j
    fin_cases i; fin_cases j
    simp
  · simp
  · simp

/-- At time 0 the element combined with the terminal value `S = 1` is near `1 / 2`, the solution of the Riccati equation. -/
example : ∃ (St : ℝ → Matrix (Fin 1) (Fin 1) ℝ) (vt : ℝ → Fin 1 → ℝ) (dy : Matrix (Fin 1) (Fin 2) ℝ),
    (∀ᶠ s in nhds (0 : ℝ), combineABCEJ ⟨1, 0, !![1 - s], 0, 0⟩ ⟨0, 0, 0, 0, 1⟩ = .ok ⟨0, 0, 0, vt s, St s⟩) ∧
    exFlow.riccatiOdeF (packSv (St 0) (vt 0)) 0 = .ok dy ∧
    ∀ i j, HasDerivAt (fun s => packSv (St s) (vt s) i j) (dy i j) 0 := by
  refine C55_backward exFlow 0 transpose_one (fun s => ⟨1, 0, !![1 - s], 0, 0⟩) transpose_zero _ (exFlow_elem 0) ?_ 1 0
    (by simp)
  intro i j
  fin_cases i; fin_cases j
  · exact hasDerivAt_const _ _
  · show HasDerivAt (fun s : ℝ => 1 - s) (-1) 0
    exact (hasDerivAt_id (0 : ℝ)).const_sub 1
  all_goals exact hasDerivAt_const _ _

theorem exFlow_feedback (t : ℝ) (ht : t ∈ Set.Ioo 0 exFlow.T) (Y : Matrix (Fin 1) (Fin 1) ℝ)
    (hY : solvePos (exFlow.U t) (exFlow.L t)ᵀ = .ok Y) :
    (fun _ => -1 : Fin 1 → ℝ) = -(Y * !![1 / (2 - t)]) *ᵥ (fun _ => 2 + (-1) * t) + Y *ᵥ (0 : Fin 1 → ℝ) := by
  rw [exFlow_solve, Except.ok.injEq] at hY
  subst hY
  have : (2 - t) ≠ 0 := by
    have : t < 1 := ht.2
    linarith
  ext i
  fin_cases i
  simp
  field_simp
  ring

/-- Staying at state 2 costs more by the integral of the squared feedback control. -/
example : exFlow.totalCost 0 (fun t _ => 2 + 0 * t) (fun _ _ => 0) =
    exFlow.totalCost 0 (fun t _ => 2 + (-1) * t) (fun _ _ => -1) + ∫ t in (0 : ℝ)..1, (1 / 2) * (2 / (2 - t)) ^ 2 := by
  have hq : ∀ t : ℝ, (1 / 2 : ℝ) * (((fun _ => 0) - (-((1 : Matrix (Fin 1) (Fin 1) ℝ) * !![1 / (2 - t)]) *ᵥ (fun _ => 2 + 0 * t) +
      (1 : Matrix (Fin 1) (Fin 1) ℝ) *ᵥ (0 : Fin 1 → ℝ))) ⬝ᵥ
        exFlow.U t *ᵥ ((fun _ => 0) - (-((1 : Matrix (Fin 1) (Fin 1) ℝ) * !![1 / (2 - t)]) *ᵥ (fun _ => 2 + 0 * t) +
      (1 : Matrix (Fin 1) (Fin 1) ℝ) *ᵥ (0 : Fin 1 → ℝ)))) = (1 / 2) * (2 / (2 - t)) ^ 2 := by
    intro t
    have h1 : exFlow.U t = (1 : Matrix (Fin 1) (Fin 1) ℝ) := rfl
    rw [h1]
    simp [dotProduct]
    ring
  have := C57_gap exFlow 0 (by norm_num [exFlow]) (fun t _ => transpose_one) (fun t _ => transpose_zero) transpose_one _ _
    exFlow_isRiccati (fun _ => 2) _ _ (exFlow_isTraj (-1) 2) exFlow_feedback _ _ (exFlow_isTraj 0 2) (fun _ => 1)
    (fun t _ => exFlow_solve t) (by
      simp only [hq]
      refine ContinuousOn.intervalIntegrable ?_
      have hT : exFlow.T = 1 := rfl
      rw [hT, Set.uIcc_of_le (by norm_num)]
      refine continuousOn_const.mul (ContinuousOn.pow (continuousOn_const.div (by fun_prop) ?_) 2)
      intro t ht
      have := ht.2
      linarith)
  rw [this]
  simp only [hq]
  rfl

/-- The forward element and the Riccati solution of the example. -/
example : ∃ (St : ℝ → Matrix (Fin 1) (Fin 1) ℝ) (vt : ℝ → Fin 1 → ℝ),
    (∀ᶠ s in nhds (1 / 2 : ℝ), combineABCEJ ⟨1, 0, !![s], 0, 0⟩ ⟨0, 0, 0, 0, !![1 / (2 - s)]⟩ = .ok ⟨0, 0, 0, vt s, St s⟩) ∧
    (∀ i j, HasDerivAt (fun s => St s i j) 0 (1 / 2)) ∧ ∀ i, HasDerivAt (fun s => vt s i) 0 (1 / 2) := by
  obtain ⟨dy, hdy, hder⟩ := exFlow_isRiccati.ode (1 / 2) ⟨by norm_num, by norm_num [exFlow]⟩
  refine C55_forward exFlow (1 / 2) transpose_zero (fun s => ⟨1, 0, !![s], 0, 0⟩) ?_ (packABCEJ ⟨0, 0, !![1], 0, 0⟩) ?_ ?_ _ _ dy hdy
    hder ?_
  · ext i j
    fin_cases i; fin_cases j; rfl
  · unfold CLQT.bwpassFwOdeF
    dsimp only
    rw [exFlow_solve, unpack_packABCEJ]
    have hF : exFlow.F (1 / 2) = (0 : Matrix (Fin 1) (Fin 1) ℝ) := rfl
    have hL : exFlow.L (1 / 2) = (1 : Matrix (Fin 1) (Fin 1) ℝ) := rfl
    have hH : exFlow.H (1 / 2) = 0 := rfl
    have hc : exFlow.c (1 / 2) = 0 := rfl
    have hr : exFlow.r (1 / 2) = 0 := rfl
    simp only [bind, Except.bind, pure, Except.pure, hF, hL, hH, hc, hr]
    congr 3
    · simp
    · simp
    · ext i j
      fin_cases i; fin_cases j
      simp
    · simp
    · simp
  · intro i j
    fin_cases i; fin_cases j
    · exact hasDerivAt_const _ _
    · exact hasDerivAt_id _
    all_goals exact hasDerivAt_const _ _
  · norm_num

/-- The trajectory of the example from state 2. -/
example : ∃ (x : ℝ → Fin 1 → ℝ) (d : Fin 1 → ℝ) (ULT : Matrix (Fin 1) (Fin 1) ℝ),
    (∀ᶠ s in nhds (1 / 2 : ℝ), solveV (1 + !![s] * !![1 / (2 - s)]) ((fun _ => 2) + !![s] *ᵥ 0) = .ok (x s)) ∧
    solvePos (exFlow.U (1 / 2)) (exFlow.L (1 / 2))ᵀ = .ok ULT ∧
    (∀ u, exFlow.fwOdeF false (ULT * !![1 / (2 - 1 / 2)]) (ULT *ᵥ 0) u (x (1 / 2)) (1 / 2) = .ok d) ∧
    ∀ i, HasDerivAt (fun s => x s i) (d i) (1 / 2) := by
  obtain ⟨dy, hdy, hder⟩ := exFlow_isRiccati.ode (1 / 2) ⟨by norm_num, by norm_num [exFlow]⟩
  refine C55_trajectory exFlow (1 / 2) (fun _ => 0) (fun s => !![s]) (fun _ _ => 2) (packABC 0 0 !![1]) ?_ ?_ _ _ dy hdy
    hder ?_
  · unfold CLQT.fwdbwdOdeF
    dsimp only
    rw [exFlow_solve, unpack_packABC]
    have hF : exFlow.F (1 / 2) = (0 : Matrix (Fin 1) (Fin 1) ℝ) := rfl
    have hL : exFlow.L (1 / 2) = (1 : Matrix (Fin 1) (Fin 1) ℝ) := rfl
    have hH : exFlow.H (1 / 2) = 0 := rfl
    have hc : exFlow.c (1 / 2) = 0 := rfl
    have hr : exFlow.r (1 / 2) = 0 := rfl
    simp only [bind, Except.bind, pure, Except.pure, hF, hL, hH, hc, hr]
    congr 2
    · simp
    · simp
    · ext i j
      fin_cases i; fin_cases j
      simp
  · intro i j
    fin_cases i; fin_cases j
    · exact hasDerivAt_const _ _
    · exact hasDerivAt_id _
    all_goals exact hasDerivAt_const _ _
  · norm_num

end Verif
