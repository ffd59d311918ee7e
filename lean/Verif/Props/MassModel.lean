import Verif.Proof.MassLQT
import Verif.Proof.MassStable

/-!
Property C73: the chain of masses of `mass_model_np.py`.  The equations of motion, the energy and the cost are in
`Spec/MassModel.lean`: `chainY x i`, `chainV x i` are the position and velocity of mass `i`, `ChainStep dt u z z'` says that
a motion with constant controls leads from `z` to `z'` in the time `dt`.
-/

namespace Verif

open Matrix

variable {N : ℕ}

section Field
variable {K : Type} [Field K] [CharZero K]

/-- C73 (constructor): it completes exactly for at least one mass; without masses it raises `IndexError`. -/
theorem C73_init (N : ℕ) : ((∃ mm, (MassModel.init N : Py (MassModel N K)) = .ok mm) ↔ 0 < N) ∧
    (MassModel.init 0 : Py (MassModel 0 K)) = .error .indexError := by
  refine ⟨⟨fun ⟨mm, h⟩ => ?_, fun h => ⟨_, massInit_eq N h⟩⟩, massInit_zero⟩
  by_contra hN
  obtain rfl : N = 0 := by omega
  rw [massInit_zero] at h
  cases h

/-- C73 (equations of motion): the matrices built by the constructor give the equations at the top of the file: the
derivative of the position of mass `i` is its velocity and the derivative of its velocity is the acceleration by the
springs, dampers and the controls. -/
theorem C73_ode (mm : MassModel N K) (h : MassModel.init N = .ok mm) (x : Fin (2 * N) → K) (u : Fin 2 → K) (i : ℕ) (h1 : 1 ≤ i)
    (h2 : i ≤ N) : chainY (mm.Fc *ᵥ x + mm.Lc *ᵥ u) i = chainV x i ∧ chainV (mm.Fc *ᵥ x + mm.Lc *ᵥ u) i = chainAcc x u i := by
  rw [massInit_eq N (by omega)] at h
  injection h with h
  subst h
  refine ⟨?_, ?_⟩
  · rw [← massFc_pos x u i h1 h2]
    exact dif_pos ⟨h1, h2⟩
  · rw [← massFc_vel x u i h1 h2]
    exact dif_pos ⟨h1, h2⟩

/-- C73 (initial state): the chain is at rest and exactly the first and the middle mass (number `⌊N / 2⌋ + 1`) are displaced,
by one. -/
theorem C73_x0 (mm : MassModel N K) (h : MassModel.init N = .ok mm) (i : ℕ) (h1 : 1 ≤ i) (h2 : i ≤ N) :
    chainY mm.x0 i = (if i = 1 ∨ i = N / 2 + 1 then 1 else 0) ∧ chainV mm.x0 i = 0 := by
  rw [massInit_eq N (by omega)] at h
  injection h with h
  subst h
  refine ⟨?_, ?_⟩
  · unfold chainY
    rw [dif_pos ⟨h1, h2⟩]
    simp only [massX0]
    split_ifs <;> first | rfl | omega
  · unfold chainV
    rw [dif_pos ⟨h1, h2⟩]
    simp only [massX0]
    rw [if_neg (by omega)]

end Field

/-- C73 (energy): along a motion the power of the controls minus the dissipation of the dampers is the derivative of the
energy. -/
theorem C73_energy (dt : ℝ) (u : Fin 2 → ℝ) (x : ℝ → Fin (2 * N) → ℝ) (h : ChainMotion dt u x) (t : ℝ)
    (ht : t ∈ Set.Icc 0 dt) :
    HasDerivAt (fun s => chainEnergy (x s)) (u 0 * chainV (x t) 1 - u 1 * chainV (x t) N -
      (1 / 5) * ∑ i ∈ Finset.range (N + 1), (chainV (x t) (i + 1) - chainV (x t) i) ^ 2) t := energy_deriv dt u x h t ht

/-- C73 (LQT object): for `dt = 0` the method raises `ZeroDivisionError`; otherwise the object has `int(Tf / dt)` equal steps
(none if this is negative), the weights of the constructor and default fields; it is convex, and for `dt ≥ 0` its dynamics
are exactly the motion of the chain. -/
theorem C73_getLQT (mm : MassModel N ℝ) (h : MassModel.init N = .ok mm) (dt Tf : ℝ) :
    mm.getLQT 0 Tf = .error .zeroDivisionError ∧
    (dt ≠ 0 → ∃ (P : LQT (2 * N) 2 ℝ) (F : Matrix (Fin (2 * N)) (Fin (2 * N)) ℝ) (L : Matrix (Fin (2 * N)) (Fin 2) ℝ) (T : ℤ),
      mm.getLQT dt Tf = .ok (P.raw, mm.x0) ∧ ((0 ≤ Tf / dt → (T : ℝ) ≤ Tf / dt ∧ Tf / dt < T + 1) ∧ (Tf / dt ≤ 0 → T ≤ 0)) ∧
      P = ⟨List.replicate T.toNat ⟨2 * N, F, L, 1, (1 / 10 : ℝ) • 1, 0, 1, 0, 1, 0, 0⟩, 2 * N, 1, 1, 0⟩ ∧ P.Convex ∧
      (0 ≤ dt → ∀ z u z', ChainStep dt u z z' ↔ z' = F *ᵥ z + L *ᵥ u)) := by
  have hN : 0 < N := ((C73_init (K := ℝ) N).1).1 ⟨mm, h⟩
  rw [massInit_eq N hN] at h
  injection h with h
  subst h
  refine ⟨?_, fun hdt => ⟨massLQT N (pyInt (Tf / dt)).toNat dt, discA (massFc N) dt, discB (massFc N) (massLc N) dt,
    pyInt (Tf / dt), getLQT_eq _ rfl rfl rfl rfl rfl dt Tf hdt, ⟨fun h0 => ?_, fun h0 => ?_⟩, rfl, massLQT_convex _ _,
    fun h0 z u z' => step_iff dt h0 u z z'⟩⟩
  · unfold MassModel.getLQT
    dsimp only
    rw [ltiDiscU_eq _ _ _ (.mat 1) 1 rfl]
    show (if (0 : ℝ) = 0 then _ else _) = _
    rw [if_pos rfl]
  · unfold pyInt
    rw [if_pos h0]
    exact ⟨Int.floor_le _, Int.lt_floor_add_one _⟩
  · unfold pyInt
    split_ifs with h'
    · rw [le_antisymm h0 h']; simp
    · exact Int.ceil_le.2 (by simpa using h0)

/-- C73 (stability): without control the sampled chain loses a fixed fraction of its energy in every step. -/
theorem C73_stable (N : ℕ) (dt : ℝ) (hdt : 0 < dt) :
    ∃ ρ : ℝ, 0 ≤ ρ ∧ ρ < 1 ∧ ∀ z z' : Fin (2 * N) → ℝ, ChainStep dt 0 z z' → chainEnergy z' ≤ ρ * chainEnergy z := by
  obtain ⟨ρ, h0, h1, h2⟩ := energy_contract (discA (massFc N) dt) (by
    intro z hz
    obtain ⟨x, hx0, hx1, hx⟩ := (step_iff dt hdt.le 0 z (discA (massFc N) dt *ᵥ z)).2 (by simp)
    rw [← hx1, ← hx0]
    exact energy_strict dt hdt x hx (by rw [hx0]; exact hz))
  refine ⟨ρ, h0, h1, fun z z' h => ?_⟩
  rw [step_iff dt hdt.le, mulVec_zero, add_zero] at h
  rw [h]
  exact h2 z

/-- C73 (optimal control): for `0 < dt ≤ Tf` all passes of the object complete with the same controls and states; the states are
those of the chain at the times `k dt`, and among all controls that are constant between these times the computed ones
uniquely minimise the cost at the top of the file. -/
theorem C73_optimal (mm : MassModel N ℝ) (h : MassModel.init N = .ok mm) (dt Tf : ℝ) (hdt : 0 < dt) (hTf : dt ≤ Tf) :
    ∃ (T : ℕ) (P : LQT (2 * N) 2 ℝ) (bw : BwResult (2 * N) 2 ℝ) (w : ℕ → Fin 2 → ℝ) (z : ℕ → Fin (2 * N) → ℝ),
      (T * dt ≤ Tf ∧ Tf < (T + 1) * dt) ∧ mm.getLQT dt Tf = .ok (P.raw, mm.x0) ∧
      (P.parBackwardPass = .ok bw ∧ P.seqBackwardPass = .ok bw ∧
        P.seqForwardPass mm.x0 bw.Kx_list bw.d_list = .ok ((List.range T).map w, (List.range (T + 1)).map z) ∧
        P.parForwardPass mm.x0 bw.Kx_list bw.d_list = .ok ((List.range T).map w, (List.range (T + 1)).map z) ∧
        P.parFwdBwdPass mm.x0 bw = .ok ((List.range T).map w, (List.range (T + 1)).map z) ∧
        P.parFwdBwdPass2 mm.x0 bw = .ok ((List.range T).map w, (List.range (T + 1)).map z)) ∧
      z 0 = mm.x0 ∧ (∀ k < T, ChainStep dt (w k) (z k) (z (k + 1))) ∧
      ∀ (w' : ℕ → Fin 2 → ℝ) (z' : ℕ → Fin (2 * N) → ℝ), z' 0 = mm.x0 →
        (∀ k < T, ChainStep dt (w' k) (z' k) (z' (k + 1))) →
        chainCost T w z ≤ chainCost T w' z' ∧ (chainCost T w' z' = chainCost T w z → ∀ k < T, w' k = w k) := by
  have hN : 0 < N := ((C73_init (K := ℝ) N).1).1 ⟨mm, h⟩
  rw [massInit_eq N hN] at h
  injection h with h
  subst h
  have hr : 1 ≤ Tf / dt := (one_le_div hdt).2 hTf
  have hp : pyInt (Tf / dt) = ⌊Tf / dt⌋ := if_pos (by linarith)
  have h1 : 1 ≤ ⌊Tf / dt⌋ := Int.le_floor.2 (by simpa using hr)
  obtain ⟨T, hT⟩ : ∃ T : ℕ, ⌊Tf / dt⌋ = T := ⟨⌊Tf / dt⌋.toNat, by omega⟩
  have hT0 : 0 < T := by omega
  have hst : (massLQT N T dt).stages = (List.range T).map fun _ => massStage N dt := by
    simp [massLQT]
  have hcost : ∀ (w : ℕ → Fin 2 → ℝ) (z : ℕ → Fin (2 * N) → ℝ),
      halfQuad (massLQT N T dt).XT ((massLQT N T dt).HT *ᵥ z T - (massLQT N T dt).rT) +
        ∑ k ∈ Finset.range T, (massStage N dt).cost (z k) (w k) = chainCost T w z := by
    intro w z
    have e : halfQuad (massLQT N T dt).XT ((massLQT N T dt).HT *ᵥ z T - (massLQT N T dt).rT) = (1 / 2) * (z T ⬝ᵥ z T) := by
      unfold halfQuad massLQT
      dsimp only
      rw [one_mulVec, sub_zero, one_mulVec]
    rw [e]
    simp only [massStage_cost, Finset.sum_add_distrib]
    unfold chainCost
    rw [← Finset.mul_sum, ← Finset.mul_sum]
    ring
  obtain ⟨bw, w, z, hall, hz0, hz, hopt⟩ := lqt_solved (massLQT N T dt) (massLQT_convex T dt) T hT0 _ hst (massX0 N)
  refine ⟨T, massLQT N T dt, bw, w, z, ⟨?_, ?_⟩, ?_, hall, hz0, fun k hk => ?_, fun w' z' h0 h' => ?_⟩
  · have := Int.floor_le (Tf / dt)
    rw [hT, Int.cast_natCast, le_div_iff₀ hdt] at this
    exact this
  · have := Int.lt_floor_add_one (Tf / dt)
    rw [hT, Int.cast_natCast, div_lt_iff₀ hdt] at this
    exact this
  · rw [getLQT_eq _ rfl rfl rfl rfl rfl dt Tf hdt.ne', hp, hT, Int.toNat_natCast]
  · rw [step_iff dt hdt.le, hz k hk, massStage_next]
  · have := hopt w' z' h0 fun k hk => by rw [massStage_next]; exact (step_iff dt hdt.le _ _ _).1 (h' k hk)
    rw [hcost, hcost] at this
    exact this

/-! ### Examples -/

/-- The hypotheses hold for the default chain of five masses with the default step and horizon. -/
example : ∃ mm, (MassModel.init 5 : Py (MassModel 5 ℝ)) = .ok mm ∧ (0 : ℝ) < 0.005 ∧ (0.005 : ℝ) ≤ 10 :=
  let ⟨mm, h⟩ := ((C73_init (K := ℝ) 5).1).2 (by norm_num)
  ⟨mm, h, by norm_num, by norm_num⟩

/-- The entries of the matrices for two masses. -/
example : (MassModel.init 2 : Py (MassModel 2 ℚ)).toOption.map (fun mm =>
    ((List.ofFn fun i => List.ofFn (mm.Fc i)), (List.ofFn fun i => List.ofFn (mm.Lc i)), List.ofFn mm.x0)) =
    some ([[0, 1, 0, 0], [-2, -2 / 5, 1, 1 / 5], [0, 0, 0, 1], [1, 1 / 5, -2, -2 / 5]],
      [[0, 0], [1, 0], [0, 0], [0, -1]], [1, 0, 1, 0]) := by decide +kernel

/-- There is a motion of the chain without control from every state, e.g. a displaced first mass. -/
example : ∃ z', ChainStep (N := 2) 1 0 ![1, 0, 0, 0] z' := ⟨_, (step_iff 1 zero_le_one 0 _ _).2 rfl⟩

end Verif
