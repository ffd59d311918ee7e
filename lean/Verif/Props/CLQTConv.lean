import Verif.Proof.CLQTConvSeq
import Verif.Props.CLQTFlow
import Verif.Props.CLQTTF

/-! Property C85: with more and more steps the continuous-time passes compute the optimal control. -/

namespace Verif

open Matrix

variable {n m : ℕ}

/-- C85 (value function): with continuous data, positive definite control weights and positive semidefinite state weights
the Riccati equation of `riccati_ode_f` has exactly one solution over the horizon, and it is positive semidefinite. -/
theorem C85_exists (P : CLQT n m ℝ) (h0 : 0 < P.T) (hP : P.ContData 0 P.T) (hX : ∀ t ∈ Set.Icc 0 P.T, IsPSD (P.X t))
    (hXT : IsPSD P.XT) :
    ∃ S v, P.IsRiccati 0 S v ∧ (∀ t ∈ Set.Icc 0 P.T, IsPSD (S t)) ∧
      ∀ S' v', P.IsRiccati 0 S' v' → ∀ t ∈ Set.Icc 0 P.T, S' t = S t ∧ v' t = v t := by
  obtain ⟨S, v, hR, hS, hv, hpsd⟩ := P.ric_exists hP h0.le hX (hxh_psd hXT P.HT) ((P.HTᵀ * P.XT) *ᵥ P.rT)
  exact ⟨S, v, hR.isRiccati hP hS hv, hpsd, fun S' v' h' =>
    CLQT.RicOn.unique hP (h'.ricOn h0 hP) hR (h'.termS.trans hS.symm) (h'.termv.trans hv.symm)⟩

/-- C85 (backward pass): for every accuracy there is a step count from which on `seqBackwardPass` completes and all its
value functions, gains and offsets are that near to the exact ones. -/
theorem C85_backward (P : CLQT n m ℝ) (h0 : 0 < P.T) (hP : P.ContData 0 P.T) (S : ℝ → Matrix (Fin n) (Fin n) ℝ)
    (v : ℝ → Fin n → ℝ) (hR : P.IsRiccati 0 S v) (ε : ℝ) (hε : 0 < ε) :
    ∃ N0 : ℕ, ∀ N ≥ N0, ∃ r, P.seqBackwardPass N none none none none = .ok r ∧
      MatsNear r.S_list (N + 1) (P.T / N) S ε ∧ VecsNear r.v_list (N + 1) (P.T / N) v ε ∧
      MatsNear r.Kx_list N (P.T / N) (P.gain S) ε ∧ VecsNear r.d_list N (P.T / N) (P.offset v) ε := by
  obtain ⟨N0, -, h⟩ := P.bw_lists h0 hP hR ε hε
  refine ⟨N0, fun N hN => ?_⟩
  obtain ⟨σ, κ, h1, h2, h3⟩ := h N hN
  exact ⟨_, h1, matsNear_map fun k hk => (h2 k (by omega)).1, vecsNear_map fun k hk => (h2 k (by omega)).2,
    matsNear_map fun k hk => (h3 k hk).1, vecsNear_map fun k hk => (h3 k hk).2⟩

/-- C85 (control): there is an optimal trajectory, and for every accuracy there is a step count from which on the backward
pass followed by the forward pass, with or without zero-order hold, completes and returns states and controls that near to
the optimal ones. -/
theorem C85_control (P : CLQT n m ℝ) (h0 : 0 < P.T) (hP : P.ContData 0 P.T) (hX : ∀ t ∈ Set.Icc 0 P.T, IsPSD (P.X t))
    (hXT : IsPSD P.XT) (x0 : Fin n → ℝ) :
    ∃ x u, P.IsTraj 0 x0 x u ∧ (∀ x' u', P.IsTraj 0 x0 x' u' → P.totalCost 0 x u ≤ P.totalCost 0 x' u') ∧
      ∀ ε > 0, ∃ N0 : ℕ, 0 < N0 ∧ ∀ N ≥ N0, ∀ u_zoh, ∃ r us xs, P.seqBackwardPass N none none none none = .ok r ∧
        r.Kx_list.length = N ∧ r.d_list.length = N ∧
        P.seqForwardPass x0 r.Kx_list r.d_list none none u_zoh = .ok (us, xs) ∧
        VecsNear us N (P.T / N) u ε ∧ VecsNear xs (N + 1) (P.T / N) x ε := by
  obtain ⟨S, v, hR, -, -⟩ := C85_exists P h0 hP hX hXT
  have hG := P.gainCont hP hR.contS
  have hd := P.offsetCont hP hR.contv
  obtain ⟨x, hx0, hxc, hxd⟩ := P.loop_exists hP h0.le hG hd x0
  have hu : ∀ i, ContinuousOn (fun t => (-(P.gain S t) *ᵥ x t + P.offset v t) i) (Set.Icc 0 P.T) := fun i =>
    (contOn_mulVec (M := fun t => -P.gain S t) (fun i j => (hG i j).neg) hxc i).add (hd i)
  have htr : P.IsTraj 0 x0 x (fun t => -(P.gain S t) *ᵥ x t + P.offset v t) := by
    refine ⟨hx0, hxc, fun t ht i => ?_, ?_⟩
    · have := hxd t ht i
      unfold CLQT.fwG at this
      rwa [add_right_comm] at this
    · refine ContinuousOn.intervalIntegrable ?_
      rw [Set.uIcc_of_le h0.le]
      exact CLQT.runCost_cont hP hxc hu
  refine ⟨x, _, htr, fun x' u' h' => C57_optimal P 0 h0.le (fun t ht => hP.sym t (Set.Ioo_subset_Icc_self ht))
    (fun t ht => (hX t (Set.Ioo_subset_Icc_self ht)).1) hXT.1 S v hR x0 _ _ htr (fun t ht Y hY => ?_) x' u' h', fun ε hε => ?_⟩
  · rw [hP.solve (Set.Ioo_subset_Icc_self ht), Except.ok.injEq] at hY
    subst hY
    rfl
  · have key : ∀ z : Bool, ∃ N0 : ℕ, 0 < N0 ∧ ∀ N ≥ N0, ∃ r us xs, P.seqBackwardPass N none none none none = .ok r ∧
        r.Kx_list.length = N ∧ r.d_list.length = N ∧
        P.seqForwardPass x0 r.Kx_list r.d_list none none z = .ok (us, xs) ∧
        VecsNear us N (P.T / N) (fun t => -(P.gain S t) *ᵥ x t + P.offset v t) ε ∧ VecsNear xs (N + 1) (P.T / N) x ε := by
      intro z
      obtain ⟨δ, hδ, hfw⟩ := P.fw_converges hP h0 hG hd hxc hxd z ε hε
      obtain ⟨N1, hN1, hb⟩ := P.bw_lists h0 hP hR δ hδ
      obtain ⟨N2, hN2, hs⟩ := exists_steps h0 hδ
      refine ⟨max N1 N2, by omega, fun N hN => ?_⟩
      obtain ⟨σ, κ, h1, h2, h3⟩ := hb N (by omega)
      obtain ⟨hh, hhδ, hT⟩ := hs N (by omega)
      obtain ⟨ξ, hξ0, hseq, hnx, hnu⟩ := hfw N (P.T / N) x0 κ hh hhδ hT (fun i => by rw [hx0]; simpa using hδ.le)
        (by simpa only [zero_add] using h3)
      simp only [zero_add] at hnx hnu
      exact ⟨_, _, _, h1, by simp [bwLists], by simp [bwLists],
        CLQT.seqForward_ok.2 ⟨_, P.dtSeq_none (by omega), ξ, hξ0, hseq, rfl⟩, vecsNear_map hnu,
        vecsNear_map fun k hk => hnx k (by omega)⟩
    obtain ⟨Na, ha0, ha⟩ := key true
    obtain ⟨Nb, hb0, hb⟩ := key false
    refine ⟨max Na Nb, by omega, fun N hN z => ?_⟩
    cases z
    · exact hb N (by omega)
    · exact ha N (by omega)

/-- C85 (parallel forward pass): the same for the parallel forward pass, for every split of the steps into blocks. -/
theorem C85_parallel_forward (P : CLQT n m ℝ) (h0 : 0 < P.T) (hP : P.ContData 0 P.T)
    (hX : ∀ t ∈ Set.Icc 0 P.T, IsPSD (P.X t)) (hXT : IsPSD P.XT) (x0 : Fin n → ℝ) :
    ∃ x u, P.IsTraj 0 x0 x u ∧ (∀ x' u', P.IsTraj 0 x0 x' u' → P.totalCost 0 x u ≤ P.totalCost 0 x' u') ∧
      ∀ ε > 0, ∃ N0 : ℕ, 0 < N0 ∧ ∀ blocks steps, blocks * steps ≥ N0 → ∀ forward, ∃ r us xs,
        P.seqBackwardPass (blocks * steps) none none none none = .ok r ∧
        P.parForwardPass x0 r.Kx_list r.d_list blocks steps none none forward false = .ok (us, xs) ∧
        VecsNear us (blocks * steps) (P.T / (blocks * steps)) u ε ∧ VecsNear xs (blocks * steps + 1) (P.T / (blocks * steps)) x ε := by
  obtain ⟨x, u, h1, h2, h3⟩ := C85_control P h0 hP hX hXT x0
  refine ⟨x, u, h1, h2, fun ε hε => ?_⟩
  obtain ⟨N0, hN0, h⟩ := h3 ε hε
  refine ⟨N0, hN0, fun blocks steps hN forward => ?_⟩
  obtain ⟨r, us, xs, hr, hK, hd, hf, hu, hx⟩ := h _ hN false
  rw [← C35_eq P x0 r.Kx_list r.d_list blocks steps none none forward hK hd] at hf
  rw [Nat.cast_mul] at hu hx
  exact ⟨r, us, xs, hr, hf, hu, hx⟩

/-- C85 (TensorFlow): the same for the passes of `clqt_tf.py`. -/
theorem C85_tf (P : CLQT n m ℝ) (h0 : 0 < P.T) (hP : P.ContData 0 P.T) (hU : ∀ t, (P.U t)ᵀ = P.U t)
    (hX : ∀ t ∈ Set.Icc 0 P.T, IsPSD (P.X t)) (hXT : IsPSD P.XT) (x0 : Fin n → ℝ) :
    ∃ x u, P.IsTraj 0 x0 x u ∧ (∀ x' u', P.IsTraj 0 x0 x' u' → P.totalCost 0 x u ≤ P.totalCost 0 x' u') ∧
      ∀ ε > 0, ∃ N0 : ℕ, 0 < N0 ∧ ∀ N ≥ N0, ∀ u_zoh, ∃ r us xs,
        P.tfSeqBackward N (P.T / N) 0 (P.HTᵀ * P.XT * P.HT) ((P.HTᵀ * P.XT) *ᵥ P.rT) = .ok r ∧
        P.tfSeqForward x0 r.Kx_list r.d_list (P.T / N) 0 u_zoh = .ok (xs, us) ∧
        VecsNear us N (P.T / N) u ε ∧ VecsNear xs (N + 1) (P.T / N) x ε := by
  obtain ⟨x, u, h1, h2, h3⟩ := C85_control P h0 hP hX hXT x0
  refine ⟨x, u, h1, h2, fun ε hε => ?_⟩
  obtain ⟨N0, hN0, h⟩ := h3 ε hε
  refine ⟨N0, hN0, fun N hN z => ?_⟩
  obtain ⟨r, us, xs, hr, hK, hd, hf, hu, hx⟩ := h N hN z
  have hdt := P.dtSeq_none (N := N) (by omega)
  refine ⟨r, us, xs, ?_, ?_, hu, hx⟩
  · refine (C71_seq_backward P hU N _ _ _ _ r).1 ?_
    obtain ⟨dt, e, hσ⟩ := CLQT.seqBackward_ok.1 hr
    rw [hdt, Except.ok.injEq] at e
    subst e
    exact CLQT.seqBackward_ok.2 ⟨_, rfl, hσ⟩
  · refine (C71_seq_forward P x0 _ _ (hK.trans hd.symm) (fun e => ?_) _ _ z us xs).2 ?_
    · rw [e] at hd
      simp at hd
      omega
    · rw [← hf]
      unfold CLQT.seqForwardPass
      dsimp only
      rw [hK, hdt]
      rfl

/-! ### Examples -/

theorem exFlow_contData : exFlow.ContData 0 exFlow.T where
  F := fun _ _ => continuousOn_const
  L := fun _ _ => continuousOn_const
  X := fun _ _ => continuousOn_const
  U := fun _ _ => continuousOn_const
  c := fun _ => continuousOn_const
  H := fun _ _ => continuousOn_const
  r := fun _ => continuousOn_const
  sym := fun _ _ => transpose_one
  pos := by
    intro t _ x hx
    have h0 : x 0 ≠ 0 := fun h => hx (by ext i; fin_cases i; exact h)
    have h1 : exFlow.U t = (1 : Matrix (Fin 1) (Fin 1) ℝ) := rfl
    rw [h1]
    simpa [dotProduct] using mul_self_pos.2 h0

theorem exFlow_X (t : ℝ) : IsPSD (exFlow.X t) := by
  have h1 : exFlow.X t = 0 := rfl
  rw [h1]
  exact ⟨transpose_zero, fun x => by simp⟩

theorem exFlow_XT : IsPSD exFlow.XT := by
  have h1 : IsPSD (1 : Matrix (Fin 1) (Fin 1) ℝ) :=
    ⟨transpose_one, fun x => by simpa [dotProduct] using mul_self_nonneg (x 0)⟩
  exact h1

theorem exFlow_T : 0 < exFlow.T := by norm_num [exFlow]

/-- The value function of the scalar integrator is `1 / (2 - t)` and no other. -/
example (S : ℝ → Matrix (Fin 1) (Fin 1) ℝ) (v : ℝ → Fin 1 → ℝ) (h : exFlow.IsRiccati 0 S v) (t : ℝ) (ht : t ∈ Set.Icc 0 exFlow.T) :
    S t = !![1 / (2 - t)] := by
  obtain ⟨S0, v0, -, -, hu⟩ := C85_exists exFlow exFlow_T exFlow_contData (fun t _ => exFlow_X t) exFlow_XT
  rw [(hu _ _ h t ht).1, ← (hu _ _ exFlow_isRiccati t ht).1]

/-- From some step count on the first gain is within 0.01 of 1/2. -/
example : ∃ N0 : ℕ, ∀ N ≥ N0, ∃ r, exFlow.seqBackwardPass N none none none none = .ok r ∧
    ∀ A, r.Kx_list[0]? = some A → |A 0 0 - 1 / 2| ≤ 1 / 100 := by
  obtain ⟨N0, h⟩ := C85_backward exFlow exFlow_T exFlow_contData _ _ exFlow_isRiccati (1 / 100) (by norm_num)
  refine ⟨N0, fun N hN => ?_⟩
  obtain ⟨r, hr, -, -, hK, -⟩ := h N hN
  refine ⟨r, hr, fun A hA => ?_⟩
  have := hK.2 0 A hA 0 0
  have hg : exFlow.gain (fun t => !![1 / (2 - t)]) 0 0 0 = 1 / 2 := by
    have h1 : exFlow.U 0 = (1 : Matrix (Fin 1) (Fin 1) ℝ) := rfl
    have h2 : exFlow.L 0 = (1 : Matrix (Fin 1) (Fin 1) ℝ) := rfl
    unfold CLQT.gain
    rw [h1, h2]
    simp
  rwa [Nat.cast_zero, zero_mul, hg] at this

/-- The computed controls of the scalar integrator from state 2 approach the optimal ones. -/
example : ∃ x u, exFlow.IsTraj 0 ![2] x u ∧ (∀ x' u', exFlow.IsTraj 0 ![2] x' u' → exFlow.totalCost 0 x u ≤ exFlow.totalCost 0 x' u') ∧
    ∀ ε > 0, ∃ N0 : ℕ, 0 < N0 ∧ ∀ N ≥ N0, ∀ u_zoh, ∃ r us xs, exFlow.seqBackwardPass N none none none none = .ok r ∧
      r.Kx_list.length = N ∧ r.d_list.length = N ∧
      exFlow.seqForwardPass ![2] r.Kx_list r.d_list none none u_zoh = .ok (us, xs) ∧
      VecsNear us N (exFlow.T / N) u ε ∧ VecsNear xs (N + 1) (exFlow.T / N) x ε :=
  C85_control exFlow exFlow_T exFlow_contData (fun t _ => exFlow_X t) exFlow_XT ![2]

example : ∃ x u, exFlow.IsTraj 0 ![2] x u ∧ (∀ x' u', exFlow.IsTraj 0 ![2] x' u' → exFlow.totalCost 0 x u ≤ exFlow.totalCost 0 x' u') ∧
    ∀ ε > 0, ∃ N0 : ℕ, 0 < N0 ∧ ∀ blocks steps, blocks * steps ≥ N0 → ∀ forward, ∃ r us xs,
      exFlow.seqBackwardPass (blocks * steps) none none none none = .ok r ∧
      exFlow.parForwardPass ![2] r.Kx_list r.d_list blocks steps none none forward false = .ok (us, xs) ∧
      VecsNear us (blocks * steps) (exFlow.T / (blocks * steps)) u ε ∧
      VecsNear xs (blocks * steps + 1) (exFlow.T / (blocks * steps)) x ε :=
  C85_parallel_forward exFlow exFlow_T exFlow_contData (fun t _ => exFlow_X t) exFlow_XT ![2]

example : ∃ x u, exFlow.IsTraj 0 ![2] x u ∧ (∀ x' u', exFlow.IsTraj 0 ![2] x' u' → exFlow.totalCost 0 x u ≤ exFlow.totalCost 0 x' u') ∧
    ∀ ε > 0, ∃ N0 : ℕ, 0 < N0 ∧ ∀ N ≥ N0, ∀ u_zoh, ∃ r us xs,
      exFlow.tfSeqBackward N (exFlow.T / N) 0 (exFlow.HTᵀ * exFlow.XT * exFlow.HT) ((exFlow.HTᵀ * exFlow.XT) *ᵥ exFlow.rT) = .ok r ∧
      exFlow.tfSeqForward ![2] r.Kx_list r.d_list (exFlow.T / N) 0 u_zoh = .ok (xs, us) ∧
      VecsNear us N (exFlow.T / N) u ε ∧ VecsNear xs (N + 1) (exFlow.T / N) x ε :=
  C85_tf exFlow exFlow_T exFlow_contData (fun t => transpose_one) (fun t _ => exFlow_X t) exFlow_XT ![2]

end Verif
