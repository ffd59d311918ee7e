import Verif.Proof.CLQTParConv
import Verif.Props.CLQTConv
import Verif.Props.SpeedContlin

/-! Property C86: for a fixed number of blocks the parallel continuous-time passes complete and converge to the optimal control. -/

namespace Verif

open Matrix

variable {n m : ℕ}

/-- C86 (backward pass): for every number of blocks and every accuracy there is a number of steps per block from which on
`parBackwardPass` completes, in both directions of integration of the block elements, and all its value functions, gains and
offsets are that near to the exact ones. -/
theorem C86_backward (P : CLQT n m ℝ) (h0 : 0 < P.T) (hP : P.ContData 0 P.T) (hX : ∀ t ∈ Set.Icc 0 P.T, IsPSD (P.X t)) (hXT : IsPSD P.XT)
    (S : ℝ → Matrix (Fin n) (Fin n) ℝ) (v : ℝ → Fin n → ℝ) (hR : P.IsRiccati 0 S v) (blocks : ℕ) (hB : 0 < blocks) (ε : ℝ) (hε : 0 < ε) :
    ∃ N0 : ℕ, 0 < N0 ∧ ∀ steps ≥ N0, ∀ forward, ∃ r, P.parBackwardPass blocks steps none none forward = .ok r ∧
      MatsNear r.S_list (blocks * steps + 1) (P.T / (blocks * steps : ℕ)) S ε ∧
      VecsNear r.v_list (blocks * steps + 1) (P.T / (blocks * steps : ℕ)) v ε ∧
      MatsNear r.Kx_list (blocks * steps) (P.T / (blocks * steps : ℕ)) (P.gain S) ε ∧
      VecsNear r.d_list (blocks * steps) (P.T / (blocks * steps : ℕ)) (P.offset v) ε := by
  obtain ⟨Na, ha0, ha⟩ := P.parBw_lists h0 hP hX hXT hR hB true ε hε
  obtain ⟨Nb, hb0, hb⟩ := P.parBw_lists h0 hP hX hXT hR hB false ε hε
  refine ⟨max Na Nb, by omega, fun N hN forward => ?_⟩
  have e : P.T / N / blocks = P.T / (blocks * N : ℕ) := by rw [div_div, Nat.cast_mul, mul_comm]
  have h1 := ha N (by omega)
  have h2 := hb N (by omega)
  rw [e] at h1 h2
  cases forward
  · exact h2
  · exact h1

/-- The optimal feedback trajectory. -/
theorem CLQT.optimal_loop (P : CLQT n m ℝ) (h0 : 0 < P.T) (hP : P.ContData 0 P.T) (hX : ∀ t ∈ Set.Icc 0 P.T, IsPSD (P.X t))
    (hXT : IsPSD P.XT) (x0 : Fin n → ℝ) : ∃ S v x, P.IsRiccati 0 S v ∧ x 0 = x0 ∧ (∀ i, ContinuousOn (fun t => x t i) (Set.Icc 0 P.T)) ∧
      (∀ t ∈ Set.Ioo 0 P.T, ∀ i, HasDerivAt (fun s => x s i) (P.fwG (P.gain S t) (P.offset v t) (x t) (x t) t i) t) ∧
      P.IsTraj 0 x0 x (fun t => -(P.gain S t) *ᵥ x t + P.offset v t) ∧
      ∀ x' u', P.IsTraj 0 x0 x' u' → P.totalCost 0 x (fun t => -(P.gain S t) *ᵥ x t + P.offset v t) ≤ P.totalCost 0 x' u' := by
  obtain ⟨S, v, hR, -, -⟩ := C85_exists P h0 hP hX hXT
  have hG := P.gainCont hP hR.contS
  have hd := P.offsetCont hP hR.contv
  obtain ⟨x, hx0, hxc, hxd⟩ := P.loop_exists hP h0.le hG hd x0
  have hu : ∀ i, ContinuousOn (fun t => (-(P.gain S t) *ᵥ x t + P.offset v t) i) (Set.Icc 0 P.T) := fun i =>
    (contOn_mulVec (M := fun t => -P.gain S t) (fun i j => (hG i j).neg) hxc i).add (hd i)
  have htr : P.IsTraj 0 x0 x (fun t => -(P.gain S t) *ᵥ x t + P.offset v t) := by
    refine ⟨hx0, hxc, fun t ht i => ?_, ?_⟩
    · have := hxd t ht i
      unfold CLQT.fwG at this
      rwa [add_right_comm] at this
    · refine ContinuousOn.intervalIntegrable ?_
      rw [Set.uIcc_of_le h0.le]
      exact CLQT.runCost_cont hP hxc hu
  refine ⟨S, v, x, hR, hx0, hxc, hxd, htr, fun x' u' h' => C57_optimal P 0 h0.le (fun t ht => hP.sym t (Set.Ioo_subset_Icc_self ht))
    (fun t ht => (hX t (Set.Ioo_subset_Icc_self ht)).1) hXT.1 S v hR x0 _ _ htr (fun t ht Y hY => ?_) x' u' h'⟩
  rw [hP.solve (Set.Ioo_subset_Icc_self ht), Except.ok.injEq] at hY
  subst hY
  rfl

/-- C86 (control): there is an optimal trajectory, and for every number of blocks and every accuracy there is a number of steps
per block from which on the parallel backward pass completes and both forward passes on its gains, the sequential one with and
without zero-order hold, complete with states and controls that near to the optimal ones. -/
theorem C86_control (P : CLQT n m ℝ) (h0 : 0 < P.T) (hP : P.ContData 0 P.T) (hX : ∀ t ∈ Set.Icc 0 P.T, IsPSD (P.X t))
    (hXT : IsPSD P.XT) (x0 : Fin n → ℝ) :
    ∃ x u, P.IsTraj 0 x0 x u ∧ (∀ x' u', P.IsTraj 0 x0 x' u' → P.totalCost 0 x u ≤ P.totalCost 0 x' u') ∧
      ∀ blocks > 0, ∀ ε > 0, ∃ N0 : ℕ, 0 < N0 ∧ ∀ steps ≥ N0, ∀ forward, ∃ r, P.parBackwardPass blocks steps none none forward = .ok r ∧
        (∀ forward', ∃ us xs, P.parForwardPass x0 r.Kx_list r.d_list blocks steps none none forward' false = .ok (us, xs) ∧
          VecsNear us (blocks * steps) (P.T / (blocks * steps : ℕ)) u ε ∧
          VecsNear xs (blocks * steps + 1) (P.T / (blocks * steps : ℕ)) x ε) ∧
        ∀ u_zoh, ∃ us xs, P.seqForwardPass x0 r.Kx_list r.d_list none none u_zoh = .ok (us, xs) ∧
          VecsNear us (blocks * steps) (P.T / (blocks * steps : ℕ)) u ε ∧
          VecsNear xs (blocks * steps + 1) (P.T / (blocks * steps : ℕ)) x ε := by
  obtain ⟨S, v, x, hR, hx0, hxc, hxd, htr, hopt⟩ := P.optimal_loop h0 hP hX hXT x0
  refine ⟨x, _, htr, hopt, fun blocks hB ε hε => ?_⟩
  have hG := P.gainCont hP hR.contS
  have hd := P.offsetCont hP hR.contv
  obtain ⟨δ1, hδ1, N1, hN1, h1⟩ := CLQT.fw_lists h0 hP hG hd hxc hxd true ε hε
  obtain ⟨δ2, hδ2, N2, hN2, h2⟩ := CLQT.fw_lists h0 hP hG hd hxc hxd false ε hε
  obtain ⟨N3, hN3, h3⟩ := C86_backward P h0 hP hX hXT S v hR blocks hB (min δ1 δ2) (lt_min hδ1 hδ2)
  rw [hx0] at h1 h2
  refine ⟨max N3 (max N1 N2), by omega, fun steps hs forward => ?_⟩
  have hge : steps ≤ blocks * steps := Nat.le_mul_of_pos_left _ hB
  obtain ⟨r, hr, -, -, hK, hD⟩ := h3 steps (by omega) forward
  have key : ∀ u_zoh, ∃ us xs, P.seqForwardPass x0 r.Kx_list r.d_list none none u_zoh = .ok (us, xs) ∧
      VecsNear us (blocks * steps) (P.T / (blocks * steps : ℕ)) (fun t => -(P.gain S t) *ᵥ x t + P.offset v t) ε ∧
      VecsNear xs (blocks * steps + 1) (P.T / (blocks * steps : ℕ)) x ε := by
    intro z
    cases z
    · exact h2 (blocks * steps) (by omega) _ _ ⟨hK.1, fun k A hA i j => (hK.2 k A hA i j).trans (min_le_right _ _)⟩
        ⟨hD.1, fun k A hA i => (hD.2 k A hA i).trans (min_le_right _ _)⟩
    · exact h1 (blocks * steps) (by omega) _ _ ⟨hK.1, fun k A hA i j => (hK.2 k A hA i j).trans (min_le_left _ _)⟩
        ⟨hD.1, fun k A hA i => (hD.2 k A hA i).trans (min_le_left _ _)⟩
  refine ⟨r, hr, fun forward' => ?_, key⟩
  obtain ⟨us, xs, e, hu, hx⟩ := key false
  exact ⟨us, xs, by rw [C35_eq P x0 r.Kx_list r.d_list blocks steps none none forward' hK.1 hD.1]; exact e, hu, hx⟩

/-- C86 (TensorFlow): with every associative scan the results of the parallel backward pass of `clqt_tf.py` are, from some number
of steps on, near the exact ones whenever it completes. -/
theorem C86_tf_backward (P : CLQT n m ℝ) (h0 : 0 < P.T) (hP : P.ContData 0 P.T) (hU : ∀ t, (P.U t)ᵀ = P.U t)
    (hX : ∀ t ∈ Set.Icc 0 P.T, IsPSD (P.X t)) (hXT : IsPSD P.XT) (S : ℝ → Matrix (Fin n) (Fin n) ℝ) (v : ℝ → Fin n → ℝ)
    (hR : P.IsRiccati 0 S v) (scan : (Elem n ℝ → Elem n ℝ → Py (Elem n ℝ)) → List (Elem n ℝ) → Py (List (Elem n ℝ)))
    (hsc : IsAssocScan scan) (blocks : ℕ) (hB : 0 < blocks) (ε : ℝ) (hε : 0 < ε) :
    ∃ N0 : ℕ, 0 < N0 ∧ ∀ steps ≥ N0, ∀ forward r,
      P.tfParBackward scan blocks steps (P.tfParDefaults blocks steps).1 (P.tfParDefaults blocks steps).2.1 (P.tfParDefaults blocks steps).2.2.1
        (P.tfParDefaults blocks steps).2.2.2 forward = .ok r →
      P.parBackwardPass blocks steps none none forward = .ok r ∧
      MatsNear r.S_list (blocks * steps + 1) (P.T / (blocks * steps : ℕ)) S ε ∧
      VecsNear r.v_list (blocks * steps + 1) (P.T / (blocks * steps : ℕ)) v ε ∧
      MatsNear r.Kx_list (blocks * steps) (P.T / (blocks * steps : ℕ)) (P.gain S) ε ∧
      VecsNear r.d_list (blocks * steps) (P.T / (blocks * steps : ℕ)) (P.offset v) ε := by
  obtain ⟨N0, hN0, h⟩ := C86_backward P h0 hP hX hXT S v hR blocks hB ε hε
  refine ⟨N0, hN0, fun steps hs forward r hr => ?_⟩
  obtain ⟨r', hr', hnear⟩ := h steps hs forward
  have e := (C71_defaults P blocks steps forward hB.ne' (by omega)).2
  obtain rfl := C71_par_backward P hU hXT.1 scan hsc blocks steps (by omega) _ _ forward r' r (e ▸ hr') hr
  exact ⟨hr', hnear⟩

/-- The TensorFlow pass completes with all scans of a given depth at once. -/
theorem CLQT.tfParBw_complete (P : CLQT n m ℝ) (h0 : 0 < P.T) (hP : P.ContData 0 P.T) (hU : ∀ t, (P.U t)ᵀ = P.U t ∧ IsPD (P.U t))
    (hX : ∀ t ∈ Set.Icc 0 P.T, IsPSD (P.X t)) (hXT : IsPSD P.XT) (D : ℕ → ℕ) (blocks : ℕ) (hB : 0 < blocks) :
    ∃ N0 : ℕ, 0 < N0 ∧ ∀ steps ≥ N0, ∀ forward, ∃ r, P.parBackwardPass blocks steps none none forward = .ok r ∧
      ∀ {scan : (Elem n ℝ → Elem n ℝ → Py (Elem n ℝ)) → List (Elem n ℝ) → Py (List (Elem n ℝ))}, IsAssocScan scan → HasDepth D scan →
      P.tfParBackward scan blocks steps (P.tfParDefaults blocks steps).1 (P.tfParDefaults blocks steps).2.1 (P.tfParDefaults blocks steps).2.2.1
        (P.tfParDefaults blocks steps).2.2.2 forward = .ok r := by
  obtain ⟨S, v, hR, -, -⟩ := C85_exists P h0 hP hX hXT
  obtain ⟨Na, ha0, ha⟩ := CLQT.parBw_scan h0 hP hX hXT hR hB true D
  obtain ⟨Nb, hb0, hb⟩ := CLQT.parBw_scan h0 hP hX hXT hR hB false D
  obtain ⟨Nc, hc0, hc⟩ := C86_backward P h0 hP hX hXT S v hR blocks hB 1 one_pos
  refine ⟨max Na (max Nb Nc), by omega, fun steps hs forward => ?_⟩
  obtain ⟨r, hr, -⟩ := hc steps (by omega) forward
  have e := (C71_defaults P blocks steps forward hB.ne' (by omega)).2
  have e' : P.T / steps / blocks = (P.tfParDefaults blocks steps).1 := by
    unfold CLQT.tfParDefaults
    rw [div_div, Nat.cast_mul]
  refine ⟨r, hr, fun {scan} hsc hf => ?_⟩
  rw [e] at hr
  cases forward
  · obtain ⟨es, h1, h2, rl, h3⟩ := hb steps (by omega) hf
    rw [e'] at h1
    exact CLQT.tfParBackward_of hU hsc (by omega) h1 h2 h3 hr
  · obtain ⟨es, h1, h2, rl, h3⟩ := ha steps (by omega) hf
    rw [e'] at h1
    exact CLQT.tfParBackward_of hU hsc (by omega) h1 h2 h3 hr

/-- C86 (TensorFlow, completion): with positive definite control weights and a scan of finite depth the TensorFlow pass completes from some
number of steps on, with the result of the numpy pass. -/
theorem C86_tf_complete (P : CLQT n m ℝ) (h0 : 0 < P.T) (hP : P.ContData 0 P.T) (hU : ∀ t, (P.U t)ᵀ = P.U t ∧ IsPD (P.U t))
    (hX : ∀ t ∈ Set.Icc 0 P.T, IsPSD (P.X t)) (hXT : IsPSD P.XT)
    (scan : (Elem n ℝ → Elem n ℝ → Py (Elem n ℝ)) → List (Elem n ℝ) → Py (List (Elem n ℝ)))
    (hsc : IsAssocScan scan) (hf : IsFiniteScan scan) (blocks : ℕ) (hB : 0 < blocks) :
    ∃ N0 : ℕ, 0 < N0 ∧ ∀ steps ≥ N0, ∀ forward, ∃ r, P.parBackwardPass blocks steps none none forward = .ok r ∧
      P.tfParBackward scan blocks steps (P.tfParDefaults blocks steps).1 (P.tfParDefaults blocks steps).2.1 (P.tfParDefaults blocks steps).2.2.1
        (P.tfParDefaults blocks steps).2.2.2 forward = .ok r := by
  obtain ⟨D, hD⟩ := hf
  obtain ⟨N0, hN0, h⟩ := P.tfParBw_complete h0 hP hU hX hXT D blocks hB
  exact ⟨N0, hN0, fun steps hs forward => let ⟨r, h1, h2⟩ := h steps hs forward; ⟨r, h1, h2 hsc hD⟩⟩

/-- The TensorFlow forward pass on gains and offsets near the optimal ones. -/
theorem CLQT.tfFw_near {P : CLQT n m ℝ} (h0 : 0 < P.T) (hP : P.ContData 0 P.T)
    {S : ℝ → Matrix (Fin n) (Fin n) ℝ} {v : ℝ → Fin n → ℝ} (hR : P.IsRiccati 0 S v) {x : ℝ → Fin n → ℝ}
    (hxc : ∀ i, ContinuousOn (fun t => x t i) (Set.Icc 0 P.T))
    (hxd : ∀ t ∈ Set.Ioo 0 P.T, ∀ i, HasDerivAt (fun s => x s i) (P.fwG (P.gain S t) (P.offset v t) (x t) (x t) t i) t) :
    ∀ ε > 0, ∃ δ > 0, ∃ N0 : ℕ, 0 < N0 ∧ ∀ N ≥ N0, ∀ Ks ds, MatsNear Ks N (P.T / N) (P.gain S) δ → VecsNear ds N (P.T / N) (P.offset v) δ →
      ∃ us xs, P.tfSeqForward (x 0) Ks ds (P.T / N) 0 false = .ok (xs, us) ∧ VecsNear xs (N + 1) (P.T / N) x ε := by
  intro ε hε
  obtain ⟨δ, hδ, N1, hN1, h1⟩ := CLQT.fw_lists h0 hP (P.gainCont hP hR.contS) (P.offsetCont hP hR.contv) hxc hxd false ε hε
  refine ⟨δ, hδ, N1, hN1, fun N hN Ks ds hK hD => ?_⟩
  obtain ⟨us, xs, hf, -, hx⟩ := h1 N hN Ks ds hK hD
  have hdt := P.dtSeq_none (N := N) (by omega)
  refine ⟨us, xs, (C71_seq_forward P (x 0) _ _ (hK.1.trans hD.1.symm) (fun e => ?_) _ _ false us xs).2 ?_, hx⟩
  · have := hD.1
    rw [e] at this
    simp at this
    omega
  · rw [← hf]
    unfold CLQT.seqForwardPass
    dsimp only
    rw [hK.1, hdt]
    rfl

/-- The reference solution of the speed tests is near the optimal trajectory. -/
theorem CLQT.spRef1_near {P : CLQT n m ℝ} (h0 : 0 < P.T) (hP : P.ContData 0 P.T) (hU : ∀ t, (P.U t)ᵀ = P.U t)
    {S : ℝ → Matrix (Fin n) (Fin n) ℝ} {v : ℝ → Fin n → ℝ} (hR : P.IsRiccati 0 S v) {x : ℝ → Fin n → ℝ}
    (hxc : ∀ i, ContinuousOn (fun t => x t i) (Set.Icc 0 P.T))
    (hxd : ∀ t ∈ Set.Ioo 0 P.T, ∀ i, HasDerivAt (fun s => x s i) (P.fwG (P.gain S t) (P.offset v t) (x t) (x t) t i) t) :
    ∀ ε > 0, ∃ N0 : ℕ, 0 < N0 ∧ ∀ blocks steps, N0 ≤ blocks * steps → ∃ r, P.spRef1 (x 0) blocks steps = .ok r ∧
      MatsNear r.1.S_list (blocks * steps + 1) (P.T / (blocks * steps : ℕ)) S ε ∧
      VecsNear r.2.1 (blocks * steps + 1) (P.T / (blocks * steps : ℕ)) x ε := by
  intro ε hε
  obtain ⟨δ, hδ, N1, hN1, h1⟩ := CLQT.tfFw_near h0 hP hR hxc hxd ε hε
  obtain ⟨N2, h2⟩ := C85_backward P h0 hP S v hR (min ε δ) (lt_min hε hδ)
  refine ⟨max N1 N2, by omega, fun blocks steps hN => ?_⟩
  unfold CLQT.spRef1
  obtain ⟨N, hNe⟩ : ∃ N, N = blocks * steps := ⟨_, rfl⟩
  rw [← hNe] at hN ⊢
  obtain ⟨r, hr, hS, -, hK, hD⟩ := h2 N (by omega)
  obtain ⟨us, xs, hf, hx⟩ := h1 N (by omega) _ _ ⟨hK.1, fun k A hA i j => (hK.2 k A hA i j).trans (min_le_right _ _)⟩
    ⟨hD.1, fun k A hA i => (hD.2 k A hA i).trans (min_le_right _ _)⟩
  have e := (C71_defaults P 1 N true one_ne_zero (by omega)).1
  have htb : P.tfSeqBackward N (P.tfSeqDefaults N).1 (P.tfSeqDefaults N).2.1 (P.tfSeqDefaults N).2.2.1 (P.tfSeqDefaults N).2.2.2 = .ok r :=
    (C71_seq_backward P hU N _ _ _ _ r).1 (e ▸ hr)
  refine ⟨(r, xs, us), ?_, ⟨hS.1, fun k A hA i j => (hS.2 k A hA i j).trans (min_le_left _ _)⟩, hx⟩
  simp only [bind_ok, pure, Except.pure, Except.ok.injEq]
  exact ⟨r, htb, _, hf, rfl⟩

/-- C86 (speed tests): for a fixed number of blocks the errors reported by the speed tests of the parallel backward pass and of the
parallel backward-forward pipeline tend to zero with the number of steps. -/
theorem C86_speed [NeZero n] (P : CLQT n m ℝ) (h0 : 0 < P.T) (hP : P.ContData 0 P.T) (hU : ∀ t, (P.U t)ᵀ = P.U t ∧ IsPD (P.U t))
    (hX : ∀ t ∈ Set.Icc 0 P.T, IsPSD (P.X t)) (hXT : IsPSD P.XT) (scan : AScan) (hsc : ∀ α, IsAssocScan (scan α))
    (x0 : Fin n → ℝ) (blocks : ℕ) (hB : 0 < blocks) (ε : ℝ) (hε : 0 < ε) :
    ∃ N0 : ℕ, 0 < N0 ∧ ∀ steps ≥ N0, ∀ n_iter e, (P.parBwSpeed scan x0 blocks steps n_iter = .ok e → 0 ≤ e ∧ e ≤ ε) ∧
      (P.parBwFwSpeed scan x0 blocks steps n_iter = .ok e → 0 ≤ e ∧ e ≤ ε) := by
  obtain ⟨S, v, x, hR, rfl, hxc, hxd, -, -⟩ := P.optimal_loop h0 hP hX hXT x0
  obtain ⟨δ, hδ, N1, hN1, h1⟩ := CLQT.tfFw_near h0 hP hR hxc hxd (ε / 2) (by linarith)
  obtain ⟨N2, hN2, h2⟩ := C86_tf_backward P h0 hP (fun t => (hU t).1) hX hXT S v hR (scan _) (hsc _) blocks hB (min (ε / 2) δ)
    (lt_min (by linarith) hδ)
  obtain ⟨N3, hN3, h3⟩ := CLQT.spRef1_near h0 hP (fun t => (hU t).1) hR hxc hxd (ε / 2) (by linarith)
  refine ⟨max N1 (max N2 N3), by omega, fun steps hs n_iter e => ?_⟩
  have hge : steps ≤ blocks * steps := Nat.le_mul_of_pos_left _ hB
  obtain ⟨r3, hr3, hS3, hx3⟩ := h3 blocks steps (by omega)
  have hbw : ∀ r, P.spParBw scan blocks steps = .ok r → _ := fun r hr => by
    have hl := (C83_levels scan P blocks steps hB (P.tfParDefaults blocks steps).1 (P.tfParDefaults blocks steps).2.1
      (P.tfParDefaults blocks steps).2.2.1 (P.tfParDefaults blocks steps).2.2.2 0 [] [] r).1
    exact h2 steps (by omega) false r (hl ▸ hr)
  refine ⟨fun h => ?_, fun h => ?_⟩
  · obtain ⟨r, r', hr, hr', -, k, A, A', i, j, hA, hA', rfl⟩ := (C83_maxdiff scan P (x 0) blocks steps n_iter e).1 h
    rw [hr3, Except.ok.injEq] at hr'
    subst hr'
    refine ⟨abs_nonneg _, ?_⟩
    have g1 := ((hbw r hr).2.1.2 k A hA i j).trans (min_le_left _ _)
    have g2 := hS3.2 k A' hA' i j
    rw [abs_le] at g1 g2 ⊢
    constructor <;> linarith
  · obtain ⟨r, r', hr, hr', -, k, y, y', i, hA, hA', rfl⟩ := (C83_maxdiff scan P (x 0) blocks steps n_iter e).2.1 h
    rw [hr3, Except.ok.injEq] at hr'
    subst hr'
    have hsp : P.spParBw scan blocks steps = .ok r.1 := by
      unfold CLQT.spParBwFw at hr
      simp only [bind_ok, pure, Except.pure, Except.ok.injEq] at hr
      obtain ⟨bw, hb, xu, -, rfl⟩ := hr
      exact hb
    obtain ⟨r', xu, -, hrun, hfw, -⟩ := C83_par P hU scan hsc (x 0) blocks steps hB.ne' (by omega) r.1 hsp
    rw [hr, Except.ok.injEq] at hrun
    obtain ⟨-, -, -, hK, hD⟩ := hbw r.1 hsp
    obtain ⟨us, xs, hf, hx⟩ := h1 _ (by omega) _ _ ⟨hK.1, fun k A hA i j => (hK.2 k A hA i j).trans (min_le_right _ _)⟩
      ⟨hD.1, fun k A hA i => (hD.2 k A hA i).trans (min_le_right _ _)⟩
    rw [hfw, Except.ok.injEq] at hf
    rw [hrun, hf] at hA
    refine ⟨abs_nonneg _, ?_⟩
    have g1 := hx.2 k y hA i
    have g2 := hx3.2 k y' hA' i
    rw [abs_le] at g1 g2 ⊢
    constructor <;> linarith

/-! ### Examples -/

/-- With 3 blocks the first value of the scalar integrator is within 0.01 of 1/2 from some number of steps on. -/
example : ∃ N0 : ℕ, ∀ steps ≥ N0, ∀ forward, ∃ r, exFlow.parBackwardPass 3 steps none none forward = .ok r ∧
    ∀ A, r.S_list[0]? = some A → |A 0 0 - 1 / 2| ≤ 1 / 100 := by
  obtain ⟨N0, -, h⟩ := C86_backward exFlow exFlow_T exFlow_contData (fun t _ => exFlow_X t) exFlow_XT _ _ exFlow_isRiccati 3 (by norm_num)
    (1 / 100) (by norm_num)
  refine ⟨N0, fun N hN forward => ?_⟩
  obtain ⟨r, hr, hS, -⟩ := h N hN forward
  refine ⟨r, hr, fun A hA => ?_⟩
  have := hS.2 0 A hA 0 0
  simpa using this

/-- The parallel passes on the scalar integrator from state 2 with 4 blocks approach the optimal trajectory. -/
example : ∃ x u, exFlow.IsTraj 0 ![2] x u ∧ (∀ x' u', exFlow.IsTraj 0 ![2] x' u' → exFlow.totalCost 0 x u ≤ exFlow.totalCost 0 x' u') ∧
    ∀ ε > 0, ∃ N0 : ℕ, ∀ steps ≥ N0, ∃ r us xs, exFlow.parBackwardPass 4 steps none none false = .ok r ∧
      exFlow.parForwardPass ![2] r.Kx_list r.d_list 4 steps none none true false = .ok (us, xs) ∧
      VecsNear us (4 * steps) (exFlow.T / (4 * steps : ℕ)) u ε ∧ VecsNear xs (4 * steps + 1) (exFlow.T / (4 * steps : ℕ)) x ε := by
  obtain ⟨x, u, h1, h2, h3⟩ := C86_control exFlow exFlow_T exFlow_contData (fun t _ => exFlow_X t) exFlow_XT ![2]
  refine ⟨x, u, h1, h2, fun ε hε => ?_⟩
  obtain ⟨N0, -, h⟩ := h3 4 (by norm_num) ε hε
  refine ⟨N0, fun steps hs => ?_⟩
  obtain ⟨r, hr, hp, -⟩ := h steps hs false
  obtain ⟨us, xs, hf, hu, hx⟩ := hp true
  exact ⟨r, us, xs, hr, hf, hu, hx⟩

theorem exFlow_U (t : ℝ) : (exFlow.U t)ᵀ = exFlow.U t ∧ IsPD (exFlow.U t) := ⟨transpose_one, by
  intro x hx
  have h0 : x 0 ≠ 0 := fun h => hx (by ext i; fin_cases i; exact h)
  have h1 : exFlow.U t = (1 : Matrix (Fin 1) (Fin 1) ℝ) := rfl
  rw [h1]
  simpa [dotProduct] using mul_self_pos.2 h0⟩

/-- With the scan of the repository the TensorFlow pass completes with 5 blocks, and its first value is within 0.01 of 1/2. -/
example : ∃ N0 : ℕ, ∀ steps ≥ N0, ∀ forward, ∃ r,
    exFlow.tfParBackward (fun op l => scanVals op l) 5 steps (exFlow.tfParDefaults 5 steps).1 (exFlow.tfParDefaults 5 steps).2.1
      (exFlow.tfParDefaults 5 steps).2.2.1 (exFlow.tfParDefaults 5 steps).2.2.2 forward = .ok r ∧
    ∀ A, r.S_list[0]? = some A → |A 0 0 - 1 / 2| ≤ 1 / 100 := by
  obtain ⟨N1, -, h1⟩ := C86_tf_complete exFlow exFlow_T exFlow_contData exFlow_U (fun t _ => exFlow_X t) exFlow_XT _ C17_scan_example
    scanVals_finite 5 (by norm_num)
  obtain ⟨N2, -, h2⟩ := C86_tf_backward exFlow exFlow_T exFlow_contData (fun t => (exFlow_U t).1) (fun t _ => exFlow_X t) exFlow_XT _ _
    exFlow_isRiccati _ C17_scan_example 5 (by norm_num) (1 / 100) (by norm_num)
  refine ⟨max N1 N2, fun steps hs forward => ?_⟩
  obtain ⟨r, -, hr⟩ := h1 steps (by omega) forward
  refine ⟨r, hr, fun A hA => ?_⟩
  have := (h2 steps (by omega) forward r hr).2.1.2 0 A hA 0 0
  simpa using this

/-- The errors of the speed tests with 4 blocks tend to zero. -/
example (ε : ℝ) (hε : 0 < ε) : ∃ N0 : ℕ, 0 < N0 ∧ ∀ steps ≥ N0, ∀ n_iter e,
    (exFlow.parBwSpeed (fun _ op l => scanVals op l) ![2] 4 steps n_iter = .ok e → 0 ≤ e ∧ e ≤ ε) ∧
    (exFlow.parBwFwSpeed (fun _ op l => scanVals op l) ![2] 4 steps n_iter = .ok e → 0 ≤ e ∧ e ≤ ε) :=
  C86_speed exFlow exFlow_T exFlow_contData exFlow_U (fun t _ => exFlow_X t) exFlow_XT _ (fun _ => C17_scan_example) ![2] 4 (by norm_num) ε hε

end Verif
