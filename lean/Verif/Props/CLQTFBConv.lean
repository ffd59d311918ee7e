import Verif.Proof.CLQTFBPar
import Verif.Props.CLQTParConv

/-! Property C87: the forward-backward passes complete and converge to the optimal control. -/

namespace Verif

open Matrix

variable {n m : ℕ}

/-- The trajectory assembled from the forward and the backward value functions is optimal. -/
theorem CLQT.optimal_fb (P : CLQT n m ℝ) (h0 : 0 < P.T) (hP : P.ContData 0 P.T) (hX : ∀ t ∈ Set.Icc 0 P.T, IsPSD (P.X t))
    (hXT : IsPSD P.XT) (x0 : Fin n → ℝ) : ∃ S v β Γ, P.IsRiccati 0 S v ∧ P.FBData 0 P.T S v (P.gain S) (P.offset v) β Γ ∧ β 0 = x0 ∧ Γ 0 = 0 ∧
      P.IsTraj 0 x0 (fbx S v β Γ) (fun t => -(P.gain S t) *ᵥ fbx S v β Γ t + P.offset v t) ∧
      ∀ x' u', P.IsTraj 0 x0 x' u' →
        P.totalCost 0 (fbx S v β Γ) (fun t => -(P.gain S t) *ᵥ fbx S v β Γ t + P.offset v t) ≤ P.totalCost 0 x' u' := by
  obtain ⟨S, v, hR, hSp, -⟩ := C85_exists P h0 hP hX hXT
  obtain ⟨β, Γ, ho, hβ, hΓ⟩ := P.abc_exists hP h0.le hX x0
  have hG := P.gainCont hP hR.contS
  have hd := P.offsetCont hP hR.contv
  have hD : P.FBData 0 P.T S v (P.gain S) (P.offset v) β Γ := ⟨hP, ho, hR.contS, hR.contv, hG, hd, hSp⟩
  have hxc : ∀ i, ContinuousOn (fun t => fbx S v β Γ t i) (Set.Icc 0 P.T) := fbState_cont hR.contS hR.contv ho.contb ho.contC hSp ho.psd
  have hu : ∀ i, ContinuousOn (fun t => (-(P.gain S t) *ᵥ fbx S v β Γ t + P.offset v t) i) (Set.Icc 0 P.T) := fun i =>
    (contOn_mulVec (M := fun t => -P.gain S t) (fun i j => (hG i j).neg) hxc i).add (hd i)
  have htr : P.IsTraj 0 x0 (fbx S v β Γ) (fun t => -(P.gain S t) *ᵥ fbx S v β Γ t + P.offset v t) := by
    refine ⟨?_, hxc, fun t ht i => ?_, ?_⟩
    · simp [fbx, fbState, hβ, hΓ]
    · obtain ⟨dy, h1, h2⟩ := hR.ode t ht
      have ht' := Set.Ioo_subset_Icc_self ht
      obtain ⟨Y, hY, hx⟩ := flow_x (P := P) (A := fun _ => 0) (b := β) (C := Γ) (hP.abcG_ok ht' _)
        (fun i j => by
          have := ho.packed.2 t ht i j
          rw [unpack_packABC]
          exact this) h1 h2 (det_one_add_ne_zero (ho.psd t ht') (hSp t ht'))
      rw [hP.solve ht', Except.ok.injEq] at hY
      subst hY
      rw [add_right_comm]
      exact hx i
    · refine ContinuousOn.intervalIntegrable ?_
      rw [Set.uIcc_of_le h0.le]
      exact CLQT.runCost_cont hP hxc hu
  refine ⟨S, v, β, Γ, hR, hD, hβ, hΓ, htr, fun x' u' h' => C57_optimal P 0 h0.le (fun t ht => hP.sym t (Set.Ioo_subset_Icc_self ht))
    (fun t ht => (hX t (Set.Ioo_subset_Icc_self ht)).1) hXT.1 S v hR x0 _ _ htr (fun t ht Y hY => ?_) x' u' h'⟩
  rw [hP.solve (Set.Ioo_subset_Icc_self ht), Except.ok.injEq] at hY
  subst hY
  rfl

theorem MatsNear.le {p q : ℕ} {l : List (Matrix (Fin p) (Fin q) ℝ)} {N : ℕ} {h δ ε : ℝ} {g : ℝ → Matrix (Fin p) (Fin q) ℝ}
    (H : MatsNear l N h g δ) (hδ : δ ≤ ε) : MatsNear l N h g ε := ⟨H.1, fun k A hA i j => (H.2 k A hA i j).trans hδ⟩

theorem VecsNear.le {p : ℕ} {l : List (Fin p → ℝ)} {N : ℕ} {h δ ε : ℝ} {g : ℝ → Fin p → ℝ}
    (H : VecsNear l N h g δ) (hδ : δ ≤ ε) : VecsNear l N h g ε := ⟨H.1, fun k A hA i => (H.2 k A hA i).trans hδ⟩

/-- C87 (control): there is an optimal trajectory such that, with enough steps, the sequential backward pass, the sequential
forward-backward pass and their combination complete with states and controls as near as wanted to the optimal ones; and likewise
the parallel passes for every number of blocks and all directions of integration of the block elements. -/
theorem C87_control (P : CLQT n m ℝ) (h0 : 0 < P.T) (hP : P.ContData 0 P.T) (hX : ∀ t ∈ Set.Icc 0 P.T, IsPSD (P.X t))
    (hXT : IsPSD P.XT) (x0 : Fin n → ℝ) :
    ∃ x u, P.IsTraj 0 x0 x u ∧ (∀ x' u', P.IsTraj 0 x0 x' u' → P.totalCost 0 x u ≤ P.totalCost 0 x' u') ∧
      (∀ ε > 0, ∃ N0 : ℕ, 0 < N0 ∧ ∀ N ≥ N0, ∃ r fw us xs, P.seqBackwardPass N none none none none = .ok r ∧
        P.seqFwdBwdPass x0 N none none none none none = .ok fw ∧ CLQT.combineForwardBackward r fw = .ok (us, xs) ∧
        VecsNear us N (P.T / N) u ε ∧ VecsNear xs (N + 1) (P.T / N) x ε) ∧
      ∀ blocks > 0, ∀ ε > 0, ∃ N0 : ℕ, 0 < N0 ∧ ∀ steps ≥ N0, ∀ forward forward', ∃ r us xs,
        P.parBackwardPass blocks steps none none forward = .ok r ∧
        P.parFwdBwdPass x0 r blocks steps none none forward' = .ok (us, xs) ∧
        VecsNear us (blocks * steps) (P.T / (blocks * steps : ℕ)) u ε ∧
        VecsNear xs (blocks * steps + 1) (P.T / (blocks * steps : ℕ)) x ε := by
  obtain ⟨S, v, β, Γ, hR, hD, rfl, hΓ, htr, hopt⟩ := P.optimal_fb h0 hP hX hXT x0
  refine ⟨_, _, htr, hopt, fun ε hε => ?_, fun blocks hB ε hε => ?_⟩
  · obtain ⟨δ, hδ, N1, hN1, h1⟩ := CLQT.fb_seq h0 hD hΓ ε hε
    obtain ⟨N2, h2⟩ := C85_backward P h0 hP S v hR δ hδ
    refine ⟨max N1 N2, by omega, fun N hN => ?_⟩
    obtain ⟨r, hr, a1, a2, a3, a4⟩ := h2 N (by omega)
    obtain ⟨fw, us, xs, hf, hc, hu, hx⟩ := h1 N (by omega) r a1 a2 a3 a4
    exact ⟨r, fw, us, xs, hr, hf, hc, hu, hx⟩
  · obtain ⟨δ1, hδ1, N1, hN1, h1⟩ := CLQT.fb_par h0 hD hΓ hX hB true ε hε
    obtain ⟨δ2, hδ2, N2, hN2, h2⟩ := CLQT.fb_par h0 hD hΓ hX hB false ε hε
    obtain ⟨N3, hN3, h3⟩ := C86_backward P h0 hP hX hXT S v hR blocks hB (min δ1 δ2) (lt_min hδ1 hδ2)
    refine ⟨max N1 (max N2 N3), by omega, fun steps hs forward forward' => ?_⟩
    obtain ⟨r, hr, a1, a2, a3, a4⟩ := h3 steps (by omega) forward
    have e : P.T / (blocks * steps : ℕ) = P.T / steps / blocks := by rw [div_div, Nat.cast_mul, mul_comm]
    rw [e] at a1 a2 a3 a4 ⊢
    cases forward'
    · obtain ⟨us, xs, hf, hu, hx⟩ := h2 steps (by omega) r (a1.le (min_le_right _ _)) (a2.le (min_le_right _ _)) (a3.le (min_le_right _ _))
        (a4.le (min_le_right _ _))
      exact ⟨r, us, xs, hr, hf, hu, hx⟩
    · obtain ⟨us, xs, hf, hu, hx⟩ := h1 steps (by omega) r (a1.le (min_le_left _ _)) (a2.le (min_le_left _ _)) (a3.le (min_le_left _ _))
        (a4.le (min_le_left _ _))
      exact ⟨r, us, xs, hr, hf, hu, hx⟩

theorem CLQT.abcLen {P : CLQT n m ℝ} {N : ℕ} {odt t0 : Option ℝ} {x0 : Fin n → ℝ} {A C : Option (Matrix (Fin n) (Fin n) ℝ)}
    {b : Option (Fin n → ℝ)} {r : AbcResult n ℝ} (h : P.seqFwdBwdPass x0 N odt t0 A b C = .ok r) :
    r.A_list.length = N + 1 ∧ r.b_list.length = N + 1 ∧ r.C_list.length = N + 1 := by
  obtain ⟨_, -, α, -, -, rfl⟩ := CLQT.seqFwdBwd_ok.1 h
  simp [abcLists]

/-- The sequential TensorFlow passes on gains and offsets near the exact ones. -/
theorem CLQT.tfFb_near {P : CLQT n m ℝ} (h0 : 0 < P.T) (hU : ∀ t, (P.U t)ᵀ = P.U t) {S Γ : ℝ → Matrix (Fin n) (Fin n) ℝ} {v β : ℝ → Fin n → ℝ}
    {G : ℝ → Matrix (Fin m) (Fin n) ℝ} {d : ℝ → Fin m → ℝ} (hD : P.FBData 0 P.T S v G d β Γ) (hΓ : Γ 0 = 0) : ∀ ε > 0, ∃ δ > 0, ∃ N0 : ℕ, 0 < N0 ∧
    ∀ N ≥ N0, ∀ bw : BwResult n m ℝ, MatsNear bw.S_list (N + 1) (P.T / N) S δ → VecsNear bw.v_list (N + 1) (P.T / N) v δ →
    MatsNear bw.Kx_list N (P.T / N) G δ → VecsNear bw.d_list N (P.T / N) d δ →
    ∃ fw us xs, P.tfSeqFwdBwd N (P.T / N) 0 0 (β 0) 0 = .ok fw ∧ clqtTfCombine bw fw = .ok (xs, us) ∧
      VecsNear us N (P.T / N) (fun t => -(G t) *ᵥ fbx S v β Γ t + d t) ε ∧ VecsNear xs (N + 1) (P.T / N) (fbx S v β Γ) ε := by
  intro ε hε
  obtain ⟨δ, hδ, N1, hN1, h1⟩ := CLQT.fb_seq h0 hD hΓ ε hε
  refine ⟨δ, hδ, N1, hN1, fun N hN bw a1 a2 a3 a4 => ?_⟩
  obtain ⟨fw, us, xs, hf, hc, hu, hx⟩ := h1 N hN bw a1 a2 a3 a4
  obtain ⟨l1, l2, l3⟩ := CLQT.abcLen hf
  refine ⟨fw, us, xs, (C71_seq_fwdbwd P hU N _ _ (β 0) _ _ _ fw).1 ?_, (C71_combine N bw fw a3.1 a4.1 a1.1 a2.1 l1 l2 l3 us xs).2 hc, hu, hx⟩
  obtain ⟨dt, e, α, hα, hs, rfl⟩ := CLQT.seqFwdBwd_ok.1 hf
  rw [P.dtSeq_none (by omega), Except.ok.injEq] at e
  subst e
  exact CLQT.seqFwdBwd_ok.2 ⟨_, rfl, α, hα, hs, rfl⟩

/-- The parallel TensorFlow passes with an associative scan of finite depth complete near the exact values. -/
theorem CLQT.tfPar_near {P : CLQT n m ℝ} (h0 : 0 < P.T) (hP : P.ContData 0 P.T) (hU : ∀ t, (P.U t)ᵀ = P.U t ∧ IsPD (P.U t))
    (hX : ∀ t ∈ Set.Icc 0 P.T, IsPSD (P.X t)) (hXT : IsPSD P.XT) {S Γ : ℝ → Matrix (Fin n) (Fin n) ℝ} {v β : ℝ → Fin n → ℝ} (hR : P.IsRiccati 0 S v)
    (hD : P.FBData 0 P.T S v (P.gain S) (P.offset v) β Γ) (hΓ : Γ 0 = 0)
    (D : ℕ → ℕ) {blocks : ℕ} (hB : 0 < blocks) {ε : ℝ} (hε : 0 < ε) :
    ∃ N0 : ℕ, 0 < N0 ∧ ∀ steps ≥ N0, ∀ forward forward', ∃ r us xs,
      (∀ {scan : (Elem n ℝ → Elem n ℝ → Py (Elem n ℝ)) → List (Elem n ℝ) → Py (List (Elem n ℝ))}, IsAssocScan scan → HasDepth D scan →
        P.tfParBackward scan blocks steps (P.tfParDefaults blocks steps).1 (P.tfParDefaults blocks steps).2.1 (P.tfParDefaults blocks steps).2.2.1
          (P.tfParDefaults blocks steps).2.2.2 forward = .ok r) ∧
      (r.Kx_list.length = blocks * steps ∧ r.d_list.length = blocks * steps ∧ r.S_list.length = blocks * steps + 1 ∧
        r.v_list.length = blocks * steps + 1) ∧
      (∀ {scan : (Elem n ℝ → Elem n ℝ → Py (Elem n ℝ)) → List (Elem n ℝ) → Py (List (Elem n ℝ))}, IsAssocScan scan → HasDepth D scan →
        P.tfParFwdBwd scan blocks steps (β 0) r (P.tfParDefaults blocks steps).1 (P.tfParDefaults blocks steps).2.1 forward' = .ok (xs, us)) ∧
      VecsNear us (blocks * steps) (P.T / (blocks * steps : ℕ)) (fun t => -(P.gain S t) *ᵥ fbx S v β Γ t + P.offset v t) ε ∧
      VecsNear xs (blocks * steps + 1) (P.T / (blocks * steps : ℕ)) (fbx S v β Γ) ε := by
  obtain ⟨δ1, hδ1, N1, hN1, h1⟩ := CLQT.fb_par h0 hD hΓ hX hB true ε hε
  obtain ⟨δ2, hδ2, N2, hN2, h2⟩ := CLQT.fb_par h0 hD hΓ hX hB false ε hε
  obtain ⟨N3, hN3, h3⟩ := C86_backward P h0 hP hX hXT S v hR blocks hB (min δ1 δ2) (lt_min hδ1 hδ2)
  obtain ⟨N4, hN4, h4⟩ := P.tfParBw_complete h0 hP hU hX hXT D blocks hB
  obtain ⟨N5, hN5, h5⟩ := CLQT.fbPar_scan h0 hD hΓ hX hB true D
  obtain ⟨N6, hN6, h6⟩ := CLQT.fbPar_scan h0 hD hΓ hX hB false D
  refine ⟨max (max N1 (max N2 N3)) (max N4 (max N5 N6)), by omega, fun steps hs forward forward' => ?_⟩
  obtain ⟨r, hr, a1, a2, a3, a4⟩ := h3 steps (by omega) forward
  obtain ⟨r', hr', htf⟩ := h4 steps (by omega) forward
  obtain rfl : r = r' := Except.ok.inj (hr.symm.trans hr')
  have e : P.T / (blocks * steps : ℕ) = P.T / steps / blocks := by rw [div_div, Nat.cast_mul, mul_comm]
  have e' : (P.tfParDefaults blocks steps).1 = P.T / steps / blocks := by
    unfold CLQT.tfParDefaults
    rw [div_div, Nat.cast_mul]
  have e0 : (P.tfParDefaults blocks steps).2.1 = 0 := rfl
  have key : ∀ us xs, P.parFwdBwdPass (β 0) r blocks steps none none forward' = .ok (us, xs) →
      P.parFwdBwdPass (β 0) r blocks steps (some (P.T / steps / blocks)) (some 0) forward' = .ok (us, xs) := fun us xs h => by
    unfold CLQT.parFwdBwdPass at h ⊢
    rw [CLQT.dtPar_none_pos hB (by omega : 0 < steps)] at h
    exact h
  rw [e'] at htf
  rw [e', e0]
  have l1 := a1.1
  have l2 := a2.1
  have l3 := a3.1
  have l4 := a4.1
  rw [e] at a1 a2 a3 a4 ⊢
  cases forward'
  · obtain ⟨us, xs, hf', hu, hx⟩ := h2 steps (by omega) r (a1.le (min_le_right _ _)) (a2.le (min_le_right _ _)) (a3.le (min_le_right _ _))
      (a4.le (min_le_right _ _))
    refine ⟨r, us, xs, htf, ⟨l3, l4, l1, l2⟩, fun {scan} hsc hf => ?_, hu, hx⟩
    obtain ⟨es, g1, rl, g2⟩ := h6 steps (by omega) hf
    exact CLQT.tfParFwdBwd_of hU hsc (by omega) g1 g2 l3 l4 l1 l2 (key _ _ hf')
  · obtain ⟨us, xs, hf', hu, hx⟩ := h1 steps (by omega) r (a1.le (min_le_left _ _)) (a2.le (min_le_left _ _)) (a3.le (min_le_left _ _))
      (a4.le (min_le_left _ _))
    refine ⟨r, us, xs, htf, ⟨l3, l4, l1, l2⟩, fun {scan} hsc hf => ?_, hu, hx⟩
    obtain ⟨es, g1, rl, g2⟩ := h5 steps (by omega) hf
    exact CLQT.tfParFwdBwd_of hU hsc (by omega) g1 g2 l3 l4 l1 l2 (key _ _ hf')

/-- C87 (TensorFlow): the same for the passes of `clqt_tf.py`, the parallel ones with every associative scan of finite depth. -/
theorem C87_tf (P : CLQT n m ℝ) (h0 : 0 < P.T) (hP : P.ContData 0 P.T) (hU : ∀ t, (P.U t)ᵀ = P.U t ∧ IsPD (P.U t))
    (hX : ∀ t ∈ Set.Icc 0 P.T, IsPSD (P.X t)) (hXT : IsPSD P.XT) (x0 : Fin n → ℝ)
    (scan : (Elem n ℝ → Elem n ℝ → Py (Elem n ℝ)) → List (Elem n ℝ) → Py (List (Elem n ℝ)))
    (hsc : IsAssocScan scan) (hf : IsFiniteScan scan) :
    ∃ x u, P.IsTraj 0 x0 x u ∧ (∀ x' u', P.IsTraj 0 x0 x' u' → P.totalCost 0 x u ≤ P.totalCost 0 x' u') ∧
      (∀ ε > 0, ∃ N0 : ℕ, 0 < N0 ∧ ∀ N ≥ N0, ∃ r fw us xs,
        P.tfSeqBackward N (P.tfSeqDefaults N).1 (P.tfSeqDefaults N).2.1 (P.tfSeqDefaults N).2.2.1 (P.tfSeqDefaults N).2.2.2 = .ok r ∧
        P.tfSeqFwdBwd N (P.T / N) 0 0 x0 0 = .ok fw ∧ clqtTfCombine r fw = .ok (xs, us) ∧
        VecsNear us N (P.T / N) u ε ∧ VecsNear xs (N + 1) (P.T / N) x ε) ∧
      ∀ blocks > 0, ∀ ε > 0, ∃ N0 : ℕ, 0 < N0 ∧ ∀ steps ≥ N0, ∀ forward forward', ∃ r us xs,
        P.tfParBackward scan blocks steps (P.tfParDefaults blocks steps).1 (P.tfParDefaults blocks steps).2.1
          (P.tfParDefaults blocks steps).2.2.1 (P.tfParDefaults blocks steps).2.2.2 forward = .ok r ∧
        P.tfParFwdBwd scan blocks steps x0 r (P.tfParDefaults blocks steps).1 (P.tfParDefaults blocks steps).2.1 forward' = .ok (xs, us) ∧
        VecsNear us (blocks * steps) (P.T / (blocks * steps : ℕ)) u ε ∧
        VecsNear xs (blocks * steps + 1) (P.T / (blocks * steps : ℕ)) x ε := by
  obtain ⟨S, v, β, Γ, hR, hD, rfl, hΓ, htr, hopt⟩ := P.optimal_fb h0 hP hX hXT x0
  refine ⟨_, _, htr, hopt, fun ε hε => ?_, fun blocks hB ε hε => ?_⟩
  rotate_left
  · obtain ⟨D, hf⟩ := hf
    obtain ⟨N0, hN0, h⟩ := CLQT.tfPar_near h0 hP hU hX hXT hR hD hΓ D hB hε
    refine ⟨N0, hN0, fun steps hs forward forward' => ?_⟩
    obtain ⟨r, us, xs, k1, -, k2, k3⟩ := h steps hs forward forward'
    exact ⟨r, us, xs, k1 hsc hf, k2 hsc hf, k3⟩
  obtain ⟨δ, hδ, N1, hN1, h1⟩ := CLQT.tfFb_near h0 (fun t => (hU t).1) hD hΓ ε hε
  obtain ⟨N2, h2⟩ := C85_backward P h0 hP S v hR δ hδ
  refine ⟨max N1 N2, by omega, fun N hN => ?_⟩
  obtain ⟨r, hr, a1, a2, a3, a4⟩ := h2 N (by omega)
  obtain ⟨fw, us, xs, hf, hc, hu, hx⟩ := h1 N (by omega) r a1 a2 a3 a4
  have e := (C71_defaults P 1 N true one_ne_zero (by omega)).1
  exact ⟨r, fw, us, xs, (C71_seq_backward P (fun t => (hU t).1) N _ _ _ _ r).1 (e ▸ hr), hf, hc, hu, hx⟩

/-- C87 (speed test): for a fixed number of blocks, from some number of steps on, the speed test of the parallel backward and
forward-backward pipeline completes and reports an error as small as wanted. -/
theorem C87_speed [NeZero n] (P : CLQT n m ℝ) (h0 : 0 < P.T) (hP : P.ContData 0 P.T) (hU : ∀ t, (P.U t)ᵀ = P.U t ∧ IsPD (P.U t))
    (hX : ∀ t ∈ Set.Icc 0 P.T, IsPSD (P.X t)) (hXT : IsPSD P.XT) (scan : AScan) (hsc : ∀ α, IsAssocScan (scan α))
    (hf : ∀ α, IsFiniteScan (scan α)) (x0 : Fin n → ℝ) (blocks : ℕ) (hB : 0 < blocks) (ε : ℝ) (hε : 0 < ε) :
    ∃ N0 : ℕ, 0 < N0 ∧ ∀ steps ≥ N0, ∀ n_iter ≠ 0, ∃ e, P.parBwFwBwSpeed scan x0 blocks steps n_iter = .ok e ∧ 0 ≤ e ∧ e ≤ ε := by
  obtain ⟨S, v, β, Γ, hR, hD, rfl, hΓ, -, -⟩ := P.optimal_fb h0 hP hX hXT x0
  obtain ⟨δ, hδ, N1, hN1, h1⟩ := CLQT.tfFb_near h0 (fun t => (hU t).1) hD hΓ (ε / 2) (by linarith)
  obtain ⟨N2, h2⟩ := C85_backward P h0 hP S v hR δ hδ
  obtain ⟨D, hf⟩ := hf (Elem n ℝ)
  obtain ⟨N3, hN3, h3⟩ := CLQT.tfPar_near h0 hP hU hX hXT hR hD hΓ D hB (ε := ε / 2) (by linarith)
  refine ⟨max N1 (max N2 N3), by omega, fun steps hs n_iter hn => ?_⟩
  have hge : steps ≤ blocks * steps := Nat.le_mul_of_pos_left _ hB
  obtain ⟨r, hr, a1, a2, a3, a4⟩ := h2 (blocks * steps) (by omega)
  obtain ⟨fw, us, xs, hfw, hc, -, hx⟩ := h1 (blocks * steps) (by omega) r a1 a2 a3 a4
  obtain ⟨r', us', xs', hr', -, hfb', -, hx'⟩ := h3 steps (by omega) false true
  replace hr' := hr' (hsc _) hf
  replace hfb' := hfb' (hsc _) hf
  have e := (C71_defaults P 1 (blocks * steps) true one_ne_zero (by omega)).1
  have href : P.spRef2 (β 0) blocks steps = .ok (r, xs, us) := by
    unfold CLQT.spRef2
    simp only [bind_ok, pure, Except.pure, Except.ok.injEq]
    exact ⟨r, (C71_seq_backward P (fun t => (hU t).1) _ _ _ _ _ r).1 (e ▸ hr), fw, hfw, _, hc, rfl⟩
  have hrun : P.spParBwFwBw scan (β 0) blocks steps = .ok (r', xs', us') := by
    have hl := C83_levels scan P blocks steps hB (P.tfParDefaults blocks steps).1 (P.tfParDefaults blocks steps).2.1
      (P.tfParDefaults blocks steps).2.2.1 (P.tfParDefaults blocks steps).2.2.2 (β 0) [] [] r'
    unfold CLQT.spParBwFwBw
    simp only [bind_ok, pure, Except.pure, Except.ok.injEq]
    exact ⟨r', hl.1.trans hr', _, hl.2.2.trans hfb', rfl⟩
  obtain ⟨e, he, -, k, A, A', i, hA, hA', rfl⟩ := tfMaxAbsV_ok (As := xs') (Bs := xs) (hx'.1.trans hx.1.symm) (fun h => by
    have := hx'.1
    rw [h] at this
    simp at this)
  refine ⟨_, (contSpeed_eq hn _ hrun href).trans he, abs_nonneg _, ?_⟩
  have g1 := hx'.2 k A hA i
  have g2 := hx.2 k A' hA' i
  rw [abs_le] at g1 g2 ⊢
  constructor <;> linarith

/-! ### Examples -/

/-- The forward-backward passes on the scalar integrator from state 2 approach the optimal trajectory, sequentially and with 4 blocks. -/
example : ∃ x u, exFlow.IsTraj 0 ![2] x u ∧ (∀ x' u', exFlow.IsTraj 0 ![2] x' u' → exFlow.totalCost 0 x u ≤ exFlow.totalCost 0 x' u') ∧
    ∀ ε > 0, ∃ N0 : ℕ, ∀ N ≥ N0, (∃ r fw us xs, exFlow.seqBackwardPass N none none none none = .ok r ∧
        exFlow.seqFwdBwdPass ![2] N none none none none none = .ok fw ∧ CLQT.combineForwardBackward r fw = .ok (us, xs) ∧
        VecsNear us N (exFlow.T / N) u ε ∧ VecsNear xs (N + 1) (exFlow.T / N) x ε) ∧
      ∃ r us xs, exFlow.parBackwardPass 4 N none none false = .ok r ∧ exFlow.parFwdBwdPass ![2] r 4 N none none true = .ok (us, xs) ∧
        VecsNear us (4 * N) (exFlow.T / (4 * N : ℕ)) u ε ∧ VecsNear xs (4 * N + 1) (exFlow.T / (4 * N : ℕ)) x ε := by
  obtain ⟨x, u, h1, h2, h3, h4⟩ := C87_control exFlow exFlow_T exFlow_contData (fun t _ => exFlow_X t) exFlow_XT ![2]
  refine ⟨x, u, h1, h2, fun ε hε => ?_⟩
  obtain ⟨Na, -, ha⟩ := h3 ε hε
  obtain ⟨Nb, -, hb⟩ := h4 4 (by norm_num) ε hε
  exact ⟨max Na Nb, fun N hN => ⟨ha N (by omega), hb N (by omega) false true⟩⟩

/-- With the scan of the repository the TensorFlow pipeline on the scalar integrator completes with 5 blocks. -/
example : ∃ N0 : ℕ, ∀ steps ≥ N0, ∃ r us xs,
    exFlow.tfParBackward (fun op l => scanVals op l) 5 steps (exFlow.tfParDefaults 5 steps).1 (exFlow.tfParDefaults 5 steps).2.1
      (exFlow.tfParDefaults 5 steps).2.2.1 (exFlow.tfParDefaults 5 steps).2.2.2 = .ok r ∧
    exFlow.tfParFwdBwd (fun op l => scanVals op l) 5 steps ![2] r (exFlow.tfParDefaults 5 steps).1 (exFlow.tfParDefaults 5 steps).2.1 = .ok (xs, us) ∧
    us.length = 5 * steps ∧ xs.length = 5 * steps + 1 := by
  obtain ⟨x, u, -, -, -, h⟩ := C87_tf exFlow exFlow_T exFlow_contData exFlow_U (fun t _ => exFlow_X t) exFlow_XT ![2] _ C17_scan_example
    scanVals_finite
  obtain ⟨N0, -, h⟩ := h 5 (by norm_num) 1 one_pos
  refine ⟨N0, fun steps hs => ?_⟩
  obtain ⟨r, us, xs, h1, h2, h3, h4⟩ := h steps hs false true
  exact ⟨r, us, xs, h1, h2, h3.1, h4.1⟩

/-- The speed test with 4 blocks completes and its error tends to zero. -/
example (ε : ℝ) (hε : 0 < ε) : ∃ N0 : ℕ, 0 < N0 ∧ ∀ steps ≥ N0, ∀ n_iter ≠ 0,
    ∃ e, exFlow.parBwFwBwSpeed (fun _ op l => scanVals op l) ![2] 4 steps n_iter = .ok e ∧ 0 ≤ e ∧ e ≤ ε :=
  C87_speed exFlow exFlow_T exFlow_contData exFlow_U (fun t _ => exFlow_X t) exFlow_XT _ (fun _ => C17_scan_example) (fun _ => scanVals_finite)
    ![2] 4 (by norm_num) ε hε

end Verif
