import Verif.Props.ModelsTensor
import Verif.Props.CLQTFBConv
import Verif.Props.CNonlin

/-! Property C109: the tensors of the parallel passes of `clqt_tf.py` and of the upwind pass of `hjb_grid_1d_tf.py` converge. -/

namespace Verif

open Matrix

variable {n m : ℕ}

/-- Scans of finite depth of two types with a common bound. -/
theorem scan_depth {scan : AScan} (hf : ∀ α, IsFiniteScan (scan α)) (α β : Type) : ∃ D, HasDepth D (scan α) ∧ HasDepth D (scan β) := by
  obtain ⟨D1, h1⟩ := hf α
  obtain ⟨D2, h2⟩ := hf β
  exact ⟨fun k => max (D1 k) (D2 k),
    fun op l P hne hm ho hl => h1 op l P hne hm (fun t ht => ho t (lt_of_lt_of_le ht (le_max_left _ _))) hl,
    fun op l P hne hm ho hl => h2 op l P hne hm (fun t ht => ho t (lt_of_lt_of_le ht (le_max_right _ _))) hl⟩

/-- The tensors of the parallel backward pass, for a scan of a given depth. -/
theorem parBw_tens (P : CLQT n m ℝ) {p : TensCLQT ℝ} (hp : p.Holds P) {d : TensFinal ℝ} (hd : d.Holds P) (hn : 0 < n) {scan : AScan}
    (hsc : ∀ α, IsAssocScan (scan α)) {D : ℕ → ℕ} (hD : HasDepth D (scan (TensElem ℝ)) ∧ HasDepth D (scan (Elem n ℝ))) {blocks steps : ℕ} (hB : 0 < blocks)
    (forward : Bool) {r : BwResult n m ℝ}
    (h : ∀ {scan : (Elem n ℝ → Elem n ℝ → Py (Elem n ℝ)) → List (Elem n ℝ) → Py (List (Elem n ℝ))}, IsAssocScan scan → HasDepth D scan →
      P.tfParBackward scan blocks steps (P.tfParDefaults blocks steps).1 (P.tfParDefaults blocks steps).2.1 (P.tfParDefaults blocks steps).2.2.1
        (P.tfParDefaults blocks steps).2.2.2 forward = .ok r) :
    ∃ ST vT tb, tensClqtParDefaults d blocks steps = .ok (P.T / (steps * blocks), 0, ST, vT) ∧
      tensClqtParBackward p scan blocks steps (P.T / (steps * blocks)) 0 ST vT forward = .ok tb ∧ tb.Holds r := by
  obtain ⟨-, ⟨ST, vT, e0, hS, hv⟩, -⟩ := C106_defaults P hd blocks steps
  rw [Matrix.mul_assoc] at hS
  obtain ⟨scan', ⟨hs', hd'⟩, hr⟩ := clqtParBackward_rep hp hn hsc forward hB steps (P.T / (steps * blocks)) 0 hS hv
  have h' := h hs' (hd' D hD.1 hD.2)
  unfold CLQT.tfParDefaults at h'
  rw [Nat.cast_mul] at h'
  dsimp only at h'
  rw [h'] at hr
  obtain ⟨tb, e1, hb⟩ := hr
  exact ⟨ST, vT, tb, e0, e1, hb⟩

/-- C109 (parallel passes): for continuous data with positive definite symmetric `U`, semidefinite weights and at least one state there is an
optimal trajectory such that for every number of blocks and every accuracy, from some number of steps in a block on,
`clqt_par_backwardpass` with an associative scan of finite depth completes, and the tensors of states and controls returned by
`clqt_par_forwardpass` without zero-order hold and by `clqt_seq_forwardpass` are that near to it. -/
theorem C109_parallel (P : CLQT n m ℝ) {p : TensCLQT ℝ} (hp : p.Holds P) {d : TensFinal ℝ} (hd : d.Holds P) (hn : 0 < n) (h0 : 0 < P.T)
    (hP : P.ContData 0 P.T) (hU : ∀ t, (P.U t)ᵀ = P.U t ∧ IsPD (P.U t)) (hX : ∀ t ∈ Set.Icc 0 P.T, IsPSD (P.X t)) (hXT : IsPSD P.XT)
    (scan : AScan) (hsc : ∀ α, IsAssocScan (scan α)) (hf : ∀ α, IsFiniteScan (scan α)) {x0 : Tens ℝ} {x0' : Fin n → ℝ} (hx : x0.IsV x0') :
    ∃ x u, P.IsTraj 0 x0' x u ∧ (∀ x' u', P.IsTraj 0 x0' x' u' → P.totalCost 0 x u ≤ P.totalCost 0 x' u') ∧
      ∀ blocks > 0, ∀ ε > 0, ∃ N0 : ℕ, ∀ steps ≥ N0, ∀ forward, ∃ dt t0 ST vT tb, tensClqtParDefaults d blocks steps = .ok (dt, t0, ST, vT) ∧
        tensClqtParBackward p scan blocks steps dt t0 ST vT forward = .ok tb ∧
        (∀ forward', ∃ tx tu, tensClqtParForward p scan blocks steps x0 tb.Kxs tb.ds dt t0 forward' false = .ok (tx, tu) ∧
          tx.Near (blocks * steps + 1) (P.T / (blocks * steps : ℕ)) x ε ∧ tu.Near (blocks * steps) (P.T / (blocks * steps : ℕ)) u ε) ∧
        ∀ u_zoh, ∃ tx tu, tensClqtSeqForward p u_zoh x0 tb.Kxs tb.ds dt t0 = .ok (tx, tu) ∧
          tx.Near (blocks * steps + 1) (P.T / (blocks * steps : ℕ)) x ε ∧ tu.Near (blocks * steps) (P.T / (blocks * steps : ℕ)) u ε := by
  obtain ⟨S, v, hR, -, -⟩ := C85_exists P h0 hP hX hXT
  obtain ⟨x, u, h1, h2, h3⟩ := C86_control P h0 hP hX hXT x0'
  refine ⟨x, u, h1, h2, fun blocks hB ε hε => ?_⟩
  obtain ⟨D, hD⟩ := scan_depth hf (TensElem ℝ) (Elem n ℝ)
  obtain ⟨N1, hN1, k1⟩ := h3 blocks hB ε hε
  obtain ⟨N2, hN2, k2⟩ := P.tfParBw_complete h0 hP hU hX hXT D blocks hB
  obtain ⟨N3, hN3, k3⟩ := C86_backward P h0 hP hX hXT S v hR blocks hB 1 one_pos
  refine ⟨max N1 (max N2 N3), fun steps hs forward => ?_⟩
  have hst : 0 < steps := by omega
  obtain ⟨r, e1, hpar, hseq⟩ := k1 steps (by omega) forward
  obtain ⟨r', e2, htf⟩ := k2 steps (by omega) forward
  obtain rfl : r = r' := Except.ok.inj (e1.symm.trans e2)
  obtain ⟨r', e3, -, -, lK, ld⟩ := k3 steps (by omega) forward
  obtain rfl : r = r' := Except.ok.inj (e1.symm.trans e3)
  obtain ⟨ST, vT, tb, g0, g1, hb⟩ := parBw_tens P hp hd hn hsc hD hB forward htf
  have hdt : P.T / (steps * blocks) = P.T / (blocks * steps : ℕ) := by rw [Nat.cast_mul, mul_comm]
  have hne : r.d_list ≠ [] := fun e => by
    have := ld.1
    rw [e] at this
    have := Nat.mul_pos hB hst
    simp at *
    omega
  refine ⟨_, _, ST, vT, tb, g0, g1, fun forward' => ?_, fun z => ?_⟩
  · obtain ⟨us, xs, hf', hu, hx'⟩ := hpar forward'
    have key : P.parForwardPass x0' r.Kx_list r.d_list blocks steps (some (P.T / (steps * blocks))) (some 0) forward' false = .ok (us, xs) := by
      unfold CLQT.parForwardPass at hf' ⊢
      rw [CLQT.dtPar_none_pos hB hst, div_div] at hf'
      exact hf'
    obtain ⟨tx, tu, g2, g3, g4⟩ := (C106_par_forward P hp scan hsc hx hb.Kxs hb.ds hB hst lK.1 ld.1 _ _ forward' false us xs).2 key
    exact ⟨tx, tu, g2, HoldsV.near g3 hx', HoldsV.near g4 hu⟩
  · obtain ⟨us, xs, hf', hu, hx'⟩ := hseq z
    have key : P.seqForwardPass x0' r.Kx_list r.d_list (some (P.T / (steps * blocks))) (some 0) z = .ok (us, xs) := by
      rw [← hf', hdt]
      unfold CLQT.seqForwardPass
      dsimp only
      rw [lK.1, CLQT.dtSeq_none (Nat.mul_pos hB hst)]
      rfl
    obtain ⟨tx, tu, g2, g3, g4⟩ := (C106_seq_forward P hp hx hb.Kxs hb.ds (lK.1.trans ld.1.symm) hne _ _ z us xs).2 key
    exact ⟨tx, tu, g2, HoldsV.near g3 hx', HoldsV.near g4 hu⟩

/-- C109 (forward-backward passes): in the same way the forward-backward passes give tensors near to an optimal trajectory: the sequential
passes combined by `clqt_combine_fwdbwd`, and for every number of blocks `clqt_par_backwardpass` followed by `clqt_par_fwdbwdpass`. -/
theorem C109_fwdbwd (P : CLQT n m ℝ) {p : TensCLQT ℝ} (hp : p.Holds P) {d : TensFinal ℝ} (hd : d.Holds P) (hn : 0 < n) (h0 : 0 < P.T)
    (hP : P.ContData 0 P.T) (hU : ∀ t, (P.U t)ᵀ = P.U t ∧ IsPD (P.U t)) (hX : ∀ t ∈ Set.Icc 0 P.T, IsPSD (P.X t)) (hXT : IsPSD P.XT)
    (scan : AScan) (hsc : ∀ α, IsAssocScan (scan α)) (hf : ∀ α, IsFiniteScan (scan α)) {x0 : Tens ℝ} {x0' : Fin n → ℝ} (hx : x0.IsV x0') :
    ∃ x u, P.IsTraj 0 x0' x u ∧ (∀ x' u', P.IsTraj 0 x0' x' u' → P.totalCost 0 x u ≤ P.totalCost 0 x' u') ∧
      (∀ ε > 0, ∃ N0 : ℕ, ∀ N ≥ N0, ∃ dt t0 ST vT tb dt' t0' te ta tx tu, tensClqtSeqDefaults d N = .ok (dt, t0, ST, vT) ∧
        tensClqtBwPass p N dt t0 ST vT = .ok tb ∧ tensClqtSeqFwdBwdDefaults x0 N d.T = .ok (dt', t0', te) ∧
        tensAbcPass p N dt' t0' te = .ok ta ∧ tensClqtCombine tb.Kxs tb.ds tb.Ss tb.vs ta.b ta.C = .ok (tx, tu) ∧
        tx.Near (N + 1) (P.T / N) x ε ∧ tu.Near N (P.T / N) u ε) ∧
      ∀ blocks > 0, ∀ ε > 0, ∃ N0 : ℕ, ∀ steps ≥ N0, ∀ forward forward', ∃ dt t0 ST vT tb tx tu,
        tensClqtParDefaults d blocks steps = .ok (dt, t0, ST, vT) ∧ tensClqtParBackward p scan blocks steps dt t0 ST vT forward = .ok tb ∧
        tensClqtParFwdBwd p scan blocks steps x0 tb.Ss tb.vs tb.Kxs tb.ds dt t0 forward' = .ok (tx, tu) ∧
        tx.Near (blocks * steps + 1) (P.T / (blocks * steps : ℕ)) x ε ∧ tu.Near (blocks * steps) (P.T / (blocks * steps : ℕ)) u ε := by
  obtain ⟨S, v, β, Γ, hR, hFB, rfl, hΓ, htr, hopt⟩ := P.optimal_fb h0 hP hX hXT x0'
  refine ⟨_, _, htr, hopt, fun ε hε => ?_, fun blocks hB ε hε => ?_⟩
  · obtain ⟨δ, hδ, N1, hN1, h1⟩ := CLQT.tfFb_near h0 (fun t => (hU t).1) hFB hΓ ε hε
    obtain ⟨N2, h2⟩ := C85_backward P h0 hP S v hR δ hδ
    refine ⟨max N1 N2, fun N hN => ?_⟩
    obtain ⟨r, hr, a1, a2, a3, a4⟩ := h2 N (by omega)
    obtain ⟨fw, us, xs, hfw, hc, hu, hx'⟩ := h1 N (by omega) r a1 a2 a3 a4
    obtain ⟨⟨ST, vT, e0, hS, hv⟩, -, hde⟩ := C106_defaults P hd 0 N
    obtain ⟨te, e1, hA, hb, hC⟩ := hde _ _ hx
    have hbw : P.tfSeqBackward N (P.T / N) 0 (P.HTᵀ * P.XT * P.HT) (P.HTᵀ *ᵥ (P.XT *ᵥ P.rT)) = .ok r := by
      refine (C71_seq_backward P (fun t => (hU t).1) N _ _ _ _ r).1 ?_
      have e := (C71_defaults P 1 N true one_ne_zero (by omega)).1
      rw [e] at hr
      unfold CLQT.tfSeqDefaults at hr
      rw [Matrix.mul_assoc]
      exact hr
    have r1 := (clqtBwPass_rep hp N (P.T / N) 0 hS hv).mono (R' := fun (t : TensBw ℝ) r => t.Holds r) fun a b h => h.holds
    rw [hbw] at r1
    obtain ⟨tb, e2, hB⟩ := r1
    have r2 := abcPass_rep hp N (P.T / N) 0 ⟨hA, hb, hC⟩
    rw [hfw] at r2
    obtain ⟨ta, e3, ha⟩ := r2
    have r3 := clqtCombine_rep hB.Ss hB.vs hB.Kxs hB.ds ha.holds.b ha.holds.C a1.1 a2.1 a3.1 a4.1 ha.b.1 ha.C.1
    rw [hc] at r3
    obtain ⟨⟨tx, tu⟩, e4, g1, g2⟩ := r3
    exact ⟨_, _, ST, vT, tb, _, _, te, ta, tx, tu, e0, e2, e1, e3, e4, HoldsV.near g1 hx', HoldsV.near g2 hu⟩
  · obtain ⟨D, hD⟩ := scan_depth hf (TensElem ℝ) (Elem n ℝ)
    obtain ⟨N0, hN0, h⟩ := CLQT.tfPar_near h0 hP hU hX hXT hR hFB hΓ D hB hε
    refine ⟨N0, fun steps hs forward forward' => ?_⟩
    obtain ⟨r, us, xs, k1, ⟨l1, l2, l3, l4⟩, k2, hu, hx'⟩ := h steps hs forward forward'
    obtain ⟨ST, vT, tb, g0, g1, hb⟩ := parBw_tens P hp hd hn hsc hD hB forward k1
    obtain ⟨scan', ⟨hs', hd'⟩, hr⟩ := clqtParFwdBwd_rep hp hn hsc forward' hB (P.T / (steps * blocks)) 0 hx hb l1 l2 l3 l4
    have h' := k2 hs' (hd' D hD.1 hD.2)
    unfold CLQT.tfParDefaults at h'
    rw [Nat.cast_mul] at h'
    dsimp only at h'
    rw [h'] at hr
    obtain ⟨⟨tx, tu⟩, g2, g3, g4⟩ := hr
    exact ⟨_, _, ST, vT, tb, tx, tu, g0, g1, g2, HoldsV.near g3 hx', HoldsV.near g4 hu⟩

/-- C109 (tracking problem of `get_clqt`): the parallel passes on its tensors. -/
theorem C109_tracking (scan : AScan) (hsc : ∀ α, IsAssocScan (scan α)) (hf : ∀ α, IsFiniteScan (scan α)) :
    ∃ x u, linGetCLQT.1.IsTraj 0 linGetCLQT.2 x u ∧
      (∀ x' u', linGetCLQT.1.IsTraj 0 linGetCLQT.2 x' u' → linGetCLQT.1.totalCost 0 x u ≤ linGetCLQT.1.totalCost 0 x' u') ∧
      ∀ blocks > 0, ∀ ε > 0, ∃ N0 : ℕ, ∀ steps ≥ N0, ∀ forward, ∃ dt t0 ST vT tb,
        tensClqtParDefaults tensGetClqt.2.1 blocks steps = .ok (dt, t0, ST, vT) ∧
        tensClqtParBackward tensGetClqt.2.2 scan blocks steps dt t0 ST vT forward = .ok tb ∧
        ∀ forward', ∃ tx tu, tensClqtParForward tensGetClqt.2.2 scan blocks steps tensGetClqt.1 tb.Kxs tb.ds dt t0 forward' false = .ok (tx, tu) ∧
          tx.Near (blocks * steps + 1) (50 / (blocks * steps : ℕ)) x ε ∧ tu.Near (blocks * steps) (50 / (blocks * steps : ℕ)) u ε := by
  obtain ⟨hx, hd, hp⟩ := C108_linear
  obtain ⟨-, -, hT, -, -, hU, -⟩ := C74_continuous
  have h0 : 0 < linGetCLQT.1.T := by rw [hT]; norm_num
  obtain ⟨x, u, h1, h2, h3⟩ := C109_parallel linGetCLQT.1 hp hd (by norm_num) h0 linGetCLQT_contData (fun t => ⟨(hU t).2.2.2, (hU t).2.2.1⟩)
    (fun t _ => (isPSD_smul_one _ zero_le_one)) (isPSD_smul_one _ zero_le_one) scan hsc hf hx
  rw [hT] at h3
  refine ⟨x, u, h1, h2, fun blocks hB ε hε => ?_⟩
  obtain ⟨N0, h⟩ := h3 blocks hB ε hε
  refine ⟨N0, fun steps hs forward => ?_⟩
  obtain ⟨dt, t0, ST, vT, tb, g1, g2, g3, -⟩ := h steps hs forward
  exact ⟨dt, t0, ST, vT, tb, g1, g2, g3⟩

/-- C109 (upwind pass): under the conditions of C60 every entry of the tensor of `seq_bw_pass_upwind` is within
`T (A dt + F B dx)` of the solution of the Hamilton-Jacobi-Bellman equation. -/
theorem C109_upwind [NeZero m] (M : HJB (n + 2) ℝ) (ug : Fin m → ℝ) (h : UpwindOK M ug) (x0 dx : ℝ)
    (hgrid : ∀ i : Fin (n + 2), M.grid i = x0 + (i : ℕ) * dx) (W Wt Wx : ℝ → ℝ → ℝ) (A B F : ℝ)
    (hA0 : 0 ≤ A) (hB0 : 0 ≤ B)
    (hWt : ∀ i, ∀ t ∈ Set.Icc 0 M.T, HasDerivAt (fun s => W s (M.grid i)) (Wt t (M.grid i)) t)
    (hA : ∀ i, ∀ s ∈ Set.Icc 0 M.T, ∀ t ∈ Set.Icc 0 M.T, |Wt s (M.grid i) - Wt t (M.grid i)| ≤ A * |s - t|)
    (hWx : ∀ t ∈ Set.Icc 0 M.T, ∀ x ∈ Set.Icc (M.grid 0) (M.grid (Fin.last (n + 1))),
      HasDerivAt (fun y => W t y) (Wx t x) x)
    (hB : ∀ t ∈ Set.Icc 0 M.T, ∀ x ∈ Set.Icc (M.grid 0) (M.grid (Fin.last (n + 1))),
      ∀ y ∈ Set.Icc (M.grid 0) (M.grid (Fin.last (n + 1))), |Wx t x - Wx t y| ≤ B * |x - y|)
    (hF : ∀ i u, |M.f (M.grid i) (ug u)| ≤ F)
    (hjb : ∀ t ∈ Set.Icc 0 M.T, ∀ i, IsLeast (Set.range fun u => M.L (M.grid i) (ug u) + M.f (M.grid i) (ug u) * Wx t (M.grid i))
      (-Wt t (M.grid i)))
    (hT : ∀ i, W M.T (M.grid i) = M.LT (M.grid i)) {f L : TensFun ℝ} {LT : Tens ℝ → Py (Tens ℝ)} (hf : Pointwise2 f M.f)
    (hL : Pointwise2 L M.L) (hLT : Pointwise1 LT M.LT) {tx tu : Tens ℝ} (hx : tx.IsV M.grid) (hu : tu.IsV ug) :
    ∃ t, tensSeqBwPassUpwind f L LT M.T M.blocks M.steps tx tu = .ok t ∧ t.shape = [M.blocks + 1, n + 2] ∧
      ∀ k ≤ M.blocks, ∀ i : Fin (n + 2),
        |t.val [k, i] - W (k * (M.T / M.blocks)) (M.grid i)| ≤ M.T * (A * (M.T / M.blocks / M.steps) + F * B * dx) := by
  obtain ⟨r, h1, h2, h3⟩ := C60_convergence M ug h x0 dx hgrid W Wt Wx A B F hA0 hB0 hWt hA hWx hB hF hjb hT
  obtain ⟨t, h4, h5⟩ := (C104_upwind M hf hL hLT hx hu).2 r h1
  refine ⟨t, h4, by rw [h5.1, h2], fun k hk i => ?_⟩
  have hk' : k < r.length := by omega
  have := h3 k hk r[k] (List.getElem?_eq_getElem hk') i
  rwa [← h5.2 k hk' i] at this

/-- C109 (upwind model): on the tensors of `upwind_model` with at least three states and two controls the entries of the tensor of
`seq_bw_pass_upwind` are above the smallest terminal cost that can be reached in the remaining time `tau` from the grid point `x`, by at most
`max(0, x) exp(tau) tau dt / 2`. -/
theorem C109_upwind_model (n m blocks steps : ℕ) (hb : blocks ≠ 0) (hs : steps ≠ 0) :
    ∃ (t : TensModel ℝ) (V : Tens ℝ), tensUpwindModel (n + 3) (m + 2) = .ok t ∧
      tensSeqBwPassUpwind t.f t.L t.LT t.T blocks steps t.x_grid t.u_grid = .ok V ∧ V.shape = [blocks + 1, n + 3] ∧
      ∀ k ≤ blocks, ∀ i : Fin (n + 3), ∀ c tau : ℝ, tau = (blocks - k : ℕ) * (1 / blocks) →
        IsLeast {c | ∃ xf, UpwindReach tau (t.x_grid.val [(i : ℕ)]) xf ∧ -xf = c} c →
        c ≤ V.val [k, i] ∧ V.val [k, i] - c ≤ max 0 (t.x_grid.val [(i : ℕ)]) * (Real.exp tau * (tau * (1 / blocks / steps) / 2)) := by
  obtain ⟨t, h1, h2, -⟩ := (C108_models (K := ℝ) (n := n + 3) (m := m + 2) (by omega) (by omega)).2.2
  obtain ⟨r, h3, -, h4, -⟩ := C77_upwind (K := ℝ) n m blocks steps hb hs
  obtain ⟨V, h5, h6⟩ := (C108_passes (n := n + 1) h2 blocks steps).2.2.2 r h3
  refine ⟨t, V, h1, h5, by rw [h6.1, h4], fun k hk i c tau htau hc => ?_⟩
  subst htau
  have hg : t.x_grid.val [(i : ℕ)] = (upwindModel (n + 3) (m + 2) : CModel _ _ ℝ).x_grid i := h2.x_grid.2 i
  rw [hg] at hc ⊢
  have hk' : k < r.length := by omega
  have := C77_error n m blocks steps hb hs r h3 k r[k] (List.getElem?_eq_getElem hk') i c hc
  rwa [← h6.2 k hk' i] at this

/-! ### Examples -/

/-- `C109_parallel`, `C109_tracking`: five blocks with the scan of C17. -/
example : ∃ x u, linGetCLQT.1.IsTraj 0 linGetCLQT.2 x u ∧ ∃ N0 : ℕ, ∀ steps ≥ N0, ∃ dt t0 ST vT tb tx tu,
    tensClqtParDefaults tensGetClqt.2.1 5 steps = .ok (dt, t0, ST, vT) ∧
    tensClqtParBackward tensGetClqt.2.2 (fun _ op l => scanVals op l) 5 steps dt t0 ST vT false = .ok tb ∧
    tensClqtParForward tensGetClqt.2.2 (fun _ op l => scanVals op l) 5 steps tensGetClqt.1 tb.Kxs tb.ds dt t0 true false = .ok (tx, tu) ∧
    tx.Near (5 * steps + 1) (50 / (5 * steps : ℕ)) x (1 / 100) ∧ tu.Near (5 * steps) (50 / (5 * steps : ℕ)) u (1 / 100) := by
  obtain ⟨x, u, h1, -, h2⟩ := C109_tracking (fun _ op l => scanVals op l) (fun _ => C17_scan_example) fun _ => scanVals_finite
  obtain ⟨N0, h⟩ := h2 5 (by norm_num) (1 / 100) (by norm_num)
  refine ⟨x, u, h1, N0, fun steps hs => ?_⟩
  obtain ⟨dt, t0, ST, vT, tb, g1, g2, g3⟩ := h steps hs false
  obtain ⟨tx, tu, g4, g5⟩ := g3 true
  exact ⟨dt, t0, ST, vT, tb, tx, tu, g1, g2, g4, g5⟩

/-- `C109_fwdbwd`: its hypotheses for the problem of `get_clqt`. -/
example : tensGetClqt.2.2.Holds linGetCLQT.1 ∧ tensGetClqt.2.1.Holds linGetCLQT.1 ∧ 0 < linGetCLQT.1.T ∧ linGetCLQT.1.ContData 0 linGetCLQT.1.T ∧
    (∀ t, (linGetCLQT.1.U t)ᵀ = linGetCLQT.1.U t ∧ IsPD (linGetCLQT.1.U t)) ∧ (∀ t, IsPSD (linGetCLQT.1.X t)) ∧ IsPSD linGetCLQT.1.XT ∧
    (∀ α, IsAssocScan ((fun _ op l => scanVals op l : AScan) α)) ∧ (∀ α, IsFiniteScan ((fun _ op l => scanVals op l : AScan) α)) ∧
    tensGetClqt.1.IsV linGetCLQT.2 :=
  ⟨C108_linear.2.2, C108_linear.2.1, by rw [C74_continuous.2.2.1]; norm_num, linGetCLQT_contData,
    fun t => ⟨(C74_continuous.2.2.2.2.2.1 t).2.2.2, (C74_continuous.2.2.2.2.2.1 t).2.2.1⟩, fun _ => isPSD_smul_one _ zero_le_one,
    isPSD_smul_one _ zero_le_one, fun _ => C17_scan_example, fun _ => scanVals_finite, C108_linear.1⟩

/-- `C109_upwind`: the value function of `hjbIn` is `W t x = x exp(t - 1)`. -/
example : ∃ t, tensSeqBwPassUpwind (Tens.bin fun x _ => -x) (Tens.bin fun _ u => u) (fun a => .ok (a.map fun x => x)) hjbIn.T hjbIn.blocks hjbIn.steps
      (tensV hjbIn.grid) (tensV hjbU) = .ok t ∧ t.shape = [3, 3] ∧
    ∀ k : ℕ, k ≤ 2 → ∀ i : Fin 3, |t.val [k, i] - hjbIn.grid i * Real.exp (k * (1 / 2) - 1)| ≤ 3 / 10 := by
  have hg : ∀ i, |hjbIn.grid i| ≤ 1 := by intro i; fin_cases i <;> norm_num [hjbIn]
  obtain ⟨t, h1, h2, h3⟩ := C109_upwind (n := 1) hjbIn hjbU hjbIn_ok (-1) 1 (fun i => rfl)
    (fun t x => x * Real.exp (t - 1)) (fun t x => x * Real.exp (t - 1)) (fun t _ => Real.exp (t - 1)) 3 0 1
    (by norm_num) le_rfl
    (fun i t _ => by
      have := ((hasDerivAt_id t).sub_const 1).exp.const_mul (hjbIn.grid i)
      simpa using this)
    (fun i s hs t ht => by
      have hle : ∀ a b : ℝ, a ≤ b → b ≤ 1 → Real.exp (b - 1) - Real.exp (a - 1) ≤ 1 * (b - a) := by
        intro a b hab hb
        have e1 : Real.exp (a - 1) = Real.exp (b - 1) * Real.exp (a - b) := by rw [← Real.exp_add]; congr 1; ring
        have e2 := Real.add_one_le_exp (a - b)
        have e3 : Real.exp (b - 1) ≤ 1 := Real.exp_le_one_iff.2 (by linarith)
        have e4 := Real.exp_pos (b - 1)
        rw [e1]
        nlinarith
      have key : |Real.exp (s - 1) - Real.exp (t - 1)| ≤ |s - t| := by
        have hs1 : s ≤ 1 := hs.2
        have ht1 : t ≤ 1 := ht.2
        rcases le_total s t with h | h
        · rw [abs_sub_comm, abs_sub_comm s, abs_of_nonneg (sub_nonneg.2 (Real.exp_le_exp.2 (by linarith))),
            abs_of_nonneg (sub_nonneg.2 h)]
          linarith [hle s t h ht1]
        · rw [abs_of_nonneg (sub_nonneg.2 (Real.exp_le_exp.2 (by linarith))), abs_of_nonneg (sub_nonneg.2 h)]
          linarith [hle t s h hs1]
      rw [← mul_sub, abs_mul]
      nlinarith [hg i, abs_nonneg (hjbIn.grid i), abs_nonneg (s - t), abs_nonneg (Real.exp (s - 1) - Real.exp (t - 1))])
    (fun t _ x _ => by simpa using (hasDerivAt_id x).mul_const (Real.exp (t - 1)))
    (fun t _ x _ y _ => by simp)
    (fun i u => by show |-(hjbIn.grid i)| ≤ 1; rw [abs_neg]; exact hg i)
    (fun t _ i => by
      constructor
      · exact ⟨0, by simp [hjbIn, hjbU]; ring⟩
      · rintro _ ⟨u, rfl⟩
        have : (0 : ℝ) ≤ ((u : ℕ) : ℝ) := Nat.cast_nonneg _
        simp only [hjbIn, hjbU]
        linarith)
    (fun i => by simp [hjbIn])
    (C104_pointwise (fun x _ => -x) id).1 (C104_pointwise (fun _ u => u) id).1 (C104_pointwise (fun a _ => a) fun x => x).2 (tensV_is hjbIn.grid) (tensV_is hjbU)
  refine ⟨t, h1, h2, fun k hk i => ?_⟩
  have := h3 k hk i
  norm_num [hjbIn] at this ⊢
  exact this

/-- `C109_upwind_model`: at the last of three states, `x = 1`, with two blocks of one step the value `-9/4` is above `-exp 1`. -/
example : ∃ (t : TensModel ℝ) (V : Tens ℝ), tensUpwindModel 3 2 = .ok t ∧
    tensSeqBwPassUpwind t.f t.L t.LT t.T 2 1 t.x_grid t.u_grid = .ok V ∧ -(Real.exp 1 * 1) ≤ V.val [0, 2] := by
  obtain ⟨t, V, h1, h2, -, h3⟩ := C109_upwind_model 0 0 2 1 (by norm_num) (by norm_num)
  have hg : t.x_grid.val [2] = 1 := by
    obtain ⟨t', e, h, -⟩ := (C108_models (K := ℝ) (n := 3) (m := 2) (by norm_num) (by norm_num)).2.2
    obtain rfl : t = t' := Except.ok.inj (h1.symm.trans e)
    exact (h.x_grid.2 2).trans (by norm_num [upwindModel, linspace])
  have hv := C77_value 1 1 zero_le_one
  rw [if_pos zero_le_one] at hv
  refine ⟨t, V, h1, h2, (h3 0 (by norm_num) 2 _ 1 (by norm_num) ?_).1⟩
  show IsLeast {c | ∃ xf, UpwindReach 1 (t.x_grid.val [2]) xf ∧ -xf = c} _
  rw [hg]
  exact hv

end Verif
