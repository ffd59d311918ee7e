import Verif.Proof.ModelsTensor
import Verif.Props.PararealTensor
import Verif.Props.CLQTConv
import Verif.Props.HJBTensor

/-! Property C108: the tensors of `linear_model_tf.py` and `cnonlin_models_tf.py`, and what the solvers compute from them. -/

namespace Verif

open Matrix

variable {n m : ℕ} {K : Type}

/-- C108 (tracking problem): the tensors of `get_clqt` hold the initial state, the terminal cost and the functions of the problem of numpy. -/
theorem C108_linear : tensGetClqt.1.IsV linGetCLQT.2 ∧ tensGetClqt.2.1.Holds linGetCLQT.1 ∧ tensGetClqt.2.2.Holds linGetCLQT.1 := by
  rw [← C74_continuous.1]
  exact getClqt_rep

/-- C108 (grid models): with at least one state and control the tensors of the three models hold the models of numpy; the running cost of the
upwind model is a single number for all states and controls. -/
theorem C108_models [Field K] [LinearOrder K] [IsStrictOrderedRing K] (hn : n ≠ 0) (hm : m ≠ 0) :
    (∃ t : TensModel K, tensLinearModel n m = .ok t ∧ t.Holds (linearModel n m : CModel n m K)) ∧
    (∃ t : TensModel K, tensVelocityModel n m = .ok t ∧ t.Holds (velocityModel n m : CModel n m K)) ∧
    (∃ t : TensModel K, tensUpwindModel n m = .ok t ∧ t.Holds (upwindModel n m : CModel n m K) ∧
      ∀ a b, t.L a b = .ok (Tens.const [] 0)) := by
  obtain ⟨h1, h2, h3⟩ := (C77_models (K := K) n m).1 hn hm
  refine ⟨?_, ?_, ?_⟩
  · have := model_rep (n := n) (m := m) (1 : K) (-2) 2 (-2) 2 (C104_pointwise (fun x u : K => x + u) id).1
      (quad_pointwise (fun v : K => 1 / 2 * 1 * v ^ 2) fun v => 1 / 2 * 1 * v ^ 2).broadcast
      (C104_pointwise (fun x u : K => x + u) fun v => 1 / 2 * 2 * v ^ 2).2
    have h1' : (do
        let x ← tfLinspace (-2) 2 n
        let u ← tfLinspace (-2) 2 m
        return ⟨fun x u : K => x + u, fun x u => 1 / 2 * 1 * x ^ 2 + 1 / 2 * 1 * u ^ 2, fun v => 1 / 2 * 2 * v ^ 2, 1, x, u⟩ : Py (CModel n m K)) =
        .ok (linearModel n m) := h1
    rw [h1'] at this
    exact this
  · have := model_rep (n := n) (m := m) (1 : K) (-3) 3 (-2) 2
      (f := fun x u : Tens K => ((x.map fun v => v ^ 2).map fun v => 1 - 1 / 10 * v).bin (· + ·) u) (f' := fun x u => 1 - 1 / 10 * x ^ 2 + u)
      (quad_pointwise (fun v : K => 1 - 1 / 10 * v ^ 2) fun v => v)
      (quad_pointwise (fun v : K => 1 / 2 * 1 * v ^ 2) fun v => 1 / 2 * 1 * v ^ 2).broadcast
      (C104_pointwise (fun x u : K => x + u) fun v => 1 / 2 * 4 * v ^ 2).2
    have h2' : (do
        let x ← tfLinspace (-3) 3 n
        let u ← tfLinspace (-2) 2 m
        return ⟨fun x u : K => 1 - 1 / 10 * x ^ 2 + u, fun x u => 1 / 2 * 1 * x ^ 2 + 1 / 2 * 1 * u ^ 2, fun v => 1 / 2 * 4 * v ^ 2, 1, x, u⟩ :
        Py (CModel n m K)) = .ok (velocityModel n m) := h2
    rw [h2'] at this
    exact this
  · have := model_rep (n := n) (m := m) (1 : K) (-1) 1 0 1 (L := fun _ _ => .ok (Tens.const [] 0)) (L' := fun _ _ => 0) mul_pointwise
      (fun a b _ => ⟨_, rfl, .inr ⟨rfl, fun _ _ => rfl⟩⟩) (C104_pointwise (fun x u : K => x + u) fun v => -v).2
    have h3' : (do
        let x ← tfLinspace (-1) 1 n
        let u ← tfLinspace 0 1 m
        return ⟨fun x u : K => u * x, fun _ _ => 0, fun v => -v, 1, x, u⟩ : Py (CModel n m K)) = .ok (upwindModel n m) := h3
    rw [h3'] at this
    obtain ⟨t, e, h⟩ := this
    refine ⟨t, e, h, ?_⟩
    obtain ⟨x, -, e⟩ := bind_ok.1 e
    obtain ⟨u, -, e⟩ := bind_ok.1 e
    cases e
    exact fun _ _ => rfl

/-- C108 (errors): without states or without controls the three models raise an error. -/
theorem C108_empty [Field K] (h : n = 0 ∨ m = 0) : (tensLinearModel n m : Py (TensModel K)) = .error .valueError ∧
    (tensVelocityModel n m : Py (TensModel K)) = .error .valueError ∧ (tensUpwindModel n m : Py (TensModel K)) = .error .valueError := by
  unfold tensLinearModel tensVelocityModel tensUpwindModel
  by_cases hn : n = 0
  · subst hn
    exact ⟨rfl, rfl, rfl⟩
  · obtain rfl : m = 0 := h.resolve_left hn
    have e : ∀ a b : K, ∃ t, Tens.linspace a b n = .ok t := fun a b => let ⟨t, _, h, _⟩ := (linspace_rep a b n).2 hn; ⟨t, h⟩
    obtain ⟨t1, e1⟩ := e (-2) 2
    obtain ⟨t2, e2⟩ := e (-3) 3
    obtain ⟨t3, e3⟩ := e (-1) 1
    exact ⟨bstep e1 rfl, bstep e2 rfl, bstep e3 rfl⟩

/-- C108 (finite differences): on the tensors of a model with at least two states and one control, also if its running cost is a single number,
the finite difference passes raise what the numpy passes raise and otherwise return their value functions. -/
theorem C108_passes [Field K] [LinearOrder K] [NeZero m] {t : TensModel K} {M : CModel (n + 2) m K} (h : t.Holds M) (blocks steps : ℕ) :
    (∀ e, (M.hjb blocks steps).seqBackwardPassSymfd M.u_grid = .error e →
      tensSeqBwPassSymfd t.f t.L t.LT t.T blocks steps t.x_grid t.u_grid = .error e) ∧
    (∀ l, (M.hjb blocks steps).seqBackwardPassSymfd M.u_grid = .ok l →
      ∃ r, tensSeqBwPassSymfd t.f t.L t.LT t.T blocks steps t.x_grid t.u_grid = .ok r ∧ r.IsVs l) ∧
    (∀ e, (M.hjb blocks steps).seqBackwardPassUpwind M.u_grid = .error e →
      tensSeqBwPassUpwind t.f t.L t.LT t.T blocks steps t.x_grid t.u_grid = .error e) ∧
    (∀ l, (M.hjb blocks steps).seqBackwardPassUpwind M.u_grid = .ok l →
      ∃ r, tensSeqBwPassUpwind t.f t.L t.LT t.T blocks steps t.x_grid t.u_grid = .ok r ∧ r.IsVs l) := by
  have hc := costOn_broadcast h.x_grid h.u_grid h.L
  have h1 := symfd_rep_of (M.hjb blocks steps) h.f h.LT h.x_grid h.u_grid hc
  have h2 := upwind_rep_of (M.hjb blocks steps) h.f h.LT h.x_grid h.u_grid hc
  rw [(C43_tf (M.hjb blocks steps) M.u_grid).2, show (M.hjb blocks steps).T = t.T from h.T.symm] at h1
  rw [(C43_tf (M.hjb blocks steps) M.u_grid).1, show (M.hjb blocks steps).T = t.T from h.T.symm] at h2
  exact ⟨h1.1, h1.2, h2.1, h2.2⟩

/-- C108 (block values): on a tensor of grid points `upwind_model_block_V` returns a square tensor; from a non-negative point the entry is zero at
the points that can be reached in the time of a block and `inf_value` elsewhere; from a negative point every entry is `inf_value`. -/
theorem C108_block_V (inf dt : ℝ) (hdt : 0 ≤ dt) {tg : Tens ℝ} {g : Fin n → ℝ} (hg : tg.IsV g) :
    ∃ t, tensUpwindBlockV inf dt tg = .ok t ∧ t.shape = [n, n] ∧ ∀ i k : Fin n,
      (0 ≤ g i → (UpwindReach dt (g i) (g k) → t.val [i, k] = 0) ∧ (¬UpwindReach dt (g i) (g k) → t.val [i, k] = inf)) ∧
      (g i < 0 → t.val [i, k] = inf) := by
  obtain ⟨t, h1, h2⟩ := blockV_rep inf dt hg
  refine ⟨t, h1, h2.1, fun i k => ?_⟩
  obtain ⟨h3, h4, -⟩ := C53_tf inf dt hdt g i k
  rw [h2.2 i k]
  refine ⟨fun h => ?_, h4⟩
  rw [h3 h]
  exact C53_numpy inf dt hdt g i k

/-- The numpy passes with their default values as passes of `clqt_tf.py`. -/
theorem seq_tf (P : CLQT n m ℝ) (hU : ∀ t, (P.U t)ᵀ = P.U t) {N : ℕ} (hN : 0 < N) {z : Bool} {x0 : Fin n → ℝ} {r : BwResult n m ℝ}
    {us : List (Fin m → ℝ)} {xs : List (Fin n → ℝ)} (hr : P.seqBackwardPass N none none none none = .ok r) (hK : r.Kx_list.length = N)
    (hd : r.d_list.length = N) (hf : P.seqForwardPass x0 r.Kx_list r.d_list none none z = .ok (us, xs)) :
    P.tfSeqBackward N (P.T / N) 0 (P.HTᵀ * P.XT * P.HT) ((P.HTᵀ * P.XT) *ᵥ P.rT) = .ok r ∧
      P.tfSeqForward x0 r.Kx_list r.d_list (P.T / N) 0 z = .ok (xs, us) := by
  have hdt := P.dtSeq_none (N := N) (by omega)
  refine ⟨(C71_seq_backward P hU N _ _ _ _ r).1 ?_, (C71_seq_forward P x0 _ _ (hK.trans hd.symm) (fun e => ?_) _ _ z us xs).2 ?_⟩
  · obtain ⟨dt, e, hσ⟩ := CLQT.seqBackward_ok.1 hr
    rw [hdt, Except.ok.injEq] at e
    subst e
    exact CLQT.seqBackward_ok.2 ⟨_, rfl, hσ⟩
  · rw [e] at hd
    simp at hd
    omega
  · rw [← hf]
    unfold CLQT.seqForwardPass
    dsimp only
    rw [hK, hdt]
    rfl

/-- C108 (convergence): for continuous data with positive definite symmetric `U` and semidefinite weights there is an optimal trajectory such
that for every accuracy, with enough steps in total, the tensors of states and controls are that near to it that are returned by
`clqt_seq_backwardpass` and `clqt_seq_forwardpass`, with or without zero-order hold, and by `pclqt_backwardforwardpass` with at least
`blocks - 1` iterations. -/
theorem C108_converges (P : CLQT n m ℝ) {p : TensCLQT ℝ} (hp : p.Holds P) {d : TensFinal ℝ} (hd : d.Holds P) (h0 : 0 < P.T)
    (hP : P.ContData 0 P.T) (hU : ∀ t, (P.U t)ᵀ = P.U t ∧ IsPD (P.U t)) (hX : ∀ t ∈ Set.Icc 0 P.T, IsPSD (P.X t)) (hXT : IsPSD P.XT)
    {x0 : Tens ℝ} {x0' : Fin n → ℝ} (hx : x0.IsV x0') :
    ∃ x u, P.IsTraj 0 x0' x u ∧ (∀ x' u', P.IsTraj 0 x0' x' u' → P.totalCost 0 x u ≤ P.totalCost 0 x' u') ∧
      ∀ ε > 0, ∃ N0 : ℕ,
        (∀ N ≥ N0, ∀ u_zoh, ∃ dt t0 ST vT tb tx tu, tensClqtSeqDefaults d N = .ok (dt, t0, ST, vT) ∧
          tensClqtBwPass p N dt t0 ST vT = .ok tb ∧ tensClqtSeqForward p u_zoh x0 tb.Kxs tb.ds dt t0 = .ok (tx, tu) ∧
          tx.Near (N + 1) (P.T / N) x ε ∧ tu.Near N (P.T / N) u ε) ∧
        (∀ blocks steps niter, 0 < niter → blocks ≤ niter + 1 → N0 ≤ blocks * steps →
          ∃ tx tu, tensPrBackwardForward p d blocks steps niter x0 = .ok (tx, tu) ∧
            tx.Near (blocks * steps + 1) (P.T / (blocks * steps : ℕ)) x ε ∧ tu.Near (blocks * steps) (P.T / (blocks * steps : ℕ)) u ε) := by
  obtain ⟨x, u, h1, h2, h3⟩ := C85_control P h0 hP hX hXT x0'
  refine ⟨x, u, h1, h2, fun ε hε => ?_⟩
  obtain ⟨N0, hN0, h⟩ := h3 ε hε
  refine ⟨N0, fun N hN z => ?_, fun blocks steps niter hn hb hN => ?_⟩
  · obtain ⟨r, us, xs, hr, hK, hl, hf, hu', hx'⟩ := h N hN z
    obtain ⟨hb, hf⟩ := seq_tf P (fun t => (hU t).1) (by omega) hr hK hl hf
    obtain ⟨⟨ST, vT, e0, hS, hv⟩, -⟩ := C106_defaults P hd 0 N
    rw [Matrix.mulVec_mulVec] at hv
    have r1 := (clqtBwPass_rep hp N (P.T / N) 0 hS hv).mono (R' := fun (t : TensBw ℝ) r => t.Holds r) fun a b h => h.holds
    rw [hb] at r1
    obtain ⟨tb, e1, hB⟩ := r1
    have r2 := (clqtSeqForward_rep hp z (P.T / N) 0 hx hB.Kxs hB.ds).mono
      (R' := fun t r => t.1.HoldsV r.1 ∧ t.2.HoldsV r.2) fun a b h => ⟨h.xs.2.holdsV, h.us.2.holdsV⟩
    rw [hf] at r2
    obtain ⟨⟨tx, tu⟩, e2, h5, h6⟩ := r2
    exact ⟨_, _, ST, vT, tb, tx, tu, e0, e1, e2, HoldsV.near h5 hx', HoldsV.near h6 hu'⟩
  · have hB : 0 < blocks := by
      rcases Nat.eq_zero_or_pos blocks with h | h
      · subst h; omega
      · exact h
    have hs : 0 < steps := by
      rcases Nat.eq_zero_or_pos steps with h | h
      · subst h; omega
      · exact h
    obtain ⟨r, us, xs, e1, -, -, e2, hu', hx'⟩ := h _ hN false
    obtain ⟨bw, fw, e3, -, ⟨tx, tu, us', xs', e4, h5, h6, e5⟩, -⟩ := C107_pipelines P hp hd hU hB hs hn hb hx
    rw [e1] at e3
    cases e3
    rw [e2] at e5
    cases e5
    exact ⟨tx, tu, e4, HoldsV.near h5 hx', HoldsV.near h6 hu'⟩

/-- C108 (the tracking problem): the problem of `get_clqt` has an optimal trajectory from its initial state, and the sequential passes and the
parareal passes on its tensors, with enough steps and iterations, return tensors as near to it as wanted. -/
theorem C108_tracking : ∃ x u, linGetCLQT.1.IsTraj 0 linGetCLQT.2 x u ∧
    (∀ x' u', linGetCLQT.1.IsTraj 0 linGetCLQT.2 x' u' → linGetCLQT.1.totalCost 0 x u ≤ linGetCLQT.1.totalCost 0 x' u') ∧
    ∀ ε > 0, ∃ N0 : ℕ,
      (∀ N ≥ N0, ∀ u_zoh, ∃ dt t0 ST vT tb tx tu, tensClqtSeqDefaults tensGetClqt.2.1 N = .ok (dt, t0, ST, vT) ∧
        tensClqtBwPass tensGetClqt.2.2 N dt t0 ST vT = .ok tb ∧
        tensClqtSeqForward tensGetClqt.2.2 u_zoh tensGetClqt.1 tb.Kxs tb.ds dt t0 = .ok (tx, tu) ∧
        tx.Near (N + 1) (50 / N) x ε ∧ tu.Near N (50 / N) u ε) ∧
      (∀ blocks steps niter, 0 < niter → blocks ≤ niter + 1 → N0 ≤ blocks * steps →
        ∃ tx tu, tensPrBackwardForward tensGetClqt.2.2 tensGetClqt.2.1 blocks steps niter tensGetClqt.1 = .ok (tx, tu) ∧
          tx.Near (blocks * steps + 1) (50 / (blocks * steps : ℕ)) x ε ∧ tu.Near (blocks * steps) (50 / (blocks * steps : ℕ)) u ε) := by
  obtain ⟨hx, hd, hp⟩ := C108_linear
  obtain ⟨-, -, hT, -, -, hU, -⟩ := C74_continuous
  have h0 : 0 < linGetCLQT.1.T := by rw [hT]; norm_num
  have := C108_converges linGetCLQT.1 hp hd h0 linGetCLQT_contData (fun t => ⟨(hU t).2.2.2, (hU t).2.2.1⟩)
    (fun t _ => (isPSD_smul_one _ zero_le_one)) (isPSD_smul_one _ zero_le_one) hx
  rw [hT] at this
  exact this

/-! ### Examples -/

/-- `C108_models`, `C108_passes`: the upwind model with three states and two controls. -/
example : ∃ t : TensModel ℚ, tensUpwindModel (1 + 2) 2 = .ok t ∧ t.Holds (upwindModel (1 + 2) 2 : CModel (1 + 2) 2 ℚ) :=
  let ⟨t, h1, h2, _⟩ := (C108_models (K := ℚ) (n := 1 + 2) (m := 2) (by norm_num) (by norm_num)).2.2
  ⟨t, h1, h2⟩

/-- The grids of the linear model with five states: the second state is `-1`. -/
example : (match (tensLinearModel 5 3 : Py (TensModel ℚ)) with
    | .ok t => (t.x_grid.val [1], t.u_grid.val [1], t.T)
    | .error _ => (0, 0, 0)) = (-1, 0, 1) := by decide +kernel

/-- The upwind pass on the tensors of the upwind model with a scalar running cost: one block of two steps with three states and two controls. -/
example : (match (tensUpwindModel 3 2 : Py (TensModel ℚ)) with
    | .ok t => (match tensSeqBwPassUpwind t.f t.L t.LT t.T 1 2 t.x_grid t.u_grid with
      | .ok V => (V.shape, V.val [0, 0], V.val [0, 1], V.val [0, 2])
      | .error _ => ([], 0, 0, 0))
    | .error _ => ([], 0, 0, 0)) = ([2, 3], 1, 0, -9/4) := by decide +kernel

/-- `C108_empty`: no states and three controls. -/
example : (0 : ℕ) = 0 ∨ (3 : ℕ) = 0 := .inl rfl

/-- `C108_block_V`: from `0` the point `0` can be reached, and from `-1` the code gives `inf_value` for every point. -/
example : ∃ t, tensUpwindBlockV 1000 1 (Tens.ofList [-1, 0, 1]) = .ok t ∧ t.val [0, 0] = 1000 ∧ t.val [1, 1] = 0 := by
  have hg : (Tens.ofList [-1, 0, 1] : Tens ℝ).IsV ![-1, 0, 1] := ⟨rfl, fun x => by fin_cases x <;> rfl⟩
  obtain ⟨t, h1, -, h2⟩ := C108_block_V 1000 1 zero_le_one hg
  refine ⟨t, h1, (h2 0 0).2 (by norm_num), ((h2 1 1).1 (by norm_num)).1 ?_⟩
  exact (C53_tf 1000 1 zero_le_one ![-1, 0, 1] 1 1).2.2

/-- `C108_converges`: its hypotheses for the problem of `get_clqt`. -/
example : tensGetClqt.2.2.Holds linGetCLQT.1 ∧ tensGetClqt.2.1.Holds linGetCLQT.1 ∧ 0 < linGetCLQT.1.T ∧ linGetCLQT.1.ContData 0 linGetCLQT.1.T ∧
    IsPSD linGetCLQT.1.XT ∧ tensGetClqt.1.IsV linGetCLQT.2 :=
  ⟨C108_linear.2.2, C108_linear.2.1, by rw [C74_continuous.2.2.1]; norm_num, linGetCLQT_contData, isPSD_smul_one _ zero_le_one, C108_linear.1⟩

end Verif
