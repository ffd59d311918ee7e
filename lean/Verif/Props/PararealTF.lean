import Verif.Proof.PararealTFAbc
import Verif.Props.Parareal
import Verif.Props.CLQTTF

/-! Property C72: Parareal in TensorFlow. -/

namespace Verif

open Matrix

variable {n m : ℕ} {K : Type} [Field K] [LinearOrder K] [IsStrictOrderedRing K]

/-- C72 (backward pass): with symmetric `U` and at least one block, step and iteration the TensorFlow pass returns what the
numpy pass returns with the same number of iterations; with positive definite `U` one returns exactly when the other does. -/
theorem C72_backward (P : CLQT n m K) (hU : ∀ t, (P.U t)ᵀ = P.U t) (blocks steps niter : ℕ) (hB : blocks ≠ 0) (hs : steps ≠ 0)
    (hn : niter ≠ 0) (r : BwResult n m K) :
    (P.prBackwardPass blocks steps (some niter) = .ok r → P.tfPrBackward blocks steps niter = .ok r) ∧
    ((∀ t, IsPD (P.U t)) →
      (P.tfPrBackward blocks steps niter = .ok r ↔ P.prBackwardPass blocks steps (some niter) = .ok r)) :=
  ⟨fun h => ((CLQT.solvRel_sym hU).prBackward hB hs hn).fwdEq rfl h, fun hP =>
    ⟨fun h => ((CLQT.solvRel_pd (fun t => ⟨hU t, hP t⟩) false).prBackward hB hs hn).bwdEq rfl h,
      fun h => ((CLQT.solvRel_sym hU).prBackward hB hs hn).fwdEq rfl h⟩⟩

/-- C72 (backward pass, finite termination): with positive definite `U` the pass completes, and with at least `blocks - 1`
iterations its tensors are those of the sequential TensorFlow pass on the fine grid. -/
theorem C72_backward_exact (P : CLQT n m K) (hU : ∀ t, (P.U t)ᵀ = P.U t ∧ IsPD (P.U t)) (blocks steps niter : ℕ)
    (hB : blocks ≠ 0) (hs : steps ≠ 0) (hn : niter ≠ 0) :
    ∃ r, P.tfPrBackward blocks steps niter = .ok r ∧ (blocks ≤ niter + 1 →
      P.tfSeqBackward (blocks * steps) (P.tfSeqDefaults (blocks * steps)).1 (P.tfSeqDefaults (blocks * steps)).2.1
        (P.tfSeqDefaults (blocks * steps)).2.2.1 (P.tfSeqDefaults (blocks * steps)).2.2.2 = .ok r) := by
  obtain ⟨r, hr⟩ := (C37_completes P hU blocks steps (some niter)).1 ⟨hB, hs⟩
  refine ⟨r, (C72_backward P (fun t => (hU t).1) blocks steps niter hB hs hn r).1 hr, fun h => ?_⟩
  have h1 := C37_exact P blocks steps (some niter) r hr h
  rw [(C71_defaults P 1 (blocks * steps) false (by omega) (Nat.mul_ne_zero hB hs)).1] at h1
  exact (C71_seq_backward P (fun t => (hU t).1) _ _ _ _ _ r).1 h1

/-- C72 (backward pass, partial results): after `k` iterations the last `k + 1` blocks of the returned tensors are those of the
sequential TensorFlow pass. -/
theorem C72_backward_blocks (P : CLQT n m K) (hU : ∀ t, (P.U t)ᵀ = P.U t ∧ IsPD (P.U t)) (blocks steps k : ℕ)
    (hB : blocks ≠ 0) (hs : steps ≠ 0) (hk : k ≠ 0) (r r' : BwResult n m K) (h : P.tfPrBackward blocks steps k = .ok r)
    (hr : P.tfSeqBackward (blocks * steps) (P.T / ((blocks * steps : ℕ) : K)) 0 (P.HTᵀ * (P.XT * P.HT)) (P.HTᵀ *ᵥ (P.XT *ᵥ P.rT)) =
      .ok r') (j : ℕ) (hj : (blocks - 1 - k) * steps ≤ j) :
    r.S_list[j]? = r'.S_list[j]? ∧ r.v_list[j]? = r'.v_list[j]? ∧ r.Kx_list[j]? = r'.Kx_list[j]? ∧
      r.d_list[j]? = r'.d_list[j]? := by
  have h1 := ((C72_backward P (fun t => (hU t).1) blocks steps k hB hs hk r).2 fun t => (hU t).2).1 h
  have h2 := ((C71_seq_backward P (fun t => (hU t).1) _ _ _ _ _ r').2 fun t => (hU t).2).1 hr
  refine C37_blocks P blocks steps k r r' h1 ?_ j hj
  rw [(C71_defaults P 1 (blocks * steps) false (by omega) (Nat.mul_ne_zero hB hs)).1]
  exact h2

/-- C72 (forward pass): on `blocks * steps` gains the TensorFlow pass returns exactly the states and controls of the numpy
pass. -/
theorem C72_forward (P : CLQT n m K) (blocks steps niter : ℕ) (hB : blocks ≠ 0) (hs : steps ≠ 0) (hn : niter ≠ 0) (x0 : Fin n → K)
    (Kxs : List (Matrix (Fin m) (Fin n) K)) (ds : List (Fin m → K)) (hK : Kxs.length = blocks * steps)
    (hd : ds.length = blocks * steps) (u_zoh : Bool) (us : List (Fin m → K)) (xs : List (Fin n → K)) :
    P.tfPrForward blocks steps niter x0 Kxs ds u_zoh = .ok (xs, us) ↔
      P.prForwardPass blocks steps x0 Kxs ds u_zoh (some niter) = .ok (us, xs) := by
  obtain ⟨κ, rfl, rfl⟩ := exists_gains hK hd
  constructor
  · intro h
    obtain ⟨x, hx, e⟩ := (P.tfPrForward_rel false u_zoh hB hs hn x0 κ).bwd rfl h
    obtain ⟨a, b⟩ := x
    simp only [Prod.swap_prod_mk, Prod.mk.injEq] at e
    rw [hx, e.1, e.2]
  · intro h
    obtain ⟨y, hy, e⟩ := (P.tfPrForward_rel true u_zoh hB hs hn x0 κ).fwd rfl h
    rw [hy, ← e]
    rfl

/-- C72 (forward pass, finite termination): with at least `blocks - 1` iterations the states and controls are those of the
sequential TensorFlow pass on the fine grid. -/
theorem C72_forward_exact (P : CLQT n m K) (blocks steps niter : ℕ) (hB : blocks ≠ 0) (hs : steps ≠ 0) (hn : niter ≠ 0)
    (x0 : Fin n → K) (Kxs : List (Matrix (Fin m) (Fin n) K)) (ds : List (Fin m → K)) (hK : Kxs.length = blocks * steps)
    (hd : ds.length = blocks * steps) (u_zoh : Bool) (hb : blocks ≤ niter + 1) :
    ∃ r, P.tfPrForward blocks steps niter x0 Kxs ds u_zoh = .ok r ∧
      P.tfSeqForward x0 Kxs ds (P.T / ((blocks * steps : ℕ) : K)) 0 u_zoh = .ok r := by
  have h0 : blocks * steps ≠ 0 := Nat.mul_ne_zero hB hs
  obtain ⟨⟨us, xs⟩, h1, h2⟩ := C38_exact P blocks steps hB hs x0 Kxs ds hK hd u_zoh (some niter) hb
  refine ⟨(xs, us), (C72_forward P blocks steps niter hB hs hn x0 Kxs ds hK hd u_zoh us xs).2 h1, ?_⟩
  have hne : ds ≠ [] := by
    rintro rfl
    exact h0 hd.symm
  refine (C71_seq_forward P x0 Kxs ds (hK.trans hd.symm) hne _ _ u_zoh us xs).2 ?_
  obtain ⟨κ, rfl, rfl⟩ := exists_gains hK hd
  unfold gainLists at h2 ⊢
  simp only [CLQT.seqForward_ok, CLQT.dtSeq_some, Except.ok.injEq, exists_eq_left', Option.getD_some, Option.getD_none] at h2 ⊢
  obtain ⟨dt, hdt, h2⟩ := h2
  unfold CLQT.dtSeq at hdt
  rw [pr_div h0, Except.ok.injEq] at hdt
  rwa [hdt]

/-- C72 (forward-backward pass): as for the backward pass. -/
theorem C72_fwdbwd (P : CLQT n m K) (hU : ∀ t, (P.U t)ᵀ = P.U t) (blocks steps niter : ℕ) (hB : blocks ≠ 0) (hs : steps ≠ 0)
    (hn : niter ≠ 0) (x0 : Fin n → K) (r : AbcResult n K) :
    (P.prFwdBwdPass blocks steps x0 (some niter) = .ok r → P.tfPrFwdBwd blocks steps niter x0 = .ok r) ∧
    ((∀ t, IsPD (P.U t)) →
      (P.tfPrFwdBwd blocks steps niter x0 = .ok r ↔ P.prFwdBwdPass blocks steps x0 (some niter) = .ok r)) :=
  ⟨fun h => ((CLQT.solvRel_sym hU).prFwdBwd hB hs hn x0).fwdEq rfl h, fun hP =>
    ⟨fun h => ((CLQT.solvRel_pd (fun t => ⟨hU t, hP t⟩) false).prFwdBwd hB hs hn x0).bwdEq rfl h,
      fun h => ((CLQT.solvRel_sym hU).prFwdBwd hB hs hn x0).fwdEq rfl h⟩⟩

/-- C72 (forward-backward pass, finite termination): as for the backward pass; the sequential pass starts from `A = 0`,
`b = x0`, `C = 0`. -/
theorem C72_fwdbwd_exact (P : CLQT n m K) (hU : ∀ t, (P.U t)ᵀ = P.U t ∧ IsPD (P.U t)) (blocks steps niter : ℕ)
    (hB : blocks ≠ 0) (hs : steps ≠ 0) (hn : niter ≠ 0) (x0 : Fin n → K) :
    ∃ r, P.tfPrFwdBwd blocks steps niter x0 = .ok r ∧ (blocks ≤ niter + 1 →
      P.tfSeqFwdBwd (blocks * steps) (P.T / ((blocks * steps : ℕ) : K)) 0 0 x0 0 = .ok r) := by
  obtain ⟨r, hr⟩ := (C39_completes P hU blocks steps x0 (some niter)).1 ⟨hB, hs⟩
  refine ⟨r, (C72_fwdbwd P (fun t => (hU t).1) blocks steps niter hB hs hn x0 r).1 hr, fun h => ?_⟩
  have h1 := C39_exact P blocks steps x0 (some niter) r hr h
  refine (C71_seq_fwdbwd P (fun t => (hU t).1) (blocks * steps) _ _ x0 _ _ _ r).1 ?_
  simp only [CLQT.seqFwdBwd_ok, CLQT.dtSeq_some, Except.ok.injEq, exists_eq_left', Option.getD_some, Option.getD_none] at h1 ⊢
  obtain ⟨dt, hdt, h1⟩ := h1
  unfold CLQT.dtSeq at hdt
  rw [pr_div (Nat.mul_ne_zero hB hs), Except.ok.injEq] at hdt
  rwa [hdt]

omit [LinearOrder K] [IsStrictOrderedRing K] in
theorem bwLists_lengths (N : ℕ) (σ : ℕ → CVal n K) (κ : ℕ → Matrix (Fin m) (Fin n) K × (Fin m → K)) :
    (bwLists N σ κ).Kx_list.length = N ∧ (bwLists N σ κ).d_list.length = N ∧ (bwLists N σ κ).S_list.length = N + 1 ∧
      (bwLists N σ κ).v_list.length = N + 1 := by
  simp [bwLists]

/-- C72 (pipelines): with positive definite `U` and at least `blocks - 1` iterations both pipelines return the states and
controls of the corresponding sequential TensorFlow passes on the fine grid. -/
theorem C72_pipelines (P : CLQT n m K) (hU : ∀ t, (P.U t)ᵀ = P.U t ∧ IsPD (P.U t)) (blocks steps niter : ℕ)
    (hB : blocks ≠ 0) (hs : steps ≠ 0) (hn : niter ≠ 0) (hb : blocks ≤ niter + 1) (x0 : Fin n → K) :
    ∃ bw fw, P.tfSeqBackward (blocks * steps) (P.tfSeqDefaults (blocks * steps)).1 (P.tfSeqDefaults (blocks * steps)).2.1
        (P.tfSeqDefaults (blocks * steps)).2.2.1 (P.tfSeqDefaults (blocks * steps)).2.2.2 = .ok bw ∧
      P.tfSeqFwdBwd (blocks * steps) (P.T / ((blocks * steps : ℕ) : K)) 0 0 x0 0 = .ok fw ∧
      (∃ r, P.tfPrBackwardForward blocks steps niter x0 = .ok r ∧
        P.tfSeqForward x0 bw.Kx_list bw.d_list (P.T / ((blocks * steps : ℕ) : K)) 0 = .ok r) ∧
      ∀ r, P.tfPrBackwardBwdFwd blocks steps niter x0 = .ok r ↔ clqtTfCombine bw fw = .ok r := by
  have hbind : ∀ {α β : Type} (a : α) (f : α → Py β), ((Except.ok a : Py α) >>= f) = f a := fun _ _ => rfl
  obtain ⟨bw, h1, h2⟩ := C72_backward_exact P hU blocks steps niter hB hs hn
  obtain ⟨fw, h3, h4⟩ := C72_fwdbwd_exact P hU blocks steps niter hB hs hn x0
  have h5 := C37_exact P blocks steps (some niter) bw
    (((C72_backward P (fun t => (hU t).1) blocks steps niter hB hs hn bw).2 fun t => (hU t).2).1 h1) hb
  obtain ⟨_, _, σ, κ, _, _, hbw⟩ := CLQT.seqBackward_ok.1 h5
  obtain ⟨l1, l2, -, -⟩ := bwLists_lengths (blocks * steps) σ κ
  rw [← hbw] at l1 l2
  refine ⟨bw, fw, h2 hb, h4 hb, ?_, fun r => ?_⟩
  · obtain ⟨r, h6, h7⟩ := C72_forward_exact P blocks steps niter hB hs hn x0 bw.Kx_list bw.d_list l1 l2 false hb
    refine ⟨r, ?_, h7⟩
    unfold CLQT.tfPrBackwardForward
    rw [h1, hbind]
    exact h6
  · unfold CLQT.tfPrBackwardBwdFwd
    rw [h1, hbind, h3, hbind]

/-- C72 (no iterations): without iterations the TensorFlow passes fail, whereas the numpy passes return the result of the coarse
start. -/
theorem C72_no_iterations (P : CLQT n m K) (hU : ∀ t, (P.U t)ᵀ = P.U t ∧ IsPD (P.U t)) (blocks steps : ℕ) (hB : blocks ≠ 0)
    (hs : steps ≠ 0) (x0 : Fin n → K) (Kxs : List (Matrix (Fin m) (Fin n) K)) (ds : List (Fin m → K))
    (hK : Kxs.length = blocks * steps) (hd : ds.length = blocks * steps) (u_zoh : Bool) :
    (P.tfPrBackward blocks steps 0 = .error .indexError ∧ ∃ r, P.prBackwardPass blocks steps (some 0) = .ok r) ∧
    (P.tfPrForward blocks steps 0 x0 Kxs ds u_zoh = .error .indexError ∧
      ∃ r, P.prForwardPass blocks steps x0 Kxs ds u_zoh (some 0) = .ok r) ∧
    (P.tfPrFwdBwd blocks steps 0 x0 = .error .indexError ∧ ∃ r, P.prFwdBwdPass blocks steps x0 (some 0) = .ok r) := by
  have hbind : ∀ {α β : Type} (a : α) (f : α → Py β), ((Except.ok a : Py α) >>= f) = f a := fun _ _ => rfl
  have hS : P.SolvRel true := CLQT.solvRel_sym fun t => (hU t).1
  have hp : ∀ {α : Type}, (pyLast ([] : List α)) = .error .indexError := rfl
  have hz : ∀ {α β : Type} (f : β → α → Py β) (b : β), tfScanFwdM f b [] = .ok [] := fun _ _ => rfl
  have hbe : ∀ {α β : Type} (e : PyErr) (f : α → Py β), ((Except.error e : Py α) >>= f) = .error e := fun _ _ => rfl
  refine ⟨⟨?_, (C37_completes P hU blocks steps (some 0)).1 ⟨hB, hs⟩⟩,
    ⟨?_, C38_completes P blocks steps hB hs x0 Kxs ds hK hd u_zoh (some 0)⟩,
    ⟨?_, (C39_completes P hU blocks steps x0 (some 0)).1 ⟨hB, hs⟩⟩⟩
  · obtain ⟨_, h⟩ := (C37_completes P hU blocks steps (some 0)).1 ⟨hB, hs⟩
    unfold CLQT.prBackwardPass at h
    obtain ⟨cur, hc, -⟩ := bind_ok.1 h
    have := (hS.prInitBackward hB).fwdEq rfl hc
    unfold CLQT.tfPrBackward
    simp only [this, hbind, List.range_zero, hz, hp, hbe]
  · obtain ⟨_, h⟩ := C38_completes P blocks steps hB hs x0 Kxs ds hK hd u_zoh (some 0)
    unfold CLQT.prForwardPass at h
    obtain ⟨cur, hc, -⟩ := bind_ok.1 h
    obtain ⟨κ, rfl, rfl⟩ := exists_gains hK hd
    have := (P.tfPrInitForward_rel true u_zoh hB hs x0 κ).fwdEq rfl hc
    unfold CLQT.tfPrForward
    simp only [this, hbind, List.range_zero, hz, hp, hbe]
  · obtain ⟨_, h⟩ := (C39_completes P hU blocks steps x0 (some 0)).1 ⟨hB, hs⟩
    unfold CLQT.prFwdBwdPass at h
    obtain ⟨cur, hc, -⟩ := bind_ok.1 h
    have := (hS.prInitFwdBwd hB x0).fwdEq rfl hc
    unfold CLQT.tfPrFwdBwd
    simp only [this, hbind, List.range_zero, hz, hp, hbe]

omit [IsStrictOrderedRing K] in
/-- C72 (number of gains): gains whose number is not `blocks * steps` are rejected. -/
theorem C72_gains (P : CLQT n m K) (blocks steps niter : ℕ) (x0 : Fin n → K) (Kxs : List (Matrix (Fin m) (Fin n) K))
    (ds : List (Fin m → K)) (u_zoh : Bool) (h : Kxs.length ≠ blocks * steps ∨ ds.length ≠ blocks * steps) :
    P.tfPrForward blocks steps niter x0 Kxs ds u_zoh = .error .valueError := by
  have hbind : ∀ {α β : Type} (a : α) (f : α → Py β), ((Except.ok a : Py α) >>= f) = f a := fun _ _ => rfl
  have hbe : ∀ {α β : Type} (e : PyErr) (f : α → Py β), ((Except.error e : Py α) >>= f) = .error e := fun _ _ => rfl
  unfold CLQT.tfPrForward CLQT.tfPrInitForward tfReshape
  by_cases h1 : Kxs.length = blocks * steps
  · rw [if_pos h1, if_neg (h.resolve_left fun h2 => h2 h1)]
    rfl
  · rw [if_neg h1]
    rfl

/-- C72 (number of gains, numpy): the numpy pass accepts the gains of `C72_gains`; on two gains for one step it uses only the
first. -/
theorem C72_gains_numpy : ∃ r, exGain.prForwardPass 1 1 ![1] [0, 1] [0, ![5]] false (some 1) = .ok r ∧
    exGain.prForwardPass 1 1 ![1] [0] [0] false (some 1) = .ok r ∧
    exGain.tfPrForward 1 1 1 ![1] [0, 1] [0, ![5]] = .error .valueError := by
  have h : (match exGain.prForwardPass 1 1 ![1] [0, 1] [0, ![5]] false (some 1), exGain.prForwardPass 1 1 ![1] [0] [0] false (some 1) with
    | .ok r, .ok r' => decide (r = r')
    | _, _ => false) = true := by decide +kernel
  revert h
  cases exGain.prForwardPass 1 1 ![1] [0, 1] [0, ![5]] false (some 1) with
  | error e => simp
  | ok r =>
    cases exGain.prForwardPass 1 1 ![1] [0] [0] false (some 1) with
    | error e => simp
    | ok r' =>
      intro h
      exact ⟨r, rfl, by rw [of_decide_eq_true h], C72_gains _ _ _ _ _ _ _ _ (Or.inl (by decide))⟩

/-- Example for C72: the problem `exCL` with three blocks of two steps and two iterations. -/
example : ∃ r, exCL.tfPrBackward 3 2 2 = .ok r ∧ exCL.prBackwardPass 3 2 (some 2) = .ok r := by
  obtain ⟨r, h, -⟩ := C72_backward_exact exCL exCL_U 3 2 2 (by decide) (by decide) (by decide)
  exact ⟨r, h, ((C72_backward exCL (fun t => (exCL_U t).1) 3 2 2 (by decide) (by decide) (by decide) r).2 fun t => (exCL_U t).2).1 h⟩

example (r r' : BwResult 2 1 ℚ) (h : exCL.tfPrBackward 4 2 1 = .ok r) (hr : exCL.tfSeqBackward (4 * 2) (exCL.T / ((4 * 2 : ℕ) : ℚ)) 0
    (exCL.HTᵀ * (exCL.XT * exCL.HT)) (exCL.HTᵀ *ᵥ (exCL.XT *ᵥ exCL.rT)) = .ok r') : r.Kx_list[4]? = r'.Kx_list[4]? :=
  (C72_backward_blocks exCL exCL_U 4 2 1 (by decide) (by decide) (by decide) r r' h hr 4 (by decide)).2.2.1

example : ∃ r, exCL.tfPrForward 3 2 2 ![1, -1] (List.replicate 6 !![1, 2]) (List.replicate 6 ![3]) = .ok r ∧
    exCL.tfSeqForward ![1, -1] (List.replicate 6 !![1, 2]) (List.replicate 6 ![3]) (exCL.T / ((3 * 2 : ℕ) : ℚ)) 0 = .ok r :=
  C72_forward_exact exCL 3 2 2 (by decide) (by decide) (by decide) _ _ _ rfl rfl false (by decide)

example (us : List (Fin 1 → ℚ)) (xs : List (Fin 2 → ℚ)) :
    exCL.tfPrForward 4 2 1 ![1, -1] (List.replicate 8 !![1, 2]) (List.replicate 8 ![3]) true = .ok (xs, us) ↔
    exCL.prForwardPass 4 2 ![1, -1] (List.replicate 8 !![1, 2]) (List.replicate 8 ![3]) true (some 1) = .ok (us, xs) :=
  C72_forward exCL 4 2 1 (by decide) (by decide) (by decide) _ _ _ rfl rfl true us xs

example : ∃ r, exCL.tfPrFwdBwd 3 2 2 ![1, -1] = .ok r ∧ exCL.prFwdBwdPass 3 2 ![1, -1] (some 2) = .ok r := by
  obtain ⟨r, h, -⟩ := C72_fwdbwd_exact exCL exCL_U 3 2 2 (by decide) (by decide) (by decide) ![1, -1]
  exact ⟨r, h, ((C72_fwdbwd exCL (fun t => (exCL_U t).1) 3 2 2 (by decide) (by decide) (by decide) _ r).2 fun t => (exCL_U t).2).1 h⟩

example : ∃ bw : BwResult 2 1 ℚ, ∃ r, exCL.tfPrBackwardForward 3 2 2 ![1, -1] = .ok r ∧
    exCL.tfSeqForward ![1, -1] bw.Kx_list bw.d_list (exCL.T / ((3 * 2 : ℕ) : ℚ)) 0 = .ok r := by
  obtain ⟨bw, _, _, _, ⟨r, h1, h2⟩, _⟩ := C72_pipelines exCL exCL_U 3 2 2 (by decide) (by decide) (by decide) (by decide) ![1, -1]
  exact ⟨bw, r, h1, h2⟩

example : exCL.tfPrBackward 3 2 0 = .error .indexError :=
  (C72_no_iterations exCL exCL_U 3 2 (by decide) (by decide) ![1, -1] (List.replicate 6 !![1, 2]) (List.replicate 6 ![3]) rfl rfl
    false).1.1

end Verif
