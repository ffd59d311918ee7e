import Verif.Proof.FSCTF
import Verif.Props.FSC
import Verif.Props.Viterbi

/-!
# C62, C63: finite-state control in TensorFlow (`fsc_tf.py`) and the Viterbi routines through it

`scanV`, `scanF` are any functions with the contract of `tfp.math.scan_associative`, `am` and `amX` any minimisers.
-/

namespace Verif

variable {n m q : ℕ} {P K : Type}

/-! ## C62 -/

/-- A model where every control leads to state 1, at costs above the sentinel `5`. -/
def hiFSC : FSC 2 2 ℤ where
  stages := [⟨fun _ _ => 1, fun _ u => 7 + u.val⟩]
  LT := fun x => if x = 0 then 10 else 0

section
variable [AddCommMonoid K] [LinearOrder K] [NeZero m]

/-- **C62** (sequential backward pass): `fsc_seq_backwardpass` returns the value functions of the numpy pass and `T` policies
whose controls attain them: `L[k][x,u] + V[k+1][f[k][x,u]] = V[k][x]`. -/
theorem C62_seq_backward {am : (Fin m → K) → Fin m} (ham : IsArgmin am) (M : FSC n m K) :
    ∃ us, M.tfSeqBackward am = .ok (us, M.seqBackwardPass.2) ∧ us.length = M.stages.length ∧
      ∀ k (hk : k < M.stages.length), ∃ p V V', us[k]? = some p ∧ M.seqBackwardPass.2[k]? = some V ∧
        M.seqBackwardPass.2[k + 1]? = some V' ∧
        ∀ x, M.stages[k].L x (p x) + V' (M.stages[k].f x (p x)) = V x := by
  rw [seqBackwardPass_eq]
  refine ⟨_, tfSeqBackward_eq_lists am M, amPolList_length _ _ _, fun k hk => ⟨_, _, _, amPolList_get am _ _ hk,
    valList_get _ _ hk.le, valList_get _ _ hk, fun x => ?_⟩⟩
  rw [List.drop_eq_getElem_cons hk]
  exact ham.val (stageVu M.stages[k] (valueFn M.LT (M.stages.drop (k + 1))) x)

/-- **C62** (sequential backward pass, first minimiser): if `tf.argmin` returns the first minimiser, the pass is the numpy
pass. -/
theorem C62_seq_backward_np (M : FSC n m K) : M.tfSeqBackward argmin1 = .ok M.seqBackwardPass := by
  rw [tfSeqBackward_eq_lists, amPolList_argmin1, seqBackwardPass_eq]

end

/-- **C62** (forward passes): for `T` policies, `fsc_seq_forwardpass` returns the states and controls of the numpy
`seqForwardPass` and `fsc_par_forwardpass` its controls and states (note the orders); for another number of policies both
raise. -/
theorem C62_forward [NeZero n] [NeZero m] [LinearOrder K] [AddCommMonoid K]
    {scanF : ((Fin n → Fin n) → (Fin n → Fin n) → Py (Fin n → Fin n)) →
      List (Fin n → Fin n) → Py (List (Fin n → Fin n))} (hF : IsAssocScan scanF)
    (M : FSC n m K) (x0 : Fin n) (ps : List (Fin n → Fin m)) :
    (ps.length = M.stages.length → ∃ us xs, M.seqForwardPass x0 ps = .ok (us, xs) ∧
      M.tfSeqForward x0 ps = .ok (xs, us) ∧ M.tfParForward scanF x0 ps = .ok (us, xs)) ∧
    (ps.length ≠ M.stages.length → M.tfSeqForward x0 ps = .error .valueError ∧
      M.tfParForward scanF x0 ps = .error .valueError) := by
  constructor
  · intro hl
    exact ⟨_, _, seqForwardPass_eq M x0 ps hl.le, tfSeqForward_eq_swap M x0 ps hl, tfFscParForward_eq hF M x0 ps hl⟩
  · intro hl
    constructor
    · unfold FSC.tfSeqForward
      rw [if_pos hl]; rfl
    · unfold FSC.tfParForward
      rw [if_pos hl]; rfl

/-- **C62** (trajectory): with the policies of `fsc_seq_backwardpass`, whatever minimisers they use, the controls returned are
optimal and cost `V[0][x0]`. -/
theorem C62_optimal [NeZero n] [NeZero m] [AddCommMonoid K] [LinearOrder K] [IsOrderedAddMonoid K]
    {am : (Fin m → K) → Fin m} (ham : IsArgmin am)
    {scanF : ((Fin n → Fin n) → (Fin n → Fin n) → Py (Fin n → Fin n)) →
      List (Fin n → Fin n) → Py (List (Fin n → Fin n))} (hF : IsAssocScan scanF) (M : FSC n m K) (x0 : Fin n) :
    ∃ ps Vs V0 us xs, M.tfSeqBackward am = .ok (ps, Vs) ∧ Vs[0]? = some V0 ∧
      M.tfSeqForward x0 ps = .ok (xs, us) ∧ M.tfParForward scanF x0 ps = .ok (us, xs) ∧
      M.seqSimulation x0 us = .ok xs ∧
      IsOptimal M.LT M.stages x0 us ∧ totalCost M.LT M.stages x0 us = V0 x0 := by
  have hl := amPolList_length am M.LT M.stages
  have hr := rollout_length M.stages (amPolList am M.LT M.stages) x0 hl.le
  have hc := rollout_am_cost ham M.LT M.stages x0
  exact ⟨_, _, _, _, _, tfSeqBackward_eq_lists am M, valList_get _ _ (Nat.zero_le _), tfSeqForward_eq_swap M x0 _ hl,
    tfFscParForward_eq hF M x0 _ hl, seqSimulation_eq M x0 _ (by omega),
    (isOptimal_iff _ _ _ _ (by omega)).2 hc, hc⟩

/-- **C62** (elements): an entry `[x,y]` of `fsc_par_backwardpass_init_most` is the entry of the numpy element if and only if
some control does not lead from `x` to `y` or some cost at `x` is at most the sentinel. -/
theorem C62_elem [NeZero m] [LinearOrder K] (inf : K) (s : FStage n m K) (x y : Fin n) :
    tfStageElem inf s x y = stageElem inf s x y ↔ (∃ u, s.f x u ≠ y) ∨ ∃ u, s.L x u ≤ inf :=
  tfStageElem_eq_iff inf s x y

/-- **C62** (elements differ): a cost above the sentinel is kept by TensorFlow and cut by numpy. -/
theorem C62_elem_differ : ∃ (s : FStage 2 2 ℤ) (inf : ℤ), tfStageElem inf s 0 1 = 7 ∧ stageElem inf s 0 1 = 5 :=
  ⟨⟨fun x _ => if x = 0 then 1 else 0, fun _ u => 7 + u.val⟩, 5, by decide, by decide⟩

section
variable [AddCommMonoid K] [LinearOrder K] [IsOrderedAddMonoid K] [NeZero n] [NeZero m]

/-- **C62** (parallel backward pass): `fsc_par_backwardpass` returns exactly what `fsc_seq_backwardpass` returns if and only if
no cost-to-go exceeds the sentinel plus a cost-to-go one step later at a state that some control does not reach. -/
theorem C62_par_eq_seq_iff
    {scanV : ((Fin n → Fin n → K) → (Fin n → Fin n → K) → Py (Fin n → Fin n → K)) →
      List (Fin n → Fin n → K) → Py (List (Fin n → Fin n → K))} (hV : IsAssocScan scanV)
    (am : (Fin m → K) → Fin m) (inf : K) (M : FSC n m K) :
    M.tfParBackward scanV am inf = M.tfSeqBackward am ↔
    ∀ k (hk : k < M.stages.length) V V', M.seqBackwardPass.2[k]? = some V → M.seqBackwardPass.2[k + 1]? = some V' →
      ∀ x y, (∃ u, M.stages[k].f x u ≠ y) → V x ≤ inf + V' y := by
  rw [seqBackwardPass_eq, tfSeqBackward_eq_lists]
  obtain ⟨us, Vs, hp, hul, hvl, hu, hv⟩ := tfParBackward_lists hV am inf M
  have hR : (∀ k (hk : k < M.stages.length) V V', (valList M.LT M.stages)[k]? = some V →
      (valList M.LT M.stages)[k + 1]? = some V' → ∀ x y, (∃ u, M.stages[k].f x u ≠ y) → V x ≤ inf + V' y) ↔
      ∀ k (hk : k < M.stages.length), ∀ x y, (∃ u, M.stages[k].f x u ≠ y) →
        valueFn M.LT (M.stages.drop k) x ≤ inf + valueFn M.LT (M.stages.drop (k + 1)) y := by
    constructor
    · intro h k hk
      exact h k hk _ _ (valList_get _ _ hk.le) (valList_get _ _ hk)
    · intro h k hk V V' h1 h2
      rw [valList_get _ _ hk.le] at h1
      rw [valList_get _ _ hk] at h2
      cases h1; cases h2
      exact h k hk
  dsimp only
  rw [hR, ← tfParVal_eq_iff, hp]
  constructor
  · intro h k hk
    have h' : us = amPolList am M.LT M.stages ∧ Vs = valList M.LT M.stages := by simpa using h
    have := hv k hk
    rw [h'.2, valList_get _ _ hk] at this
    exact (Option.some.inj this).symm
  · intro h
    have h1 : Vs = valList M.LT M.stages := by
      apply List.ext_getElem?
      intro k
      by_cases hk : k ≤ M.stages.length
      · rw [hv k hk, valList_get _ _ hk, h k hk]
      · rw [List.getElem?_eq_none (by omega), List.getElem?_eq_none (by rw [valList_length]; omega)]
    have h2 : us = amPolList am M.LT M.stages := by
      apply List.ext_getElem?
      intro k
      by_cases hk : k < M.stages.length
      · rw [hu k hk, amPolList_get _ _ _ hk, h (k + 1) hk]
      · rw [List.getElem?_eq_none (by omega), List.getElem?_eq_none (by rw [amPolList_length]; omega)]
    rw [h1, h2]

end

/-- **C62** (parallel backward pass, bounded costs): `(2T+1)B ≤ inf` for costs bounded by `B` is enough; with the first
minimiser the result is then also that of both numpy passes. -/
theorem C62_par_eq_seq_bounded [AddCommGroup K] [LinearOrder K] [IsOrderedAddMonoid K] [NeZero n] [NeZero m]
    {scanV : ((Fin n → Fin n → K) → (Fin n → Fin n → K) → Py (Fin n → Fin n → K)) →
      List (Fin n → Fin n → K) → Py (List (Fin n → Fin n → K))} (hV : IsAssocScan scanV)
    (inf B : K) (M : FSC n m K) (hLT : ∀ x, |M.LT x| ≤ B) (hL : ∀ s ∈ M.stages, ∀ x u, |s.L x u| ≤ B)
    (hB : (2 * M.stages.length + 1) • B ≤ inf) :
    (∀ am : (Fin m → K) → Fin m, M.tfParBackward scanV am inf = M.tfSeqBackward am) ∧
    M.tfParBackward scanV argmin1 inf = .ok M.seqBackwardPass ∧
    (M.stages ≠ [] → M.tfParBackward scanV argmin1 inf = M.parBackwardPass inf) := by
  have h1 : ∀ am : (Fin m → K) → Fin m, M.tfParBackward scanV am inf = M.tfSeqBackward am := by
    intro am
    rw [C62_par_eq_seq_iff hV, seqBackwardPass_eq]
    intro k hk V V' e1 e2 x y _
    rw [valList_get _ _ hk.le] at e1
    rw [valList_get _ _ hk] at e2
    cases e1; cases e2
    refine (valueFn_diff_bound B M.LT M.stages hLT hL k (k + 1) x y).trans ?_
    refine add_le_add ?_ le_rfl
    exact (nsmul_le_of_le ((abs_nonneg _).trans (hLT x)) (by omega)).trans hB
  have h2 := (h1 argmin1).trans (C62_seq_backward_np M)
  exact ⟨h1, h2, fun hT => h2.trans (C07_par_eq_seq_bounded inf B M hT hLT hL hB).symm⟩

example : exFSC.tfParBackward (fun op l => scanVals op l) argmin1 (10 ^ 20) = .ok exFSC.seqBackwardPass :=
  (C62_par_eq_seq_bounded (C17_scan_example) (10 ^ 20) 5 exFSC (by decide) (by decide) (by decide)).2.1

/-- **C62** (the two parallel passes differ): with costs above the sentinel the TensorFlow pass can still be exact where the
numpy pass is not. -/
theorem C62_par_differ : hiFSC.tfParBackward (fun op l => scanVals op l) argmin1 5 = hiFSC.tfSeqBackward argmin1 ∧
    hiFSC.tfSeqBackward argmin1 = .ok hiFSC.seqBackwardPass ∧ hiFSC.parBackwardPass 5 ≠ .ok hiFSC.seqBackwardPass := by
  refine ⟨?_, C62_seq_backward_np _, ?_⟩
  · rw [C62_par_eq_seq_iff C17_scan_example, seqBackwardPass_eq]
    intro k hk V V' e1 e2 x y hu
    have hk0 : k = 0 := by simpa [hiFSC] using hk
    subst hk0
    rw [valList_get _ _ hk.le] at e1
    rw [valList_get _ _ hk] at e2
    cases e1; cases e2
    have hu' : ∃ _u : Fin 2, (1 : Fin 2) ≠ y := hu
    clear hu hk
    revert x y
    decide
  · rw [Ne, C07_par_eq_seq_iff _ _ (by simp [hiFSC]), seqBackwardPass_eq]
    intro h
    have := h 0 _ _ (valList_get hiFSC.LT hiFSC.stages (by decide)) (valList_get hiFSC.LT hiFSC.stages (by decide)) 0 1
    revert this
    decide

section
variable [AddCommMonoid K] [LinearOrder K] [IsOrderedCancelAddMonoid K] [NeZero n] [NeZero m]

/-- **C62** (`fsc_par_fwdbwdpass`): under the strict sentinel condition of C09, with the results of `fsc_seq_backwardpass` and
any minimisers, every state and control returned lies on an optimal trajectory from `x0`, and the control is the policy's. -/
theorem C62_fwdbwd
    {scanV : ((Fin n → Fin n → K) → (Fin n → Fin n → K) → Py (Fin n → Fin n → K)) →
      List (Fin n → Fin n → K) → Py (List (Fin n → Fin n → K))} (hV : IsAssocScan scanV)
    {am : (Fin m → K) → Fin m} (ham : IsArgmin am) {amX : (Fin n → K) → Fin n} (hamX : IsArgmin amX)
    (inf : K) (M : FSC n m K) (x0 : Fin n) (hT : M.stages ≠ []) (h : BelowSentinel inf M x0) :
    ∃ ps Vs us xs, M.tfSeqBackward am = .ok (ps, Vs) ∧ M.tfParFwdBwd scanV amX inf x0 ps Vs = .ok (us, xs) ∧
      us.length = M.stages.length ∧ xs.length = M.stages.length + 1 ∧
      ∀ k ≤ M.stages.length, ∃ x, xs[k]? = some x ∧ us[k]? = (ps[k]?).map (fun p => p x) ∧
        ∃ vs : List (Fin m), IsOptimal M.LT M.stages x0 vs ∧ stateAt M.stages x0 vs k = x ∧ vs[k]? = us[k]? := by
  obtain ⟨us, xs, h1, h2⟩ := tfParFwdBwd_spec hV ham hamX inf M x0 hT
    (fun k hk x y _ => h.conv.1 k hk x y) h.conv.2
  exact ⟨_, _, us, xs, tfSeqBackward_eq_lists am M, h1, h2⟩

/-- **C62** (`fsc_par_fwdbwdpass`, unique optimum): if the optimal state trajectory is unique, the states and controls are
those of the forward passes. -/
theorem C62_fwdbwd_unique
    {scanV : ((Fin n → Fin n → K) → (Fin n → Fin n → K) → Py (Fin n → Fin n → K)) →
      List (Fin n → Fin n → K) → Py (List (Fin n → Fin n → K))} (hV : IsAssocScan scanV)
    {am : (Fin m → K) → Fin m} (ham : IsArgmin am) {amX : (Fin n → K) → Fin n} (hamX : IsArgmin amX)
    (inf : K) (M : FSC n m K) (x0 : Fin n) (hT : M.stages ≠ []) (h : BelowSentinel inf M x0)
    (hu : UniqueOptimal M x0) :
    ∃ ps Vs us xs, M.tfSeqBackward am = .ok (ps, Vs) ∧ M.tfParFwdBwd scanV amX inf x0 ps Vs = .ok (us, xs) ∧
      M.tfSeqForward x0 ps = .ok (xs, us) := by
  obtain ⟨us, xs, h1, hul, hxl, h2⟩ := tfParFwdBwd_spec hV ham hamX inf M x0 hT
    (fun k hk x y _ => h.conv.1 k hk x y) h.conv.2
  have hl := amPolList_length am M.LT M.stages
  have hr := rollout_length M.stages (amPolList am M.LT M.stages) x0 hl.le
  have hopt := (isOptimal_iff M.LT M.stages x0 _ (by omega)).2 (rollout_am_cost ham M.LT M.stages x0)
  have hst : ∀ k ≤ M.stages.length, xs[k]? =
      some (stateAt M.stages x0 (rollout M.stages (amPolList am M.LT M.stages) x0) k) := by
    intro k hk
    obtain ⟨x, hx, _, vs, hvs, hst, _⟩ := h2 k hk
    rw [hx, ← hst, hu _ _ hvs hopt k hk]
  have hxs : xs = statesOf M.stages x0 (rollout M.stages (amPolList am M.LT M.stages) x0) := by
    apply List.ext_getElem?
    intro k
    by_cases hk : k ≤ M.stages.length
    · rw [hst k hk, statesOf_get _ _ _ (by omega)]
    · rw [List.getElem?_eq_none (by omega), List.getElem?_eq_none (by rw [statesOf_length]; omega)]
  have hus : us = rollout M.stages (amPolList am M.LT M.stages) x0 := by
    apply List.ext_getElem?
    intro k
    by_cases hk : k ≤ M.stages.length
    · obtain ⟨x, hx, hux, _⟩ := h2 k hk
      rw [hst k hk] at hx
      rw [hux, rollout_get _ _ _ _ hl, ← Option.some.inj hx]
      rfl
    · rw [List.getElem?_eq_none (by omega), List.getElem?_eq_none (by omega)]
  refine ⟨_, _, us, xs, tfSeqBackward_eq_lists am M, h1, ?_⟩
  rw [tfSeqForward_eq_swap M x0 _ hl, hxs, hus]

omit [IsOrderedCancelAddMonoid K] in
/-- **C62** (errors): `fsc_par_fwdbwdpass` raises for an empty horizon and for lists of the wrong length. -/
theorem C62_fwdbwd_errors
    (scanV : ((Fin n → Fin n → K) → (Fin n → Fin n → K) → Py (Fin n → Fin n → K)) →
      List (Fin n → Fin n → K) → Py (List (Fin n → Fin n → K))) (amX : (Fin n → K) → Fin n)
    (inf : K) (M : FSC n m K) (x0 : Fin n) (us : List (Fin n → Fin m)) (Vs : List (Fin n → K))
    (h : M.stages = [] ∨ Vs.length ≠ M.stages.length + 1 ∨ us.length ≠ M.stages.length) :
    M.tfParFwdBwd scanV amX inf x0 us Vs = .error .valueError := by
  unfold FSC.tfParFwdBwd
  by_cases h0 : M.stages.isEmpty = true
  · rw [if_pos h0]; rfl
  · rw [if_neg h0]
    rcases h with h | h
    · exact absurd (by simp [h]) h0
    · rw [if_pos h]; rfl

end

example : BelowSentinel (10 ^ 20) exFSC 0 :=
  C09_below_sentinel_of_bounded (10 ^ 20) 5 exFSC 0 (by decide) (by decide) (by decide)

/-- A minimiser that prefers the last index, unlike numpy's. -/
def argminLast (v : Fin 2 → ℤ) : Fin 2 := if v 1 ≤ v 0 then 1 else 0

example : IsArgmin argminLast := by
  intro v i
  unfold argminLast
  split <;> fin_cases i <;> simp_all <;> omega

example : (match tieFSC.tfSeqBackward argminLast with
    | .ok r => r.1.map (fun p => List.ofFn p)
    | .error _ => []) = [[1, 1, 1], [1, 1, 1]] ∧
    tieFSC.seqBackwardPass.1.map (fun p => List.ofFn p) = [[0, 0, 0], [0, 0, 0]] := by decide

/-! ## C63 -/

section Vit
variable [CommSemiring P] [LinearOrder P] [LinearOrder K] [NeZero n] {S : P → Prop} {nl : P → K}

/-- Initial states of smallest cost-to-go give maximum a posteriori paths. -/
theorem isMAP_of_isOptimal_am [AddCommMonoid K] [IsOrderedAddMonoid K] (h : IsNegLog S nl) {H : HMM n q P} (hH : H.All S)
    (ys : List (Fin q)) (us : List (Fin n)) (x0 : Fin n)
    (hx0 : ∀ z, valueFn (H.nlPrior nl) (ys.reverse.map (H.stage nl)) x0 ≤
      valueFn (H.nlPrior nl) (ys.reverse.map (H.stage nl)) z)
    (hopt : IsOptimal (H.nlPrior nl) (ys.reverse.map (H.stage nl)) x0 us) :
    H.IsMAP ys (x0 :: us).reverse := by
  have hul : us.length = ys.length := by simpa using hopt.1
  have hv := (isOptimal_iff _ _ _ _ hopt.1).1 hopt
  refine ⟨by simp [hul], fun p hp => ?_⟩
  rw [← h.nl_le (jointProb_mem h hH _ _) (jointProb_mem h hH _ _)]
  have h1 := totalCost_stages h hH ys.reverse us x0 (by simp [hul])
  rw [List.reverse_reverse] at h1
  rw [← h1, hv]
  cases hr : p.reverse with
  | nil => have := congrArg List.length hr; simp [hp] at this
  | cons z zs =>
    have hzl : zs.length = ys.length := by have := congrArg List.length hr; simp [hp] at this; omega
    have h2 := totalCost_stages h hH ys.reverse zs z (by simp [hzl])
    rw [← hr, List.reverse_reverse, List.reverse_reverse] at h2
    rw [← h2]
    exact (hx0 z).trans (valueFn_le _ _ _ _ (by simp [hzl]))

theorem tfFscSeq_eq [AddCommMonoid K] (am : (Fin n → K) → Fin n) (H : HMM n q P) (ys : List (Fin q)) (hys : ys ≠ []) :
    H.tfFscSeq am nl ys =
      let ss := ys.reverse.map (H.stage nl)
      let x0 := am (valueFn (H.nlPrior nl) ss)
      .ok ((statesOf ss x0 (rollout ss (amPolList am (H.nlPrior nl) ss) x0)).reverse,
        (valList (H.nlPrior nl) ss).reverse) := by
  unfold HMM.tfFscSeq
  rw [getFSC_eq H ys hys]
  set M : FSC n n K := ⟨ys.reverse.map (H.stage nl), H.nlPrior nl⟩ with hM
  have h2 : pyGet (valList M.LT M.stages) 0 = .ok (valueFn M.LT M.stages) := by
    rw [pyGet_ok]; exact valList_get M.LT M.stages (Nat.zero_le _)
  have h3 := tfSeqForward_eq_swap M (am (valueFn M.LT M.stages)) (amPolList am M.LT M.stages) (amPolList_length _ _ _)
  show (do
    let r ← M.tfSeqBackward am
    let x0 := am (← pyGet r.2 0)
    let r' ← M.tfSeqForward x0 r.1
    return tfViterbiFromFsc r'.1 r.2) = _
  rw [tfSeqBackward_eq_lists]
  show (do
    let x0 := am (← pyGet (valList M.LT M.stages) 0)
    let r' ← M.tfSeqForward x0 (amPolList am M.LT M.stages)
    return tfViterbiFromFsc r'.1 (valList M.LT M.stages)) = _
  rw [h2]
  show (do
    let r' ← M.tfSeqForward (am (valueFn M.LT M.stages)) (amPolList am M.LT M.stages)
    return tfViterbiFromFsc r'.1 (valList M.LT M.stages)) = _
  rw [h3]
  rfl

variable [AddCommMonoid K] [IsOrderedAddMonoid K]

/-- **C63** (sequential): `viterbi_fsc_seq_bwfw` returns the values of the numpy `seqViterbi` and, whatever minimisers are
used, a maximum a posteriori path; with the first minimiser it returns exactly the result of `seqViterbi`. -/
theorem C63_seq (h : IsNegLog S nl) (H : HMM n q P) (hH : H.All S) (ys : List (Fin q)) (hys : ys ≠ []) :
    (∀ am : (Fin n → K) → Fin n, IsArgmin am → ∃ path path' Vs, H.tfFscSeq am nl ys = .ok (path, Vs) ∧
      H.seqViterbi nl ys = .ok (path', Vs) ∧ H.IsMAP ys path) ∧
    H.tfFscSeq argmin1 nl ys = H.seqViterbi nl ys := by
  constructor
  · intro am ham
    refine ⟨_, _, _, tfFscSeq_eq am H ys hys, seqViterbi_eq' H ys hys, ?_⟩
    set ss := ys.reverse.map (H.stage nl) with hss
    set x0 := am (valueFn (H.nlPrior nl) ss) with hx0
    have hl := amPolList_length am (H.nlPrior nl) ss
    have hr := rollout_length ss (amPolList am (H.nlPrior nl) ss) x0 hl.le
    have hopt := (isOptimal_iff (H.nlPrior nl) ss x0 _ (by omega)).2 (rollout_am_cost ham (H.nlPrior nl) ss x0)
    rw [hss, statesOf_stages H _ _ _ (by rw [← hss, hr, hl, hss]; simp), ← hss]
    exact isMAP_of_isOptimal_am h hH ys _ x0 (fun z => ham _ z) hopt
  · rw [tfFscSeq_eq _ H ys hys, seqViterbi_eq' H ys hys]
    simp only [amPolList_argmin1, fscToViterbi]

/-- **C63** (empty observations): all three routines raise, already when the problem is built. -/
theorem C63_empty (scanV : ((Fin n → Fin n → K) → (Fin n → Fin n → K) → Py (Fin n → Fin n → K)) →
      List (Fin n → Fin n → K) → Py (List (Fin n → Fin n → K)))
    (scanF : ((Fin n → Fin n) → (Fin n → Fin n) → Py (Fin n → Fin n)) →
      List (Fin n → Fin n) → Py (List (Fin n → Fin n)))
    (am : (Fin n → K) → Fin n) (inf : K) (H : HMM n q P) :
    H.tfFscSeq am nl [] = .error .indexError ∧ H.tfFscPar scanV scanF am inf nl [] = .error .indexError ∧
    H.tfFscParBwFwBw scanV am inf nl [] = .error .indexError := ⟨rfl, rfl, rfl⟩

end Vit

section VitPar
variable [CommSemiring P] [LinearOrder P] [AddCommGroup K] [LinearOrder K] [IsOrderedAddMonoid K]
  [NeZero n] {S : P → Prop} {nl : P → K}

theorem viterbi_stage_bound (h : IsNegLog S nl) (H : HMM n q P) (hH : H.All S) (B : K)
    (hPi : ∀ i j, |nl (H.Pi i j)| ≤ B) (hPo : ∀ i y, |nl (H.Po i y)| ≤ B)
    (ys : List (Fin q)) : ∀ s ∈ ys.reverse.map (H.stage nl), ∀ x u, |s.L x u| ≤ B + B := by
  intro s hs x u
  obtain ⟨y, _, rfl⟩ := List.mem_map.1 hs
  show |nl (H.Pi u x * H.Po x y)| ≤ B + B
  rw [h.nl_mul (hH.Pi _ _) (hH.Po _ _)]
  exact (abs_add_le _ _).trans (add_le_add (hPi _ _) (hPo _ _))

/-- **C63** (parallel): when all negative log probabilities are bounded by `B` with `(2T+1)·2B ≤ inf`,
`viterbi_fsc_par_bwfw` returns exactly what `viterbi_fsc_seq_bwfw` returns; with the first minimiser this is the result of
the numpy `parBwdFwdViterbi` and `seqViterbi`. -/
theorem C63_par (h : IsNegLog S nl) (H : HMM n q P) (hH : H.All S) (inf B : K)
    {scanV : ((Fin n → Fin n → K) → (Fin n → Fin n → K) → Py (Fin n → Fin n → K)) →
      List (Fin n → Fin n → K) → Py (List (Fin n → Fin n → K))} (hV : IsAssocScan scanV)
    {scanF : ((Fin n → Fin n) → (Fin n → Fin n) → Py (Fin n → Fin n)) →
      List (Fin n → Fin n) → Py (List (Fin n → Fin n))} (hF : IsAssocScan scanF)
    (hp : ∀ x, |nl (H.prior x)| ≤ B) (hPi : ∀ i j, |nl (H.Pi i j)| ≤ B) (hPo : ∀ i y, |nl (H.Po i y)| ≤ B)
    (ys : List (Fin q)) (hys : ys ≠ []) (hB : (2 * ys.length + 1) • (B + B) ≤ inf) :
    (∀ am : (Fin n → K) → Fin n, H.tfFscPar scanV scanF am inf nl ys = H.tfFscSeq am nl ys) ∧
    H.tfFscPar scanV scanF argmin1 inf nl ys = H.parBwdFwdViterbi inf nl ys := by
  have key : ∀ am : (Fin n → K) → Fin n, H.tfFscPar scanV scanF am inf nl ys = H.tfFscSeq am nl ys := by
    intro am
    set M : FSC n n K := ⟨ys.reverse.map (H.stage nl), H.nlPrior nl⟩ with hM
    have hB0 : 0 ≤ B := (abs_nonneg _).trans (hp 0)
    have hback := (C62_par_eq_seq_bounded hV inf (B + B) M (fun x => (hp x).trans (le_add_of_nonneg_left hB0))
      (viterbi_stage_bound h H hH B hPi hPo ys) (by simpa [hM] using hB)).1 am
    unfold HMM.tfFscPar HMM.tfFscSeq
    rw [getFSC_eq H ys hys]
    show (do
      let r ← M.tfParBackward scanV am inf
      let x0 := am (← pyGet r.2 0)
      let r' ← M.tfParForward scanF x0 r.1
      return tfViterbiFromFsc r'.2 r.2) = (do
      let r ← M.tfSeqBackward am
      let x0 := am (← pyGet r.2 0)
      let r' ← M.tfSeqForward x0 r.1
      return tfViterbiFromFsc r'.1 r.2)
    rw [hback, tfSeqBackward_eq_lists]
    have hl := amPolList_length am M.LT M.stages
    have e1 : ∀ x0, M.tfSeqForward x0 (amPolList am M.LT M.stages) = _ := fun x0 => tfSeqForward_eq_swap M x0 _ hl
    have e2 : ∀ x0, M.tfParForward scanF x0 (amPolList am M.LT M.stages) = _ :=
      fun x0 => tfFscParForward_eq hF M x0 _ hl
    simp only [bind, Except.bind, e1, e2]
  refine ⟨key, ?_⟩
  rw [key, (C63_seq h H hH ys hys).2, C16_par_eq_seq h H hH inf B hp hPi hPo ys hys hB]

/-- **C63** (`viterbi_fsc_par_bwfwbw`): under the strict bound, the values are those of `seqViterbi` and every state returned
lies on a maximum a posteriori path at its position, whatever minimisers are used. -/
theorem C63_par_bwfwbw (h : IsNegLog S nl) (H : HMM n q P) (hH : H.All S) (inf B : K)
    {scanV : ((Fin n → Fin n → K) → (Fin n → Fin n → K) → Py (Fin n → Fin n → K)) →
      List (Fin n → Fin n → K) → Py (List (Fin n → Fin n → K))} (hV : IsAssocScan scanV)
    {am : (Fin n → K) → Fin n} (ham : IsArgmin am)
    (hp : ∀ x, |nl (H.prior x)| ≤ B) (hPi : ∀ i j, |nl (H.Pi i j)| ≤ B) (hPo : ∀ i y, |nl (H.Po i y)| ≤ B)
    (ys : List (Fin q)) (hys : ys ≠ []) (hB : (2 * ys.length + 2) • (B + B) < inf) :
    ∃ path spath Vs, H.tfFscParBwFwBw scanV am inf nl ys = .ok (path, Vs) ∧ H.seqViterbi nl ys = .ok (spath, Vs) ∧
      path.length = ys.length + 1 ∧ ∀ k ≤ ys.length, ∃ p, H.IsMAP ys p ∧ path[k]? = p[k]? := by
  set M : FSC n n K := ⟨ys.reverse.map (H.stage nl), H.nlPrior nl⟩ with hM
  have hB0 : 0 ≤ B := (abs_nonneg _).trans (hp 0)
  have hT : M.stages ≠ [] := by simp [hM, hys]
  have hlenM : M.stages.length = ys.length := by simp [hM]
  have hLT : ∀ x, |M.LT x| ≤ B + B := fun x => (hp x).trans (le_add_of_nonneg_left hB0)
  have hL := viterbi_stage_bound h H hH B hPi hPo ys
  have hback := (C62_par_eq_seq_bounded hV inf (B + B) M hLT hL (by
    rw [hlenM]
    exact (nsmul_le_of_le (add_nonneg hB0 hB0) (by omega)).trans hB.le)).1 am
  set x0 := am (valueFn M.LT M.stages) with hx0
  have hbel := C09_below_sentinel_of_bounded inf (B + B) M x0 hLT hL (by rw [hlenM]; exact hB)
  obtain ⟨us, xs, hfb, hul, hxl, hon⟩ := tfParFwdBwd_spec hV ham ham inf M x0 hT
    (fun k hk x y _ => hbel.conv.1 k hk x y) hbel.conv.2
  have h2 : pyGet (valList M.LT M.stages) 0 = .ok (valueFn M.LT M.stages) := by
    rw [pyGet_ok]; exact valList_get M.LT M.stages (Nat.zero_le _)
  refine ⟨xs.reverse, _, (valList M.LT M.stages).reverse, ?_, seqViterbi_eq' H ys hys, by simp [hxl, hlenM], ?_⟩
  · unfold HMM.tfFscParBwFwBw
    rw [getFSC_eq H ys hys]
    show (do
      let r ← M.tfParBackward scanV am inf
      let x0 := am (← pyGet r.2 0)
      let r' ← M.tfParFwdBwd scanV am inf x0 r.1 r.2
      return tfViterbiFromFsc r'.2 r.2) = _
    rw [hback, tfSeqBackward_eq_lists]
    show (do
      let x0 := am (← pyGet (valList M.LT M.stages) 0)
      let r' ← M.tfParFwdBwd scanV am inf x0 (amPolList am M.LT M.stages) (valList M.LT M.stages)
      return tfViterbiFromFsc r'.2 (valList M.LT M.stages)) = _
    rw [h2]
    show (do
      let r' ← M.tfParFwdBwd scanV am inf x0 (amPolList am M.LT M.stages) (valList M.LT M.stages)
      return tfViterbiFromFsc r'.2 (valList M.LT M.stages)) = _
    rw [hfb]
    rfl
  · intro k hk
    obtain ⟨x, hx, _, vs, hvs, hst, _⟩ := hon (ys.length - k) (by omega)
    refine ⟨(x0 :: vs).reverse, isMAP_of_isOptimal_am h hH ys vs x0 (fun z => ham _ z) hvs, ?_⟩
    have hvl : vs.length = ys.length := by rw [hvs.1, hlenM]
    rw [List.getElem?_reverse (by omega), List.getElem?_reverse (by simp; omega)]
    have e1 : xs.length - 1 - k = ys.length - k := by omega
    have e2 : (x0 :: vs).length - 1 - k = ys.length - k := by simp; omega
    rw [e1, e2, hx, ← hst]
    have := statesOf_get M.stages x0 vs (k := ys.length - k) (by omega)
    rw [← this, hM]
    simp only
    rw [statesOf_stages H _ _ _ (by simp [hvl])]

end VitPar

example : (match someHMM.tfFscPar (fun op l => scanVals op l) (fun op l => scanVals op l) argmin1 (10 ^ 20) nl01 [0, 0] with
    | .ok r => r.1
    | .error _ => []) = [1, 0, 1] := by decide

end Verif
