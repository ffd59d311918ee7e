import Verif.Proof.FSCTFTests
import Verif.Props.FSCTests
import Verif.Props.FSCTF

/-!
# C112: the unit tests of the TensorFlow finite-state solvers (`test_fsc_tf.py`)
-/

namespace Verif

section General
variable {n m : ℕ} [NeZero n] [NeZero m]
  {scanV : ((Fin n → Fin n → ℝ) → (Fin n → Fin n → ℝ) → Py (Fin n → Fin n → ℝ)) →
      List (Fin n → Fin n → ℝ) → Py (List (Fin n → Fin n → ℝ))}
  {scanF : ((Fin n → Fin n) → (Fin n → Fin n) → Py (Fin n → Fin n)) →
      List (Fin n → Fin n) → Py (List (Fin n → Fin n))}

/-- **C112** (first minimiser): if `tf.argmin` returns the first minimiser, `test_sequential`, `test_parback` and
`test_parfwd_1` pass on every problem, from every state, whose costs are bounded by `B` with `(2T+1)B ≤ inf`. -/
theorem C112_first_argmin (hV : IsAssocScan scanV) (hF : IsAssocScan scanF) (inf B : ℝ) (M : FSC n m ℝ) (x0 : Fin n)
    (hT : M.stages ≠ []) (hLT : ∀ x, |M.LT x| ≤ B) (hL : ∀ s ∈ M.stages, ∀ x u, |s.L x u| ≤ B)
    (hB : (2 * M.stages.length + 1) • B ≤ inf) :
    Passes (fscTfTestSequential argmin1 M x0) ∧ Passes (fscTfTestParback scanV argmin1 inf M) ∧
    Passes (fscTfTestParfwd1 scanV scanF argmin1 inf M x0) := by
  have hpar := C07_par_eq_seq_bounded inf B M hT hLT hL hB
  have htf := (C62_par_eq_seq_bounded hV inf B M hLT hL hB).2.1
  have hseq := C62_seq_backward_np M
  have hpl := (C05_seqBackward_policy M).1
  have hvl := (C05_seqBackward_value M).1
  have hpos : 0 < M.stages.length := List.length_pos_iff.2 hT
  obtain ⟨us, xs, V0, hf, hul, hxl, _, _, _, _, _, _, _⟩ := C06_seqForward_optimal M x0
  obtain ⟨us', xs', hf', ht, hp⟩ := (C62_forward hF M x0 M.seqBackwardPass.1).1 hpl
  rw [hf] at hf'
  cases hf'
  have e1 := maxDiffRows_self (n := n) (a := M.seqBackwardPass.2) (fun h => by rw [h] at hvl; cases hvl)
  have e2 := maxDiffRows_self (n := n) (a := policyRows M.seqBackwardPass.1) (fun h => by
    have := congrArg List.length h
    simp only [policyRows, List.length_map, List.length_nil] at this
    omega)
  have e3 := maxDiffIdx_self (a := xs) (fun h => by rw [h] at hxl; cases hxl)
  have e4 := maxDiffIdx_self (a := us) (fun h => by rw [h, List.length_nil] at hul; omega)
  refine ⟨?_, ?_, ?_⟩
  · refine ⟨(0 : ℝ) < 1 / 10 ^ 6 ∧ (0 : ℝ) = 0 ∧ (0 : ℝ) = 0 ∧ (0 : ℝ) = 0, ?_, by norm_num, rfl, rfl, rfl⟩
    unfold fscTfTestSequential
    simp only [hf, hseq, ht, e1, e2, e3, e4, bind, Except.bind]
    rfl
  · refine ⟨(0 : ℝ) < 1 / 10 ^ 6 ∧ (0 : ℝ) = 0, ?_, by norm_num, rfl⟩
    unfold fscTfTestParback
    simp only [hpar, htf, e1, e2, bind, Except.bind]
    rfl
  · refine ⟨(0 : ℝ) = 0 ∧ (0 : ℝ) = 0, ?_, rfl, rfl⟩
    unfold fscTfTestParfwd1
    simp only [hpar, htf, C08_parForward_eq_seq M x0 M.seqBackwardPass.1 hT hpl, hf, hp, e3, e4, bind, Except.bind]
    rfl

/-- **C112** (any minimiser): whatever minimisers `tf.argmin` returns, `test_parfwd_1` and `test_parfwd_2` pass on every
problem with one optimal control sequence from `x0` only and costs bounded by `B` with `(2T+2)B < inf`. -/
theorem C112_any_argmin (hV : IsAssocScan scanV) (hF : IsAssocScan scanF) {am : (Fin m → ℝ) → Fin m} (ham : IsArgmin am)
    {amX : (Fin n → ℝ) → Fin n} (hamX : IsArgmin amX) (inf B : ℝ) (M : FSC n m ℝ) (x0 : Fin n)
    (hT : M.stages ≠ []) (hLT : ∀ x, |M.LT x| ≤ B) (hL : ∀ s ∈ M.stages, ∀ x u, |s.L x u| ≤ B)
    (hB : (2 * M.stages.length + 2) • B < inf)
    (hu : ∀ us vs, IsOptimal M.LT M.stages x0 us → IsOptimal M.LT M.stages x0 vs → us = vs) :
    Passes (fscTfTestParfwd1 scanV scanF am inf M x0) ∧ Passes (fscTfTestParfwd2 scanV am amX inf M x0) := by
  have hB' : (2 * M.stages.length + 1) • B ≤ inf :=
    (nsmul_le_nsmul_left ((abs_nonneg _).trans (hLT x0)) (by omega)).trans hB.le
  have hpar := C07_par_eq_seq_bounded inf B M hT hLT hL hB'
  have htf := (C62_par_eq_seq_bounded hV inf B M hLT hL hB').1 am
  have hpl := (C05_seqBackward_policy M).1
  have hpos : 0 < M.stages.length := List.length_pos_iff.2 hT
  have hu' : UniqueOptimal M x0 := fun us vs h1 h2 k _ => by rw [hu us vs h1 h2]
  have hbel := C09_below_sentinel_of_bounded inf B M x0 hLT hL hB
  obtain ⟨us, xs, V0, hf, hul, hxl, _, _, hsim, _, _, hopt, _⟩ := C06_seqForward_optimal M x0
  obtain ⟨ps, Vs, V1, us', xs', hb, _, hs', hp', hsim', hopt', _⟩ := C62_optimal ham hF M x0
  obtain rfl := hu _ _ hopt hopt'
  obtain rfl := Except.ok.inj (hsim.symm.trans hsim')
  obtain ⟨ps2, Vs2, us2, xs2, hb2, hfb2, hs2⟩ := C62_fwdbwd_unique hV ham hamX inf M x0 hT hbel hu'
  rw [hb] at hb2
  cases hb2
  rw [hs'] at hs2
  cases hs2
  rw [hb] at htf
  have e3 := maxDiffIdx_self (a := xs) (fun h => by rw [h] at hxl; cases hxl)
  have e4 := maxDiffIdx_self (a := us) (fun h => by rw [h, List.length_nil] at hul; omega)
  constructor
  · refine ⟨(0 : ℝ) = 0 ∧ (0 : ℝ) = 0, ?_, rfl, rfl⟩
    unfold fscTfTestParfwd1
    simp only [hpar, htf, C08_parForward_eq_seq M x0 M.seqBackwardPass.1 hT hpl, hf, hp', e3, e4, bind, Except.bind]
    rfl
  · have hinit : ∃ es, M.parFwdBwdInit inf x0 = .ok es := by
      unfold FSC.parFwdBwdInit
      cases h : M.stages with
      | nil => exact absurd h hT
      | cons s ss => exact ⟨_, rfl⟩
    obtain ⟨es, hes⟩ := hinit
    have h1 := (C09_unique inf M x0 hT hbel hu').1
    refine ⟨(0 : ℝ) = 0 ∧ (0 : ℝ) = 0, ?_, rfl, rfl⟩
    unfold fscTfTestParfwd2
    simp only [hpar, htf, hes, h1, hf, hfb2, e3, e4, bind, Except.bind]
    rfl

end General

/-- **C112** (data): `checkAndExpand` accepts the arguments given by `setupFSC` and returns the data of `testFSC4`. -/
theorem C112_setup (w : Fin 4 → Fin 9 → ℝ) :
    fscCheckAndExpand (1 : ℝ) (.one ⟨4, 3, testDyn4⟩) (.list ((List.finRange 9).map fun k => ⟨4, 3, testL4 w k⟩))
      (some ⟨4, ![9 / 10, 1, 11 / 10, 12 / 10]⟩) none =
      .ok ⟨(testFSC4 w).stages.map (fun s => ⟨4, 3, s.f⟩), (testFSC4 w).stages.map (fun s => ⟨4, 3, s.L⟩),
        ⟨4, (testFSC4 w).LT⟩⟩ := by
  rfl

/-- **C112** (optimum): whatever the draws in `[0, 1]` are, the test problem has exactly one optimal control sequence from
state `1`, always the same one; its cost is `10.9` plus a hundredth of the draws along it. -/
theorem C112_optimum {w : Fin 4 → Fin 9 → ℝ} (hw : ∀ x k, 0 ≤ w x k ∧ w x k ≤ 1) :
    (∀ us, IsOptimal (testFSC4 w).LT (testFSC4 w).stages 1 us ↔ us = [2, 2, 1, 1, 0, 0, 0, 1, 1]) ∧
    (testFSC4 w).seqSimulation 1 [2, 2, 1, 1, 0, 0, 0, 1, 1] = .ok [1, 2, 3, 3, 3, 2, 1, 0, 0, 0] ∧
    totalCost (testFSC4 w).LT (testFSC4 w).stages 1 [2, 2, 1, 1, 0, 0, 0, 1, 1] =
      109 / 10 + 1 / 100 * (w 1 0 + w 2 1 + w 3 2 + w 3 3 + w 3 4 + w 2 5 + w 1 6 + w 0 7 + w 0 8) := by
  refine ⟨testFSC4_optimal_iff hw, rfl, ?_⟩
  show testL4 w 0 1 2 + (testL4 w 1 2 2 + (testL4 w 2 3 1 + (testL4 w 3 3 1 + (testL4 w 4 3 0 + (testL4 w 5 2 0 +
      (testL4 w 6 1 0 + (testL4 w 7 0 1 + (testL4 w 8 0 1 + 9 / 10)))))))) = _
  have e : ∀ k x u (t c : ℤ), testTrack4 x k = t → testUCost u = c → testL4 w k x u = t + 1 / 100 * w x k + c := by
    rintro k x u _ _ rfl rfl; rfl
  rw [e 0 1 2 0 1 rfl rfl, e 1 2 2 1 1 rfl rfl, e 2 3 1 0 0 rfl rfl, e 3 3 1 0 0 rfl rfl, e 4 3 0 0 1 rfl rfl,
    e 5 2 0 1 1 rfl rfl, e 6 1 0 2 1 rfl rfl, e 7 0 1 1 0 rfl rfl, e 8 0 1 0 0 rfl rfl]
  push_cast
  ring

/-- **C112**: all four tests of `test_fsc_tf.py` pass whatever the draws in `[0, 1]` are, if `tf.argmin` returns the first
minimiser, and `test_parfwd_1` and `test_parfwd_2` pass whatever minimisers it returns. -/
theorem C112_tests_pass
    {scanV : ((Fin 4 → Fin 4 → ℝ) → (Fin 4 → Fin 4 → ℝ) → Py (Fin 4 → Fin 4 → ℝ)) →
      List (Fin 4 → Fin 4 → ℝ) → Py (List (Fin 4 → Fin 4 → ℝ))}
    {scanF : ((Fin 4 → Fin 4) → (Fin 4 → Fin 4) → Py (Fin 4 → Fin 4)) →
      List (Fin 4 → Fin 4) → Py (List (Fin 4 → Fin 4))} (hV : IsAssocScan scanV) (hF : IsAssocScan scanF)
    {w : Fin 4 → Fin 9 → ℝ} (hw : ∀ x k, 0 ≤ w x k ∧ w x k ≤ 1) :
    Passes (fscTfTestSequential argmin1 (testFSC4 w) 1) ∧
    Passes (fscTfTestParback scanV argmin1 (10 ^ 20) (testFSC4 w)) ∧
    ∀ (am : (Fin 3 → ℝ) → Fin 3) (amX : (Fin 4 → ℝ) → Fin 4), IsArgmin am → IsArgmin amX →
      Passes (fscTfTestParfwd1 scanV scanF am (10 ^ 20) (testFSC4 w) 1) ∧
      Passes (fscTfTestParfwd2 scanV am amX (10 ^ 20) (testFSC4 w) 1) := by
  have hT : (testFSC4 w).stages ≠ [] := by simp [testFSC4]
  obtain ⟨hLT, hL⟩ := testFSC4_bound hw
  obtain ⟨a1, a2, _⟩ := C112_first_argmin hV hF (10 ^ 20) 7 (testFSC4 w) 1 hT hLT hL (by rw [testFSC4_length]; norm_num)
  refine ⟨a1, a2, fun am amX ham hamX => ?_⟩
  exact C112_any_argmin hV hF ham hamX (10 ^ 20) 7 (testFSC4 w) 1 hT hLT hL (by rw [testFSC4_length]; norm_num)
    (fun us vs h1 h2 => by rw [((C112_optimum hw).1 us).1 h1, ((C112_optimum hw).1 vs).1 h2])

/-- A problem with one state, one step and two controls of equal cost. -/
noncomputable def flatFSC : FSC 1 2 ℝ := ⟨[⟨fun _ _ => 0, fun _ _ => 0⟩], fun _ => 0⟩

/-- The last minimiser of two numbers. -/
noncomputable def lastOfTwo (v : Fin 2 → ℝ) : Fin 2 := if v 1 ≤ v 0 then 1 else 0

/-- **C112** (ties): `test_sequential` also compares the policies, so it does depend on which minimiser `tf.argmin` returns:
with the last one it fails on a problem with a tie, although both policies are optimal. -/
theorem C112_tie : IsArgmin lastOfTwo ∧ ¬ Passes (fscTfTestSequential lastOfTwo flatFSC 0) ∧
    Passes (fscTfTestSequential argmin1 flatFSC 0) := by
  have ham : IsArgmin lastOfTwo := by
    intro v i
    unfold lastOfTwo
    split
    · rename_i h
      match i with
      | 0 => exact h
      | 1 => exact le_rfl
    · rename_i h
      match i with
      | 0 => exact le_rfl
      | 1 => exact (not_le.1 h).le
  refine ⟨ham, ?_, ?_⟩
  · rintro ⟨P, h, hP⟩
    have h1 : flatFSC.tfSeqBackward lastOfTwo = .ok ([fun _ => 1], flatFSC.seqBackwardPass.2) := by
      rw [tfSeqBackward_eq_lists, seqBackwardPass_eq]
      have : amPolList lastOfTwo flatFSC.LT flatFSC.stages = [fun _ => 1] := by
        show [fun x => lastOfTwo (stageVu _ _ x)] = _
        congr 1
        funext x
        simp [lastOfTwo, stageVu, flatFSC, valueFn]
      rw [this]
    have h2 : flatFSC.seqBackwardPass.1 = [fun _ => 0] := by
      show [fun x => argmin1 (stageVu _ _ x)] = _
      congr 1
      funext x
      simp [argmin1, stageVu, flatFSC, List.finRange_succ]
    have h3 : maxDiffRows (policyRows flatFSC.seqBackwardPass.1) (policyRows ([fun _ => 1] : List (Fin 1 → Fin 2))) = .ok 1 := by
      rw [h2]
      simp [maxDiffRows, policyRows, listMax, List.finRange_succ]
    have h4 : maxDiffRows flatFSC.seqBackwardPass.2 flatFSC.seqBackwardPass.2 = .ok 0 :=
      maxDiffRows_self (fun h => by have := (C05_seqBackward_value flatFSC).1; rw [h] at this; cases this)
    obtain ⟨us, xs, _, hf, _⟩ := C06_seqForward_optimal flatFSC 0
    unfold fscTfTestSequential at h
    simp only [hf, h1, h3, h4, bind, Except.bind] at h
    split at h
    · cases h
    split at h
    · cases h
    split at h
    · cases h
    have hP' := (Except.ok.inj h).symm ▸ hP
    exact one_ne_zero hP'.2.1
  · exact (C112_first_argmin (scanV := fun op l => scanVals op l) (scanF := fun op l => scanVals op l) C17_scan_example
      C17_scan_example 1 0 flatFSC 0 (by simp [flatFSC]) (by simp [flatFSC]) (by simp [flatFSC]) (by simp)).1

/-- Draws with two different values. -/
noncomputable def exDraws4 : Fin 4 → Fin 9 → ℝ := fun x _ => if x = 1 then 1 / 2 else 3 / 4

theorem exDraws4_mem (x : Fin 4) (k : Fin 9) : 0 ≤ exDraws4 x k ∧ exDraws4 x k ≤ 1 := by
  unfold exDraws4
  split <;> norm_num

example : Passes (fscTfTestSequential argmin1 (testFSC4 exDraws4) 1) :=
  (C112_tests_pass (scanV := fun op l => scanVals op l) (scanF := fun op l => scanVals op l) C17_scan_example
    C17_scan_example exDraws4_mem).1

example : totalCost (testFSC4 exDraws4).LT (testFSC4 exDraws4).stages 1 [2, 2, 1, 1, 0, 0, 0, 1, 1] =
    109 / 10 + 1 / 100 * (25 / 4) := by
  rw [(C112_optimum exDraws4_mem).2.2]
  simp [exDraws4]
  norm_num

/-- The hypotheses of `C112_any_argmin` hold for the test problem without noise and the first minimisers. -/
example : Passes (fscTfTestParfwd2 (fun op l => scanVals op l) argmin1 argmin1 (10 ^ 20) (testFSC4 0) 1) :=
  (C112_any_argmin (scanV := fun op l => scanVals op l) (scanF := fun op l => scanVals op l) C17_scan_example
    C17_scan_example argmin1_le argmin1_le (10 ^ 20) 7 (testFSC4 0) 1 (by simp [testFSC4])
    (testFSC4_bound (w := 0) (fun _ _ => by simp)).1 (testFSC4_bound (w := 0) (fun _ _ => by simp)).2
    (by rw [testFSC4_length]; norm_num) (fun us vs h1 h2 => by
      have h := (C112_optimum (w := 0) (fun _ _ => by simp)).1
      rw [(h us).1 h1, (h vs).1 h2])).2

end Verif
