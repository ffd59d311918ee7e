import Verif.Proof.FSCTests
import Verif.Props.FSC
import Mathlib.Tactic.FinCases

/-!
# C111: the unit tests of the finite-state solvers (`test_fsc_np.py`)
-/

namespace Verif

/-- A test passes: no exception, and every asserted condition holds. -/
def Passes (t : Py Prop) : Prop := ∃ P, t = .ok P ∧ P

section General
variable {n m : ℕ} [NeZero n] [NeZero m]

/-- **C111** (value functions): the tests `test_par_simple`, `test_par_backscan`, `test_par_back`, `test_par_forscan`,
`test_sim` and `test_cost` pass on every problem, from every state, whose costs are bounded by `B` with `(2T+1)B ≤ inf`. -/
theorem C111_any_problem (inf B : ℝ) (M : FSC n m ℝ) (x0 : Fin n) (hT : M.stages ≠ [])
    (hLT : ∀ x, |M.LT x| ≤ B) (hL : ∀ s ∈ M.stages, ∀ x u, |s.L x u| ≤ B)
    (hB : (2 * M.stages.length + 1) • B ≤ inf) :
    Passes (fscTestParSimple inf M) ∧ Passes (fscTestParBackscan inf M) ∧ Passes (fscTestParBack inf M) ∧
    Passes (fscTestParForscan inf M x0) ∧ Passes (fscTestSim M x0) ∧ Passes (fscTestCost M x0) := by
  have hpar := C07_par_eq_seq_bounded inf B M hT hLT hL hB
  have hv : ∀ k ≤ M.stages.length, parVal inf M.LT (M.stages.drop k) = valueFn M.LT (M.stages.drop k) := by
    obtain ⟨us, Vs, hp, _, _, _, hV⟩ := parBackwardPass_eq inf M hT
    rw [hpar, seqBackwardPass_eq] at hp
    intro k hk
    have h1 := hV k hk
    have h2 : Vs = valList M.LT M.stages := by
      have := Except.ok.inj hp
      exact (congrArg Prod.snd this).symm
    rw [h2, valList_get _ _ hk] at h1
    exact (Option.some.inj h1).symm
  have hinit : M.parBackwardInit inf = .ok (M.stages.map (stageElem inf) ++ [fun x _ => M.LT x]) := by
    unfold FSC.parBackwardInit
    cases h : M.stages with
    | nil => exact absurd h hT
    | cons s ss => rfl
  have hlen : M.seqBackwardPass.2.length = M.stages.length + 1 := (C05_seqBackward_value M).1
  have hget : ∀ k ≤ M.stages.length, pyGet M.seqBackwardPass.2 k = .ok (valueFn M.LT (M.stages.drop k)) := by
    intro k hk
    rw [seqBackwardPass_eq]
    exact pyGet_ok.2 (valList_get _ _ hk)
  obtain ⟨us, xs, V0, hf, hul, hxl, _, _, hsim, hV0, hcost, _, _⟩ := C06_seqForward_optimal M x0
  have hV0' : pyGet M.seqBackwardPass.2 0 = .ok V0 := pyGet_ok.2 hV0
  refine ⟨?_, ?_, ?_, ?_, ?_, ?_⟩
  · have hlast : (M.stages.map (stageElem inf) ++ [fun x _ => M.LT x]).getLast? = some (fun x _ => M.LT x) := by simp
    have hrun : ∃ r : (Fin n → Fin n → ℝ) × Prop, (List.range M.seqBackwardPass.2.length).reverse.foldlM
        (fun (st : (Fin n → Fin n → ℝ) × Prop) k => do
          let V ← if k < M.seqBackwardPass.2.length - 1 then do
              let e ← pyGet (M.stages.map (stageElem inf) ++ [fun x _ => M.LT x]) k
              pure (combineV e st.1)
            else pure st.1
          let V1 ← pyGet M.seqBackwardPass.2 k
          return (V, st.2 ∧ normDiff (fun x => V x 0) V1 < testTol)) ((fun x _ => M.LT x), True) = Except.ok r ∧ r.2 := by
      rw [hlen, List.range_succ, List.reverse_append, List.reverse_singleton, List.singleton_append, List.foldlM_cons,
        hget _ le_rfl, if_neg (by omega)]
      have h0 : (fun (x : Fin n) (_ : Fin n) => M.LT x) =
          fun x _ => parVal inf M.LT (M.stages.drop M.stages.length) x := by
        rw [List.drop_length]; rfl
      have h1 : valueFn M.LT (M.stages.drop M.stages.length) = M.LT := by rw [List.drop_length]; rfl
      rw [h1]
      show ∃ r, List.foldlM _ ((fun x _ => M.LT x), True ∧ normDiff M.LT M.LT < testTol) _ = Except.ok r ∧ r.2
      rw [h0]
      refine parSimple_loop inf M hv _ ?_ _ le_rfl _ ⟨trivial, by rw [normDiff_self]; exact testTol_pos⟩
      intro V P k hk hP
      have hk' : (M.stages.map (stageElem inf) ++ [fun x _ => M.LT x])[k]? = some (stageElem inf M.stages[k]) := by
        rw [List.getElem?_append_left (by simpa using hk), List.getElem?_map, List.getElem?_eq_getElem hk]; rfl
      refine ⟨P ∧ normDiff (fun x => combineV (stageElem inf M.stages[k]) V x 0)
        (valueFn M.LT (M.stages.drop k)) < testTol, ?_, fun h => ⟨hP, ?_⟩⟩
      · rw [if_pos (by omega), ← h0, pyGet_ok.2 hk', hget k hk.le]
        rfl
      · rw [funext h, normDiff_self]; exact testTol_pos
    obtain ⟨r, hr, hr2⟩ := hrun
    refine ⟨r.2, ?_, hr2⟩
    unfold fscTestParSimple
    simp only [bind, Except.bind] at hr
    simp only [hinit, hlast, bind, Except.bind]
    simp only [hr]
    rfl
  · unfold fscTestParBackscan
    obtain ⟨es, hes, hesl, heg⟩ := scan_combineV_suffix
      (M.stages.map (stageElem inf) ++ [fun x _ => M.LT x]) (by simp)
    simp only [List.length_append, List.length_map, List.length_cons, List.length_nil, zero_add] at hesl heg
    have hmap : (List.range (M.stages.length + 1)).mapM (fun k => do
        let e ← pyGet es k
        let V1 ← pyGet M.seqBackwardPass.2 k
        return normDiff (fun x => e x 0) V1 < testTol) =
        Except.ok ((List.range (M.stages.length + 1)).map fun _ => (0 : ℝ) < testTol) := by
      apply mapM_range_of
      intro k hk
      have h1 : es[k]? = some (fun x _ => parVal inf M.LT (M.stages.drop k) x) := by
        rw [heg k hk, ← foldr1_parVal, List.drop_append_of_le_length (by simp; omega), List.map_drop]
      rw [pyGet_ok.2 h1, hget k (by omega), hv k (by omega)]
      show Except.ok (normDiff (valueFn M.LT (M.stages.drop k)) (valueFn M.LT (M.stages.drop k)) < testTol) = _
      rw [normDiff_self]
    refine ⟨∀ c ∈ (List.range (M.stages.length + 1)).map (fun _ => (0 : ℝ) < testTol), c, ?_, ?_⟩
    · simp only [hinit, hlen, bind, Except.bind]
      rw [hes]
      simp only [bind, Except.bind] at hmap
      simp only [hmap]
      rfl
    · intro c hc
      obtain ⟨_, _, rfl⟩ := List.mem_map.1 hc
      exact testTol_pos
  · have hpl := (C05_seqBackward_policy M).1
    have hpos : 0 < M.stages.length := List.length_pos_iff.2 hT
    have h1 : listMax (List.zipWith normDiff M.seqBackwardPass.2 M.seqBackwardPass.2) = .ok 0 := by
      refine listMax_zero (fun h => ?_) fun a ha => ?_
      · have := congrArg List.length h
        simp [hlen] at this
      · rw [List.zipWith_self] at ha
        obtain ⟨V, _, rfl⟩ := List.mem_map.1 ha
        exact normDiff_self V
    have h2 : (M.seqBackwardPass.1.zip M.seqBackwardPass.1).mapM
        (fun e => listMax ((List.finRange n).map fun x => |((e.1 x).val : ℝ) - (e.2 x).val|)) =
        Except.ok (M.seqBackwardPass.1.map fun _ => (0 : ℝ)) := by
      have : ∀ l : List (Fin n → Fin m), (l.zip l).mapM
          (fun e => listMax ((List.finRange n).map fun x => |((e.1 x).val : ℝ) - (e.2 x).val|)) =
          Except.ok (l.map fun _ => (0 : ℝ)) := by
        intro l
        induction l with
        | nil => rfl
        | cons p l ih =>
          rw [List.zip_cons_cons, List.mapM_cons, ih, listMax_zero]
          · rfl
          · simp [NeZero.ne n]
          · intro a ha
            obtain ⟨x, _, rfl⟩ := List.mem_map.1 ha
            simp
      exact this _
    have h3 : listMax (M.seqBackwardPass.1.map fun _ => (0 : ℝ)) = .ok 0 := by
      refine listMax_zero (fun h => ?_) fun a ha => ?_
      · have := congrArg List.length h
        rw [List.length_map, hpl, List.length_nil] at this
        omega
      · obtain ⟨_, _, rfl⟩ := List.mem_map.1 ha
        rfl
    refine ⟨(0 : ℝ) < testTol ∧ (0 : ℝ) = 0, ?_, testTol_pos, rfl⟩
    unfold fscTestParBack
    simp only [hpar, bind, Except.bind]
    simp only [h1, h2, h3]
    rfl
  · refine ⟨xs = xs ∧ us = us ∧ |V0 x0 - V0 x0| < testTol, ?_, rfl, rfl, by simpa using testTol_pos⟩
    unfold fscTestParForscan
    simp only [hpar, hf, hV0', bind, Except.bind,
      C08_parForward_eq_seq M x0 M.seqBackwardPass.1 hT (C05_seqBackward_policy M).1]
    rfl
  · refine ⟨xs = xs, ?_, rfl⟩
    unfold fscTestSim
    simp only [hf, hsim, bind, Except.bind]
    rfl
  · refine ⟨|V0 x0 - V0 x0| < testTol, ?_, by simpa using testTol_pos⟩
    unfold fscTestCost
    simp only [hf, hV0', hcost, bind, Except.bind]
    rfl

/-- **C111** (combined pass): `test_par_fbscan` and `test_par_fbscan2` pass on every problem whose optimal trajectory from
`x0` is unique and whose costs are bounded by `B` with `(2T+2)B < inf`. -/
theorem C111_unique_optimum (inf B : ℝ) (M : FSC n m ℝ) (x0 : Fin n) (hT : M.stages ≠ [])
    (hLT : ∀ x, |M.LT x| ≤ B) (hL : ∀ s ∈ M.stages, ∀ x u, |s.L x u| ≤ B)
    (hB : (2 * M.stages.length + 2) • B < inf) (hu : UniqueOptimal M x0) :
    Passes (fscTestParFbscan testTol inf M x0) ∧ Passes (fscTestParFbscan2 testTol inf M x0) := by
  have hB0 : 0 ≤ B := (abs_nonneg _).trans (hLT x0)
  have hpar := C07_par_eq_seq_bounded inf B M hT hLT hL
    ((nsmul_le_nsmul_left hB0 (by omega)).trans hB.le)
  obtain ⟨h1, h2⟩ := C09_unique inf M x0 hT (C09_below_sentinel_of_bounded inf B M x0 hLT hL hB) hu
  obtain ⟨us, xs, V0, hf, _, _, _, _, _, hV0, _, _, _⟩ := C06_seqForward_optimal M x0
  have hV0' : pyGet M.seqBackwardPass.2 0 = .ok V0 := pyGet_ok.2 hV0
  constructor
  · refine ⟨xs = xs ∧ us = us ∧ |V0 x0 - V0 x0| < testTol, ?_, rfl, rfl, by simpa using testTol_pos⟩
    unfold fscTestParFbscan
    simp only [hpar, h1, hf, hV0', bind, Except.bind]
    rfl
  · refine ⟨xs = xs ∧ us = us ∧ |V0 x0 - V0 x0| < testTol, ?_, rfl, rfl, by simpa using testTol_pos⟩
    unfold fscTestParFbscan2
    simp only [hpar, h1, h2, hf, hV0', bind, Except.bind]
    rfl

end General

/-- **C111** (data): `checkAndExpand` accepts the arguments given by `setupFSC` and returns nine copies of `f`, the stage
costs and terminal costs all `1`, which are the data of `testFSC`. -/
theorem C111_setup (w : Fin 3 → Fin 9 → ℝ) :
    fscCheckAndExpand (1 : ℝ) (.one ⟨3, 3, testDyn⟩) (.list ((List.finRange 9).map fun k => ⟨3, 3, testL w k⟩)) none none =
      .ok ⟨(testFSC w).stages.map (fun s => ⟨3, 3, s.f⟩), (testFSC w).stages.map (fun s => ⟨3, 3, s.L⟩),
        ⟨3, (testFSC w).LT⟩⟩ := by
  rfl

/-- **C111** (optimum): whatever the draws in `[0, 1]` are, the test problem has exactly one optimal control sequence from
`x0`, always the same one, and every other one costs at least `0.9` more. -/
theorem C111_optimum {w : Fin 3 → Fin 9 → ℝ} (hw : ∀ x k, 0 ≤ w x k ∧ w x k ≤ 1) :
    (∀ us, IsOptimal (testFSC w).LT (testFSC w).stages testX0 us ↔ us = [2, 1, 1, 1, 0, 0, 1, 1, 1]) ∧
    totalCost (testFSC w).LT (testFSC w).stages testX0 [2, 1, 1, 1, 0, 0, 1, 1, 1] =
      7 + 1 / 100 * (w 1 0 + w 2 1 + w 2 2 + w 2 3 + w 2 4 + w 1 5 + w 0 6 + w 0 7 + w 0 8) ∧
    ∀ us : List (Fin 3), us.length = 9 → us ≠ [2, 1, 1, 1, 0, 0, 1, 1, 1] →
      totalCost (testFSC w).LT (testFSC w).stages testX0 [2, 1, 1, 1, 0, 0, 1, 1, 1] + 9 / 10 ≤
        totalCost (testFSC w).LT (testFSC w).stages testX0 us := by
  have hc : totalCost (testFSC w).LT (testFSC w).stages testX0 [2, 1, 1, 1, 0, 0, 1, 1, 1] =
      7 + 1 / 100 * (w 1 0 + w 2 1 + w 2 2 + w 2 3 + w 2 4 + w 1 5 + w 0 6 + w 0 7 + w 0 8) := by
    show testL w 0 1 2 + (testL w 1 2 1 + (testL w 2 2 1 + (testL w 3 2 1 + (testL w 4 2 0 + (testL w 5 1 0 +
      (testL w 6 0 1 + (testL w 7 0 1 + (testL w 8 0 1 + 1)))))))) = _
    have e : ∀ k x u (t c : ℤ), testTrack x k = t → testUCost u = c → testL w k x u = t + 1 / 100 * w x k + c := by
      rintro k x u _ _ rfl rfl; rfl
    rw [e 0 1 2 0 1 rfl rfl, e 1 2 1 0 0 rfl rfl, e 2 2 1 0 0 rfl rfl, e 3 2 1 0 0 rfl rfl, e 4 2 0 0 1 rfl rfl,
      e 5 1 0 1 1 rfl rfl, e 6 0 1 1 0 rfl rfl, e 7 0 1 1 0 rfl rfl, e 8 0 1 0 0 rfl rfl]
    push_cast
    ring
  refine ⟨testFSC_optimal_iff hw, hc, fun us hl hne => ?_⟩
  have h8 := (testFSC_gap hw).2 us hl hne
  rw [hc]
  have := hw 1 0; have := hw 2 1; have := hw 2 2; have := hw 2 3; have := hw 2 4; have := hw 1 5; have := hw 0 6
  have := hw 0 7; have := hw 0 8
  linarith

/-- **C111** (solvers): the trajectory computed by the sequential passes (by the tests, that of all the others). -/
theorem C111_trajectory {w : Fin 3 → Fin 9 → ℝ} (hw : ∀ x k, 0 ≤ w x k ∧ w x k ≤ 1) :
    (testFSC w).seqForwardPass testX0 (testFSC w).seqBackwardPass.1 =
      .ok ([2, 1, 1, 1, 0, 0, 1, 1, 1], [1, 2, 2, 2, 2, 1, 0, 0, 0, 0]) := by
  obtain ⟨us, xs, V0, hf, _, _, _, _, hsim, _, _, hopt, _⟩ := C06_seqForward_optimal (testFSC w) testX0
  obtain rfl := ((C111_optimum hw).1 us).1 hopt
  have h : (testFSC w).seqSimulation testX0 [2, 1, 1, 1, 0, 0, 1, 1, 1] = .ok [1, 2, 2, 2, 2, 1, 0, 0, 0, 0] := rfl
  rw [hf, ← Except.ok.inj (h.symm.trans hsim)]

/-- **C111**: all nine tests of `test_fsc_np.py` pass, whatever the draws in `[0, 1]` are. -/
theorem C111_tests_pass {w : Fin 3 → Fin 9 → ℝ} (hw : ∀ x k, 0 ≤ w x k ∧ w x k ≤ 1) :
    (∃ st N st', batchInit (10 ^ 10) (testFSC w) = .ok st ∧ BatchRuns (testFSC w) testX0 st N st' ∧
      Passes (fscTestSeq (testFSC w) testX0 st')) ∧
    Passes (fscTestParSimple (10 ^ 20) (testFSC w)) ∧ Passes (fscTestParBackscan (10 ^ 20) (testFSC w)) ∧
    Passes (fscTestParBack (10 ^ 20) (testFSC w)) ∧ Passes (fscTestParForscan (10 ^ 20) (testFSC w) testX0) ∧
    Passes (fscTestParFbscan testTol (10 ^ 20) (testFSC w) testX0) ∧ Passes (fscTestParFbscan2 testTol (10 ^ 20) (testFSC w) testX0) ∧
    Passes (fscTestSim (testFSC w) testX0) ∧ Passes (fscTestCost (testFSC w) testX0) := by
  have hT : (testFSC w).stages ≠ [] := fun h => by
    have := testFSC_length w
    rw [h] at this
    cases this
  obtain ⟨hLT, hL⟩ := testFSC_bound hw
  have hu : UniqueOptimal (testFSC w) testX0 := by
    intro us vs h1 h2 k _
    rw [((C111_optimum hw).1 us).1 h1, ((C111_optimum hw).1 vs).1 h2]
  obtain ⟨a1, a2, a3, a4, a5, a6⟩ := C111_any_problem (10 ^ 20) 7 (testFSC w) testX0 hT hLT hL
    (by rw [testFSC_length]; norm_num)
  obtain ⟨b1, b2⟩ := C111_unique_optimum (10 ^ 20) 7 (testFSC w) testX0 hT hLT hL
    (by rw [testFSC_length]; norm_num) hu
  refine ⟨?_, a1, a2, a3, a4, b1, b2, a5, a6⟩
  obtain ⟨st, st', V0, h1, h2, h3, h4, h5, h6⟩ := C10_batch_optimal (10 ^ 10) (testFSC w) testX0 hT
    ⟨testUs, by rw [testFSC_length]; rfl, (testFSC_gap hw).1.trans (by norm_num)⟩
  refine ⟨st, _, st', h1, h2, ?_⟩
  have h7 := ((C111_optimum hw).1 _).1 h3
  have h : (testFSC w).seqSimulation testX0 [2, 1, 1, 1, 0, 0, 1, 1, 1] = .ok [1, 2, 2, 2, 2, 1, 0, 0, 0, 0] := rfl
  rw [h7, h] at h4
  refine ⟨st'.min_x_list = [1, 2, 2, 2, 2, 1, 0, 0, 0, 0] ∧ st'.min_u_list = [2, 1, 1, 1, 0, 0, 1, 1, 1] ∧
    |st'.min_cost - V0 testX0| < testTol, ?_, (Except.ok.inj h4).symm, h7, ?_⟩
  · unfold fscTestSeq
    simp only [pyGet_ok.2 h5, C111_trajectory hw, bind, Except.bind]
    rfl
  · rw [h6, sub_self, abs_zero]; exact testTol_pos

/-- **C111** (ties): uniqueness matters for `test_par_fbscan`: there is a problem with small integer costs and two optimal
trajectories on which it fails, for every positive tolerance. -/
theorem C111_ties_fail : ∃ M : FSC 3 2 ℤ, M.stages.length = 2 ∧ (∀ s ∈ M.stages, ∀ x u, s.L x u = 0) ∧
    ∀ tol, ¬ Passes (fscTestParFbscan tol (10 ^ 20) M 0) := by
  refine ⟨tieFSC, rfl, by decide, fun tol => ?_⟩
  rintro ⟨P, h, hP⟩
  have hpar : tieFSC.parBackwardPass (10 ^ 20) = .ok tieFSC.seqBackwardPass :=
    C07_par_eq_seq_bounded (10 ^ 20) 0 tieFSC (by decide) (by decide) (by decide) (by decide)
  have h1 : tieFSC.seqForwardPass 0 tieFSC.seqBackwardPass.1 = .ok ([0, 0], [0, 1, 2]) := by decide
  have h2 : tieFSC.parFwdBwdPass (10 ^ 20) 0 tieFSC.seqBackwardPass.1 tieFSC.seqBackwardPass.2 =
      .ok ([0, 0], [0, 1, 1]) := by decide
  obtain ⟨V, hV, _⟩ := (C05_seqBackward_value tieFSC).2 0 (Nat.zero_le _)
  unfold fscTestParFbscan at h
  simp only [hpar, h1, h2, pyGet_ok.2 hV, bind, Except.bind] at h
  have hP' := (Except.ok.inj h).symm ▸ hP
  exact absurd hP'.1 (by decide)

/-- Draws with two different values. -/
noncomputable def exDraws : Fin 3 → Fin 9 → ℝ := fun x _ => if x = 1 then 1 / 2 else 3 / 4

theorem exDraws_mem (x : Fin 3) (k : Fin 9) : 0 ≤ exDraws x k ∧ exDraws x k ≤ 1 := by
  unfold exDraws
  split <;> norm_num

example : Passes (fscTestParFbscan testTol (10 ^ 20) (testFSC exDraws) testX0) :=
  (C111_tests_pass exDraws_mem).2.2.2.2.2.1

example : totalCost (testFSC exDraws).LT (testFSC exDraws).stages testX0 [2, 1, 1, 1, 0, 0, 1, 1, 1] = 7 + 1 / 100 * (25 / 4) := by
  rw [(C111_optimum exDraws_mem).2.1]
  simp [exDraws]
  norm_num

/-- Without noise the test problem already has one optimum only. -/
example (us : List (Fin 3)) : IsOptimal (testFSC 0).LT (testFSC 0).stages testX0 us ↔ us = [2, 1, 1, 1, 0, 0, 1, 1, 1] :=
  (C111_optimum (w := 0) (fun _ _ => by simp)).1 us

example : Passes (fscTestParSimple (10 ^ 20) (testFSC exDraws)) :=
  (C111_any_problem (10 ^ 20) 7 (testFSC exDraws) 2 (by simp [testFSC]) (testFSC_bound exDraws_mem).1
    (testFSC_bound exDraws_mem).2 (by rw [testFSC_length]; norm_num)).1

example : Passes (fscTestParFbscan2 testTol (10 ^ 20) (testFSC exDraws) testX0) :=
  (C111_unique_optimum (10 ^ 20) 7 (testFSC exDraws) testX0 (by simp [testFSC]) (testFSC_bound exDraws_mem).1
    (testFSC_bound exDraws_mem).2 (by rw [testFSC_length]; norm_num) (fun us vs h1 h2 k _ => by
      rw [((C111_optimum exDraws_mem).1 us).1 h1, ((C111_optimum exDraws_mem).1 vs).1 h2])).2

end Verif
