import Verif.Proof.FSCTestsSound
import Verif.Props.FSCTFTests

/-!
# C113: what passing the unit tests of the finite-state solvers means
-/

namespace Verif

variable {n m : ℕ} [NeZero n] [NeZero m]

/-- **C113** (`test_par_back`): on a problem with at least one step, if the test passes then the parallel pass returns the
policies of the sequential one and as many value functions, each within `1e-10` in every entry. -/
theorem C113_par_back {inf : ℝ} {M : FSC n m ℝ} (hT : M.stages ≠ []) (h : Passes (fscTestParBack inf M)) :
    ∃ Vs, M.parBackwardPass inf = .ok (M.seqBackwardPass.1, Vs) ∧ Vs.length = M.seqBackwardPass.2.length ∧
      ∀ (k : ℕ) (V V' : Fin n → ℝ), M.seqBackwardPass.2[k]? = some V → Vs[k]? = some V' → ∀ x, |V x - V' x| < 1 / 10 ^ 10 := by
  obtain ⟨P, h, hP⟩ := h
  obtain ⟨us, Vs, hp, hul, hvl, _, _⟩ := parBackwardPass_eq inf M hT
  unfold fscTestParBack at h
  dsimp only at h
  rw [hp] at h
  obtain ⟨b2, hb2, h⟩ := bind_ok.1 h
  obtain rfl := Except.ok.inj hb2
  obtain ⟨e, he, h⟩ := bind_ok.1 h
  obtain ⟨ds, hds, h⟩ := bind_ok.1 h
  obtain ⟨e', he', h⟩ := bind_ok.1 h
  have hP' := (Except.ok.inj h).symm ▸ hP
  obtain ⟨h1, rfl⟩ := hP'
  have hpl := (C05_seqBackward_policy M).1
  have hus : us = M.seqBackwardPass.1 := by
    refine List.ext_getElem (hul.trans hpl.symm) fun k k1 k2 => funext fun x => ?_
    rw [mapM_ok_iff, List.forall₂_iff_get] at hds
    have kz : k < (M.seqBackwardPass.1.zip us).length := by simp; omega
    have hd := hds.2 k kz (hds.1 ▸ kz)
    simp only [List.get_eq_getElem, List.getElem_zip] at hd
    have h2 := listMax_ge hd _ (List.mem_map.2 ⟨x, List.mem_finRange x, rfl⟩)
    exact (val_eq_of_abs (h2.trans (listMax_ge he' _ (List.getElem_mem _)))).symm
  refine ⟨Vs, by rw [hp, hus], hvl.trans (C05_seqBackward_value M).1.symm, fun k V V' hV hV' x => ?_⟩
  exact ((abs_le_normDiff V V' x).trans (listMax_ge he _ (zipWith_mem hV hV'))).trans_lt h1

/-- **C113** (`test_parback`): if the test passes, both parallel passes complete, with the same policies and value functions
within `1e-6`. -/
theorem C113_tf_parback {scanV : ((Fin n → Fin n → ℝ) → (Fin n → Fin n → ℝ) → Py (Fin n → Fin n → ℝ)) →
      List (Fin n → Fin n → ℝ) → Py (List (Fin n → Fin n → ℝ))} {am : (Fin m → ℝ) → Fin m} {inf : ℝ} {M : FSC n m ℝ}
    (h : Passes (fscTfTestParback scanV am inf M)) :
    ∃ us V1 V2, M.parBackwardPass inf = .ok (us, V1) ∧ M.tfParBackward scanV am inf = .ok (us, V2) ∧
      V1.length = V2.length ∧ ∀ (k : ℕ) (V V' : Fin n → ℝ), V1[k]? = some V → V2[k]? = some V' → ∀ x, |V x - V' x| < 1 / 10 ^ 6 := by
  obtain ⟨P, h, hP⟩ := h
  unfold fscTfTestParback at h
  obtain ⟨b1, hb1, h⟩ := bind_ok.1 h
  obtain ⟨b2, hb2, h⟩ := bind_ok.1 h
  obtain ⟨e1, he1, h⟩ := bind_ok.1 h
  obtain ⟨e2, he2, h⟩ := bind_ok.1 h
  have hP' := (Except.ok.inj h).symm ▸ hP
  obtain ⟨h1, rfl⟩ := hP'
  have hu := maxDiffRows_policies he2
  obtain ⟨hl, hv⟩ := maxDiffRows_le he1
  exact ⟨b1.1, b1.2, b2.2, hb1, by rw [hb2, hu], hl, fun k V V' hV hV' x => (hv k V V' hV hV' x).trans_lt h1⟩

omit [NeZero n] in
/-- **C113** (`test_sequential`): if the test passes, the TensorFlow passes give the policies, states and controls of the numpy
ones, and the value functions within `1e-6`. -/
theorem C113_tf_sequential {am : (Fin m → ℝ) → Fin m} {M : FSC n m ℝ} {x0 : Fin n}
    (h : Passes (fscTfTestSequential am M x0)) :
    ∃ Vs us xs, M.tfSeqBackward am = .ok (M.seqBackwardPass.1, Vs) ∧ M.seqForwardPass x0 M.seqBackwardPass.1 = .ok (us, xs) ∧
      M.tfSeqForward x0 M.seqBackwardPass.1 = .ok (xs, us) ∧ M.seqBackwardPass.2.length = Vs.length ∧
      ∀ (k : ℕ) (V V' : Fin n → ℝ), M.seqBackwardPass.2[k]? = some V → Vs[k]? = some V' → ∀ x, |V x - V' x| < 1 / 10 ^ 6 := by
  obtain ⟨P, h, hP⟩ := h
  unfold fscTfTestSequential at h
  obtain ⟨p1, hp1, h⟩ := bind_ok.1 h
  obtain ⟨b, hb, h⟩ := bind_ok.1 h
  obtain ⟨e1, he1, h⟩ := bind_ok.1 h
  obtain ⟨e2, he2, h⟩ := bind_ok.1 h
  obtain ⟨q, hq, h⟩ := bind_ok.1 h
  obtain ⟨e3, he3, h⟩ := bind_ok.1 h
  obtain ⟨e4, he4, h⟩ := bind_ok.1 h
  have hP' := (Except.ok.inj h).symm ▸ hP
  obtain ⟨h1, rfl, rfl, rfl⟩ := hP'
  have hu := maxDiffRows_policies he2
  obtain ⟨hl, hv⟩ := maxDiffRows_le he1
  refine ⟨b.2, p1.1, p1.2, by rw [hb, hu], hp1, ?_, hl, fun k V V' hV hV' x => (hv k V V' hV hV' x).trans_lt h1⟩
  rw [hu, hq, maxDiffIdx_eq he3, maxDiffIdx_eq he4]

/-- **C113** (`test_parfwd_1`): if the test passes, the TensorFlow passes give the controls and states of the numpy ones. -/
theorem C113_tf_parfwd {scanV : ((Fin n → Fin n → ℝ) → (Fin n → Fin n → ℝ) → Py (Fin n → Fin n → ℝ)) →
      List (Fin n → Fin n → ℝ) → Py (List (Fin n → Fin n → ℝ))}
    {scanF : ((Fin n → Fin n) → (Fin n → Fin n) → Py (Fin n → Fin n)) →
      List (Fin n → Fin n) → Py (List (Fin n → Fin n))}
    {am : (Fin m → ℝ) → Fin m} {inf : ℝ} {M : FSC n m ℝ} {x0 : Fin n}
    (h : Passes (fscTfTestParfwd1 scanV scanF am inf M x0)) :
    ∃ b1 b2 r, M.parBackwardPass inf = .ok b1 ∧ M.tfParBackward scanV am inf = .ok b2 ∧
      M.parForwardPass x0 b1.1 = .ok r ∧ M.tfParForward scanF x0 b2.1 = .ok r := by
  obtain ⟨P, h, hP⟩ := h
  unfold fscTfTestParfwd1 at h
  obtain ⟨b1, hb1, h⟩ := bind_ok.1 h
  obtain ⟨p1, hp1, h⟩ := bind_ok.1 h
  obtain ⟨b2, hb2, h⟩ := bind_ok.1 h
  obtain ⟨q, hq, h⟩ := bind_ok.1 h
  obtain ⟨e3, he3, h⟩ := bind_ok.1 h
  obtain ⟨e4, he4, h⟩ := bind_ok.1 h
  have hP' := (Except.ok.inj h).symm ▸ hP
  obtain ⟨rfl, rfl⟩ := hP'
  refine ⟨b1, b2, p1, hb1, hb2, hp1, ?_⟩
  rw [hq]
  exact congrArg Except.ok (Prod.ext (maxDiffIdx_eq he4).symm (maxDiffIdx_eq he3).symm)

/-- **C113** (`test_par_fbscan`): if the test passes, the combined pass gives the trajectory of the sequential passes, which is
optimal and costs the value computed by the parallel backward pass up to `1e-10`. -/
theorem C113_par_fbscan {inf : ℝ} {M : FSC n m ℝ} {x0 : Fin n} (h : Passes (fscTestParFbscan testTol inf M x0)) :
    ∃ ps Vs us xs V0, M.parBackwardPass inf = .ok (ps, Vs) ∧ M.parFwdBwdPass inf x0 ps Vs = .ok (us, xs) ∧
      M.seqSimulation x0 us = .ok xs ∧ IsOptimal M.LT M.stages x0 us ∧ Vs[0]? = some V0 ∧
      |totalCost M.LT M.stages x0 us - V0 x0| < 1 / 10 ^ 10 := by
  obtain ⟨P, h, hP⟩ := h
  obtain ⟨us, xs, W0, hf, _, _, _, _, hsim, hW0, _, hopt, hc⟩ := C06_seqForward_optimal M x0
  unfold fscTestParFbscan at h
  dsimp only at h
  rw [hf] at h
  obtain ⟨p1, hp1, h⟩ := bind_ok.1 h
  obtain rfl := Except.ok.inj hp1
  obtain ⟨V1, hV1, h⟩ := bind_ok.1 h
  obtain ⟨b2, hb2, h⟩ := bind_ok.1 h
  obtain ⟨p2, hp2, h⟩ := bind_ok.1 h
  obtain ⟨V2, hV2, h⟩ := bind_ok.1 h
  have hP' := (Except.ok.inj h).symm ▸ hP
  obtain ⟨h1, h2, h3⟩ := hP'
  obtain rfl := Option.some.inj (hW0.symm.trans (pyGet_ok.1 hV1))
  refine ⟨b2.1, b2.2, us, xs, V2, hb2, ?_, hsim, hopt, pyGet_ok.1 hV2, by rw [hc]; exact h3⟩
  rw [hp2]
  exact congrArg Except.ok (Prod.ext h2.symm h1.symm)

/-- **C113** (`test_par_fbscan2` is weaker): it compares the two combined passes with each other only, and passes, for every
positive tolerance, on a problem where both return a list of states that no controls produce. -/
theorem C113_fbscan2_blind : ∃ (M : FSC 3 2 ℤ) (us : List (Fin 2)), M.stages.length = 2 ∧
    (∀ tol, 0 < tol → Passes (fscTestParFbscan2 tol (10 ^ 20) M 0)) ∧
    M.parFwdBwdPass2 (10 ^ 20) 0 M.seqBackwardPass.1 M.seqBackwardPass.2 = .ok (us, [0, 1, 1]) ∧
    ∀ vs, M.seqSimulation 0 vs ≠ .ok [0, 1, 1] := by
  have hpar : tieFSC.parBackwardPass (10 ^ 20) = .ok tieFSC.seqBackwardPass :=
    C07_par_eq_seq_bounded (10 ^ 20) 0 tieFSC (by decide) (by decide) (by decide) (by decide)
  have h1 : tieFSC.parFwdBwdPass2 (10 ^ 20) 0 tieFSC.seqBackwardPass.1 tieFSC.seqBackwardPass.2 =
      .ok ([0, 0], [0, 1, 1]) := by decide
  have h2 : tieFSC.parFwdBwdPass (10 ^ 20) 0 tieFSC.seqBackwardPass.1 tieFSC.seqBackwardPass.2 =
      .ok ([0, 0], [0, 1, 1]) := by decide
  refine ⟨tieFSC, [0, 0], rfl, fun tol ht => ?_, h1, fun vs h => ?_⟩
  · obtain ⟨V, hV, _⟩ := (C05_seqBackward_value tieFSC).2 0 (Nat.zero_le _)
    refine ⟨([0, 1, 1] : List (Fin 3)) = [0, 1, 1] ∧ ([0, 0] : List (Fin 2)) = [0, 0] ∧ |V 0 - V 0| < tol, ?_, rfl, rfl,
      by simpa using ht⟩
    unfold fscTestParFbscan2
    simp only [hpar, h1, h2, pyGet_ok.2 hV, bind, Except.bind]
    rfl
  · match vs, h with
    | [], h => cases h
    | [u], h => exact absurd (congrArg List.length (Except.ok.inj h)) (by simp)
    | [u, v], h =>
      revert h
      revert u v
      decide
    | u :: v :: w :: vs, h => cases h

example : Passes (fscTestParBack (10 ^ 20) (testFSC exDraws)) := (C111_tests_pass exDraws_mem).2.2.2.1

example : Passes (fscTestParFbscan testTol (10 ^ 20) (testFSC exDraws) testX0) := (C111_tests_pass exDraws_mem).2.2.2.2.2.1

example : Passes (fscTfTestSequential argmin1 (testFSC4 exDraws4) 1) ∧
    Passes (fscTfTestParback (fun op l => scanVals op l) argmin1 (10 ^ 20) (testFSC4 exDraws4)) ∧
    Passes (fscTfTestParfwd1 (fun op l => scanVals op l) (fun op l => scanVals op l) argmin1 (10 ^ 20) (testFSC4 exDraws4) 1) := by
  obtain ⟨h1, h2, h3⟩ := C112_tests_pass (scanV := fun op l => scanVals op l) (scanF := fun op l => scanVals op l)
    C17_scan_example C17_scan_example exDraws4_mem
  exact ⟨h1, h2, (h3 argmin1 argmin1 argmin1_le argmin1_le).1⟩

end Verif
