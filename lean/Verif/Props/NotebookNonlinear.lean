import Verif.Model.NotebookNonlinear
import Verif.Proof.NotebookLinear
import Verif.Props.SpeedNonlinear

/-!
Property C97 (notebook on nonlinear tracking).  The curve, the motion of the vehicle and the tracking cost are in
`Spec/TrackModels.lean`.
-/

namespace Verif

open Matrix

theorem iteratePar2TFDef_eq {n m p q : ℕ} {K : Type} [Field K] [LinearOrder K] (scan : AScan) (M : NModel n m K) (C : NQCost n m p q K)
    (hT : C.stages.length ≤ 10000) (us : List (Fin m → K)) (xs : List (Fin n → K)) :
    M.iteratePar2TFDef scan C us xs = M.iteratePar2TF (scan _) C us xs := by
  unfold NModel.iteratePar2TFDef NModel.iteratePar2TF
  have h2 := (linearizeTF_length M C us xs.dropLast).trans hT
  dsimp only
  rw [(C54_lqt (scan _) (scan _) 10000 (M.linearizeTF C us xs.dropLast) 0 ⟨[], [], [], []⟩ [] (by norm_num) h2 (by simp)).1]
  refine bind_congr fun r => bind_congr fun x0 => ?_
  rw [(C54_lqt (scan _) (scan _) 10000 (M.linearizeTF C us xs.dropLast) x0 r [] (by norm_num) h2 (by simp)).2.1]

/-- The positions and headings that are tracked. -/
def everyTenth (x y θ : ℕ → ℝ) (j : ℕ) : Fin 3 → ℝ := ![x (j * 10), y (j * 10), θ (j * 10)]

theorem vehicleNp_step (dt : ℝ) (u : Fin 2 → ℝ) (z : Fin 4 → ℝ) : VehicleStep dt u z (nlModelF dt z u) := by
  refine ⟨?_, ?_, ?_, ?_⟩ <;> simp [nlModelF] <;> ring

theorem map_getD_range {α : Type} (l : List α) (d : α) (n : ℕ) (h : l.length = n) : l = (List.range n).map fun k => l.getD k d := by
  subst h
  apply List.ext_getElem
  · simp
  · intro i h1 h2
    simp [List.getD, h1]

/-- The results of the cells in terms of the iterates. -/
theorem nlDemo_spec (N : ℕ) (hN : 0 < N) (scan : AScan) (hs : ∀ α, IsAssocScan (scan α)) :
    ∃ (x y θ : ℕ → ℝ) (lqt : LQT 4 2 ℝ) (Q : ℕ → LQT 4 2 ℝ) (us : ℕ → List (Fin 2 → ℝ)) (xs : ℕ → List (Fin 4 → ℝ))
      (w : ℕ → ℕ → Fin 2 → ℝ) (z : ℕ → ℕ → Fin 4 → ℝ),
      (∀ niter, nlNpCells N niter = .ok ⟨(List.range ((N + 9) / 10)).map (everyTenth x y θ),
        (npLinspace 0 (2 * Real.pi) N).zip ((List.range N).map θ), us niter, xs niter,
        (List.range niter).map fun i => vehicleTrackCost (everyTenth x y θ) 10 ((N + 9) / 10) (w (i + 1)) (z (i + 1)),
        (List.range (10 * ((N + 9) / 10) + 1)).map (z niter), colsArr ((List.range N).map fun k => ![x k, y k, θ k]),
        rowsArr ((List.range (10 * ((N + 9) / 10) + 1)).map (z niter)),
        colsArr ((List.range ((N + 9) / 10)).map (everyTenth x y θ))⟩) ∧
      (N ≤ 10000 → ∀ niter s, s.us = us niter → s.xs = xs niter → nlTfCell scan N niter s = .ok
        ((List.range niter).map (fun i => vehicleTrackCost (everyTenth x y θ) 10 ((N + 9) / 10) (w (i + 1)) (z (i + 1))), 0, 0)) ∧
      (∀ i, us i = (List.range (10 * ((N + 9) / 10))).map (w i) ∧ z i 0 = ![x 0, y 0, θ 0, 0] ∧
        ∀ k, VehicleStep 0.1 (w i k) (z i k) (z i (k + 1))) ∧
      ((∀ k < N, (x k, y k) = trackCurve (2 * Real.pi * k / ((N - 1 : ℕ) : ℝ))) ∧
        ∀ k, k + 1 < N → ∃ ρ : ℝ, 0 ≤ ρ ∧ x (k + 1) - x k = ρ * Real.cos (θ k) ∧ y (k + 1) - y k = ρ * Real.sin (θ k)) ∧
      (Q 0 = lqt ∧ us 0 = List.replicate lqt.stages.length 0 ∧ xs 0 = ![x 0, y 0, θ 0, 0] :: List.replicate lqt.stages.length 0 ∧
        lqt.stages.length = 10 * ((N + 9) / 10) ∧ lqt.Convex ∧
        nlGetLQT ((List.range ((N + 9) / 10)).map (everyTenth x y θ)) 10 = .ok (lqt.raw, ![x 0, y 0, θ 0, 0])) ∧
      (∀ i k, (vehicle 0.1).iterate (Q i) (us i) (xs i) k = .ok (Q (i + 1), us (i + 1), xs (i + 1))) ∧
      (∀ i, (us i).length = lqt.stages.length ∧ (xs i).length = lqt.stages.length + 1 ∧ (xs i)[0]? = some ![x 0, y 0, θ 0, 0] ∧
        (Q i).Convex ∧ (Q i).stages.length = lqt.stages.length ∧ ∀ us' xs', (Q i).cost us' xs' = lqt.cost us' xs') ∧
      ∀ (w : ℕ → Fin 2 → ℝ) (z : ℕ → Fin 4 → ℝ), z 0 = ![x 0, y 0, θ 0, 0] →
        (∀ k < 10 * ((N + 9) / 10), VehicleStep 0.1 (w k) (z k) (z (k + 1))) →
        (vehicle 0.1).simulate ![x 0, y 0, θ 0, 0] ((List.range (10 * ((N + 9) / 10))).map w) =
          (List.range (10 * ((N + 9) / 10) + 1)).map z ∧
        (vehicle 0.1).cost lqt ![x 0, y 0, θ 0, 0] ((List.range (10 * ((N + 9) / 10))).map w) =
          .ok (vehicleTrackCost (everyTenth x y θ) 10 ((N + 9) / 10) w z) := by
  obtain ⟨M, x, y, θ, d1, d2, d3, d4, -⟩ := (C75_genData N 10).2 (by norm_num)
  have hM : M = (N + 9) / 10 := by
    have a1 := d2 M
    have a2 := d2 ((N + 9) / 10)
    have a3 := d2 ((N + 9) / 10 - 1)
    omega
  subst hM
  obtain ⟨P, x0, g1, g2, g3, g4, g5⟩ := (C75_getLQT [] 0).2 (everyTenth x y θ) 10 ((N + 9) / 10) (by norm_num) (by omega)
  obtain ⟨xyt, dense, lqt, x0', C, h1, h2, ⟨dyn, hd, h3⟩, -, h5, h6, -⟩ := (C82_item N).2 hN
  have d1' : nlGenData N 10 = .ok ((List.range ((N + 9) / 10)).map (everyTenth x y θ), (List.range N).map fun k => ![x k, y k, θ k]) := d1
  rw [d1'] at h1
  simp only [Except.ok.injEq, Prod.mk.injEq] at h1
  obtain ⟨rfl, rfl⟩ := h1
  have g1' : nlGetLQT ((List.range ((N + 9) / 10)).map (everyTenth x y θ)) 10 = .ok (P.raw, x0) := g1
  rw [g1', Except.ok.injEq, Prod.mk.injEq] at h2
  obtain ⟨h2, rfl⟩ := h2
  have hPl : P = lqt := by
    have := congrArg (RawLQT.typed 4 2) h2
    rw [typed_raw, typed_raw] at this
    exact Except.ok.inj this
  subst hPl
  have hx0 : x0 = ![x 0, y 0, θ 0, 0] := g2
  subst hx0
  set T := 10 * ((N + 9) / 10) with hTd
  have hne : C.stages ≠ [] := by
    intro h
    rw [h] at h5
    simp only [List.length_nil] at h5
    omega
  have hCl : C.stages.length = P.stages.length := by rw [h5, g4]
  obtain ⟨Q, us, xs, q1, q2, q3, q4, q5, q6⟩ := tf_iterates (vehicle 0.1) C h6 hne dyn hd (List.replicate P.stages.length 0)
    (![x 0, y 0, θ 0, 0] :: List.replicate P.stages.length 0) (by simp [hCl]) (by simp [hCl]) scan hs
  rw [h3] at q1
  simp only [h3, hCl, List.getElem?_cons_zero] at q5
  have husw : ∀ i, us i = (List.range T).map fun k => (us i).getD k 0 := fun i => map_getD_range _ _ _ ((q5 i).1.trans g4)
  set w : ℕ → ℕ → Fin 2 → ℝ := fun i k => (us i).getD k 0 with hw
  set z : ℕ → ℕ → Fin 4 → ℝ := fun i k => Nat.rec ![x 0, y 0, θ 0, 0] (fun k zk => nlModelF 0.1 zk (w i k)) k with hz
  have hzs : ∀ i k, VehicleStep 0.1 (w i k) (z i k) (z i (k + 1)) := fun i k => vehicleNp_step _ _ _
  have hsim : ∀ i, (vehicle 0.1).simulate ![x 0, y 0, θ 0, 0] (us i) = (List.range (T + 1)).map (z i) := by
    intro i
    rw [husw i]
    exact (g5 0.1 (w i) (z i) rfl fun k _ => hzs i k).1
  have hcost : ∀ i, (vehicle 0.1).cost P ![x 0, y 0, θ 0, 0] (us i) =
      .ok (vehicleTrackCost (everyTenth x y θ) 10 ((N + 9) / 10) (w i) (z i)) := by
    intro i
    rw [husw i]
    exact (g5 0.1 (w i) (z i) rfl fun k _ => hzs i k).2
  -- the conversion
  let P' : TFLQT 4 2 3 3 ℝ := ⟨List.zipWith (fun (c : NQStage 4 2 3 ℝ) (a : Matrix (Fin 4) (Fin 4) ℝ × (Fin 4 → ℝ) × Matrix (Fin 4) (Fin 2) ℝ) =>
    ⟨a.1, a.2.1, a.2.2, c.H, c.r, c.X, c.U⟩) C.stages dyn, C.HT, C.rT, C.XT⟩
  have hP' : P'.toLQT = P := by
    rw [← h3]
    unfold NQCost.toLQT TFLQT.toLQT
    congr 1
    apply List.ext_getElem
    · simp [P']
    · intro j a1 a2
      simp [P', TStage.toL]
  have hplain : ∀ s ∈ P.stages, s.Plain := by
    rw [← hP']
    intro s hs'
    obtain ⟨t, -, rfl⟩ := List.mem_map.1 hs'
    exact ⟨rfl, rfl, rfl⟩
  have hconv : P.raw.npToTf 4 2 3 3 = .ok P' := ((C80_convert P P').2.2 hplain).2 hP'
  have hC : (⟨P'.stages.map fun t => ⟨t.H, t.r, t.X, t.U⟩, P'.HT, P'.rT, P'.XT⟩ : NQCost 4 2 3 3 ℝ) = C := by
    have : P'.stages.map (fun t => (⟨t.H, t.r, t.X, t.U⟩ : NQStage 4 2 3 ℝ)) = C.stages := by
      apply List.ext_getElem
      · simp [P', hd]
      · intro j a1 a2
        simp [P']
    rw [this]
  have hr : P.raw.r.mapM (tfVec 3) = .ok (P'.stages.map fun t => t.r) := by
    rw [← hP']
    show ((P'.stages.map TStage.toL).map fun s => NArr1.ofVec s.r).mapM (tfVec 3) = _
    rw [List.map_map]
    exact mapM_conv _ _ _ _ fun t _ => tfVec_ofVec t.r
  have hguess : nlInitialGuess 0.1 (P'.stages.map fun t => t.r) ![x 0, y 0, θ 0, 0] true = .ok (us 0, xs 0) := by
    have hl : P'.stages.length = P.stages.length := by rw [← hP']; simp [TFLQT.toLQT]
    rw [q2, q3, ← hl]
    unfold nlInitialGuess
    rw [if_pos rfl]
    simp only [List.map_map, pure, Except.pure]
    congr 2
    · exact (List.eq_replicate_iff.2 ⟨by simp, by simp⟩)
    · congr 1
      exact (List.eq_replicate_iff.2 ⟨by simp, by simp⟩)
  have hget : ∀ i, pyGet (xs i) 0 = .ok ![x 0, y 0, θ 0, 0] := fun i => pyGet_eq.2 (q5 i).2.2.1
  have hhead : ∀ i, tfHead (xs i) = .ok ![x 0, y 0, θ 0, 0] := by
    intro i
    have := (q5 i).2.2.1
    cases hxi : xs i with
    | nil => rw [hxi] at this; simp at this
    | cons a l =>
      rw [hxi] at this
      simp only [List.getElem?_cons_zero, Option.some.injEq] at this
      rw [← this]
      rfl
  have hcostQ : ∀ i j, (vehicle 0.1).cost (Q j) ![x 0, y 0, θ 0, 0] (us i) =
      .ok (vehicleTrackCost (everyTenth x y θ) 10 ((N + 9) / 10) (w i) (z i)) := by
    intro i j
    rw [← hcost i]
    exact (q5 j).2.2.2.2.2 _ _
  have hcostTF : ∀ i, (vehicle 0.1).costTF C ![x 0, y 0, θ 0, 0] (us i) =
      .ok (vehicleTrackCost (everyTenth x y θ) 10 ((N + 9) / 10) (w i) (z i)) := by
    intro i
    rw [(C69_cost (vehicle 0.1) C dyn hd (us i) ((q5 i).1.trans hCl.symm) _).2, h3]
    exact hcost i
  refine ⟨x, y, θ, P, Q, us, xs, w, z, fun niter => ?_, fun hNm niter s hu hx => ?_, fun i => ⟨husw i, rfl, hzs i⟩, ⟨d3, d4⟩,
    ⟨q1, q2, q3, g4, g3, g1'⟩, q4, q5, fun w z h0 hz => g5 0.1 w z h0 hz⟩
  · have hstep : ∀ i, nlDemoStep (Q i, us i, xs i, (List.range i).map fun i =>
        vehicleTrackCost (everyTenth x y θ) 10 ((N + 9) / 10) (w (i + 1)) (z (i + 1))) = .ok (Q (i + 1), us (i + 1), xs (i + 1),
        (List.range (i + 1)).map fun i => vehicleTrackCost (everyTenth x y θ) 10 ((N + 9) / 10) (w (i + 1)) (z (i + 1))) := by
      intro i
      unfold nlDemoStep
      dsimp only
      have e1 : vehicleNp.iterate (Q i) (us i) (xs i) 0 = .ok (Q (i + 1), us (i + 1), xs (i + 1)) := q4 i 0
      rw [e1, py_ok_bind]
      dsimp only
      rw [hget, py_ok_bind]
      have e2 := hcostQ (i + 1) (i + 1)
      rw [show vehicleNp.cost (Q (i + 1)) ![x 0, y 0, θ 0, 0] (us (i + 1)) = _ from e2, py_ok_bind, List.range_succ, List.map_append]
      rfl
    unfold nlNpCells
    rw [d1', py_ok_bind]
    dsimp only
    rw [plotRow_ok _ _ 2 (by norm_num) (by rw [npLinspace_length, List.length_map, List.length_range]), py_ok_bind, g1', py_ok_bind]
    dsimp only
    rw [typed_raw, py_ok_bind, hr, py_ok_bind, hguess, py_ok_bind]
    dsimp only
    rw [hget, py_ok_bind, show vehicleNp.cost P ![x 0, y 0, θ 0, 0] (us 0) = _ from hcost 0, py_ok_bind]
    have hf := foldlM_seq nlDemoStep (fun i => (Q i, us i, xs i, (List.range i).map fun i =>
        vehicleTrackCost (everyTenth x y θ) 10 ((N + 9) / 10) (w (i + 1)) (z (i + 1)))) hstep niter
    rw [show (List.range 0).map (fun i => vehicleTrackCost (everyTenth x y θ) 10 ((N + 9) / 10) (w (i + 1)) (z (i + 1))) = [] from rfl,
      q1] at hf
    rw [hf, py_ok_bind]
    dsimp only
    rw [show vehicleNp.simulate ![x 0, y 0, θ 0, 0] (us niter) = _ from hsim niter, List.map_map]
    rfl
  · have hstep : ∀ i, nlDemoStepTF scan C (us i, xs i, (List.range i).map fun i =>
        vehicleTrackCost (everyTenth x y θ) 10 ((N + 9) / 10) (w (i + 1)) (z (i + 1))) = .ok (us (i + 1), xs (i + 1),
        (List.range (i + 1)).map fun i => vehicleTrackCost (everyTenth x y θ) 10 ((N + 9) / 10) (w (i + 1)) (z (i + 1))) := by
      intro i
      unfold nlDemoStepTF
      dsimp only
      rw [iteratePar2TFDef_eq scan vehicleTF C (by omega), vehicleTF_eq, (q6 i).2.2, py_ok_bind]
      dsimp only
      rw [hhead, py_ok_bind, hcostTF, py_ok_bind, List.range_succ, List.map_append]
      rfl
    unfold nlTfCell nlTfProblem
    rw [d1', py_ok_bind]
    dsimp only
    rw [g1', py_ok_bind]
    dsimp only
    rw [hr, py_ok_bind, hguess, py_ok_bind]
    dsimp only
    rw [hconv, py_ok_bind, hC]
    show (do
      let _ ← vehicleTF.costTF C (← tfHead (xs 0)) (us 0)
      let (us, xs, costs) ← (List.range niter).foldlM (fun st _ => nlDemoStepTF scan C st) (us 0, xs 0, [])
      let dx ← tfMaxAbs s.xs xs
      let du ← tfMaxAbs s.us us
      return (costs, dx, du) : Py (List ℝ × ℝ × ℝ)) = _
    rw [hhead, py_ok_bind, vehicleTF_eq, hcostTF, py_ok_bind]
    have hf := foldlM_seq (nlDemoStepTF scan C) (fun i => (us i, xs i, (List.range i).map fun i =>
        vehicleTrackCost (everyTenth x y θ) 10 ((N + 9) / 10) (w (i + 1)) (z (i + 1)))) hstep niter
    rw [show (List.range 0).map (fun i => vehicleTrackCost (everyTenth x y θ) 10 ((N + 9) / 10) (w (i + 1)) (z (i + 1))) = [] from rfl] at hf
    rw [hf, py_ok_bind]
    dsimp only
    have l1 : xs niter ≠ [] := by
      rw [← List.length_pos_iff, (q5 niter).2.1]; omega
    have l2 : us niter ≠ [] := by
      rw [← List.length_pos_iff, (q5 niter).1, g4]; omega
    rw [hx, hu, tfMaxAbs_self _ l1, py_ok_bind, tfMaxAbs_self _ l2, py_ok_bind]
    rfl

/-- C97 (data): without data points the cells end with `IndexError`.  Otherwise `nlqt_xyt_dense.txt` has three rows and `N` columns,
the points of the closed curve at equidistant parameters with the headings towards the next point; `nlqt_xyt.txt` holds every tenth
column, and the plotted curve of the headings is over the parameters. -/
theorem C97_data (N niter : ℕ) : (N = 0 → nlNpCells N niter = .error .indexError) ∧
    (0 < N → ∃ s, nlNpCells N niter = .ok s ∧ ∃ x y θ : ℕ → ℝ,
      s.dense_txt = ⟨3, N, fun i k => ![x k, y k, θ k] i⟩ ∧
      s.xyt_txt = ⟨3, (N + 9) / 10, fun i j => ![x (j * 10), y (j * 10), θ (j * 10)] i⟩ ∧
      s.headings = (List.range N).map (fun k : ℕ => (2 * Real.pi * k / ((N - 1 : ℕ) : ℝ), θ k)) ∧
      (∀ k < N, (x k, y k) = trackCurve (2 * Real.pi * k / ((N - 1 : ℕ) : ℝ))) ∧
      ∀ k, k + 1 < N → ∃ ρ : ℝ, 0 ≤ ρ ∧ x (k + 1) - x k = ρ * Real.cos (θ k) ∧ y (k + 1) - y k = ρ * Real.sin (θ k)) := by
  constructor
  · rintro rfl
    obtain ⟨N, x, y, θ, h1, h2, -⟩ := (C75_genData 0 10).2 (by norm_num)
    have : N = 0 := by have := h2 0; omega
    subst this
    unfold nlNpCells
    rw [h1, py_ok_bind]
    dsimp only
    rw [plotRow_ok _ _ 2 (by norm_num) (by rw [npLinspace_length, List.length_map, List.length_range]), py_ok_bind,
      show (List.map (fun j => ![x (j * 10), y (j * 10), θ (j * 10)]) (List.range 0)) = [] from rfl, (C75_getLQT [] 10).1 (Or.inl rfl)]
    rfl
  · intro hN
    obtain ⟨x, y, θ, lqt, Q, us, xs, w, z, h, -, -, ⟨h1, h2⟩, -⟩ := nlDemo_spec N hN (fun _ op l => scanVals op l) fun _ => C17_scan_example
    have hcols : ∀ (n : ℕ) (v : ℕ → Fin 3 → ℝ), colsArr ((List.range n).map v) = ⟨3, n, fun i k => v k i⟩ := by
      intro n v
      have hl : ((List.range n).map v).length = n := by simp
      unfold colsArr
      have key : ∀ (l : List (Fin 3 → ℝ)) (h : l.length = n), (∀ j : Fin l.length, l.get j = v j) →
          (⟨3, l.length, fun i j => l.get j i⟩ : NArr2 ℝ) = ⟨3, n, fun i k => v k i⟩ := by
        intro l h hv
        subst h
        congr 1
        funext i j
        rw [hv j]
      exact key _ hl fun j => by simp
    refine ⟨_, h niter, x, y, θ, hcols N _, hcols _ _, ?_, h1, h2⟩
    apply List.ext_getElem
    · simp [npLinspace]
    · intro k a1 a2
      simp only [List.getElem_zip, npLinspace, List.getElem_map, List.getElem_range, Prod.mk.injEq, and_true]
      ring

/-- The array of a list of vectors has the vectors as rows, in their order. -/
theorem rowsArr_range {p : ℕ} (n : ℕ) (v : ℕ → Fin p → ℝ) : rowsArr ((List.range n).map v) = ⟨n, p, fun k i => v k i⟩ := by
  have key : ∀ {l : List (Fin p → ℝ)} (hl : l.length = n), (∀ j : Fin l.length, l.get j = v j) →
      rowsArr l = ⟨n, p, fun k i => v k i⟩ := by
    intro l hl hv
    unfold rowsArr
    subst hl
    congr 1
    funext i j
    rw [hv i]
  exact key (by simp) fun j => by simp

/-- C97 (numpy): for every number of points the cells complete.  The printed cost of each iteration is the tracking cost of the motion
of the vehicle under the controls of that iteration, from rest in the first point; the saved and plotted states are the motion under the
last controls; and the controls are those of the iteration started in the zero guess, with any of the LQT methods. -/
theorem C97_numpy (N niter : ℕ) (hN : 0 < N) : ∃ (s : NlDemo) (pts : ℕ → Fin 3 → ℝ) (lqt : LQT 4 2 ℝ) (Q : ℕ → LQT 4 2 ℝ)
      (xs : ℕ → List (Fin 4 → ℝ)) (w : ℕ → ℕ → Fin 2 → ℝ) (z : ℕ → ℕ → Fin 4 → ℝ),
    nlNpCells N niter = .ok s ∧ s.xyt = (List.range ((N + 9) / 10)).map pts ∧ nlGetLQT s.xyt 10 = .ok (lqt.raw, z 0 0) ∧
    (∀ i, z i 0 = ![pts 0 0, pts 0 1, pts 0 2, 0] ∧ ∀ k, VehicleStep 0.1 (w i k) (z i k) (z i (k + 1))) ∧
    s.costs = (List.range niter).map (fun i => vehicleTrackCost pts 10 ((N + 9) / 10) (w (i + 1)) (z (i + 1))) ∧
    s.us = (List.range (10 * ((N + 9) / 10))).map (w niter) ∧ s.xs = xs niter ∧
    s.xp = (List.range (10 * ((N + 9) / 10) + 1)).map (z niter) ∧ s.xp_txt = ⟨10 * ((N + 9) / 10) + 1, 4, fun k i => z niter k i⟩ ∧
    Q 0 = lqt ∧ (∀ k < 10 * ((N + 9) / 10), w 0 k = 0) ∧ xs 0 = z 0 0 :: List.replicate (10 * ((N + 9) / 10)) 0 ∧
    ∀ i method, (vehicle 0.1).iterate (Q i) ((List.range (10 * ((N + 9) / 10))).map (w i)) (xs i) method =
      .ok (Q (i + 1), (List.range (10 * ((N + 9) / 10))).map (w (i + 1)), xs (i + 1)) := by
  obtain ⟨x, y, θ, lqt, Q, us, xs, w, z, h, -, h1, -, ⟨h2, h3, h4, h5, h6, hg⟩, h7, h8, -⟩ :=
    nlDemo_spec N hN (fun _ op l => scanVals op l) fun _ => C17_scan_example
  refine ⟨_, everyTenth x y θ, lqt, Q, xs, w, z, h niter, rfl, ?_, fun i => (h1 i).2, rfl, (h1 niter).1, rfl, rfl, rowsArr_range _ _, h2, ?_, ?_, ?_⟩
  · rw [(h1 0).2.1]
    exact hg
  · intro k hk
    rw [(h1 0).1, h5] at h3
    have := congrArg (fun l => l[k]?) h3
    simpa [hk] using this
  · rw [h4, (h1 0).2.1, h5]
  · intro i method
    rw [← (h1 i).1, ← (h1 (i + 1)).1]
    exact h7 i method

/-- C97 (first iteration): since the guess is at rest, the states of the first iteration stay on the line through the initial position
`(13, 7)`, however far the points are from it. -/
theorem C97_first (N : ℕ) (hN : 0 < N) : ∃ s, nlNpCells N 1 = .ok s ∧ s.xs.length = 10 * ((N + 9) / 10) + 1 ∧ ∀ x ∈ s.xs, x 1 = 7 := by
  obtain ⟨x, y, θ, lqt, Q, us, xs, w, z, h, -, -, ⟨h1, -⟩, ⟨h2, h3, h4, h5, h6, -⟩, h7, h8, -⟩ :=
    nlDemo_spec N hN (fun _ op l => scanVals op l) fun _ => C17_scan_example
  refine ⟨_, h 1, by rw [← h5]; exact (h8 1).2.1, fun v hv => ?_⟩
  have hy : y 0 = 7 := by
    have := h1 0 hN
    simp only [trackCurve, Nat.cast_zero, mul_zero, zero_div, Real.cos_zero, Real.sin_zero, Prod.mk.injEq] at this
    rw [this.2]; norm_num
  have h70 := h7 0 0
  rw [h2, h3, h4] at h70
  rw [C82_first 0.1 lqt _ h6.toSym ![x 0, y 0, θ 0, 0] rfl 0 _ _ h70 v hv]
  exact hy

/-- C97 (TensorFlow): up to 10000 points, for every number of iterations and every way in which the associative scan groups its
elements, the cell with TensorFlow prints the same costs as the cells with numpy and the differences zero. -/
theorem C97_tensorflow (N niter : ℕ) (hN : 0 < N) (hN' : N ≤ 10000) (scan : AScan) (hs : ∀ α, IsAssocScan (scan α)) :
    ∃ s, nlNpCells N niter = .ok s ∧ nlDemo scan N niter = .ok (s, s.costs, 0, 0) ∧ s.costs.length = niter := by
  obtain ⟨x, y, θ, lqt, Q, us, xs, w, z, h, h1, -⟩ := nlDemo_spec N hN scan hs
  refine ⟨_, h niter, ?_, by simp⟩
  unfold nlDemo
  rw [h niter, py_ok_bind, h1 hN' niter _ rfl rfl]
  rfl

/-- C97 (fixed points): one more iteration leaves controls and states unchanged exactly if the states are the plotted motion of the
vehicle and the tracking cost is stationary at the controls in every direction. -/
theorem C97_fixed (N niter : ℕ) (hN : 0 < N) : ∃ (s s' : NlDemo) (pts : ℕ → Fin 3 → ℝ) (w : ℕ → Fin 2 → ℝ),
    nlNpCells N niter = .ok s ∧ nlNpCells N (niter + 1) = .ok s' ∧ s.xyt = (List.range ((N + 9) / 10)).map pts ∧
    s.us = (List.range (10 * ((N + 9) / 10))).map w ∧
    (s'.us = s.us ∧ s'.xs = s.xs ↔ s.xs = s.xp ∧ ∀ (d : ℕ → Fin 2 → ℝ) (zt : ℝ → ℕ → Fin 4 → ℝ),
      (∀ t, zt t 0 = ![pts 0 0, pts 0 1, pts 0 2, 0]) →
      (∀ t, ∀ k < 10 * ((N + 9) / 10), VehicleStep 0.1 (w k + t • d k) (zt t k) (zt t (k + 1))) →
      HasDerivAt (fun t => vehicleTrackCost pts 10 ((N + 9) / 10) (fun k => w k + t • d k) (zt t)) 0 0) := by
  obtain ⟨x, y, θ, lqt, Q, us, xs, w, z, h, -, h1, -, ⟨h2, h3, h4, h5, h6, -⟩, h7, h8, h9⟩ :=
    nlDemo_spec N hN (fun _ op l => scanVals op l) fun _ => C17_scan_example
  refine ⟨_, _, everyTenth x y θ, w niter, h niter, h (niter + 1), rfl, (h1 niter).1, ?_⟩
  dsimp only
  set T := 10 * ((N + 9) / 10) with hT
  obtain ⟨a1, a2, a3, a4, hQl, a5⟩ := h8 niter
  have hfix := C68_fixed (vehicle 0.1) (Q niter) a4 (by
    rw [← List.length_pos_iff, hQl, h5]; omega) ![x 0, y 0, θ 0, 0] (us niter) (xs niter) 0 (by rw [a1, hQl]) a3
    fun _ y u _ _ => C68_vehicle 0.1 y u
  have hcost : ∀ x0 us, (vehicle 0.1).cost (Q niter) x0 us = (vehicle 0.1).cost lqt x0 us := fun _ _ => a5 _ _
  have hsim : (vehicle 0.1).simulate ![x 0, y 0, θ 0, 0] (us niter) = (List.range (T + 1)).map (z niter) := by
    rw [(h1 niter).1]
    exact (h9 (w niter) (z niter) (h1 niter).2.1 fun k _ => (h1 niter).2.2 k).1
  simp only [hcost, a1, h5, hsim] at hfix
  have hlhs : us (niter + 1) = us niter ∧ xs (niter + 1) = xs niter ↔
      ∃ P', (vehicle 0.1).iterate (Q niter) (us niter) (xs niter) 0 = .ok (P', us niter, xs niter) := by
    rw [h7 niter 0]
    constructor
    · rintro ⟨e1, e2⟩
      exact ⟨Q (niter + 1), by rw [e1, e2]⟩
    · rintro ⟨P', h⟩
      simp only [Except.ok.injEq, Prod.mk.injEq] at h
      exact h.2
  rw [hlhs, hfix]
  refine and_congr_right fun _ => ?_
  have hzip : ∀ (d : ℕ → Fin 2 → ℝ) (t : ℝ), List.zipWith (fun u d => u + t • d) (us niter) ((List.range T).map d) =
      (List.range T).map fun k => w niter k + t • d k := by
    intro d t
    rw [(h1 niter).1]
    apply List.ext_getElem
    · simp
    · intro k b1 b2
      simp
  constructor
  · intro hds d zt hz0 hz
    obtain ⟨J, hJ, hJ'⟩ := hds ((List.range T).map d) (by simp)
    have : J = fun t => vehicleTrackCost (everyTenth x y θ) 10 ((N + 9) / 10) (fun k => w niter k + t • d k) (zt t) := by
      funext t
      have := hJ t
      rw [hzip, (h9 _ (zt t) (hz0 t) (hz t)).2, Except.ok.injEq] at this
      exact this.symm
    rw [← this]
    exact hJ'
  · intro hd ds hdl
    have hds := map_getD_range ds 0 T hdl
    set d : ℕ → Fin 2 → ℝ := fun k => ds.getD k 0
    let zt : ℝ → ℕ → Fin 4 → ℝ := fun t k => Nat.rec ![x 0, y 0, θ 0, 0] (fun k zk => nlModelF 0.1 zk (w niter k + t • d k)) k
    have hz : ∀ t, ∀ k < T, VehicleStep 0.1 (w niter k + t • d k) (zt t k) (zt t (k + 1)) := fun t k _ => vehicleNp_step _ _ _
    refine ⟨_, fun t => ?_, hd d zt (fun t => rfl) hz⟩
    rw [hds, hzip]
    exact (h9 _ (zt t) rfl (hz t)).2

/-! ### Examples -/

/-- The notebook: a thousand points give a hundred targets and a thousand steps; numpy and TensorFlow print the same ten costs and the
differences zero. -/
example : ∃ s, nlDemo (fun _ op l => scanVals op l) 1000 10 = .ok (s, s.costs, 0, 0) ∧ s.costs.length = 10 := by
  obtain ⟨s, -, h, hl⟩ := C97_tensorflow 1000 10 (by norm_num) (by norm_num) (fun _ op l => scanVals op l) fun _ => C17_scan_example
  exact ⟨s, h, hl⟩

/-- The files of the notebook: 3 rows with 1000 and with 100 columns. -/
example : ∃ s, nlNpCells 1000 10 = .ok s ∧ s.dense_txt.rows = 3 ∧ s.dense_txt.cols = 1000 ∧ s.xyt_txt.rows = 3 ∧ s.xyt_txt.cols = 100 := by
  obtain ⟨s, h, x, y, θ, h1, h2, -⟩ := (C97_data 1000 10).2 (by norm_num)
  exact ⟨s, h, by rw [h1], by rw [h1], by rw [h2], by rw [h2]⟩

/-- One data point: ten steps, and the first iteration keeps the second coordinate. -/
example : ∃ s, nlNpCells 1 1 = .ok s ∧ s.xs.length = 11 ∧ ∀ x ∈ s.xs, x 1 = 7 := C97_first 1 (by norm_num)

end Verif
