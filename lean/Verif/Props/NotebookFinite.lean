import Verif.Proof.NotebookFinite
import Verif.Props.SpeedFinite
import Verif.Props.SpeedTest

/-! Property C95 (notebooks on finite states and on the Gilbert-Elliot model). -/

namespace Verif

section Game
variable {K : Type} [Field K] [LinearOrder K] [IsStrictOrderedRing K]

/-- The cell of lane `y` in column `k` of the track: the product of the masks of the two walks. -/
def trackCell (rnd : ℕ → ℕ → K) (nx y k : ℕ) : K :=
  laneFactor ((y : ℤ) - lanePath rnd nx 0 (k + 1)) * laneFactor ((y : ℤ) - lanePath rnd nx 1 (k + 1))

/-- Paths of `T` steps over `nx` lanes that start in the middle and change at most one lane per step. -/
def IsLanePath (nx T : ℕ) (p : ℕ → ℕ) : Prop :=
  p 0 = nx / 2 ∧ (∀ k, p k < nx) ∧ ∀ k < T, |(p (k + 1) : ℤ) - p k| ≤ 1

/-- The sum of the visited cells plus the number of changes of the lane. -/
def trackPathCost (rnd : ℕ → ℕ → K) (nx T : ℕ) (p : ℕ → ℕ) : K :=
  ∑ k ∈ Finset.range T, (trackCell rnd nx (p k) k + ((|(p (k + 1) : ℤ) - p k| : ℤ) : K))

/-- The results of the sequential cell in terms of the generated problem. -/
theorem finSeqCell_spec (rnd : ℕ → ℕ → K) (nx T : ℕ) [NeZero nx] (hT : 0 < T) :
    ∃ (x0 : Fin nx) (M : FSC nx 3 K) (us : List (Fin 3)) (xs : List (Fin nx)) (V0 : Fin nx → K),
      finSeqCell rnd nx T = .ok ⟨⟨nx, 3, inferInstance, inferInstance, x0, M⟩, V0 x0, us, xs, (laneGenData rnd T nx).1, xs.dropLast⟩ ∧
      x0.val = nx / 2 ∧ M.stages.length = T ∧ (∀ x, M.LT x = 0) ∧ LaneCells (trackCell rnd nx) M.stages ∧
      M.seqForwardPass x0 M.seqBackwardPass.1 = .ok (us, xs) ∧ us.length = T ∧ xs = statesOf M.stages x0 us ∧
      M.seqSimulation x0 us = .ok xs ∧ M.seqBackwardPass.2[0]? = some V0 ∧ IsOptimal M.LT M.stages x0 us ∧
      totalCost M.LT M.stages x0 us = V0 x0 := by
  obtain ⟨x0, M, g1, g2, g3, g4, g5⟩ := (C81_item rnd nx T).2 hT
  obtain ⟨us, xs, V0, h1, h2, h3, h4, h5, h6, h7, h8, h9, h10⟩ := C06_seqForward_optimal M x0
  have hxs : xs = statesOf M.stages x0 us := by
    rw [seqForwardPass_eq M x0 _ (by rw [seqBackwardPass_eq]; exact (polList_length _ _).le)] at h1
    obtain ⟨e1, e2⟩ := Prod.mk.inj (Except.ok.inj h1)
    rw [← e2, e1]
  refine ⟨x0, M, us, xs, V0, ?_, g2, g3, g4, fun k hk x => g5 k hk x, h1, h2.trans g3, hxs, h6, h7, h9, h10⟩
  unfold finSeqCell
  rw [g1, py_ok_bind]
  dsimp only
  rw [pyGet_ok.2 h7, py_ok_bind, h1, py_ok_bind]
  rfl

/-- C95 (sequential): zero steps raise `IndexError`; otherwise the minimal cost of the cell is the least cost of the lane paths over the
generated track, the saved track consists of the cells, the saved states are the first `T` lanes of such a path with the least cost,
and the controls lead along it. The minimal cost lies between `T / 100` and `T`, and is a whole number of hundredths. -/
theorem C95_sequential (rnd : ℕ → ℕ → K) (nx T : ℕ) [NeZero nx] :
    (T = 0 → finSeqCell rnd nx T = .error .indexError) ∧
    (0 < T → ∃ s p, finSeqCell rnd nx T = .ok s ∧ IsLeast {c | ∃ p, IsLanePath nx T p ∧ trackPathCost rnd nx T p = c} s.min_cost ∧
      IsLanePath nx T p ∧ trackPathCost rnd nx T p = s.min_cost ∧ s.min_x.map Fin.val = (List.range (T + 1)).map p ∧
      s.min_x_txt.map Fin.val = (List.range T).map p ∧ s.min_u.length = T ∧ s.it.M.seqSimulation s.it.x0 s.min_u = .ok s.min_x ∧
      s.track_txt.rows = nx ∧ s.track_txt.cols = T ∧ (∀ y k, s.track_txt.data y k = trackCell rnd nx y.val k.val) ∧
      T / 100 ≤ s.min_cost ∧ s.min_cost ≤ T ∧ ∃ z : ℤ, 100 * s.min_cost = z) := by
  refine ⟨fun h => ?_, fun hT => ?_⟩
  · unfold finSeqCell
    rw [(C81_item rnd nx T).1 h]
    rfl
  obtain ⟨x0, M, us, xs, V0, h1, hx0, hl, hLT, hcells, -, hul, hxs, hsim, -, hopt, hcost⟩ := finSeqCell_spec rnd nx T hT
  obtain ⟨c1, c2, -, -, c5⟩ := C51_genData rnd T nx
  set p : ℕ → ℕ := fun k => (stateAt M.stages x0 us k).val with hp
  obtain ⟨l1, l2⟩ := lane_lower M.LT hLT M.stages _ x0 us hcells (hul.trans hl.symm)
  rw [hl] at l1 l2
  have hpath : IsLanePath nx T p := ⟨by simp only [hp]; rw [stateAt_zero]; exact hx0, fun k => (stateAt M.stages x0 us k).isLt, l2⟩
  have hmin : ∀ q, IsLanePath nx T q → V0 x0 ≤ trackPathCost rnd nx T q := by
    rintro q ⟨q0, q1, q2⟩
    obtain ⟨vs, v1, v2⟩ := lane_upper M.LT hLT M.stages _ x0 q hcells (q0.trans hx0.symm) q1 (hl ▸ q2)
    rw [← hcost]
    refine (hopt.2 vs v1).trans (le_of_eq ?_)
    rw [v2, hl]
    rfl
  have hp1 : trackPathCost rnd nx T p = V0 x0 := le_antisymm (hcost ▸ l1) (hmin p hpath)
  have hlt : nx / 2 < nx := Nat.div_lt_self (Nat.pos_of_neZero nx) (by norm_num)
  have hf : ∀ y k, y < nx → k < T → (1 / 100 : K) ≤ trackCell rnd nx y k ∧ trackCell rnd nx y k ≤ 1 := by
    intro y k hy hk
    obtain ⟨e1, e2, e3⟩ := c5 ⟨y, c1.symm ▸ hy⟩ ⟨k, c2.symm ▸ hk⟩
    rw [e1] at e2 e3
    exact ⟨e2, e3⟩
  have hxl : xs.map Fin.val = (List.range (T + 1)).map p := by
    rw [hxs]
    unfold statesOf
    rw [List.map_map, hul]
    rfl
  refine ⟨_, p, h1, ⟨⟨p, hpath, hp1⟩, ?_⟩, hpath, hp1, hxl, ?_, hul, hsim, c1, c2, fun y k => (c5 y k).1, ?_, ?_, ?_⟩
  · rintro c ⟨q, hq, rfl⟩
    exact hmin q hq
  · dsimp only
    rw [List.map_dropLast, hxl, ← List.map_dropLast, List.range_succ, List.dropLast_concat]
  · change (T : K) / 100 ≤ V0 x0
    rw [← hp1]
    calc (T : K) / 100 = ∑ k ∈ Finset.range T, (1 / 100 : K) := by simp [div_eq_mul_inv]
      _ ≤ _ := Finset.sum_le_sum fun k hk => by
        have h2 : (0 : K) ≤ ((|(p (k + 1) : ℤ) - p k| : ℤ) : K) := Int.cast_nonneg (abs_nonneg _)
        have := (hf (p k) k (hpath.2.1 k) (Finset.mem_range.1 hk)).1
        linarith
  · refine (hmin (fun _ => nx / 2) ⟨rfl, fun _ => hlt, fun k _ => by simp⟩).trans ?_
    calc _ ≤ ∑ k ∈ Finset.range T, (1 : K) := Finset.sum_le_sum fun k hk => by
          have := (hf (nx / 2) k hlt (Finset.mem_range.1 hk)).2
          simpa using this
      _ = T := by simp
  · have hz : ∀ d : ℤ, ∃ z : ℤ, 10 * (laneFactor d : K) = z := by
      intro d
      unfold laneFactor
      split_ifs
      · exact ⟨1, by norm_num⟩
      · exact ⟨3, by norm_num⟩
      · exact ⟨5, by norm_num⟩
      · exact ⟨10, by norm_num⟩
    change ∃ z : ℤ, 100 * V0 x0 = z
    rw [← hp1]
    choose w hw using hz
    refine ⟨∑ k ∈ Finset.range T, (w ((p k : ℤ) - lanePath rnd nx 0 (k + 1)) * w ((p k : ℤ) - lanePath rnd nx 1 (k + 1)) +
      100 * |(p (k + 1) : ℤ) - p k|), ?_⟩
    unfold trackPathCost trackCell
    rw [Finset.mul_sum, Int.cast_sum]
    refine Finset.sum_congr rfl fun k _ => ?_
    rw [Int.cast_add, Int.cast_mul, ← hw, ← hw, Int.cast_mul]
    push_cast
    ring

/-- C95 (numpy): for `1 ≤ T ≤ 10 ^ 19` both parallel solutions of the cell have the same cost and the same trajectory as the sequential
one, for all random numbers: the six printed numbers are the minimal cost, twice, and four zeros. -/
theorem C95_numpy (rnd : ℕ → ℕ → K) (nx T : ℕ) [NeZero nx] (hT : 0 < T) (hT' : T ≤ 10 ^ 19) :
    ∃ s, finSeqCell rnd nx T = .ok s ∧ finNpCell s = .ok ⟨s.min_cost, s.min_cost, 0, 0, 0, 0⟩ := by
  obtain ⟨x0, M, us, xs, V0, h1, hx0, hl, hLT, hcells, hfw, hul, hxs, hsim, hV0, hopt, hcost⟩ := finSeqCell_spec rnd nx T hT
  refine ⟨_, h1, ?_⟩
  have hb := laneItem_bound rnd nx T M hl fun k hk x u => (hcells k hk x).2.2.2 u
  have hB : (2 * M.stages.length + 2) • (2 : K) < 10 ^ 20 := by
    rw [hl, nsmul_eq_mul]
    have : (T : K) ≤ 10 ^ 19 := by exact_mod_cast hT'
    push_cast
    linarith
  have hLT' : ∀ x, |M.LT x| ≤ 2 := fun x => by rw [hLT, abs_zero]; norm_num
  have hne : M.stages ≠ [] := by
    intro h
    rw [h] at hl
    simp at hl
    omega
  have hB1 : (2 * M.stages.length + 1) • (2 : K) ≤ 10 ^ 20 := by
    refine le_trans ?_ hB.le
    exact nsmul_le_nsmul_left (by norm_num) (by omega)
  have hbw := C07_par_eq_seq_bounded (10 ^ 20) 2 M hne hLT' hb hB1
  have hpl : M.seqBackwardPass.1.length = M.stages.length := (C05_seqBackward_policy M).1
  have hfw1 := C08_parForward_eq_seq M x0 M.seqBackwardPass.1 hne hpl
  have hfb : M.parFwdBwdPass (10 ^ 20) x0 M.seqBackwardPass.1 M.seqBackwardPass.2 = .ok (us, xs) := by
    rw [parFwdBwd_eq_tf (10 ^ 20) M x0 _ _ hne (C05_seqBackward_value M).1 hpl C17_scan_example (by
      intro s hs
      funext x y
      rw [C62_elem]
      right
      refine ⟨0, ?_⟩
      have := (abs_le.1 (hb s hs x 0)).2
      linarith [show (2 : K) ≤ 10 ^ 20 by norm_num])]
    rw [seqBackwardPass_eq, ← amPolList_argmin1]
    rw [lane_fwdbwd C17_scan_example (10 ^ 20) M x0 (by
      intro s hs
      obtain ⟨k, hk, rfl⟩ := List.getElem_of_mem hs
      exact ⟨fun x => ⟨(hcells k hk x).1, (hcells k hk x).2.1, (hcells k hk x).2.2.1⟩, _, fun x u => (hcells k hk x).2.2.2 u⟩) hne
      (C09_below_sentinel_of_bounded _ 2 M x0 hLT' hb hB)]
    rw [← hfw, seqForwardPass_eq M x0 _ hpl.le, seqBackwardPass_eq, amPolList_argmin1]
  have hun : us ≠ [] := by
    rintro rfl
    simp at hul
    omega
  have hxn : xs ≠ [] := by
    rintro rfl
    have := congrArg List.length hxs
    rw [statesOf_length] at this
    simp at this
  unfold finNpCell
  change (M.parBackwardPass (10 ^ 20) >>= _) = _
  rw [hbw, py_ok_bind]
  change (M.parForwardPass x0 M.seqBackwardPass.1 >>= _) = _
  rw [hfw1, hfw, py_ok_bind, pyGet_ok.2 hV0, py_ok_bind]
  change (M.parFwdBwdPass (10 ^ 20) x0 M.seqBackwardPass.1 M.seqBackwardPass.2 >>= _) = _
  rw [hfb, py_ok_bind]
  change (maxAbsIdx xs xs >>= fun _ => maxAbsIdx us us >>= fun _ => maxAbsIdx xs xs >>= fun _ => maxAbsIdx us us >>= fun _ => _) = _
  rw [maxAbsIdx_self _ hxn, maxAbsIdx_self _ hun]
  rfl

/-- C95 (TensorFlow): for `1 ≤ T ≤ 10000`, the default of `max_parallel`, the cell of the TensorFlow solutions completes for every
minimiser and every associative scan. It prints the shapes `(T, nx, 3)`, `(T, nx, 3)` and `(nx,)`; the costs are the minimal cost; the
differences of the first parallel solution are those of the sequential TensorFlow solution to the numpy solution. If
`tf.argmin` returns the smallest index, all six printed differences are zero. -/
theorem C95_tensorflow (rnd : ℕ → ℕ → K) (nx T : ℕ) [NeZero nx] (hT : 0 < T) (hT' : T ≤ 10000) (scan : AScan)
    (hs : ∀ α, IsAssocScan (scan α)) :
    ∃ s, finSeqCell rnd nx T = .ok s ∧
      (∀ am : AArgmin K, (∀ (n : ℕ) [NeZero n], IsArgmin (am n)) → ∃ ps Vs xs us dx du dx2 du2,
        s.it.M.tfSeqBackward (am s.it.m) = .ok (ps, Vs) ∧ s.it.M.tfSeqForward s.it.x0 ps = .ok (xs, us) ∧
        maxAbsIdx xs s.min_x = .ok dx ∧ maxAbsIdx us s.min_u = .ok du ∧ finTfCell scan am s =
        .ok ⟨s.min_cost, s.min_cost, s.min_cost, dx, du, [T, nx, 3], [T, nx, 3], [nx], dx, du, dx2, du2⟩) ∧
      finTfCell scan (fun _ _ => argmin1) s =
        .ok ⟨s.min_cost, s.min_cost, s.min_cost, 0, 0, [T, nx, 3], [T, nx, 3], [nx], 0, 0, 0, 0⟩ := by
  obtain ⟨x0, M, us, xs, V0, h1, hx0, hl, hLT, hcells, hfw, hul, hxs, hsim, hV0, hopt, hcost⟩ := finSeqCell_spec rnd nx T hT
  have hb := laneItem_bound rnd nx T M hl fun k hk x u => (hcells k hk x).2.2.2 u
  have hB : (2 * M.stages.length + 2) • (2 : K) < 10 ^ 20 := by
    rw [hl, nsmul_eq_mul]
    have : (T : K) ≤ 10000 := by exact_mod_cast hT'
    push_cast
    linarith
  have hLT' : ∀ x, |M.LT x| ≤ 2 := fun x => by rw [hLT, abs_zero]; norm_num
  have hne : M.stages ≠ [] := by
    intro h
    rw [h] at hl
    simp at hl
    omega
  have hB1 : (2 * M.stages.length + 1) • (2 : K) ≤ 10 ^ 20 := by
    refine le_trans ?_ hB.le
    exact nsmul_le_nsmul_left (by norm_num) (by omega)
  have hbelow := C09_below_sentinel_of_bounded (10 ^ 20) 2 M x0 hLT' hb hB
  have hbw := (C62_par_eq_seq_bounded (hs (Fin nx → Fin nx → K)) (10 ^ 20) 2 M hLT' hb hB1).1
  have hxl : xs.length = T + 1 := by rw [hxs, statesOf_length, hul]
  have hun : us ≠ [] := by
    rintro rfl
    simp at hul
    omega
  have hxn : xs ≠ [] := by
    rintro rfl
    simp at hxl
  refine ⟨_, h1, ?_, ?_⟩
  · intro am ham
    obtain ⟨ps, Vs, W0, vs, ys, a1, a2, a3, a4, a5, a6, a7⟩ := C62_optimal (ham 3) (hs (Fin nx → Fin nx)) M x0
    obtain ⟨ps', Vs', ws, zs, b1, b2, b3, b4, -⟩ := C62_fwdbwd (hs (Fin nx → Fin nx → K)) (ham 3) (ham nx) (10 ^ 20) M x0 hne hbelow
    obtain ⟨rfl, rfl⟩ : ps' = ps ∧ Vs' = Vs := by
      rw [a1] at b1
      simpa [eq_comm] using b1
    have hW : W0 x0 = V0 x0 := by
      rw [← a7, ← hcost]
      exact le_antisymm (a6.2 us hopt.1) (hopt.2 vs a6.1)
    have hvl : vs.length = T := a6.1.trans hl
    have hyl : ys.length = T + 1 := by
      have := (C62_forward (hs (Fin nx → Fin nx)) M x0 ps').1 (by
        by_contra hcon
        rw [((C62_forward (hs (Fin nx → Fin nx)) M x0 ps').2 hcon).1] at a3
        cases a3)
      obtain ⟨us1, xs1, e1, e2, -⟩ := this
      rw [a3] at e2
      obtain ⟨rfl, rfl⟩ := Prod.mk.inj (Except.ok.inj e2)
      have e3 : M.seqSimulation x0 vs = .ok ys := a5
      have : ∀ (ss : List (FStage nx 3 K)) (us : List (Fin 3)) (x : Fin nx) (r : List (Fin nx)),
          seqSimulationLoop ss us x = .ok r → r.length = us.length := by
        intro ss us
        induction us generalizing ss with
        | nil =>
          intro x r hr
          unfold seqSimulationLoop at hr
          cases Except.ok.inj hr
          rfl
        | cons u us ih =>
          intro x r hr
          cases ss with
          | nil => cases hr
          | cons s ss =>
            rw [seqSimulationLoop] at hr
            cases hq : seqSimulationLoop ss us (s.f x u) with
            | error e =>
              rw [hq] at hr
              cases hr
            | ok q =>
              rw [hq] at hr
              cases Except.ok.inj hr
              simp [ih ss _ _ hq]
      unfold FSC.seqSimulation at e3
      cases hq : seqSimulationLoop M.stages vs x0 with
      | error e =>
        rw [hq] at e3
        cases e3
      | ok q =>
        rw [hq] at e3
        cases Except.ok.inj e3
        simp [this _ _ _ _ hq, hvl]
    obtain ⟨dx, hdx⟩ := maxAbsIdx_ok ys xs (by omega) (by rintro rfl; simp at hyl)
    obtain ⟨du, hdu⟩ := maxAbsIdx_ok vs us (by omega) (by rintro rfl; simp at hvl; omega)
    obtain ⟨dx2, hdx2⟩ := maxAbsIdx_ok zs xs (by omega) (by rintro rfl; simp at b4)
    obtain ⟨du2, hdu2⟩ := maxAbsIdx_ok ws us (by omega) (by rintro rfl; simp at b3; omega)
    refine ⟨ps', Vs', ys, vs, dx, du, dx2, du2, a1, a3, hdx, hdu, ?_⟩
    obtain ⟨m1, m2, m3⟩ := C54_fsc (scan (Fin nx → Fin nx → K)) (scan (Fin nx → Fin nx)) (am 3) (am nx) (10 ^ 20) 10000 M x0 ps' Vs'
      (by norm_num) (hl ▸ hT')
    unfold finTfCell
    change (M.tfSeqBackward (am 3) >>= _) = _
    rw [a1, py_ok_bind]
    change (M.tfSeqForward x0 ps' >>= _) = _
    rw [a3, py_ok_bind, pyGet_ok.2 a2, py_ok_bind]
    change (maxAbsIdx ys xs >>= _) = _
    rw [hdx, py_ok_bind]
    change (maxAbsIdx vs us >>= _) = _
    rw [hdu, py_ok_bind]
    change (M.tfParBackwardMp (scan _) (am 3) (10 ^ 20) 10000 >>= _) = _
    rw [m1, hbw, a1, py_ok_bind]
    change (M.tfParForwardMp (scan _) 10000 x0 ps' >>= _) = _
    rw [m2, a4, py_ok_bind, pyGet_ok.2 a2, py_ok_bind]
    change (M.tfParFwdBwdMp (scan _) (am nx) (10 ^ 20) 10000 x0 ps' Vs' >>= _) = _
    rw [m3, b2, py_ok_bind]
    change (maxAbsIdx ys xs >>= fun _ => maxAbsIdx vs us >>= fun _ => maxAbsIdx zs xs >>= fun _ => maxAbsIdx ws us >>= fun _ => _) = _
    rw [hdx, hdu, hdx2, hdu2]
    change Except.ok (FinTf.mk (V0 x0) (W0 x0) (W0 x0) dx du [M.stages.length, nx, 3] [M.stages.length, nx, 3] [nx] dx du dx2 du2) = _
    rw [hW, hl]
  · have hbs := C62_seq_backward_np M
    have hpl : M.seqBackwardPass.1.length = M.stages.length := (C05_seqBackward_policy M).1
    obtain ⟨us1, xs1, e1, e2, e3⟩ := (C62_forward (hs (Fin nx → Fin nx)) M x0 M.seqBackwardPass.1).1 hpl
    obtain ⟨rfl, rfl⟩ : us1 = us ∧ xs1 = xs := by
      rw [hfw] at e1
      simpa [eq_comm] using e1
    have hfb : M.tfParFwdBwd (scan _) argmin1 (10 ^ 20) x0 M.seqBackwardPass.1 M.seqBackwardPass.2 = .ok (us1, xs1) := by
      rw [seqBackwardPass_eq, ← amPolList_argmin1]
      rw [lane_fwdbwd (hs (Fin nx → Fin nx → K)) (10 ^ 20) M x0 (by
        intro s hs
        obtain ⟨k, hk, rfl⟩ := List.getElem_of_mem hs
        exact ⟨fun x => ⟨(hcells k hk x).1, (hcells k hk x).2.1, (hcells k hk x).2.2.1⟩, _, fun x u => (hcells k hk x).2.2.2 u⟩) hne
        hbelow]
      rw [← hfw, seqForwardPass_eq M x0 _ hpl.le, seqBackwardPass_eq, amPolList_argmin1]
    obtain ⟨m1, m2, m3⟩ := C54_fsc (scan (Fin nx → Fin nx → K)) (scan (Fin nx → Fin nx)) argmin1 argmin1 (10 ^ 20) 10000 M x0
      M.seqBackwardPass.1 M.seqBackwardPass.2 (by norm_num) (hl ▸ hT')
    unfold finTfCell
    change (M.tfSeqBackward argmin1 >>= _) = _
    rw [hbs, py_ok_bind]
    change (M.tfSeqForward x0 M.seqBackwardPass.1 >>= _) = _
    rw [e2, py_ok_bind, pyGet_ok.2 hV0, py_ok_bind]
    change (maxAbsIdx xs1 xs1 >>= fun _ => maxAbsIdx us1 us1 >>= fun _ => _) = _
    rw [maxAbsIdx_self _ hxn, maxAbsIdx_self _ hun, py_ok_bind, py_ok_bind]
    change (M.tfParBackwardMp (scan _) argmin1 (10 ^ 20) 10000 >>= _) = _
    rw [m1, hbw, hbs, py_ok_bind]
    change (M.tfParForwardMp (scan _) 10000 x0 M.seqBackwardPass.1 >>= _) = _
    rw [m2, e3, py_ok_bind, pyGet_ok.2 hV0, py_ok_bind]
    change (M.tfParFwdBwdMp (scan _) argmin1 (10 ^ 20) 10000 x0 M.seqBackwardPass.1 M.seqBackwardPass.2 >>= _) = _
    rw [m3, hfb, py_ok_bind]
    change (maxAbsIdx xs1 xs1 >>= fun _ => maxAbsIdx us1 us1 >>= fun _ => maxAbsIdx xs1 xs1 >>= fun _ => maxAbsIdx us1 us1 >>=
      fun _ => _) = _
    rw [maxAbsIdx_self _ hxn, maxAbsIdx_self _ hun]
    change Except.ok (FinTf.mk (V0 x0) (V0 x0) (V0 x0) 0 0 [M.stages.length, nx, 3] [M.stages.length, nx, 3] [nx] 0 0 0 0) = _
    rw [hl]

omit [IsStrictOrderedRing K] in
/-- C95 (what is compared): for every earlier state of the notebook, also one with other trajectories and costs, the cell of the parallel
solutions prints that cost, the first value of the parallel backward pass, and the largest distances to those trajectories, first of the
forward pass and then of the forward-backward pass. -/
theorem C95_compare (s : FinSeq K) (p : FinNp K) (h : finNpCell s = .ok p) :
    ∃ us Vs V0 us1 xs1 us2 xs2, s.it.M.parBackwardPass (10 ^ 20) = .ok (us, Vs) ∧ Vs[0]? = some V0 ∧
      s.it.M.parForwardPass s.it.x0 us = .ok (us1, xs1) ∧ s.it.M.parFwdBwdPass (10 ^ 20) s.it.x0 us Vs = .ok (us2, xs2) ∧
      p.min_cost_seq = s.min_cost ∧ p.min_cost_par = V0 s.it.x0 ∧
      IsGreatest {d : ℕ | ∃ (k : ℕ) (a b : Fin s.it.n), xs1[k]? = some a ∧ s.min_x[k]? = some b ∧ d = ((a.val : ℤ) - b.val).natAbs} p.dx1 ∧
      IsGreatest {d : ℕ | ∃ (k : ℕ) (a b : Fin s.it.m), us1[k]? = some a ∧ s.min_u[k]? = some b ∧ d = ((a.val : ℤ) - b.val).natAbs} p.du1 ∧
      IsGreatest {d : ℕ | ∃ (k : ℕ) (a b : Fin s.it.n), xs2[k]? = some a ∧ s.min_x[k]? = some b ∧ d = ((a.val : ℤ) - b.val).natAbs} p.dx2 ∧
      IsGreatest {d : ℕ | ∃ (k : ℕ) (a b : Fin s.it.m), us2[k]? = some a ∧ s.min_u[k]? = some b ∧ d = ((a.val : ℤ) - b.val).natAbs} p.du2 := by
  unfold finNpCell at h
  obtain ⟨⟨us, Vs⟩, h1, h⟩ := bind_ok.1 h
  obtain ⟨⟨us1, xs1⟩, h2, h⟩ := bind_ok.1 h
  obtain ⟨V0, h3, h⟩ := bind_ok.1 h
  obtain ⟨⟨us2, xs2⟩, h4, h⟩ := bind_ok.1 h
  obtain ⟨a, h5, h⟩ := bind_ok.1 h
  obtain ⟨b, h6, h⟩ := bind_ok.1 h
  obtain ⟨c, h7, h⟩ := bind_ok.1 h
  obtain ⟨d, h8, h⟩ := bind_ok.1 h
  cases h
  exact ⟨us, Vs, V0, us1, xs1, us2, xs2, h1, pyGet_ok.1 h3, h2, h4, rfl, rfl, maxAbsIdx_greatest h5, maxAbsIdx_greatest h6,
    maxAbsIdx_greatest h7, maxAbsIdx_greatest h8⟩

omit [IsStrictOrderedRing K] in
/-- C95 (what the TensorFlow cell compares): for every earlier state of the notebook, also one with other trajectories and costs. -/
theorem C95_compare_tf (scan : AScan) (am : AArgmin K) (s : FinSeq K) (p : FinTf K) (h : finTfCell scan am s = .ok p) :
    ∃ us Vs V0 xs1 us1 pus pVs pV0 us2 xs2 us3 xs3, s.it.M.tfSeqBackward (am s.it.m) = .ok (us, Vs) ∧ Vs[0]? = some V0 ∧
      s.it.M.tfSeqForward s.it.x0 us = .ok (xs1, us1) ∧ s.it.M.tfParBackwardMp (scan _) (am s.it.m) (10 ^ 20) 10000 = .ok (pus, pVs) ∧
      pVs[0]? = some pV0 ∧ s.it.M.tfParForwardMp (scan _) 10000 s.it.x0 pus = .ok (us2, xs2) ∧
      s.it.M.tfParFwdBwdMp (scan _) (am s.it.n) (10 ^ 20) 10000 s.it.x0 pus pVs = .ok (us3, xs3) ∧
      p.min_cost_seq = s.min_cost ∧ p.min_cost_tf_seq = V0 s.it.x0 ∧ p.min_cost_tf_par = pV0 s.it.x0 ∧
      IsGreatest {d : ℕ | ∃ (k : ℕ) (a b : Fin s.it.n), xs1[k]? = some a ∧ s.min_x[k]? = some b ∧ d = ((a.val : ℤ) - b.val).natAbs} p.dx ∧
      IsGreatest {d : ℕ | ∃ (k : ℕ) (a b : Fin s.it.m), us1[k]? = some a ∧ s.min_u[k]? = some b ∧ d = ((a.val : ℤ) - b.val).natAbs} p.du ∧
      IsGreatest {d : ℕ | ∃ (k : ℕ) (a b : Fin s.it.n), xs2[k]? = some a ∧ s.min_x[k]? = some b ∧ d = ((a.val : ℤ) - b.val).natAbs} p.dx1 ∧
      IsGreatest {d : ℕ | ∃ (k : ℕ) (a b : Fin s.it.m), us2[k]? = some a ∧ s.min_u[k]? = some b ∧ d = ((a.val : ℤ) - b.val).natAbs} p.du1 ∧
      IsGreatest {d : ℕ | ∃ (k : ℕ) (a b : Fin s.it.n), xs3[k]? = some a ∧ s.min_x[k]? = some b ∧ d = ((a.val : ℤ) - b.val).natAbs} p.dx2 ∧
      IsGreatest {d : ℕ | ∃ (k : ℕ) (a b : Fin s.it.m), us3[k]? = some a ∧ s.min_u[k]? = some b ∧ d = ((a.val : ℤ) - b.val).natAbs} p.du2 := by
  unfold finTfCell at h
  obtain ⟨⟨us, Vs⟩, h1, h⟩ := bind_ok.1 h
  obtain ⟨⟨xs1, us1⟩, h2, h⟩ := bind_ok.1 h
  obtain ⟨V0, h3, h⟩ := bind_ok.1 h
  obtain ⟨dx, g1, h⟩ := bind_ok.1 h
  obtain ⟨du, g2, h⟩ := bind_ok.1 h
  obtain ⟨⟨pus, pVs⟩, h4, h⟩ := bind_ok.1 h
  obtain ⟨⟨us2, xs2⟩, h5, h⟩ := bind_ok.1 h
  obtain ⟨pV0, h6, h⟩ := bind_ok.1 h
  obtain ⟨⟨us3, xs3⟩, h7, h⟩ := bind_ok.1 h
  obtain ⟨a, g3, h⟩ := bind_ok.1 h
  obtain ⟨b, g4, h⟩ := bind_ok.1 h
  obtain ⟨c, g5, h⟩ := bind_ok.1 h
  obtain ⟨d, g6, h⟩ := bind_ok.1 h
  cases h
  exact ⟨us, Vs, V0, xs1, us1, pus, pVs, pV0, us2, xs2, us3, xs3, h1, pyGet_ok.1 h3, h2, h4, pyGet_ok.1 h6, h5, h7, rfl, rfl, rfl,
    maxAbsIdx_greatest g1, maxAbsIdx_greatest g2, maxAbsIdx_greatest g3, maxAbsIdx_greatest g4, maxAbsIdx_greatest g5, maxAbsIdx_greatest g6⟩

/-- C95 (what the Gilbert-Elliot cell compares): whenever the cell completes, also with a sentinel that is too small, the printed errors are the
largest differences of the value functions and of the paths of the numpy and the TensorFlow routine. -/
theorem C95_compare_ge {n q : ℕ} {P K : Type} [Field P] [LinearOrder P] [AddCommGroup K] [LinearOrder K] [NeZero n] (scan : AScan)
    (am : (Fin n → K) → Fin n) (inf : K) (nl : P → K) (rnd : ℕ → P) (H : HMM n q P) (T : ℕ) (p : GEDemo n q K)
    (h : geDemoCell scan am inf nl rnd H T = .ok p) :
    ∃ p1 V1 p2 V2, H.genData rnd T = .ok (p.x_list, p.y_list) ∧ H.seqViterbi nl p.y_list = .ok (p1, V1) ∧
      H.tfFscParMp (scan _) (scan _) am inf nl p.y_list = .ok (p2, V2) ∧ p.v_map = p1.tail ∧
      IsGreatest {d : K | ∃ (k : ℕ) (x y : Fin n → K) (i : Fin n), V1[k]? = some x ∧ V2[k]? = some y ∧ d = |x i - y i|} p.err_V ∧
      IsGreatest {d : ℕ | ∃ (k : ℕ) (a b : Fin n), p1[k]? = some a ∧ p2[k]? = some b ∧ d = ((a.val : ℤ) - b.val).natAbs} p.err_map := by
  unfold geDemoCell at h
  obtain ⟨⟨xs, ys⟩, h1, h⟩ := bind_ok.1 h
  obtain ⟨⟨p1, V1⟩, h2, h⟩ := bind_ok.1 h
  obtain ⟨⟨p2, V2⟩, h3, h⟩ := bind_ok.1 h
  obtain ⟨a, h4, h⟩ := bind_ok.1 h
  obtain ⟨b, h5, h⟩ := bind_ok.1 h
  dsimp only at h
  split at h
  · cases h
  · cases h
    exact ⟨p1, V1, p2, V2, h1, h2, h3, rfl, tfMaxAbs_greatest h4, maxAbsIdx_greatest h5⟩

/-- The hypothesis of the comparison holds in the notebook. -/
example (rnd : ℕ → ℕ → K) : ∃ s p, finSeqCell rnd 21 100 = .ok s ∧ finNpCell s = .ok p := by
  obtain ⟨s, h1, h2⟩ := C95_numpy rnd 21 100 (by norm_num) (by norm_num)
  exact ⟨s, _, h1, h2⟩

/-- The notebook: `T = 100`, `nx = 21`. -/
example (rnd : ℕ → ℕ → K) : ∃ s, finSeqCell rnd 21 100 = .ok s ∧ finNpCell s = .ok ⟨s.min_cost, s.min_cost, 0, 0, 0, 0⟩ ∧
    finTfCell (fun _ op l => scanVals op l) (fun _ _ => argmin1) s =
      .ok ⟨s.min_cost, s.min_cost, s.min_cost, 0, 0, [100, 21, 3], [100, 21, 3], [21], 0, 0, 0, 0⟩ := by
  obtain ⟨s, h1, h2⟩ := C95_numpy rnd 21 100 (by norm_num) (by norm_num)
  obtain ⟨s', h3, -, h4⟩ := C95_tensorflow rnd 21 100 (by norm_num) (by norm_num) (fun _ op l => scanVals op l) fun _ => C17_scan_example
  rw [h1] at h3
  cases h3
  exact ⟨s, h1, h2, h4⟩

end Game

/-- Random numbers for which the first walk goes to smaller and the second to larger lanes. -/
def tieRnd : ℕ → ℕ → ℚ := fun r _ => if r = 0 then 0 else 99 / 100

/-- The largest index of a smallest entry. -/
def lastArgmin : AArgmin ℚ := fun _ _ v => (argmin1 fun i => v i.rev).rev

theorem lastArgmin_ok (n : ℕ) [NeZero n] : IsArgmin (lastArgmin n) := by
  intro v i
  have := argmin1_le (fun i => v i.rev) i.rev
  simpa [lastArgmin] using this

/-- The cells of the four columns in hundredths. -/
def tieTable : List (List ℚ) :=
  [[50, 30, 5, 9, 5, 30, 50], [30, 10, 30, 25, 30, 10, 30], [10, 30, 50, 100, 50, 30, 10], [10, 30, 50, 100, 50, 30, 10]]

/-- The game on these cells. -/
def tieGame : FSC 7 3 ℚ where
  stages := tieTable.map fun c => ⟨fun x u => ![⟨x.val - 1, by omega⟩, x, ⟨min (x.val + 1) 6, by omega⟩] u,
    fun x u => c.getD x.val 0 / 100 + if u = 1 then 0 else 1⟩
  LT := fun _ => 0

theorem tieGame_cells : LaneCells (trackCell tieRnd 7) tieGame.stages := by
  have hc : ∀ k < 4, ∀ x : Fin 7, (tieTable.getD k []).getD x.val 0 / 100 = trackCell tieRnd 7 x.val k := by decide +kernel
  intro k hk x
  match k, hk with
  | 0, _ => exact ⟨rfl, rfl, rfl, fun u => by rw [← hc 0 (by norm_num) x]; rfl⟩
  | 1, _ => exact ⟨rfl, rfl, rfl, fun u => by rw [← hc 1 (by norm_num) x]; rfl⟩
  | 2, _ => exact ⟨rfl, rfl, rfl, fun u => by rw [← hc 2 (by norm_num) x]; rfl⟩
  | 3, _ => exact ⟨rfl, rfl, rfl, fun u => by rw [← hc 3 (by norm_num) x]; rfl⟩
  | k + 4, h => exact absurd h (by change ¬ k + 4 < 4; omega)

theorem laneCells_unique {n : ℕ} {c : ℕ → ℕ → ℚ} {a b : List (FStage n 3 ℚ)} (ha : LaneCells c a) (hb : LaneCells c b)
    (hl : a.length = b.length) : a = b := by
  apply List.ext_getElem hl
  intro k h1 h2
  have hf : a[k].f = b[k].f := by
    funext x u
    obtain ⟨a1, a0, a2, -⟩ := ha k h1 x
    obtain ⟨b1, b0, b2, -⟩ := hb k h2 x
    fin_cases u
    · exact Fin.ext (a0.trans b0.symm)
    · exact a1.trans b1.symm
    · exact Fin.ext (a2.trans b2.symm)
  have hL : a[k].L = b[k].L := by
    funext x u
    rw [(ha k h1 x).2.2.2 u, (hb k h2 x).2.2.2 u]
  cases ha : a[k]
  cases hb : b[k]
  rw [ha, hb] at hf hL
  simp only at hf hL
  rw [hf, hL]

/-- C95 (ties): TensorFlow does not document which index `tf.argmin` returns for ties. For seven lanes, four steps and walks to both
sides, the cell prints differences of two lanes and of two controls if it returns the largest index, although the costs agree. -/
theorem C95_ties (scan : AScan) (hs : ∀ α, IsAssocScan (scan α)) : (∀ (n : ℕ) [NeZero n], IsArgmin (lastArgmin n)) ∧
    ∃ s dx2 du2, finSeqCell tieRnd 7 4 = .ok s ∧ s.min_cost = 234 / 100 ∧ s.min_x.map Fin.val = [3, 3, 2, 2, 2] ∧
      finTfCell scan lastArgmin s =
        .ok ⟨234 / 100, 234 / 100, 234 / 100, 2, 2, [4, 7, 3], [4, 7, 3], [7], 2, 2, dx2, du2⟩ := by
  refine ⟨@lastArgmin_ok, ?_⟩
  obtain ⟨x0, M, us, xs, V0, h1, hx0, hl, hLT, hcells, hfw, hul, hxs, hsim, hV0, hopt, hcost⟩ := finSeqCell_spec tieRnd 7 4 (by norm_num)
  obtain ⟨s, h3, h4, -⟩ := C95_tensorflow tieRnd 7 4 (by norm_num) (by norm_num) scan hs
  rw [h1] at h3
  cases h3
  obtain ⟨ps, Vs, ys, vs, dx, du, dx2, du2, a1, a2, a3, a4, a5⟩ := h4 lastArgmin @lastArgmin_ok
  have hM : M = tieGame := by
    have e1 := laneCells_unique hcells tieGame_cells (hl.trans rfl)
    have e2 : M.LT = tieGame.LT := funext fun x => hLT x
    cases M
    simp only at e1 e2
    rw [e1, e2]
  obtain rfl : x0 = 3 := Fin.ext hx0
  subst hM
  have k1 : tieGame.seqForwardPass 3 tieGame.seqBackwardPass.1 = .ok ([1, 0, 1, 1], [3, 3, 2, 2, 2]) := by decide +kernel
  have k2 : (tieGame.tfSeqBackward (lastArgmin 3) >>= fun r => tieGame.tfSeqForward 3 r.1) = .ok ([3, 3, 4, 4, 4], [1, 2, 1, 1]) := by
    decide +kernel
  have k3 : (tieGame.seqBackwardPass.2[0]?).map (fun V => V 3) = some (234 / 100) := by decide +kernel
  rw [hV0] at k3
  have k3' : V0 3 = 234 / 100 := Option.some.inj k3
  rw [hfw] at k1
  obtain ⟨rfl, rfl⟩ := Prod.mk.inj (Except.ok.inj k1)
  have a1' : tieGame.tfSeqBackward (lastArgmin 3) = .ok (ps, Vs) := a1
  have a2' : tieGame.tfSeqForward 3 ps = .ok (ys, vs) := a2
  rw [a1', py_ok_bind, a2'] at k2
  obtain ⟨rfl, rfl⟩ := Prod.mk.inj (Except.ok.inj k2)
  have hdx : dx = 2 := Except.ok.inj (a3.symm.trans (show maxAbsIdx ([3, 3, 4, 4, 4] : List (Fin 7)) [3, 3, 2, 2, 2] = .ok 2 by decide))
  have hdu : du = 2 := Except.ok.inj (a4.symm.trans (show maxAbsIdx ([1, 2, 1, 1] : List (Fin 3)) [1, 0, 1, 1] = .ok 2 by decide))
  refine ⟨_, dx2, du2, h1, k3', rfl, ?_⟩
  rw [a5, hdx, hdu]
  dsimp only
  rw [k3']

section Viterbi
variable {n q : ℕ} {P K : Type} [Field P] [LinearOrder P] [IsStrictOrderedRing P] [AddCommGroup K] [LinearOrder K]
  [IsOrderedAddMonoid K] [NeZero n] {S : P → Prop} {nl : P → K}

/-- C95 (Viterbi): for at least two steps and negative logarithms small against the constant the cell completes for every minimiser,
every associative scan and all random numbers. The value functions agree, the printed shape is `(3, T)`, and the columns of the file
are the states and observations of the generated data and the states `1, .., T` of a most probable path. The paths agree if the
minimiser returns the smallest index, or if there is only one most probable path. -/
theorem C95_viterbi (h : IsNegLog S nl) (scan : AScan) (hs : ∀ α, IsAssocScan (scan α)) {am : (Fin n → K) → Fin n} (ham : IsArgmin am)
    (H : HMM n q P) (hH : H.All S) (hst : H.Stochastic) (inf B : K) (hp : ∀ x, |nl (H.prior x)| ≤ B)
    (hPi : ∀ i j, |nl (H.Pi i j)| ≤ B) (hPo : ∀ i y, |nl (H.Po i y)| ≤ B) (rnd : ℕ → P) (hr : ∀ i, 0 ≤ rnd i ∧ rnd i < 1) (T : ℕ)
    (h2 : 2 ≤ T) (hB : (2 * T + 1) • (B + B) ≤ inf) :
    ∃ g, geDemoCell scan am inf nl rnd H T = .ok g ∧ g.err_V = 0 ∧ g.shape = [3, T] ∧ H.genData rnd T = .ok (g.x_list, g.y_list) ∧
      g.v_map.length = T ∧ (∃ v0, H.IsMAP g.y_list (v0 :: g.v_map)) ∧
      (am = argmin1 ∨ (∀ p p', H.IsMAP g.y_list p → H.IsMAP g.y_list p' → p = p') → g.err_map = 0) := by
  obtain ⟨x0, xs, ys, -, hd, hxl, hl, -⟩ := (C78_data H hst T).1 rnd hr
  have hys : ys ≠ [] := by
    rintro rfl
    simp at hl
    omega
  subst hl
  obtain ⟨c1, -⟩ := C54_viterbi (scan _) (scan _) am inf nl H ys h2
  obtain ⟨p2, p1, Vs, a1, a2, a3⟩ := (C63_seq h H hH ys hys).1 am ham
  obtain ⟨q1, q1', Ws, b1, b2, b3⟩ := (C63_seq h H hH ys hys).1 argmin1 isArgmin_argmin1
  have hp1 : H.IsMAP ys p1 := by
    rw [(C63_seq h H hH ys hys).2, a2] at b1
    obtain ⟨rfl, -⟩ := Prod.mk.inj (Except.ok.inj b1)
    exact b3
  have hpar := (C63_par h H hH inf B (hs (Fin n → Fin n → K)) (hs (Fin n → Fin n)) hp hPi hPo ys hys hB).1 am
  have hVs : Vs ≠ [] := by
    obtain ⟨sp, Vs', hV, hs'⟩ := seqViterbi_vals h H hH ys hys
    rw [a2] at hs'
    obtain ⟨-, rfl⟩ := Prod.mk.inj (Except.ok.inj hs')
    rintro rfl
    simp at hV
  obtain ⟨d, hdm⟩ := maxAbsIdx_ok p1 p2 (hp1.1.trans a3.1.symm) (by rintro rfl; have := hp1.1; simp at this)
  obtain ⟨v0, v, rfl⟩ : ∃ v0 v, p1 = v0 :: v := by
    cases p1 with
    | nil => have := hp1.1; simp at this
    | cons a l => exact ⟨a, l, rfl⟩
  have hv : v.length = ys.length := by simpa using hp1.1
  refine ⟨⟨0, d, [3, xs.length], xs, ys, v⟩, ?_, rfl, by rw [hxl], hd, hv, ⟨v0, hp1⟩, ?_⟩
  · unfold geDemoCell
    rw [hd, py_ok_bind]
    dsimp only
    rw [a2, py_ok_bind, c1, hpar, a1, py_ok_bind]
    dsimp only
    rw [tfMaxAbs_self Vs hVs, py_ok_bind, hdm, py_ok_bind, if_neg (by simp; omega)]
    rfl
  · rintro (rfl | hu)
    · rw [(C63_seq h H hH ys hys).2, a2] at a1
      obtain ⟨rfl, -⟩ := Prod.mk.inj (Except.ok.inj a1)
      rw [maxAbsIdx_self _ (by simp)] at hdm
      exact (Except.ok.inj hdm).symm
    · obtain rfl := hu _ _ a3 hp1
      rw [maxAbsIdx_self _ (by simp)] at hdm
      exact (Except.ok.inj hdm).symm

end Viterbi

/-- C95 (Gilbert-Elliot): the cell of the notebook, for all random numbers and lengths up to `10 ^ 18`: both printed differences are
zero with the smallest index for ties, and the shape is `(3, T)`; the notebook has `T = 100`. -/
theorem C95_gilbert_elliot (scan : AScan) (hs : ∀ α, IsAssocScan (scan α)) (rnd : ℕ → ℝ) (hr : ∀ i, 0 ≤ rnd i ∧ rnd i < 1) (T : ℕ)
    (h2 : 2 ≤ T) (h3 : T ≤ 10 ^ 18) :
    ∃ g : GEDemo 4 2 ℝ, geDemoCell scan argmin1 (10 ^ 20) (fun p : ℝ => -Real.log p) rnd geModel T = .ok g ∧ g.err_V = 0 ∧
      g.err_map = 0 ∧ g.shape = [3, T] ∧ (geModel : HMM 4 2 ℝ).genData rnd T = .ok (g.x_list, g.y_list) ∧ g.v_map.length = T ∧
      ∃ v0, (geModel : HMM 4 2 ℝ).IsMAP g.y_list (v0 :: g.v_map) := by
  have hG := C49_gilbert_elliot (3 / 100 : ℝ) (1 / 10) (5 / 100) (1 / 10) (3 / 10) (by norm_num) (by norm_num) (by norm_num) (by norm_num)
    (by norm_num)
  obtain ⟨g1, g2, g3, -⟩ := hG
  have hb : ∀ p : ℝ, 1 / 1000 ≤ p → p ≤ 1 → |-Real.log p| ≤ 7 := by
    intro p h1 h2
    have e1 : Real.log p ≤ 0 := Real.log_nonpos (by linarith) h2
    have e2 : -7 ≤ Real.log p := by
      rw [Real.le_log_iff_exp_le (by linarith), Real.exp_neg, inv_le_comm₀ (Real.exp_pos _) (by linarith)]
      have e3 : p⁻¹ ≤ 1000 := by
        rw [inv_le_comm₀ (by linarith) (by norm_num)]
        linarith
      have e4 := Real.exp_one_gt_d9
      have e5 : Real.exp 7 = Real.exp 1 ^ 7 := by rw [← Real.exp_nat_mul]; norm_num
      have e6 : (27 / 10 : ℝ) ^ 7 ≤ Real.exp 1 ^ 7 := pow_le_pow_left₀ (by norm_num) (by linarith) 7
      rw [e5]
      norm_num at e6 ⊢
      linarith
    rw [abs_le]
    constructor <;> linarith
  obtain ⟨g, k1, k2, k3, k4, k5, k6, k7⟩ := C95_viterbi C14_real_log_pos scan hs isArgmin_argmin1 geModel
    ⟨g3.1, fun i => (g1 i).1, fun i => (g2 i).1⟩
    ⟨⟨fun x => (g3.1 x).le, g3.2⟩, fun x => ⟨fun y => ((g1 x).1 y).le, (g1 x).2⟩, fun x => ⟨fun y => ((g2 x).1 y).le, (g2 x).2⟩⟩
    (10 ^ 20) 7 (fun x => hb _ (by show _ ≤ (1 / 4 : ℝ); norm_num) (by show (1 / 4 : ℝ) ≤ _; norm_num))
    (by
      intro i j
      apply hb
      · fin_cases i <;> fin_cases j <;> simp [geModel, geHMM] <;> norm_num
      · fin_cases i <;> fin_cases j <;> simp [geModel, geHMM] <;> norm_num)
    (by
      intro i j
      apply hb
      · fin_cases i <;> fin_cases j <;> simp [geModel, geHMM] <;> norm_num
      · fin_cases i <;> fin_cases j <;> simp [geModel, geHMM] <;> norm_num) rnd hr T h2
    (by
      have : (T : ℝ) ≤ 10 ^ 18 := by exact_mod_cast h3
      rw [nsmul_eq_mul]
      push_cast
      linarith)
  exact ⟨g, k1, k2, k7 (Or.inl rfl), k3, k4, k5, k6⟩

/-- The notebook with `T = 100` and some random numbers. -/
example : ∃ g : GEDemo 4 2 ℝ, geDemoCell (fun _ op l => scanVals op l) argmin1 (10 ^ 20) (fun p : ℝ => -Real.log p) (fun _ => 1 / 2)
    geModel 100 = .ok g ∧ g.shape = [3, 100] := by
  obtain ⟨g, h1, -, -, h2, -⟩ := C95_gilbert_elliot (fun _ op l => scanVals op l) (fun _ => C17_scan_example) (fun _ => 1 / 2)
    (fun _ => by norm_num) 100 (by norm_num) (by norm_num)
  exact ⟨g, h1, h2⟩

end Verif
