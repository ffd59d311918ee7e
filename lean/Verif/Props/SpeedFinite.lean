import Verif.Proof.SpeedFinite

/-! Property C81 (speed tests of the finite-state model). -/

namespace Verif

variable {n m : ℕ} {K : Type}

/-- C81 (conversion): `fsc_np_to_tf` returns exactly the problem whose transition functions and costs the arrays hold, and raises
`ValueError` when there is none. -/
theorem C81_convert [Field K] [LinearOrder K] [IsStrictOrderedRing K] (o : RawFSC ℕ K) :
    (∀ M : FSC n m K, o.npToTf n m = .ok M ↔ o.Represents M) ∧
    ((∀ M : FSC n m K, ¬ o.Represents M) → o.npToTf n m = .error .valueError) := by
  refine ⟨fun M => fscNpToTf_iff o M, fun h => ?_⟩
  cases he : o.npToTf n m with
  | ok M => exact absurd ((fscNpToTf_iff o M).1 he) (h M)
  | error e => rw [fscNpToTf_error o e he]

/-- Arrays that are converted, and arrays with a transition to a state that does not exist. -/
example : ((⟨[⟨2, 1, fun _ _ => 1⟩], [⟨2, 1, fun x _ => x.val⟩], ⟨2, fun _ => 5⟩⟩ : RawFSC ℕ ℚ).npToTf 2 1).toOption.isSome = true ∧
    ((⟨[⟨2, 1, fun _ _ => 2⟩], [⟨2, 1, fun x _ => x.val⟩], ⟨2, fun _ => 5⟩⟩ : RawFSC ℕ ℚ).npToTf 2 1).toOption.isNone = true := by
  constructor <;> decide

section Pipelines
variable [AddCommGroup K] [LinearOrder K] [IsOrderedAddMonoid K] [NeZero n] [NeZero m]

/-- C81 (functions): for at least two steps and costs small against the constant, for every minimiser and every associative scan, the
two backward functions return the same policies and values; the sequential function returns `(states, controls)` and the first
parallel one `(controls, states)` of the same optimal trajectory, whose cost is the value of the start; every state of the second
parallel function lies on some optimal trajectory, with the control of that trajectory, and the result is the same if there is only
one optimal state trajectory. -/
theorem C81_pipelines (scan : AScan) (hs : ∀ α, IsAssocScan (scan α)) (am : AArgmin K)
    (ham : ∀ (n : ℕ) [NeZero n], IsArgmin (am n)) (inf B : K) (M : FSC n m K) (x0 : Fin n) (hT : 2 ≤ M.stages.length)
    (hLT : ∀ x, |M.LT x| ≤ B) (hL : ∀ s ∈ M.stages, ∀ x u, |s.L x u| ≤ B) (hB : (2 * M.stages.length + 2) • B < inf) :
    ∃ ps Vs V0 us xs us' xs', M.spSeqBw am = .ok (ps, Vs) ∧ M.spParBw scan am inf = .ok (ps, Vs) ∧
      M.spSeqBwFw am x0 = .ok (xs, us) ∧ M.spParBwFw1 scan am inf x0 = .ok (us, xs) ∧ M.spParBwFw2 scan am inf x0 = .ok (us', xs') ∧
      Vs[0]? = some V0 ∧ M.seqSimulation x0 us = .ok xs ∧ IsOptimal M.LT M.stages x0 us ∧
      totalCost M.LT M.stages x0 us = V0 x0 ∧ us'.length = M.stages.length ∧ xs'.length = M.stages.length + 1 ∧
      (∀ k ≤ M.stages.length, ∃ x, xs'[k]? = some x ∧ ∃ vs : List (Fin m), IsOptimal M.LT M.stages x0 vs ∧
        stateAt M.stages x0 vs k = x ∧ vs[k]? = us'[k]?) ∧
      (UniqueOptimal M x0 → us' = us ∧ xs' = xs) := by
  have hB0 : 0 ≤ B := (abs_nonneg _).trans (hLT 0)
  have hne : M.stages ≠ [] := by
    intro h
    rw [h] at hT
    simp at hT
  have hbelow := C09_below_sentinel_of_bounded inf B M x0 hLT hL hB
  have hpar := (C62_par_eq_seq_bounded (hs _) inf B M hLT hL ((nsmul_le_of_le hB0 (by omega)).trans hB.le)).1 (am m)
  obtain ⟨ps, Vs, V0, us, xs, g1, g2, g3, g4, g5, g6, g7⟩ := C62_optimal (ham m) (hs (Fin n → Fin n)) M x0
  obtain ⟨ps', Vs', us', xs', f1, f2, f3, f4, f5⟩ := C62_fwdbwd (hs (Fin n → Fin n → K)) (ham m) (ham n) inf M x0 hne hbelow
  obtain ⟨rfl, rfl⟩ : ps' = ps ∧ Vs' = Vs := by
    rw [g1] at f1
    simpa [eq_comm] using f1
  have hmp := fun us Vs => C54_fsc (scan _) (scan _) (am m) (am n) inf M.stages.length M x0 us Vs hT le_rfl
  have hb : M.tfParBackwardMp (scan _) (am m) inf M.stages.length = .ok (ps', Vs') := by
    rw [(hmp ps' Vs').1, hpar, g1]
  have h2 : M.spParBwFw2 scan am inf x0 = .ok (us', xs') := by
    unfold FSC.spParBwFw2
    rw [hb, py_ok_bind]
    exact (hmp ps' Vs').2.2.trans f2
  refine ⟨ps', Vs', V0, us, xs, us', xs', g1, hb, ?_, ?_, h2, g2, g5, g6, g7, f3, f4, ?_, ?_⟩
  · unfold FSC.spSeqBwFw
    rw [g1, py_ok_bind]
    exact g3
  · unfold FSC.spParBwFw1
    rw [hb, py_ok_bind]
    exact (hmp ps' Vs').2.1.trans g4
  · intro k hk
    obtain ⟨x, e1, -, e2⟩ := f5 k hk
    exact ⟨x, e1, e2⟩
  · intro hu
    obtain ⟨qs, Ws, ws, ys, e1, e2, e3⟩ := C62_fwdbwd_unique (hs (Fin n → Fin n → K)) (ham m) (ham n) inf M x0 hne hbelow hu
    obtain ⟨rfl, rfl⟩ : qs = ps' ∧ Ws = Vs' := by
      rw [g1] at e1
      simpa [eq_comm] using e1
    rw [f2] at e2
    rw [g3] at e3
    simp only [Except.ok.injEq, Prod.mk.injEq] at e2 e3
    exact ⟨e2.1.trans e3.2.symm, e2.2.trans e3.1.symm⟩

omit [IsOrderedAddMonoid K] in
/-- C81 (one step): the sequential functions accept one step, the parallel ones, which pass `max_parallel = 1`, raise. -/
theorem C81_one (scan : AScan) (am : AArgmin K) (inf : K) (M : FSC n m K) (x0 : Fin n) (hT : M.stages.length = 1) :
    (∃ r, M.spSeqBw am = .ok r) ∧ (∃ r, M.spSeqBwFw am x0 = .ok r) ∧ M.spParBw scan am inf = .error .valueError ∧
    M.spParBwFw1 scan am inf x0 = .error .valueError ∧ M.spParBwFw2 scan am inf x0 = .error .valueError := by
  have hp := (C54_fsc_one (scan _) (scan _) (am m) (am n) inf M x0 [] [] hT).1
  refine ⟨⟨_, tfSeqBackward_eq_lists _ _⟩, ?_, ?_, ?_, ?_⟩
  · unfold FSC.spSeqBwFw
    rw [tfSeqBackward_eq_lists, py_ok_bind]
    exact ⟨_, tfSeqForward_eq_swap M x0 _ (amPolList_length _ _ _)⟩
  · unfold FSC.spParBw
    rw [hT]
    exact hp
  · unfold FSC.spParBwFw1
    rw [hT, hp]
    rfl
  · unfold FSC.spParBwFw2
    rw [hT, hp]
    rfl

end Pipelines

section Game
variable [Field K] [LinearOrder K] [IsStrictOrderedRing K]

/-- C81 (items): the generator yields the game on the generated track: the start is the middle lane, there are `T` steps, the controls
move by at most one lane, a step costs the cell of the lane, the product of the two masks, plus one for a move control, and the final
cost is zero; zero steps raise `IndexError`. -/
theorem C81_item (rnd : ℕ → ℕ → K) (nx T : ℕ) [NeZero nx] :
    (T = 0 → laneItem rnd nx T = .error .indexError) ∧
    (0 < T → ∃ (x0 : Fin nx) (M : FSC nx 3 K), laneItem rnd nx T = .ok ⟨nx, 3, inferInstance, inferInstance, x0, M⟩ ∧
      x0.val = nx / 2 ∧ M.stages.length = T ∧ (∀ x, M.LT x = 0) ∧ ∀ k (hk : k < M.stages.length) (x : Fin nx),
        M.stages[k].f x 1 = x ∧ (M.stages[k].f x 0 : ℕ) = x.val - 1 ∧ (M.stages[k].f x 2 : ℕ) = min (x.val + 1) (nx - 1) ∧
        ∀ u, M.stages[k].L x u = laneFactor ((x.val : ℤ) - lanePath rnd nx 0 (k + 1)) *
          laneFactor ((x.val : ℤ) - lanePath rnd nx 1 (k + 1)) + if u = 1 then 0 else 1) := by
  obtain ⟨-, -, hx0, -, hd⟩ := C51_genData rnd T nx
  obtain ⟨c1, -, c3⟩ := C51_getFSC (laneGenData rnd T nx).1
  refine ⟨fun h => ?_, fun h => ?_⟩
  · unfold laneItem
    change (laneGetFSC (laneGenData rnd T nx).1 >>= _) = _
    rw [c1 h]
    rfl
  · have c3' : ∃ r, ∃ M : FSC nx 3 K, laneGetFSC (laneGenData rnd T nx).1 = .ok r ∧ r.Represents M ∧ M.stages.length = T ∧
        (∀ x, M.LT x = 0) ∧ ∀ (k : Fin T) (s : FStage nx 3 K), M.stages[k.val]? = some s →
          (∀ x, s.f x 1 = x ∧ (s.f x 0 : ℕ) + 1 = max x.val 1 ∧ (s.f x 2 : ℕ) = min (x.val + 1) (nx - 1)) ∧
          (∀ x u, s.L x u = (laneGenData rnd T nx).1.data x k + if u = 1 then 0 else 1) := c3 h (Nat.pos_of_neZero nx)
    obtain ⟨r, M, h1, h2, h3, h4, h5⟩ := c3'
    have hlt : nx / 2 < nx := Nat.div_lt_self (Nat.pos_of_neZero nx) (by norm_num)
    refine ⟨⟨nx / 2, hlt⟩, M, ?_, rfl, h3, h4, ?_⟩
    · unfold laneItem
      change (laneGetFSC (laneGenData rnd T nx).1 >>= _) = _
      rw [h1, py_ok_bind, (fscNpToTf_iff r M).2 h2, py_ok_bind, dif_pos hlt]
      rfl
    · intro k hk x
      have hk' : k < T := lt_of_lt_of_eq hk h3
      obtain ⟨e1, e2⟩ := h5 ⟨k, hk'⟩ M.stages[k] (List.getElem?_eq_getElem hk)
      obtain ⟨f1, f2, f3⟩ := e1 x
      refine ⟨f1, ?_, f3, fun u => ?_⟩
      · omega
      · rw [e2 x u]
        exact congrArg (· + _) (hd x ⟨k, hk'⟩).1

example : (laneItem (K := ℚ) (fun _ _ => 1 / 2) 5 3).toOption.isSome = true ∧
    (laneItem (K := ℚ) (fun _ _ => 1 / 2) 5 0).toOption.isNone = true := by
  constructor <;> decide +kernel

/-- The costs of the items lie between zero and two. -/
theorem laneItem_bound (rnd : ℕ → ℕ → K) (nx T : ℕ) [NeZero nx] (M : FSC nx 3 K) (hT : M.stages.length = T)
    (h : ∀ k (hk : k < M.stages.length) (x : Fin nx) u, M.stages[k].L x u = laneFactor ((x.val : ℤ) - lanePath rnd nx 0 (k + 1)) *
      laneFactor ((x.val : ℤ) - lanePath rnd nx 1 (k + 1)) + if u = 1 then 0 else 1) :
    ∀ s ∈ M.stages, ∀ x u, |s.L x u| ≤ 2 := by
  intro s hs x u
  obtain ⟨k, hk, rfl⟩ := List.getElem_of_mem hs
  obtain ⟨-, -, -, -, hd⟩ := C51_genData rnd T nx
  obtain ⟨e1, e2, e3⟩ := hd x ⟨k, by change k < T; omega⟩
  rw [h k hk x u, ← e1, abs_le]
  split_ifs <;> constructor <;> linarith

/-- C81 (game): on a generated game with `2 ≤ T ≤ 10 ^ 19` and ties broken in favour of the smallest index all five functions agree:
the second parallel function, which picks the states one by one, returns the same optimal trajectory as the other two, although
optimal trajectories need not be unique. -/
theorem C81_game (rnd : ℕ → ℕ → K) (nx T : ℕ) [NeZero nx] (h2 : 2 ≤ T) (hT : T ≤ 10 ^ 19) (scan : AScan)
    (hs : ∀ α, IsAssocScan (scan α)) :
    ∃ it ps Vs V0 us xs, laneItem rnd nx T = .ok it ∧ it.M.spSeqBw (fun _ _ => argmin1) = .ok (ps, Vs) ∧
      it.M.spParBw scan (fun _ _ => argmin1) (10 ^ 20) = .ok (ps, Vs) ∧ it.M.spSeqBwFw (fun _ _ => argmin1) it.x0 = .ok (xs, us) ∧
      it.M.spParBwFw1 scan (fun _ _ => argmin1) (10 ^ 20) it.x0 = .ok (us, xs) ∧
      it.M.spParBwFw2 scan (fun _ _ => argmin1) (10 ^ 20) it.x0 = .ok (us, xs) ∧
      Vs[0]? = some V0 ∧ it.M.seqSimulation it.x0 us = .ok xs ∧ IsOptimal it.M.LT it.M.stages it.x0 us ∧
      totalCost it.M.LT it.M.stages it.x0 us = V0 it.x0 := by
  obtain ⟨x0, M, g1, -, g3, g4, g5⟩ := (C81_item rnd nx T).2 (by omega)
  have hb := laneItem_bound rnd nx T M g3 fun k hk x u => (g5 k hk x).2.2.2 u
  have hB : (2 * M.stages.length + 2) • (2 : K) < 10 ^ 20 := by
    rw [g3, nsmul_eq_mul]
    have : (T : K) ≤ 10 ^ 19 := by exact_mod_cast hT
    push_cast
    linarith
  have hLT : ∀ x, |M.LT x| ≤ 2 := fun x => by rw [g4, abs_zero]; norm_num
  have ham : ∀ (n : ℕ) [NeZero n], IsArgmin (argmin1 : (Fin n → K) → Fin n) := fun n _ v i => argmin1_le v i
  have hT2 : 2 ≤ M.stages.length := g3 ▸ h2
  have hne : M.stages ≠ [] := by
    intro h
    rw [h] at hT2
    simp at hT2
  obtain ⟨ps, Vs, V0, us, xs, us', xs', e1, e2, e3, e4, e5, e6, e7, e8, e9, -⟩ :=
    C81_pipelines scan hs (fun _ _ => argmin1) ham (10 ^ 20) 2 M x0 hT2 hLT hb hB
  refine ⟨_, ps, Vs, V0, us, xs, g1, e1, e2, e3, e4, ?_, e6, e7, e8, e9⟩
  have hl := lane_fwdbwd (hs (Fin nx → Fin nx → K)) (10 ^ 20) M x0 (by
    intro s hs
    obtain ⟨k, hk, rfl⟩ := List.getElem_of_mem hs
    exact ⟨fun x => ⟨(g5 k hk x).1, (g5 k hk x).2.1, (g5 k hk x).2.2.1⟩, _, fun x u => (g5 k hk x).2.2.2 u⟩) hne
    (C09_below_sentinel_of_bounded _ 2 M x0 hLT hb hB)
  have he : (ps, Vs) = (amPolList argmin1 M.LT M.stages, valList M.LT M.stages) := by
    have : M.tfSeqBackward argmin1 = .ok (ps, Vs) := e1
    rw [tfSeqBackward_eq_lists] at this
    exact (Except.ok.inj this).symm
  obtain ⟨rfl, rfl⟩ := Prod.mk.inj he
  have e3' := e3
  unfold FSC.spSeqBwFw at e3'
  rw [tfSeqBackward_eq_lists, py_ok_bind] at e3'
  change M.tfSeqForward x0 (amPolList argmin1 M.LT M.stages) = _ at e3'
  rw [show M.tfSeqForward x0 (amPolList argmin1 M.LT M.stages) = _ from tfSeqForward_eq_swap M x0 _ (amPolList_length _ _ _)] at e3'
  simp only [Except.ok.injEq, Prod.mk.injEq] at e3'
  rw [← e3'.1, ← e3'.2, ← hl]
  change M.spParBwFw2 scan (fun _ _ => argmin1) (10 ^ 20) x0 = _
  unfold FSC.spParBwFw2
  have e2' : M.tfParBackwardMp (scan _) argmin1 (10 ^ 20) M.stages.length =
    .ok (amPolList argmin1 M.LT M.stages, valList M.LT M.stages) := e2
  rw [e2', py_ok_bind]
  exact (C54_fsc (scan _) (scan _) argmin1 argmin1 (10 ^ 20) M.stages.length M x0 _ _ hT2 le_rfl).2.2

/-- A game with four lanes, two steps and several optimal trajectories. -/
def tieM : FSC 4 3 ℚ where
  stages := [[1, 1, 1, 1], [1, 0, 1, 0]].map fun c =>
    ⟨fun x u => ![⟨x.val - 1, by omega⟩, x, ⟨min (x.val + 1) 3, by omega⟩] u, fun x u => c.getD x.val 0 + if u = 1 then 0 else 1⟩
  LT := fun _ => 0

/-- The smallest index for three entries and the largest otherwise. -/
def tieArgmin : AArgmin ℚ := fun n _ v => if n = 3 then argmin1 v else (argmin1 fun i => v i.rev).rev

/-- C81 (ties): TensorFlow does not document which index `tf.argmin` returns for ties.  With ties among the states broken differently
from ties among the controls, the second parallel function returns, on a game with four lanes and two steps, states that are not
those of its controls. -/
theorem C81_ties : (∀ s ∈ tieM.stages, IsLane s) ∧ (∀ (n : ℕ) [NeZero n], IsArgmin (tieArgmin n)) ∧
    ∃ us xs, tieM.spParBwFw2 (fun _ op l => scanVals op l) tieArgmin (10 ^ 20) 2 = .ok (us, xs) ∧ tieM.seqSimulation 2 us ≠ .ok xs := by
  refine ⟨?_, ?_, [0, 1], [2, 3, 3], by decide +kernel, by decide +kernel⟩
  · intro s hs
    simp only [tieM, List.map_cons, List.map_nil, List.mem_cons, List.not_mem_nil, or_false] at hs
    rcases hs with rfl | rfl
    · exact ⟨fun x => ⟨rfl, rfl, rfl⟩, fun x => [1, 1, 1, 1].getD x.val 0, fun x u => rfl⟩
    · exact ⟨fun x => ⟨rfl, rfl, rfl⟩, fun x => [1, 0, 1, 0].getD x.val 0, fun x u => rfl⟩
  · intro n _ v i
    unfold tieArgmin
    split_ifs
    · exact argmin1_le v i
    · have := argmin1_le (fun i => v i.rev) i.rev
      simpa using this

/-- With the documented ties of numpy the three functions agree on the same game. -/
example : tieM.spParBwFw2 (fun _ op l => scanVals op l) (fun _ _ => argmin1) (10 ^ 20) 2 = .ok ([0, 1], [2, 1, 1]) ∧
    tieM.spParBwFw1 (fun _ op l => scanVals op l) (fun _ _ => argmin1) (10 ^ 20) 2 = .ok ([0, 1], [2, 1, 1]) ∧
    tieM.spSeqBwFw (fun _ _ => argmin1) 2 = .ok ([2, 1, 1], [0, 1]) := by
  refine ⟨?_, ?_, ?_⟩ <;> decide +kernel

/-- The game meets the hypotheses of `C81_pipelines`. -/
example : ∃ us xs, tieM.spSeqBwFw tieArgmin 2 = .ok (xs, us) ∧
    tieM.spParBwFw1 (fun _ op l => scanVals op l) tieArgmin (10 ^ 20) 2 = .ok (us, xs) ∧ IsOptimal tieM.LT tieM.stages 2 us := by
  obtain ⟨ps, Vs, V0, us, xs, us', xs', -, -, h3, h4, -, -, -, h8, -⟩ := C81_pipelines (fun _ op l => scanVals op l)
    (fun _ => C17_scan_example) tieArgmin C81_ties.2.1 (10 ^ 20) 2 tieM 2 (by decide) (fun x => by simp [tieM])
    (by
      intro s hs
      simp only [tieM, List.map_cons, List.map_nil, List.mem_cons, List.not_mem_nil, or_false] at hs
      rcases hs with rfl | rfl <;> decide +kernel) (by rw [show tieM.stages.length = 2 from rfl]; norm_num)
  exact ⟨us, xs, h3, h4, h8⟩

/-- C81 (speed tests): for data lengths between `2` and `10 ^ 19` all five speed tests complete and report the data lengths and the
number of lanes. -/
theorem C81_speed (rnd : ℕ → ℕ → ℕ → K) (nx : ℕ) [NeZero nx] (start stop : ℝ) (num n_iter : ℕ) (h1 : (2 : ℝ) ≤ 10 ^ start)
    (h2 : start ≤ stop) (h3 : stop ≤ 19) (hn : 0 < n_iter) (scan : AScan) (hs : ∀ α, IsAssocScan (scan α)) (am : AArgmin K)
    (ham : ∀ (n : ℕ) [NeZero n], IsArgmin (am n)) :
    let gen := finiteGen rnd nx start stop num
    let res : Py (List ℕ × List ℕ) := .ok (logspaceInt start stop num, List.replicate num nx)
    fscSeqBwSpeed am gen n_iter = res ∧ fscParBwSpeed scan am gen n_iter = res ∧ fscSeqBwFwSpeed am gen n_iter = res ∧
      fscParBwFw1Speed scan am gen n_iter = res ∧ fscParBwFw2Speed scan am gen n_iter = res := by
  intro gen res
  have hge := logspace_ge start stop num 2 (by exact_mod_cast h1) h2
  have hle : ∀ T ∈ logspaceInt start stop num, T ≤ 10 ^ 19 := by
    intro T hT
    refine ((C80_logspace start stop num h2).2.1 T hT).2.trans ?_
    have : (10 : ℝ) ^ stop ≤ ((10 ^ 19 : ℕ) : ℝ) := by
      refine (Real.rpow_le_rpow_of_exponent_le (by norm_num) h3).trans ?_
      rw [show (19 : ℝ) = ((19 : ℕ) : ℝ) by norm_num, Real.rpow_natCast]
      norm_num
    exact (Nat.floor_mono this).trans (by rw [Nat.floor_natCast])
  obtain ⟨items, e1, e2⟩ := items_of (fun T => laneItem (rnd T) nx T) (fun T it => it.n = nx ∧ it.M.stages.length = T ∧
      (∃ r, it.M.spSeqBw am = .ok r) ∧ (∃ r, it.M.spParBw scan am (10 ^ 20) = .ok r) ∧ (∃ r, it.M.spSeqBwFw am it.x0 = .ok r) ∧
      (∃ r, it.M.spParBwFw1 scan am (10 ^ 20) it.x0 = .ok r) ∧ ∃ r, it.M.spParBwFw2 scan am (10 ^ 20) it.x0 = .ok r)
      (logspaceInt start stop num) (by
    intro T hT
    have hT2 := hge T hT
    obtain ⟨x0, M, g1, -, g3, g4, g5⟩ := (C81_item (rnd T) nx T).2 (by omega)
    have hb := laneItem_bound (rnd T) nx T M g3 fun k hk x u => (g5 k hk x).2.2.2 u
    have hB : (2 * M.stages.length + 2) • (2 : K) < 10 ^ 20 := by
      rw [g3, nsmul_eq_mul]
      have : (T : K) ≤ 10 ^ 19 := by exact_mod_cast hle T hT
      push_cast
      linarith
    obtain ⟨ps, Vs, V0, us, xs, us', xs', f1, f2, f3, f4, f5, -⟩ :=
      C81_pipelines scan hs am ham (10 ^ 20) 2 M x0 (by omega) (fun x => by rw [g4, abs_zero]; norm_num) hb hB
    exact ⟨_, g1, rfl, g3, ⟨_, f1⟩, ⟨_, f2⟩, ⟨_, f3⟩, ⟨_, f4⟩, ⟨_, f5⟩⟩)
  have hmem : ∀ it ∈ items, (∃ r, it.M.spSeqBw am = .ok r) ∧ (∃ r, it.M.spParBw scan am (10 ^ 20) = .ok r) ∧
      (∃ r, it.M.spSeqBwFw am it.x0 = .ok r) ∧ (∃ r, it.M.spParBwFw1 scan am (10 ^ 20) it.x0 = .ok r) ∧
      ∃ r, it.M.spParBwFw2 scan am (10 ^ 20) it.x0 = .ok r :=
    (forall₂_forall (p := fun _ => True) (fun _ _ h => iff_of_true h.2.2 trivial) e2).2 fun _ _ => trivial
  have hres : (.ok (items.map fun it => it.M.stages.length, items.map fun it => it.n) : Py (List ℕ × List ℕ)) = res := by
    have a1 := forall₂_map_eq (f := fun T : ℕ => T) (f' := fun it : FSCItem K => it.M.stages.length) (fun _ _ h => h.2.1) e2
    have a2 := forall₂_map_eq (f := fun _ : ℕ => nx) (f' := fun it : FSCItem K => it.n) (fun _ _ h => h.1) e2
    rw [a1, a2, List.map_id', List.map_const', (C80_logspace start stop num h2).1]
  have hsuc : ∀ {β : FSCItem K → Type} (run : ∀ it, Py (β it)), (∀ it ∈ items, ∃ b, run it = .ok b) →
      fscSpeed gen run n_iter = res := fun run h => by
    rw [← hres]
    refine speedLoop_ok _ _ hn e1 fun it hit => ?_
    obtain ⟨b, hb⟩ := h it hit
    exact ⟨(), by rw [hb]; rfl⟩
  exact ⟨hsuc _ fun it h => (hmem it h).1, hsuc _ fun it h => (hmem it h).2.1, hsuc _ fun it h => (hmem it h).2.2.1,
    hsuc _ fun it h => (hmem it h).2.2.2.1, hsuc _ fun it h => (hmem it h).2.2.2.2⟩

/-- The default lengths of the generator meet the hypotheses. -/
example : (2 : ℝ) ≤ 10 ^ (2 : ℝ) ∧ (2 : ℝ) ≤ 5 ∧ (5 : ℝ) ≤ 19 := by norm_num

/-- C81 (short data): if the first length is one, the parallel speed tests end with `ValueError`; if it is zero, every speed test ends
with `IndexError`; with `n_iter = 0` a speed test of at least one item ends with `ZeroDivisionError`. -/
theorem C81_errors (rnd : ℕ → ℕ → ℕ → K) (nx : ℕ) [NeZero nx] (start stop : ℝ) (num n_iter : ℕ) (hnum : 0 < num)
    (h2 : start ≤ stop) (scan : AScan) (am : AArgmin K) :
    let gen := finiteGen rnd nx start stop num
    (start < 0 → fscSeqBwSpeed am gen n_iter = .error .indexError ∧ fscParBwSpeed scan am gen n_iter = .error .indexError ∧
      fscSeqBwFwSpeed am gen n_iter = .error .indexError ∧ fscParBwFw1Speed scan am gen n_iter = .error .indexError ∧
      fscParBwFw2Speed scan am gen n_iter = .error .indexError) ∧
    (0 ≤ start → (10 : ℝ) ^ start < 2 → fscParBwSpeed scan am gen n_iter = .error .valueError ∧
      fscParBwFw1Speed scan am gen n_iter = .error .valueError ∧ fscParBwFw2Speed scan am gen n_iter = .error .valueError) ∧
    (0 ≤ start → fscSeqBwSpeed am gen 0 = .error .zeroDivisionError ∧ fscSeqBwFwSpeed am gen 0 = .error .zeroDivisionError) := by
  intro gen
  have hcons : ∃ rest, gen = laneItem (rnd ⌊(10 : ℝ) ^ start⌋₊) nx ⌊(10 : ℝ) ^ start⌋₊ :: rest := by
    have h := (C80_logspace start stop num h2).2.2.1 hnum
    change ∃ rest, (logspaceInt start stop num).map (fun T => laneItem (rnd T) nx T) = _
    cases hl : logspaceInt start stop num with
    | nil => rw [hl] at h; simp at h
    | cons a l =>
      rw [hl] at h
      simp only [List.getElem?_cons_zero, Option.some.injEq] at h
      exact ⟨_, by rw [← h]; rfl⟩
  obtain ⟨rest, hrest⟩ := hcons
  have hpos : 0 ≤ start → 1 ≤ ⌊(10 : ℝ) ^ start⌋₊ := fun h => Nat.le_floor (by
    have := Real.one_le_rpow (show (1 : ℝ) ≤ 10 by norm_num) h
    exact_mod_cast this)
  refine ⟨fun h => ?_, fun h h' => ?_, fun h => ?_⟩
  · have h0 : ⌊(10 : ℝ) ^ start⌋₊ = 0 := by
      rw [Nat.floor_eq_zero]
      exact Real.rpow_lt_one_of_one_lt_of_neg (by norm_num) h
    have e := (C81_item (rnd ⌊(10 : ℝ) ^ start⌋₊) nx ⌊(10 : ℝ) ^ start⌋₊).1 h0
    have : ∀ {β : FSCItem K → Type} (run : ∀ it, Py (β it)), fscSpeed gen run n_iter = .error .indexError := by
      intro β run
      rw [hrest, e]
      rfl
    exact ⟨this _, this _, this _, this _, this _⟩
  · have h1 : ⌊(10 : ℝ) ^ start⌋₊ = 1 := by
      have := hpos h
      have h3 : ⌊(10 : ℝ) ^ start⌋₊ < 2 := by
        rw [Nat.floor_lt (by positivity)]
        exact_mod_cast h'
      omega
    obtain ⟨x0, M, g1, -, g3, -⟩ := (C81_item (rnd ⌊(10 : ℝ) ^ start⌋₊) nx ⌊(10 : ℝ) ^ start⌋₊).2 (by omega)
    obtain ⟨-, -, f1, f2, f3⟩ := C81_one scan am (10 ^ 20) M x0 (g3.trans h1)
    have : ∀ {β : FSCItem K → Type} (run : ∀ it, Py (β it)),
        run ⟨nx, 3, inferInstance, inferInstance, x0, M⟩ = .error .valueError → fscSpeed gen run n_iter = .error .valueError := by
      intro β run hr
      rw [hrest, g1]
      refine speedLoop_first _ _ _ _ _ ?_
      rw [hr]
      rfl
    exact ⟨this _ f1, this _ f2, this _ f3⟩
  · obtain ⟨x0, M, g1, -, g3, -⟩ := (C81_item (rnd ⌊(10 : ℝ) ^ start⌋₊) nx ⌊(10 : ℝ) ^ start⌋₊).2 (hpos h)
    have : ∀ {β : FSCItem K → Type} (run : ∀ it, Py (β it)) (r),
        run ⟨nx, 3, inferInstance, inferInstance, x0, M⟩ = .ok r → fscSpeed gen run 0 = .error .zeroDivisionError := by
      intro β run r hr
      rw [hrest, g1]
      refine speedLoop_zero _ _ _ _ () ?_
      rw [hr]
      rfl
    refine ⟨this _ _ (tfSeqBackward_eq_lists _ _), this (fun it => it.M.spSeqBwFw am it.x0)
      (statesOf M.stages x0 (rollout M.stages (amPolList (am 3) M.LT M.stages) x0),
        rollout M.stages (amPolList (am 3) M.LT M.stages) x0) ?_⟩
    change M.spSeqBwFw am x0 = _
    unfold FSC.spSeqBwFw
    rw [tfSeqBackward_eq_lists, py_ok_bind]
    exact tfSeqForward_eq_swap M x0 _ (amPolList_length _ _ _)

end Game

end Verif
