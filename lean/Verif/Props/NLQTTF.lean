import Verif.Spec.NLQTTF
import Verif.Props.LQTTF
import Verif.Props.NLQT

/-! Property C69: the nonlinear tracker in TensorFlow. -/

namespace Verif

open Matrix

variable {n m p q : ℕ} {K : Type} [Field K]

theorem NModel.simulateTF_eq (M : NModel n m K) (x0 : Fin n → K) (us : List (Fin m → K)) :
    M.simulateTF x0 us = M.simulate x0 us := by
  rw [M.simulate_eq]
  unfold NModel.simulateTF
  congr 1
  induction us generalizing x0 with
  | nil => rfl
  | cons u us ih => simp only [tfScanFwd, NModel.run, ih]

theorem linearizeTF_mem {M : NModel n m K} {C : NQCost n m p q K} {us : List (Fin m → K)} {xs : List (Fin n → K)}
    {t : TStage n m p K} (h : t ∈ (M.linearizeTF C us xs).stages) : ∃ c ∈ C.stages, t.X = c.X ∧ t.U = c.U := by
  unfold NModel.linearizeTF at h
  dsimp only at h
  obtain ⟨i, hi, rfl⟩ := List.getElem_of_mem h
  rw [List.getElem_zipWith]
  exact ⟨_, List.getElem_mem _, rfl, rfl⟩

theorem linearizeTF_linTo (M : NModel n m K) (C : NQCost n m p q K)
    (dyn : List (Matrix (Fin n) (Fin n) K × (Fin n → K) × Matrix (Fin n) (Fin m) K)) (us : List (Fin m → K))
    (xs : List (Fin n → K)) (hd : dyn.length = C.stages.length) (hu : us.length = C.stages.length)
    (hx : xs.length = C.stages.length + 1) :
    M.linearize (C.toLQT dyn) us xs = .ok (M.linearizeTF C us xs.dropLast).toLQT := by
  have hl : (C.toLQT dyn).stages.length = C.stages.length := by simp [NQCost.toLQT, hd]
  refine linearize_iff.2 ⟨by rw [hl]; omega, by omega, (M.linearizeTF C us xs.dropLast).toLQT.stages, ⟨?_, ?_⟩, rfl⟩
  · rw [hl]
    simp [TFLQT.toLQT, NModel.linearizeTF, hu, hx]
  · intro i s hs
    have hi : i < C.stages.length := by rw [← hl]; exact (List.getElem?_eq_some_iff.1 hs).1
    refine ⟨fun _ => ⟨xs[i], us[i], List.getElem?_eq_getElem _, List.getElem?_eq_getElem _, ?_⟩, fun h => by omega⟩
    obtain ⟨h1, h2⟩ := List.getElem?_eq_some_iff.1 hs
    have e : (C.toLQT dyn).stages[i] = ⟨p, dyn[i].1, dyn[i].2.2, C.stages[i].X, C.stages[i].U, dyn[i].2.1, C.stages[i].H, C.stages[i].r, 1, 0, 0⟩ :=
      List.getElem_zipWith ..
    rw [e] at h2
    subst h2
    rw [List.getElem?_eq_getElem (by simp [TFLQT.toLQT, NModel.linearizeTF, hu, hx]; omega)]
    simp [TFLQT.toLQT, NModel.linearizeTF, NQCost.toLQT, NModel.lin, NModel.linTF, TStage.toL]

section Ordered
variable [LinearOrder K] [IsStrictOrderedRing K]

omit [IsStrictOrderedRing K] in
theorem linearizeTF_sym {M : NModel n m K} {C : NQCost n m p q K} (hC : C.Sym) (us : List (Fin m → K)) (xs : List (Fin n → K)) :
    (M.linearizeTF C us xs).Sym :=
  ⟨fun t ht => by obtain ⟨c, hc, h1, h2⟩ := linearizeTF_mem ht; rw [h1, h2]; exact hC.1 c hc, hC.2⟩

omit [IsStrictOrderedRing K] in
theorem linearizeTF_convex {M : NModel n m K} {C : NQCost n m p q K} (hC : C.Convex) (us : List (Fin m → K)) (xs : List (Fin n → K)) :
    (M.linearizeTF C us xs).Convex :=
  ⟨fun t ht => by obtain ⟨c, hc, h1, h2⟩ := linearizeTF_mem ht; rw [h1, h2]; exact hC.1 c hc, hC.2⟩

theorem tfHead_ok {α : Type} {l : List α} {a : α} : tfHead l = .ok a ↔ l[0]? = some a := by
  cases l <;> simp [tfHead]

omit [IsStrictOrderedRing K] in
theorem iterateSeqTF_ok {M : NModel n m K} {C : NQCost n m p q K} {us us' : List (Fin m → K)} {xs xs' : List (Fin n → K)} :
    M.iterateSeqTF C us xs = .ok (us', xs') ↔ ∃ r x0, (M.linearizeTF C us xs.dropLast).seqBackward = .ok r ∧ xs[0]? = some x0 ∧
      lqtTfSeqForward x0 ((M.linearizeTF C us xs.dropLast).fwdData r) = .ok (xs', us') := by
  unfold NModel.iterateSeqTF
  simp only [bind_ok, tfHead_ok]
  constructor
  · rintro ⟨r, h1, x0, h2, ⟨xs'', us''⟩, h3, h4⟩
    cases h4
    exact ⟨r, x0, h1, h2, h3⟩
  · rintro ⟨r, x0, h1, h2, h3⟩
    exact ⟨r, h1, x0, h2, _, h3, rfl⟩

omit [IsStrictOrderedRing K] in
theorem iteratePar1TF_ok {M : NModel n m K} {C : NQCost n m p q K} {us us' : List (Fin m → K)} {xs xs' : List (Fin n → K)}
    {scan : (Elem n K → Elem n K → Py (Elem n K)) → List (Elem n K) → Py (List (Elem n K))}
    {scan' : (Matrix (Fin n) (Fin n) K × (Fin n → K) → Matrix (Fin n) (Fin n) K × (Fin n → K) →
      Py (Matrix (Fin n) (Fin n) K × (Fin n → K))) → List (Matrix (Fin n) (Fin n) K × (Fin n → K)) →
      Py (List (Matrix (Fin n) (Fin n) K × (Fin n → K)))} :
    M.iteratePar1TF scan scan' C us xs = .ok (us', xs') ↔ ∃ r x0, (M.linearizeTF C us xs.dropLast).parBackward scan = .ok r ∧
      xs[0]? = some x0 ∧ lqtTfParForward scan' x0 ((M.linearizeTF C us xs.dropLast).fwdData r) = .ok (xs', us') := by
  unfold NModel.iteratePar1TF
  simp only [bind_ok, tfHead_ok]
  constructor
  · rintro ⟨r, h1, x0, h2, ⟨xs'', us''⟩, h3, h4⟩
    cases h4
    exact ⟨r, x0, h1, h2, h3⟩
  · rintro ⟨r, x0, h1, h2, h3⟩
    exact ⟨r, h1, x0, h2, _, h3, rfl⟩

omit [IsStrictOrderedRing K] in
theorem iteratePar2TF_ok {M : NModel n m K} {C : NQCost n m p q K} {us us' : List (Fin m → K)} {xs xs' : List (Fin n → K)}
    {scan : (Elem n K → Elem n K → Py (Elem n K)) → List (Elem n K) → Py (List (Elem n K))} :
    M.iteratePar2TF scan C us xs = .ok (us', xs') ↔ ∃ r x0, (M.linearizeTF C us xs.dropLast).parBackward scan = .ok r ∧
      xs[0]? = some x0 ∧ (M.linearizeTF C us xs.dropLast).parFwdBwd scan x0 r = .ok (xs', us') := by
  unfold NModel.iteratePar2TF
  simp only [bind_ok, tfHead_ok]
  constructor
  · rintro ⟨r, h1, x0, h2, ⟨xs'', us''⟩, h3, h4⟩
    cases h4
    exact ⟨r, x0, h1, h2, h3⟩
  · rintro ⟨r, x0, h1, h2, h3⟩
    exact ⟨r, h1, x0, h2, _, h3, rfl⟩

omit [IsStrictOrderedRing K] in
theorem iterate2_ok {M : NModel n m K} {P Q : LQT n m K} {us us' : List (Fin m → K)} {xs xs' : List (Fin n → K)}
    (hl : M.linearize P us xs = .ok Q) : (∃ P', M.iterate P us xs 2 = .ok (P', us', xs')) ↔ ∃ r x0,
      Q.seqBackwardPass = .ok r ∧ xs[0]? = some x0 ∧ Q.seqForwardPass x0 r.Kx_list r.d_list = .ok (us', xs') := by
  have : M.iterate P us xs 2 = (do
      let bw ← Q.seqBackwardPass
      let x0 ← pyGet xs 0
      let r ← Q.seqForwardPass x0 bw.Kx_list bw.d_list
      return (Q, r)) := by
    unfold NModel.iterate
    rw [hl]
    rfl
  rw [this]
  simp only [bind_ok, pyGet_eq]
  constructor
  · rintro ⟨P', r, h1, x0, h2, r', h3, h4⟩
    cases h4
    exact ⟨r, x0, h1, h2, h3⟩
  · rintro ⟨r, x0, h1, h2, h3⟩
    exact ⟨_, r, h1, x0, h2, _, h3, rfl⟩

omit [IsStrictOrderedRing K] in
theorem bw_lengths {P : LQT n m K} {r : BwResult n m K} (h : P.seqBackwardPass = .ok r) :
    r.Kx_list.length = P.stages.length ∧ r.d_list.length = P.stages.length := by
  obtain ⟨S, v, hb⟩ := seqBackwardPass_iff.1 h
  exact ⟨hb.length.1, hb.length.2.1⟩

theorem swap_ok {α β : Type} {e : Py (α × β)} {a : α} {b : β} : e = .ok (a, b) ↔ e.map Prod.swap = .ok (b, a) := by
  cases e with
  | error e => exact ⟨fun h => (nomatch h), fun h => (nomatch h)⟩
  | ok r =>
    obtain ⟨x, y⟩ := r
    simp only [Except.map, Prod.swap, Except.ok.injEq, Prod.mk.injEq]
    tauto

theorem linearizeTF_ne {M : NModel n m K} {C : NQCost n m p q K} (hT : C.stages ≠ []) {us : List (Fin m → K)} {xs : List (Fin n → K)}
    (hu : us.length = C.stages.length) (hx : xs.length = C.stages.length + 1) : (M.linearizeTF C us xs.dropLast).stages ≠ [] := by
  intro h
  have := congrArg List.length h
  simp [NModel.linearizeTF, hu, hx] at this
  exact hT this

/-- C69 (sequential): `nlqt_iterate_seq` returns what the sequential method of the numpy `iterate` returns, whatever dynamics
the numpy object had before. -/
theorem C69_seq (M : NModel n m K) (C : NQCost n m p q K) (hC : C.Sym) (hT : C.stages ≠ [])
    (dyn : List (Matrix (Fin n) (Fin n) K × (Fin n → K) × Matrix (Fin n) (Fin m) K)) (hd : dyn.length = C.stages.length)
    (us : List (Fin m → K)) (xs : List (Fin n → K)) (hu : us.length = C.stages.length) (hx : xs.length = C.stages.length + 1)
    (us' : List (Fin m → K)) (xs' : List (Fin n → K)) :
    M.iterateSeqTF C us xs = .ok (us', xs') ↔ ∃ P', M.iterate (C.toLQT dyn) us xs 2 = .ok (P', us', xs') := by
  rw [iterateSeqTF_ok, iterate2_ok (linearizeTF_linTo M C dyn us xs hd hu hx)]
  have hS := linearizeTF_sym (M := M) hC us xs.dropLast
  refine exists_congr fun r => exists_congr fun x0 => ?_
  rw [tf_seq_bw hS]
  refine and_congr_right fun hb => and_congr_right fun _ => ?_
  obtain ⟨h1, h2⟩ := bw_lengths hb
  obtain ⟨f1, f2, f3, f4⟩ := fwdData_ok _ r (by simpa [TFLQT.toLQT] using h1) (by simpa [TFLQT.toLQT] using h2)
  rw [swap_ok, tf_seq_fw (f4 (linearizeTF_ne hT hu hx)) f1, f2, f3]

/-- C69 (parallel): if `nlqt_iterate_par_1` or `nlqt_iterate_par_2` completes, it returns what the sequential method of numpy
returns, for every way in which `scan_associative` groups the elements. -/
theorem C69_par (M : NModel n m K) (C : NQCost n m p q K) (hC : C.Sym) (hT : C.stages ≠ [])
    (dyn : List (Matrix (Fin n) (Fin n) K × (Fin n → K) × Matrix (Fin n) (Fin m) K)) (hd : dyn.length = C.stages.length)
    (us : List (Fin m → K)) (xs : List (Fin n → K)) (hu : us.length = C.stages.length) (hx : xs.length = C.stages.length + 1)
    (scan : (Elem n K → Elem n K → Py (Elem n K)) → List (Elem n K) → Py (List (Elem n K))) (hs : IsAssocScan scan)
    (scan' : (Matrix (Fin n) (Fin n) K × (Fin n → K) → Matrix (Fin n) (Fin n) K × (Fin n → K) →
      Py (Matrix (Fin n) (Fin n) K × (Fin n → K))) → List (Matrix (Fin n) (Fin n) K × (Fin n → K)) →
      Py (List (Matrix (Fin n) (Fin n) K × (Fin n → K)))) (hs' : IsAssocScan scan')
    (us' : List (Fin m → K)) (xs' : List (Fin n → K))
    (h : M.iteratePar1TF scan scan' C us xs = .ok (us', xs') ∨ M.iteratePar2TF scan C us xs = .ok (us', xs')) :
    ∃ P', M.iterate (C.toLQT dyn) us xs 2 = .ok (P', us', xs') := by
  rw [iterate2_ok (linearizeTF_linTo M C dyn us xs hd hu hx)]
  have hS := linearizeTF_sym (M := M) hC us xs.dropLast
  rcases h with h | h
  · obtain ⟨r, x0, h1, h2, h3⟩ := iteratePar1TF_ok.1 h
    have hb := tf_par_bw hs hS h1
    obtain ⟨l1, l2⟩ := bw_lengths hb
    obtain ⟨f1, f2, f3, f4⟩ := fwdData_ok _ r (by simpa [TFLQT.toLQT] using l1) (by simpa [TFLQT.toLQT] using l2)
    refine ⟨r, x0, hb, h2, ?_⟩
    rwa [swap_ok, tf_par_fw hs' (f4 (linearizeTF_ne hT hu hx)) f1, f2, f3] at h3
  · obtain ⟨r, x0, h1, h2, h3⟩ := iteratePar2TF_ok.1 h
    have hb := tf_par_bw hs hS h1
    exact ⟨r, x0, hb, h2, (tf_fwdbwd hs hS hb).1 _ h3⟩

/-- C69 (convex costs): all three TensorFlow iterations and all methods of numpy complete with the same result. -/
theorem C69_convex (M : NModel n m K) (C : NQCost n m p q K) (hC : C.Convex) (hT : C.stages ≠ [])
    (dyn : List (Matrix (Fin n) (Fin n) K × (Fin n → K) × Matrix (Fin n) (Fin m) K)) (hd : dyn.length = C.stages.length)
    (us : List (Fin m → K)) (xs : List (Fin n → K)) (hu : us.length = C.stages.length) (hx : xs.length = C.stages.length + 1)
    (scan : (Elem n K → Elem n K → Py (Elem n K)) → List (Elem n K) → Py (List (Elem n K))) (hs : IsAssocScan scan)
    (scan' : (Matrix (Fin n) (Fin n) K × (Fin n → K) → Matrix (Fin n) (Fin n) K × (Fin n → K) →
      Py (Matrix (Fin n) (Fin n) K × (Fin n → K))) → List (Matrix (Fin n) (Fin n) K × (Fin n → K)) →
      Py (List (Matrix (Fin n) (Fin n) K × (Fin n → K)))) (hs' : IsAssocScan scan') :
    ∃ P' us' xs', (∀ k, M.iterate (C.toLQT dyn) us xs k = .ok (P', us', xs')) ∧ M.iterateSeqTF C us xs = .ok (us', xs') ∧
      M.iteratePar1TF scan scan' C us xs = .ok (us', xs') ∧ M.iteratePar2TF scan C us xs = .ok (us', xs') := by
  have hSC : C.Sym := ⟨fun s h => ⟨(hC.1 s h).1.1, (hC.1 s h).2.1⟩, hC.2.1⟩
  have hV := linearizeTF_convex (M := M) hC us xs.dropLast
  have hS := hV.toSym
  have hne := linearizeTF_ne (M := M) hT hu hx
  obtain ⟨x0, xs0, rfl⟩ : ∃ x0 xs0, xs = x0 :: xs0 := by
    cases xs with
    | nil => simp at hx
    | cons a l => exact ⟨a, l, rfl⟩
  obtain ⟨r, xs', us', J, h1, h2, h3, h4, h5, -⟩ := C30_convex _ hV hne scan hs scan' hs' x0
  have hq : M.iterateSeqTF C us (x0 :: xs0) = .ok (us', xs') := iterateSeqTF_ok.2 ⟨r, x0, h2, rfl, h3⟩
  obtain ⟨P', hP'⟩ := (C69_seq M C hSC hT dyn hd us _ hu hx us' xs').1 hq
  refine ⟨P', us', xs', fun k => ?_, hq, iteratePar1TF_ok.2 ⟨r, x0, h1, rfl, h4⟩, iteratePar2TF_ok.2 ⟨r, x0, h1, rfl, h5⟩⟩
  have hL : (C.toLQT dyn).Convex := by
    refine ⟨fun s hs => ?_, hC.2⟩
    obtain ⟨i, hi, rfl⟩ := List.getElem_of_mem hs
    have hi' : i < C.stages.length := by
      have : (C.toLQT dyn).stages.length = C.stages.length := by simp [NQCost.toLQT, hd]
      omega
    have e : (C.toLQT dyn).stages[i] = (⟨dyn[i].1, dyn[i].2.1, dyn[i].2.2, C.stages[i].H, C.stages[i].r, C.stages[i].X, C.stages[i].U⟩ : TStage n m p K).toL :=
      List.getElem_zipWith ..
    rw [e]
    obtain ⟨g1, g2, g3⟩ := hC.1 C.stages[i] (List.getElem_mem hi')
    exact TStage.toL_convex g1 g2 g3
  have hlen : (C.toLQT dyn).stages.length = C.stages.length := by simp [NQCost.toLQT, hd]
  obtain ⟨r', hr'⟩ := C34_methods M (C.toLQT dyn) hL (by intro h0; rw [h0] at hlen; exact hT (List.length_eq_zero_iff.1 hlen.symm)) us
    (x0 :: xs0) (by omega) (by omega) (by simp)
  rw [hr' k, ← hP', hr' 2]

/-- C69 (simulation and cost): `nlqt_simulate` and `nlqt_cost` return the results of numpy. -/
theorem C69_cost (M : NModel n m K) (C : NQCost n m p q K)
    (dyn : List (Matrix (Fin n) (Fin n) K × (Fin n → K) × Matrix (Fin n) (Fin m) K)) (hd : dyn.length = C.stages.length)
    (us : List (Fin m → K)) (hu : us.length = C.stages.length) (x0 : Fin n → K) :
    M.simulateTF x0 us = M.simulate x0 us ∧ M.costTF C x0 us = M.cost (C.toLQT dyn) x0 us := by
  refine ⟨M.simulateTF_eq x0 us, ?_⟩
  have hl : (M.simulate x0 us).length = us.length + 1 := by
    rw [M.simulate_eq, List.length_cons]
    congr 1
    clear hu
    induction us generalizing x0 with
    | nil => rfl
    | cons u us ih => simp [NModel.run, ih]
  have hlen : (C.toLQT dyn).stages.length = C.stages.length := by simp [NQCost.toLQT, hd]
  unfold NModel.costTF NModel.cost
  dsimp only
  rw [M.simulateTF_eq, tf_cost (by simpa using hu) (by simp [hl, hu])]
  unfold LQT.cost
  cases (M.simulate x0 us).getLast? with
  | none => rfl
  | some xT =>
    change List.foldlM _ _ _ = List.foldlM _ _ _
    rw [lqt_cost_loop _ _ _ (by simp [TFLQT.toLQT, hu]) (by omega), lqt_cost_loop _ _ _ (by omega) (by omega)]
    congr 2
    simp only [TFLQT.toLQT, NQCost.toLQT, List.map_map]
    have key : ∀ (cs : List (NQStage n m p K)) (dyn : List (Matrix (Fin n) (Fin n) K × (Fin n → K) × Matrix (Fin n) (Fin m) K))
        (xs : List (Fin n → K)) (us : List (Fin m → K)), dyn.length = cs.length →
        stageSum (cs.map (TStage.toL ∘ fun c => ⟨0, 0, 0, c.H, c.r, c.X, c.U⟩)) xs us =
          stageSum (List.zipWith (fun (c : NQStage n m p K) d => (⟨p, d.1, d.2.2, c.X, c.U, d.2.1, c.H, c.r, 1, 0, 0⟩ : LStage n m K)) cs dyn) xs us := by
      intro cs
      induction cs with
      | nil => intro dyn xs us _; rfl
      | cons c cs ih =>
        intro dyn xs us h
        cases dyn with
        | nil => simp at h
        | cons d dyn =>
          cases xs with
          | nil => rfl
          | cons x xs =>
            cases us with
            | nil => rfl
            | cons u us =>
              have := ih dyn xs us (by simpa using h)
              simp only [List.map_cons, List.zipWith_cons_cons, stageSum]
              rw [this]
              rfl
    exact key _ _ _ _ hd

/-- A nonlinear model with the costs of `exTF`. -/
def exNQ : NQCost 2 1 1 1 ℚ := ⟨exTF.stages.map fun s => ⟨s.H, s.r, s.X, s.U⟩, exTF.HT, exTF.rT, exTF.XT⟩

theorem exNQ_convex : exNQ.Convex := by
  refine ⟨fun s hs => ?_, exTF_convex.2⟩
  obtain ⟨t, ht, rfl⟩ := List.mem_map.1 hs
  exact exTF_convex.1 t ht

/-- The three TensorFlow iterations and numpy agree on it, from a nominal trajectory that does not obey the dynamics. -/
example : ∃ r, exNModel.iterateSeqTF exNQ [![1], ![-2]] [![1, 2], ![0, 0], ![3, 1]] = .ok r ∧
    exNModel.iteratePar1TF (fun op l => scanVals op l) (fun op l => scanVals op l) exNQ [![1], ![-2]] [![1, 2], ![0, 0], ![3, 1]] = .ok r := by
  obtain ⟨P', us', xs', -, h1, h2, -⟩ := C69_convex exNModel exNQ exNQ_convex (by simp [exNQ, exTF]) [(1, 0, 0), (0, 1, !![1; 2])]
    (by simp [exNQ, exTF]) [![1], ![-2]] [![1, 2], ![0, 0], ![3, 1]] (by simp [exNQ, exTF]) (by simp [exNQ, exTF]) _ C17_scan_example _
    C17_scan_example
  exact ⟨_, h1, h2⟩

end Ordered
end Verif
