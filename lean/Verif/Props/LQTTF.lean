import Verif.Proof.LQTTF
import Verif.Props.LQT
import Verif.Props.Viterbi

/-!
Properties C28 and C30: the TensorFlow routines `/repo/parallel_control/lqt_tf.py` agree with those of
`/repo/parallel_control/lqt_np.py`, for every horizon, every dimension and every ordered field, given an associative
scan (`IsAssocScan`).
-/

namespace Verif

open Matrix

variable {n m p q : ℕ} {K : Type} [Field K] [LinearOrder K] [IsStrictOrderedRing K]

/-! ### C28 -/

/-- C28: `lqt_gen_to_canon`, `lqt_seq_backwardpass` and `lqt_canon_to_gen` together return exactly what the general
recursion returns, and complete exactly if it completes and all `U` are positive definite. -/
theorem C28_solve (P : TFGen n m p q K) (hP : P.Sym) (R : BwResult n m K) :
    (do let C ← P.canon
        let r ← C.seqBackward
        let gs ← P.back r.Kx_list r.d_list
        return (⟨gs.map Prod.fst, gs.map Prod.snd, r.S_list, r.v_list⟩ : BwResult n m K) : Py (BwResult n m K)) = .ok R ↔
      (∀ s ∈ P.stages, IsPD s.U) ∧ P.toLQT.seqBackwardPass = .ok R := canon_solve hP

/-- C28: the same with the parallel pass, whenever it completes. -/
theorem C28_solve_par (P : TFGen n m p q K) (hP : P.Sym)
    (scan : (Elem n K → Elem n K → Py (Elem n K)) → List (Elem n K) → Py (List (Elem n K))) (hs : IsAssocScan scan)
    (R : BwResult n m K)
    (h : (do let C ← P.canon
             let r ← C.parBackward scan
             let gs ← P.back r.Kx_list r.d_list
             return (⟨gs.map Prod.fst, gs.map Prod.snd, r.S_list, r.v_list⟩ : BwResult n m K) :
               Py (BwResult n m K)) = .ok R) : P.toLQT.seqBackwardPass = .ok R := by
  refine ((C28_solve P hP R).1 ?_).2
  rw [bind_ok] at h ⊢
  obtain ⟨C, h1, h⟩ := h
  rw [bind_ok] at h
  obtain ⟨r, h2, h⟩ := h
  have hC := canon_sym hP h1
  exact ⟨C, h1, bind_ok.2 ⟨r, (tf_seq_bw hC).2 (tf_par_bw hs hC h2), h⟩⟩

/-- Example step with a cross term and a control reference. -/
def exG : GStage 2 1 2 ℚ :=
  { F := !![1, 1; 0, 1], c := ![1, 0], L := !![0; 1], H := !![1, 0; 0, 1], r := ![1, -1], X := !![2, 0; 0, 1],
    U := !![2], M := !![1; 0], s := ![1] }

/-- Example problem. -/
def exGen : TFGen 2 1 2 1 ℚ := ⟨[exG, exG, exG], !![1, 0], ![3], !![1]⟩

theorem exG_convex : exG.toL.Convex := by
  refine ⟨⟨?_, ?_⟩, ?_, ?_, ?_⟩
  · ext i j; fin_cases i <;> fin_cases j <;> rfl
  · ext i j; fin_cases i; fin_cases j; rfl
  · simp [exG, GStage.toL]
  · intro x hx
    have h0 : x 0 ≠ 0 := fun h => hx (by ext i; fin_cases i; exact h)
    have : 0 < x 0 * x 0 := mul_self_pos.2 h0
    simp [exG, GStage.toL, dotProduct, mulVec, Fin.sum_univ_succ]
    linarith
  · have key : ∀ (y : Fin 2 → ℚ) (z : Fin 1 → ℚ), 0 ≤ y ⬝ᵥ !![2, 0; 0, 1] *ᵥ y +
        2 * (y ⬝ᵥ !![(1 : ℚ); 0] *ᵥ z) + z ⬝ᵥ !![2] *ᵥ z := by
      intro y z
      have e : y ⬝ᵥ !![2, 0; 0, 1] *ᵥ y + 2 * (y ⬝ᵥ !![(1 : ℚ); 0] *ᵥ z) + z ⬝ᵥ !![2] *ᵥ z =
          y 0 ^ 2 + y 1 ^ 2 + (y 0 + z 0) ^ 2 + z 0 ^ 2 := by
        simp [dotProduct, mulVec, Fin.sum_univ_succ]
        ring
      rw [e]
      positivity
    exact key

theorem exGen_convex : exGen.toLQT.Convex := by
  refine ⟨?_, ?_, ?_⟩
  · intro s hs
    simp only [exGen, TFGen.toLQT, List.map_cons, List.map_nil, List.mem_cons, List.not_mem_nil, or_false,
      or_self] at hs
    subst hs
    exact exG_convex
  · ext i j; fin_cases i; fin_cases j; rfl
  · have key : ∀ x : Fin 1 → ℚ, 0 ≤ x ⬝ᵥ !![1] *ᵥ x := by
      intro x
      simp [dotProduct, mulVec, Fin.sum_univ_succ]
      exact mul_self_nonneg _
    exact key

theorem exGen_sym : exGen.Sym :=
  ⟨fun s hs => exGen_convex.toSym.1 _ (List.mem_map.2 ⟨s, hs, rfl⟩), exGen_convex.toSym.2⟩

example : ∃ C r gs, exGen.canon = .ok C ∧ C.seqBackward = .ok r ∧ exGen.back r.Kx_list r.d_list = .ok gs ∧
    exGen.toLQT.seqBackwardPass = .ok ⟨gs.map Prod.fst, gs.map Prod.snd, r.S_list, r.v_list⟩ := by
  obtain ⟨R, hR, -⟩ := C19_seq_psd exGen.toLQT exGen_convex
  have h := (C28_solve exGen exGen_sym R).2 ⟨fun s hs => (exGen_convex.1 _ (List.mem_map.2 ⟨s, hs, rfl⟩)).pd, hR⟩
  rw [bind_ok] at h
  obtain ⟨C, h1, h⟩ := h
  rw [bind_ok] at h
  obtain ⟨r, h2, h⟩ := h
  rw [bind_ok] at h
  obtain ⟨gs, h3, h⟩ := h
  simp only [pure, Except.pure, Except.ok.injEq] at h
  exact ⟨C, r, gs, h1, h2, h3, by rw [h]; exact hR⟩

/-- A scalar problem with `U = -1`, whose sum `U + Lᵀ S L = 1` is positive. -/
def exNeg : TFGen 1 1 1 1 ℚ :=
  ⟨[{ F := 1, c := 0, L := 1, H := 1, r := 0, X := 1, U := -1, M := 0, s := 0 }], 1, 0, !![2]⟩

/-- C28: if some `U` is not positive definite the conversion fails although the general recursion may complete. -/
theorem C28_negative_U : (exNeg.canon.toOption.isNone) = true ∧ (exNeg.toLQT.seqBackwardPass.toOption.isSome) = true := by
  constructor <;> decide +kernel

/-! ### C30 -/

/-- C30: `lqt_seq_backwardpass` returns what `seqBackwardPass` returns. -/
theorem C30_seq_backward (P : TFLQT n m p q K) (hP : P.Sym) (r : BwResult n m K) :
    P.seqBackward = .ok r ↔ P.toLQT.seqBackwardPass = .ok r := tf_seq_bw hP

/-- C30: what `lqt_par_backwardpass` returns, if it completes. -/
theorem C30_par_backward (P : TFLQT n m p q K) (hP : P.Sym)
    (scan : (Elem n K → Elem n K → Py (Elem n K)) → List (Elem n K) → Py (List (Elem n K))) (hs : IsAssocScan scan)
    (r : BwResult n m K) (h : P.parBackward scan = .ok r) : P.toLQT.seqBackwardPass = .ok r := tf_par_bw hs hP h

/-- C30: `lqt_seq_forwardpass` returns what `seqForwardPass` returns, with states and controls exchanged. -/
theorem C30_seq_forward (P : LQT n m K) (gs : List (TFwd n m K)) (hne : gs ≠ [])
    (h : List.Forall₂ LStage.SameDyn P.stages gs) (x0 : Fin n → K) :
    (lqtTfSeqForward x0 gs).map Prod.swap = P.seqForwardPass x0 (gs.map TFwd.Kx) (gs.map TFwd.d) := tf_seq_fw hne h x0

/-- C30: so does `lqt_par_forwardpass`. -/
theorem C30_par_forward (P : LQT n m K) (gs : List (TFwd n m K)) (hne : gs ≠ [])
    (h : List.Forall₂ LStage.SameDyn P.stages gs) (x0 : Fin n → K)
    (scan : (Matrix (Fin n) (Fin n) K × (Fin n → K) → Matrix (Fin n) (Fin n) K × (Fin n → K) →
      Py (Matrix (Fin n) (Fin n) K × (Fin n → K))) → List (Matrix (Fin n) (Fin n) K × (Fin n → K)) →
      Py (List (Matrix (Fin n) (Fin n) K × (Fin n → K)))) (hs : IsAssocScan scan) :
    (lqtTfParForward scan x0 gs).map Prod.swap = P.seqForwardPass x0 (gs.map TFwd.Kx) (gs.map TFwd.d) :=
  tf_par_fw hs hne h x0

omit [LinearOrder K] [IsStrictOrderedRing K] in
/-- C30: the forward passes fail without a step. -/
theorem C30_forward_empty (x0 : Fin n → K)
    (scan : (Matrix (Fin n) (Fin n) K × (Fin n → K) → Matrix (Fin n) (Fin n) K × (Fin n → K) →
      Py (Matrix (Fin n) (Fin n) K × (Fin n → K))) → List (Matrix (Fin n) (Fin n) K × (Fin n → K)) →
      Py (List (Matrix (Fin n) (Fin n) K × (Fin n → K)))) :
    lqtTfSeqForward x0 ([] : List (TFwd n m K)) = .error .valueError ∧
      lqtTfParForward scan x0 ([] : List (TFwd n m K)) = .error .valueError := ⟨rfl, rfl⟩

/-- C30: `lqt_par_fwdbwdpass`, given the result of a backward pass. -/
theorem C30_fwdbwd (P : TFLQT n m p q K) (hP : P.Sym)
    (scan : (Elem n K → Elem n K → Py (Elem n K)) → List (Elem n K) → Py (List (Elem n K))) (hs : IsAssocScan scan)
    (bw : BwResult n m K) (hb : P.toLQT.seqBackwardPass = .ok bw) (x0 : Fin n → K) (xs : List (Fin n → K))
    (us : List (Fin m → K)) (h : P.parFwdBwd scan x0 bw = .ok (xs, us)) :
    P.toLQT.seqForwardPass x0 bw.Kx_list bw.d_list = .ok (us, xs) := (tf_fwdbwd hs hP hb).1 _ h

omit [LinearOrder K] [IsStrictOrderedRing K] in
/-- C30: `lqt_cost` is `cost`. -/
theorem C30_cost (P : TFLQT n m p q K) (us : List (Fin m → K)) (xs : List (Fin n → K))
    (hu : us.length = P.stages.length) (hx : xs.length = P.stages.length + 1) : P.cost xs us = P.toLQT.cost us xs :=
  tf_cost hu hx

/-- C30: for convex problems with a step all routines complete and agree, and the result is optimal. -/
theorem C30_convex (P : TFLQT n m p q K) (hP : P.Convex) (hT : P.stages ≠ [])
    (scan : (Elem n K → Elem n K → Py (Elem n K)) → List (Elem n K) → Py (List (Elem n K))) (hs : IsAssocScan scan)
    (scan' : (Matrix (Fin n) (Fin n) K × (Fin n → K) → Matrix (Fin n) (Fin n) K × (Fin n → K) →
      Py (Matrix (Fin n) (Fin n) K × (Fin n → K))) → List (Matrix (Fin n) (Fin n) K × (Fin n → K)) →
      Py (List (Matrix (Fin n) (Fin n) K × (Fin n → K)))) (hs' : IsAssocScan scan') (x0 : Fin n → K) :
    ∃ r xs us J, P.parBackward scan = .ok r ∧ P.seqBackward = .ok r ∧
      lqtTfSeqForward x0 (P.fwdData r) = .ok (xs, us) ∧ lqtTfParForward scan' x0 (P.fwdData r) = .ok (xs, us) ∧
      P.parFwdBwd scan x0 r = .ok (xs, us) ∧ P.cost xs us = .ok J ∧
      ∀ us' : List (Fin m → K), us'.length = P.stages.length → ∃ xs' J', P.toLQT.seqSimulation x0 us' = .ok xs' ∧
        P.cost xs' us' = .ok J' ∧ J ≤ J' ∧ (J' = J → us' = us) := by
  obtain ⟨r, h1⟩ := tf_par_bw_total hs hP
  have h2 := tf_par_bw hs hP.toSym h1
  obtain ⟨us, xs, J, h3, h4, h5, h6, h7⟩ := C18_optimal P.toLQT hP.toSym.toLQT r h2 x0
  have hT' : P.toLQT.stages.length = P.stages.length := by simp [TFLQT.toLQT]
  obtain ⟨S, v, hb⟩ := seqBackwardPass_iff.1 h2
  have hl1 : r.Kx_list.length = P.stages.length := by rw [hb.length.1, hT']
  have hl2 : r.d_list.length = P.stages.length := by rw [hb.length.2.1, hT']
  obtain ⟨g1, g2, g3, g4⟩ := fwdData_ok P r hl1 hl2
  have hne := g4 hT
  have f1 := tf_seq_fw hne g1 x0
  have f2 := tf_par_fw hs' hne g1 x0
  rw [g2, g3, h3] at f1 f2
  have swap : ∀ {e : Py (List (Fin n → K) × List (Fin m → K))}, e.map Prod.swap = .ok (us, xs) → e = .ok (xs, us) := by
    intro e he
    cases e with
    | error _ => simp [Except.map] at he
    | ok a =>
      simp only [Except.map, Except.ok.injEq, Prod.ext_iff, Prod.fst_swap, Prod.snd_swap] at he
      rw [← he.1, ← he.2]
  obtain ⟨res, h8⟩ := (tf_fwdbwd hs hP.toSym h2 (x0 := x0)).2 hP
  have h9 := (tf_fwdbwd hs hP.toSym h2).1 _ h8
  rw [h3, Except.ok.injEq, Prod.ext_iff] at h9
  have hlen : ∀ {us' : List (Fin m → K)} {xs'}, us'.length = P.stages.length → P.toLQT.seqSimulation x0 us' = .ok xs' →
      xs'.length = P.stages.length + 1 := by
    intro us' xs' hu' hx'
    have := lqtSimulation_eq (P := P.toLQT) (us := us') (by rw [hu', hT']) x0
    rw [hx', Except.ok.injEq] at this
    rw [this]
    simp [lqtRun_length (ss := P.toLQT.stages) (us := us') (by rw [hu', hT']), hu']
  refine ⟨r, xs, us, J, h1, (tf_seq_bw hP.toSym).2 h2, swap f1, swap f2, ?_, ?_, ?_⟩
  · rw [h8, Except.ok.injEq]
    exact Prod.ext h9.2.symm h9.1.symm
  · rw [tf_cost (by rw [h4, hT']) (hlen (by rw [h4, hT']) h5), h6]
  · intro us' hu'
    obtain ⟨xs', J', k1, k2, k3, k4⟩ := h7 us' (by rw [hu', hT'])
    exact ⟨xs', J', k1, by rw [tf_cost hu' (hlen hu' k1), k2], k3, k4⟩

/-- Example step. -/
def exT : TStage 2 1 1 ℚ :=
  { F := !![1, 1; 0, 1], c := ![1, 0], L := !![0; 1], H := !![1, 2], r := ![1], X := !![2], U := !![2] }

/-- Example problem. -/
def exTF : TFLQT 2 1 1 1 ℚ := ⟨[exT, exT], !![1, 0], ![3], !![1]⟩

theorem exTF_convex : exTF.Convex := by
  have h1 : ∀ a : ℚ, 0 ≤ a → IsPSD !![a] := by
    intro a ha
    refine ⟨by ext i j; fin_cases i; fin_cases j; rfl, fun x => ?_⟩
    have : x ⬝ᵥ !![a] *ᵥ x = a * x 0 ^ 2 := by simp [dotProduct, mulVec, Fin.sum_univ_succ]; ring
    rw [this]; positivity
  refine ⟨fun s hs => ?_, h1 1 (by norm_num)⟩
  simp only [exTF, List.mem_cons, List.not_mem_nil, or_false, or_self] at hs
  subst hs
  refine ⟨h1 2 (by norm_num), by ext i j; fin_cases i; fin_cases j; rfl, fun x hx => ?_⟩
  have h0 : x 0 ≠ 0 := fun h => hx (by ext i; fin_cases i; exact h)
  have : 0 < x 0 * x 0 := mul_self_pos.2 h0
  simp [exT, dotProduct, mulVec, Fin.sum_univ_succ]
  linarith

example : ∃ r xs us, exTF.parBackward (fun op l => scanVals op l) = .ok r ∧
    exTF.parFwdBwd (fun op l => scanVals op l) ![1, 2] r = .ok (xs, us) := by
  obtain ⟨r, xs, us, J, h1, -, -, -, h2, -⟩ := C30_convex exTF exTF_convex (by simp [exTF]) _ C17_scan_example _
    C17_scan_example ![1, 2]
  exact ⟨r, xs, us, h1, h2⟩

end Verif
