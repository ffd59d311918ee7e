import Verif.Proof.LQTBatch
import Verif.Props.LQT

/-! Property C24: the batch solution of the tracking problem (`/repo/parallel_control/lqt_np.py:1074-1152`). -/

namespace Verif

open Matrix

variable {n m : ℕ} {K : Type} [Field K] [LinearOrder K] [IsStrictOrderedRing K]

/-- C24: with one output dimension for all steps, `batchSolution` returns exactly the controls and states of the
recursions, whenever the backward recursion completes. -/
theorem C24_batch_eq_seq (P : LQT n m K) (hP : P.Sym) (hp : ∀ s ∈ P.stages, s.p = P.pT) (hT : P.stages ≠ [])
    (bw : BwResult n m K) (hb : P.seqBackwardPass = .ok bw) (x0 : Fin n → K) :
    P.batchSolution x0 = P.seqForwardPass x0 bw.Kx_list bw.d_list := batch_eq_seq hP hp hT hb x0

/-- C24: for convex problems it completes, with the unique minimiser of the cost. -/
theorem C24_convex (P : LQT n m K) (hP : P.Convex) (hp : ∀ s ∈ P.stages, s.p = P.pT) (hT : P.stages ≠ [])
    (x0 : Fin n → K) : ∃ us xs J, P.batchSolution x0 = .ok (us, xs) ∧ us.length = P.stages.length ∧
      P.seqSimulation x0 us = .ok xs ∧ P.cost us xs = .ok J ∧
      ∀ us' : List (Fin m → K), us'.length = P.stages.length → ∃ xs' J', P.seqSimulation x0 us' = .ok xs' ∧
        P.cost us' xs' = .ok J' ∧ J ≤ J' ∧ (J' = J → us' = us) := by
  obtain ⟨bw, hb, -⟩ := C19_seq_psd P hP
  obtain ⟨us, xs, J, h1, h2⟩ := C18_optimal P hP.toSym bw hb x0
  exact ⟨us, xs, J, by rw [C24_batch_eq_seq P hP.toSym hp hT bw hb x0, h1], h2⟩

omit [LinearOrder K] [IsStrictOrderedRing K] in
/-- C24 (`T = 0`): `IndexError`. -/
theorem C24_empty [DecidableEq K] (P : LQT n m K) (hT : P.stages = []) (x0 : Fin n → K) :
    P.batchSolution x0 = .error .indexError := by
  unfold LQT.batchSolution
  rw [hT]
  rfl

/-- Example step with two outputs. -/
def exStC : LStage 2 1 ℚ :=
  ⟨2, !![1, 1; 0, 1], !![0; 1], !![2, 0; 0, 1], !![2], ![1, 0], !![0, 1; 2, 1], ![1, -1], !![2], ![1], !![1; 0]⟩

/-- Example problem with constant output dimension. -/
def exBatch : LQT 2 1 ℚ := ⟨[exStA, exStC, exStA], 2, !![1, 0; 0, 3], !![1, 0; 1, 1], ![3, 4]⟩

theorem exBatch_convex : exBatch.Convex := by
  refine ⟨?_, ?_, ?_⟩
  · intro s hs
    simp only [exBatch, List.mem_cons, List.not_mem_nil, or_false] at hs
    rcases hs with rfl | rfl | rfl
    · exact exStA_convex
    · exact ⟨exStA_convex.sym, exStA_convex.det, exStA_convex.pd, exStA_convex.joint⟩
    · exact exStA_convex
  · ext i j; fin_cases i <;> fin_cases j <;> rfl
  · have key : ∀ x : Fin 2 → ℚ, 0 ≤ x ⬝ᵥ !![1, 0; 0, 3] *ᵥ x := by
      intro x
      have e : x ⬝ᵥ !![1, 0; 0, 3] *ᵥ x = x 0 ^ 2 + 3 * x 1 ^ 2 := by
        simp [dotProduct, mulVec, Fin.sum_univ_succ]
        ring
      rw [e]
      positivity
    exact key

example (x0 : Fin 2 → ℚ) : ∃ bw us xs, exBatch.seqBackwardPass = .ok bw ∧ exBatch.batchSolution x0 = .ok (us, xs) ∧
    exBatch.seqForwardPass x0 bw.Kx_list bw.d_list = .ok (us, xs) := by
  obtain ⟨bw, hb, -⟩ := C19_seq_psd exBatch exBatch_convex
  obtain ⟨us, xs, J, h1, -⟩ := C18_optimal exBatch exBatch_convex.toSym bw hb x0
  refine ⟨bw, us, xs, hb, ?_, h1⟩
  rw [C24_batch_eq_seq exBatch exBatch_convex.toSym ?_ (by simp [exBatch]) bw hb x0, h1]
  intro s hs
  simp only [exBatch, List.mem_cons, List.not_mem_nil, or_false] at hs
  rcases hs with rfl | rfl | rfl <;> rfl

/-- A problem whose final cost has one output while the step has two. -/
def exBroadcast : LQT 1 1 ℚ :=
  ⟨[⟨2, !![1], !![1], !![1, 0; 0, 1], !![1], ![0], !![1; 1], ![0, 0], !![1], ![0], !![0; 0]⟩], 1, !![1], !![1], ![1]⟩

/-- C24 (varying output dimension): the one final output is repeated by broadcasting, so that the result differs from
that of the recursion, without any error being raised (controls `4/5` and `1/2` from `x0 = 0`). -/
theorem C24_broadcast_differs : ∃ bw us us' xs xs', exBroadcast.seqBackwardPass = .ok bw ∧
    exBroadcast.batchSolution 0 = .ok (us, xs) ∧ exBroadcast.seqForwardPass 0 bw.Kx_list bw.d_list = .ok (us', xs') ∧
    us.map (fun u => u 0) = [4 / 5] ∧ us'.map (fun u => u 0) = [1 / 2] := by
  have h1 : (exBroadcast.batchSolution 0).toOption.map (fun r => r.1.map fun u => u 0) = some [4 / 5] := by
    decide +kernel
  have h2 : (do let bw ← exBroadcast.seqBackwardPass; exBroadcast.seqForwardPass 0 bw.Kx_list bw.d_list : Py (List
      (Fin 1 → ℚ) × List (Fin 1 → ℚ))).toOption.map (fun r => r.1.map fun u => u 0) = some [1 / 2] := by
    decide +kernel
  cases hr : exBroadcast.batchSolution 0 with
  | error e => rw [hr] at h1; cases h1
  | ok r =>
    cases hb : exBroadcast.seqBackwardPass with
    | error e => rw [hb] at h2; cases h2
    | ok bw =>
      rw [hb] at h2
      change (exBroadcast.seqForwardPass 0 bw.Kx_list bw.d_list).toOption.map _ = _ at h2
      cases hf : exBroadcast.seqForwardPass 0 bw.Kx_list bw.d_list with
      | error e => rw [hf] at h2; cases h2
      | ok f =>
        rw [hr] at h1
        rw [hf] at h2
        exact ⟨bw, r.1, f.1, r.2, f.2, rfl, rfl, hf, Option.some.inj h1, Option.some.inj h2⟩

omit [LinearOrder K] [IsStrictOrderedRing K] in
/-- C24 (varying output dimension): an output dimension that is neither that of the first step nor one raises
`ValueError`. -/
theorem C24_shape_error [DecidableEq K] (P : LQT n m K) (s0 : LStage n m K) (ss : List (LStage n m K))
    (hs : P.stages = s0 :: ss) (s : LStage n m K) (hm : s ∈ ss) (h0 : s.p ≠ s0.p) (h1 : s.p ≠ 1) (x0 : Fin n → K) :
    P.batchSolution x0 = .error .valueError := by
  have hb : ∀ s : LStage n m K, (∃ o, s.bStage s0.p = .ok o) ∨ s.bStage s0.p = .error .valueError := by
    intro s
    unfold LStage.bStage bIdx
    split
    · left; exact ⟨_, rfl⟩
    · split
      · left; exact ⟨_, rfl⟩
      · right; rfl
  have key : ∀ l : List (LStage n m K), s ∈ l → l.mapM (LStage.bStage s0.p) = .error .valueError := by
    intro l hl
    induction l with
    | nil => simp at hl
    | cons a l ih =>
      rw [List.mapM_cons]
      rcases hb a with ⟨o, ho⟩ | he
      · rw [ho]
        have : s ∈ l := by
          rcases List.mem_cons.1 hl with rfl | h
          · exfalso
            unfold LStage.bStage bIdx at ho
            rw [dif_neg h0, dif_neg h1] at ho
            cases ho
          · exact h
        show (do let r ← l.mapM (LStage.bStage s0.p); pure (o :: r)) = _
        rw [ih this]
        rfl
      · rw [he]; rfl
  unfold LQT.batchSolution
  have e0 : pyGet P.stages 0 = .ok s0 := by rw [hs]; rfl
  rw [e0]
  show (do let st ← P.stages.mapM (LStage.bStage s0.p); let t ← P.bTerm s0.p; batchSolve st.get t x0) = _
  rw [key P.stages (by rw [hs]; simp [hm])]
  rfl

end Verif
