import Verif.Proof.CondensingTFTop
import Verif.Props.Condensing
import Verif.Props.LQTTF
import Mathlib.Tactic.NormNum

/-! Property C70: partial condensing in TensorFlow. -/

namespace Verif

open Matrix

variable {n m p q N : ℕ} {K : Type} [Field K] [LinearOrder K] [IsStrictOrderedRing K]

/-- C70 (equality): where `condense` of the numpy class completes, `condense` of `condensing_tf.py` completes with the same
blocks. -/
theorem C70_np (P : TFLQT n m p q K) (hP : P.Sym) (hT : P.stages ≠ []) (cP : LQT n (N * m) K)
    (cbs : List (CBlock N n m K)) (h : P.toLQT.condense N = .ok (cP, cbs)) :
    ∃ bs, tfCondense N P.stages = .ok bs ∧ cbs = bs.map TCBlock.np ∧ cP = (P.condGen bs).toLQT := tfCond_np hP hT h

/-- C70 (equality): for convex problems they complete together. -/
theorem C70_convex (P : TFLQT n m p q K) (hP : P.Convex) (hT : P.stages ≠ []) (bs : List (TCBlock N n m K)) :
    tfCondense N P.stages = .ok bs ↔ P.toLQT.condense N = .ok ((P.condGen bs).toLQT, bs.map TCBlock.np) := by
  refine ⟨tfCond_convex hP hT, fun h => ?_⟩
  obtain ⟨bs', h1, h2, -⟩ := tfCond_np hP.toSym hT h
  rw [h1, (List.map_injective_iff.2 fun _ _ => np_inj) h2]

/-- C70 (completion): condensing completes if and only if the cost of every block is rigid. -/
theorem C70_completion (P : TFLQT n m p q K) (hP : P.Sym) (hT : P.stages ≠ []) (hN : 0 < N) :
    let rigid := ∀ k, N * k < P.stages.length → Rigid ((P.toLQT.stages.drop (N * k)).take N)
    (rigid ∧ ∃ bs, tfCondense N P.stages = .ok bs) ∨ (¬ rigid ∧ tfCondense N P.stages = .error .linAlgError) :=
  tfCondense_total hP.1 hT hN

/-- C70 (dynamics and cost): the condensed problem has the states of the problem at the block borders and, up to a constant,
its cost; no definiteness is needed. -/
theorem C70_dynamics_cost (P : TFLQT n m p q K) (hP : P.Sym) (hT : P.stages ≠ []) (bs : List (TCBlock N n m K))
    (h : tfCondense N P.stages = .ok bs) : bs.length = (P.stages.length + N - 1) / N ∧
    ∃ κ : K, ∀ (x0 : Fin n → K) (us : List (Fin (N * m) → K)), us.length = bs.length →
      ∃ cxs xs cJ J, (P.condGen bs).toLQT.seqSimulation x0 us = .ok cxs ∧ (P.condGen bs).toLQT.cost us cxs = .ok cJ ∧
        P.toLQT.seqSimulation x0 ((splitControls N us).take P.stages.length) = .ok xs ∧
        P.toLQT.cost ((splitControls N us).take P.stages.length) xs = .ok J ∧
        (∀ j ≤ bs.length, cxs[j]? = xs[min (N * j) P.stages.length]?) ∧
        cJ = J + (((splitControls N us).drop P.stages.length).map fun w => (1 / 2) * (w ⬝ᵥ w)).sum - κ ∧
        tfConvertUX P.stages.length bs us cxs = .ok ((splitControls N us).take P.stages.length, xs) := by
  obtain ⟨κ, k, hl, hlk, -, -, hmain⟩ := tfCond_main hP hT h
  refine ⟨hl, κ, fun x0 us hu => ?_⟩
  obtain ⟨h1, h2, h3⟩ := hmain x0 us hu
  have hcl : (P.condGen bs).toLQT.stages.length = bs.length := by simp [TFGen.toLQT, TFLQT.condGen]
  have hul : us.length ≤ (P.condGen bs).toLQT.stages.length := by rw [hcl, hu]
  have htl : ((splitControls N us).take P.stages.length).length ≤ P.toLQT.stages.length := by simp [TFLQT.toLQT]
  refine ⟨_, _, _, _, lqtSimulation_eq hul x0, lqt_cost_eq hul x0, lqtSimulation_eq htl x0, lqt_cost_eq htl x0, h2, ?_, ?_⟩
  · rw [h1]; ring
  · rw [tfConvert_eq _ _ _ _ hu (by rw [List.length_cons, lqtRun_length hul, hu]), h3]

omit [LinearOrder K] [IsStrictOrderedRing K] in
/-- C70 (expansion): `convertUX` of `condensing_tf.py` is that of the numpy class. -/
theorem C70_convert (T : ℕ) (bs : List (TCBlock N n m K)) (us : List (Fin (N * m) → K)) (xs : List (Fin n → K))
    (hu : us.length = bs.length) (hx : xs.length = bs.length + 1) :
    tfConvertUX T bs us xs = convertUX T (bs.map TCBlock.np) us xs := tfConvert_eq T bs us xs hu hx

/-- C70 (solution): if the pipeline of the tests completes, with sequential or parallel passes, its result is the only optimal
control sequence and its states. -/
theorem C70_solve (P : TFLQT n m p q K) (hP : P.Sym) (hT : P.stages ≠ [])
    (scan : (Elem n K → Elem n K → Py (Elem n K)) → List (Elem n K) → Py (List (Elem n K))) (hs : IsAssocScan scan)
    (scan' : (Matrix (Fin n) (Fin n) K × (Fin n → K) → Matrix (Fin n) (Fin n) K × (Fin n → K) →
      Py (Matrix (Fin n) (Fin n) K × (Fin n → K))) → List (Matrix (Fin n) (Fin n) K × (Fin n → K)) →
      Py (List (Matrix (Fin n) (Fin n) K × (Fin n → K)))) (hs' : IsAssocScan scan')
    (bwd : TFLQT n (N * m) n q K → Py (BwResult n (N * m) K)) (hb : bwd = TFLQT.seqBackward ∨ bwd = TFLQT.parBackward scan)
    (fwd : (Fin n → K) → List (TFwd n (N * m) K) → Py (List (Fin n → K) × List (Fin (N * m) → K)))
    (hf : fwd = lqtTfSeqForward ∨ fwd = lqtTfParForward scan') (x0 : Fin n → K)
    (us : List (Fin m → K)) (xs : List (Fin n → K)) (h : P.condSolve N bwd fwd x0 = .ok (us, xs)) :
    us.length = P.stages.length ∧ xs.length = P.stages.length + 1 ∧ P.toLQT.seqSimulation x0 us = .ok xs ∧
    ∃ J, P.cost xs us = .ok J ∧ ∀ us' : List (Fin m → K), us'.length = P.stages.length →
      ∃ xs' J', P.toLQT.seqSimulation x0 us' = .ok xs' ∧ P.cost xs' us' = .ok J' ∧ J ≤ J' ∧ (J' = J → us' = us) := by
  obtain ⟨hl, rfl, hmin⟩ := tfSolve_ok hP hT (goodPasses hs hs' hb hf) h
  have hT' : P.toLQT.stages.length = P.stages.length := by simp [TFLQT.toLQT]
  have hle : us.length ≤ P.toLQT.stages.length := by rw [hT', hl]
  have hxl : (x0 :: lqtRun P.toLQT.stages x0 us).length = P.stages.length + 1 := by
    rw [List.length_cons, lqtRun_length hle, hl]
  refine ⟨hl, hxl, lqtSimulation_eq hle x0, _, (C30_cost P _ _ hl hxl).trans (lqt_cost_eq hle x0), fun us' hl' => ?_⟩
  have hle' : us'.length ≤ P.toLQT.stages.length := by rw [hT', hl']
  have hxl' : (x0 :: lqtRun P.toLQT.stages x0 us').length = P.stages.length + 1 := by
    rw [List.length_cons, lqtRun_length hle', hl']
  refine ⟨_, _, lqtSimulation_eq hle' x0, (C30_cost P _ _ hl' hxl').trans (lqt_cost_eq hle' x0), ?_, fun he => ?_⟩
  · by_cases he : us' = us
    · rw [he]
    · exact (hmin us' hl' he).le
  · by_contra hne
    exact absurd he (hmin us' hl' hne).ne'

/-- C70 (agreement): the result equals that of the recursions on the uncondensed problem. -/
theorem C70_same (P : TFLQT n m p q K) (hP : P.Sym) (hT : P.stages ≠ [])
    (scan : (Elem n K → Elem n K → Py (Elem n K)) → List (Elem n K) → Py (List (Elem n K))) (hs : IsAssocScan scan)
    (scan' : (Matrix (Fin n) (Fin n) K × (Fin n → K) → Matrix (Fin n) (Fin n) K × (Fin n → K) →
      Py (Matrix (Fin n) (Fin n) K × (Fin n → K))) → List (Matrix (Fin n) (Fin n) K × (Fin n → K)) →
      Py (List (Matrix (Fin n) (Fin n) K × (Fin n → K)))) (hs' : IsAssocScan scan')
    (bwd : TFLQT n (N * m) n q K → Py (BwResult n (N * m) K)) (hb : bwd = TFLQT.seqBackward ∨ bwd = TFLQT.parBackward scan)
    (fwd : (Fin n → K) → List (TFwd n (N * m) K) → Py (List (Fin n → K) × List (Fin (N * m) → K)))
    (hf : fwd = lqtTfSeqForward ∨ fwd = lqtTfParForward scan') (x0 : Fin n → K)
    (us : List (Fin m → K)) (xs : List (Fin n → K)) (h : P.condSolve N bwd fwd x0 = .ok (us, xs))
    (r : BwResult n m K) (hr : P.seqBackward = .ok r) :
    P.toLQT.seqForwardPass x0 r.Kx_list r.d_list = .ok (us, xs) := by
  obtain ⟨hl, rfl, hmin⟩ := tfSolve_ok hP hT (goodPasses hs hs' hb hf) h
  have hT' : P.toLQT.stages.length = P.stages.length := by simp [TFLQT.toLQT]
  obtain ⟨us', hl', hf', hmin'⟩ := seq_strict_min hP.toLQT ((C30_seq_backward P hP r).1 hr) x0
  have he : us = us' := by
    by_contra hne
    exact lt_asymm (hmin us' (hl'.trans hT') (Ne.symm hne)) (hmin' us (hl.trans hT'.symm) hne)
  rw [hf', he]

/-- C70 (completion of the pipeline): for convex problems with `H' X H` positive definite at the first step of every block. -/
theorem C70_complete (P : TFLQT n m p q K) (hP : P.Convex) (hT : P.stages ≠ []) (hN : 0 < N)
    (hH : ∀ k s, P.stages[N * k]? = some s → IsPD (s.Hᵀ * s.X * s.H))
    (scan : (Elem n K → Elem n K → Py (Elem n K)) → List (Elem n K) → Py (List (Elem n K))) (hs : IsAssocScan scan)
    (scan' : (Matrix (Fin n) (Fin n) K × (Fin n → K) → Matrix (Fin n) (Fin n) K × (Fin n → K) →
      Py (Matrix (Fin n) (Fin n) K × (Fin n → K))) → List (Matrix (Fin n) (Fin n) K × (Fin n → K)) →
      Py (List (Matrix (Fin n) (Fin n) K × (Fin n → K)))) (hs' : IsAssocScan scan')
    (bwd : TFLQT n (N * m) n q K → Py (BwResult n (N * m) K)) (hb : bwd = TFLQT.seqBackward ∨ bwd = TFLQT.parBackward scan)
    (fwd : (Fin n → K) → List (TFwd n (N * m) K) → Py (List (Fin n → K) × List (Fin (N * m) → K)))
    (hf : fwd = lqtTfSeqForward ∨ fwd = lqtTfParForward scan') (x0 : Fin n → K) :
    ∃ us xs, P.condSolve N bwd fwd x0 = .ok (us, xs) := by
  have hpl : ∀ s ∈ P.toLQT.stages, s.Plain := by
    intro s hs
    obtain ⟨t, -, rfl⟩ := List.mem_map.1 hs
    exact ⟨rfl, rfl, rfl⟩
  have hd : P.toLQT.SameDim := by
    intro s hs t ht
    obtain ⟨s', -, rfl⟩ := List.mem_map.1 hs
    obtain ⟨t', -, rfl⟩ := List.mem_map.1 ht
    rfl
  obtain ⟨⟨cP, cbs⟩, h⟩ := C32_completes (N := N) P.toLQT hP.toLQT hpl hd (by simpa [TFLQT.toLQT] using hT) hN (by
    intro k s hs
    simp only [TFLQT.toLQT, List.getElem?_map, Option.map_eq_some_iff] at hs
    obtain ⟨t, ht, rfl⟩ := hs
    exact hH k t ht)
  obtain ⟨bs, hbs, -⟩ := tfCond_np hP.toSym hT h
  exact tfSolve_total hP hT hbs (goodPasses hs hs' hb hf) x0

omit [LinearOrder K] [IsStrictOrderedRing K] in
/-- C70 (errors): blocks of length zero, and lists of unequal lengths. -/
theorem C70_errors [DecidableEq K] (ss : List (TStage n m p K)) (T : ℕ) (bs : List (TCBlock N n m K))
    (us : List (Fin (N * m) → K)) (xs : List (Fin n → K)) :
    tfCondense 0 ss = .error .zeroDivisionError ∧
    ((xs.length - 1 ≠ bs.length ∨ us.length ≠ bs.length) → tfConvertUX T bs us xs = .error .valueError) := by
  refine ⟨rfl, fun h => ?_⟩
  rw [tfConvertUX, if_pos (by rwa [List.length_dropLast])]
  rfl

/-! ### Examples -/

/-- A step with two states, two outputs and one control. -/
def exTFC (c r : ℚ) : TStage 2 1 2 ℚ :=
  { F := !![1, 1; 0, 1], c := ![c, 1], L := !![0; 1], H := 1, r := ![r, 0], X := !![2, 0; 0, 1], U := !![3] }

/-- Three steps, so that blocks of two need padding. -/
def exTFCP : TFLQT 2 1 2 1 ℚ := ⟨[exTFC 0 1, exTFC 2 (-1), exTFC (1 / 2) 0], !![1, 0], ![3], !![1]⟩

theorem exTFC_X (x : Fin 2 → ℚ) : x ⬝ᵥ !![2, 0; 0, 1] *ᵥ x = 2 * x 0 ^ 2 + x 1 ^ 2 := by
  simp [dotProduct, mulVec, Fin.sum_univ_succ]; ring

theorem exTFCP_convex : exTFCP.Convex := by
  have key : ∀ c r, IsPSD (exTFC c r).X ∧ (exTFC c r).Uᵀ = (exTFC c r).U ∧ IsPD (exTFC c r).U := by
    intro c r
    refine ⟨⟨by ext i j; fin_cases i <;> fin_cases j <;> rfl, fun x => ?_⟩, by ext i j; fin_cases i; fin_cases j; rfl,
      fun x hx => ?_⟩
    · show 0 ≤ x ⬝ᵥ !![2, 0; 0, 1] *ᵥ x
      rw [exTFC_X]; positivity
    · have h0 : x 0 ≠ 0 := fun h => hx (by ext i; fin_cases i; exact h)
      have : 0 < x 0 * x 0 := mul_self_pos.2 h0
      simp [exTFC, dotProduct, mulVec, Fin.sum_univ_succ]
      linarith
  refine ⟨fun s hs => ?_, by ext i j; fin_cases i; fin_cases j; rfl, fun x => ?_⟩
  · simp only [exTFCP, List.mem_cons, List.not_mem_nil, or_false] at hs
    rcases hs with rfl | rfl | rfl <;> exact key _ _
  · have : x ⬝ᵥ !![1] *ᵥ x = x 0 ^ 2 := by simp [dotProduct, mulVec]; ring
    show 0 ≤ x ⬝ᵥ !![1] *ᵥ x
    rw [this]; positivity

/-- The hypotheses of the theorems above hold for the example, with parallel passes. -/
theorem exTFCP_solve (x0 : Fin 2 → ℚ) : ∃ us xs bs r, exTFCP.condSolve 2 (TFLQT.parBackward fun op l => scanVals op l)
      (lqtTfParForward fun op l => scanVals op l) x0 = .ok (us, xs) ∧ us.length = 3 ∧ tfCondense 2 exTFCP.stages = .ok bs ∧
      bs.length = 2 ∧ exTFCP.toLQT.condense 2 = .ok ((exTFCP.condGen bs).toLQT, bs.map TCBlock.np) ∧
      exTFCP.seqBackward = .ok r ∧ exTFCP.toLQT.seqForwardPass x0 r.Kx_list r.d_list = .ok (us, xs) := by
  have hc := exTFCP_convex
  have hT : exTFCP.stages ≠ [] := by simp [exTFCP]
  have hpd : ∀ k s, exTFCP.stages[2 * k]? = some s → IsPD (s.Hᵀ * s.X * s.H) := by
    intro k s hs
    have key : ∀ c r, IsPD ((exTFC c r).Hᵀ * (exTFC c r).X * (exTFC c r).H) := by
      intro c r
      have e : (exTFC c r).Hᵀ * (exTFC c r).X * (exTFC c r).H =
        ((1 : Matrix (Fin 2) (Fin 2) ℚ)ᵀ * !![2, 0; 0, 1] * 1 : Matrix (Fin 2) (Fin 2) ℚ) := rfl
      rw [e, transpose_one, Matrix.one_mul, Matrix.mul_one]
      intro x hx
      rw [exTFC_X]
      have h : x 0 ≠ 0 ∨ x 1 ≠ 0 := by
        by_contra hc
        push Not at hc
        exact hx (by ext i; fin_cases i; exacts [hc.1, hc.2])
      rcases h with h | h <;> positivity
    have hs := List.mem_of_getElem? hs
    simp only [exTFCP, List.mem_cons, List.not_mem_nil, or_false] at hs
    rcases hs with rfl | rfl | rfl <;> exact key _ _
  obtain ⟨us, xs, h⟩ := C70_complete (N := 2) exTFCP hc hT (by norm_num) hpd _ C17_scan_example _ C17_scan_example _
    (.inr rfl) _ (.inr rfl) x0
  have hl := (C70_solve exTFCP hc.toSym hT _ C17_scan_example _ C17_scan_example _ (.inr rfl) _ (.inr rfl) x0 us xs h).1
  obtain ⟨r, -, -, -, -, hr, -⟩ := C30_convex exTFCP hc hT _ C17_scan_example _ C17_scan_example x0
  obtain ⟨bs, hbs⟩ : ∃ bs, tfCondense 2 exTFCP.stages = .ok bs := by
    rw [TFLQT.condSolve] at h
    cases hb : tfCondense 2 exTFCP.stages with
    | ok bs => exact ⟨bs, rfl⟩
    | error e => rw [hb] at h; cases h
  exact ⟨us, xs, bs, r, h, hl, hbs, (C70_dynamics_cost exTFCP hc.toSym hT bs hbs).1, (C70_convex exTFCP hc hT bs).1 hbs, hr,
    C70_same exTFCP hc.toSym hT _ C17_scan_example _ C17_scan_example _ (.inr rfl) _ (.inr rfl) x0 us xs h r hr⟩

/-- A step with a negative state weight. -/
def exInd : TStage 1 1 1 ℚ := { F := !![1], c := ![1], L := !![1], H := !![1], r := ![2], X := !![-1], U := !![2] }

/-- Three such steps. -/
def exIndP : TFLQT 1 1 1 1 ℚ := ⟨[exInd, exInd, exInd], !![1], ![0], !![1]⟩

/-- C70 (difference): `condensing_tf.py` solves with LU factors where the numpy class takes Cholesky factors, so that it solves
problems for which the latter raises an exception. -/
theorem C70_indefinite : exIndP.Sym ∧ exIndP.toLQT.condense 2 = .error .linAlgError ∧
    ∃ us xs, exIndP.condSolve 2 TFLQT.seqBackward lqtTfSeqForward ![1] = .ok (us, xs) := by
  have hS : exIndP.Sym := by
    refine ⟨fun s hs => ?_, by ext i j; fin_cases i; fin_cases j; rfl⟩
    simp only [exIndP, List.mem_cons, List.not_mem_nil, or_false, or_self] at hs
    subst hs
    exact ⟨by ext i j; fin_cases i; fin_cases j; rfl, by ext i j; fin_cases i; fin_cases j; rfl⟩
  refine ⟨hS, ?_, ?_⟩
  · have h : (match exIndP.toLQT.condense 2 with | .error .linAlgError => true | _ => false) = true := by decide +kernel
    revert h
    cases exIndP.toLQT.condense 2 with
    | ok => simp
    | error e => cases e <;> simp
  · have h : (exIndP.condSolve 2 TFLQT.seqBackward lqtTfSeqForward ![1]).isOk = true := by decide +kernel
    revert h
    cases exIndP.condSolve 2 TFLQT.seqBackward lqtTfSeqForward ![1] with
    | ok r => exact fun _ => ⟨r.1, r.2, rfl⟩
    | error e => simp [Except.isOk, Except.toBool]

end Verif
