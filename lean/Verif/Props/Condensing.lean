import Verif.Proof.CondensingTop
import Mathlib.Tactic.NormNum

/-! Properties C31 and C32: partial condensing. -/

namespace Verif

open Matrix

variable {n m N : ℕ} {K : Type} [Field K] [LinearOrder K] [IsStrictOrderedRing K]

/-! ### An example -/

/-- A step with two states, one control and two outputs. -/
def exCond (c r : ℚ) : LStage 2 1 ℚ := ⟨2, !![1, 1; 0, 1], !![0; 1], !![2, 0; 0, 1], !![3], ![c, 1], 1, ![r, 0], 1, 0, 0⟩

/-- Three steps, so that blocks of two need padding. -/
def exCondP : LQT 2 1 ℚ := ⟨[exCond 0 1, exCond 2 (-1), exCond (1 / 2) 0], 1, !![1], !![1, 0], ![3]⟩

theorem exCond_convex (c r : ℚ) : (exCond c r).Convex := by
  refine ⟨⟨?_, ?_⟩, ?_, ?_, ?_⟩
  · ext i j; fin_cases i <;> fin_cases j <;> rfl
  · ext i j; fin_cases i; fin_cases j; rfl
  · simp [exCond]
  · intro x hx
    have h0 : x 0 ≠ 0 := fun h => hx (by ext i; fin_cases i; exact h)
    have : 0 < x 0 * x 0 := mul_self_pos.2 h0
    simp [exCond, dotProduct, mulVec, Fin.sum_univ_succ]
    linarith
  · have key : ∀ (y : Fin 2 → ℚ) (z : Fin 1 → ℚ), 0 ≤ y ⬝ᵥ !![2, 0; 0, 1] *ᵥ y +
        2 * (y ⬝ᵥ (0 : Matrix (Fin 2) (Fin 1) ℚ) *ᵥ z) + z ⬝ᵥ !![3] *ᵥ z := by
      intro y z
      simp [dotProduct, mulVec, Fin.sum_univ_succ]
      nlinarith [mul_self_nonneg (y 0), mul_self_nonneg (y 1), mul_self_nonneg (z 0)]
    exact key

theorem exCondP_convex : exCondP.Convex := by
  refine ⟨?_, ?_, ?_⟩
  · intro s hs
    simp only [exCondP, List.mem_cons, List.not_mem_nil, or_false] at hs
    rcases hs with rfl | rfl | rfl <;> exact exCond_convex _ _
  · ext i j; fin_cases i; fin_cases j; rfl
  · have key : ∀ x : Fin 1 → ℚ, 0 ≤ x ⬝ᵥ !![1] *ᵥ x := by
      intro x
      simp [dotProduct, mulVec, Fin.sum_univ_succ]
      exact mul_self_nonneg _
    exact key

theorem exCondP_plain : ∀ s ∈ exCondP.stages, s.Plain := by
  intro s hs
  simp only [exCondP, List.mem_cons, List.not_mem_nil, or_false] at hs
  rcases hs with rfl | rfl | rfl <;> exact ⟨rfl, rfl, rfl⟩

theorem exCondP_dim : exCondP.SameDim := by
  intro s hs t ht
  simp only [exCondP, List.mem_cons, List.not_mem_nil, or_false] at hs ht
  rcases hs with rfl | rfl | rfl <;> rcases ht with rfl | rfl | rfl <;> rfl

/-! ### C31 -/

/-- C31 (dynamics and cost): when condensing completes, simulating the condensed problem with the controls `us` steps
through the states `0, N, 2 N, .., T` of the original problem under the split controls, and the costs differ by the
weight `1/2 |w|²` of the padding controls and a constant. -/
theorem C31_dynamics_cost (P : LQT n m K) (hP : P.Sym) (hpl : ∀ s ∈ P.stages, s.Plain) (hd : P.SameDim)
    (cP : LQT n (N * m) K) (cbs : List (CBlock N n m K)) (h : P.condense N = .ok (cP, cbs)) :
    cP.stages.length = (P.stages.length + N - 1) / N ∧
    ∃ κ : K, ∀ (x0 : Fin n → K) (us : List (Fin (N * m) → K)), us.length = cP.stages.length →
      ∃ cxs xs cJ J, cP.seqSimulation x0 us = .ok cxs ∧ cP.cost us cxs = .ok cJ ∧
        P.seqSimulation x0 ((splitControls N us).take P.stages.length) = .ok xs ∧
        P.cost ((splitControls N us).take P.stages.length) xs = .ok J ∧
        (∀ j ≤ cP.stages.length, cxs[j]? = xs[min (N * j) P.stages.length]?) ∧
        cJ = J + (((splitControls N us).drop P.stages.length).map fun w => (1 / 2) * (w ⬝ᵥ w)).sum - κ := by
  obtain ⟨κ, k, hN, hT, hl, hlk, hf, hc, hmain⟩ := cond_main hP hpl hd h
  refine ⟨hl, κ, fun x0 us hu => ?_⟩
  obtain ⟨h1, h2, h3⟩ := hmain x0 us hu
  have htl : ((splitControls N us).take P.stages.length).length ≤ P.stages.length := by simp
  refine ⟨_, _, _, _, lqtSimulation_eq hu.le x0, lqt_cost_eq hu.le x0, lqtSimulation_eq htl x0, lqt_cost_eq htl x0, h2, ?_⟩
  rw [h1]
  ring

omit [LinearOrder K] [IsStrictOrderedRing K] in
/-- C31 (all trajectories): every control sequence of the original problem is the split of a condensed control sequence
with zero padding controls. -/
theorem C31_controls (t : ℕ) (ws : List (Fin m → K)) (hw : ws.length ≤ N * t) :
    ∃ us : List (Fin (N * m) → K), us.length = t ∧ (splitControls N us).take ws.length = ws ∧
      ∀ w ∈ (splitControls N us).drop ws.length, w = 0 := by
  obtain ⟨us, h1, h2⟩ := split_surj (N := N) t (ws ++ List.replicate (N * t - ws.length) 0) (by simp; omega)
  refine ⟨us, h1, ?_, ?_⟩
  · rw [h2]; simp
  · rw [h2]
    intro w hw
    simp only [List.drop_left] at hw
    exact List.eq_of_mem_replicate hw

/-- C31 (completion): condensing completes exactly when in every block of steps the cost without offsets and references
is positive unless the initial state and all controls vanish, and fails with `LinAlgError` otherwise. -/
theorem C31_completion (P : LQT n m K) (hP : P.Sym) (hpl : ∀ s ∈ P.stages, s.Plain) (hd : P.SameDim)
    (hT : P.stages ≠ []) (hN : 0 < N) :
    let pos := ∀ k, N * k < P.stages.length → ∀ x us, us.length = ((P.stages.drop (N * k)).take N).length →
      (x ≠ 0 ∨ ∃ u ∈ us, u ≠ 0) → 0 < lqtTotal (fun _ => 0) (((P.stages.drop (N * k)).take N).map LStage.homog) x us
    (pos ∧ ∃ r, P.condense N = .ok r) ∨ (¬ pos ∧ P.condense N = .error .linAlgError) :=
  condense_total hP hpl hd hT hN

omit [IsStrictOrderedRing K] in
/-- C31 (errors): without steps `IndexError`, with blocks of length zero `ZeroDivisionError`. -/
theorem C31_errors (P : LQT n m K) : (P.stages = [] → P.condense N = .error .indexError) ∧
    (P.stages ≠ [] → P.condense 0 = .error .zeroDivisionError) := by
  constructor
  · intro h
    unfold LQT.condense
    rw [h]
    rfl
  · intro h
    unfold LQT.condense
    cases h1 : P.stages with
    | nil => exact absurd h1 h
    | cons s ss => rfl

omit [IsStrictOrderedRing K] in
/-- C31 (ignored parameters): `Z`, `s` and `M` have no influence on the condensed problem. -/
theorem C31_ignored (P : LQT n m K) :
    P.condense N = (⟨P.stages.map LStage.strip, P.pT, P.XT, P.HT, P.rT⟩ : LQT n m K).condense N :=
  (condense_strip P).symm

/-! ### C32 -/

/-- C32 (solvable): for a problem with nonnegative final weight the condensed problem is convex, so that its backward
pass completes. -/
theorem C32_convex (P : LQT n m K) (hP : P.Sym) (hXT : IsPSD P.XT) (hpl : ∀ s ∈ P.stages, s.Plain) (hd : P.SameDim)
    (cP : LQT n (N * m) K) (cbs : List (CBlock N n m K)) (h : P.condense N = .ok (cP, cbs)) :
    cP.Convex ∧ ∃ r, cP.seqBackwardPass = .ok r := by
  obtain ⟨κ, k, hN, hT, hl, hlk, hf, hc, hmain⟩ := cond_main hP hpl hd h
  have hconv : cP.Convex := ⟨hc, by
    obtain ⟨s0, -, h⟩ := bind_ok.1 h
    split at h
    · cases h
    · obtain ⟨bs, -, h⟩ := bind_ok.1 h
      simp only [pure, Except.pure, Except.ok.injEq, Prod.mk.injEq] at h
      obtain ⟨rfl, rfl⟩ := h
      exact hXT⟩
  obtain ⟨r, hr, -⟩ := C19_seq_psd cP hconv
  exact ⟨hconv, r, hr⟩

/-- C32 (optimality): expanding the solution of the condensed problem gives controls and states of the original problem
that obey its dynamics and have the least cost, and no other controls do. -/
theorem C32_optimal (P : LQT n m K) (hP : P.Sym) (hpl : ∀ s ∈ P.stages, s.Plain) (hd : P.SameDim)
    (cP : LQT n (N * m) K) (cbs : List (CBlock N n m K)) (h : P.condense N = .ok (cP, cbs))
    (r : BwResult n (N * m) K) (hr : cP.seqBackwardPass = .ok r) (x0 : Fin n → K) :
    ∃ cus cxs us xs J, cP.seqForwardPass x0 r.Kx_list r.d_list = .ok (cus, cxs) ∧
      convertUX P.stages.length cbs cus cxs = .ok (us, xs) ∧ us.length = P.stages.length ∧
      xs.length = P.stages.length + 1 ∧ P.seqSimulation x0 us = .ok xs ∧ P.cost us xs = .ok J ∧
      ∀ us' : List (Fin m → K), us'.length = P.stages.length → ∃ xs' J', P.seqSimulation x0 us' = .ok xs' ∧
        P.cost us' xs' = .ok J' ∧ J ≤ J' ∧ (J' = J → us' = us) := by
  obtain ⟨cus, us, hf, hcv, hl, hmin⟩ := cond_solution hP hpl hd h hr x0
  refine ⟨_, _, us, _, _, hf, hcv, hl, ?_, lqtSimulation_eq hl.le x0, lqt_cost_eq hl.le x0, ?_⟩
  · rw [List.length_cons, lqtRun_length hl.le, hl]
  · intro us' hl'
    refine ⟨_, _, lqtSimulation_eq hl'.le x0, lqt_cost_eq hl'.le x0, ?_, ?_⟩
    · by_cases he : us' = us
      · rw [he]
      · exact (hmin us' hl' he).le
    · intro he
      by_contra hne
      exact absurd he (hmin us' hl' hne).ne'

/-- C32 (agreement): the expanded solution equals that of the recursions on the original problem. -/
theorem C32_same (P : LQT n m K) (hP : P.Sym) (hpl : ∀ s ∈ P.stages, s.Plain) (hd : P.SameDim)
    (cP : LQT n (N * m) K) (cbs : List (CBlock N n m K)) (h : P.condense N = .ok (cP, cbs))
    (cr : BwResult n (N * m) K) (hcr : cP.seqBackwardPass = .ok cr) (r : BwResult n m K)
    (hr : P.seqBackwardPass = .ok r) (x0 : Fin n → K) (cus : List (Fin (N * m) → K)) (cxs : List (Fin n → K))
    (hf : cP.seqForwardPass x0 cr.Kx_list cr.d_list = .ok (cus, cxs)) :
    convertUX P.stages.length cbs cus cxs = P.seqForwardPass x0 r.Kx_list r.d_list := by
  obtain ⟨cus', us, hf', hcv, hl, hmin⟩ := cond_solution hP hpl hd h hcr x0
  rw [hf, Except.ok.injEq, Prod.mk.injEq] at hf'
  obtain ⟨rfl, rfl⟩ := hf'
  obtain ⟨us', hl', hf', hmin'⟩ := seq_strict_min hP hr x0
  have he : us = us' := by
    by_contra hne
    exact lt_asymm (hmin us' hl' (Ne.symm hne)) (hmin' us hl hne)
  rw [hcv, hf', he]

/-- C32 (completion): for convex problems condensing completes when `H' X H` is positive definite at the first step of
every block. -/
theorem C32_completes (P : LQT n m K) (hP : P.Convex) (hpl : ∀ s ∈ P.stages, s.Plain) (hd : P.SameDim)
    (hT : P.stages ≠ []) (hN : 0 < N)
    (hH : ∀ k s, P.stages[N * k]? = some s → IsPD (s.Hᵀ * s.X * s.H)) : ∃ r, P.condense N = .ok r := by
  refine ((condense_total hP.toSym hpl hd hT hN).resolve_right fun h => h.1 ?_).2
  intro k hk x us hl hne
  have hmem : ∀ s ∈ (P.stages.drop (N * k)).take N, s.Plain ∧ s.Convex := fun s hs =>
    have hs := List.mem_of_mem_drop (List.mem_of_mem_take hs)
    ⟨hpl s hs, hP.1 s hs⟩
  by_cases hu : ∃ u ∈ us, u ≠ 0
  · exact (homog_pos x hl hmem).2 hu
  · have hx : x ≠ 0 := hne.resolve_right hu
    have h0 : ((P.stages.drop (N * k)).take N)[0]? = some P.stages[N * k] := by
      rw [List.getElem?_take_of_lt hN, List.getElem?_drop, add_zero, List.getElem?_eq_getElem hk]
    have hpd := hH k _ (List.getElem?_eq_getElem hk)
    generalize (P.stages.drop (N * k)).take N = L at *
    generalize P.stages[N * k] = s at *
    cases L with
    | nil => cases h0
    | cons s' L =>
      simp only [List.getElem?_cons_zero, Option.some.injEq] at h0
      subst h0
      cases us with
      | nil => simp at hl
      | cons u us =>
        have h1 := (homog_pos (s'.homog.next x u) (by simpa using hl) fun t ht => hmem t (by simp [ht])).1
        have h2 := hpd x hx
        have h3 := (hmem s' (by simp)).2.pd.nonneg u
        simp only [List.map_cons, lqtTotal, plain_homog_cost (hmem s' (by simp)).1]
        linarith

/-! ### Examples -/

theorem exCondP_completes : ∃ r, exCondP.condense 2 = .ok r := by
  refine C32_completes exCondP exCondP_convex exCondP_plain exCondP_dim (by simp [exCondP]) (by norm_num) ?_
  have key : ∀ c r, IsPD ((exCond c r).Hᵀ * (exCond c r).X * (exCond c r).H) := by
    intro c r
    have e : (exCond c r).Hᵀ * (exCond c r).X * (exCond c r).H =
      ((1 : Matrix (Fin 2) (Fin 2) ℚ)ᵀ * !![2, 0; 0, 1] * 1 : Matrix (Fin 2) (Fin 2) ℚ) := rfl
    rw [e, transpose_one, Matrix.one_mul, Matrix.mul_one]
    intro x hx
    have h : x 0 ≠ 0 ∨ x 1 ≠ 0 := by
      by_contra hc
      push Not at hc
      exact hx (by ext i; fin_cases i; exacts [hc.1, hc.2])
    simp [dotProduct, mulVec, Fin.sum_univ_succ]
    rcases h with h | h
    · nlinarith [mul_self_pos.2 h, mul_self_nonneg (x 1)]
    · nlinarith [mul_self_pos.2 h, mul_self_nonneg (x 0)]
  intro k s hs
  have hs := List.mem_of_getElem? hs
  simp only [exCondP, List.mem_cons, List.not_mem_nil, or_false] at hs
  rcases hs with rfl | rfl | rfl <;> exact key _ _

/-- The hypotheses of C31 and C32 hold for the example: the expanded solution is that of the recursions. -/
example (x0 : Fin 2 → ℚ) : ∃ cP cbs cr r cus cxs us xs, exCondP.condense 2 = .ok (cP, cbs) ∧ cP.stages.length = 2 ∧
    cP.seqBackwardPass = .ok cr ∧ exCondP.seqBackwardPass = .ok r ∧
    cP.seqForwardPass x0 cr.Kx_list cr.d_list = .ok (cus, cxs) ∧ convertUX 3 cbs cus cxs = .ok (us, xs) ∧
    exCondP.seqForwardPass x0 r.Kx_list r.d_list = .ok (us, xs) := by
  obtain ⟨⟨cP, cbs⟩, h⟩ := exCondP_completes
  obtain ⟨hl, -⟩ := C31_dynamics_cost exCondP exCondP_convex.toSym exCondP_plain exCondP_dim cP cbs h
  obtain ⟨-, cr, hcr⟩ := C32_convex exCondP exCondP_convex.toSym exCondP_convex.2 exCondP_plain exCondP_dim cP cbs h
  obtain ⟨r, hr, -⟩ := C19_seq_psd exCondP exCondP_convex
  obtain ⟨cus, cxs, us, xs, J, hf, hcv, -⟩ := C32_optimal exCondP exCondP_convex.toSym exCondP_plain exCondP_dim cP cbs h cr hcr x0
  have hs := C32_same exCondP exCondP_convex.toSym exCondP_plain exCondP_dim cP cbs h cr hcr r hr x0 cus cxs hf
  exact ⟨cP, cbs, cr, r, cus, cxs, us, xs, h, hl, hcr, hr, hf, hcv, hs ▸ hcv⟩

/-- A convex problem without state weight. -/
def exFlat : LQT 1 1 ℚ := ⟨[⟨1, 1, 1, 0, 1, 0, 1, 0, 1, 0, 0⟩], 1, 1, 1, 0⟩

/-- C32 (limitation): there are convex problems, solved by the recursions, that cannot be condensed. -/
theorem C32_limitation : exFlat.Convex ∧ (∃ r, exFlat.seqBackwardPass = .ok r) ∧
    exFlat.condense 1 = .error .linAlgError := by
  have hc : exFlat.Convex := by
    refine ⟨?_, ?_, ?_⟩
    · intro s hs
      simp only [exFlat, List.mem_cons, List.not_mem_nil, or_false] at hs
      subst hs
      refine ⟨⟨transpose_zero, transpose_one⟩, ?_, ?_, ?_⟩
      · show (1 : Matrix (Fin 1) (Fin 1) ℚ).det ≠ 0
        simp
      · have key : IsPD (1 : Matrix (Fin 1) (Fin 1) ℚ) := by
          intro x hx
          rw [one_mulVec]
          exact dot_self_pos hx
        exact key
      · have key : ∀ y z : Fin 1 → ℚ, 0 ≤ y ⬝ᵥ (0 : Matrix (Fin 1) (Fin 1) ℚ) *ᵥ y +
            2 * (y ⬝ᵥ (0 : Matrix (Fin 1) (Fin 1) ℚ) *ᵥ z) + z ⬝ᵥ (1 : Matrix (Fin 1) (Fin 1) ℚ) *ᵥ z := by
          intro y z
          have := dot_self_nonneg z
          simpa using this
        exact key
    · exact transpose_one
    · have key : ∀ x : Fin 1 → ℚ, 0 ≤ x ⬝ᵥ (1 : Matrix (Fin 1) (Fin 1) ℚ) *ᵥ x := by
        intro x
        rw [one_mulVec]
        exact dot_self_nonneg x
      exact key
  refine ⟨hc, ?_, ?_⟩
  · obtain ⟨r, hr, -⟩ := C19_seq_psd exFlat hc
    exact ⟨r, hr⟩
  · have hpl : ∀ s ∈ exFlat.stages, s.Plain := by
      intro s hs
      simp only [exFlat, List.mem_cons, List.not_mem_nil, or_false] at hs
      subst hs
      exact ⟨rfl, rfl, rfl⟩
    have hd : exFlat.SameDim := by
      intro s hs t ht
      simp only [exFlat, List.mem_cons, List.not_mem_nil, or_false] at hs ht
      subst hs ht
      rfl
    refine ((C31_completion (N := 1) exFlat hc.toSym hpl hd (by simp [exFlat]) one_pos).resolve_left fun h => ?_).2
    have h1 := h.1 0 (by simp [exFlat]) 1 [0] (by simp [exFlat]) (Or.inl one_ne_zero)
    have h2 : (((exFlat.stages.drop (1 * 0)).take 1).map LStage.homog) =
        [⟨1, 1, 1, 0, 1, 0, 1, 0, 1, 0, 0⟩] := rfl
    rw [h2] at h1
    simp [lqtTotal, LStage.cost, halfQuad] at h1

end Verif
