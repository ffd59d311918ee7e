import Verif.Proof.LQTTrans
import Mathlib.Algebra.Order.Ring.Rat
import Mathlib.Tactic.NormNum

/-!
Properties C18–C23, C25: linear quadratic tracking (`/repo/parallel_control/lqt_np.py`).

All statements hold over every ordered field, for every horizon and all dimensions, including an output dimension
that changes with time.  `LQT.Sym`: `X`, `U`, `XT` symmetric.  `LQT.Convex`: in addition `U` positive definite, `Z`
invertible, the joint form of `(H x - r, Z u - s)` nonnegative and `XT` positive semidefinite.
-/

namespace Verif

open Matrix

variable {n m : ℕ} {K : Type} [Field K] [LinearOrder K] [IsStrictOrderedRing K]

/-! ### A problem with cross terms, offsets, `Z ≠ I` and varying output dimension -/

/-- First example step. -/
def exStA : LStage 2 1 ℚ where
  p := 2
  F := !![1, 1; 0, 1]
  L := !![0; 1]
  X := !![2, 0; 0, 1]
  U := !![2]
  c := ![1, 0]
  H := !![1, 0; 0, 1]
  r := ![1, -1]
  Z := !![2]
  s := ![1]
  M := !![1; 0]

/-- Second example step. -/
def exStB : LStage 2 1 ℚ where
  p := 1
  F := !![1, 0; 1, 1]
  L := !![1; 1]
  X := !![1]
  U := !![1]
  c := ![0, 1]
  H := !![1, 2]
  r := ![2]
  Z := !![1]
  s := ![1]
  M := !![1]

/-- Example problem. -/
def exLQT : LQT 2 1 ℚ := ⟨[exStA, exStB, exStA], 1, !![1], !![1, 0], ![3]⟩

theorem exStA_convex : exStA.Convex := by
  refine ⟨⟨?_, ?_⟩, ?_, ?_, ?_⟩
  · ext i j; fin_cases i <;> fin_cases j <;> rfl
  · ext i j; fin_cases i; fin_cases j; rfl
  · simp [exStA]
  · intro x hx
    have h0 : x 0 ≠ 0 := fun h => hx (by ext i; fin_cases i; exact h)
    have : 0 < x 0 * x 0 := mul_self_pos.2 h0
    simp [exStA, dotProduct, mulVec, Fin.sum_univ_succ]
    linarith
  · have key : ∀ (y : Fin 2 → ℚ) (z : Fin 1 → ℚ), 0 ≤ y ⬝ᵥ !![2, 0; 0, 1] *ᵥ y +
        2 * (y ⬝ᵥ !![(1 : ℚ); 0] *ᵥ z) + z ⬝ᵥ !![2] *ᵥ z := by
      intro y z
      have e : y ⬝ᵥ !![2, 0; 0, 1] *ᵥ y + 2 * (y ⬝ᵥ !![(1 : ℚ); 0] *ᵥ z) + z ⬝ᵥ !![2] *ᵥ z =
          y 0 ^ 2 + y 1 ^ 2 + (y 0 + z 0) ^ 2 + z 0 ^ 2 := by
        simp [dotProduct, mulVec, Fin.sum_univ_succ]
        ring
      rw [e]
      positivity
    exact key

theorem exStB_convex : exStB.Convex := by
  refine ⟨⟨?_, ?_⟩, ?_, ?_, ?_⟩
  · ext i j; fin_cases i; fin_cases j; rfl
  · ext i j; fin_cases i; fin_cases j; rfl
  · simp [exStB]
  · intro x hx
    have h0 : x 0 ≠ 0 := fun h => hx (by ext i; fin_cases i; exact h)
    simp [exStB, dotProduct, mulVec, Fin.sum_univ_succ, h0]
  · have key : ∀ (y z : Fin 1 → ℚ), 0 ≤ y ⬝ᵥ !![1] *ᵥ y + 2 * (y ⬝ᵥ !![(1 : ℚ)] *ᵥ z) + z ⬝ᵥ !![1] *ᵥ z := by
      intro y z
      have e : y ⬝ᵥ !![1] *ᵥ y + 2 * (y ⬝ᵥ !![(1 : ℚ)] *ᵥ z) + z ⬝ᵥ !![1] *ᵥ z = (y 0 + z 0) ^ 2 := by
        simp [dotProduct, mulVec, Fin.sum_univ_succ]
        ring
      rw [e]
      positivity
    exact key

theorem exLQT_convex : exLQT.Convex := by
  refine ⟨?_, ?_, ?_⟩
  · intro s hs
    simp only [exLQT, List.mem_cons, List.not_mem_nil, or_false] at hs
    rcases hs with rfl | rfl | rfl
    exacts [exStA_convex, exStB_convex, exStA_convex]
  · ext i j; fin_cases i; fin_cases j; rfl
  · have key : ∀ x : Fin 1 → ℚ, 0 ≤ x ⬝ᵥ !![1] *ᵥ x := by
      intro x
      simp [dotProduct, mulVec, Fin.sum_univ_succ]
      exact mul_self_nonneg _
    exact key

theorem LQT.Convex.toSym {P : LQT n m K} (h : P.Convex) : P.Sym := ⟨fun s hs => (h.1 s hs).sym, h.2.1⟩

example : exLQT.Sym := exLQT_convex.toSym

/-! ### C19 -/

/-- C19 (sequential): for convex problems the backward pass completes and all `S` are positive semidefinite. -/
theorem C19_seq_psd (P : LQT n m K) (hP : P.Convex) :
    ∃ r, P.seqBackwardPass = .ok r ∧ r.S_list.length = P.stages.length + 1 ∧ ∀ S ∈ r.S_list, IsPSD S := by
  obtain ⟨S, v, r, hb, -, hr⟩ := bw_convex (psd_conj hP.2) ((P.HTᵀ * P.XT) *ᵥ P.rT) P.stages hP.1
  exact ⟨r, seqBackwardPass_iff.2 ⟨S, v, hb⟩, hb.length.2.2.1, hr⟩

/-- C19 (parallel): the same for the parallel pass with at least one step. -/
theorem C19_par_psd (P : LQT n m K) (hP : P.Convex) (hT : P.stages ≠ []) :
    ∃ r, P.parBackwardPass = .ok r ∧ r.S_list.length = P.stages.length + 1 ∧ ∀ S ∈ r.S_list, IsPSD S := by
  obtain ⟨r, hr⟩ := par_bw_total hP hT
  obtain ⟨r', h1, h2⟩ := C19_seq_psd P hP
  rw [par_bw_seq hP.toSym hr, Except.ok.injEq] at h1
  subst h1
  exact ⟨r, hr, h2⟩

/-- C19: every combination inside any bracketing of the elements, hence inside the scan, is defined. -/
theorem C19_combinations (P : LQT n m K) (hP : P.Convex) (hT : P.stages ≠ []) :
    ∃ es, P.parBackwardInit = .ok es ∧ ∀ j k l a b,
      Paren combineABCEJ ((es.drop j).take k) a → Paren combineABCEJ ((es.drop (j + k)).take l) b →
      ∃ e, combineABCEJ a b = .ok e ∧ IsPSD e.C ∧ IsPSD e.J := by
  obtain ⟨es, hes, hpsd⟩ := stage_elems hP
  refine ⟨_, parBackwardInit_ok.2 ⟨hT, es, hes, rfl⟩, fun j k l a b ha hb => ?_⟩
  have hall : ∀ e ∈ es ++ [P.termElem], e.PSD := by
    intro e he
    rcases List.mem_append.1 he with he | he
    · exact hpsd e he
    · simp only [List.mem_singleton] at he; subst he; exact term_psd hP
  have h1 := psd_of_prefix (fun e he => hall e (List.mem_of_mem_drop he)) ha
  have h2 := psd_of_prefix (fun e he => hall e (List.mem_of_mem_drop he)) hb
  exact psd_closed a b h1 h2

example : ∃ r, exLQT.seqBackwardPass = .ok r ∧ r.S_list.length = 4 ∧ ∀ S ∈ r.S_list, IsPSD S :=
  C19_seq_psd exLQT exLQT_convex

/-! ### C18 -/

/-- C18 (optimality): whenever the backward pass completes on symmetric weights, the forward pass gives a control
sequence that simulates to its states, whose cost is at most that of any other control sequence, with equality for no
other one. -/
theorem C18_optimal (P : LQT n m K) (hP : P.Sym) (r : BwResult n m K) (hr : P.seqBackwardPass = .ok r)
    (x0 : Fin n → K) :
    ∃ us xs J, P.seqForwardPass x0 r.Kx_list r.d_list = .ok (us, xs) ∧ us.length = P.stages.length ∧
      P.seqSimulation x0 us = .ok xs ∧ P.cost us xs = .ok J ∧
      ∀ us' : List (Fin m → K), us'.length = P.stages.length → ∃ xs' J', P.seqSimulation x0 us' = .ok xs' ∧
        P.cost us' xs' = .ok J' ∧ J ≤ J' ∧ (J' = J → us' = us) := by
  obtain ⟨S, v, hb⟩ := seqBackwardPass_iff.1 hr
  obtain ⟨κ, hκ⟩ := seq_square hP hb
  obtain ⟨us, hul, hf⟩ := lqtForwardLoop_ok hb.length.1 hb.length.2.1 x0
  have he := fun us' hu' => excess_sum hb (term_symm P hP.2) hP.1 x0 us' hu'
  refine ⟨us, x0 :: lqtRun P.stages x0 us, _, ?_, hul, lqtSimulation_eq hul.le x0, lqt_cost_eq hul.le x0, ?_⟩
  · unfold LQT.seqForwardPass; rw [hf]; rfl
  · intro us' hu'
    refine ⟨_, _, lqtSimulation_eq hu'.le x0, lqt_cost_eq hu'.le x0, ?_, ?_⟩
    · rw [hκ x0 us hul, hκ x0 us' hu', ((he us hul).2).2 hf]
      have := (he us' hu').1
      linarith
    · rw [hκ x0 us hul, hκ x0 us' hu', ((he us hul).2).2 hf]
      intro h
      have h0 : (excess P.stages r.Kx_list r.d_list r.S_list.tail x0 us').sum = 0 := by linarith
      have := ((he us' hu').2).1 h0
      rw [hf] at this
      simp only [Except.ok.injEq, Prod.mk.injEq] at this
      exact this.1.symm

/-- The excess list, index by index. -/
theorem excess_get {S0 : Matrix (Fin n) (Fin n) K} {v0 : Fin n → K} {ss : List (LStage n m K)}
    {S : Matrix (Fin n) (Fin n) K} {v : Fin n → K} {r : BwResult n m K} (h : BwOk S0 v0 ss S v r)
    (x : Fin n → K) (us : List (Fin m → K)) (hu : us.length = ss.length) :
    (excess ss r.Kx_list r.d_list r.S_list.tail x us).length = ss.length ∧
    ∀ k < ss.length, ∃ s Kx d Sk y u, ss[k]? = some s ∧ r.Kx_list[k]? = some Kx ∧ r.d_list[k]? = some d ∧
      r.S_list[k + 1]? = some Sk ∧ (x :: lqtRun ss x us)[k]? = some y ∧ us[k]? = some u ∧
      (excess ss r.Kx_list r.d_list r.S_list.tail x us)[k]? = some ((1 / 2) * ((u - (-Kx *ᵥ y + d)) ⬝ᵥ
        (s.Zᵀ * s.U * s.Z + s.Lᵀ * Sk * s.L) *ᵥ (u - (-Kx *ᵥ y + d)))) := by
  induction h generalizing x us with
  | nil => 
    cases us with
    | nil => exact ⟨rfl, fun k hk => by simp at hk⟩
    | cons u us => simp at hu
  | @cons s ss S v r Kx d h hg ih =>
    cases us with
    | nil => simp at hu
    | cons u us =>
      have e1 : r.S_list = S :: r.S_list.tail := by
        have := h.head.1
        cases hl : r.S_list with
        | nil => simp [hl] at this
        | cons a l => simp only [hl, List.getElem?_cons_zero, Option.some.injEq] at this; simp [this]
      obtain ⟨i1, i2⟩ := ih (s.next x u) us (by simpa using hu)
      simp only [List.tail_cons]
      have e2 : excess (s :: ss) (Kx :: r.Kx_list) (d :: r.d_list) r.S_list x (u :: us) =
          (1 / 2) * ((u + Kx *ᵥ x - d) ⬝ᵥ s.hess S *ᵥ (u + Kx *ᵥ x - d)) ::
            excess ss r.Kx_list r.d_list r.S_list.tail (s.next x u) us := by
        rw [e1]; rfl
      rw [e2]
      refine ⟨by simp [i1], fun k hk => ?_⟩
      cases k with
      | zero =>
        refine ⟨s, Kx, d, S, x, u, rfl, rfl, rfl, ?_, rfl, rfl, ?_⟩
        · rw [e1]; rfl
        · have : u - (-Kx *ᵥ x + d) = u + Kx *ᵥ x - d := by rw [neg_mulVec]; abel
          rw [this]
          rfl
      | succ k =>
        obtain ⟨s', Kx', d', Sk, y, u', a1, a2, a3, a4, a5, a6, a7⟩ := i2 k (by simpa using hk)
        exact ⟨s', Kx', d', Sk, y, u', by simpa using a1, by simpa using a2, by simpa using a3,
          by simpa using a4, by simpa [lqtRun] using a5, by simpa using a6, by simpa using a7⟩

/-- C18 (excess cost): the cost of any control sequence exceeds the optimum by the sum over the steps of half the
squared deviation from the feedback law, weighted with `Zᵀ U Z + Lᵀ S L`. -/
theorem C18_excess (P : LQT n m K) (hP : P.Sym) (r : BwResult n m K) (hr : P.seqBackwardPass = .ok r)
    (x0 : Fin n → K) (us : List (Fin m → K)) (xs : List (Fin n → K)) (J : K)
    (hf : P.seqForwardPass x0 r.Kx_list r.d_list = .ok (us, xs)) (hJ : P.cost us xs = .ok J)
    (us' : List (Fin m → K)) (hu : us'.length = P.stages.length) (xs' : List (Fin n → K)) (J' : K)
    (hs : P.seqSimulation x0 us' = .ok xs') (hJ' : P.cost us' xs' = .ok J') :
    ∃ es : List K, J' = J + es.sum ∧ es.length = P.stages.length ∧
      ∀ k < P.stages.length, ∃ s Kx d S x u, P.stages[k]? = some s ∧ r.Kx_list[k]? = some Kx ∧
        r.d_list[k]? = some d ∧ r.S_list[k + 1]? = some S ∧ xs'[k]? = some x ∧ us'[k]? = some u ∧
        es[k]? = some ((1 / 2) * ((u - (-Kx *ᵥ x + d)) ⬝ᵥ
          (s.Zᵀ * s.U * s.Z + s.Lᵀ * S * s.L) *ᵥ (u - (-Kx *ᵥ x + d)))) := by
  obtain ⟨S, v, hb⟩ := seqBackwardPass_iff.1 hr
  obtain ⟨κ, hκ⟩ := seq_square hP hb
  obtain ⟨us0, hul, hf0⟩ := lqtForwardLoop_ok hb.length.1 hb.length.2.1 x0
  have he := excess_sum hb (term_symm P hP.2) hP.1 x0 us0 hul
  have hf' : P.seqForwardPass x0 r.Kx_list r.d_list = .ok (us0, x0 :: lqtRun P.stages x0 us0) := by
    unfold LQT.seqForwardPass; rw [hf0]; rfl
  rw [hf', Except.ok.injEq, Prod.mk.injEq] at hf
  obtain ⟨rfl, rfl⟩ := hf
  rw [lqt_cost_eq hul.le, Except.ok.injEq] at hJ
  rw [lqtSimulation_eq hu.le, Except.ok.injEq] at hs
  subst hs
  rw [lqt_cost_eq hu.le, Except.ok.injEq] at hJ'
  refine ⟨excess P.stages r.Kx_list r.d_list r.S_list.tail x0 us', ?_, excess_get hb x0 us' hu⟩
  rw [← hJ, ← hJ', hκ x0 us0 hul, hκ x0 us' hu, he.2.2 hf0]
  ring

/-- C18 (value function): the optimal cost is `1/2 x0ᵀ S₀ x0 - v₀ᵀ x0` up to a constant independent of `x0`. -/
theorem C18_value (P : LQT n m K) (hP : P.Sym) (r : BwResult n m K) (hr : P.seqBackwardPass = .ok r) :
    ∃ S v κ, r.S_list[0]? = some S ∧ r.v_list[0]? = some v ∧ ∀ x0 : Fin n → K,
      ∃ us xs, P.seqForwardPass x0 r.Kx_list r.d_list = .ok (us, xs) ∧
        P.cost us xs = .ok ((1 / 2) * (x0 ⬝ᵥ S *ᵥ x0) - v ⬝ᵥ x0 + κ) := by
  obtain ⟨S, v, hb⟩ := seqBackwardPass_iff.1 hr
  obtain ⟨κ, hκ⟩ := seq_square hP hb
  refine ⟨S, v, κ, hb.head.1, hb.head.2, fun x0 => ?_⟩
  obtain ⟨us, hul, hf⟩ := lqtForwardLoop_ok hb.length.1 hb.length.2.1 x0
  refine ⟨us, x0 :: lqtRun P.stages x0 us, ?_, ?_⟩
  · unfold LQT.seqForwardPass; rw [hf]; rfl
  · rw [lqt_cost_eq hul.le, hκ x0 us hul, ((excess_sum hb (term_symm P hP.2) hP.1 x0 us hul).2).2 hf, add_zero]
    rfl

/-- C18 (cost-to-go): the result for the last steps of the problem is the last part of the result; with `C18_value`,
`S_list[k]`, `v_list[k]` describe the optimal cost from step `k` on. -/
theorem C18_tail (P : LQT n m K) (r : BwResult n m K) (hr : P.seqBackwardPass = .ok r) (k : ℕ)
    (hk : k ≤ P.stages.length) :
    ({ P with stages := P.stages.drop k } : LQT n m K).seqBackwardPass =
      .ok ⟨r.Kx_list.drop k, r.d_list.drop k, r.S_list.drop k, r.v_list.drop k⟩ := by
  obtain ⟨S, v, hb⟩ := seqBackwardPass_iff.1 hr
  obtain ⟨S', v', hb'⟩ := hb.drop k hk
  exact seqBackwardPass_iff.2 ⟨S', v', hb'⟩

/-- The hypotheses are met by the example, from every initial state. -/
example (x0 : Fin 2 → ℚ) : ∃ r us xs J, exLQT.seqBackwardPass = .ok r ∧
    exLQT.seqForwardPass x0 r.Kx_list r.d_list = .ok (us, xs) ∧ exLQT.cost us xs = .ok J ∧ us.length = 3 := by
  obtain ⟨r, hr, -⟩ := C19_seq_psd exLQT exLQT_convex
  obtain ⟨us, xs, J, h1, h2, -, h3, -⟩ := C18_optimal exLQT exLQT_convex.toSym r hr x0
  exact ⟨r, us, xs, J, hr, h1, h3, h2⟩

/-! ### C20 -/

/-- C20: `combine_abcej` is associative on elements with symmetric `C`, `J`, whenever both sides are defined. -/
theorem C20_assoc (a b c ab bc l r : Elem n K) (ha : a.Cᵀ = a.C ∧ a.Jᵀ = a.J) (hb : b.Cᵀ = b.C ∧ b.Jᵀ = b.J)
    (hc : c.Cᵀ = c.C ∧ c.Jᵀ = c.J) (h1 : combineABCEJ a b = .ok ab) (h2 : combineABCEJ ab c = .ok l)
    (h3 : combineABCEJ b c = .ok bc) (h4 : combineABCEJ a bc = .ok r) : l = r := by
  have hl : Paren combineABCEJ [a, b, c] l :=
    Paren.node (l := [a, b]) (r := [c]) (Paren.node (l := [a]) (r := [b]) (.single a) (.single b) h1) (.single c) h2
  have hr : Paren combineABCEJ [a, b, c] r :=
    Paren.node (l := [a]) (r := [b, c]) (.single a) (Paren.node (l := [b]) (r := [c]) (.single b) (.single c) h3) h4
  refine paren_unique hl hr ?_
  intro e he
  simp only [List.mem_cons, List.not_mem_nil, or_false] at he
  rcases he with rfl | rfl | rfl
  exacts [ha, hb, hc]

/-- C20: on elements with positive semidefinite `C`, `J` the combination is defined and again of this kind. -/
theorem C20_psd (a b : Elem n K) (ha : IsPSD a.C ∧ IsPSD a.J) (hb : IsPSD b.C ∧ IsPSD b.J) :
    ∃ e, combineABCEJ a b = .ok e ∧ IsPSD e.C ∧ IsPSD e.J := psd_closed a b ha hb

/-- C20: full associativity on such elements, without a definedness assumption. -/
theorem C20_psd_assoc (a b c : Elem n K) (ha : IsPSD a.C ∧ IsPSD a.J) (hb : IsPSD b.C ∧ IsPSD b.J)
    (hc : IsPSD c.C ∧ IsPSD c.J) :
    (do combineABCEJ (← combineABCEJ a b) c) = (do combineABCEJ a (← combineABCEJ b c)) := by
  obtain ⟨ab, h1, p1⟩ := C20_psd a b ha hb
  obtain ⟨l, h2, -⟩ := C20_psd ab c p1 hc
  obtain ⟨bc, h3, p3⟩ := C20_psd b c hb hc
  obtain ⟨r, h4, -⟩ := C20_psd a bc ha p3
  have := C20_assoc a b c ab bc l r ⟨ha.1.1, ha.2.1⟩ ⟨hb.1.1, hb.2.1⟩ ⟨hc.1.1, hc.2.1⟩ h1 h2 h3 h4
  rw [h1, h3]
  show combineABCEJ ab c = combineABCEJ a bc
  rw [h2, h4, this]

omit [LinearOrder K] [IsStrictOrderedRing K] in
/-- C20: `combine_fc` is the composition of the affine maps `x ↦ F x + c` … -/
theorem C20_fc_compose (a b : Matrix (Fin n) (Fin n) K × (Fin n → K)) (x : Fin n → K) :
    (combineFC a b).1 *ᵥ x + (combineFC a b).2 = b.1 *ᵥ (a.1 *ᵥ x + a.2) + b.2 := aff_combine a b x

omit [LinearOrder K] [IsStrictOrderedRing K] in
/-- … and is associative. -/
theorem C20_fc_assoc (a b c : Matrix (Fin n) (Fin n) K × (Fin n → K)) :
    combineFC (combineFC a b) c = combineFC a (combineFC b c) := by
  simp only [combineFC, Matrix.mul_assoc, mulVec_add, ← mulVec_mulVec, add_assoc]

/-- Elements meeting the hypotheses: those of the example steps, with nonzero `A`, `b`, `C`. -/
example : ∃ a b : Elem 2 ℚ, exStA.parElem = .ok a ∧ exStB.parElem = .ok b ∧ (IsPSD a.C ∧ IsPSD a.J) ∧
    (IsPSD b.C ∧ IsPSD b.J) := by
  obtain ⟨a, h1, h2⟩ := parElem_convex exStA_convex
  obtain ⟨b, h3, h4⟩ := parElem_convex exStB_convex
  exact ⟨a, b, h1, h3, h2, h4⟩

/-! ### C21 -/

/-- C21: when the parallel backward pass completes, the sequential one completes with the same result. -/
theorem C21_par_eq_seq (P : LQT n m K) (hP : P.Sym) (r : BwResult n m K) (h : P.parBackwardPass = .ok r) :
    P.seqBackwardPass = .ok r := par_bw_seq hP h

/-- C21: for convex problems with at least one step both complete, with the same result. -/
theorem C21_convex (P : LQT n m K) (hP : P.Convex) (hT : P.stages ≠ []) :
    ∃ r, P.parBackwardPass = .ok r ∧ P.seqBackwardPass = .ok r := by
  obtain ⟨r, h⟩ := par_bw_total hP hT
  exact ⟨r, h, par_bw_seq hP.toSym h⟩

omit [IsStrictOrderedRing K] in
/-- C21 (`T = 0`): the parallel pass raises `IndexError`, the sequential pass returns the final value function. -/
theorem C21_empty (P : LQT n m K) (hT : P.stages = []) : P.parBackwardPass = .error .indexError ∧
    P.seqBackwardPass = .ok ⟨[], [], [P.HTᵀ * P.XT * P.HT], [(P.HTᵀ * P.XT) *ᵥ P.rT]⟩ := by
  refine ⟨par_bw_nil hT, ?_⟩
  rw [seqBackwardPass_iff, hT]
  exact ⟨_, _, BwOk.nil⟩

example : ∃ r, exLQT.parBackwardPass = .ok r ∧ exLQT.seqBackwardPass = .ok r :=
  C21_convex exLQT exLQT_convex (by simp [exLQT])

/-! ### C22 -/

omit [LinearOrder K] [IsStrictOrderedRing K] in
/-- C22: for any gains and offsets, of any lengths, the parallel forward pass equals the sequential one, including
the `IndexError` when the lists do not fit; at least one gain. -/
theorem C22_par_eq_seq (P : LQT n m K) (x0 : Fin n → K) (Ks : List (Matrix (Fin m) (Fin n) K)) (ds : List (Fin m → K))
    (hT : Ks ≠ []) : P.parForwardPass x0 Ks ds = P.seqForwardPass x0 Ks ds := par_fwd_seq hT

omit [LinearOrder K] [IsStrictOrderedRing K] in
/-- C22 (no gains): `ValueError` against `([], [x0])`. -/
theorem C22_empty (P : LQT n m K) (x0 : Fin n → K) (ds : List (Fin m → K)) :
    P.parForwardPass x0 [] ds = .error .valueError ∧ P.seqForwardPass x0 [] ds = .ok ([], [x0]) :=
  par_fwd_nil P x0 ds

omit [LinearOrder K] [IsStrictOrderedRing K] in
/-- C22: what both compute: one control `-Kx x + d` and one state per gain, along the dynamics. -/
theorem C22_meaning (P : LQT n m K) (x0 : Fin n → K) (Ks : List (Matrix (Fin m) (Fin n) K)) (ds : List (Fin m → K))
    (us : List (Fin m → K)) (xs : List (Fin n → K)) :
    P.seqForwardPass x0 Ks ds = .ok (us, x0 :: xs) ↔ us.length = Ks.length ∧ xs.length = Ks.length ∧
      ∀ k < Ks.length, ∃ s Kx d y u, P.stages[k]? = some s ∧ Ks[k]? = some Kx ∧ ds[k]? = some d ∧
        (x0 :: xs)[k]? = some y ∧ us[k]? = some u ∧ u = -Kx *ᵥ y + d ∧
        xs[k]? = some (s.F *ᵥ y + s.c + s.L *ᵥ u) := by
  have : P.seqForwardPass x0 Ks ds = .ok (us, x0 :: xs) ↔ lqtForwardLoop P.stages Ks ds x0 = .ok (us, xs) := by
    unfold LQT.seqForwardPass
    rw [bind_ok]
    constructor
    · rintro ⟨r, h1, h2⟩
      simp only [pure, Except.pure, Except.ok.injEq, Prod.mk.injEq, List.cons.injEq, true_and] at h2
      rw [h1, ← h2.1, ← h2.2]
    · intro h; exact ⟨_, h, rfl⟩
  rw [this, fwd_iff]
  refine and_congr_right fun _ => and_congr_right fun _ => forall_congr' fun k => forall_congr' fun hk => ?_
  constructor
  · rintro ⟨s, Kx, d, y, a1, a2, a3, a4, a5, a6⟩; exact ⟨s, Kx, d, y, _, a1, a2, a3, a4, a5, rfl, a6⟩
  · rintro ⟨s, Kx, d, y, u, a1, a2, a3, a4, a5, rfl, a6⟩; exact ⟨s, Kx, d, y, a1, a2, a3, a4, a5, a6⟩

example : exLQT.parForwardPass ![1, 2] [!![1, 2], !![0, 1], !![3, 4]] [![1], ![2], ![3]] =
    exLQT.seqForwardPass ![1, 2] [!![1, 2], !![0, 1], !![3, 4]] [![1], ![2], ![3]] :=
  C22_par_eq_seq _ _ _ _ (by simp)

/-! ### C23 -/

/-- C23: the first combined pass returns the optimal trajectory whenever it completes. -/
theorem C23_fwdbwd (P : LQT n m K) (hP : P.Sym) (bw : BwResult n m K) (hb : P.seqBackwardPass = .ok bw)
    (x0 : Fin n → K) (us : List (Fin m → K)) (xs : List (Fin n → K)) (h : P.parFwdBwdPass x0 bw = .ok (us, xs)) :
    P.seqForwardPass x0 bw.Kx_list bw.d_list = .ok (us, xs) := (fwdbwd_seq hP hb).1 _ h

/-- C23: the second combined pass returns the optimal trajectory whenever it completes. -/
theorem C23_fwdbwd2 (P : LQT n m K) (hP : P.Sym) (bw : BwResult n m K) (hb : P.seqBackwardPass = .ok bw)
    (x0 : Fin n → K) (us : List (Fin m → K)) (xs : List (Fin n → K)) (h : P.parFwdBwdPass2 x0 bw = .ok (us, xs)) :
    P.seqForwardPass x0 bw.Kx_list bw.d_list = .ok (us, xs) := (fwdbwd2_seq hP hb).1 _ h

/-- C23: for convex problems with at least one step the whole parallel chain completes, with the optimal trajectory. -/
theorem C23_convex (P : LQT n m K) (hP : P.Convex) (hT : P.stages ≠ []) (x0 : Fin n → K) :
    ∃ bw us xs, P.parBackwardPass = .ok bw ∧ P.seqBackwardPass = .ok bw ∧
      P.seqForwardPass x0 bw.Kx_list bw.d_list = .ok (us, xs) ∧ P.parForwardPass x0 bw.Kx_list bw.d_list = .ok (us, xs) ∧
      P.parFwdBwdPass x0 bw = .ok (us, xs) ∧ P.parFwdBwdPass2 x0 bw = .ok (us, xs) := by
  obtain ⟨bw, h1, h2⟩ := C21_convex P hP hT
  obtain ⟨us, xs, -, h3, -⟩ := C18_optimal P hP.toSym bw h2 x0
  have hne : bw.Kx_list ≠ [] := by
    obtain ⟨S, v, hb⟩ := seqBackwardPass_iff.1 h2
    intro h
    have := hb.length.1
    rw [h] at this
    exact hT (List.length_eq_zero_iff.1 this.symm)
  exact ⟨bw, us, xs, h1, h2, h3, by rw [C22_par_eq_seq _ _ _ _ hne, h3],
    by rw [(fwdbwd_seq hP.toSym h2).2 hP hT, h3], by rw [(fwdbwd2_seq hP.toSym h2).2 hP hT, h3]⟩

example : ∃ bw us xs, exLQT.parBackwardPass = .ok bw ∧ exLQT.parFwdBwdPass ![1, 1] bw = .ok (us, xs) ∧
    exLQT.parFwdBwdPass2 ![1, 1] bw = .ok (us, xs) := by
  obtain ⟨bw, us, xs, h1, -, -, -, h2, h3⟩ := C23_convex exLQT exLQT_convex (by simp [exLQT]) ![1, 1]
  exact ⟨bw, us, xs, h1, h2, h3⟩

omit [IsStrictOrderedRing K] in
/-- C23 (`T = 0`): the first combined pass raises `IndexError`, the second `ValueError`, for any backward result. -/
theorem C23_empty (P : LQT n m K) (hT : P.stages = []) (x0 : Fin n → K) (bw : BwResult n m K) :
    P.parFwdBwdPass x0 bw = .error .indexError ∧ P.parFwdBwdPass2 x0 bw = .error .valueError := by
  constructor
  · unfold LQT.parFwdBwdPass LQT.parFwdBwdInit
    rw [hT]
    rfl
  · unfold LQT.parFwdBwdPass2 LQT.parFwdBwd2Init
    rw [hT]
    show (do let elems ← scanVals combineABCEJ ([] : List (Elem n K)); LQT.parFwdBwd2Extract x0 bw elems) = _
    rw [scanVals_nil]
    rfl

/-! ### C25 -/

/-- C25: with `Z = I` the transformed backward pass returns exactly the result of the direct one; it completes iff
the direct one does, there is a step, all `U` are invertible and all outputs have the same dimension. -/
theorem C25_transformed (P : LQT n m K) (hP : P.Sym) (hZ : ∀ s ∈ P.stages, s.Z = 1) (r : BwResult n m K) :
    P.seqTransformedBackwardPass = .ok r ↔ P.stages ≠ [] ∧ (∀ s ∈ P.stages, s.U.det ≠ 0) ∧
      (∀ s ∈ P.stages, ∀ t ∈ P.stages, s.p = t.p) ∧ P.seqBackwardPass = .ok r := transformed_iff hP hZ

/-- A problem with `Z = 2`. -/
def exZ : LQT 1 1 ℚ :=
  ⟨[⟨1, !![1], !![1], !![1], !![1], ![0], !![1], ![0], !![2], ![1], !![0]⟩], 1, !![1], !![1], ![0]⟩

/-- C25: with `Z ≠ I` the two passes differ (gains `1/5` and `1/2`), without any error being raised. -/
theorem C25_differ : exZ.Convex ∧ ∃ r r', exZ.seqBackwardPass = .ok r ∧ exZ.seqTransformedBackwardPass = .ok r' ∧
    r.Kx_list.map (fun M => M 0 0) = [1 / 5] ∧ r'.Kx_list.map (fun M => M 0 0) = [1 / 2] := by
  constructor
  · refine ⟨?_, ?_, ?_⟩
    · intro s hs
      simp only [exZ, List.mem_singleton] at hs
      subst hs
      refine ⟨⟨?_, ?_⟩, ?_, ?_, ?_⟩
      · ext i j; fin_cases i; fin_cases j; rfl
      · ext i j; fin_cases i; fin_cases j; rfl
      · simp
      · intro x hx
        have h0 : x 0 ≠ 0 := fun h => hx (by ext i; fin_cases i; exact h)
        simp [dotProduct, mulVec, Fin.sum_univ_succ, h0]
      · have key : ∀ (y z : Fin 1 → ℚ), 0 ≤ y ⬝ᵥ !![1] *ᵥ y + 2 * (y ⬝ᵥ !![(0 : ℚ)] *ᵥ z) + z ⬝ᵥ !![1] *ᵥ z := by
          intro y z
          simp [dotProduct, mulVec, Fin.sum_univ_succ]
          exact add_nonneg (mul_self_nonneg _) (mul_self_nonneg _)
        exact key
    · ext i j; fin_cases i; fin_cases j; rfl
    · have key : ∀ x : Fin 1 → ℚ, 0 ≤ x ⬝ᵥ !![1] *ᵥ x := by
        intro x
        simp [dotProduct, mulVec, Fin.sum_univ_succ]
        exact mul_self_nonneg _
      exact key
  · have h1 : (exZ.seqBackwardPass).toOption.map (fun r => r.Kx_list.map fun M => M 0 0) = some [1 / 5] := by
      decide +kernel
    have h2 : (exZ.seqTransformedBackwardPass).toOption.map (fun r => r.Kx_list.map fun M => M 0 0) = some [1 / 2] := by
      decide +kernel
    cases hr : exZ.seqBackwardPass with
    | error e => rw [hr] at h1; cases h1
    | ok r =>
      cases hr' : exZ.seqTransformedBackwardPass with
      | error e => rw [hr'] at h2; cases h2
      | ok r' =>
        rw [hr] at h1
        rw [hr'] at h2
        exact ⟨r, r', rfl, rfl, Option.some.inj h1, Option.some.inj h2⟩

/-- The hypotheses of `C25_transformed` are met with a cross term. -/
example : ∃ r, (⟨[{ exStB with Z := !![1] }], 1, !![1], !![1, 0], ![3]⟩ : LQT 2 1 ℚ).seqTransformedBackwardPass =
    .ok r := by
  have hc : (⟨[{ exStB with Z := !![1] }], 1, !![1], !![1, 0], ![3]⟩ : LQT 2 1 ℚ).Convex := by
    refine ⟨?_, exLQT_convex.2⟩
    intro s hs
    simp only [List.mem_singleton] at hs
    subst hs
    exact exStB_convex
  obtain ⟨r, hr, -⟩ := C19_seq_psd _ hc
  refine ⟨r, (C25_transformed _ hc.toSym ?_ r).2 ⟨by simp, ?_, ?_, hr⟩⟩
  · intro s hs
    simp only [List.mem_singleton] at hs
    subst hs
    ext i j; fin_cases i; fin_cases j; rfl
  · intro s hs
    simp only [List.mem_singleton] at hs
    subst hs
    exact exStB_convex.pd.det_ne_zero
  · intro s hs t ht
    simp only [List.mem_singleton] at hs ht
    rw [hs, ht]

end Verif
