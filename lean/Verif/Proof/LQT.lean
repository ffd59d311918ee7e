import Verif.Proof.LQTStage
import Verif.Proof.PyLemmas

/-! Backward pass, cost and trajectories of the tracking problem. -/

namespace Verif

open Matrix

variable {n m : ℕ} {K : Type} [Field K]

/-! ### Trajectories and cost -/

theorem lqtRun_length {ss : List (LStage n m K)} {us : List (Fin m → K)} (h : us.length ≤ ss.length) (x : Fin n → K) :
    (lqtRun ss x us).length = us.length := by
  induction us generalizing ss x with
  | nil => cases ss <;> rfl
  | cons u us ih =>
    cases ss with
    | nil => simp at h
    | cons s ss => simp only [lqtRun, List.length_cons]; rw [ih (by simpa using h)]

theorem lqtSimLoop_eq {ss : List (LStage n m K)} {us : List (Fin m → K)} (h : us.length ≤ ss.length) (x : Fin n → K) :
    lqtSimLoop ss us x = .ok (lqtRun ss x us) := by
  induction us generalizing ss x with
  | nil => cases ss <;> rfl
  | cons u us ih =>
    cases ss with
    | nil => simp at h
    | cons s ss =>
      simp only [lqtSimLoop, lqtRun]
      have := ih (ss := ss) (by simpa using h) (s.next x u)
      rw [LStage.next] at this
      rw [this]
      rfl

theorem lqtSimulation_eq {P : LQT n m K} {us : List (Fin m → K)} (h : us.length ≤ P.stages.length) (x : Fin n → K) :
    P.seqSimulation x us = .ok (x :: lqtRun P.stages x us) := by
  unfold LQT.seqSimulation
  rw [lqtSimLoop_eq h]
  rfl

/-- Sum of the stage costs along given states. -/
def stageSum : List (LStage n m K) → List (Fin n → K) → List (Fin m → K) → K
  | s :: ss, x :: xs, u :: us => s.cost x u + stageSum ss xs us
  | _, _, _ => 0

theorem lqt_cost_loop (ss : List (LStage n m K)) (xs : List (Fin n → K)) (us : List (Fin m → K))
    (h1 : us.length ≤ ss.length) (h2 : us.length ≤ xs.length) (a : K) :
    (List.range us.length).foldlM (fun res k => do
      let s ← pyGet ss k
      let x ← pyGet xs k
      let u ← pyGet us k
      return res + s.cost x u) a = (.ok (a + stageSum ss xs us) : Py K) := by
  induction us generalizing ss xs a with
  | nil => cases ss <;> cases xs <;> simp [stageSum, pure, Except.pure]
  | cons u us ih =>
    cases ss with
    | nil => simp at h1
    | cons s ss =>
      cases xs with
      | nil => simp at h2
      | cons x xs =>
        simp only [List.length_cons] at h1 h2
        rw [List.length_cons, List.range_succ_eq_map, List.foldlM_cons]
        have h0 : (do
            let s ← pyGet (s :: ss) 0
            let x ← pyGet (x :: xs) 0
            let u ← pyGet (u :: us) 0
            return a + s.cost x u : Py K) = .ok (a + s.cost x u) := rfl
        rw [h0]
        show List.foldlM _ (a + s.cost x u) (List.map Nat.succ (List.range us.length)) = _
        rw [List.foldlM_map]
        have := ih ss xs (by omega) (by omega) (a + s.cost x u)
        rw [stageSum, ← add_assoc, ← this]
        rfl

theorem lqtTotal_eq (g : (Fin n → K) → K) (ss : List (LStage n m K)) (us : List (Fin m → K))
    (h : us.length ≤ ss.length) (x : Fin n → K) :
    lqtTotal g ss x us = g ((x :: lqtRun ss x us).getLast (by simp)) + stageSum ss (x :: lqtRun ss x us) us := by
  induction us generalizing ss x with
  | nil => cases ss <;> simp [lqtTotal, lqtRun, stageSum]
  | cons u us ih =>
    cases ss with
    | nil => simp at h
    | cons s ss =>
      simp only [lqtTotal, lqtRun, stageSum]
      rw [ih ss (by simpa using h), List.getLast_cons (a := x) (List.cons_ne_nil (s.next x u) _)]
      ring

/-- Final cost. -/
def LQT.final (P : LQT n m K) (x : Fin n → K) : K := halfQuad P.XT (P.HT *ᵥ x - P.rT)

theorem lqt_cost_eq {P : LQT n m K} {us : List (Fin m → K)} (h : us.length ≤ P.stages.length) (x : Fin n → K) :
    P.cost us (x :: lqtRun P.stages x us) = .ok (lqtTotal P.final P.stages x us) := by
  unfold LQT.cost
  rw [List.getLast?_eq_some_getLast (by simp)]
  rw [lqtTotal_eq _ _ _ h]
  exact lqt_cost_loop P.stages (x :: lqtRun P.stages x us) us h (by rw [List.length_cons, lqtRun_length h]; omega) _

/-! ### The backward recursion -/

section Ordered
variable [LinearOrder K]

/-- Successful backward recursion from `(S0, v0)` over a list of stages. -/
inductive BwOk (S0 : Matrix (Fin n) (Fin n) K) (v0 : Fin n → K) : List (LStage n m K) → Matrix (Fin n) (Fin n) K →
    (Fin n → K) → BwResult n m K → Prop
  | nil : BwOk S0 v0 [] S0 v0 ⟨[], [], [S0], [v0]⟩
  | cons {s : LStage n m K} {ss : List (LStage n m K)} {S : Matrix (Fin n) (Fin n) K} {v : Fin n → K}
      {r : BwResult n m K} {Kx : Matrix (Fin m) (Fin n) K} {d : Fin m → K} (h : BwOk S0 v0 ss S v r)
      (hg : s.gains S v = .ok (Kx, d)) :
      BwOk S0 v0 (s :: ss) (s.riccati Kx S v).1 (s.riccati Kx S v).2
        ⟨Kx :: r.Kx_list, d :: r.d_list, (s.riccati Kx S v).1 :: r.S_list, (s.riccati Kx S v).2 :: r.v_list⟩

theorem bwStep_ok {st st' : BwState n m K} {s : LStage n m K} :
    bwStep st s = .ok st' ↔ ∃ Kx d, s.gains st.S st.v = .ok (Kx, d) ∧
      st' = ⟨(s.riccati Kx st.S st.v).1, (s.riccati Kx st.S st.v).2, st.Kx_list ++ [Kx], st.d_list ++ [d],
        st.S_list ++ [(s.riccati Kx st.S st.v).1], st.v_list ++ [(s.riccati Kx st.S st.v).2]⟩ := by
  unfold bwStep
  rw [bind_ok]
  constructor
  · rintro ⟨⟨Kx, d⟩, h1, h2⟩
    simp only [pure, Except.pure, Except.ok.injEq] at h2
    exact ⟨Kx, d, h1, h2.symm⟩
  · rintro ⟨Kx, d, h1, rfl⟩
    exact ⟨(Kx, d), h1, rfl⟩

theorem bwLoop_iff {S0 : Matrix (Fin n) (Fin n) K} {v0 : Fin n → K} (ss : List (LStage n m K)) {st : BwState n m K} :
    ss.reverse.foldlM bwStep ⟨S0, v0, [], [], [S0], [v0]⟩ = .ok st ↔
      BwOk S0 v0 ss st.S st.v ⟨st.Kx_list.reverse, st.d_list.reverse, st.S_list.reverse, st.v_list.reverse⟩ := by
  induction ss generalizing st with
  | nil =>
    simp only [List.reverse_nil, List.foldlM_nil, pure, Except.pure, Except.ok.injEq]
    constructor
    · rintro rfl; exact BwOk.nil
    · intro h
      obtain ⟨S, v, Ks, ds, Ss, vs⟩ := st
      simp only at h
      generalize hr : (⟨Ks.reverse, ds.reverse, Ss.reverse, vs.reverse⟩ : BwResult n m K) = r at h
      cases h
      simp only [BwResult.mk.injEq, List.reverse_eq_nil_iff, List.reverse_eq_cons_iff, List.reverse_nil, List.nil_append] at hr
      obtain ⟨rfl, rfl, rfl, rfl⟩ := hr
      rfl
  | cons s ss ih =>
    rw [List.reverse_cons, List.foldlM_append, bind_ok]
    simp only [List.foldlM_cons, List.foldlM_nil, bind_pure]
    constructor
    · rintro ⟨st1, h1, h2⟩
      obtain ⟨Kx, d, hg, rfl⟩ := bwStep_ok.1 h2
      have := BwOk.cons (ih.1 h1) hg
      simpa only [List.reverse_append, List.reverse_singleton, List.singleton_append] using this
    · intro h
      obtain ⟨S, v, Ks, ds, Ss, vs⟩ := st
      simp only at h
      generalize hr : (⟨Ks.reverse, ds.reverse, Ss.reverse, vs.reverse⟩ : BwResult n m K) = r at h
      cases h with
      | @cons _ _ S1 v1 r1 Kx d h1 hg =>
        simp only [BwResult.mk.injEq, List.reverse_eq_cons_iff] at hr
        obtain ⟨rfl, rfl, rfl, rfl⟩ := hr
        refine ⟨⟨S1, v1, r1.Kx_list.reverse, r1.d_list.reverse, r1.S_list.reverse, r1.v_list.reverse⟩, ?_, ?_⟩
        · exact ih.2 (by simpa only [List.reverse_reverse] using h1)
        · exact bwStep_ok.2 ⟨Kx, d, hg, rfl⟩

/-- Initial value function of the recursion. -/
theorem seqBackwardPass_iff {P : LQT n m K} {r : BwResult n m K} :
    P.seqBackwardPass = .ok r ↔ ∃ S v, BwOk (P.HTᵀ * P.XT * P.HT) ((P.HTᵀ * P.XT) *ᵥ P.rT) P.stages S v r := by
  unfold LQT.seqBackwardPass
  simp only
  rw [bind_ok]
  simp only [bwLoop_iff, pure, Except.pure, Except.ok.injEq]
  constructor
  · rintro ⟨st, h1, rfl⟩; exact ⟨_, _, h1⟩
  · rintro ⟨S, v, h⟩
    exact ⟨⟨S, v, r.Kx_list.reverse, r.d_list.reverse, r.S_list.reverse, r.v_list.reverse⟩,
      by simpa only [List.reverse_reverse] using h, by simp only [List.reverse_reverse]⟩

theorem BwOk.det {S0 : Matrix (Fin n) (Fin n) K} {v0 : Fin n → K} {ss : List (LStage n m K)}
    {S S' : Matrix (Fin n) (Fin n) K} {v v' : Fin n → K} {r r' : BwResult n m K} (h : BwOk S0 v0 ss S v r)
    (h' : BwOk S0 v0 ss S' v' r') : S = S' ∧ v = v' ∧ r = r' := by
  induction h generalizing S' v' r' with
  | nil => cases h'; exact ⟨rfl, rfl, rfl⟩
  | cons h hg ih =>
    cases h' with
    | cons h1 hg1 =>
      obtain ⟨rfl, rfl, rfl⟩ := ih h1
      rw [hg] at hg1
      cases hg1
      exact ⟨rfl, rfl, rfl⟩

theorem BwOk.head {S0 : Matrix (Fin n) (Fin n) K} {v0 : Fin n → K} {ss : List (LStage n m K)}
    {S : Matrix (Fin n) (Fin n) K} {v : Fin n → K} {r : BwResult n m K} (h : BwOk S0 v0 ss S v r) :
    r.S_list[0]? = some S ∧ r.v_list[0]? = some v := by
  cases h <;> exact ⟨rfl, rfl⟩

theorem BwOk.length {S0 : Matrix (Fin n) (Fin n) K} {v0 : Fin n → K} {ss : List (LStage n m K)}
    {S : Matrix (Fin n) (Fin n) K} {v : Fin n → K} {r : BwResult n m K} (h : BwOk S0 v0 ss S v r) :
    r.Kx_list.length = ss.length ∧ r.d_list.length = ss.length ∧ r.S_list.length = ss.length + 1 ∧
      r.v_list.length = ss.length + 1 := by
  induction h with
  | nil => exact ⟨rfl, rfl, rfl, rfl⟩
  | cons h hg ih => simpa using ih

/-- The recursion over the last stages gives the last parts of the result. -/
theorem BwOk.drop {S0 : Matrix (Fin n) (Fin n) K} {v0 : Fin n → K} {ss : List (LStage n m K)}
    {S : Matrix (Fin n) (Fin n) K} {v : Fin n → K} {r : BwResult n m K} (h : BwOk S0 v0 ss S v r) (k : ℕ)
    (hk : k ≤ ss.length) : ∃ S v, BwOk S0 v0 (ss.drop k) S v
      ⟨r.Kx_list.drop k, r.d_list.drop k, r.S_list.drop k, r.v_list.drop k⟩ := by
  induction h generalizing k with
  | nil => cases k with
    | zero => exact ⟨_, _, BwOk.nil⟩
    | succ k => simp at hk
  | cons h hg ih =>
    cases k with
    | zero => exact ⟨_, _, BwOk.cons h hg⟩
    | succ k => simpa only [List.drop_succ_cons] using ih k (by simpa using hk)

variable [IsStrictOrderedRing K]

theorem BwOk.symm {S0 : Matrix (Fin n) (Fin n) K} {v0 : Fin n → K} {ss : List (LStage n m K)}
    {S : Matrix (Fin n) (Fin n) K} {v : Fin n → K} {r : BwResult n m K} (h : BwOk S0 v0 ss S v r) (h0 : S0ᵀ = S0)
    (hs : ∀ s ∈ ss, s.Sym) : Sᵀ = S := by
  induction h with
  | nil => exact h0
  | cons h hg ih => exact riccati_symm (hs _ (by simp)) (ih fun s hs' => hs s (by simp [hs'])) hg

/-- Excess costs of a control sequence. -/
def excess : List (LStage n m K) → List (Matrix (Fin m) (Fin n) K) → List (Fin m → K) →
    List (Matrix (Fin n) (Fin n) K) → (Fin n → K) → List (Fin m → K) → List K
  | s :: ss, Kx :: Ks, d :: ds, S :: Ss, x, u :: us =>
    (1 / 2) * ((u + Kx *ᵥ x - d) ⬝ᵥ s.hess S *ᵥ (u + Kx *ᵥ x - d)) :: excess ss Ks ds Ss (s.next x u) us
  | _, _, _, _, _, _ => []

/-- Constant of the value function. -/
theorem BwOk.square {S0 : Matrix (Fin n) (Fin n) K} {v0 : Fin n → K} {ss : List (LStage n m K)}
    {S : Matrix (Fin n) (Fin n) K} {v : Fin n → K} {r : BwResult n m K} (h : BwOk S0 v0 ss S v r) (h0 : S0ᵀ = S0)
    (hs : ∀ s ∈ ss, s.Sym) : ∃ κ : K, ∀ x us, us.length = ss.length →
      lqtTotal (valQ S0 v0) ss x us = valQ S v x + κ + (excess ss r.Kx_list r.d_list r.S_list.tail x us).sum := by
  induction h with
  | nil =>
    refine ⟨0, fun x us hu => ?_⟩
    cases us with
    | nil => simp [lqtTotal, excess]
    | cons u us => simp at hu
  | @cons s ss S v r Kx d h hg ih =>
    obtain ⟨κ, hκ⟩ := ih fun s hs' => hs s (by simp [hs'])
    refine ⟨κ + (s.cost 0 d + valQ S v (s.next 0 d)), fun x us hu => ?_⟩
    cases us with
    | nil => simp at hu
    | cons u us =>
      have hS := h.symm h0 fun s hs' => hs s (by simp [hs'])
      have := stage_square (hs s (by simp)) hS hg x u
      have e1 : r.S_list = S :: r.S_list.tail := by
        have := h.head.1
        cases hl : r.S_list with
        | nil => simp [hl] at this
        | cons a l => simp only [hl, List.getElem?_cons_zero, Option.some.injEq] at this; simp [this]
      simp only [lqtTotal, List.tail_cons]
      rw [e1, excess, hκ _ us (by simpa using hu), List.sum_cons]
      linear_combination this

/-- The excess vanishes on the closed loop only. -/
theorem excess_sum {S0 : Matrix (Fin n) (Fin n) K} {v0 : Fin n → K} {ss : List (LStage n m K)}
    {S : Matrix (Fin n) (Fin n) K} {v : Fin n → K} {r : BwResult n m K} (h : BwOk S0 v0 ss S v r) (h0 : S0ᵀ = S0)
    (hs : ∀ s ∈ ss, s.Sym) (x : Fin n → K) (us : List (Fin m → K)) (hu : us.length = ss.length) :
    0 ≤ (excess ss r.Kx_list r.d_list r.S_list.tail x us).sum ∧
      ((excess ss r.Kx_list r.d_list r.S_list.tail x us).sum = 0 ↔
        lqtForwardLoop ss r.Kx_list r.d_list x = .ok (us, lqtRun ss x us)) := by
  induction h generalizing x us with
  | nil =>
    cases us with
    | nil => simp [excess, lqtForwardLoop, lqtRun]
    | cons u us => simp at hu
  | @cons s ss S v r Kx d h hg ih =>
    cases us with
    | nil => simp at hu
    | cons u us =>
      have hS := h.symm h0 fun s hs' => hs s (by simp [hs'])
      have e1 : r.S_list = S :: r.S_list.tail := by
        have := h.head.1
        cases hl : r.S_list with
        | nil => simp [hl] at this
        | cons a l => simp only [hl, List.getElem?_cons_zero, Option.some.injEq] at this; simp [this]
      obtain ⟨hpd, -, -⟩ := (gains_ok (hs s (by simp)) hS).1 hg
      obtain ⟨i1, i2⟩ := ih (fun s hs' => hs s (by simp [hs'])) (s.next x u) us (by simpa using hu)
      have hn := hpd.nonneg (u + Kx *ᵥ x - d)
      simp only [List.tail_cons]
      rw [e1, excess, List.sum_cons]
      refine ⟨by linarith, ?_⟩
      have hz : (1 / 2 * ((u + Kx *ᵥ x - d) ⬝ᵥ s.hess S *ᵥ (u + Kx *ᵥ x - d)) +
          (excess ss r.Kx_list r.d_list r.S_list.tail (s.next x u) us).sum = 0) ↔
          u = -Kx *ᵥ x + d ∧ (excess ss r.Kx_list r.d_list r.S_list.tail (s.next x u) us).sum = 0 := by
        constructor
        · intro he
          refine ⟨?_, by linarith⟩
          have hz : u + Kx *ᵥ x - d = 0 := by
            by_contra hne
            have := hpd _ hne
            linarith
          rw [neg_mulVec]
          linear_combination (exp := 1) hz
        · rintro ⟨rfl, he⟩
          rw [he, neg_mulVec]
          have : -(Kx *ᵥ x) + d + Kx *ᵥ x - d = 0 := by abel
          rw [this]
          simp
      rw [hz, i2]
      simp only [lqtForwardLoop, lqtRun]
      rw [bind_ok]
      constructor
      · rintro ⟨rfl, h2⟩
        refine ⟨_, h2, rfl⟩
      · rintro ⟨q, h1, h2⟩
        simp only [pure, Except.pure, Except.ok.injEq, Prod.mk.injEq, List.cons.injEq] at h2
        obtain ⟨⟨rfl, h3⟩, -, h4⟩ := h2
        refine ⟨rfl, ?_⟩
        rw [← h4, ← h3]
        exact h1

/-- The closed loop is defined and follows the dynamics. -/
theorem lqtForwardLoop_ok {ss : List (LStage n m K)} {Ks : List (Matrix (Fin m) (Fin n) K)} {ds : List (Fin m → K)}
    (h1 : Ks.length = ss.length) (h2 : ds.length = ss.length) (x : Fin n → K) :
    ∃ us, us.length = ss.length ∧ lqtForwardLoop ss Ks ds x = .ok (us, lqtRun ss x us) := by
  induction ss generalizing Ks ds x with
  | nil =>
    cases Ks with
    | nil => exact ⟨[], rfl, rfl⟩
    | cons _ _ => simp at h1
  | cons s ss ih =>
    cases Ks with
    | nil => simp at h1
    | cons Kx Ks =>
      cases ds with
      | nil => simp at h2
      | cons d ds =>
        obtain ⟨us, hl, hf⟩ := ih (Ks := Ks) (ds := ds) (by simpa using h1) (by simpa using h2)
          (s.next x (-Kx *ᵥ x + d))
        refine ⟨(-Kx *ᵥ x + d) :: us, by simp [hl], ?_⟩
        simp only [lqtForwardLoop, lqtRun]
        rw [LStage.next] at hf
        rw [hf]
        rfl

/-- The final cost as a value function. -/
theorem final_eq (P : LQT n m K) (h : P.XTᵀ = P.XT) (x : Fin n → K) :
    P.final x = valQ (P.HTᵀ * P.XT * P.HT) ((P.HTᵀ * P.XT) *ᵥ P.rT) x + halfQuad P.XT P.rT := by
  have e1 : x ⬝ᵥ (P.HTᵀ * P.XT * P.HT) *ᵥ x = (P.HT *ᵥ x) ⬝ᵥ P.XT *ᵥ (P.HT *ᵥ x) := by
    rw [← mulVec_mulVec, ← mulVec_mulVec, dot_symm, transpose_transpose, dotProduct_comm]
  have e2 : ((P.HTᵀ * P.XT) *ᵥ P.rT) ⬝ᵥ x = (P.XT *ᵥ P.rT) ⬝ᵥ (P.HT *ᵥ x) := by
    rw [← mulVec_mulVec, dotProduct_comm, dot_symm, transpose_transpose]
  have e3 : P.rT ⬝ᵥ P.XT *ᵥ (P.HT *ᵥ x) = (P.XT *ᵥ P.rT) ⬝ᵥ (P.HT *ᵥ x) := by
    rw [dot_symm, h, dotProduct_comm]
  have e4 : (P.HT *ᵥ x) ⬝ᵥ P.XT *ᵥ P.rT = (P.XT *ᵥ P.rT) ⬝ᵥ (P.HT *ᵥ x) := dotProduct_comm _ _
  unfold LQT.final halfQuad valQ
  rw [e1, e2, mulVec_sub, sub_dotProduct, dotProduct_sub, dotProduct_sub, e3, e4]
  ring

theorem lqtTotal_add {g g' : (Fin n → K) → K} {c : K} (hg : ∀ x, g x = g' x + c) (ss : List (LStage n m K))
    (x : Fin n → K) (us : List (Fin m → K)) : lqtTotal g ss x us = lqtTotal g' ss x us + c := by
  induction us generalizing ss x with
  | nil => cases ss <;> simp [lqtTotal, hg]
  | cons u us ih =>
    cases ss with
    | nil => simp [lqtTotal, hg]
    | cons s ss => simp only [lqtTotal]; rw [ih, add_assoc]

theorem term_symm (P : LQT n m K) (h : P.XTᵀ = P.XT) : (P.HTᵀ * P.XT * P.HT)ᵀ = P.HTᵀ * P.XT * P.HT := by
  simp only [transpose_mul, transpose_transpose, h, Matrix.mul_assoc]

/-- Cost of any control sequence, in terms of the backward pass. -/
theorem seq_square {P : LQT n m K} (hP : P.Sym) {r : BwResult n m K} {S : Matrix (Fin n) (Fin n) K} {v : Fin n → K}
    (h : BwOk (P.HTᵀ * P.XT * P.HT) ((P.HTᵀ * P.XT) *ᵥ P.rT) P.stages S v r) : ∃ κ : K, ∀ x us,
      us.length = P.stages.length → lqtTotal P.final P.stages x us =
        valQ S v x + κ + (excess P.stages r.Kx_list r.d_list r.S_list.tail x us).sum := by
  obtain ⟨κ, hκ⟩ := h.square (term_symm P hP.2) hP.1
  refine ⟨κ + halfQuad P.XT P.rT, fun x us hu => ?_⟩
  rw [lqtTotal_add (final_eq P hP.2), hκ x us hu]
  ring

end Ordered

end Verif
