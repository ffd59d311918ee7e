import Verif.Spec.FSC
import Verif.Proof.Argmin
import Verif.Proof.PyLemmas
import Mathlib.Algebra.Order.Monoid.Unbundled.Basic

/-! Finite-state control: sequential passes. -/

namespace Verif

variable {n m : ℕ} {K : Type} [AddCommMonoid K] [LinearOrder K] [IsOrderedAddMonoid K]

section Seq
variable [NeZero m]

/-- Cost-to-go by recursion on the remaining stages. -/
def valueFn (LT : Fin n → K) : List (FStage n m K) → Fin n → K
  | [] => LT
  | s :: ss => fun x => min1 (stageVu s (valueFn LT ss) x)

def polFn (LT : Fin n → K) (s : FStage n m K) (ss : List (FStage n m K)) : Fin n → Fin m :=
  fun x => argmin1 (stageVu s (valueFn LT ss) x)

def valList (LT : Fin n → K) : List (FStage n m K) → List (Fin n → K)
  | [] => [LT]
  | s :: ss => valueFn LT (s :: ss) :: valList LT ss

def polList (LT : Fin n → K) : List (FStage n m K) → List (Fin n → Fin m)
  | [] => []
  | s :: ss => polFn LT s ss :: polList LT ss

omit [AddCommMonoid K] [IsOrderedAddMonoid K] in
theorem seqBackward_foldl [Add K] (LT : Fin n → K) (ss : List (FStage n m K)) (r1 : (Fin n → K))
    (r2 : List (Fin n → Fin m)) (r3 : List (Fin n → K)) (s : FStage n m K) :
    (ss ++ [s]).foldl seqBackwardStep (r1, r2, r3) = seqBackwardStep (ss.foldl seqBackwardStep (r1, r2, r3)) s := by
  simp

omit [IsOrderedAddMonoid K] in
theorem seqBackwardPass_eq (M : FSC n m K) :
    M.seqBackwardPass = (polList M.LT M.stages, valList M.LT M.stages) := by
  unfold FSC.seqBackwardPass
  have key : ∀ ss : List (FStage n m K), ss.reverse.foldl seqBackwardStep (M.LT, [], [M.LT]) =
      (valueFn M.LT ss, (polList M.LT ss).reverse, (valList M.LT ss).reverse) := by
    intro ss
    induction ss with
    | nil => simp [valueFn, polList, valList]
    | cons s ss ih =>
      rw [List.reverse_cons, List.foldl_append, ih]
      simp [seqBackwardStep, valueFn, polList, valList]
      rfl
  simp [key]

omit [IsOrderedAddMonoid K] in
theorem valList_length (LT : Fin n → K) (ss : List (FStage n m K)) : (valList LT ss).length = ss.length + 1 := by
  induction ss with
  | nil => rfl
  | cons s ss ih => simp [valList, ih]

omit [IsOrderedAddMonoid K] in
theorem polList_length (LT : Fin n → K) (ss : List (FStage n m K)) : (polList LT ss).length = ss.length := by
  induction ss with
  | nil => rfl
  | cons s ss ih => simp [polList, ih]

omit [IsOrderedAddMonoid K] in
theorem valList_get (LT : Fin n → K) (ss : List (FStage n m K)) {k : ℕ} (hk : k ≤ ss.length) :
    (valList LT ss)[k]? = some (valueFn LT (ss.drop k)) := by
  induction ss generalizing k with
  | nil => obtain rfl : k = 0 := by simpa using hk
           rfl
  | cons s ss ih =>
    cases k with
    | zero => rfl
    | succ k => simpa [valList] using ih (by simpa using hk)

omit [IsOrderedAddMonoid K] in
theorem polList_get (LT : Fin n → K) (ss : List (FStage n m K)) {k : ℕ} (hk : k < ss.length) :
    (polList LT ss)[k]? = some (polFn LT ss[k] (ss.drop (k + 1))) := by
  induction ss generalizing k with
  | nil => simp at hk
  | cons s ss ih =>
    cases k with
    | zero => rfl
    | succ k => simpa [polList] using ih (by simpa using hk)

theorem valueFn_le (LT : Fin n → K) (ss : List (FStage n m K)) (x : Fin n) (us : List (Fin m))
    (h : us.length = ss.length) : valueFn LT ss x ≤ totalCost LT ss x us := by
  induction ss generalizing x us with
  | nil => cases us with
    | nil => simp [valueFn, totalCost]
    | cons => simp at h
  | cons s ss ih =>
    cases us with
    | nil => simp at h
    | cons u us =>
      simp only [valueFn, totalCost]
      refine (min1_le _ u).trans ?_
      unfold stageVu
      exact add_le_add le_rfl (ih (s.f x u) us (by simpa using h))

/-- Controls of the greedy policy. -/
def greedy (LT : Fin n → K) : List (FStage n m K) → Fin n → List (Fin m)
  | [], _ => []
  | s :: ss, x => polFn LT s ss x :: greedy LT ss (s.f x (polFn LT s ss x))

omit [IsOrderedAddMonoid K] in
theorem greedy_length (LT : Fin n → K) (ss : List (FStage n m K)) (x : Fin n) :
    (greedy LT ss x).length = ss.length := by
  induction ss generalizing x with
  | nil => rfl
  | cons s ss ih => simp [greedy, ih]

omit [IsOrderedAddMonoid K] in
theorem polFn_val (LT : Fin n → K) (s : FStage n m K) (ss : List (FStage n m K)) (x : Fin n) :
    s.L x (polFn LT s ss x) + valueFn LT ss (s.f x (polFn LT s ss x)) = valueFn LT (s :: ss) x :=
  argmin1_val (stageVu s (valueFn LT ss) x)

omit [IsOrderedAddMonoid K] in
theorem greedy_cost (LT : Fin n → K) (ss : List (FStage n m K)) (x : Fin n) :
    totalCost LT ss x (greedy LT ss x) = valueFn LT ss x := by
  induction ss generalizing x with
  | nil => rfl
  | cons s ss ih => simp only [greedy, totalCost]; rw [ih]; exact polFn_val LT s ss x

theorem valueFn_isLeast (LT : Fin n → K) (ss : List (FStage n m K)) (x : Fin n) :
    IsLeast (costSet LT ss x) (valueFn LT ss x) := by
  refine ⟨⟨greedy LT ss x, greedy_length LT ss x, greedy_cost LT ss x⟩, ?_⟩
  rintro _ ⟨us, hus, rfl⟩
  exact valueFn_le LT ss x us hus

theorem polFn_isLeast (LT : Fin n → K) (s : FStage n m K) (ss : List (FStage n m K)) (x : Fin n) :
    IsLeast {u | ∃ us : List (Fin m), us.length = ss.length ∧
      totalCost LT (s :: ss) x (u :: us) = valueFn LT (s :: ss) x} (polFn LT s ss x) := by
  refine ⟨⟨greedy LT ss _, greedy_length LT ss _, greedy_cost LT (s :: ss) x⟩, ?_⟩
  rintro u ⟨us, hus, h⟩
  apply (argmin1_isLeast (stageVu s (valueFn LT ss) x)).2
  refine le_antisymm ?_ (min1_le _ u)
  change _ ≤ valueFn LT (s :: ss) x
  rw [← h]
  simp only [totalCost, stageVu]
  exact add_le_add le_rfl (valueFn_le LT ss _ us hus)

theorem isOptimal_iff (LT : Fin n → K) (ss : List (FStage n m K)) (x : Fin n) (us : List (Fin m))
    (hl : us.length = ss.length) : IsOptimal LT ss x us ↔ totalCost LT ss x us = valueFn LT ss x := by
  constructor
  · intro h
    refine le_antisymm ?_ (valueFn_le LT ss x us hl)
    rw [← greedy_cost]
    exact h.2 _ (greedy_length LT ss x)
  · intro h
    exact ⟨hl, fun us' h' => h ▸ valueFn_le LT ss x us' h'⟩

end Seq

/-! ### Forward passes -/

/-- Controls when the policies are followed. -/
def rollout : List (FStage n m K) → List (Fin n → Fin m) → Fin n → List (Fin m)
  | s :: ss, p :: ps, x => p x :: rollout ss ps (s.f x (p x))
  | _, _, _ => []

/-- All states visited. -/
def statesOf (ss : List (FStage n m K)) (x : Fin n) (us : List (Fin m)) : List (Fin n) :=
  (List.range (us.length + 1)).map (stateAt ss x us)

omit [AddCommMonoid K] [LinearOrder K] [IsOrderedAddMonoid K] in
theorem stateAt_zero (ss : List (FStage n m K)) (x : Fin n) (us : List (Fin m)) : stateAt ss x us 0 = x := by
  cases ss <;> cases us <;> rfl

omit [AddCommMonoid K] [LinearOrder K] [IsOrderedAddMonoid K] in
theorem statesOf_cons (s : FStage n m K) (ss : List (FStage n m K)) (x : Fin n) (u : Fin m) (us : List (Fin m)) :
    statesOf (s :: ss) x (u :: us) = x :: statesOf ss (s.f x u) us := by
  unfold statesOf
  rw [List.length_cons, List.range_succ_eq_map (n := us.length + 1)]
  simp [stateAt, Function.comp_def]

omit [AddCommMonoid K] [LinearOrder K] [IsOrderedAddMonoid K] in
theorem statesOf_nil (ss : List (FStage n m K)) (x : Fin n) : statesOf ss x [] = [x] := by
  cases ss <;> simp [statesOf, stateAt]

omit [AddCommMonoid K] [LinearOrder K] [IsOrderedAddMonoid K] in
theorem rollout_length (ss : List (FStage n m K)) (ps : List (Fin n → Fin m)) (x : Fin n)
    (h : ps.length ≤ ss.length) : (rollout ss ps x).length = ps.length := by
  induction ss generalizing ps x with
  | nil => cases ps with
    | nil => rfl
    | cons => simp at h
  | cons s ss ih =>
    cases ps with
    | nil => rfl
    | cons p ps => simp [rollout, ih ps _ (by simpa using h)]

omit [AddCommMonoid K] [LinearOrder K] [IsOrderedAddMonoid K] in
theorem seqForwardPass_eq (M : FSC n m K) (x0 : Fin n) (ps : List (Fin n → Fin m))
    (h : ps.length ≤ M.stages.length) :
    M.seqForwardPass x0 ps = .ok (rollout M.stages ps x0, statesOf M.stages x0 (rollout M.stages ps x0)) := by
  have key : ∀ (ss : List (FStage n m K)) (ps : List (Fin n → Fin m)) (x : Fin n), ps.length ≤ ss.length →
      ∃ xs, seqForwardLoop ss ps x = .ok (rollout ss ps x, xs) ∧
        x :: xs = statesOf ss x (rollout ss ps x) := by
    intro ss
    induction ss with
    | nil => intro ps x h; cases ps with
      | nil => exact ⟨[], rfl, by simp [rollout, statesOf, stateAt]⟩
      | cons => simp at h
    | cons s ss ih =>
      intro ps x h
      cases ps with
      | nil => exact ⟨[], rfl, by simp [rollout, statesOf, stateAt]⟩
      | cons p ps =>
        obtain ⟨xs, h1, h2⟩ := ih ps (s.f x (p x)) (by simpa using h)
        refine ⟨s.f x (p x) :: xs, ?_, ?_⟩
        · simp [seqForwardLoop, h1, bind, Except.bind, pure, Except.pure, rollout]
        · rw [rollout, statesOf_cons, ← h2]
  obtain ⟨xs, h1, h2⟩ := key M.stages ps x0 h
  simp [FSC.seqForwardPass, h1, bind, Except.bind, pure, Except.pure, h2]

omit [AddCommMonoid K] [LinearOrder K] [IsOrderedAddMonoid K] in
theorem seqForwardPass_long (M : FSC n m K) (x0 : Fin n) (ps : List (Fin n → Fin m))
    (h : M.stages.length < ps.length) : M.seqForwardPass x0 ps = .error .indexError := by
  have key : ∀ (ss : List (FStage n m K)) (ps : List (Fin n → Fin m)) (x : Fin n), ss.length < ps.length →
      seqForwardLoop ss ps x = .error .indexError := by
    intro ss
    induction ss with
    | nil => intro ps x h; cases ps with
      | nil => simp at h
      | cons => rfl
    | cons s ss ih =>
      intro ps x h
      cases ps with
      | nil => simp at h
      | cons p ps => simp [seqForwardLoop, ih ps _ (by simpa using h), bind, Except.bind]
  simp [FSC.seqForwardPass, key _ _ _ h, bind, Except.bind]

omit [AddCommMonoid K] [LinearOrder K] [IsOrderedAddMonoid K] in
theorem seqSimulation_eq (M : FSC n m K) (x0 : Fin n) (us : List (Fin m))
    (h : us.length ≤ M.stages.length) : M.seqSimulation x0 us = .ok (statesOf M.stages x0 us) := by
  have key : ∀ (ss : List (FStage n m K)) (us : List (Fin m)) (x : Fin n), us.length ≤ ss.length →
      ∃ xs, seqSimulationLoop ss us x = .ok xs ∧ x :: xs = statesOf ss x us := by
    intro ss
    induction ss with
    | nil => intro us x h; cases us with
      | nil => exact ⟨[], rfl, by simp [statesOf, stateAt]⟩
      | cons => simp at h
    | cons s ss ih =>
      intro us x h
      cases us with
      | nil => exact ⟨[], rfl, by simp [statesOf, stateAt]⟩
      | cons u us =>
        obtain ⟨xs, h1, h2⟩ := ih us (s.f x u) (by simpa using h)
        refine ⟨s.f x u :: xs, ?_, ?_⟩
        · simp [seqSimulationLoop, h1, bind, Except.bind, pure, Except.pure]
        · rw [statesOf_cons, ← h2]
  obtain ⟨xs, h1, h2⟩ := key M.stages us x0 h
  simp [FSC.seqSimulation, h1, bind, Except.bind, pure, Except.pure, h2]

theorem foldlM_pure {α β : Type*} {f : β → α → Py β} {g : β → α → β} (l : List α) (b : β)
    (h : ∀ b, ∀ a ∈ l, f b a = .ok (g b a)) : l.foldlM f b = .ok (l.foldl g b) := by
  induction l generalizing b with
  | nil => rfl
  | cons a l ih =>
    rw [List.foldlM_cons, h b a (by simp)]
    simp only [bind, Except.bind, List.foldl_cons]
    exact ih _ (fun b a ha => h b a (by simp [ha]))

omit [LinearOrder K] [IsOrderedAddMonoid K] in
theorem cost_loop (ss : List (FStage n m K)) (us : List (Fin m)) (hl : us.length ≤ ss.length) :
    ∀ (x : Fin n) (c : K) (xs : List (Fin n)), (∀ k < us.length, xs[k]? = some (stateAt ss x us k)) →
    (List.range us.length).foldlM (fun res k => do
      let s ← pyGet ss k
      let x ← pyGet xs k
      let u ← pyGet us k
      return res + s.L x u) c =
    .ok (totalCost (fun _ => c) ss x us) := by
  induction us generalizing ss with
  | nil => intro x c xs _; cases ss <;> rfl
  | cons u us ih =>
    cases ss with
    | nil => simp at hl
    | cons s ss =>
      intro x c xs hx
      have h0 : xs[0]? = some x := by simpa [stateAt] using hx 0 (by simp)
      rw [List.length_cons, List.range_succ_eq_map, List.foldlM_cons]
      rw [pyGet_ok.2 h0]
      simp only [List.foldlM_map, bind, Except.bind, pure, Except.pure]
      obtain ⟨xs, rfl⟩ : ∃ xs', xs = x :: xs' := by
        cases xs with
        | nil => simp at h0
        | cons y ys => simp at h0; exact ⟨ys, by rw [h0]⟩
      have := ih ss (by simpa using hl) (s.f x u) (c + s.L x u) xs (fun k hk => by
        simpa [stateAt] using hx (k + 1) (by simpa using hk))
      simp only [bind, Except.bind, pure, Except.pure] at this
      have e1 : ∀ k, pyGet (s :: ss) (k + 1) = pyGet ss k := fun k => rfl
      have e2 : ∀ k, pyGet (x :: xs) (k + 1) = pyGet xs k := fun k => rfl
      have e3 : ∀ k, pyGet (u :: us) (k + 1) = pyGet us k := fun k => rfl
      simp only [e1, e2, e3, Nat.succ_eq_add_one]
      rw [show pyGet (s :: ss) 0 = .ok s from rfl, show pyGet (u :: us) 0 = .ok u from rfl]
      simp only
      rw [this]
      simp only [totalCost, Except.ok.injEq]
      clear this ih hx h0 e1 e2 e3
      have gen : ∀ (ss : List (FStage n m K)) (x : Fin n) (us : List (Fin m)) (a b : K),
          totalCost (fun _ => a + b) ss x us = b + totalCost (fun _ => a) ss x us := by
        intro ss
        induction ss with
        | nil => intro x us a b; simp [totalCost, add_comm]
        | cons s ss ih =>
          intro x us a b
          cases us with
          | nil => simp [totalCost, add_comm]
          | cons u us => simp only [totalCost]; rw [ih]; exact add_left_comm _ _ _
      exact gen _ _ _ _ _

omit [AddCommMonoid K] [LinearOrder K] [IsOrderedAddMonoid K] in
theorem statesOf_get (ss : List (FStage n m K)) (x : Fin n) (us : List (Fin m)) {k : ℕ} (hk : k ≤ us.length) :
    (statesOf ss x us)[k]? = some (stateAt ss x us k) := by
  unfold statesOf
  rw [List.getElem?_map, List.getElem?_range (by omega)]
  rfl

omit [AddCommMonoid K] [LinearOrder K] [IsOrderedAddMonoid K] in
theorem statesOf_length (ss : List (FStage n m K)) (x : Fin n) (us : List (Fin m)) :
    (statesOf ss x us).length = us.length + 1 := by simp [statesOf]

omit [LinearOrder K] [IsOrderedAddMonoid K] in
theorem totalCost_const (LT : Fin n → K) (ss : List (FStage n m K)) (x : Fin n) (us : List (Fin m))
    (h : us.length = ss.length) :
    totalCost (fun _ => LT (stateAt ss x us us.length)) ss x us = totalCost LT ss x us := by
  induction ss generalizing x us with
  | nil => cases us with
    | nil => rfl
    | cons => simp at h
  | cons s ss ih =>
    cases us with
    | nil => simp at h
    | cons u us =>
      simp only [totalCost, List.length_cons, stateAt]
      rw [ih _ _ (by simpa using h)]

omit [LinearOrder K] [IsOrderedAddMonoid K] in
/-- `cost` on the states visited by the controls is the total cost. -/
theorem cost_eq (M : FSC n m K) (x0 : Fin n) (us : List (Fin m)) (h : us.length = M.stages.length) :
    M.cost (statesOf M.stages x0 us) us = .ok (totalCost M.LT M.stages x0 us) := by
  have hlast : (statesOf M.stages x0 us).getLast? = some (stateAt M.stages x0 us us.length) := by
    rw [List.getLast?_eq_getElem?, statesOf_length]
    exact statesOf_get _ _ _ le_rfl
  unfold FSC.cost
  rw [hlast]
  simp only
  refine (cost_loop M.stages us h.le x0 _ _ (fun k hk => statesOf_get _ _ _ hk.le)).trans ?_
  rw [totalCost_const M.LT M.stages x0 us h]

omit [IsOrderedAddMonoid K] in
theorem rollout_greedy [NeZero m] (LT : Fin n → K) (ss : List (FStage n m K)) (x : Fin n) :
    rollout ss (polList LT ss) x = greedy LT ss x := by
  induction ss generalizing x with
  | nil => rfl
  | cons s ss ih => simp [rollout, polList, greedy, ih]

end Verif
