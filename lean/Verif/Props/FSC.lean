import Verif.Proof.FSCBound
import Verif.Proof.FSCBatch
import Mathlib.Algebra.Order.Ring.Int

/-!
# C05–C11: finite-state optimal control (`fsc_np.py`)
-/

namespace Verif

variable {n m : ℕ} {K : Type}

section Examples

/-- A three-state, two-control model with three time-varying stages, used in the examples. -/
def exFSC : FSC 3 2 ℤ where
  stages :=
    [⟨fun x u => if u = 0 then x else x + 1, fun x u => if u = 0 then 2 else (x.val : ℤ)⟩,
     ⟨fun x u => if u = 0 then x + 2 else 0, fun x u => 3 - (x.val : ℤ) * u.val⟩,
     ⟨fun x u => if u = 0 then 1 else x, fun x u => (u.val : ℤ) + x.val⟩]
  LT := fun x => 4 - 3 * x.val

/-- A model with two optimal trajectories whose states interleave. -/
def tieFSC : FSC 3 2 ℤ where
  stages :=
    [⟨fun _ u => if u = 0 then 1 else 2, fun _ _ => 0⟩,
     ⟨fun x _ => if x = 1 then 2 else if x = 2 then 1 else 0, fun _ _ => 0⟩]
  LT := fun _ => 0

/-- A model whose terminal costs exceed the sentinel. -/
def bigFSC : FSC 2 1 ℤ where
  stages := [⟨fun x _ => x, fun _ _ => 0⟩]
  LT := fun x => if x = 0 then 0 else 3 * 10 ^ 20

end Examples

section Ordered
variable [AddCommMonoid K] [LinearOrder K]

/-! ## C05 -/

section
variable [IsOrderedAddMonoid K]

/-- **C05** (values): `seqBackwardPass` returns `T+1` value functions, the `k`-th being the least total
cost over all control sequences from step `k` on. -/
theorem C05_seqBackward_value [NeZero m] (M : FSC n m K) :
    M.seqBackwardPass.2.length = M.stages.length + 1 ∧
    ∀ k ≤ M.stages.length, ∃ V, M.seqBackwardPass.2[k]? = some V ∧
      ∀ x, IsLeast (costSet M.LT (M.stages.drop k) x) (V x) := by
  rw [seqBackwardPass_eq]
  refine ⟨valList_length _ _, fun k hk => ⟨_, valList_get _ _ hk, fun x => valueFn_isLeast _ _ x⟩⟩

/-- **C05** (policy): `seqBackwardPass` returns `T` policies; `u_list[k][x]` is the smallest-index control
starting some control sequence that attains the least cost `V_list[k][x]`. -/
theorem C05_seqBackward_policy [NeZero m] (M : FSC n m K) :
    M.seqBackwardPass.1.length = M.stages.length ∧
    ∀ k < M.stages.length, ∃ p V, M.seqBackwardPass.1[k]? = some p ∧ M.seqBackwardPass.2[k]? = some V ∧
      ∀ x, IsLeast {u | ∃ us : List (Fin m), us.length + 1 = M.stages.length - k ∧
        totalCost M.LT (M.stages.drop k) x (u :: us) = V x} (p x) := by
  rw [seqBackwardPass_eq]
  refine ⟨polList_length _ _, fun k hk => ⟨_, _, polList_get _ _ hk, valList_get _ _ hk.le, fun x => ?_⟩⟩
  have := polFn_isLeast M.LT M.stages[k] (M.stages.drop (k + 1)) x
  rw [← List.drop_eq_getElem_cons hk, List.length_drop] at this
  have e : ∀ us : List (Fin m), us.length + 1 = M.stages.length - k ↔ us.length = M.stages.length - (k + 1) := by
    intro us; omega
  simpa only [e] using this

example : exFSC.seqBackwardPass.2.map (fun V => List.ofFn V) = [[3, 3, 4], [4, 3, 2], [1, 2, 1], [4, 1, -2]] := by
  decide

example : exFSC.seqBackwardPass.1.map (fun V => List.ofFn V) = [[1, 1, 0], [0, 1, 1], [0, 0, 1]] := by
  decide

/-! ## C06 -/

omit [AddCommMonoid K] [LinearOrder K] [IsOrderedAddMonoid K] in
theorem stateAt_succ (ss : List (FStage n m K)) (x : Fin n) (us : List (Fin m)) (k : ℕ) (hk : k < ss.length)
    (hk' : k < us.length) : stateAt ss x us (k + 1) = ss[k].f (stateAt ss x us k) us[k] := by
  induction ss generalizing x us k with
  | nil => simp at hk
  | cons s ss ih =>
    cases us with
    | nil => simp at hk'
    | cons u us =>
      cases k with
      | zero => simp [stateAt, stateAt_zero]
      | succ k => simpa [stateAt] using ih (s.f x u) us k (by simpa using hk) (by simpa using hk')

/-- **C06**: with the policy of `seqBackwardPass`, `seqForwardPass` returns `T` controls and `T+1` states
forming a trajectory from `x0`; `seqSimulation` on the controls reproduces the states; `cost` of them is
`V_list[0][x0]`; and the controls are optimal. -/
theorem C06_seqForward_optimal [NeZero m] (M : FSC n m K) (x0 : Fin n) :
    ∃ us xs V0, M.seqForwardPass x0 M.seqBackwardPass.1 = .ok (us, xs) ∧
      us.length = M.stages.length ∧ xs.length = M.stages.length + 1 ∧ xs[0]? = some x0 ∧
      (∀ k (hk : k < M.stages.length), ∃ x u, xs[k]? = some x ∧ us[k]? = some u ∧
        xs[k + 1]? = some (M.stages[k].f x u)) ∧
      M.seqSimulation x0 us = .ok xs ∧
      M.seqBackwardPass.2[0]? = some V0 ∧ M.cost xs us = .ok (V0 x0) ∧
      IsOptimal M.LT M.stages x0 us ∧ totalCost M.LT M.stages x0 us = V0 x0 := by
  rw [seqBackwardPass_eq]
  have h1 := seqForwardPass_eq M x0 (polList M.LT M.stages) (polList_length _ _).le
  rw [rollout_greedy] at h1
  have hl := greedy_length M.LT M.stages x0
  have hc := greedy_cost M.LT M.stages x0
  refine ⟨_, _, _, h1, hl, by rw [statesOf_length, hl], ?_, ?_, seqSimulation_eq M x0 _ hl.le,
    valList_get M.LT M.stages (Nat.zero_le _), ?_, (isOptimal_iff _ _ _ _ hl).2 hc, ?_⟩
  · rw [statesOf_get _ _ _ (Nat.zero_le _), stateAt_zero]
  · intro k hk
    refine ⟨_, _, statesOf_get _ _ _ (by omega), List.getElem?_eq_getElem (by omega), ?_⟩
    rw [statesOf_get _ _ _ (by omega), stateAt_succ _ _ _ _ hk (by omega)]
  · rw [cost_eq M x0 _ hl, hc]; rfl
  · exact hc

/-- **C06** (simulation and cost of any control sequence): `seqSimulation` of `T` controls succeeds and
`cost` of the simulated states is at least `V_list[0][x0]`. -/
theorem C06_no_better [NeZero m] (M : FSC n m K) (x0 : Fin n) (us : List (Fin m)) (h : us.length = M.stages.length) :
    ∃ xs c V0, M.seqSimulation x0 us = .ok xs ∧ M.cost xs us = .ok c ∧ c = totalCost M.LT M.stages x0 us ∧
      M.seqBackwardPass.2[0]? = some V0 ∧ V0 x0 ≤ c := by
  rw [seqBackwardPass_eq]
  exact ⟨_, _, _, seqSimulation_eq M x0 us h.le, cost_eq M x0 us h, rfl,
    valList_get M.LT M.stages (Nat.zero_le _), valueFn_le _ _ _ _ h⟩

example : exFSC.seqForwardPass 0 exFSC.seqBackwardPass.1 = .ok ([1, 1, 0], [0, 1, 0, 1]) := by decide
example : exFSC.cost [0, 1, 0, 1] [1, 1, 0] = .ok 3 := by decide

end

/-! ## C11 -/

/-- **C11**: `combine_V(Vij,Vjk)[i,k]` is the least `Vij[i,j]+Vjk[j,k]`. -/
theorem C11_combineV_least [NeZero n] (A B : Fin n → Fin n → K) (i k : Fin n) :
    IsLeast {c | ∃ j, c = A i j + B j k} (combineV A B i k) := by
  have := min1_isLeast (fun j => A i j + B j k)
  unfold combineV
  constructor
  · obtain ⟨j, hj⟩ := this.1; exact ⟨j, hj.symm⟩
  · rintro _ ⟨j, rfl⟩; exact this.2 ⟨j, rfl⟩

/-- **C11**: `combine_V` is associative. -/
theorem C11_combineV_assoc [IsOrderedAddMonoid K] [NeZero n] (A B C : Fin n → Fin n → K) :
    combineV (combineV A B) C = combineV A (combineV B C) := combineV_assoc A B C

omit [AddCommMonoid K] [LinearOrder K] in
/-- **C11**: `combine_f` applies first `fij`, then `fjk`, and is associative. -/
theorem C11_combineF (f g h : Fin n → Fin n) :
    (∀ i, combineF f g i = g (f i)) ∧ combineF (combineF f g) h = combineF f (combineF g h) :=
  ⟨fun _ => rfl, rfl⟩

example : combineV (combineV (fun i j => (i.val : ℤ) - 2 * j.val) (fun i j => (i.val : ℤ) * j.val) : Fin 3 → Fin 3 → ℤ)
    (fun i j => if i = j then 0 else 5) 1 2 = 1 := by decide
example : combineF (fun i : Fin 3 => i + 1) (fun i => if i = 0 then 2 else i) 2 = 2 := by decide

/-! ## C07 -/

section
variable [IsOrderedAddMonoid K]

/-- **C07**: for `T ≥ 1` the parallel backward pass returns exactly the sequential lists if and only if no
cost-to-go exceeds the sentinel plus a cost-to-go one step later. -/
theorem C07_par_eq_seq_iff [NeZero n] [NeZero m] (inf : K) (M : FSC n m K) (hT : M.stages ≠ []) :
    M.parBackwardPass inf = .ok M.seqBackwardPass ↔
    ∀ k V V', M.seqBackwardPass.2[k]? = some V → M.seqBackwardPass.2[k + 1]? = some V' →
      ∀ x y, V x ≤ inf + V' y := by
  rw [seqBackwardPass_eq]
  obtain ⟨us, Vs, hp, hul, hvl, hu, hv⟩ := parBackwardPass_eq inf M hT
  rw [hp]
  have hR : (∀ k V V', (valList M.LT M.stages)[k]? = some V → (valList M.LT M.stages)[k + 1]? = some V' →
      ∀ x y, V x ≤ inf + V' y) ↔ ∀ k < M.stages.length, ∀ x y, valueFn M.LT (M.stages.drop k) x ≤
        inf + valueFn M.LT (M.stages.drop (k + 1)) y := by
    constructor
    · intro h k hk
      exact h k _ _ (valList_get _ _ hk.le) (valList_get _ _ hk)
    · intro h k V V' h1 h2
      have hk : k < M.stages.length := by
        by_contra hc
        rw [List.getElem?_eq_none (by rw [valList_length]; omega)] at h2
        exact absurd h2 (by simp)
      rw [valList_get _ _ hk.le] at h1
      rw [valList_get _ _ hk] at h2
      cases h1; cases h2
      exact h k hk
  dsimp only
  rw [hR, ← parVal_eq_iff]
  constructor
  · intro h k hk
    have h' : us = polList M.LT M.stages ∧ Vs = valList M.LT M.stages := by simpa using h
    have := hv k hk
    rw [h'.2, valList_get _ _ hk] at this
    exact (Option.some.inj this).symm
  · intro h
    have h1 : Vs = valList M.LT M.stages := by
      apply List.ext_getElem?
      intro k
      by_cases hk : k ≤ M.stages.length
      · rw [hv k hk, valList_get _ _ hk, h k hk]
      · rw [List.getElem?_eq_none (by omega), List.getElem?_eq_none (by rw [valList_length]; omega)]
    have h2 : us = polList M.LT M.stages := by
      apply List.ext_getElem?
      intro k
      by_cases hk : k < M.stages.length
      · rw [hu k hk, polList_get _ _ hk, h (k + 1) hk]; rfl
      · rw [List.getElem?_eq_none (by omega), List.getElem?_eq_none (by rw [polList_length]; omega)]
    rw [h1, h2]

/-- **C07** (empty horizon): the parallel pass raises `IndexError` where the sequential one returns
`([], [LT])`. -/
theorem C07_empty [NeZero n] [NeZero m] (inf : K) (LT : Fin n → K) :
    (FSC.mk [] LT : FSC n m K).parBackwardPass inf = .error .indexError ∧
    (FSC.mk [] LT : FSC n m K).seqBackwardPass = ([], [LT]) := ⟨rfl, rfl⟩

end

end Ordered

/-- **C07** (bounded costs): all costs bounded by `B` with `(2T+1)B ≤ inf` is enough. -/
theorem C07_par_eq_seq_bounded [AddCommGroup K] [LinearOrder K] [IsOrderedAddMonoid K] [NeZero n] [NeZero m]
    (inf B : K) (M : FSC n m K) (hT : M.stages ≠ [])
    (hLT : ∀ x, |M.LT x| ≤ B) (hL : ∀ s ∈ M.stages, ∀ x u, |s.L x u| ≤ B)
    (hB : (2 * M.stages.length + 1) • B ≤ inf) :
    M.parBackwardPass inf = .ok M.seqBackwardPass := by
  rw [C07_par_eq_seq_iff inf M hT, seqBackwardPass_eq]
  intro k V V' h1 h2 x y
  have hk : k < M.stages.length := by
    by_contra hc
    rw [List.getElem?_eq_none (by rw [valList_length]; omega)] at h2
    exact absurd h2 (by simp)
  rw [valList_get _ _ hk.le] at h1
  rw [valList_get _ _ hk] at h2
  cases h1; cases h2
  refine (valueFn_diff_bound B M.LT M.stages hLT hL k (k + 1) x y).trans ?_
  refine add_le_add ?_ le_rfl
  exact (nsmul_le_of_le ((abs_nonneg _).trans (hLT x)) (by omega)).trans hB

example : exFSC.parBackwardPass (10 ^ 20) = .ok exFSC.seqBackwardPass :=
  C07_par_eq_seq_bounded (10 ^ 20) 5 exFSC (by simp [exFSC]) (by decide) (by decide) (by decide)

/-- **C07** (the bound is needed): with the code's sentinel `1e20` a model with one terminal cost `3·10^20`
gets different value functions from the two passes. -/
theorem C07_sentinel_jump :
    ∃ M : FSC 2 1 ℤ, M.stages ≠ [] ∧ M.parBackwardPass (10 ^ 20) ≠ .ok M.seqBackwardPass := by
  refine ⟨bigFSC, by simp [bigFSC], ?_⟩
  rw [Ne, C07_par_eq_seq_iff _ _ (by simp [bigFSC])]
  intro h
  have := h 0 (fun x => if x = 0 then 0 else 3 * 10 ^ 20) (fun x => if x = 0 then 0 else 3 * 10 ^ 20)
    (by decide) (by decide) 1 0
  revert this
  decide

/-! ## C08 -/

/-- **C08**: for `T ≥ 1` and any policy list of length `T`, the parallel forward pass returns exactly what
the sequential one returns. -/
theorem C08_parForward_eq_seq [NeZero n] (M : FSC n m K) (x0 : Fin n) (ps : List (Fin n → Fin m))
    (hT : M.stages ≠ []) (hl : ps.length = M.stages.length) :
    M.parForwardPass x0 ps = M.seqForwardPass x0 ps := parForwardPass_eq M x0 ps hT hl

/-- **C08** (meaning): that common result is the closed loop `u_k = ps[k][x_k]`, `x_{k+1} = f[k][x_k,u_k]`. -/
theorem C08_parForward_closed_loop [NeZero n] (M : FSC n m K) (x0 : Fin n) (ps : List (Fin n → Fin m))
    (hT : M.stages ≠ []) (hl : ps.length = M.stages.length) :
    ∃ us xs, M.parForwardPass x0 ps = .ok (us, xs) ∧ us.length = M.stages.length ∧
      xs.length = M.stages.length + 1 ∧ xs[0]? = some x0 ∧
      ∀ k (hk : k < M.stages.length), ∃ x, xs[k]? = some x ∧ us[k]? = some (ps[k] x) ∧
        xs[k + 1]? = some (M.stages[k].f x (ps[k] x)) := by
  rw [parForwardPass_eq M x0 ps hT hl, seqForwardPass_eq M x0 ps hl.le]
  have hrl := rollout_length M.stages ps x0 hl.le
  have hst : ∀ (ss : List (FStage n m K)) (ps : List (Fin n → Fin m)) (x : Fin n) (k : ℕ) (hk : k < ps.length),
      ps.length = ss.length → (rollout ss ps x)[k]? = some (ps[k] (stateAt ss x (rollout ss ps x) k)) := by
    intro ss
    induction ss with
    | nil => intro ps x k hk h; simp at h; subst h; simp at hk
    | cons s ss ih =>
      intro ps x k hk h
      cases ps with
      | nil => simp at hk
      | cons p ps =>
        cases k with
        | zero => simp [rollout, stateAt]
        | succ k => simpa [rollout, stateAt] using ih ps (s.f x (p x)) k (by simpa using hk) (by simpa using h)
  refine ⟨_, _, rfl, by omega, by rw [statesOf_length]; omega, ?_, ?_⟩
  · rw [statesOf_get _ _ _ (Nat.zero_le _), stateAt_zero]
  · intro k hk
    have h1 := hst M.stages ps x0 k (by omega) hl
    refine ⟨_, statesOf_get _ _ _ (by omega), h1, ?_⟩
    rw [statesOf_get _ _ _ (by omega), stateAt_succ _ _ _ _ hk (by omega)]
    have h2 : (rollout M.stages ps x0)[k]'(by omega) = ps[k] (stateAt M.stages x0 (rollout M.stages ps x0) k) := by
      rw [List.getElem?_eq_getElem (by omega)] at h1
      exact Option.some.inj h1
    rw [h2]

example : exFSC.parForwardPass 2 [fun x => if x = 2 then 1 else 0, fun _ => 0, fun x => if x = 2 then 1 else 0]
    = .ok ([1, 0, 1], [2, 0, 2, 2]) := by decide

/-- **C08** (list lengths matter): with one policy table too many the parallel pass returns an extra
control where the sequential one raises `IndexError`; with `T = 0` the parallel pass raises. -/
theorem C08_wrong_lengths :
    (∃ (M : FSC 1 1 ℤ) (ps : List (Fin 1 → Fin 1)), M.stages ≠ [] ∧ M.parForwardPass 0 ps = .ok ([0, 0], [0, 0]) ∧
      M.seqForwardPass 0 ps = .error .indexError) ∧
    (∃ (M : FSC 1 1 ℤ), M.parForwardPass 0 [] = .error .indexError ∧ M.seqForwardPass 0 [] = .ok ([], [0])) :=
  ⟨⟨⟨[⟨fun _ _ => 0, fun _ _ => 0⟩], fun _ => 0⟩, [fun _ => 0, fun _ => 0], by decide⟩,
    ⟨⟨[], fun _ => 0⟩, by decide⟩⟩

/-! ## C09 -/

section C09
variable [AddCommMonoid K] [LinearOrder K] [IsOrderedCancelAddMonoid K] [NeZero n] [NeZero m]

/-- The strict form of the sentinel condition: no illegal jump of cost `inf` is ever competitive. -/
def BelowSentinel (inf : K) (M : FSC n m K) (x0 : Fin n) : Prop :=
  (∀ k V V', M.seqBackwardPass.2[k]? = some V → M.seqBackwardPass.2[k + 1]? = some V' →
      ∀ x y, V x < inf + V' y) ∧
  ∀ V, M.seqBackwardPass.2[0]? = some V → ∀ y, y ≠ x0 → V x0 < inf + V y

omit [IsOrderedCancelAddMonoid K] [NeZero n] in
theorem BelowSentinel.conv {inf : K} {M : FSC n m K} {x0 : Fin n} (h : BelowSentinel inf M x0) :
    (∀ k < M.stages.length, ∀ x y, valueFn M.LT (M.stages.drop k) x <
      inf + valueFn M.LT (M.stages.drop (k + 1)) y) ∧
    (∀ y, y ≠ x0 → valueFn M.LT M.stages x0 < inf + valueFn M.LT M.stages y) := by
  unfold BelowSentinel at h
  rw [seqBackwardPass_eq] at h
  refine ⟨fun k hk => h.1 k _ _ (valList_get _ _ hk.le) (valList_get _ _ hk), ?_⟩
  exact h.2 _ (valList_get _ _ (Nat.zero_le _))

/-- Result of a forward value pass: every returned control is the policy's at the returned state, and
every returned state (with the returned control) lies on an optimal control sequence from `x0`. -/
def StatesOnOptimal (M : FSC n m K) (x0 : Fin n) (us : List (Fin m)) (xs : List (Fin n)) : Prop :=
  us.length = M.stages.length ∧ xs.length = M.stages.length + 1 ∧
  ∀ k ≤ M.stages.length, ∃ x, xs[k]? = some x ∧ us[k]? = (M.seqBackwardPass.1[k]?).map (fun p => p x) ∧
    ∃ vs : List (Fin m), IsOptimal M.LT M.stages x0 vs ∧ stateAt M.stages x0 vs k = x ∧ vs[k]? = us[k]?

/-- **C09** (`parFwdBwdPass`): every state and control returned lies on an optimal trajectory from `x0`. -/
theorem C09_fwdbwd_on_optimal (inf : K) (M : FSC n m K) (x0 : Fin n) (hT : M.stages ≠ [])
    (h : BelowSentinel inf M x0) :
    ∃ us xs, M.parFwdBwdPass inf x0 M.seqBackwardPass.1 M.seqBackwardPass.2 = .ok (us, xs) ∧
      StatesOnOptimal M x0 us xs := by
  unfold StatesOnOptimal
  rw [seqBackwardPass_eq]
  exact parFwdBwdPass_spec inf M x0 hT h.conv.1 h.conv.2

/-- **C09** (`parFwdBwdPass2`): likewise. -/
theorem C09_fwdbwd2_on_optimal (inf : K) (M : FSC n m K) (x0 : Fin n) (hT : M.stages ≠ [])
    (h : BelowSentinel inf M x0) :
    ∃ us xs, M.parFwdBwdPass2 inf x0 M.seqBackwardPass.1 M.seqBackwardPass.2 = .ok (us, xs) ∧
      StatesOnOptimal M x0 us xs := by
  unfold StatesOnOptimal
  rw [seqBackwardPass_eq]
  exact parFwdBwdPass2_spec inf M x0 hT h.conv.1

/-- The optimal state trajectory from `x0` is unique. -/
def UniqueOptimal (M : FSC n m K) (x0 : Fin n) : Prop :=
  ∀ us vs : List (Fin m), IsOptimal M.LT M.stages x0 us → IsOptimal M.LT M.stages x0 vs →
    ∀ k ≤ M.stages.length, stateAt M.stages x0 us k = stateAt M.stages x0 vs k

theorem StatesOnOptimal.eq {M : FSC n m K} {x0 : Fin n} {us : List (Fin m)} {xs : List (Fin n)}
    (h : StatesOnOptimal M x0 us xs) (hu : UniqueOptimal M x0) :
    us = greedy M.LT M.stages x0 ∧ xs = statesOf M.stages x0 (greedy M.LT M.stages x0) := by
  have hl := greedy_length M.LT M.stages x0
  have hopt := (isOptimal_iff M.LT M.stages x0 _ hl).2 (greedy_cost M.LT M.stages x0)
  have hst : ∀ k ≤ M.stages.length, xs[k]? = some (stateAt M.stages x0 (greedy M.LT M.stages x0) k) := by
    intro k hk
    obtain ⟨x, hx, _, vs, hvs, hst, _⟩ := h.2.2 k hk
    rw [hx, ← hst, hu _ _ hvs hopt k hk]
  constructor
  · apply List.ext_getElem?
    intro k
    by_cases hk : k ≤ M.stages.length
    · obtain ⟨x, hx, hux, _⟩ := h.2.2 k hk
      rw [hst k hk] at hx
      rw [seqBackwardPass_eq] at hux
      rw [hux, ← Option.some.inj hx, ← rollout_greedy, rollout_get _ _ _ _ (polList_length _ _)]
      congr 1
    · rw [List.getElem?_eq_none (by have := h.1; omega), List.getElem?_eq_none (by omega)]
  · apply List.ext_getElem?
    intro k
    by_cases hk : k ≤ M.stages.length
    · rw [hst k hk, statesOf_get _ _ _ (by omega)]
    · rw [List.getElem?_eq_none (by have := h.2.1; omega),
        List.getElem?_eq_none (by rw [statesOf_length]; omega)]

/-- **C09** (unique optimum): if the optimal state trajectory is unique, both forward value passes return
exactly the controls and states of `seqForwardPass`. -/
theorem C09_unique (inf : K) (M : FSC n m K) (x0 : Fin n) (hT : M.stages ≠ [])
    (h : BelowSentinel inf M x0) (hu : UniqueOptimal M x0) :
    M.parFwdBwdPass inf x0 M.seqBackwardPass.1 M.seqBackwardPass.2 = M.seqForwardPass x0 M.seqBackwardPass.1 ∧
    M.parFwdBwdPass2 inf x0 M.seqBackwardPass.1 M.seqBackwardPass.2 =
      M.seqForwardPass x0 M.seqBackwardPass.1 := by
  obtain ⟨us1, xs1, h1, h1'⟩ := C09_fwdbwd_on_optimal inf M x0 hT h
  obtain ⟨us2, xs2, h2, h2'⟩ := C09_fwdbwd2_on_optimal inf M x0 hT h
  have h3 := seqForwardPass_eq M x0 M.seqBackwardPass.1 (by rw [seqBackwardPass_eq]; exact (polList_length _ _).le)
  have h4 : rollout M.stages M.seqBackwardPass.1 x0 = greedy M.LT M.stages x0 := by
    rw [seqBackwardPass_eq]; exact rollout_greedy _ _ _
  rw [h1, h2, h3, h4, (h1'.eq hu).1, (h1'.eq hu).2, (h2'.eq hu).1, (h2'.eq hu).2]
  exact ⟨rfl, rfl⟩

end C09

theorem below_of_bound [AddCommGroup K] [LinearOrder K] [IsOrderedAddMonoid K] [NeZero n] [NeZero m]
    (inf B : K) (M : FSC n m K) (x0 : Fin n)
    (hLT : ∀ x, |M.LT x| ≤ B) (hL : ∀ s ∈ M.stages, ∀ x u, |s.L x u| ≤ B)
    (hB : (2 * M.stages.length + 2) • B < inf) : BelowSentinel inf M x0 := by
  have key : ∀ j k x y, valueFn M.LT (M.stages.drop j) x < inf + valueFn M.LT (M.stages.drop k) y := by
    intro j k x y
    refine (valueFn_diff_bound B M.LT M.stages hLT hL j k x y).trans_lt ?_
    refine add_lt_add_left ?_ _
    exact (nsmul_le_of_le ((abs_nonneg _).trans (hLT x)) (by omega)).trans_lt hB
  unfold BelowSentinel
  rw [seqBackwardPass_eq]
  refine ⟨?_, ?_⟩
  · intro k V V' h1 h2
    have hk : k < M.stages.length := by
      by_contra hc
      rw [List.getElem?_eq_none (by rw [valList_length]; omega)] at h2
      exact absurd h2 (by simp)
    rw [valList_get _ _ hk.le] at h1
    rw [valList_get _ _ hk] at h2
    cases h1; cases h2
    exact key _ _
  · intro V h1 y _
    rw [valList_get _ _ (Nat.zero_le _)] at h1
    cases h1
    exact key _ _ _ _

/-- **C09** (bounded costs): `|L|,|LT| ≤ B` with `(2T+2)B < inf` implies the sentinel condition. -/
theorem C09_below_sentinel_of_bounded [AddCommGroup K] [LinearOrder K] [IsOrderedAddMonoid K] [NeZero n] [NeZero m]
    (inf B : K) (M : FSC n m K) (x0 : Fin n)
    (hLT : ∀ x, |M.LT x| ≤ B) (hL : ∀ s ∈ M.stages, ∀ x u, |s.L x u| ≤ B)
    (hB : (2 * M.stages.length + 2) • B < inf) : BelowSentinel inf M x0 :=
  below_of_bound inf B M x0 hLT hL hB

example : BelowSentinel (10 ^ 20) exFSC 0 :=
  C09_below_sentinel_of_bounded (10 ^ 20) 5 exFSC 0 (by decide) (by decide) (by decide)

example : UniqueOptimal exFSC 0 := by
  have key : ∀ us : List (Fin 2), IsOptimal exFSC.LT exFSC.stages 0 us → us = [1, 1, 0] := by
    intro us h
    obtain ⟨hl, h⟩ := h
    replace h := h [1, 1, 0] rfl
    match us, hl, h with
    | [a, b, c], _, h => revert a b c; decide
  intro us vs hu hv k _
  rw [key us hu, key vs hv]

/-- **C09** (ties): without uniqueness the returned states need not form a trajectory: no control leads
from the returned `x_1` to the returned `x_2`. -/
theorem C09_ties_no_trajectory :
    ∃ (M : FSC 3 2 ℤ) (us : List (Fin 2)), M.stages.length = 2 ∧ BelowSentinel (10 ^ 20) M 0 ∧
      M.parFwdBwdPass (10 ^ 20) 0 M.seqBackwardPass.1 M.seqBackwardPass.2 = .ok (us, [0, 1, 1]) ∧
      M.parFwdBwdPass2 (10 ^ 20) 0 M.seqBackwardPass.1 M.seqBackwardPass.2 = .ok (us, [0, 1, 1]) ∧
      ∀ (h : 1 < M.stages.length) (u : Fin 2), M.stages[1].f 1 u ≠ 1 :=
  ⟨tieFSC, [0, 0], rfl, below_of_bound (10 ^ 20) 0 tieFSC 0 (by decide) (by decide) (by decide),
    by decide, by decide, by decide⟩

/-! ## C10 -/

section C10
variable [AddCommMonoid K] [LinearOrder K] [NeZero m]

/-- **C10** (termination and exhaustiveness): from its initial state the loop of `batch_solution` ends
after exactly `udim^T` iterations; the control lists evaluated are pairwise different and are exactly
the lists of `T` controls. -/
theorem C10_batch_visits_all (cap : K) (M : FSC n m K) (x0 : Fin n) (hT : M.stages ≠ []) :
    ∃ st st', batchInit cap M = .ok st ∧ BatchRuns M x0 st (m ^ M.stages.length) st' ∧
      ((List.range (m ^ M.stages.length)).map (fun j => ((batchStep M x0)^[j] st).u_list)).Nodup ∧
      ∀ us : List (Fin m), us ∈ (List.range (m ^ M.stages.length)).map (fun j => ((batchStep M x0)^[j] st).u_list) ↔
        us.length = M.stages.length := by
  obtain ⟨st, st', h1, h2, _, h4⟩ := batch_runs cap M x0 hT
  refine ⟨st, st', h1, h2, ?_, ?_⟩
  · refine List.Nodup.map_on ?_ List.nodup_range
    intro i hi j hj hij
    rw [List.mem_range] at hi hj
    rw [← (h4 i hi).cur hi, ← (h4 j hj).cur hj, hij]
  · intro us
    rw [List.mem_map]
    constructor
    · rintro ⟨j, hj, rfl⟩
      exact (h4 j (List.mem_range.1 hj)).len
    · intro hl
      have hlt : odoVal us < m ^ M.stages.length := hl ▸ odoVal_lt us
      refine ⟨odoVal us, List.mem_range.2 hlt, ?_⟩
      exact odoVal_inj ((h4 _ hlt).len.trans hl.symm) ((h4 _ hlt).cur hlt)

/-- **C10** (result): if some control sequence costs less than the cap `1e10`, the controls returned are
optimal, with their states and their cost, which is `V_list[0][x0]`. -/
theorem C10_batch_optimal [IsOrderedAddMonoid K] (cap : K) (M : FSC n m K) (x0 : Fin n) (hT : M.stages ≠ [])
    (hcap : ∃ us : List (Fin m), us.length = M.stages.length ∧ totalCost M.LT M.stages x0 us < cap) :
    ∃ st st' V0, batchInit cap M = .ok st ∧ BatchRuns M x0 st (m ^ M.stages.length) st' ∧
      IsOptimal M.LT M.stages x0 st'.min_u_list ∧ M.seqSimulation x0 st'.min_u_list = .ok st'.min_x_list ∧
      M.seqBackwardPass.2[0]? = some V0 ∧ st'.min_cost = V0 x0 := by
  obtain ⟨st, st', h1, h2, h3, _⟩ := batch_runs cap M x0 hT
  obtain ⟨us, hul, hlt⟩ := hcap
  have hle : ∀ us : List (Fin m), us.length = M.stages.length →
      st'.min_cost ≤ totalCost M.LT M.stages x0 us :=
    fun us hus => h3.le us hus (hus ▸ odoVal_lt us)
  rcases h3.found with ⟨hc, _⟩ | ⟨_, hl, hc, hx, _⟩
  · exact absurd (hle us hul) (not_le.2 (hc ▸ hlt))
  · have hopt : IsOptimal M.LT M.stages x0 st'.min_u_list := ⟨hl, fun us' h' => hc ▸ hle us' h'⟩
    refine ⟨st, st', valueFn M.LT M.stages, h1, h2, hopt, ?_, ?_, ?_⟩
    · rw [seqSimulation_eq M x0 _ hl.le, hx]
    · rw [seqBackwardPass_eq]; exact valList_get M.LT M.stages (Nat.zero_le _)
    · rw [hc]; exact (isOptimal_iff _ _ _ _ hl).1 hopt

/-- **C10** (tie-breaking): among the optimal sequences the one returned comes first in odometer order
(first control fastest): any sequence evaluated earlier is strictly more expensive. -/
theorem C10_batch_first (cap : K) (M : FSC n m K) (x0 : Fin n) (hT : M.stages ≠ [])
    (hcap : ∃ us : List (Fin m), us.length = M.stages.length ∧ totalCost M.LT M.stages x0 us < cap) :
    ∃ st st' i, batchInit cap M = .ok st ∧ BatchRuns M x0 st (m ^ M.stages.length) st' ∧
      ((batchStep M x0)^[i] st).u_list = st'.min_u_list ∧ i < m ^ M.stages.length ∧
      ∀ j < i, totalCost M.LT M.stages x0 st'.min_u_list <
        totalCost M.LT M.stages x0 ((batchStep M x0)^[j] st).u_list := by
  obtain ⟨st, st', h1, h2, h3, h4⟩ := batch_runs cap M x0 hT
  obtain ⟨us, hul, hlt⟩ := hcap
  rcases h3.found with ⟨hc, _⟩ | ⟨_, hl, hc, _, hf⟩
  · exact absurd (h3.le us hul (hul ▸ odoVal_lt us)) (not_le.2 (hc ▸ hlt))
  · have hlt : odoVal st'.min_u_list < m ^ M.stages.length := hl ▸ odoVal_lt _
    refine ⟨st, st', odoVal st'.min_u_list, h1, h2, ?_, hlt, ?_⟩
    · exact odoVal_inj ((h4 _ hlt).len.trans hl.symm) ((h4 _ hlt).cur hlt)
    · intro j hj
      rw [← hc]
      exact hf _ (h4 j (hj.trans hlt)).len (by rw [(h4 j (hj.trans hlt)).cur (hj.trans hlt)]; exact hj)

/-- **C10** (cap): if every control sequence costs at least the cap, the result is the dummy
`(zeros, [], 1e10)`. -/
theorem C10_batch_dummy (cap : K) (M : FSC n m K) (x0 : Fin n) (hT : M.stages ≠ [])
    (hcap : ∀ us : List (Fin m), us.length = M.stages.length → cap ≤ totalCost M.LT M.stages x0 us) :
    ∃ st st', batchInit cap M = .ok st ∧ BatchRuns M x0 st (m ^ M.stages.length) st' ∧
      st'.min_u_list = List.replicate M.stages.length 0 ∧ st'.min_x_list = [] ∧ st'.min_cost = cap := by
  obtain ⟨st, st', h1, h2, h3, _⟩ := batch_runs cap M x0 hT
  rcases h3.found with ⟨hc, hu, hx⟩ | ⟨hlt, hl, hc, _⟩
  · exact ⟨st, st', h1, h2, hu, hx, hc⟩
  · exact absurd (hcap _ hl) (not_le.2 (hc ▸ hlt))

end C10

example : ∃ us : List (Fin 2), us.length = exFSC.stages.length ∧ totalCost exFSC.LT exFSC.stages 0 us < 10 ^ 10 :=
  ⟨[1, 1, 0], rfl, by decide⟩
example : ((batchStep exFSC 0)^[8] ⟨[0, 0, 0], [0, 0, 0], [], 10 ^ 10, false⟩).min_u_list = [1, 1, 0] := by decide
example : ∀ us : List (Fin 1), us.length = bigFSC.stages.length → 10 ^ 10 ≤ totalCost bigFSC.LT bigFSC.stages 1 us := by
  intro us h
  match us, h with
  | [u], _ => simp [totalCost, bigFSC]

end Verif
