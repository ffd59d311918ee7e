import Verif.Proof.FSCPar
import Mathlib.Algebra.Order.Monoid.Unbundled.Basic

/-! Finite-state control: forward value-function passes. -/

namespace Verif

variable {n m : ℕ} {K : Type} [AddCommMonoid K] [LinearOrder K] [IsOrderedCancelAddMonoid K]

/-- Sum of the stage costs of the controls `us` from `x` (at most one control per stage). -/
def partialCost (ss : List (FStage n m K)) (x : Fin n) (us : List (Fin m)) : K :=
  totalCost (fun _ => 0) ss x us

omit [LinearOrder K] [IsOrderedCancelAddMonoid K] in
theorem totalCost_append (LT : Fin n → K) (ss : List (FStage n m K)) (x : Fin n) (us vs : List (Fin m))
    (h : us.length ≤ ss.length) :
    totalCost LT ss x (us ++ vs) =
      partialCost ss x us + totalCost LT (ss.drop us.length) (stateAt ss x us us.length) vs := by
  unfold partialCost
  induction ss generalizing x us with
  | nil =>
    have : us = [] := by simpa using h
    subst this; simp [totalCost, stateAt]
  | cons s ss ih =>
    cases us with
    | nil => simp [totalCost, stateAt]
    | cons u us =>
      simp only [List.cons_append, totalCost, List.length_cons, List.drop_succ_cons, stateAt]
      rw [ih _ _ (by simpa using h), add_assoc]

omit [AddCommMonoid K] [LinearOrder K] [IsOrderedCancelAddMonoid K] in
theorem stateAt_append (ss : List (FStage n m K)) (x : Fin n) (us vs : List (Fin m)) (h : us.length ≤ ss.length) :
    stateAt ss x (us ++ vs) us.length = stateAt ss x us us.length := by
  induction ss generalizing x us with
  | nil =>
    have : us = [] := by simpa using h
    subst this; simp [stateAt]
  | cons s ss ih =>
    cases us with
    | nil => simp [stateAt_zero]
    | cons u us => simp only [List.cons_append, List.length_cons, stateAt]; exact ih _ _ (by simpa using h)

omit [AddCommMonoid K] [LinearOrder K] [IsOrderedCancelAddMonoid K] in
theorem stateAt_snoc (ss : List (FStage n m K)) (x : Fin n) (us : List (Fin m)) (u : Fin m)
    (h : us.length < ss.length) :
    stateAt ss x (us ++ [u]) (us.length + 1) = (ss[us.length]).f (stateAt ss x us us.length) u := by
  induction ss generalizing x us with
  | nil => simp at h
  | cons s ss ih =>
    cases us with
    | nil => simp [stateAt, stateAt_zero]
    | cons v us =>
      simp only [List.cons_append, List.length_cons, stateAt, List.getElem_cons_succ]
      exact ih _ _ (by simpa using h)

omit [LinearOrder K] [IsOrderedCancelAddMonoid K] in
theorem partialCost_snoc (ss : List (FStage n m K)) (x : Fin n) (us : List (Fin m)) (u : Fin m)
    (h : us.length < ss.length) :
    partialCost ss x (us ++ [u]) = partialCost ss x us + (ss[us.length]).L (stateAt ss x us us.length) u := by
  have h1 := totalCost_append (fun _ => 0) ss x us [u] h.le
  rw [List.drop_eq_getElem_cons h] at h1
  refine h1.trans ?_
  cases hd : ss.drop (us.length + 1) <;> simp only [totalCost, add_zero]

omit [AddCommMonoid K] [LinearOrder K] [IsOrderedCancelAddMonoid K] in
theorem stateAt_take (ss : List (FStage n m K)) (x : Fin n) (us : List (Fin m)) (k : ℕ) (hk : k ≤ us.length)
    (h : us.length ≤ ss.length) : stateAt ss x (us.take k) k = stateAt ss x us k := by
  induction ss generalizing x us k with
  | nil =>
    have : us = [] := by simpa using h
    subst this; simp
  | cons s ss ih =>
    cases us with
    | nil => simp
    | cons u us =>
      cases k with
      | zero => simp [stateAt_zero]
      | succ k => simp only [List.take_succ_cons, stateAt]; exact ih _ _ _ (by simpa using hk) (by simpa using h)

/-- Invariant of the forward value functions. -/
structure FwdInv [NeZero m] (LT : Fin n → K) (ss : List (FStage n m K)) (x0 : Fin n) (k : ℕ) (F : Fin n → K) :
    Prop where
  upper : ∀ us : List (Fin m), us.length = k → F (stateAt ss x0 us k) ≤ partialCost ss x0 us
  lower : ∀ x, (∃ us : List (Fin m), us.length = k ∧ stateAt ss x0 us k = x ∧ F x = partialCost ss x0 us) ∨
    valueFn LT ss x0 < F x + valueFn LT (ss.drop k) x

theorem value_le_partial [NeZero m] (LT : Fin n → K) (ss : List (FStage n m K)) (x0 : Fin n) (us : List (Fin m))
    (h : us.length ≤ ss.length) : valueFn LT ss x0 ≤
      partialCost ss x0 us + valueFn LT (ss.drop us.length) (stateAt ss x0 us us.length) := by
  have h1 := valueFn_le LT ss x0 (us ++ greedy LT (ss.drop us.length) (stateAt ss x0 us us.length)) (by
    simp [greedy_length]; omega)
  rwa [totalCost_append LT ss x0 us _ h, greedy_cost] at h1

theorem FwdInv.step [NeZero n] [NeZero m] {inf : K} {LT : Fin n → K} {ss : List (FStage n m K)} {x0 : Fin n} {k : ℕ}
    {F : Fin n → K} (hF : FwdInv LT ss x0 k F) (hk : k < ss.length)
    (hinf : ∀ x y, valueFn LT (ss.drop k) x < inf + valueFn LT (ss.drop (k + 1)) y) :
    FwdInv LT ss x0 (k + 1) (fun y => min1 fun x => F x + stageElem inf ss[k] x y) := by
  have hdrop : ss.drop k = ss[k] :: ss.drop (k + 1) := List.drop_eq_getElem_cons hk
  refine ⟨?_, ?_⟩
  · intro us hus
    obtain ⟨us, u, rfl⟩ : ∃ us' u, us = us' ++ [u] := by
      rcases List.eq_nil_or_concat us with h | ⟨us', u, h⟩
      · subst h; simp at hus
      · exact ⟨us', u, by simpa using h⟩
    have hl : us.length = k := by simpa using hus
    subst hl
    rw [partialCost_snoc _ _ _ _ hk, stateAt_snoc _ _ _ _ hk]
    refine (min1_le _ (stateAt ss x0 us us.length)).trans ?_
    exact add_le_add (hF.upper us rfl) ((stageElem_spec inf _ _ _).2.1 u rfl)
  · intro y
    obtain ⟨x, hx⟩ := min1_attained (fun x => F x + stageElem inf ss[k] x y)
    rw [hx]
    have hstep : ∀ u, ss[k].f x u = y → valueFn LT (ss.drop k) x ≤ ss[k].L x u + valueFn LT (ss.drop (k + 1)) y := by
      intro u hu
      rw [hdrop, ← hu]
      exact min1_le (stageVu ss[k] (valueFn LT (ss.drop (k + 1))) x) u
    rcases hF.lower x with ⟨us, hl, hst, hFx⟩ | hlt
    · rcases (stageElem_spec inf ss[k] x y).2.2 with he | ⟨u, hu, he⟩
      · right
        rw [he, add_assoc]
        have h1 := value_le_partial LT ss x0 us (by omega)
        rw [hl, hst, ← hFx] at h1
        exact lt_of_le_of_lt h1 (add_lt_add_right (hinf x y) _)
      · left
        subst hl
        refine ⟨us ++ [u], by simp, ?_, ?_⟩
        · rw [stateAt_snoc _ _ _ _ hk, hst, hu]
        · rw [partialCost_snoc _ _ _ _ hk, hst, he, hFx]
    · right
      refine lt_of_lt_of_le hlt ?_
      rw [add_assoc]
      refine add_le_add le_rfl ?_
      rcases (stageElem_spec inf ss[k] x y).2.2 with he | ⟨u, hu, he⟩
      · rw [he]; exact (hinf x y).le
      · rw [he]; exact hstep u hu

/-- A state picked by minimising forward plus backward value lies on an optimal trajectory which from
there on follows the optimal policy. -/
theorem FwdInv.pick [NeZero n] [NeZero m] {LT : Fin n → K} {ss : List (FStage n m K)} {x0 : Fin n} {k : ℕ}
    {F : Fin n → K} (hF : FwdInv LT ss x0 k F) (hk : k ≤ ss.length) :
    ∃ us : List (Fin m), us.length = k ∧
      stateAt ss x0 us k = argmin1 (fun x => F x + valueFn LT (ss.drop k) x) ∧
      totalCost LT ss x0 (us ++ greedy LT (ss.drop k) (stateAt ss x0 us k)) = valueFn LT ss x0 := by
  set x := argmin1 (fun x => F x + valueFn LT (ss.drop k) x) with hx
  have hup : F x + valueFn LT (ss.drop k) x ≤ valueFn LT ss x0 := by
    set gs := greedy LT ss x0
    have hgl : gs.length = ss.length := greedy_length LT ss x0
    have h1 := argmin1_le (fun x => F x + valueFn LT (ss.drop k) x) (stateAt ss x0 gs k)
    refine h1.trans ?_
    have h2 := hF.upper (gs.take k) (by simp; omega)
    rw [stateAt_take _ _ _ _ (by omega) (by omega)] at h2
    have h3 := totalCost_append LT ss x0 (gs.take k) (gs.drop k) (by simp; omega)
    rw [List.take_append_drop, greedy_cost] at h3
    have hlen : (gs.take k).length = k := by simp; omega
    rw [hlen, stateAt_take _ _ _ _ (by omega) (by omega)] at h3
    rw [h3]
    exact add_le_add h2 (valueFn_le LT _ _ _ (by simp; omega))
  rcases hF.lower x with ⟨us, hl, hst, hFx⟩ | hlt
  · refine ⟨us, hl, hst, ?_⟩
    have h3 := totalCost_append LT ss x0 us (greedy LT (ss.drop k) (stateAt ss x0 us k)) (by omega)
    rw [hl, greedy_cost, hst, ← hFx] at h3
    refine le_antisymm (by rw [hst, h3]; exact hup) (valueFn_le LT ss x0 _ (by simp [greedy_length]; omega))
  · exact absurd hlt (not_lt.2 hup)

section Passes
variable [NeZero n] [NeZero m]

theorem FwdInv.zero {inf : K} {LT : Fin n → K} {ss : List (FStage n m K)} {x0 : Fin n}
    (h0 : ∀ y, y ≠ x0 → valueFn LT ss x0 < inf + valueFn LT ss y) :
    FwdInv LT ss x0 0 (fun x => if x = x0 then 0 else inf) := by
  refine ⟨?_, ?_⟩
  · intro us hus
    have : us = [] := by simpa using hus
    subst this
    simp [stateAt_zero, partialCost, totalCost]
  · intro x
    by_cases hx : x = x0
    · left; exact ⟨[], rfl, by rw [stateAt_zero, hx], by simp [hx, partialCost, totalCost]⟩
    · right; simpa [hx] using h0 x hx

theorem FwdInv.one {inf : K} {LT : Fin n → K} {ss : List (FStage n m K)} {x0 : Fin n} (hk : 0 < ss.length)
    (hinf : ∀ x y, valueFn LT (ss.drop 0) x < inf + valueFn LT (ss.drop 1) y) :
    FwdInv LT ss x0 1 (fun y => stageElem inf ss[0] x0 y) := by
  refine ⟨?_, ?_⟩
  · intro us hus
    obtain ⟨u, rfl⟩ := List.length_eq_one_iff.1 hus
    have h1 := partialCost_snoc ss x0 [] u hk
    have h2 := stateAt_snoc ss x0 [] u hk
    simp only [List.nil_append, List.length_nil, zero_add, stateAt_zero] at h1 h2
    rw [h1, h2]
    simp only [partialCost, totalCost, zero_add]
    exact (stageElem_spec inf _ _ _).2.1 u rfl
  · intro y
    rcases (stageElem_spec inf ss[0] x0 y).2.2 with he | ⟨u, hu, he⟩
    · right; rw [he]; simpa using hinf x0 y
    · left
      have h1 := partialCost_snoc ss x0 [] u hk
      have h2 := stateAt_snoc ss x0 [] u hk
      simp only [List.nil_append, List.length_nil, zero_add, stateAt_zero] at h1 h2
      refine ⟨[u], rfl, h2.trans hu, ?_⟩
      rw [he, h1]
      simp [partialCost, totalCost]

/-- Left fold of elements applied at a row. -/
def fwdVal (inf : K) (F0 : Fin n → K) (ss : List (FStage n m K)) : Fin n → K :=
  ss.foldl (fun F s y => min1 fun x => F x + stageElem inf s x y) F0

omit [IsOrderedCancelAddMonoid K] [NeZero m] in
theorem foldl1_row (inf : K) (E : Fin n → Fin n → K) (ss : List (FStage n m K)) (i : Fin n) :
    ∃ e, foldl1 combineV (E :: ss.map (stageElem inf)) = some e ∧ e i = fwdVal inf (E i) ss := by
  refine ⟨_, rfl, ?_⟩
  induction ss generalizing E with
  | nil => rfl
  | cons s ss ih =>
    simp only [List.map_cons, List.foldl_cons, fwdVal]
    rw [ih]
    rfl

omit [IsOrderedCancelAddMonoid K] [NeZero m] in
theorem fwdVal_succ (inf : K) (F0 : Fin n → K) (ss : List (FStage n m K)) (k : ℕ) (hk : k < ss.length) :
    fwdVal inf F0 (ss.take (k + 1)) =
      fun y => min1 fun x => fwdVal inf F0 (ss.take k) x + stageElem inf ss[k] x y := by
  unfold fwdVal
  rw [List.take_succ_eq_append_getElem hk, List.foldl_append]
  rfl

/-- `x` with control `u` is the `k`-th state/control of an optimal control sequence from `x0`. -/
def OnOptimal (LT : Fin n → K) (ss : List (FStage n m K)) (x0 : Fin n) (k : ℕ) (x : Fin n) (u : Option (Fin m)) :
    Prop :=
  ∃ us : List (Fin m), IsOptimal LT ss x0 us ∧ stateAt ss x0 us k = x ∧ us[k]? = u

omit [NeZero n] in
theorem onOptimal_of_pick {LT : Fin n → K} {ss : List (FStage n m K)} {x0 : Fin n} {k : ℕ} {x : Fin n}
    (hk : k ≤ ss.length)
    (h : ∃ us : List (Fin m), us.length = k ∧ stateAt ss x0 us k = x ∧
      totalCost LT ss x0 (us ++ greedy LT (ss.drop k) (stateAt ss x0 us k)) = valueFn LT ss x0) :
    OnOptimal LT ss x0 k x (((polList LT ss)[k]?).map (fun p => p x)) := by
  obtain ⟨us, hl, hst, hc⟩ := h
  have hlen : (us ++ greedy LT (ss.drop k) (stateAt ss x0 us k)).length = ss.length := by
    simp [greedy_length]; omega
  refine ⟨_, (isOptimal_iff LT ss x0 _ hlen).2 hc, ?_, ?_⟩
  · subst hl; rw [stateAt_append _ _ _ _ hk]; exact hst
  · subst hl
    rw [List.getElem?_append_right le_rfl, Nat.sub_self, hst]
    rcases Nat.lt_or_eq_of_le hk with h | h
    · rw [polList_get _ _ h, List.drop_eq_getElem_cons h]
      rfl
    · rw [h, List.drop_length]
      have := polList_length LT ss
      rw [List.getElem?_eq_none (by omega : (polList LT ss).length ≤ ss.length)]
      rfl

/-- Assembling the output lists. -/
theorem fwdbwd_result {LT : Fin n → K} {ss : List (FStage n m K)} {x0 : Fin n} (g : ℕ → Fin n)
    (hg : ∀ k ≤ ss.length, OnOptimal LT ss x0 k (g k) (((polList LT ss)[k]?).map (fun p => p (g k)))) :
    ∃ us xs, (((((List.range (ss.length + 1)).map (fun k => (((polList LT ss)[k]?).map (fun p => p (g k)), g k))).map
        Prod.fst).reduceOption,
      ((List.range (ss.length + 1)).map (fun k => (((polList LT ss)[k]?).map (fun p => p (g k)), g k))).map Prod.snd) :
      List (Fin m) × List (Fin n)) = (us, xs) ∧
      us.length = ss.length ∧ xs.length = ss.length + 1 ∧
      ∀ k ≤ ss.length, ∃ x, xs[k]? = some x ∧
        us[k]? = ((polList LT ss)[k]?).map (fun p => p x) ∧ OnOptimal LT ss x0 k x us[k]? := by
  set l : List (Fin m) := (List.range ss.length).map (fun k => if h : k < ss.length then
    polFn LT ss[k] (ss.drop (k + 1)) (g k) else 0) with hl
  have hll : l.length = ss.length := by simp [hl]
  have hget : ∀ k < ss.length + 1, (((polList LT ss)[k]?).map (fun p => p (g k))) = l[k]? := by
    intro k hk
    by_cases h : k < ss.length
    · rw [polList_get _ _ h, hl, List.getElem?_map, List.getElem?_range h]
      simp [h]
    · rw [List.getElem?_eq_none (by rw [polList_length]; omega), List.getElem?_eq_none (by omega)]
      rfl
  refine ⟨l, (List.range (ss.length + 1)).map g, ?_, hll, by simp, ?_⟩
  · simp only [List.map_map, Function.comp_def]
    rw [reduceOption_range l _ _ (by omega) hget]
  · intro k hk
    refine ⟨g k, ?_, (hget k (by omega)).symm, ?_⟩
    · rw [List.getElem?_map, List.getElem?_range (by omega)]; rfl
    · rw [← hget k (by omega)]; exact hg k hk

theorem parFwdBwdPass_spec (inf : K) (M : FSC n m K) (x0 : Fin n) (hT : M.stages ≠ [])
    (hinf : ∀ k < M.stages.length, ∀ x y, valueFn M.LT (M.stages.drop k) x <
      inf + valueFn M.LT (M.stages.drop (k + 1)) y)
    (h0 : ∀ y, y ≠ x0 → valueFn M.LT M.stages x0 < inf + valueFn M.LT M.stages y) :
    ∃ us xs, M.parFwdBwdPass inf x0 (polList M.LT M.stages) (valList M.LT M.stages) = .ok (us, xs) ∧
      us.length = M.stages.length ∧ xs.length = M.stages.length + 1 ∧
      ∀ k ≤ M.stages.length, ∃ x, xs[k]? = some x ∧
        us[k]? = ((polList M.LT M.stages)[k]?).map (fun p => p x) ∧ OnOptimal M.LT M.stages x0 k x us[k]? := by
  have hinit : M.parFwdBwdInit inf x0 = .ok ((fun _ x => if x = x0 then 0 else inf) ::
      M.stages.map (stageElem inf)) := by
    unfold FSC.parFwdBwdInit
    cases h : M.stages with
    | nil => exact absurd h hT
    | cons s ss => rfl
  obtain ⟨es, hes, hlen, hget⟩ := scan_combineV_prefix
    ((fun _ x => if x = x0 then 0 else inf) :: M.stages.map (stageElem inf)) (by simp)
  simp only [List.length_map, List.length_cons] at hlen hget
  have hF : ∀ k ≤ M.stages.length, FwdInv M.LT M.stages x0 k
      (fwdVal inf (fun x => if x = x0 then 0 else inf) (M.stages.take k)) := by
    intro k
    induction k with
    | zero => intro _; simpa [fwdVal] using FwdInv.zero h0
    | succ k ih =>
      intro hk
      rw [fwdVal_succ _ _ _ _ (by omega)]
      exact (ih (by omega)).step (by omega) (hinf k (by omega))
  have hget' : ∀ k ≤ M.stages.length, ∃ e, es[k]? = some e ∧
      e 0 = fwdVal inf (fun x => if x = x0 then 0 else inf) (M.stages.take k) := by
    intro k hk
    obtain ⟨e, he1, he2⟩ := foldl1_row inf (fun _ x => if x = x0 then 0 else inf) (M.stages.take k) 0
    refine ⟨e, ?_, he2⟩
    rw [hget k (by omega), List.take_succ_cons, ← he1, List.map_take]
  let g : ℕ → Fin n := fun k => argmin1 (fun x =>
    fwdVal inf (fun x => if x = x0 then 0 else inf) (M.stages.take k) x + valueFn M.LT (M.stages.drop k) x)
  have hmap : (List.range es.length).mapM (fun k => do
      let e ← pyGet es k
      let Vk ← pyGet (valList M.LT M.stages) k
      let x := argmin1 (fun x => e 0 x + Vk x)
      return (((polList M.LT M.stages)[k]?).map (fun p => p x), x)) =
      Except.ok ((List.range (M.stages.length + 1)).map
        (fun k => (((polList M.LT M.stages)[k]?).map (fun p => p (g k)), g k))) := by
    rw [hlen]
    apply mapM_range_of
    intro k hk
    obtain ⟨e, he, he0⟩ := hget' k (by omega)
    rw [pyGet_ok.2 he, pyGet_ok.2 (valList_get M.LT M.stages (k := k) (by omega))]
    simp only [bind, Except.bind, he0]
    rfl
  obtain ⟨us, xs, h1, h2⟩ := fwdbwd_result (LT := M.LT) (ss := M.stages) (x0 := x0) g
    (fun k hk => onOptimal_of_pick hk ((hF k hk).pick hk))
  refine ⟨us, xs, ?_, h2⟩
  rw [← h1]
  unfold FSC.parFwdBwdPass
  rw [hinit]
  simp only [bind, Except.bind]
  rw [hes]
  simp only
  unfold FSC.parFwdBwdExtract
  rw [hmap]
  rfl

theorem parFwdBwdPass2_spec (inf : K) (M : FSC n m K) (x0 : Fin n) (hT : M.stages ≠ [])
    (hinf : ∀ k < M.stages.length, ∀ x y, valueFn M.LT (M.stages.drop k) x <
      inf + valueFn M.LT (M.stages.drop (k + 1)) y) :
    ∃ us xs, M.parFwdBwdPass2 inf x0 (polList M.LT M.stages) (valList M.LT M.stages) = .ok (us, xs) ∧
      us.length = M.stages.length ∧ xs.length = M.stages.length + 1 ∧
      ∀ k ≤ M.stages.length, ∃ x, xs[k]? = some x ∧
        us[k]? = ((polList M.LT M.stages)[k]?).map (fun p => p x) ∧ OnOptimal M.LT M.stages x0 k x us[k]? := by
  have hpos : 0 < M.stages.length := List.length_pos_iff.2 hT
  have hcons : M.stages = M.stages[0] :: M.stages.drop 1 := by
    have := List.drop_eq_getElem_cons hpos
    simpa using this
  have hinit : M.parFwdBwd2Init inf = .ok (M.stages.map (stageElem inf)) := by
    unfold FSC.parFwdBwd2Init
    cases h : M.stages with
    | nil => exact absurd h hT
    | cons s ss => rfl
  obtain ⟨es, hes, hlen, hget⟩ := scan_combineV_prefix (M.stages.map (stageElem inf)) (by simpa using hT)
  simp only [List.length_map] at hlen hget
  let F : ℕ → Fin n → K := fun k => fwdVal inf (stageElem inf M.stages[0] x0) ((M.stages.drop 1).take k)
  have hF : ∀ k, k + 1 ≤ M.stages.length → FwdInv M.LT M.stages x0 (k + 1) (F k) := by
    intro k
    induction k with
    | zero => intro _; simpa [F, fwdVal] using FwdInv.one hpos (hinf 0 hpos)
    | succ k ih =>
      intro hk
      have h1 : k < (M.stages.drop 1).length := by simp; omega
      have h2 : (M.stages.drop 1)[k] = M.stages[k + 1] := by
        rw [List.getElem_drop]; congr 1; omega
      have h3 : F (k + 1) = fun y => min1 fun x => F k x + stageElem inf M.stages[k + 1] x y := by
        simp only [F]
        rw [fwdVal_succ _ _ _ _ h1, h2]
      rw [h3]
      exact (ih (by omega)).step (by omega) (hinf (k + 1) (by omega))
  have hget' : ∀ k, k + 1 ≤ M.stages.length → ∃ e, es[k]? = some e ∧ e x0 = F k := by
    intro k hk
    obtain ⟨e, he1, he2⟩ := foldl1_row inf (stageElem inf M.stages[0]) ((M.stages.drop 1).take k) x0
    refine ⟨e, ?_, he2⟩
    rw [hget k (by omega), ← he1]
    congr 1
    conv_lhs => rw [hcons]
    rw [List.map_cons, List.take_succ_cons, List.map_take]
  let g : ℕ → Fin n := fun k => if k = 0 then x0 else
    argmin1 (fun x => F (k - 1) x + valueFn M.LT (M.stages.drop k) x)
  have hmap : (List.range (es.length + 1)).mapM (fun k => do
      let x ← if k = 0 then pure x0 else do
        let e ← pyGet es (k - 1)
        let Vk ← pyGet (valList M.LT M.stages) k
        pure (argmin1 (fun x => e x0 x + Vk x))
      return (((polList M.LT M.stages)[k]?).map (fun p => p x), x)) =
      Except.ok ((List.range (M.stages.length + 1)).map
        (fun k => (((polList M.LT M.stages)[k]?).map (fun p => p (g k)), g k))) := by
    rw [hlen]
    apply mapM_range_of
    intro k hk
    cases k with
    | zero => rfl
    | succ k =>
      obtain ⟨e, he, he0⟩ := hget' k (by omega)
      rw [if_neg (Nat.succ_ne_zero k), Nat.add_sub_cancel, pyGet_ok.2 he,
        pyGet_ok.2 (valList_get M.LT M.stages (k := k + 1) (by omega))]
      simp only [bind, Except.bind, he0]
      rfl
  have hgood : ∀ k ≤ M.stages.length,
      OnOptimal M.LT M.stages x0 k (g k) (((polList M.LT M.stages)[k]?).map (fun p => p (g k))) := by
    intro k hk
    cases k with
    | zero =>
      apply onOptimal_of_pick hk
      exact ⟨[], rfl, by simp [stateAt_zero, g], by simp [stateAt_zero, greedy_cost]⟩
    | succ k => exact onOptimal_of_pick hk ((hF k hk).pick hk)
  obtain ⟨us, xs, h1, h2⟩ := fwdbwd_result (LT := M.LT) (ss := M.stages) (x0 := x0) g hgood
  refine ⟨us, xs, ?_, h2⟩
  rw [← h1]
  unfold FSC.parFwdBwdPass2
  rw [hinit]
  simp only [bind, Except.bind]
  rw [hes]
  simp only
  unfold FSC.parFwdBwd2Extract
  rw [hmap]
  rfl

end Passes

end Verif
