import Verif.Proof.FSCFwdBwd
import Mathlib.Order.Bounds.Basic

/-! Helper lemmas for C119: which states the forward value passes return. -/

namespace Verif

variable {n m : ℕ} {K : Type} [AddCommMonoid K] [LinearOrder K] [IsOrderedCancelAddMonoid K] [NeZero n] [NeZero m]

/-- The state picked is the least one on an optimal trajectory. -/
theorem FwdInv.least {LT : Fin n → K} {ss : List (FStage n m K)} {x0 : Fin n} {k : ℕ}
    {F : Fin n → K} (hF : FwdInv LT ss x0 k F) (hk : k ≤ ss.length) :
    IsLeast {y | ∃ vs, IsOptimal LT ss x0 vs ∧ stateAt ss x0 vs k = y}
      (argmin1 (fun x => F x + valueFn LT (ss.drop k) x)) := by
  refine ⟨?_, ?_⟩
  · obtain ⟨vs, h1, h2, -⟩ := onOptimal_of_pick hk (hF.pick hk)
    exact ⟨vs, h1, h2⟩
  · rintro y ⟨vs, hv, rfl⟩
    have hvl : vs.length = ss.length := hv.1
    by_contra hc
    have hlt := argmin1_first (fun x => F x + valueFn LT (ss.drop k) x) _ (not_le.1 hc)
    refine absurd hlt (not_lt.2 ?_)
    have hup : F (stateAt ss x0 vs k) + valueFn LT (ss.drop k) (stateAt ss x0 vs k) ≤ valueFn LT ss x0 := by
      have h2 := hF.upper (vs.take k) (by simp; omega)
      rw [stateAt_take _ _ _ _ (by omega) (by omega)] at h2
      have h3 := totalCost_append LT ss x0 (vs.take k) (vs.drop k) (by simp; omega)
      rw [List.take_append_drop, (isOptimal_iff LT ss x0 vs hvl).1 hv] at h3
      have hlen : (vs.take k).length = k := by simp; omega
      rw [hlen, stateAt_take _ _ _ _ (by omega) (by omega)] at h3
      rw [h3]
      exact add_le_add h2 (valueFn_le LT _ _ _ (by simp; omega))
    refine hup.trans ?_
    rcases hF.lower (argmin1 (fun x => F x + valueFn LT (ss.drop k) x)) with ⟨us, hl, hst, hFx⟩ | h
    · have h1 := value_le_partial LT ss x0 us (by omega)
      rw [hl, hst, ← hFx] at h1
      exact h1
    · exact h.le

theorem parFwdBwdPass_least (inf : K) (M : FSC n m K) (x0 : Fin n) (hT : M.stages ≠ [])
    (hinf : ∀ k < M.stages.length, ∀ x y, valueFn M.LT (M.stages.drop k) x <
      inf + valueFn M.LT (M.stages.drop (k + 1)) y)
    (h0 : ∀ y, y ≠ x0 → valueFn M.LT M.stages x0 < inf + valueFn M.LT M.stages y) :
    ∃ us xs, M.parFwdBwdPass inf x0 (polList M.LT M.stages) (valList M.LT M.stages) = .ok (us, xs) ∧
      us.length = M.stages.length ∧ xs.length = M.stages.length + 1 ∧
      ∀ k ≤ M.stages.length, ∃ x, xs[k]? = some x ∧ us[k]? = ((polList M.LT M.stages)[k]?).map (fun p => p x) ∧
        IsLeast {y | ∃ vs, IsOptimal M.LT M.stages x0 vs ∧ stateAt M.stages x0 vs k = y} x := by
  have hinit : M.parFwdBwdInit inf x0 = .ok ((fun _ x => if x = x0 then 0 else inf) ::
      M.stages.map (stageElem inf)) := by
    unfold FSC.parFwdBwdInit
    cases h : M.stages with
    | nil => exact absurd h hT
    | cons s ss => rfl
  obtain ⟨es, hes, hlen, hget⟩ := scan_combineV_prefix
    ((fun _ x => if x = x0 then 0 else inf) :: M.stages.map (stageElem inf)) (by simp)
  simp only [List.length_map, List.length_cons] at hlen hget
  have hF : ∀ k ≤ M.stages.length, FwdInv M.LT M.stages x0 k
      (fwdVal inf (fun x => if x = x0 then 0 else inf) (M.stages.take k)) := by
    intro k
    induction k with
    | zero => intro _; simpa [fwdVal] using FwdInv.zero h0
    | succ k ih =>
      intro hk
      rw [fwdVal_succ _ _ _ _ (by omega)]
      exact (ih (by omega)).step (by omega) (hinf k (by omega))
  have hget' : ∀ k ≤ M.stages.length, ∃ e, es[k]? = some e ∧
      e 0 = fwdVal inf (fun x => if x = x0 then 0 else inf) (M.stages.take k) := by
    intro k hk
    obtain ⟨e, he1, he2⟩ := foldl1_row inf (fun _ x => if x = x0 then 0 else inf) (M.stages.take k) 0
    refine ⟨e, ?_, he2⟩
    rw [hget k (by omega), List.take_succ_cons, ← he1, List.map_take]
  let g : ℕ → Fin n := fun k => argmin1 (fun x =>
    fwdVal inf (fun x => if x = x0 then 0 else inf) (M.stages.take k) x + valueFn M.LT (M.stages.drop k) x)
  have hmap : (List.range es.length).mapM (fun k => do
      let e ← pyGet es k
      let Vk ← pyGet (valList M.LT M.stages) k
      let x := argmin1 (fun x => e 0 x + Vk x)
      return (((polList M.LT M.stages)[k]?).map (fun p => p x), x)) =
      Except.ok ((List.range (M.stages.length + 1)).map
        (fun k => (((polList M.LT M.stages)[k]?).map (fun p => p (g k)), g k))) := by
    rw [hlen]
    apply mapM_range_of
    intro k hk
    obtain ⟨e, he, he0⟩ := hget' k (by omega)
    rw [pyGet_ok.2 he, pyGet_ok.2 (valList_get M.LT M.stages (k := k) (by omega))]
    simp only [bind, Except.bind, he0]
    rfl
  have hleast : ∀ k ≤ M.stages.length,
      IsLeast {y | ∃ vs, IsOptimal M.LT M.stages x0 vs ∧ stateAt M.stages x0 vs k = y} (g k) :=
    fun k hk => (hF k hk).least hk
  obtain ⟨us, xs, h1, h2⟩ := fwdbwd_result (LT := M.LT) (ss := M.stages) (x0 := x0) g
    (fun k hk => onOptimal_of_pick hk ((hF k hk).pick hk))
  refine ⟨us, xs, ?_, h2.1, h2.2.1, fun k hk => ?_⟩
  swap
  · obtain ⟨x, hx, hu, -⟩ := h2.2.2 k hk
    refine ⟨x, hx, hu, ?_⟩
    rw [← (Prod.mk.inj h1).2, List.map_map, List.getElem?_map, List.getElem?_range (by omega)] at hx
    obtain rfl : g k = x := Option.some.inj hx
    exact hleast k hk
  rw [← h1]
  unfold FSC.parFwdBwdPass
  rw [hinit]
  simp only [bind, Except.bind]
  rw [hes]
  simp only
  unfold FSC.parFwdBwdExtract
  rw [hmap]
  rfl

theorem parFwdBwdPass2_least (inf : K) (M : FSC n m K) (x0 : Fin n) (hT : M.stages ≠ [])
    (hinf : ∀ k < M.stages.length, ∀ x y, valueFn M.LT (M.stages.drop k) x <
      inf + valueFn M.LT (M.stages.drop (k + 1)) y) :
    ∃ us xs, M.parFwdBwdPass2 inf x0 (polList M.LT M.stages) (valList M.LT M.stages) = .ok (us, xs) ∧
      us.length = M.stages.length ∧ xs.length = M.stages.length + 1 ∧
      ∀ k ≤ M.stages.length, ∃ x, xs[k]? = some x ∧ us[k]? = ((polList M.LT M.stages)[k]?).map (fun p => p x) ∧
        IsLeast {y | ∃ vs, IsOptimal M.LT M.stages x0 vs ∧ stateAt M.stages x0 vs k = y} x := by
  have hpos : 0 < M.stages.length := List.length_pos_iff.2 hT
  have hcons : M.stages = M.stages[0] :: M.stages.drop 1 := by
    have := List.drop_eq_getElem_cons hpos
    simpa using this
  have hinit : M.parFwdBwd2Init inf = .ok (M.stages.map (stageElem inf)) := by
    unfold FSC.parFwdBwd2Init
    cases h : M.stages with
    | nil => exact absurd h hT
    | cons s ss => rfl
  obtain ⟨es, hes, hlen, hget⟩ := scan_combineV_prefix (M.stages.map (stageElem inf)) (by simpa using hT)
  simp only [List.length_map] at hlen hget
  let F : ℕ → Fin n → K := fun k => fwdVal inf (stageElem inf M.stages[0] x0) ((M.stages.drop 1).take k)
  have hF : ∀ k, k + 1 ≤ M.stages.length → FwdInv M.LT M.stages x0 (k + 1) (F k) := by
    intro k
    induction k with
    | zero => intro _; simpa [F, fwdVal] using FwdInv.one hpos (hinf 0 hpos)
    | succ k ih =>
      intro hk
      have h1 : k < (M.stages.drop 1).length := by simp; omega
      have h2 : (M.stages.drop 1)[k] = M.stages[k + 1] := by
        rw [List.getElem_drop]; congr 1; omega
      have h3 : F (k + 1) = fun y => min1 fun x => F k x + stageElem inf M.stages[k + 1] x y := by
        simp only [F]
        rw [fwdVal_succ _ _ _ _ h1, h2]
      rw [h3]
      exact (ih (by omega)).step (by omega) (hinf (k + 1) (by omega))
  have hget' : ∀ k, k + 1 ≤ M.stages.length → ∃ e, es[k]? = some e ∧ e x0 = F k := by
    intro k hk
    obtain ⟨e, he1, he2⟩ := foldl1_row inf (stageElem inf M.stages[0]) ((M.stages.drop 1).take k) x0
    refine ⟨e, ?_, he2⟩
    rw [hget k (by omega), ← he1]
    congr 1
    conv_lhs => rw [hcons]
    rw [List.map_cons, List.take_succ_cons, List.map_take]
  let g : ℕ → Fin n := fun k => if k = 0 then x0 else
    argmin1 (fun x => F (k - 1) x + valueFn M.LT (M.stages.drop k) x)
  have hmap : (List.range (es.length + 1)).mapM (fun k => do
      let x ← if k = 0 then pure x0 else do
        let e ← pyGet es (k - 1)
        let Vk ← pyGet (valList M.LT M.stages) k
        pure (argmin1 (fun x => e x0 x + Vk x))
      return (((polList M.LT M.stages)[k]?).map (fun p => p x), x)) =
      Except.ok ((List.range (M.stages.length + 1)).map
        (fun k => (((polList M.LT M.stages)[k]?).map (fun p => p (g k)), g k))) := by
    rw [hlen]
    apply mapM_range_of
    intro k hk
    cases k with
    | zero => rfl
    | succ k =>
      obtain ⟨e, he, he0⟩ := hget' k (by omega)
      rw [if_neg (Nat.succ_ne_zero k), Nat.add_sub_cancel, pyGet_ok.2 he,
        pyGet_ok.2 (valList_get M.LT M.stages (k := k + 1) (by omega))]
      simp only [bind, Except.bind, he0]
      rfl
  have hgood : ∀ k ≤ M.stages.length,
      OnOptimal M.LT M.stages x0 k (g k) (((polList M.LT M.stages)[k]?).map (fun p => p (g k))) := by
    intro k hk
    cases k with
    | zero =>
      apply onOptimal_of_pick hk
      exact ⟨[], rfl, by simp [stateAt_zero, g], by simp [stateAt_zero, greedy_cost]⟩
    | succ k => exact onOptimal_of_pick hk ((hF k hk).pick hk)
  have hleast : ∀ k ≤ M.stages.length,
      IsLeast {y | ∃ vs, IsOptimal M.LT M.stages x0 vs ∧ stateAt M.stages x0 vs k = y} (g k) := by
    intro k hk
    cases k with
    | zero =>
      refine ⟨⟨greedy M.LT M.stages x0, (isOptimal_iff _ _ _ _ (greedy_length _ _ _)).2 (greedy_cost _ _ _), ?_⟩, ?_⟩
      · simp [stateAt_zero, g]
      · rintro y ⟨vs, -, rfl⟩
        simp [stateAt_zero, g]
    | succ k => exact (hF k hk).least hk
  obtain ⟨us, xs, h1, h2⟩ := fwdbwd_result (LT := M.LT) (ss := M.stages) (x0 := x0) g hgood
  refine ⟨us, xs, ?_, h2.1, h2.2.1, fun k hk => ?_⟩
  swap
  · obtain ⟨x, hx, hu, -⟩ := h2.2.2 k hk
    refine ⟨x, hx, hu, ?_⟩
    rw [← (Prod.mk.inj h1).2, List.map_map, List.getElem?_map, List.getElem?_range (by omega)] at hx
    obtain rfl : g k = x := Option.some.inj hx
    exact hleast k hk
  rw [← h1]
  unfold FSC.parFwdBwdPass2
  rw [hinit]
  simp only [bind, Except.bind]
  rw [hes]
  simp only
  unfold FSC.parFwdBwd2Extract
  rw [hmap]
  rfl

end Verif
