import Verif.Model.FSCTF
import Verif.Proof.FSCFwdBwd
import Verif.Proof.ViterbiTF
import Verif.Proof.ViterbiFSC
import Verif.Proof.LQTTF

/-! The TensorFlow passes of finite-state control. -/

namespace Verif

variable {n m q : ℕ} {P K : Type}

section Elem
variable [LinearOrder K] [NeZero m]

theorem tfStageElem_le (inf : K) (s : FStage n m K) (x : Fin n) (u : Fin m) :
    tfStageElem inf s x (s.f x u) ≤ s.L x u := by
  unfold tfStageElem
  refine (min1_le _ u).trans ?_
  simp

theorem tfStageElem_le_inf (inf : K) (s : FStage n m K) (x y : Fin n) (u : Fin m) (hu : s.f x u ≠ y) :
    tfStageElem inf s x y ≤ inf := by
  unfold tfStageElem
  refine (min1_le _ u).trans ?_
  simp [Function.update_of_ne (Ne.symm hu)]

theorem tfStageElem_cases (inf : K) (s : FStage n m K) (x y : Fin n) :
    (tfStageElem inf s x y = inf ∧ ∃ u, s.f x u ≠ y) ∨ ∃ u, s.f x u = y ∧ tfStageElem inf s x y = s.L x u := by
  unfold tfStageElem
  obtain ⟨u, hu⟩ := min1_attained (fun u => Function.update (fun _ => inf) (s.f x u) (s.L x u) y)
  by_cases h : s.f x u = y
  · right
    refine ⟨u, h, ?_⟩
    dsimp only
    rw [hu, ← h]
    simp
  · left
    refine ⟨?_, u, h⟩
    dsimp only
    rw [hu, Function.update_of_ne (Ne.symm h)]

theorem tfStageElem_eq_iff (inf : K) (s : FStage n m K) (x y : Fin n) :
    tfStageElem inf s x y = stageElem inf s x y ↔ (∃ u, s.f x u ≠ y) ∨ ∃ u, s.L x u ≤ inf := by
  obtain ⟨h1, h2, h3⟩ := stageElem_spec inf s x y
  constructor
  · intro h
    by_contra hc
    push Not at hc
    rcases tfStageElem_cases inf s x y with ⟨-, u, hu⟩ | ⟨u, -, he⟩
    · exact hu (hc.1 u)
    · rw [← h, he] at h1
      exact absurd h1 (not_le.2 (hc.2 u))
  · intro h
    have hle : tfStageElem inf s x y ≤ inf := by
      by_cases hh : ∃ u, s.f x u ≠ y
      · obtain ⟨u, hu⟩ := hh
        exact tfStageElem_le_inf inf s x y u hu
      · rcases h with h | ⟨u, hu⟩
        · exact absurd h hh
        · push Not at hh
          rw [← hh u]
          exact (tfStageElem_le inf s x u).trans hu
    apply le_antisymm
    · rcases h3 with h3 | ⟨u, hu, h3⟩
      · rw [h3]; exact hle
      · rw [h3, ← hu]; exact tfStageElem_le inf s x u
    · rcases tfStageElem_cases inf s x y with ⟨he, -⟩ | ⟨u, hu, he⟩
      · rw [he]; exact h1
      · rw [he]; exact h2 u hu

end Elem

theorem tfFscCombV_eq [LinearOrder K] [Add K] [NeZero n] : (tfFscCombV : (Fin n → Fin n → K) → _) = combineV := rfl

theorem tfFscCombF_eq : (tfFscCombF : (Fin n → Fin n) → _) = combineF := rfl

/-! ### Policies that attain the cost-to-go -/

section MinPol
variable [AddCommMonoid K] [LinearOrder K] [NeZero m]

/-- Policies built with an arbitrary minimiser from the exact costs-to-go. -/
def amPolList (am : (Fin m → K) → Fin m) (LT : Fin n → K) : List (FStage n m K) → List (Fin n → Fin m)
  | [] => []
  | s :: ss => (fun x => am (stageVu s (valueFn LT ss) x)) :: amPolList am LT ss

theorem amPolList_length (am : (Fin m → K) → Fin m) (LT : Fin n → K) (ss : List (FStage n m K)) :
    (amPolList am LT ss).length = ss.length := by
  induction ss with
  | nil => rfl
  | cons s ss ih => simp [amPolList, ih]

theorem amPolList_argmin1 (LT : Fin n → K) (ss : List (FStage n m K)) : amPolList argmin1 LT ss = polList LT ss := by
  induction ss with
  | nil => rfl
  | cons s ss ih => simp only [amPolList, polList, ih]; rfl

theorem amPolList_get (am : (Fin m → K) → Fin m) (LT : Fin n → K) (ss : List (FStage n m K)) {k : ℕ}
    (hk : k < ss.length) :
    (amPolList am LT ss)[k]? = some (fun x => am (stageVu ss[k] (valueFn LT (ss.drop (k + 1))) x)) := by
  induction ss generalizing k with
  | nil => simp at hk
  | cons s ss ih =>
    cases k with
    | zero => rfl
    | succ k => simpa [amPolList] using ih (by simpa using hk)

theorem amPolList_drop (am : (Fin m → K) → Fin m) (LT : Fin n → K) (ss : List (FStage n m K)) (k : ℕ) :
    (amPolList am LT ss).drop k = amPolList am LT (ss.drop k) := by
  induction ss generalizing k with
  | nil => simp [amPolList]
  | cons s ss ih =>
    cases k with
    | zero => rfl
    | succ k => simpa [amPolList] using ih k

theorem rollout_am_cost {am : (Fin m → K) → Fin m} (ham : IsArgmin am) (LT : Fin n → K) (ss : List (FStage n m K))
    (x : Fin n) : totalCost LT ss x (rollout ss (amPolList am LT ss) x) = valueFn LT ss x := by
  induction ss generalizing x with
  | nil => rfl
  | cons s ss ih =>
    simp only [amPolList, rollout, totalCost, ih, valueFn]
    exact ham.val (stageVu s (valueFn LT ss) x)

theorem tfSeqBackward_eq_lists (am : (Fin m → K) → Fin m) (M : FSC n m K) :
    M.tfSeqBackward am = .ok (amPolList am M.LT M.stages, valList M.LT M.stages) := by
  have key : ∀ ss : List (FStage n m K), ∃ r, tfScanRev (tfFscBody am) (M.LT, fun _ => 0) ss = .ok r ∧
      r.1.map Prod.snd = amPolList am M.LT ss ∧ r.1.map Prod.fst ++ [M.LT] = valList M.LT ss ∧
      r.2.1 = valueFn M.LT ss := by
    intro ss
    induction ss with
    | nil => exact ⟨_, rfl, rfl, rfl, rfl⟩
    | cons s ss ih =>
      obtain ⟨r, hr, h1, h2, h3⟩ := ih
      unfold tfScanRev
      rw [hr]
      refine ⟨_, rfl, ?_, ?_, ?_⟩
      · simp only [List.map_cons, amPolList, h1, h3]
        rfl
      · simp only [List.map_cons, List.cons_append, h2, h3, valList]
        rfl
      · simp only [h3]
        rfl
  obtain ⟨r, hr, h1, h2, -⟩ := key M.stages
  unfold FSC.tfSeqBackward
  rw [hr]
  simp only [bind, Except.bind, pure, Except.pure, h1, h2]

end MinPol

/-! ### Forward passes -/

theorem tfScanFwd_rollout [NeZero m] (ss : List (FStage n m K)) (ps : List (Fin n → Fin m)) (x : Fin n) (u : Fin m)
    (hl : ps.length = ss.length) :
    (tfScanFwd tfFscFwdBody (x, u) (ss.zip ps)).map Prod.snd = rollout ss ps x ∧
    x :: (tfScanFwd tfFscFwdBody (x, u) (ss.zip ps)).map Prod.fst = statesOf ss x (rollout ss ps x) := by
  induction ss generalizing ps x u with
  | nil =>
    have : ps = [] := by simpa using hl
    subst this
    exact ⟨rfl, rfl⟩
  | cons s ss ih =>
    cases ps with
    | nil => simp at hl
    | cons p ps =>
      obtain ⟨h1, h2⟩ := ih ps (s.f x (p x)) (p x) (by simpa using hl)
      simp only [List.zip_cons_cons, tfScanFwd, tfFscFwdBody, List.map_cons, rollout, statesOf_cons]
      exact ⟨by rw [← h1], by rw [← h2]⟩

theorem tfSeqForward_eq_swap [NeZero m] (M : FSC n m K) (x0 : Fin n) (ps : List (Fin n → Fin m))
    (hl : ps.length = M.stages.length) :
    M.tfSeqForward x0 ps =
      .ok (statesOf M.stages x0 (rollout M.stages ps x0), rollout M.stages ps x0) := by
  obtain ⟨h1, h2⟩ := tfScanFwd_rollout M.stages ps x0 0 hl
  unfold FSC.tfSeqForward
  rw [if_neg (by simpa using hl)]
  simp only [pure, Except.pure, bind, Except.bind, h1, h2]

theorem tfZip_polElems (ss : List (FStage n m K)) (ps : List (Fin n → Fin m)) :
    List.zipWith (fun s (p : Fin n → Fin m) => fun x => s.f x (p x)) ss ps = polElems ss ps := by
  unfold polElems
  rfl

theorem zipWith_rollout (ss : List (FStage n m K)) (ps : List (Fin n → Fin m)) (x : Fin n)
    (hl : ps.length = ss.length) :
    List.zipWith (fun (p : Fin n → Fin m) x => p x) ps (statesOf ss x (rollout ss ps x)).dropLast = rollout ss ps x := by
  induction ss generalizing ps x with
  | nil =>
    have : ps = [] := by simpa using hl
    subst this
    rfl
  | cons s ss ih =>
    cases ps with
    | nil => simp at hl
    | cons p ps =>
      have hne : statesOf ss (s.f x (p x)) (rollout ss ps (s.f x (p x))) ≠ [] := by
        intro h
        have := congrArg List.length h
        rw [statesOf_length] at this
        simp at this
      simp only [rollout, statesOf_cons]
      rw [List.dropLast_cons_of_ne_nil hne, List.zipWith_cons_cons, ih ps _ (by simpa using hl)]

theorem foldl_polElems (ss : List (FStage n m K)) (ps : List (Fin n → Fin m)) (x : Fin n) (k : ℕ)
    (hl : ps.length = ss.length) (hk : k ≤ ss.length) :
    ((polElems ss ps).take k).foldl (fun x u => u x) x = stateAt ss x (rollout ss ps x) k := by
  induction ss generalizing ps x k with
  | nil =>
    have : k = 0 := by simpa using hk
    subst this
    simp [stateAt]
  | cons s ss ih =>
    cases ps with
    | nil => simp at hl
    | cons p ps =>
      cases k with
      | zero => simp [stateAt_zero]
      | succ k =>
        simpa [polElems, rollout, stateAt] using ih ps (s.f x (p x)) k (by simpa using hl) (by simpa using hk)

theorem tfFscParForward_eq [NeZero n] [NeZero m] [LinearOrder K] [AddCommMonoid K]
    {scanF : ((Fin n → Fin n) → (Fin n → Fin n) → Py (Fin n → Fin n)) →
      List (Fin n → Fin n) → Py (List (Fin n → Fin n))} (hF : IsAssocScan scanF)
    (M : FSC n m K) (x0 : Fin n) (ps : List (Fin n → Fin m)) (hl : ps.length = M.stages.length) :
    M.tfParForward scanF x0 ps =
      .ok (rollout M.stages ps x0, statesOf M.stages x0 (rollout M.stages ps x0)) := by
  obtain ⟨r, hr, hrl, hrg⟩ := tfScan_combineF hF ((fun _ => x0) :: polElems M.stages ps) (by simp)
  have hpl : (polElems M.stages ps).length = M.stages.length := by
    unfold polElems; rw [List.length_zipWith, hl, min_self]
  rw [List.length_cons, hpl] at hrl hrg
  have hroll := rollout_length M.stages ps x0 hl.le
  have hxs : r.map (fun e => e 0) = statesOf M.stages x0 (rollout M.stages ps x0) := by
    apply List.ext_getElem?
    intro k
    by_cases hk : k ≤ M.stages.length
    · rw [List.getElem?_map, hrg k (by omega), List.take_succ_cons, foldl1_combineF,
        statesOf_get _ _ _ (by omega), foldl_polElems _ _ _ _ hl hk]
      rfl
    · rw [List.getElem?_eq_none (by simp; omega), List.getElem?_eq_none (by rw [statesOf_length]; omega)]
  unfold FSC.tfParForward
  rw [if_neg (by simpa using hl), tfZip_polElems, tfFscCombF_eq]
  simp only [pure, Except.pure, bind, Except.bind]
  rw [hr]
  simp only [hxs, zipWith_rollout _ _ _ hl]

/-! ### Parallel backward pass -/

section Back
variable [AddCommMonoid K] [LinearOrder K] [NeZero n] [NeZero m]

/-- Costs-to-go of the TensorFlow parallel pass. -/
def tfParVal (inf : K) (LT : Fin n → K) : List (FStage n m K) → Fin n → K
  | [] => LT
  | s :: ss => fun x => min1 fun y => tfStageElem inf s x y + tfParVal inf LT ss y

theorem foldr1_tfParVal (inf : K) (LT : Fin n → K) (ss : List (FStage n m K)) :
    foldr1 combineV (ss.map (tfStageElem inf) ++ [fun x _ => LT x]) = some (fun x _ => tfParVal inf LT ss x) := by
  induction ss with
  | nil => rfl
  | cons s ss ih =>
    simp only [List.map_cons, List.cons_append, foldr1]
    rw [ih]
    simp only [Option.some.injEq]
    funext x z
    rfl

variable [IsOrderedAddMonoid K]

theorem tfParBackward_lists
    {scanV : ((Fin n → Fin n → K) → (Fin n → Fin n → K) → Py (Fin n → Fin n → K)) →
      List (Fin n → Fin n → K) → Py (List (Fin n → Fin n → K))} (hV : IsAssocScan scanV)
    (am : (Fin m → K) → Fin m) (inf : K) (M : FSC n m K) :
    ∃ us Vs, M.tfParBackward scanV am inf = .ok (us, Vs) ∧ us.length = M.stages.length ∧
      Vs.length = M.stages.length + 1 ∧
      (∀ k (hk : k < M.stages.length), us[k]? =
        some (fun x => am (stageVu M.stages[k] (tfParVal inf M.LT (M.stages.drop (k + 1))) x))) ∧
      ∀ k ≤ M.stages.length, Vs[k]? = some (tfParVal inf M.LT (M.stages.drop k)) := by
  set l : List (Fin n → Fin n → K) := M.stages.map (tfStageElem inf) ++ [fun x _ => M.LT x] with hl
  have hll : l.length = M.stages.length + 1 := by simp [hl]
  obtain ⟨r, hr⟩ := hV.total (op := fun Vjk Vij => .ok (combineV Vij Vjk)) (l := l.reverse) (fun _ => True)
    (fun x y _ _ => ⟨_, rfl, trivial⟩) (by simp [hl]) (fun _ _ => trivial)
  obtain ⟨h1, h2⟩ := tfScan_suffix hV (op := fun Vij Vjk => .ok (combineV Vij Vjk)) hr
  rw [hll] at h1 h2
  have hVs : ∀ k ≤ M.stages.length, (r.reverse.map (fun e x => e x 0))[k]? =
      some (tfParVal inf M.LT (M.stages.drop k)) := by
    intro k hk
    obtain ⟨v, hv, hp⟩ := h2 k (by omega)
    have := paren_combineV hp
    rw [hl, List.drop_append_of_le_length (by simpa using hk), ← List.map_drop, foldr1_tfParVal] at this
    rw [List.getElem?_map, hv, ← Option.some.inj this]
    rfl
  refine ⟨(List.zipWith (fun s V => fun x u => s.L x u + V (s.f x u)) M.stages
    (r.reverse.map (fun e x => e x 0)).tail).map (fun Vu x => am (Vu x)), r.reverse.map (fun e x => e x 0),
    ?_, ?_, ?_, ?_, hVs⟩
  · unfold FSC.tfParBackward
    simp only [tfFscCombV_eq]
    rw [← hl, hr]
    rfl
  · simp only [List.length_map, List.length_zipWith, List.length_tail] at h1 ⊢
    omega
  · rw [List.length_map]; exact h1
  · intro k hk
    have h3 : (r.reverse.map (fun e x => e x 0)).tail[k]? = some (tfParVal inf M.LT (M.stages.drop (k + 1))) := by
      rw [List.getElem?_tail]
      exact hVs (k + 1) hk
    rw [List.getElem?_map, List.getElem?_zipWith, h3, List.getElem?_eq_getElem hk]
    rfl

theorem tfParVal_step_iff (inf : K) (s : FStage n m K) (W : Fin n → K) (x : Fin n) :
    (min1 fun y => tfStageElem inf s x y + W y) = min1 (stageVu s W x) ↔
    ∀ y, (∃ u, s.f x u ≠ y) → min1 (stageVu s W x) ≤ inf + W y := by
  constructor
  · rintro h y ⟨u, hu⟩
    rw [← h]
    exact (min1_le _ y).trans (add_le_add (tfStageElem_le_inf inf s x y u hu) le_rfl)
  · intro h
    apply le_antisymm
    · apply le_min1
      intro u
      exact (min1_le _ (s.f x u)).trans (add_le_add (tfStageElem_le inf s x u) le_rfl)
    · apply le_min1
      intro y
      rcases tfStageElem_cases inf s x y with ⟨he, hu⟩ | ⟨u, rfl, he⟩
      · rw [he]; exact h y hu
      · rw [he]; exact min1_le (stageVu s W x) u

theorem tfParVal_eq_iff (inf : K) (LT : Fin n → K) (ss : List (FStage n m K)) :
    (∀ k ≤ ss.length, tfParVal inf LT (ss.drop k) = valueFn LT (ss.drop k)) ↔
    ∀ k (hk : k < ss.length), ∀ x y, (∃ u, ss[k].f x u ≠ y) →
      valueFn LT (ss.drop k) x ≤ inf + valueFn LT (ss.drop (k + 1)) y := by
  induction ss with
  | nil => simp [tfParVal, valueFn]
  | cons s ss ih =>
    constructor
    · intro h k hk x y hu
      cases k with
      | zero =>
        have h0 := congrFun (h 0 (Nat.zero_le _)) x
        have h1 := h 1 (by simp)
        simp only [List.drop_zero, List.drop_succ_cons, tfParVal, valueFn] at h0 h1
        rw [h1] at h0
        exact (tfParVal_step_iff inf s (valueFn LT ss) x).1 h0 y hu
      | succ k =>
        have := ih.1 (fun k hk => by simpa using h (k + 1) (by simpa using hk)) k (by simpa using hk) x y
          (by simpa using hu)
        simpa using this
    · intro h
      have hrec := ih.2 (fun k hk x y hu => by simpa using h (k + 1) (by simpa using hk) x y (by simpa using hu))
      intro k hk
      cases k with
      | zero =>
        have h0 := hrec 0 (Nat.zero_le _)
        simp only [List.drop_zero] at h0 ⊢
        funext x
        simp only [tfParVal, valueFn, h0]
        exact (tfParVal_step_iff inf s (valueFn LT ss) x).2 (fun y hu => h 0 (by simp) x y hu)
      | succ k => simpa using hrec k (by simpa using hk)

end Back

/-! ### Forward value pass -/

section Fwd
variable [AddCommMonoid K] [LinearOrder K] [IsOrderedCancelAddMonoid K] [NeZero n] [NeZero m]

theorem FwdInv.tfStep {inf : K} {LT : Fin n → K} {ss : List (FStage n m K)} {x0 : Fin n} {k : ℕ}
    {F : Fin n → K} (hF : FwdInv LT ss x0 k F) (hk : k < ss.length)
    (hinf : ∀ x y, (∃ u, ss[k].f x u ≠ y) → valueFn LT (ss.drop k) x < inf + valueFn LT (ss.drop (k + 1)) y) :
    FwdInv LT ss x0 (k + 1) (fun y => min1 fun x => F x + tfStageElem inf ss[k] x y) := by
  have hdrop : ss.drop k = ss[k] :: ss.drop (k + 1) := List.drop_eq_getElem_cons hk
  refine ⟨?_, ?_⟩
  · intro us hus
    obtain ⟨us, u, rfl⟩ : ∃ us' u, us = us' ++ [u] := by
      rcases List.eq_nil_or_concat us with h | ⟨us', u, h⟩
      · subst h; simp at hus
      · exact ⟨us', u, by simpa using h⟩
    have hl : us.length = k := by simpa using hus
    subst hl
    rw [partialCost_snoc _ _ _ _ hk, stateAt_snoc _ _ _ _ hk]
    refine (min1_le _ (stateAt ss x0 us us.length)).trans ?_
    exact add_le_add (hF.upper us rfl) (tfStageElem_le inf _ _ u)
  · intro y
    obtain ⟨x, hx⟩ := min1_attained (fun x => F x + tfStageElem inf ss[k] x y)
    rw [hx]
    have hstep : ∀ u, ss[k].f x u = y → valueFn LT (ss.drop k) x ≤ ss[k].L x u + valueFn LT (ss.drop (k + 1)) y := by
      intro u hu
      rw [hdrop, ← hu]
      exact min1_le (stageVu ss[k] (valueFn LT (ss.drop (k + 1))) x) u
    rcases hF.lower x with ⟨us, hl, hst, hFx⟩ | hlt
    · rcases tfStageElem_cases inf ss[k] x y with ⟨he, hu⟩ | ⟨u, hu, he⟩
      · right
        rw [he, add_assoc]
        have h1 := value_le_partial LT ss x0 us (by omega)
        rw [hl, hst, ← hFx] at h1
        exact lt_of_le_of_lt h1 (add_lt_add_right (hinf x y hu) _)
      · left
        subst hl
        refine ⟨us ++ [u], by simp, ?_, ?_⟩
        · rw [stateAt_snoc _ _ _ _ hk, hst, hu]
        · rw [partialCost_snoc _ _ _ _ hk, hst, he, hFx]
    · right
      refine lt_of_lt_of_le hlt ?_
      rw [add_assoc]
      refine add_le_add le_rfl ?_
      rcases tfStageElem_cases inf ss[k] x y with ⟨he, hu⟩ | ⟨u, hu, he⟩
      · rw [he]; exact (hinf x y hu).le
      · rw [he]; exact hstep u hu

/-- Any minimiser of forward plus backward value lies on an optimal trajectory that continues with any policy
attaining the costs-to-go. -/
theorem FwdInv.tfPick {am : (Fin m → K) → Fin m} (ham : IsArgmin am) {LT : Fin n → K} {ss : List (FStage n m K)}
    {x0 : Fin n} {k : ℕ} {F : Fin n → K} (hF : FwdInv LT ss x0 k F) (hk : k ≤ ss.length) (x : Fin n)
    (hx : ∀ y, F x + valueFn LT (ss.drop k) x ≤ F y + valueFn LT (ss.drop k) y) :
    ∃ us : List (Fin m), IsOptimal LT ss x0 us ∧ stateAt ss x0 us k = x ∧
      us[k]? = ((amPolList am LT ss)[k]?).map (fun p => p x) := by
  have hup : F x + valueFn LT (ss.drop k) x ≤ valueFn LT ss x0 := by
    set gs := greedy LT ss x0
    have hgl : gs.length = ss.length := greedy_length LT ss x0
    refine (hx (stateAt ss x0 gs k)).trans ?_
    have h2 := hF.upper (gs.take k) (by simp; omega)
    rw [stateAt_take _ _ _ _ (by omega) (by omega)] at h2
    have h3 := totalCost_append LT ss x0 (gs.take k) (gs.drop k) (by simp; omega)
    rw [List.take_append_drop, greedy_cost] at h3
    have hlen : (gs.take k).length = k := by simp; omega
    rw [hlen, stateAt_take _ _ _ _ (by omega) (by omega)] at h3
    rw [h3]
    exact add_le_add h2 (valueFn_le LT _ _ _ (by simp; omega))
  rcases hF.lower x with ⟨us, hl, hst, hFx⟩ | hlt
  · set vs := rollout (ss.drop k) (amPolList am LT (ss.drop k)) x with hvs
    have hvl : vs.length = ss.length - k := by
      rw [hvs, rollout_length _ _ _ (amPolList_length _ _ _).le, amPolList_length, List.length_drop]
    have h3 := totalCost_append LT ss x0 us vs (by omega)
    rw [hl, hst, hvs, rollout_am_cost ham, ← hFx, ← hvs] at h3
    have hlen : (us ++ vs).length = ss.length := by simp; omega
    refine ⟨us ++ vs, (isOptimal_iff LT ss x0 _ hlen).2 (le_antisymm (h3 ▸ hup) (valueFn_le LT ss x0 _ hlen)), ?_, ?_⟩
    · subst hl; rw [stateAt_append _ _ _ _ hk]; exact hst
    · rw [List.getElem?_append_right (by omega), hl, Nat.sub_self, hvs,
        rollout_get _ _ _ _ (amPolList_length _ _ _), ← amPolList_drop, List.getElem?_drop]
      simp [polState, stateAt_zero]
  · exact absurd hlt (not_lt.2 hup)

/-- Left fold of the TensorFlow elements from a row. -/
def tfFwdVal (inf : K) (F0 : Fin n → K) (ss : List (FStage n m K)) : Fin n → K :=
  ss.foldl (fun F s y => min1 fun x => F x + tfStageElem inf s x y) F0

omit [IsOrderedCancelAddMonoid K] in
theorem foldl1_tfRow (inf : K) (E : Fin n → Fin n → K) (ss : List (FStage n m K)) (i : Fin n) :
    ∃ e, foldl1 combineV (E :: ss.map (tfStageElem inf)) = some e ∧ e i = tfFwdVal inf (E i) ss := by
  refine ⟨_, rfl, ?_⟩
  induction ss generalizing E with
  | nil => rfl
  | cons s ss ih =>
    simp only [List.map_cons, List.foldl_cons, tfFwdVal]
    rw [ih]
    rfl

theorem tfParFwdBwd_inv
    {scanV : ((Fin n → Fin n → K) → (Fin n → Fin n → K) → Py (Fin n → Fin n → K)) →
      List (Fin n → Fin n → K) → Py (List (Fin n → Fin n → K))} (hV : IsAssocScan scanV)
    (am : (Fin m → K) → Fin m) (amX : (Fin n → K) → Fin n) (inf : K) (M : FSC n m K) (x0 : Fin n) (hT : M.stages ≠ [])
    (hinf : ∀ k (hk : k < M.stages.length), ∀ x y, (∃ u, M.stages[k].f x u ≠ y) →
      valueFn M.LT (M.stages.drop k) x < inf + valueFn M.LT (M.stages.drop (k + 1)) y)
    (h0 : ∀ y, y ≠ x0 → valueFn M.LT M.stages x0 < inf + valueFn M.LT M.stages y) :
    ∃ us xs, M.tfParFwdBwd scanV amX inf x0 (amPolList am M.LT M.stages) (valList M.LT M.stages) = .ok (us, xs) ∧
      us.length = M.stages.length ∧ xs.length = M.stages.length + 1 ∧
      ∀ k ≤ M.stages.length, ∃ F, FwdInv M.LT M.stages x0 k F ∧
        xs[k]? = some (amX fun x => F x + valueFn M.LT (M.stages.drop k) x) ∧
        ∀ x, xs[k]? = some x → us[k]? = ((amPolList am M.LT M.stages)[k]?).map (fun p => p x) := by
  set F0 : Fin n → K := fun x => if x = x0 then 0 else inf with hF0
  have hfirst : (tfFwdBwdFirst inf x0 : Fin n → Fin n → K) = fun _ => F0 := by
    funext i x
    simp only [tfFwdBwdFirst, hF0, Function.update_apply]
  obtain ⟨es, hes, hlen, hget⟩ := tfScan_combineV hV ((fun _ => F0) :: M.stages.map (tfStageElem inf)) (by simp)
  simp only [List.length_map, List.length_cons] at hlen hget
  have hF : ∀ k ≤ M.stages.length, FwdInv M.LT M.stages x0 k (tfFwdVal inf F0 (M.stages.take k)) := by
    intro k
    induction k with
    | zero => intro _; simpa [tfFwdVal] using FwdInv.zero h0
    | succ k ih =>
      intro hk
      have e : tfFwdVal inf F0 (M.stages.take (k + 1)) =
          fun y => min1 fun x => tfFwdVal inf F0 (M.stages.take k) x + tfStageElem inf M.stages[k] x y := by
        unfold tfFwdVal
        rw [List.take_succ_eq_append_getElem (by omega), List.foldl_append]
        rfl
      rw [e]
      exact (ih (by omega)).tfStep (by omega) (hinf k (by omega))
  set xs : List (Fin n) := List.zipWith (fun (Vf V : Fin n → K) => amX fun x => Vf x + V x)
    (es.map (fun e => e 0)) (valList M.LT M.stages) with hxs
  have hxl : xs.length = M.stages.length + 1 := by
    rw [hxs, List.length_zipWith, List.length_map, hlen, valList_length, min_self]
  have hxget : ∀ k ≤ M.stages.length, xs[k]? = some (amX fun x =>
      tfFwdVal inf F0 (M.stages.take k) x + valueFn M.LT (M.stages.drop k) x) := by
    intro k hk
    obtain ⟨e, he1, he2⟩ := foldl1_tfRow inf (fun _ => F0) (M.stages.take k) 0
    have : es[k]? = some e := by
      rw [hget k (by omega), List.take_succ_cons, ← he1, List.map_take]
    rw [hxs, List.getElem?_zipWith, List.getElem?_map, this, valList_get _ _ hk]
    simp [he2]
  set ps := amPolList am M.LT M.stages with hps
  have hpl : ps.length = M.stages.length := amPolList_length _ _ _
  set us := List.zipWith (fun (p : Fin n → Fin m) x => p x) ps xs.dropLast with hus
  have hul : us.length = M.stages.length := by
    rw [hus, List.length_zipWith, List.length_dropLast, hxl, hpl]; simp
  have huget : ∀ k ≤ M.stages.length, ∀ x, xs[k]? = some x → us[k]? = (ps[k]?).map (fun p => p x) := by
    intro k hk x hx
    rcases Nat.lt_or_eq_of_le hk with h | h
    · have hd : xs.dropLast[k]? = some x := by
        rw [List.getElem?_dropLast, if_pos (by omega), hx]
      rw [hus, List.getElem?_zipWith, hd, List.getElem?_eq_getElem (by omega : k < ps.length)]
      rfl
    · rw [List.getElem?_eq_none (by omega), List.getElem?_eq_none (by omega)]
      rfl
  refine ⟨us, xs, ?_, hul, hxl, ?_⟩
  · unfold FSC.tfParFwdBwd
    rw [if_neg (by simpa using hT), if_neg (by rw [valList_length, hpl]; simp), hfirst, tfFscCombV_eq]
    simp only [pure, Except.pure, bind, Except.bind]
    rw [hes]
  · intro k hk
    exact ⟨_, hF k hk, hxget k hk, huget k hk⟩

theorem tfParFwdBwd_spec
    {scanV : ((Fin n → Fin n → K) → (Fin n → Fin n → K) → Py (Fin n → Fin n → K)) →
      List (Fin n → Fin n → K) → Py (List (Fin n → Fin n → K))} (hV : IsAssocScan scanV)
    {am : (Fin m → K) → Fin m} (ham : IsArgmin am) {amX : (Fin n → K) → Fin n} (hamX : IsArgmin amX)
    (inf : K) (M : FSC n m K) (x0 : Fin n) (hT : M.stages ≠ [])
    (hinf : ∀ k (hk : k < M.stages.length), ∀ x y, (∃ u, M.stages[k].f x u ≠ y) →
      valueFn M.LT (M.stages.drop k) x < inf + valueFn M.LT (M.stages.drop (k + 1)) y)
    (h0 : ∀ y, y ≠ x0 → valueFn M.LT M.stages x0 < inf + valueFn M.LT M.stages y) :
    ∃ us xs, M.tfParFwdBwd scanV amX inf x0 (amPolList am M.LT M.stages) (valList M.LT M.stages) = .ok (us, xs) ∧
      us.length = M.stages.length ∧ xs.length = M.stages.length + 1 ∧
      ∀ k ≤ M.stages.length, ∃ x, xs[k]? = some x ∧
        us[k]? = ((amPolList am M.LT M.stages)[k]?).map (fun p => p x) ∧
        ∃ vs : List (Fin m), IsOptimal M.LT M.stages x0 vs ∧ stateAt M.stages x0 vs k = x ∧ vs[k]? = us[k]? := by
  obtain ⟨us, xs, h1, h2, h3, h4⟩ := tfParFwdBwd_inv hV am amX inf M x0 hT hinf h0
  refine ⟨us, xs, h1, h2, h3, fun k hk => ?_⟩
  obtain ⟨F, hF, hx, hu⟩ := h4 k hk
  refine ⟨_, hx, hu _ hx, ?_⟩
  rw [hu _ hx]
  exact hF.tfPick ham hk _ fun y => hamX (fun x => F x + valueFn M.LT (M.stages.drop k) x) y

/-- A state on an optimal trajectory minimises the sum of the forward and backward values. -/
theorem FwdInv.min_of_optimal {LT : Fin n → K} {ss : List (FStage n m K)} {x0 : Fin n} {k : ℕ} {F : Fin n → K}
    (hF : FwdInv LT ss x0 k F) (hk : k ≤ ss.length) (us : List (Fin m)) (hus : IsOptimal LT ss x0 us) (y : Fin n) :
    F (stateAt ss x0 us k) + valueFn LT (ss.drop k) (stateAt ss x0 us k) ≤ F y + valueFn LT (ss.drop k) y := by
  have hl := hus.1
  have hc : totalCost LT ss x0 us = valueFn LT ss x0 := (isOptimal_iff LT ss x0 us hl).1 hus
  have h2 := hF.upper (us.take k) (by simp; omega)
  rw [stateAt_take _ _ _ _ (by omega) (by omega)] at h2
  have h3 := totalCost_append LT ss x0 (us.take k) (us.drop k) (by simp; omega)
  have hlen : (us.take k).length = k := by simp; omega
  rw [List.take_append_drop, hlen, stateAt_take _ _ _ _ (by omega) (by omega), hc] at h3
  have h4 : F (stateAt ss x0 us k) + valueFn LT (ss.drop k) (stateAt ss x0 us k) ≤ valueFn LT ss x0 := by
    rw [h3]
    exact add_le_add h2 (valueFn_le LT _ _ _ (by simp; omega))
  refine h4.trans ?_
  rcases hF.lower y with ⟨vs, hv, rfl, hFy⟩ | hlt
  · have := value_le_partial LT ss x0 vs (by omega)
    rw [hv] at this
    rw [hFy]
    exact this
  · exact hlt.le

end Fwd

end Verif
