import Verif.Proof.ViterbiTF
import Verif.Proof.FSCBound

/-! Viterbi decoding as finite-state control, and the parallel passes with non-negative costs. -/

namespace Verif

variable {n m q : ℕ} {P K : Type}

/-! ### Parallel finite-state control with non-negative costs -/

section Nonneg
variable [AddCommMonoid K] [LinearOrder K] [IsOrderedAddMonoid K] [NeZero n] [NeZero m]

theorem valueFn_nonneg (LT : Fin n → K) (ss : List (FStage n m K)) (hLT : ∀ x, 0 ≤ LT x)
    (hL : ∀ s ∈ ss, ∀ x u, 0 ≤ s.L x u) (x : Fin n) : 0 ≤ valueFn LT ss x := by
  induction ss generalizing x with
  | nil => exact hLT x
  | cons s ss ih =>
    apply le_min1
    intro u
    exact add_nonneg (hL s (by simp) x u) (ih (fun s hs => hL s (by simp [hs])) _)

theorem parVal_nonneg (inf : K) (hinf : 0 ≤ inf) (LT : Fin n → K) (ss : List (FStage n m K)) (hLT : ∀ x, 0 ≤ LT x)
    (hL : ∀ s ∈ ss, ∀ x u, 0 ≤ s.L x u) (x : Fin n) : 0 ≤ parVal inf LT ss x := by
  induction ss generalizing x with
  | nil => exact hLT x
  | cons s ss ih =>
    have ih := ih (fun s hs => hL s (by simp [hs]))
    rw [parVal_step]
    apply le_min
    · apply le_min1
      intro u
      exact add_nonneg (hL s (by simp) x u) (ih _)
    · exact le_min1 fun y => add_nonneg hinf (ih y)

theorem parVal_le (inf : K) (LT : Fin n → K) (ss : List (FStage n m K)) (x : Fin n) :
    parVal inf LT ss x ≤ valueFn LT ss x := by
  induction ss generalizing x with
  | nil => exact le_rfl
  | cons s ss ih =>
    rw [parVal_step]
    refine (min_le_left _ _).trans (le_min1 fun u => (min1_le _ u).trans ?_)
    exact add_le_add_right (ih _) _

/-- With non-negative costs the parallel value is the true one or at least the sentinel. -/
theorem parVal_cases (inf : K) (hinf : 0 ≤ inf) (LT : Fin n → K) (ss : List (FStage n m K)) (hLT : ∀ x, 0 ≤ LT x)
    (hL : ∀ s ∈ ss, ∀ x u, 0 ≤ s.L x u) (x : Fin n) :
    parVal inf LT ss x = valueFn LT ss x ∨ inf ≤ parVal inf LT ss x := by
  induction ss generalizing x with
  | nil => exact .inl rfl
  | cons s ss ih =>
    have hL' : ∀ s ∈ ss, ∀ x u, 0 ≤ s.L x u := fun s hs => hL s (by simp [hs])
    have ih := ih hL'
    by_cases hc : inf ≤ parVal inf LT (s :: ss) x
    · exact .inr hc
    · left
      push Not at hc
      apply le_antisymm (parVal_le _ _ _ _)
      rw [parVal_step] at hc ⊢
      have h2 : inf ≤ min1 fun y => inf + parVal inf LT ss y :=
        le_min1 fun y => le_add_of_nonneg_right (parVal_nonneg inf hinf LT ss hLT hL' y)
      apply le_min
      · obtain ⟨u, hu⟩ := min1_attained (stageVu s (parVal inf LT ss) x)
        have hlt : s.L x u + parVal inf LT ss (s.f x u) < inf := by
          have : min1 (stageVu s (parVal inf LT ss) x) < inf := by
            rcases min_lt_iff.1 hc with h | h
            · exact h
            · exact absurd h2 (not_le.2 h)
          rw [hu] at this
          exact this
        have hlt' : parVal inf LT ss (s.f x u) < inf :=
          lt_of_le_of_lt (le_add_of_nonneg_left (hL s (by simp) x u)) hlt
        rw [hu]
        rcases ih (s.f x u) with h | h
        · refine (min1_le _ u).trans (le_of_eq ?_)
          simp only [stageVu, h]
        · exact absurd h (not_le.2 hlt')
      · rcases min_lt_iff.1 hc with h | h
        · obtain ⟨u, hu⟩ := min1_attained (stageVu s (parVal inf LT ss) x)
          rw [hu] at h
          have hlt' : parVal inf LT ss (s.f x u) < inf :=
            lt_of_le_of_lt (le_add_of_nonneg_left (hL s (by simp) x u)) h
          refine le_trans (le_trans (min1_le _ u) ?_) h2
          rcases ih (s.f x u) with h' | h'
          · simp only [stageVu] at h ⊢
            rw [← h']; exact h.le
          · exact absurd h' (not_le.2 hlt')
        · exact absurd h2 (not_le.2 h)

/-- First minimisers agree if the two vectors agree below `inf` and are both at least `inf` elsewhere. -/
theorem argmin1_below {v w : Fin m → K} {inf : K} (h : ∀ i, v i = w i ∨ (inf ≤ v i ∧ inf ≤ w i))
    (hlt : min1 w < inf) : argmin1 v = argmin1 w := by
  have hw : w (argmin1 w) < inf := (argmin1_val w).trans_lt hlt
  have hvw : v (argmin1 w) = w (argmin1 w) := by
    rcases h (argmin1 w) with h | h
    · exact h
    · exact absurd h.2 (not_le.2 hw)
  apply argmin1_unique
  · intro j
    rw [hvw]
    rcases h j with h | h
    · rw [h]; exact argmin1_le w j
    · exact hw.le.trans h.1
  · intro j hj
    rw [hvw]
    rcases h j with h | h
    · rw [h]; exact argmin1_first w j hj
    · exact lt_of_lt_of_le hw h.1

/-- Policies of the parallel pass. -/
def parPolList (inf : K) (LT : Fin n → K) : List (FStage n m K) → List (Fin n → Fin m)
  | [] => []
  | s :: ss => (fun x => argmin1 (stageVu s (parVal inf LT ss) x)) :: parPolList inf LT ss

/-- Values of the parallel pass. -/
def parValList (inf : K) (LT : Fin n → K) : List (FStage n m K) → List (Fin n → K)
  | [] => [LT]
  | s :: ss => parVal inf LT (s :: ss) :: parValList inf LT ss

omit [IsOrderedAddMonoid K] in
theorem parPolList_length (inf : K) (LT : Fin n → K) (ss : List (FStage n m K)) :
    (parPolList inf LT ss).length = ss.length := by
  induction ss with
  | nil => rfl
  | cons s ss ih => simp [parPolList, ih]

omit [IsOrderedAddMonoid K] [NeZero m] in
theorem parValList_get (inf : K) (LT : Fin n → K) (ss : List (FStage n m K)) :
    (parValList inf LT ss).length = ss.length + 1 ∧
    ∀ k ≤ ss.length, (parValList inf LT ss)[k]? = some (parVal inf LT (ss.drop k)) := by
  induction ss with
  | nil => refine ⟨rfl, fun k hk => ?_⟩; obtain rfl : k = 0 := by simpa using hk
           rfl
  | cons s ss ih =>
    refine ⟨by simp [parValList, ih.1], fun k hk => ?_⟩
    cases k with
    | zero => rfl
    | succ k => simpa [parValList] using ih.2 k (by simpa using hk)

omit [IsOrderedAddMonoid K] in
theorem parPolList_get (inf : K) (LT : Fin n → K) (ss : List (FStage n m K)) (k : ℕ) (hk : k < ss.length) :
    (parPolList inf LT ss)[k]? = some (fun x => argmin1 (stageVu ss[k] (parVal inf LT (ss.drop (k + 1))) x)) := by
  induction ss generalizing k with
  | nil => simp at hk
  | cons s ss ih =>
    cases k with
    | zero => rfl
    | succ k => simpa [parPolList] using ih k (by simpa using hk)

theorem parBackwardPass_lists (inf : K) (M : FSC n m K) (hT : M.stages ≠ []) :
    M.parBackwardPass inf = .ok (parPolList inf M.LT M.stages, parValList inf M.LT M.stages) := by
  obtain ⟨us, Vs, h, h1, h2, h3, h4⟩ := parBackwardPass_eq inf M hT
  rw [h]
  congr 2
  · apply list_ext_of h1 (parPolList_length _ _ _)
    intro k hk
    rw [h3 k hk, parPolList_get _ _ _ _ hk]
  · apply list_ext_of h2 (parValList_get _ _ _).1
    intro k hk
    rw [h4 k (by omega), (parValList_get _ _ _).2 k (by omega)]

/-- Below the sentinel the closed loops of the two policies coincide. -/
theorem rollout_parPol (inf : K) (hinf : 0 ≤ inf) (LT : Fin n → K) (ss : List (FStage n m K)) (hLT : ∀ x, 0 ≤ LT x)
    (hL : ∀ s ∈ ss, ∀ x u, 0 ≤ s.L x u) (x : Fin n) (hx : valueFn LT ss x < inf) :
    rollout ss (parPolList inf LT ss) x = rollout ss (polList LT ss) x := by
  induction ss generalizing x with
  | nil => rfl
  | cons s ss ih =>
    have hL' : ∀ s ∈ ss, ∀ x u, 0 ≤ s.L x u := fun s hs => hL s (by simp [hs])
    have hp : argmin1 (stageVu s (parVal inf LT ss) x) = polFn LT s ss x := by
      apply argmin1_below (inf := inf)
      · intro u
        rcases parVal_cases inf hinf LT ss hLT hL' (s.f x u) with h | h
        · exact .inl (by simp only [stageVu, h])
        · refine .inr ⟨?_, ?_⟩
          · exact h.trans (le_add_of_nonneg_left (hL s (by simp) x u))
          · exact (h.trans (parVal_le _ _ _ _)).trans (le_add_of_nonneg_left (hL s (by simp) x u))
      · exact hx
    simp only [parPolList, polList, rollout]
    rw [hp]
    congr 1
    apply ih hL'
    refine lt_of_le_of_lt ?_ hx
    rw [← polFn_val LT s ss x]
    exact le_add_of_nonneg_left (hL s (by simp) x _)

end Nonneg

/-! ### The reduction -/

section Red
variable [CommSemiring P] [LinearOrder P] [AddCommMonoid K] [LinearOrder K] [NeZero n]
  {S : P → Prop} {nl : P → K}

/-- The stage of one observation, as built by `getFSC`. -/
def HMM.stage (nl : P → K) (H : HMM n q P) (y : Fin q) : FStage n n K :=
  ⟨fun _ u => u, fun x u => nl (H.Pi u x * H.Po x y)⟩

omit [LinearOrder P] [AddCommMonoid K] [LinearOrder K] [NeZero n] in
theorem getFSC_eq (H : HMM n q P) (ys : List (Fin q)) (hys : ys ≠ []) :
    H.getFSC nl ys = .ok ⟨ys.reverse.map (H.stage nl), H.nlPrior nl⟩ := by
  cases ys with
  | nil => exact absurd rfl hys
  | cons y ys => rfl

theorem stageVu_stage (h : IsNegLog S nl) {H : HMM n q P} (hH : H.All S) (y : Fin q) (V : Fin n → K) (x : Fin n) :
    stageVu (H.stage nl y) V x = fun j => H.logTemp nl V y j x := by
  funext j
  unfold stageVu HMM.stage HMM.logTemp
  simp only
  rw [h.nl_mul (hH.Pi _ _) (hH.Po _ _), add_comm (nl (H.Pi j x))]

theorem valueFn_stages (h : IsNegLog S nl) {H : HMM n q P} (hH : H.All S) (ys : List (Fin q)) :
    valueFn (H.nlPrior nl) (ys.reverse.map (H.stage nl)) = ys.foldl (H.logStep nl) (H.nlPrior nl) := by
  induction ys using List.reverseRecOn with
  | nil => rfl
  | append_singleton ys y ih =>
    rw [List.reverse_append, List.foldl_append]
    simp only [List.reverse_cons, List.reverse_nil, List.nil_append, List.singleton_append, List.map_cons, valueFn,
      List.foldl_cons, List.foldl_nil]
    rw [ih]
    funext x
    rw [stageVu_stage h hH]
    rfl

theorem valList_stages (h : IsNegLog S nl) {H : HMM n q P} (hH : H.All S) (ys : List (Fin q)) :
    valList (H.nlPrior nl) (ys.reverse.map (H.stage nl)) = (accList (H.logStep nl) (H.nlPrior nl) ys).reverse := by
  induction ys using List.reverseRecOn with
  | nil => rfl
  | append_singleton ys y ih =>
    rw [accList_snoc, List.reverse_append (as := accList _ _ _)]
    have := valueFn_stages h hH (ys ++ [y])
    rw [List.reverse_append, List.foldl_append] at this
    rw [List.reverse_append]
    simp only [List.reverse_cons, List.reverse_nil, List.nil_append, List.singleton_append, List.map_cons, valList,
      List.foldl_cons, List.foldl_nil] at this ⊢
    rw [this, ih]

omit [CommSemiring P] [LinearOrder P] in
theorem logPols_snoc (H : HMM n q P) (V : Fin n → K) (ys : List (Fin q)) (y : Fin q) :
    H.logPols nl V (ys ++ [y]) = H.logPols nl V ys ++
      [fun x => argmin1 fun j => H.logTemp nl (ys.foldl (H.logStep nl) V) y j x] := by
  induction ys generalizing V with
  | nil => rfl
  | cons z ys ih => simp only [List.cons_append, HMM.logPols, List.foldl_cons, ih]

theorem polList_stages (h : IsNegLog S nl) {H : HMM n q P} (hH : H.All S) (ys : List (Fin q)) :
    polList (H.nlPrior nl) (ys.reverse.map (H.stage nl)) = (H.logPols nl (H.nlPrior nl) ys).reverse := by
  induction ys using List.reverseRecOn with
  | nil => rfl
  | append_singleton ys y ih =>
    rw [logPols_snoc, List.reverse_append (as := H.logPols _ _ _)]
    rw [List.reverse_append]
    simp only [List.reverse_cons, List.reverse_nil, List.nil_append, List.singleton_append, List.map_cons, polList]
    rw [ih]
    congr 1
    unfold polFn
    rw [valueFn_stages h hH]
    funext x
    rw [stageVu_stage h hH]

omit [LinearOrder P] [AddCommMonoid K] [LinearOrder K] [NeZero n] in
/-- In the reversed-time problem the control is the next state. -/
theorem statesOf_stages (H : HMM n q P) (zs : List (Fin q)) (us : List (Fin n)) (x : Fin n) (hl : us.length ≤ zs.length) :
    statesOf (zs.map (H.stage nl)) x us = x :: us := by
  induction zs generalizing us x with
  | nil =>
    obtain rfl : us = [] := by simpa using hl
    exact statesOf_nil _ _
  | cons z zs ih =>
    cases us with
    | nil => exact statesOf_nil _ _
    | cons u us =>
      rw [List.map_cons, statesOf_cons, ih us _ (by simpa using hl)]
      rfl

omit [LinearOrder P] [AddCommMonoid K] [LinearOrder K] [NeZero n] in
theorem rollout_stages (H : HMM n q P) (zs : List (Fin q)) (ps : List (Fin n → Fin n)) (x : Fin n)
    (hl : ps.length = zs.length) :
    x :: rollout (zs.map (H.stage nl)) ps x = accList (fun x u => u x) x ps := by
  induction zs generalizing ps x with
  | nil =>
    obtain rfl : ps = [] := by simpa using hl
    rfl
  | cons z zs ih =>
    cases ps with
    | nil => simp at hl
    | cons p ps =>
      simp only [List.map_cons, rollout, accList]
      rw [← ih ps (p x) (by simpa using hl)]
      rfl

omit [CommSemiring P] [LinearOrder P] in
theorem logPols_length (H : HMM n q P) (V : Fin n → K) (ys : List (Fin q)) :
    (H.logPols nl V ys).length = ys.length := by
  rw [logPols_eq_amPols, amPols_length]

theorem seqViterbi_eq (h : IsNegLog S nl) {H : HMM n q P} (hH : H.All S) (ys : List (Fin q)) (hys : ys ≠ []) :
    H.seqViterbi nl ys = H.refViterbiLog2 nl ys := by
  rw [refViterbiLog2_eq]
  unfold HMM.seqViterbi
  rw [getFSC_eq H ys hys]
  set M : FSC n n K := ⟨ys.reverse.map (H.stage nl), H.nlPrior nl⟩ with hM
  have h1 : M.seqBackwardPass = ((H.logPols nl (H.nlPrior nl) ys).reverse,
      (accList (H.logStep nl) (H.nlPrior nl) ys).reverse) := by
    rw [seqBackwardPass_eq, ← polList_stages h hH, ← valList_stages h hH]
  obtain ⟨l, hl⟩ := accList_reverse_head (H.logStep nl) (H.nlPrior nl) ys
  set x0 := argmin1 (ys.foldl (H.logStep nl) (H.nlPrior nl)) with hx0
  have h2 : pyGet (accList (H.logStep nl) (H.nlPrior nl) ys).reverse 0 =
      .ok (ys.foldl (H.logStep nl) (H.nlPrior nl)) := by rw [hl]; rfl
  have h3 : ∃ us, M.seqForwardPass x0 (H.logPols nl (H.nlPrior nl) ys).reverse =
      .ok (us, (backFold (H.logPols nl (H.nlPrior nl) ys) [x0]).reverse) := by
    have hll : ((H.logPols nl (H.nlPrior nl) ys).reverse).length = M.stages.length := by
      simp [hM, logPols_length]
    refine ⟨rollout M.stages (H.logPols nl (H.nlPrior nl) ys).reverse x0, (seqForwardPass_eq M x0 _ hll.le).trans ?_⟩
    congr 2
    rw [backFold_eq, List.reverse_reverse]
    rw [hM]
    simp only
    rw [statesOf_stages]
    · exact rollout_stages H _ _ _ (by simpa [hM] using hll)
    · rw [rollout_length _ _ _ (by simpa [hM] using hll.le)]
      simpa [hM] using hll.le
  obtain ⟨us, h3⟩ := h3
  show (do
    let x0 := argmin1 (← pyGet M.seqBackwardPass.2 0)
    let r ← M.seqForwardPass x0 M.seqBackwardPass.1
    return fscToViterbi r.2 M.seqBackwardPass.2) = _
  rw [h1]
  simp only [h2]
  show (do
    let r ← M.seqForwardPass x0 (H.logPols nl (H.nlPrior nl) ys).reverse
    return fscToViterbi r.2 (accList (H.logStep nl) (H.nlPrior nl) ys).reverse) = _
  rw [h3]
  show Except.ok (fscToViterbi _ _) = _
  unfold fscToViterbi
  rw [List.reverse_reverse, List.reverse_reverse]

/-- What the two parallel decoders compute, in terms of the control problem. -/
theorem parBwdFwdViterbi_eq [IsOrderedAddMonoid K] (inf : K) (H : HMM n q P) (ys : List (Fin q)) (hys : ys ≠ []) :
    H.parBwdFwdViterbi inf nl ys =
      let ss := ys.reverse.map (H.stage nl)
      let x0 := argmin1 (parVal inf (H.nlPrior nl) ss)
      .ok (fscToViterbi (statesOf ss x0 (rollout ss (parPolList inf (H.nlPrior nl) ss) x0))
        (parValList inf (H.nlPrior nl) ss)) := by
  unfold HMM.parBwdFwdViterbi
  rw [getFSC_eq H ys hys]
  set M : FSC n n K := ⟨ys.reverse.map (H.stage nl), H.nlPrior nl⟩ with hM
  have hT : M.stages ≠ [] := by simp [hM, hys]
  have h1 := parBackwardPass_lists inf M hT
  have h2 : pyGet (parValList inf M.LT M.stages) 0 = .ok (parVal inf M.LT M.stages) := by
    rw [pyGet_ok]; exact (parValList_get inf M.LT M.stages).2 0 (Nat.zero_le _)
  have h3 := parForwardPass_eq M (argmin1 (parVal inf M.LT M.stages)) (parPolList inf M.LT M.stages) hT
    (parPolList_length _ _ _)
  rw [seqForwardPass_eq M _ _ (parPolList_length _ _ _).le] at h3
  show (do
    let r ← M.parBackwardPass inf
    let x0 := argmin1 (← pyGet r.2 0)
    let r' ← M.parForwardPass x0 r.1
    return fscToViterbi r'.2 r.2) = _
  rw [h1]
  show (do
    let x0 := argmin1 (← pyGet (parValList inf M.LT M.stages) 0)
    let r' ← M.parForwardPass x0 (parPolList inf M.LT M.stages)
    return fscToViterbi r'.2 (parValList inf M.LT M.stages)) = _
  rw [h2]
  show (do
    let r' ← M.parForwardPass (argmin1 (parVal inf M.LT M.stages)) (parPolList inf M.LT M.stages)
    return fscToViterbi r'.2 (parValList inf M.LT M.stages)) = _
  rw [h3]
  rfl

theorem seqViterbi_eq' [IsOrderedAddMonoid K] (H : HMM n q P) (ys : List (Fin q)) (hys : ys ≠ []) :
    H.seqViterbi nl ys =
      let ss := ys.reverse.map (H.stage nl)
      let x0 := argmin1 (valueFn (H.nlPrior nl) ss)
      .ok (fscToViterbi (statesOf ss x0 (rollout ss (polList (H.nlPrior nl) ss) x0))
        (valList (H.nlPrior nl) ss)) := by
  unfold HMM.seqViterbi
  rw [getFSC_eq H ys hys]
  set M : FSC n n K := ⟨ys.reverse.map (H.stage nl), H.nlPrior nl⟩ with hM
  have h2 : pyGet (valList M.LT M.stages) 0 = .ok (valueFn M.LT M.stages) := by
    rw [pyGet_ok]; exact valList_get M.LT M.stages (Nat.zero_le _)
  have h3 := seqForwardPass_eq M (argmin1 (valueFn M.LT M.stages)) (polList M.LT M.stages) (polList_length _ _).le
  show (do
    let x0 := argmin1 (← pyGet M.seqBackwardPass.2 0)
    let r' ← M.seqForwardPass x0 M.seqBackwardPass.1
    return fscToViterbi r'.2 M.seqBackwardPass.2) = _
  rw [seqBackwardPass_eq]
  show (do
    let x0 := argmin1 (← pyGet (valList M.LT M.stages) 0)
    let r' ← M.seqForwardPass x0 (polList M.LT M.stages)
    return fscToViterbi r'.2 (valList M.LT M.stages)) = _
  rw [h2]
  show (do
    let r' ← M.seqForwardPass (argmin1 (valueFn M.LT M.stages)) (polList M.LT M.stages)
    return fscToViterbi r'.2 (valList M.LT M.stages)) = _
  rw [h3]
  rfl

omit [NeZero n] in
/-- Cost of a control sequence of the reversed-time problem is the negative log probability of the path. -/
theorem totalCost_stages (h : IsNegLog S nl) {H : HMM n q P} (hH : H.All S) (zs : List (Fin q)) (us : List (Fin n))
    (x : Fin n) (hl : us.length = zs.length) :
    totalCost (H.nlPrior nl) (zs.map (H.stage nl)) x us = nl (H.jointProb zs.reverse (x :: us).reverse) := by
  induction zs generalizing us x with
  | nil =>
    obtain rfl : us = [] := by simpa using hl
    simp [totalCost, HMM.jointProb, HMM.tailProb]
  | cons z zs ih =>
    cases us with
    | nil => simp at hl
    | cons u us =>
      have hl' : us.length = zs.length := by simpa using hl
      rw [List.map_cons, List.reverse_cons, List.reverse_cons (a := x)]
      simp only [totalCost]
      rw [jointProb_snoc H zs.reverse z (u :: us).reverse x u (by simp [hl']) (by simp),
        h.nl_mul (jointProb_mem h hH _ _) (h.mul (hH.Pi _ _) (hH.Po _ _)), ← ih us u hl', add_comm]
      rfl

/-- An optimal control sequence from the best initial state is a maximum a posteriori path. -/
theorem isMAP_of_isOptimal [IsOrderedAddMonoid K] (h : IsNegLog S nl) {H : HMM n q P} (hH : H.All S)
    (ys : List (Fin q)) (us : List (Fin n))
    (hopt : IsOptimal (H.nlPrior nl) (ys.reverse.map (H.stage nl))
      (argmin1 (valueFn (H.nlPrior nl) (ys.reverse.map (H.stage nl)))) us) :
    H.IsMAP ys (argmin1 (valueFn (H.nlPrior nl) (ys.reverse.map (H.stage nl))) :: us).reverse := by
  have hul : us.length = ys.length := by simpa using hopt.1
  have hv := (isOptimal_iff _ _ _ _ hopt.1).1 hopt
  refine ⟨by simp [hul], fun p hp => ?_⟩
  rw [← h.nl_le (jointProb_mem h hH _ _) (jointProb_mem h hH _ _)]
  have h1 := totalCost_stages h hH ys.reverse us
    (argmin1 (valueFn (H.nlPrior nl) (ys.reverse.map (H.stage nl)))) (by simp [hul])
  rw [List.reverse_reverse] at h1
  rw [← h1, hv]
  cases hr : p.reverse with
  | nil => have := congrArg List.length hr; simp [hp] at this
  | cons z zs =>
    have hzl : zs.length = ys.length := by have := congrArg List.length hr; simp [hp] at this; omega
    have h2 := totalCost_stages h hH ys.reverse zs z (by simp [hzl])
    rw [← hr, List.reverse_reverse, List.reverse_reverse] at h2
    rw [← h2]
    exact (argmin1_le _ z).trans (valueFn_le _ _ _ _ (by simp [hzl]))

end Red

end Verif
