import Verif.Proof.FSC

/-! Finite-state control: parallel passes. -/

namespace Verif

variable {n m : ℕ} {K : Type}

section Elem
variable [LinearOrder K]

theorem fill_row (s : FStage n m K) (x : Fin n) : ∀ (l : List (Fin m)) (V : Fin n → Fin n → K),
    let V' := l.foldl (fillStep s x) V
    (∀ x', x' ≠ x → V' x' = V x') ∧ (∀ y, V' x y ≤ V x y) ∧ (∀ u ∈ l, V' x (s.f x u) ≤ s.L x u) ∧
    (∀ y, V' x y = V x y ∨ ∃ u, s.f x u = y ∧ V' x y = s.L x u) := by
  intro l
  induction l with
  | nil => intro V; simp
  | cons u l ih =>
    intro V
    simp only [List.foldl_cons]
    obtain ⟨h1, h2, h3, h4⟩ := ih (fillStep s x V u)
    generalize l.foldl (fillStep s x) (fillStep s x V u) = W at *
    have f1 : ∀ x', x' ≠ x → fillStep s x V u x' = V x' := by
      intro x' hx'
      unfold fillStep; split
      · rw [Function.update_of_ne hx']
      · rfl
    have f2 : ∀ y, fillStep s x V u x y ≤ V x y := by
      intro y
      unfold fillStep; split
      · rename_i h
        rw [Function.update_self]
        by_cases hy : y = s.f x u
        · subst hy; rw [Function.update_self]; exact h.le
        · rw [Function.update_of_ne hy]
      · exact le_rfl
    have f3 : fillStep s x V u x (s.f x u) ≤ s.L x u := by
      unfold fillStep; split
      · rw [Function.update_self, Function.update_self]
      · rename_i h; exact not_lt.1 h
    have f4 : ∀ y, fillStep s x V u x y = V x y ∨ (s.f x u = y ∧ fillStep s x V u x y = s.L x u) := by
      intro y
      unfold fillStep; split
      · rw [Function.update_self]
        by_cases hy : y = s.f x u
        · subst hy; rw [Function.update_self]; exact Or.inr ⟨rfl, rfl⟩
        · rw [Function.update_of_ne hy]; exact Or.inl rfl
      · exact Or.inl rfl
    refine ⟨fun x' hx' => (h1 x' hx').trans (f1 x' hx'), fun y => (h2 y).trans (f2 y), ?_, ?_⟩
    · intro w hw
      rcases List.mem_cons.1 hw with rfl | hw
      · exact (h2 _).trans f3
      · exact h3 w hw
    · intro y
      rcases h4 y with h | h
      · rcases f4 y with h' | ⟨h', h''⟩
        · exact Or.inl (h.trans h')
        · exact Or.inr ⟨u, h', h.trans h''⟩
      · exact Or.inr h

/-- What the double loop of `parBackwardPass_init` leaves in the element. -/
theorem stageElem_spec (inf : K) (s : FStage n m K) (x y : Fin n) :
    stageElem inf s x y ≤ inf ∧ (∀ u, s.f x u = y → stageElem inf s x y ≤ s.L x u) ∧
    (stageElem inf s x y = inf ∨ ∃ u, s.f x u = y ∧ stageElem inf s x y = s.L x u) := by
  have key : ∀ (l : List (Fin n)) (V : Fin n → Fin n → K), l.Nodup →
      let V' := l.foldl (fun V x => (List.finRange m).foldl (fillStep s x) V) V
      (∀ x, x ∉ l → V' x = V x) ∧
      (∀ x ∈ l, ∀ y, V' x y ≤ V x y ∧ (∀ u, s.f x u = y → V' x y ≤ s.L x u) ∧
        (V' x y = V x y ∨ ∃ u, s.f x u = y ∧ V' x y = s.L x u)) := by
    intro l
    induction l with
    | nil => intro V _; simp
    | cons a l ih =>
      intro V hnd
      rw [List.nodup_cons] at hnd
      simp only [List.foldl_cons]
      obtain ⟨h1, h2, h3, h4⟩ := fill_row s a (List.finRange m) V
      obtain ⟨i1, i2⟩ := ih ((List.finRange m).foldl (fillStep s a) V) hnd.2
      generalize (List.finRange m).foldl (fillStep s a) V = W at *
      generalize l.foldl (fun V x => (List.finRange m).foldl (fillStep s x) V) W = W' at *
      refine ⟨?_, ?_⟩
      · intro x hx
        rw [List.mem_cons, not_or] at hx
        rw [i1 x hx.2, h1 x hx.1]
      · intro x hx y
        rcases List.mem_cons.1 hx with rfl | hx'
        · rw [i1 x hnd.1]
          exact ⟨h2 y, fun u hu => hu ▸ h3 u (List.mem_finRange u), h4 y⟩
        · have hne : x ≠ a := fun e => hnd.1 (e ▸ hx')
          have := i2 x hx' y
          rw [h1 x hne] at this
          exact this
  exact (key (List.finRange n) (fun _ _ => inf) (List.nodup_finRange n)).2 x (List.mem_finRange x) y

end Elem

variable [AddCommMonoid K] [LinearOrder K] [IsOrderedAddMonoid K]

section Comb
variable [NeZero n]

theorem combineV_assoc (a b c : Fin n → Fin n → K) :
    combineV (combineV a b) c = combineV a (combineV b c) := by
  funext i l
  unfold combineV
  apply le_antisymm
  · apply le_min1
    intro j
    obtain ⟨k, hk⟩ := min1_attained (fun k => b j k + c k l)
    rw [hk]
    refine (min1_le _ k).trans ?_
    rw [← add_assoc]
    exact add_le_add (min1_le (fun j => a i j + b j k) j) le_rfl
  · apply le_min1
    intro k
    obtain ⟨j, hj⟩ := min1_attained (fun j => a i j + b j k)
    rw [hj]
    refine (min1_le _ j).trans ?_
    rw [add_assoc]
    exact add_le_add le_rfl (min1_le (fun k => b j k + c k l) k)

/-- Costs-to-go computed by the parallel pass. -/
def parVal (inf : K) (LT : Fin n → K) : List (FStage n m K) → Fin n → K
  | [] => LT
  | s :: ss => fun x => min1 fun y => stageElem inf s x y + parVal inf LT ss y

omit [IsOrderedAddMonoid K] in
theorem foldr1_parVal (inf : K) (LT : Fin n → K) (ss : List (FStage n m K)) :
    foldr1 combineV (ss.map (stageElem inf) ++ [fun x _ => LT x]) = some (fun x _ => parVal inf LT ss x) := by
  induction ss with
  | nil => rfl
  | cons s ss ih =>
    simp only [List.map_cons, List.cons_append, foldr1]
    rw [ih]
    simp only [Option.some.injEq]
    funext x z
    rfl

theorem paren_combineV {l : List (Fin n → Fin n → K)} {v : Fin n → Fin n → K}
    (h : Paren (fun x y => .ok (combineV x y)) l v) : foldr1 combineV l = some v := by
  rw [foldr1_eq_foldl1 (P := fun _ => True) (fun _ _ _ _ => trivial)
    (fun x y z _ _ _ => combineV_assoc x y z) (fun _ _ => trivial)]
  exact paren_foldl1 (P := fun _ => True) (fun _ _ _ _ => rfl) (fun _ _ _ _ => trivial)
    (fun x y z _ _ _ => combineV_assoc x y z) h (fun _ _ => trivial)

theorem scan_combineV_suffix (l : List (Fin n → Fin n → K)) (hne : l ≠ []) :
    ∃ r, scanVals (fun x y => .ok (combineV x y)) l true = .ok r ∧ r.length = l.length ∧
      ∀ k < l.length, r[k]? = foldr1 combineV (l.drop k) := by
  obtain ⟨r, hr⟩ := scanVals_total (P := fun _ => True) (op := fun x y => .ok (combineV x y))
    (fun x y _ _ => ⟨_, rfl, trivial⟩) hne (fun _ _ => trivial) true
  have := scanVals_suffix hr
  refine ⟨r, hr, this.1, fun k hk => ?_⟩
  obtain ⟨v, hv, hp⟩ := this.2 k hk
  rw [hv, paren_combineV hp]

theorem scan_combineV_prefix (l : List (Fin n → Fin n → K)) (hne : l ≠ []) :
    ∃ r, scanVals (fun x y => .ok (combineV x y)) l = .ok r ∧ r.length = l.length ∧
      ∀ k < l.length, r[k]? = foldl1 combineV (l.take (k + 1)) := by
  obtain ⟨r, hr⟩ := scanVals_total (P := fun _ => True) (op := fun x y => .ok (combineV x y))
    (fun x y _ _ => ⟨_, rfl, trivial⟩) hne (fun _ _ => trivial) false
  have := scanVals_prefix hr
  refine ⟨r, hr, this.1, fun k hk => ?_⟩
  obtain ⟨v, hv, hp⟩ := this.2 k hk
  rw [hv, paren_foldl1 (P := fun _ => True) (fun _ _ _ _ => rfl) (fun _ _ _ _ => trivial)
    (fun x y z _ _ _ => combineV_assoc x y z) hp (fun _ _ => trivial)]

/-- `parBackwardPass` in closed form. -/
theorem parBackwardPass_eq [NeZero m] (inf : K) (M : FSC n m K) (hT : M.stages ≠ []) :
    ∃ us Vs, M.parBackwardPass inf = .ok (us, Vs) ∧ us.length = M.stages.length ∧
      Vs.length = M.stages.length + 1 ∧
      (∀ k (hk : k < M.stages.length), us[k]? =
        some (fun x => argmin1 (stageVu M.stages[k] (parVal inf M.LT (M.stages.drop (k + 1))) x))) ∧
      (∀ k ≤ M.stages.length, Vs[k]? = some (parVal inf M.LT (M.stages.drop k))) := by
  have hinit : M.parBackwardInit inf = .ok (M.stages.map (stageElem inf) ++ [fun x _ => M.LT x]) := by
    unfold FSC.parBackwardInit
    cases h : M.stages with
    | nil => exact absurd h hT
    | cons s ss => rfl
  obtain ⟨es, hes, hlen, hget⟩ := scan_combineV_suffix
    (M.stages.map (stageElem inf) ++ [fun x _ => M.LT x]) (by simp)
  simp only [List.length_append, List.length_map, List.length_cons, List.length_nil, zero_add] at hlen hget
  have hget' : ∀ k ≤ M.stages.length, es[k]? = some (fun x _ => parVal inf M.LT (M.stages.drop k) x) := by
    intro k hk
    rw [hget k (by omega), ← foldr1_parVal, List.drop_append_of_le_length (by simpa using hk), List.map_drop]
  let g : ℕ → (Fin n → Fin m) × (Fin n → K) := fun k =>
    if h : k < M.stages.length then
      ((fun x => argmin1 (stageVu M.stages[k] (parVal inf M.LT (M.stages.drop (k + 1))) x)),
        parVal inf M.LT (M.stages.drop (k + 1))) else (fun _ => 0, fun _ => inf)
  have hg : ∀ k (h : k < M.stages.length), g k =
      ((fun x => argmin1 (stageVu M.stages[k] (parVal inf M.LT (M.stages.drop (k + 1))) x)),
        parVal inf M.LT (M.stages.drop (k + 1))) := fun k h => dif_pos h
  have hmap : (List.range (es.length - 1)).mapM (fun k => do
      let e ← pyGet es (k + 1)
      let V := fun x => e x 0
      let s ← pyGet M.stages k
      let Vu := stageVu s V
      return ((fun x => argmin1 (Vu x)), V)) =
      Except.ok ((List.range (es.length - 1)).map g) := by
    apply mapM_range_of
    intro k hk
    have hk' : k < M.stages.length := by omega
    rw [pyGet_ok.2 (hget' (k + 1) hk'), pyGet_lt hk', hg k hk']
    rfl
  have hres : M.parBackwardPass inf = .ok (((List.range (es.length - 1)).map g).map Prod.fst,
      parVal inf M.LT (M.stages.drop 0) :: ((List.range (es.length - 1)).map g).map Prod.snd) := by
    unfold FSC.parBackwardPass
    rw [hinit]
    simp only [bind, Except.bind]
    rw [hes]
    simp only
    unfold FSC.parBackwardExtract
    rw [hmap, pyGet_ok.2 (hget' 0 (Nat.zero_le _))]
    rfl
  refine ⟨_, _, hres, ?_, ?_, ?_, ?_⟩
  · simp; omega
  · simp; omega
  · intro k hk
    have h1 : k < es.length - 1 := by omega
    simp [h1, hg k hk]
  · intro k hk
    cases k with
    | zero => rfl
    | succ k =>
      have h1 : k < es.length - 1 := by omega
      have h2 : k < M.stages.length := by omega
      simp [h1, hg k h2]

omit [IsOrderedAddMonoid K] in
theorem parBackwardPass_nil [NeZero m] (inf : K) (M : FSC n m K) (hT : M.stages = []) :
    M.parBackwardPass inf = .error .indexError := by
  unfold FSC.parBackwardPass FSC.parBackwardInit
  rw [hT]; rfl

/-- One step of the parallel value recursion: the sequential step or an illegal jump costing `inf`. -/
theorem parVal_step [NeZero m] (inf : K) (LT : Fin n → K) (s : FStage n m K) (ss : List (FStage n m K)) (x : Fin n) :
    parVal inf LT (s :: ss) x =
      min (min1 (stageVu s (parVal inf LT ss) x)) (min1 fun y => inf + parVal inf LT ss y) := by
  apply le_antisymm
  · apply le_min
    · apply le_min1
      intro u
      refine (min1_le _ (s.f x u)).trans ?_
      exact add_le_add ((stageElem_spec inf s x (s.f x u)).2.1 u rfl) le_rfl
    · apply le_min1
      intro y
      refine (min1_le _ y).trans ?_
      exact add_le_add (stageElem_spec inf s x y).1 le_rfl
  · apply le_min1
    intro y
    rcases (stageElem_spec inf s x y).2.2 with h | ⟨u, rfl, h⟩
    · rw [h]; exact (min_le_right _ _).trans (min1_le (fun y => inf + parVal inf LT ss y) y)
    · rw [h]; exact (min_le_left _ _).trans (min1_le (stageVu s (parVal inf LT ss) x) u)

theorem parVal_eq_iff [NeZero m] (inf : K) (LT : Fin n → K) (ss : List (FStage n m K)) :
    (∀ k ≤ ss.length, parVal inf LT (ss.drop k) = valueFn LT (ss.drop k)) ↔
    ∀ k < ss.length, ∀ x y, valueFn LT (ss.drop k) x ≤ inf + valueFn LT (ss.drop (k + 1)) y := by
  induction ss with
  | nil => simp [parVal, valueFn]
  | cons s ss ih =>
    have hstep : (∀ k ≤ ss.length, parVal inf LT (ss.drop k) = valueFn LT (ss.drop k)) →
        (parVal inf LT (s :: ss) = valueFn LT (s :: ss) ↔
          ∀ x y, valueFn LT (s :: ss) x ≤ inf + valueFn LT ss y) := by
      intro h
      have h0 : parVal inf LT ss = valueFn LT ss := by simpa using h 0 (Nat.zero_le _)
      constructor
      · intro he x y
        rw [← he, parVal_step, h0]
        exact (min_le_right _ _).trans (min1_le (fun y => inf + valueFn LT ss y) y)
      · intro hle
        funext x
        rw [parVal_step, h0]
        apply min_eq_left
        exact le_min1 (fun y => hle x y)
    constructor
    · intro h
      have htail : ∀ k ≤ ss.length, parVal inf LT (ss.drop k) = valueFn LT (ss.drop k) :=
        fun k hk => by simpa using h (k + 1) (by simpa using hk)
      intro k hk
      cases k with
      | zero => simpa using (hstep htail).1 (by simpa using h 0 (Nat.zero_le _))
      | succ k => simpa using ih.1 htail k (by simpa using hk)
    · intro h
      have htail := ih.2 (fun k hk => by simpa using h (k + 1) (by simpa using hk))
      intro k hk
      cases k with
      | zero => simpa using (hstep htail).2 (by simpa using h 0 (by simp))
      | succ k => simpa using htail k (by simpa using hk)

end Comb

/-! ### Parallel forward pass -/

/-- State after following the policies for `k` steps. -/
def polState (ss : List (FStage n m K)) (ps : List (Fin n → Fin m)) (x : Fin n) (k : ℕ) : Fin n :=
  stateAt ss x (rollout ss ps x) k

omit [AddCommMonoid K] [LinearOrder K] [IsOrderedAddMonoid K] in
theorem paren_combineF {l : List (Fin n → Fin n)} {v : Fin n → Fin n}
    (h : Paren (fun x y => .ok (combineF x y)) l v) : foldr1 combineF l = some v := by
  have hassoc : ∀ x y z : Fin n → Fin n, combineF (combineF x y) z = combineF x (combineF y z) :=
    fun _ _ _ => rfl
  rw [foldr1_eq_foldl1 (P := fun _ => True) (fun _ _ _ _ => trivial)
    (fun x y z _ _ _ => hassoc x y z) (fun _ _ => trivial)]
  exact paren_foldl1 (P := fun _ => True) (fun _ _ _ _ => rfl) (fun _ _ _ _ => trivial)
    (fun x y z _ _ _ => hassoc x y z) h (fun _ _ => trivial)

def polElems (ss : List (FStage n m K)) (ps : List (Fin n → Fin m)) : List (Fin n → Fin n) :=
  List.zipWith (fun (s : FStage n m K) (p : Fin n → Fin m) => fun x => s.f x (p x)) ss ps

omit [AddCommMonoid K] [LinearOrder K] [IsOrderedAddMonoid K] in
/-- Composition of the first `k+1` step maps. -/
theorem foldr1_polElems (ss : List (FStage n m K)) (ps : List (Fin n → Fin m)) (x0 : Fin n) (k : ℕ)
    (hl : ps.length = ss.length) (hk : k ≤ ss.length) :
    ∃ e, foldr1 combineF ((fun _ => x0) :: (polElems ss ps).take k) = some e ∧ ∀ i, e i = polState ss ps x0 k := by
  have key : ∀ (ss : List (FStage n m K)) (ps : List (Fin n → Fin m)) (k : ℕ),
      ps.length = ss.length → k ≤ ss.length → 0 < k →
      foldr1 combineF ((polElems ss ps).take k) = some (fun x => polState ss ps x k) := by
    intro ss
    induction ss with
    | nil => intro ps k _ h1 h2; simp at h1; omega
    | cons s ss ih =>
      intro ps k hl hk h0
      cases ps with
      | nil => simp at hl
      | cons p ps =>
        obtain ⟨k, rfl⟩ : ∃ j, k = j + 1 := ⟨k - 1, by omega⟩
        simp only [polElems, List.zipWith_cons_cons, List.take_succ_cons, foldr1]
        cases k with
        | zero =>
          simp only [List.take_zero, foldr1, Option.some.injEq]
          funext x
          simp [polState, rollout, stateAt, stateAt_zero]
        | succ k =>
          have := ih ps (k + 1) (by simpa using hl) (by simpa using hk) (by omega)
          simp only [polElems] at this
          rw [this]
          simp only [Option.some.injEq]
          funext x
          simp [combineF, polState, rollout, stateAt]
  rcases Nat.eq_zero_or_pos k with rfl | h0
  · exact ⟨fun _ => x0, by simp [foldr1], by intro i; simp [polState, stateAt_zero]⟩
  · refine ⟨fun _ => polState ss ps x0 k, ?_, fun i => rfl⟩
    rw [foldr1, key ss ps k hl hk h0]
    rfl

omit [AddCommMonoid K] [LinearOrder K] [IsOrderedAddMonoid K] in
theorem rollout_get (ss : List (FStage n m K)) (ps : List (Fin n → Fin m)) (x : Fin n) (k : ℕ)
    (hl : ps.length = ss.length) :
    (rollout ss ps x)[k]? = (ps[k]?).map (fun p => p (polState ss ps x k)) := by
  induction ss generalizing ps x k with
  | nil => cases ps with
    | nil => simp [rollout]
    | cons => simp at hl
  | cons s ss ih =>
    cases ps with
    | nil => simp at hl
    | cons p ps =>
      cases k with
      | zero => simp [rollout, polState, stateAt_zero]
      | succ k =>
        simp only [rollout, List.getElem?_cons_succ, polState, stateAt]
        exact ih ps _ k (by simpa using hl)

theorem reduceOption_range {β : Type} (l : List β) (g : ℕ → Option β) (N : ℕ) (hN : l.length ≤ N)
    (h : ∀ k < N, g k = l[k]?) : ((List.range N).map g).reduceOption = l := by
  have h1 : (List.range N).map g = (List.range N).map (fun k => l[k]?) :=
    List.map_congr_left (fun k hk => h k (List.mem_range.1 hk))
  rw [h1]
  clear h h1
  induction N generalizing l with
  | zero => have : l = [] := by simpa using hN
            subst this; rfl
  | succ N ih =>
    cases l with
    | nil =>
      have : (List.range (N+1)).map (fun k => ([] : List β)[k]?) = List.replicate (N+1) none := by
        apply List.ext_getElem?
        intro k
        by_cases hk : k < N + 1 <;> simp [hk, List.getElem?_replicate]
      rw [this]
      simp [List.reduceOption]
    | cons x l =>
      rw [List.range_succ_eq_map]
      simp only [List.map_cons, List.map_map, List.getElem?_cons_zero]
      have : (fun k => (x :: l)[k]?) ∘ Nat.succ = fun k => l[k]? := by funext k; simp
      rw [this, List.reduceOption_cons_of_some, ih l (by simpa using hN)]

omit [AddCommMonoid K] [LinearOrder K] [IsOrderedAddMonoid K] in
theorem parForwardPass_eq [NeZero n] (M : FSC n m K) (x0 : Fin n) (ps : List (Fin n → Fin m))
    (hT : M.stages ≠ []) (hl : ps.length = M.stages.length) :
    M.parForwardPass x0 ps = M.seqForwardPass x0 ps := by
  rw [seqForwardPass_eq M x0 ps hl.le]
  have hpl : (polElems M.stages ps).length = M.stages.length := by simp [polElems, hl]
  have hinit : M.parForwardInit x0 ps = .ok ((fun _ => x0) :: polElems M.stages ps) := by
    unfold FSC.parForwardInit
    have hemp : M.stages.isEmpty = false := by simpa using hT
    rw [hemp]
    have hmap : (List.range M.stages.length).mapM (fun k => do
        let p ← pyGet ps k
        let s ← pyGet M.stages k
        return (fun x => s.f x (p x))) = Except.ok (polElems M.stages ps) := by
      rw [mapM_range_ok]
      refine ⟨hpl, fun k hk => ?_⟩
      refine ⟨fun x => M.stages[k].f x ((ps[k]'(by omega)) x), ?_, ?_⟩
      · rw [polElems, List.getElem?_zipWith, List.getElem?_eq_getElem hk,
          List.getElem?_eq_getElem (by omega : k < ps.length)]
      · rw [pyGet_lt hk, pyGet_lt (by omega : k < ps.length)]; rfl
    simp only [Bool.false_eq_true, if_false, pure_bind]
    rw [hmap]; rfl
  obtain ⟨es, hes⟩ := scanVals_total (P := fun _ => True) (op := fun x y => .ok (combineF x y))
    (fun x y _ _ => ⟨_, rfl, trivial⟩) (a := (fun _ => x0) :: polElems M.stages ps) (by simp)
    (fun _ _ => trivial) false
  have hp := scanVals_prefix hes
  simp only [List.length_cons, hpl] at hp
  have hget : ∀ k ≤ M.stages.length, ∃ e, es[k]? = some e ∧ ∀ i, e i = polState M.stages ps x0 k := by
    intro k hk
    obtain ⟨v, hv, hpv⟩ := hp.2 k (by omega)
    obtain ⟨e, he, hei⟩ := foldr1_polElems M.stages ps x0 k hl hk
    have := paren_combineF hpv
    rw [List.take_succ_cons, he] at this
    rw [← Option.some.inj this] at hv
    exact ⟨e, hv, hei⟩
  unfold FSC.parForwardPass
  rw [hinit]
  simp only [bind, Except.bind]
  rw [hes]
  simp only [pure, Except.pure, Except.ok.injEq]
  unfold FSC.parForwardExtract
  have hz : (List.range es.length).zipWith (fun k (e : Fin n → Fin n) =>
      let x := e 0
      ((ps[k]?).map (fun p => p x), x)) es =
      (List.range (M.stages.length + 1)).map (fun k => ((ps[k]?).map (fun p => p (polState M.stages ps x0 k)),
        polState M.stages ps x0 k)) := by
    apply list_ext_of (n := M.stages.length + 1)
    · simp [hp.1]
    · simp
    · intro k hk
      obtain ⟨e, he, hei⟩ := hget k (by omega)
      rw [List.getElem?_zipWith, he, List.getElem?_range (by rw [hp.1]; exact hk), List.getElem?_map,
        List.getElem?_range hk]
      simp [hei]
  rw [hz]
  simp only [List.map_map, Function.comp_def]
  have hrl := rollout_length M.stages ps x0 hl.le
  rw [reduceOption_range (rollout M.stages ps x0) _ _ (by omega)
    (fun k hk => (rollout_get M.stages ps x0 k hl).symm)]
  rw [statesOf, hrl, hl]
  rfl

end Verif
