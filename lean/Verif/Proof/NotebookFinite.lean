import Verif.Model.NotebookFinite
import Verif.Proof.SpeedFinite
import Verif.Proof.FSCFwdBwd

/-! Helper lemmas for the notebooks on finite states and on the Gilbert-Elliot model. -/

namespace Verif

theorem maxAbsIdx_self {n : ℕ} (a : List (Fin n)) (h : a ≠ []) : maxAbsIdx a a = .ok 0 := by
  unfold maxAbsIdx
  rw [if_neg (not_not.2 rfl)]
  have : List.zipWith (fun i j : Fin n => ((i.val : ℤ) - (j.val : ℤ)).natAbs) a a = List.replicate a.length 0 := by
    rw [List.zipWith_self]
    simp
  rw [this]
  cases a with
  | nil => exact absurd rfl h
  | cons x l =>
    rw [List.length_cons, List.replicate_succ]
    dsimp only
    clear this h
    congr 1
    induction l with
    | nil => rfl
    | cons y l ih => rw [List.length_cons, List.replicate_succ, List.foldl_cons, max_self]; exact ih

theorem foldl_max_greatest {α : Type} [LinearOrder α] (l : List α) (e : α) : IsGreatest {d | d ∈ e :: l} (l.foldl max e) := by
  induction l generalizing e with
  | nil => exact ⟨by simp, fun d hd => by simpa using (List.mem_singleton.1 hd).le⟩
  | cons a l ih =>
    obtain ⟨h1, h2⟩ := ih (max e a)
    refine ⟨?_, fun d hd => ?_⟩
    · rcases List.mem_cons.1 h1 with h | h
      · rw [List.foldl_cons, Set.mem_setOf_eq, h]
        rcases max_choice e a with h | h <;> rw [h] <;> simp
      · exact List.mem_cons_of_mem _ (List.mem_cons_of_mem _ h)
    · rcases List.mem_cons.1 hd with rfl | h
      · exact (le_max_left _ _).trans (h2 (List.mem_cons_self ..))
      · rcases List.mem_cons.1 h with rfl | h
        · exact (le_max_right _ _).trans (h2 (List.mem_cons_self ..))
        · exact h2 (List.mem_cons_of_mem _ h)

theorem maxAbsIdx_greatest {n : ℕ} {a b : List (Fin n)} {e : ℕ} (h : maxAbsIdx a b = .ok e) :
    IsGreatest {d : ℕ | ∃ (k : ℕ) (x y : Fin n), a[k]? = some x ∧ b[k]? = some y ∧ d = ((x.val : ℤ) - y.val).natAbs} e := by
  unfold maxAbsIdx at h
  split at h
  · cases h
  split at h
  · cases h
  · next e' es he =>
    cases h
    have := foldl_max_greatest es e'
    rw [← he] at this
    refine (congrArg (IsGreatest · _) (Set.ext fun d => ?_)).mpr this
    simp only [Set.mem_setOf_eq, List.mem_iff_getElem?, List.getElem?_zipWith_eq_some]
    constructor
    · rintro ⟨k, x, y, h1, h2, rfl⟩
      exact ⟨k, x, y, h1, h2, rfl⟩
    · rintro ⟨k, x, y, h1, h2, h3⟩
      exact ⟨k, x, y, h1, h2, h3.symm⟩

theorem tfMaxAbs_greatest {K : Type} [AddGroup K] [LinearOrder K] {n : ℕ} {a b : List (Fin n → K)} {e : K} (h : tfMaxAbs a b = .ok e) :
    IsGreatest {d : K | ∃ (k : ℕ) (x y : Fin n → K) (i : Fin n), a[k]? = some x ∧ b[k]? = some y ∧ d = |x i - y i|} e := by
  unfold tfMaxAbs at h
  split at h
  · cases h
  dsimp only at h
  split at h
  · cases h
  · next e' es he =>
    cases h
    have := foldl_max_greatest es e'
    rw [← he] at this
    refine (congrArg (IsGreatest · _) (Set.ext fun d => ?_)).mpr this
    simp only [Set.mem_setOf_eq, List.mem_flatMap, List.mem_map, List.mem_finRange, true_and, List.mem_iff_getElem? (l := a.zip b),
      List.getElem?_zip_eq_some]
    constructor
    · rintro ⟨k, x, y, i, h1, h2, rfl⟩
      exact ⟨(x, y), ⟨k, h1, h2⟩, i, rfl⟩
    · rintro ⟨⟨x, y⟩, ⟨k, h1, h2⟩, i, rfl⟩
      exact ⟨k, x, y, i, h1, h2, rfl⟩

theorem maxAbsIdx_ok {n : ℕ} (a b : List (Fin n)) (h : a.length = b.length) (hne : a ≠ []) : ∃ d, maxAbsIdx a b = .ok d := by
  unfold maxAbsIdx
  rw [if_neg (not_not.2 h)]
  cases a with
  | nil => exact absurd rfl hne
  | cons x l =>
    cases b with
    | nil => simp at h
    | cons y l' => exact ⟨_, rfl⟩

/-- The largest difference is zero iff the lists are the same. -/
theorem maxAbsIdx_eq_zero {n : ℕ} (a b : List (Fin n)) (h : maxAbsIdx a b = .ok 0) : a = b := by
  unfold maxAbsIdx at h
  split at h
  · cases h
  · next hl =>
    rw [not_not] at hl
    have hz : ∀ (l : List ℕ) (e : ℕ), l.foldl max e = 0 → e = 0 ∧ ∀ y ∈ l, y = 0 := by
      intro l
      induction l with
      | nil => intro e he; exact ⟨he, by simp⟩
      | cons y l ih =>
        intro e he
        obtain ⟨h1, h2⟩ := ih _ he
        have : e = 0 ∧ y = 0 := by omega
        exact ⟨this.1, by simpa [this.2] using h2⟩
    have hall : ∀ y ∈ List.zipWith (fun i j : Fin n => ((i.val : ℤ) - (j.val : ℤ)).natAbs) a b, y = 0 := by
      split at h
      · cases h
      · next e es he =>
        rw [he]
        obtain ⟨h1, h2⟩ := hz es e (Except.ok.inj h)
        intro y hy
        rcases List.mem_cons.1 hy with rfl | hy
        · exact h1
        · exact h2 y hy
    apply List.ext_getElem hl
    intro k h1 h2
    have h3 : k < (List.zipWith (fun i j : Fin n => ((i.val : ℤ) - (j.val : ℤ)).natAbs) a b).length := by simp; omega
    have := hall _ (List.getElem_mem h3)
    rw [List.getElem_zipWith] at this
    exact Fin.ext (by omega)

section
variable {n m : ℕ} {K : Type} [LinearOrder K] [AddCommMonoid K] [NeZero n] [NeZero m]

/-- The combination of forward and backward values in numpy is that in TensorFlow with ties in favour of the smallest index, if the
elements agree. -/
theorem parFwdBwd_eq_tf (inf : K) (M : FSC n m K) (x0 : Fin n) (us : List (Fin n → Fin m)) (Vs : List (Fin n → K)) (hT : M.stages ≠ [])
    (hV : Vs.length = M.stages.length + 1) (hu : us.length = M.stages.length)
    (hs : IsAssocScan fun (op : (Fin n → Fin n → K) → (Fin n → Fin n → K) → Py (Fin n → Fin n → K)) l => scanVals op l)
    (he : ∀ s ∈ M.stages, tfStageElem inf s = stageElem inf s) :
    M.parFwdBwdPass inf x0 us Vs = M.tfParFwdBwd (fun op l => scanVals op l) argmin1 inf x0 us Vs := by
  have hinit : M.parFwdBwdInit inf x0 = .ok (tfFwdBwdFirst inf x0 :: M.stages.map (tfStageElem inf)) := by
    unfold FSC.parFwdBwdInit
    have e1 : (fun _ x => if x = x0 then 0 else inf : Fin n → Fin n → K) = tfFwdBwdFirst inf x0 := by
      funext i x
      simp only [tfFwdBwdFirst, Function.update_apply]
    have e2 : M.stages.map (stageElem inf) = M.stages.map (tfStageElem inf) :=
      List.map_congr_left fun s hs => (he s hs).symm
    rw [e1, e2]
    cases h : M.stages with
    | nil => exact absurd h hT
    | cons s ss => rfl
  obtain ⟨es, hes⟩ := hs.total (op := fun x y => .ok (tfFscCombV x y)) (l := tfFwdBwdFirst inf x0 :: M.stages.map (tfStageElem inf))
    (fun _ => True) (fun _ _ _ _ => ⟨_, rfl, trivial⟩) (by simp) (fun _ _ => trivial)
  have hlen := (hs.pref hes).1
  simp only [List.length_cons, List.length_map] at hlen
  unfold FSC.parFwdBwdPass FSC.tfParFwdBwd
  rw [hinit, py_ok_bind]
  have hemp : M.stages.isEmpty = false := by
    cases h : M.stages with
    | nil => exact absurd h hT
    | cons s ss => rfl
  rw [hemp, if_neg (by simp), if_neg (by rintro (h | h) <;> omega)]
  change (scanVals (fun x y => .ok (tfFscCombV x y)) (tfFwdBwdFirst inf x0 :: M.stages.map (tfStageElem inf)) >>= _) =
    (scanVals (fun x y => .ok (tfFscCombV x y)) (tfFwdBwdFirst inf x0 :: M.stages.map (tfStageElem inf)) >>= _)
  have hes' : scanVals (fun x y => .ok (tfFscCombV x y)) (tfFwdBwdFirst inf x0 :: M.stages.map (tfStageElem inf)) = .ok es := hes
  rw [hes', py_ok_bind, py_ok_bind]
  set xs := (es.map (fun e => e 0)).zipWith (fun Vf V => (argmin1 fun x => Vf x + V x : Fin n)) Vs with hxs
  have hxl : xs.length = M.stages.length + 1 := by simp [hxs, hlen, hV]
  have hget : ∀ k (hk : k < M.stages.length + 1), ∃ e V, es[k]? = some e ∧ Vs[k]? = some V ∧
      xs[k]? = some (argmin1 fun x => e 0 x + V x) := by
    intro k hk
    have h1 : k < es.length := by omega
    have h2 : k < Vs.length := by omega
    refine ⟨es[k], Vs[k], List.getElem?_eq_getElem h1, List.getElem?_eq_getElem h2, ?_⟩
    rw [hxs, List.getElem?_zipWith, List.getElem?_map, List.getElem?_eq_getElem h1, List.getElem?_eq_getElem h2]
    rfl
  unfold FSC.parFwdBwdExtract
  have hmap : (List.range es.length).mapM (fun k => do
      let e ← pyGet es k
      let Vk ← pyGet Vs k
      let x := argmin1 (fun x => e 0 x + Vk x)
      return ((us[k]?).map (fun p => p x), x)) =
      Except.ok ((List.range (M.stages.length + 1)).map
        (fun k => ((us[k]?).map (fun p => p (xs.getD k 0)), xs.getD k 0))) := by
    rw [hlen]
    apply mapM_range_of
    intro k hk
    obtain ⟨e, V, h1, h2, h3⟩ := hget k hk
    rw [pyGet_ok.2 h1, pyGet_ok.2 h2, List.getD_eq_getElem?_getD, h3]
    rfl
  rw [hmap, py_ok_bind]
  change Except.ok _ = Except.ok (us.zipWith (fun p x => p x) xs.dropLast, xs)
  congr 1
  refine Prod.ext ?_ ?_
  · dsimp only
    rw [List.map_map]
    apply reduceOption_range
    · simp [hxl, hu]
    · intro k hk
      rw [List.getElem?_zipWith, List.getElem?_dropLast]
      simp only [Function.comp_def]
      by_cases h : k < M.stages.length
      · have h1 : k < us.length := by omega
        have h2 : k < xs.length := by omega
        rw [if_pos (by omega), List.getElem?_eq_getElem h1, List.getElem?_eq_getElem h2, List.getD_eq_getElem?_getD,
          List.getElem?_eq_getElem h2]
        rfl
      · rw [List.getElem?_eq_none (by omega : us.length ≤ k)]
        rfl
  · dsimp only
    rw [List.map_map]
    apply List.ext_getElem?
    intro k
    by_cases h : k < M.stages.length + 1
    · rw [List.getElem?_map, List.getElem?_range h]
      have h2 : k < xs.length := by omega
      simp only [Function.comp_def, Option.map_some, List.getD_eq_getElem?_getD, List.getElem?_eq_getElem h2, Option.getD_some]
    · rw [List.getElem?_eq_none (by simp; omega), List.getElem?_eq_none (by omega)]

end

section Paths
variable {n : ℕ} {K : Type} [Field K] [LinearOrder K] [IsStrictOrderedRing K]

/-- Stages of a game with the cells `c`. -/
def LaneCells (c : ℕ → ℕ → K) (ss : List (FStage n 3 K)) : Prop :=
  ∀ k (hk : k < ss.length) (x : Fin n), ss[k].f x 1 = x ∧ (ss[k].f x 0 : ℕ) = x.val - 1 ∧
    (ss[k].f x 2 : ℕ) = min (x.val + 1) (n - 1) ∧ ∀ u, ss[k].L x u = c x.val k + if u = 1 then 0 else 1

omit [LinearOrder K] [IsStrictOrderedRing K] in
theorem LaneCells.tail {c : ℕ → ℕ → K} {s : FStage n 3 K} {ss : List (FStage n 3 K)} (h : LaneCells c (s :: ss)) :
    LaneCells (fun y k => c y (k + 1)) ss := fun k hk x => h (k + 1) (by simpa using hk) x

/-- The cost of a path over the cells. -/
def lanePathCost (c : ℕ → ℕ → K) (T : ℕ) (p : ℕ → ℕ) : K :=
  ∑ k ∈ Finset.range T, (c (p k) k + ((|(p (k + 1) : ℤ) - p k| : ℤ) : K))

theorem lane_move {x z : Fin n} {u : Fin 3} {f : Fin n → Fin 3 → Fin n} (h1 : f x 1 = x) (h0 : (f x 0 : ℕ) = x.val - 1)
    (h2 : (f x 2 : ℕ) = min (x.val + 1) (n - 1)) (hz : f x u = z) : |(z.val : ℤ) - x.val| ≤ if u = 1 then 0 else 1 := by
  subst hz
  have := x.isLt
  fin_cases u
  · simp only [Fin.zero_eta, Fin.isValue, h0]
    rw [if_neg (by decide), abs_le]
    omega
  · simp [h1]
  · simp only [Fin.reduceFinMk, Fin.isValue, h2]
    rw [if_neg (by decide), abs_le]
    omega

/-- The states of controls form a path that costs at most as much. -/
theorem lane_lower (LT : Fin n → K) (hLT : ∀ x, LT x = 0) : ∀ (ss : List (FStage n 3 K)) (c : ℕ → ℕ → K) (x : Fin n) (us : List (Fin 3)),
    LaneCells c ss → us.length = ss.length →
    lanePathCost c ss.length (fun k => (stateAt ss x us k).val) ≤ totalCost LT ss x us ∧
    ∀ k < ss.length, |((stateAt ss x us (k + 1)).val : ℤ) - (stateAt ss x us k).val| ≤ 1
  | [], c, x, us, _, hl => by simp [lanePathCost, totalCost, hLT]
  | s :: ss, c, x, [], _, hl => by simp at hl
  | s :: ss, c, x, u :: us, h, hl => by
    obtain ⟨ih1, ih2⟩ := lane_lower LT hLT ss _ (s.f x u) us h.tail (by simpa using hl)
    obtain ⟨e1, e0, e2, e3⟩ := h 0 (by simp) x
    simp only [List.getElem_cons_zero] at e1 e0 e2 e3
    have hm := lane_move e1 e0 e2 (u := u) rfl
    constructor
    · unfold lanePathCost at ih1 ⊢
      rw [List.length_cons, Finset.sum_range_succ']
      simp only [stateAt, totalCost, stateAt_zero]
      have hm' : ((|((s.f x u).val : ℤ) - x.val| : ℤ) : K) ≤ if u = 1 then 0 else 1 := by
        refine le_trans (Int.cast_le.2 hm) (le_of_eq ?_)
        split_ifs <;> simp
      rw [e3]
      linarith
    · intro k hk
      cases k with
      | zero =>
        simp only [stateAt, stateAt_zero]
        refine hm.trans ?_
        split_ifs <;> norm_num
      | succ k => exact ih2 k (by simpa using hk)

/-- Every path is that of some controls with its cost. -/
theorem lane_upper (LT : Fin n → K) (hLT : ∀ x, LT x = 0) : ∀ (ss : List (FStage n 3 K)) (c : ℕ → ℕ → K) (x : Fin n) (p : ℕ → ℕ),
    LaneCells c ss → p 0 = x.val → (∀ k, p k < n) → (∀ k < ss.length, |(p (k + 1) : ℤ) - p k| ≤ 1) →
    ∃ us : List (Fin 3), us.length = ss.length ∧ totalCost LT ss x us = lanePathCost c ss.length p
  | [], c, x, p, _, _, _, _ => ⟨[], rfl, by simp [lanePathCost, totalCost, hLT]⟩
  | s :: ss, c, x, p, h, h0, hn, hp => by
    obtain ⟨us, h1, h2⟩ := lane_upper LT hLT ss _ ⟨p 1, hn 1⟩ (fun k => p (k + 1)) h.tail rfl (fun k => hn _)
      (fun k hk => hp (k + 1) (by simpa using hk))
    obtain ⟨e1, e0, e2, e3⟩ := h 0 (by simp) x
    simp only [List.getElem_cons_zero] at e1 e0 e2 e3
    have hp0 := hp 0 (by simp)
    have hn1 := hn 1
    rw [zero_add, h0, abs_le] at hp0
    have key : ∃ u : Fin 3, s.f x u = ⟨p 1, hn1⟩ ∧ ((|(p 1 : ℤ) - x.val| : ℤ) : K) = if u = 1 then 0 else 1 := by
      rcases lt_trichotomy (p 1) x.val with hlt | heq | hgt
      · refine ⟨0, Fin.ext (by simp only [e0]; omega), ?_⟩
        rw [show |(p 1 : ℤ) - x.val| = 1 by rw [abs_of_neg (by omega)]; omega, if_neg (by decide)]
        simp
      · refine ⟨1, by rw [e1]; exact Fin.ext heq.symm, ?_⟩
        rw [heq]
        simp
      · refine ⟨2, Fin.ext (by simp only [e2]; omega), ?_⟩
        rw [show |(p 1 : ℤ) - x.val| = 1 by rw [abs_of_pos (by omega)]; omega, if_neg (by decide)]
        simp
    obtain ⟨u, hu, hc⟩ := key
    refine ⟨u :: us, by simp [h1], ?_⟩
    rw [totalCost, hu, h2, e3, ← hc]
    unfold lanePathCost
    rw [List.length_cons, Finset.sum_range_succ', h0, zero_add]
    ring

end Paths

end Verif
