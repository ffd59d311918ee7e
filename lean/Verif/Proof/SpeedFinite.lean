import Verif.Model.SpeedFinite
import Verif.Props.Examples
import Verif.Props.FSCTF
import Verif.Props.TFLevels
import Verif.Props.SpeedLinear
import Mathlib.Tactic.Linarith

/-! Lemmas on the speed tests of the game. -/

namespace Verif

variable {n m : ℕ} {K : Type}

section Step
variable [LinearOrder K] [AddCommMonoid K] [IsOrderedCancelAddMonoid K] [NeZero m]

/-- Every step of an optimal control sequence is greedy. -/
theorem optimal_step (LT : Fin n → K) (ss : List (FStage n m K)) (x : Fin n) (us : List (Fin m)) (h : IsOptimal LT ss x us) (k : ℕ)
    (hk : k < ss.length) : ∃ u, us[k]? = some u ∧ stateAt ss x us (k + 1) = ss[k].f (stateAt ss x us k) u ∧
      stageVu ss[k] (valueFn LT (ss.drop (k + 1))) (stateAt ss x us k) u = valueFn LT (ss.drop k) (stateAt ss x us k) := by
  have hl := h.1
  replace h := (isOptimal_iff LT ss x us hl).1 h
  induction ss generalizing x us k with
  | nil => simp at hk
  | cons s ss ih =>
    cases us with
    | nil => simp at hl
    | cons u us =>
      have hl' : us.length = ss.length := by simpa using hl
      have h1 := valueFn_le LT ss (s.f x u) us hl'
      have h2 : valueFn LT (s :: ss) x ≤ stageVu s (valueFn LT ss) x u := min1_le _ u
      have h3 : s.L x u + totalCost LT ss (s.f x u) us = valueFn LT (s :: ss) x := h
      have h4 : totalCost LT ss (s.f x u) us = valueFn LT ss (s.f x u) := by
        refine le_antisymm ?_ h1
        rw [← h3] at h2
        exact le_of_add_le_add_left h2
      cases k with
      | zero =>
        refine ⟨u, rfl, ?_, ?_⟩
        · simp [stateAt]
        · rw [h4] at h3
          simpa [stateAt, stageVu] using h3
      | succ k =>
        obtain ⟨v, g1, g2, g3⟩ := ih (s.f x u) us k (by simpa using hk) hl' h4
        exact ⟨v, by simpa using g1, by simpa [stateAt] using g2, by simpa [stateAt] using g3⟩

end Step

section Lane
variable [Field K] [LinearOrder K] [IsStrictOrderedRing K]

/-- A step of the game with the costs `c` of the lanes. -/
def IsLane (s : FStage n 3 K) : Prop :=
  (∀ x, s.f x 1 = x ∧ (s.f x 0 : ℕ) = x.val - 1 ∧ (s.f x 2 : ℕ) = min (x.val + 1) (n - 1)) ∧
  ∃ c : Fin n → K, ∀ x u, s.L x u = c x + if u = 1 then 0 else 1

/-- Optimal trajectories of the game do not cross: of two greedy steps from `x ≤ w`, the first with the smallest greedy control,
the first ends in a lower lane. -/
theorem lane_order (s : FStage n 3 K) (hs : IsLane s) (V : Fin n → K) (x w : Fin n) (hxw : x ≤ w) (u : Fin 3)
    (hu : stageVu s V w u = min1 (stageVu s V w)) : s.f x (argmin1 (stageVu s V x)) ≤ s.f w u := by
  obtain ⟨hf, c, hc⟩ := hs
  have hV : ∀ x u, stageVu s V x u = c x + (if u = 1 then 0 else 1) + V (s.f x u) := fun x u => by rw [← hc]; rfl
  have hle := argmin1_le (stageVu s V x)
  have hfi := argmin1_first (stageVu s V x)
  have hwle : ∀ v, stageVu s V w u ≤ stageVu s V w v := fun v => hu ▸ min1_le _ v
  have key : ∀ z, s.f w u = z → s.f x (argmin1 (stageVu s V x)) ≤ z := by
    intro z hz
    by_contra hcon
    rw [not_le] at hcon
    generalize argmin1 (stageVu s V x) = p at *
    obtain ⟨x1, x0, x2⟩ := hf x
    obtain ⟨w1, w0, w2⟩ := hf w
    have hxw' : x.val ≤ w.val := hxw
    have hcon' : z.val < (s.f x p).val := hcon
    -- equal lanes: a smaller greedy control exists
    have same : w = x → u < p → False := by
      rintro rfl h
      exact absurd (hwle p) (not_le.2 (hfi u h))
    fin_cases p
    · change z.val < (s.f x 0).val at hcon'
      fin_cases u
      · change s.f w 0 = z at hz
        subst hz
        omega
      · change s.f w 1 = z at hz
        subst hz
        rw [w1] at hcon'
        omega
      · change s.f w 2 = z at hz
        subst hz
        have := w.isLt
        omega
    · change z.val < (s.f x 1).val at hcon'
      rw [x1] at hcon'
      fin_cases u
      · change s.f w 0 = z at hz
        subst hz
        exact same (Fin.ext (by omega)) (by decide)
      · change s.f w 1 = z at hz
        subst hz
        rw [w1] at hcon'
        omega
      · change s.f w 2 = z at hz
        subst hz
        have := w.isLt
        omega
    · change z.val < (s.f x 2).val at hcon'
      have hx : (s.f x 2).val = x.val + 1 := by
        by_contra hne
        have : s.f x 2 = x := Fin.ext (by have := x.isLt; omega)
        have h1 := hle 1
        rw [hV, hV] at h1
        change c x + (if (2 : Fin 3) = 1 then 0 else 1) + V (s.f x 2) ≤ c x + (if (1 : Fin 3) = 1 then 0 else 1) + V (s.f x 1) at h1
        rw [this, x1, if_neg (by decide), if_pos rfl] at h1
        linarith
      by_cases hw : w = x
      · subst hw
        fin_cases u
        · exact same rfl (by decide)
        · exact same rfl (by decide)
        · change s.f w 2 = z at hz
          subst hz
          exact lt_irrefl _ hcon'
      · have hw' : w.val ≠ x.val := fun h => hw (Fin.ext h)
        fin_cases u
        · change s.f w 0 = z at hz
          have e1 : w.val = x.val + 1 := by
            rw [← hz] at hcon'
            omega
          have e2 : s.f w 0 = x := Fin.ext (by omega)
          have e3 : s.f x 2 = w := Fin.ext (by omega)
          have h1 := hle 1
          have h2 := hwle 1
          change stageVu s V x 2 ≤ _ at h1
          change stageVu s V w 0 ≤ _ at h2
          rw [hV, hV, if_neg (by decide), if_pos rfl, e3, x1] at h1
          rw [hV, hV, if_neg (by decide), if_pos rfl, e2, w1] at h2
          linarith
        · change s.f w 1 = z at hz
          rw [← hz, w1] at hcon'
          omega
        · change s.f w 2 = z at hz
          rw [← hz] at hcon'
          have := w.isLt
          omega
  exact key _ rfl

/-- On the game the combination of forward and backward values follows the greedy trajectory, also when there are ties. -/
theorem lane_fwdbwd [NeZero n] {scanV : ((Fin n → Fin n → K) → (Fin n → Fin n → K) → Py (Fin n → Fin n → K)) →
      List (Fin n → Fin n → K) → Py (List (Fin n → Fin n → K))} (hV : IsAssocScan scanV) (inf : K) (M : FSC n 3 K) (x0 : Fin n)
    (hM : ∀ s ∈ M.stages, IsLane s) (hT : M.stages ≠ []) (h : BelowSentinel inf M x0) :
    M.tfParFwdBwd scanV argmin1 inf x0 (amPolList argmin1 M.LT M.stages) (valList M.LT M.stages) =
      .ok (rollout M.stages (amPolList argmin1 M.LT M.stages) x0,
        statesOf M.stages x0 (rollout M.stages (amPolList argmin1 M.LT M.stages) x0)) := by
  obtain ⟨us, xs, h1, h2, h3, h4⟩ := tfParFwdBwd_inv hV argmin1 argmin1 inf M x0 hT (fun k hk x y _ => h.conv.1 k hk x y) h.conv.2
  have ham : IsArgmin (argmin1 : (Fin 3 → K) → Fin 3) := fun v i => argmin1_le v i
  have hamX : IsArgmin (argmin1 : (Fin n → K) → Fin n) := fun v i => argmin1_le v i
  set ps := amPolList argmin1 M.LT M.stages with hps
  have hpl : ps.length = M.stages.length := amPolList_length _ _ _
  set gs := rollout M.stages ps x0 with hgs
  have hgl : gs.length = M.stages.length := by rw [hgs, rollout_length _ _ _ hpl.le, hpl]
  have hopt : IsOptimal M.LT M.stages x0 gs := (isOptimal_iff M.LT M.stages x0 _ hgl).2 (rollout_am_cost ham M.LT M.stages x0)
  have hst : ∀ k ≤ M.stages.length, xs[k]? = some (stateAt M.stages x0 gs k) := by
    intro k
    induction k with
    | zero =>
      intro hk
      obtain ⟨F, hF, hx, -⟩ := h4 0 hk
      obtain ⟨vs, -, hvs, -⟩ := hF.tfPick ham hk _ fun y => hamX (fun x => F x + valueFn M.LT (M.stages.drop 0) x) y
      rw [hx, ← hvs, stateAt_zero, stateAt_zero]
    | succ k ih =>
      intro hk
      have ih := ih (by omega)
      obtain ⟨F, hF, hx, -⟩ := h4 k (by omega)
      obtain ⟨F', hF', hx', -⟩ := h4 (k + 1) hk
      rw [hx] at ih
      obtain ⟨vs, hvs, hvst, -⟩ := hF'.tfPick ham hk _ fun y => hamX (fun x => F' x + valueFn M.LT (M.stages.drop (k + 1)) x) y
      rw [hx']
      congr 1
      refine le_antisymm ?_ ?_
      · by_contra hcon
        rw [not_le] at hcon
        have := argmin1_first (fun x => F' x + valueFn M.LT (M.stages.drop (k + 1)) x) _ hcon
        exact absurd (hF'.min_of_optimal hk gs hopt _) (not_le.2 this)
      · obtain ⟨u, -, e2, e3⟩ := optimal_step M.LT M.stages x0 vs hvs k (by omega)
        obtain ⟨u', g1, g2, -⟩ := optimal_step M.LT M.stages x0 gs hopt k (by omega)
        have hle : stateAt M.stages x0 gs k ≤ stateAt M.stages x0 vs k := by
          by_contra hcon
          rw [not_le, ← Option.some.inj ih] at hcon
          have := argmin1_first (fun x => F x + valueFn M.LT (M.stages.drop k) x) _ hcon
          exact absurd (hF.min_of_optimal (by omega) vs hvs _) (not_le.2 this)
        have hu' : u' = argmin1 (stageVu M.stages[k] (valueFn M.LT (M.stages.drop (k + 1))) (stateAt M.stages x0 gs k)) := by
          rw [hgs, rollout_get _ _ _ _ hpl, hps, amPolList_get _ _ _ (by omega : k < M.stages.length)] at g1
          exact (Option.some.inj g1).symm
        rw [g2, hu', ← hvst, e2]
        refine lane_order _ (hM _ (List.getElem_mem _)) _ _ _ hle _ ?_
        rw [e3, List.drop_eq_getElem_cons (by omega)]
        rfl
  have hxs : xs = statesOf M.stages x0 gs := by
    apply List.ext_getElem?
    intro k
    by_cases hk : k ≤ M.stages.length
    · rw [hst k hk, statesOf_get _ _ _ (by omega)]
    · rw [List.getElem?_eq_none (by omega), List.getElem?_eq_none (by rw [statesOf_length]; omega)]
  have hus : us = gs := by
    apply List.ext_getElem?
    intro k
    by_cases hk : k ≤ M.stages.length
    · obtain ⟨F, -, hx, hu⟩ := h4 k hk
      rw [hu _ (hst k hk), hgs, rollout_get _ _ _ _ hpl]
      rfl
    · rw [List.getElem?_eq_none (by omega), List.getElem?_eq_none (by omega)]
  rw [h1, hus, hxs]

end Lane

/-! ### Conversion -/

theorem forall₂_getElem? {α β : Type} {R : α → β → Prop} : ∀ {l : List α} {l' : List β}, List.Forall₂ R l l' ↔
    l.length = l'.length ∧ ∀ (k : ℕ) b, l'[k]? = some b → ∃ a, l[k]? = some a ∧ R a b
  | [], [] => by simp
  | [], b :: l' => by simp
  | a :: l, [] => by simp
  | a :: l, b :: l' => by
    rw [List.forall₂_cons, forall₂_getElem?]
    constructor
    · rintro ⟨h1, h2, h3⟩
      refine ⟨by simp [h2], fun k c hc => ?_⟩
      cases k with
      | zero => exact ⟨a, rfl, by simp only [List.getElem?_cons_zero, Option.some.injEq] at hc; exact hc ▸ h1⟩
      | succ k => simpa using h3 k c (by simpa using hc)
    · rintro ⟨h1, h2⟩
      refine ⟨?_, by simpa using h1, fun k c hc => ?_⟩
      · obtain ⟨a', h3, h4⟩ := h2 0 b rfl
        simp only [List.getElem?_cons_zero, Option.some.injEq] at h3
        exact h3 ▸ h4
      · simpa using h2 (k + 1) c (by simpa using hc)

theorem tfIdx_iff (a : NArr2 ℕ) (g : Fin n → Fin m → Fin n) : tfIdx n m a = .ok g ↔ a.rows = n ∧ a.cols = m ∧
    ∀ (x : Fin n) (u : Fin m) (hx : x.val < a.rows) (hu : u.val < a.cols), a.data ⟨x, hx⟩ ⟨u, hu⟩ = (g x u : ℕ) := by
  unfold tfIdx
  constructor
  · intro h
    split_ifs at h with h1
    have hg := Except.ok.inj h
    refine ⟨h1.1.1, h1.1.2, fun x u hx hu => ?_⟩
    rw [← hg]
    rfl
  · rintro ⟨rfl, rfl, h⟩
    rw [dif_pos ⟨⟨rfl, rfl⟩, fun x u => by rw [show a.data x u = (g x u : ℕ) from h x u x.isLt u.isLt]; exact (g x u).isLt⟩]
    refine congrArg Except.ok ?_
    funext x u
    exact Fin.ext (h x u x.isLt u.isLt)

theorem tfMat_iff (a : NArr2 K) (g : Matrix (Fin n) (Fin m) K) : tfMat n m a = .ok g ↔ a.rows = n ∧ a.cols = m ∧
    ∀ (x : Fin n) (u : Fin m) (hx : x.val < a.rows) (hu : u.val < a.cols), a.data ⟨x, hx⟩ ⟨u, hu⟩ = g x u := by
  unfold tfMat
  constructor
  · intro h
    split_ifs at h with h1
    have hg := Except.ok.inj h
    refine ⟨h1.1, h1.2, fun x u hx hu => ?_⟩
    rw [← hg]
    rfl
  · rintro ⟨rfl, rfl, h⟩
    rw [dif_pos ⟨rfl, rfl⟩]
    refine congrArg Except.ok ?_
    funext x u
    exact h x u x.isLt u.isLt

theorem tfVec_iff (a : NArr1 K) (g : Fin n → K) : tfVec n a = .ok g ↔ a.len = n ∧
    ∀ (x : Fin n) (hx : x.val < a.len), a.data ⟨x, hx⟩ = g x := by
  unfold tfVec
  constructor
  · intro h
    split_ifs at h with h1
    have hg := Except.ok.inj h
    refine ⟨h1, fun x hx => ?_⟩
    rw [← hg]
    rfl
  · rintro ⟨rfl, h⟩
    rw [dif_pos rfl]
    refine congrArg Except.ok ?_
    funext x
    exact h x x.isLt

theorem fscNpToTf_iff [Field K] [LinearOrder K] [IsStrictOrderedRing K] (o : RawFSC ℕ K) (M : FSC n m K) :
    o.npToTf n m = .ok M ↔ o.Represents M := by
  have hz : ∀ ss : List (FStage n m K),
      List.zipWith (fun f (L : Matrix (Fin n) (Fin m) K) => (⟨f, fun x u => L x u⟩ : FStage n m K)) (ss.map FStage.f)
        (ss.map fun s => Matrix.of s.L) = ss := by
    intro ss
    induction ss with
    | nil => rfl
    | cons s ss ih => simp [ih]
  constructor
  · intro h
    unfold RawFSC.npToTf at h
    obtain ⟨fs, hfs, h⟩ := bind_ok.1 h
    obtain ⟨Ls, hLs, h⟩ := bind_ok.1 h
    obtain ⟨LT, hLT, h⟩ := bind_ok.1 h
    by_cases hl : Ls.length = fs.length
    · rw [if_neg (by simpa using hl)] at h
      have hM := (Except.ok.inj h).symm
      have f1 := forall₂_getElem?.1 (mapM_ok_iff.1 hfs)
      have f2 := forall₂_getElem?.1 (mapM_ok_iff.1 hLs)
      have hsl : M.stages.length = fs.length := by rw [hM]; simp [hl]
      refine ⟨by rw [f1.1, hsl], by rw [f2.1, hl, hsl], ?_, ?_, ?_⟩
      · intro k s hs
        have : ∃ f L, fs[k]? = some f ∧ Ls[k]? = some L ∧ s = ⟨f, fun x u => L x u⟩ := by
          rw [hM] at hs
          change (List.zipWith _ fs Ls)[k]? = _ at hs
          rw [List.getElem?_zipWith] at hs
          cases hf : fs[k]? with
          | none => rw [hf] at hs; cases hs
          | some f =>
            cases hL : Ls[k]? with
            | none => rw [hf, hL] at hs; cases hs
            | some L =>
              rw [hf, hL] at hs
              exact ⟨f, L, rfl, rfl, (Option.some.inj hs).symm⟩
        obtain ⟨f, L, e1, e2, rfl⟩ := this
        obtain ⟨a, ha, ha'⟩ := f1.2 k f e1
        obtain ⟨b, hb, hb'⟩ := f2.2 k L e2
        obtain ⟨a1, a2, a3⟩ := (tfIdx_iff a f).1 ha'
        obtain ⟨b1, b2, b3⟩ := (tfMat_iff b L).1 hb'
        exact ⟨a, b, ha, hb, a1, a2, b1, b2, a3, b3⟩
      · exact ((tfVec_iff _ _).1 hLT).1
      · rw [hM]
        exact ((tfVec_iff _ _).1 hLT).2
    · rw [if_pos (by simpa using hl)] at h
      cases h
  · rintro ⟨h1, h2, h3, h4, h5⟩
    have hfs : o.f.mapM (tfIdx n m) = .ok (M.stages.map FStage.f) := by
      refine mapM_ok_iff.2 (forall₂_getElem?.2 ⟨by simp [h1], fun k f hf => ?_⟩)
      rw [List.getElem?_map] at hf
      obtain ⟨s, hs, rfl⟩ := Option.map_eq_some_iff.1 hf
      obtain ⟨a, b, ha, hb, a1, a2, b1, b2, a3, b3⟩ := h3 k s hs
      exact ⟨a, ha, (tfIdx_iff a s.f).2 ⟨a1, a2, a3⟩⟩
    have hLs : o.L.mapM (tfMat n m) = .ok (M.stages.map fun s => Matrix.of s.L) := by
      refine mapM_ok_iff.2 (forall₂_getElem?.2 ⟨by simp [h2], fun k L hL => ?_⟩)
      rw [List.getElem?_map] at hL
      obtain ⟨s, hs, rfl⟩ := Option.map_eq_some_iff.1 hL
      obtain ⟨a, b, ha, hb, a1, a2, b1, b2, a3, b3⟩ := h3 k s hs
      exact ⟨b, hb, (tfMat_iff b (Matrix.of s.L)).2 ⟨b1, b2, b3⟩⟩
    unfold RawFSC.npToTf
    rw [hfs, py_ok_bind, hLs, py_ok_bind, (tfVec_iff _ _).2 ⟨h4, h5⟩, py_ok_bind, if_neg (by simp)]
    exact congrArg (fun l => (Except.ok ⟨l, M.LT⟩ : Py (FSC n m K))) (hz M.stages)

theorem fscNpToTf_error (o : RawFSC ℕ K) (e : PyErr) (h : o.npToTf n m = .error e) : e = .valueError := by
  unfold RawFSC.npToTf at h
  have hm : ∀ {α β : Type} (f : α → Py β) (l : List α), (∀ a e, f a = .error e → e = .valueError) →
      ∀ e, l.mapM f = .error e → e = .valueError := by
    intro α β f l hf
    induction l with
    | nil => intro e h; cases h
    | cons a l ih =>
      intro e h
      rw [List.mapM_cons] at h
      cases ha : f a with
      | error e' =>
        rw [ha] at h
        cases h
        exact hf a e ha
      | ok b =>
        rw [ha, py_ok_bind] at h
        cases hl : l.mapM f with
        | error e' =>
          rw [hl] at h
          cases h
          exact ih e hl
        | ok r => rw [hl] at h; cases h
  have g1 : ∀ a e, tfIdx n m a = .error e → e = .valueError := by
    intro a e h
    unfold tfIdx at h
    split_ifs at h
    exact (Except.error.inj h).symm
  have g2 : ∀ (a : NArr2 K) e, tfMat n m a = .error e → e = .valueError := by
    intro a e h
    unfold tfMat at h
    split_ifs at h
    exact (Except.error.inj h).symm
  have g3 : ∀ e, tfVec n o.LT = .error e → e = .valueError := by
    intro e h
    unfold tfVec at h
    split_ifs at h
    exact (Except.error.inj h).symm
  cases h1 : o.f.mapM (tfIdx n m) with
  | error e' =>
    rw [h1] at h
    cases h
    exact hm _ _ g1 _ h1
  | ok fs =>
    rw [h1, py_ok_bind] at h
    cases h2 : o.L.mapM (tfMat n m) with
    | error e' =>
      rw [h2] at h
      cases h
      exact hm _ _ g2 _ h2
    | ok Ls =>
      rw [h2, py_ok_bind] at h
      cases h3 : tfVec n o.LT with
      | error e' =>
        rw [h3] at h
        cases h
        exact g3 _ h3
      | ok LT =>
        rw [h3, py_ok_bind] at h
        split_ifs at h
        · exact (Except.error.inj h).symm
        · cases h

end Verif
