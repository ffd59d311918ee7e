import Verif.Proof.HJBPass

/-! The block passes of the grid solvers. -/

namespace Verif

variable {n : ℕ} {K : Type} [Field K] [LinearOrder K]

theorem seqAssoc_eq [NeZero n] (M : HJB n K) (B : Fin n → Fin n → WithBot K) :
    M.seqBackwardPassAssoc B =
      (List.range (M.blocks + 1)).map fun k x => (combineVInterp B)^[M.blocks - k] M.VT x 0 := by
  unfold HJB.seqBackwardPassAssoc
  have h := append_loop (combineVInterp B) (fun V => fun x => V x 0) M.VT M.blocks
  dsimp only at h ⊢
  rw [h]
  dsimp only
  rw [reverse_map_range]

theorem seqAssocPlain_eq [NeZero n] (M : HJB n K) (B : Fin n → Fin n → WithBot K) :
    M.seqBackwardPassAssocPlain B =
      (List.range (M.blocks + 1)).map fun k x => (hjbCombineV B)^[M.blocks - k] M.VT x 0 := by
  unfold HJB.seqBackwardPassAssocPlain
  have h := append_loop (hjbCombineV B) (fun V => fun x => V x 0) M.VT M.blocks
  dsimp only at h ⊢
  rw [h]
  dsimp only
  rw [reverse_map_range]

theorem hjbExtract_eq [NeZero n] (elems : List (Fin n → Fin n → WithBot K)) (h : elems ≠ []) :
    hjbExtract elems = .ok (elems.map fun e x => e x 0) := by
  cases elems with
  | nil => exact absurd rfl h
  | cons e l =>
    unfold hjbExtract
    have h0 : pyGet (e :: l) 0 = .ok e := rfl
    refine bind_ok.2 ⟨e, h0, ?_⟩
    have h1 : (List.range ((e :: l).length - 1)).mapM (fun k => do
        let e ← pyGet (e :: l) (k + 1)
        return fun x => e x 0) = (.ok (l.map fun e x => e x 0) : Py (List (Fin n → WithBot K))) := by
      rw [mapM_range_ok]
      refine ⟨by simp, fun k hk => ?_⟩
      have hk' : k < l.length := by simpa using hk
      refine ⟨fun x => l[k] x 0, by simp [hk'], ?_⟩
      have h2 : pyGet (e :: l) (k + 1) = .ok l[k] := by
        rw [pyGet_lt (by simpa using hk')]; rfl
      rw [h2]
      rfl
    exact bind_ok.2 ⟨_, h1, rfl⟩

/-- A value that does not depend on the final state. -/
def ColConst [NeZero n] (V : Fin n → Fin n → WithBot K) : Prop := ∀ x k, V x k = V x 0

theorem combineVInterp_col [NeZero n] (A B : Fin n → Fin n → WithBot K) (h : ColConst B) :
    ColConst (combineVInterp A B) := by
  intro x k
  have e : vsum A B x k = vsum A B x 0 := by
    funext j; unfold vsum; rw [h j k]
  unfold combineVInterp
  rw [e]

theorem paren_last {α : Type} {op : α → α → Py α} {P : α → Prop}
    (hop : ∀ x y z, op x y = .ok z → P y → P z) {l : List α} {v : α} (h : Paren op l v) :
    ∀ x, l.getLast? = some x → P x → P v := by
  induction h with
  | single x => intro y hy; simp at hy; subst hy; exact id
  | @node l r x y z _ hr hz _ ihr =>
    intro w hw hP
    apply hop _ _ _ hz
    have hne := hr.ne_nil
    rw [List.getLast?_append_of_ne_nil _ hne] at hw
    exact ihr w hw hP

theorem paren_one {α : Type} {op : α → α → Py α} {l : List α} {u v : α} (h : Paren op l v) (he : l = [u]) : v = u := by
  cases h with
  | single => exact (List.cons.inj he).1
  | node a b _ =>
    exfalso
    have := congrArg List.length he
    have h1 := List.length_pos_iff.2 a.ne_nil
    have h2 := List.length_pos_iff.2 b.ne_nil
    simp at this
    omega

theorem paren_two {α : Type} {op : α → α → Py α} {l : List α} {u w v : α} (h : Paren op l v) (he : l = [u, w]) :
    op u w = .ok v := by
  cases h with
  | single => simp at he
  | @node l r x y _ a b hz =>
    have h1 := List.length_pos_iff.2 a.ne_nil
    have h2 := List.length_pos_iff.2 b.ne_nil
    match l, r with
    | [], _ => simp at h1
    | _, [] => simp at h2
    | [p], [q] =>
      simp at he
      rw [← hz, paren_one a rfl, paren_one b rfl, he.1, he.2]
    | _ :: _ :: _, _ :: _ =>
      have := congrArg List.length he
      simp at this
    | _ :: _, _ :: _ :: _ =>
      have := congrArg List.length he
      simp at this
      omega

theorem replicate_drop (b k : ℕ) (hk : k ≤ b) {α : Type} (B VT : α) :
    (List.replicate b B ++ [VT]).drop k = List.replicate (b - k) B ++ [VT] := by
  rw [List.drop_append_of_le_length (by simpa using hk), List.drop_replicate]

theorem parBackward_paren [NeZero n] (M : HJB n K) (B : Fin n → Fin n → WithBot K) :
    ∃ r, M.parBackwardPass B = .ok r ∧ r.length = M.blocks + 1 ∧
      ∀ k ≤ M.blocks, ∃ W, Paren (fun x y => .ok (combineVInterp x y)) (List.replicate (M.blocks - k) B ++ [M.VT]) W ∧
        ColConst W ∧ r[k]? = some fun x => W x 0 := by
  have hne : M.parBackwardInit B ≠ [] := by unfold HJB.parBackwardInit; simp
  obtain ⟨s, hs⟩ := scanVals_total (P := fun _ => True)
    (op := fun x y => (.ok (combineVInterp x y) : Py (Fin n → Fin n → WithBot K)))
    (fun x y _ _ => ⟨_, rfl, trivial⟩) hne (fun _ _ => trivial) true
  obtain ⟨hl, hk⟩ := scanVals_suffix hs
  have hlen : (M.parBackwardInit B).length = M.blocks + 1 := by unfold HJB.parBackwardInit; simp
  have hsne : s ≠ [] := by
    intro h; rw [h, hlen] at hl; simp at hl
  refine ⟨s.map fun e x => e x 0, ?_, by rw [List.length_map, hl, hlen], ?_⟩
  · unfold HJB.parBackwardPass hjbScanInterp
    dsimp only
    exact bind_ok.2 ⟨s, hs, hjbExtract_eq s hsne⟩
  · intro k hkb
    obtain ⟨W, hW, hp⟩ := hk k (by rw [hlen]; omega)
    unfold HJB.parBackwardInit at hp
    rw [replicate_drop _ _ hkb] at hp
    refine ⟨W, hp, ?_, by rw [List.getElem?_map, hW]; rfl⟩
    refine paren_last (P := ColConst) ?_ hp M.VT (by simp) ?_
    · intro x y z hz hy
      rw [← Except.ok.inj hz]
      exact combineVInterp_col x y hy
    · intro x k; rfl

theorem foldr1_replicate {α : Type} (g : α → α → α) (B VT : α) (N : ℕ) :
    foldr1 g (List.replicate N B ++ [VT]) = some ((g B)^[N] VT) := by
  induction N with
  | zero => rfl
  | succ N ih =>
    rw [List.replicate_succ, List.cons_append, foldr1, ih, Function.iterate_succ_apply']

theorem parPlain_eq [IsStrictOrderedRing K] [NeZero n] (M : HJB n K) (B : Fin n → Fin n → WithBot K) :
    M.parBackwardPassPlain B = .ok (M.seqBackwardPassAssocPlain B) := by
  have hne : M.parBackwardInit B ≠ [] := by unfold HJB.parBackwardInit; simp
  have hlen : (M.parBackwardInit B).length = M.blocks + 1 := by unfold HJB.parBackwardInit; simp
  obtain ⟨s, hs, hl, hk⟩ := scan_combineV_suffix (M.parBackwardInit B) hne
  have hsne : s ≠ [] := by
    intro h; rw [h, hlen] at hl; simp at hl
  unfold HJB.parBackwardPassPlain hjbScan
  dsimp only
  have hs' : scanVals (fun x y => Except.ok (hjbCombineV x y)) (M.parBackwardInit B) true = Except.ok s := hs
  refine bind_ok.2 ⟨s, hs', ?_⟩
  rw [hjbExtract_eq s hsne, seqAssocPlain_eq]
  congr 1
  apply list_ext_of (n := M.blocks + 1) (by rw [List.length_map, hl, hlen]) (by simp)
  intro k hkb
  have h1 := hk k (by rw [hlen]; exact hkb)
  unfold HJB.parBackwardInit at h1
  rw [replicate_drop _ _ (by omega), foldr1_replicate] at h1
  rw [List.getElem?_map, h1]
  simp [hkb]
  rfl

/-- Cost of the grid path `x, p`, with `LT` at its end. -/
def pathCost (B : Fin n → Fin n → K) (LT : Fin n → K) : Fin n → List (Fin n) → K
  | x, [] => LT x
  | x, y :: p => B x y + pathCost B LT y p

theorem plain_paths [IsStrictOrderedRing K] [NeZero n] (B : Fin n → Fin n → K) (LT : Fin n → K) (N : ℕ) (x k : Fin n) :
    ∃ c : K, (hjbCombineV fun i j => (B i j : WithBot K))^[N] (fun x _ => (LT x : WithBot K)) x k = (c : WithBot K) ∧
      IsLeast {c | ∃ p : List (Fin n), p.length = N ∧ pathCost B LT x p = c} c := by
  induction N generalizing x k with
  | zero =>
    refine ⟨LT x, rfl, ⟨[], rfl, rfl⟩, ?_⟩
    rintro c ⟨p, hp, rfl⟩
    rw [List.length_eq_zero_iff] at hp
    subst hp
    exact le_rfl
  | succ N ih =>
    choose g hg1 hg2 using fun y => ih y k
    refine ⟨min1 fun y => B x y + g y, ?_, ?_, ?_⟩
    · rw [Function.iterate_succ_apply', ← min1_coe]
      unfold hjbCombineV vsum
      congr 1
      funext y
      show (B x y : WithBot K) + _ = _
      have := hg1 y
      unfold hjbCombineV vsum at this
      rw [this]
      rfl
    · obtain ⟨y, hy⟩ := min1_attained fun y => B x y + g y
      obtain ⟨p, hp, hc⟩ := (hg2 y).1
      exact ⟨y :: p, by simp [hp], by rw [hy, pathCost, hc]⟩
    · rintro c ⟨p, hp, rfl⟩
      cases p with
      | nil => simp at hp
      | cons y p =>
        refine le_trans (min1_le _ y) ?_
        rw [pathCost]
        have := (hg2 y).2 ⟨p, by simpa using hp, rfl⟩
        linarith

theorem interp_nan_iff [IsStrictOrderedRing K] (A B : Fin (n + 2) → Fin (n + 2) → WithBot K) (i k : Fin (n + 2)) :
    combineVInterp A B i k = ⊥ ↔ (∃ j, A i j = ⊥ ∨ B j k = ⊥) ∨
      (A i 0 + B 0 k = A i 1 + B 1 k ∧ ∀ j, A i 0 + B 0 k ≤ A i j + B j k) := by
  by_cases h : ∃ j, A i j = ⊥ ∨ B j k = ⊥
  · obtain ⟨j, hj⟩ := h
    exact iff_of_true (combineVInterp_nan A B i j k hj) (Or.inl ⟨j, hj⟩)
  · simp only [h, false_or]
    push Not at h
    have h' : ∀ j, ∃ c : K, A i j + B j k = (c : WithBot K) := by
      intro j
      obtain ⟨a, ha⟩ := WithBot.ne_bot_iff_exists.1 (h j).1
      obtain ⟨b, hb⟩ := WithBot.ne_bot_iff_exists.1 (h j).2
      exact ⟨a + b, by rw [← ha, ← hb]; rfl⟩
    choose f hf using h'
    have hv : vsum A B i k = fun j => (f j : WithBot K) := by funext j; exact hf j
    have hn : 2 ≤ n + 2 := by omega
    have e : combineVInterp A B i k = interpAt hn f (argmin1 f) := by
      rw [combineVInterp_nbr hn, hv, argmin1_coe]; rfl
    rw [e, interpAt_nan hn f _ (argmin1_le f)]
    simp only [hf, WithBot.coe_inj, WithBot.coe_le_coe]
    constructor
    · rintro ⟨h1, -⟩
      by_cases h0 : ((argmin1 f : Fin (n + 2)) : ℕ) = 0
      · have h0' : argmin1 f = 0 := Fin.ext h0
        have hl : nbrL hn (argmin1 f) = 1 := by
          apply Fin.ext; unfold nbrL; rw [h0']; simp
        rw [hl, h0'] at h1
        exact ⟨h1.symm, fun j => by rw [← h0']; exact argmin1_le f j⟩
      · exfalso
        have hlt : nbrL hn (argmin1 f) < argmin1 f := by
          rw [Fin.lt_def]; unfold nbrL; simp only [if_neg h0]; omega
        exact absurd h1 (argmin1_first f _ hlt).ne'
    · rintro ⟨h1, h2⟩
      have h0' : argmin1 f = 0 := argmin1_unique h2 (fun j hj => absurd hj (by simp))
      have hl : nbrL hn (0 : Fin (n + 2)) = 1 := by
        apply Fin.ext; unfold nbrL; simp
      have hr : nbrR hn (0 : Fin (n + 2)) = 1 := by
        rw [nbr_zero hn 0 rfl, hl]
      rw [h0', hl, hr]
      exact ⟨h1.symm, h1.symm⟩

end Verif
