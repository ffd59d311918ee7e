import Verif.Proof.LQTPar

/-! Forward passes of the tracking problem. -/

namespace Verif

open Matrix

variable {n m : ℕ} {K : Type} [Field K]

/-- The closed loop, index by index. -/
theorem fwd_iff {ss : List (LStage n m K)} {Ks : List (Matrix (Fin m) (Fin n) K)} {ds : List (Fin m → K)}
    {x : Fin n → K} {us : List (Fin m → K)} {xs : List (Fin n → K)} :
    lqtForwardLoop ss Ks ds x = .ok (us, xs) ↔ us.length = Ks.length ∧ xs.length = Ks.length ∧
      ∀ k < Ks.length, ∃ s Kx d y, ss[k]? = some s ∧ Ks[k]? = some Kx ∧ ds[k]? = some d ∧ (x :: xs)[k]? = some y ∧
        us[k]? = some (-Kx *ᵥ y + d) ∧ xs[k]? = some (s.next y (-Kx *ᵥ y + d)) := by
  induction Ks generalizing ss ds x us xs with
  | nil =>
    have : lqtForwardLoop ss [] ds x = .ok ([], []) := by cases ss <;> simp [lqtForwardLoop]
    rw [this]
    simp only [Except.ok.injEq, Prod.mk.injEq, List.length_nil, List.length_eq_zero_iff, Nat.not_lt_zero,
      false_imp_iff, implies_true, and_true]
    constructor <;> rintro ⟨rfl, rfl⟩ <;> exact ⟨rfl, rfl⟩
  | cons Kx Ks ih =>
    constructor
    · intro h
      cases ss with
      | nil => simp [lqtForwardLoop] at h
      | cons s ss =>
        cases ds with
        | nil => simp [lqtForwardLoop] at h
        | cons d ds =>
          simp only [lqtForwardLoop] at h
          rw [bind_ok] at h
          obtain ⟨⟨us1, xs1⟩, h1, h2⟩ := h
          simp only [pure, Except.pure, Except.ok.injEq, Prod.mk.injEq] at h2
          obtain ⟨rfl, rfl⟩ := h2
          obtain ⟨i1, i2, i3⟩ := ih.1 h1
          refine ⟨by simp [i1], by simp [i2], fun k hk => ?_⟩
          cases k with
          | zero => exact ⟨s, Kx, d, x, rfl, rfl, rfl, rfl, rfl, rfl⟩
          | succ k => simpa using i3 k (by simpa using hk)
    · rintro ⟨h1, h2, h3⟩
      cases us with
      | nil => simp at h1
      | cons u us =>
        cases xs with
        | nil => simp at h2
        | cons x1 xs =>
          obtain ⟨s, Kx', d, y, a1, a2, a3, a4, a5, a6⟩ := h3 0 (by simp)
          simp only [List.getElem?_cons_zero, Option.some.injEq] at a2 a4 a5 a6
          subst a2 a4 a5 a6
          cases ss with
          | nil => simp at a1
          | cons s' ss =>
            cases ds with
            | nil => simp at a3
            | cons d' ds =>
              simp only [List.getElem?_cons_zero, Option.some.injEq] at a1 a3
              subst a1 a3
              simp only [lqtForwardLoop]
              rw [bind_ok]
              refine ⟨(us, xs), ih.2 ⟨by simpa using h1, by simpa using h2, fun k hk => ?_⟩, rfl⟩
              have := h3 (k + 1) (by simpa using hk)
              simpa [LStage.next] using this

theorem fwd_ok_iff {ss : List (LStage n m K)} {Ks : List (Matrix (Fin m) (Fin n) K)} {ds : List (Fin m → K)}
    {x : Fin n → K} : (∃ r, lqtForwardLoop ss Ks ds x = .ok r) ↔ Ks.length ≤ ss.length ∧ Ks.length ≤ ds.length := by
  induction Ks generalizing ss ds x with
  | nil =>
    have : lqtForwardLoop ss [] ds x = .ok ([], []) := by cases ss <;> simp [lqtForwardLoop]
    simp [this]
  | cons Kx Ks ih =>
    cases ss with
    | nil => simp [lqtForwardLoop]
    | cons s ss =>
      cases ds with
      | nil => simp [lqtForwardLoop]
      | cons d ds =>
        simp only [lqtForwardLoop, bind_ok]
        have := ih (ss := ss) (ds := ds) (x := s.F *ᵥ x + s.c + s.L *ᵥ (-Kx *ᵥ x + d))
        simp only [List.length_cons, Nat.add_le_add_iff_right]
        rw [← this]
        constructor
        · rintro ⟨r, q, h, -⟩; exact ⟨q, h⟩
        · rintro ⟨q, h⟩; exact ⟨_, q, h, rfl⟩

theorem fwd_err {ss : List (LStage n m K)} {Ks : List (Matrix (Fin m) (Fin n) K)} {ds : List (Fin m → K)}
    {x : Fin n → K} {e : PyErr} (h : lqtForwardLoop ss Ks ds x = .error e) : e = .indexError := by
  induction Ks generalizing ss ds x with
  | nil => cases ss <;> simp [lqtForwardLoop] at h
  | cons Kx Ks ih =>
    cases ss with
    | nil => simp [lqtForwardLoop] at h; exact h.symm
    | cons s ss =>
      cases ds with
      | nil => simp [lqtForwardLoop] at h; exact h.symm
      | cons d ds =>
        simp only [lqtForwardLoop] at h
        cases hr : lqtForwardLoop ss Ks ds (s.F *ᵥ x + s.c + s.L *ᵥ (-Kx *ᵥ x + d)) with
        | ok r => rw [hr] at h; cases h
        | error e' => rw [hr] at h; cases h; exact ih hr

theorem mapM_err {α β : Type*} {f : α → Py β} {l : List α} {e0 : PyErr}
    (h : ∀ a ∈ l, ∀ e, f a = .error e → e = e0) {e : PyErr} (he : l.mapM f = .error e) : e = e0 := by
  induction l with
  | nil => cases he
  | cons a l ih =>
    rw [List.mapM_cons] at he
    cases ha : f a with
    | error e' => rw [ha] at he; cases he; exact h a (by simp) _ ha
    | ok b =>
      rw [ha] at he
      cases hl : l.mapM f with
      | error e' =>
        have he' : (do let bs ← l.mapM f; pure (b :: bs) : Py (List β)) = .error e := he
        rw [hl] at he'
        cases he'
        exact ih (fun a ha => h a (by simp [ha])) hl
      | ok r =>
        have he' : (do let bs ← l.mapM f; pure (b :: bs) : Py (List β)) = .error e := he
        rw [hl] at he'
        cases he'

/-! ### Affine maps -/

/-- Apply an affine map. -/
def aff (e : Matrix (Fin n) (Fin n) K × (Fin n → K)) (x : Fin n → K) : Fin n → K := e.1 *ᵥ x + e.2

theorem aff_combine (e f : Matrix (Fin n) (Fin n) K × (Fin n → K)) (x : Fin n → K) :
    aff (combineFC e f) x = aff f (aff e x) := by
  simp only [aff, combineFC, mulVec_add, ← mulVec_mulVec, add_assoc]

theorem paren_aff {l : List (Matrix (Fin n) (Fin n) K × (Fin n → K))} {v : Matrix (Fin n) (Fin n) K × (Fin n → K)}
    (h : Paren (fun x y => .ok (combineFC x y)) l v) (x : Fin n → K) : aff v x = l.foldl (fun x e => aff e x) x := by
  induction h generalizing x with
  | single e => rfl
  | node _ _ ho ih1 ih2 =>
    simp only [Except.ok.injEq] at ho
    rw [← ho, aff_combine, List.foldl_append, ← ih1, ← ih2]

theorem parForwardInit_ok {P : LQT n m K} {x0 : Fin n → K} {Ks : List (Matrix (Fin m) (Fin n) K)}
    {ds : List (Fin m → K)} {es : List (Matrix (Fin n) (Fin n) K × (Fin n → K))} :
    P.parForwardInit x0 Ks ds = .ok es ↔ es.length = Ks.length ∧ ∀ k < Ks.length, ∃ s Kx d,
      P.stages[k]? = some s ∧ Ks[k]? = some Kx ∧ ds[k]? = some d ∧ es[k]? = some
        (if k = 0 then (0, (s.F - s.L * Kx) *ᵥ x0 + s.c + s.L *ᵥ d) else (s.F - s.L * Kx, s.c + s.L *ᵥ d)) := by
  unfold LQT.parForwardInit
  rw [mapM_range_ok]
  apply and_congr_right
  intro _
  apply forall_congr'; intro k
  apply forall_congr'; intro hk
  constructor
  · rintro ⟨b, hb, hf⟩
    rw [bind_ok] at hf
    obtain ⟨s, h1, hf⟩ := hf
    rw [bind_ok] at hf
    obtain ⟨Kx, h2, hf⟩ := hf
    rw [bind_ok] at hf
    obtain ⟨d, h3, hf⟩ := hf
    rw [pyGet_ok] at h1 h2 h3
    refine ⟨s, Kx, d, h1, h2, h3, ?_⟩
    rw [hb]
    split at hf <;> rename_i h0 <;> simp only [pure, Except.pure, Except.ok.injEq] at hf <;> subst hf <;> simp [h0]
  · rintro ⟨s, Kx, d, h1, h2, h3, hb⟩
    refine ⟨_, hb, ?_⟩
    rw [bind_ok]; refine ⟨s, pyGet_ok.2 h1, ?_⟩
    rw [bind_ok]; refine ⟨Kx, pyGet_ok.2 h2, ?_⟩
    rw [bind_ok]; refine ⟨d, pyGet_ok.2 h3, ?_⟩
    split <;> rfl

theorem parForwardInit_err {P : LQT n m K} {x0 : Fin n → K} {Ks : List (Matrix (Fin m) (Fin n) K)}
    {ds : List (Fin m → K)} {e : PyErr} (h : P.parForwardInit x0 Ks ds = .error e) : e = .indexError := by
  refine mapM_err (fun k _ e he => ?_) h
  cases h1 : pyGet P.stages k with
  | error e1 =>
    rw [h1] at he; cases he
    unfold pyGet at h1; split at h1 <;> cases h1; rfl
  | ok s =>
    cases h2 : pyGet Ks k with
    | error e1 =>
      rw [h1, h2] at he; cases he
      unfold pyGet at h2; split at h2 <;> cases h2; rfl
    | ok Kx =>
      cases h3 : pyGet ds k with
      | error e1 =>
        rw [h1, h2, h3] at he; cases he
        unfold pyGet at h3; split at h3 <;> cases h3; rfl
      | ok d =>
        rw [h1, h2, h3] at he
        have he' : (if k = 0 then pure ((0 : Matrix (Fin n) (Fin n) K), (s.F - s.L * Kx) *ᵥ x0 + s.c + s.L *ᵥ d) else
            pure (s.F - s.L * Kx, s.c + s.L *ᵥ d) : Py _) = .error e := he
        split at he' <;> cases he'

theorem parForwardExtract_ok {x0 : Fin n → K} {Ks : List (Matrix (Fin m) (Fin n) K)}
    {ds : List (Fin m → K)} {el : List (Matrix (Fin n) (Fin n) K × (Fin n → K))} (hl : el.length = Ks.length)
    (hd : Ks.length ≤ ds.length) : ∃ us, us.length = Ks.length ∧
      (∀ k < Ks.length, ∃ Kx d y, Ks[k]? = some Kx ∧ ds[k]? = some d ∧ (x0 :: el.map Prod.snd)[k]? = some y ∧
        us[k]? = some (-Kx *ᵥ y + d)) ∧
      LQT.parForwardExtract x0 Ks ds el = .ok (us, x0 :: el.map Prod.snd) := by
  have key : ∀ k < Ks.length, ∃ u : Fin m → K, ∃ Kx d y, Ks[k]? = some Kx ∧ ds[k]? = some d ∧
      (x0 :: el.map Prod.snd)[k]? = some y ∧ u = -Kx *ᵥ y + d := by
    intro k hk
    have : k < (x0 :: el.map Prod.snd).length := by simp [hl]; omega
    exact ⟨_, _, _, _, List.getElem?_eq_getElem hk, List.getElem?_eq_getElem (by omega : k < ds.length),
      List.getElem?_eq_getElem this, rfl⟩
  choose u hu using key
  have hget : ∀ k (hk : k < Ks.length), (List.ofFn (fun k : Fin Ks.length => u k.1 k.2))[k]? = some (u k hk) := by
    intro k hk; simp [List.getElem?_ofFn, hk]
  refine ⟨List.ofFn (fun k : Fin Ks.length => u k.1 k.2), by simp, ?_, ?_⟩
  · intro k hk
    obtain ⟨Kx, d, y, h1, h2, h3, h4⟩ := hu k hk
    exact ⟨Kx, d, y, h1, h2, h3, by rw [hget k hk, h4]⟩
  · unfold LQT.parForwardExtract
    rw [bind_ok]
    refine ⟨(List.ofFn (fun k : Fin Ks.length => u k.1 k.2)).zip (el.map Prod.snd), ?_, ?_⟩
    · rw [mapM_range_ok]
      refine ⟨by simp [hl], fun k hk => ?_⟩
      obtain ⟨Kx, d, y, h1, h2, h3, h4⟩ := hu k hk
      have hk' : k < el.length := by omega
      refine ⟨(u k hk, el[k].2), ?_, ?_⟩
      · rw [List.getElem?_zip_eq_some]
        refine ⟨hget k hk, by simp [hk']⟩
      · rw [bind_ok]; refine ⟨Kx, pyGet_ok.2 h1, ?_⟩
        rw [bind_ok]; refine ⟨d, pyGet_ok.2 h2, ?_⟩
        rw [bind_ok]; refine ⟨u k hk, ?_, ?_⟩
        · cases k with
          | zero =>
            simp only [List.getElem?_cons_zero, Option.some.injEq] at h3
            subst h3
            rw [h4]; rfl
          | succ k =>
            simp only [List.getElem?_cons_succ, List.getElem?_map] at h3
            rw [if_neg (by omega), bind_ok]
            have hk1 : k < el.length := by omega
            rw [List.getElem?_eq_getElem hk1, Option.map_some, Option.some.injEq] at h3
            refine ⟨el[k], pyGet_lt hk1, ?_⟩
            rw [h4, ← h3]; rfl
        · rw [bind_ok]
          exact ⟨el[k], pyGet_lt hk', rfl⟩
    · simp only [pure, Except.pure, Except.ok.injEq, Prod.mk.injEq, List.cons.injEq, true_and]
      exact ⟨List.map_fst_zip (by simp [hl]), List.map_snd_zip (by simp [hl])⟩

/-- The states obtained from elements of all prefixes are those of the closed loop. -/
theorem fwd_of_elems {P : LQT n m K} {x0 : Fin n → K} {Ks : List (Matrix (Fin m) (Fin n) K)}
    {ds : List (Fin m → K)} {es el : List (Matrix (Fin n) (Fin n) K × (Fin n → K))}
    (hi : P.parForwardInit x0 Ks ds = .ok es) (hl : el.length = es.length)
    (hp : ∀ k < es.length, ∃ v, el[k]? = some v ∧ Paren (fun x y => .ok (combineFC x y)) (es.take (k + 1)) v)
    {us : List (Fin m → K)} (hul : us.length = Ks.length)
    (hu : ∀ k < Ks.length, ∃ Kx d y, Ks[k]? = some Kx ∧ ds[k]? = some d ∧ (x0 :: el.map Prod.snd)[k]? = some y ∧
        us[k]? = some (-Kx *ᵥ y + d)) :
    P.seqForwardPass x0 Ks ds = .ok (us, x0 :: el.map Prod.snd) := by
  obtain ⟨hel, hes⟩ := parForwardInit_ok.1 hi
  unfold LQT.seqForwardPass
  rw [bind_ok]
  refine ⟨(us, el.map Prod.snd), fwd_iff.2 ⟨hul, by simp [hl, hel], ?_⟩, rfl⟩
  have hsnd : ∀ k < Ks.length, ∀ v, el[k]? = some v → v.2 = (es.take (k + 1)).foldl (fun x e => aff e x) 0 := by
    intro k hk v hv
    obtain ⟨w, hw, hpw⟩ := hp k (by omega)
    rw [hv, Option.some.injEq] at hw
    subst hw
    rw [← paren_aff hpw 0]
    simp [aff]
  intro k hk
  obtain ⟨s, Kx, d, a1, a2, a3, a4⟩ := hes k hk
  obtain ⟨Kx', d', y, b1, b2, b3, b4⟩ := hu k hk
  rw [a2, Option.some.injEq] at b1
  rw [a3, Option.some.injEq] at b2
  subst b1 b2
  refine ⟨s, Kx, d, y, a1, a2, a3, b3, b4, ?_⟩
  have hk' : k < el.length := by omega
  have hv := hsnd k hk el[k] (List.getElem?_eq_getElem hk')
  rw [List.getElem?_map, List.getElem?_eq_getElem hk', Option.map_some, hv]
  congr 1
  cases k with
  | zero =>
    simp only [List.getElem?_cons_zero, Option.some.injEq] at b3
    subst b3
    have h0 : es.take (0 + 1) = [(0, (s.F - s.L * Kx) *ᵥ x0 + s.c + s.L *ᵥ d)] := by
      cases es with
      | nil => simp at a4
      | cons e es => simpa using a4
    rw [h0]
    simp only [List.foldl_cons, List.foldl_nil, aff, zero_mulVec, zero_add, LStage.next]
    simp only [mulVec_add, sub_mulVec, neg_mulVec, mulVec_neg, ← mulVec_mulVec]
    abel
  | succ k =>
    have hk1 : k < el.length := by omega
    simp only [List.getElem?_cons_succ, List.getElem?_map] at b3
    rw [List.getElem?_eq_getElem hk1, Option.map_some, Option.some.injEq] at b3
    have hprev := hsnd k (by omega) el[k] (List.getElem?_eq_getElem hk1)
    rw [if_neg (by omega)] at a4
    rw [List.take_add_one, a4, List.foldl_append, ← hprev, b3]
    simp only [Option.toList_some, List.foldl_cons, List.foldl_nil, aff, LStage.next]
    simp only [mulVec_add, sub_mulVec, neg_mulVec, mulVec_neg, ← mulVec_mulVec]
    abel

theorem fc_closed : Closed (fun _ : Matrix (Fin n) (Fin n) K × (Fin n → K) => True)
    (fun x y => .ok (combineFC x y)) := fun x y _ _ => ⟨_, rfl, trivial⟩

theorem par_fwd_seq {P : LQT n m K} {x0 : Fin n → K} {Ks : List (Matrix (Fin m) (Fin n) K)}
    {ds : List (Fin m → K)} (hne : Ks ≠ []) : P.parForwardPass x0 Ks ds = P.seqForwardPass x0 Ks ds := by
  by_cases h : Ks.length ≤ P.stages.length ∧ Ks.length ≤ ds.length
  · obtain ⟨es, hi⟩ : ∃ es, P.parForwardInit x0 Ks ds = .ok es := by
      let E : Fin Ks.length → Matrix (Fin n) (Fin n) K × (Fin n → K) := fun k =>
        let s := P.stages[k.1]'(by omega)
        if k.1 = 0 then (0, (s.F - s.L * Ks[k.1]) *ᵥ x0 + s.c + s.L *ᵥ (ds[k.1]'(by omega))) else
          (s.F - s.L * Ks[k.1], s.c + s.L *ᵥ (ds[k.1]'(by omega)))
      refine ⟨List.ofFn E, parForwardInit_ok.2 ⟨by simp, fun k hk => ?_⟩⟩
      refine ⟨P.stages[k]'(by omega), Ks[k], ds[k]'(by omega), List.getElem?_eq_getElem _, List.getElem?_eq_getElem _,
        List.getElem?_eq_getElem _, ?_⟩
      simp [List.getElem?_ofFn, hk, E]
    have hel := (parForwardInit_ok.1 hi).1
    obtain ⟨el, hsc⟩ := scanVals_total fc_closed (a := es) (by
      intro h0; rw [h0] at hel; exact hne (List.length_eq_zero_iff.1 hel.symm)) (fun _ _ => trivial) false
    obtain ⟨hl, hp⟩ := scanVals_prefix hsc
    obtain ⟨us, h1, h2, h3⟩ := parForwardExtract_ok (x0 := x0) (el := el) (by omega) h.2
    rw [fwd_of_elems hi hl hp h1 h2]
    unfold LQT.parForwardPass
    rw [bind_ok]
    refine ⟨es, hi, ?_⟩
    rw [bind_ok]
    exact ⟨el, hsc, h3⟩
  · have hs : P.seqForwardPass x0 Ks ds = .error .indexError := by
      unfold LQT.seqForwardPass
      cases hr : lqtForwardLoop P.stages Ks ds x0 with
      | ok r => exact absurd (fwd_ok_iff.1 ⟨r, hr⟩) h
      | error e => rw [fwd_err hr]; rfl
    rw [hs]
    unfold LQT.parForwardPass
    cases hi : P.parForwardInit x0 Ks ds with
    | ok es =>
      exfalso
      apply h
      obtain ⟨h1, h2⟩ := parForwardInit_ok.1 hi
      obtain ⟨s, Kx, d, a1, a2, a3, -⟩ := h2 (Ks.length - 1) (by
        have := List.length_pos_iff.2 hne; omega)
      have b1 := (List.getElem?_eq_some_iff.1 a1).1
      have b3 := (List.getElem?_eq_some_iff.1 a3).1
      omega
    | error e => rw [parForwardInit_err hi]; rfl

theorem par_fwd_nil (P : LQT n m K) (x0 : Fin n → K) (ds : List (Fin m → K)) :
    P.parForwardPass x0 [] ds = .error .valueError ∧ P.seqForwardPass x0 [] ds = .ok ([], [x0]) := by
  constructor
  · unfold LQT.parForwardPass LQT.parForwardInit
    simp only [List.length_nil, List.range_zero, List.mapM_nil, pure_bind, scanVals_nil]
    rfl
  · unfold LQT.seqForwardPass
    have : lqtForwardLoop P.stages [] ds x0 = .ok ([], []) := by cases P.stages <;> simp [lqtForwardLoop]
    rw [this]; rfl

/-! ### Forward-backward passes -/

section Ordered
variable [LinearOrder K] [IsStrictOrderedRing K]

/-- Closed loop trajectory with costates `S x - v` satisfies the relations of the elements. -/
theorem traj_rel {S0 : Matrix (Fin n) (Fin n) K} {v0 : Fin n → K} (h0 : S0ᵀ = S0) {ss : List (LStage n m K)}
    {S : Matrix (Fin n) (Fin n) K} {v : Fin n → K} {r : BwResult n m K} (h : BwOk S0 v0 ss S v r)
    (hs : ∀ s ∈ ss, s.Sym) {es : List (Elem n K)} (hes : List.Forall₂ LStage.IsElem ss es)
    {x : Fin n → K} {us : List (Fin m → K)} {xs : List (Fin n → K)}
    (hf : lqtForwardLoop ss r.Kx_list r.d_list x = .ok (us, xs)) :
    ∀ k ≤ ss.length, ∃ Sk vk xk, r.S_list[k]? = some Sk ∧ r.v_list[k]? = some vk ∧ (x :: xs)[k]? = some xk ∧
      listRel (es.take k) x (S *ᵥ x - v) xk (Sk *ᵥ xk - vk) := by
  induction h generalizing es x us xs with
  | nil =>
    intro k hk
    have : k = 0 := by simpa using hk
    subst this
    exact ⟨S0, v0, x, rfl, rfl, rfl, by simp [listRel]⟩
  | @cons s ss S v r Kx d h hg ih =>
    intro k hk
    cases k with
    | zero => exact ⟨_, _, x, rfl, rfl, rfl, by simp [listRel]⟩
    | succ k =>
      cases hes with
      | @cons _ e _ es he hes =>
        simp only [lqtForwardLoop] at hf
        rw [bind_ok] at hf
        obtain ⟨⟨us1, xs1⟩, h1, h2⟩ := hf
        simp only [pure, Except.pure, Except.ok.injEq, Prod.mk.injEq] at h2
        obtain ⟨rfl, rfl⟩ := h2
        obtain ⟨Sk, vk, xk, i1, i2, i3, i4⟩ := ih (fun s hs' => hs s (by simp [hs'])) hes h1 k (by simpa using hk)
        refine ⟨Sk, vk, xk, by simpa using i1, by simpa using i2, by simpa using i3, ?_⟩
        simp only [List.take_succ_cons, listRel]
        refine ⟨_, _, ?_, i4⟩
        have hS := h.symm h0 fun s hs' => hs s (by simp [hs'])
        refine (he.2 _ _ _ _).2 ⟨-Kx *ᵥ x + d, ?_⟩
        exact (kkt_iff (hs s (by simp)) hS hg _ _ _ _).2 ⟨rfl, rfl, rfl⟩

theorem solve_state {C S : Matrix (Fin n) (Fin n) K} {g v x xs : Fin n → K} (h : xs = g - C *ᵥ (S *ᵥ xs - v)) :
    solveV (1 + C * S) (g + C *ᵥ v) = .ok x → x = xs := by
  intro hx
  obtain ⟨hd, he⟩ := solveV_ok.1 hx
  apply mulVec_inj_of_det hd
  rw [he, add_mulVec, one_mulVec, ← mulVec_mulVec]
  have : xs + C *ᵥ (S *ᵥ xs) = g - C *ᵥ (S *ᵥ xs - v) + C *ᵥ (S *ᵥ xs) := by rw [← h]
  rw [this, mulVec_sub]
  abel

theorem solve_state_ok {C S : Matrix (Fin n) (Fin n) K} {g v xs : Fin n → K} (h : xs = g - C *ᵥ (S *ᵥ xs - v))
    (hd : (1 + C * S).det ≠ 0) : solveV (1 + C * S) (g + C *ᵥ v) = .ok xs := by
  rw [solveV_ok]
  refine ⟨hd, ?_⟩
  rw [add_mulVec, one_mulVec, ← mulVec_mulVec]
  have : xs + C *ᵥ (S *ᵥ xs) = g - C *ᵥ (S *ᵥ xs - v) + C *ᵥ (S *ᵥ xs) := by rw [← h]
  rw [this, mulVec_sub]
  abel

omit [LinearOrder K] [IsStrictOrderedRing K] in
theorem reduceOption_all (l : List (Option (Fin m → K))) (us : List (Fin m → K)) (h : l = us.map some ++ [none]) :
    l.reduceOption = us := by
  subst h
  rw [List.reduceOption_append, reduceOption_map_some]
  simp

/-- Extraction of the first version, given elements with the property of prefixes. -/
theorem fwdbwd_extract {bw : BwResult n m K} {elems : List (Elem n K)} {us : List (Fin m → K)} {xs : List (Fin n → K)}
    {T : ℕ} (hl : elems.length = T + 1) (hxl : xs.length = T + 1) (hul : us.length = T)
    (hx : ∀ k ≤ T, ∃ e Sk vk xk, elems[k]? = some e ∧ bw.S_list[k]? = some Sk ∧ bw.v_list[k]? = some vk ∧
      xs[k]? = some xk ∧ xk = e.b - e.C *ᵥ (Sk *ᵥ xk - vk))
    (hu : ∀ k < T, ∃ Kx d y, bw.Kx_list[k]? = some Kx ∧ bw.d_list[k]? = some d ∧ xs[k]? = some y ∧
      us[k]? = some (-Kx *ᵥ y + d)) :
    (∀ r, LQT.parFwdBwdExtract bw elems = .ok r → r = (us, xs)) ∧
    ((∀ k ≤ T, ∀ e Sk, elems[k]? = some e → bw.S_list[k]? = some Sk → (1 + e.C * Sk).det ≠ 0) →
      LQT.parFwdBwdExtract bw elems = .ok (us, xs)) := by
  have hpair : ∀ rs : List (Option (Fin m → K) × (Fin n → K)), rs.length = T + 1 →
      (∀ k ≤ T, ∃ xk, xs[k]? = some xk ∧ rs[k]? = some (if k < T then us[k]? else none, xk)) →
      ((rs.map Prod.fst).reduceOption, rs.map Prod.snd) = (us, xs) := by
    intro rs hrl hrs
    refine Prod.ext ?_ ?_
    · apply reduceOption_all
      apply list_ext_of (n := T + 1) (by simpa using hrl) (by simp [hul])
      intro k hk
      obtain ⟨xk, h1, h2⟩ := hrs k (by omega)
      rw [List.getElem?_map, h2, Option.map_some]
      by_cases hkT : k < T
      · rw [if_pos hkT, List.getElem?_append_left (by simpa [hul] using hkT), List.getElem?_map]
        rw [List.getElem?_eq_getElem (by omega : k < us.length)]; rfl
      · have : k = T := by omega
        subst this
        simp [hul]
    · apply list_ext_of (n := T + 1) (by simpa using hrl) hxl
      intro k hk
      obtain ⟨xk, h1, h2⟩ := hrs k (by omega)
      rw [List.getElem?_map, h2, h1]; rfl
  unfold LQT.parFwdBwdExtract
  constructor
  · intro r hr
    rw [bind_ok] at hr
    obtain ⟨rs, h1, h2⟩ := hr
    rw [mapM_range_ok, hl] at h1
    simp only [pure, Except.pure, Except.ok.injEq] at h2
    rw [← h2]
    apply hpair rs h1.1
    intro k hk
    obtain ⟨b, hb, hf⟩ := h1.2 k (by omega)
    obtain ⟨e, Sk, vk, xk, a1, a2, a3, a4, a5⟩ := hx k hk
    refine ⟨xk, a4, ?_⟩
    rw [bind_ok] at hf; obtain ⟨e', c1, hf⟩ := hf
    rw [bind_ok] at hf; obtain ⟨S', c2, hf⟩ := hf
    rw [bind_ok] at hf; obtain ⟨v', c3, hf⟩ := hf
    rw [bind_ok] at hf; obtain ⟨x', c4, hf⟩ := hf
    rw [pyGet_ok] at c1 c2 c3
    rw [a1, Option.some.injEq] at c1
    rw [a2, Option.some.injEq] at c2
    rw [a3, Option.some.injEq] at c3
    subst c1 c2 c3
    have := solve_state a5 c4
    subst this
    rw [bind_ok] at hf; obtain ⟨u', c5, hf⟩ := hf
    simp only [pure, Except.pure, Except.ok.injEq] at hf
    subst hf
    rw [hb]
    congr 2
    by_cases hkT : k < T
    · rw [if_pos (by omega)] at c5 ⊢
      obtain ⟨Kx, d, y, b1, b2, b3, b4⟩ := hu k hkT
      rw [a4, Option.some.injEq] at b3
      subst b3
      rw [bind_ok] at c5; obtain ⟨Kx', d1, c5⟩ := c5
      rw [bind_ok] at c5; obtain ⟨d', d2, c5⟩ := c5
      rw [pyGet_ok] at d1 d2
      rw [b1, Option.some.injEq] at d1
      rw [b2, Option.some.injEq] at d2
      subst d1 d2
      simp only [pure, Except.pure, Except.ok.injEq] at c5
      rw [← c5, b4]
    · rw [if_neg (by omega)] at c5 ⊢
      simp only [pure, Except.pure, Except.ok.injEq] at c5
      exact c5.symm
  · intro hdet
    rw [bind_ok]
    have key : ∀ k ≤ T, ∃ xk, xs[k]? = some xk := fun k hk => ⟨xs[k]'(by omega), List.getElem?_eq_getElem _⟩
    choose X hX using key
    let R : Fin (T + 1) → Option (Fin m → K) × (Fin n → K) := fun k =>
      (if k.1 < T then us[k.1]? else none, X k.1 (by omega))
    have hR : ∀ k (hk : k ≤ T), (List.ofFn R)[k]? = some (if k < T then us[k]? else none, X k hk) := by
      intro k hk
      have : k < T + 1 := by omega
      rw [List.getElem?_ofFn, dif_pos this]
    refine ⟨List.ofFn R, ?_, ?_⟩
    · rw [mapM_range_ok]
      refine ⟨by simp [hl], fun k hk => ?_⟩
      obtain ⟨e, Sk, vk, xk, a1, a2, a3, a4, a5⟩ := hx k (by omega)
      have hXk : X k (by omega) = xk := by
        have := hX k (by omega); rw [a4, Option.some.injEq] at this; exact this.symm
      refine ⟨_, hR k (by omega), ?_⟩
      rw [hXk]
      rw [bind_ok]; refine ⟨e, pyGet_ok.2 a1, ?_⟩
      rw [bind_ok]; refine ⟨Sk, pyGet_ok.2 a2, ?_⟩
      rw [bind_ok]; refine ⟨vk, pyGet_ok.2 a3, ?_⟩
      rw [bind_ok]; refine ⟨xk, solve_state_ok a5 (hdet k (by omega) e Sk a1 a2), ?_⟩
      rw [bind_ok]; refine ⟨_, ?_, rfl⟩
      by_cases hkT : k < T
      · rw [if_pos (by omega), if_pos hkT]
        obtain ⟨Kx, d, y, b1, b2, b3, b4⟩ := hu k hkT
        rw [a4, Option.some.injEq] at b3
        subst b3
        rw [bind_ok]; refine ⟨Kx, pyGet_ok.2 b1, ?_⟩
        rw [bind_ok]; refine ⟨d, pyGet_ok.2 b2, ?_⟩
        rw [b4]; rfl
      · rw [if_neg (by omega), if_neg hkT]; rfl
    · simp only [pure, Except.pure, Except.ok.injEq]
      exact hpair _ (by simp) fun k hk => ⟨X k hk, hX k hk, hR k hk⟩

/-- Extraction of the second version. -/
theorem fwdbwd2_extract {x0 : Fin n → K} {bw : BwResult n m K} {elems : List (Elem n K)} {us : List (Fin m → K)}
    {xs : List (Fin n → K)} {T : ℕ} (hl : elems.length = T) (hxl : xs.length = T + 1) (hul : us.length = T)
    (hx0 : xs[0]? = some x0)
    (hx : ∀ k < T, ∃ e Sk vk xk, elems[k]? = some e ∧ bw.S_list[k + 1]? = some Sk ∧ bw.v_list[k + 1]? = some vk ∧
      xs[k + 1]? = some xk ∧ xk = e.A *ᵥ x0 + e.b - e.C *ᵥ (Sk *ᵥ xk - vk))
    (hu : ∀ k < T, ∃ Kx d y, bw.Kx_list[k]? = some Kx ∧ bw.d_list[k]? = some d ∧ xs[k]? = some y ∧
      us[k]? = some (-Kx *ᵥ y + d)) :
    (∀ r, LQT.parFwdBwd2Extract x0 bw elems = .ok r → r = (us, xs)) ∧
    ((∀ k < T, ∀ e Sk, elems[k]? = some e → bw.S_list[k + 1]? = some Sk → (1 + e.C * Sk).det ≠ 0) →
      LQT.parFwdBwd2Extract x0 bw elems = .ok (us, xs)) := by
  have hpair : ∀ rs : List (Option (Fin m → K) × (Fin n → K)), rs.length = T + 1 →
      (∀ k ≤ T, ∃ xk, xs[k]? = some xk ∧ rs[k]? = some (if k < T then us[k]? else none, xk)) →
      ((rs.map Prod.fst).reduceOption, rs.map Prod.snd) = (us, xs) := by
    intro rs hrl hrs
    refine Prod.ext ?_ ?_
    · apply reduceOption_all
      apply list_ext_of (n := T + 1) (by simpa using hrl) (by simp [hul])
      intro k hk
      obtain ⟨xk, h1, h2⟩ := hrs k (by omega)
      rw [List.getElem?_map, h2, Option.map_some]
      by_cases hkT : k < T
      · rw [if_pos hkT, List.getElem?_append_left (by simpa [hul] using hkT), List.getElem?_map]
        rw [List.getElem?_eq_getElem (by omega : k < us.length)]; rfl
      · have : k = T := by omega
        subst this
        simp [hul]
    · apply list_ext_of (n := T + 1) (by simpa using hrl) hxl
      intro k hk
      obtain ⟨xk, h1, h2⟩ := hrs k (by omega)
      rw [List.getElem?_map, h2, h1]; rfl
  unfold LQT.parFwdBwd2Extract
  constructor
  · intro r hr
    rw [bind_ok] at hr
    obtain ⟨rs, h1, h2⟩ := hr
    rw [mapM_range_ok, hl] at h1
    simp only [pure, Except.pure, Except.ok.injEq] at h2
    rw [← h2]
    apply hpair rs h1.1
    intro k hk
    obtain ⟨b, hb, hf⟩ := h1.2 k (by omega)
    rw [bind_ok] at hf; obtain ⟨x', c4, hf⟩ := hf
    have hxk : xs[k]? = some x' := by
      cases k with
      | zero =>
        rw [if_pos rfl] at c4
        simp only [pure, Except.pure, Except.ok.injEq] at c4
        rw [hx0, c4]
      | succ k =>
        rw [if_neg (by omega)] at c4
        obtain ⟨e, Sk, vk, xk, a1, a2, a3, a4, a5⟩ := hx k (by omega)
        rw [bind_ok] at c4; obtain ⟨e', c1, c4⟩ := c4
        rw [bind_ok] at c4; obtain ⟨S', c2, c4⟩ := c4
        rw [bind_ok] at c4; obtain ⟨v', c3, c4⟩ := c4
        rw [pyGet_ok] at c1 c2 c3
        rw [Nat.add_sub_cancel, a1, Option.some.injEq] at c1
        rw [a2, Option.some.injEq] at c2
        rw [a3, Option.some.injEq] at c3
        subst c1 c2 c3
        rw [a4, solve_state a5 c4]
    refine ⟨x', hxk, ?_⟩
    rw [bind_ok] at hf; obtain ⟨u', c5, hf⟩ := hf
    simp only [pure, Except.pure, Except.ok.injEq] at hf
    subst hf
    rw [hb]
    congr 2
    by_cases hkT : k < T
    · rw [if_pos hkT] at c5 ⊢
      obtain ⟨Kx, d, y, b1, b2, b3, b4⟩ := hu k hkT
      rw [hxk, Option.some.injEq] at b3
      subst b3
      rw [bind_ok] at c5; obtain ⟨Kx', d1, c5⟩ := c5
      rw [bind_ok] at c5; obtain ⟨d', d2, c5⟩ := c5
      rw [pyGet_ok] at d1 d2
      rw [b1, Option.some.injEq] at d1
      rw [b2, Option.some.injEq] at d2
      subst d1 d2
      simp only [pure, Except.pure, Except.ok.injEq] at c5
      rw [← c5, b4]
    · rw [if_neg hkT] at c5 ⊢
      simp only [pure, Except.pure, Except.ok.injEq] at c5
      exact c5.symm
  · intro hdet
    rw [bind_ok]
    have key : ∀ k ≤ T, ∃ xk, xs[k]? = some xk := fun k hk => ⟨xs[k]'(by omega), List.getElem?_eq_getElem _⟩
    choose X hX using key
    let R : Fin (T + 1) → Option (Fin m → K) × (Fin n → K) := fun k =>
      (if k.1 < T then us[k.1]? else none, X k.1 (by omega))
    have hR : ∀ k (hk : k ≤ T), (List.ofFn R)[k]? = some (if k < T then us[k]? else none, X k hk) := by
      intro k hk
      have : k < T + 1 := by omega
      rw [List.getElem?_ofFn, dif_pos this]
    refine ⟨List.ofFn R, ?_, ?_⟩
    · rw [mapM_range_ok]
      refine ⟨by simp [hl], fun k hk => ?_⟩
      rw [hl] at hk
      refine ⟨_, hR k (by omega), ?_⟩
      rw [bind_ok]; refine ⟨X k (by omega), ?_, ?_⟩
      · cases k with
        | zero =>
          rw [if_pos rfl]
          have := hX 0 (by omega)
          rw [hx0, Option.some.injEq] at this
          rw [this]; rfl
        | succ k =>
          rw [if_neg (by omega)]
          obtain ⟨e, Sk, vk, xk, a1, a2, a3, a4, a5⟩ := hx k (by omega)
          have hXk : X (k + 1) (by omega) = xk := by
            have := hX (k + 1) (by omega); rw [a4, Option.some.injEq] at this; exact this.symm
          rw [hXk]
          rw [bind_ok]; refine ⟨e, pyGet_ok.2 a1, ?_⟩
          rw [bind_ok]; refine ⟨Sk, pyGet_ok.2 a2, ?_⟩
          rw [bind_ok]; refine ⟨vk, pyGet_ok.2 a3, ?_⟩
          exact solve_state_ok a5 (hdet k (by omega) e Sk a1 a2)
      · rw [bind_ok]; refine ⟨_, ?_, rfl⟩
        by_cases hkT : k < T
        · rw [if_pos (by omega), if_pos hkT]
          obtain ⟨Kx, d, y, b1, b2, b3, b4⟩ := hu k hkT
          have hXk : X k (by omega) = y := by
            have := hX k (by omega); rw [b3, Option.some.injEq] at this; exact this.symm
          rw [hXk]
          rw [bind_ok]; refine ⟨Kx, pyGet_ok.2 b1, ?_⟩
          rw [bind_ok]; refine ⟨d, pyGet_ok.2 b2, ?_⟩
          rw [b4]; rfl
        · rw [if_neg (by omega), if_neg hkT]; rfl
    · simp only [pure, Except.pure, Except.ok.injEq]
      exact hpair _ (by simp) fun k hk => ⟨X k hk, hX k hk, hR k hk⟩

/-- States from elements of all prefixes, with the initial state as first element. -/
theorem prefix_states {S0 : Matrix (Fin n) (Fin n) K} {v0 : Fin n → K} (h0 : S0ᵀ = S0) {ss : List (LStage n m K)}
    {S : Matrix (Fin n) (Fin n) K} {v : Fin n → K} {r : BwResult n m K} (h : BwOk S0 v0 ss S v r)
    (hs : ∀ s ∈ ss, s.Sym) {es : List (Elem n K)} (hes : List.Forall₂ LStage.IsElem ss es)
    {x : Fin n → K} {us : List (Fin m → K)} {xs : List (Fin n → K)}
    (hf : lqtForwardLoop ss r.Kx_list r.d_list x = .ok (us, xs)) {k : ℕ} (hk : k ≤ ss.length) {e : Elem n K}
    (hp : Paren combineABCEJ ((⟨0, x, 0, 0, 0⟩ :: es).take (k + 1)) e) :
    ∃ Sk vk xk, r.S_list[k]? = some Sk ∧ r.v_list[k]? = some vk ∧ (x :: xs)[k]? = some xk ∧
      xk = e.b - e.C *ᵥ (Sk *ᵥ xk - vk) := by
  obtain ⟨Sk, vk, xk, a1, a2, a3, a4⟩ := traj_rel h0 h hs hes hf k hk
  refine ⟨Sk, vk, xk, a1, a2, a3, ?_⟩
  have hsym : ∀ e ∈ (⟨0, x, 0, 0, 0⟩ :: es).take (k + 1), Elem.Sym e := by
    intro e he
    rcases List.mem_cons.1 (List.mem_of_mem_take he) with rfl | he
    · simp [Elem.Sym]
    · exact isElem_sym hes e he
  have := ((paren_rel hp hsym).2 0 0 xk (Sk *ᵥ xk - vk)).2 (by
    rw [List.take_succ_cons, listRel]
    refine ⟨x, S *ᵥ x - v, ?_, a4⟩
    simp [Elem.Rel])
  simpa using this.1

/-- States from elements of all prefixes. -/
theorem prefix_states2 {S0 : Matrix (Fin n) (Fin n) K} {v0 : Fin n → K} (h0 : S0ᵀ = S0) {ss : List (LStage n m K)}
    {S : Matrix (Fin n) (Fin n) K} {v : Fin n → K} {r : BwResult n m K} (h : BwOk S0 v0 ss S v r)
    (hs : ∀ s ∈ ss, s.Sym) {es : List (Elem n K)} (hes : List.Forall₂ LStage.IsElem ss es)
    {x : Fin n → K} {us : List (Fin m → K)} {xs : List (Fin n → K)}
    (hf : lqtForwardLoop ss r.Kx_list r.d_list x = .ok (us, xs)) {k : ℕ} (hk : k < ss.length) {e : Elem n K}
    (hp : Paren combineABCEJ (es.take (k + 1)) e) :
    ∃ Sk vk xk, r.S_list[k + 1]? = some Sk ∧ r.v_list[k + 1]? = some vk ∧ (x :: xs)[k + 1]? = some xk ∧
      xk = e.A *ᵥ x + e.b - e.C *ᵥ (Sk *ᵥ xk - vk) := by
  obtain ⟨Sk, vk, xk, a1, a2, a3, a4⟩ := traj_rel h0 h hs hes hf (k + 1) hk
  refine ⟨Sk, vk, xk, a1, a2, a3, ?_⟩
  exact (((paren_rel hp fun e he => isElem_sym hes e (List.mem_of_mem_take he)).2 _ _ _ _).2 a4).1

theorem fwd_controls {ss : List (LStage n m K)} {Ks : List (Matrix (Fin m) (Fin n) K)} {ds : List (Fin m → K)}
    {x : Fin n → K} {us : List (Fin m → K)} {xs : List (Fin n → K)}
    (h : lqtForwardLoop ss Ks ds x = .ok (us, xs)) {k : ℕ} (hk : k < Ks.length) :
    ∃ Kx d y, Ks[k]? = some Kx ∧ ds[k]? = some d ∧ (x :: xs)[k]? = some y ∧ us[k]? = some (-Kx *ᵥ y + d) := by
  obtain ⟨s, Kx, d, y, -, h2, h3, h4, h5, -⟩ := (fwd_iff.1 h).2.2 k hk
  exact ⟨Kx, d, y, h2, h3, h4, h5⟩

theorem psd_of_prefix {es : List (Elem n K)} (hp : ∀ e ∈ es, e.PSD) {k : ℕ} {e : Elem n K}
    (h : Paren combineABCEJ (es.take k) e) : e.PSD :=
  h.prop (fun x y z hx hy hz => combine_psd hz hx hy) (fun x hx => hp x (List.mem_of_mem_take hx))

/-- First version: equal to the sequential forward pass; defined for convex problems. -/
theorem fwdbwd_seq {P : LQT n m K} (hP : P.Sym) {bw : BwResult n m K} (hb : P.seqBackwardPass = .ok bw)
    {x0 : Fin n → K} : (∀ res, P.parFwdBwdPass x0 bw = .ok res → P.seqForwardPass x0 bw.Kx_list bw.d_list = .ok res) ∧
      (P.Convex → P.stages ≠ [] → P.parFwdBwdPass x0 bw = P.seqForwardPass x0 bw.Kx_list bw.d_list) := by
  obtain ⟨S, v, hb⟩ := seqBackwardPass_iff.1 hb
  obtain ⟨l1, l2, l3, l4⟩ := hb.length
  obtain ⟨us, hul, hf⟩ := lqtForwardLoop_ok l1 l2 x0
  have hseq : P.seqForwardPass x0 bw.Kx_list bw.d_list = .ok (us, x0 :: lqtRun P.stages x0 us) := by
    unfold LQT.seqForwardPass; rw [hf]; rfl
  have hrl : (lqtRun P.stages x0 us).length = P.stages.length := by rw [lqtRun_length (by omega), hul]
  rw [hseq]
  have h0 := term_symm P hP.2
  have main : ∀ es elems, List.Forall₂ (fun s e => LStage.parElem s = .ok e) P.stages es →
      scanVals combineABCEJ (⟨0, x0, 0, 0, 0⟩ :: es) = .ok elems →
      (∀ r, LQT.parFwdBwdExtract bw elems = .ok r → r = (us, x0 :: lqtRun P.stages x0 us)) ∧
      ((∀ k ≤ P.stages.length, ∀ e Sk, elems[k]? = some e → bw.S_list[k]? = some Sk → (1 + e.C * Sk).det ≠ 0) →
        LQT.parFwdBwdExtract bw elems = .ok (us, x0 :: lqtRun P.stages x0 us)) := by
    intro es elems hes hsc
    obtain ⟨hl, hp⟩ := scanVals_prefix hsc
    rw [List.length_cons, ← hes.length_eq] at hl hp
    refine fwdbwd_extract hl (by simp [hrl]) hul ?_ ?_
    · intro k hk
      obtain ⟨e, he, hpe⟩ := hp k (by omega)
      obtain ⟨Sk, vk, xk, a1, a2, a3, a4⟩ := prefix_states h0 hb hP.1 (isElem_forall hP.1 hes) hf hk hpe
      exact ⟨e, Sk, vk, xk, he, a1, a2, a3, a4⟩
    · intro k hk
      exact fwd_controls hf (by omega)
  constructor
  · intro res h
    unfold LQT.parFwdBwdPass LQT.parFwdBwdInit at h
    cases hne : P.stages.isEmpty with
    | true => rw [hne] at h; cases h
    | false =>
      rw [hne] at h
      simp only [Bool.false_eq_true, if_false] at h
      rw [bind_ok] at h
      obtain ⟨el, h1, h⟩ := h
      rw [bind_ok] at h1
      obtain ⟨es, h1, h2⟩ := h1
      simp only [pure, Except.pure, Except.ok.injEq] at h2
      subst h2
      rw [bind_ok] at h
      obtain ⟨elems, h3, h4⟩ := h
      rw [(main es elems (mapM_ok_iff.1 h1) h3).1 _ h4]
  · intro hc hne
    obtain ⟨es, hes, hpsd⟩ := stage_elems hc
    have hall : ∀ e ∈ (⟨0, x0, 0, 0, 0⟩ :: es : List (Elem n K)), e.PSD := by
      intro e he
      rcases List.mem_cons.1 he with rfl | he
      · exact ⟨⟨by simp, by simp⟩, by simp, by simp⟩
      · exact hpsd e he
    obtain ⟨elems, hsc⟩ := scanVals_total psd_closed (a := ⟨0, x0, 0, 0, 0⟩ :: es) (by simp) hall false
    have hS : ∀ T ∈ bw.S_list, IsPSD T := by
      obtain ⟨S', v', r', hb', -, hr'⟩ := bw_convex (psd_conj hc.2) _ P.stages hc.1
      obtain ⟨-, -, rfl⟩ := hb.det hb'
      exact hr'
    have hx := (main es elems hes hsc).2 (by
      intro k hk e Sk he hSk
      obtain ⟨hl, hp⟩ := scanVals_prefix hsc
      obtain ⟨e', he', hpe⟩ := hp k (by rw [List.length_cons, ← hes.length_eq]; omega)
      rw [he, Option.some.injEq] at he'
      subst he'
      exact det_one_add_ne_zero (psd_of_prefix hall hpe).1 (hS _ (List.mem_of_getElem? hSk)))
    unfold LQT.parFwdBwdPass LQT.parFwdBwdInit
    have hne' : P.stages.isEmpty = false := by simpa using hne
    rw [hne', mapM_ok_iff.2 hes]
    show (scanVals combineABCEJ (⟨0, x0, 0, 0, 0⟩ :: es) >>= LQT.parFwdBwdExtract bw) = _
    rw [hsc]
    exact hx

/-- Second version. -/
theorem fwdbwd2_seq {P : LQT n m K} (hP : P.Sym) {bw : BwResult n m K} (hb : P.seqBackwardPass = .ok bw)
    {x0 : Fin n → K} : (∀ res, P.parFwdBwdPass2 x0 bw = .ok res → P.seqForwardPass x0 bw.Kx_list bw.d_list = .ok res) ∧
      (P.Convex → P.stages ≠ [] → P.parFwdBwdPass2 x0 bw = P.seqForwardPass x0 bw.Kx_list bw.d_list) := by
  obtain ⟨S, v, hb⟩ := seqBackwardPass_iff.1 hb
  obtain ⟨l1, l2, l3, l4⟩ := hb.length
  obtain ⟨us, hul, hf⟩ := lqtForwardLoop_ok l1 l2 x0
  have hseq : P.seqForwardPass x0 bw.Kx_list bw.d_list = .ok (us, x0 :: lqtRun P.stages x0 us) := by
    unfold LQT.seqForwardPass; rw [hf]; rfl
  have hrl : (lqtRun P.stages x0 us).length = P.stages.length := by rw [lqtRun_length (by omega), hul]
  rw [hseq]
  have h0 := term_symm P hP.2
  have main : ∀ es elems, List.Forall₂ (fun s e => LStage.parElem s = .ok e) P.stages es →
      scanVals combineABCEJ es = .ok elems →
      (∀ r, LQT.parFwdBwd2Extract x0 bw elems = .ok r → r = (us, x0 :: lqtRun P.stages x0 us)) ∧
      ((∀ k < P.stages.length, ∀ e Sk, elems[k]? = some e → bw.S_list[k + 1]? = some Sk → (1 + e.C * Sk).det ≠ 0) →
        LQT.parFwdBwd2Extract x0 bw elems = .ok (us, x0 :: lqtRun P.stages x0 us)) := by
    intro es elems hes hsc
    obtain ⟨hl, hp⟩ := scanVals_prefix hsc
    rw [← hes.length_eq] at hl hp
    refine fwdbwd2_extract hl (by simp [hrl]) hul rfl ?_ ?_
    · intro k hk
      obtain ⟨e, he, hpe⟩ := hp k (by omega)
      obtain ⟨Sk, vk, xk, a1, a2, a3, a4⟩ := prefix_states2 h0 hb hP.1 (isElem_forall hP.1 hes) hf hk hpe
      exact ⟨e, Sk, vk, xk, he, a1, a2, a3, a4⟩
    · intro k hk
      exact fwd_controls hf (by omega)
  constructor
  · intro res h
    unfold LQT.parFwdBwdPass2 LQT.parFwdBwd2Init at h
    rw [bind_ok] at h
    obtain ⟨es, h1, h⟩ := h
    rw [bind_ok] at h
    obtain ⟨elems, h3, h4⟩ := h
    rw [(main es elems (mapM_ok_iff.1 h1) h3).1 _ h4]
  · intro hc hne
    obtain ⟨es, hes, hpsd⟩ := stage_elems hc
    have hne' : es ≠ [] := by
      rintro rfl
      exact hne (List.length_eq_zero_iff.1 hes.length_eq)
    obtain ⟨elems, hsc⟩ := scanVals_total psd_closed (a := es) hne' hpsd false
    have hS : ∀ T ∈ bw.S_list, IsPSD T := by
      obtain ⟨S', v', r', hb', -, hr'⟩ := bw_convex (psd_conj hc.2) _ P.stages hc.1
      obtain ⟨-, -, rfl⟩ := hb.det hb'
      exact hr'
    have hx := (main es elems hes hsc).2 (by
      intro k hk e Sk he hSk
      obtain ⟨hl, hp⟩ := scanVals_prefix hsc
      obtain ⟨e', he', hpe⟩ := hp k (by rw [← hes.length_eq]; omega)
      rw [he, Option.some.injEq] at he'
      subst he'
      exact det_one_add_ne_zero (psd_of_prefix hpsd hpe).1 (hS _ (List.mem_of_getElem? hSk)))
    unfold LQT.parFwdBwdPass2 LQT.parFwdBwd2Init
    rw [mapM_ok_iff.2 hes]
    show (scanVals combineABCEJ es >>= LQT.parFwdBwd2Extract x0 bw) = _
    rw [hsc]
    exact hx

end Ordered

end Verif
