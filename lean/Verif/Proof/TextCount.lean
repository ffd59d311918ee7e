import Verif.Proof.TextModel
import Mathlib.Algebra.BigOperators.Field
import Mathlib.Algebra.Order.BigOperators.Group.Finset
import Mathlib.Data.Finset.Filter
import Mathlib.Data.Finset.Range
import Mathlib.Data.Finset.Card

/-! Lemmas on the counting loops of the text model. -/

namespace Verif

variable {α κ K : Type}

theorem bump2_apply [AddMonoid K] [One K] (P : ℕ → ℕ → K) (i0 i1 i j : ℕ) :
    bump2 P i0 i1 i j = P i j + if i0 = i ∧ i1 = j then 1 else 0 := by
  unfold bump2
  by_cases h : i0 = i
  · subst h
    rw [Function.update_self]
    by_cases h' : i1 = j
    · subst h'; simp
    · rw [Function.update_of_ne (Ne.symm h')]; simp [h']
  · rw [Function.update_of_ne (Ne.symm h)]; simp [h]

theorem bump1_apply [AddMonoid K] [One K] (p : ℕ → K) (i0 i : ℕ) :
    bump1 p i0 i = p i + if i0 = i then 1 else 0 := by
  unfold bump1
  by_cases h : i0 = i
  · subst h; simp
  · rw [Function.update_of_ne (Ne.symm h)]; simp [h]

theorem card_filter_succ [AddMonoidWithOne K] (k : ℕ) (q : ℕ → Prop) [DecidablePred q] :
    (((Finset.range (k + 1)).filter q).card : K) = (((Finset.range k).filter q).card : K) + if q k then 1 else 0 := by
  rw [Finset.range_add_one, Finset.filter_insert]
  split_ifs with h
  · rw [Finset.card_insert_of_notMem (by simp), Nat.cast_add, Nat.cast_one]
  · simp

section Norm
variable [Field K] [LinearOrder K] [IsStrictOrderedRing K]

theorem normalizeVec_pos {len : ℕ} {p : ℕ → K} (h : ∀ i < len, 0 < p i) : (∀ i < len, 0 < normalizeVec len p i) ∧
    (0 < len → ∑ i ∈ Finset.range len, normalizeVec len p i = 1) := by
  have hs : 0 < len → 0 < ∑ k ∈ Finset.range len, p k := fun hl =>
    Finset.sum_pos (fun i hi => h i (Finset.mem_range.1 hi)) ⟨0, Finset.mem_range.2 hl⟩
  refine ⟨fun i hi => div_pos (h i hi) (hs (by omega)), fun hl => ?_⟩
  unfold normalizeVec
  rw [← Finset.sum_div, div_self (hs hl).ne']

theorem normalizeRows_pos {cols : ℕ} {P : ℕ → ℕ → K} (i : ℕ) (h : ∀ j < cols, 0 < P i j) :
    (∀ j < cols, 0 < normalizeRows cols P i j) ∧
    (0 < cols → ∑ j ∈ Finset.range cols, normalizeRows cols P i j = 1) :=
  normalizeVec_pos h

end Norm

theorem window_succ {text : List α} {order k : ℕ} (ho : 0 < order) (hk : order + k < text.length) :
    ((text.drop k).take order).drop 1 ++ [text[order + k]] = (text.drop (k + 1)).take order := by
  obtain ⟨o, rfl⟩ : ∃ o, order = o + 1 := ⟨order - 1, by omega⟩
  rw [List.drop_take, List.drop_drop, Nat.add_sub_cancel]
  have hl : o < (text.drop (k + 1)).length := by simp; omega
  rw [List.take_succ_eq_append_getElem hl]
  congr 2
  rw [List.getElem_drop]
  congr 1
  omega

variable [DecidableEq α]

/-- Strings over the alphabet of length `N` are exactly the conditioning strings. -/
theorem mem_strings {chars : List α} (hn : 0 < chars.length) (N : ℕ) (w : List α) :
    w ∈ (List.range (chars.length ^ N)).map (strAt chars N) ↔ w.length = N ∧ ∀ c ∈ w, c ∈ chars := by
  constructor
  · intro h
    obtain ⟨i, -, rfl⟩ := List.mem_map.1 h
    refine ⟨strAt_length hn N i, fun c hc => ?_⟩
    obtain ⟨j, hj, e⟩ := List.getElem_of_mem hc
    rw [strAt_length hn] at hj
    have := strAt_get (i := i) hn hj
    rw [List.getElem?_eq_getElem (by rw [strAt_length hn]; exact hj), e] at this
    exact List.mem_of_getElem? this.symm
  · rintro ⟨hl, hc⟩
    have hd : ∀ c ∈ w, ∃ i, i < chars.length ∧ chars[i]? = some c := fun c h => by
      obtain ⟨i, -, h1, h2⟩ := dictGet_dictOf (hc c h)
      exact ⟨i, h1, h2⟩
    obtain ⟨ds, hds⟩ : ∃ ds : List ℕ, List.Forall₂ (fun c i => i < chars.length ∧ chars[i]? = some c) w ds := by
      clear hl hc
      induction w with
      | nil => exact ⟨[], .nil⟩
      | cons c w ih =>
        obtain ⟨i, hi⟩ := hd c (by simp)
        obtain ⟨ds, h⟩ := ih (fun c h => hd c (by simp [h]))
        exact ⟨i :: ds, .cons hi h⟩
    have hlen := hds.length_eq
    have hget := (List.forall₂_iff_get.1 hds).2
    obtain ⟨i, hi, he⟩ := baseDigits_surj (n := chars.length) ds (hlen.symm.trans hl) (fun d h => by
      obtain ⟨j, hj, rfl⟩ := List.getElem_of_mem h
      exact (hget j (by omega) hj).1)
    refine List.mem_map.2 ⟨i, List.mem_range.2 hi, ?_⟩
    refine list_ext_of (strAt_length hn N i) hl (fun k hk => ?_)
    have hd' := baseDigits_get chars.length N i k hk
    rw [he] at hd'
    rw [strAt_get hn hk]
    have hk1 : k < w.length := by omega
    have hk2 : k < ds.length := by omega
    have := (hget k hk1 hk2).2
    rw [List.getElem?_eq_getElem hk2] at hd'
    simp only [Option.some.injEq] at hd'
    simp only [List.get_eq_getElem] at this
    rw [hd'] at this
    rw [this, List.getElem?_eq_getElem hk1]

theorem strings_nodup {chars : List α} (hd : chars.Nodup) (N : ℕ) :
    ((List.range (chars.length ^ N)).map (strAt chars N)).Nodup := by
  refine List.Nodup.map_on ?_ List.nodup_range
  intro i hi j hj h
  rw [List.mem_range] at hi hj
  rcases Nat.eq_zero_or_pos chars.length with hn | hn
  · rcases Nat.eq_zero_or_pos N with h0 | h0
    · subst h0; simp at hi hj; omega
    · rw [hn, zero_pow (by omega)] at hi; omega
  · refine baseDigits_inj hi hj (list_ext_of (baseDigits_length _ _ _) (baseDigits_length _ _ _) (fun k hk => ?_))
    rw [baseDigits_get _ _ _ _ hk, baseDigits_get _ _ _ _ hk]
    congr 1
    have e : (strAt chars N i)[k]? = (strAt chars N j)[k]? := by rw [h]
    rw [strAt_get hn hk, strAt_get hn hk] at e
    exact (List.getElem?_inj (Nat.mod_lt _ hn) hd).1 e

theorem dictOf_nodup {l : List κ} [DecidableEq κ] (h : l.Nodup) (c : κ) (i : ℕ) : dictOf l c = some i ↔ l[i]? = some c := by
  rw [dictOf_some]
  refine ⟨fun h => h.1, fun h1 => ⟨h1, fun j hj h2 => ?_⟩⟩
  have hi : i < l.length := by
    by_contra hcon
    rw [List.getElem?_eq_none (by omega)] at h1
    cases h1
  have := (List.getElem?_inj hi h).1 (h1.trans h2.symm)
  omega

section Loops
variable [Field K]

/-- The counting loop of `getNthOrderPi`. -/
theorem countN_loop (M : TextModel α K) (text : List α) (P0 : ℕ → ℕ → K) (ho : 0 < M.order)
    (hw : ∀ k, k ≤ text.length - M.order → M.order < text.length → ∃ i, M.condDict ((text.drop k).take M.order) = some i) :
    ∃ st, (List.range' M.order (text.length - M.order)).foldlM (M.countNStep text) (text.take M.order, P0) = .ok st ∧
      ∀ i j, st.2 i j = P0 i j + (((Finset.range (text.length - M.order)).filter (fun k =>
        M.condDict ((text.drop k).take M.order) = some i ∧ M.condDict ((text.drop (k + 1)).take M.order) = some j)).card : K) := by
  obtain ⟨st, h1, -, h2⟩ := loop_range'_inv (a := M.order) (n := text.length - M.order) (M.countNStep text)
    (text.take M.order, P0)
    (fun k st => st.1 = (text.drop k).take M.order ∧ ∀ i j, st.2 i j = P0 i j + (((Finset.range k).filter (fun k =>
        M.condDict ((text.drop k).take M.order) = some i ∧ M.condDict ((text.drop (k + 1)).take M.order) = some j)).card : K))
    ⟨by simp, by simp⟩ (by
      rintro k hk ⟨c1, P⟩ ⟨e1, e2⟩
      dsimp only at e1 e2
      obtain ⟨i0, h0⟩ := hw k (by omega) (by omega)
      obtain ⟨i1, h1⟩ := hw (k + 1) (by omega) (by omega)
      have hl : M.order + k < text.length := by omega
      have hwin := window_succ ho hl
      refine ⟨((text.drop (k + 1)).take M.order, bump2 P i0 i1), ?_, rfl, ?_⟩
      · unfold TextModel.countNStep
        dsimp only
        refine bind_ok.2 ⟨_, pyGet_lt hl, ?_⟩
        rw [e1, hwin]
        exact bind_ok.2 ⟨_, dictGet_ok.2 h0, bind_ok.2 ⟨_, dictGet_ok.2 h1, rfl⟩⟩
      · intro i j
        dsimp only
        rw [bump2_apply, e2, card_filter_succ, h0, h1, add_assoc]
        simp only [Option.some.injEq])
  exact ⟨st, h1, h2⟩

theorem countN_loop_err (M : TextModel α K) (text : List α) (P0 : ℕ → ℕ → K) (ho : 0 < M.order)
    {k : ℕ} (hk : k ≤ text.length - M.order) (hl : M.order < text.length)
    (hw : M.condDict ((text.drop k).take M.order) = none) :
    (List.range' M.order (text.length - M.order)).foldlM (M.countNStep text) (text.take M.order, P0) = .error .keyError := by
  classical
  have hex : ∃ k, M.condDict ((text.drop k).take M.order) = none := ⟨k, hw⟩
  set k0 := Nat.find hex with hk0
  have hbad : M.condDict ((text.drop k0).take M.order) = none := Nat.find_spec hex
  have hgood : ∀ k < k0, ∃ i, M.condDict ((text.drop k).take M.order) = some i := fun k h =>
    Option.ne_none_iff_exists'.1 (Nat.find_min hex h)
  have hle : k0 ≤ k := Nat.find_min' hex hw
  -- the failing iteration
  refine loop_range'_err (k := k0 - 1) (M.countNStep text) _ (fun k st => st.1 = (text.drop k).take M.order) .keyError
    (by omega) (by simp) ?_ ?_
  · rintro i hi ⟨c1, P⟩ e1
    dsimp only at e1
    obtain ⟨i0, h0⟩ := hgood i (by omega)
    obtain ⟨i1, h1⟩ := hgood (i + 1) (by omega)
    have hl : M.order + i < text.length := by omega
    refine ⟨((text.drop (i + 1)).take M.order, bump2 P i0 i1), ?_, rfl⟩
    unfold TextModel.countNStep
    dsimp only
    refine bind_ok.2 ⟨_, pyGet_lt hl, ?_⟩
    rw [e1, window_succ ho hl]
    exact bind_ok.2 ⟨_, dictGet_ok.2 h0, bind_ok.2 ⟨_, dictGet_ok.2 h1, rfl⟩⟩
  · rintro ⟨c1, P⟩ e1
    dsimp only at e1
    have hl : M.order + (k0 - 1) < text.length := by omega
    unfold TextModel.countNStep
    dsimp only
    rw [pyGet_lt hl, e1]
    change (dictGet M.condDict ((text.drop (k0 - 1)).take M.order) >>= fun i0 =>
      dictGet M.condDict (((text.drop (k0 - 1)).take M.order).drop 1 ++ [text[M.order + (k0 - 1)]]) >>= fun i1 =>
        pure (((text.drop (k0 - 1)).take M.order).drop 1 ++ [text[M.order + (k0 - 1)]], bump2 P i0 i1)) = _
    rw [window_succ ho hl]
    rcases Nat.eq_zero_or_pos k0 with h0 | h0
    · rw [h0] at hbad ⊢
      rw [dictGet_err.2 hbad]
      rfl
    · obtain ⟨i0, hi0⟩ := hgood (k0 - 1) (by omega)
      rw [dictGet_ok.2 hi0]
      have e : k0 - 1 + 1 = k0 := by omega
      rw [e]
      show (dictGet M.condDict _ >>= fun i1 => _) = _
      rw [dictGet_err.2 hbad]
      rfl

/-- The loops marking compatible strings. -/
theorem compat_loop (M : TextModel α K) (P0 : ℕ → ℕ → K) (N : ℕ) (hN : M.condChars.length = N) :
    ∃ P, (List.range N).foldlM (fun P i => (List.range N).foldlM (M.compatStep i) P) P0 = .ok P ∧
      ∀ (i j : ℕ) (s t : List α), M.condChars[i]? = some s → M.condChars[j]? = some t →
        P i j = P0 i j + if s.drop 1 = t.dropLast then 1 else 0 := by
  classical
  -- contributions after `a` rows and `b` entries of the next row
  let ind : ℕ → ℕ → Prop := fun i j => ∃ s t, M.condChars[i]? = some s ∧ M.condChars[j]? = some t ∧ s.drop 1 = t.dropLast
  have row : ∀ a, a < N → ∀ P : ℕ → ℕ → K, ∃ P', (List.range N).foldlM (M.compatStep a) P = .ok P' ∧
      ∀ i j, P' i j = P i j + if i = a ∧ j < N ∧ ind i j then 1 else 0 := by
    intro a ha P
    obtain ⟨P', h1, h2⟩ := loop_range_inv (n := N) (M.compatStep a) P
      (fun b P' => ∀ i j, P' i j = P i j + if i = a ∧ j < b ∧ ind i j then 1 else 0) (by simp) (by
        intro b hb Q hQ
        have hga := pyGet_lt (a := M.condChars) (i := a) (by omega)
        have hgb := pyGet_lt (a := M.condChars) (i := b) (by omega)
        have hind : ind a b ↔ (M.condChars[a]'(by omega)).drop 1 = (M.condChars[b]'(by omega)).dropLast := by
          constructor
          · rintro ⟨s, t, hs, ht, h⟩
            rw [List.getElem?_eq_getElem (by omega)] at hs ht
            cases hs; cases ht; exact h
          · intro h
            exact ⟨_, _, List.getElem?_eq_getElem (by omega), List.getElem?_eq_getElem (by omega), h⟩
        by_cases h : ind a b
        · refine ⟨bump2 Q a b, ?_, ?_⟩
          · unfold TextModel.compatStep
            refine bind_ok.2 ⟨_, hga, bind_ok.2 ⟨_, hgb, ?_⟩⟩
            rw [if_pos (hind.1 h)]
            rfl
          · intro i j
            rw [bump2_apply, hQ]
            by_cases hi : i = a
            · subst hi
              by_cases hj : j = b
              · subst hj
                simp [h]
              · have : (j < b + 1) ↔ j < b := by omega
                simp [this, Ne.symm hj]
            · simp [hi, Ne.symm hi]
        · refine ⟨Q, ?_, ?_⟩
          · unfold TextModel.compatStep
            refine bind_ok.2 ⟨_, hga, bind_ok.2 ⟨_, hgb, ?_⟩⟩
            rw [if_neg (fun h' => h (hind.2 h'))]
            rfl
          · intro i j
            rw [hQ]
            by_cases hi : i = a
            · subst hi
              by_cases hj : j = b
              · subst hj
                simp [h]
              · have : (j < b + 1) ↔ j < b := by omega
                simp [this]
            · simp [hi])
    exact ⟨P', h1, h2⟩
  obtain ⟨P, h1, h2⟩ := loop_range_inv (n := N) (fun P i => (List.range N).foldlM (M.compatStep i) P) P0
    (fun a P => ∀ i j, P i j = P0 i j + if i < a ∧ j < N ∧ ind i j then 1 else 0) (by simp) (by
      intro a ha P hP
      obtain ⟨P', hr, hP'⟩ := row a ha P
      refine ⟨P', hr, fun i j => ?_⟩
      rw [hP', hP]
      by_cases hi : i = a
      · subst hi; simp
      · have : (i < a + 1) ↔ i < a := by omega
        simp [this, hi])
  refine ⟨P, h1, fun i j s t hs ht => ?_⟩
  have hi : i < N := by
    by_contra hcon
    rw [List.getElem?_eq_none (by omega)] at hs
    cases hs
  have hj : j < N := by
    by_contra hcon
    rw [List.getElem?_eq_none (by omega)] at ht
    cases ht
  rw [h2]
  congr 1
  refine if_congr ⟨?_, fun h => ⟨hi, hj, s, t, hs, ht, h⟩⟩ rfl rfl
  rintro ⟨-, -, s', t', hs', ht', h⟩
  rw [hs] at hs'
  rw [ht] at ht'
  cases hs'; cases ht'; exact h

/-- The counting loop of `getNthOrderPrior`. -/
theorem priorN_loop (d : κ → Option ℕ) (w : ℕ → κ) (n : ℕ) (h : ∀ k < n, ∃ i, d (w k) = some i) :
    ∃ p, (List.range n).foldlM (fun (p : ℕ → K) i => do
      let k ← dictGet d (w i)
      return bump1 p k) (fun _ => (1 : K)) = .ok p ∧
      ∀ i, p i = 1 + (((Finset.range n).filter (fun k => d (w k) = some i)).card : K) := by
  obtain ⟨p, h1, h2⟩ := loop_range_inv (n := n) (fun (p : ℕ → K) i => do
      let k ← dictGet d (w i)
      return bump1 p k) (fun _ => (1 : K))
    (fun a p => ∀ i, p i = 1 + (((Finset.range a).filter (fun k => d (w k) = some i)).card : K)) (by simp) (by
      intro a ha p hp
      obtain ⟨k, hk⟩ := h a ha
      refine ⟨bump1 p k, bind_ok.2 ⟨k, dictGet_ok.2 hk, rfl⟩, fun i => ?_⟩
      rw [bump1_apply, hp, card_filter_succ, hk, add_assoc]
      simp only [Option.some.injEq])
  exact ⟨p, h1, h2⟩

theorem priorN_loop_err (d : κ → Option ℕ) (w : ℕ → κ) (n k : ℕ) (hk : k < n) (h : d (w k) = none) :
    (List.range n).foldlM (fun (p : ℕ → K) i => do
      let k ← dictGet d (w i)
      return bump1 p k) (fun _ => (1 : K)) = .error .keyError := by
  classical
  have hex : ∃ k, d (w k) = none := ⟨k, h⟩
  have hle : Nat.find hex ≤ k := Nat.find_min' hex h
  rw [List.range_eq_range']
  refine loop_range'_err (k := Nat.find hex) _ _ (fun _ _ => True) .keyError (by omega) trivial ?_ ?_
  · intro i hi s _
    obtain ⟨j, hj⟩ := Option.ne_none_iff_exists'.1 (Nat.find_min hex hi)
    rw [zero_add]
    exact ⟨_, bind_ok.2 ⟨j, dictGet_ok.2 hj, rfl⟩, trivial⟩
  · intro s _
    rw [zero_add, dictGet_err.2 (Nat.find_spec hex)]
    rfl

end Loops

end Verif
