import Verif.Model.TextModel
import Verif.Proof.PyLemmas
import Mathlib.Algebra.Order.Field.Basic
import Mathlib.Algebra.Order.BigOperators.Group.Finset
import Mathlib.Data.Nat.Cast.Order.Basic
import Mathlib.Tactic.Linarith
import Mathlib.Tactic.Ring
import Mathlib.Data.List.ReduceOption

/-! Lemmas on the text model. -/

namespace Verif

variable {α κ K : Type}

theorem py_ok_bind {β γ : Type} (a : β) (f : β → Py γ) : ((Except.ok a : Py β) >>= f) = f a := rfl

theorem py_error_bind {β γ : Type} (e : PyErr) (f : β → Py γ) : ((Except.error e : Py β) >>= f) = .error e := rfl

/-- A loop over `range(n)` with an invariant. -/
theorem loop_range_inv {σ : Type} {n : ℕ} (f : σ → ℕ → Py σ) (s0 : σ) (P : ℕ → σ → Prop) (h0 : P 0 s0)
    (hs : ∀ i < n, ∀ s, P i s → ∃ s', f s i = .ok s' ∧ P (i + 1) s') :
    ∃ s, (List.range n).foldlM f s0 = .ok s ∧ P n s := by
  induction n with
  | zero => exact ⟨s0, rfl, h0⟩
  | succ n ih =>
    obtain ⟨s, hs1, hP⟩ := ih (fun i hi => hs i (Nat.lt_succ_of_lt hi))
    obtain ⟨s', h1, h2⟩ := hs n (Nat.lt_succ_self n) s hP
    refine ⟨s', ?_, h2⟩
    rw [List.range_succ, List.foldlM_append]
    refine bind_ok.2 ⟨s, hs1, ?_⟩
    simp only [List.foldlM_cons, List.foldlM_nil]
    exact bind_ok.2 ⟨s', h1, rfl⟩

/-- A loop over `range(a, a + n)` with an invariant. -/
theorem loop_range'_inv {σ : Type} {a n : ℕ} (f : σ → ℕ → Py σ) (s0 : σ) (P : ℕ → σ → Prop) (h0 : P 0 s0)
    (hs : ∀ i < n, ∀ s, P i s → ∃ s', f s (a + i) = .ok s' ∧ P (i + 1) s') :
    ∃ s, (List.range' a n).foldlM f s0 = .ok s ∧ P n s := by
  have : List.range' a n = (List.range n).map (a + ·) := by
    rw [List.range'_eq_map_range]
  rw [this, List.foldlM_map]
  exact loop_range_inv (fun s i => f s (a + i)) s0 P h0 hs

/-- A loop over `range(a, a + n)` that fails at its `k`-th iteration. -/
theorem loop_range'_err {σ : Type} {a n k : ℕ} (f : σ → ℕ → Py σ) (s0 : σ) (P : ℕ → σ → Prop) (e : PyErr) (hk : k < n)
    (h0 : P 0 s0) (hs : ∀ i < k, ∀ s, P i s → ∃ s', f s (a + i) = .ok s' ∧ P (i + 1) s')
    (he : ∀ s, P k s → f s (a + k) = .error e) :
    (List.range' a n).foldlM f s0 = .error e := by
  obtain ⟨s, h1, h2⟩ := loop_range'_inv (a := a) (n := k) f s0 P h0 hs
  have : List.range' a n = List.range' a k ++ (a + k) :: List.range' (a + k + 1) (n - k - 1) := by
    have h := (List.range'_append (s := a) (m := k) (n := n - k) (step := 1)).symm
    rw [one_mul, Nat.add_sub_cancel' hk.le] at h
    rw [h]
    congr 1
    obtain ⟨d, hd⟩ : ∃ d, n - k = d + 1 := ⟨n - k - 1, by omega⟩
    rw [hd, List.range'_succ]
    simp
  rw [this, List.foldlM_append, h1]
  show List.foldlM f s ((a + k) :: _) = _
  rw [List.foldlM_cons, he s h2]
  rfl

/-- The dictionary that maps an item of the list to its last position. -/
def dictOf [DecidableEq κ] (l : List κ) : κ → Option ℕ :=
  (List.range l.length).foldl (fun d i => match l[i]? with
    | some c => Function.update d c (some i)
    | none => d) (fun _ => none)

theorem dictOf_nil [DecidableEq κ] : dictOf ([] : List κ) = fun _ => none := rfl

theorem dictOf_concat [DecidableEq κ] (l : List κ) (a : κ) :
    dictOf (l ++ [a]) = Function.update (dictOf l) a (some l.length) := by
  unfold dictOf
  rw [List.length_append, List.length_singleton, List.range_succ, List.foldl_append]
  simp only [List.foldl_cons, List.foldl_nil, List.getElem?_concat_length]
  congr 1
  apply List.foldl_ext
  intro d i hi
  rw [List.getElem?_append_left (List.mem_range.1 hi)]

theorem dictOf_some [DecidableEq κ] (l : List κ) (c : κ) (i : ℕ) :
    dictOf l c = some i ↔ l[i]? = some c ∧ ∀ j, i < j → l[j]? ≠ some c := by
  induction l using List.reverseRecOn with
  | nil => simp [dictOf_nil]
  | append_singleton l a ih =>
    rw [dictOf_concat]
    by_cases hc : c = a
    · subst hc
      rw [Function.update_self]
      constructor
      · intro h
        have : l.length = i := by simpa using h
        subst this
        refine ⟨by simp, fun j hj => ?_⟩
        rw [List.getElem?_eq_none (by simp; omega)]
        simp
      · rintro ⟨h1, h2⟩
        have hi : i < (l ++ [c]).length := by
          by_contra hcon
          rw [List.getElem?_eq_none (by omega)] at h1
          cases h1
        by_contra hcon
        have hne : i ≠ l.length := fun h => hcon (by rw [h])
        refine h2 l.length ?_ (by simp)
        simp at hi
        omega
    · rw [Function.update_of_ne hc, ih]
      constructor
      · rintro ⟨h1, h2⟩
        have hi : i < l.length := by
          by_contra hcon
          rw [List.getElem?_eq_none (by omega)] at h1
          cases h1
        refine ⟨by rw [List.getElem?_append_left hi, h1], fun j hj => ?_⟩
        by_cases hj' : j < l.length
        · rw [List.getElem?_append_left hj']; exact h2 j hj
        · rcases Nat.lt_or_ge l.length j with h | h
          · rw [List.getElem?_eq_none (by simp; omega)]; simp
          · have : j = l.length := by omega
            subst this
            simp [Ne.symm hc]
      · rintro ⟨h1, h2⟩
        have hi : i < l.length := by
          by_contra hcon
          rcases Nat.lt_or_ge l.length i with h | h
          · rw [List.getElem?_eq_none (by simp; omega)] at h1; cases h1
          · have : i = l.length := by omega
            subst this
            simp at h1
            exact hc h1.symm
        refine ⟨by rw [List.getElem?_append_left hi] at h1; exact h1, fun j hj => ?_⟩
        by_cases hj' : j < l.length
        · have := h2 j hj
          rwa [List.getElem?_append_left hj'] at this
        · rw [List.getElem?_eq_none (by omega)]; simp

theorem dictOf_mem [DecidableEq κ] (l : List κ) (c : κ) : c ∈ l ↔ ∃ i, dictOf l c = some i := by
  induction l using List.reverseRecOn with
  | nil => simp [dictOf_nil]
  | append_singleton l a ih =>
    rw [dictOf_concat]
    by_cases hc : c = a
    · subst hc; simp
    · rw [Function.update_of_ne hc, ← ih]
      simp [hc]

theorem dictGet_ok {d : κ → Option ℕ} {k : κ} {i : ℕ} : dictGet d k = .ok i ↔ d k = some i := by
  unfold dictGet
  cases h : d k <;> simp

theorem dictGet_err {d : κ → Option ℕ} {k : κ} : dictGet d k = .error .keyError ↔ d k = none := by
  unfold dictGet
  cases h : d k <;> simp

theorem dictGet_dictOf [DecidableEq κ] {l : List κ} {c : κ} (h : c ∈ l) :
    ∃ i, dictGet (dictOf l) c = .ok i ∧ i < l.length ∧ l[i]? = some c := by
  obtain ⟨i, hi⟩ := (dictOf_mem l c).1 h
  have := ((dictOf_some l c i).1 hi).1
  refine ⟨i, dictGet_ok.2 hi, ?_, this⟩
  by_contra hcon
  rw [List.getElem?_eq_none (by omega)] at this
  cases this

theorem dictGet_dictOf_err [DecidableEq κ] {l : List κ} {c : κ} (h : c ∉ l) :
    dictGet (dictOf l) c = .error .keyError := by
  rw [dictGet_err]
  by_contra hcon
  obtain ⟨i, hi⟩ := Option.ne_none_iff_exists'.1 hcon
  exact h ((dictOf_mem l c).2 ⟨i, hi⟩)

theorem charDictOf_eq [DecidableEq α] (chars : List α) : charDictOf chars = .ok (dictOf chars) := by
  unfold charDictOf
  obtain ⟨s, h1, h2⟩ := loop_range_inv (n := chars.length) (fun d i => do
    let c ← pyGet chars i
    return Function.update d c (some i)) (fun _ => none) (fun i d => d = dictOf (chars.take i)) (by simp [dictOf_nil]) (by
      rintro i hi s rfl
      refine ⟨_, bind_ok.2 ⟨_, pyGet_lt hi, rfl⟩, ?_⟩
      rw [List.take_succ_eq_append_getElem hi, dictOf_concat, List.length_take, Nat.min_eq_left hi.le])
  rw [h1, h2, List.take_length]

/-- The `N` digits of `i` in base `n`, most significant first. -/
def baseDigits (n : ℕ) : ℕ → ℕ → List ℕ
  | 0, _ => []
  | N + 1, i => baseDigits n N (i / n) ++ [i % n]

theorem baseDigits_length (n N i : ℕ) : (baseDigits n N i).length = N := by
  induction N generalizing i with
  | zero => rfl
  | succ N ih => simp [baseDigits, ih]

theorem baseDigits_zero (n N : ℕ) : baseDigits n N 0 = List.replicate N 0 := by
  induction N with
  | zero => rfl
  | succ N ih => rw [baseDigits, Nat.zero_div, ih, Nat.zero_mod, List.replicate_succ']

theorem baseDigits_get (n N i j : ℕ) (hj : j < N) : (baseDigits n N i)[j]? = some (i / n ^ (N - 1 - j) % n) := by
  induction N generalizing i with
  | zero => omega
  | succ N ih =>
    rw [baseDigits]
    by_cases h : j < N
    · rw [List.getElem?_append_left (by rw [baseDigits_length]; exact h), ih _ h, Nat.div_div_eq_div_mul, ← pow_succ']
      congr 4
      omega
    · have : j = N := by omega
      subst this
      have e : j + 1 - 1 - j = 0 := by omega
      rw [e]
      simp [baseDigits_length]

theorem baseDigits_lt {n : ℕ} (hn : 0 < n) (N i : ℕ) : ∀ d ∈ baseDigits n N i, d < n := by
  induction N generalizing i with
  | zero => simp [baseDigits]
  | succ N ih =>
    intro d hd
    rw [baseDigits, List.mem_append] at hd
    rcases hd with h | h
    · exact ih _ d h
    · simp at h; rw [h]; exact Nat.mod_lt _ hn

theorem baseDigits_inj {n N i j : ℕ} (hi : i < n ^ N) (hj : j < n ^ N) (h : baseDigits n N i = baseDigits n N j) : i = j := by
  induction N generalizing i j with
  | zero => simp at hi hj; omega
  | succ N ih =>
    rw [baseDigits, baseDigits] at h
    obtain ⟨h1, h2⟩ := List.append_inj' h rfl
    have hd : i / n = j / n := ih (Nat.div_lt_of_lt_mul (by rw [pow_succ'] at hi; exact hi))
      (Nat.div_lt_of_lt_mul (by rw [pow_succ'] at hj; exact hj)) h1
    have hm : i % n = j % n := by simpa using h2
    rw [← Nat.div_add_mod i n, ← Nat.div_add_mod j n, hd, hm]

theorem baseDigits_surj {n N : ℕ} (ds : List ℕ) (hl : ds.length = N) (hd : ∀ d ∈ ds, d < n) :
    ∃ i < n ^ N, baseDigits n N i = ds := by
  induction N generalizing ds with
  | zero => exact ⟨0, by simp, by simp [baseDigits, List.length_eq_zero_iff.1 hl]⟩
  | succ N ih =>
    have hne : ds ≠ [] := by rintro rfl; simp at hl
    have hsplit := List.dropLast_append_getLast hne
    obtain ⟨i, hi, h⟩ := ih ds.dropLast (by simp [hl]) (fun d h => hd d (List.mem_of_mem_dropLast h))
    have hx := hd (ds.getLast hne) (List.getLast_mem hne)
    have hn : 0 < n := by omega
    refine ⟨n * i + ds.getLast hne, ?_, ?_⟩
    · calc n * i + ds.getLast hne < n * i + n := by omega
        _ = n * (i + 1) := by ring
        _ ≤ n * n ^ N := Nat.mul_le_mul_left _ hi
        _ = n ^ (N + 1) := (pow_succ' n N).symm
    · rw [baseDigits, Nat.mul_add_div hn, Nat.div_eq_of_lt hx, add_zero, h, Nat.mul_add_mod, Nat.mod_eq_of_lt hx, hsplit]

theorem odoDown_eq {n : ℕ} (hn : 0 < n) (j : ℕ) : ∀ (i : ℕ) (tl : List ℕ),
    odoDown n (baseDigits n j i ++ tl) j = .ok (baseDigits n j (i + 1) ++ tl) := by
  induction j with
  | zero => intro i tl; rfl
  | succ j ih =>
    intro i tl
    unfold odoDown
    have hl := baseDigits_length n j (i / n)
    have hg : pyGet (baseDigits n (j + 1) i ++ tl) j = .ok (i % n) := by
      rw [pyGet_ok, baseDigits, List.append_assoc, List.getElem?_append_right (by omega), hl]
      simp
    rw [hg]
    show (if i % n + 1 ≥ n then _ else _) = _
    have hset : ∀ v, (baseDigits n (j + 1) i ++ tl).set j v = baseDigits n j (i / n) ++ (v :: tl) := by
      intro v
      rw [baseDigits, List.append_assoc, List.set_append_right _ _ (by omega), hl]
      simp
    have hi := Nat.div_add_mod i n
    have hm := Nat.mod_lt i hn
    rw [List.set_set, hset, hset]
    by_cases h : i % n + 1 ≥ n
    · have e : i + 1 = n * (i / n + 1) := by rw [Nat.mul_add]; omega
      rw [if_pos h, ih, baseDigits, e, Nat.mul_div_cancel_left _ hn, Nat.mul_mod_right, List.append_assoc]
      rfl
    · have e : i + 1 = n * (i / n) + (i % n + 1) := by omega
      have e1 : (i + 1) / n = i / n := by
        rw [e, Nat.mul_add_div hn, Nat.div_eq_of_lt (show i % n + 1 < n by omega), add_zero]
      have e2 : (i + 1) % n = i % n + 1 := by
        rw [e, Nat.mul_add_mod, Nat.mod_eq_of_lt (by omega)]
      rw [if_neg h, baseDigits, e1, e2, List.append_assoc]
      rfl

theorem odoDown_top {n : ℕ} (hn : 0 < n) (N i : ℕ) : odoDown n (baseDigits n N i) N = .ok (baseDigits n N (i + 1)) := by
  have := odoDown_eq hn N i []
  simpa using this

theorem condString_ok {chars : List α} (ix : List ℕ) (h : ∀ d ∈ ix, d < chars.length) :
    ∃ s, condString chars ix = .ok s ∧ s.length = ix.length ∧
      ∀ (j : ℕ) (d : ℕ), ix[j]? = some d → s[j]? = chars[d]? := by
  unfold condString
  obtain ⟨s, h1, h2, h3⟩ := loop_range_inv (n := ix.length) (fun s j => do
    let i ← pyGet ix j
    let c ← pyGet chars i
    return s ++ [c]) [] (fun k s => s.length = k ∧ ∀ (j : ℕ) (d : ℕ), j < k → ix[j]? = some d → s[j]? = chars[d]?)
    ⟨rfl, fun j d hj => absurd hj (Nat.not_lt_zero _)⟩ (by
      rintro i hi s ⟨hs1, hs2⟩
      have hd := h ix[i] (List.getElem_mem hi)
      refine ⟨s ++ [chars[ix[i]]], bind_ok.2 ⟨_, pyGet_lt hi, bind_ok.2 ⟨_, pyGet_lt hd, rfl⟩⟩, by simp [hs1], ?_⟩
      intro j d hj hjd
      by_cases hj' : j < i
      · rw [List.getElem?_append_left (by omega)]
        exact hs2 j d hj' hjd
      · have : j = i := by omega
        subst this
        rw [List.getElem?_eq_getElem hi] at hjd
        cases hjd
        rw [List.getElem?_append_right (by omega), hs1, List.getElem?_eq_getElem hd]
        simp)
  exact ⟨s, h1, h2, fun j d hjd => h3 j d (by
    by_contra hcon
    rw [List.getElem?_eq_none (by omega)] at hjd
    cases hjd) hjd⟩

/-- The `i`-th conditioning string. -/
def strAt (chars : List α) (N i : ℕ) : List α :=
  ((baseDigits chars.length N i).map (fun d => chars[d]?)).reduceOption

theorem reduceOption_map_get {chars : List α} : ∀ (ix : List ℕ), (∀ d ∈ ix, d < chars.length) →
    ((ix.map (fun d => chars[d]?)).reduceOption).length = ix.length ∧
    ∀ (j : ℕ) (d : ℕ), ix[j]? = some d → ((ix.map (fun d => chars[d]?)).reduceOption)[j]? = chars[d]?
  | [], _ => ⟨rfl, by simp⟩
  | a :: ix, h => by
    obtain ⟨h1, h2⟩ := reduceOption_map_get ix (fun d hd => h d (by simp [hd]))
    have ha := h a (by simp)
    have e : ((a :: ix).map (fun d => chars[d]?)).reduceOption = chars[a] :: (ix.map (fun d => chars[d]?)).reduceOption := by
      simp [List.reduceOption_cons_of_some, List.getElem?_eq_getElem ha]
    rw [e]
    refine ⟨by simp [h1], ?_⟩
    rintro (_ | j) d hd
    · simp at hd; subst hd; simp [List.getElem?_eq_getElem ha]
    · simp at hd
      simpa using h2 j d hd

theorem strAt_length {chars : List α} (hn : 0 < chars.length) (N i : ℕ) : (strAt chars N i).length = N := by
  rw [strAt, (reduceOption_map_get _ (baseDigits_lt hn N i)).1, baseDigits_length]

theorem strAt_get {chars : List α} (hn : 0 < chars.length) {N i j : ℕ} (hj : j < N) :
    (strAt chars N i)[j]? = chars[i / chars.length ^ (N - 1 - j) % chars.length]? :=
  (reduceOption_map_get _ (baseDigits_lt hn N i)).2 j _ (baseDigits_get _ N i j hj)

theorem condString_digits {chars : List α} (hn : 0 < chars.length) (N i : ℕ) :
    condString chars (baseDigits chars.length N i) = .ok (strAt chars N i) := by
  obtain ⟨s, h1, h2, h3⟩ := condString_ok (chars := chars) _ (baseDigits_lt hn N i)
  rw [h1]
  congr 1
  rw [baseDigits_length] at h2
  refine list_ext_of h2 (strAt_length hn N i) (fun k hk => ?_)
  rw [h3 k _ (baseDigits_get _ N i k hk), strAt_get hn hk]

theorem cond_loop [DecidableEq α] (chars : List α) (order : ℕ) :
    ∃ st, (List.range (chars.length ^ order)).foldlM (condStep chars) (List.replicate order 0, fun _ => none, []) = .ok st ∧
      st.2.2 = (List.range (chars.length ^ order)).map (strAt chars order) ∧ st.2.1 = dictOf st.2.2 := by
  obtain ⟨st, h1, h2, h3, h4⟩ := loop_range_inv (n := chars.length ^ order) (condStep chars)
    (List.replicate order 0, (fun _ => none), [])
    (fun i st => st.1 = baseDigits chars.length order i ∧ st.2.2 = (List.range i).map (strAt chars order) ∧ st.2.1 = dictOf st.2.2)
    ⟨(baseDigits_zero _ _).symm, rfl, rfl⟩ (by
      rintro i hi ⟨ix, d, cc⟩ ⟨e1, e2, e3⟩
      dsimp only at e1 e2 e3
      by_cases hn : 0 < chars.length
      · refine ⟨(baseDigits chars.length order (i + 1), Function.update d (strAt chars order i) (some i),
          cc ++ [strAt chars order i]), ?_, rfl, ?_, ?_⟩
        · unfold condStep
          dsimp only
          rw [e1, baseDigits_length]
          exact bind_ok.2 ⟨_, condString_digits hn order i, bind_ok.2 ⟨_, odoDown_top hn order i, rfl⟩⟩
        · dsimp only; rw [e2, List.range_succ, List.map_append]; rfl
        · dsimp only
          rw [dictOf_concat, ← e3]
          congr 2
          rw [e2]; simp
      · have hn : chars.length = 0 := by omega
        rcases Nat.eq_zero_or_pos order with ho | ho
        · subst ho
          have : i = 0 := by simpa using hi
          subst this
          have e1' : ix = [] := e1
          subst e1'
          simp at e2
          subst e2
          refine ⟨([], Function.update d [] (some 0), [[]]), rfl, rfl, rfl, ?_⟩
          dsimp only
          rw [e3]
          exact (dictOf_concat [] []).symm
        · rw [hn, zero_pow (by omega)] at hi
          exact absurd hi (Nat.not_lt_zero _))
  exact ⟨st, h1, h3, h4⟩

theorem TextModel.init_eq [DecidableEq α] (chars : List α) (errp : K) (order : ℕ) :
    TextModel.init chars errp order = .ok ⟨chars, errp, dictOf chars, order,
      dictOf ((List.range (chars.length ^ order)).map (strAt chars order)),
      (List.range (chars.length ^ order)).map (strAt chars order)⟩ := by
  obtain ⟨st, h1, h2, h3⟩ := cond_loop chars order
  unfold TextModel.init
  refine bind_ok.2 ⟨_, charDictOf_eq chars, bind_ok.2 ⟨st, h1, ?_⟩⟩
  rw [← h2, ← h3]
  rfl

end Verif
