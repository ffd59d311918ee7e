import Verif.Proof.TextCount
import Mathlib.Algebra.Order.Field.Rat
import Mathlib.Tactic.NormNum
import Mathlib.Tactic.Positivity

/-! Properties C49, C50: text models. -/

namespace Verif

open Finset

variable {α K : Type} [DecidableEq α]

/-- The array holds a probability distribution with positive entries. -/
def FArr1.IsPositiveDistribution [Semiring K] [PartialOrder K] (p : FArr1 K) : Prop :=
  (∀ i < p.len, 0 < p.get i) ∧ ∑ i ∈ range p.len, p.get i = 1

/-- Every row holds a probability distribution with positive entries. -/
def FArr2.RowsPositiveDistributions [Semiring K] [PartialOrder K] (P : FArr2 K) : Prop :=
  ∀ i < P.rows, (∀ j < P.cols, 0 < P.get i j) ∧ ∑ j ∈ range P.cols, P.get i j = 1

/-- C50: the constructor never fails; conditioning string `i` consists of the digits of `i` in base `n`, the strings are all the
strings of the given length over the alphabet, and the dictionaries return positions of the requested key. -/
theorem C50_enumeration (chars : List α) (hc : chars ≠ []) (errp : K) (order : ℕ) :
    ∃ M, TextModel.init chars errp order = .ok M ∧ M.chars = chars ∧ M.errp = errp ∧ M.order = order ∧
      M.condChars.length = chars.length ^ order ∧
      (∀ (i : ℕ) (s : List α), M.condChars[i]? = some s → s.length = order ∧
        ∀ j < order, s[j]? = chars[i / chars.length ^ (order - 1 - j) % chars.length]?) ∧
      (∀ s : List α, s ∈ M.condChars ↔ s.length = order ∧ ∀ c ∈ s, c ∈ chars) ∧
      (∀ (s : List α) (i : ℕ), M.condDict s = some i → M.condChars[i]? = some s) ∧
      (∀ s : List α, M.condDict s = none ↔ s ∉ M.condChars) ∧
      (∀ (c : α) (i : ℕ), M.charDict c = some i → chars[i]? = some c) ∧
      (∀ c : α, M.charDict c = none ↔ c ∉ chars) := by
  have hn : 0 < chars.length := List.length_pos_iff.2 hc
  refine ⟨_, TextModel.init_eq chars errp order, rfl, rfl, rfl, by simp, ?_, mem_strings hn order, ?_, ?_, ?_, ?_⟩
  · intro i s h
    rw [List.getElem?_map] at h
    by_cases hi : i < chars.length ^ order
    · rw [List.getElem?_range hi] at h
      simp only [Option.map_some, Option.some.injEq] at h
      subst h
      exact ⟨strAt_length hn order i, fun j hj => strAt_get hn hj⟩
    · rw [List.getElem?_eq_none (by simpa using hi)] at h
      cases h
  · exact fun s i h => ((dictOf_some _ s i).1 h).1
  · intro s
    rw [dictOf_mem]
    push Not
    exact Option.eq_none_iff_forall_ne_some
  · exact fun s i h => ((dictOf_some _ s i).1 h).1
  · intro s
    rw [dictOf_mem]
    push Not
    exact Option.eq_none_iff_forall_ne_some

/-- C50: an alphabet without repetitions makes the coding a bijection. -/
theorem C50_bijective (chars : List α) (hd : chars.Nodup) (errp : K) (order : ℕ) :
    ∃ M, TextModel.init chars errp order = .ok M ∧ M.condChars.Nodup ∧
      (∀ (s : List α) (i : ℕ), M.condDict s = some i ↔ M.condChars[i]? = some s) ∧
      (∀ (c : α) (i : ℕ), M.charDict c = some i ↔ chars[i]? = some c) :=
  ⟨_, TextModel.init_eq chars errp order, strings_nodup hd order, dictOf_nodup (strings_nodup hd order), dictOf_nodup hd⟩

theorem indexToText_ok (M : TextModel α K) (hn : 0 < M.chars.length) (ys : List ℕ) :
    ∃ t, M.indexToText ys = .ok t ∧ t.length = ys.length ∧
      ∀ (k : ℕ) (y : ℕ), ys[k]? = some y → t[k]? = M.chars[y % M.chars.length]? := by
  unfold TextModel.indexToText
  obtain ⟨t, h1, h2, h3⟩ := loop_range_inv (n := ys.length) (fun text i => do
    let y ← pyGet ys i
    let c ← pyGet M.chars (y % M.chars.length)
    return text ++ [c]) []
    (fun a t => t.length = a ∧ ∀ (k : ℕ) (y : ℕ), k < a → ys[k]? = some y → t[k]? = M.chars[y % M.chars.length]?)
    ⟨rfl, fun k y hk => absurd hk (Nat.not_lt_zero _)⟩ (by
      rintro i hi t ⟨h1, h2⟩
      have hm := Nat.mod_lt ys[i] hn
      refine ⟨t ++ [M.chars[ys[i] % M.chars.length]], bind_ok.2 ⟨_, pyGet_lt hi, bind_ok.2 ⟨_, pyGet_lt hm, rfl⟩⟩, by simp [h1], ?_⟩
      intro k y hk hy
      by_cases hk' : k < i
      · rw [List.getElem?_append_left (by omega)]
        exact h2 k y hk' hy
      · have : k = i := by omega
        subst this
        rw [List.getElem?_eq_getElem hi] at hy
        cases hy
        rw [List.getElem?_append_right (by omega), h1, List.getElem?_eq_getElem hm]
        simp)
  exact ⟨t, h1, h2, fun k y hy => h3 k y (by
    by_contra hcon
    rw [List.getElem?_eq_none (by omega)] at hy
    cases hy) hy⟩

/-- C50: a text over the alphabet is coded without error and decoded to itself, also when the alphabet has repetitions. -/
theorem C50_roundtrip (chars : List α) (errp : K) (order : ℕ) (text : List α) (ht : ∀ c ∈ text, c ∈ chars) :
    ∃ M ys, TextModel.init chars errp order = .ok M ∧ M.textToIndex text = .ok ys ∧ ys.length = text.length ∧
      (∀ y ∈ ys, y < chars.length) ∧ M.indexToText ys = .ok text := by
  refine ⟨_, (text.map (fun c => (dictOf chars c).getD 0)), TextModel.init_eq chars errp order, ?_, by simp, ?_, ?_⟩
  · unfold TextModel.textToIndex
    rw [mapM_range_ok]
    refine ⟨by simp, fun k hk => ?_⟩
    obtain ⟨i, h1, -, -⟩ := dictGet_dictOf (ht text[k] (List.getElem_mem hk))
    refine ⟨i, ?_, bind_ok.2 ⟨_, pyGet_lt hk, h1⟩⟩
    rw [List.getElem?_map, List.getElem?_eq_getElem hk, Option.map_some, dictGet_ok.1 h1]
    rfl
  · intro y hy
    obtain ⟨c, hc, rfl⟩ := List.mem_map.1 hy
    obtain ⟨i, h1, h2, -⟩ := dictGet_dictOf (ht c hc)
    rw [dictGet_ok.1 h1]
    exact h2
  · rcases text.eq_nil_or_concat with rfl | ⟨t', c', hcat⟩
    · rfl
    have hn : 0 < chars.length := List.length_pos_of_mem (ht c' (by rw [hcat]; simp))
    obtain ⟨t, h1, h2, h3⟩ := indexToText_ok (K := K) ⟨chars, errp, dictOf chars, order,
      dictOf ((List.range (chars.length ^ order)).map (strAt chars order)),
      (List.range (chars.length ^ order)).map (strAt chars order)⟩ hn (text.map (fun c => (dictOf chars c).getD 0))
    rw [h1]
    congr 1
    rw [List.length_map] at h2
    refine list_ext_of h2 rfl (fun k hk => ?_)
    obtain ⟨i, hi1, hi2, hi3⟩ := dictGet_dictOf (ht text[k] (List.getElem_mem hk))
    rw [h3 k i (by rw [List.getElem?_map, List.getElem?_eq_getElem hk, Option.map_some, dictGet_ok.1 hi1]; rfl)]
    dsimp only
    rw [Nat.mod_eq_of_lt hi2, hi3, List.getElem?_eq_getElem hk]

/-- C50: decoding a sequence of composite states gives the last characters of their conditioning strings, and the output row of a
composite state is the first-order row of its last character. -/
theorem C50_last_character (chars : List α) (hc : chars ≠ []) (errp : K) [Field K] (order : ℕ) (ho : 1 ≤ order) :
    ∃ M, TextModel.init chars errp order = .ok M ∧
      (∀ ys : List ℕ, (∀ y ∈ ys, y < chars.length ^ order) → ∃ t, M.indexToText ys = .ok t ∧ t.length = ys.length ∧
        ∀ (k : ℕ) (y : ℕ), ys[k]? = some y → ∃ s, M.condChars[y]? = some s ∧ t[k]? = s.getLast?) ∧
      M.nthPo.rows = chars.length ^ order ∧ M.nthPo.cols = chars.length ∧
      (∀ (i : ℕ) (s : List α), M.condChars[i]? = some s → ∃ m, m < chars.length ∧ s.getLast? = chars[m]? ∧
        M.nthPo.get i = M.firstPo.get m) := by
  have hn : 0 < chars.length := List.length_pos_iff.2 hc
  have hlast : ∀ i, (strAt chars order i).getLast? = chars[i % chars.length]? := by
    intro i
    rw [List.getLast?_eq_getElem?, strAt_length hn, strAt_get hn (by omega)]
    have : order - 1 - (order - 1) = 0 := by omega
    rw [this, pow_zero, Nat.div_one]
  refine ⟨_, TextModel.init_eq chars errp order, ?_, ?_, ?_, ?_⟩
  · intro ys hys
    obtain ⟨t, h1, h2, h3⟩ := indexToText_ok (K := K) ⟨chars, errp, dictOf chars, order,
      dictOf ((List.range (chars.length ^ order)).map (strAt chars order)),
      (List.range (chars.length ^ order)).map (strAt chars order)⟩ hn ys
    refine ⟨t, h1, h2, fun k y hy => ⟨strAt chars order y, ?_, ?_⟩⟩
    · have := hys y (List.mem_of_getElem? hy)
      dsimp only
      rw [List.getElem?_map, List.getElem?_range this, Option.map_some]
    · rw [h3 k y hy, hlast]
  · unfold TextModel.nthPo TextModel.firstPo
    dsimp only
    split_ifs with h
    · dsimp only
      rw [← pow_succ]
      congr 1
      omega
    · have : order = 1 := by omega
      subst this
      simp
  · unfold TextModel.nthPo TextModel.firstPo
    dsimp only
    split_ifs <;> rfl
  · intro i s hs
    dsimp only at hs
    have hi : i < chars.length ^ order := by
      by_contra hcon
      rw [List.getElem?_eq_none (by simpa using hcon)] at hs
      cases hs
    rw [List.getElem?_map, List.getElem?_range hi, Option.map_some] at hs
    cases hs
    refine ⟨i % chars.length, Nat.mod_lt _ hn, hlast i, ?_⟩
    unfold TextModel.nthPo
    dsimp only
    split_ifs with h
    · rfl
    · have : order = 1 := by omega
      subst this
      rw [pow_one] at hi
      rw [Nat.mod_eq_of_lt hi]

/-- C50 (repetitions): with a repeated character the index is not recovered from the text. -/
theorem C50_repetition : ∃ (M : TextModel ℕ ℚ) (t : List ℕ), TextModel.init [7, 7] (1 / 10) 1 = .ok M ∧
    M.indexToText [0] = .ok t ∧ M.textToIndex t = .ok [1] :=
  ⟨_, [7], TextModel.init_eq _ _ _, rfl, by decide +kernel⟩

section Stochastic
variable [Field K] [LinearOrder K] [IsStrictOrderedRing K]

/-- C49: the output matrices of any order are stochastic with positive entries. -/
theorem C49_text_Po (chars : List α) (hc : chars ≠ []) (errp : K) (h0 : 0 < errp) (h1 : errp ≤ 1) (order : ℕ) :
    ∃ M, TextModel.init chars errp order = .ok M ∧ M.firstPo.RowsPositiveDistributions ∧ M.nthPo.RowsPositiveDistributions := by
  have hn : 0 < chars.length := List.length_pos_iff.2 hc
  have hpr := normalizeVec_pos (K := K) (len := chars.length) (p := fun _ => 1) (fun _ _ => zero_lt_one)
  have hP : ∀ i < chars.length, (∀ j < chars.length, 0 < (if j = i then 1 - errp else 0) + errp * normalizeVec chars.length (fun _ => (1 : K)) j) ∧
      ∑ j ∈ range chars.length, ((if j = i then 1 - errp else 0) + errp * normalizeVec chars.length (fun _ => (1 : K)) j) = 1 := by
    intro i hi
    constructor
    · intro j hj
      have := mul_pos h0 (hpr.1 j hj)
      split_ifs
      · linarith
      · linarith
    · rw [sum_add_distrib, ← mul_sum, hpr.2 hn, sum_ite_eq' (range chars.length) i (fun _ => 1 - errp), if_pos (mem_range.2 hi)]
      ring
  refine ⟨_, TextModel.init_eq chars errp order, hP, ?_⟩
  intro i hi
  unfold TextModel.nthPo at hi ⊢
  split_ifs at hi ⊢ with h
  · exact hP (i % chars.length) (Nat.mod_lt _ hn)
  · exact hP i hi

/-- C49: for every training text over the alphabet and every order the transition matrix is stochastic with positive entries. -/
theorem C49_text_Pi (chars : List α) (hc : chars ≠ []) (errp : K) (order : ℕ) (ho : 1 ≤ order) (text : List α)
    (ht : ∀ c ∈ text, c ∈ chars) :
    ∃ M P, TextModel.init chars errp order = .ok M ∧ M.nthPi text = .ok P ∧ P.rows = chars.length ^ order ∧
      P.cols = chars.length ^ order ∧ P.RowsPositiveDistributions ∧
      -- before normalisation: a small constant, one if the strings overlap, and the number of occurrences in the text
      (chars.Nodup → ∃ w : ℕ → ℕ → K, (∀ i j, P.get i j = w i j / ∑ k ∈ range P.cols, w i k) ∧
        ∀ (i j : ℕ) (s t : List α), M.condChars[i]? = some s → M.condChars[j]? = some t →
          w i j = 1 / 10 ^ 12 + (if s.drop 1 = t.dropLast then 1 else 0) +
            (((range (text.length - order)).filter (fun k => (text.drop k).take order = s ∧
              (text.drop (k + 1)).take order = t)).card : K)) := by
  have hn : 0 < chars.length := List.length_pos_iff.2 hc
  set M : TextModel α K := ⟨chars, errp, dictOf chars, order, dictOf ((List.range (chars.length ^ order)).map (strAt chars order)),
    (List.range (chars.length ^ order)).map (strAt chars order)⟩ with hM
  obtain ⟨P, hP1, hP2⟩ := compat_loop M (fun _ _ => (1 / 10 ^ 12 : K)) (chars.length ^ order) (by simp [hM])
  obtain ⟨st, hs1, hs2⟩ := countN_loop M text P ho (by
    intro k hk hl
    have hk : k ≤ text.length - order := hk
    have hl : order < text.length := hl
    refine (dictOf_mem _ _).1 ((mem_strings hn order _).2 ⟨?_, fun c hcm => ht c ?_⟩)
    · rw [List.length_take, List.length_drop]
      show min order _ = order
      omega
    · exact List.mem_of_mem_drop (List.mem_of_mem_take hcm))
  refine ⟨M, ⟨chars.length ^ order, chars.length ^ order, normalizeRows (chars.length ^ order) st.2⟩,
    TextModel.init_eq chars errp order, ?_, rfl, rfl, ?_, ?_⟩
  · unfold TextModel.nthPi
    exact bind_ok.2 ⟨_, hP1, bind_ok.2 ⟨_, hs1, rfl⟩⟩
  · intro i hi
    have hi : i < chars.length ^ order := hi
    have hpos := normalizeRows_pos (cols := chars.length ^ order) (P := st.2) i (fun j hj => by
      rw [hs2, hP2 i j (strAt chars order i) (strAt chars order j) (by simp [hM, hi]) (by simp [hM, hj])]
      have : (0 : K) < 1 / 10 ^ 12 := by positivity
      split_ifs <;> positivity)
    exact ⟨hpos.1, hpos.2 (Nat.pow_pos hn)⟩
  · intro hd
    refine ⟨st.2, fun i j => rfl, fun i j s t hs htt => ?_⟩
    rw [hs2, hP2 i j s t hs htt]
    congr 3
    refine filter_congr (fun k _ => ?_)
    have hdict := dictOf_nodup (strings_nodup hd order)
    show (dictOf _ _ = some i ∧ dictOf _ _ = some j) ↔ _
    rw [hdict, hdict]
    have hs' : ((List.range (chars.length ^ order)).map (strAt chars order))[i]? = some s := hs
    have ht' : ((List.range (chars.length ^ order)).map (strAt chars order))[j]? = some t := htt
    rw [hs', ht']
    simp only [Option.some.injEq]
    exact and_congr eq_comm eq_comm

/-- C49: for every training text over the alphabet the prior of any order is a positive distribution. -/
theorem C49_text_prior (chars : List α) (hc : chars ≠ []) (errp : K) (order : ℕ) (text : List α)
    (ht : ∀ c ∈ text, c ∈ chars) :
    ∃ M p, TextModel.init chars errp order = .ok M ∧ M.nthPrior text = .ok p ∧ p.len = chars.length ^ order ∧
      p.IsPositiveDistribution ∧
      (chars.Nodup → ∃ w : ℕ → K, (∀ i, p.get i = w i / ∑ k ∈ range p.len, w k) ∧
        ∀ (i : ℕ) (s : List α), M.condChars[i]? = some s →
          w i = 1 + (((range (text.length + 1 - order)).filter (fun k => (text.drop k).take order = s)).card : K)) := by
  have hn : 0 < chars.length := List.length_pos_iff.2 hc
  set M : TextModel α K := ⟨chars, errp, dictOf chars, order, dictOf ((List.range (chars.length ^ order)).map (strAt chars order)),
    (List.range (chars.length ^ order)).map (strAt chars order)⟩ with hM
  obtain ⟨w, hw1, hw2⟩ := priorN_loop (K := K) M.condDict (fun k => (text.drop k).take order) (text.length + 1 - order) (by
    intro k hk
    refine (dictOf_mem _ _).1 ((mem_strings hn order _).2 ⟨?_, fun c hcm => ht c ?_⟩)
    · rw [List.length_take, List.length_drop]
      omega
    · exact List.mem_of_mem_drop (List.mem_of_mem_take hcm))
  refine ⟨M, ⟨chars.length ^ order, normalizeVec (chars.length ^ order) w⟩, TextModel.init_eq chars errp order, ?_, rfl, ?_, ?_⟩
  · unfold TextModel.nthPrior
    exact bind_ok.2 ⟨_, hw1, rfl⟩
  · have := normalizeVec_pos (len := chars.length ^ order) (p := w) (fun i _ => by rw [hw2]; positivity)
    exact ⟨this.1, this.2 (Nat.pow_pos hn)⟩
  · intro hd
    refine ⟨w, fun i => rfl, fun i s hs => ?_⟩
    rw [hw2]
    congr 3
    refine filter_congr (fun k _ => ?_)
    show dictOf _ _ = some i ↔ _
    rw [dictOf_nodup (strings_nodup hd order)]
    have hs' : ((List.range (chars.length ^ order)).map (strAt chars order))[i]? = some s := hs
    rw [hs']
    simp only [Option.some.injEq]
    exact eq_comm

/-- C49: for every non-empty training text over the alphabet the first-order transition matrix is stochastic with positive entries:
one plus the number of occurrences of the pair, normalised. -/
theorem C49_text_first_Pi (chars : List α) (hc : chars ≠ []) (errp : K) (order : ℕ) (text : List α) (hne : text ≠ [])
    (ht : ∀ c ∈ text, c ∈ chars) :
    ∃ M P, TextModel.init chars errp order = .ok M ∧ M.firstPi text = .ok P ∧ P.rows = chars.length ∧
      P.cols = chars.length ∧ P.RowsPositiveDistributions ∧
      (chars.Nodup → ∃ w : ℕ → ℕ → K, (∀ i j, P.get i j = w i j / ∑ k ∈ range P.cols, w i k) ∧
        ∀ (i j : ℕ) (a b : α), chars[i]? = some a → chars[j]? = some b →
          w i j = 1 + (((range (text.length - 1)).filter (fun k => text[k]? = some a ∧ text[k + 1]? = some b)).card : K)) := by
  have hn : 0 < chars.length := List.length_pos_iff.2 hc
  have hl : 0 < text.length := List.length_pos_iff.2 hne
  set M : TextModel α K := ⟨chars, errp, dictOf chars, order, dictOf ((List.range (chars.length ^ order)).map (strAt chars order)),
    (List.range (chars.length ^ order)).map (strAt chars order)⟩ with hM
  obtain ⟨st, hs1, -, hs2⟩ := loop_range'_inv (a := 1) (n := text.length - 1) (M.countStep text)
    (text[0], fun _ _ => (1 : K))
    (fun k st => text[k]? = some st.1 ∧ ∀ i j, st.2 i j = 1 + (((range k).filter (fun k =>
        (∃ a, text[k]? = some a ∧ dictOf chars a = some i) ∧ ∃ b, text[k + 1]? = some b ∧ dictOf chars b = some j)).card : K))
    ⟨List.getElem?_eq_getElem hl, by simp⟩ (by
      rintro k hk ⟨c0, P⟩ ⟨e1, e2⟩
      dsimp only at e1 e2
      have hk1 : k + 1 < text.length := by omega
      have hk1' : 1 + k < text.length := by omega
      have e3 : text[k + 1]? = some text[1 + k] := by
        rw [List.getElem?_eq_getElem hk1]; congr 2; omega
      obtain ⟨i0, h0, -, -⟩ := dictGet_dictOf (ht c0 (List.mem_of_getElem? e1))
      obtain ⟨i1, h1, -, -⟩ := dictGet_dictOf (ht text[1 + k] (List.getElem_mem hk1'))
      refine ⟨(text[1 + k], bump2 P i0 i1), ?_, e3, ?_⟩
      · unfold TextModel.countStep
        dsimp only
        exact bind_ok.2 ⟨_, pyGet_lt hk1', bind_ok.2 ⟨_, h0, bind_ok.2 ⟨_, h1, rfl⟩⟩⟩
      · intro i j
        dsimp only
        rw [bump2_apply, e2, card_filter_succ, add_assoc, e1, e3]
        congr 2
        refine if_congr ?_ rfl rfl
        rw [dictGet_ok] at h0 h1
        constructor
        · rintro ⟨rfl, rfl⟩
          exact ⟨⟨c0, rfl, h0⟩, _, rfl, h1⟩
        · rintro ⟨⟨a, ha, ha'⟩, b, hb, hb'⟩
          cases ha; cases hb
          rw [h0] at ha'; rw [h1] at hb'
          cases ha'; cases hb'
          exact ⟨rfl, rfl⟩)
  refine ⟨M, ⟨chars.length, chars.length, normalizeRows chars.length st.2⟩, TextModel.init_eq chars errp order, ?_, rfl, rfl, ?_, ?_⟩
  · unfold TextModel.firstPi
    exact bind_ok.2 ⟨_, pyGet_lt hl, bind_ok.2 ⟨_, hs1, rfl⟩⟩
  · intro i hi
    have hpos := normalizeRows_pos (cols := chars.length) (P := st.2) i (fun j hj => by rw [hs2]; positivity)
    exact ⟨hpos.1, hpos.2 hn⟩
  · intro hd
    refine ⟨st.2, fun i j => rfl, fun i j a b ha hb => ?_⟩
    rw [hs2]
    congr 3
    refine filter_congr (fun k _ => ?_)
    constructor
    · rintro ⟨⟨a', h1, h2⟩, b', h3, h4⟩
      rw [dictOf_nodup hd] at h2 h4
      rw [ha] at h2; rw [hb] at h4
      cases h2; cases h4
      exact ⟨h1, h3⟩
    · rintro ⟨h1, h2⟩
      exact ⟨⟨a, h1, (dictOf_nodup hd a i).2 ha⟩, b, h2, (dictOf_nodup hd b j).2 hb⟩

/-- C49: for every training text over the alphabet the first-order prior is a positive distribution: one plus the number of
occurrences of the character, normalised. -/
theorem C49_text_first_prior (chars : List α) (hc : chars ≠ []) (errp : K) (order : ℕ) (text : List α)
    (ht : ∀ c ∈ text, c ∈ chars) :
    ∃ M p, TextModel.init chars errp order = .ok M ∧ M.firstPrior text = .ok p ∧ p.len = chars.length ∧
      p.IsPositiveDistribution ∧
      (chars.Nodup → ∃ w : ℕ → K, (∀ i, p.get i = w i / ∑ k ∈ range p.len, w k) ∧
        ∀ (i : ℕ) (a : α), chars[i]? = some a → w i = 1 + (text.count a : K)) := by
  have hn : 0 < chars.length := List.length_pos_iff.2 hc
  set M : TextModel α K := ⟨chars, errp, dictOf chars, order, dictOf ((List.range (chars.length ^ order)).map (strAt chars order)),
    (List.range (chars.length ^ order)).map (strAt chars order)⟩ with hM
  obtain ⟨w, hw1, hw2⟩ := loop_range_inv (n := text.length) (fun p i => do
      let c ← pyGet text i
      let k ← dictGet M.charDict c
      return bump1 p k) (fun _ => (1 : K))
    (fun k p => ∀ i, p i = 1 + ((text.take k).countP (fun c => decide (dictOf chars c = some i)) : K)) (by simp) (by
      intro k hk p hp
      obtain ⟨i0, h0, -, -⟩ := dictGet_dictOf (ht text[k] (List.getElem_mem hk))
      refine ⟨bump1 p i0, bind_ok.2 ⟨_, pyGet_lt hk, bind_ok.2 ⟨_, h0, rfl⟩⟩, fun i => ?_⟩
      rw [bump1_apply, hp, List.take_succ_eq_append_getElem hk, List.countP_append, Nat.cast_add, add_assoc]
      congr 2
      by_cases h : i0 = i
      · subst h; simp [dictGet_ok.1 h0]
      · simp [dictGet_ok.1 h0, h])
  refine ⟨M, ⟨chars.length, normalizeVec chars.length w⟩, TextModel.init_eq chars errp order, ?_, rfl, ?_, ?_⟩
  · unfold TextModel.firstPrior
    exact bind_ok.2 ⟨_, hw1, rfl⟩
  · have := normalizeVec_pos (len := chars.length) (p := w) (fun i _ => by rw [hw2]; positivity)
    exact ⟨this.1, this.2 hn⟩
  · intro hd
    refine ⟨w, fun i => rfl, fun i a ha => ?_⟩
    rw [hw2, List.take_length, List.count]
    congr 2
    refine List.countP_congr (fun c _ => ?_)
    simp only [decide_eq_true_eq, beq_iff_eq]
    rw [dictOf_nodup hd, ha]
    simp only [Option.some.injEq]
    exact eq_comm

/-- C49 (errors): a text with a character outside the alphabet raises `KeyError` once it is longer than the order; an empty text
raises `IndexError` in the first-order transition matrix. -/
theorem C49_text_errors (chars : List α) (hc : chars ≠ []) (errp : K) (order : ℕ) (ho : 1 ≤ order) (text : List α) :
    ∃ M, TextModel.init chars errp order = .ok M ∧ M.firstPi [] = .error .indexError ∧
      ((∃ c ∈ text, c ∉ chars) → order < text.length →
        M.nthPi text = .error .keyError ∧ M.nthPrior text = .error .keyError) ∧
      ((∃ c ∈ text, c ∉ chars) → M.textToIndex text = .error .keyError) := by
  have hn : 0 < chars.length := List.length_pos_iff.2 hc
  set M : TextModel α K := ⟨chars, errp, dictOf chars, order, dictOf ((List.range (chars.length ^ order)).map (strAt chars order)),
    (List.range (chars.length ^ order)).map (strAt chars order)⟩ with hM
  refine ⟨M, TextModel.init_eq chars errp order, rfl, ?_, ?_⟩
  · rintro ⟨c, hcm, hcn⟩ hl
    obtain ⟨p, hp, rfl⟩ := List.getElem_of_mem hcm
    -- a window containing the position
    have hk : ∃ k ≤ text.length - order, text[p] ∈ (text.drop k).take order := by
      refine ⟨min p (text.length - order), min_le_right _ _, ?_⟩
      refine List.mem_of_getElem? (i := p - min p (text.length - order)) ?_
      rw [List.getElem?_take_of_lt (by omega), List.getElem?_drop, List.getElem?_eq_getElem (by omega)]
      congr 2
      omega
    obtain ⟨k, hk, hmem⟩ := hk
    have hbad : M.condDict ((text.drop k).take order) = none := by
      rw [← dictGet_err]
      refine dictGet_dictOf_err (fun h => hcn ?_)
      exact ((mem_strings hn order _).1 h).2 _ hmem
    constructor
    · obtain ⟨P, hP1, -⟩ := compat_loop M (fun _ _ => (1 / 10 ^ 12 : K)) (chars.length ^ order) (by simp [hM])
      have := countN_loop_err M text P ho hk hl hbad
      unfold TextModel.nthPi
      show (_ >>= _) = _
      rw [show M.chars.length ^ M.order = chars.length ^ order from rfl, hP1, py_ok_bind]
      show (_ >>= _) = _
      rw [this]
      rfl
    · have := priorN_loop_err (K := K) M.condDict (fun k => (text.drop k).take order) (text.length + 1 - order) k (by omega) hbad
      unfold TextModel.nthPrior
      show (_ >>= _) = _
      dsimp only
      rw [this]
      rfl
  · rintro ⟨c, hcm, hcn⟩
    have key : ∀ l : List ℕ, (∀ i ∈ l, i < text.length) → (∃ i ∈ l, text[i]? = some c) →
        l.mapM (fun i => do
          let c ← pyGet text i
          dictGet M.charDict c) = .error .keyError := by
      intro l
      induction l with
      | nil => rintro - ⟨i, hi, -⟩; cases hi
      | cons i l ih =>
        rintro hr ⟨j, hj, he⟩
        have hi := hr i (by simp)
        rw [List.mapM_cons, pyGet_lt hi]
        show (dictGet M.charDict text[i] >>= fun _ => _) = _
        by_cases hin : text[i] ∈ chars
        · obtain ⟨d, hd, -, -⟩ := dictGet_dictOf hin
          have hd' : dictGet M.charDict text[i] = .ok d := hd
          rw [hd', py_ok_bind, ih (fun k hk => hr k (by simp [hk])) (by
            rcases List.mem_cons.1 hj with rfl | hj
            · rw [List.getElem?_eq_getElem hi] at he
              cases he
              exact absurd hin hcn
            · exact ⟨j, hj, he⟩)]
          rfl
        · have : dictGet M.charDict text[i] = .error .keyError := dictGet_dictOf_err hin
          rw [this]
          rfl
    obtain ⟨p, hp, rfl⟩ := List.getElem_of_mem hcm
    exact key _ (fun i hi => List.mem_range.1 hi) ⟨p, List.mem_range.2 hp, List.getElem?_eq_getElem hp⟩

/-- C49: the rows given to the random generator in `makeNoisyText` are positive distributions, and the noisy text has the length of
the given text and only characters of the alphabet, whatever the generator returns. -/
theorem C49_noisy_text (chars : List α) (errp : K) (h0 : 0 < errp) (h1 : errp ≤ 1) (order : ℕ) (text : List α)
    (ht : ∀ c ∈ text, c ∈ chars) (choice : ℕ → FArr1 K → Py ℕ)
    -- the generator accepts positive distributions
    (hch : ∀ k p, p.IsPositiveDistribution → ∃ i < p.len, choice k p = .ok i) :
    ∃ M t, TextModel.init chars errp order = .ok M ∧ M.makeNoisyText choice text = .ok t ∧ t.length = text.length ∧
      ∀ c ∈ t, c ∈ chars := by
  rcases text.eq_nil_or_concat with rfl | ⟨t', c', hcat⟩
  · exact ⟨_, [], TextModel.init_eq chars errp order, rfl, rfl, by simp⟩
  have hc : chars ≠ [] := List.ne_nil_of_mem (ht c' (by rw [hcat]; simp))
  obtain ⟨M, hM, hPo, -⟩ := C49_text_Po chars hc errp h0 h1 order
  rw [TextModel.init_eq] at hM
  cases hM
  set M : TextModel α K := ⟨chars, errp, dictOf chars, order, dictOf ((List.range (chars.length ^ order)).map (strAt chars order)),
    (List.range (chars.length ^ order)).map (strAt chars order)⟩ with hM
  obtain ⟨t, h2, h3, h4⟩ := loop_range_inv (n := text.length) (fun t i => do
    let c ← pyGet text i
    let j ← dictGet M.charDict c
    let k ← choice i ⟨M.firstPo.cols, M.firstPo.get j⟩
    let d ← pyGet M.chars k
    return t ++ [d]) [] (fun k t => t.length = k ∧ ∀ c ∈ t, c ∈ chars) ⟨rfl, by simp⟩ (by
      rintro k hk t ⟨hl, hm⟩
      obtain ⟨j, hj, hjl, -⟩ := dictGet_dictOf (ht text[k] (List.getElem_mem hk))
      obtain ⟨i, hi, hci⟩ := hch k ⟨M.firstPo.cols, M.firstPo.get j⟩ (hPo j hjl)
      have hi' : i < M.chars.length := hi
      refine ⟨t ++ [M.chars[i]], bind_ok.2 ⟨_, pyGet_lt hk, bind_ok.2 ⟨_, hj, bind_ok.2 ⟨_, hci, bind_ok.2 ⟨_, pyGet_lt hi', rfl⟩⟩⟩⟩,
        by simp [hl], ?_⟩
      intro c hcm
      rcases List.mem_append.1 hcm with h | h
      · exact hm c h
      · simp at h; subst h; exact List.getElem_mem _)
  exact ⟨M, t, TextModel.init_eq chars errp order, h2, h3, h4⟩

end Stochastic

/-- The strings of the second order model over three characters. -/
example : ∃ M : TextModel Char ℚ, TextModel.init [' ', 'a', 'b'] (1 / 10) 2 = .ok M ∧
    M.condChars = [[' ', ' '], [' ', 'a'], [' ', 'b'], ['a', ' '], ['a', 'a'], ['a', 'b'], ['b', ' '], ['b', 'a'], ['b', 'b']] ∧
    M.condDict ['b', 'a'] = some 7 ∧ M.condDict ['c', 'a'] = none ∧
    M.textToIndex ['b', 'a', ' '] = .ok [2, 1, 0] ∧ M.indexToText [5, 7, 3] = .ok ['b', 'a', ' '] :=
  ⟨_, rfl, by decide +kernel, by decide +kernel, by decide +kernel, rfl, rfl⟩

/-- A training text meeting the hypotheses of C49. -/
example : ([' ', 'a', 'b'] : List Char) ≠ [] ∧ [' ', 'a', 'b'].Nodup ∧ (∀ c ∈ ['a', 'b', 'a', ' '], c ∈ [' ', 'a', 'b']) ∧
    (0 : ℚ) < 1 / 10 ∧ (1 / 10 : ℚ) ≤ 1 := by decide +kernel

/-- First-order transition probabilities after `abab`: the pair `ab` occurs twice. -/
example : ∃ (M : TextModel Char ℚ) (P : FArr2 ℚ), TextModel.init ['a', 'b'] (1 / 10) 1 = .ok M ∧
    M.firstPi ['a', 'b', 'a', 'b'] = .ok P ∧ P.get 0 1 = 3 / 4 ∧ P.get 1 1 = 1 / 3 :=
  ⟨_, _, rfl, rfl, by decide +kernel, by decide +kernel⟩

end Verif
