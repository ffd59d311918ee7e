import Verif.Model.Experiments

/-! Helper lemmas on the command line, the mask and the file names of the experiment scripts. -/

namespace Verif

/-! ### The arguments -/

theorem splitOn_two {a : Char} {s k v : List Char} : s.splitOn a = [k, v] ↔ s = k ++ a :: v ∧ a ∉ k ∧ a ∉ v := by
  constructor
  · intro h
    have e : s = k ++ a :: v := by
      have := List.intercalate_splitOn (xs := s) a
      rw [h] at this
      rw [← this]
      simp [List.intercalate]
    by_cases hk : a ∈ k
    · exfalso
      obtain ⟨u, w, hk'⟩ := List.append_of_mem hk
      rw [e, List.splitOn_append_cons_self, hk', List.splitOn_append_cons_self] at h
      have l1 := List.length_pos_iff.2 (List.splitOn_ne_nil a u)
      have l2 := List.length_pos_iff.2 (List.splitOn_ne_nil a w)
      have l3 := List.length_pos_iff.2 (List.splitOn_ne_nil a v)
      have := congrArg List.length h
      simp at this
      omega
    · by_cases hv : a ∈ v
      · exfalso
        obtain ⟨u, w, hk'⟩ := List.append_of_mem hv
        rw [e, List.splitOn_append_cons_self, hk', List.splitOn_append_cons_self] at h
        have l1 := List.length_pos_iff.2 (List.splitOn_ne_nil a u)
        have l2 := List.length_pos_iff.2 (List.splitOn_ne_nil a w)
        have l3 := List.length_pos_iff.2 (List.splitOn_ne_nil a k)
        have := congrArg List.length h
        simp at this
        omega
      · exact ⟨e, hk, hv⟩
  · rintro ⟨rfl, hk, hv⟩
    rw [List.splitOn_append_cons_self_of_not_mem hk, List.splitOn_eq_singleton hv]

theorem cfg_lookup_set (c : Cfg) (k j : List Char) (x : CfgVal) :
    (c.set k x).lookup j = if j = k then some x else c.lookup j := by
  unfold Cfg.set
  split
  · rename_i h
    induction c with
    | nil => simp at h
    | cons p c ih =>
      obtain ⟨pk, pv⟩ := p
      simp only [List.any_cons, Bool.or_eq_true, decide_eq_true_eq] at h
      simp only [List.map_cons]
      by_cases hp : pk = k
      · subst hp
        rw [if_pos rfl]
        by_cases hj : j = pk
        · subst hj
          simp [List.lookup_cons]
        · have hb : (j == pk) = false := by simpa using hj
          rw [List.lookup_cons, List.lookup_cons, hb, if_neg hj]
          by_cases hc : (c.any fun p => decide (p.1 = pk)) = true
          · simpa [hj] using ih hc
          · have : c.map (fun p => if p.1 = pk then (pk, x) else p) = c := by
              refine (List.map_congr_left (g := id) ?_).trans (List.map_id _)
              intro p hp
              dsimp only [id]
              rw [if_neg]
              intro h'
              exact hc (List.any_eq_true.2 ⟨p, hp, by simpa using h'⟩)
            rw [this]
      · rw [if_neg hp]
        have h' := h.resolve_left hp
        by_cases hj : j = pk
        · subst hj
          simp [List.lookup_cons, hp]
        · have hb : (j == pk) = false := by simpa using hj
          rw [List.lookup_cons, List.lookup_cons, hb]
          exact ih h'
  · rename_i h
    rw [List.lookup_append]
    by_cases hj : j = k
    · subst hj
      have : c.lookup j = none := by
        rw [List.lookup_eq_none_iff]
        intro p hp
        simp only [List.any_eq_true, decide_eq_true_eq, not_exists, not_and] at h
        simpa using fun e => h p hp e.symm
      rw [this, if_pos rfl]
      simp [List.lookup_cons]
    · have hb : (j == k) = false := by simpa using hj
      simp [List.lookup_cons, hb, hj]

theorem parseArg_assign (fl : List Char → Py ℝ) (keys : List (List Char × CfgType)) (c : Cfg) {k v : List Char} (hk : '=' ∉ k)
    (hv : '=' ∉ v) {ty : CfgType} (hty : keys.lookup k = some ty) :
    (∀ x, cfgRead fl ty v = .ok x → parseArg fl keys c (k ++ '=' :: v) = .ok (c.set k x)) ∧
    (∀ e, cfgRead fl ty v = .error e → parseArg fl keys c (k ++ '=' :: v) = .error (.py e)) := by
  constructor <;> intro x hx <;> simp only [parseArg, splitOn_two.2 ⟨rfl, hk, hv⟩, hty, hx, ofPy] <;> rfl

theorem parseArg_bad (fl : List Char → Py ℝ) (keys : List (List Char × CfgType)) (c : Cfg) {a : List Char}
    (h : ¬ ∃ k v ty, a = k ++ '=' :: v ∧ '=' ∉ k ∧ '=' ∉ v ∧ keys.lookup k = some ty) : parseArg fl keys c a = .error (.exit 1) := by
  unfold parseArg
  split
  · rename_i k v e
    obtain ⟨h1, h2, h3⟩ := splitOn_two.1 e
    split
    · rename_i ty hty
      exact absurd ⟨k, v, ty, h1, h2, h3, hty⟩ h
    · rfl
  · rfl

/-! ### The mask -/

theorem land_two_pow (mask : ℤ) (b : ℕ) : Int.land mask (2 ^ b) ≠ 0 ↔ mask / 2 ^ b % 2 = 1 := by
  have e : ((2 : ℤ) ^ b) = ((2 ^ b : ℕ) : ℤ) := by simp
  cases mask with
  | ofNat m =>
    rw [e]
    change ((m &&& 2 ^ b : ℕ) : ℤ) ≠ 0 ↔ ((m : ℕ) : ℤ) / ((2 ^ b : ℕ) : ℤ) % 2 = 1
    rw [Nat.and_two_pow, Nat.testBit_eq_decide_div_mod_eq]
    have hp : (2 ^ b : ℕ) ≠ 0 := by positivity
    rcases Nat.mod_two_eq_zero_or_one (m / 2 ^ b) with h | h
    · rw [h]
      have : ((m : ℤ) / ((2 ^ b : ℕ) : ℤ)) % 2 = ((m / 2 ^ b % 2 : ℕ) : ℤ) := by push_cast; rfl
      rw [this, h]
      simp
    · rw [h]
      have : ((m : ℤ) / ((2 ^ b : ℕ) : ℤ)) % 2 = ((m / 2 ^ b % 2 : ℕ) : ℤ) := by push_cast; rfl
      rw [this, h]
      simp
  | negSucc m =>
    rw [e]
    change ((Nat.ldiff (2 ^ b) m : ℕ) : ℤ) ≠ 0 ↔ Int.negSucc m / ((2 ^ b : ℕ) : ℤ) % 2 = 1
    have hp : 0 < (2 ^ b : ℕ) := by positivity
    have e2 : Int.negSucc m / ((2 ^ b : ℕ) : ℤ) = -((m / 2 ^ b : ℕ) : ℤ) - 1 := by
      rw [Int.negSucc_ediv _ (by exact_mod_cast hp)]
      change -((m : ℤ) / ((2 ^ b : ℕ) : ℤ) + 1) = _
      push_cast
      ring
    have e3 : Nat.ldiff (2 ^ b) m ≠ 0 ↔ m.testBit b = false := by
      constructor
      · intro h
        by_contra hb
        refine h (Nat.eq_of_testBit_eq fun i => ?_)
        rw [Nat.testBit_ldiff, Nat.testBit_two_pow, Nat.zero_testBit]
        by_cases hi : b = i
        · subst hi
          simpa using hb
        · simp [hi]
      · intro h h0
        have := congrArg (fun x => Nat.testBit x b) h0
        simp [Nat.testBit_ldiff, h] at this
    rw [e2, Nat.cast_ne_zero, e3, Nat.testBit_eq_decide_div_mod_eq, decide_eq_false_iff_not]
    omega

/-! ### Numbers as text -/

theorem digitVal_append (s t : List Char) : digitVal (s ++ t) = digitVal s * 10 ^ t.length + digitVal t := by
  have gen : ∀ (t : List Char) (a : ℕ), t.foldl (fun a ch => 10 * a + (ch.toNat - 48)) a = a * 10 ^ t.length + digitVal t := by
    intro t
    induction t with
    | nil => intro a; simp [digitVal]
    | cons ch t ih =>
      intro a
      unfold digitVal
      rw [List.foldl_cons, List.foldl_cons, ih, ih (10 * 0 + (ch.toNat - 48)), List.length_cons, pow_succ]
      ring
  rw [digitVal, List.foldl_append, gen]
  rfl

theorem digitChar_digit : ∀ d < 10, (Nat.digitChar d).isDigit = true ∧ (Nat.digitChar d).toNat - 48 = d := by decide

theorem digitVal_digits : ∀ l : List ℕ, (∀ d ∈ l, d < 10) → digitVal (l.map Nat.digitChar).reverse = Nat.ofDigits 10 l
  | [], _ => rfl
  | d :: l, h => by
    rw [List.map_cons, List.reverse_cons, digitVal_append, digitVal_digits l fun e he => h e (List.mem_cons_of_mem _ he),
      Nat.ofDigits_cons]
    have : digitVal [Nat.digitChar d] = d := by
      simpa [digitVal] using (digitChar_digit d (h d List.mem_cons_self)).2
    rw [this]
    simp
    ring

/-- The digits of `%d`. -/
theorem fmtD_eq (z : ℤ) : ∃ ds : List Char, ds ≠ [] ∧ (∀ ch ∈ ds, ch.isDigit = true) ∧ digitVal ds = z.natAbs ∧
    fmtD z = (if z < 0 then ['-'] else []) ++ ds := by
  by_cases hz : z = 0
  · subst hz
    exact ⟨['0'], by simp, by simp, rfl, rfl⟩
  · refine ⟨((Nat.digits 10 z.natAbs).map Nat.digitChar).reverse, ?_, ?_, ?_, by simp [fmtD, hz]⟩
    · intro h
      rw [List.reverse_eq_nil_iff, List.map_eq_nil_iff, Nat.digits_eq_nil_iff_eq_zero] at h
      omega
    · intro ch hch
      simp only [List.mem_reverse, List.mem_map] at hch
      obtain ⟨d, hd, rfl⟩ := hch
      exact (digitChar_digit d (Nat.digits_lt_base (by norm_num) hd)).1
    · rw [digitVal_digits _ fun d hd => Nat.digits_lt_base (by norm_num) hd, Nat.ofDigits_digits]

theorem digit_facts {ch : Char} (h : ch.isDigit = true) : pySpace ch = false ∧ ch ≠ '_' ∧ ch ≠ '-' ∧ ch ≠ '+' ∧ ch ≠ '=' := by
  have h1 : 48 ≤ ch.toNat ∧ ch.toNat ≤ 57 := by
    simp only [Char.isDigit, Bool.and_eq_true, decide_eq_true_eq] at h
    exact ⟨by simpa using UInt32.le_iff_toNat_le.1 h.1, by simpa using UInt32.le_iff_toNat_le.1 h.2⟩
  refine ⟨by simp [pySpace]; omega, ?_, ?_, ?_, ?_⟩ <;> rintro rfl <;> revert h1 <;> decide

theorem digitVal_eq (s : List Char) : digitVal s = Nat.ofDigits 10 (s.reverse.map fun ch => ch.toNat - 48) := by
  induction s using List.reverseRecOn with
  | nil => rfl
  | append_singleton s ch ih =>
    rw [digitVal_append, ih, List.reverse_append, List.reverse_singleton, List.singleton_append, List.map_cons, Nat.ofDigits_cons]
    simp [digitVal]
    ring

theorem strip_eq {p : Char → Bool} {w1 w2 m : List Char} (h1 : ∀ ch ∈ w1, p ch = true) (h2 : ∀ ch ∈ w2, p ch = true)
    {a b : Char} (ha : m.head? = some a) (hb : m.getLast? = some b) (pa : p a = false) (pb : p b = false) :
    (((w1 ++ m ++ w2).dropWhile p).reverse.dropWhile p).reverse = m := by
  obtain ⟨t, rfl⟩ : ∃ t, m = a :: t := by
    cases m with
    | nil => simp at ha
    | cons c t => exact ⟨t, by simpa using ha⟩
  rw [List.append_assoc, List.dropWhile_append_of_pos h1, List.cons_append, List.dropWhile_cons, pa, if_neg (by simp),
    ← List.cons_append, List.reverse_append, List.dropWhile_append_of_pos (by simpa using h2)]
  have hr : (a :: t).reverse.head? = some b := by rw [List.head?_reverse, hb]
  cases e : (a :: t).reverse with
  | nil => simp at e
  | cons c t' =>
    rw [e] at hr
    have hc : c = b := by simpa using hr
    rw [List.dropWhile_cons, hc, pb, if_neg (by simp), ← hc, ← e, List.reverse_reverse]

theorem mem_takeWhile_pos {p : Char → Bool} : ∀ {l : List Char} {ch : Char}, ch ∈ l.takeWhile p → p ch = true
  | [], _, h => by simp at h
  | c :: l, ch, h => by
    rw [List.takeWhile_cons] at h
    split at h
    · rename_i hc
      rcases List.mem_cons.1 h with rfl | h
      · exact hc
      · exact mem_takeWhile_pos h
    · simp at h

theorem strip_split (p : Char → Bool) (s : List Char) : ∃ w1 w2, s = w1 ++ (((s.dropWhile p).reverse.dropWhile p).reverse) ++ w2 ∧
    (∀ ch ∈ w1, p ch = true) ∧ ∀ ch ∈ w2, p ch = true := by
  refine ⟨s.takeWhile p, ((s.dropWhile p).reverse.takeWhile p).reverse, ?_, ?_, ?_⟩
  · rw [List.append_assoc, ← List.reverse_append, List.takeWhile_append_dropWhile, List.reverse_reverse,
      List.takeWhile_append_dropWhile]
  · intro ch h
    exact mem_takeWhile_pos h
  · intro ch h
    exact mem_takeWhile_pos (List.mem_reverse.1 h)

theorem intercalate_ends : ∀ gs : List (List Char), gs ≠ [] → (∀ g ∈ gs, g ≠ [] ∧ ∀ ch ∈ g, ch.isDigit = true) →
    ∃ a b, (['_'].intercalate gs).head? = some a ∧ (['_'].intercalate gs).getLast? = some b ∧ a.isDigit = true ∧ b.isDigit = true
  | [], h, _ => absurd rfl h
  | [g], _, h => by
    obtain ⟨h1, h2⟩ := h g List.mem_cons_self
    refine ⟨g.head h1, g.getLast h1, ?_, ?_, h2 _ (List.head_mem _), h2 _ (List.getLast_mem _)⟩
    · simp [List.intercalate, List.head?_eq_some_head h1]
    · simp [List.intercalate, List.getLast?_eq_some_getLast h1]
  | g :: g' :: gs, _, h => by
    obtain ⟨h1, h2⟩ := h g List.mem_cons_self
    obtain ⟨a, b, -, e2, -, e4⟩ := intercalate_ends (g' :: gs) (by simp) fun x hx => h x (List.mem_cons_of_mem _ hx)
    have e : ['_'].intercalate (g :: g' :: gs) = g ++ ('_' :: ['_'].intercalate (g' :: gs)) := by
      simp [List.intercalate]
    refine ⟨g.head h1, b, ?_, ?_, h2 _ (List.head_mem _), e4⟩
    · rw [e, List.head?_append, List.head?_eq_some_head h1]
      rfl
    · rw [e, List.getLast?_append, List.getLast?_cons, e2]
      rfl

theorem splitSign_split (t : List Char) : ∃ sg, t = sg ++ (splitSign t).2 ∧
    (sg = ['-'] ∧ (splitSign t).1 = true ∨ (sg = [] ∨ sg = ['+']) ∧ (splitSign t).1 = false) := by
  unfold splitSign
  split
  · exact ⟨['-'], rfl, .inl ⟨rfl, rfl⟩⟩
  · exact ⟨['+'], rfl, .inr ⟨.inr rfl, rfl⟩⟩
  · exact ⟨[], rfl, .inr ⟨.inl rfl, rfl⟩⟩

/-- The strings that `int` accepts, and their values. -/
theorem cfgInt_iff (s : List Char) (z : ℤ) : cfgInt s = .ok z ↔ ∃ w1 sg gs w2, s = w1 ++ (sg ++ ['_'].intercalate gs) ++ w2 ∧
    (∀ ch ∈ w1, pySpace ch = true) ∧ (∀ ch ∈ w2, pySpace ch = true) ∧ gs ≠ [] ∧ (∀ g ∈ gs, g ≠ [] ∧ ∀ ch ∈ g, ch.isDigit = true) ∧
    (sg = ['-'] ∧ z = -(digitVal gs.flatten : ℤ) ∨ (sg = [] ∨ sg = ['+']) ∧ z = digitVal gs.flatten) := by
  constructor
  · intro h
    obtain ⟨w1, w2, e, h1, h2⟩ := strip_split pySpace s
    unfold cfgInt at h
    dsimp only at h
    generalize ((s.dropWhile pySpace).reverse.dropWhile pySpace).reverse = t at e h
    obtain ⟨sg, e2, h3⟩ := splitSign_split t
    split at h
    · rename_i hg
      refine ⟨w1, sg, (splitSign t).2.splitOn '_', w2, ?_, h1, h2, List.splitOn_ne_nil '_' _, ?_, ?_⟩
      · rw [List.intercalate_splitOn, ← e2]
        exact e
      · simpa using hg
      · rcases h3 with ⟨h3, h4⟩ | ⟨h3, h4⟩
        · rw [h4] at h
          exact .inl ⟨h3, by simpa using h.symm⟩
        · rw [h4] at h
          exact .inr ⟨h3, by simpa using h.symm⟩
    · cases h
  · rintro ⟨w1, sg, gs, w2, rfl, h1, h2, hg, h3, h4⟩
    obtain ⟨a, b, ea, eb, da, db⟩ := intercalate_ends gs hg h3
    have hs : splitSign (sg ++ ['_'].intercalate gs) = (decide (sg = ['-']), ['_'].intercalate gs) := by
      rcases h4 with ⟨rfl, -⟩ | ⟨rfl | rfl, -⟩
      · rfl
      · rw [List.nil_append]
        cases hm : ['_'].intercalate gs with
        | nil => rw [hm] at ea; cases ea
        | cons c t =>
          rw [hm] at ea
          have hc : c = a := by simpa using ea
          obtain ⟨-, -, n1, n2, -⟩ := digit_facts da
          unfold splitSign
          split
          · rename_i e'
            exact absurd (hc.symm.trans (List.cons.inj e').1) n1
          · rename_i e'
            exact absurd (hc.symm.trans (List.cons.inj e').1) n2
          · rfl
      · rfl
    have hst : ∃ a', (sg ++ ['_'].intercalate gs).head? = some a' ∧ pySpace a' = false := by
      rcases h4 with ⟨rfl, -⟩ | ⟨rfl | rfl, -⟩
      · exact ⟨'-', rfl, rfl⟩
      · exact ⟨a, ea, (digit_facts da).1⟩
      · exact ⟨'+', rfl, rfl⟩
    obtain ⟨a', ha', pa'⟩ := hst
    have hl : (sg ++ ['_'].intercalate gs).getLast? = some b := by rw [List.getLast?_append, eb]; rfl
    have hsp : (['_'].intercalate gs).splitOn '_' = gs :=
      List.splitOn_intercalate '_' (fun l hl hm => (digit_facts ((h3 l hl).2 _ hm)).2.1 rfl) hg
    unfold cfgInt
    rw [strip_eq h1 h2 ha' hl pa' (digit_facts db).1, hs]
    dsimp only
    rw [hsp, if_pos (by simpa using h3)]
    rcases h4 with ⟨rfl, rfl⟩ | ⟨rfl | rfl, rfl⟩ <;> simp

theorem cfgInt_error {s : List Char} (h : ∀ z, cfgInt s ≠ .ok z) : cfgInt s = .error .valueError := by
  unfold cfgInt at h ⊢
  dsimp only at h ⊢
  split
  · rename_i hg
    exact absurd (if_pos hg) (h _)
  · rfl

theorem cfgInt_fmtD (z : ℤ) : cfgInt (fmtD z) = .ok z := by
  obtain ⟨ds, h1, h2, h3, h4⟩ := fmtD_eq z
  rw [cfgInt_iff]
  refine ⟨[], if z < 0 then ['-'] else [], [ds], [], ?_, by simp, by simp, by simp, ?_, ?_⟩
  · rw [h4]
    simp [List.intercalate]
  · simpa using ⟨h1, h2⟩
  · by_cases hz : z < 0
    · left
      simp only [hz, if_true, true_and, List.flatten_singleton, h3]
      omega
    · right
      simp only [hz, if_false, true_or, true_and, List.flatten_singleton, h3]
      omega

theorem fmtD_inj {z z' : ℤ} (h : fmtD z = fmtD z') : z = z' := by
  have := cfgInt_fmtD z
  rw [h, cfgInt_fmtD] at this
  exact (Except.ok.inj this).symm

theorem fmtD_chars (z : ℤ) : '_' ∉ fmtD z ∧ '=' ∉ fmtD z := by
  obtain ⟨ds, h1, h2, h3, h4⟩ := fmtD_eq z
  rw [h4]
  constructor <;> intro h <;> rcases List.mem_append.1 h with h | h
  · split at h <;> simp at h
  · exact (digit_facts (h2 _ h)).2.1 rfl
  · split at h <;> simp at h
  · exact (digit_facts (h2 _ h)).2.2.2.2 rfl

/-! ### The loops -/

/-- The type of a value. -/
def CfgVal.HasType : CfgVal → CfgType → Prop
  | .str _, .str => True
  | .int _, .int => True
  | .num _, .float => True
  | _, _ => False

theorem cfgRead_type {fl : List Char → Py ℝ} {ty : CfgType} {v : List Char} {x : CfgVal} (h : cfgRead fl ty v = .ok x) :
    x.HasType ty := by
  cases ty with
  | str => cases h; trivial
  | int =>
    simp only [cfgRead] at h
    cases e : cfgInt v with
    | error e' => rw [e] at h; cases h
    | ok z => rw [e] at h; cases h; trivial
  | float =>
    simp only [cfgRead] at h
    cases e : fl v with
    | error e' => rw [e] at h; cases h
    | ok z => rw [e] at h; cases h; trivial

/-- A well-formed argument. -/
def IsAssign (fl : List Char → Py ℝ) (keys : List (List Char × CfgType)) (a k : List Char) (x : CfgVal) : Prop :=
  ∃ v ty, a = k ++ '=' :: v ∧ '=' ∉ k ∧ '=' ∉ v ∧ keys.lookup k = some ty ∧ cfgRead fl ty v = .ok x

theorem parseArg_ok_iff (fl : List Char → Py ℝ) (keys : List (List Char × CfgType)) (c c' : Cfg) (a : List Char) :
    parseArg fl keys c a = .ok c' ↔ ∃ k x, IsAssign fl keys a k x ∧ c' = c.set k x := by
  constructor
  · intro h
    by_cases hb : ∃ k v ty, a = k ++ '=' :: v ∧ '=' ∉ k ∧ '=' ∉ v ∧ keys.lookup k = some ty
    · obtain ⟨k, v, ty, rfl, h1, h2, h3⟩ := hb
      cases hr : cfgRead fl ty v with
      | ok x =>
        rw [(parseArg_assign fl keys c h1 h2 h3).1 x hr] at h
        exact ⟨k, x, ⟨v, ty, rfl, h1, h2, h3, hr⟩, (Except.ok.inj h).symm⟩
      | error e =>
        rw [(parseArg_assign fl keys c h1 h2 h3).2 e hr] at h
        cases h
    · rw [parseArg_bad fl keys c hb] at h
      cases h
  · rintro ⟨k, x, ⟨v, ty, rfl, h1, h2, h3, h4⟩, rfl⟩
    exact (parseArg_assign fl keys c h1 h2 h3).1 x h4

theorem parseArgs_cons (fl : List Char → Py ℝ) (keys : List (List Char × CfgType)) (c : Cfg) (a : List Char) (as : List (List Char)) :
    parseArgs fl keys c (a :: as) = (parseArg fl keys c a).bind fun c' => parseArgs fl keys c' as := by
  rw [parseArgs, List.foldlM_cons]
  rfl

theorem parseArgs_append (fl : List Char → Py ℝ) (keys : List (List Char × CfgType)) (c : Cfg) (as bs : List (List Char)) :
    parseArgs fl keys c (as ++ bs) = (parseArgs fl keys c as).bind fun c' => parseArgs fl keys c' bs := by
  rw [parseArgs, List.foldlM_append]
  rfl

theorem parseArgs_some (fl : List Char → Py ℝ) (keys : List (List Char × CfgType)) : ∀ (as : List (List Char)) (c : Cfg),
    (∀ a ∈ as, ∃ k x, IsAssign fl keys a k x) → ∃ c', parseArgs fl keys c as = .ok c'
  | [], c, _ => ⟨c, rfl⟩
  | a :: as, c, h => by
    obtain ⟨k, x, hk⟩ := h a List.mem_cons_self
    rw [parseArgs_cons, (parseArg_ok_iff fl keys c _ a).2 ⟨k, x, hk, rfl⟩]
    exact parseArgs_some fl keys as (c.set k x) fun b hb => h b (List.mem_cons_of_mem _ hb)

theorem parseArgs_all {fl : List Char → Py ℝ} {keys : List (List Char × CfgType)} : ∀ {as : List (List Char)} {c c' : Cfg},
    parseArgs fl keys c as = .ok c' → ∀ a ∈ as, ∃ k x, IsAssign fl keys a k x
  | [], _, _, _, a, ha => by simp at ha
  | b :: as, c, c', h, a, ha => by
    rw [parseArgs_cons] at h
    cases hb : parseArg fl keys c b with
    | error e => rw [hb] at h; cases h
    | ok c1 =>
      rw [hb] at h
      obtain ⟨k, x, hk, -⟩ := (parseArg_ok_iff fl keys c c1 b).1 hb
      rcases List.mem_cons.1 ha with rfl | ha
      · exact ⟨k, x, hk⟩
      · exact parseArgs_all (c := c1) h a ha

/-- Arguments for other keys do not change the value. -/
theorem parseArgs_other {fl : List Char → Py ℝ} {keys : List (List Char × CfgType)} {k : List Char} :
    ∀ {as : List (List Char)} {c c' : Cfg}, parseArgs fl keys c as = .ok c' → (∀ a ∈ as, ∀ v, '=' ∉ v → a ≠ k ++ '=' :: v) →
    c'.lookup k = c.lookup k
  | [], _, _, h, _ => by cases h; rfl
  | b :: as, c, c', h, hn => by
    rw [parseArgs_cons] at h
    cases hb : parseArg fl keys c b with
    | error e => rw [hb] at h; cases h
    | ok c1 =>
      rw [hb] at h
      obtain ⟨j, x, ⟨v, ty, rfl, -, h2, -⟩, rfl⟩ := (parseArg_ok_iff fl keys c c1 b).1 hb
      rw [parseArgs_other (c := c.set j x) h fun a ha => hn a (List.mem_cons_of_mem _ ha), cfg_lookup_set, if_neg]
      rintro rfl
      exact hn _ List.mem_cons_self v h2 rfl

/-- All values keep their types. -/
theorem parseArgs_typed {fl : List Char → Py ℝ} {keys : List (List Char × CfgType)} : ∀ {as : List (List Char)} {c c' : Cfg},
    parseArgs fl keys c as = .ok c' → (∀ k ty, keys.lookup k = some ty → ∃ x, c.lookup k = some x ∧ x.HasType ty) →
    ∀ k ty, keys.lookup k = some ty → ∃ x, c'.lookup k = some x ∧ x.HasType ty
  | [], _, _, h, ht => by cases h; exact ht
  | b :: as, c, c', h, ht => by
    rw [parseArgs_cons] at h
    cases hb : parseArg fl keys c b with
    | error e => rw [hb] at h; cases h
    | ok c1 =>
      rw [hb] at h
      obtain ⟨j, x, ⟨v, ty, rfl, -, -, h3, h4⟩, rfl⟩ := (parseArg_ok_iff fl keys c c1 b).1 hb
      refine parseArgs_typed (c := c.set j x) h fun k ty' hk => ?_
      rw [cfg_lookup_set]
      split
      · rename_i e
        subst e
        rw [h3] at hk
        cases hk
        exact ⟨x, rfl, cfgRead_type h4⟩
      · exact ht k ty' hk

theorem runTests_ok (mask : ℤ) (write : List Char → List ExpRow → ExpLog) : ∀ (tests : List ExpTest) (rows : List (List ExpRow)),
    List.Forall₂ (fun t r => t.run = .ok r) (tests.filter fun t => mask / 2 ^ t.bit % 2 = 1) rows →
    runTests mask write tests =
      ((List.zipWith (fun t r => write t.id r) (tests.filter fun t => mask / 2 ^ t.bit % 2 = 1) rows).flatten, none)
  | [], rows, h => by cases h; rfl
  | t :: ts, rows, h => by
    by_cases ht : mask / 2 ^ t.bit % 2 = 1
    · rw [List.filter_cons_of_pos (by simpa using ht)] at h ⊢
      cases h with
      | cons h1 h2 => rw [runTests, if_pos ((land_two_pow _ _).2 ht), h1]; simp [runTests_ok mask write ts _ h2]
    · rw [List.filter_cons_of_neg (by simpa using ht)] at h ⊢
      rw [runTests, if_neg (fun h' => ht ((land_two_pow _ _).1 h'))]
      exact runTests_ok mask write ts rows h

theorem runTests_error (mask : ℤ) (write : List Char → List ExpRow → ExpLog) {t : ExpTest} {post : List ExpTest} {e : ExpErr}
    (he : t.run = .error e) : ∀ (tests pre : List ExpTest) (rows : List (List ExpRow)),
    (tests.filter fun t => mask / 2 ^ t.bit % 2 = 1) = pre ++ t :: post → List.Forall₂ (fun t r => t.run = .ok r) pre rows →
    runTests mask write tests = ((List.zipWith (fun t r => write t.id r) pre rows).flatten, some e)
  | [], pre, rows, h, _ => by simp at h
  | s :: ts, pre, rows, h, hr => by
    by_cases ht : mask / 2 ^ s.bit % 2 = 1
    · rw [List.filter_cons_of_pos (by simpa using ht)] at h
      rw [runTests, if_pos ((land_two_pow _ _).2 ht)]
      cases hr with
      | nil =>
        obtain ⟨rfl, -⟩ := List.cons.inj h
        rw [he]
        rfl
      | cons h1 h2 =>
        rw [List.cons_append] at h
        obtain ⟨rfl, h'⟩ := List.cons.inj h
        rw [h1]
        simp [runTests_error mask write he ts _ _ h' h2]
    · rw [List.filter_cons_of_neg (by simpa using ht)] at h
      rw [runTests, if_neg (fun h' => ht ((land_two_pow _ _).1 h'))]
      exact runTests_error mask write he ts pre rows h hr

/-! ### File names -/

theorem append_sep_inj {a : Char} : ∀ {xs ys u v : List Char}, a ∉ xs → a ∉ ys → xs ++ a :: u = ys ++ a :: v → xs = ys ∧ u = v
  | [], [], _, _, _, _, h => ⟨rfl, by simpa using h⟩
  | [], y :: ys, _, _, _, hy, h => by
    have := (List.cons.inj h).1
    exact absurd (this ▸ List.mem_cons_self) hy
  | x :: xs, [], _, _, hx, _, h => by
    have := (List.cons.inj h).1
    exact absurd (this ▸ List.mem_cons_self) hx
  | x :: xs, y :: ys, _, _, hx, hy, h => by
    obtain ⟨rfl, h'⟩ := List.cons.inj h
    obtain ⟨rfl, e⟩ := append_sep_inj (fun hm => hx (List.mem_cons_of_mem _ hm)) (fun hm => hy (List.mem_cons_of_mem _ hm)) h'
    exact ⟨rfl, e⟩

theorem append_sep_inj' {a : Char} {xs ys u v : List Char} (hu : a ∉ u) (hv : a ∉ v) (h : xs ++ a :: u = ys ++ a :: v) :
    xs = ys ∧ u = v := by
  have := congrArg List.reverse h
  simp only [List.reverse_append, List.reverse_cons, List.append_assoc, List.singleton_append] at this
  obtain ⟨e1, e2⟩ := append_sep_inj (by simpa using hu) (by simpa using hv) this
  exact ⟨List.reverse_inj.1 e2, List.reverse_inj.1 e1⟩

/-- The letters of the device, in lower case. -/
def devLetters (device : List Char) : List Char := (device.filter Char.isAlpha).map Char.toLower

theorem lower_ne : ∀ n < 128, (Char.ofNat n).isAlpha = true → (Char.ofNat n).toLower ≠ '_' := by decide +kernel

theorem devLetters_sep (device : List Char) : '_' ∉ devLetters device := by
  intro h
  simp only [devLetters, List.mem_map, List.mem_filter] at h
  obtain ⟨ch, ⟨-, h1⟩, h2⟩ := h
  have hlt : ch.toNat < 128 := by
    simp only [Char.isAlpha, Char.isUpper, Char.isLower, Bool.or_eq_true, Bool.and_eq_true, decide_eq_true_eq] at h1
    rcases h1 with h1 | h1
    · have := UInt32.le_iff_toNat_le.1 h1.2
      have e : ch.val.toNat = ch.toNat := rfl
      rw [e] at this
      exact lt_of_le_of_lt this (by decide)
    · have := UInt32.le_iff_toNat_le.1 h1.2
      have e : ch.val.toNat = ch.toNat := rfl
      rw [e] at this
      exact lt_of_le_of_lt this (by decide)
  have := lower_ne ch.toNat hlt
  rw [Char.ofNat_toNat] at this
  exact this h1 h2

/-- The number of threads in the file names. -/
def devThreads (single : ℤ) : List Char := if single = 0 then ['m', 'c'] else ['s', 'c']

theorem devTxt_eq (d : List Char) (s : ℤ) : devTxt d s = devLetters d ++ '_' :: devThreads s := by
  by_cases hs : s = 0
  · simp [devTxt, devLetters, devThreads, hs]
  · simp [devTxt, devLetters, devThreads, hs]

theorem resL : "res/".toList = ['r', 'e', 's', '/'] := by simp
theorem txtL : ".txt".toList = ['.', 't', 'x', 't'] := by simp
theorem cfgL : "_config.txt".toList = ['_', 'c', 'o', 'n', 'f', 'i', 'g', '.', 't', 'x', 't'] := by simp

theorem expName_eq (m id t : List Char) :
    expName m id t = ['r', 'e', 's', '/'] ++ ((m ++ '_' :: id) ++ '_' :: (t ++ ['.', 't', 'x', 't'])) := by
  unfold expName
  rw [resL, txtL]
  simp only [List.append_assoc, List.cons_append, List.nil_append]

theorem expCfgName_eq (m id t : List Char) :
    expCfgName m id t = ['r', 'e', 's', '/'] ++ ((m ++ '_' :: id) ++ '_' ::
      (t ++ ['_', 'c', 'o', 'n', 'f', 'i', 'g', '.', 't', 'x', 't'])) := by
  unfold expCfgName
  rw [resL, cfgL]
  simp only [List.append_assoc, List.cons_append, List.nil_append]
theorem devThreads_sep (s : ℤ) (t : List Char) (ht : '_' ∉ t) : '_' ∉ devThreads s ++ t := by
  rw [List.mem_append, not_or]
  refine ⟨?_, ht⟩
  unfold devThreads
  split <;> decide

theorem devThreads_inj {s s' : ℤ} {t : List Char} (h : devThreads s ++ t = devThreads s' ++ t) : s = 0 ↔ s' = 0 := by
  have h := List.append_cancel_right h
  unfold devThreads at h
  by_cases e : s = 0
  · by_cases e' : s' = 0
    · exact ⟨fun _ => e', fun _ => e⟩
    · rw [if_pos e, if_neg e'] at h
      exact absurd h (by decide)
  · by_cases e' : s' = 0
    · rw [if_neg e, if_pos e'] at h
      exact absurd h (by decide)
    · exact ⟨fun h => absurd h e, fun h => absurd h e'⟩

theorem name_inj {p p' d d' : List Char} {s s' : ℤ} {t : List Char} (ht : '_' ∉ t)
    (h : p ++ '_' :: (devTxt d s ++ t) = p' ++ '_' :: (devTxt d' s' ++ t)) :
    p = p' ∧ devLetters d = devLetters d' ∧ (s = 0 ↔ s' = 0) := by
  have f : ∀ (p d : List Char) (s : ℤ), p ++ '_' :: (devTxt d s ++ t) = (p ++ '_' :: devLetters d) ++ '_' :: (devThreads s ++ t) := by
    intro p d s
    rw [devTxt_eq]
    simp only [List.append_assoc, List.cons_append]
  rw [f, f] at h
  obtain ⟨h1, h2⟩ := append_sep_inj' (devThreads_sep s t ht) (devThreads_sep s' t ht) h
  obtain ⟨h3, h4⟩ := append_sep_inj' (devLetters_sep d) (devLetters_sep d') h1
  exact ⟨h3, h4, devThreads_inj h2⟩

theorem expName_inj {m id m' id' d d' : List Char} {s s' : ℤ}
    (h : expName m id (devTxt d s) = expName m' id' (devTxt d' s')) :
    m ++ '_' :: id = m' ++ '_' :: id' ∧ devLetters d = devLetters d' ∧ (s = 0 ↔ s' = 0) := by
  rw [expName_eq, expName_eq] at h
  exact name_inj (by decide) (List.append_cancel_left h)

theorem expCfgName_inj {m id m' id' d d' : List Char} {s s' : ℤ}
    (h : expCfgName m id (devTxt d s) = expCfgName m' id' (devTxt d' s')) :
    m ++ '_' :: id = m' ++ '_' :: id' ∧ devLetters d = devLetters d' ∧ (s = 0 ↔ s' = 0) := by
  rw [expCfgName_eq, expCfgName_eq] at h
  have h := List.append_cancel_left h
  have f : ∀ (p t : List Char), p ++ '_' :: (t ++ ['_', 'c', 'o', 'n', 'f', 'i', 'g', '.', 't', 'x', 't']) =
      (p ++ '_' :: t) ++ '_' :: ['c', 'o', 'n', 'f', 'i', 'g', '.', 't', 'x', 't'] := by
    intro p t
    simp only [List.append_assoc, List.cons_append]
  rw [f, f] at h
  have h := (append_sep_inj' (by decide) (by decide) h).1
  rw [← List.append_nil (devTxt d s), ← List.append_nil (devTxt d' s')] at h
  exact name_inj (by decide) h

theorem expName_ne_cfg {m id m' id' d d' : List Char} {s s' : ℤ} :
    expName m id (devTxt d s) ≠ expCfgName m' id' (devTxt d' s') := by
  intro h
  rw [expName_eq, expCfgName_eq] at h
  have h := List.append_cancel_left h
  have f : (m ++ '_' :: id) ++ '_' :: (devTxt d s ++ ['.', 't', 'x', 't']) =
      ((m ++ '_' :: id) ++ '_' :: devLetters d) ++ '_' :: (devThreads s ++ ['.', 't', 'x', 't']) := by
    rw [devTxt_eq]
    simp only [List.append_assoc, List.cons_append]
  have g : (m' ++ '_' :: id') ++ '_' :: (devTxt d' s' ++ ['_', 'c', 'o', 'n', 'f', 'i', 'g', '.', 't', 'x', 't']) =
      ((m' ++ '_' :: id') ++ '_' :: devTxt d' s') ++ '_' :: ['c', 'o', 'n', 'f', 'i', 'g', '.', 't', 'x', 't'] := by
    simp only [List.append_assoc, List.cons_append]
  rw [f, g] at h
  have := congrArg List.length (append_sep_inj' (devThreads_sep s _ (by decide)) (by decide) h).2
  unfold devThreads at this
  split at this <;> simp at this

end Verif
