import Verif.Proof.ExperimentsMain

/-! C88: the command lines, the selection of the tests by the mask, and the file names of the experiment scripts. -/

namespace Verif

/-- C88 (arguments): the arguments are accepted iff each has the form `key=value`, without further `=`, with a known key and a value
that the conversion of the key accepts; then the last value given for a key is used, and the default if there is none. Otherwise the
first bad argument decides: an exception of the conversion if only the value is wrong, and `sys.exit(1)` in all other cases. -/
theorem C88_parse (fl : List Char → Py ℝ) (keys : List (List Char × CfgType)) (c : Cfg) (args : List (List Char)) :
    ((∃ c', parseArgs fl keys c args = .ok c') ↔ ∀ a ∈ args, ∃ k v ty x, a = k ++ '=' :: v ∧ '=' ∉ k ∧ '=' ∉ v ∧
      keys.lookup k = some ty ∧ cfgRead fl ty v = .ok x) ∧
    (∀ c', parseArgs fl keys c args = .ok c' → ∀ k,
      ((∀ a ∈ args, ∀ v, a ≠ k ++ '=' :: v) → c'.lookup k = c.lookup k) ∧
      (∀ pre v post, '=' ∉ k → args = pre ++ (k ++ '=' :: v) :: post → (∀ a ∈ post, ∀ w, a ≠ k ++ '=' :: w) →
        ∃ ty x, keys.lookup k = some ty ∧ cfgRead fl ty v = .ok x ∧ c'.lookup k = some x)) ∧
    (∀ pre a post c1, args = pre ++ a :: post → parseArgs fl keys c pre = .ok c1 →
      (∀ k v ty e, a = k ++ '=' :: v → '=' ∉ k → '=' ∉ v → keys.lookup k = some ty → cfgRead fl ty v = .error e →
        parseArgs fl keys c args = .error (.py e)) ∧
      ((¬ ∃ k v ty, a = k ++ '=' :: v ∧ '=' ∉ k ∧ '=' ∉ v ∧ keys.lookup k = some ty) →
        parseArgs fl keys c args = .error (.exit 1))) := by
  refine ⟨⟨?_, ?_⟩, ?_, ?_⟩
  · rintro ⟨c', h⟩ a ha
    obtain ⟨k, x, v, ty, h1, h2, h3, h4, h5⟩ := parseArgs_all h a ha
    exact ⟨k, v, ty, x, h1, h2, h3, h4, h5⟩
  · intro h
    refine parseArgs_some fl keys args c fun a ha => ?_
    obtain ⟨k, v, ty, x, h1, h2, h3, h4, h5⟩ := h a ha
    exact ⟨k, x, v, ty, h1, h2, h3, h4, h5⟩
  · intro c' h k
    refine ⟨fun hn => parseArgs_other h fun a ha v _ => hn a ha v, ?_⟩
    rintro pre v post hk rfl hn
    rw [parseArgs_append] at h
    cases h1 : parseArgs fl keys c pre with
    | error e => rw [h1] at h; cases h
    | ok c1 =>
      rw [h1] at h
      change parseArgs fl keys c1 ((k ++ '=' :: v) :: post) = .ok c' at h
      rw [parseArgs_cons] at h
      cases h2 : parseArg fl keys c1 (k ++ '=' :: v) with
      | error e => rw [h2] at h; cases h
      | ok c2 =>
        rw [h2] at h
        obtain ⟨j, x, ⟨w, ty, e, hj, -, h4, h5⟩, rfl⟩ := (parseArg_ok_iff fl keys c1 c2 _).1 h2
        obtain ⟨rfl, rfl⟩ := append_sep_inj hk hj e
        refine ⟨ty, x, h4, h5, ?_⟩
        rw [parseArgs_other (c := c1.set k x) h fun a ha w _ => hn a ha w, cfg_lookup_set, if_pos rfl]
  · rintro pre a post c1 rfl h1
    rw [parseArgs_append, h1]
    constructor
    · rintro k v ty e rfl h2 h3 h4 h5
      change parseArgs fl keys c1 ((k ++ '=' :: v) :: post) = _
      rw [parseArgs_cons, (parseArg_assign fl keys c1 h2 h3 h4).2 e h5]
      rfl
    · intro hb
      change parseArgs fl keys c1 (a :: post) = _
      rw [parseArgs_cons, parseArg_bad fl keys c1 hb]
      rfl

/-- `n=5 mask=3 n=7` sets `n` to 7 and leaves `nc`. -/
example (fl : List Char → Py ℝ) : ∃ c, parseArgs fl linKeys linDefaults ["n=5".toList, "mask=3".toList, "n=7".toList] = .ok c ∧
    c.lookup "n".toList = some (.int 7) ∧ c.lookup "nc".toList = some (.int 4) := by
  refine ⟨_, rfl, ?_, ?_⟩ <;> rfl

/-- `n=5 m=3` and `n=5 n=1=2` exit, `n=x` raises. -/
example (fl : List Char → Py ℝ) :
    parseArgs fl linKeys linDefaults ["n=5".toList, "m=3".toList] = .error (.exit 1) ∧
    parseArgs fl linKeys linDefaults ["n=5".toList, "n=1=2".toList] = .error (.exit 1) ∧
    parseArgs fl linKeys linDefaults ["n=x".toList, "m=3".toList] = .error (.py .valueError) := by
  refine ⟨?_, ?_, ?_⟩ <;> rfl

/-- C88 (integers): `int` accepts white space, an optional sign, and groups of digits separated by single underscores, and gives the
number with these digits; everything else is a `ValueError`; it reads back what `%d` prints. -/
theorem C88_int (s : List Char) :
    (∀ z, cfgInt s = .ok z ↔ ∃ w1 sg gs w2, s = w1 ++ (sg ++ ['_'].intercalate gs) ++ w2 ∧
      (∀ ch ∈ w1, ch ∈ [' ', '\t', '\n', '\x0b', '\x0c', '\r']) ∧ (∀ ch ∈ w2, ch ∈ [' ', '\t', '\n', '\x0b', '\x0c', '\r']) ∧
      gs ≠ [] ∧ (∀ g ∈ gs, g ≠ [] ∧ ∀ ch ∈ g, '0' ≤ ch ∧ ch ≤ '9') ∧
      (sg = ['-'] ∧ z = -(Nat.ofDigits 10 (gs.flatten.reverse.map fun ch => ch.toNat - 48) : ℤ) ∨
        (sg = [] ∨ sg = ['+']) ∧ z = (Nat.ofDigits 10 (gs.flatten.reverse.map fun ch => ch.toNat - 48) : ℤ))) ∧
    ((∀ z, cfgInt s ≠ .ok z) → cfgInt s = .error .valueError) ∧ ∀ z, cfgInt (fmtD z) = .ok z := by
  refine ⟨fun z => ?_, cfgInt_error, cfgInt_fmtD⟩
  have hsp : ∀ ch : Char, pySpace ch = true ↔ ch ∈ [' ', '\t', '\n', '\x0b', '\x0c', '\r'] := by
    intro ch
    constructor
    · intro h
      have key : ∀ n < 33, pySpace (Char.ofNat n) = true → Char.ofNat n ∈ [' ', '\t', '\n', '\x0b', '\x0c', '\r'] := by
        decide +kernel
      have hlt : ch.toNat < 33 := by
        simp only [pySpace, Bool.or_eq_true, Bool.and_eq_true, decide_eq_true_eq] at h
        omega
      have := key ch.toNat hlt
      rw [Char.ofNat_toNat] at this
      exact this h
    · intro h
      simp only [List.mem_cons, List.not_mem_nil, or_false] at h
      rcases h with rfl | rfl | rfl | rfl | rfl | rfl <;> rfl
  have hd : ∀ ch : Char, ch.isDigit = true ↔ '0' ≤ ch ∧ ch ≤ '9' := by
    intro ch
    simp only [Char.isDigit, Bool.and_eq_true, decide_eq_true_eq]
    rfl
  rw [cfgInt_iff]
  simp only [hsp, hd, digitVal_eq]
  push_cast
  rfl

example : cfgInt " -1_000\n".toList = .ok (-1000) ∧ cfgInt "1__0".toList = .error .valueError ∧
    cfgInt "+ 1".toList = .error .valueError ∧ cfgInt "".toList = .error .valueError ∧ cfgInt "007".toList = .ok 7 ∧
    cfgInt "1e3".toList = .error .valueError := by
  decide +kernel

/-- C88 (mask): exactly the tests run whose bit is set in the two's complement representation of the mask, in order; the script stops at
the first of them that fails, and the files of the tests before it remain. -/
theorem C88_mask (mask : ℤ) (write : List Char → List ExpRow → ExpLog) (tests sel : List ExpTest)
    (hsel : sel = tests.filter fun t => mask / 2 ^ t.bit % 2 = 1) :
    (∀ rows : List (List ExpRow), List.Forall₂ (fun t r => t.run = .ok r) sel rows →
      runTests mask write tests = ((List.zipWith (fun t r => write t.id r) sel rows).flatten, none)) ∧
    (∀ (pre : List ExpTest) (t : ExpTest) (post : List ExpTest) (rows : List (List ExpRow)) (e : ExpErr), sel = pre ++ t :: post →
      List.Forall₂ (fun t r => t.run = .ok r) pre rows → t.run = .error e →
      runTests mask write tests = ((List.zipWith (fun t r => write t.id r) pre rows).flatten, some e)) := by
  subst hsel
  exact ⟨runTests_ok mask write tests, fun pre t post rows e h1 h2 h3 => runTests_error mask write h3 tests pre rows h1 h2⟩

/-- Mask 5 selects the tests 0 and 2; the second fails. -/
example : (runTests 5 (writeTable ['m'] ['d']) [⟨0, ['a'], .ok []⟩, ⟨1, ['b'], .ok []⟩, ⟨2, ['c'], .error (.exit 1)⟩]) =
    ([(expName ['m'] ['a'] ['d'], .table [])], some (.exit 1)) := by
  rw [(C88_mask 5 _ _ [⟨0, ['a'], .ok []⟩, ⟨2, ['c'], .error (.exit 1)⟩] (by rfl)).2 [⟨0, ['a'], .ok []⟩] ⟨2, ['c'], .error (.exit 1)⟩ []
    [[]] (.exit 1) rfl (by simp) rfl]
  rfl

/-- The mask -1 selects every test. -/
example (b : ℕ) : (-1 : ℤ) / 2 ^ b % 2 = 1 := by
  rw [← land_two_pow]
  intro h
  have := congrArg (fun z => Int.testBit z b) h
  have e : Int.testBit (2 ^ b) b = true := by
    have : ((2 : ℤ) ^ b) = ((2 ^ b : ℕ) : ℤ) := by simp
    rw [this]
    exact Nat.testBit_two_pow_self
  have e2 : Int.testBit (-1) b = true := by
    change (!(Nat.testBit 0 b)) = true
    simp
  simp [Int.testBit_land, e, e2] at this
  exact absurd this (by simp [Int.testBit])

/-- C88 (failure): if an argument is not accepted, no script writes a file. -/
theorem C88_no_files (fl : List Char → Py ℝ) (scan : AScan) (am : AArgmin ℝ) (am4 : (Fin 4 → ℝ) → Fin 4) (rnd : ℕ → ℝ)
    (rnd3 : ℕ → ℕ → ℕ → ℝ) (choice : ℕ → FArr1 ℝ → Py ℕ) (text1 text2 : List Char) (args : List (List Char)) (e : ExpErr) :
    (parseArgs fl linKeys linDefaults args = .error e → linMain fl scan rnd args = ([], some e)) ∧
    (parseArgs fl finKeys finDefaults args = .error e → finMain fl scan am rnd3 args = ([], some e)) ∧
    (parseArgs fl nlinKeys nlinDefaults args = .error e → nlinMain fl scan args = ([], some e)) ∧
    (parseArgs fl contKeys contDefaults args = .error e → contMain fl scan args = ([], some e)) ∧
    (parseArgs fl hjbKeys hjbDefaults args = .error e → hjbMain fl scan args = ([], some e)) ∧
    (parseArgs fl vitKeys vitDefaults args = .error e → vitMain fl scan am4 rnd args = ([], some e)) ∧
    (parseArgs fl textKeys textDefaults args = .error e → textMain fl scan am choice text1 text2 args = ([], some e)) ∧
    (parseArgs fl text2Keys text2Defaults args = .error e → text2Main fl scan am choice text1 text2 args = ([], some e)) := by
  refine ⟨?_, ?_, ?_, ?_, ?_, ?_, ?_, ?_⟩ <;> intro h
  · rw [linMain, h]; rfl
  · rw [finMain, h]; rfl
  · rw [nlinMain, h]; rfl
  · rw [contMain, h]; rfl
  · rw [hjbMain, h]; rfl
  · rw [vitMain, h]; rfl
  · rw [textMain, h]; rfl
  · rw [text2Main, h]; rfl

/-- C88 (usage): the keys listed in the usage text are the accepted ones and have the types of the defaults, in all scripts but
`run_viterbi_experiments.py`, whose usage text lists `steps`, which is not accepted. -/
theorem C88_usage :
    (∀ p ∈ [(linKeys, linDefaults), (finKeys, finDefaults), (nlinKeys, nlinDefaults), (contKeys, contDefaults), (hjbKeys, hjbDefaults),
      (textKeys, textDefaults), (text2Keys, text2Defaults)], p.1.map Prod.fst = p.2.map Prod.fst ∧ List.Forall₂
        (fun k d => d.2.HasType k.2) p.1 p.2) ∧
    vitDefaults.map Prod.fst = (vitKeys.map Prod.fst).insertIdx 4 "steps".toList ∧ "steps".toList ∉ vitKeys.map Prod.fst ∧
    ∀ (fl : List Char → Py ℝ) (scan : AScan) (am4 : (Fin 4 → ℝ) → Fin 4) (rnd : ℕ → ℝ) (v : List Char) (args : List (List Char)),
      vitMain fl scan am4 rnd (("steps=".toList ++ v) :: args) = ([], some (.exit 1)) := by
  refine ⟨?_, by decide, by decide, ?_⟩
  · intro p hp
    simp only [List.mem_cons, List.not_mem_nil, or_false] at hp
    rcases hp with rfl | rfl | rfl | rfl | rfl | rfl | rfl <;> refine ⟨rfl, ?_⟩ <;>
      simp only [linKeys, linDefaults, finKeys, finDefaults, nlinKeys, nlinDefaults, contKeys, contDefaults, hjbKeys, hjbDefaults,
        textKeys, textDefaults, text2Keys, text2Defaults, List.forall₂_cons, List.forall₂_nil_left_iff, CfgVal.HasType, and_self]
  · intro fl scan am4 rnd v args
    refine (C88_no_files fl scan (fun _ _ => argmin1) am4 rnd (fun _ _ _ => 0) (fun _ _ => .ok 0) [] [] _ _).2.2.2.2.2.1 ?_
    rw [parseArgs_cons, parseArg_bad]
    · rfl
    · rintro ⟨k, w, ty, h1, h2, -, h4⟩
      have e : "steps=".toList ++ v = ['s', 't', 'e', 'p', 's'] ++ '=' :: v := by
        rw [show "steps=".toList = ['s', 't', 'e', 'p', 's', '='] by simp]
        rfl
      rw [e] at h1
      obtain ⟨rfl, -⟩ := append_sep_inj (by decide) h2 h1
      revert h4
      have : vitKeys.lookup ['s', 't', 'e', 'p', 's'] = none := by decide
      rw [this]
      simp

/-- C88 (file names, linear script): the name of a file determines the model, the test, `n`, for the condensed tests `nc`, the letters of
the device up to their case, and whether one thread is used; two tests of a run never share a file. Nothing else enters the name, so that
runs that differ in `start`, `stop`, `num` or the number of the device only overwrite each other's files. -/
theorem C88_names_linear (scan : AScan) (rnd : ℕ → ℝ) (model model' : List Char) (start start' stop stop' : ℝ)
    (num num' n n' nc nc' single single' : ℤ) (device device' : List Char) (hm : '_' ∉ model) (hm' : '_' ∉ model') (i j : ℕ)
    (t t' : ExpTest) (ht : (linTests scan rnd model start stop num n nc)[i]? = some t)
    (ht' : (linTests scan rnd model' start' stop' num' n' nc')[j]? = some t') :
    expName model t.id (devTxt device single) = expName model' t'.id (devTxt device' single') ↔
      model = model' ∧ i = j ∧ n = n' ∧ (5 ≤ i → nc = nc') ∧
      (device.filter Char.isAlpha).map Char.toLower = (device'.filter Char.isAlpha).map Char.toLower ∧ (single = 0 ↔ single' = 0) := by
  obtain ⟨hi, -, e1⟩ := linTests_id ht
  obtain ⟨hj, -, e2⟩ := linTests_id ht'
  constructor
  · intro h
    obtain ⟨h1, h2, h3⟩ := expName_inj h
    obtain ⟨rfl, h4⟩ := append_sep_inj hm hm' h1
    rw [e1, e2] at h4
    obtain ⟨h5, h6⟩ := append_sep_inj (fmtD_chars n).1 (fmtD_chars n').1 h4
    obtain ⟨h7, h8⟩ := linTail_inj hi hj h6
    exact ⟨rfl, h7, fmtD_inj h5, h8, h2, h3⟩
  · rintro ⟨rfl, rfl, rfl, h5, h6, h7⟩
    have e3 : linTail i nc = linTail i nc' := by
      by_cases h : 5 ≤ i
      · rw [h5 h]
      · interval_cases i <;> first | rfl | omega
    have e4 : devTxt device single = devTxt device' single' := by
      rw [devTxt_eq, devTxt_eq]
      have : devThreads single = devThreads single' := by
        unfold devThreads
        by_cases h0 : single = 0
        · rw [if_pos h0, if_pos (h7.1 h0)]
        · rw [if_neg h0, if_neg (fun h => h0 (h7.2 h))]
      rw [this]
      exact congrArg (· ++ _) h6
    rw [e1, e2, e3, e4]

/-- The devices `/GPU:0` and `/GPU:1` share the files. -/
example (m id : List Char) : expName m id (devTxt "/GPU:0".toList 0) = expName m id (devTxt "/GPU:1".toList 0) := by
  have : devTxt "/GPU:0".toList 0 = devTxt "/GPU:1".toList 0 := by decide +kernel
  rw [this]

/-- C88 (file names, continuous-time linear script): the same, with the number of parareal iterations in place of the block length; the
files with the dictionaries are distinct from these and from each other. Here also the number of steps does not enter. -/
theorem C88_names_contlin (scan : AScan) (P P' : CLQT 4 2 ℝ × (Fin 4 → ℝ)) (Bs Bs' : List ℕ) (steps steps' k k' : ℕ)
    (n n' niter niter' single single' : ℤ) (device device' : List Char) (i j : ℕ)
    (t t' : ExpTest) (ht : (contTests scan P Bs steps k n niter)[i]? = some t)
    (ht' : (contTests scan P' Bs' steps' k' n' niter')[j]? = some t') :
    let same := i = j ∧ n = n' ∧ (5 ≤ i → niter = niter') ∧
      (device.filter Char.isAlpha).map Char.toLower = (device'.filter Char.isAlpha).map Char.toLower ∧ (single = 0 ↔ single' = 0)
    let m := "tracking".toList
    (expName m t.id (devTxt device single) = expName m t'.id (devTxt device' single') ↔ same) ∧
    (expCfgName m t.id (devTxt device single) = expCfgName m t'.id (devTxt device' single') ↔ same) ∧
    expName m t.id (devTxt device single) ≠ expCfgName m t'.id (devTxt device' single') := by
  intro same m
  obtain ⟨hi, -, e1⟩ := contTests_id ht
  obtain ⟨hj, -, e2⟩ := contTests_id ht'
  have fwd : m ++ '_' :: t.id = m ++ '_' :: t'.id ∧ devLetters device = devLetters device' ∧ (single = 0 ↔ single' = 0) → same := by
    rintro ⟨h1, h2, h3⟩
    have h4 := (List.cons.inj (List.append_cancel_left h1)).2
    rw [e1, e2] at h4
    obtain ⟨h5, h6⟩ := append_sep_inj (fmtD_chars n).1 (fmtD_chars n').1 h4
    obtain ⟨h7, h8⟩ := contTail_inj hi hj h6
    exact ⟨h7, fmtD_inj h5, h8, h2, h3⟩
  have bwd : same → t.id = t'.id ∧ devTxt device single = devTxt device' single' := by
    rintro ⟨rfl, rfl, h5, h6, h7⟩
    have e3 : contTail i niter = contTail i niter' := by
      by_cases h : 5 ≤ i
      · rw [h5 h]
      · interval_cases i <;> first | rfl | omega
    refine ⟨by rw [e1, e2, e3], ?_⟩
    rw [devTxt_eq, devTxt_eq]
    have : devThreads single = devThreads single' := by
      unfold devThreads
      by_cases h0 : single = 0
      · rw [if_pos h0, if_pos (h7.1 h0)]
      · rw [if_neg h0, if_neg (fun h => h0 (h7.2 h))]
    rw [this]
    exact congrArg (· ++ _) h6
  refine ⟨⟨fun h => fwd (expName_inj h), fun h => ?_⟩, ⟨fun h => fwd (expCfgName_inj h), fun h => ?_⟩, expName_ne_cfg⟩
  · rw [(bwd h).1, (bwd h).2]
  · rw [(bwd h).1, (bwd h).2]

example (scan : AScan) : ∃ t t', (contTests scan contTracking [100] 10 2 4 2)[5]? = some t ∧
    (contTests scan contTracking [100] 10 3 4 3)[5]? = some t' ∧ t.id = "4_parareal_2_bw".toList ∧ t'.id = "4_parareal_3_bw".toList := by
  refine ⟨_, _, rfl, rfl, ?_, ?_⟩ <;> decide +kernel

end Verif
