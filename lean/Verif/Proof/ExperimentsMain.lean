import Verif.Proof.Experiments

/-! Helper lemmas on the main functions of the experiment scripts: the values of the dictionary and the names of the tests. -/

namespace Verif

/-- The dictionary has all accepted keys, with their types. -/
def CfgTyped (keys : List (List Char × CfgType)) (c : Cfg) : Prop :=
  ∀ k ty, keys.lookup k = some ty → ∃ x, c.lookup k = some x ∧ x.HasType ty

theorem typed_cons {k : List Char} {ty : CfgType} {x : CfgVal} {keys : List (List Char × CfgType)} {c : Cfg} (hx : x.HasType ty)
    (h : CfgTyped keys c) : CfgTyped ((k, ty) :: keys) ((k, x) :: c) := by
  intro j ty' hj
  rw [List.lookup_cons] at hj ⊢
  by_cases e : (j == k) = true
  · rw [e] at hj ⊢
    cases hj
    exact ⟨x, rfl, hx⟩
  · rw [Bool.not_eq_true] at e
    rw [e] at hj ⊢
    exact h j ty' hj

theorem typed_nil (c : Cfg) : CfgTyped [] c := by
  intro k ty h
  cases h

theorem typed_str {keys : List (List Char × CfgType)} {c : Cfg} (h : CfgTyped keys c) {k : List Char} (hk : keys.lookup k = some .str) :
    ∃ s, c.lookup k = some (.str s) := by
  obtain ⟨x, h1, h2⟩ := h k _ hk
  cases x with
  | str s => exact ⟨s, h1⟩
  | int z => exact h2.elim
  | num z => exact h2.elim

theorem typed_int {keys : List (List Char × CfgType)} {c : Cfg} (h : CfgTyped keys c) {k : List Char} (hk : keys.lookup k = some .int) :
    ∃ z, c.lookup k = some (.int z) := by
  obtain ⟨x, h1, h2⟩ := h k _ hk
  cases x with
  | str s => exact h2.elim
  | int z => exact ⟨z, h1⟩
  | num z => exact h2.elim

theorem typed_num {keys : List (List Char × CfgType)} {c : Cfg} (h : CfgTyped keys c) {k : List Char} (hk : keys.lookup k = some .float) :
    ∃ z, c.lookup k = some (.num z) := by
  obtain ⟨x, h1, h2⟩ := h k _ hk
  cases x with
  | str s => exact h2.elim
  | int z => exact h2.elim
  | num z => exact ⟨z, h1⟩

theorem getStr_eq {c : Cfg} {k s : List Char} (h : c.lookup k = some (.str s)) : c.getStr k = .ok s := by rw [Cfg.getStr, h]
theorem getInt_eq {c : Cfg} {k : List Char} {z : ℤ} (h : c.lookup k = some (.int z)) : c.getInt k = .ok z := by rw [Cfg.getInt, h]
theorem getNum_eq {c : Cfg} {k : List Char} {x : ℝ} (h : c.lookup k = some (.num x)) : c.getNum k = .ok x := by rw [Cfg.getNum, h]

theorem exp_ok_bind {α β : Type} (a : α) (f : α → Except ExpErr β) : (Except.ok a >>= f) = f a := rfl

theorem natArg_nat (k : ℕ) : natArg (k : ℤ) = .ok k := by
  rw [natArg, if_neg (by omega)]
  rfl

theorem typed_lin : CfgTyped linKeys linDefaults := by
  unfold linKeys linDefaults
  repeat' refine typed_cons trivial ?_
  exact typed_nil _

theorem typed_fin : CfgTyped finKeys finDefaults := by
  unfold finKeys finDefaults
  repeat' refine typed_cons trivial ?_
  exact typed_nil _

theorem typed_nlin : CfgTyped nlinKeys nlinDefaults := by
  unfold nlinKeys nlinDefaults
  repeat' refine typed_cons trivial ?_
  exact typed_nil _

theorem typed_cont : CfgTyped contKeys contDefaults := by
  unfold contKeys contDefaults
  repeat' refine typed_cons trivial ?_
  exact typed_nil _

theorem typed_hjb : CfgTyped hjbKeys hjbDefaults := by
  unfold hjbKeys hjbDefaults
  repeat' refine typed_cons trivial ?_
  exact typed_nil _

theorem typed_text : CfgTyped textKeys textDefaults := by
  unfold textKeys textDefaults
  repeat' refine typed_cons trivial ?_
  exact typed_nil _

theorem typed_text2 : CfgTyped text2Keys text2Defaults := by
  unfold text2Keys text2Defaults
  repeat' refine typed_cons trivial ?_
  exact typed_nil _

theorem typed_vit : CfgTyped vitKeys vitDefaults := by
  intro k ty h
  have h' : (vitKeys.insertIdx 4 ("steps".toList, .int)).lookup k = some ty := by
    by_cases hk : k = "steps".toList
    · subst hk
      rw [show vitKeys.lookup "steps".toList = none by decide] at h
      cases h
    · have hb : (k == "steps".toList) = false := by simpa using hk
      change List.lookup k (vitKeys.take 4 ++ ("steps".toList, CfgType.int) :: vitKeys.drop 4) = _
      rw [List.lookup_append, List.lookup_cons, hb]
      rw [← List.take_append_drop 4 vitKeys, List.lookup_append] at h
      exact h
  have ht : CfgTyped (vitKeys.insertIdx 4 ("steps".toList, .int)) vitDefaults := by
    change CfgTyped [_, _, _, _, _, _, _, _] _
    unfold vitDefaults
    repeat' refine typed_cons trivial ?_
    exact typed_nil _
  exact ht k ty h'

/-! ### The tests that complete -/

theorem runTests_split (mask : ℤ) (write : List Char → List ExpRow → ExpLog) {rows : List ExpRow} {e : ExpErr} (bad : List ExpTest)
    (hb : ∀ t ∈ bad, t.run = .error e) : ∀ good : List ExpTest, (∀ t ∈ good, t.run = .ok rows) →
    runTests mask write (good ++ bad) =
      (((good.map fun t => (t.id, t.bit)).filter fun p => mask / 2 ^ p.2 % 2 = 1).flatMap (fun p => write p.1 rows),
        if ∃ t ∈ bad, mask / 2 ^ t.bit % 2 = 1 then some e else none)
  | [], _ => by
    simp only [List.nil_append, List.map_nil, List.filter_nil, List.flatMap_nil]
    induction bad with
    | nil => simp [runTests]
    | cons t ts ih =>
      by_cases ht : mask / 2 ^ t.bit % 2 = 1
      · rw [runTests, if_pos ((land_two_pow _ _).2 ht), hb t List.mem_cons_self, if_pos ⟨t, List.mem_cons_self, ht⟩]
      · rw [runTests, if_neg (fun h' => ht ((land_two_pow _ _).1 h')), ih fun s hs => hb s (List.mem_cons_of_mem _ hs)]
        simp only [List.mem_cons, exists_eq_or_imp, ht, false_or]
  | t :: ts, hg => by
    have ih := runTests_split mask write bad hb ts fun s hs => hg s (List.mem_cons_of_mem _ hs)
    rw [List.cons_append, List.map_cons]
    by_cases ht : mask / 2 ^ t.bit % 2 = 1
    · rw [runTests, if_pos ((land_two_pow _ _).2 ht), hg t List.mem_cons_self, ih, List.filter_cons_of_pos (by simpa using ht),
        List.flatMap_cons]
    · rw [runTests, if_neg (fun h' => ht ((land_two_pow _ _).1 h')), ih, List.filter_cons_of_neg (by simpa using ht)]

theorem runTests_all (mask : ℤ) (write : List Char → List ExpRow → ExpLog) {rows : List ExpRow} (good : List ExpTest)
    (hg : ∀ t ∈ good, t.run = .ok rows) : runTests mask write good =
      (((good.map fun t => (t.id, t.bit)).filter fun p => mask / 2 ^ p.2 % 2 = 1).flatMap (fun p => write p.1 rows), none) := by
  have := runTests_split mask write (e := .exit 0) [] (by simp) good hg
  simpa using this

/-! ### The linear script -/

theorem linMain_eq (fl : List Char → Py ℝ) (scan : AScan) (rnd : ℕ → ℝ) {args : List (List Char)} {c : Cfg}
    (h : parseArgs fl linKeys linDefaults args = .ok c) :
    ∃ model start stop num n nc single device mask, c.lookup "model".toList = some (.str model) ∧
      c.lookup "start".toList = some (.num start) ∧ c.lookup "stop".toList = some (.num stop) ∧
      c.lookup "num".toList = some (.int num) ∧ c.lookup "n".toList = some (.int n) ∧ c.lookup "nc".toList = some (.int nc) ∧
      c.lookup "single".toList = some (.int single) ∧ c.lookup "device".toList = some (.str device) ∧
      c.lookup "mask".toList = some (.int mask) ∧
      linMain fl scan rnd args =
        runTests mask (writeTable model (devTxt device single)) (linTests scan rnd model start stop num n nc) := by
  have ht : CfgTyped linKeys c := parseArgs_typed h typed_lin
  obtain ⟨model, e1⟩ := typed_str ht (k := "model".toList) rfl
  obtain ⟨start, e2⟩ := typed_num ht (k := "start".toList) rfl
  obtain ⟨stop, e3⟩ := typed_num ht (k := "stop".toList) rfl
  obtain ⟨num, e4⟩ := typed_int ht (k := "num".toList) rfl
  obtain ⟨n, e5⟩ := typed_int ht (k := "n".toList) rfl
  obtain ⟨nc, e6⟩ := typed_int ht (k := "nc".toList) rfl
  obtain ⟨single, e7⟩ := typed_int ht (k := "single".toList) rfl
  obtain ⟨device, e8⟩ := typed_str ht (k := "device".toList) rfl
  obtain ⟨mask, e9⟩ := typed_int ht (k := "mask".toList) rfl
  refine ⟨model, start, stop, num, n, nc, single, device, mask, e1, e2, e3, e4, e5, e6, e7, e8, e9, ?_⟩
  simp only [linMain, h, exp_ok_bind, getStr_eq e1, getNum_eq e2, getNum_eq e3, getInt_eq e4, getInt_eq e5, getInt_eq e6,
    getInt_eq e7, getStr_eq e8, getInt_eq e9]
  rfl

theorem finMain_eq (fl : List Char → Py ℝ) (scan : AScan) (am : AArgmin ℝ) (rnd : ℕ → ℕ → ℕ → ℝ) {args : List (List Char)} {c : Cfg}
    (h : parseArgs fl finKeys finDefaults args = .ok c) :
    ∃ start stop num nx single device mask, c.lookup "start".toList = some (.num start) ∧
      c.lookup "stop".toList = some (.num stop) ∧ c.lookup "num".toList = some (.int num) ∧ c.lookup "nx".toList = some (.int nx) ∧
      c.lookup "single".toList = some (.int single) ∧ c.lookup "device".toList = some (.str device) ∧
      c.lookup "mask".toList = some (.int mask) ∧
      finMain fl scan am rnd args =
        runTests mask (writeTable "finite".toList (devTxt device single)) (finTests scan am rnd start stop num nx) := by
  have ht : CfgTyped finKeys c := parseArgs_typed h typed_fin
  obtain ⟨start, e2⟩ := typed_num ht (k := "start".toList) rfl
  obtain ⟨stop, e3⟩ := typed_num ht (k := "stop".toList) rfl
  obtain ⟨num, e4⟩ := typed_int ht (k := "num".toList) rfl
  obtain ⟨nx, e5⟩ := typed_int ht (k := "nx".toList) rfl
  obtain ⟨single, e7⟩ := typed_int ht (k := "single".toList) rfl
  obtain ⟨device, e8⟩ := typed_str ht (k := "device".toList) rfl
  obtain ⟨mask, e9⟩ := typed_int ht (k := "mask".toList) rfl
  refine ⟨start, stop, num, nx, single, device, mask, e2, e3, e4, e5, e7, e8, e9, ?_⟩
  simp only [finMain, h, exp_ok_bind, getNum_eq e2, getNum_eq e3, getInt_eq e4, getInt_eq e5, getInt_eq e7, getStr_eq e8, getInt_eq e9]
  rfl

theorem nlinMain_eq (fl : List Char → Py ℝ) (scan : AScan) {args : List (List Char)} {c : Cfg}
    (h : parseArgs fl nlinKeys nlinDefaults args = .ok c) :
    ∃ start stop num single device mask, c.lookup "start".toList = some (.num start) ∧
      c.lookup "stop".toList = some (.num stop) ∧ c.lookup "num".toList = some (.int num) ∧
      c.lookup "single".toList = some (.int single) ∧ c.lookup "device".toList = some (.str device) ∧
      c.lookup "mask".toList = some (.int mask) ∧
      nlinMain fl scan args =
        runTests mask (writeTable "nonlinear".toList (devTxt device single)) (nlinTests scan start stop num) := by
  have ht : CfgTyped nlinKeys c := parseArgs_typed h typed_nlin
  obtain ⟨start, e2⟩ := typed_num ht (k := "start".toList) rfl
  obtain ⟨stop, e3⟩ := typed_num ht (k := "stop".toList) rfl
  obtain ⟨num, e4⟩ := typed_int ht (k := "num".toList) rfl
  obtain ⟨single, e7⟩ := typed_int ht (k := "single".toList) rfl
  obtain ⟨device, e8⟩ := typed_str ht (k := "device".toList) rfl
  obtain ⟨mask, e9⟩ := typed_int ht (k := "mask".toList) rfl
  refine ⟨start, stop, num, single, device, mask, e2, e3, e4, e7, e8, e9, ?_⟩
  simp only [nlinMain, h, exp_ok_bind, getNum_eq e2, getNum_eq e3, getInt_eq e4, getInt_eq e7, getStr_eq e8, getInt_eq e9]
  rfl

/-! ### Distinct names -/

/-- The names of the tests of the linear script after the dimension. -/
def linTail (i : ℕ) (nc : ℤ) : List Char :=
  match i with
  | 0 => ['s', 'e', 'q', 'u', 'e', 'n', 't', 'i', 'a', 'l', '_', 'b', 'w']
  | 1 => ['p', 'a', 'r', 'a', 'l', 'l', 'e', 'l', '_', 'b', 'w']
  | 2 => ['s', 'e', 'q', 'u', 'e', 'n', 't', 'i', 'a', 'l', '_', 'b', 'w', 'f', 'w']
  | 3 => ['p', 'a', 'r', 'a', 'l', 'l', 'e', 'l', '_', 'b', 'w', 'f', 'w', '_', '1']
  | 4 => ['p', 'a', 'r', 'a', 'l', 'l', 'e', 'l', '_', 'b', 'w', 'f', 'w', '_', '2']
  | 5 => ['s', 'e', 'q', 'u', 'e', 'n', 't', 'i', 'a', 'l', '_', 'c', 'o', 'n', 'd'] ++ (fmtD nc ++ '_' :: ['b', 'w', 'f', 'w'])
  | 6 => ['p', 'a', 'r', 'a', 'l', 'l', 'e', 'l', '_', 'c', 'o', 'n', 'd'] ++ (fmtD nc ++ '_' :: ['b', 'w', 'f', 'w', '_', '1'])
  | _ => ['p', 'a', 'r', 'a', 'l', 'l', 'e', 'l', '_', 'c', 'o', 'n', 'd'] ++ (fmtD nc ++ '_' :: ['b', 'w', 'f', 'w', '_', '2'])

theorem linTests_id {scan : AScan} {rnd : ℕ → ℝ} {model : List Char} {start stop : ℝ} {num n nc : ℤ} {i : ℕ} {t : ExpTest}
    (h : (linTests scan rnd model start stop num n nc)[i]? = some t) : i < 8 ∧ t.bit = i ∧ t.id = fmtD n ++ '_' :: linTail i nc := by
  have hi : i < 8 := by
    by_contra hi
    rw [List.getElem?_eq_none (by change 8 ≤ i; omega)] at h
    cases h
  refine ⟨hi, ?_⟩
  interval_cases i <;> cases h <;> refine ⟨rfl, ?_⟩ <;> simp only [linTail, String.reduceToList, List.append_assoc, List.cons_append,
    List.nil_append]

theorem linTail_inj {i j : ℕ} (hi : i < 8) (hj : j < 8) {nc nc' : ℤ} (h : linTail i nc = linTail j nc') :
    i = j ∧ (5 ≤ i → nc = nc') := by
  have key : ∀ {u v : List Char}, fmtD nc ++ '_' :: u = fmtD nc' ++ '_' :: v → nc = nc' ∧ u = v := by
    intro u v h
    obtain ⟨h1, h2⟩ := append_sep_inj (fmtD_chars nc).1 (fmtD_chars nc').1 h
    exact ⟨fmtD_inj h1, h2⟩
  interval_cases i <;> interval_cases j <;> first
    | exact ⟨rfl, fun h => by omega⟩
    | exact ⟨rfl, fun _ => (key (List.append_cancel_left h)).1⟩
    | (exfalso; simp [linTail] at h; done)
    | (exfalso; exact absurd (key (List.append_cancel_left h)).2 (by decide))

/-- The names of the tests of the continuous-time linear script after the dimension. -/
def contTail (i : ℕ) (niter : ℤ) : List Char :=
  match i with
  | 0 => ['s', 'e', 'q', '_', 'b', 'w']
  | 1 => ['s', 'e', 'q', '_', 'b', 'w', '_', 'f', 'w']
  | 2 => ['p', 'a', 'r', '_', 'b', 'w']
  | 3 => ['p', 'a', 'r', '_', 'b', 'w', '_', 'f', 'w']
  | 4 => ['p', 'a', 'r', '_', 'b', 'w', '_', 'f', 'w', 'b', 'w']
  | 5 => ['p', 'a', 'r', 'a', 'r', 'e', 'a', 'l', '_'] ++ (fmtD niter ++ '_' :: ['b', 'w'])
  | 6 => ['p', 'a', 'r', 'a', 'r', 'e', 'a', 'l', '_'] ++ (fmtD niter ++ '_' :: ['b', 'w', '_', 'f', 'w'])
  | _ => ['p', 'a', 'r', 'a', 'r', 'e', 'a', 'l', '_'] ++ (fmtD niter ++ '_' :: ['b', 'w', '_', 'f', 'w', 'b', 'w'])

theorem contTests_id {scan : AScan} {P : CLQT 4 2 ℝ × (Fin 4 → ℝ)} {Bs : List ℕ} {steps k : ℕ} {n niter : ℤ} {i : ℕ} {t : ExpTest}
    (h : (contTests scan P Bs steps k n niter)[i]? = some t) : i < 8 ∧ t.bit = i ∧ t.id = fmtD n ++ '_' :: contTail i niter := by
  have hi : i < 8 := by
    by_contra hi
    rw [List.getElem?_eq_none (by change 8 ≤ i; omega)] at h
    cases h
  refine ⟨hi, ?_⟩
  interval_cases i <;> cases h <;> refine ⟨rfl, ?_⟩ <;> simp only [contTail, String.reduceToList, List.append_assoc, List.cons_append,
    List.nil_append]

theorem contTail_inj {i j : ℕ} (hi : i < 8) (hj : j < 8) {nc nc' : ℤ} (h : contTail i nc = contTail j nc') :
    i = j ∧ (5 ≤ i → nc = nc') := by
  have key : ∀ {u v : List Char}, fmtD nc ++ '_' :: u = fmtD nc' ++ '_' :: v → nc = nc' ∧ u = v := by
    intro u v h
    obtain ⟨h1, h2⟩ := append_sep_inj (fmtD_chars nc).1 (fmtD_chars nc').1 h
    exact ⟨fmtD_inj h1, h2⟩
  interval_cases i <;> interval_cases j <;> first
    | exact ⟨rfl, fun h => by omega⟩
    | exact ⟨rfl, fun _ => (key (List.append_cancel_left h)).1⟩
    | (exfalso; simp [contTail] at h; done)
    | (exfalso; exact absurd (key (List.append_cancel_left h)).2 (by decide))

end Verif
