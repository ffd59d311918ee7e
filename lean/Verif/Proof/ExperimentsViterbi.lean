import Verif.Proof.ExperimentsHJB
import Verif.Props.SpeedTest
import Verif.Props.TFLevels
import Verif.Props.TextModel

/-! Helper lemmas for C91. -/

namespace Verif

open Finset

/-! ### Viterbi script -/

theorem geModel_pos : (geModel : HMM 4 2 ℝ).All (fun p => 0 < p) ∧ (geModel : HMM 4 2 ℝ).Stochastic := by
  obtain ⟨g1, g2, g3, -⟩ := C49_gilbert_elliot (3 / 100 : ℝ) (1 / 10) (5 / 100) (1 / 10) (3 / 10) (by norm_num) (by norm_num) (by norm_num)
    (by norm_num) (by norm_num)
  exact ⟨⟨g3.1, fun i => (g1 i).1, fun i => (g2 i).1⟩,
    ⟨⟨fun x => (g3.1 x).le, g3.2⟩, fun x => ⟨fun y => ((g1 x).1 y).le, (g1 x).2⟩, fun x => ⟨fun y => ((g2 x).1 y).le, (g2 x).2⟩⟩⟩

theorem exists_bound {ι : Type} [Fintype ι] (f : ι → ℝ) : ∃ B, ∀ i, |f i| ≤ B :=
  ⟨∑ i, |f i|, fun i => Finset.single_le_sum (f := fun i => |f i|) (fun j _ => abs_nonneg (f j)) (Finset.mem_univ i)⟩

theorem geSpeed {scanV : ((Fin 4 → Fin 4 → ℝ) → (Fin 4 → Fin 4 → ℝ) → Py (Fin 4 → Fin 4 → ℝ)) → List (Fin 4 → Fin 4 → ℝ) →
      Py (List (Fin 4 → Fin 4 → ℝ))}
    {scanF : ((Fin 4 → Fin 4) → (Fin 4 → Fin 4) → Py (Fin 4 → Fin 4)) → List (Fin 4 → Fin 4) → Py (List (Fin 4 → Fin 4))}
    {am : (Fin 4 → ℝ) → Fin 4} (hV : IsAssocScan scanV) (hF : IsAssocScan scanF) (ham : IsArgmin am) (rnd : ℕ → ℝ)
    (hr : ∀ i, 0 ≤ rnd i ∧ rnd i < 1) (steps : ℕ) (h2 : 2 ≤ steps) :
    speedSeqFwBw am (fun p : ℝ => -Real.log p) rnd geModel steps 10 = .ok 0 ∧
    speedParFwBw scanV scanF am (fun p : ℝ => -Real.log p) rnd geModel steps 10 = .ok 0 ∧
    speedSeqParFwBw scanF am (fun p : ℝ => -Real.log p) rnd geModel steps 10 = .ok 0 ∧
    speedParFwBwFw scanV am (fun p : ℝ => -Real.log p) rnd geModel steps 10 = .ok 0 := by
  obtain ⟨B1, h1⟩ := exists_bound fun x => -Real.log ((geModel : HMM 4 2 ℝ).prior x)
  obtain ⟨B2, h2'⟩ := exists_bound fun x : Fin 4 × Fin 4 => -Real.log ((geModel : HMM 4 2 ℝ).Pi x.1 x.2)
  obtain ⟨B3, h3⟩ := exists_bound fun x : Fin 4 × Fin 2 => -Real.log ((geModel : HMM 4 2 ℝ).Po x.1 x.2)
  set B := max B1 (max B2 B3)
  obtain ⟨-, -, -, h⟩ := C78_err C14_real_log_pos hV hF ham geModel geModel_pos.1 geModel_pos.2 ((2 * steps + 2) • (B + B) + 1) B
    (fun x => (h1 x).trans (le_max_left _ _)) (fun i j => (h2' (i, j)).trans ((le_max_left _ _).trans (le_max_right _ _)))
    (fun i j => (h3 (i, j)).trans ((le_max_right _ _).trans (le_max_right _ _))) rnd hr steps 10 h2 (by norm_num) (by linarith)
  exact h

theorem geSpeed_zero {am : (Fin 4 → ℝ) → Fin 4} (rnd : ℕ → ℝ) (hr : ∀ i, 0 ≤ rnd i ∧ rnd i < 1) :
    speedSeqFwBw am (fun p : ℝ => -Real.log p) rnd geModel 0 10 = .error .indexError := by
  obtain ⟨x0, xs, ys, -, hd, -, hl, -⟩ := (C78_data (geModel : HMM 4 2 ℝ) geModel_pos.2 0).1 rnd hr
  rw [List.length_eq_zero_iff] at hl
  subst hl
  unfold speedSeqFwBw
  rw [hd]
  change speedtest 10 (HMM.tfSeqFwBw am (fun p : ℝ => -Real.log p) geModel []) (HMM.seqViterbi (fun p : ℝ => -Real.log p) geModel []) = _
  rw [(C15_empty geModel).1, C17_run_empty]
  rfl

theorem vitTest_ok {Ss : List ℕ} {test : ℕ → Py ℝ} (h : ∀ S ∈ Ss, test S = .ok 0) :
    vitTest Ss test = .ok (Ss.map fun S : ℕ => ⟨[(S : ℤ)], [0]⟩) := by
  induction Ss with
  | nil => rfl
  | cons S Ss ih =>
    unfold vitTest at ih ⊢
    rw [List.mapM_cons, ih fun b hb => h b (List.mem_cons_of_mem _ hb), h S List.mem_cons_self]
    rfl

theorem vitTest_error {S : ℕ} {Ss : List ℕ} {test : ℕ → Py ℝ} {e : PyErr} (h : test S = .error e) :
    vitTest (S :: Ss) test = .error (.py e) := by
  unfold vitTest
  rw [List.mapM_cons, h]
  rfl

theorem vitMain_eq (fl : List Char → Py ℝ) (scan : AScan) (am : (Fin 4 → ℝ) → Fin 4) (rnd : ℕ → ℝ) {args : List (List Char)} {c : Cfg}
    (h : parseArgs fl vitKeys vitDefaults args = .ok c) :
    ∃ model start stop num single device mask, c.lookup "model".toList = some (.str model) ∧
      c.lookup "start".toList = some (.num start) ∧ c.lookup "stop".toList = some (.num stop) ∧
      c.lookup "num".toList = some (.int num) ∧
      c.lookup "single".toList = some (.int single) ∧ c.lookup "device".toList = some (.str device) ∧
      c.lookup "mask".toList = some (.int mask) ∧
      ∀ k : ℕ, num = k → vitMain fl scan am rnd args =
        runTests mask (writeTableCfg model (devTxt device single) c) (vitTests scan am rnd (logspaceInt start stop k)) := by
  have ht : CfgTyped vitKeys c := parseArgs_typed h typed_vit
  obtain ⟨model, e1⟩ := typed_str ht (k := "model".toList) rfl
  obtain ⟨start, e2⟩ := typed_num ht (k := "start".toList) rfl
  obtain ⟨stop, e3⟩ := typed_num ht (k := "stop".toList) rfl
  obtain ⟨num, e4⟩ := typed_int ht (k := "num".toList) rfl
  obtain ⟨single, e7⟩ := typed_int ht (k := "single".toList) rfl
  obtain ⟨device, e8⟩ := typed_str ht (k := "device".toList) rfl
  obtain ⟨mask, e9⟩ := typed_int ht (k := "mask".toList) rfl
  refine ⟨model, start, stop, num, single, device, mask, e1, e2, e3, e4, e7, e8, e9, ?_⟩
  rintro k rfl
  simp only [vitMain, h, exp_ok_bind, getStr_eq e1, getNum_eq e2, getNum_eq e3, getInt_eq e4,
    getInt_eq e7, getStr_eq e8, getInt_eq e9, natArg_nat]
  rfl

/-! ### Text scripts -/

theorem runMethods_ok (mask : ℤ) (err : ℤ → ℝ) : ∀ (ms : List (ℕ × ℤ × Except ExpErr ℝ)) (acc : List (ℤ × ℝ)),
    (∀ m ∈ ms, mask / 2 ^ m.1 % 2 = 1 → m.2.2 = .ok (err m.2.1)) →
    ms.foldlM (fun acc m =>
      if Int.land mask (2 ^ m.1) ≠ 0 then do
        let err ← m.2.2
        return acc ++ [(m.2.1, err)]
      else return acc) acc =
    (.ok (acc ++ (ms.filter fun m => mask / 2 ^ m.1 % 2 = 1).map fun m => (m.2.1, err m.2.1)) : Except ExpErr _)
  | [], acc, _ => by simp; rfl
  | m :: ms, acc, h => by
    rw [List.foldlM_cons]
    by_cases hm : mask / 2 ^ m.1 % 2 = 1
    · rw [if_pos ((land_two_pow _ _).2 hm), h m List.mem_cons_self hm, List.filter_cons_of_pos (by simpa using hm), List.map_cons]
      refine (runMethods_ok mask err ms (acc ++ [(m.2.1, err m.2.1)]) fun x hx => h x (List.mem_cons_of_mem _ hx)).trans ?_
      rw [List.append_assoc, List.singleton_append]
    · rw [if_neg (fun h' => hm ((land_two_pow _ _).1 h')), List.filter_cons_of_neg (by simpa using hm)]
      exact runMethods_ok mask err ms acc fun x hx => h x (List.mem_cons_of_mem _ hx)

theorem runMethods_error (mask : ℤ) (e : ExpErr) : ∀ (ms : List (ℕ × ℤ × Except ExpErr ℝ)) (acc : List (ℤ × ℝ)),
    (∀ m ∈ ms, mask / 2 ^ m.1 % 2 = 1 → m.2.2 = .error e ∨ ∃ v, m.2.2 = .ok v) →
    (∃ m ∈ ms, mask / 2 ^ m.1 % 2 = 1 ∧ m.2.2 = .error e) →
    ms.foldlM (fun acc m =>
      if Int.land mask (2 ^ m.1) ≠ 0 then do
        let err ← m.2.2
        return acc ++ [(m.2.1, err)]
      else return acc) acc = (.error e : Except ExpErr _)
  | [], acc, _, h => by simp at h
  | m :: ms, acc, h, h' => by
    rw [List.foldlM_cons]
    by_cases hm : mask / 2 ^ m.1 % 2 = 1
    · rw [if_pos ((land_two_pow _ _).2 hm)]
      rcases h m List.mem_cons_self hm with he | ⟨v, hv⟩
      · rw [he]
        rfl
      · rw [hv]
        refine runMethods_error mask e ms (acc ++ [(m.2.1, v)]) (fun x hx => h x (List.mem_cons_of_mem _ hx)) ?_
        obtain ⟨x, hx, hx1, hx2⟩ := h'
        rcases List.mem_cons.1 hx with rfl | hx
        · rw [hv] at hx2
          cases hx2
        · exact ⟨x, hx, hx1, hx2⟩
    · rw [if_neg (fun h' => hm ((land_two_pow _ _).1 h'))]
      refine runMethods_error mask e ms acc (fun x hx => h x (List.mem_cons_of_mem _ hx)) ?_
      obtain ⟨x, hx, hx1, hx2⟩ := h'
      rcases List.mem_cons.1 hx with rfl | hx
      · exact absurd hx1 hm
      · exact ⟨x, hx, hx1, hx2⟩

theorem textError_ok {α : Type} [DecidableEq α] {t1 t2 : List α} (h1 : t1 ≠ []) (hl : t1.length ≤ t2.length) :
    textError t1 t2 = .ok ((((range t1.length).filter fun k => t1[k]? ≠ t2[k]?).card : ℝ) / t1.length) := by
  obtain ⟨s, hs, hP⟩ := loop_range_inv (n := t1.length) (fun (err : ℝ) i => do
      let a ← pyGet t1 i
      let b ← pyGet t2 i
      return if a ≠ b then err + 1 else err) 0
    (fun k e => k ≤ t1.length ∧ e = (((range k).filter fun k => t1[k]? ≠ t2[k]?).card : ℝ)) ⟨by omega, by simp⟩ (by
      rintro i hi s ⟨-, rfl⟩
      refine ⟨_, bind_ok.2 ⟨t1[i], pyGet_lt hi, bind_ok.2 ⟨t2[i], pyGet_lt (by omega), rfl⟩⟩, by omega, ?_⟩
      rw [range_add_one, filter_insert]
      have e1 : t1[i]? = some t1[i] := List.getElem?_eq_getElem hi
      have e2 : t2[i]? = some t2[i] := List.getElem?_eq_getElem (by omega)
      by_cases hx : t1[i] = t2[i]
      · rw [if_neg (by simpa using hx), if_neg (by rw [e1, e2, hx]; simp)]
      · rw [if_pos hx, if_pos (by rw [e1, e2]; simpa using hx), card_insert_of_notMem (by simp)]
        push_cast
        rfl)
  unfold textError
  refine bind_ok.2 ⟨s, hs, ?_⟩
  have : t1.length ≠ 0 := by simpa using h1
  rw [if_neg this, hP.2]
  rfl

theorem textError_short {α : Type} [DecidableEq α] {t1 t2 : List α} (hl : t2.length < t1.length) : textError t1 t2 = .error .indexError := by
  have key := loop_range'_err (a := 0) (n := t1.length) (k := t2.length) (fun (err : ℝ) i => do
      let a ← pyGet t1 i
      let b ← pyGet t2 i
      return if a ≠ b then err + 1 else err) 0 (fun _ _ => True) .indexError hl trivial (by
      intro i hi s _
      rw [Nat.zero_add]
      exact ⟨_, bind_ok.2 ⟨t1[i]'(by omega), pyGet_lt (by omega), bind_ok.2 ⟨t2[i], pyGet_lt hi, rfl⟩⟩, trivial⟩) (by
      intro s _
      rw [Nat.zero_add, pyGet_lt hl]
      have : pyGet t2 t2.length = .error .indexError := by simp [pyGet]
      change (do
        let b ← pyGet t2 t2.length
        return if _ ≠ b then s + 1 else s : Py ℝ) = _
      rw [this]
      rfl)
  unfold textError
  rw [List.range_eq_range', key]
  rfl

theorem tfObs_ok {q : ℕ} : ∀ ys : List ℕ, (∀ y ∈ ys, y < q) →
    ∃ zs : List (Fin q), tfObs q ys = .ok zs ∧ ys = zs.map fun z : Fin q => (z : ℕ)
  | [], _ => ⟨[], rfl, rfl⟩
  | y :: ys, h => by
    obtain ⟨zs, h1, h2⟩ := tfObs_ok ys fun x hx => h x (List.mem_cons_of_mem _ hx)
    refine ⟨⟨y, h y List.mem_cons_self⟩ :: zs, ?_, by rw [List.map_cons, ← h2]⟩
    unfold tfObs at h1 ⊢
    rw [List.mapM_cons, h1, dif_pos (h y List.mem_cons_self)]
    rfl

theorem textMethod_ok {n : ℕ} {M : TextModel Char ℝ} {text2 : List Char} {p : List (Fin n)} {Vs : List (Fin n → ℝ)} {t : List Char}
    (ht : M.indexToText (p.tail.map fun z : Fin n => (z : ℕ)) = .ok t) {e : ℝ} (he : textError text2 t = .ok e) :
    textMethod M text2 (.ok (p, Vs)) = .ok e := by
  change ofPy (M.indexToText (p.tail.map fun z : Fin n => (z : ℕ))) >>= _ = _
  rw [ht]
  change ofPy (textError text2 t) = _
  rw [he]
  rfl

theorem textMethod_error {n : ℕ} {M : TextModel Char ℝ} {text2 : List Char} {e : PyErr} :
    textMethod (n := n) M text2 (.error e) = .error (.py e) := rfl

theorem noisy_error {α : Type} [DecidableEq α] (chars : List α) (errp : ℝ) (h0 : 0 < errp) (h1 : errp ≤ 1) (order : ℕ) (text : List α)
    (ht : ∃ c ∈ text, c ∉ chars) (hc : chars ≠ []) (choice : ℕ → FArr1 ℝ → Py ℕ)
    (hch : ∀ k p, p.IsPositiveDistribution → ∃ i < p.len, choice k p = .ok i) :
    ∃ M, TextModel.init chars errp order = .ok M ∧ M.makeNoisyText choice text = .error .keyError := by
  obtain ⟨M, hM, hPo, -⟩ := C49_text_Po chars hc errp h0 h1 order
  rw [TextModel.init_eq] at hM
  cases hM
  set M : TextModel α ℝ := ⟨chars, errp, dictOf chars, order, dictOf ((List.range (chars.length ^ order)).map (strAt chars order)),
    (List.range (chars.length ^ order)).map (strAt chars order)⟩ with hM
  refine ⟨M, TextModel.init_eq chars errp order, ?_⟩
  classical
  have hex : ∃ k, ∃ h : k < text.length, text[k] ∉ chars := by
    obtain ⟨c, hc, hn⟩ := ht
    obtain ⟨k, hk, rfl⟩ := List.getElem_of_mem hc
    exact ⟨k, hk, hn⟩
  obtain ⟨hk, hbad⟩ := Nat.find_spec hex
  have hmin := fun m (hm : m < Nat.find hex) => Nat.find_min hex hm
  set k := Nat.find hex
  have key := loop_range'_err (a := 0) (n := text.length) (k := k) (fun t i => do
    let c ← pyGet text i
    let j ← dictGet M.charDict c
    let k ← choice i ⟨M.firstPo.cols, M.firstPo.get j⟩
    let d ← pyGet M.chars k
    return t ++ [d]) [] (fun _ _ => True) .keyError hk trivial (by
      intro i hi s _
      have hi' : i < text.length := by omega
      have hin : text[i] ∈ chars := by
        by_contra h
        exact hmin i hi ⟨hi', h⟩
      rw [Nat.zero_add]
      obtain ⟨j, hj, hjl, -⟩ := dictGet_dictOf hin
      obtain ⟨x, hx, hcx⟩ := hch i ⟨M.firstPo.cols, M.firstPo.get j⟩ (hPo j hjl)
      have hx' : x < M.chars.length := hx
      exact ⟨s ++ [M.chars[x]], bind_ok.2 ⟨_, pyGet_lt hi', bind_ok.2 ⟨_, hj, bind_ok.2 ⟨_, hcx, bind_ok.2 ⟨_, pyGet_lt hx', rfl⟩⟩⟩⟩,
        trivial⟩) (by
      intro s _
      rw [Nat.zero_add, pyGet_lt hk]
      change (do
        let j ← dictGet M.charDict text[k]
        let k ← choice k ⟨M.firstPo.cols, M.firstPo.get j⟩
        let d ← pyGet M.chars k
        return s ++ [d] : Py _) = _
      rw [show dictGet M.charDict text[k] = .error .keyError from dictGet_dictOf_err hbad]
      rfl)
  unfold TextModel.makeNoisyText
  rw [List.range_eq_range']
  exact key

theorem textMain_eq (fl : List Char → Py ℝ) (scan : AScan) (am : AArgmin ℝ) (choice : ℕ → FArr1 ℝ → Py ℕ) (text1 text2 : List Char)
    {args : List (List Char)} {c : Cfg} (h : parseArgs fl textKeys textDefaults args = .ok c) :
    ∃ order single device mask, c.lookup "order".toList = some (.int order) ∧
      c.lookup "single".toList = some (.int single) ∧ c.lookup "device".toList = some (.str device) ∧
      c.lookup "mask".toList = some (.int mask) ∧
      ∀ k : ℕ, order = k →
        (∀ rs, textRun scan am choice text1 text2 k mask = .ok rs → textMain fl scan am choice text1 text2 args =
          ([(expName "text".toList (fmtD k) (devTxt device single), .table (rs.map fun r => ⟨[r.1, (k : ℤ)], [(r.2 : WithBot ℝ)]⟩)),
            (expCfgName "text".toList (fmtD k) (devTxt device single), .config c)], none)) ∧
        ∀ e, textRun scan am choice text1 text2 k mask = .error e → textMain fl scan am choice text1 text2 args = ([], some e) := by
  have ht : CfgTyped textKeys c := parseArgs_typed h typed_text
  obtain ⟨order, e1⟩ := typed_int ht (k := "order".toList) rfl
  obtain ⟨single, e7⟩ := typed_int ht (k := "single".toList) rfl
  obtain ⟨device, e8⟩ := typed_str ht (k := "device".toList) rfl
  obtain ⟨mask, e9⟩ := typed_int ht (k := "mask".toList) rfl
  refine ⟨order, single, device, mask, e1, e7, e8, e9, ?_⟩
  rintro k rfl
  constructor <;> intro r hr <;>
    simp only [textMain, h, exp_ok_bind, getInt_eq e1, getInt_eq e7, getStr_eq e8, getInt_eq e9, natArg_nat, hr] <;> rfl

theorem text2Main_eq (fl : List Char → Py ℝ) (scan : AScan) (am : AArgmin ℝ) (choice : ℕ → FArr1 ℝ → Py ℕ) (text1 text2 : List Char)
    {args : List (List Char)} {c : Cfg} (h : parseArgs fl text2Keys text2Defaults args = .ok c) :
    ∃ order single steps device mask, c.lookup "order".toList = some (.int order) ∧
      c.lookup "single".toList = some (.int single) ∧ c.lookup "steps".toList = some (.int steps) ∧
      c.lookup "device".toList = some (.str device) ∧
      c.lookup "mask".toList = some (.int mask) ∧
      ∀ k N : ℕ, order = k → (N : ℤ) = (if steps > text2.length ∨ steps < 0 then (text2.length : ℤ) else steps) →
        (∀ rs, textRun scan am choice text1 (text2.take N) k mask = .ok rs → text2Main fl scan am choice text1 text2 args =
          ([(expName "text_steps".toList (fmtD k ++ ['_'] ++ fmtD N) (devTxt device single),
              .table (rs.map fun r => ⟨[r.1, (k : ℤ), (N : ℤ)], [(r.2 : WithBot ℝ)]⟩)),
            (expCfgName "text_steps".toList (fmtD k) (devTxt device single), .config c)], none)) ∧
        ∀ e, textRun scan am choice text1 (text2.take N) k mask = .error e → text2Main fl scan am choice text1 text2 args = ([], some e) := by
  have ht : CfgTyped text2Keys c := parseArgs_typed h typed_text2
  obtain ⟨order, e1⟩ := typed_int ht (k := "order".toList) rfl
  obtain ⟨single, e7⟩ := typed_int ht (k := "single".toList) rfl
  obtain ⟨steps, e2⟩ := typed_int ht (k := "steps".toList) rfl
  obtain ⟨device, e8⟩ := typed_str ht (k := "device".toList) rfl
  obtain ⟨mask, e9⟩ := typed_int ht (k := "mask".toList) rfl
  refine ⟨order, single, steps, device, mask, e1, e7, e2, e8, e9, ?_⟩
  rintro k N rfl hN
  constructor <;> intro r hr <;>
    simp only [text2Main, h, exp_ok_bind, getInt_eq e1, getInt_eq e7, getInt_eq e2, getStr_eq e8, getInt_eq e9, natArg_nat, ← hN,
      Int.toNat_natCast, hr] <;> rfl

theorem methods_filter {β : Type} (P : ℕ → Bool) (f : ℤ → ℝ) (r0 r1 r2 r3 : β) :
    (([(0, 1, r0), (1, 2, r1), (2, 3, r2), (3, 4, r3)] : List (ℕ × ℤ × β)).filter fun m => P m.1).map (fun m => (m.2.1, f m.2.1)) =
      ([f 1, f 2, f 3, f 4].zipIdx.filter fun r => P r.2).map fun r => (((r.2 + 1 : ℕ) : ℤ), r.1) := by
  simp only [List.zipIdx_cons, List.zipIdx_nil, List.filter_cons, List.filter_nil]
  rcases P 0 <;> rcases h1 : P 1 <;> rcases h2 : P 2 <;> rcases h3 : P 3 <;> simp [h1, h2, h3]

theorem methods_filter_one (P : ℕ → Bool) (e0 e1 e2 e3 : ℝ) (h1 : P 1 = false) (h2 : P 2 = false) (h3 : P 3 = false) :
    ([e0, e1, e2, e3].zipIdx.filter fun r => P r.2).map (fun r => (((r.2 + 1 : ℕ) : ℤ), r.1)) =
      ([e0].zipIdx.filter fun r => P r.2).map fun r => (((r.2 + 1 : ℕ) : ℤ), r.1) := by
  simp only [List.zipIdx_cons, List.zipIdx_nil, List.filter_cons, List.filter_nil]
  rcases P 0 <;> simp [h1, h2, h3]

end Verif
