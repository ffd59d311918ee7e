import Verif.Proof.ExperimentsViterbi

/-! C91: the results of the experiment scripts in `/repo/experiments-viterbi`. -/

namespace Verif

open Finset

/-- C91 (Gilbert-Elliot script): for all random numbers, masks, devices and values of `model`, which only enters the file names: with at least
two steps everywhere, every selected test completes and reports zero errors; if the first number of steps is one, `ValueError` ends the script
after the file of the sequential test iff a parallel test is selected; if it is zero, no file is written and the script fails iff any of
the four tests is selected. -/
theorem C91_viterbi (fl : List Char → Py ℝ) (scan : AScan) (hsc : ∀ α, IsAssocScan (scan α)) (am : (Fin 4 → ℝ) → Fin 4) (ham : IsArgmin am)
    (rnd : ℕ → ℝ) (hr : ∀ i, 0 ≤ rnd i ∧ rnd i < 1) (args : List (List Char)) (c : Cfg)
    (hc : parseArgs fl vitKeys vitDefaults args = .ok c) (start stop : ℝ) (num : ℕ) (single mask : ℤ) (model device : List Char)
    (h0 : c.lookup "model".toList = some (.str model)) (h1 : c.lookup "start".toList = some (.num start))
    (h2 : c.lookup "stop".toList = some (.num stop)) (h3 : c.lookup "num".toList = some (.int num))
    (h7 : c.lookup "single".toList = some (.int single)) (h8 : c.lookup "device".toList = some (.str device))
    (h9 : c.lookup "mask".toList = some (.int mask)) (hss : start ≤ stop) :
    let Ss := logspaceInt start stop num
    let ids := ["viterbi_seq_fwbw".toList, "viterbi_par_fwbw".toList, "viterbi_seqpar_fwbw".toList, "viterbi_par_fwbwfw".toList]
    let dev := devTxt device single
    let files (k : ℕ) : ExpLog := ((ids.take k).zipIdx.filter fun p => mask / 2 ^ p.2 % 2 = 1).flatMap fun p =>
      [(expName model p.1 dev, .table (Ss.map fun S : ℕ => ⟨[(S : ℤ)], [0]⟩)), (expCfgName model p.1 dev, .config c)]
    ((2 : ℝ) ≤ 10 ^ start → vitMain fl scan am rnd args = (files 4, none)) ∧
    ((10 : ℝ) ^ start < 2 → 0 ≤ start → 0 < num →
      vitMain fl scan am rnd args = (files 1, if mask / 2 % 8 = 0 then none else some (.py .valueError))) ∧
    (start < 0 → 0 < num → vitMain fl scan am rnd args =
      ([], if mask % 2 = 1 then some (.py .indexError) else if mask / 2 % 8 = 0 then none else some (.py .valueError))) := by
  intro Ss ids dev files
  obtain ⟨model', start', stop', num', single', device', mask', e0, e1, e2, e3, e7, e8, e9, hmain⟩ := vitMain_eq fl scan am rnd hc
  rw [h0] at e0; rw [h1] at e1; rw [h2] at e2; rw [h3] at e3; rw [h7] at e7; rw [h8] at e8; rw [h9] at e9
  cases e0; cases e1; cases e2; cases e3; cases e7; cases e8; cases e9
  rw [hmain num rfl]
  set nl : ℝ → ℝ := fun p : ℝ => -Real.log p
  set t0 : ExpTest := ⟨0, "viterbi_seq_fwbw".toList, vitTest Ss fun steps => speedSeqFwBw am nl rnd geModel steps 10⟩ with ht0
  set t1 : ExpTest := ⟨1, "viterbi_par_fwbw".toList, vitTest Ss fun steps => speedParFwBw (scan _) (scan _) am nl rnd geModel steps 10⟩ with ht1
  set t2 : ExpTest := ⟨2, "viterbi_seqpar_fwbw".toList, vitTest Ss fun steps => speedSeqParFwBw (scan _) am nl rnd geModel steps 10⟩ with ht2
  set t3 : ExpTest := ⟨3, "viterbi_par_fwbwfw".toList, vitTest Ss fun steps => speedParFwBwFw (scan _) am nl rnd geModel steps 10⟩ with ht3
  have htests : vitTests scan am rnd Ss = [t0, t1, t2, t3] := rfl
  rw [htests]
  have hhead : ∀ v : ℕ, ⌊(10 : ℝ) ^ start⌋₊ = v → 0 < num → ∃ Ss', Ss = v :: Ss' := by
    rintro v rfl hnum
    have := (C80_logspace start stop num hss).2.2.1 hnum
    change Ss[0]? = _ at this
    cases hB : Ss with
    | nil => rw [hB] at this; cases this
    | cons B Bs' =>
      rw [hB] at this
      cases this
      exact ⟨Bs', rfl⟩
  have b1 : ∀ m : ℤ, m / 2 % 8 = 0 ↔ ¬ m / 2 ^ 1 % 2 = 1 ∧ ¬ m / 2 ^ 2 % 2 = 1 ∧ ¬ m / 2 ^ 3 % 2 = 1 := by
    intro m
    norm_num
    omega
  have hshort := fun s => C78_short (scanV := scan (Fin 4 → Fin 4 → ℝ)) (scanF := scan (Fin 4 → Fin 4)) C14_real_log_pos ham geModel
    geModel_pos.1 geModel_pos.2 (s : ℝ) rnd hr 10
  refine ⟨fun hge => ?_, fun hlt hst hnum => ?_, fun hst hnum => ?_⟩
  · have hpos : ∀ S ∈ Ss, 2 ≤ S := logspace_ge start stop num 2 (by exact_mod_cast hge) hss
    have key := fun S hS => geSpeed (hsc (Fin 4 → Fin 4 → ℝ)) (hsc (Fin 4 → Fin 4)) ham rnd hr S (hpos S hS)
    have := runTests_rows mask (writeTableCfg model dev c) (fun _ => Ss.map fun S : ℕ => ⟨[(S : ℤ)], [0]⟩) (.exit 0) [] (by simp)
      [t0, t1, t2, t3] (by
        intro t ht hm
        simp only [List.mem_cons, List.not_mem_nil, or_false] at ht
        rcases ht with rfl | rfl | rfl | rfl
        · exact vitTest_ok fun S hS => (key S hS).1
        · exact vitTest_ok fun S hS => (key S hS).2.1
        · exact vitTest_ok fun S hS => (key S hS).2.2.1
        · exact vitTest_ok fun S hS => (key S hS).2.2.2)
    refine (show runTests mask (writeTableCfg model dev c) ([t0, t1, t2, t3] ++ []) = _ from this).trans (Prod.ext rfl ?_)
    simp
  · have hpos : ∀ S ∈ Ss, 1 ≤ S := logspace_ge start stop num 1 (by
      rw [Nat.cast_one]
      exact Real.one_le_rpow (by norm_num) hst) hss
    obtain ⟨Ss', hSs'⟩ := hhead 1 (by
      rw [Nat.floor_eq_iff (by positivity)]
      refine ⟨by simpa using Real.one_le_rpow (by norm_num : (1 : ℝ) ≤ 10) hst, by norm_num; exact hlt⟩) hnum
    obtain ⟨k0, ⟨-, -, k1, k2, k3⟩, -⟩ := hshort 0
    have := runTests_rows mask (writeTableCfg model dev c) (fun _ => Ss.map fun S : ℕ => ⟨[(S : ℤ)], [0]⟩) (.py .valueError) [t1, t2, t3] (by
        intro t ht hm
        simp only [List.mem_cons, List.not_mem_nil, or_false] at ht
        rcases ht with rfl | rfl | rfl
        · change vitTest Ss _ = _
          rw [hSs']
          exact vitTest_error k1
        · change vitTest Ss _ = _
          rw [hSs']
          exact vitTest_error k2
        · change vitTest Ss _ = _
          rw [hSs']
          exact vitTest_error k3)
      [t0] (by
        intro t ht hm
        rw [List.mem_singleton] at ht
        subst ht
        refine vitTest_ok fun S hS => ?_
        have := hpos S hS
        rcases Nat.lt_or_ge S 2 with h | h
        · rw [show S = 1 by omega]
          exact (k0 (by norm_num)).2
        · exact (geSpeed (hsc (Fin 4 → Fin 4 → ℝ)) (hsc (Fin 4 → Fin 4)) ham rnd hr S h).1)
    refine (show runTests mask (writeTableCfg model dev c) ([t0] ++ [t1, t2, t3]) = _ from this).trans (Prod.ext rfl ?_)
    dsimp only
    by_cases hx : mask / 2 % 8 = 0
    · rw [if_pos hx, if_neg]
      rintro ⟨t, ht, hm⟩
      simp only [List.mem_cons, List.not_mem_nil, or_false] at ht
      rcases ht with rfl | rfl | rfl
      · exact ((b1 mask).1 hx).1 hm
      · exact ((b1 mask).1 hx).2.1 hm
      · exact ((b1 mask).1 hx).2.2 hm
    · rw [if_neg hx, if_pos]
      by_contra hno
      exact hx ((b1 mask).2 ⟨fun h => hno ⟨t1, by simp, h⟩, fun h => hno ⟨t2, by simp, h⟩, fun h => hno ⟨t3, by simp, h⟩⟩)
  · obtain ⟨Ss', hSs'⟩ := hhead 0 (by
      rw [Nat.floor_eq_zero]
      exact Real.rpow_lt_one_of_one_lt_of_neg (by norm_num) hst) hnum
    obtain ⟨-, -, ⟨-, -, -, -, k1, k2, k3⟩, -⟩ := hshort 0
    have r0 : t0.run = .error (.py .indexError) := by
      change vitTest Ss _ = _
      rw [hSs']
      exact vitTest_error (geSpeed_zero rnd hr)
    by_cases hm0 : mask % 2 = 1
    · rw [if_pos hm0, runTests, if_pos ((land_two_pow mask 0).2 (by simpa using hm0)), r0]
    · rw [if_neg hm0, runTests, if_neg (fun h' => hm0 (by simpa using (land_two_pow mask 0).1 h'))]
      have := runTests_rows mask (writeTableCfg model dev c) (fun _ => []) (.py .valueError) [t1, t2, t3] (by
        intro t ht hm
        simp only [List.mem_cons, List.not_mem_nil, or_false] at ht
        rcases ht with rfl | rfl | rfl
        · change vitTest Ss _ = _
          rw [hSs']
          exact vitTest_error k1
        · change vitTest Ss _ = _
          rw [hSs']
          exact vitTest_error k2
        · change vitTest Ss _ = _
          rw [hSs']
          exact vitTest_error k3) [] (by simp)
      refine (show runTests mask (writeTableCfg model dev c) ([] ++ [t1, t2, t3]) = _ from this).trans (Prod.ext rfl ?_)
      dsimp only
      by_cases hx : mask / 2 % 8 = 0
      · rw [if_pos hx, if_neg]
        rintro ⟨t, ht, hm⟩
        simp only [List.mem_cons, List.not_mem_nil, or_false] at ht
        rcases ht with rfl | rfl | rfl
        · exact ((b1 mask).1 hx).1 hm
        · exact ((b1 mask).1 hx).2.1 hm
        · exact ((b1 mask).1 hx).2.2 hm
      · rw [if_neg hx, if_pos]
        by_contra hno
        exact hx ((b1 mask).2 ⟨fun h => hno ⟨t1, by simp, h⟩, fun h => hno ⟨t2, by simp, h⟩, fun h => hno ⟨t3, by simp, h⟩⟩)

/-- The default run writes eight files and the one with `model=x mask=8` two. -/
example (fl : List Char → Py ℝ) :
    (vitMain fl (fun _ op l => scanVals op l) argmin1 (fun _ => 1 / 2) []).2 = none ∧
    (vitMain fl (fun _ op l => scanVals op l) argmin1 (fun _ => 1 / 2) []).1.length = 8 ∧
    (vitMain fl (fun _ op l => scanVals op l) argmin1 (fun _ => 1 / 2) ["model=x".toList, "mask=8".toList]).1.length = 2 := by
  have h1 := (C91_viterbi fl (fun _ op l => scanVals op l) (fun _ => C17_scan_example) argmin1 isArgmin_argmin1 (fun _ => 1 / 2)
    (fun _ => by norm_num) [] _ rfl 2 3 5 0 65535 "ge".toList "/CPU:0".toList rfl rfl rfl rfl rfl rfl rfl (by norm_num)).1 (by norm_num)
  have h2 := (C91_viterbi fl (fun _ op l => scanVals op l) (fun _ => C17_scan_example) argmin1 isArgmin_argmin1 (fun _ => 1 / 2)
    (fun _ => by norm_num) ["model=x".toList, "mask=8".toList] _ rfl 2 3 5 0 8 "x".toList "/CPU:0".toList rfl rfl rfl rfl rfl rfl rfl
    (by norm_num)).1 (by norm_num)
  rw [h1, h2]
  exact ⟨rfl, rfl, rfl⟩

/-- C91 (`text_error`): the fraction of the positions of the first text at which the texts differ, between zero and one, and zero iff the
second text begins with the first; `ZeroDivisionError` for an empty first text and `IndexError` if the second text is shorter. -/
theorem C91_text_error {α : Type} [DecidableEq α] (t1 t2 : List α) :
    (t1 = [] → textError t1 t2 = .error .zeroDivisionError) ∧ (t2.length < t1.length → textError t1 t2 = .error .indexError) ∧
    (t1 ≠ [] → t1.length ≤ t2.length → ∃ e : ℝ, textError t1 t2 = .ok e ∧
      e * t1.length = ((range t1.length).filter fun k => t1[k]? ≠ t2[k]?).card ∧ 0 ≤ e ∧ e ≤ 1 ∧ (e = 0 ↔ t1 <+: t2)) := by
  refine ⟨?_, textError_short, fun h hl => ⟨_, textError_ok h hl, ?_, by positivity, ?_, ?_⟩⟩
  · rintro rfl
    rfl
  · have : (t1.length : ℝ) ≠ 0 := by simpa using h
    field_simp
  · refine div_le_one_of_le₀ ?_ (by positivity)
    have := card_filter_le (range t1.length) fun k => t1[k]? ≠ t2[k]?
    rw [card_range] at this
    exact_mod_cast this
  · have : (t1.length : ℝ) ≠ 0 := by simpa using h
    rw [div_eq_zero_iff, or_iff_left this, Nat.cast_eq_zero, card_eq_zero, filter_eq_empty_iff, List.prefix_iff_eq_take]
    constructor
    · intro h
      refine List.ext_getElem? fun k => ?_
      rcases Nat.lt_or_ge k t1.length with hk | hk
      · rw [List.getElem?_take_of_lt hk]
        simpa using h (mem_range.2 hk)
      · rw [List.getElem?_eq_none hk, List.getElem?_eq_none (by simp; omega)]
    · intro h k hk
      rw [mem_range] at hk
      have := congrArg (fun l : List α => l[k]?) h
      rw [List.getElem?_take_of_lt hk] at this
      simpa using this

example : textError "abcd".toList "abxde".toList = .ok (1 / 4) ∧ textError "abcd".toList "abc".toList = .error .indexError := by
  obtain ⟨e, h, h', -⟩ := (C91_text_error "abcd".toList "abxde".toList).2.2 (by decide) (by decide)
  refine ⟨?_, (C91_text_error "abcd".toList "abc".toList).2.1 (by decide)⟩
  rw [h]
  have hc : ((range "abcd".toList.length).filter fun k => "abcd".toList[k]? ≠ "abxde".toList[k]?).card = 1 := by decide
  rw [hc] at h'
  have h4 : (("abcd".toList.length : ℕ) : ℝ) = 4 := by rw [show "abcd".toList.length = 4 from rfl]; norm_num
  rw [h4] at h'
  congr 1
  push_cast at h'
  linarith

/-- What the text scripts report for a training text, a text to be disturbed and an order: the errors of the four methods, for the hidden Markov
model of the training text and the disturbed text as observations. The error of a sequence of states is the fraction of the characters
of the text that are not the last ones of the strings of the states. The first three methods use the same most probable sequence `p`; in the
sequence `q` of the last method every state lies on some most probable sequence, and it is `p` if that is unique. -/
def TextOutcome (choice : ℕ → FArr1 ℝ → Py ℕ) (text1 text2 : List Char) (order : ℕ) (errs : List ℝ) : Prop :=
  ∃ (M : TextModel Char ℝ) (text3 : List Char) (prior : FArr1 ℝ) (Pi : FArr2 ℝ) (ys : List (Fin 27)) (p q : List (Fin (27 ^ order))),
    TextModel.init " abcdefghijklmnopqrstuvwxyz".toList (1 / 10) order = .ok M ∧ M.makeNoisyText choice text2 = .ok text3 ∧
    M.nthPrior text1 = .ok prior ∧ M.nthPi text1 = .ok Pi ∧ M.textToIndex text3 = .ok (ys.map fun y : Fin 27 => (y : ℕ)) ∧
    let H : HMM (27 ^ order) 27 ℝ := ⟨fun i => prior.get i, fun i j => Pi.get i j, fun i y => M.nthPo.get i y⟩
    let char (x : Fin (27 ^ order)) : Option Char := M.condChars[x.val]?.bind List.getLast?
    let err (p : List (Fin (27 ^ order))) : ℝ :=
      (((range text2.length).filter fun k => text2[k]? ≠ p[k + 1]?.bind char).card : ℝ) / text2.length
    H.IsMAP ys p ∧ q.length = text2.length + 1 ∧ (∀ k ≤ text2.length, ∃ p', H.IsMAP ys p' ∧ q[k]? = p'[k]?) ∧
    ((∀ p p', H.IsMAP ys p → H.IsMAP ys p' → p = p') → q = p) ∧ errs = [err p, err p, err p, err q]

theorem textRun_outcome (scan : AScan) (hsc : ∀ α, IsAssocScan (scan α)) (am : AArgmin ℝ) (ham : ∀ (n : ℕ) [NeZero n], IsArgmin (am n))
    (choice : ℕ → FArr1 ℝ → Py ℕ) (hch : ∀ k p, p.IsPositiveDistribution → ∃ i < p.len, choice k p = .ok i) (text1 text2 : List Char)
    (ht1 : ∀ ch ∈ text1, ch ∈ " abcdefghijklmnopqrstuvwxyz".toList) (ht2 : ∀ ch ∈ text2, ch ∈ " abcdefghijklmnopqrstuvwxyz".toList)
    (order : ℕ) (ho : 1 ≤ order) :
    (text2 = [] → ∀ mask, textRun scan am choice text1 text2 order mask = .error (.py .zeroDivisionError)) ∧
    (text2 ≠ [] → ∃ errs, TextOutcome choice text1 text2 order errs ∧ (∀ e ∈ errs, 0 ≤ e ∧ e ≤ 1) ∧
      (2 ≤ text2.length → ∀ mask : ℤ, textRun scan am choice text1 text2 order mask =
        .ok ((errs.zipIdx.filter fun r => mask / 2 ^ r.2 % 2 = 1).map fun r => (((r.2 + 1 : ℕ) : ℤ), r.1))) ∧
      (text2.length = 1 → ∀ mask : ℤ, textRun scan am choice text1 text2 order mask = if mask / 2 % 8 = 0 then
        .ok (((errs.take 1).zipIdx.filter fun r => mask / 2 ^ r.2 % 2 = 1).map fun r => (((r.2 + 1 : ℕ) : ℤ), r.1))
        else .error (.py .valueError))) := by
  set A := " abcdefghijklmnopqrstuvwxyz".toList with hA
  have hAl : A.length = 27 := by rw [hA]; rfl
  have hAne : A ≠ [] := by
    rw [hA]
    decide
  haveI : NeZero (27 ^ order) := ⟨by positivity⟩
  obtain ⟨M, text3, hM, hnoisy, hl3, hm3⟩ := C49_noisy_text A (1 / 10 : ℝ) (by norm_num) (by norm_num) order text2 ht2 choice hch
  obtain ⟨M', Pi, hM', hPi, hPir, hPic, hPip, -⟩ := C49_text_Pi A hAne (1 / 10 : ℝ) order ho text1 ht1
  rw [hM] at hM'; cases hM'
  obtain ⟨M', prior, hM', hprior, hpl, hpp, -⟩ := C49_text_prior A hAne (1 / 10 : ℝ) order text1 ht1
  rw [hM] at hM'; cases hM'
  obtain ⟨M', hM', -, hPo⟩ := C49_text_Po A hAne (1 / 10 : ℝ) (by norm_num) (by norm_num) order
  rw [hM] at hM'; cases hM'
  obtain ⟨M', hM', hlast, hPor, hPoc, -⟩ := C50_last_character A hAne (1 / 10 : ℝ) order ho
  rw [hM] at hM'; cases hM'
  obtain ⟨M', xs, hM', hxs, -⟩ := C50_roundtrip A (1 / 10 : ℝ) order text2 ht2
  rw [hM] at hM'; cases hM'
  obtain ⟨M', ys', hM', hys', hyl, hylt, -⟩ := C50_roundtrip A (1 / 10 : ℝ) order text3 hm3
  rw [hM] at hM'; cases hM'
  rw [hAl] at hlast hpl hPir hPic hPor hPoc hylt
  obtain ⟨ys, hobs, hyseq⟩ := tfObs_ok ys' hylt
  have hlen : ys.length = text2.length := by
    rw [← hl3, ← hyl, hyseq, List.length_map]
  set H : HMM (27 ^ order) 27 ℝ := ⟨fun i => prior.get i, fun i j => Pi.get i j, fun i y => M.nthPo.get i y⟩ with hH
  have hrun : ∀ mask, textRun scan am choice text1 text2 order mask = ofPy (textError text2 text3) >>= fun _ =>
      runMethods mask (textMethods scan (am (27 ^ order)) M text2 H ys) := by
    intro mask
    unfold textRun
    rw [show TextModel.init " abcdefghijklmnopqrstuvwxyz".toList (1 / 10 : ℝ) order = .ok M from hM]
    simp only [ofPy, exp_ok_bind, hnoisy, hprior, hPi, hxs, hys', hobs]
    rfl
  refine ⟨?_, fun hne => ?_⟩
  · rintro rfl mask
    rw [hrun]
    rfl
  have hraw := textError_ok hne (t2 := text3) (by omega)
  rw [hraw] at hrun
  have hpos : H.All (fun p => 0 < p) := by
    refine ⟨fun i => hpp.1 i (by rw [hpl]; exact i.2), fun i j => ?_, fun i y => ?_⟩
    · exact (hPip i (by rw [hPir]; exact i.2)).1 j (by change _ < Pi.cols; rw [hPic]; exact j.2)
    · exact (hPo i (by rw [hPor]; exact i.2)).1 y (by change _ < M.nthPo.cols; rw [hPoc]; exact y.2)
  obtain ⟨p, p', Vs, hseq, -, hmap⟩ := C17_seq (ham (27 ^ order)) C14_real_log_pos H hpos ys
  obtain ⟨q, p', Vs', hfw, hseq', hql, hqm, hqu⟩ := C17_fwbwfw (hsc _) (ham (27 ^ order)) C14_real_log_pos H hpos ys
  rw [hseq] at hseq'
  cases hseq'
  obtain ⟨hpar, hspar⟩ := C17_par_eq_seq (hsc _) (hsc _) (nl := fun p : ℝ => -Real.log p) (am (27 ^ order)) H ys
  rw [hlen] at hql hqm
  have hpl' : p.length = text2.length + 1 := by rw [hmap.1, hlen]
  set char : Fin (27 ^ order) → Option Char := fun x => M.condChars[x.val]?.bind List.getLast? with hchar
  set err : List (Fin (27 ^ order)) → ℝ := fun p =>
    (((range text2.length).filter fun k => text2[k]? ≠ p[k + 1]?.bind char).card : ℝ) / text2.length with herr
  have hmeth : ∀ (p : List (Fin (27 ^ order))) (Vs : List (Fin (27 ^ order) → ℝ)), p.length = text2.length + 1 →
      textMethod M text2 (.ok (p, Vs)) = .ok (err p) := by
    intro p Vs hp
    obtain ⟨t, ht, htl, htk⟩ := hlast (p.tail.map fun z : Fin (27 ^ order) => (z : ℕ)) (by
      intro y hy
      obtain ⟨z, -, rfl⟩ := List.mem_map.1 hy
      exact z.2)
    rw [List.length_map, List.length_tail, hp, Nat.add_sub_cancel] at htl
    refine textMethod_ok ht ((textError_ok hne (by omega)).trans ?_)
    congr 3
    refine congrArg Finset.card (filter_congr fun k hk => ?_)
    rw [mem_range] at hk
    have hk1 : p[k + 1]? = some (p[k + 1]'(by omega)) := List.getElem?_eq_getElem (by omega)
    obtain ⟨s, hs, hs'⟩ := htk k (p[k + 1]'(by omega)) (by
      rw [List.getElem?_map, List.getElem?_tail, hk1]
      rfl)
    rw [hk1, hs']
    simp only [hchar, Option.bind_some, hs]
  have hunit : ∀ p, 0 ≤ err p ∧ err p ≤ 1 := by
    intro p
    refine ⟨by positivity, div_le_one_of_le₀ ?_ (by positivity)⟩
    have := card_filter_le (range text2.length) fun k => text2[k]? ≠ p[k + 1]?.bind char
    rw [card_range] at this
    exact_mod_cast this
  have m1 := hmeth p Vs hpl'
  have m4 := hmeth q Vs hql
  refine ⟨[err p, err p, err p, err q], ⟨M, text3, prior, Pi, ys, p, q, hM, hnoisy, hprior, hPi, by rw [hys', hyseq], hmap, hql, hqm,
    hqu, rfl⟩, ?_, fun h2 mask => ?_, fun h1 mask => ?_⟩
  · intro e he
    simp only [List.mem_cons, List.not_mem_nil, or_false] at he
    rcases he with rfl | rfl | rfl | rfl <;> exact hunit _
  · obtain ⟨-, -, c1, c2, c3⟩ := C54_viterbi (scan _) (scan _) (am (27 ^ order)) 0 (fun p : ℝ => -Real.log p) H ys (by omega)
    rw [hrun]
    change runMethods mask _ = _
    unfold runMethods textMethods
    dsimp only
    rw [c1, c2, c3, hpar, hspar, hfw, hseq]
    refine (runMethods_ok mask (fun i => if i = 4 then err q else err p) _ [] ?_).trans ?_
    · intro m hm _
      simp only [List.mem_cons, List.not_mem_nil, or_false] at hm
      rcases hm with rfl | rfl | rfl | rfl
      · exact m1
      · exact m1
      · exact m1
      · exact m4
    · rw [List.nil_append]
      exact congrArg Except.ok (methods_filter (fun i => mask / 2 ^ i % 2 = 1) (fun i => if i = 4 then err q else err p) _ _ _ _)
  · obtain ⟨y, rfl⟩ := List.length_eq_one_iff.1 (hlen.trans h1)
    obtain ⟨-, -, c1, c2, c3⟩ := C54_viterbi_one (scan _) (scan _) (am (27 ^ order)) 0 (fun p : ℝ => -Real.log p) H y
    have b1 : mask / 2 % 8 = 0 ↔ ¬ mask / 2 ^ 1 % 2 = 1 ∧ ¬ mask / 2 ^ 2 % 2 = 1 ∧ ¬ mask / 2 ^ 3 % 2 = 1 := by
      norm_num
      omega
    rw [hrun]
    change runMethods mask _ = _
    unfold runMethods textMethods
    dsimp only
    rw [c1, c2, c3, hseq]
    by_cases hx : mask / 2 % 8 = 0
    · rw [if_pos hx]
      obtain ⟨a1, a2, a3⟩ := b1.1 hx
      refine (runMethods_ok mask (fun i => if i = 4 then err q else err p) _ [] ?_).trans ?_
      · intro m hm hbit
        simp only [List.mem_cons, List.not_mem_nil, or_false] at hm
        rcases hm with rfl | rfl | rfl | rfl
        · exact m1
        · exact absurd hbit a1
        · exact absurd hbit a2
        · exact absurd hbit a3
      · rw [List.nil_append]
        refine congrArg Except.ok
          ((methods_filter (fun i => mask / 2 ^ i % 2 = 1) (fun i => if i = 4 then err q else err p) _ _ _ _).trans ?_)
        exact methods_filter_one (fun i => mask / 2 ^ i % 2 = 1) _ _ _ _ (by simpa using a1) (by simpa using a2) (by simpa using a3)
    · rw [if_neg hx]
      refine runMethods_error mask (.py .valueError) _ [] ?_ ?_
      · intro m hm hbit
        simp only [List.mem_cons, List.not_mem_nil, or_false] at hm
        rcases hm with rfl | rfl | rfl | rfl
        · exact .inr ⟨_, m1⟩
        · exact .inl rfl
        · exact .inl rfl
        · exact .inl rfl
      · by_contra hno
        push Not at hno
        refine hx (b1.2 ⟨fun h => ?_, fun h => ?_, fun h => ?_⟩)
        · exact hno _ (List.mem_cons_of_mem _ List.mem_cons_self) h rfl
        · exact hno _ (List.mem_cons_of_mem _ (List.mem_cons_of_mem _ List.mem_cons_self)) h rfl
        · exact hno _ (List.mem_cons_of_mem _ (List.mem_cons_of_mem _ (List.mem_cons_of_mem _ List.mem_cons_self))) h rfl

/-- C91 (first text script): with texts over the alphabet and order at least one, for every generator and mask: with at least two characters
to correct the script writes the table with one line per selected method, holding its error, and the dictionary; for a single character
it writes the line of the sequential method, but raises `ValueError` and writes nothing if a parallel one is selected; without
characters it raises `ZeroDivisionError`. -/
theorem C91_text (fl : List Char → Py ℝ) (scan : AScan) (hsc : ∀ α, IsAssocScan (scan α)) (am : AArgmin ℝ)
    (ham : ∀ (n : ℕ) [NeZero n], IsArgmin (am n)) (choice : ℕ → FArr1 ℝ → Py ℕ)
    (hch : ∀ k p, p.IsPositiveDistribution → ∃ i < p.len, choice k p = .ok i) (text1 text2 : List Char)
    (ht1 : ∀ ch ∈ text1, ch ∈ " abcdefghijklmnopqrstuvwxyz".toList) (ht2 : ∀ ch ∈ text2, ch ∈ " abcdefghijklmnopqrstuvwxyz".toList)
    (args : List (List Char)) (c : Cfg) (hc : parseArgs fl textKeys textDefaults args = .ok c) (order : ℕ) (single mask : ℤ)
    (device : List Char) (h0 : c.lookup "order".toList = some (.int order)) (h7 : c.lookup "single".toList = some (.int single))
    (h8 : c.lookup "device".toList = some (.str device)) (h9 : c.lookup "mask".toList = some (.int mask)) (ho : 1 ≤ order) :
    let dev := devTxt device single
    let files (errs : List ℝ) : ExpLog :=
      [(expName "text".toList (fmtD order) dev, .table ((errs.zipIdx.filter fun r => mask / 2 ^ r.2 % 2 = 1).map fun r =>
          ⟨[((r.2 + 1 : ℕ) : ℤ), (order : ℤ)], [(r.1 : WithBot ℝ)]⟩)),
        (expCfgName "text".toList (fmtD order) dev, .config c)]
    (2 ≤ text2.length → ∃ errs, TextOutcome choice text1 text2 order errs ∧ (∀ e ∈ errs, 0 ≤ e ∧ e ≤ 1) ∧
      textMain fl scan am choice text1 text2 args = (files errs, none)) ∧
    (text2.length = 1 → ∃ errs, TextOutcome choice text1 text2 order errs ∧ (∀ e ∈ errs, 0 ≤ e ∧ e ≤ 1) ∧
      textMain fl scan am choice text1 text2 args =
        if mask / 2 % 8 = 0 then (files (errs.take 1), none) else ([], some (.py .valueError))) ∧
    (text2 = [] → textMain fl scan am choice text1 text2 args = ([], some (.py .zeroDivisionError))) := by
  intro dev files
  obtain ⟨order', single', device', mask', e0, e7, e8, e9, hmain⟩ := textMain_eq fl scan am choice text1 text2 hc
  rw [h0] at e0; rw [h7] at e7; rw [h8] at e8; rw [h9] at e9
  cases e0; cases e7; cases e8; cases e9
  obtain ⟨hok, herr⟩ := hmain order rfl
  obtain ⟨r0, r1⟩ := textRun_outcome scan hsc am ham choice hch text1 text2 ht1 ht2 order ho
  have hfiles : ∀ errs : List ℝ, textRun scan am choice text1 text2 order mask =
      .ok ((errs.zipIdx.filter fun r => mask / 2 ^ r.2 % 2 = 1).map fun r => (((r.2 + 1 : ℕ) : ℤ), r.1)) →
      textMain fl scan am choice text1 text2 args = (files errs, none) := by
    intro errs h
    rw [hok _ h, List.map_map]
    rfl
  refine ⟨fun h2 => ?_, fun h1 => ?_, fun h => herr _ (r0 h mask)⟩
  · obtain ⟨errs, g1, g2, g3, -⟩ := r1 (by rintro rfl; simp at h2)
    exact ⟨errs, g1, g2, hfiles _ (g3 h2 mask)⟩
  · obtain ⟨errs, g1, g2, -, g3⟩ := r1 (by rintro rfl; simp at h1)
    refine ⟨errs, g1, g2, ?_⟩
    have := g3 h1 mask
    by_cases hm : mask / 2 % 8 = 0
    · rw [if_pos hm] at this ⊢
      exact hfiles _ this
    · rw [if_neg hm] at this ⊢
      exact herr _ this

/-- C91 (other characters): a character of the text to be corrected outside the alphabet (capital letters, punctuation, the end of the line)
raises `KeyError`, as does one in the training text if that has more characters than the order; nothing is written. -/
theorem C91_text_chars (fl : List Char → Py ℝ) (scan : AScan) (am : AArgmin ℝ) (choice : ℕ → FArr1 ℝ → Py ℕ)
    (hch : ∀ k p, p.IsPositiveDistribution → ∃ i < p.len, choice k p = .ok i) (text1 text2 : List Char)
    (h : (∃ ch ∈ text2, ch ∉ " abcdefghijklmnopqrstuvwxyz".toList) ∨ ∃ ch ∈ text1, ch ∉ " abcdefghijklmnopqrstuvwxyz".toList)
    (args : List (List Char)) (c : Cfg) (hc : parseArgs fl textKeys textDefaults args = .ok c) (order : ℕ)
    (h0 : c.lookup "order".toList = some (.int order)) (ho : 1 ≤ order) (hl : order < text1.length) :
    textMain fl scan am choice text1 text2 args = ([], some (.py .keyError)) := by
  obtain ⟨order', single', device', mask', e0, e7, e8, e9, hmain⟩ := textMain_eq fl scan am choice text1 text2 hc
  rw [h0] at e0
  cases e0
  refine (hmain order rfl).2 _ ?_
  have hAne : " abcdefghijklmnopqrstuvwxyz".toList ≠ [] := by decide
  by_cases h2 : ∃ ch ∈ text2, ch ∉ " abcdefghijklmnopqrstuvwxyz".toList
  · obtain ⟨M, hM, hn⟩ := noisy_error " abcdefghijklmnopqrstuvwxyz".toList (1 / 10) (by norm_num) (by norm_num) order text2 h2 hAne choice hch
    unfold textRun
    rw [hM]
    simp only [ofPy, exp_ok_bind, hn]
    rfl
  · have h1 := h.resolve_left h2
    push Not at h2
    obtain ⟨M, text3, hM, hnoisy, -, -⟩ :=
      C49_noisy_text " abcdefghijklmnopqrstuvwxyz".toList (1 / 10 : ℝ) (by norm_num) (by norm_num) order text2 h2 choice hch
    obtain ⟨M', hM', -, hbad, -⟩ := C49_text_errors " abcdefghijklmnopqrstuvwxyz".toList hAne (1 / 10 : ℝ) order ho text1
    rw [hM] at hM'
    cases hM'
    unfold textRun
    rw [hM]
    simp only [ofPy, exp_ok_bind, hnoisy, (hbad h1 hl).2]
    rfl

/-- C91 (second text script): it ends as the first one does for the first `N` characters of the text, where `N` is `steps` or, if that is
negative or larger, the length of the text; if the first writes a table, it writes the same lines, with `N` added, under a name with
the order and `N`; the name of the dictionary has only the order. -/
theorem C91_text_steps (fl : List Char → Py ℝ) (scan : AScan) (am : AArgmin ℝ) (choice : ℕ → FArr1 ℝ → Py ℕ) (text1 text2 : List Char)
    (args args' : List (List Char)) (c c' : Cfg) (hc : parseArgs fl textKeys textDefaults args = .ok c)
    (hc' : parseArgs fl text2Keys text2Defaults args' = .ok c') (order : ℕ) (single mask steps : ℤ) (device : List Char)
    (h0 : c.lookup "order".toList = some (.int order)) (h9 : c.lookup "mask".toList = some (.int mask))
    (h0' : c'.lookup "order".toList = some (.int order)) (h9' : c'.lookup "mask".toList = some (.int mask))
    (h7' : c'.lookup "single".toList = some (.int single)) (h8' : c'.lookup "device".toList = some (.str device))
    (h4' : c'.lookup "steps".toList = some (.int steps)) (N : ℕ)
    (hN : 0 ≤ steps ∧ steps ≤ text2.length ∧ (N : ℤ) = steps ∨ (steps < 0 ∨ (text2.length : ℤ) < steps) ∧ N = text2.length) :
    let r := textMain fl scan am choice text1 (text2.take N) args
    let r' := text2Main fl scan am choice text1 text2 args'
    r'.2 = r.2 ∧ (r.2 ≠ none → r.1 = [] ∧ r'.1 = []) ∧
    (r.2 = none → ∃ name rows cfg, r.1 = [(name, .table rows), cfg] ∧
      r'.1 = [(expName "text_steps".toList (fmtD order ++ ['_'] ++ fmtD N) (devTxt device single),
          .table (rows.map fun l => ⟨l.ints ++ [(N : ℤ)], l.errs⟩)),
        (expCfgName "text_steps".toList (fmtD order) (devTxt device single), .config c')]) := by
  intro r r'
  obtain ⟨o1, s1, d1, m1, e0, e7, e8, e9, hmain⟩ := textMain_eq fl scan am choice text1 (text2.take N) hc
  rw [h0] at e0; rw [h9] at e9
  cases e0; cases e9
  obtain ⟨o2, s2, st2, d2, m2, f0, f7, f4, f8, f9, hmain'⟩ := text2Main_eq fl scan am choice text1 text2 hc'
  rw [h0'] at f0; rw [h7'] at f7; rw [h4'] at f4; rw [h8'] at f8; rw [h9'] at f9
  cases f0; cases f7; cases f4; cases f8; cases f9
  obtain ⟨hok, herr⟩ := hmain order rfl
  obtain ⟨hok', herr'⟩ := hmain' order N rfl (by split <;> omega)
  cases h : textRun scan am choice text1 (text2.take N) order mask with
  | error e =>
    have q1 : r = _ := herr e h
    have q2 : r' = _ := herr' e h
    rw [q1, q2]
    exact ⟨rfl, fun _ => ⟨rfl, rfl⟩, fun h => by cases h⟩
  | ok rs =>
    have q1 : r = _ := hok rs h
    have q2 : r' = _ := hok' rs h
    rw [q1, q2]
    refine ⟨rfl, fun h => absurd rfl h, fun _ => ⟨_, _, _, rfl, ?_⟩⟩
    rw [List.map_map]
    rfl

/-- A generator that meets the contract: it always draws the first character. -/
example (k : ℕ) (p : FArr1 ℝ) (hp : p.IsPositiveDistribution) : ∃ i < p.len, (fun (_ : ℕ) (_ : FArr1 ℝ) => (.ok 0 : Py ℕ)) k p = .ok i := by
  refine ⟨0, Nat.pos_of_ne_zero fun h => ?_, rfl⟩
  have := hp.2
  rw [h] at this
  simp at this

/-- The default run of the first script on `hello world` writes four lines; with one character nothing. -/
example (fl : List Char → Py ℝ) (choice : ℕ → FArr1 ℝ → Py ℕ)
    (hch : ∀ k p, p.IsPositiveDistribution → ∃ i < p.len, choice k p = .ok i) :
    (∃ name rows cfg, textMain fl (fun _ op l => scanVals op l) (fun _ _ => argmin1) choice "the quick fox".toList "hello world".toList [] =
      ([(name, .table rows), cfg], none) ∧ rows.length = 4) ∧
    textMain fl (fun _ op l => scanVals op l) (fun _ _ => argmin1) choice "the quick fox".toList "h".toList [] =
      ([], some (.py .valueError)) ∧
    textMain fl (fun _ op l => scanVals op l) (fun _ _ => argmin1) choice "the quick fox".toList "Hello".toList [] =
      ([], some (.py .keyError)) := by
  refine ⟨?_, ?_, ?_⟩
  · obtain ⟨errs, ho, -, h⟩ := (C91_text fl (fun _ op l => scanVals op l) (fun _ => C17_scan_example) (fun _ _ => argmin1)
      (fun _ _ => isArgmin_argmin1) choice hch "the quick fox".toList "hello world".toList (by decide) (by decide) [] _ rfl 1 0 65535
      "/CPU:0".toList rfl rfl rfl rfl (by norm_num)).1 (by decide)
    obtain ⟨M, t3, pr, Pi, ys, p, q, -, -, -, -, -, -, -, -, -, he⟩ := ho
    obtain ⟨a, b, c, d, rfl⟩ : ∃ a b c d, errs = [a, b, c, d] := ⟨_, _, _, _, he⟩
    exact ⟨_, _, _, h, by simp [List.zipIdx_cons, List.filter_cons]⟩
  · obtain ⟨errs, ho, -, h⟩ := (C91_text fl (fun _ op l => scanVals op l) (fun _ => C17_scan_example) (fun _ _ => argmin1)
      (fun _ _ => isArgmin_argmin1) choice hch "the quick fox".toList "h".toList (by decide) (by decide) [] _ rfl 1 0 65535
      "/CPU:0".toList rfl rfl rfl rfl (by norm_num)).2.1 (by decide)
    exact h
  · exact C91_text_chars fl _ _ choice hch _ _ (.inl (by decide)) [] _ rfl 1 rfl (by norm_num) (by decide)

/-- `steps=0` in the second script: `ZeroDivisionError`. -/
example (fl : List Char → Py ℝ) (choice : ℕ → FArr1 ℝ → Py ℕ)
    (hch : ∀ k p, p.IsPositiveDistribution → ∃ i < p.len, choice k p = .ok i) :
    (text2Main fl (fun _ op l => scanVals op l) (fun _ _ => argmin1) choice "the quick fox".toList "hello world".toList
      ["steps=0".toList]).2 = some (.py .zeroDivisionError) := by
  rw [(C91_text_steps fl (fun _ op l => scanVals op l) (fun _ _ => argmin1) choice "the quick fox".toList "hello world".toList []
    ["steps=0".toList] _ _ rfl rfl 1 0 65535 0 "/CPU:0".toList rfl rfl rfl rfl rfl rfl rfl 0 (.inl (by decide))).1]
  rw [(C91_text fl (fun _ op l => scanVals op l) (fun _ => C17_scan_example) (fun _ _ => argmin1)
      (fun _ _ => isArgmin_argmin1) choice hch "the quick fox".toList ("hello world".toList.take 0) (by decide) (by decide) [] _ rfl 1 0 65535
      "/CPU:0".toList rfl rfl rfl rfl (by norm_num)).2.2 rfl]

end Verif
