import Verif.Proof.ExperimentsHJB
import Verif.Props.SpeedLinear

/-! C90: the results of the experiment scripts in `/repo/experiments-hjb`. -/

namespace Verif

/-- C90 (continuous-time linear): fix the numbers of blocks (`0 ≤ start ≤ stop`) and an accuracy. From some number of steps on, for all
other arguments, devices and masks, the script writes a table and the dictionary for every selected test, in the given order, and ends
without failure, provided the number of iterations is positive if a Parareal test is selected and at least the number of blocks minus one
if the last one is. The errors of the sequential tests are zero, those of the parallel tests within the accuracy, and those of the Parareal
tests are zero for at most `niter + 1` blocks. -/
theorem C90_contlin (scan : AScan) (hsc : ∀ α, IsAssocScan (scan α)) (hf : ∀ α, IsFiniteScan (scan α)) (start stop : ℝ) (num : ℕ)
    (hst : 0 ≤ start) (hss : start ≤ stop) (ε : ℝ) (hε : 0 < ε) :
    ∃ N0 : ℕ, ∀ (fl : List Char → Py ℝ) (args : List (List Char)) (c : Cfg) (steps niter : ℕ) (n single mask : ℤ) (device : List Char),
      parseArgs fl contKeys contDefaults args = .ok c → c.lookup "model".toList = some (.str "tracking".toList) →
      c.lookup "start".toList = some (.num start) → c.lookup "stop".toList = some (.num stop) →
      c.lookup "num".toList = some (.int num) → c.lookup "steps".toList = some (.int steps) → c.lookup "n".toList = some (.int n) →
      c.lookup "niter".toList = some (.int niter) → c.lookup "single".toList = some (.int single) →
      c.lookup "device".toList = some (.str device) → c.lookup "mask".toList = some (.int mask) → N0 ≤ steps →
      (mask / 32 % 8 ≠ 0 → niter ≠ 0) → (mask / 128 % 2 = 1 → ∀ B ∈ logspaceInt start stop num, B ≤ niter + 1) →
      let ids := [fmtD n ++ "_seq_bw".toList, fmtD n ++ "_seq_bw_fw".toList, fmtD n ++ "_par_bw".toList, fmtD n ++ "_par_bw_fw".toList,
        fmtD n ++ "_par_bw_fwbw".toList, fmtD n ++ "_parareal_".toList ++ fmtD niter ++ "_bw".toList,
        fmtD n ++ "_parareal_".toList ++ fmtD niter ++ "_bw_fw".toList, fmtD n ++ "_parareal_".toList ++ fmtD niter ++ "_bw_fwbw".toList]
      let dev := devTxt device single
      ∃ err : ℕ → ℕ → ℝ, contMain fl scan args = ((ids.zipIdx.filter fun p => mask / 2 ^ p.2 % 2 = 1).flatMap fun p =>
          [(expName "tracking".toList p.1 dev,
            .table ((logspaceInt start stop num).map fun B : ℕ => ⟨[(B : ℤ), 4], [(err p.2 B : WithBot ℝ)]⟩)),
            (expCfgName "tracking".toList p.1 dev, .config c)], none) ∧
        ∀ B ∈ logspaceInt start stop num, err 0 B = 0 ∧ err 1 B = 0 ∧ (∀ i ∈ [2, 3, 4], 0 ≤ err i B ∧ err i B ≤ ε) ∧
          (niter ≠ 0 → contTracking.1.prBwSpeed contTracking.2 B steps niter 10 = .ok (err 5 B) ∧ 0 ≤ err 5 B ∧
            contTracking.1.prBwFwSpeed contTracking.2 B steps niter 10 = .ok (err 6 B) ∧ 0 ≤ err 6 B) ∧ (niter ≠ 0 → B ≤ niter + 1 → err 5 B = 0 ∧ err 6 B = 0 ∧ err 7 B = 0) := by
  have hpos : ∀ B ∈ logspaceInt start stop num, 1 ≤ B := logspace_ge start stop num 1 (by
    rw [Nat.cast_one]
    exact Real.one_le_rpow (by norm_num) hst) hss
  have key : ∀ Bs : List ℕ, (∀ B ∈ Bs, 1 ≤ B) → ∃ N0 : ℕ, 0 < N0 ∧ ∀ B ∈ Bs, ∀ steps ≥ N0,
      (∃ e, contTracking.1.parBwSpeed scan contTracking.2 B steps 10 = .ok e ∧ 0 ≤ e ∧ e ≤ ε) ∧
      (∃ e, contTracking.1.parBwFwSpeed scan contTracking.2 B steps 10 = .ok e ∧ 0 ≤ e ∧ e ≤ ε) ∧
      (∃ e, contTracking.1.parBwFwBwSpeed scan contTracking.2 B steps 10 = .ok e ∧ 0 ≤ e ∧ e ≤ ε) ∧
      ∃ r, contTracking.1.spRef2 contTracking.2 B steps = .ok r := by
    intro Bs
    induction Bs with
    | nil => exact fun _ => ⟨1, by norm_num, by simp⟩
    | cons B Bs ih =>
      intro hB
      obtain ⟨N1, hN1, h1⟩ := ih fun b hb => hB b (List.mem_cons_of_mem _ hb)
      obtain ⟨N2, hN2, h2⟩ := CLQT.parSpeed_total contTracking.1 contTracking_T contTracking_contData contTracking_U
        (fun t _ => contTracking_X t) contTracking_XT scan hsc hf contTracking.2 B (hB B List.mem_cons_self) ε hε
      refine ⟨max N1 N2, by omega, fun b hb steps hs => ?_⟩
      rcases List.mem_cons.1 hb with rfl | hb
      · exact h2 steps (by omega) 10 (by norm_num)
      · exact h1 b hb steps (by omega)
  obtain ⟨N0, hN0, hall⟩ := key _ hpos
  refine ⟨N0, ?_⟩
  intro fl args c steps niter n single mask device hc h0 h1 h2 h3 h4 h5 h6 h7 h8 h9 hN hni hlast ids dev
  obtain ⟨model', start', stop', num', steps', n', niter', single', device', mask', e0, e1, e2, e3, e4, e5, e6, e7, e8, e9, hmain⟩ :=
    contMain_eq fl scan hc
  rw [h0] at e0; rw [h1] at e1; rw [h2] at e2; rw [h3] at e3; rw [h4] at e4; rw [h5] at e5; rw [h6] at e6; rw [h7] at e7; rw [h8] at e8
  rw [h9] at e9
  cases e0; cases e1; cases e2; cases e3; cases e4; cases e5; cases e6; cases e7; cases e8; cases e9
  rw [(hmain num steps niter rfl).2 rfl rfl rfl]
  have hseq : ∀ B ∈ logspaceInt start stop num, contErr scan contTracking steps niter 0 B = .ok 0 ∧
      contErr scan contTracking steps niter 1 B = .ok 0 := by
    intro B hB
    have := hpos B hB
    obtain ⟨g1, g2, -⟩ := C83_tracking B steps niter 10 (by omega) (by omega) (by norm_num)
    exact ⟨g1, g2⟩
  have hpr : ∀ B ∈ logspaceInt start stop num, niter ≠ 0 →
      (∃ e, contErr scan contTracking steps niter 5 B = .ok e ∧ 0 ≤ e) ∧ ∃ e, contErr scan contTracking steps niter 6 B = .ok e ∧ 0 ≤ e := by
    intro B hB hi
    have := hpos B hB
    exact contTracking.1.prSpeed_total contTracking_U contTracking.2 B steps niter 10 (by omega) (by omega) hi (by norm_num)
  have hex : ∀ B ∈ logspaceInt start stop num, niter ≠ 0 → B ≤ niter + 1 → contErr scan contTracking steps niter 5 B = .ok 0 ∧
      contErr scan contTracking steps niter 6 B = .ok 0 ∧ contErr scan contTracking steps niter 7 B = .ok 0 := by
    intro B hB hi hb
    have := hpos B hB
    obtain ⟨g1, g2, g3⟩ := C83_parareal contTracking.1 contTracking_U contTracking.2 B steps niter 10 (by omega) (by omega) hi hb
      (by norm_num)
    obtain ⟨r, hr⟩ := (hall B hB steps hN).2.2.2
    exact ⟨g1, g2, g3 r hr⟩
  refine ⟨fun i B => okVal (contErr scan contTracking steps niter i B), ?_, fun B hB => ?_⟩
  · rw [contTests_rows mask _ scan contTracking _ steps niter n niter 8 le_rfl .valueError _ fun i h1 h2 => by omega]
    · have hno : ¬ ∃ i < 8, 8 ≤ i ∧ mask / 2 ^ i % 2 = 1 := by
        rintro ⟨i, h1, h2, -⟩
        omega
      rw [if_neg hno]
      rfl
    · intro i hi hm B hB
      obtain ⟨⟨a, ha, -⟩, ⟨b, hb, -⟩, ⟨d, hd, -⟩, -⟩ := hall B hB steps hN
      have hni' : 5 ≤ i → niter ≠ 0 := by
        intro h5
        refine hni ?_
        interval_cases i <;> norm_num at hm <;> omega
      interval_cases i
      · exact ⟨_, (hseq B hB).1⟩
      · exact ⟨_, (hseq B hB).2⟩
      · exact ⟨_, ha⟩
      · exact ⟨_, hb⟩
      · exact ⟨_, hd⟩
      · obtain ⟨e, he, -⟩ := (hpr B hB (hni' (by norm_num))).1
        exact ⟨e, he⟩
      · obtain ⟨e, he, -⟩ := (hpr B hB (hni' (by norm_num))).2
        exact ⟨e, he⟩
      · exact ⟨_, (hex B hB (hni' (by norm_num)) (hlast (by norm_num at hm; exact hm) B hB)).2.2⟩
  · refine ⟨okVal_eq (hseq B hB).1, okVal_eq (hseq B hB).2, ?_, fun hi => ?_, fun hi hb => ?_⟩
    · obtain ⟨⟨a, ha, ha'⟩, ⟨b, hb, hb'⟩, ⟨d, hd, hd'⟩, -⟩ := hall B hB steps hN
      intro i hi
      simp only [List.mem_cons, List.not_mem_nil, or_false] at hi
      rcases hi with rfl | rfl | rfl
      · dsimp only
        rw [okVal_eq (x := contErr scan contTracking steps niter 2 B) ha]
        exact ha'
      · dsimp only
        rw [okVal_eq (x := contErr scan contTracking steps niter 3 B) hb]
        exact hb'
      · dsimp only
        rw [okVal_eq (x := contErr scan contTracking steps niter 4 B) hd]
        exact hd'
    · obtain ⟨⟨a, ha, ha'⟩, ⟨b, hb, hb'⟩⟩ := hpr B hB hi
      dsimp only
      rw [okVal_eq ha, okVal_eq hb]
      exact ⟨ha, ha', hb, hb'⟩
    · obtain ⟨g1, g2, g3⟩ := hex B hB hi hb
      exact ⟨okVal_eq g1, okVal_eq g2, okVal_eq g3⟩

/-- From some number of steps on, the run `mask=127 steps=…`, with the tests 0 to 6 and the default numbers of blocks, ends without failure
and writes 14 files. -/
example (fl : List Char → Py ℝ) : ∃ N0 : ℕ, ∀ steps : ℕ, N0 ≤ steps →
    (contMain fl (fun _ op l => scanVals op l) ["mask=127".toList, "steps=".toList ++ fmtD steps]).2 = none ∧
    (contMain fl (fun _ op l => scanVals op l) ["mask=127".toList, "steps=".toList ++ fmtD steps]).1.length = 14 := by
  obtain ⟨N0, h⟩ := C90_contlin (fun _ op l => scanVals op l) (fun _ => C17_scan_example) (fun _ => scanVals_finite) 2 3 5 (by norm_num)
    (by norm_num) 1 (by norm_num)
  refine ⟨N0, fun steps hs => ?_⟩
  have hc : parseArgs fl contKeys contDefaults ["mask=127".toList, "steps=".toList ++ fmtD steps] =
      .ok ((contDefaults.set "mask".toList (.int 127)).set "steps".toList (.int steps)) := by
    have e1 : parseArg fl contKeys contDefaults "mask=127".toList = .ok (contDefaults.set "mask".toList (.int 127)) := rfl
    rw [parseArgs_cons, e1]
    have e2 := (parseArg_assign fl contKeys (contDefaults.set "mask".toList (.int 127)) (k := "steps".toList) (v := fmtD steps)
      (by decide) (fmtD_chars steps).2 (ty := .int) rfl).1 (.int steps) (by simp only [cfgRead, cfgInt_fmtD]; rfl)
    change (parseArgs fl contKeys (contDefaults.set "mask".toList (.int 127)) [_]) = _
    rw [parseArgs_cons]
    exact congrArg (fun r => Except.bind r _) e2
  obtain ⟨err, he, -⟩ := h fl _ _ steps 2 4 0 127 "/CPU:0".toList hc rfl rfl rfl rfl rfl rfl rfl rfl rfl rfl hs (by norm_num) (by norm_num)
  rw [he]
  exact ⟨rfl, rfl⟩

/-- C90 (continuous-time linear, every number of steps): if no parallel test is selected, then for every positive number of steps the
files of the sequential tests have zero errors; with a positive number of iterations the first two Parareal tests complete, with zero errors
for at most `niter + 1` blocks; without iterations the script fails with `IndexError` after the files of the sequential tests iff a Parareal
test is selected. -/
theorem C90_contlin_sequential (fl : List Char → Py ℝ) (scan : AScan) (args : List (List Char)) (c : Cfg)
    (hc : parseArgs fl contKeys contDefaults args = .ok c) (start stop : ℝ) (num steps niter : ℕ) (n single mask : ℤ) (device : List Char)
    (h0 : c.lookup "model".toList = some (.str "tracking".toList)) (h1 : c.lookup "start".toList = some (.num start))
    (h2 : c.lookup "stop".toList = some (.num stop)) (h3 : c.lookup "num".toList = some (.int num))
    (h4 : c.lookup "steps".toList = some (.int steps)) (h5 : c.lookup "n".toList = some (.int n))
    (h6 : c.lookup "niter".toList = some (.int niter)) (h7 : c.lookup "single".toList = some (.int single))
    (h8 : c.lookup "device".toList = some (.str device)) (h9 : c.lookup "mask".toList = some (.int mask)) (hst : 0 ≤ start)
    (hss : start ≤ stop) (hs : steps ≠ 0) (hm : mask / 4 % 8 = 0) :
    let ids := [fmtD n ++ "_seq_bw".toList, fmtD n ++ "_seq_bw_fw".toList, fmtD n ++ "_par_bw".toList, fmtD n ++ "_par_bw_fw".toList,
      fmtD n ++ "_par_bw_fwbw".toList, fmtD n ++ "_parareal_".toList ++ fmtD niter ++ "_bw".toList,
      fmtD n ++ "_parareal_".toList ++ fmtD niter ++ "_bw_fw".toList]
    let dev := devTxt device single
    let file (err : ℕ → ℝ) (id : List Char) : ExpLog := [(expName "tracking".toList id dev,
        .table ((logspaceInt start stop num).map fun B : ℕ => ⟨[(B : ℤ), 4], [(err B : WithBot ℝ)]⟩)),
      (expCfgName "tracking".toList id dev, .config c)]
    (niter ≠ 0 → mask / 128 % 2 = 0 → ∃ err : ℕ → ℕ → ℝ,
      contMain fl scan args = ((ids.zipIdx.filter fun p => mask / 2 ^ p.2 % 2 = 1).flatMap fun p => file (err p.2) p.1, none) ∧
      ∀ B ∈ logspaceInt start stop num, err 0 B = 0 ∧ err 1 B = 0 ∧ contTracking.1.prBwSpeed contTracking.2 B steps niter 10 = .ok (err 5 B) ∧
        contTracking.1.prBwFwSpeed contTracking.2 B steps niter 10 = .ok (err 6 B) ∧ (B ≤ niter + 1 → err 5 B = 0 ∧ err 6 B = 0)) ∧
    (niter = 0 → 0 < num → contMain fl scan args =
      (((ids.take 2).zipIdx.filter fun p => mask / 2 ^ p.2 % 2 = 1).flatMap fun p => file (fun _ => 0) p.1,
        if mask / 32 % 8 = 0 then none else some (.py .indexError))) := by
  intro ids dev file
  have hpos : ∀ B ∈ logspaceInt start stop num, 1 ≤ B := logspace_ge start stop num 1 (by
    rw [Nat.cast_one]
    exact Real.one_le_rpow (by norm_num) hst) hss
  obtain ⟨model', start', stop', num', steps', n', niter', single', device', mask', e0, e1, e2, e3, e4, e5, e6, e7, e8, e9, hmain⟩ :=
    contMain_eq fl scan hc
  rw [h0] at e0; rw [h1] at e1; rw [h2] at e2; rw [h3] at e3; rw [h4] at e4; rw [h5] at e5; rw [h6] at e6; rw [h7] at e7; rw [h8] at e8
  rw [h9] at e9
  cases e0; cases e1; cases e2; cases e3; cases e4; cases e5; cases e6; cases e7; cases e8; cases e9
  rw [(hmain num steps niter rfl).2 rfl rfl rfl]
  have hseq : ∀ B ∈ logspaceInt start stop num, contErr scan contTracking steps niter 0 B = .ok 0 ∧
      contErr scan contTracking steps niter 1 B = .ok 0 := by
    intro B hB
    have := hpos B hB
    obtain ⟨g1, g2, -⟩ := C83_tracking B steps niter 10 (by omega) hs (by norm_num)
    exact ⟨g1, g2⟩
  have hm2 : ∀ i, 2 ≤ i → i < 5 → ¬ mask / 2 ^ i % 2 = 1 := by
    intro i hi hi' h
    interval_cases i <;> norm_num at h <;> omega
  constructor
  · intro hi hm7
    refine ⟨fun i B => okVal (contErr scan contTracking steps niter i B), ?_, fun B hB => ⟨okVal_eq (hseq B hB).1, okVal_eq (hseq B hB).2,
      ?_, ?_, fun hb => ?_⟩⟩
    · rw [contTests_rows mask _ scan contTracking _ steps niter n niter 7 (by norm_num) .valueError]
      · have hno : ¬ ∃ i < 8, 7 ≤ i ∧ mask / 2 ^ i % 2 = 1 := by
          rintro ⟨i, h1, h2, h3⟩
          interval_cases i
          norm_num at h3
          omega
        rw [if_neg hno]
        rfl
      · intro i hi' hb B hB
        have hp := hpos B hB
        have hpr := contTracking.1.prSpeed_total contTracking_U contTracking.2 B steps niter 10 (by omega) hs hi (by norm_num)
        rcases Nat.lt_or_ge i 2 with h2 | h2
        · interval_cases i
          · exact ⟨_, (hseq B hB).1⟩
          · exact ⟨_, (hseq B hB).2⟩
        · rcases Nat.lt_or_ge i 5 with h5 | h5
          · exact absurd hb (hm2 i h2 h5)
          · interval_cases i
            · obtain ⟨e, he, -⟩ := hpr.1
              exact ⟨e, he⟩
            · obtain ⟨e, he, -⟩ := hpr.2
              exact ⟨e, he⟩
      · intro i h1 h2 h3
        interval_cases i
        norm_num at h3
        omega
    · have hp := hpos B hB
      obtain ⟨e, he, -⟩ := (contTracking.1.prSpeed_total contTracking_U contTracking.2 B steps niter 10 (by omega) hs hi (by norm_num)).1
      exact okVal_ok (x := contErr scan contTracking steps niter 5 B) he
    · have hp := hpos B hB
      obtain ⟨e, he, -⟩ := (contTracking.1.prSpeed_total contTracking_U contTracking.2 B steps niter 10 (by omega) hs hi (by norm_num)).2
      exact okVal_ok (x := contErr scan contTracking steps niter 6 B) he
    · have hp := hpos B hB
      obtain ⟨g1, g2, -⟩ := C83_parareal contTracking.1 contTracking_U contTracking.2 B steps niter 10 (by omega) hs hi hb (by norm_num)
      exact ⟨okVal_eq (x := contErr scan contTracking steps niter 5 B) g1, okVal_eq (x := contErr scan contTracking steps niter 6 B) g2⟩
  · rintro rfl hnum
    have hne : logspaceInt start stop num ≠ [] := by
      intro h
      have := (C80_logspace start stop num hss).1
      rw [h] at this
      simp at this
      omega
    rw [contTests_rows mask _ scan contTracking _ steps 0 n (0 : ℕ) 2 (by norm_num) .indexError]
    · refine Prod.ext ?_ ?_
      · change (List.filter _ [_, _]).flatMap _ = (List.filter _ [_, _]).flatMap _
        refine List.flatMap_congr fun p hp => ?_
        have hp' := (List.mem_filter.1 hp).1
        simp only [List.mem_cons, List.not_mem_nil, or_false] at hp'
        change [(_, ExpFile.table _), _] = [(_, ExpFile.table _), _]
        have hrows : ((logspaceInt start stop num).map fun B : ℕ =>
            (⟨[(B : ℤ), 4], [(okVal (contErr scan contTracking steps 0 p.2 B) : WithBot ℝ)]⟩ : ExpRow)) =
            (logspaceInt start stop num).map fun B : ℕ => ⟨[(B : ℤ), 4], [((0 : ℝ) : WithBot ℝ)]⟩ := by
          refine List.map_congr_left fun B hB => ?_
          rcases hp' with rfl | rfl
          · dsimp only
            rw [okVal_eq (hseq B hB).1]
          · dsimp only
            rw [okVal_eq (hseq B hB).2]
        rw [hrows]
      · dsimp only
        have hiff : (∃ i < 8, 2 ≤ i ∧ mask / 2 ^ i % 2 = 1) ↔ ¬ mask / 32 % 8 = 0 := by
          constructor
          · rintro ⟨i, g1, g2, g3⟩
            interval_cases i <;> norm_num at g3 <;> omega
          · intro h
            by_cases a5 : mask / 2 ^ 5 % 2 = 1
            · exact ⟨5, by norm_num, by norm_num, a5⟩
            · by_cases a6 : mask / 2 ^ 6 % 2 = 1
              · exact ⟨6, by norm_num, by norm_num, a6⟩
              · refine ⟨7, by norm_num, by norm_num, ?_⟩
                norm_num at a5 a6 ⊢
                omega
        by_cases hx : mask / 32 % 8 = 0
        · rw [if_pos hx, if_neg fun h => (hiff.1 h) hx]
        · rw [if_neg hx, if_pos (hiff.2 hx)]
    · intro i hi _ B hB
      interval_cases i
      · exact ⟨_, (hseq B hB).1⟩
      · exact ⟨_, (hseq B hB).2⟩
    · intro i h1 h2 h3
      refine ⟨hne, fun B hB => ?_⟩
      have hp := hpos B hB
      have h5 : 5 ≤ i := by
        by_contra h
        exact hm2 i h2 (by omega) h3
      obtain ⟨g1, g2, g3⟩ := (C83_errors contTracking.1 contTracking_U contTracking.2 B steps 0 (by omega) hs).2.2 10
      interval_cases i
      · exact g1
      · exact g2
      · exact g3

/-- With the default ten steps: `mask=3` writes four files; `mask=35 niter=0` writes the same and raises `IndexError`. -/
example (fl : List Char → Py ℝ) (scan : AScan) :
    (contMain fl scan ["mask=3".toList]).2 = none ∧ (contMain fl scan ["mask=3".toList]).1.length = 4 ∧
    (contMain fl scan ["mask=35".toList, "niter=0".toList]).2 = some (.py .indexError) ∧
    (contMain fl scan ["mask=35".toList, "niter=0".toList]).1.length = 4 := by
  obtain ⟨err, h1, -⟩ := (C90_contlin_sequential fl scan ["mask=3".toList] _ rfl 2 3 5 10 2 4 0 3 "/CPU:0".toList rfl rfl rfl rfl rfl rfl rfl
    rfl rfl rfl (by norm_num) (by norm_num) (by norm_num) (by norm_num)).1 (by norm_num) (by norm_num)
  have h2 := (C90_contlin_sequential fl scan ["mask=35".toList, "niter=0".toList] _ rfl 2 3 5 10 0 4 0 35 "/CPU:0".toList rfl rfl rfl rfl
    rfl rfl rfl rfl rfl rfl (by norm_num) (by norm_num) (by norm_num) (by norm_num)).2 rfl (by norm_num)
  rw [h1, h2]
  exact ⟨rfl, rfl, rfl, rfl⟩

/-- C90 (continuous-time linear, models): every model but `tracking` ends the script with `sys.exit(1)`, without files and for every mask. -/
theorem C90_contlin_model (fl : List Char → Py ℝ) (scan : AScan) (args : List (List Char)) (c : Cfg)
    (hc : parseArgs fl contKeys contDefaults args = .ok c) (model : List Char) (num : ℕ)
    (h0 : c.lookup "model".toList = some (.str model)) (h3 : c.lookup "num".toList = some (.int num)) (hm : model ≠ "tracking".toList) :
    contMain fl scan args = ([], some (.exit 1)) := by
  obtain ⟨model', start', stop', num', steps', n', niter', single', device', mask', e0, e1, e2, e3, e4, e5, e6, e7, e8, e9, hmain⟩ :=
    contMain_eq fl scan hc
  rw [h0] at e0; rw [h3] at e3
  cases e0; cases e3
  exact (hmain num 0 0 rfl).1 hm

example (fl : List Char → Py ℝ) (scan : AScan) : contMain fl scan ["model=mass".toList, "mask=0".toList] = ([], some (.exit 1)) :=
  C90_contlin_model fl scan _ _ rfl "mass".toList 5 rfl rfl (by decide)

/-- C90 (grid solvers): with at least two grid points, one step and `0 ≤ start ≤ stop`, for all masks, devices and values of `model`, which
only enters the file names: the upwind test reports zero errors. If the direct shooting completes, all selected tests complete with the
errors of the speed tests (C84), unless the first number of blocks is one, where `ValueError` ends the script after the other files iff
the parallel test is selected. If the direct shooting fails, its exception ends the script after the file of the upwind test iff one of the other tests is selected. -/
theorem C90_nonlin (fl : List Char → Py ℝ) (scan : AScan) (hsc : ∀ α, IsAssocScan (scan α)) (args : List (List Char)) (c : Cfg)
    (hc : parseArgs fl hjbKeys hjbDefaults args = .ok c) (start stop : ℝ) (num steps g : ℕ) (single mask : ℤ) (model device : List Char)
    (h0 : c.lookup "model".toList = some (.str model)) (h1 : c.lookup "start".toList = some (.num start))
    (h2 : c.lookup "stop".toList = some (.num stop)) (h3 : c.lookup "num".toList = some (.int num))
    (h4 : c.lookup "steps".toList = some (.int steps)) (h5 : c.lookup "n".toList = some (.int ((g + 2 : ℕ) : ℤ)))
    (h7 : c.lookup "single".toList = some (.int single)) (h8 : c.lookup "device".toList = some (.str device))
    (h9 : c.lookup "mask".toList = some (.int mask)) (hst : 0 ≤ start) (hss : start ≤ stop) (hs : steps ≠ 0) :
    let Bs := logspaceInt start stop num
    let ids := [fmtD ((g + 2 : ℕ) : ℤ) ++ "_seq_upwind".toList, fmtD ((g + 2 : ℕ) : ℤ) ++ "_seq_assoc".toList,
      fmtD ((g + 2 : ℕ) : ℤ) ++ "_par_assoc".toList]
    let dev := devTxt device single
    let file (err : ℕ → WithBot ℝ × WithBot ℝ) (id : List Char) : ExpLog := [(expName model id dev,
        .table (Bs.map fun B : ℕ => ⟨[(B : ℤ), ((g + 2 : ℕ) : ℤ)], [(err B).1, (err B).2]⟩)), (expCfgName model id dev, .config c)]
    let files (k : ℕ) (err : ℕ → ℕ → WithBot ℝ × WithBot ℝ) : ExpLog :=
      ((ids.take k).zipIdx.filter fun p => mask / 2 ^ p.2 % 2 = 1).flatMap fun p => file (err p.2) p.1
    let M : CModel (g + 2) (g + 2) ℝ := velocityModel (g + 2) (g + 2)
    let shooting := directShootingBlockV M.f M.L (1 / 10) steps (List.ofFn M.x_grid) 10
    (mask / 2 % 4 = 0 → hjbMain fl scan args = (files 1 fun _ _ => (0, 0), none)) ∧
    (∀ V, shooting = .ok V → ∃ err : ℕ → ℕ → WithBot ℝ × WithBot ℝ, (∀ B, err 0 B = (0, 0)) ∧
      (∀ B ∈ Bs, CModel.seqAssocSpeed (n := g) argmin1 M B steps (1 / 10) 10 = .ok (err 1 B) ∧ (2 ≤ B →
        CModel.parAssocSpeed (n := g) scan argmin1 M B steps (1 / 10) 10 = .ok (err 2 B))) ∧
      ((2 : ℝ) ≤ 10 ^ start → hjbMain fl scan args = (files 3 err, none)) ∧
      ((10 : ℝ) ^ start < 2 → 0 < num →
        hjbMain fl scan args = (files 2 err, if mask / 4 % 2 = 0 then none else some (.py .valueError)))) ∧
    (∀ e, shooting = .error e → 0 < num →
      hjbMain fl scan args = (files 1 fun _ _ => (0, 0), if mask / 2 % 4 = 0 then none else some (.py e))) := by
  intro Bs ids dev file files M shooting
  have hpos : ∀ B ∈ Bs, 1 ≤ B := logspace_ge start stop num 1 (by
    rw [Nat.cast_one]
    exact Real.one_le_rpow (by norm_num) hst) hss
  obtain ⟨model', start', stop', num', steps', n', single', device', mask', e0, e1, e2, e3, e4, e5, e7, e8, e9, hmain⟩ :=
    hjbMain_eq fl scan hc
  rw [h0] at e0; rw [h1] at e1; rw [h2] at e2; rw [h3] at e3; rw [h4] at e4; rw [h5] at e5; rw [h7] at e7; rw [h8] at e8; rw [h9] at e9
  cases e0; cases e1; cases e2; cases e3; cases e4; cases e5; cases e7; cases e8; cases e9
  rw [hmain num steps g rfl rfl rfl]
  have hx : M.x_grid 1 ≠ M.x_grid 0 := by
    obtain ⟨-, -, dx, hdx, h⟩ := C77_grid (-3 : ℝ) 3 (by norm_num) g
    have := h 0 1 (by simp)
    intro h'
    have h'' : linspace (-3 : ℝ) 3 (g + 2) 1 = linspace (-3 : ℝ) 3 (g + 2) 0 := h'
    linarith
  set t0 : ExpTest := ⟨0, fmtD ((g + 2 : ℕ) : ℤ) ++ "_seq_upwind".toList,
    hjbTest Bs (g + 2) fun blocks => CModel.seqUpwindSpeed (n := g) M blocks steps (1 / 10) 10⟩ with ht0
  set t1 : ExpTest := ⟨1, fmtD ((g + 2 : ℕ) : ℤ) ++ "_seq_assoc".toList,
    hjbTest Bs (g + 2) fun blocks => CModel.seqAssocSpeed (n := g) argmin1 M blocks steps (1 / 10) 10⟩ with ht1
  set t2 : ExpTest := ⟨2, fmtD ((g + 2 : ℕ) : ℤ) ++ "_par_assoc".toList,
    hjbTest Bs (g + 2) fun blocks => CModel.parAssocSpeed (n := g) scan argmin1 M blocks steps (1 / 10) 10⟩ with ht2
  have htests : hjbTests scan (velocityModel (g + 2) (g + 2) : CModel (g + 2) (g + 2) ℝ) Bs steps = [t0, t1, t2] := rfl
  have r0 : t0.run = .ok (Bs.map fun B : ℕ => ⟨[(B : ℤ), ((g + 2 : ℕ) : ℤ)], [0, 0]⟩) :=
    hjbTest_ok (fun _ => (0, 0)) fun B hB => by
      have := hpos B hB
      exact C84_upwind (n := g) M (1 / 10) B steps 10 (by omega) hs (by norm_num) hx
  have hne : 0 < num → ∃ Bs', Bs = ⌊(10 : ℝ) ^ start⌋₊ :: Bs' := by
    intro hnum
    have := (C80_logspace start stop num hss).2.2.1 hnum
    change Bs[0]? = _ at this
    cases hB : Bs with
    | nil => rw [hB] at this; cases this
    | cons B Bs' =>
      rw [hB] at this
      cases this
      exact ⟨Bs', rfl⟩
  have b1 : ∀ m : ℤ, m / 2 % 4 = 0 ↔ ¬ m / 2 ^ 1 % 2 = 1 ∧ ¬ m / 2 ^ 2 % 2 = 1 := by
    intro m
    norm_num
    omega
  have b2 : ∀ m : ℤ, m / 4 % 2 = 0 ↔ ¬ m / 2 ^ 2 % 2 = 1 := by
    intro m
    norm_num
  rw [htests]
  have hfirst : ∀ e : ExpErr, (mask / 2 ^ 1 % 2 = 1 → t1.run = .error e) → (mask / 2 ^ 2 % 2 = 1 → t2.run = .error e) →
      runTests mask (writeTableCfg model dev c) [t0, t1, t2] =
        (files 1 fun _ _ => (0, 0), if mask / 2 % 4 = 0 then none else some e) := by
    intro e k1 k2
    have := runTests_rows mask (writeTableCfg model dev c) (fun _ => Bs.map fun B : ℕ => ⟨[(B : ℤ), ((g + 2 : ℕ) : ℤ)], [0, 0]⟩) e [t1, t2]
      (by
        intro t ht hm
        simp only [List.mem_cons, List.not_mem_nil, or_false] at ht
        rcases ht with rfl | rfl
        · exact k1 hm
        · exact k2 hm) [t0] (by
        intro t ht hm
        rw [List.mem_singleton] at ht
        subst ht
        exact r0)
    refine (show runTests mask (writeTableCfg model dev c) ([t0] ++ [t1, t2]) = _ from this).trans (Prod.ext rfl ?_)
    dsimp only
    by_cases hx : mask / 2 % 4 = 0
    · rw [if_pos hx, if_neg]
      rintro ⟨t, ht, hm⟩
      simp only [List.mem_cons, List.not_mem_nil, or_false] at ht
      rcases ht with rfl | rfl
      · exact ((b1 mask).1 hx).1 hm
      · exact ((b1 mask).1 hx).2 hm
    · rw [if_neg hx, if_pos]
      by_contra hno
      refine hx ((b1 mask).2 ⟨fun h => hno ⟨t1, by simp, h⟩, fun h => hno ⟨t2, by simp, h⟩⟩)
  refine ⟨fun hm => ?_, fun V hV => ?_, fun e he hnum => ?_⟩
  · have := hfirst (.exit 0) (fun h => absurd h ((b1 mask).1 hm).1) (fun h => absurd h ((b1 mask).1 hm).2)
    rwa [if_pos hm] at this
  · have key := fun B : ℕ => C84_assoc_tests (n := g) M (1 / 10) B steps 10 scan hsc V hV
    have k1 : ∀ B, ∃ e, B ∈ Bs → CModel.seqAssocSpeed (n := g) argmin1 M B steps (1 / 10) 10 = .ok e := by
      intro B
      by_cases hB : B ∈ Bs
      · have := hpos B hB
        obtain ⟨e, he⟩ := (key B (by omega) hs hx).1 (by norm_num)
        exact ⟨e, fun _ => he⟩
      · exact ⟨0, fun h => absurd h hB⟩
    have k2 : ∀ B, ∃ e, 2 ≤ B → CModel.parAssocSpeed (n := g) scan argmin1 M B steps (1 / 10) 10 = .ok e := by
      intro B
      by_cases hB : 2 ≤ B
      · obtain ⟨e, he⟩ := (key B (by omega) hs hx).2.1 (by norm_num) hB
        exact ⟨e, fun _ => he⟩
      · exact ⟨0, fun h => absurd h hB⟩
    choose err1 herr1 using k1
    choose err2 herr2 using k2
    have r1 : t1.run = .ok (Bs.map fun B : ℕ => ⟨[(B : ℤ), ((g + 2 : ℕ) : ℤ)], [(err1 B).1, (err1 B).2]⟩) := hjbTest_ok err1 herr1
    let err : ℕ → ℕ → WithBot ℝ × WithBot ℝ := fun i => match i with
      | 0 => fun _ => (0, 0)
      | 1 => err1
      | _ => err2
    refine ⟨err, fun _ => rfl, fun B hB => ⟨herr1 B hB, herr2 B⟩, fun hb => ?_, fun hb hnum => ?_⟩
    · have hge : ∀ B ∈ Bs, 2 ≤ B := logspace_ge start stop num 2 (by exact_mod_cast hb) hss
      have r2 : t2.run = .ok (Bs.map fun B : ℕ => ⟨[(B : ℤ), ((g + 2 : ℕ) : ℤ)], [(err2 B).1, (err2 B).2]⟩) :=
        hjbTest_ok err2 fun B hB => herr2 B (hge B hB)
      have := runTests_rows mask (writeTableCfg model dev c)
        (fun i => Bs.map fun B : ℕ => ⟨[(B : ℤ), ((g + 2 : ℕ) : ℤ)], [(err i B).1, (err i B).2]⟩) (.exit 0) [] (by simp) [t0, t1, t2] (by
        intro t ht hm
        simp only [List.mem_cons, List.not_mem_nil, or_false] at ht
        rcases ht with rfl | rfl | rfl
        · exact r0
        · exact r1
        · exact r2)
      refine (show runTests mask (writeTableCfg model dev c) ([t0, t1, t2] ++ []) = _ from this).trans (Prod.ext rfl ?_)
      simp
    · obtain ⟨Bs', hBs'⟩ := hne hnum
      have hfl : ⌊(10 : ℝ) ^ start⌋₊ = 1 := by
        rw [Nat.floor_eq_iff (by positivity)]
        refine ⟨by simpa using Real.one_le_rpow (by norm_num : (1 : ℝ) ≤ 10) hst, by norm_num; exact hb⟩
      rw [hfl] at hBs'
      have r2 : t2.run = .error (.py .valueError) := by
        change hjbTest Bs _ _ = _
        rw [hBs']
        exact hjbTest_error ((key 1 (by norm_num) hs hx).2.2.1 rfl)
      have := runTests_rows mask (writeTableCfg model dev c)
        (fun i => Bs.map fun B : ℕ => ⟨[(B : ℤ), ((g + 2 : ℕ) : ℤ)], [(err i B).1, (err i B).2]⟩) (.py .valueError) [t2] (by
        intro t ht hm
        rw [List.mem_singleton] at ht
        subst ht
        exact r2) [t0, t1] (by
        intro t ht hm
        simp only [List.mem_cons, List.not_mem_nil, or_false] at ht
        rcases ht with rfl | rfl
        · exact r0
        · exact r1)
      refine (show runTests mask (writeTableCfg model dev c) ([t0, t1] ++ [t2]) = _ from this).trans (Prod.ext rfl ?_)
      dsimp only
      by_cases hx : mask / 4 % 2 = 0
      · rw [if_pos hx, if_neg]
        rintro ⟨t, ht, hm⟩
        rw [List.mem_singleton] at ht
        subst ht
        exact (b2 mask).1 hx hm
      · rw [if_neg hx, if_pos]
        by_contra hno
        exact hx ((b2 mask).2 fun h => hno ⟨t2, by simp, h⟩)
  · obtain ⟨Bs', hBs'⟩ := hne hnum
    refine hfirst (.py e) (fun _ => ?_) (fun _ => ?_)
    · change hjbTest Bs _ _ = _
      rw [hBs']
      refine hjbTest_error (hjbSpeed_error ?_)
      unfold CModel.spSeqAssoc
      rw [show directShootingBlockV M.f M.L (1 / 10) steps (List.ofFn M.x_grid) 10 = .error e from he]
      rfl
    · change hjbTest Bs _ _ = _
      rw [hBs']
      refine hjbTest_error (hjbSpeed_error ?_)
      unfold CModel.spParAssoc
      rw [show directShootingBlockV M.f M.L (1 / 10) steps (List.ofFn M.x_grid) 10 = .error e from he]
      rfl

/-- The run `mask=1 model=mass` is the one of the velocity model; `mask=5 start=0` fails, in the parallel test or in the direct shooting, after
the file of the upwind test. -/
example (fl : List Char → Py ℝ) (hfl : fl "0".toList = .ok 0) :
    (hjbMain fl (fun _ op l => scanVals op l) ["mask=1".toList, "model=mass".toList]).2 = none ∧
    (hjbMain fl (fun _ op l => scanVals op l) ["mask=1".toList, "model=mass".toList]).1.length = 2 ∧
    (∃ e, (hjbMain fl (fun _ op l => scanVals op l) ["mask=5".toList, "start=0".toList]).2 = some (.py e)) ∧
    (hjbMain fl (fun _ op l => scanVals op l) ["mask=5".toList, "start=0".toList]).1.length = 2 := by
  have h1 := (C90_nonlin fl (fun _ op l => scanVals op l) (fun _ => C17_scan_example) ["mask=1".toList, "model=mass".toList] _ rfl 2 3 5 10 18
    0 1 "mass".toList "/CPU:0".toList rfl rfl rfl rfl rfl rfl rfl rfl rfl (by norm_num) (by norm_num) (by norm_num)).1
    (by norm_num)
  have hc : parseArgs fl hjbKeys hjbDefaults ["mask=5".toList, "start=0".toList] =
      .ok ((hjbDefaults.set "mask".toList (.int 5)).set "start".toList (.num 0)) := by
    have e1 : parseArg fl hjbKeys hjbDefaults "mask=5".toList = .ok (hjbDefaults.set "mask".toList (.int 5)) := rfl
    rw [parseArgs_cons, e1]
    have e2 := (parseArg_assign fl hjbKeys (hjbDefaults.set "mask".toList (.int 5)) (k := "start".toList) (v := "0".toList)
      (by decide) (by decide) (ty := .float) rfl).1 (.num 0) (by simp only [cfgRead, hfl]; rfl)
    change (parseArgs fl hjbKeys (hjbDefaults.set "mask".toList (.int 5)) [_]) = _
    rw [parseArgs_cons]
    exact congrArg (fun r => Except.bind r _) e2
  obtain ⟨-, h2, h3⟩ := C90_nonlin fl (fun _ op l => scanVals op l) (fun _ => C17_scan_example) ["mask=5".toList, "start=0".toList] _ hc 0 3 5
    10 18 0 5 "velocity".toList "/CPU:0".toList rfl rfl rfl rfl rfl rfl rfl rfl rfl (by norm_num) (by norm_num) (by norm_num)
  rw [h1]
  refine ⟨rfl, rfl, ?_⟩
  generalize hd : directShootingBlockV _ _ _ _ _ _ = r at h2 h3
  cases r with
  | error e =>
    rw [h3 e rfl (by norm_num)]
    exact ⟨⟨e, rfl⟩, rfl⟩
  | ok V =>
    obtain ⟨err, -, -, -, h⟩ := h2 V rfl
    rw [h (by norm_num) (by norm_num)]
    exact ⟨⟨_, rfl⟩, rfl⟩

end Verif
