import Verif.Props.DriversMore

/-! C92, continued: the continuous-time tracking files, and the directory `res` after several shell files. -/

namespace Verif

/-- The dictionary of a command for the continuous-time tracking experiment. -/
noncomputable def contCfg (start stop : ℝ) (num : ℕ) (dev : String) : Cfg :=
  [("model".toList, .str "tracking".toList), ("start".toList, .num start), ("stop".toList, .num stop), ("num".toList, .int num),
    ("steps".toList, .int 10), ("n".toList, .int 4), ("niter".toList, .int 2), ("single".toList, .int 0),
    ("device".toList, .str dev.toList), ("mask".toList, .int 255)]

/-- The names of the tests of the continuous-time tracking experiment with two Parareal iterations. -/
def contIds : List String :=
  ["4_seq_bw", "4_seq_bw_fw", "4_par_bw", "4_par_bw_fw", "4_par_bw_fwbw", "4_parareal_2_bw", "4_parareal_2_bw_fw", "4_parareal_2_bw_fwbw"]

/-- The table and the dictionary of a test. -/
noncomputable def contFiles (start stop : ℝ) (num : ℕ) (dev devt : String) (err : ℕ → ℝ) (id : String) : ExpLog :=
  [(expName "tracking".toList id.toList devt.toList,
      .table ((logspaceInt start stop num).map fun B : ℕ => ⟨[(B : ℤ), 4], [(err B : WithBot ℝ)]⟩)),
    (expCfgName "tracking".toList id.toList devt.toList, .config (contCfg start stop num dev))]

/-- The outcome of a command for the continuous-time tracking experiment: the first `k` of the eight tests are written, at least the two
sequential ones, whose errors are zero; the other errors are those of the speed tests with ten steps per block and two Parareal iterations.
If `k < 8`, the command fails with the exception that the next test raises for some number of blocks. -/
def ContOutcome (scan : AScan) (start stop : ℝ) (num : ℕ) (dev devt : String) (out : ExpLog × Option ExpErr) : Prop :=
  let P := contTracking
  let tests : List (ℕ → Py ℝ) := [fun B => P.1.seqBwSpeed P.2 B 10 10, fun B => P.1.seqBwFwSpeed P.2 B 10 10,
    fun B => P.1.parBwSpeed scan P.2 B 10 10, fun B => P.1.parBwFwSpeed scan P.2 B 10 10, fun B => P.1.parBwFwBwSpeed scan P.2 B 10 10,
    fun B => P.1.prBwSpeed P.2 B 10 2 10, fun B => P.1.prBwFwSpeed P.2 B 10 2 10, fun B => P.1.prBwFwBwSpeed P.2 B 10 2 10]
  ∃ (k : ℕ) (err : ℕ → ℕ → ℝ), 2 ≤ k ∧ k ≤ 8 ∧ (∀ B, err 0 B = 0 ∧ err 1 B = 0) ∧
    (∀ i < k, ∃ t, tests[i]? = some t ∧ ∀ B ∈ logspaceInt start stop num, t B = .ok (err i B)) ∧
    out.1 = ((contIds.take k).zipIdx.flatMap fun p => contFiles start stop num dev devt (err p.2) p.1) ∧
    (k = 8 ∧ out.2 = none ∨
      ∃ t e, tests[k]? = some t ∧ (∃ B ∈ logspaceInt start stop num, t B = .error e) ∧ out.2 = some (.py e))

theorem contMain_outcome (fl : List Char → Py ℝ) (scan : AScan) (args : List (List Char)) (c : Cfg)
    (hc : parseArgs fl contKeys contDefaults args = .ok c) (start stop : ℝ) (num : ℕ) (dev devt : String)
    (hcc : c = contCfg start stop num dev) (hst : 0 ≤ start) (hss : start ≤ stop)
    (hdt : devTxt dev.toList 0 = devt.toList) : ContOutcome scan start stop num dev devt (contMain fl scan args) := by
  obtain ⟨model', start', stop', num', steps', n', niter', single', device', mask', e0, e1, e2, e3, e4, e5, e6, e7, e8, e9, hmain⟩ :=
    contMain_eq fl scan hc
  have h0 : c.lookup "model".toList = some (.str "tracking".toList) := by rw [hcc]; rfl
  have h1 : c.lookup "start".toList = some (.num start) := by rw [hcc]; rfl
  have h2 : c.lookup "stop".toList = some (.num stop) := by rw [hcc]; rfl
  have h3 : c.lookup "num".toList = some (.int num) := by rw [hcc]; rfl
  have h4 : c.lookup "steps".toList = some (.int (10 : ℕ)) := by rw [hcc]; rfl
  have h5 : c.lookup "n".toList = some (.int 4) := by rw [hcc]; rfl
  have h6 : c.lookup "niter".toList = some (.int (2 : ℕ)) := by rw [hcc]; rfl
  have h7 : c.lookup "single".toList = some (.int 0) := by rw [hcc]; rfl
  have h8 : c.lookup "device".toList = some (.str dev.toList) := by rw [hcc]; rfl
  have h9 : c.lookup "mask".toList = some (.int 255) := by rw [hcc]; rfl
  rw [h0] at e0; rw [h1] at e1; rw [h2] at e2; rw [h3] at e3; rw [h4] at e4; rw [h5] at e5; rw [h6] at e6; rw [h7] at e7; rw [h8] at e8
  rw [h9] at e9
  cases e0; cases e1; cases e2; cases e3; cases e4; cases e5; cases e6; cases e7; cases e8; cases e9
  rw [(hmain num 10 2 rfl).2 rfl rfl rfl, hdt]
  have hpos : ∀ B ∈ logspaceInt start stop num, 1 ≤ B := logspace_ge start stop num 1 (by
    rw [Nat.cast_one]
    exact Real.one_le_rpow (by norm_num) hst) hss
  set tests := contTests scan contTracking (logspaceInt start stop num) 10 2 4 (2 : ℕ) with htests
  have hbit : ∀ t ∈ tests, (255 : ℤ) / 2 ^ t.bit % 2 = 1 := by
    intro t ht
    obtain ⟨i, hi⟩ := List.mem_iff_getElem?.1 ht
    obtain ⟨g1, g2, -⟩ := contTests_id hi
    rw [g2]
    interval_cases i <;> norm_num
  obtain ⟨k, rows, r1, r2, r3, r4⟩ := runTests_cut 255 (writeTableCfg "tracking".toList devt.toList c) tests hbit
  have hlen : tests.length = 8 := rfl
  have hrun : ∀ i t, tests[i]? = some t → t.run = contTest (logspaceInt start stop num) (contErr scan contTracking 10 2 i) := by
    intro i t ht
    have hi := (contTests_id ht).1
    interval_cases i <;> cases ht <;> rfl
  have hseq : ∀ i < 2, ∀ B ∈ logspaceInt start stop num, contErr scan contTracking 10 2 i B = .ok 0 := by
    intro i hi B hB
    have := hpos B hB
    obtain ⟨g1, g2, -⟩ := C83_tracking B 10 2 10 (by omega) (by norm_num) (by norm_num)
    interval_cases i
    · exact g1
    · exact g2
  have hk2 : 2 ≤ k := by
    by_contra hk
    rcases r4 with ⟨g1, -⟩ | ⟨t, e, g1, g2, -⟩
    · omega
    · rw [hrun k t g1] at g2
      obtain ⟨B, hB, e', g3, -⟩ := (contTest_cases _ _).2 e g2
      rw [hseq k (by omega) B hB] at g3
      cases g3
  let err : ℕ → ℕ → ℝ := fun i B => if i < 2 then 0 else okVal (contErr scan contTracking 10 2 i B)
  have herr : ∀ i < k, (∀ B ∈ logspaceInt start stop num, contErr scan contTracking 10 2 i B = .ok (err i B)) ∧
      rows i = (logspaceInt start stop num).map fun B : ℕ => ⟨[(B : ℤ), 4], [(err i B : WithBot ℝ)]⟩ := by
    intro i hi
    obtain ⟨t, g1, g2⟩ := r2 i hi
    rw [hrun i t g1] at g2
    obtain ⟨er, g3, g4⟩ := (contTest_cases _ _).1 _ g2
    have hB : ∀ B ∈ logspaceInt start stop num, contErr scan contTracking 10 2 i B = .ok (err i B) := by
      intro B hB
      by_cases h : i < 2
      · rw [hseq i h B hB]
        exact congrArg Except.ok (if_pos h).symm
      · exact (okVal_ok (g3 B hB)).trans (congrArg Except.ok (if_neg h).symm)
    refine ⟨hB, ?_⟩
    rw [g4]
    refine List.map_congr_left fun B hB' => ?_
    have := (g3 B hB').symm.trans (hB B hB')
    rw [Except.ok.inj this]
  have htest : ∀ i < 8, ([fun B => contTracking.1.seqBwSpeed contTracking.2 B 10 10, fun B => contTracking.1.seqBwFwSpeed contTracking.2 B 10 10,
      fun B => contTracking.1.parBwSpeed scan contTracking.2 B 10 10, fun B => contTracking.1.parBwFwSpeed scan contTracking.2 B 10 10,
      fun B => contTracking.1.parBwFwBwSpeed scan contTracking.2 B 10 10, fun B => contTracking.1.prBwSpeed contTracking.2 B 10 2 10,
      fun B => contTracking.1.prBwFwSpeed contTracking.2 B 10 2 10, fun B => contTracking.1.prBwFwBwSpeed contTracking.2 B 10 2 10] :
        List (ℕ → Py ℝ))[i]? = some (contErr scan contTracking 10 2 i) := by
    intro i hi
    interval_cases i <;> rfl
  refine ⟨k, err, hk2, hlen ▸ r1, fun B => by simp [err], fun i hi => ⟨_, htest i (by omega), (herr i hi).1⟩, ?_, ?_⟩
  · rw [r3]
    have hids : tests.map (fun t => t.id) = contIds.map String.toList := by
      change [fmtD 4 ++ "_seq_bw".toList, fmtD 4 ++ "_seq_bw_fw".toList, fmtD 4 ++ "_par_bw".toList, fmtD 4 ++ "_par_bw_fw".toList,
        fmtD 4 ++ "_par_bw_fwbw".toList, fmtD 4 ++ "_parareal_".toList ++ fmtD (2 : ℕ) ++ "_bw".toList,
        fmtD 4 ++ "_parareal_".toList ++ fmtD (2 : ℕ) ++ "_bw_fw".toList, fmtD 4 ++ "_parareal_".toList ++ fmtD (2 : ℕ) ++ "_bw_fwbw".toList] = _
      decide +kernel
    have e1 : ((tests.take k).zipIdx.flatMap fun p => writeTableCfg "tracking".toList devt.toList c p.1.id (rows p.2)) =
        ((tests.map fun t => t.id).take k).zipIdx.flatMap fun p => writeTableCfg "tracking".toList devt.toList c p.1 (rows p.2) := by
      rw [← List.map_take, List.zipIdx_map, List.flatMap_map]
      rfl
    rw [e1, hids, ← List.map_take, List.zipIdx_map, List.flatMap_map]
    refine List.flatMap_congr fun p hp => ?_
    have hpk : p.2 < k := by
      have := List.snd_lt_of_mem_zipIdx hp
      rw [List.length_take] at this
      omega
    rw [hcc]
    change writeTableCfg _ _ _ _ (rows p.2) = _
    rw [(herr _ hpk).2]
    rfl
  · rcases r4 with ⟨g1, g2⟩ | ⟨t, e, g1, g2, g3⟩
    · exact Or.inl ⟨g1, g2⟩
    · right
      rw [hrun k t g1] at g2
      obtain ⟨B, hB, e', g4, rfl⟩ := (contTest_cases _ _).2 e g2
      exact ⟨_, e', htest k (contTests_id g1).1, ⟨B, hB, g4⟩, g3⟩

theorem ctrackingCmd1_run (W : World) (hW : W.Ok) (dev devt : String) (hd : '=' ∉ dev.toList)
    (hdt : devTxt dev.toList 0 = devt.toList) : ContOutcome W.scan 2 5 20 dev devt ((ctrackingCmd1 dev).run W) := by
  have key : ∀ c, convArgs contKeys contDefaults (ctrackingCmd1 dev).args = some c → c = contCfg 2 5 20 dev →
      ContOutcome W.scan 2 5 20 dev devt ((ctrackingCmd1 dev).run W) := by
    intro c hc hcc
    exact contMain_outcome W.fl W.scan _ c (parse_convArgs hW.float hc) 2 5 20 dev devt hcc (by norm_num) (by norm_num) hdt
  refine key _ (by conv_args_dev hd) ?_
  rw [Int.cast_ofNat]
  rfl

theorem ctrackingCmd2_run (W : World) (hW : W.Ok) (hf : W.fl "2.5".toList = .ok (5 / 2)) (dev devt : String) (hd : '=' ∉ dev.toList)
    (hdt : devTxt dev.toList 0 = devt.toList) : ContOutcome W.scan (5 / 2) 3 10 dev devt ((ctrackingCmd2 dev).run W) := by
  have key : ∀ c, convArgs contKeys (contDefaults.set "start".toList (.num (5 / 2))) ((ctrackingCmd2 dev).args.drop 1) = some c →
      c = contCfg (5 / 2) 3 10 dev →
      ContOutcome W.scan (5 / 2) 3 10 dev devt ((ctrackingCmd2 dev).run W) := by
    intro c hc hcc
    refine contMain_outcome W.fl W.scan _ c ?_ (5 / 2) 3 10 dev devt hcc (by norm_num) (by norm_num) hdt
    have h := (parseArg_assign W.fl contKeys contDefaults (k := "start".toList) (v := "2.5".toList) (by decide) (by decide) (ty := .float) rfl).1
      (.num (5 / 2)) (by simp only [cfgRead, hf]; rfl)
    change parseArgs W.fl contKeys contDefaults (("start".toList ++ '=' :: "2.5".toList) :: ((ctrackingCmd2 dev).args.drop 1).map argText) = _
    rw [parseArgs_cons, h]
    exact parse_convArgs hW.float hc
  refine key _ (by conv_args_dev hd) ?_
  rw [Int.cast_ofNat]
  rfl

/-- C92 (continuous-time tracking): both files run on both devices; every command writes the tables of the two sequential tests, with zero
errors, and goes on until a test fails. -/
theorem C92_ctracking (W : ℕ → World) (hW : ∀ k, (W k).Ok) (hf : ∀ k, (W k).fl "2.5".toList = .ok (5 / 2)) :
    (∃ a b, runDriver W gpuCtracking1 = [a, b] ∧ ContOutcome (W 0).scan 2 5 20 "/CPU:0" "cpu_mc" a ∧
      ContOutcome (W 1).scan 2 5 20 "/GPU:0" "gpu_mc" b) ∧
    ∃ a b, runDriver W gpuCtracking2 = [a, b] ∧ ContOutcome (W 0).scan (5 / 2) 3 10 "/CPU:0" "cpu_mc" a ∧
      ContOutcome (W 1).scan (5 / 2) 3 10 "/GPU:0" "gpu_mc" b := by
  exact ⟨⟨_, _, rfl, ctrackingCmd1_run (W 0) (hW 0) _ _ (by decide +kernel) (by decide +kernel),
    ctrackingCmd1_run (W 1) (hW 1) _ _ (by decide +kernel) (by decide +kernel)⟩,
    _, _, rfl, ctrackingCmd2_run (W 0) (hW 0) (hf 0) _ _ (by decide +kernel) (by decide +kernel),
    ctrackingCmd2_run (W 1) (hW 1) (hf 1) _ _ (by decide +kernel) (by decide +kernel)⟩

/-- The second table of the first command of `gpu_ctracking_2.sh`. -/
example : ∃ r, (runDriver (fun _ => sampleWorld) gpuCtracking2)[0]? = some r ∧ r.1[2]? = some ("res/tracking_4_seq_bw_fw_cpu_mc.txt".toList,
    .table ((logspaceInt (5 / 2) 3 10).map fun B : ℕ => ⟨[(B : ℤ), 4], [((0 : ℝ) : WithBot ℝ)]⟩)) := by
  obtain ⟨a, b, h, ⟨k, err, h2, -, h0, -, hout, -⟩, -⟩ := (C92_ctracking _ (fun _ => sampleWorld_ok) fun _ => sampleWorld_fl).2
  refine ⟨a, by rw [h]; rfl, ?_⟩
  rw [hout]
  obtain ⟨k, rfl⟩ : ∃ j, k = j + 2 := ⟨k - 2, by omega⟩
  rw [contIds, List.take_succ_cons, List.take_succ_cons, List.zipIdx_cons, List.zipIdx_cons, List.flatMap_cons, List.flatMap_cons]
  have e1 : err (0 + 1) = fun _ => 0 := funext fun B => (h0 B).2
  rw [e1]
  have n : expName "tracking".toList "4_seq_bw_fw".toList "cpu_mc".toList = "res/tracking_4_seq_bw_fw_cpu_mc.txt".toList := by decide +kernel
  unfold contFiles
  simp only [List.cons_append, List.nil_append, List.getElem?_cons_succ, List.getElem?_cons_zero, n]

/-! ### The directory -/

theorem foldl_write_const {log : ExpLog} {file : ExpFile} (hlog : ∀ f ∈ log, f.2 = file) (d : Dir) {name : List Char}
    (hn : name ∈ log.map Prod.fst) : log.foldl Dir.write d name = some file := by
  induction log using List.reverseRecOn with
  | nil => simp at hn
  | append_singleton log f ih =>
    rw [List.foldl_append, List.foldl_cons, List.foldl_nil, Dir.write]
    split_ifs with h
    · rw [hlog f (by simp)]
    · refine ih (fun g hg => hlog g (by simp [hg])) ?_
      rw [List.map_append, List.mem_append] at hn
      rcases hn with hn | hn
      · exact hn
      · simp only [List.map_cons, List.map_nil, List.mem_singleton] at hn
        exact absurd hn h

/-- C92 (repeated commands): the files `cpu_tracking_2b.sh` and `gpu_tracking_2b.sh` write nothing that the files `2a` have not
written already; run after them they leave the directory as it is. -/
theorem C92_repeat (W W' : ℕ → World) (hW : ∀ k, (W k).Ok) (hW' : ∀ k, (W' k).Ok) (d : Dir) :
    dirAfter W' cpuTracking2b (dirAfter W cpuTracking2a d) = dirAfter W cpuTracking2a d ∧
    dirAfter W' gpuTracking2b (dirAfter W gpuTracking2a d) = dirAfter W gpuTracking2a d := by
  obtain ⟨-, -, ca, -, ga, -⟩ := C92_tracking W hW
  obtain ⟨-, -, -, cb, -, gb, -⟩ := C92_tracking W' hW'
  have main : ∀ dev : String,
      let log (ncs : List ℕ) : ExpLog := (ncs.map fun nc => (((condIds nc).map fun id =>
        (expName "tracking".toList id dev.toList, trackRows 2 5 20), none) : ExpLog × Option ExpErr)).flatMap Prod.fst
      (log [2, 4, 8, 16, 32, 64, 128]).foldl Dir.write ((log [2, 4, 8, 16, 32, 64, 128, 256]).foldl Dir.write d) =
        (log [2, 4, 8, 16, 32, 64, 128, 256]).foldl Dir.write d := by
    intro dev log
    have hconst : ∀ ncs, ∀ f ∈ log ncs, f.2 = trackRows 2 5 20 := by
      intro ncs f hf
      simp only [log, List.flatMap_map, List.mem_flatMap, List.mem_map] at hf
      obtain ⟨nc, -, id, -, rfl⟩ := hf
      rfl
    refine foldl_write_same _ _ fun f hf => ?_
    rw [hconst _ f hf]
    refine foldl_write_const (hconst _) d ?_
    refine List.mem_map_of_mem ?_
    simp only [log, List.flatMap_map, List.mem_flatMap] at hf ⊢
    obtain ⟨nc, h1, h2⟩ := hf
    refine ⟨nc, ?_, h2⟩
    simp only [List.mem_cons, List.not_mem_nil, or_false] at h1 ⊢
    omega
  unfold dirAfter
  rw [ca, cb, ga, gb]
  exact ⟨main "cpu_mc", main "gpu_mc"⟩

/-- After both files the directory has the table for blocks of length 256, which only the first one writes. -/
example (d : Dir) : dirAfter (fun _ => sampleWorld) gpuTracking2b (dirAfter (fun _ => sampleWorld) gpuTracking2a d)
    "res/tracking_4_sequential_cond256_bwfw_gpu_mc.txt".toList = some (trackRows 2 5 20) := by
  rw [(C92_repeat _ _ (fun _ => sampleWorld_ok) (fun _ => sampleWorld_ok) d).2, dirAfter,
    (C92_tracking _ fun _ => sampleWorld_ok).2.2.2.2.1]
  refine foldl_write_const (fun f hf => ?_) d ?_
  · simp only [List.flatMap_map, List.mem_flatMap, List.mem_map] at hf
    obtain ⟨nc, -, id, -, rfl⟩ := hf
    rfl
  · rw [List.flatMap_map, List.map_flatMap]
    simp only [List.map_map]
    decide +kernel

/-- C92 (lost results, Viterbi): `gpu_viterbi_2.sh` replaces all files of `gpu_viterbi_1.sh`. -/
theorem C92_lost_viterbi (W W' : ℕ → World) (hW : ∀ k, (W k).Ok) (hW' : ∀ k, (W' k).Ok) (d : Dir) :
    dirAfter W' gpuViterbi2 (dirAfter W gpuViterbi1 d) = dirAfter W' gpuViterbi2 d := by
  unfold dirAfter
  rw [(C92_viterbi W hW).1, (C92_viterbi W' hW').2]
  refine foldl_write_replace _ _ d fun f hf => ?_
  have hn : ∀ (stop num stop' num' : ℕ) (dev devt : String), (vitFiles stop num dev devt).map Prod.fst = (vitFiles stop' num' dev devt).map Prod.fst :=
    fun _ _ _ _ _ _ => rfl
  have : f.1 ∈ ([(vitFiles 6 20 "/CPU:0" "cpu_mc", (none : Option ExpErr)), (vitFiles 6 20 "/GPU:0" "gpu_mc", none)].flatMap Prod.fst).map
      Prod.fst := by
    simp only [List.flatMap_cons, List.flatMap_nil, List.append_nil, List.map_append, List.mem_append] at hf ⊢
    rcases hf with hf | hf
    · exact Or.inl (hn 4 10 6 20 _ _ ▸ List.mem_map_of_mem hf)
    · exact Or.inr (hn 4 10 6 20 _ _ ▸ List.mem_map_of_mem hf)
  obtain ⟨g, g1, g2⟩ := List.mem_map.1 this
  exact ⟨g, g1, g2⟩

/-- After both files the first table is that of the second file. -/
example (d : Dir) : dirAfter (fun _ => sampleWorld) gpuViterbi2 (dirAfter (fun _ => sampleWorld) gpuViterbi1 d)
    "res/ge_viterbi_seq_fwbw_cpu_mc.txt".toList = some (.table ((logspaceInt 2 (6 : ℕ) 20).map fun S : ℕ => ⟨[(S : ℤ)], [0]⟩)) := by
  rw [C92_lost_viterbi _ _ (fun _ => sampleWorld_ok) (fun _ => sampleWorld_ok) d, dirAfter, (C92_viterbi _ fun _ => sampleWorld_ok).2,
    show "res/ge_viterbi_seq_fwbw_cpu_mc.txt".toList = expName "ge".toList "viterbi_seq_fwbw".toList "cpu_mc".toList by decide +kernel]
  refine foldl_write_nodup (f := (expName "ge".toList "viterbi_seq_fwbw".toList "cpu_mc".toList, _)) ?_ d List.mem_cons_self
  simp only [List.flatMap_cons, List.flatMap_nil, List.append_nil, List.map_append, vitFiles, List.map_flatMap, List.map_cons, List.map_nil]
  decide +kernel

/-- C92 (lost results, masses): `gpu_mass_2.sh` replaces the five tables for 256 masses that `gpu_mass_1.sh` has written, which go up to
10000 steps, by tables that go up to 1000 steps; the tables with one thread remain. -/
theorem C92_lost_mass (W W' : ℕ → World) (hW : ∀ k, (W k).Ok) (hW' : ∀ k, (W' k).Ok) (d : Dir) :
    let before := dirAfter W gpuMass1 d
    let after := dirAfter W' gpuMass2 before
    (∀ id ∈ plainIds 256, before (expName "mass".toList id "gpu_mc".toList) = some (massRows 256 2 4 20) ∧
      after (expName "mass".toList id "gpu_mc".toList) = some (massRows 256 2 3 20)) ∧
    (∀ id ∈ ["256_sequential_bw".toList, "256_sequential_bwfw".toList],
      after (expName "mass".toList id "gpu_sc".toList) = some (massRows 256 2 4 20)) ∧
    (logspaceInt 2 4 20)[19]? = some 10000 ∧ (logspaceInt 2 3 20)[19]? = some 1000 := by
  intro before after
  have h1 := (C92_mass W hW).2.1
  have h2 := (C92_mass W' hW').2.2
  have hsc : ∀ id ∈ ["256_sequential_bw".toList, "256_sequential_bwfw".toList],
      id ∈ [fmtD (256 : ℕ) ++ "_sequential_bw".toList, fmtD (256 : ℕ) ++ "_sequential_bwfw".toList] := by decide +kernel
  have hb : ∀ name, ((∃ id ∈ plainIds 256, name = expName "mass".toList id "gpu_mc".toList) ∨
      ∃ id ∈ [fmtD (256 : ℕ) ++ "_sequential_bw".toList, fmtD (256 : ℕ) ++ "_sequential_bwfw".toList],
        name = expName "mass".toList id "gpu_sc".toList) → before name = some (massRows 256 2 4 20) := by
    intro name hname
    change dirAfter W gpuMass1 d name = _
    rw [dirAfter, h1]
    refine foldl_write_const (fun f hf => ?_) d ?_
    · simp only [List.flatMap_cons, List.flatMap_nil, List.append_nil, List.mem_append, List.mem_map] at hf
      rcases hf with ⟨id, -, rfl⟩ | ⟨id, -, rfl⟩ <;> rfl
    · simp only [List.flatMap_cons, List.flatMap_nil, List.append_nil, List.map_append, List.map_map, List.mem_append, List.mem_map,
        Function.comp_apply]
      rcases hname with ⟨id, g1, rfl⟩ | ⟨id, g1, rfl⟩
      · exact Or.inl ⟨id, g1, rfl⟩
      · exact Or.inr ⟨id, g1, rfl⟩
  set log : ExpLog := (runDriver W' gpuMass2).flatMap Prod.fst with hlog
  have hnames : log.map Prod.fst = [2, 4, 8, 16, 32, 64, 128, 256, 512, 1014, 2048].flatMap fun n : ℕ =>
      (plainIds n).map fun id => expName "mass".toList id "gpu_mc".toList := by
    rw [hlog, h2, List.flatMap_map, List.map_flatMap]
    simp only [List.map_map]
    rfl
  refine ⟨fun id hid => ⟨hb _ (Or.inl ⟨id, hid, rfl⟩), ?_⟩, fun id hid => ?_, ?_, ?_⟩
  · change log.foldl Dir.write before _ = _
    refine foldl_write_nodup (log := log) ?_ before (f := (expName "mass".toList id "gpu_mc".toList, massRows 256 2 3 20)) ?_
    · rw [hnames]
      decide +kernel
    · rw [hlog, h2, List.flatMap_map, List.mem_flatMap]
      exact ⟨256, by simp, List.mem_map.2 ⟨id, hid, rfl⟩⟩
  · change log.foldl Dir.write before _ = _
    rw [foldl_write_of_not_mem, hb _ (Or.inr ⟨id, hsc id hid, rfl⟩)]
    intro f hf e
    have hm : expName "mass".toList id "gpu_sc".toList ∈ log.map Prod.fst := e ▸ List.mem_map_of_mem hf
    rw [hnames] at hm
    have hno : ∀ id ∈ ["256_sequential_bw".toList, "256_sequential_bwfw".toList], expName "mass".toList id "gpu_sc".toList ∉
        [2, 4, 8, 16, 32, 64, 128, 256, 512, 1014, 2048].flatMap fun n : ℕ =>
          (plainIds n).map fun id => expName "mass".toList id "gpu_mc".toList := by decide +kernel
    exact hno id hid hm
  · have := (C80_logspace 2 4 20 (by norm_num)).2.2.2.1 (by norm_num)
    rw [show (10 : ℝ) ^ (4 : ℝ) = ((10000 : ℕ) : ℝ) by norm_num, Nat.floor_natCast] at this
    exact this
  · have := (C80_logspace 2 3 20 (by norm_num)).2.2.2.1 (by norm_num)
    rw [show (10 : ℝ) ^ (3 : ℝ) = ((1000 : ℕ) : ℝ) by norm_num, Nat.floor_natCast] at this
    exact this

/-- The table for 256 masses of the sequential test. -/
example (d : Dir) : dirAfter (fun _ => sampleWorld) gpuMass2 (dirAfter (fun _ => sampleWorld) gpuMass1 d)
    "res/mass_256_sequential_bw_gpu_mc.txt".toList = some (massRows 256 2 3 20) := by
  have h := ((C92_lost_mass _ _ (fun _ => sampleWorld_ok) (fun _ => sampleWorld_ok) d).1 _ List.mem_cons_self).2
  rw [show expName "mass".toList (fmtD (256 : ℕ) ++ "_sequential_bw".toList) "gpu_mc".toList = "res/mass_256_sequential_bw_gpu_mc.txt".toList by
    decide +kernel] at h
  exact h

/-- The names of the files of a command for the continuous-time tracking experiment. -/
def contNames (devt : String) : List (List Char) :=
  contIds.flatMap fun id => [expName "tracking".toList id.toList devt.toList, expCfgName "tracking".toList id.toList devt.toList]

theorem contOutcome_names {scan : AScan} {start stop : ℝ} {num : ℕ} {dev devt : String} {out : ExpLog × Option ExpErr}
    (h : ContOutcome scan start stop num dev devt out) : (out.1.map Prod.fst).Sublist (contNames devt) ∧
      ∀ id ∈ ["4_seq_bw", "4_seq_bw_fw"], ∀ f ∈ contFiles start stop num dev devt (fun _ => 0) id, f ∈ out.1 := by
  obtain ⟨k, err, h2, h8, h0, -, hout, -⟩ := h
  rw [hout]
  constructor
  · rw [List.map_flatMap]
    have : ((contIds.take k).zipIdx.flatMap fun p => (contFiles start stop num dev devt (err p.2) p.1).map Prod.fst) =
        (contIds.take k).flatMap fun id => [expName "tracking".toList id.toList devt.toList, expCfgName "tracking".toList id.toList devt.toList] := by
      conv_rhs => rw [← List.zipIdx_map_fst 0 (contIds.take k), List.flatMap_map]
      rfl
    rw [this]
    unfold contNames
    conv_rhs => rw [← List.take_append_drop k contIds, List.flatMap_append]
    exact List.sublist_append_left _ _
  · intro id hid f hf
    rw [List.mem_flatMap]
    have e0 : err 0 = fun _ => 0 := funext fun B => (h0 B).1
    have e1 : err 1 = fun _ => 0 := funext fun B => (h0 B).2
    simp only [List.mem_cons, List.not_mem_nil, or_false] at hid
    rcases hid with rfl | rfl
    · refine ⟨("4_seq_bw", 0), ?_, by rw [e0]; exact hf⟩
      rw [List.mem_zipIdx_iff_getElem?, List.getElem?_take, if_pos (by omega)]
      rfl
    · refine ⟨("4_seq_bw_fw", 1), ?_, by rw [e1]; exact hf⟩
      rw [List.mem_zipIdx_iff_getElem?, List.getElem?_take, if_pos (by omega)]
      rfl

/-- C92 (lost results, continuous-time tracking): after `gpu_ctracking_1.sh` the tables of the sequential tests go from 100 to 100000
blocks; `gpu_ctracking_2.sh` replaces them and their dictionaries by those of the shorter range. -/
theorem C92_lost_ctracking (W W' : ℕ → World) (hW : ∀ k, (W k).Ok) (hW' : ∀ k, (W' k).Ok)
    (hf : ∀ k, (W' k).fl "2.5".toList = .ok (5 / 2)) (d : Dir) :
    ∀ p ∈ [("/CPU:0", "cpu_mc"), ("/GPU:0", "gpu_mc")], ∀ id ∈ ["4_seq_bw", "4_seq_bw_fw"],
      (∀ f ∈ contFiles 2 5 20 p.1 p.2 (fun _ => 0) id, dirAfter W gpuCtracking1 d f.1 = some f.2) ∧
      ∀ f ∈ contFiles (5 / 2) 3 10 p.1 p.2 (fun _ => 0) id, dirAfter W' gpuCtracking2 (dirAfter W gpuCtracking1 d) f.1 = some f.2 := by
  have main : ∀ (start stop : ℝ) (num : ℕ) (scan scan' : AScan) (a b : ExpLog × Option ExpErr) (d : Dir),
      ContOutcome scan start stop num "/CPU:0" "cpu_mc" a → ContOutcome scan' start stop num "/GPU:0" "gpu_mc" b →
      ∀ p ∈ [("/CPU:0", "cpu_mc"), ("/GPU:0", "gpu_mc")], ∀ id ∈ ["4_seq_bw", "4_seq_bw_fw"],
        ∀ f ∈ contFiles start stop num p.1 p.2 (fun _ => 0) id, ([a, b].flatMap Prod.fst).foldl Dir.write d f.1 = some f.2 := by
    intro start stop num scan scan' a b d ha hb p hp id hid f hf
    obtain ⟨a1, a2⟩ := contOutcome_names ha
    obtain ⟨b1, b2⟩ := contOutcome_names hb
    refine foldl_write_nodup ?_ d ?_
    · simp only [List.flatMap_cons, List.flatMap_nil, List.append_nil, List.map_append]
      have : (contNames "cpu_mc" ++ contNames "gpu_mc").Nodup := by decide +kernel
      exact this.sublist (a1.append b1)
    · simp only [List.flatMap_cons, List.flatMap_nil, List.append_nil, List.mem_append]
      simp only [List.mem_cons, List.not_mem_nil, or_false] at hp
      rcases hp with rfl | rfl
      · exact Or.inl (a2 id hid f hf)
      · exact Or.inr (b2 id hid f hf)
  have h1 : ∃ a b, runDriver W gpuCtracking1 = [a, b] ∧ ContOutcome (W 0).scan 2 5 20 "/CPU:0" "cpu_mc" a ∧
      ContOutcome (W 1).scan 2 5 20 "/GPU:0" "gpu_mc" b :=
    ⟨_, _, rfl, ctrackingCmd1_run (W 0) (hW 0) _ _ (by decide +kernel) (by decide +kernel),
      ctrackingCmd1_run (W 1) (hW 1) _ _ (by decide +kernel) (by decide +kernel)⟩
  obtain ⟨a, b, e1, ha, hb⟩ := h1
  obtain ⟨a', b', e2, ha', hb'⟩ := (C92_ctracking W' hW' hf).2
  intro p hp id hid
  constructor
  · intro f hff
    rw [dirAfter, e1]
    exact main _ _ _ _ _ a b d ha hb p hp id hid f hff
  · intro f hff
    rw [dirAfter, e2]
    exact main _ _ _ _ _ a' b' _ ha' hb' p hp id hid f hff

/-- The table of the second sequential test on the GPU. -/
example (d : Dir) : dirAfter (fun _ => sampleWorld) gpuCtracking2 (dirAfter (fun _ => sampleWorld) gpuCtracking1 d)
    "res/tracking_4_seq_bw_fw_gpu_mc.txt".toList =
      some (.table ((logspaceInt (5 / 2) 3 10).map fun B : ℕ => ⟨[(B : ℤ), 4], [((0 : ℝ) : WithBot ℝ)]⟩)) := by
  have h := (C92_lost_ctracking _ _ (fun _ => sampleWorld_ok) (fun _ => sampleWorld_ok) (fun _ => sampleWorld_fl) d ("/GPU:0", "gpu_mc")
    (by simp) "4_seq_bw_fw" (by simp)).2 _ List.mem_cons_self
  rw [show expName "tracking".toList "4_seq_bw_fw".toList ("/GPU:0", "gpu_mc").2.toList = "res/tracking_4_seq_bw_fw_gpu_mc.txt".toList by
    decide +kernel] at h
  exact h

theorem last_two {α : Type} {l : List α} {n : ℕ} {a b : α} (hlen : l.length = n + 2) (ha : l[n]? = some a) (hb : l[n + 1]? = some b) :
    ∃ pre, l = pre ++ [a, b] := by
  refine ⟨l.take n, ?_⟩
  conv_lhs => rw [← List.take_append_drop n l]
  congr 1
  apply List.ext_getElem?
  intro j
  rw [List.getElem?_drop]
  rcases j with _ | _ | j
  · exact ha
  · exact hb
  · rw [List.getElem?_eq_none (by omega)]
    rfl

theorem write_last_two (pre : List (ExpLog × Option ExpErr)) (d : Dir) (n1 c1 n2 c2 : List Char) (t1 f1 t2 f2 : ExpFile) (h1 : c1 ≠ n2)
    (h2 : c1 ≠ c2) (x y : Option ExpErr) :
    ((pre ++ [([(n1, t1), (c1, f1)], x), ([(n2, t2), (c2, f2)], y)]).flatMap Prod.fst).foldl Dir.write d c1 = some f1 ∧
    ((pre ++ [([(n1, t1), (c1, f1)], x), ([(n2, t2), (c2, f2)], y)]).flatMap Prod.fst).foldl Dir.write d c2 = some f2 := by
  rw [List.flatMap_append, List.foldl_append]
  simp only [List.flatMap_cons, List.flatMap_nil, List.append_nil, List.cons_append, List.nil_append, List.foldl_cons, List.foldl_nil]
  constructor
  · rw [Dir.write, if_neg h2, Dir.write, if_neg h1, Dir.write, if_pos rfl]
  · rw [Dir.write, if_pos rfl]

theorem expName_ne_expCfgName (m id t m' id' t' : List Char) : expCfgName m' id' (t' ++ "_mc".toList) ≠ expName m id (t ++ "_mc".toList) := by
  intro h
  rw [expName_eq, expCfgName_eq] at h
  have e : "_mc".toList = ['_', 'm', 'c'] := rfl
  rw [e] at h
  generalize hX : m ++ '_' :: id = X at h
  generalize hY : m' ++ '_' :: id' = Y at h
  have := congrArg (fun l => l.reverse.take 5) h
  simp at this

/-- C92 (lost dictionaries, text): after the loop over the numbers of steps there is one dictionary per device, that of the last
number of steps. -/
theorem C92_lost_text (W : ℕ → World) (hW : ∀ k, (W k).Ok) (hl : ∀ k, 2 ≤ (W k).text2.length) (d : Dir) :
    dirAfter W gpuText2Steps d "res/text_steps_2_gpu_mc_config.txt".toList = some (.config (textStepsCfg 64620 "/GPU:0")) ∧
    dirAfter W gpuText2Steps d "res/text_steps_2_cpu_mc_config.txt".toList = some (.config (textStepsCfg 64620 "/CPU:0")) := by
  obtain ⟨hlen, h⟩ := C92_text_steps W hW hl
  obtain ⟨⟨a, ha, ea, -, -, ha'⟩, b, hb, eb, -, -, hb'⟩ := h 19 64620 rfl
  obtain ⟨pre, hpre⟩ := last_two hlen ha hb
  have n1 : expCfgName "text_steps".toList "2".toList "gpu_mc".toList = "res/text_steps_2_gpu_mc_config.txt".toList := by decide +kernel
  have n2 : expCfgName "text_steps".toList "2".toList "cpu_mc".toList = "res/text_steps_2_cpu_mc_config.txt".toList := by decide +kernel
  have n3 : ∀ id, expCfgName "text_steps".toList "2".toList "gpu_mc".toList ≠ expName "text_steps".toList id "cpu_mc".toList :=
    fun id => expName_ne_expCfgName _ id "cpu".toList _ _ "gpu".toList
  have n4 : expCfgName "text_steps".toList "2".toList "gpu_mc".toList ≠ expCfgName "text_steps".toList "2".toList "cpu_mc".toList := by
    decide +kernel
  unfold dirAfter
  rw [hpre, ha', hb', ← n1, ← n2]
  exact write_last_two pre d _ _ _ _ _ _ _ _ (n3 _) n4 _ _

/-- With `hello world`. -/
example (d : Dir) : dirAfter (fun _ => sampleWorld) gpuText2Steps d "res/text_steps_2_gpu_mc_config.txt".toList =
    some (.config (textStepsCfg 64620 "/GPU:0")) :=
  (C92_lost_text _ (fun _ => sampleWorld_ok) (fun _ => by decide +kernel) d).1

/-- The files of `experiments-bellman` that do not repeat commands, in alphabetical order, without `gpu_mass_1.sh`. -/
def bellmanCmds : List Command :=
  finite1 "/CPU:0" ++ (cpuMass1 ++ (nonlinear1 "/CPU:0" ++ (tracking1 "/CPU:0" ++ (cpuTracking2a ++ (finite1 "/GPU:0" ++ (gpuMass2 ++
    (nonlinear1 "/GPU:0" ++ (tracking1 "/GPU:0" ++ (gpuTracking2a ++ (gpuTracking2c ++ gpuTracking2d))))))))))

theorem bellman_outcomes (W : ℕ → World) (hW : ∀ k, (W k).Ok) :
    (runDriver W bellmanCmds).all (fun r => r.2.isNone) = true ∧
    (((runDriver W bellmanCmds).flatMap fun r => r.1.map Prod.fst).map fun l => l.foldl (fun a ch => 1000 * a + ch.toNat) 0).Nodup ∧
    ((runDriver W bellmanCmds).flatMap fun r => r.1.map Prod.fst).length = 247 := by
  unfold bellmanCmds
  simp only [runDriver_append]
  rw [(C92_finite_nonlinear _ hW).1, (C92_mass _ fun k => hW _).1, (C92_finite_nonlinear _ fun k => hW _).2.2.1,
    (C92_tracking _ fun k => hW _).1, (C92_tracking _ fun k => hW _).2.2.1, (C92_finite_nonlinear _ fun k => hW _).2.1,
    (C92_mass _ fun k => hW _).2.2, (C92_finite_nonlinear _ fun k => hW _).2.2.2, (C92_tracking _ fun k => hW _).2.1,
    (C92_tracking _ fun k => hW _).2.2.2.2.1, (C92_tracking _ fun k => hW _).2.2.2.2.2.2.1, (C92_tracking _ fun k => hW _).2.2.2.2.2.2.2]
  clear * -
  decide +kernel

theorem files_distinct (out : List (ExpLog × Option ExpErr)) (d : Dir) (n : ℕ) (h : out.all (fun r => r.2.isNone) = true ∧
    ((out.flatMap fun r => r.1.map Prod.fst).map fun l => l.foldl (fun a ch => 1000 * a + ch.toNat) 0).Nodup ∧
    (out.flatMap fun r => r.1.map Prod.fst).length = n) :
    (∀ r ∈ out, r.2 = none) ∧ ((out.flatMap Prod.fst).map Prod.fst).Nodup ∧ (out.flatMap Prod.fst).length = n ∧
      ∀ f ∈ out.flatMap Prod.fst, (out.flatMap Prod.fst).foldl Dir.write d f.1 = some f.2 := by
  obtain ⟨h1, h2, h3⟩ := h
  have h2 := h2.of_map
  have e : (out.flatMap Prod.fst).map Prod.fst = out.flatMap fun r => r.1.map Prod.fst := List.map_flatMap
  rw [← e] at h2 h3
  rw [List.length_map] at h3
  exact ⟨fun r hr => Option.isNone_iff_eq_none.1 (List.all_eq_true.1 h1 r hr), h2, h3, fun f hf => foldl_write_nodup h2 d hf⟩

/-- C92 (distinct names): the commands of these files write 247 tables under different names, so that no result replaces another one, and
none of them fails. -/
theorem C92_distinct (W : ℕ → World) (hW : ∀ k, (W k).Ok) (d : Dir) :
    let out := runDriver W bellmanCmds
    let log := out.flatMap Prod.fst
    (∀ r ∈ out, r.2 = none) ∧ (log.map Prod.fst).Nodup ∧ log.length = 247 ∧ ∀ f ∈ log, dirAfter W bellmanCmds d f.1 = some f.2 :=
  files_distinct _ d 247 (bellman_outcomes W hW)

/-- There are 73 commands; all their files are in the directory. -/
example (d : Dir) : bellmanCmds.length = 73 ∧
    ∀ f ∈ (runDriver (fun _ => sampleWorld) bellmanCmds).flatMap Prod.fst, dirAfter (fun _ => sampleWorld) bellmanCmds d f.1 = some f.2 :=
  ⟨rfl, (C92_distinct _ (fun _ => sampleWorld_ok) d).2.2.2⟩

end Verif
