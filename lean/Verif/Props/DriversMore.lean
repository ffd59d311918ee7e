import Verif.Props.Drivers

/-! C92, continued: the shell files for the Viterbi, text and HJB experiments. -/

namespace Verif

/-- The dictionary of a command for the Gilbert-Elliott model. -/
noncomputable def vitCfg (stop num : ℕ) (dev : String) : Cfg :=
  [("model".toList, .str "ge".toList), ("start".toList, .num 2), ("stop".toList, .num stop), ("num".toList, .int num),
    ("steps".toList, .int 10), ("single".toList, .int 0), ("device".toList, .str dev.toList), ("mask".toList, .int 255)]

/-- The names of the tests of the Gilbert-Elliott model. -/
def vitIds : List (List Char) :=
  ["viterbi_seq_fwbw".toList, "viterbi_par_fwbw".toList, "viterbi_seqpar_fwbw".toList, "viterbi_par_fwbwfw".toList]

/-- The files of a command for the Gilbert-Elliott model: zero errors for every number of steps. -/
noncomputable def vitFiles (stop num : ℕ) (dev devt : String) : ExpLog :=
  vitIds.flatMap fun id => [(expName "ge".toList id devt.toList, .table ((logspaceInt 2 stop num).map fun S : ℕ => ⟨[(S : ℤ)], [0]⟩)),
    (expCfgName "ge".toList id devt.toList, .config (vitCfg stop num dev))]

theorem sel255 {α β : Type} (a0 a1 a2 a3 : α) (f : α × ℕ → List β) :
    (([a0, a1, a2, a3].zipIdx.filter fun p => (255 : ℤ) / 2 ^ p.2 % 2 = 1).flatMap f) = f (a0, 0) ++ (f (a1, 1) ++ (f (a2, 2) ++ (f (a3, 3) ++ []))) := by
  simp [List.zipIdx_cons, List.filter_cons]

theorem viterbiCmd_run (W : World) (hW : W.Ok) (stop num : ℕ) (hs : 2 ≤ stop) (dev devt : String) (hd : '=' ∉ dev.toList)
    (hdt : devTxt dev.toList 0 = devt.toList) : (viterbiCmd stop num dev).run W = (vitFiles stop num dev devt, none) := by
  have key : ∀ c, convArgs vitKeys vitDefaults (viterbiCmd stop num dev).args = some c → c = vitCfg stop num dev →
      c.lookup "model".toList = some (.str "ge".toList) → c.lookup "start".toList = some (.num 2) →
      c.lookup "stop".toList = some (.num ((stop : ℤ) : ℝ)) → c.lookup "num".toList = some (.int num) →
      c.lookup "single".toList = some (.int 0) →
      c.lookup "device".toList = some (.str dev.toList) → c.lookup "mask".toList = some (.int 255) →
      (viterbiCmd stop num dev).run W = (vitFiles stop num dev devt, none) := by
    intro c hc hcc h0 h1 h2 h3 h6 h7 h8
    rw [Int.cast_natCast] at h2
    have := (C91_viterbi W.fl W.scan hW.scan W.am4 hW.am4 W.rnd hW.rnd _ c (parse_convArgs hW.float hc) _ _ num 0 255 _ _
      h0 h1 h2 h3 h6 h7 h8 (by exact_mod_cast hs)).1 (by norm_num)
    change vitMain W.fl W.scan W.am4 W.rnd _ = _
    rw [this]
    dsimp only
    rw [List.take_of_length_le (by rfl), sel255, hdt, hcc]
    rfl
  refine key _ (by conv_args_dev hd) ?_ (by cfg_look) (by cfg_look) (by cfg_look) (by cfg_look) (by cfg_look) (by cfg_look)
    (by cfg_look)
  rw [Int.cast_natCast]
  rfl

/-- C92 (Viterbi): both files for the Gilbert-Elliott model write the four tests and their dictionaries on both devices, with zero errors,
without failure. -/
theorem C92_viterbi (W : ℕ → World) (hW : ∀ k, (W k).Ok) :
    runDriver W gpuViterbi1 = [(vitFiles 4 10 "/CPU:0" "cpu_mc", none), (vitFiles 4 10 "/GPU:0" "gpu_mc", none)] ∧
    runDriver W gpuViterbi2 = [(vitFiles 6 20 "/CPU:0" "cpu_mc", none), (vitFiles 6 20 "/GPU:0" "gpu_mc", none)] := by
  constructor
  · change [(viterbiCmd (4 : ℕ) (10 : ℕ) "/CPU:0").run (W 0), (viterbiCmd (4 : ℕ) (10 : ℕ) "/GPU:0").run (W 1)] = _
    rw [viterbiCmd_run (W 0) (hW 0) 4 10 (by norm_num) "/CPU:0" "cpu_mc" (by decide +kernel) (by decide +kernel),
      viterbiCmd_run (W 1) (hW 1) 4 10 (by norm_num) "/GPU:0" "gpu_mc" (by decide +kernel) (by decide +kernel)]
  · change [(viterbiCmd (6 : ℕ) (20 : ℕ) "/CPU:0").run (W 0), (viterbiCmd (6 : ℕ) (20 : ℕ) "/GPU:0").run (W 1)] = _
    rw [viterbiCmd_run (W 0) (hW 0) 6 20 (by norm_num) "/CPU:0" "cpu_mc" (by decide +kernel) (by decide +kernel),
      viterbiCmd_run (W 1) (hW 1) 6 20 (by norm_num) "/GPU:0" "gpu_mc" (by decide +kernel) (by decide +kernel)]

/-- The files of the first command of `gpu_viterbi_1.sh`. -/
example : ((runDriver (fun _ => sampleWorld) gpuViterbi1)[0]?.map fun r => r.1.map Prod.fst) =
    some ["res/ge_viterbi_seq_fwbw_cpu_mc.txt".toList, "res/ge_viterbi_seq_fwbw_cpu_mc_config.txt".toList,
      "res/ge_viterbi_par_fwbw_cpu_mc.txt".toList, "res/ge_viterbi_par_fwbw_cpu_mc_config.txt".toList,
      "res/ge_viterbi_seqpar_fwbw_cpu_mc.txt".toList, "res/ge_viterbi_seqpar_fwbw_cpu_mc_config.txt".toList,
      "res/ge_viterbi_par_fwbwfw_cpu_mc.txt".toList, "res/ge_viterbi_par_fwbwfw_cpu_mc_config.txt".toList] := by
  rw [(C92_viterbi _ fun _ => sampleWorld_ok).1]
  simp only [List.getElem?_cons_zero, Option.map_some, vitFiles, List.map_flatMap, List.map_cons, List.map_nil]
  decide +kernel

/-! ### The text experiments -/

/-- The dictionary of a command for the text experiment. -/
def textCfg (order : ℕ) (dev : String) (mask : ℤ) : Cfg :=
  [("order".toList, .int order), ("single".toList, .int 0), ("device".toList, .str dev.toList), ("mask".toList, .int mask)]

/-- The dictionary of a command for the text experiment with a number of steps. -/
def textStepsCfg (steps : ℕ) (dev : String) : Cfg :=
  [("order".toList, .int 2), ("single".toList, .int 0), ("steps".toList, .int steps), ("device".toList, .str dev.toList),
    ("mask".toList, .int 3)]

/-- The outcome of a command for the text experiment: a line with the error for each of the first `k` methods, and the dictionary. -/
def TextCmdOutcome (W : World) (order k : ℕ) (mask : ℤ) (dev devt : String) (out : ExpLog × Option ExpErr) : Prop :=
  ∃ errs, TextOutcome W.choice W.text1 W.text2 order errs ∧ (∀ e ∈ errs, 0 ≤ e ∧ e ≤ 1) ∧
    out = ([(expName "text".toList (fmtD order) devt.toList, .table ((errs.take k).zipIdx.map fun r =>
        ⟨[((r.2 + 1 : ℕ) : ℤ), (order : ℤ)], [(r.1 : WithBot ℝ)]⟩)),
      (expCfgName "text".toList (fmtD order) devt.toList, .config (textCfg order dev mask))], none)

/-- The outcome of a command for the first `N` characters of the text: a line with the error for each of the first two methods, and the
dictionary. -/
def TextStepsOutcome (W : World) (steps : ℕ) (dev devt : String) (out : ExpLog × Option ExpErr) : Prop :=
  let N := min steps W.text2.length
  ∃ errs, TextOutcome W.choice W.text1 (W.text2.take N) 2 errs ∧ (∀ e ∈ errs, 0 ≤ e ∧ e ≤ 1) ∧
    out = ([(expName "text_steps".toList ("2_".toList ++ fmtD N) devt.toList, .table ((errs.take 2).zipIdx.map fun r =>
        ⟨[((r.2 + 1 : ℕ) : ℤ), 2, (N : ℤ)], [(r.1 : WithBot ℝ)]⟩)),
      (expCfgName "text_steps".toList "2".toList devt.toList, .config (textStepsCfg steps dev))], none)

theorem sel255m {α β : Type} (a0 a1 a2 a3 : α) (f : α × ℕ → β) :
    (([a0, a1, a2, a3].zipIdx.filter fun p => (255 : ℤ) / 2 ^ p.2 % 2 = 1).map f) = [f (a0, 0), f (a1, 1), f (a2, 2), f (a3, 3)] := by
  simp [List.zipIdx_cons, List.filter_cons]

theorem sel3m {α β : Type} (a0 a1 a2 a3 : α) (f : α × ℕ → β) :
    (([a0, a1, a2, a3].zipIdx.filter fun p => (3 : ℤ) / 2 ^ p.2 % 2 = 1).map f) = [f (a0, 0), f (a1, 1)] := by
  simp [List.zipIdx_cons, List.filter_cons]

theorem TextOutcome.four {choice : ℕ → FArr1 ℝ → Py ℕ} {text1 text2 : List Char} {order : ℕ} {errs : List ℝ}
    (h : TextOutcome choice text1 text2 order errs) : ∃ a b c d, errs = [a, b, c, d] := by
  obtain ⟨M, t3, pr, Pi, ys, p, q, -, -, -, -, -, h⟩ := h
  exact ⟨_, _, _, _, h.2.2.2.2⟩

theorem textCmd_run (W : World) (hW : W.Ok) (hl : 2 ≤ W.text2.length) (order : ℕ) (ho : 1 ≤ order) (dev devt : String) (hd : '=' ∉ dev.toList)
    (hdt : devTxt dev.toList 0 = devt.toList) :
    TextCmdOutcome W order 4 255 dev devt ((textCmd order dev 255).run W) ∧ TextCmdOutcome W order 2 3 dev devt ((textCmd order dev 3).run W) := by
  have key : ∀ mask c, convArgs textKeys textDefaults (textCmd order dev mask).args = some c → c = textCfg order dev mask →
      c.lookup "order".toList = some (.int order) → c.lookup "single".toList = some (.int 0) →
      c.lookup "device".toList = some (.str dev.toList) → c.lookup "mask".toList = some (.int mask) →
      ∃ errs, TextOutcome W.choice W.text1 W.text2 order errs ∧ (∀ e ∈ errs, 0 ≤ e ∧ e ≤ 1) ∧ (textCmd order dev mask).run W =
        ([(expName "text".toList (fmtD order) devt.toList, .table ((errs.zipIdx.filter fun r => mask / 2 ^ r.2 % 2 = 1).map fun r =>
          ⟨[((r.2 + 1 : ℕ) : ℤ), (order : ℤ)], [(r.1 : WithBot ℝ)]⟩)),
        (expCfgName "text".toList (fmtD order) devt.toList, .config (textCfg order dev mask))], none) := by
    intro mask c hc hcc h0 h6 h7 h8
    obtain ⟨errs, g1, g2, g3⟩ := (C91_text W.fl W.scan hW.scan W.am hW.am W.choice hW.choice W.text1 W.text2 hW.text1 hW.text2 _ c
      (parse_convArgs hW.float hc) order 0 mask _ h0 h6 h7 h8 ho).1 hl
    refine ⟨errs, g1, g2, ?_⟩
    change textMain W.fl W.scan W.am W.choice W.text1 W.text2 _ = _
    rw [g3]
    dsimp only
    rw [hdt, hcc]
  constructor
  · obtain ⟨errs, g1, g2, g3⟩ := key 255 _ (by conv_args_dev hd) rfl (by cfg_look) (by cfg_look) (by cfg_look) (by cfg_look)
    refine ⟨errs, g1, g2, ?_⟩
    obtain ⟨a, b, c, d, rfl⟩ := g1.four
    rw [g3, sel255m]
    rfl
  · obtain ⟨errs, g1, g2, g3⟩ := key 3 _ (by conv_args_dev hd) rfl (by cfg_look) (by cfg_look) (by cfg_look) (by cfg_look)
    refine ⟨errs, g1, g2, ?_⟩
    obtain ⟨a, b, c, d, rfl⟩ := g1.four
    rw [g3, sel3m]
    rfl

theorem textStepsCmd_run (W : World) (hW : W.Ok) (hl : 2 ≤ W.text2.length) (steps : ℕ) (hs : 2 ≤ steps) (dev devt : String)
    (hd : '=' ∉ dev.toList) (hdt : devTxt dev.toList 0 = devt.toList) :
    TextStepsOutcome W steps dev devt ((textStepsCmd steps dev).run W) := by
  set N := min steps W.text2.length with hN
  have hW' : World.Ok { W with text2 := W.text2.take N } :=
    ⟨hW.float, hW.scan, hW.am, hW.am4, hW.rnd, hW.choice, hW.text1, fun ch h => hW.text2 ch (List.mem_of_mem_take h)⟩
  have hl' : 2 ≤ (W.text2.take N).length := by
    rw [List.length_take]
    omega
  obtain ⟨errs, g1, g2, g3⟩ := (textCmd_run { W with text2 := W.text2.take N } hW' hl' 2 (by norm_num) dev devt hd hdt).2
  have key : ∀ c c', convArgs textKeys textDefaults (textCmd (2 : ℕ) dev 3).args = some c →
      convArgs text2Keys text2Defaults (textStepsCmd steps dev).args = some c' → c' = textStepsCfg steps dev →
      c.lookup "order".toList = some (.int (2 : ℕ)) → c.lookup "mask".toList = some (.int 3) →
      c'.lookup "order".toList = some (.int (2 : ℕ)) → c'.lookup "mask".toList = some (.int 3) → c'.lookup "single".toList = some (.int 0) →
      c'.lookup "device".toList = some (.str dev.toList) → c'.lookup "steps".toList = some (.int steps) →
      TextStepsOutcome W steps dev devt ((textStepsCmd steps dev).run W) := by
    intro c c' hc hc' hcc h0 h9 h0' h9' h7' h8' h4'
    obtain ⟨r1, -, r3⟩ := C91_text_steps W.fl W.scan W.am W.choice W.text1 W.text2 _ _ c c' (parse_convArgs hW.float hc)
      (parse_convArgs hW.float hc') 2 0 3 steps _ h0 h9 h0' h9' h7' h8' h4' N (by omega)
    change textMain W.fl W.scan W.am W.choice W.text1 (W.text2.take N) _ = _ at g3
    rw [g3] at r1 r3
    obtain ⟨name, rows, cfg, e1, e2⟩ := r3 rfl
    refine ⟨errs, g1, g2, Prod.ext ?_ r1⟩
    change (text2Main W.fl W.scan W.am W.choice W.text1 W.text2 _).1 = _
    rw [e2, hdt, hcc]
    simp only [List.cons.injEq, Prod.mk.injEq, ExpFile.table.injEq] at e1
    rw [← e1.1.2]
    obtain ⟨a, b, c, d, rfl⟩ := g1.four
    rfl
  exact key _ _ (by conv_args_dev hd) (by conv_args_dev hd) rfl (by cfg_look) (by cfg_look) (by cfg_look) (by cfg_look) (by cfg_look)
    (by cfg_look) (by cfg_look)

/-- C92 (text): with texts of letters and spaces and at least two characters to disturb, every command of the files for the text experiment
ends without failure and writes the errors of all four methods (order 1) or of the first two (orders 2 and 3). -/
theorem C92_text (W : ℕ → World) (hW : ∀ k, (W k).Ok) (hl : ∀ k, 2 ≤ (W k).text2.length) :
    (∃ a b, runDriver W gpuText1 = [a, b] ∧ TextCmdOutcome (W 0) 1 4 255 "/GPU:0" "gpu_mc" a ∧ TextCmdOutcome (W 1) 1 4 255 "/CPU:0" "cpu_mc" b) ∧
    (∃ a b, runDriver W gpuText2 = [a, b] ∧ TextCmdOutcome (W 0) 2 2 3 "/GPU:0" "gpu_mc" a ∧ TextCmdOutcome (W 1) 2 2 3 "/CPU:0" "cpu_mc" b) ∧
    ∃ a, runDriver W gpuText3 = [a] ∧ TextCmdOutcome (W 0) 3 2 3 "/GPU:0" "gpu_mc" a := by
  have hg := fun k order ho => textCmd_run (W k) (hW k) (hl k) order ho "/GPU:0" "gpu_mc" (by decide +kernel) (by decide +kernel)
  have hc := fun k order ho => textCmd_run (W k) (hW k) (hl k) order ho "/CPU:0" "cpu_mc" (by decide +kernel) (by decide +kernel)
  exact ⟨⟨_, _, rfl, (hg 0 1 (by norm_num)).1, (hc 1 1 (by norm_num)).1⟩, ⟨_, _, rfl, (hg 0 2 (by norm_num)).2, (hc 1 2 (by norm_num)).2⟩,
    _, rfl, (hg 0 3 (by norm_num)).2⟩

/-- On `hello world` the command of order 3 writes the errors of two methods. -/
example : ∃ e1 e2 : ℝ, runDriver (fun _ => sampleWorld) gpuText3 =
    [([("res/text_3_gpu_mc.txt".toList, .table [⟨[1, 3], [(e1 : WithBot ℝ)]⟩, ⟨[2, 3], [(e2 : WithBot ℝ)]⟩]),
      ("res/text_3_gpu_mc_config.txt".toList, .config (textCfg 3 "/GPU:0" 3))], none)] := by
  obtain ⟨a, h, errs, g1, -, rfl⟩ := (C92_text _ (fun _ => sampleWorld_ok) fun _ => by decide +kernel : _ ∧ _ ∧ _).2.2
  obtain ⟨e1, e2, e3, e4, rfl⟩ := g1.four
  refine ⟨e1, e2, ?_⟩
  rw [h, show expName "text".toList (fmtD (3 : ℕ)) "gpu_mc".toList = "res/text_3_gpu_mc.txt".toList by decide +kernel,
    show expCfgName "text".toList (fmtD (3 : ℕ)) "gpu_mc".toList = "res/text_3_gpu_mc_config.txt".toList by decide +kernel]
  rfl

/-- C92 (text, numbers of steps): the loop runs all twenty numbers of steps on both devices without failure, in the given order. -/
theorem C92_text_steps (W : ℕ → World) (hW : ∀ k, (W k).Ok) (hl : ∀ k, 2 ≤ (W k).text2.length) :
    (runDriver W gpuText2Steps).length = 40 ∧ ∀ j N, textStepsList[j]? = some N →
      (∃ a, (runDriver W gpuText2Steps)[2 * j]? = some a ∧ TextStepsOutcome (W (2 * j)) N "/GPU:0" "gpu_mc" a) ∧
      ∃ b, (runDriver W gpuText2Steps)[2 * j + 1]? = some b ∧ TextStepsOutcome (W (2 * j + 1)) N "/CPU:0" "cpu_mc" b := by
  refine ⟨rfl, fun j N hj => ?_⟩
  have hN : 2 ≤ N := by
    have : ∀ N ∈ textStepsList, 2 ≤ N := by decide
    exact this N (List.mem_of_getElem? hj)
  have hj' : j < 20 := (List.getElem?_eq_some_iff.1 hj).1
  have hg := fun k => textStepsCmd_run (W k) (hW k) (hl k) N hN "/GPU:0" "gpu_mc" (by decide +kernel) (by decide +kernel)
  have hc := fun k => textStepsCmd_run (W k) (hW k) (hl k) N hN "/CPU:0" "cpu_mc" (by decide +kernel) (by decide +kernel)
  have e1 : gpuText2Steps[2 * j]? = some (textStepsCmd N "/GPU:0") ∧ gpuText2Steps[2 * j + 1]? = some (textStepsCmd N "/CPU:0") := by
    interval_cases j <;> cases hj <;> exact ⟨rfl, rfl⟩
  constructor
  · refine ⟨_, ?_, hg (2 * j)⟩
    rw [runDriver, List.getElem?_map, List.getElem?_zipIdx, e1.1]
    simp
  · refine ⟨_, ?_, hc (2 * j + 1)⟩
    rw [runDriver, List.getElem?_map, List.getElem?_zipIdx, e1.2]
    simp

/-- On `hello world`, which has eleven characters, all commands for the GPU write the same table, here the one with number 4. -/
example : ∃ e1 e2 : ℝ, (runDriver (fun _ => sampleWorld) gpuText2Steps)[4]? =
    some ([("res/text_steps_2_11_gpu_mc.txt".toList, .table [⟨[1, 2, 11], [(e1 : WithBot ℝ)]⟩, ⟨[2, 2, 11], [(e2 : WithBot ℝ)]⟩]),
      ("res/text_steps_2_gpu_mc_config.txt".toList, .config (textStepsCfg 198 "/GPU:0"))], none) := by
  obtain ⟨a, h, errs, g1, -, rfl⟩ := ((C92_text_steps _ (fun _ => sampleWorld_ok) fun _ => by decide +kernel : _ ∧ _).2 2 198 rfl).1
  obtain ⟨e1, e2, e3, e4, rfl⟩ := g1.four
  refine ⟨e1, e2, ?_⟩
  have hN : min 198 sampleWorld.text2.length = 11 := by decide +kernel
  rw [hN] at h
  rw [show 4 = 2 * 2 from rfl, h,
    show expName "text_steps".toList ("2_".toList ++ fmtD (11 : ℕ)) "gpu_mc".toList = "res/text_steps_2_11_gpu_mc.txt".toList by decide +kernel,
    show expCfgName "text_steps".toList "2".toList "gpu_mc".toList = "res/text_steps_2_gpu_mc_config.txt".toList by decide +kernel]
  rfl

/-! ### The HJB experiments -/

/-- The dictionary of a command for the HJB experiment. -/
noncomputable def nonlinCfg (stop n : ℕ) (dev : String) : Cfg :=
  [("model".toList, .str "velocity".toList), ("start".toList, .num 2), ("stop".toList, .num stop), ("num".toList, .int 20),
    ("steps".toList, .int 10), ("n".toList, .int n), ("single".toList, .int 0), ("device".toList, .str dev.toList), ("mask".toList, .int 7)]

/-- The outcome of a command for the HJB experiment with grids of `g + 2` points: if the direct shooting for a block succeeds, then there
are tables for all three tests, with zero errors in the first and the errors of the speed tests in the others; otherwise only the first table is
written, and the command fails as the shooting does. -/
def NonlinOutcome (scan : AScan) (stop : ℕ) (dev devt : String) (g : ℕ) (out : ExpLog × Option ExpErr) : Prop :=
  let M : CModel (g + 2) (g + 2) ℝ := velocityModel (g + 2) (g + 2)
  let Bs := logspaceInt 2 stop 20
  let files (err : ℕ → WithBot ℝ × WithBot ℝ) (id : String) : ExpLog :=
    [(expName "velocity".toList (fmtD ((g + 2 : ℕ) : ℤ) ++ id.toList) devt.toList,
        .table (Bs.map fun B : ℕ => ⟨[(B : ℤ), ((g + 2 : ℕ) : ℤ)], [(err B).1, (err B).2]⟩)),
      (expCfgName "velocity".toList (fmtD ((g + 2 : ℕ) : ℤ) ++ id.toList) devt.toList, .config (nonlinCfg stop (g + 2) dev))]
  match directShootingBlockV M.f M.L (1 / 10) 10 (List.ofFn M.x_grid) 10 with
  | .ok _ => ∃ err1 err2 : ℕ → WithBot ℝ × WithBot ℝ,
    (∀ B ∈ Bs, CModel.seqAssocSpeed (n := g) argmin1 M B 10 (1 / 10) 10 = .ok (err1 B) ∧
      CModel.parAssocSpeed (n := g) scan argmin1 M B 10 (1 / 10) 10 = .ok (err2 B)) ∧
    out = (files (fun _ => (0, 0)) "_seq_upwind" ++ files err1 "_seq_assoc" ++ files err2 "_par_assoc", none)
  | .error e => out = (files (fun _ => (0, 0)) "_seq_upwind", some (.py e))

theorem sel7 {α β : Type} (a0 a1 a2 : α) (f : α × ℕ → List β) :
    (([a0, a1, a2].zipIdx.filter fun p => (7 : ℤ) / 2 ^ p.2 % 2 = 1).flatMap f) = f (a0, 0) ++ f (a1, 1) ++ f (a2, 2) := by
  simp [List.zipIdx_cons, List.filter_cons]

theorem sel7' {α β : Type} (a0 : α) (f : α × ℕ → List β) :
    (([a0].zipIdx.filter fun p => (7 : ℤ) / 2 ^ p.2 % 2 = 1).flatMap f) = f (a0, 0) := by
  simp [List.zipIdx_cons, List.filter_cons]

theorem nonlinCmd_run (W : World) (hW : W.Ok) (stop g : ℕ) (hs : 2 ≤ stop) (dev devt : String) (hd : '=' ∉ dev.toList)
    (hdt : devTxt dev.toList 0 = devt.toList) :
    NonlinOutcome W.scan stop dev devt g ((nonlinCmd stop ((g + 2 : ℕ) : ℤ) dev).run W) := by
  have key : ∀ c, convArgs hjbKeys hjbDefaults (nonlinCmd stop ((g + 2 : ℕ) : ℤ) dev).args = some c → c = nonlinCfg stop (g + 2) dev →
      c.lookup "model".toList = some (.str "velocity".toList) → c.lookup "start".toList = some (.num ((2 : ℤ) : ℝ)) →
      c.lookup "stop".toList = some (.num ((stop : ℤ) : ℝ)) → c.lookup "num".toList = some (.int (20 : ℕ)) →
      c.lookup "steps".toList = some (.int (10 : ℕ)) → c.lookup "n".toList = some (.int ((g + 2 : ℕ) : ℤ)) →
      c.lookup "single".toList = some (.int 0) →
      c.lookup "device".toList = some (.str dev.toList) → c.lookup "mask".toList = some (.int 7) →
      NonlinOutcome W.scan stop dev devt g ((nonlinCmd stop ((g + 2 : ℕ) : ℤ) dev).run W) := by
    intro c hc hcc h0 h1 h2 h3 h4 h5 h7 h8 h9
    rw [Int.cast_natCast] at h2
    rw [Int.cast_ofNat] at h1
    obtain ⟨-, r1, r2⟩ := C90_nonlin W.fl W.scan hW.scan _ c (parse_convArgs hW.float hc) _ _ 20 10 g 0 7 _ _
      h0 h1 h2 h3 h4 h5 h7 h8 h9 (by norm_num) (by exact_mod_cast hs) (by norm_num)
    have hrun : (nonlinCmd stop ((g + 2 : ℕ) : ℤ) dev).run W = hjbMain W.fl W.scan ((nonlinCmd stop ((g + 2 : ℕ) : ℤ) dev).args.map argText) := rfl
    rw [hrun]
    unfold NonlinOutcome
    dsimp only
    split
    · rename_i V hV
      obtain ⟨err, e0, e1, e2, -⟩ := r1 V hV
      have hB : ∀ B ∈ logspaceInt 2 stop 20, 2 ≤ B := logspace_ge 2 stop 20 2 (by norm_num) (by exact_mod_cast hs)
      refine ⟨err 1, err 2, fun B hB' => ⟨(e1 B hB').1, (e1 B hB').2 (hB B hB')⟩, ?_⟩
      rw [e2 (by norm_num), hcc, hdt]
      dsimp only
      rw [List.take_of_length_le (by rfl), sel7, funext e0]
    · rename_i e he
      rw [r2 e he (by norm_num), hcc, hdt]
      dsimp only
      rw [List.take_succ_cons, List.take_zero, sel7', if_neg (by norm_num)]
  refine key _ (by conv_args_dev hd) ?_ (by cfg_look) (by cfg_look) (by cfg_look) (by cfg_look) (by cfg_look) (by cfg_look)
    (by cfg_look) (by cfg_look) (by cfg_look)
  rw [Int.cast_natCast, Int.cast_ofNat]
  rfl

/-- C92 (HJB): the files for the velocity model run the grids of 20, 40, 60, 80 and 100 points, the first file on the GPU, the second one on
the CPU; every command writes the table of the upwind method. -/
theorem C92_nonlin (W : ℕ → World) (hW : ∀ k, (W k).Ok) :
    (runDriver W gpuNonlin1).length = 5 ∧ (runDriver W gpuNonlin2).length = 5 ∧ ∀ j g, [18, 38, 58, 78, 98][j]? = some g →
      (∃ a, (runDriver W gpuNonlin1)[j]? = some a ∧ NonlinOutcome (W j).scan 4 "/GPU:0" "gpu_mc" g a) ∧
      ∃ b, (runDriver W gpuNonlin2)[j]? = some b ∧ NonlinOutcome (W j).scan 5 "/CPU:0" "cpu_mc" g b := by
  refine ⟨rfl, rfl, fun j g hj => ?_⟩
  have hj' : j < 5 := (List.getElem?_eq_some_iff.1 hj).1
  have hg := nonlinCmd_run (W j) (hW j) 4 g (by norm_num) "/GPU:0" "gpu_mc" (by decide +kernel) (by decide +kernel)
  have hc := nonlinCmd_run (W j) (hW j) 5 g (by norm_num) "/CPU:0" "cpu_mc" (by decide +kernel) (by decide +kernel)
  have e1 : gpuNonlin1[j]? = some (nonlinCmd (4 : ℕ) ((g + 2 : ℕ) : ℤ) "/GPU:0") ∧
      gpuNonlin2[j]? = some (nonlinCmd (5 : ℕ) ((g + 2 : ℕ) : ℤ) "/CPU:0") := by
    interval_cases j <;> cases hj <;> exact ⟨rfl, rfl⟩
  constructor
  · refine ⟨_, ?_, hg⟩
    rw [runDriver, List.getElem?_map, List.getElem?_zipIdx, e1.1]
    simp
  · refine ⟨_, ?_, hc⟩
    rw [runDriver, List.getElem?_map, List.getElem?_zipIdx, e1.2]
    simp

theorem NonlinOutcome.first {scan : AScan} {stop : ℕ} {dev devt : String} {g : ℕ} {out : ExpLog × Option ExpErr}
    (h : NonlinOutcome scan stop dev devt g out) :
    out.1[0]? = some (expName "velocity".toList (fmtD ((g + 2 : ℕ) : ℤ) ++ "_seq_upwind".toList) devt.toList,
      .table ((logspaceInt 2 stop 20).map fun B : ℕ => ⟨[(B : ℤ), ((g + 2 : ℕ) : ℤ)], [0, 0]⟩)) := by
  unfold NonlinOutcome at h
  dsimp only at h
  split at h
  · obtain ⟨err1, err2, -, rfl⟩ := h
    rfl
  · rw [h]
    rfl

/-- C92 (HJB, upwind method): whatever the shooting does, the first table of every command of `gpu_nonlin_1.sh` has zero errors. -/
theorem C92_nonlin_upwind (W : ℕ → World) (hW : ∀ k, (W k).Ok) (j g : ℕ) (hj : [18, 38, 58, 78, 98][j]? = some g) :
    ∃ r, (runDriver W gpuNonlin1)[j]? = some r ∧
      r.1[0]? = some (expName "velocity".toList (fmtD ((g + 2 : ℕ) : ℤ) ++ "_seq_upwind".toList) "gpu_mc".toList,
        .table ((logspaceInt 2 (4 : ℕ) 20).map fun B : ℕ => ⟨[(B : ℤ), ((g + 2 : ℕ) : ℤ)], [0, 0]⟩)) := by
  obtain ⟨a, h, h'⟩ := ((C92_nonlin W hW).2.2 j g hj).1
  exact ⟨a, h, h'.first⟩

/-- The first table of the second command. -/
example : ∃ r, (runDriver (fun _ => sampleWorld) gpuNonlin1)[1]? = some r ∧ r.1[0]? = some ("res/velocity_40_seq_upwind_gpu_mc.txt".toList,
    .table ((logspaceInt 2 (4 : ℕ) 20).map fun B : ℕ => ⟨[(B : ℤ), ((40 : ℕ) : ℤ)], [0, 0]⟩)) := by
  have h := C92_nonlin_upwind _ (fun _ => sampleWorld_ok) 1 38 rfl
  have n : expName "velocity".toList (fmtD ((38 + 2 : ℕ) : ℤ) ++ "_seq_upwind".toList) "gpu_mc".toList =
    "res/velocity_40_seq_upwind_gpu_mc.txt".toList := by decide +kernel
  rw [n] at h
  exact h

end Verif
