import Verif.Proof.Drivers
import Verif.Props.ExperimentsBellman
import Verif.Props.ExperimentsHJB
import Verif.Props.ExperimentsViterbi

/-! C92: the shell files that run the experiments. -/

namespace Verif

/-- What is assumed about Python, TensorFlow, the random numbers and the text files. -/
structure World.Ok (W : World) : Prop where
  float : ∀ z : ℤ, W.fl (fmtD z) = .ok (z : ℝ)
  scan : ∀ α, IsAssocScan (W.scan α)
  am : ∀ (n : ℕ) [NeZero n], IsArgmin (W.am n)
  am4 : IsArgmin W.am4
  rnd : ∀ i, 0 ≤ W.rnd i ∧ W.rnd i < 1
  choice : ∀ k p, p.IsPositiveDistribution → ∃ i < p.len, W.choice k p = .ok i
  text1 : ∀ ch ∈ W.text1, ch ∈ " abcdefghijklmnopqrstuvwxyz".toList
  text2 : ∀ ch ∈ W.text2, ch ∈ " abcdefghijklmnopqrstuvwxyz".toList

/-- A world: `float` reads integers and `2.5`, the left-to-right scan, the first minimiser. -/
noncomputable def sampleWorld : World where
  fl s := if s = "2.5".toList then .ok (5 / 2) else match cfgInt s with
    | .ok z => .ok (z : ℝ)
    | .error e => .error e
  scan := fun _ op l => scanVals op l
  am := fun _ _ => argmin1
  am4 := argmin1
  rnd := fun _ => 1 / 2
  rnd3 := fun _ _ _ => 1 / 2
  choice := fun _ _ => .ok 0
  text1 := "the quick fox".toList
  text2 := "hello world".toList

theorem sampleWorld_fl : sampleWorld.fl "2.5".toList = .ok (5 / 2) := by
  unfold sampleWorld
  dsimp only
  rw [if_pos rfl]

/-- The assumptions can be met. -/
theorem sampleWorld_ok : sampleWorld.Ok where
  float z := by
    have h : fmtD z ≠ "2.5".toList := by
      intro h
      have h1 := cfgInt_fmtD z
      rw [h] at h1
      have h2 : cfgInt "2.5".toList = .error .valueError := by decide +kernel
      rw [h2] at h1
      cases h1
    change (if fmtD z = "2.5".toList then _ else _) = _
    rw [if_neg h, cfgInt_fmtD]
  scan := fun _ => C17_scan_example
  am := fun _ _ => isArgmin_argmin1
  am4 := isArgmin_argmin1
  rnd := fun _ => by
    change (0 : ℝ) ≤ 1 / 2 ∧ (1 / 2 : ℝ) < 1
    norm_num
  choice := fun k p hp => by
    refine ⟨0, Nat.pos_of_ne_zero fun h => ?_, rfl⟩
    have := hp.2
    rw [h] at this
    simp at this
  text1 := by
    change ∀ ch ∈ "the quick fox".toList, _
    decide +kernel
  text2 := by
    change ∀ ch ∈ "hello world".toList, _
    decide +kernel

/-- The table of the tracking problem: the numbers of steps and the dimension. -/
noncomputable def trackRows (start stop : ℝ) (num : ℕ) : ExpFile :=
  .table ((logspaceInt start stop num).map fun T : ℕ => ⟨[((10 * (T / 10) : ℕ) : ℤ), 4], []⟩)

/-- The table of `n` masses. -/
noncomputable def massRows (n : ℕ) (start stop : ℝ) (num : ℕ) : ExpFile :=
  .table ((logspaceInt start stop num).map fun T : ℕ => ⟨[(T : ℤ), ((2 * n : ℕ) : ℤ)], []⟩)

/-- The names of the condensed tests. -/
def condIds (nc : ℕ) : List (List Char) :=
  ["4_sequential_cond".toList ++ fmtD nc ++ "_bwfw".toList, "4_parallel_cond".toList ++ fmtD nc ++ "_bwfw_1".toList,
    "4_parallel_cond".toList ++ fmtD nc ++ "_bwfw_2".toList]

/-- The names of the other tests. -/
def plainIds (n : ℕ) : List (List Char) :=
  [fmtD n ++ "_sequential_bw".toList, fmtD n ++ "_parallel_bw".toList, fmtD n ++ "_sequential_bwfw".toList,
    fmtD n ++ "_parallel_bwfw_1".toList, fmtD n ++ "_parallel_bwfw_2".toList]

theorem sel224 {α β : Type} (a0 a1 a2 a3 a4 a5 a6 a7 : α) (f : α × ℕ → β) :
    ((([a0, a1, a2, a3, a4] ++ [a5, a6, a7]).zipIdx.filter fun p => (224 : ℤ) / 2 ^ p.2 % 2 = 1).map f) = [f (a5, 5), f (a6, 6), f (a7, 7)] := by
  simp [List.zipIdx_cons, List.filter_cons]

theorem sel31 {α β : Type} (a0 a1 a2 a3 a4 a5 a6 a7 : α) (f : α × ℕ → β) :
    ((([a0, a1, a2, a3, a4] ++ [a5, a6, a7]).zipIdx.filter fun p => (31 : ℤ) / 2 ^ p.2 % 2 = 1).map f) =
      [f (a0, 0), f (a1, 1), f (a2, 2), f (a3, 3), f (a4, 4)] := by
  simp [List.zipIdx_cons, List.filter_cons]

theorem sel5 {α β : Type} (a0 a1 a2 a3 a4 a5 a6 a7 : α) (f : α × ℕ → β) :
    ((([a0, a1, a2, a3, a4] ++ [a5, a6, a7]).zipIdx.filter fun p => (5 : ℤ) / 2 ^ p.2 % 2 = 1).map f) = [f (a0, 0), f (a2, 2)] := by
  simp [List.zipIdx_cons, List.filter_cons]

theorem sel5' {α β : Type} (a0 a1 a2 a3 a4 : α) (f : α × ℕ → β) :
    (([a0, a1, a2, a3, a4].zipIdx.filter fun p => (5 : ℤ) / 2 ^ p.2 % 2 = 1).map f) = [f (a0, 0), f (a2, 2)] := by
  simp [List.zipIdx_cons, List.filter_cons]

theorem sel1 {α β : Type} (a0 a1 a2 : α) (f : α × ℕ → β) :
    (([a0, a1, a2].zipIdx.filter fun p => (1 : ℤ) / 2 ^ p.2 % 2 = 1).map f) = [f (a0, 0)] := by
  simp [List.zipIdx_cons, List.filter_cons]

theorem fmtD4 (a b c : List Char) (h : fmtD 4 ++ a = c) : fmtD 4 ++ a ++ b = c ++ b := by rw [h]

theorem condCmd_run (W : World) (hW : W.Ok) (nc start stop num : ℕ) (hnc : 0 < nc) (hg : 1 < nc.gcd 10) (hst : 1 ≤ start)
    (hss : start ≤ stop) (dev devt : String) (hd : dev = "/CPU:0" ∧ devt = "cpu_mc" ∨ dev = "/GPU:0" ∧ devt = "gpu_mc") :
    (condCmd nc start stop num dev).run W =
      ((condIds nc).map fun id => (expName "tracking".toList id devt.toList, trackRows start stop num), none) := by
  have hs : '=' ∉ dev.toList ∧ devTxt dev.toList 0 = devt.toList := by
    rcases hd with ⟨rfl, rfl⟩ | ⟨rfl, rfl⟩ <;> decide +kernel
  have key : ∀ c, convArgs linKeys linDefaults (condCmd nc start stop num dev).args = some c →
      c.lookup "model".toList = some (.str "tracking".toList) → c.lookup "start".toList = some (.num ((start : ℤ) : ℝ)) →
      c.lookup "stop".toList = some (.num ((stop : ℤ) : ℝ)) → c.lookup "num".toList = some (.int num) →
      c.lookup "n".toList = some (.int 4) → c.lookup "nc".toList = some (.int nc) → c.lookup "single".toList = some (.int 0) →
      c.lookup "device".toList = some (.str dev.toList) → c.lookup "mask".toList = some (.int 224) →
      (condCmd nc start stop num dev).run W =
        ((condIds nc).map fun id => (expName "tracking".toList id devt.toList, trackRows start stop num), none) := by
    intro c hc h0 h1 h2 h3 h4 h5 h6 h7 h8
    rw [Int.cast_natCast] at h1 h2
    have := (C89_tracking W.fl W.scan hW.scan W.rnd _ c (parse_convArgs hW.float hc) h0 _ _ num nc 4 0 224 _ h1 h2 h3 h4 h5 h6 h7 h8
      (by exact_mod_cast hst) (by exact_mod_cast hss) hnc).1 fun T _ => (C80_tracking_fits nc).1 hg T
    change linMain W.fl W.scan W.rnd _ = _
    rw [this]
    dsimp only
    rw [sel224, hs.2, condIds, fmtD4 "_sequential_cond".toList (fmtD nc) "4_sequential_cond".toList (by decide +kernel),
      fmtD4 "_parallel_cond".toList (fmtD nc) "4_parallel_cond".toList (by decide +kernel)]
    rfl
  refine key _ (by conv_args_dev hs.1) ?_ ?_ ?_ ?_ ?_ ?_ ?_ ?_ ?_ <;> cfg_look

/-- The commands with the model of masses. -/
theorem massCmd_run (W : World) (hW : W.Ok) (stop n : ℕ) (hn : 0 < n) (hss : 2 ≤ stop) (single : ℤ) (dev devt : String)
    (hd : '=' ∉ dev.toList) (hdt : devTxt dev.toList single = devt.toList) :
    (massCmd stop single n dev 31).run W =
      ((plainIds n).map fun id => (expName "mass".toList id devt.toList, massRows n 2 stop 20), none) ∧
    (massCmd stop single n dev 5).run W =
      ([fmtD n ++ "_sequential_bw".toList, fmtD n ++ "_sequential_bwfw".toList].map fun id =>
        (expName "mass".toList id devt.toList, massRows n 2 stop 20), none) := by
  have key : ∀ mask c, convArgs linKeys linDefaults (massCmd stop single n dev mask).args = some c →
      c.lookup "model".toList = some (.str "mass".toList) → c.lookup "start".toList = some (.num ((2 : ℤ) : ℝ)) →
      c.lookup "stop".toList = some (.num ((stop : ℤ) : ℝ)) → c.lookup "num".toList = some (.int (20 : ℕ)) →
      c.lookup "n".toList = some (.int n) → c.lookup "nc".toList = some (.int (4 : ℕ)) → c.lookup "single".toList = some (.int single) →
      c.lookup "device".toList = some (.str dev.toList) → c.lookup "mask".toList = some (.int mask) →
      (massCmd stop single n dev mask).run W = (((plainIds n ++ [fmtD n ++ "_sequential_cond".toList ++ fmtD (4 : ℕ) ++ "_bwfw".toList,
        fmtD n ++ "_parallel_cond".toList ++ fmtD (4 : ℕ) ++ "_bwfw_1".toList,
        fmtD n ++ "_parallel_cond".toList ++ fmtD (4 : ℕ) ++ "_bwfw_2".toList]).zipIdx.filter fun p => mask / 2 ^ p.2 % 2 = 1).map
          fun p => (expName "mass".toList p.1 (devTxt dev.toList single), massRows n 2 stop 20), none) := by
    intro mask c hc h0 h1 h2 h3 h4 h5 h6 h7 h8
    rw [Int.cast_natCast] at h2
    rw [Int.cast_ofNat] at h1
    exact C89_mass W.fl W.scan hW.scan W.rnd _ c (parse_convArgs hW.float hc) h0 _ _ 20 n 4 single mask _ h1 h2 h3 h4 h5 h6 h7 h8
      (by norm_num) (by exact_mod_cast hss) hn (by norm_num)
  constructor
  · have := key 31 _ (by conv_args_dev hd) (by cfg_look) (by cfg_look) (by cfg_look) (by cfg_look) (by cfg_look) (by cfg_look)
      (by cfg_look) (by cfg_look) (by cfg_look)
    rw [this, plainIds, sel31, hdt]
    rfl
  · have := key 5 _ (by conv_args_dev hd) (by cfg_look) (by cfg_look) (by cfg_look) (by cfg_look) (by cfg_look) (by cfg_look)
      (by cfg_look) (by cfg_look) (by cfg_look)
    rw [this, plainIds, sel5, hdt]
    rfl

theorem plainCmd_run (W : World) (hW : W.Ok) (single : ℤ) (dev devt : String) (hd : '=' ∉ dev.toList)
    (hdt : devTxt dev.toList single = devt.toList) : (plainCmd single dev).run W =
      ((plainIds 4).map fun id => (expName "tracking".toList id devt.toList, trackRows 2 5 20), none) := by
  have key : ∀ c, convArgs linKeys linDefaults (plainCmd single dev).args = some c →
      c.lookup "model".toList = some (.str "tracking".toList) → c.lookup "start".toList = some (.num ((2 : ℤ) : ℝ)) →
      c.lookup "stop".toList = some (.num ((5 : ℤ) : ℝ)) → c.lookup "num".toList = some (.int (20 : ℕ)) →
      c.lookup "n".toList = some (.int 4) → c.lookup "nc".toList = some (.int (4 : ℕ)) → c.lookup "single".toList = some (.int single) →
      c.lookup "device".toList = some (.str dev.toList) → c.lookup "mask".toList = some (.int 31) →
      (plainCmd single dev).run W = ((plainIds 4).map fun id => (expName "tracking".toList id devt.toList, trackRows 2 5 20), none) := by
    intro c hc h0 h1 h2 h3 h4 h5 h6 h7 h8
    rw [Int.cast_ofNat] at h1 h2
    have := (C89_tracking W.fl W.scan hW.scan W.rnd _ c (parse_convArgs hW.float hc) h0 _ _ 20 4 4 single 31 _ h1 h2 h3 h4 h5 h6 h7 h8
      (by norm_num) (by norm_num) (by norm_num)).1 fun T _ => (C80_tracking_fits 4).1 (by norm_num) T
    change linMain W.fl W.scan W.rnd _ = _
    rw [this]
    dsimp only
    rw [sel31, hdt]
    rfl
  exact key _ (by conv_args_dev hd) (by cfg_look) (by cfg_look) (by cfg_look) (by cfg_look) (by cfg_look) (by cfg_look)
    (by cfg_look) (by cfg_look) (by cfg_look)

/-- C92 (tracking): every command of the files for the tracking model ends without failure; the commands of the files `1` write the five
plain tests, with many and with one thread, and those of the files `2a` to `2d` the three condensed tests for every block length. -/
theorem C92_tracking (W : ℕ → World) (hW : ∀ k, (W k).Ok) :
    let plain (dev : String) : ExpLog × Option ExpErr :=
      ((plainIds 4).map fun id => (expName "tracking".toList id dev.toList, trackRows 2 5 20), none)
    let cond (dev : String) (start stop : ℝ) (num : ℕ) (ncs : List ℕ) : List (ExpLog × Option ExpErr) :=
      ncs.map fun nc => ((condIds nc).map fun id => (expName "tracking".toList id dev.toList, trackRows start stop num), none)
    runDriver W (tracking1 "/CPU:0") = [plain "cpu_mc", plain "cpu_sc"] ∧ runDriver W (tracking1 "/GPU:0") = [plain "gpu_mc", plain "gpu_sc"] ∧
    runDriver W cpuTracking2a = cond "cpu_mc" 2 5 20 [2, 4, 8, 16, 32, 64, 128, 256] ∧
    runDriver W cpuTracking2b = cond "cpu_mc" 2 5 20 [2, 4, 8, 16, 32, 64, 128] ∧
    runDriver W gpuTracking2a = cond "gpu_mc" 2 5 20 [2, 4, 8, 16, 32, 64, 128, 256] ∧
    runDriver W gpuTracking2b = cond "gpu_mc" 2 5 20 [2, 4, 8, 16, 32, 64, 128] ∧
    runDriver W gpuTracking2c = cond "gpu_mc" 5 5 1 [100, 150, 200, 250, 300, 350, 400, 450, 500] ∧
    runDriver W gpuTracking2d = cond "gpu_mc" 5 5 1 [5, 10, 15, 20, 25, 30, 35, 40, 45] := by
  intro plain cond
  have hplain : ∀ (dev d1 d2 : String), '=' ∉ dev.toList → devTxt dev.toList 0 = d1.toList → devTxt dev.toList 1 = d2.toList →
      runDriver W (tracking1 dev) = [plain d1, plain d2] := by
    intro dev d1 d2 h h1 h2
    change [(plainCmd 0 dev).run (W 0), (plainCmd 1 dev).run (W 1)] = _
    rw [plainCmd_run (W 0) (hW 0) 0 dev d1 h h1, plainCmd_run (W 1) (hW 1) 1 dev d2 h h2]
  have hcond : ∀ (dev devt : String), dev = "/CPU:0" ∧ devt = "cpu_mc" ∨ dev = "/GPU:0" ∧ devt = "gpu_mc" → ∀ (ncs : List ℕ)
      (start stop num : ℕ), 1 ≤ start → start ≤ stop → (∀ nc ∈ ncs, 0 < nc ∧ 1 < nc.gcd 10) →
      runDriver W (ncs.map fun nc : ℕ => condCmd nc start stop num dev) = cond devt start stop num ncs := by
    intro dev devt hd ncs start stop num hs hss h
    exact runDriver_map W ncs _ _ fun nc hnc k => condCmd_run (W k) (hW k) nc start stop num (h nc hnc).1 (h nc hnc).2 hs hss dev devt hd
  refine ⟨hplain _ _ _ (by decide +kernel) (by decide +kernel) (by decide +kernel),
    hplain _ _ _ (by decide +kernel) (by decide +kernel) (by decide +kernel), ?_, ?_, ?_, ?_, ?_, ?_⟩
  · exact_mod_cast hcond _ _ (.inl ⟨rfl, rfl⟩) [2, 4, 8, 16, 32, 64, 128, 256] 2 5 20 (by norm_num) (by norm_num) (by decide)
  · exact_mod_cast hcond _ _ (.inl ⟨rfl, rfl⟩) [2, 4, 8, 16, 32, 64, 128] 2 5 20 (by norm_num) (by norm_num) (by decide)
  · exact_mod_cast hcond _ _ (.inr ⟨rfl, rfl⟩) [2, 4, 8, 16, 32, 64, 128, 256] 2 5 20 (by norm_num) (by norm_num) (by decide)
  · exact_mod_cast hcond _ _ (.inr ⟨rfl, rfl⟩) [2, 4, 8, 16, 32, 64, 128] 2 5 20 (by norm_num) (by norm_num) (by decide)
  · exact_mod_cast hcond _ _ (.inr ⟨rfl, rfl⟩) [100, 150, 200, 250, 300, 350, 400, 450, 500] 5 5 1 (by norm_num) (by norm_num) (by decide)
  · exact_mod_cast hcond _ _ (.inr ⟨rfl, rfl⟩) [5, 10, 15, 20, 25, 30, 35, 40, 45] 5 5 1 (by norm_num) (by norm_num) (by decide)

/-- The first command of `cpu_tracking_2a.sh`. -/
example : (runDriver (fun _ => sampleWorld) cpuTracking2a)[0]? = some ([("res/tracking_4_sequential_cond2_bwfw_cpu_mc.txt".toList, trackRows 2 5 20),
    ("res/tracking_4_parallel_cond2_bwfw_1_cpu_mc.txt".toList, trackRows 2 5 20),
    ("res/tracking_4_parallel_cond2_bwfw_2_cpu_mc.txt".toList, trackRows 2 5 20)], none) := by
  rw [(C92_tracking _ fun _ => sampleWorld_ok).2.2.1]
  have h : (condIds 2).map (fun id => expName "tracking".toList id "cpu_mc".toList) =
      ["res/tracking_4_sequential_cond2_bwfw_cpu_mc.txt".toList, "res/tracking_4_parallel_cond2_bwfw_1_cpu_mc.txt".toList,
        "res/tracking_4_parallel_cond2_bwfw_2_cpu_mc.txt".toList] := by decide +kernel
  simp only [List.map_cons, List.getElem?_cons_zero, Option.some.injEq, Prod.mk.injEq, and_true]
  have := congrArg (fun l : List (List Char) => l.map fun n => (n, trackRows 2 5 20)) h
  rw [List.map_map] at this
  exact this

/-- C92 (masses): every command of the files for the chain of masses ends without failure, with one file per selected test. -/
theorem C92_mass (W : ℕ → World) (hW : ∀ k, (W k).Ok) :
    let files (dev : String) (stop : ℝ) (ids : ℕ → List (List Char)) (n : ℕ) : ExpLog × Option ExpErr :=
      ((ids n).map fun id => (expName "mass".toList id dev.toList, massRows n 2 stop 20), none)
    let seqIds (n : ℕ) := [fmtD n ++ "_sequential_bw".toList, fmtD n ++ "_sequential_bwfw".toList]
    runDriver W cpuMass1 = [2, 4, 8, 16, 32, 64, 128, 256].map (files "cpu_mc" 4 plainIds) ++
      [2, 4, 8, 16, 32, 64, 128, 256].map (files "cpu_sc" 4 seqIds) ∧
    runDriver W gpuMass1 = [files "gpu_mc" 4 plainIds 256, files "gpu_sc" 4 seqIds 256] ∧
    runDriver W gpuMass2 = [2, 4, 8, 16, 32, 64, 128, 256, 512, 1014, 2048].map (files "gpu_mc" 3 plainIds) := by
  intro files seqIds
  have h31 : ∀ (dev devt : String) (stop : ℕ), '=' ∉ dev.toList → devTxt dev.toList 0 = devt.toList → 2 ≤ stop → ∀ W : World, W.Ok → ∀ n : ℕ, 0 < n →
      (massCmd stop 0 n dev 31).run W = files devt stop plainIds n :=
    fun dev devt stop h1 h2 hs W hW n hn => (massCmd_run W hW stop n hn hs 0 dev devt h1 h2).1
  have h5 : ∀ (dev devt : String) (stop : ℕ), '=' ∉ dev.toList → devTxt dev.toList 1 = devt.toList → 2 ≤ stop → ∀ W : World, W.Ok → ∀ n : ℕ, 0 < n →
      (massCmd stop 1 n dev 5).run W = files devt stop seqIds n :=
    fun dev devt stop h1 h2 hs W hW n hn => (massCmd_run W hW stop n hn hs 1 dev devt h1 h2).2
  have hc := h31 "/CPU:0" "cpu_mc" 4 (by decide +kernel) (by decide +kernel) (by norm_num)
  have hc1 := h5 "/CPU:0" "cpu_sc" 4 (by decide +kernel) (by decide +kernel) (by norm_num)
  have hg := h31 "/GPU:0" "gpu_mc" 4 (by decide +kernel) (by decide +kernel) (by norm_num)
  have hg1 := h5 "/GPU:0" "gpu_sc" 4 (by decide +kernel) (by decide +kernel) (by norm_num)
  have hg3 := h31 "/GPU:0" "gpu_mc" 3 (by decide +kernel) (by decide +kernel) (by norm_num)
  refine ⟨?_, ?_, ?_⟩
  · have e : cpuMass1 = (([2, 4, 8, 16, 32, 64, 128, 256].map fun n : ℕ => (n, false)) ++
        [2, 4, 8, 16, 32, 64, 128, 256].map fun n : ℕ => (n, true)).map fun p : ℕ × Bool =>
          if p.2 then massCmd (4 : ℕ) 1 (p.1 : ℕ) "/CPU:0" 5 else massCmd (4 : ℕ) 0 (p.1 : ℕ) "/CPU:0" 31 := rfl
    rw [e, runDriver_map W _ _ fun p : ℕ × Bool => if p.2 then files "cpu_sc" (4 : ℕ) seqIds p.1 else files "cpu_mc" (4 : ℕ) plainIds p.1]
    · rw [Nat.cast_ofNat]
      rfl
    · rintro ⟨n, b⟩ hp k
      have hn : 0 < n := by
        simp only [List.map_cons, List.map_nil, List.cons_append, List.nil_append, List.mem_cons, Prod.mk.injEq, List.not_mem_nil, or_false] at hp
        omega
      cases b
      · exact hc (W k) (hW k) n hn
      · exact hc1 (W k) (hW k) n hn
  · change [(massCmd (4 : ℕ) 0 (256 : ℕ) "/GPU:0" 31).run (W 0), (massCmd (4 : ℕ) 1 (256 : ℕ) "/GPU:0" 5).run (W 1)] = _
    rw [hg (W 0) (hW 0) 256 (by norm_num), hg1 (W 1) (hW 1) 256 (by norm_num), Nat.cast_ofNat]
  · have e : gpuMass2 = [2, 4, 8, 16, 32, 64, 128, 256, 512, 1014, 2048].map fun n : ℕ => massCmd (3 : ℕ) 0 n "/GPU:0" 31 := rfl
    rw [e, runDriver_map W _ _ (files "gpu_mc" (3 : ℕ) plainIds), Nat.cast_ofNat]
    intro n hn k
    refine hg3 (W k) (hW k) n ?_
    simp only [List.mem_cons, List.not_mem_nil, or_false] at hn
    omega

/-- The files of `gpu_mass_1.sh`, and those of the command with 1014 masses in `gpu_mass_2.sh`. -/
example : ((runDriver (fun _ => sampleWorld) gpuMass1).flatMap fun r => r.1.map Prod.fst) =
      ["res/mass_256_sequential_bw_gpu_mc.txt".toList, "res/mass_256_parallel_bw_gpu_mc.txt".toList,
        "res/mass_256_sequential_bwfw_gpu_mc.txt".toList, "res/mass_256_parallel_bwfw_1_gpu_mc.txt".toList,
        "res/mass_256_parallel_bwfw_2_gpu_mc.txt".toList, "res/mass_256_sequential_bw_gpu_sc.txt".toList,
        "res/mass_256_sequential_bwfw_gpu_sc.txt".toList] ∧
    ((runDriver (fun _ => sampleWorld) gpuMass2)[9]?.map fun r => r.1.map Prod.fst) =
      some ["res/mass_1014_sequential_bw_gpu_mc.txt".toList, "res/mass_1014_parallel_bw_gpu_mc.txt".toList,
        "res/mass_1014_sequential_bwfw_gpu_mc.txt".toList, "res/mass_1014_parallel_bwfw_1_gpu_mc.txt".toList,
        "res/mass_1014_parallel_bwfw_2_gpu_mc.txt".toList] := by
  obtain ⟨-, h1, h2⟩ := C92_mass _ fun _ => sampleWorld_ok
  rw [h1, h2]
  simp only [List.flatMap_cons, List.flatMap_nil, List.map_map, List.map_cons, List.getElem?_cons_succ, List.getElem?_cons_zero, Option.map_some]
  exact ⟨by decide +kernel, by decide +kernel⟩

/-- The table of the finite-state game. -/
noncomputable def gameRows (nx : ℕ) : ExpFile := .table ((logspaceInt 2 5 20).map fun T : ℕ => ⟨[(T : ℤ), (nx : ℤ)], []⟩)

/-- The table of the nonlinear tracker. -/
noncomputable def nonlinearRows : ExpFile :=
  .table ((logspaceInt 2 5 20).map fun T : ℕ => ⟨[((10 * ((T + 9) / 10) : ℕ) : ℤ), 4], []⟩)

theorem finiteCmd_run (W : World) (hW : W.Ok) (nx : ℕ) (hn : 0 < nx) (dev devt : String) (hd : '=' ∉ dev.toList)
    (hdt : devTxt dev.toList 0 = devt.toList) : (finiteCmd nx dev).run W =
      (["seq_bw_".toList, "seq_bwfw_".toList].map fun id => (expName "finite".toList (id ++ fmtD nx) devt.toList, gameRows nx), none) := by
  have key : ∀ c, convArgs finKeys finDefaults (finiteCmd nx dev).args = some c →
      c.lookup "start".toList = some (.num ((2 : ℤ) : ℝ)) →
      c.lookup "stop".toList = some (.num ((5 : ℤ) : ℝ)) → c.lookup "num".toList = some (.int (20 : ℕ)) →
      c.lookup "nx".toList = some (.int nx) → c.lookup "single".toList = some (.int 0) →
      c.lookup "device".toList = some (.str dev.toList) → c.lookup "mask".toList = some (.int 5) →
      (finiteCmd nx dev).run W =
        (["seq_bw_".toList, "seq_bwfw_".toList].map fun id => (expName "finite".toList (id ++ fmtD nx) devt.toList, gameRows nx), none) := by
    intro c hc h1 h2 h3 h4 h6 h7 h8
    rw [Int.cast_ofNat] at h1 h2
    have := C89_finite W.fl W.scan hW.scan W.am hW.am W.rnd3 _ c (parse_convArgs hW.float hc) _ _ 20 nx 0 5 _ h1 h2 h3 h4 h6 h7 h8
      (by norm_num) (by norm_num) (by norm_num) hn
    change finMain W.fl W.scan W.am W.rnd3 _ = _
    rw [this]
    rw [sel5', hdt]
    rfl
  exact key _ (by conv_args_dev hd) (by cfg_look) (by cfg_look) (by cfg_look) (by cfg_look) (by cfg_look) (by cfg_look)
    (by cfg_look)

theorem nonlinear1_run (W : World) (hW : W.Ok) (dev devt : String) (hd : '=' ∉ dev.toList)
    (hdt : devTxt dev.toList 0 = devt.toList) : (nonlinear1 dev).map (Command.run W) =
      [([(expName "nonlinear".toList "seq".toList devt.toList, nonlinearRows)], none)] := by
  have key : ∀ c, convArgs nlinKeys nlinDefaults [("start".toList, .int 2), ("stop".toList, .int 5), ("num".toList, .int 20),
        ("single".toList, .int 0), ("device".toList, .str dev.toList), ("mask".toList, .int 1)] = some c →
      c.lookup "start".toList = some (.num ((2 : ℤ) : ℝ)) →
      c.lookup "stop".toList = some (.num ((5 : ℤ) : ℝ)) → c.lookup "num".toList = some (.int (20 : ℕ)) →
      c.lookup "single".toList = some (.int 0) →
      c.lookup "device".toList = some (.str dev.toList) → c.lookup "mask".toList = some (.int 1) →
      (nonlinear1 dev).map (Command.run W) = [([(expName "nonlinear".toList "seq".toList devt.toList, nonlinearRows)], none)] := by
    intro c hc h1 h2 h3 h6 h7 h8
    rw [Int.cast_ofNat] at h1 h2
    have := C89_nonlinear W.fl W.scan hW.scan _ c (parse_convArgs hW.float hc) _ _ 20 0 1 _ h1 h2 h3 h6 h7 h8
      (by norm_num) (by norm_num)
    change [nlinMain W.fl W.scan _] = _
    rw [this]
    rw [sel1, hdt]
    rfl
  exact key _ (by conv_args_dev hd) (by cfg_look) (by cfg_look) (by cfg_look) (by cfg_look) (by cfg_look) (by cfg_look)

/-- C92 (game and nonlinear tracker): the files for the finite-state game write the two sequential tests only, those for the nonlinear
tracker the sequential test only, on both devices, without failure. -/
theorem C92_finite_nonlinear (W : ℕ → World) (hW : ∀ k, (W k).Ok) :
    let game (dev : String) (nx : ℕ) : ExpLog × Option ExpErr :=
      (["seq_bw_".toList, "seq_bwfw_".toList].map fun id => (expName "finite".toList (id ++ fmtD nx) dev.toList, gameRows nx), none)
    runDriver W (finite1 "/CPU:0") = [game "cpu_mc" 5, game "cpu_mc" 11, game "cpu_mc" 21] ∧
    runDriver W (finite1 "/GPU:0") = [game "gpu_mc" 5, game "gpu_mc" 11, game "gpu_mc" 21] ∧
    runDriver W (nonlinear1 "/CPU:0") = [([("res/nonlinear_seq_cpu_mc.txt".toList, nonlinearRows)], none)] ∧
    runDriver W (nonlinear1 "/GPU:0") = [([("res/nonlinear_seq_gpu_mc.txt".toList, nonlinearRows)], none)] := by
  intro game
  have hgame : ∀ dev devt : String, '=' ∉ dev.toList → devTxt dev.toList 0 = devt.toList →
      runDriver W (finite1 dev) = [game devt 5, game devt 11, game devt 21] := by
    intro dev devt h1 h2
    change [(finiteCmd (5 : ℕ) dev).run (W 0), (finiteCmd (11 : ℕ) dev).run (W 1), (finiteCmd (21 : ℕ) dev).run (W 2)] = _
    rw [finiteCmd_run (W 0) (hW 0) 5 (by norm_num) dev devt h1 h2, finiteCmd_run (W 1) (hW 1) 11 (by norm_num) dev devt h1 h2,
      finiteCmd_run (W 2) (hW 2) 21 (by norm_num) dev devt h1 h2]
  refine ⟨hgame _ _ (by decide +kernel) (by decide +kernel), hgame _ _ (by decide +kernel) (by decide +kernel), ?_, ?_⟩
  · refine (nonlinear1_run (W 0) (hW 0) "/CPU:0" "cpu_mc" (by decide +kernel) (by decide +kernel)).trans ?_
    rw [show expName "nonlinear".toList "seq".toList "cpu_mc".toList = "res/nonlinear_seq_cpu_mc.txt".toList by decide +kernel]
  · refine (nonlinear1_run (W 0) (hW 0) "/GPU:0" "gpu_mc" (by decide +kernel) (by decide +kernel)).trans ?_
    rw [show expName "nonlinear".toList "seq".toList "gpu_mc".toList = "res/nonlinear_seq_gpu_mc.txt".toList by decide +kernel]

/-- The files of `cpu_finite_1.sh`. -/
example : ((runDriver (fun _ => sampleWorld) (finite1 "/CPU:0")).flatMap fun r => r.1.map Prod.fst) =
    ["res/finite_seq_bw_5_cpu_mc.txt".toList, "res/finite_seq_bwfw_5_cpu_mc.txt".toList, "res/finite_seq_bw_11_cpu_mc.txt".toList,
      "res/finite_seq_bwfw_11_cpu_mc.txt".toList, "res/finite_seq_bw_21_cpu_mc.txt".toList, "res/finite_seq_bwfw_21_cpu_mc.txt".toList] := by
  rw [(C92_finite_nonlinear _ fun _ => sampleWorld_ok).1]
  simp only [List.flatMap_cons, List.flatMap_nil, List.map_map]
  decide +kernel

end Verif
