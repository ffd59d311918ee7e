import Verif.Proof.ExperimentsMain
import Verif.Props.SpeedLinear
import Verif.Props.SpeedFinite
import Verif.Props.SpeedNonlinear

/-! C89: the results of the experiment scripts in `/repo/experiments-bellman`. -/

namespace Verif

theorem rowsTD_const (l : List ℕ) (d num : ℕ) (h : l.length = num) :
    rowsTD (l, List.replicate num d) = l.map fun T : ℕ => ⟨[(T : ℤ), (d : ℤ)], []⟩ := by
  subst h
  induction l with
  | nil => rfl
  | cons a l ih =>
    rw [rowsTD] at ih
    rw [rowsTD, List.length_cons, List.replicate_succ, List.zip_cons_cons, List.map_cons, List.map_cons, ih]

theorem flatMap_writeTable (m d : List Char) (rows : List ExpRow) (l : List (List Char × ℕ)) :
    l.flatMap (fun p => writeTable m d p.1 rows) = l.map fun p => (expName m p.1 d, .table rows) :=
  List.map_eq_flatMap.symm

/-- C89 (linear tracking): with `1 ≤ start ≤ stop`, for all devices, masks and values of `n`, the script writes one file per selected
test, in the given order, with one line per number of steps; the numbers of steps are the rounded logarithmic grid, down to multiples
of 10, and the dimension is 4, whatever `n` is. If a number of steps does not fit the block length (`nc = 1`, or remainder one), then
only the first five files are written, and the script fails with `LinAlgError` iff one of the condensed tests is selected. -/
theorem C89_tracking (fl : List Char → Py ℝ) (scan : AScan) (hs : ∀ α, IsAssocScan (scan α)) (rnd : ℕ → ℝ) (args : List (List Char))
    (c : Cfg) (hc : parseArgs fl linKeys linDefaults args = .ok c) (hm : c.lookup "model".toList = some (.str "tracking".toList))
    (start stop : ℝ) (num nc : ℕ) (n single mask : ℤ) (device : List Char)
    (h1 : c.lookup "start".toList = some (.num start)) (h2 : c.lookup "stop".toList = some (.num stop))
    (h3 : c.lookup "num".toList = some (.int num)) (h4 : c.lookup "n".toList = some (.int n))
    (h5 : c.lookup "nc".toList = some (.int nc)) (h6 : c.lookup "single".toList = some (.int single))
    (h7 : c.lookup "device".toList = some (.str device)) (h8 : c.lookup "mask".toList = some (.int mask))
    (hst : 1 ≤ start) (hss : start ≤ stop) (hnc : 0 < nc) :
    let name (id : List Char) := expName "tracking".toList id (devTxt device single)
    let rows : ExpFile := .table ((logspaceInt start stop num).map fun T : ℕ => ⟨[((10 * (T / 10) : ℕ) : ℤ), 4], []⟩)
    let ids := [fmtD n ++ "_sequential_bw".toList, fmtD n ++ "_parallel_bw".toList, fmtD n ++ "_sequential_bwfw".toList,
      fmtD n ++ "_parallel_bwfw_1".toList, fmtD n ++ "_parallel_bwfw_2".toList]
    let cids := [fmtD n ++ "_sequential_cond".toList ++ fmtD nc ++ "_bwfw".toList,
      fmtD n ++ "_parallel_cond".toList ++ fmtD nc ++ "_bwfw_1".toList, fmtD n ++ "_parallel_cond".toList ++ fmtD nc ++ "_bwfw_2".toList]
    let fits := ∀ T ∈ logspaceInt start stop num, nc ≠ 1 ∧ 10 * (T / 10) % nc ≠ 1
    (fits → linMain fl scan rnd args =
      (((ids ++ cids).zipIdx.filter fun p => mask / 2 ^ p.2 % 2 = 1).map fun p => (name p.1, rows), none)) ∧
    (¬ fits → linMain fl scan rnd args = ((ids.zipIdx.filter fun p => mask / 2 ^ p.2 % 2 = 1).map fun p => (name p.1, rows),
      if mask / 32 % 8 = 0 then none else some (.py .linAlgError))) := by
  intro name rows ids cids fits
  obtain ⟨model, start', stop', num', n', nc', single', device', mask', e1, e2, e3, e4, e5, e6, e7, e8, e9, hmain⟩ :=
    linMain_eq fl scan rnd hc
  rw [hm] at e1; rw [h1] at e2; rw [h2] at e3; rw [h3] at e4; rw [h4] at e5; rw [h5] at e6; rw [h6] at e7; rw [h7] at e8; rw [h8] at e9
  cases e1; cases e2; cases e3; cases e4; cases e5; cases e6; cases e7; cases e8; cases e9
  obtain ⟨⟨g1, g2, g3, g4, g5⟩, g6, g7⟩ := C80_tracking rnd start stop num 10 nc hst hss (by norm_num) hnc scan hs
  have hlen : ((logspaceInt start stop num).map fun T => 10 * (T / 10)).length = num := by
    rw [List.length_map, (C80_logspace start stop num hss).1]
  have hr := rowsTD_const _ 4 num hlen
  rw [List.map_map] at hr
  have hgen : linGenerator rnd "tracking".toList start stop num n = .ok (trackingGen rnd start stop num) := by
    rw [linGenerator, if_pos rfl, natArg_nat]
    rfl
  set good : List ExpTest := (linTests scan rnd "tracking".toList start stop num n nc).take 5 with hgood
  set bad : List ExpTest := (linTests scan rnd "tracking".toList start stop num n nc).drop 5 with hbad
  have hall : ∀ {f : List (Py (LQItem ℝ)) → Py (List ℕ × List ℕ)},
      f (trackingGen rnd start stop num) = .ok ((logspaceInt start stop num).map fun T => 10 * (T / 10), List.replicate num 4) →
      linTest (linGenerator rnd "tracking".toList start stop num n) f =
        .ok ((logspaceInt start stop num).map fun T : ℕ => ⟨[((10 * (T / 10) : ℕ) : ℤ), 4], []⟩) := by
    intro f hf
    rw [linTest, hgen, exp_ok_bind, hf]
    change Except.ok (rowsTD _) = _
    rw [hr]
    rfl
  have hgood' : ∀ t ∈ good, t.run = .ok ((logspaceInt start stop num).map fun T : ℕ => ⟨[((10 * (T / 10) : ℕ) : ℤ), 4], []⟩) := by
    intro t ht
    change t ∈ [_, _, _, _, _] at ht
    simp only [List.mem_cons, List.not_mem_nil, or_false] at ht
    rcases ht with rfl | rfl | rfl | rfl | rfl
    · exact hall g1
    · exact hall g2
    · exact hall g3
    · exact hall g4
    · exact hall g5
  have hcond : ∀ f : ℕ → List (Py (LQItem ℝ)) → Py (List ℕ × List ℕ),
      (do let g ← linGenerator rnd "tracking".toList start stop num n
          let nc ← natArg nc
          linTest (.ok g) (f nc) : Except ExpErr (List ExpRow)) =
      linTest (linGenerator rnd "tracking".toList start stop num n) (f nc) := by
    intro f
    rw [hgen, exp_ok_bind, natArg_nat, exp_ok_bind]
  rw [hmain]
  constructor
  · intro hf
    obtain ⟨k1, k2, k3⟩ := g6 hf
    rw [runTests_all (rows := (logspaceInt start stop num).map fun T : ℕ => ⟨[((10 * (T / 10) : ℕ) : ℤ), 4], []⟩)]
    · rw [flatMap_writeTable]
      rfl
    · rw [← List.take_append_drop 5 (linTests scan rnd "tracking".toList start stop num n nc)]
      intro t ht
      rcases List.mem_append.1 ht with ht | ht
      · exact hgood' t ht
      · change t ∈ [_, _, _] at ht
        simp only [List.mem_cons, List.not_mem_nil, or_false] at ht
        rcases ht with rfl | rfl | rfl
        · exact (hcond fun nc g => seqCondSpeed g 10 nc).trans (hall k1)
        · exact (hcond fun nc g => parCond1Speed scan g 10 nc).trans (hall k2)
        · exact (hcond fun nc g => parCond2Speed scan g 10 nc).trans (hall k3)
  · intro hf
    obtain ⟨k1, k2, k3⟩ := g7 hf
    have herr : ∀ {f : List (Py (LQItem ℝ)) → Py (List ℕ × List ℕ)},
        f (trackingGen rnd start stop num) = .error .linAlgError →
        linTest (linGenerator rnd "tracking".toList start stop num n) f = .error (.py .linAlgError) := by
      intro f hf
      rw [linTest, hgen, exp_ok_bind, hf]
      rfl
    have hbad' : ∀ t ∈ bad, t.run = .error (.py .linAlgError) := by
      intro t ht
      change t ∈ [_, _, _] at ht
      simp only [List.mem_cons, List.not_mem_nil, or_false] at ht
      rcases ht with rfl | rfl | rfl
      · exact (hcond fun nc g => seqCondSpeed g 10 nc).trans (herr k1)
      · exact (hcond fun nc g => parCond1Speed scan g 10 nc).trans (herr k2)
      · exact (hcond fun nc g => parCond2Speed scan g 10 nc).trans (herr k3)
    rw [← List.take_append_drop 5 (linTests scan rnd "tracking".toList start stop num n nc), runTests_split mask _ _ hbad' _ hgood']
    have hsel : (∃ t ∈ bad, mask / 2 ^ t.bit % 2 = 1) ↔ ¬ mask / 32 % 8 = 0 := by
      have : (∃ t ∈ bad, mask / 2 ^ t.bit % 2 = 1) ↔
          mask / 2 ^ 5 % 2 = 1 ∨ mask / 2 ^ 6 % 2 = 1 ∨ mask / 2 ^ 7 % 2 = 1 := by
        change (∃ t ∈ [_, _, _], _) ↔ _
        simp only [List.mem_cons, List.not_mem_nil, or_false, exists_eq_or_imp, exists_eq_left]
      rw [this]
      norm_num
      omega
    refine Prod.ext ?_ ?_
    · dsimp only
      rw [flatMap_writeTable]
      rfl
    · dsimp only
      by_cases h0 : mask / 32 % 8 = 0
      · rw [if_pos h0, if_neg (fun h => (hsel.1 h) h0)]
      · rw [if_neg h0, if_pos (hsel.2 h0)]

/-- The default block length fits: the run without arguments writes eight files with 20 lines each. -/
example (fl : List Char → Py ℝ) (scan : AScan) (hs : ∀ α, IsAssocScan (scan α)) (rnd : ℕ → ℝ) :
    (linMain fl scan rnd []).2 = none ∧ (linMain fl scan rnd []).1.length = 8 ∧
    (linMain fl scan rnd []).1[5]? = some ("res/tracking_4_sequential_cond4_bwfw_cpu_mc.txt".toList,
      .table ((logspaceInt 2 5 20).map fun T : ℕ => ⟨[((10 * (T / 10) : ℕ) : ℤ), 4], []⟩)) := by
  have := (C89_tracking fl scan hs rnd [] linDefaults rfl rfl 2 5 20 4 4 0 65535 "/CPU:0".toList rfl rfl rfl rfl rfl rfl rfl rfl
    (by norm_num) (by norm_num) (by norm_num)).1 fun T _ => (C80_tracking_fits 4).1 (by norm_num) T
  rw [this]
  refine ⟨rfl, by decide +kernel, ?_⟩
  rw [List.getElem?_map]
  rfl

/-- C89 (linear, masses): with `0 ≤ start ≤ stop` and `n` masses the script writes one file per selected test, with the rounded
logarithmic grid and the dimension `2 n`, for every block length. -/
theorem C89_mass (fl : List Char → Py ℝ) (scan : AScan) (hs : ∀ α, IsAssocScan (scan α)) (rnd : ℕ → ℝ) (args : List (List Char))
    (c : Cfg) (hc : parseArgs fl linKeys linDefaults args = .ok c) (hm : c.lookup "model".toList = some (.str "mass".toList))
    (start stop : ℝ) (num n nc : ℕ) (single mask : ℤ) (device : List Char)
    (h1 : c.lookup "start".toList = some (.num start)) (h2 : c.lookup "stop".toList = some (.num stop))
    (h3 : c.lookup "num".toList = some (.int num)) (h4 : c.lookup "n".toList = some (.int n))
    (h5 : c.lookup "nc".toList = some (.int nc)) (h6 : c.lookup "single".toList = some (.int single))
    (h7 : c.lookup "device".toList = some (.str device)) (h8 : c.lookup "mask".toList = some (.int mask))
    (hst : 0 ≤ start) (hss : start ≤ stop) (hn : 0 < n) (hnc : 0 < nc) :
    let name (id : List Char) := expName "mass".toList id (devTxt device single)
    let rows : ExpFile := .table ((logspaceInt start stop num).map fun T : ℕ => ⟨[(T : ℤ), ((2 * n : ℕ) : ℤ)], []⟩)
    let ids := [fmtD n ++ "_sequential_bw".toList, fmtD n ++ "_parallel_bw".toList, fmtD n ++ "_sequential_bwfw".toList,
      fmtD n ++ "_parallel_bwfw_1".toList, fmtD n ++ "_parallel_bwfw_2".toList,
      fmtD n ++ "_sequential_cond".toList ++ fmtD nc ++ "_bwfw".toList,
      fmtD n ++ "_parallel_cond".toList ++ fmtD nc ++ "_bwfw_1".toList, fmtD n ++ "_parallel_cond".toList ++ fmtD nc ++ "_bwfw_2".toList]
    linMain fl scan rnd args =
      ((ids.zipIdx.filter fun p => mask / 2 ^ p.2 % 2 = 1).map fun p => (name p.1, rows), none) := by
  intro name rows ids
  obtain ⟨model, start', stop', num', n', nc', single', device', mask', e1, e2, e3, e4, e5, e6, e7, e8, e9, hmain⟩ :=
    linMain_eq fl scan rnd hc
  rw [hm] at e1; rw [h1] at e2; rw [h2] at e3; rw [h3] at e4; rw [h4] at e5; rw [h5] at e6; rw [h6] at e7; rw [h7] at e8; rw [h8] at e9
  cases e1; cases e2; cases e3; cases e4; cases e5; cases e6; cases e7; cases e8; cases e9
  obtain ⟨⟨g1, g2, g3, g4, g5⟩, k1, k2, k3⟩ := C80_mass n start stop num 10 nc hn hst hss (by norm_num) hnc scan hs
  have hr := rowsTD_const _ (2 * n) num (C80_logspace start stop num hss).1
  have hgen : linGenerator rnd "mass".toList start stop num n = .ok (massGen n start stop num) := by
    rw [linGenerator, if_neg (by decide), if_pos rfl, natArg_nat, exp_ok_bind, natArg_nat]
    rfl
  have hall : ∀ {f : List (Py (LQItem ℝ)) → Py (List ℕ × List ℕ)},
      f (massGen n start stop num) = .ok (logspaceInt start stop num, List.replicate num (2 * n)) →
      linTest (linGenerator rnd "mass".toList start stop num n) f =
        .ok ((logspaceInt start stop num).map fun T : ℕ => ⟨[(T : ℤ), ((2 * n : ℕ) : ℤ)], []⟩) := by
    intro f hf
    rw [linTest, hgen, exp_ok_bind, hf]
    change Except.ok (rowsTD _) = _
    rw [hr]
  have hcond : ∀ f : ℕ → List (Py (LQItem ℝ)) → Py (List ℕ × List ℕ),
      (do let g ← linGenerator rnd "mass".toList start stop num n
          let nc ← natArg nc
          linTest (.ok g) (f nc) : Except ExpErr (List ExpRow)) =
      linTest (linGenerator rnd "mass".toList start stop num n) (f nc) := by
    intro f
    rw [hgen, exp_ok_bind, natArg_nat, exp_ok_bind]
  rw [hmain, runTests_all (rows := (logspaceInt start stop num).map fun T : ℕ => ⟨[(T : ℤ), ((2 * n : ℕ) : ℤ)], []⟩)]
  · rw [flatMap_writeTable]
    rfl
  · intro t ht
    change t ∈ [_, _, _, _, _, _, _, _] at ht
    simp only [List.mem_cons, List.not_mem_nil, or_false] at ht
    rcases ht with rfl | rfl | rfl | rfl | rfl | rfl | rfl | rfl
    · exact hall g1
    · exact hall g2
    · exact hall g3
    · exact hall g4
    · exact hall g5
    · exact (hcond fun nc g => seqCondSpeed g 10 nc).trans (hall k1)
    · exact (hcond fun nc g => parCond1Speed scan g 10 nc).trans (hall k2)
    · exact (hcond fun nc g => parCond2Speed scan g 10 nc).trans (hall k3)

/-- `model=mass mask=6 nc=1` writes two files. -/
example (fl : List Char → Py ℝ) (scan : AScan) (hs : ∀ α, IsAssocScan (scan α)) (rnd : ℕ → ℝ) :
    (linMain fl scan rnd ["model=mass".toList, "mask=6".toList, "nc=1".toList]).1.map Prod.fst =
      ["res/mass_4_parallel_bw_cpu_mc.txt".toList, "res/mass_4_sequential_bwfw_cpu_mc.txt".toList] := by
  rw [C89_mass fl scan hs rnd _ _ rfl rfl 2 5 20 4 1 0 6 "/CPU:0".toList rfl rfl rfl rfl rfl rfl rfl rfl
    (by norm_num) (by norm_num) (by norm_num) (by norm_num)]
  rw [List.map_map]
  decide +kernel

/-- C89 (linear, failures): an unknown model ends the script with `sys.exit(1)`, but only if a test is selected; with `start < 1` in the
tracking model and the first test selected the script fails with `IndexError`; no file is written in either case. -/
theorem C89_linear_fails (fl : List Char → Py ℝ) (scan : AScan) (hs : ∀ α, IsAssocScan (scan α)) (rnd : ℕ → ℝ) (args : List (List Char))
    (c : Cfg) (hc : parseArgs fl linKeys linDefaults args = .ok c) (model : List Char) (mask : ℤ)
    (hm : c.lookup "model".toList = some (.str model)) (h8 : c.lookup "mask".toList = some (.int mask)) :
    (model ≠ "tracking".toList → model ≠ "mass".toList →
      linMain fl scan rnd args = ([], if mask % 256 = 0 then none else some (.exit 1))) ∧
    (∀ (start stop : ℝ) (num : ℕ), c.lookup "start".toList = some (.num start) → c.lookup "stop".toList = some (.num stop) →
      c.lookup "num".toList = some (.int num) → 0 < num → model = "tracking".toList → start < 1 → start ≤ stop → mask % 2 = 1 →
      linMain fl scan rnd args = ([], some (.py .indexError))) := by
  obtain ⟨model, start', stop', num', n', nc', single', device', mask', e1, e2, e3, e4, e5, e6, e7, e8, e9, hmain⟩ :=
    linMain_eq fl scan rnd hc
  rw [hm] at e1; rw [h8] at e9
  cases e1; cases e9
  rw [hmain]
  constructor
  · intro m1 m2
    have hgen : linGenerator rnd model start' stop' num' n' = .error (.exit 1) := by
      rw [linGenerator, if_neg m1, if_neg m2]
    have := runTests_split mask (writeTable model (devTxt device' single')) (rows := []) (e := .exit 1)
      (linTests scan rnd model start' stop' num' n' nc') (by
        intro t ht
        change t ∈ [_, _, _, _, _, _, _, _] at ht
        simp only [List.mem_cons, List.not_mem_nil, or_false] at ht
        rcases ht with rfl | rfl | rfl | rfl | rfl | rfl | rfl | rfl <;>
          (dsimp only; simp only [linTest, hgen]; rfl)) [] (by simp)
    rw [List.nil_append] at this
    rw [this]
    refine Prod.ext rfl ?_
    have hsel : (∃ t ∈ linTests scan rnd model start' stop' num' n' nc', mask / 2 ^ t.bit % 2 = 1) ↔ ¬ mask % 256 = 0 := by
      have : (∃ t ∈ linTests scan rnd model start' stop' num' n' nc', mask / 2 ^ t.bit % 2 = 1) ↔
          mask / 2 ^ 0 % 2 = 1 ∨ mask / 2 ^ 1 % 2 = 1 ∨ mask / 2 ^ 2 % 2 = 1 ∨ mask / 2 ^ 3 % 2 = 1 ∨ mask / 2 ^ 4 % 2 = 1 ∨
          mask / 2 ^ 5 % 2 = 1 ∨ mask / 2 ^ 6 % 2 = 1 ∨ mask / 2 ^ 7 % 2 = 1 := by
        change (∃ t ∈ [_, _, _, _, _, _, _, _], _) ↔ _
        simp only [List.mem_cons, List.not_mem_nil, or_false, exists_eq_or_imp, exists_eq_left]
      rw [this]
      norm_num
      omega
    dsimp only
    by_cases h0 : mask % 256 = 0
    · rw [if_pos h0, if_neg (fun h => (hsel.1 h) h0)]
    · rw [if_neg h0, if_pos (hsel.2 h0)]
  · rintro start stop num h1 h2 h3 hnum rfl hst hss hmask
    rw [h1] at e2; rw [h2] at e3; rw [h3] at e4
    cases e2; cases e3; cases e4
    have hgen : linGenerator rnd "tracking".toList start' stop' num n' = .ok (trackingGen rnd start' stop' num) := by
      rw [linGenerator, if_pos rfl, natArg_nat]
      rfl
    unfold linTests
    dsimp only
    rw [runTests, if_pos ((land_two_pow _ _).2 (by simpa using hmask))]
    dsimp only
    rw [linTest, hgen, exp_ok_bind, (C80_errors rnd start' stop' num 10 hnum scan hs hss).1 hst]
    rfl

example (fl : List Char → Py ℝ) (scan : AScan) (hs : ∀ α, IsAssocScan (scan α)) (rnd : ℕ → ℝ) :
    linMain fl scan rnd ["model=car".toList] = ([], some (.exit 1)) ∧
    linMain fl scan rnd ["model=car".toList, "mask=256".toList] = ([], none) := by
  refine ⟨?_, ?_⟩
  · rw [(C89_linear_fails fl scan hs rnd _ _ rfl "car".toList 65535 rfl rfl).1 (by decide) (by decide)]
    rfl
  · rw [(C89_linear_fails fl scan hs rnd _ _ rfl "car".toList 256 rfl rfl).1 (by decide) (by decide)]
    rfl

/-- `start=0.5` fails in the first test. -/
example (fl : List Char → Py ℝ) (hfl : fl "0.5".toList = .ok (1 / 2)) (scan : AScan) (hs : ∀ α, IsAssocScan (scan α)) (rnd : ℕ → ℝ) :
    linMain fl scan rnd ["start=0.5".toList] = ([], some (.py .indexError)) := by
  have hp : parseArgs fl linKeys linDefaults ["start=0.5".toList] = .ok (linDefaults.set "start".toList (.num (1 / 2))) := by
    rw [parseArgs_cons, show "start=0.5".toList = "start".toList ++ '=' :: "0.5".toList from rfl,
      (parseArg_assign fl linKeys linDefaults (by decide) (by decide) (ty := .float) rfl).1 (.num (1 / 2)) (by rw [cfgRead, hfl]; rfl)]
    rfl
  exact (C89_linear_fails fl scan hs rnd _ _ hp "tracking".toList 65535 rfl rfl).2 (1 / 2) 5 20 rfl rfl rfl (by norm_num) rfl
    (by norm_num) (by norm_num) (by norm_num)

/-- C89 (finite states): with `2 ≤ 10 ^ start ≤ 10 ^ stop ≤ 10 ^ 19` and `nx` states, for all devices and masks and every argmin, the
script writes one file per selected test, with the rounded logarithmic grid and the dimension `nx`. -/
theorem C89_finite (fl : List Char → Py ℝ) (scan : AScan) (hs : ∀ α, IsAssocScan (scan α)) (am : AArgmin ℝ)
    (ham : ∀ (n : ℕ) [NeZero n], IsArgmin (am n)) (rnd : ℕ → ℕ → ℕ → ℝ) (args : List (List Char))
    (c : Cfg) (hc : parseArgs fl finKeys finDefaults args = .ok c) (start stop : ℝ) (num nx : ℕ) (single mask : ℤ) (device : List Char)
    (h1 : c.lookup "start".toList = some (.num start)) (h2 : c.lookup "stop".toList = some (.num stop))
    (h3 : c.lookup "num".toList = some (.int num)) (h4 : c.lookup "nx".toList = some (.int nx))
    (h6 : c.lookup "single".toList = some (.int single)) (h7 : c.lookup "device".toList = some (.str device))
    (h8 : c.lookup "mask".toList = some (.int mask)) (hst : (2 : ℝ) ≤ 10 ^ start) (hss : start ≤ stop) (hsp : stop ≤ 19) (hn : 0 < nx) :
    let name (id : List Char) := expName "finite".toList (id ++ fmtD nx) (devTxt device single)
    let rows : ExpFile := .table ((logspaceInt start stop num).map fun T : ℕ => ⟨[(T : ℤ), (nx : ℤ)], []⟩)
    let ids := ["seq_bw_".toList, "par_bw_".toList, "seq_bwfw_".toList, "par_bwfw_1_".toList, "par_bwfw_2_".toList]
    finMain fl scan am rnd args =
      ((ids.zipIdx.filter fun p => mask / 2 ^ p.2 % 2 = 1).map fun p => (name p.1, rows), none) := by
  intro name rows ids
  obtain ⟨start', stop', num', nx', single', device', mask', e2, e3, e4, e5, e7, e8, e9, hmain⟩ := finMain_eq fl scan am rnd hc
  rw [h1] at e2; rw [h2] at e3; rw [h3] at e4; rw [h4] at e5; rw [h6] at e7; rw [h7] at e8; rw [h8] at e9
  cases e2; cases e3; cases e4; cases e5; cases e7; cases e8; cases e9
  obtain ⟨g, rfl⟩ : ∃ g, nx = g + 1 := ⟨nx - 1, by omega⟩
  obtain ⟨g1, g2, g3, g4, g5⟩ := C81_speed rnd (g + 1) start stop num 10 hst hss hsp (by norm_num) scan hs am ham
  have hr := rowsTD_const _ (g + 1) num (C80_logspace start stop num hss).1
  have hall : ∀ {f : List (Py (FSCItem ℝ)) → Py (List ℕ × List ℕ)},
      f (finiteGen rnd (g + 1) start stop num) = .ok (logspaceInt start stop num, List.replicate num (g + 1)) →
      finTest rnd start stop num ((g + 1 : ℕ) : ℤ) f =
        .ok ((logspaceInt start stop num).map fun T : ℕ => ⟨[(T : ℤ), ((g + 1 : ℕ) : ℤ)], []⟩) := by
    intro f hf
    rw [finTest, natArg_nat, exp_ok_bind, natArg_nat, exp_ok_bind]
    dsimp only
    rw [hf]
    change Except.ok (rowsTD _) = _
    rw [hr]
  rw [hmain, runTests_all (rows := (logspaceInt start stop num).map fun T : ℕ => ⟨[(T : ℤ), ((g + 1 : ℕ) : ℤ)], []⟩)]
  · rw [List.map_eq_flatMap (l := ids.zipIdx.filter _)]
    simp only [finTests, List.map_cons, List.map_nil]
    rw [show ids.zipIdx = [("seq_bw_".toList, 0), ("par_bw_".toList, 1), ("seq_bwfw_".toList, 2), ("par_bwfw_1_".toList, 3),
      ("par_bwfw_2_".toList, 4)] from rfl]
    have key : ∀ l : List (List Char × ℕ),
        List.flatMap (fun p : List Char × ℕ => writeTable "finite".toList (devTxt device single) p.1
            ((logspaceInt start stop num).map fun T : ℕ => ⟨[(T : ℤ), ((g + 1 : ℕ) : ℤ)], []⟩))
          ((l.map fun p => (p.1 ++ fmtD ((g + 1 : ℕ) : ℤ), p.2)).filter fun p => decide (mask / 2 ^ p.2 % 2 = 1)) =
        (l.filter fun p => decide (mask / 2 ^ p.2 % 2 = 1)).flatMap fun p => [(name p.1, rows)] := by
      intro l
      rw [List.filter_map, List.flatMap_map]
      rfl
    exact Prod.ext (key [("seq_bw_".toList, 0), ("par_bw_".toList, 1), ("seq_bwfw_".toList, 2), ("par_bwfw_1_".toList, 3),
      ("par_bwfw_2_".toList, 4)]) rfl
  · intro t ht
    change t ∈ [_, _, _, _, _] at ht
    simp only [List.mem_cons, List.not_mem_nil, or_false] at ht
    rcases ht with rfl | rfl | rfl | rfl | rfl
    · exact hall g1
    · exact hall g2
    · exact hall g3
    · exact hall g4
    · exact hall g5

/-- The run without arguments writes five files. -/
example (fl : List Char → Py ℝ) (scan : AScan) (hs : ∀ α, IsAssocScan (scan α)) (rnd : ℕ → ℕ → ℕ → ℝ) :
    (finMain fl scan (fun _ _ => argmin1) rnd []).1[4]? = some ("res/finite_par_bwfw_2_21_cpu_mc.txt".toList,
      .table ((logspaceInt 2 5 20).map fun T : ℕ => ⟨[(T : ℤ), 21], []⟩)) := by
  rw [C89_finite fl scan hs (fun _ _ => argmin1) (fun n _ => isArgmin_argmin1) rnd [] finDefaults rfl 2 5 20 21 0 31 "/CPU:0".toList
    rfl rfl rfl rfl rfl rfl rfl (by norm_num) (by norm_num) (by norm_num) (by norm_num), List.getElem?_map]
  rfl

/-- C89 (finite states, failures): with `start < 0` the script fails with `IndexError` iff a test is selected; with
`1 ≤ 10 ^ start < 2`, where the first problem has one step, it fails with `ValueError` if one of the parallel tests is selected and none
of the sequential ones. No file is written in either case. -/
theorem C89_finite_fails (fl : List Char → Py ℝ) (scan : AScan) (am : AArgmin ℝ) (rnd : ℕ → ℕ → ℕ → ℝ) (args : List (List Char))
    (c : Cfg) (hc : parseArgs fl finKeys finDefaults args = .ok c) (start stop : ℝ) (num nx : ℕ) (mask : ℤ)
    (h1 : c.lookup "start".toList = some (.num start)) (h2 : c.lookup "stop".toList = some (.num stop))
    (h3 : c.lookup "num".toList = some (.int num)) (h4 : c.lookup "nx".toList = some (.int nx))
    (h8 : c.lookup "mask".toList = some (.int mask)) (hss : start ≤ stop) (hnum : 0 < num) (hn : 0 < nx) :
    (start < 0 → finMain fl scan am rnd args = ([], if mask % 32 = 0 then none else some (.py .indexError))) ∧
    (0 ≤ start → (10 : ℝ) ^ start < 2 → mask % 2 = 0 → mask / 4 % 2 = 0 →
      finMain fl scan am rnd args = ([], if mask % 32 = 0 then none else some (.py .valueError))) := by
  obtain ⟨start', stop', num', nx', single', device', mask', e2, e3, e4, e5, e7, e8, e9, hmain⟩ := finMain_eq fl scan am rnd hc
  rw [h1] at e2; rw [h2] at e3; rw [h3] at e4; rw [h4] at e5; rw [h8] at e9
  cases e2; cases e3; cases e4; cases e5; cases e9
  obtain ⟨g, rfl⟩ : ∃ g, nx = g + 1 := ⟨nx - 1, by omega⟩
  obtain ⟨g1, g2, -⟩ := C81_errors rnd (g + 1) start stop num 10 hnum hss scan am
  have herr : ∀ {f : List (Py (FSCItem ℝ)) → Py (List ℕ × List ℕ)} {e : PyErr},
      f (finiteGen rnd (g + 1) start stop num) = .error e → finTest rnd start stop num ((g + 1 : ℕ) : ℤ) f = .error (.py e) := by
    intro f e hf
    rw [finTest, natArg_nat, exp_ok_bind, natArg_nat, exp_ok_bind]
    dsimp only
    rw [hf]
    rfl
  rw [hmain]
  constructor
  · intro h0
    obtain ⟨k1, k2, k3, k4, k5⟩ := g1 h0
    have := runTests_split mask (writeTable "finite".toList (devTxt device' single')) (rows := []) (e := .py .indexError)
      (finTests scan am rnd start stop num ((g + 1 : ℕ) : ℤ)) (by
        intro t ht
        change t ∈ [_, _, _, _, _] at ht
        simp only [List.mem_cons, List.not_mem_nil, or_false] at ht
        rcases ht with rfl | rfl | rfl | rfl | rfl
        · exact herr k1
        · exact herr k2
        · exact herr k3
        · exact herr k4
        · exact herr k5) [] (by simp)
    rw [List.nil_append] at this
    rw [this]
    refine Prod.ext rfl ?_
    have hsel : (∃ t ∈ finTests scan am rnd start stop num ((g + 1 : ℕ) : ℤ), mask / 2 ^ t.bit % 2 = 1) ↔ ¬ mask % 32 = 0 := by
      have : (∃ t ∈ finTests scan am rnd start stop num ((g + 1 : ℕ) : ℤ), mask / 2 ^ t.bit % 2 = 1) ↔
          mask / 2 ^ 0 % 2 = 1 ∨ mask / 2 ^ 1 % 2 = 1 ∨ mask / 2 ^ 2 % 2 = 1 ∨ mask / 2 ^ 3 % 2 = 1 ∨ mask / 2 ^ 4 % 2 = 1 := by
        change (∃ t ∈ [_, _, _, _, _], _) ↔ _
        simp only [List.mem_cons, List.not_mem_nil, or_false, exists_eq_or_imp, exists_eq_left]
      rw [this]
      norm_num
      omega
    dsimp only
    by_cases h0 : mask % 32 = 0
    · rw [if_pos h0, if_neg (fun h => (hsel.1 h) h0)]
    · rw [if_neg h0, if_pos (hsel.2 h0)]
  · intro h0 h10 m0 m2
    obtain ⟨k2, k4, k5⟩ := g2 h0 h10
    unfold finTests
    rw [runTests, if_neg (fun h => by have := (land_two_pow _ _).1 h; simp at this; omega), runTests]
    by_cases m1 : mask / 2 ^ 1 % 2 = 1
    · rw [if_pos ((land_two_pow _ _).2 m1)]
      dsimp only
      rw [herr (f := fun g => fscParBwSpeed scan am g 10) k2, if_neg (by simp at m1; omega)]
    · rw [if_neg (fun h => m1 ((land_two_pow _ _).1 h)), runTests,
        if_neg (fun h => by have := (land_two_pow _ _).1 h; simp at this; omega), runTests]
      by_cases m3 : mask / 2 ^ 3 % 2 = 1
      · rw [if_pos ((land_two_pow _ _).2 m3)]
        dsimp only
        rw [herr (f := fun g => fscParBwFw1Speed scan am g 10) k4, if_neg (by simp at m3; omega)]
      · rw [if_neg (fun h => m3 ((land_two_pow _ _).1 h)), runTests]
        by_cases m4 : mask / 2 ^ 4 % 2 = 1
        · rw [if_pos ((land_two_pow _ _).2 m4)]
          dsimp only
          rw [herr (f := fun g => fscParBwFw2Speed scan am g 10) k5, if_neg (by simp at m4; omega)]
        · rw [if_neg (fun h => m4 ((land_two_pow _ _).1 h)), runTests, if_pos (by simp at m1 m3 m4; omega)]

/-- `start=0 mask=10` fails, since the first problem has one step. -/
example (fl : List Char → Py ℝ) (hfl : fl "0".toList = .ok 0) (scan : AScan) (rnd : ℕ → ℕ → ℕ → ℝ) :
    finMain fl scan (fun _ _ => argmin1) rnd ["start=0".toList, "mask=10".toList] = ([], some (.py .valueError)) := by
  have hp : parseArgs fl finKeys finDefaults ["start=0".toList, "mask=10".toList] =
      .ok ((finDefaults.set "start".toList (.num 0)).set "mask".toList (.int 10)) := by
    rw [parseArgs_cons, show "start=0".toList = "start".toList ++ '=' :: "0".toList from rfl,
      (parseArg_assign fl finKeys finDefaults (by decide) (by decide) (ty := .float) rfl).1 (.num 0) (by rw [cfgRead, hfl]; rfl)]
    rfl
  exact (C89_finite_fails fl scan (fun _ _ => argmin1) rnd _ _ hp 0 5 20 21 10 rfl rfl rfl rfl rfl (by norm_num) (by norm_num)
    (by norm_num)).2 le_rfl (by norm_num) (by norm_num) (by norm_num)

/-- C89 (nonlinear): with `0 ≤ start ≤ stop`, for all devices and masks, the script writes one file per selected test, with the numbers of
steps rounded up to multiples of 10, and the dimension 4. -/
theorem C89_nonlinear (fl : List Char → Py ℝ) (scan : AScan) (hs : ∀ α, IsAssocScan (scan α)) (args : List (List Char))
    (c : Cfg) (hc : parseArgs fl nlinKeys nlinDefaults args = .ok c) (start stop : ℝ) (num : ℕ) (single mask : ℤ) (device : List Char)
    (h1 : c.lookup "start".toList = some (.num start)) (h2 : c.lookup "stop".toList = some (.num stop))
    (h3 : c.lookup "num".toList = some (.int num)) (h6 : c.lookup "single".toList = some (.int single))
    (h7 : c.lookup "device".toList = some (.str device)) (h8 : c.lookup "mask".toList = some (.int mask))
    (hst : 0 ≤ start) (hss : start ≤ stop) :
    let name (id : List Char) := expName "nonlinear".toList id (devTxt device single)
    let rows : ExpFile := .table ((logspaceInt start stop num).map fun T : ℕ => ⟨[((10 * ((T + 9) / 10) : ℕ) : ℤ), 4], []⟩)
    let ids := ["seq".toList, "par_1".toList, "par_2".toList]
    nlinMain fl scan args =
      ((ids.zipIdx.filter fun p => mask / 2 ^ p.2 % 2 = 1).map fun p => (name p.1, rows), none) := by
  intro name rows ids
  obtain ⟨start', stop', num', single', device', mask', e2, e3, e4, e7, e8, e9, hmain⟩ := nlinMain_eq fl scan hc
  rw [h1] at e2; rw [h2] at e3; rw [h3] at e4; rw [h6] at e7; rw [h7] at e8; rw [h8] at e9
  cases e2; cases e3; cases e4; cases e7; cases e8; cases e9
  obtain ⟨g1, g2, g3⟩ := C82_generator start stop num 10 hst hss (by norm_num) scan hs
  have hlen : ((logspaceInt start stop num).map fun T => 10 * ((T + 9) / 10)).length = num := by
    rw [List.length_map, (C80_logspace start stop num hss).1]
  have hr := rowsTD_const _ 4 num hlen
  rw [List.map_map] at hr
  have hall : ∀ {f : List (Py (NLItem ℝ)) → Py (List ℕ × List ℕ)},
      f (nonlinearGen start stop num) = .ok ((logspaceInt start stop num).map fun T => 10 * ((T + 9) / 10), List.replicate num 4) →
      nlinTest start stop num f = .ok ((logspaceInt start stop num).map fun T : ℕ => ⟨[((10 * ((T + 9) / 10) : ℕ) : ℤ), 4], []⟩) := by
    intro f hf
    rw [nlinTest, natArg_nat, exp_ok_bind, hf]
    change Except.ok (rowsTD _) = _
    rw [hr]
    rfl
  rw [hmain, runTests_all (rows := (logspaceInt start stop num).map fun T : ℕ => ⟨[((10 * ((T + 9) / 10) : ℕ) : ℤ), 4], []⟩)]
  · rw [flatMap_writeTable]
    rfl
  · intro t ht
    change t ∈ [_, _, _] at ht
    simp only [List.mem_cons, List.not_mem_nil, or_false] at ht
    rcases ht with rfl | rfl | rfl
    · exact hall g1
    · exact hall g2
    · exact hall g3

/-- The run without arguments writes three files. -/
example (fl : List Char → Py ℝ) (scan : AScan) (hs : ∀ α, IsAssocScan (scan α)) :
    (nlinMain fl scan []).1.map Prod.fst = ["res/nonlinear_seq_cpu_mc.txt".toList, "res/nonlinear_par_1_cpu_mc.txt".toList,
      "res/nonlinear_par_2_cpu_mc.txt".toList] := by
  rw [C89_nonlinear fl scan hs [] nlinDefaults rfl 2 5 20 0 7 "/CPU:0".toList rfl rfl rfl rfl rfl rfl (by norm_num) (by norm_num)]
  rw [List.map_map]
  decide +kernel

end Verif
