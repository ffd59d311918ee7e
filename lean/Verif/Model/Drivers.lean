import Verif.Model.Experiments

/-!
Model of the shell files in `/repo/experiments-bellman`, `/repo/experiments-hjb` and `/repo/experiments-viterbi`, which run the
experiment scripts with fixed arguments, and of the directory `res` they write to.

Simplifications: the splitting of the lines at blanks is done here (an argument is given by its key and its value); the directory `res`
exists (`README.md:95`); the text files read by the text experiments are the same in all commands.
-/

namespace Verif

/-- The value of an argument in a command, e.g. `model=tracking` or `nc=2` in `cpu_tracking_2a.sh:15`. -/
inductive ArgVal
  | str (s : List Char)
  | int (z : ℤ)

/-- The text of an argument, e.g. `nc=2` in `cpu_tracking_2a.sh:15`. -/
def argText (a : List Char × ArgVal) : List Char :=
  a.1 ++ '=' :: match a.2 with
    | .str s => s
    | .int z => fmtD z

/-- The scripts called in the shell files, e.g. `cpu_tracking_2a.sh:15`. -/
inductive Script
  | linear
  | finite
  | nonlinear
  | contlin
  | nonlin
  | viterbi
  | text
  | text2
  deriving DecidableEq

/-- A line `python run_..._experiments.py key=value ...`, e.g. `cpu_tracking_2a.sh:15`. -/
structure Command where
  script : Script
  args : List (List Char × ArgVal)

/-- What the scripts depend on besides their arguments: the conversion `float`, the scan and the choice of minimisers in TensorFlow, the
random numbers, and the files of `run_text_experiments.py:97-101`. -/
structure World where
  fl : List Char → Py ℝ
  scan : AScan
  am : AArgmin ℝ
  am4 : (Fin 4 → ℝ) → Fin 4
  rnd : ℕ → ℝ
  rnd3 : ℕ → ℕ → ℕ → ℝ
  choice : ℕ → FArr1 ℝ → Py ℕ
  text1 : List Char
  text2 : List Char

/-- One command, e.g. `cpu_tracking_2a.sh:15`: the files it writes and how it ends. -/
noncomputable def Command.run (W : World) (c : Command) : ExpLog × Option ExpErr :=
  let args := c.args.map argText
  match c.script with
  | .linear => linMain W.fl W.scan W.rnd args
  | .finite => finMain W.fl W.scan W.am W.rnd3 args
  | .nonlinear => nlinMain W.fl W.scan args
  | .contlin => contMain W.fl W.scan args
  | .nonlin => hjbMain W.fl W.scan args
  | .viterbi => vitMain W.fl W.scan W.am4 W.rnd args
  | .text => textMain W.fl W.scan W.am W.choice W.text1 W.text2 args
  | .text2 => text2Main W.fl W.scan W.am W.choice W.text1 W.text2 args

/-- A shell file, e.g. `cpu_tracking_2a.sh:15-22`: the commands are run one after the other, also when one of them fails. The outcomes of
the commands; `W k` is the world of the command with number `k`. -/
noncomputable def runDriver (W : ℕ → World) (cs : List Command) : List (ExpLog × Option ExpErr) :=
  cs.zipIdx.map fun p => p.1.run (W p.2)

/-- The directory as a function of the file name. -/
abbrev Dir := List Char → Option ExpFile

/-- `open(filename, "w")` replaces the file, `run_linear_experiments.py:29` (also `run_contlin_experiments.py:31,38`). -/
def Dir.write (d : Dir) (f : List Char × ExpFile) : Dir := fun name => if name = f.1 then some f.2 else d name

/-- The directory after a shell file, e.g. `cpu_tracking_2a.sh:15-22`. -/
noncomputable def dirAfter (W : ℕ → World) (cs : List Command) (d : Dir) : Dir :=
  ((runDriver W cs).flatMap Prod.fst).foldl Dir.write d

/-! ### The shell files of `/repo/experiments-bellman` -/

/-- A line of the files `cpu_tracking_2a.sh:15-22`, `cpu_tracking_2b.sh:15-21`, `gpu_tracking_2a.sh:15-22`, `gpu_tracking_2b.sh:15-21`,
`gpu_tracking_2c.sh:15-23` and `gpu_tracking_2d.sh:15-23`. -/
def condCmd (nc start stop num : ℤ) (device : String) : Command :=
  ⟨.linear, [("model".toList, .str "tracking".toList), ("nc".toList, .int nc), ("start".toList, .int start), ("stop".toList, .int stop),
    ("num".toList, .int num), ("single".toList, .int 0), ("device".toList, .str device.toList), ("mask".toList, .int 224)]⟩

/-- `cpu_tracking_2a.sh:15-22`. -/
def cpuTracking2a : List Command := [2, 4, 8, 16, 32, 64, 128, 256].map fun nc => condCmd nc 2 5 20 "/CPU:0"

/-- `cpu_tracking_2b.sh:15-21`. -/
def cpuTracking2b : List Command := [2, 4, 8, 16, 32, 64, 128].map fun nc => condCmd nc 2 5 20 "/CPU:0"

/-- `gpu_tracking_2a.sh:15-22`. -/
def gpuTracking2a : List Command := [2, 4, 8, 16, 32, 64, 128, 256].map fun nc => condCmd nc 2 5 20 "/GPU:0"

/-- `gpu_tracking_2b.sh:15-21`. -/
def gpuTracking2b : List Command := [2, 4, 8, 16, 32, 64, 128].map fun nc => condCmd nc 2 5 20 "/GPU:0"

/-- `gpu_tracking_2c.sh:15-23`. -/
def gpuTracking2c : List Command := [100, 150, 200, 250, 300, 350, 400, 450, 500].map fun nc => condCmd nc 5 5 1 "/GPU:0"

/-- `gpu_tracking_2d.sh:15-23`. -/
def gpuTracking2d : List Command := [5, 10, 15, 20, 25, 30, 35, 40, 45].map fun nc => condCmd nc 5 5 1 "/GPU:0"

/-- A line of the files `cpu_tracking_1.sh:15-16` and `gpu_tracking_1.sh:15-16`. -/
def plainCmd (single : ℤ) (device : String) : Command :=
  ⟨.linear, [("model".toList, .str "tracking".toList), ("start".toList, .int 2), ("stop".toList, .int 5),
    ("num".toList, .int 20), ("single".toList, .int single), ("device".toList, .str device.toList), ("mask".toList, .int 31)]⟩

/-- `cpu_tracking_1.sh:15-16` and `gpu_tracking_1.sh:15-16`. -/
def tracking1 (device : String) : List Command := [plainCmd 0 device, plainCmd 1 device]

/-- A line of the files `cpu_mass_1.sh:15-31`, `gpu_mass_1.sh:22,31` and `gpu_mass_2.sh:15-25`. -/
def massCmd (stop single n : ℤ) (device : String) (mask : ℤ) : Command :=
  ⟨.linear, [("model".toList, .str "mass".toList), ("start".toList, .int 2), ("stop".toList, .int stop), ("num".toList, .int 20),
    ("single".toList, .int single), ("n".toList, .int n), ("device".toList, .str device.toList), ("mask".toList, .int mask)]⟩

/-- `cpu_mass_1.sh:15-31`. -/
def cpuMass1 : List Command :=
  ([2, 4, 8, 16, 32, 64, 128, 256].map fun n => massCmd 4 0 n "/CPU:0" 31) ++
    [2, 4, 8, 16, 32, 64, 128, 256].map fun n => massCmd 4 1 n "/CPU:0" 5

/-- `gpu_mass_1.sh:22,31`; the other lines are commented out. -/
def gpuMass1 : List Command := [massCmd 4 0 256 "/GPU:0" 31, massCmd 4 1 256 "/GPU:0" 5]

/-- `gpu_mass_2.sh:15-25`. -/
def gpuMass2 : List Command :=
  [2, 4, 8, 16, 32, 64, 128, 256, 512, 1014, 2048].map fun n => massCmd 3 0 n "/GPU:0" 31

/-- A line of `cpu_finite_1.sh:19-21` and `gpu_finite_1.sh:19-21`. -/
def finiteCmd (nx : ℤ) (device : String) : Command :=
  ⟨.finite, [("start".toList, .int 2), ("stop".toList, .int 5), ("num".toList, .int 20), ("nx".toList, .int nx),
    ("single".toList, .int 0), ("device".toList, .str device.toList), ("mask".toList, .int 5)]⟩

/-- `cpu_finite_1.sh:19-21` and `gpu_finite_1.sh:19-21`. -/
def finite1 (device : String) : List Command := [5, 11, 21].map fun nx => finiteCmd nx device

/-- `cpu_nonlinear_1.sh:13` and `gpu_nonlinear_1.sh:13`. -/
def nonlinear1 (device : String) : List Command :=
  [⟨.nonlinear, [("start".toList, .int 2), ("stop".toList, .int 5), ("num".toList, .int 20), ("single".toList, .int 0),
    ("device".toList, .str device.toList), ("mask".toList, .int 1)]⟩]

/-! ### The shell files of `/repo/experiments-hjb` -/

/-- A line of `gpu_ctracking_1.sh:15-16`. -/
def ctrackingCmd1 (device : String) : Command :=
  ⟨.contlin, [("stop".toList, .int 5), ("num".toList, .int 20), ("device".toList, .str device.toList), ("mask".toList, .int 255)]⟩

/-- A line of `gpu_ctracking_2.sh:16-17`. -/
def ctrackingCmd2 (device : String) : Command :=
  ⟨.contlin, [("start".toList, .str "2.5".toList), ("stop".toList, .int 3), ("num".toList, .int 10),
    ("device".toList, .str device.toList), ("mask".toList, .int 255)]⟩

/-- `gpu_ctracking_1.sh:15-16`. -/
def gpuCtracking1 : List Command := ["/CPU:0", "/GPU:0"].map ctrackingCmd1

/-- `gpu_ctracking_2.sh:16-17`. -/
def gpuCtracking2 : List Command := ["/CPU:0", "/GPU:0"].map ctrackingCmd2

/-- A line of `gpu_nonlin_1.sh:10-18` and `gpu_nonlin_2.sh:11-19`. -/
def nonlinCmd (stop n : ℤ) (device : String) : Command :=
  ⟨.nonlin, [("start".toList, .int 2), ("stop".toList, .int stop), ("num".toList, .int 20), ("n".toList, .int n),
    ("device".toList, .str device.toList), ("mask".toList, .int 7)]⟩

/-- `gpu_nonlin_1.sh:10-18`, the lines that are not commented out. -/
def gpuNonlin1 : List Command := [20, 40, 60, 80, 100].map fun n => nonlinCmd 4 n "/GPU:0"

/-- `gpu_nonlin_2.sh:11-19`, the lines that are not commented out. -/
def gpuNonlin2 : List Command := [20, 40, 60, 80, 100].map fun n => nonlinCmd 5 n "/CPU:0"

/-! ### The shell files of `/repo/experiments-viterbi` -/

/-- A line of `gpu_viterbi_1.sh:11-12` and `gpu_viterbi_2.sh:11-12`. -/
def viterbiCmd (stop num : ℤ) (device : String) : Command :=
  ⟨.viterbi, [("stop".toList, .int stop), ("num".toList, .int num), ("device".toList, .str device.toList), ("mask".toList, .int 255)]⟩

/-- `gpu_viterbi_1.sh:11-12`. -/
def gpuViterbi1 : List Command := ["/CPU:0", "/GPU:0"].map (viterbiCmd 4 10)

/-- `gpu_viterbi_2.sh:11-12`. -/
def gpuViterbi2 : List Command := ["/CPU:0", "/GPU:0"].map (viterbiCmd 6 20)

/-- A line of `gpu_text_1.sh:11-12`, `gpu_text_2.sh:11-12` and `gpu_text_3.sh:11`. -/
def textCmd (order : ℤ) (device : String) (mask : ℤ) : Command :=
  ⟨.text, [("order".toList, .int order), ("device".toList, .str device.toList), ("mask".toList, .int mask)]⟩

/-- `gpu_text_1.sh:11-12`. -/
def gpuText1 : List Command := [textCmd 1 "/GPU:0" 255, textCmd 1 "/CPU:0" 255]

/-- `gpu_text_2.sh:11-12`. -/
def gpuText2 : List Command := [textCmd 2 "/GPU:0" 3, textCmd 2 "/CPU:0" 3]

/-- `gpu_text_3.sh:11`. -/
def gpuText3 : List Command := [textCmd 3 "/GPU:0" 3]

/-- A line in the loop `gpu_text_2_steps.sh:17-18`. -/
def textStepsCmd (steps : ℤ) (device : String) : Command :=
  ⟨.text2, [("order".toList, .int 2), ("steps".toList, .int steps), ("device".toList, .str device.toList), ("mask".toList, .int 3)]⟩

/-- The numbers of steps in the loop `gpu_text_2_steps.sh:15`. -/
def textStepsList : List ℕ :=
  [100, 141, 198, 278, 391, 549, 772, 1085, 1525, 2144, 3014, 4237, 5956, 8373, 11771, 16547, 23261, 32699, 45968, 64620]

/-- `gpu_text_2_steps.sh:15-19`. -/
def gpuText2Steps : List Command := textStepsList.flatMap fun i => ["/GPU:0", "/CPU:0"].map (textStepsCmd i)

end Verif
