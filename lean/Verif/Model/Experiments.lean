import Verif.Model.SpeedLinear
import Verif.Model.SpeedFinite
import Verif.Model.SpeedNonlinear
import Verif.Model.SpeedContlin
import Verif.Model.SpeedHJB
import Verif.Model.SpeedTest
import Verif.Model.TextModel
import Mathlib.Data.Int.Bitwise

/-!
Model of the experiment scripts `/repo/experiments-bellman/run_*_experiments.py`, `/repo/experiments-hjb/run_*_experiments.py` and
`/repo/experiments-viterbi/run_*_experiments*.py`: the command line, the choice of the tests by the mask, and the files written.

Simplifications: ASCII text; `float` is a parameter; real numbers; the printing, the thread and device settings, the column of the
run times in the files and the formatting of the errors by `%f` are omitted; writing a file does not fail; the number of grid points,
masses, steps, iterations and the block length are meant to be non-negative, and for the others the model gives a `ValueError`, as
numpy does for a negative size; so it does for `nx=0`.
-/

namespace Verif

/-- How a script ends early: `sys.exit(code)` (e.g. `run_linear_experiments.py:64`) or an exception. -/
inductive ExpErr
  | exit (code : ℕ)
  | py (e : PyErr)
  deriving DecidableEq, Repr

/-- A call inside a script (e.g. `run_linear_experiments.py:104`): its exceptions are not caught. -/
def ofPy {α : Type} : Py α → Except ExpErr α
  | .ok a => .ok a
  | .error e => .error (.py e)

/-! ### The command line -/

/-- Values of the dictionary `config`, `run_linear_experiments.py:44-54`. -/
inductive CfgVal
  | str (s : List Char)
  | int (z : ℤ)
  | num (x : ℝ)

/-- The conversions of the argument values, `run_linear_experiments.py:65-82`. -/
inductive CfgType
  | str
  | int
  | float
  deriving DecidableEq

/-- The dictionary `config`, `run_linear_experiments.py:44-54`. -/
abbrev Cfg := List (List Char × CfgVal)

/-- `config[k] = v`, e.g. `run_linear_experiments.py:66`. -/
def Cfg.set (c : Cfg) (k : List Char) (v : CfgVal) : Cfg :=
  if c.any (fun p => p.1 = k) then c.map (fun p => if p.1 = k then (k, v) else p) else c ++ [(k, v)]

/-- The value of a string of digits, for `int(..)` as in `run_linear_experiments.py:72`. -/
def digitVal (s : List Char) : ℕ := s.foldl (fun a ch => 10 * a + (ch.toNat - 48)) 0

/-- The white space that `int(..)` removes, as in `run_linear_experiments.py:72`: the ASCII characters 9 to 13 and 32. -/
def pySpace (ch : Char) : Bool := ch.toNat = 32 || (9 ≤ ch.toNat && ch.toNat ≤ 13)

/-- The sign in `int(..)`, as in `run_linear_experiments.py:72`: whether it is a minus, and the rest. -/
def splitSign : List Char → Bool × List Char
  | '-' :: t => (true, t)
  | '+' :: t => (false, t)
  | t => (false, t)

/-- `int(s)`, e.g. `run_linear_experiments.py:72`: white space around, a sign, groups of digits separated by single underscores. The
limit of 4300 digits is omitted. -/
def cfgInt (s : List Char) : Py ℤ :=
  let r := splitSign (((s.dropWhile pySpace).reverse.dropWhile pySpace).reverse)
  let gs := r.2.splitOn '_'
  if gs.all (fun g => !g.isEmpty && g.all Char.isDigit) then
    .ok (if r.1 then -(digitVal gs.flatten : ℤ) else digitVal gs.flatten)
  else .error .valueError

/-- The conversion of an argument value, `run_linear_experiments.py:65-82`. -/
def cfgRead (fl : List Char → Py ℝ) : CfgType → List Char → Py CfgVal
  | .str, s => .ok (.str s)
  | .int, s => do let z ← cfgInt s; return .int z
  | .float, s => do let x ← fl s; return .num x

/-- One iteration of the loop over the arguments, `run_linear_experiments.py:61-85`; `keys` are the branches. -/
def parseArg (fl : List Char → Py ℝ) (keys : List (List Char × CfgType)) (c : Cfg) (arg : List Char) : Except ExpErr Cfg :=
  match arg.splitOn '=' with
  | [k, v] => match keys.lookup k with
    | some ty => do
      let x ← ofPy (cfgRead fl ty v)
      return c.set k x
    | none => .error (.exit 1)
  | _ => .error (.exit 1)

/-- The loop over the arguments, `run_linear_experiments.py:60-85` (also `run_finite_experiments.py:48-69`,
`run_nonlinear_experiments.py:47-66`, `run_contlin_experiments.py:60-87`, `run_nonlin_experiments.py:58-83`,
`run_viterbi_experiments.py:56-77`, `run_text_experiments.py:63-78`, `run_text_experiments_2.py:64-81`). -/
def parseArgs (fl : List Char → Py ℝ) (keys : List (List Char × CfgType)) (c : Cfg) (args : List (List Char)) : Except ExpErr Cfg :=
  args.foldlM (parseArg fl keys) c

/-- `config[k]` used as an integer, e.g. `run_linear_experiments.py:102`. -/
def Cfg.getInt (c : Cfg) (k : List Char) : Except ExpErr ℤ :=
  match c.lookup k with
  | some (.int z) => .ok z
  | some _ => .error (.py .typeError)
  | none => .error (.py .keyError)

/-- `config[k]` used as a string, e.g. `run_linear_experiments.py:34`. -/
def Cfg.getStr (c : Cfg) (k : List Char) : Except ExpErr (List Char) :=
  match c.lookup k with
  | some (.str s) => .ok s
  | some _ => .error (.py .typeError)
  | none => .error (.py .keyError)

/-- `config[k]` used as a number, e.g. `run_linear_experiments.py:35`. -/
def Cfg.getNum (c : Cfg) (k : List Char) : Except ExpErr ℝ :=
  match c.lookup k with
  | some (.num x) => .ok x
  | some (.int z) => .ok z
  | some (.str _) => .error (.py .typeError)
  | none => .error (.py .keyError)

/-- An integer used as a size, e.g. `num` in `run_linear_experiments.py:35`. -/
def natArg (z : ℤ) : Except ExpErr ℕ := if z < 0 then .error (.py .valueError) else .ok z.toNat

/-! ### The files -/

/-- A line of a table, e.g. `run_linear_experiments.py:31`: the integers and the errors. -/
@[ext] structure ExpRow where
  ints : List ℤ
  errs : List (WithBot ℝ)

/-- The contents of a file: a table (e.g. `run_linear_experiments.py:29-31`) or the printed dictionary
(`run_contlin_experiments.py:38-39`). -/
inductive ExpFile
  | table (rows : List ExpRow)
  | config (c : Cfg)

/-- The files written, in order (e.g. `run_contlin_experiments.py:31,38`). -/
abbrev ExpLog := List (List Char × ExpFile)

/-- `'%d' % z`, e.g. `run_linear_experiments.py:105`. -/
def fmtD (z : ℤ) : List Char :=
  (if z < 0 then ['-'] else []) ++ (if z = 0 then ['0'] else ((Nat.digits 10 z.natAbs).map Nat.digitChar).reverse)

/-- `devtxt`, `run_linear_experiments.py:16-24` (the same lines in all scripts). -/
def devTxt (device : List Char) (single : ℤ) : List Char :=
  (device.filter Char.isAlpha).map Char.toLower ++ (if single ≠ 0 then "_sc" else "_mc").toList

/-- `'res/%s_%s_%s.txt'`, `run_linear_experiments.py:26` (also `run_contlin_experiments.py:28`, `run_nonlin_experiments.py:28`,
`run_viterbi_experiments.py:27`; with the constants `finite` and `nonlinear` in `run_finite_experiments.py:26` and
`run_nonlinear_experiments.py:26`). -/
def expName (model id devtxt : List Char) : List Char :=
  "res/".toList ++ model ++ ['_'] ++ id ++ ['_'] ++ devtxt ++ ".txt".toList

/-- `'res/%s_%s_%s_config.txt'`, `run_contlin_experiments.py:35` (also `run_nonlin_experiments.py:35` and
`run_viterbi_experiments.py:34`). -/
def expCfgName (model id devtxt : List Char) : List Char :=
  "res/".toList ++ model ++ ['_'] ++ id ++ ['_'] ++ devtxt ++ "_config.txt".toList

/-- `write_to_file` without the dictionary, `run_linear_experiments.py:15-31` (also `run_finite_experiments.py:15-31` and
`run_nonlinear_experiments.py:15-31`). -/
def writeTable (model devtxt : List Char) (id : List Char) (rows : List ExpRow) : ExpLog :=
  [(expName model id devtxt, .table rows)]

/-- `write_to_file` with the dictionary, `run_contlin_experiments.py:17-39` (also `run_nonlin_experiments.py:17-39` and
`run_viterbi_experiments.py:16-38`). -/
def writeTableCfg (model devtxt : List Char) (c : Cfg) (id : List Char) (rows : List ExpRow) : ExpLog :=
  [(expName model id devtxt, .table rows), (expCfgName model id devtxt, .config c)]

/-- One of the `if (config["mask"] & 2 ** bit) != 0:` blocks, e.g. `run_linear_experiments.py:102-105`. -/
structure ExpTest where
  bit : ℕ
  id : List Char
  run : Except ExpErr (List ExpRow)

/-- The sequence of the blocks, e.g. `run_linear_experiments.py:102-140`; the files written and how the script ends. -/
def runTests (mask : ℤ) (write : List Char → List ExpRow → ExpLog) : List ExpTest → ExpLog × Option ExpErr
  | [] => ([], none)
  | t :: ts =>
    if Int.land mask (2 ^ t.bit) ≠ 0 then
      match t.run with
      | .error e => ([], some e)
      | .ok rows =>
        let r := runTests mask write ts
        (write t.id rows ++ r.1, r.2)
    else runTests mask write ts

/-- The end of a script whose lines before the tests may fail, e.g. `run_linear_experiments.py:43-100`. -/
def expEnd (x : Except ExpErr (ExpLog × Option ExpErr)) : ExpLog × Option ExpErr :=
  match x with
  | .ok r => r
  | .error e => ([], some e)

/-- The lines of `zip(T,D,run_times)`, `run_linear_experiments.py:30-31`. -/
def rowsTD (r : List ℕ × List ℕ) : List ExpRow := (r.1.zip r.2).map fun p => ⟨[p.1, p.2], []⟩

/-! ### Discrete-time linear experiments -/

/-- The defaults, `run_linear_experiments.py:44-54`. -/
def linDefaults : Cfg :=
  [("model".toList, .str "tracking".toList), ("start".toList, .num 2), ("stop".toList, .num 5), ("num".toList, .int 20),
    ("n".toList, .int 4), ("nc".toList, .int 4), ("single".toList, .int 0), ("device".toList, .str "/CPU:0".toList),
    ("mask".toList, .int 65535)]

/-- The accepted keys, `run_linear_experiments.py:65-82`. -/
def linKeys : List (List Char × CfgType) :=
  [("model".toList, .str), ("start".toList, .float), ("stop".toList, .float), ("num".toList, .int), ("n".toList, .int),
    ("nc".toList, .int), ("single".toList, .int), ("device".toList, .str), ("mask".toList, .int)]

/-- `get_generator`, `run_linear_experiments.py:33-41`. -/
noncomputable def linGenerator (rnd : ℕ → ℝ) (model : List Char) (start stop : ℝ) (num n : ℤ) :
    Except ExpErr (List (Py (LQItem ℝ))) :=
  if model = "tracking".toList then do
    let num ← natArg num
    return trackingGen rnd start stop num
  else if model = "mass".toList then do
    let num ← natArg num
    let n ← natArg n
    return massGen n start stop num
  else .error (.exit 1)

/-- One test, e.g. `run_linear_experiments.py:103-105`, with the default `n_iter=10` of the speed tests. -/
def linTest (gen : Except ExpErr (List (Py (LQItem ℝ)))) (test : List (Py (LQItem ℝ)) → Py (List ℕ × List ℕ)) :
    Except ExpErr (List ExpRow) := do
  let g ← gen
  let r ← ofPy (test g)
  return rowsTD r

/-- The tests, `run_linear_experiments.py:102-140`. -/
noncomputable def linTests (scan : AScan) (rnd : ℕ → ℝ) (model : List Char) (start stop : ℝ) (num n nc : ℤ) : List ExpTest :=
  let gen := linGenerator rnd model start stop num n
  let cond (test : ℕ → List (Py (LQItem ℝ)) → Py (List ℕ × List ℕ)) : Except ExpErr (List ExpRow) := do
    let g ← gen
    let nc ← natArg nc
    linTest (.ok g) (test nc)
  [⟨0, fmtD n ++ "_sequential_bw".toList, linTest gen fun g => seqBwSpeed g 10⟩,
    ⟨1, fmtD n ++ "_parallel_bw".toList, linTest gen fun g => parBwSpeed scan g 10⟩,
    ⟨2, fmtD n ++ "_sequential_bwfw".toList, linTest gen fun g => seqBwFwSpeed g 10⟩,
    ⟨3, fmtD n ++ "_parallel_bwfw_1".toList, linTest gen fun g => parBwFw1Speed scan g 10⟩,
    ⟨4, fmtD n ++ "_parallel_bwfw_2".toList, linTest gen fun g => parBwFw2Speed scan g 10⟩,
    ⟨5, fmtD n ++ "_sequential_cond".toList ++ fmtD nc ++ "_bwfw".toList, cond fun nc g => seqCondSpeed g 10 nc⟩,
    ⟨6, fmtD n ++ "_parallel_cond".toList ++ fmtD nc ++ "_bwfw_1".toList, cond fun nc g => parCond1Speed scan g 10 nc⟩,
    ⟨7, fmtD n ++ "_parallel_cond".toList ++ fmtD nc ++ "_bwfw_2".toList, cond fun nc g => parCond2Speed scan g 10 nc⟩]

/-- `main`, `run_linear_experiments.py:43-140`. -/
noncomputable def linMain (fl : List Char → Py ℝ) (scan : AScan) (rnd : ℕ → ℝ) (args : List (List Char)) : ExpLog × Option ExpErr :=
  expEnd do
    let c ← parseArgs fl linKeys linDefaults args
    let model ← c.getStr "model".toList
    let start ← c.getNum "start".toList
    let stop ← c.getNum "stop".toList
    let num ← c.getInt "num".toList
    let n ← c.getInt "n".toList
    let nc ← c.getInt "nc".toList
    let single ← c.getInt "single".toList
    let device ← c.getStr "device".toList
    let mask ← c.getInt "mask".toList
    return runTests mask (writeTable model (devTxt device single)) (linTests scan rnd model start stop num n nc)

/-! ### Finite-state experiments -/

/-- The defaults, `run_finite_experiments.py:34-42`. -/
def finDefaults : Cfg :=
  [("start".toList, .num 2), ("stop".toList, .num 5), ("num".toList, .int 20), ("nx".toList, .int 21), ("single".toList, .int 0),
    ("device".toList, .str "/CPU:0".toList), ("mask".toList, .int 31)]

/-- The accepted keys, `run_finite_experiments.py:53-66`. -/
def finKeys : List (List Char × CfgType) :=
  [("start".toList, .float), ("stop".toList, .float), ("num".toList, .int), ("nx".toList, .int), ("single".toList, .int),
    ("device".toList, .str), ("mask".toList, .int)]

/-- One test, e.g. `run_finite_experiments.py:86-88`, with the default `n_iter=10`. -/
noncomputable def finTest (rnd : ℕ → ℕ → ℕ → ℝ) (start stop : ℝ) (num nx : ℤ)
    (test : List (Py (FSCItem ℝ)) → Py (List ℕ × List ℕ)) : Except ExpErr (List ExpRow) := do
  let num ← natArg num
  let nx ← natArg nx
  match nx with
  | g + 1 => do
    let r ← ofPy (test (finiteGen rnd (g + 1) start stop num))
    return rowsTD r
  | 0 => .error (.py .valueError)

/-- The tests, `run_finite_experiments.py:85-108`. -/
noncomputable def finTests (scan : AScan) (am : AArgmin ℝ) (rnd : ℕ → ℕ → ℕ → ℝ) (start stop : ℝ) (num nx : ℤ) : List ExpTest :=
  [⟨0, "seq_bw_".toList ++ fmtD nx, finTest rnd start stop num nx fun g => fscSeqBwSpeed am g 10⟩,
    ⟨1, "par_bw_".toList ++ fmtD nx, finTest rnd start stop num nx fun g => fscParBwSpeed scan am g 10⟩,
    ⟨2, "seq_bwfw_".toList ++ fmtD nx, finTest rnd start stop num nx fun g => fscSeqBwFwSpeed am g 10⟩,
    ⟨3, "par_bwfw_1_".toList ++ fmtD nx, finTest rnd start stop num nx fun g => fscParBwFw1Speed scan am g 10⟩,
    ⟨4, "par_bwfw_2_".toList ++ fmtD nx, finTest rnd start stop num nx fun g => fscParBwFw2Speed scan am g 10⟩]

/-- `main`, `run_finite_experiments.py:33-108`. -/
noncomputable def finMain (fl : List Char → Py ℝ) (scan : AScan) (am : AArgmin ℝ) (rnd : ℕ → ℕ → ℕ → ℝ) (args : List (List Char)) :
    ExpLog × Option ExpErr :=
  expEnd do
    let c ← parseArgs fl finKeys finDefaults args
    let start ← c.getNum "start".toList
    let stop ← c.getNum "stop".toList
    let num ← c.getInt "num".toList
    let nx ← c.getInt "nx".toList
    let single ← c.getInt "single".toList
    let device ← c.getStr "device".toList
    let mask ← c.getInt "mask".toList
    return runTests mask (writeTable "finite".toList (devTxt device single)) (finTests scan am rnd start stop num nx)

/-! ### Nonlinear experiments -/

/-- The defaults, `run_nonlinear_experiments.py:34-41`. -/
def nlinDefaults : Cfg :=
  [("start".toList, .num 2), ("stop".toList, .num 5), ("num".toList, .int 20), ("single".toList, .int 0),
    ("device".toList, .str "/CPU:0".toList), ("mask".toList, .int 7)]

/-- The accepted keys, `run_nonlinear_experiments.py:52-63`. -/
def nlinKeys : List (List Char × CfgType) :=
  [("start".toList, .float), ("stop".toList, .float), ("num".toList, .int), ("single".toList, .int), ("device".toList, .str),
    ("mask".toList, .int)]

/-- One test, e.g. `run_nonlinear_experiments.py:83-85`, with the default `n_iter=10`. -/
noncomputable def nlinTest (start stop : ℝ) (num : ℤ) (test : List (Py (NLItem ℝ)) → Py (List ℕ × List ℕ)) :
    Except ExpErr (List ExpRow) := do
  let num ← natArg num
  let r ← ofPy (test (nonlinearGen start stop num))
  return rowsTD r

/-- The tests, `run_nonlinear_experiments.py:82-95`. -/
noncomputable def nlinTests (scan : AScan) (start stop : ℝ) (num : ℤ) : List ExpTest :=
  [⟨0, "seq".toList, nlinTest start stop num fun g => iterSeqSpeed g 10⟩,
    ⟨1, "par_1".toList, nlinTest start stop num fun g => iterPar1Speed scan g 10⟩,
    ⟨2, "par_2".toList, nlinTest start stop num fun g => iterPar2Speed scan g 10⟩]

/-- `main`, `run_nonlinear_experiments.py:33-95`. -/
noncomputable def nlinMain (fl : List Char → Py ℝ) (scan : AScan) (args : List (List Char)) : ExpLog × Option ExpErr :=
  expEnd do
    let c ← parseArgs fl nlinKeys nlinDefaults args
    let start ← c.getNum "start".toList
    let stop ← c.getNum "stop".toList
    let num ← c.getInt "num".toList
    let single ← c.getInt "single".toList
    let device ← c.getStr "device".toList
    let mask ← c.getInt "mask".toList
    return runTests mask (writeTable "nonlinear".toList (devTxt device single)) (nlinTests scan start stop num)

/-! ### Continuous-time linear experiments -/

/-- The defaults, `run_contlin_experiments.py:43-54`. -/
def contDefaults : Cfg :=
  [("model".toList, .str "tracking".toList), ("start".toList, .num 2), ("stop".toList, .num 3), ("num".toList, .int 5),
    ("steps".toList, .int 10), ("n".toList, .int 4), ("niter".toList, .int 2), ("single".toList, .int 0),
    ("device".toList, .str "/CPU:0".toList), ("mask".toList, .int 65535)]

/-- The accepted keys, `run_contlin_experiments.py:65-84`. -/
def contKeys : List (List Char × CfgType) :=
  [("model".toList, .str), ("start".toList, .float), ("stop".toList, .float), ("num".toList, .int), ("steps".toList, .int),
    ("n".toList, .int), ("niter".toList, .int), ("single".toList, .int), ("device".toList, .str), ("mask".toList, .int)]

/-- The loop over the numbers of blocks and the lines of the table, e.g. `run_contlin_experiments.py:152-160` and 31-33; `D = 4`. -/
noncomputable def contTest (Bs : List ℕ) (test : ℕ → Py ℝ) : Except ExpErr (List ExpRow) :=
  Bs.mapM fun blocks => do
    let err ← ofPy (test blocks)
    return ⟨[(blocks : ℤ), 4], [(err : WithBot ℝ)]⟩

/-- The tests, `run_contlin_experiments.py:151-237`, with `n_iter = 10` (line 131). -/
noncomputable def contTests (scan : AScan) (P : CLQT 4 2 ℝ × (Fin 4 → ℝ)) (Bs : List ℕ) (steps niter : ℕ) (n niterD : ℤ) : List ExpTest :=
  [⟨0, fmtD n ++ "_seq_bw".toList, contTest Bs fun blocks => P.1.seqBwSpeed P.2 blocks steps 10⟩,
    ⟨1, fmtD n ++ "_seq_bw_fw".toList, contTest Bs fun blocks => P.1.seqBwFwSpeed P.2 blocks steps 10⟩,
    ⟨2, fmtD n ++ "_par_bw".toList, contTest Bs fun blocks => P.1.parBwSpeed scan P.2 blocks steps 10⟩,
    ⟨3, fmtD n ++ "_par_bw_fw".toList, contTest Bs fun blocks => P.1.parBwFwSpeed scan P.2 blocks steps 10⟩,
    ⟨4, fmtD n ++ "_par_bw_fwbw".toList, contTest Bs fun blocks => P.1.parBwFwBwSpeed scan P.2 blocks steps 10⟩,
    ⟨5, fmtD n ++ "_parareal_".toList ++ fmtD niterD ++ "_bw".toList,
      contTest Bs fun blocks => P.1.prBwSpeed P.2 blocks steps niter 10⟩,
    ⟨6, fmtD n ++ "_parareal_".toList ++ fmtD niterD ++ "_bw_fw".toList,
      contTest Bs fun blocks => P.1.prBwFwSpeed P.2 blocks steps niter 10⟩,
    ⟨7, fmtD n ++ "_parareal_".toList ++ fmtD niterD ++ "_bw_fwbw".toList,
      contTest Bs fun blocks => P.1.prBwFwBwSpeed P.2 blocks steps niter 10⟩]

/-- `main`, `run_contlin_experiments.py:42-237`. -/
noncomputable def contMain (fl : List Char → Py ℝ) (scan : AScan) (args : List (List Char)) : ExpLog × Option ExpErr :=
  expEnd do
    let c ← parseArgs fl contKeys contDefaults args
    let model ← c.getStr "model".toList
    let start ← c.getNum "start".toList
    let stop ← c.getNum "stop".toList
    let num ← c.getInt "num".toList
    let steps ← c.getInt "steps".toList
    let n ← c.getInt "n".toList
    let niter ← c.getInt "niter".toList
    let single ← c.getInt "single".toList
    let device ← c.getStr "device".toList
    let mask ← c.getInt "mask".toList
    let num ← natArg num
    if model ≠ "tracking".toList then throw (.exit 1)
    let steps ← natArg steps
    let k ← natArg niter
    return runTests mask (writeTableCfg model (devTxt device single) c)
      (contTests scan contTracking (logspaceInt start stop num) steps k n niter)

/-! ### Continuous-time nonlinear experiments -/

/-- The defaults, `run_nonlin_experiments.py:42-52`. -/
def hjbDefaults : Cfg :=
  [("model".toList, .str "velocity".toList), ("start".toList, .num 2), ("stop".toList, .num 3), ("num".toList, .int 5),
    ("steps".toList, .int 10), ("n".toList, .int 20), ("single".toList, .int 0), ("device".toList, .str "/CPU:0".toList),
    ("mask".toList, .int 65535)]

/-- The accepted keys, `run_nonlin_experiments.py:63-80`. -/
def hjbKeys : List (List Char × CfgType) :=
  [("model".toList, .str), ("start".toList, .float), ("stop".toList, .float), ("num".toList, .int), ("steps".toList, .int),
    ("n".toList, .int), ("single".toList, .int), ("device".toList, .str), ("mask".toList, .int)]

/-- The loop over the numbers of blocks and the lines of the table, e.g. `run_nonlin_experiments.py:113-123` and 31-33. -/
def hjbTest (Bs : List ℕ) (n : ℕ) (test : ℕ → Py (WithBot ℝ × WithBot ℝ)) : Except ExpErr (List ExpRow) :=
  Bs.mapM fun blocks => do
    let err ← ofPy (test blocks)
    return ⟨[(blocks : ℤ), (n : ℤ)], [err.1, err.2]⟩

/-- The tests, `run_nonlin_experiments.py:112-149`, with `n_iter = 10` (line 99) and the default `block_T=0.1`; `n` is the number of
grid points. -/
noncomputable def hjbTests (scan : AScan) {n m : ℕ} [NeZero m] (M : CModel (n + 2) m ℝ) (Bs : List ℕ) (steps : ℕ) : List ExpTest :=
  let id := fmtD ((n + 2 : ℕ) : ℤ)
  [⟨0, id ++ "_seq_upwind".toList, hjbTest Bs (n + 2) fun blocks => M.seqUpwindSpeed blocks steps (1 / 10) 10⟩,
    ⟨1, id ++ "_seq_assoc".toList, hjbTest Bs (n + 2) fun blocks => M.seqAssocSpeed argmin1 blocks steps (1 / 10) 10⟩,
    ⟨2, id ++ "_par_assoc".toList, hjbTest Bs (n + 2) fun blocks => M.parAssocSpeed scan argmin1 blocks steps (1 / 10) 10⟩]

/-- `main`, `run_nonlin_experiments.py:41-149`; fewer than two grid points are not modelled. -/
noncomputable def hjbMain (fl : List Char → Py ℝ) (scan : AScan) (args : List (List Char)) : ExpLog × Option ExpErr :=
  expEnd do
    let c ← parseArgs fl hjbKeys hjbDefaults args
    let model ← c.getStr "model".toList
    let start ← c.getNum "start".toList
    let stop ← c.getNum "stop".toList
    let num ← c.getInt "num".toList
    let steps ← c.getInt "steps".toList
    let n ← c.getInt "n".toList
    let single ← c.getInt "single".toList
    let device ← c.getStr "device".toList
    let mask ← c.getInt "mask".toList
    let num ← natArg num
    let n ← natArg n
    let steps ← natArg steps
    match n with
    | g + 2 => do
      let M ← ofPy (hjbGetModel (g + 2) (g + 2))
      return runTests mask (writeTableCfg model (devTxt device single) c) (hjbTests scan M (logspaceInt start stop num) steps)
    | _ => .error (.py .valueError)

/-! ### Viterbi experiments -/

/-- The defaults, `run_viterbi_experiments.py:41-50`. -/
def vitDefaults : Cfg :=
  [("model".toList, .str "ge".toList), ("start".toList, .num 2), ("stop".toList, .num 3), ("num".toList, .int 5),
    ("steps".toList, .int 10), ("single".toList, .int 0), ("device".toList, .str "/CPU:0".toList), ("mask".toList, .int 65535)]

/-- The accepted keys, `run_viterbi_experiments.py:61-74`. -/
def vitKeys : List (List Char × CfgType) :=
  [("model".toList, .str), ("start".toList, .float), ("stop".toList, .float), ("num".toList, .int), ("single".toList, .int),
    ("device".toList, .str), ("mask".toList, .int)]

/-- The loop over the numbers of steps and the lines of the table, e.g. `run_viterbi_experiments.py:104-110` and 30-32. -/
def vitTest (Ss : List ℕ) (test : ℕ → Py ℝ) : Except ExpErr (List ExpRow) :=
  Ss.mapM fun steps => do
    let err ← ofPy (test steps)
    return ⟨[(steps : ℤ)], [(err : WithBot ℝ)]⟩

/-- The tests, `run_viterbi_experiments.py:103-137`, with `n_iter = 10` (line 93). -/
noncomputable def vitTests (scan : AScan) (am : (Fin 4 → ℝ) → Fin 4) (rnd : ℕ → ℝ) (Ss : List ℕ) : List ExpTest :=
  let nl := fun p : ℝ => -Real.log p
  [⟨0, "viterbi_seq_fwbw".toList, vitTest Ss fun steps => speedSeqFwBw am nl rnd geModel steps 10⟩,
    ⟨1, "viterbi_par_fwbw".toList, vitTest Ss fun steps => speedParFwBw (scan _) (scan _) am nl rnd geModel steps 10⟩,
    ⟨2, "viterbi_seqpar_fwbw".toList, vitTest Ss fun steps => speedSeqParFwBw (scan _) am nl rnd geModel steps 10⟩,
    ⟨3, "viterbi_par_fwbwfw".toList, vitTest Ss fun steps => speedParFwBwFw (scan _) am nl rnd geModel steps 10⟩]

/-- `main`, `run_viterbi_experiments.py:40-137`. -/
noncomputable def vitMain (fl : List Char → Py ℝ) (scan : AScan) (am : (Fin 4 → ℝ) → Fin 4) (rnd : ℕ → ℝ) (args : List (List Char)) :
    ExpLog × Option ExpErr :=
  expEnd do
    let c ← parseArgs fl vitKeys vitDefaults args
    let model ← c.getStr "model".toList
    let start ← c.getNum "start".toList
    let stop ← c.getNum "stop".toList
    let num ← c.getInt "num".toList
    let single ← c.getInt "single".toList
    let device ← c.getStr "device".toList
    let mask ← c.getInt "mask".toList
    let num ← natArg num
    return runTests mask (writeTableCfg model (devTxt device single) c) (vitTests scan am rnd (logspaceInt start stop num))

/-! ### Text experiments -/

/-- The defaults, `run_text_experiments.py:52-57`. -/
def textDefaults : Cfg :=
  [("order".toList, .int 1), ("single".toList, .int 0), ("device".toList, .str "/CPU:0".toList), ("mask".toList, .int 65535)]

/-- The accepted keys, `run_text_experiments.py:68-75`. -/
def textKeys : List (List Char × CfgType) :=
  [("order".toList, .int), ("single".toList, .int), ("device".toList, .str), ("mask".toList, .int)]

/-- The defaults, `run_text_experiments_2.py:52-58`. -/
def text2Defaults : Cfg :=
  [("order".toList, .int 1), ("single".toList, .int 0), ("steps".toList, .int (-1)), ("device".toList, .str "/CPU:0".toList),
    ("mask".toList, .int 65535)]

/-- The accepted keys, `run_text_experiments_2.py:69-78`. -/
def text2Keys : List (List Char × CfgType) :=
  [("order".toList, .int), ("single".toList, .int), ("steps".toList, .int), ("device".toList, .str), ("mask".toList, .int)]

/-- `text_error`, `run_text_experiments.py:43-48` (copy at `run_text_experiments_2.py:43-48`). -/
noncomputable def textError {α : Type} [DecidableEq α] (text1 text2 : List α) : Py ℝ := do
  let err ← (List.range text1.length).foldlM (fun (err : ℝ) i => do
    let a ← pyGet text1 i
    let b ← pyGet text2 i
    return if a ≠ b then err + 1 else err) 0
  if text1.length = 0 then throw .zeroDivisionError
  return err / text1.length

/-- `tf.convert_to_tensor` of the arrays, `run_text_experiments.py:117-119`; the shapes are those of the class. -/
def tfHMM (n q : ℕ) (prior : FArr1 ℝ) (Pi Po : FArr2 ℝ) : HMM n q ℝ :=
  ⟨fun i => prior.get i, fun i j => Pi.get i j, fun i y => Po.get i y⟩

/-- The observations as indices, `run_text_experiments.py:116`. -/
def tfObs (q : ℕ) (ys : List ℕ) : Py (List (Fin q)) :=
  ys.mapM fun y => if h : y < q then .ok ⟨y, h⟩ else .error .valueError

/-- One method, e.g. `run_text_experiments.py:132-148`, with `n_iter = 10` (line 95): the error of the corrected text. -/
noncomputable def textMethod {n : ℕ} (M : TextModel Char ℝ) (text2 : List Char) (run : Py (List (Fin n) × List (Fin n → ℝ))) : Except ExpErr ℝ := do
  let _ ← ofPy run
  let zs ← ofPy ((List.range 10).foldlM (fun (_ : List (Fin n)) _ => do let r ← run; return r.1) [])
  let text4 ← ofPy (M.indexToText (zs.tail.map fun z : Fin n => (z : ℕ)))
  ofPy (textError text2 text4)

/-- The methods, `run_text_experiments.py:131-205` (copy at `run_text_experiments_2.py:140-214`): bit, number, and result. -/
noncomputable def textMethods (scan : AScan) {n q : ℕ} [NeZero n] (am : (Fin n → ℝ) → Fin n) (M : TextModel Char ℝ)
    (text2 : List Char) (H : HMM n q ℝ) (ys : List (Fin q)) : List (ℕ × ℤ × Except ExpErr ℝ) :=
  let nl := fun p : ℝ => -Real.log p
  [(0, 1, textMethod M text2 (H.tfSeqFwBw am nl ys)),
    (1, 2, textMethod M text2 (H.tfSeqParFwBwMp (scan _) am nl ys)),
    (2, 3, textMethod M text2 (H.tfParFwBwMp (scan _) (scan _) am nl ys)),
    (3, 4, textMethod M text2 (H.tfParFwBwFwMp (scan _) am nl ys))]

/-- The sequence of the blocks, `run_text_experiments.py:131-205`: the lists `methods` and `err_list`. -/
def runMethods (mask : ℤ) (ms : List (ℕ × ℤ × Except ExpErr ℝ)) : Except ExpErr (List (ℤ × ℝ)) :=
  ms.foldlM (fun acc m =>
    if Int.land mask (2 ^ m.1) ≠ 0 then do
      let err ← m.2.2
      return acc ++ [(m.2.1, err)]
    else return acc) []

/-- The part of `main` that is common to both scripts, `run_text_experiments.py:106-205` and `run_text_experiments_2.py:115-214`:
the model, the noisy text, and the methods. -/
noncomputable def textRun (scan : AScan) (am : AArgmin ℝ) (choice : ℕ → FArr1 ℝ → Py ℕ) (text1 text2 : List Char) (order : ℕ)
    (mask : ℤ) : Except ExpErr (List (ℤ × ℝ)) := do
  let M ← ofPy (TextModel.init " abcdefghijklmnopqrstuvwxyz".toList (1 / 10 : ℝ) order)
  let text3 ← ofPy (M.makeNoisyText choice text2)
  let Po := M.nthPo
  let prior ← ofPy (M.nthPrior text1)
  let Pi ← ofPy (M.nthPi text1)
  let _ ← ofPy (M.textToIndex text2)
  let ys ← ofPy (M.textToIndex text3)
  let ys ← ofPy (tfObs 27 ys)
  let _ ← ofPy (textError text2 text3)
  haveI : NeZero (27 ^ order) := ⟨by positivity⟩
  runMethods mask (textMethods scan (am (27 ^ order)) M text2 (tfHMM (27 ^ order) 27 prior Pi Po) ys)

/-- `main`, `run_text_experiments.py:51-207`, with `write_to_file` (17-40); `text1` and `text2` are the files read at lines 97-101. -/
noncomputable def textMain (fl : List Char → Py ℝ) (scan : AScan) (am : AArgmin ℝ) (choice : ℕ → FArr1 ℝ → Py ℕ)
    (text1 text2 : List Char) (args : List (List Char)) : ExpLog × Option ExpErr :=
  expEnd do
    let c ← parseArgs fl textKeys textDefaults args
    let order ← c.getInt "order".toList
    let single ← c.getInt "single".toList
    let device ← c.getStr "device".toList
    let mask ← c.getInt "mask".toList
    let k ← natArg order
    let rs ← textRun scan am choice text1 text2 k mask
    let dev := devTxt device single
    return ([(expName "text".toList (fmtD order) dev, .table (rs.map fun r => ⟨[r.1, order], [(r.2 : WithBot ℝ)]⟩)),
      (expCfgName "text".toList (fmtD order) dev, .config c)], none)

/-- `main`, `run_text_experiments_2.py:51-216`, with `write_to_file` (17-40). -/
noncomputable def text2Main (fl : List Char → Py ℝ) (scan : AScan) (am : AArgmin ℝ) (choice : ℕ → FArr1 ℝ → Py ℕ)
    (text1 text2 : List Char) (args : List (List Char)) : ExpLog × Option ExpErr :=
  expEnd do
    let c ← parseArgs fl text2Keys text2Defaults args
    let order ← c.getInt "order".toList
    let single ← c.getInt "single".toList
    let steps ← c.getInt "steps".toList
    let device ← c.getStr "device".toList
    let mask ← c.getInt "mask".toList
    let k ← natArg order
    let steps : ℤ := if steps > text2.length ∨ steps < 0 then text2.length else steps
    let rs ← textRun scan am choice text1 (text2.take steps.toNat) k mask
    let dev := devTxt device single
    return ([(expName "text_steps".toList (fmtD order ++ ['_'] ++ fmtD steps) dev,
        .table (rs.map fun r => ⟨[r.1, order, steps], [(r.2 : WithBot ℝ)]⟩)),
      (expCfgName "text_steps".toList (fmtD order) dev, .config c)], none)

end Verif
