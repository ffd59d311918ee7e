import Verif.Model.Disc
import Verif.Model.LQTCheck
import Verif.Model.CLQT
import Mathlib.LinearAlgebra.Matrix.Notation
import Mathlib.Analysis.SpecialFunctions.Complex.Arg
import Mathlib.Analysis.SpecialFunctions.Trigonometric.Basic
import Mathlib.Algebra.Order.ToIntervalMod

/-!
Model of the tracking examples: `/repo/parallel_control/linear_model_np.py`, `/repo/parallel_control/linear_model_tf.py`
and the methods `genData`, `initialGuess` and `getLQT` of `/repo/parallel_control/nonlinear_model_np.py` (its functions
`f`, `Fx`, `Fu` are in `ExamplesReal.lean`).

Simplifications: real numbers; an array of points is the list of its columns; the random numbers of `genData` are a
parameter; the stepping of `NonlinearModel.genData` is a natural number; signed zeros are not distinguished in `arctan2`.
-/

namespace Verif

open Matrix

/-! ### Linear model -/

/-- One iteration of the loop of `LinearModel.genData`, `linear_model_np.py:74-93`: the state is `(x, y, angle)`, `w` the
random number of line 75; with `x0 = y0 = 0`, `x1 = y1 = 10`, `r = 1`, `s = r / 2`, `da = 0.5 pi` of lines 56-62. -/
noncomputable def linWalk (st : ℝ × ℝ × ℝ) (w : ℝ) : ℝ × ℝ × ℝ :=
  let x := st.1
  let y := st.2.1
  let angle := st.2.2
  let x0 : ℝ := 0
  let y0 : ℝ := 0
  let x1 : ℝ := 10
  let y1 : ℝ := 10
  let r : ℝ := 1
  let s := r / 2
  let da := 0.5 * Real.pi
  let angle := angle + da * 2 * (w - 0.5)
  let angle := if angle < 0 then angle + 2 * Real.pi else angle
  let angle := if angle > 2 * Real.pi then angle - 2 * Real.pi else angle
  let new_x := x + r * Real.cos angle
  let new_y := y + r * Real.sin angle
  let new_x := if new_x ≤ x0 + s ∨ new_x ≥ x1 - s then 2 * x - new_x else new_x
  let new_y := if new_y ≤ y0 + s ∨ new_y ≥ y1 - s then 2 * y - new_y else new_y
  (new_x, new_y, angle)

/-- `LinearModel.genData(N)`, `linear_model_np.py:45-95`; `rnd k` is the random number drawn in iteration `k` (line 75).
Writing the first point (line 67) raises `IndexError` for `N = 0`. -/
noncomputable def linGenData (rnd : ℕ → ℝ) (N : ℕ) : Py (List (Fin 2 → ℝ)) :=
  if N = 0 then .error .indexError else
  let start : ℝ × ℝ × ℝ := (0 + (10 - 0) / 2, 0 + (10 - 0) / 2, 0)
  let res := (List.range' 1 (N - 1)).foldl (fun (st : (ℝ × ℝ × ℝ) × List (Fin 2 → ℝ)) k =>
    let st' := linWalk st.1 (rnd k)
    (st', st.2 ++ [![st'.1, st'.2.1]])) (start, [![start.1, start.2.1]])
  .ok res.2

/-- The loop that builds the lists `X` and `r` in both models, `linear_model_np.py:139-151` and
`nonlinear_model_np.py:183-195`: returns `X`, `r` and the last `curr_r`. -/
def trackLoop {p : ℕ} (xy : List (Fin p → ℝ)) (steps T : ℤ) (Xl Xn : Matrix (Fin p) (Fin p) ℝ) (curr_r : Fin p → ℝ) :
    Py (List (Matrix (Fin p) (Fin p) ℝ) × List (Fin p → ℝ) × (Fin p → ℝ)) := do
  let st ← (List.range T.toNat).foldlM
    (fun (st : ℕ × (Fin p → ℝ) × List (Matrix (Fin p) (Fin p) ℝ) × List (Fin p → ℝ)) (k : ℕ) => do
      let (i, curr_r, X, r) := st
      if (k : ℤ) % steps = 0 then do
        let curr_r ← pyGet xy i
        return (i + 1, curr_r, X ++ [Xl], r ++ [curr_r])
      else return (i, curr_r, X ++ [Xn], r ++ [curr_r]))
    (0, curr_r, [], [])
  return (st.2.2.1, st.2.2.2, st.2.1)

/-- `F` of the constant velocity model, `linear_model_np.py:118-121`. -/
def linF : Matrix (Fin 4) (Fin 4) ℝ := !![0, 0, 1, 0; 0, 0, 0, 1; 0, 0, 0, 0; 0, 0, 0, 0]

/-- `L` and `G`, `linear_model_np.py:124-132`. -/
def linL : Matrix (Fin 4) (Fin 2) ℝ := !![0, 0; 0, 0; 1, 0; 0, 1]

/-- `H`, `linear_model_np.py:111-112`. -/
def linH : Matrix (Fin 2) (Fin 4) ℝ := !![1, 0, 0, 0; 0, 1, 0, 0]

/-- The arguments of the call of `checkAndExpand`, `linear_model_np.py:155`. -/
noncomputable def linArgs (F : Matrix (Fin 4) (Fin 4) ℝ) (L : Matrix (Fin 4) (Fin 2) ℝ)
    (X : List (Matrix (Fin 2) (Fin 2) ℝ)) (r : List (Fin 2 → ℝ)) (rT : Fin 4 → ℝ) (T : ℤ) : LQTArgs ℝ where
  F := .one ⟨_, _, F⟩
  L := .one ⟨_, _, L⟩
  X := .list (X.map fun A => ⟨_, _, A⟩)
  U := .one ⟨_, _, (0.1 : ℝ) • (1 : Matrix (Fin 2) (Fin 2) ℝ)⟩
  XT := some ⟨_, _, (1 : Matrix (Fin 4) (Fin 4) ℝ)⟩
  H := some (.one ⟨_, _, linH⟩)
  r := some (.list (r.map fun v => ⟨_, v⟩))
  HT := some ⟨_, _, (1 : Matrix (Fin 4) (Fin 4) ℝ)⟩
  rT := some ⟨_, rT⟩
  T := some T

/-- `LinearModel.getLQT(xy, steps)`, `linear_model_np.py:97-157`; `1.0 / steps` (line 108) raises `ZeroDivisionError` for
`steps = 0`. -/
noncomputable def linGetLQT (xy : List (Fin 2 → ℝ)) (steps : ℤ) : Py (RawLQT ℝ × (Fin 4 → ℝ)) := do
  if steps = 0 then .error .zeroDivisionError else
  let dt : ℝ := 1 / steps
  let Xl : Matrix (Fin 2) (Fin 2) ℝ := (100 : ℝ) • 1
  let Xn : Matrix (Fin 2) (Fin 2) ℝ := (1e-6 : ℝ) • 1
  let Qc : Matrix (Fin 2) (Fin 2) ℝ := Matrix.diagonal ![1, 1]
  let (F, L, _) ← ltiDiscU linF linL linL (.mat Qc) dt
  let N : ℤ := xy.length
  let T := steps * N
  let curr_r ← pyGet xy 0
  let x0 := ![curr_r 0, curr_r 1, 0, 0]
  let (X, r, curr_r) ← trackLoop xy steps T Xl Xn curr_r
  let rT := ![curr_r 0, curr_r 1, 0, 0]
  let lqt ← (linArgs F L X r rT T).checkAndExpand
  return (lqt, x0)

/-- `cx`, `linear_model_np.py:183-184`. -/
noncomputable def linCx : Fin 13 → ℝ := ![5.7770, -2.6692, 1.1187, 0.1379, 0.5718, 1.1214, 0.2998, 0.3325, 0.7451, 0.2117, 0.6595,
  0.0401, -0.2995]

/-- `cy`, `linear_model_np.py:185-186`. -/
noncomputable def linCy : Fin 13 → ℝ := ![4.3266, -1.4584, -1.2457, 1.1804, 0.2035, 0.5123, 1.0588, 0.2616, -0.6286, -0.3802, 0.2750,
  -0.0070, -0.0022]

/-- One coordinate of `r(t)`, `linear_model_np.py:188-201`. -/
noncomputable def linRefC (c : Fin 13 → ℝ) (t : ℝ) : ℝ :=
  c 0 + c 1 * Real.cos (2 * Real.pi * t / 50) + c 2 * Real.sin (2 * Real.pi * t / 50) +
  c 3 * Real.cos (4 * Real.pi * t / 50) + c 4 * Real.sin (4 * Real.pi * t / 50) +
  c 5 * Real.cos (6 * Real.pi * t / 50) + c 6 * Real.sin (6 * Real.pi * t / 50) +
  c 7 * Real.cos (8 * Real.pi * t / 50) + c 8 * Real.sin (8 * Real.pi * t / 50) +
  c 9 * Real.cos (10 * Real.pi * t / 50) + c 10 * Real.sin (10 * Real.pi * t / 50) +
  c 11 * Real.cos (12 * Real.pi * t / 50) + c 12 * Real.sin (12 * Real.pi * t / 50)

/-- The object returned by `LinearModel.getCLQT()`, `linear_model_np.py:159-212`. -/
noncomputable def linGetCLQT : CLQT 4 2 ℝ × (Fin 4 → ℝ) :=
  (⟨2, fun _ => !![0, 0, 1, 0; 0, 0, 0, 1; 0, 0, 0, 0; 0, 0, 0, 0], fun _ => !![0, 0; 0, 0; 1, 0; 0, 1],
    fun _ => (1 : ℝ) • 1, fun _ => (0.1 : ℝ) • 1, fun _ => 0, fun _ => !![1, 0, 0, 0; 0, 1, 0, 0],
    fun t => ![linRefC linCx t, linRefC linCy t], 4, (1 : ℝ) • 1, 1, ![4.9514, 4.4353, 0, 0], 50⟩, ![5, 5, 0, 0])

/-- `cx` of the TensorFlow version, `linear_model_tf.py:44-45`. -/
noncomputable def linCxTF : Fin 13 → ℝ := ![5.7770, -2.6692, 1.1187, 0.1379, 0.5718, 1.1214, 0.2998, 0.3325, 0.7451, 0.2117, 0.6595,
  0.0401, -0.2995]

/-- `cy` of the TensorFlow version, `linear_model_tf.py:46-47`. -/
noncomputable def linCyTF : Fin 13 → ℝ := ![4.3266, -1.4584, -1.2457, 1.1804, 0.2035, 0.5123, 1.0588, 0.2616, -0.6286, -0.3802, 0.2750,
  -0.0070, -0.0022]

/-- One coordinate of `r_f(t)`, `linear_model_tf.py:49-64`. -/
noncomputable def linRefCTF (c : Fin 13 → ℝ) (t : ℝ) : ℝ :=
  let a := 2 * Real.pi / 50
  c 0 + c 1 * Real.cos (1 * a * t) + c 2 * Real.sin (1 * a * t) +
  c 3 * Real.cos (2 * a * t) + c 4 * Real.sin (2 * a * t) +
  c 5 * Real.cos (3 * a * t) + c 6 * Real.sin (3 * a * t) +
  c 7 * Real.cos (4 * a * t) + c 8 * Real.sin (4 * a * t) +
  c 9 * Real.cos (5 * a * t) + c 10 * Real.sin (5 * a * t) +
  c 11 * Real.cos (6 * a * t) + c 12 * Real.sin (6 * a * t)

/-- The parameters returned by `get_clqt()` and the initial state, `linear_model_tf.py:15-70`. -/
noncomputable def linGetCLQTTF : CLQT 4 2 ℝ × (Fin 4 → ℝ) :=
  (⟨2, fun _ => !![0, 0, 1, 0; 0, 0, 0, 1; 0, 0, 0, 0; 0, 0, 0, 0], fun _ => !![0, 0; 0, 0; 1, 0; 0, 1],
    fun _ => (1 : ℝ) • 1, fun _ => (0.1 : ℝ) • 1, fun _ => 0, fun _ => !![1, 0, 0, 0; 0, 1, 0, 0],
    fun t => ![linRefCTF linCxTF t, linRefCTF linCyTF t], 4, (1 : ℝ) • 1, 1, ![4.9514, 4.4353, 0, 0], 50⟩, ![5, 5, 0, 0])

/-! ### Nonlinear model -/

/-- `H` (and `HT`), `nonlinear_model_np.py:170-173`. -/
def nlH : Matrix (Fin 3) (Fin 4) ℝ := !![1, 0, 0, 0; 0, 1, 0, 0; 0, 0, 1, 0]

/-- The arguments of the call of `checkAndExpand`, `nonlinear_model_np.py:199`. -/
noncomputable def nlArgs (X : List (Matrix (Fin 3) (Fin 3) ℝ)) (r : List (Fin 3 → ℝ)) (rT : Fin 3 → ℝ) (T : ℤ) : LQTArgs ℝ where
  F := .one ⟨_, _, (1 : Matrix (Fin 4) (Fin 4) ℝ)⟩
  L := .one ⟨_, _, (!![0, 0; 0, 0; 1, 0; 0, 1] : Matrix (Fin 4) (Fin 2) ℝ)⟩
  X := .list (X.map fun A => ⟨_, _, A⟩)
  U := .one ⟨_, _, (Matrix.diagonal ![1, 100] : Matrix (Fin 2) (Fin 2) ℝ)⟩
  XT := some ⟨_, _, (1e-6 : ℝ) • (1 : Matrix (Fin 3) (Fin 3) ℝ)⟩
  H := some (.one ⟨_, _, nlH⟩)
  r := some (.list (r.map fun v => ⟨_, v⟩))
  HT := some ⟨_, _, nlH⟩
  rT := some ⟨_, rT⟩
  T := some T

/-- `NonlinearModel.getLQT(xyt, steps)`, `nonlinear_model_np.py:158-201`. -/
noncomputable def nlGetLQT (xyt : List (Fin 3 → ℝ)) (steps : ℤ) : Py (RawLQT ℝ × (Fin 4 → ℝ)) := do
  let Xl : Matrix (Fin 3) (Fin 3) ℝ := Matrix.diagonal ![100, 100, 1000]
  let Xn : Matrix (Fin 3) (Fin 3) ℝ := (1e-6 : ℝ) • 1
  let N : ℤ := xyt.length
  let T := steps * N
  let curr_r ← pyGet xyt 0
  let x0 := ![curr_r 0, curr_r 1, curr_r 2, 0]
  let (X, r, curr_r) ← trackLoop xyt steps (steps * N) Xl Xn curr_r
  let rT := ![curr_r 0, curr_r 1, curr_r 2]
  let lqt ← (nlArgs X r rT T).checkAndExpand
  return (lqt, x0)

/-- `x_data`, `nonlinear_model_np.py:95`. -/
noncomputable def nlCurveX (t : ℝ) : ℝ := 7 + 4 * Real.cos t + 2 * Real.sin (2 * t) + 2 * Real.cos (3 * t)

/-- `y_data`, `nonlinear_model_np.py:96`. -/
noncomputable def nlCurveY (t : ℝ) : ℝ := 7 + 3 * Real.sin t - 1 * Real.sin (2 * t) + 2 * Real.sin (3 * t)

/-- `np.linspace(0, 2 pi, N)`, `nonlinear_model_np.py:94`: the distance of the points is `2 pi / (N - 1)` and the last point is
set to `2 pi`; for `N = 1` the only point is `0`. -/
noncomputable def nlGrid (N : ℕ) : List ℝ := (List.range N).map fun k : ℕ => 0 + (k : ℝ) * ((2 * Real.pi - 0) / ((N - 1 : ℕ) : ℝ))

/-- `np.arctan2(y, x)`, `nonlinear_model_np.py:100`. -/
noncomputable def npArctan2 (y x : ℝ) : ℝ := Complex.arg ⟨x, y⟩

/-- `np.unwrap(p)` with the default period `2 pi`, `nonlinear_model_np.py:103`: differences `dd` of consecutive items with an
absolute value of at least `pi` are moved to `[-pi, pi)` (`-pi` becomes `pi` if `dd > 0`) by adding the cumulated
corrections. -/
noncomputable def npUnwrapFrom (prev corr : ℝ) : List ℝ → List ℝ
  | [] => []
  | p :: ps =>
    let dd := p - prev
    let ddmod := toIcoMod Real.two_pi_pos 0 (dd - -Real.pi) + -Real.pi
    let ddmod := if ddmod = -Real.pi ∧ dd > 0 then Real.pi else ddmod
    let ph_correct := ddmod - dd
    let ph_correct := if |dd| < Real.pi then 0 else ph_correct
    let corr := corr + ph_correct
    (p + corr) :: npUnwrapFrom p corr ps

/-- `np.unwrap(p)`: the first item is kept, `nonlinear_model_np.py:103`. -/
noncomputable def npUnwrap : List ℝ → List ℝ
  | [] => []
  | p :: ps => p :: npUnwrapFrom p 0 ps

/-- `a[0::steps]` for a positive step, `nonlinear_model_np.py:105-107`. -/
def npStride {α : Type} (steps : ℕ) (a : List α) : List α :=
  (List.range ((a.length + steps - 1) / steps)).filterMap fun j => a[j * steps]?

/-- One iteration of the loop that fills `t_data`, `nonlinear_model_np.py:98-102`; a negative index counts from the end. -/
noncomputable def nlHeadingStep (x y : List ℝ) (t : List ℝ) (k : ℕ) : Py (List ℝ) := do
  if (k : ℤ) < (t.length : ℤ) - 1 then do
    let y1 ← pyGet y (k + 1)
    let y0 ← pyGet y k
    let x1 ← pyGet x (k + 1)
    let x0 ← pyGet x k
    pySet t k (npArctan2 (y1 - y0) (x1 - x0))
  else do
    let v ← pyGet t (if k = 0 then t.length - 1 else k - 1)
    pySet t k v

/-- `NonlinearModel.genData(N, steps)`, `nonlinear_model_np.py:82-112`: the columns of `xyt` and of `xyt_dense`; a zero step
(line 105) raises `ValueError`. -/
noncomputable def nlGenData (N steps : ℕ) : Py (List (Fin 3 → ℝ) × List (Fin 3 → ℝ)) := do
  let tt := nlGrid N
  let x_data := tt.map nlCurveX
  let y_data := tt.map nlCurveY
  let t_data : List ℝ := List.replicate x_data.length 0
  let t_data ← (List.range t_data.length).foldlM (nlHeadingStep x_data y_data) t_data
  let t_data := npUnwrap t_data
  if steps = 0 then .error .valueError else
  let rx_data := npStride steps x_data
  let ry_data := npStride steps y_data
  let rt_data := npStride steps t_data
  let stack := fun (a b c : List ℝ) => List.zipWith (fun x yt => (![x, yt.1, yt.2] : Fin 3 → ℝ)) a (List.zip b c)
  return (stack rx_data ry_data rt_data, stack x_data y_data t_data)

/-- The state of the loop of `initialGuess`, `nonlinear_model_np.py:136-139`. -/
structure GuessState where
  curr_x : ℝ
  curr_y : ℝ
  curr_s : ℝ
  count : ℕ
  x_list : List (Fin 4 → ℝ)
  u_list : List (Fin 2 → ℝ)

/-- One iteration of the loop of `initialGuess`, `nonlinear_model_np.py:140-154`, with the target `rk` of the step; the division
raises `ZeroDivisionError` for `dt = 0`. -/
noncomputable def nlGuessStep (dt : ℝ) (st : GuessState) (rk : Fin 3 → ℝ) : Py GuessState := do
  let x0 := rk 0
  let x1 := rk 1
  let x2 := rk 2
  let count := st.count + 1
  if |x0 - st.curr_x| > 0.1 ∧ |x1 - st.curr_y| > 0.1 then
    if (count : ℝ) * dt = 0 then .error .zeroDivisionError else
    let curr_s := Real.sqrt ((x0 - st.curr_x) ^ 2 + (x1 - st.curr_y) ^ 2) / (count * dt)
    return ⟨x0, x1, curr_s, 0, st.x_list ++ [![x0, x1, x2, curr_s]], st.u_list ++ [0]⟩
  else
    return ⟨st.curr_x, st.curr_y, st.curr_s, count, st.x_list ++ [![x0, x1, x2, st.curr_s]], st.u_list ++ [0]⟩

/-- `NonlinearModel.initialGuess(lqt, x0, init_to_zero)`, `nonlinear_model_np.py:114-156`, for an object with `r` the targets
of its steps (state dimension four, control dimension two, three outputs); returns `(u_list, x_list)`. -/
noncomputable def nlInitialGuess (dt : ℝ) (r : List (Fin 3 → ℝ)) (x0 : Fin 4 → ℝ) (init_to_zero : Bool) :
    Py (List (Fin 2 → ℝ) × List (Fin 4 → ℝ)) := do
  if init_to_zero then
    return (r.map fun _ => 0, x0 :: r.map fun _ => 0)
  else do
    let r0 ← pyGet r 0
    let st ← r.foldlM (nlGuessStep dt) ⟨r0 0, r0 1, 0, 0, [x0], []⟩
    return (st.u_list, st.x_list)

end Verif
