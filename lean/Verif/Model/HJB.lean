import Verif.Model.FSC
import Verif.Model.TFScan
import Verif.Model.Diffeq
import Mathlib.Algebra.Module.Prod
import Mathlib.Algebra.Order.Monoid.Unbundled.WithTop
import Mathlib.Algebra.Order.Field.Basic
import Mathlib.Data.Int.Order.Basic

/-!
Model of `/repo/parallel_control/hjb_grid_1d_np.py` and `/repo/parallel_control/hjb_grid_1d_tf.py`: grid solvers for
one-dimensional continuous-time control.

Simplifications: exact arithmetic.  In the combination functions a matrix entry is an element of `WithBot K`, where `⊥`
stands for `nan`: sums with `nan` are `nan`, and `jnp.min` and `jnp.argmin` treat `nan` as the smallest value, which is
the order of `WithBot K`.  All matrices are square, with as many rows as the grid has points.  The grid has at least one
point, and at least two in the finite difference passes.  A zero grid spacing gives `nan` or `inf` in every entry and is
the error `notFinite`.  `V_eval_1`, `V_eval_2` are modelled up to the SQP call, see `gridEval`, `funAndCon1`,
`funAndCon2`.
-/

namespace Verif

variable {n m : ℕ} {K : Type}

/-! ### Combination functions -/

section Combine
variable [Field K] [LinearOrder K]

/-- `jnp.take_along_axis(Vsum, j, axis=1)`, `hjb_grid_1d_np.py:218,241-243`: negative indices count from the end, indices out
of range give `nan`. -/
def takeAlong (v : Fin n → WithBot K) (j : ℤ) : WithBot K :=
  let j := if j < 0 then j + n else j
  if h : 0 ≤ j ∧ j < n then v ⟨j.toNat, (Int.toNat_lt h.1).2 h.2⟩ else ⊥

/-- `f[j]` with a jax array as index, `hjb_grid_1d_np.py:270`: negative indices count from the end, indices out of range are
clamped. -/
def getClamped [NeZero n] (v : Fin n → WithBot K) (j : ℤ) : WithBot K :=
  let j := if j < 0 then j + n else j
  v ⟨min j.toNat (n - 1), lt_of_le_of_lt (min_le_right _ _) (Nat.sub_lt (NeZero.pos n) one_pos)⟩

/-- `fi - (fp1 - fm1)**2 / (fp1 + fm1 - 2.0 * fi + lam) / 8.0` with `lam = 0.0`, `hjb_grid_1d_np.py:234,245,261,270` and
`hjb_grid_1d_tf.py:279,295`.  If `fi` is the smallest of the three and the denominator is zero then so is the numerator:
`0/0` is `nan`. -/
def interpVertex : WithBot K → WithBot K → WithBot K → WithBot K
  | some fm1, some fi, some fp1 =>
    let d := fp1 + fm1 - 2 * fi + 0
    if d = 0 then ⊥ else ((fi - (fp1 - fm1) ^ 2 / d / 8 : K) : WithBot K)
  | _, _, _ => ⊥

/-- `jm1 = |j - 1|`, `hjb_grid_1d_np.py:237,267` and `hjb_grid_1d_tf.py:285`. -/
def idxM1 (j : ℤ) : ℤ := |j - 1|

/-- `jp1 = nm1 - |nm1 - j - 1|` with `nm1 = n - 1`, `hjb_grid_1d_np.py:238-239,268-269` and `hjb_grid_1d_tf.py:286-287`. -/
def idxP1 (n : ℕ) (j : ℤ) : ℤ := ((n : ℤ) - 1) - |((n : ℤ) - 1) - j - 1|

/-- `Vsum = expand_dims(Vij,-1) + expand_dims(Vjk,0)` along the summed index, `hjb_grid_1d_np.py:216,235` and
`hjb_grid_1d_tf.py:251,281`. -/
def vsum (Vij Vjk : Fin n → Fin n → WithBot K) (i k : Fin n) : Fin n → WithBot K := fun j => Vij i j + Vjk j k

/-- `combine_V(Vij, Vjk)`, `hjb_grid_1d_np.py:187-204` and `hjb_grid_1d_tf.py:228-239`. -/
def hjbCombineV [NeZero n] (Vij Vjk : Fin n → Fin n → WithBot K) : Fin n → Fin n → WithBot K :=
  fun i k => min1 (vsum Vij Vjk i k)

/-- `combine_V2(Vij, Vjk)`, `hjb_grid_1d_np.py:206-219`. -/
def hjbCombineV2 [NeZero n] (Vij Vjk : Fin n → Fin n → WithBot K) : Fin n → Fin n → WithBot K :=
  fun i k =>
    let v := vsum Vij Vjk i k
    let j := argmin1 v
    takeAlong v (j : ℕ)

/-- `combine_V_interp(Vij, Vjk)`, `hjb_grid_1d_np.py:221-248`. -/
def combineVInterp [NeZero n] (Vij Vjk : Fin n → Fin n → WithBot K) : Fin n → Fin n → WithBot K :=
  fun i k =>
    let v := vsum Vij Vjk i k
    let j : ℤ := ((argmin1 v : Fin n) : ℕ)
    let fi := takeAlong v j
    let fm1 := takeAlong v (idxM1 j)
    let fp1 := takeAlong v (idxP1 n j)
    interpVertex fm1 fi fp1

/-- `combine_V_interp2(Vij, Vjk)`, `hjb_grid_1d_np.py:250-276`. -/
def combineVInterp2 [NeZero n] (Vij Vjk : Fin n → Fin n → WithBot K) : Fin n → Fin n → WithBot K :=
  fun i k =>
    let f := vsum Vij Vjk i k
    let j : ℤ := ((argmin1 f : Fin n) : ℕ)
    interpVertex (getClamped f (idxM1 j)) (getClamped f j) (getClamped f (idxP1 n j))

/-- `combine_V2` of `hjb_grid_1d_tf.py:241-255`; `am` is the choice of `tf.math.argmin` on ties. -/
def hjbCombineV2TF (am : (Fin n → WithBot K) → Fin n) (Vij Vjk : Fin n → Fin n → WithBot K) :
    Fin n → Fin n → WithBot K :=
  fun i k => vsum Vij Vjk i k (am (vsum Vij Vjk i k))

/-- `combine_V_interp` of `hjb_grid_1d_tf.py:269-295`; `am` is the choice of `tf.math.argmin` on ties.  The reads by
`gather_nd` are out of range only for a grid with a single point. -/
def combineVInterpTF (am : (Fin n → WithBot K) → Fin n) (Vij Vjk : Fin n → Fin n → WithBot K) :
    Fin n → Fin n → WithBot K :=
  fun i k =>
    let v := vsum Vij Vjk i k
    let j : ℤ := ((am v : Fin n) : ℕ)
    interpVertex (takeAlong v (idxM1 j)) (takeAlong v j) (takeAlong v (idxP1 n j))

/-- `combine_V_rev(Vjk, Vij)`, `hjb_grid_1d_tf.py:257-267`. -/
def hjbCombineVRevTF [NeZero n] (Vjk Vij : Fin n → Fin n → WithBot K) : Fin n → Fin n → WithBot K :=
  hjbCombineV Vij Vjk

/-- `combine_V_interp_rev(Vjk, Vij)`, `hjb_grid_1d_tf.py:297-307`. -/
def combineVInterpRevTF (am : (Fin n → WithBot K) → Fin n) (Vjk Vij : Fin n → Fin n → WithBot K) :
    Fin n → Fin n → WithBot K :=
  combineVInterpTF am Vij Vjk

/-- `par_backward_pass_scan(elems)`, `hjb_grid_1d_np.py:278-280`. -/
def hjbScan [NeZero n] (elems : List (Fin n → Fin n → WithBot K)) : Py (List (Fin n → Fin n → WithBot K)) :=
  scanVals (fun x y => .ok (hjbCombineV x y)) elems true

/-- `par_backward_pass_scan_interp(elems)`, `hjb_grid_1d_np.py:282-284`. -/
def hjbScanInterp [NeZero n] (elems : List (Fin n → Fin n → WithBot K)) : Py (List (Fin n → Fin n → WithBot K)) :=
  scanVals (fun x y => .ok (combineVInterp x y)) elems true

end Combine

/-! ### The solver class -/

/-- An `HJB_Grid_1d` object, `hjb_grid_1d_np.py:301-319`. -/
structure HJB (n : ℕ) (K : Type) where
  f : K → K → K
  L : K → K → K
  LT : K → K
  T : K
  blocks : ℕ
  steps : ℕ
  grid : Fin n → K

section Passes
variable [Field K] [LinearOrder K]

/-- `dt = self.T / self.blocks / self.steps`, `hjb_grid_1d_np.py:356,393`. -/
def HJB.dt (M : HJB n K) : Py K :=
  if M.blocks = 0 ∨ M.steps = 0 then .error .zeroDivisionError else .ok (M.T / M.blocks / M.steps)

/-- `V_fd[i+1]` inside the grid, `hjb_grid_1d_np.py:364,401`. -/
def nxt (i : Fin (n + 2)) : Fin (n + 2) := ⟨min (i + 1) (n + 1), by omega⟩

/-- `V_fd[i-1]` inside the grid, `hjb_grid_1d_np.py:364,402`. -/
def prv (i : Fin (n + 2)) : Fin (n + 2) := ⟨i - 1, by omega⟩

/-- `DV_fd` of the symmetric differences, `hjb_grid_1d_np.py:363-366` and `hjb_grid_1d_tf.py:344-348`. -/
def dvSym (dx : K) (V : Fin (n + 2) → K) (i : Fin (n + 2)) : K :=
  if i = 0 then (V 1 - V 0) / dx
  else if i = Fin.last (n + 1) then (V i - V (prv i)) / dx
  else (V (nxt i) - V (prv i)) / (2 * dx)

/-- `DV_fdf`, the forward differences, `hjb_grid_1d_np.py:400-404` and `hjb_grid_1d_tf.py:398-402`. -/
def dvFwd (dx : K) (V : Fin (n + 2) → K) (i : Fin (n + 2)) : K :=
  if i = 0 then (V 1 - V 0) / dx
  else if i = Fin.last (n + 1) then (V i - V (prv i)) / dx
  else (V (nxt i) - V i) / dx

/-- `DV_fdb`, the backward differences, `hjb_grid_1d_np.py:400-405` and `hjb_grid_1d_tf.py:398-403`. -/
def dvBwd (dx : K) (V : Fin (n + 2) → K) (i : Fin (n + 2)) : K :=
  if i = 0 then (V 1 - V 0) / dx
  else if i = Fin.last (n + 1) then (V i - V (prv i)) / dx
  else (V i - V (prv i)) / dx

/-- `jnp.sign`, `hjb_grid_1d_np.py:407` and `hjb_grid_1d_tf.py:393`. -/
def jsign (x : K) : K := if x < 0 then -1 else if 0 < x then 1 else 0

/-- One step of `seqBackwardPass_symfd`, `hjb_grid_1d_np.py:363-372`. -/
def symStep [NeZero m] (f L : K → K → K) (grid : Fin (n + 2) → K) (ug : Fin m → K) (dx dt : K) (V : Fin (n + 2) → K) :
    Fin (n + 2) → K :=
  let DV := dvSym dx V
  let ui := fun i => argmin1 fun u => L (grid i) (ug u) + f (grid i) (ug u) * DV i
  let u := fun i => ug (ui i)
  let Q := fun i => L (grid i) (u i) + f (grid i) (u i) * DV i
  fun i => V i + Q i * dt

/-- The body of `seq_bw_pass_symfd`, `hjb_grid_1d_tf.py:341-357`. -/
def symStepTF [NeZero m] (f L : K → K → K) (grid : Fin (n + 2) → K) (ug : Fin m → K) (dx dt : K)
    (V : Fin (n + 2) → K) : Fin (n + 2) → K :=
  let DV := dvSym dx V
  fun i => V i + min1 (fun u => L (grid i) (ug u) + f (grid i) (ug u) * DV i) * dt

/-- One step of `seqBackwardPass_upwind`, `hjb_grid_1d_np.py:400-411`, and the body of `seq_bw_pass_upwind`,
`hjb_grid_1d_tf.py:395-410`. -/
def upwindStep [NeZero m] (f L : K → K → K) (grid : Fin (n + 2) → K) (ug : Fin m → K) (dx dt : K)
    (V : Fin (n + 2) → K) : Fin (n + 2) → K :=
  let DVf := dvFwd dx V
  let DVb := dvBwd dx V
  fun i => V i + min1 (fun u =>
    let s := jsign (f (grid i) (ug u))
    L (grid i) (ug u) + (1 / 2 + 1 / 2 * s) * f (grid i) (ug u) * DVf i
      + (1 / 2 - 1 / 2 * s) * f (grid i) (ug u) * DVb i) * dt

/-- The loops of `seqBackwardPass_symfd` and `seqBackwardPass_upwind`, `hjb_grid_1d_np.py:358-378,395-417`. -/
def fdLoop (step : (Fin n → K) → (Fin n → K)) (blocks steps : ℕ) (VT : Fin n → K) : List (Fin n → K) :=
  let r := (List.range blocks).foldl (fun st _ =>
    let V := (List.range steps).foldl (fun V _ => step V) st.1
    (V, st.2 ++ [V])) (VT, [VT])
  r.2.reverse

/-- `HJB_Grid_1d.seqBackwardPass_symfd`, `hjb_grid_1d_np.py:343-378`. -/
def HJB.seqBackwardPassSymfd [NeZero m] (M : HJB (n + 2) K) (ug : Fin m → K) : Py (List (Fin (n + 2) → K)) := do
  let dx := M.grid 1 - M.grid 0
  let dt ← M.dt
  if dx = 0 then throw .notFinite
  return fdLoop (symStep M.f M.L M.grid ug dx dt) M.blocks M.steps (fun i => M.LT (M.grid i))

/-- `HJB_Grid_1d.seqBackwardPass_upwind`, `hjb_grid_1d_np.py:380-417`. -/
def HJB.seqBackwardPassUpwind [NeZero m] (M : HJB (n + 2) K) (ug : Fin m → K) : Py (List (Fin (n + 2) → K)) := do
  let dx := M.grid 1 - M.grid 0
  let dt ← M.dt
  if dx = 0 then throw .notFinite
  return fdLoop (upwindStep M.f M.L M.grid ug dx dt) M.blocks M.steps (fun i => M.LT (M.grid i))

/-- `tf.scan(body, tf.range(0, N), initializer=V, reverse=True)`, `hjb_grid_1d_tf.py:361-363,414-416,449-451`: the outputs
in the order of the range, the last one computed first. -/
def tfRangeScanRev {β : Type} (body : β → β) (N : ℕ) (V : β) : List β :=
  ((List.range N).foldl (fun st _ => (body st.1, body st.1 :: st.2)) (V, ([] : List β))).2

/-- `V_fds[0::steps]`, `hjb_grid_1d_tf.py:366,419`; a zero step is an error. -/
def pySliceStep {β : Type} (l : List β) (steps : ℕ) : Py (List β) :=
  if steps = 0 then .error .valueError else (pyRangeStep l.length steps).mapM (pyGet l)

/-- `seq_bw_pass_symfd`, `hjb_grid_1d_tf.py:316-368`. -/
def seqBwPassSymfdTF [NeZero m] (M : HJB (n + 2) K) (ug : Fin m → K) : Py (List (Fin (n + 2) → K)) := do
  let dx := M.grid 1 - M.grid 0
  let dt ← M.dt
  if dx = 0 then throw .notFinite
  let V : Fin (n + 2) → K := fun i => M.LT (M.grid i)
  pySliceStep (tfRangeScanRev (symStepTF M.f M.L M.grid ug dx dt) (M.blocks * M.steps) V ++ [V]) M.steps

/-- `seq_bw_pass_upwind`, `hjb_grid_1d_tf.py:370-421`. -/
def seqBwPassUpwindTF [NeZero m] (M : HJB (n + 2) K) (ug : Fin m → K) : Py (List (Fin (n + 2) → K)) := do
  let dx := M.grid 1 - M.grid 0
  let dt ← M.dt
  if dx = 0 then throw .notFinite
  let V : Fin (n + 2) → K := fun i => M.LT (M.grid i)
  pySliceStep (tfRangeScanRev (upwindStep M.f M.L M.grid ug dx dt) (M.blocks * M.steps) V ++ [V]) M.steps

/-- The matrix `VT`, `hjb_grid_1d_np.py:432-435,466-469` and `hjb_grid_1d_tf.py:447-448,474-475`. -/
def HJB.VT (M : HJB n K) : Fin n → Fin n → WithBot K := fun x _ => ((M.LT (M.grid x) : K) : WithBot K)

/-- `HJB_Grid_1d.seqBackwardPass_assoc`, `hjb_grid_1d_np.py:419-447`. -/
def HJB.seqBackwardPassAssoc [NeZero n] (M : HJB n K) (block_V : Fin n → Fin n → WithBot K) :
    List (Fin n → WithBot K) :=
  let r := (List.range M.blocks).foldl (fun st _ =>
    let V := combineVInterp block_V st.1
    (V, st.2 ++ [fun x => V x 0])) (M.VT, [fun x => M.VT x 0])
  r.2.reverse

/-- `HJB_Grid_1d.parBackwardPass_init`, `hjb_grid_1d_np.py:450-472`. -/
def HJB.parBackwardInit (M : HJB n K) (block_V : Fin n → Fin n → WithBot K) : List (Fin n → Fin n → WithBot K) :=
  List.replicate M.blocks block_V ++ [M.VT]

/-- `HJB_Grid_1d.parBackwardPass_extract`, `hjb_grid_1d_np.py:474-488`. -/
def hjbExtract [NeZero n] (elems : List (Fin n → Fin n → WithBot K)) : Py (List (Fin n → WithBot K)) := do
  let e0 ← pyGet elems 0
  let r ← (List.range (elems.length - 1)).mapM fun k => do
    let e ← pyGet elems (k + 1)
    return fun x => e x 0
  return (fun x => e0 x 0) :: r

/-- `HJB_Grid_1d.parBackwardPass`, `hjb_grid_1d_np.py:490-503`. -/
def HJB.parBackwardPass [NeZero n] (M : HJB n K) (block_V : Fin n → Fin n → WithBot K) :
    Py (List (Fin n → WithBot K)) := do
  let elems := M.parBackwardInit block_V
  let elems ← hjbScanInterp elems
  hjbExtract elems

/-- `HJB_Grid_1d.parBackwardPass` with the alternative of line 500, the scan without interpolation,
`hjb_grid_1d_np.py:499-503`. -/
def HJB.parBackwardPassPlain [NeZero n] (M : HJB n K) (block_V : Fin n → Fin n → WithBot K) :
    Py (List (Fin n → WithBot K)) := do
  let elems := M.parBackwardInit block_V
  let elems ← hjbScan elems
  hjbExtract elems

/-- `HJB_Grid_1d.seqBackwardPass_assoc` with the alternative of line 441, the combination without interpolation,
`hjb_grid_1d_np.py:428-447`. -/
def HJB.seqBackwardPassAssocPlain [NeZero n] (M : HJB n K) (block_V : Fin n → Fin n → WithBot K) :
    List (Fin n → WithBot K) :=
  let r := (List.range M.blocks).foldl (fun st _ =>
    let V := hjbCombineV block_V st.1
    (V, st.2 ++ [fun x => V x 0])) (M.VT, [fun x => M.VT x 0])
  r.2.reverse

/-- `seq_bw_pass_assoc`, `hjb_grid_1d_tf.py:428-456`. -/
def seqBwPassAssocTF [NeZero n] (am : (Fin n → WithBot K) → Fin n) (M : HJB n K)
    (block_V : Fin n → Fin n → WithBot K) : List (Fin n → WithBot K) :=
  let Vs := tfRangeScanRev (combineVInterpTF am block_V) M.blocks M.VT
  Vs.map (fun V x => V x 0) ++ [fun x => M.VT x 0]

/-- `par_bw_pass`, `hjb_grid_1d_tf.py:458-486`; `scan` is `tfp.math.scan_associative`. -/
def parBwPassTF [NeZero n]
    (scan : ((Fin n → Fin n → WithBot K) → (Fin n → Fin n → WithBot K) → Py (Fin n → Fin n → WithBot K)) →
      List (Fin n → Fin n → WithBot K) → Py (List (Fin n → Fin n → WithBot K)))
    (am : (Fin n → WithBot K) → Fin n) (M : HJB n K) (block_V : Fin n → Fin n → WithBot K) :
    Py (List (Fin n → WithBot K)) := do
  let elems := List.replicate M.blocks block_V ++ [M.VT]
  let r ← scan (fun x y => .ok (combineVInterpRevTF am x y)) elems.reverse
  return r.reverse.map fun V x => V x 0

end Passes

/-! ### Direct shooting -/

section Shooting
variable [Field K]

/-- `fun_and_con_1(g, L, T, x0, xf, a_vec, b_vec)`, `hjb_grid_1d_np.py:39-70`; returns the cost and the constraint.
`t_vec = arange(0, T, dt)` is `0, dt, .., (steps-1) dt` in exact arithmetic (in floating point it can have one more
entry, and then `lax.scan` raises). -/
def funAndCon1 (g L : K → K → K) (T x0 xf : K) (a_vec b_vec : List K) : Py (K × K) :=
  if a_vec.length = 0 then .error .zeroDivisionError
  else if b_vec.length ≠ a_vec.length then .error .valueError
  else do
    let dt := T / a_vec.length
    let xc ← ((a_vec.zip b_vec).zipIdx).foldlM (fun (xc : K × K) (inp : (K × K) × ℕ) =>
      let ti := inp.2 * dt
      let f := fun (xc : K × K) (t : K) =>
        let u := inp.1.1 + inp.1.2 * (t - ti)
        (.ok (g xc.1 u, L xc.1 u) : Py (K × K))
      rk4T f dt xc ti) (x0, 0)
    return (xc.2, xc.1 - xf)

/-- `fun_and_con_2(g, L, T, x0, xf, theta)`, `hjb_grid_1d_np.py:113-147`; `t_vec` as in `funAndCon1`. -/
def funAndCon2 (g L : K → K → K) (T x0 xf : K) : List K → Py (K × K)
  | [] => .error .indexError
  | a0 :: bs =>
    if bs.length = 0 then .error .zeroDivisionError
    else do
      let dt := T / bs.length
      let r ← bs.zipIdx.foldlM (fun (c : (K × K) × K) (inp : K × ℕ) => do
        let ti := inp.2 * dt
        let f := fun (xc : K × K) (t : K) =>
          let u := c.2 + inp.1 * (t - ti)
          (.ok (g xc.1 u, L xc.1 u) : Py (K × K))
        let xc ← rk4T f dt c.1 ti
        return (xc, c.2 + inp.1 * dt)) ((x0, 0), a0)
      return (r.1.2, r.1.1 - xf)

/-- `fun_and_con_1` of `hjb_grid_1d_tf.py:41-79`. -/
def funAndCon1TF (g L : K → K → K) (T x0 xf : K) (a_vec b_vec : List K) : Py (K × K) :=
  if a_vec.length = 0 then .error .zeroDivisionError
  else if b_vec.length ≠ a_vec.length then .error .valueError
  else do
    let dt := T / a_vec.length
    let xc ← ((a_vec.zip b_vec).zipIdx).foldlM (fun (xc : K × K) (inp : (K × K) × ℕ) =>
      let ti := inp.2 * dt
      let f := fun (xc : K × K) (t : K) (_ : Unit) =>
        let u := inp.1.1 + inp.1.2 * (t - ti)
        (.ok (g xc.1 u, L xc.1 u) : Py (K × K))
      rk4TF f dt xc ti ()) (x0, 0)
    return (xc.2, xc.1 - xf)

/-- `fun_and_con_2` of `hjb_grid_1d_tf.py:138-178`. -/
def funAndCon2TF (g L : K → K → K) (T x0 xf : K) : List K → Py (K × K)
  | [] => .error .indexError
  | a0 :: bs =>
    if bs.length = 0 then .error .zeroDivisionError
    else do
      let dt := T / bs.length
      let r ← bs.zipIdx.foldlM (fun (c : (K × K) × K) (inp : K × ℕ) => do
        let ti := inp.2 * dt
        let f := fun (xc : K × K) (t : K) (_ : Unit) =>
          let u := c.2 + inp.1 * (t - ti)
          (.ok (g xc.1 u, L xc.1 u) : Py (K × K))
        let xc ← rk4TF f dt c.1 ti ()
        return (xc, c.2 + inp.1 * dt)) ((x0, 0), a0)
      return (r.1.2, r.1.1 - xf)

/-- The grid evaluation of `V_eval_1`, `V_eval_2`, `hjb_grid_1d_np.py:87-89,99-101,164-166,176-178`: `meshgrid`, flattening,
`vmap` of `V_eval_one`, and reshaping to `x0_mesh.shape`. -/
def gridEval {β γ : Type} (one : β → β → γ) (x0_grid xf_grid : List β) : List (List γ) :=
  let x0_mesh := x0_grid.map fun x0 => xf_grid.map fun _ => x0
  let xf_mesh := x0_grid.map fun _ => xf_grid
  let x0_vec := x0_mesh.flatten
  let xf_vec := xf_mesh.flatten
  let V := List.zipWith one x0_vec xf_vec
  (List.range x0_grid.length).map fun i => (V.drop (i * xf_grid.length)).take xf_grid.length

end Shooting

end Verif
