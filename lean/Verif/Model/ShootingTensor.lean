import Verif.Model.HJBTensor
import Verif.Model.SQPTensor

/-!
The direct shooting of `/repo/parallel_control/hjb_grid_1d_tf.py:41-220,423-426` on tensors, operation by operation, with `rk4` of
`/repo/parallel_control/diffeq_tf.py:13-33`.

Simplifications: numbers are exact, so that `tf.range(0, T, dt)` has as many entries as there are intervals; without intervals `T / 0`
is infinite and the calls raise, which is modelled by a division error.
-/

namespace Verif

variable {K : Type}

/-- `t[..., start::step]`, `hjb_grid_1d_tf.py:105-106,114-115,171`. -/
def Tens.strideLast (t : Tens K) (start step : ℕ) : Py (Tens K) :=
  if t.shape.length = 0 then .error .valueError
  else .ok ⟨t.shape.dropLast ++ [(t.shape.getLastD 0 - start + step - 1) / step],
    fun i => t.val (i.dropLast ++ [start + step * i.getLastD 0])⟩

/-- `t.shape[-1]`, `hjb_grid_1d_tf.py:57,152`. -/
def Tens.dimLast (t : Tens K) : Py ℕ :=
  match t.shape with
  | [] => .error .indexError
  | _ :: _ => .ok (t.shape.getLastD 0)

section Field
variable [Field K]

/-- `rk4(f, dt, x, t)` on tensors, `diffeq_tf.py:13-33`. -/
def tensRk4 (f : Tens K → K → Py (Tens K)) (dt : K) (x : Tens K) (t : K) : Py (Tens K) := do
  let dx1 := (← f x t).map (· * dt)
  let dx2 := (← f (← x.bin (· + ·) (dx1.map (1 / 2 * ·))) (t + 1 / 2 * dt)).map (· * dt)
  let dx3 := (← f (← x.bin (· + ·) (dx2.map (1 / 2 * ·))) (t + 1 / 2 * dt)).map (· * dt)
  let dx4 := (← f (← x.bin (· + ·) dx3) (t + dt)).map (· * dt)
  let s ← dx1.bin (· + ·) (dx2.map (2 * ·))
  let s ← s.bin (· + ·) (dx3.map (2 * ·))
  let s ← s.bin (· + ·) dx4
  x.bin (· + ·) (s.map (1 / 6 * ·))

/-- `f` of the bodies of `fun_and_con_1` and `fun_and_con_2`, `hjb_grid_1d_tf.py:62-64,158-160`; `a` is `prev_u` in the second. -/
def tensShootF (g L : TensFun K) (a b : Tens K) (ti : K) (xc : Tens K) (t : K) : Py (Tens K) := do
  let u ← a.bin (· + ·) (b.map (· * (t - ti)))
  let dx ← g (← xc.select (-1) 0) u
  let dc ← L (← xc.select (-1) 0) u
  Tens.pack [dx, dc] (-1)

/-- `body` of `fun_and_con_1`, `hjb_grid_1d_tf.py:60-69`. -/
def tensShootBody1 (g L : TensFun K) (dt : K) (carry : Tens K × Tens K) (inp : (Tens K × Tens K) × K) : Py (Tens K × Tens K) := do
  let ((a, b), ti) := inp
  let (x, c) := carry
  let xc ← tensRk4 (tensShootF g L a b ti) dt (← Tens.pack [x, c] (-1)) ti
  return (← xc.select (-1) 0, ← xc.select (-1) 1)

/-- `fun_and_con_1`, `hjb_grid_1d_tf.py:41-79`; returns `(cT, c_vec)`. -/
def tensFunAndCon1 (g L : TensFun K) (T : K) (x0 xf a_vec b_vec : Tens K) : Py (Tens K × Tens K) := do
  let N ← a_vec.dimLast
  if N = 0 then throw .zeroDivisionError
  let dt := T / N
  let t_vec := (List.range N).map fun (i : ℕ) => (i : K) * dt
  let z0 := Tens.const x0.shape (0 : K)
  let as ← (← a_vec.transpose).items
  let bs ← (← b_vec.transpose).items
  if bs.length ≠ as.length then throw .valueError
  let r ← tfScanFwdM (tensShootBody1 g L dt) (x0, z0) ((as.zip bs).zip t_vec)
  let xs ← Tens.stack x0.shape x0.val (r.map Prod.fst)
  let cs ← Tens.stack z0.shape z0.val (r.map Prod.snd)
  let xT ← xs.last
  let cT ← cs.last
  return (cT, ← Tens.pack [← xT.bin (· - ·) xf] (-1))

/-- `body` of `fun_and_con_2`, `hjb_grid_1d_tf.py:155-167`. -/
def tensShootBody2 (g L : TensFun K) (dt : K) (carry : Tens K × Tens K × Tens K) (inp : Tens K × K) : Py (Tens K × Tens K × Tens K) := do
  let (x, c, prev_u) := carry
  let (b, ti) := inp
  let xc ← tensRk4 (tensShootF g L prev_u b ti) dt (← Tens.pack [x, c] (-1)) ti
  let prev_u ← prev_u.bin (· + ·) (b.map (· * dt))
  return (← xc.select (-1) 0, ← xc.select (-1) 1, prev_u)

/-- `fun_and_con_2`, `hjb_grid_1d_tf.py:138-178`; returns `(cT, c_vec)`. -/
def tensFunAndCon2 (g L : TensFun K) (T : K) (x0 xf theta : Tens K) : Py (Tens K × Tens K) := do
  let N := (← theta.dimLast) - 1
  if N = 0 then throw .zeroDivisionError
  let dt := T / N
  let t_vec := (List.range N).map fun (i : ℕ) => (i : K) * dt
  let z0 := Tens.const x0.shape (0 : K)
  let u0 ← theta.select (-1) 0
  let bs ← (← (← theta.strideLast 1 1).transpose).items
  let r ← tfScanFwdM (tensShootBody2 g L dt) (x0, z0, u0) (bs.zip t_vec)
  let xs ← Tens.stack x0.shape x0.val (r.map (·.1))
  let cs ← Tens.stack z0.shape z0.val (r.map (·.2.1))
  let _ ← Tens.stack u0.shape u0.val (r.map (·.2.2))
  let xT ← xs.last
  let cT ← cs.last
  return (cT, ← Tens.pack [← xT.bin (· - ·) xf] (-1))

/-- The common part of `fun` and `con` of `V_eval_1`, `hjb_grid_1d_tf.py:101-117`. -/
def tensFc1 (g L : TensFun K) (T : K) (theta par : Tens K) : Py (Tens K × Tens K) := do
  let x0 ← par.select (-1) 0
  let xf ← par.select (-1) 1
  let a_vec ← theta.strideLast 0 2
  let b_vec ← theta.strideLast 1 2
  tensFunAndCon1 g L T x0 xf a_vec b_vec

/-- The common part of `fun` and `con` of `V_eval_2`, `hjb_grid_1d_tf.py:200-212`. -/
def tensFc2 (g L : TensFun K) (T : K) (theta par : Tens K) : Py (Tens K × Tens K) := do
  let x0 ← par.select (-1) 0
  let xf ← par.select (-1) 1
  tensFunAndCon2 g L T x0 xf theta

/-- `fun(theta, par)` of `V_eval_1` and `V_eval_2`, `hjb_grid_1d_tf.py:101-108,200-205`. -/
def tensFcFun (fc : Tens K → Tens K → Py (Tens K × Tens K)) : TensFun K := fun theta par => do
  let (fun_v, _) ← fc theta par
  return fun_v

/-- `con(theta, par)` of `V_eval_1` and `V_eval_2`, `hjb_grid_1d_tf.py:110-117,207-212`. -/
def tensFcCon (fc : Tens K → Tens K → Py (Tens K × Tens K)) : TensFun K := fun theta par => do
  let (_, con_v) ← fc theta par
  return con_v

end Field

/-- The statements common to `V_eval_1` and `V_eval_2`, `hjb_grid_1d_tf.py:97-99,119-125,196-198,214-220`; `N` is the number of
parameters of an item. -/
noncomputable def tensVEval (fc : Tens ℝ → Tens ℝ → Py (Tens ℝ × Tens ℝ)) (N : ℕ) (x0_grid xf_grid : Tens ℝ) (max_iter : ℕ) : Py (Tens ℝ) := do
  let (xf_mesh, x0_mesh) ← Tens.meshgrid xf_grid x0_grid
  let x0_vec ← x0_mesh.reshape [x0_mesh.shape.getD 0 0 * x0_mesh.shape.getD 1 0]
  let xf_vec ← xf_mesh.reshape [xf_mesh.shape.getD 0 0 * xf_mesh.shape.getD 1 0]
  let theta0 := Tens.const [x0_vec.shape.getD 0 0, N] (0 : ℝ)
  let par ← Tens.pack [x0_vec, xf_vec] (-1)
  let (thetas, _, _) ← tensLocalEqFast (tensFcFun fc) (tensFcCon fc) theta0 par max_iter
  let theta ← thetas.last
  let V ← tensFcFun fc theta par
  V.reshape x0_mesh.shape

/-- `V_eval_1`, `hjb_grid_1d_tf.py:82-125`. -/
noncomputable def tensVEval1 (g L : TensFun ℝ) (T : ℝ) (steps : ℕ) (x0_grid xf_grid : Tens ℝ) (max_iter : ℕ) : Py (Tens ℝ) :=
  tensVEval (tensFc1 g L T) (2 * steps) x0_grid xf_grid max_iter

/-- `V_eval_2`, `hjb_grid_1d_tf.py:181-220`. -/
noncomputable def tensVEval2 (g L : TensFun ℝ) (T : ℝ) (steps : ℕ) (x0_grid xf_grid : Tens ℝ) (max_iter : ℕ) : Py (Tens ℝ) :=
  tensVEval (tensFc2 g L T) (1 + steps) x0_grid xf_grid max_iter

/-- `direct_shooting_block_V`, `hjb_grid_1d_tf.py:423-426`. -/
noncomputable def tensDirectShootingBlockV (g L : TensFun ℝ) (block_T : ℝ) (steps : ℕ) (fd_x_grid : Tens ℝ) (max_iter : ℕ) : Py (Tens ℝ) :=
  tensVEval2 g L block_T steps fd_x_grid fd_x_grid max_iter

end Verif
