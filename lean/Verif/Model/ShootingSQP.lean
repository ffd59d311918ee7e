import Verif.Model.HJB
import Verif.Model.SQP
import Verif.Model.CLQTTF
import Mathlib.Analysis.Calculus.FDeriv.Basic
import Mathlib.Analysis.Calculus.FDeriv.Pi
import Mathlib.Analysis.SpecialFunctions.Pow.Real
import Mathlib.Topology.Algebra.Module.FiniteDimension

/-!
Model of the evaluation of the conditional value function by direct shooting: `V_eval_1`, `V_eval_2` and
`directShootingValueFunction` of `/repo/parallel_control/hjb_grid_1d_np.py`, `V_eval_1`, `V_eval_2` and
`direct_shooting_block_V` of `/repo/parallel_control/hjb_grid_1d_tf.py`, `local_eq_fast` of
`/repo/parallel_control/sqp_np.py` with the derivatives computed by jax, and `fun_value_grad`, `con_value_jac`,
`lag_value_grad_hess`, `local_eq_fast` of `/repo/parallel_control/sqp_tf.py`.

Simplifications: real numbers; automatic differentiation returns the derivative (zero where there is none); a result that is not
finite is the value `.error .notFinite`, which for the numpy functions belongs to the single entry of the matrix; the derivatives
are taken of the value of a function that does not raise.  The model functions `g`, `L` do not raise.
-/

namespace Verif

open Matrix

variable {n m : ℕ}

/-! ### Derivatives -/

/-- `jax.jacfwd(fun)` and `jax.grad(fun)` of a scalar function, `sqp_np.py:122-125`; `t.jacobian`, `sqp_tf.py:60`. -/
noncomputable def adGrad (fn : (Fin n → ℝ) → ℝ) (x : Fin n → ℝ) : Fin n → ℝ := fun j => fderiv ℝ fn x (Pi.single j 1)

/-- `jax.jacfwd(con)`, `sqp_np.py:124`; `t.jacobian`, `sqp_tf.py:88`. -/
noncomputable def adJac (con : (Fin n → ℝ) → Fin m → ℝ) (x : Fin n → ℝ) : Matrix (Fin m) (Fin n) ℝ :=
  fun i j => fderiv ℝ con x (Pi.single j 1) i

/-- `jax.jacfwd(jax.grad(fun))`, `sqp_np.py:125`. -/
noncomputable def adHess (fn : (Fin n → ℝ) → ℝ) (x : Fin n → ℝ) : Matrix (Fin n) (Fin n) ℝ := adJac (adGrad fn) x

/-- `jnp.linalg.norm`, `sqp_np.py:146`. -/
noncomputable def l2norm (v : Fin n → ℝ) : ℝ := Real.sqrt (∑ i, v i ^ 2)

/-- `body` of `local_eq_fast` with the functions of lines 120-125, `sqp_np.py:120-153`. -/
noncomputable def adLocalStep (fn : (Fin n → ℝ) → ℝ) (con : (Fin n → ℝ) → Fin m → ℝ) (x : Fin n → ℝ) (lam : Fin m → ℝ) :
    Py ((Fin n → ℝ) × (Fin m → ℝ) × ℝ) := do
  let lag := fun (x : Fin n → ℝ) (lam : Fin m → ℝ) => fn x - lam ⬝ᵥ con x
  let Jf := adGrad fn x
  let c := con x
  let Jc := adJac con x
  let Jl := adGrad (fun x => lag x lam) x
  let HL := adHess (fun x => lag x lam) x
  let (p, hlam) ← lqeSolve HL Jf Jc (-c)
  return (x + p, hlam, l2norm Jl)

/-- `local_eq_fast`, `sqp_np.py:101-164`; returns `x`, `num_iter`, `crit`. -/
noncomputable def adLocalEqFast (fn : (Fin n → ℝ) → ℝ) (con : (Fin n → ℝ) → Fin m → ℝ) (x0 : Fin n → ℝ) (num_iter : ℕ) :
    Py ((Fin n → ℝ) × ℕ × ℝ) := do
  let res ← (List.range num_iter).foldlM
    (fun (st : (Fin n → ℝ) × (Fin m → ℝ) × ℝ) (_ : ℕ) => adLocalStep fn con st.1 st.2.1) (x0, 0, 1)
  return (res.1, num_iter, res.2.2)

/-- The functions of a problem with the derivatives computed by jax, `sqp_np.py:59-64`. -/
noncomputable def NLP.ofFun (fn : (Fin n → ℝ) → ℝ) (con : (Fin n → ℝ) → Fin m → ℝ) : NLP n m ℝ where
  obj := fn
  con := con
  dfun := adGrad fn
  dcon := adJac con
  hfun := adHess fn
  hcon x i := adHess (fun x => con x i) x

/-! ### TensorFlow -/

/-- `fun_value_grad(fun, x, par)` for one element of the batch, `sqp_tf.py:43-68`. -/
noncomputable def funValueGrad {P : Type} (fn : (Fin n → ℝ) → P → ℝ) (x : Fin n → ℝ) (par : P) : ℝ × (Fin n → ℝ) :=
  (fn x par, adGrad (fun x => fn x par) x)

/-- `con_value_jac(con, x, par)` for one element of the batch, `sqp_tf.py:71-95`. -/
noncomputable def conValueJac {P : Type} (con : (Fin n → ℝ) → P → Fin m → ℝ) (x : Fin n → ℝ) (par : P) :
    (Fin m → ℝ) × Matrix (Fin m) (Fin n) ℝ :=
  (con x par, adJac (fun x => con x par) x)

/-- `lag_value_grad_hess(fun, con, x, lam, par)` for one element of the batch, `sqp_tf.py:98-133`. -/
noncomputable def lagValueGradHess {P : Type} (fn : (Fin n → ℝ) → P → ℝ) (con : (Fin n → ℝ) → P → Fin m → ℝ)
    (x : Fin n → ℝ) (lam : Fin m → ℝ) (par : P) : ℝ × (Fin n → ℝ) × Matrix (Fin n) (Fin n) ℝ :=
  let value := fun x => fn x par - ∑ i, lam i * con x par i
  (value x, adGrad value x, adHess value x)

/-- `body` of `local_eq_fast` on a batch of elements `(x, lam)` with the parameters `pars`, `sqp_tf.py:152-170`; `crit` is the norm
of the gradients of all elements together. -/
noncomputable def tfSqpBody {P : Type} (fn : (Fin n → ℝ) → P → ℝ) (con : (Fin n → ℝ) → P → Fin m → ℝ) (pars : List P)
    (carry : List ((Fin n → ℝ) × (Fin m → ℝ)) × ℝ) : Py (List ((Fin n → ℝ) × (Fin m → ℝ)) × ℝ) := do
  let rows ← (carry.1.zip pars).mapM fun a => do
    let x := a.1.1
    let lam := a.1.2
    let par := a.2
    let (_, Jf) := funValueGrad fn x par
    let (c, Jc) := conValueJac con x par
    let (_, Jl, HL) := lagValueGradHess fn con x lam par
    let (p, hlam) ← lqeSolve HL Jf Jc (-c)
    return ((x + p, hlam), Jl)
  return (rows.map Prod.fst, Real.sqrt ((rows.map fun r => ∑ i, r.2 i ^ 2).sum))

/-- `local_eq_fast(fun, con, x0, par, num_iter, batch=True)`, `sqp_tf.py:136-177`: the states after each iteration. -/
noncomputable def tfLocalEqFast {P : Type} (fn : (Fin n → ℝ) → P → ℝ) (con : (Fin n → ℝ) → P → Fin m → ℝ)
    (x0 : List (Fin n → ℝ)) (pars : List P) (num_iter : ℕ) : Py (List (List ((Fin n → ℝ) × (Fin m → ℝ)) × ℝ)) :=
  tfScanFwdM (fun carry (_ : ℕ) => tfSqpBody fn con pars carry) (x0.map fun x => (x, 0), 1) (List.range num_iter)

/-! ### Evaluation on a grid -/

/-- The value of a call that does not raise, used under the derivatives, `hjb_grid_1d_np.py:93-95`. -/
noncomputable def pyVal (r : Py (ℝ × ℝ)) : ℝ × ℝ :=
  match r with
  | .ok v => v
  | .error _ => 0

/-- `theta[0::2]`, `hjb_grid_1d_np.py:93` and `hjb_grid_1d_tf.py:105`. -/
def thetaEven {steps : ℕ} (theta : Fin (2 * steps) → ℝ) : List ℝ := List.ofFn fun i : Fin steps => theta ⟨2 * i, by omega⟩

/-- `theta[1::2]`, `hjb_grid_1d_np.py:93` and `hjb_grid_1d_tf.py:106`. -/
def thetaOdd {steps : ℕ} (theta : Fin (2 * steps) → ℝ) : List ℝ := List.ofFn fun i : Fin steps => theta ⟨2 * i + 1, by omega⟩

/-- `V_eval_one` of `V_eval_1`, `hjb_grid_1d_np.py:91-97`; the first call of `con` in `local_eq_fast` raises if there are no
steps. -/
noncomputable def vEvalOne1 (g L : ℝ → ℝ → ℝ) (T : ℝ) (steps max_iter : ℕ) (x0 xf : ℝ) : Py ℝ := do
  let fc := fun theta : Fin (2 * steps) → ℝ => funAndCon1 g L T x0 xf (thetaEven theta) (thetaOdd theta)
  let _ ← fc 0
  let r ← adLocalEqFast (fun theta => (pyVal (fc theta)).1) (fun theta (_ : Fin 1) => (pyVal (fc theta)).2) 0 max_iter
  let v ← fc r.1
  return v.1

/-- `V_eval_one` of `V_eval_2`, `hjb_grid_1d_np.py:168-174`. -/
noncomputable def vEvalOne2 (g L : ℝ → ℝ → ℝ) (T : ℝ) (steps max_iter : ℕ) (x0 xf : ℝ) : Py ℝ := do
  let fc := fun theta : Fin (steps + 1) → ℝ => funAndCon2 g L T x0 xf (List.ofFn theta)
  let _ ← fc 0
  let r ← adLocalEqFast (fun theta => (pyVal (fc theta)).1) (fun theta (_ : Fin 1) => (pyVal (fc theta)).2) 0 max_iter
  let v ← fc r.1
  return v.1

/-- `V_eval_1`, `hjb_grid_1d_np.py:72-101`. -/
noncomputable def vEval1 (g L : ℝ → ℝ → ℝ) (T : ℝ) (steps : ℕ) (x0_grid xf_grid : List ℝ) (max_iter : ℕ) : List (List (Py ℝ)) :=
  gridEval (vEvalOne1 g L T steps max_iter) x0_grid xf_grid

/-- `V_eval_2`, `hjb_grid_1d_np.py:149-178`. -/
noncomputable def vEval2 (g L : ℝ → ℝ → ℝ) (T : ℝ) (steps : ℕ) (x0_grid xf_grid : List ℝ) (max_iter : ℕ) : List (List (Py ℝ)) :=
  gridEval (vEvalOne2 g L T steps max_iter) x0_grid xf_grid

/-- `HJB_Grid_1d.directShootingValueFunction(method, max_iter)`, `hjb_grid_1d_np.py:321-341`. -/
noncomputable def HJB.directShootingValueFunction (M : HJB n ℝ) (method : ℤ) (max_iter : ℕ) : Py (List (List (Py ℝ))) :=
  if M.blocks = 0 then .error .zeroDivisionError else
  let grid := List.ofFn M.grid
  if method = 1 then .ok (vEval1 M.f M.L (M.T / M.blocks) M.steps grid grid max_iter)
  else if method = 2 then .ok (vEval2 M.f M.L (M.T / M.blocks) M.steps grid grid max_iter)
  else .ok (vEval1 M.f M.L (M.T / M.blocks) M.steps grid grid max_iter)

/-- `meshgrid` and flattening, the rows of `par`, `hjb_grid_1d_tf.py:97-99,120`. -/
def meshPars (x0_grid xf_grid : List ℝ) : List (ℝ × ℝ) :=
  let x0_mesh := x0_grid.map fun x0 => xf_grid.map fun _ => x0
  let xf_mesh := x0_grid.map fun _ => xf_grid
  x0_mesh.flatten.zip xf_mesh.flatten

/-- `tf.reshape(V, x0_mesh.shape)`, `hjb_grid_1d_tf.py:125`. -/
def meshReshape (x0_grid xf_grid : List ℝ) (V : List ℝ) : List (List ℝ) :=
  (List.range x0_grid.length).map fun i => (V.drop (i * xf_grid.length)).take xf_grid.length

/-- The part of `V_eval_1` and `V_eval_2` after the definition of `fun` and `con` from `fc`, `hjb_grid_1d_tf.py:119-125` and
`214-220`; the first call of `con` in `local_eq_fast` evaluates the whole batch. -/
noncomputable def vEvalTF {N : ℕ} (fc : (Fin N → ℝ) → ℝ × ℝ → Py (ℝ × ℝ)) (x0_grid xf_grid : List ℝ) (max_iter : ℕ) :
    Py (List (List ℝ)) := do
  let par := meshPars x0_grid xf_grid
  let _ ← par.mapM fun p => fc 0 p
  let states ← tfLocalEqFast (fun theta p => (pyVal (fc theta p)).1) (fun theta p (_ : Fin 1) => (pyVal (fc theta p)).2)
    (par.map fun _ => 0) par max_iter
  let st ← pyLast states
  let V ← (st.1.zip par).mapM fun a => do
    let v ← fc a.1.1 a.2
    return v.1
  return meshReshape x0_grid xf_grid V

/-- `V_eval_1`, `hjb_grid_1d_tf.py:82-125`. -/
noncomputable def vEval1TF (g L : ℝ → ℝ → ℝ) (T : ℝ) (steps : ℕ) (x0_grid xf_grid : List ℝ) (max_iter : ℕ) : Py (List (List ℝ)) :=
  vEvalTF (fun (theta : Fin (2 * steps) → ℝ) p => funAndCon1TF g L T p.1 p.2 (thetaEven theta) (thetaOdd theta)) x0_grid xf_grid
    max_iter

/-- `V_eval_2`, `hjb_grid_1d_tf.py:181-220`. -/
noncomputable def vEval2TF (g L : ℝ → ℝ → ℝ) (T : ℝ) (steps : ℕ) (x0_grid xf_grid : List ℝ) (max_iter : ℕ) : Py (List (List ℝ)) :=
  vEvalTF (fun (theta : Fin (steps + 1) → ℝ) p => funAndCon2TF g L T p.1 p.2 (List.ofFn theta)) x0_grid xf_grid max_iter

/-- `direct_shooting_block_V`, `hjb_grid_1d_tf.py:423-426`. -/
noncomputable def directShootingBlockV (g L : ℝ → ℝ → ℝ) (block_T : ℝ) (steps : ℕ) (grid : List ℝ) (max_iter : ℕ) :
    Py (List (List ℝ)) :=
  vEval2TF g L block_T steps grid grid max_iter

end Verif
