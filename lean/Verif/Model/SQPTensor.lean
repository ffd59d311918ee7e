import Verif.Model.NLQTTensor
import Verif.Model.ShootingSQP

/-!
Model of `/repo/parallel_control/sqp_tf.py` operation by operation on tensors with one batch axis (`batch=True`, the only way in which
`hjb_grid_1d_tf.py` calls it).  The functional model of the same file is in `Verif.Model.ShootingSQP`.

Simplifications: those of `Verif.Model.LQTTensor`; real numbers; `fun` and `con` are parameters that may raise; `batch_jacobian` is the
derivative of the sums over the batch, which is what the tape computes for each column of the target, and the derivative is zero where
there is none.
-/

namespace Verif

section Field
variable {K : Type} [Field K]

/-- `tf.reduce_sum(t, axis=-1)`, `sqp_tf.py:128`. -/
def Tens.sumLast (t : Tens K) : Py (Tens K) := do
  let a ← tfAxis t.shape.length (-1)
  return ⟨t.shape.eraseIdx a, fun i => ∑ k ∈ Finset.range (t.shape.getD a 0), t.val (i.insertIdx a k)⟩

/-- `lqe_solve(G, c, A, b)`, `sqp_tf.py:15-40`. -/
def tensLqeSolve [DecidableEq K] (G c A b : Tens K) : Py (Tens K × Tens K) := do
  let Z := Tens.const ((← b.select (-1) 0).shape ++ [← b.size (-1), ← b.size (-1)]) 0
  let Psi ← (← G.concat ((← A.mT).map (- ·)) (-1)).concat (← A.concat Z (-1)) (-2)
  let rhs ← (← (c.map (- ·)).concat b (-1)).expandDims (-1)
  let xlam ← (← Psi.solve rhs).select (-1) 0
  let x ← xlam.slice (-1) 0 (← c.size (-1))
  let lam ← xlam.slice (-1) (← c.size (-1)) (← xlam.size (-1))
  return (x, lam)

end Field

/-- The tensor `x` with item `b` replaced, on which the tape evaluates the function, `sqp_tf.py:65,93`. -/
def Tens.setItem (x : Tens ℝ) (b : ℕ) {n : ℕ} (v : Fin n → ℝ) : Tens ℝ :=
  ⟨x.shape, fun i => if i.getD 0 0 = b then (if h : i.getD 1 0 < n then v ⟨_, h⟩ else 0) else x.val i⟩

/-- The entries of a tensor computed by a function that does not raise, used under the derivatives, `sqp_tf.py:65,93`. -/
def tensVal (r : Py (Tens ℝ)) : List ℕ → ℝ :=
  match r with
  | .ok t => t.val
  | .error _ => fun _ => 0

/-- `t.batch_jacobian(F(x), x)` for a target with one batch axis, `sqp_tf.py:65,93,129,130`: for each column of the target the gradient
of its sum over the batch. -/
noncomputable def tensBatchJac (F : Tens ℝ → Py (Tens ℝ)) (x : Tens ℝ) : Py (Tens ℝ) := do
  let r ← F x
  match x.shape, r.shape with
  | [B, n], [B', k] =>
    if B = B' then
      return ⟨[B, k, n], fun i =>
        if h : i.getD 2 0 < n then
          fderiv ℝ (fun v : Fin n → ℝ => ∑ b ∈ Finset.range B, tensVal (F (x.setItem (i.getD 0 0) v)) [b, i.getD 1 0])
            (fun j : Fin n => x.val [i.getD 0 0, j.val]) (Pi.single ⟨_, h⟩ 1)
        else 0⟩
    else throw .valueError
  | _, _ => throw .valueError

/-- The target of `fun_value_grad`, `sqp_tf.py:64`. -/
def tensFunTarget (fn : TensFun ℝ) (par x : Tens ℝ) : Py (Tens ℝ) := do
  (← fn x par).expandDims (-1)

/-- `fun_value_grad(fun, x, par, batch=True)`, `sqp_tf.py:43-68`. -/
noncomputable def tensFunValueGrad (fn : TensFun ℝ) (x par : Tens ℝ) : Py (Tens ℝ × Tens ℝ) := do
  let value ← tensFunTarget fn par x
  let grad ← (← tensBatchJac (tensFunTarget fn par) x).select (-2) 0
  let value ← value.select (-1) 0
  return (value, grad)

/-- `con_value_jac(con, x, par, batch=True)`, `sqp_tf.py:71-95`. -/
noncomputable def tensConValueJac (con : TensFun ℝ) (x par : Tens ℝ) : Py (Tens ℝ × Tens ℝ) := do
  let value ← con x par
  let jac ← tensBatchJac (fun x => con x par) x
  return (value, jac)

/-- The target of `lag_value_grad_hess`, `sqp_tf.py:128`. -/
noncomputable def tensLagTarget (fn con : TensFun ℝ) (lam par x : Tens ℝ) : Py (Tens ℝ) := do
  (← (← fn x par).bin (· - ·) (← (← lam.bin (· * ·) (← con x par)).sumLast)).expandDims (-1)

/-- The gradient in `lag_value_grad_hess`, `sqp_tf.py:129`. -/
noncomputable def tensLagGrad (fn con : TensFun ℝ) (lam par x : Tens ℝ) : Py (Tens ℝ) := do
  (← tensBatchJac (tensLagTarget fn con lam par) x).select (-2) 0

/-- `lag_value_grad_hess(fun, con, x, lam, par, batch=True)`, `sqp_tf.py:98-133`. -/
noncomputable def tensLagValueGradHess (fn con : TensFun ℝ) (x lam par : Tens ℝ) : Py (Tens ℝ × Tens ℝ × Tens ℝ) := do
  let value ← tensLagTarget fn con lam par x
  let grad ← tensLagGrad fn con lam par x
  let hess ← tensBatchJac (tensLagGrad fn con lam par) x
  let value ← value.select (-1) 0
  return (value, grad, hess)

/-- `tf.linalg.norm(t)` of all entries, `sqp_tf.py:165`. -/
noncomputable def Tens.norm (t : Tens ℝ) : ℝ := Real.sqrt (t.map (· ^ 2)).reduceSum

/-- `body` of `local_eq_fast`, `sqp_tf.py:152-169`; the carry is `(x, lam, crit)`. -/
noncomputable def tensSqpBody (fn con : TensFun ℝ) (par : Tens ℝ) (carry : Tens ℝ × Tens ℝ × ℝ) : Py (Tens ℝ × Tens ℝ × ℝ) := do
  let (x, lam, _) := carry
  let (_, Jf) ← tensFunValueGrad fn x par
  let (c, Jc) ← tensConValueJac con x par
  let (_, Jl, HL) ← tensLagValueGradHess fn con x lam par
  let (p, hlam) ← tensLqeSolve HL Jf Jc (c.map (- ·))
  let x ← x.bin (· + ·) p
  let lam := hlam
  let crit := Jl.norm
  return (x, lam, crit)

/-- `local_eq_fast(fun, con, x0, par, num_iter, batch=True)`, `sqp_tf.py:136-177`; returns `(xs, lams, crits)`. -/
noncomputable def tensLocalEqFast (fn con : TensFun ℝ) (x0 par : Tens ℝ) (num_iter : ℕ) : Py (Tens ℝ × Tens ℝ × List ℝ) := do
  let c ← con x0 par
  let lam0 := Tens.const c.shape (0 : ℝ)
  let r ← tfScanFwdM (fun carry (_ : ℕ) => tensSqpBody fn con par carry) (x0, lam0, 1) (List.range num_iter)
  let xs ← Tens.stack x0.shape x0.val (r.map (·.1))
  let lams ← Tens.stack c.shape lam0.val (r.map (·.2.1))
  return (xs, lams, r.map (·.2.2))

end Verif
