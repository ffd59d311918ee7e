import Verif.Model.Linalg
import Mathlib.Data.Matrix.Block

/-!
Model of `/repo/parallel_control/sqp_np.py` (and of `lqe_solve`, `local_eq_fast` of `sqp_tf.py`).

Simplifications: exact arithmetic over an ordered field.  jax and TensorFlow do not raise on a division by zero or a singular
system but return numbers that are not finite; this is the value `.error .notFinite`.  `jnp.linalg.norm` is a parameter
`norm`.  Automatic differentiation is a parameter: a problem comes with its derivatives.  Printing is left out.
-/

namespace Verif

open Matrix

variable {n m : ℕ} {K : Type} [Field K]

/-- `jnp.linalg.solve(Psi, b)`, `sqp_np.py:32` (and `tf.linalg.solve`, `sqp_tf.py:35`, which raises). -/
def jnpSolveV {ι : Type} [Fintype ι] [DecidableEq ι] [DecidableEq K] (A : Matrix ι ι K) (b : ι → K) : Py (ι → K) :=
  if A.det = 0 then .error .notFinite else .ok (minv A *ᵥ b)

/-- `a / b` for an array `a` and a number `b`, `sqp_np.py:188` (also 211, 215). -/
def jnpDiv {X : Type} [SMul K X] [DecidableEq K] (a : X) (b : K) : Py X :=
  if b = 0 then .error .notFinite else .ok (b⁻¹ • a)

/-- `lqe_solve`, `sqp_np.py:12-37` (and `sqp_tf.py:15-40`). -/
def lqeSolve [DecidableEq K] (G : Matrix (Fin n) (Fin n) K) (c : Fin n → K) (A : Matrix (Fin m) (Fin n) K) (b : Fin m → K) :
    Py ((Fin n → K) × (Fin m → K)) := do
  let Psi := fromBlocks G (-Aᵀ) A 0
  let xlam ← jnpSolveV Psi (Sum.elim (-c) b)
  return (fun i => xlam (Sum.inl i), fun i => xlam (Sum.inr i))

/-- The functions given to the solvers with the derivatives that jax computes (`fun`, `con`, `jax.jacfwd`, `jax.grad`,
`sqp_np.py:59-64`): `hfun` and `hcon x i` are the second derivatives of `fun` and of component `i` of `con`. -/
structure NLP (n m : ℕ) (K : Type) where
  obj : (Fin n → K) → K
  con : (Fin n → K) → Fin m → K
  dfun : (Fin n → K) → Fin n → K
  dcon : (Fin n → K) → Matrix (Fin m) (Fin n) K
  hfun : (Fin n → K) → Matrix (Fin n) (Fin n) K
  hcon : (Fin n → K) → Fin m → Matrix (Fin n) (Fin n) K

/-- `dlag`, derivative of `fun(x) - jnp.dot(lam, con(x))`, `sqp_np.py:59-61`. -/
def NLP.dlag (P : NLP n m K) (x : Fin n → K) (lam : Fin m → K) : Fin n → K := P.dfun x - (P.dcon x)ᵀ *ᵥ lam

/-- `hlag`, `sqp_np.py:64`. -/
def NLP.hlag (P : NLP n m K) (x : Fin n → K) (lam : Fin m → K) : Matrix (Fin n) (Fin n) K :=
  P.hfun x - ∑ i, lam i • P.hcon x i

/-- Loop body of `local_eq`, `sqp_np.py:75-89` (copy in `local_eq_fast`, 132-146); from `x`, `lam` it gives the new `x`,
`lam`, `crit`. -/
def NLP.localStep [DecidableEq K] (P : NLP n m K) (norm : (Fin n → K) → K) (x : Fin n → K) (lam : Fin m → K) :
    Py ((Fin n → K) × (Fin m → K) × K) := do
  let Jf := P.dfun x
  let c := P.con x
  let Jc := P.dcon x
  let Jl := P.dlag x lam
  let HL := P.hlag x lam
  let (p, hlam) ← lqeSolve HL Jf Jc (-c)
  return (x + p, hlam, norm Jl)

/-- The `while` loop of `local_eq`, `sqp_np.py:73-89`, with `fuel = max_iter - iter`; returns `x`, `lam`, `iter`, `crit`. -/
def NLP.localLoop [LinearOrder K] (P : NLP n m K) (norm : (Fin n → K) → K) (tol : K) :
    ℕ → (Fin n → K) → (Fin m → K) → ℕ → K → Py ((Fin n → K) × (Fin m → K) × ℕ × K)
  | 0, x, lam, iter, crit => .ok (x, lam, iter, crit)
  | fuel + 1, x, lam, iter, crit =>
    if crit > tol then do
      let (x', lam', crit') ← P.localStep norm x lam
      P.localLoop norm tol fuel x' lam' (iter + 1) crit'
    else .ok (x, lam, iter, crit)

/-- `local_eq`, `sqp_np.py:39-98`; returns `x`, `iter`, `crit`. -/
def NLP.localEq [LinearOrder K] (P : NLP n m K) (norm : (Fin n → K) → K) (x0 : Fin n → K) (max_iter : ℕ) (tol : K) :
    Py ((Fin n → K) × ℕ × K) := do
  let r ← P.localLoop norm tol max_iter x0 0 0 1
  return (r.1, r.2.2.1, r.2.2.2)

/-- The scan of `local_eq_fast`, `sqp_np.py:127-157`; the state is `x`, `lam`, `crit`. -/
def NLP.localFastLoop [DecidableEq K] (P : NLP n m K) (norm : (Fin n → K) → K) (num_iter : ℕ)
    (st : (Fin n → K) × (Fin m → K) × K) : Py ((Fin n → K) × (Fin m → K) × K) :=
  (List.range num_iter).foldlM (fun st _ => P.localStep norm st.1 st.2.1) st

/-- `local_eq_fast`, `sqp_np.py:101-164`; returns `x`, `num_iter`, `crit`. -/
def NLP.localEqFast [DecidableEq K] (P : NLP n m K) (norm : (Fin n → K) → K) (x0 : Fin n → K) (num_iter : ℕ) :
    Py ((Fin n → K) × ℕ × K) := do
  let r ← P.localFastLoop norm num_iter (x0, 0, 1)
  return (r.1, num_iter, r.2.2)

/-- `tf.scan(body, range(num_iter))` of `local_eq_fast`, `sqp_tf.py:152-175`: the list of all new states. -/
def NLP.localFastScanTF [DecidableEq K] (P : NLP n m K) (norm : (Fin n → K) → K) :
    ℕ → (Fin n → K) × (Fin m → K) × K → Py (List ((Fin n → K) × (Fin m → K) × K))
  | 0, _ => .ok []
  | k + 1, st => do
    let st' ← P.localStep norm st.1 st.2.1
    let l ← P.localFastScanTF norm k st'
    return st' :: l

/-- `local_eq_fast`, `sqp_tf.py:136-177` (without batch dimension); returns `xs`, `lams`, `crits`. -/
def NLP.localEqFastTF [DecidableEq K] (P : NLP n m K) (norm : (Fin n → K) → K) (x0 : Fin n → K) (num_iter : ℕ) :
    Py (List (Fin n → K) × List (Fin m → K) × List K) := do
  let l ← P.localFastScanTF norm num_iter (x0, 0, 1)
  return (l.map fun q => q.1, l.map fun q => q.2.1, l.map fun q => q.2.2)

/-! ### BFGS -/

section BFGS
variable [LinearOrder K]

/-- `bfgs_basic_update`, `sqp_np.py:172-192`. -/
def bfgsBasicUpdate (B : Matrix (Fin n) (Fin n) K) (s y : Fin n → K) : Py (Matrix (Fin n) (Fin n) K) :=
  let den := s ⬝ᵥ y
  if den > 0 then do
    let Bs := B *ᵥ s
    let a ← jnpDiv (vecMulVec y y) den
    let b ← jnpDiv (vecMulVec Bs Bs) (s ⬝ᵥ Bs)
    return B + a - b
  else .ok B

/-- `theta`, `sqp_np.py:208-211`. -/
def bfgsTheta (Bs s y : Fin n → K) : Py K :=
  if s ⬝ᵥ y ≥ (2 / 10 : K) * (Bs ⬝ᵥ s) then .ok 1
  else jnpDiv ((8 / 10 : K) * (Bs ⬝ᵥ s)) (Bs ⬝ᵥ s - s ⬝ᵥ y)

/-- `bfgs_damped_update`, `sqp_np.py:195-216`. -/
def bfgsDampedUpdate (B : Matrix (Fin n) (Fin n) K) (s y : Fin n → K) : Py (Matrix (Fin n) (Fin n) K) := do
  let Bs := B *ᵥ s
  let theta ← bfgsTheta Bs s y
  let y := theta • y + (1 - theta) • Bs
  let den := s ⬝ᵥ y
  let a ← jnpDiv (vecMulVec y y) den
  let b ← jnpDiv (vecMulVec Bs Bs) (s ⬝ᵥ Bs)
  return B + a - b

/-- `merit`, `sqp_np.py:248-249`. -/
def NLP.merit (P : NLP n m K) (x : Fin n → K) (mu : K) : K := P.obj x + (∑ i, |P.con x i|) / mu

/-- The backtracking loop, `sqp_np.py:272-274`, with `fuel = max_backtrack - backtrack`; returns `alf`, `backtrack`. -/
def NLP.backtrack (P : NLP n m K) (mu : K) (x p : Fin n → K) (m0 : K) : ℕ → K → ℕ → K × ℕ
  | 0, alf, bt => (alf, bt)
  | fuel + 1, alf, bt =>
    if P.merit (x + alf • p) mu > m0 then P.backtrack mu x p m0 fuel ((1 / 2 : K) * alf) (bt + 1) else (alf, bt)

/-- Step length, `sqp_np.py:269-279`. -/
def NLP.lineSearch (P : NLP n m K) (mu : K) (x p : Fin n → K) (max_backtrack : ℕ) : K :=
  let m0 := P.merit x mu
  let r := P.backtrack mu x p m0 max_backtrack 1 0
  if r.2 = max_backtrack then 1 else r.1

/-- Variables of the main loop of `bfgs_eq_bt`, `sqp_np.py:251-257`; `B` may be not finite without any effect on `x` before
the next iteration. -/
structure BfgsState (n m : ℕ) (K : Type) where
  x : Fin n → K
  B : Py (Matrix (Fin n) (Fin n) K)
  lam : Fin m → K
  crit : K

/-- Body of the main loop of `bfgs_eq_bt`, `sqp_np.py:261-296`. -/
def NLP.bfgsStep (P : NLP n m K) (norm : (Fin n → K) → K) (max_backtrack : ℕ) (damped : Bool) (st : BfgsState n m K) :
    Py (BfgsState n m K) := do
  let Jf := P.dfun st.x
  let c := P.con st.x
  let Jc := P.dcon st.x
  let B ← st.B
  let (p, hlam) ← lqeSolve B Jf Jc (-c)
  let plam := hlam - st.lam
  let alf := P.lineSearch 1 st.x p max_backtrack
  let s := alf • p
  let x := st.x + s
  let lam := st.lam + alf • plam
  let Jl_old := P.dlag st.x lam
  let Jl_new := P.dlag x lam
  let y := Jl_new - Jl_old
  let B' := if damped then bfgsDampedUpdate B s y else bfgsBasicUpdate B s y
  return ⟨x, B', lam, norm Jl_new⟩

/-- The main loop of `bfgs_eq_bt`, `sqp_np.py:259-299`, with `fuel = max_iter - iter`. -/
def NLP.bfgsLoop (P : NLP n m K) (norm : (Fin n → K) → K) (tol : K) (max_backtrack : ℕ) (damped : Bool) :
    ℕ → BfgsState n m K → ℕ → Py (BfgsState n m K × ℕ)
  | 0, st, iter => .ok (st, iter)
  | fuel + 1, st, iter =>
    if st.crit > tol then do
      let st' ← P.bfgsStep norm max_backtrack damped st
      P.bfgsLoop norm tol max_backtrack damped fuel st' (iter + 1)
    else .ok (st, iter)

/-- `bfgs_eq_bt`, `sqp_np.py:219-304`; returns `x`, `iter`, `crit`. -/
def NLP.bfgsEqBt (P : NLP n m K) (norm : (Fin n → K) → K) (x0 : Fin n → K) (max_iter : ℕ) (tol : K) (max_backtrack : ℕ)
    (damped : Bool) : Py ((Fin n → K) × ℕ × K) := do
  let r ← P.bfgsLoop norm tol max_backtrack damped max_iter ⟨x0, .ok 1, 0, 1⟩ 0
  return (r.1.x, r.2, r.1.crit)

end BFGS

end Verif
