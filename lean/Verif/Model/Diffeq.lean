import Verif.Model.Py
import Mathlib.Algebra.Module.Basic
import Mathlib.Algebra.Field.Defs

/-!
Model of `/repo/parallel_control/diffeq_np.py` and `/repo/parallel_control/diffeq_tf.py`: the Runge-Kutta integrator.

Simplifications: exact arithmetic; the state is an element of any vector space (numpy uses arrays of any shape).  The
right hand side may raise.  The choice by `t is None` and `param is None` gives four functions.
-/

namespace Verif

variable {X P : Type} {K : Type} [Field K] [AddCommGroup X] [Module K X]

/-- `rk4(f, dt, x)`, `diffeq_np.py:27-30,48-50`. -/
def rk4 (f : X → Py X) (dt : K) (x : X) : Py X := do
  let dx1 := dt • (← f x)
  let dx2 := dt • (← f (x + (1 / 2 : K) • dx1))
  let dx3 := dt • (← f (x + (1 / 2 : K) • dx2))
  let dx4 := dt • (← f (x + dx3))
  return x + (1 / 6 : K) • (dx1 + (2 : K) • dx2 + (2 : K) • dx3 + dx4)

/-- `rk4(f, dt, x, param=param)`, `diffeq_np.py:32-35,48-50`. -/
def rk4P (f : X → P → Py X) (dt : K) (x : X) (param : P) : Py X := do
  let dx1 := dt • (← f x param)
  let dx2 := dt • (← f (x + (1 / 2 : K) • dx1) param)
  let dx3 := dt • (← f (x + (1 / 2 : K) • dx2) param)
  let dx4 := dt • (← f (x + dx3) param)
  return x + (1 / 6 : K) • (dx1 + (2 : K) • dx2 + (2 : K) • dx3 + dx4)

/-- `rk4(f, dt, x, t)`, `diffeq_np.py:38-41,48-50`. -/
def rk4T (f : X → K → Py X) (dt : K) (x : X) (t : K) : Py X := do
  let dx1 := dt • (← f x t)
  let dx2 := dt • (← f (x + (1 / 2 : K) • dx1) (t + dt / 2))
  let dx3 := dt • (← f (x + (1 / 2 : K) • dx2) (t + dt / 2))
  let dx4 := dt • (← f (x + dx3) (t + dt))
  return x + (1 / 6 : K) • (dx1 + (2 : K) • dx2 + (2 : K) • dx3 + dx4)

/-- `rk4(f, dt, x, t, param)`, `diffeq_np.py:43-50`. -/
def rk4TP (f : X → K → P → Py X) (dt : K) (x : X) (t : K) (param : P) : Py X := do
  let dx1 := dt • (← f x t param)
  let dx2 := dt • (← f (x + (1 / 2 : K) • dx1) (t + dt / 2) param)
  let dx3 := dt • (← f (x + (1 / 2 : K) • dx2) (t + dt / 2) param)
  let dx4 := dt • (← f (x + dx3) (t + dt) param)
  return x + (1 / 6 : K) • (dx1 + (2 : K) • dx2 + (2 : K) • dx3 + dx4)

/-- `rk4(f, dt, x, t, param)` of `diffeq_tf.py:13-33`. -/
def rk4TF (f : X → K → P → Py X) (dt : K) (x : X) (t : K) (param : P) : Py X := do
  let dx1 := dt • (← f x t param)
  let dx2 := dt • (← f (x + (1 / 2 : K) • dx1) (t + (1 / 2) * dt) param)
  let dx3 := dt • (← f (x + (1 / 2 : K) • dx2) (t + (1 / 2) * dt) param)
  let dx4 := dt • (← f (x + dx3) (t + dt) param)
  return x + (1 / 6 : K) • (dx1 + (2 : K) • dx2 + (2 : K) • dx3 + dx4)

end Verif
