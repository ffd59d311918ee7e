import Verif.Model.Disc
import Verif.Model.LQTCheck

/-!
Model of `/repo/parallel_control/mass_model_np.py`: a chain of masses connected with springs and dampers.

Simplifications: elements of a field `K` (real numbers for `getLQT`) instead of floating point numbers; `N` is a natural
number (numpy raises `ValueError` for the negative size in line 36 otherwise) and the shapes of the arrays are in the
types; the object is not changed between the constructor and `getLQT`.
-/

namespace Verif

open Matrix

variable {K : Type}

/-- The position of an index of an axis of length `n`: a negative index counts from the end, `mass_model_np.py:58`. -/
def npIndex (n : ℕ) (i : ℤ) : Py (Fin n) :=
  let j := if i < 0 then i + n else i
  if h : 0 ≤ j ∧ j < n then .ok ⟨j.toNat, by omega⟩ else .error .indexError

/-- `A[i, j] = v`, e.g. `mass_model_np.py:46`. -/
def npSet2 {p q : ℕ} (A : Matrix (Fin p) (Fin q) K) (i j : ℤ) (v : K) : Py (Matrix (Fin p) (Fin q) K) := do
  let a ← npIndex p i
  let b ← npIndex q j
  return fun i' j' => if i' = a ∧ j' = b then v else A i' j'

/-- `x[i] = v`, e.g. `mass_model_np.py:61`. -/
def npSet1 {p : ℕ} (x : Fin p → K) (i : ℤ) (v : K) : Py (Fin p → K) := do
  let a ← npIndex p i
  return fun i' => if i' = a then v else x i'

/-- The fields of a `MassModel`, `mass_model_np.py:36-65`. -/
structure MassModel (N : ℕ) (K : Type) where
  X : Matrix (Fin (2 * N)) (Fin (2 * N)) K
  U : Matrix (Fin 2) (Fin 2) K
  XT : Matrix (Fin (2 * N)) (Fin (2 * N)) K
  Fc : Matrix (Fin (2 * N)) (Fin (2 * N)) K
  Lc : Matrix (Fin (2 * N)) (Fin 2) K
  x0 : Fin (2 * N) → K

/-- The constant `m`, `mass_model_np.py:40`. -/
def massM [Field K] : K := 1

/-- The constant `c`, `mass_model_np.py:41`. -/
def massC [Field K] : K := 1

/-- The constant `d`, `mass_model_np.py:42`. -/
def massD [Field K] : K := 2 / 10

/-- One iteration of the loop filling `Fc`, `mass_model_np.py:45-54`. -/
def massStep [Field K] (N : ℕ) (A : Matrix (Fin (2 * N)) (Fin (2 * N)) K) (i : ℕ) :
    Py (Matrix (Fin (2 * N)) (Fin (2 * N)) K) := do
  let i : ℤ := i
  let A ← npSet2 A (2 * i) (2 * i + 1) (1 / massM)
  let A ← npSet2 A (2 * i + 1) (2 * i) (-2 * massC / massM)
  let A ← npSet2 A (2 * i + 1) (2 * i + 1) (-2 * massD / massM)
  let A ← if i > 0 then do
      let A ← npSet2 A (2 * i + 1) (2 * (i - 1)) (massC / massM)
      npSet2 A (2 * i + 1) (2 * (i - 1) + 1) (massD / massM)
    else pure A
  if i < N - 1 then do
      let A ← npSet2 A (2 * i + 1) (2 * (i + 1)) (massC / massM)
      npSet2 A (2 * i + 1) (2 * (i + 1) + 1) (massD / massM)
    else pure A

/-- The constructor of `MassModel`, `mass_model_np.py:30-65`. -/
def MassModel.init [Field K] (N : ℕ) : Py (MassModel N K) := do
  let X := 1
  let U := (1 / 10 : K) • 1
  let XT := 1
  let Fc ← (List.range N).foldlM (massStep N) 0
  let Lc : Matrix (Fin (2 * N)) (Fin 2) K := 0
  let Lc ← npSet2 Lc 1 0 (1 / massM)
  let Lc ← npSet2 Lc (-1) 1 (-1 / massM)
  let x0 : Fin (2 * N) → K := 0
  let x0 ← npSet1 x0 0 1
  let x0 ← if N % 2 = 0 then npSet1 x0 N 1 else npSet1 x0 (N - 1) 1
  return ⟨X, U, XT, Fc, Lc, x0⟩

/-- `int(x)`: the fractional part is dropped, `mass_model_np.py:81`. -/
noncomputable def pyInt (x : ℝ) : ℤ := if 0 ≤ x then ⌊x⌋ else ⌈x⌉

/-- The arguments of the call of `checkAndExpand`, `mass_model_np.py:83`. -/
def MassModel.lqtArgs {N : ℕ} (mm : MassModel N K) (F : Matrix (Fin (2 * N)) (Fin (2 * N)) K)
    (L : Matrix (Fin (2 * N)) (Fin 2) K) (T : ℤ) : LQTArgs K where
  F := .one ⟨_, _, F⟩
  L := .one ⟨_, _, L⟩
  X := .one ⟨_, _, mm.X⟩
  U := .one ⟨_, _, mm.U⟩
  XT := some ⟨_, _, mm.XT⟩
  T := some T

/-- `MassModel.getLQT(dt, Tf)`, `mass_model_np.py:67-85`. -/
noncomputable def MassModel.getLQT {N : ℕ} (mm : MassModel N ℝ) (dt Tf : ℝ) :
    Py (RawLQT ℝ × (Fin (2 * N) → ℝ)) := do
  let G := mm.Lc
  let Qc : Matrix (Fin 2) (Fin 2) ℝ := 1
  let (F, L, _) ← ltiDiscU mm.Fc mm.Lc G (.mat Qc) dt
  if dt = 0 then .error .zeroDivisionError else
  let T := pyInt (Tf / dt)
  let lqt ← LQTArgs.checkAndExpand (mm.lqtArgs F L T)
  return (lqt, mm.x0)

end Verif
