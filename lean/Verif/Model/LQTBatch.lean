import Verif.Model.LQT

/-!
Model of `LQT.batchSolution`, `/repo/parallel_control/lqt_np.py:1074-1152`.

The flat index `n * i + a` of a block vector is written as the pair `(i, a)`.  Assigning an array to a block of
another shape follows the broadcasting rule of numpy: a dimension of size one is repeated, any other difference
raises `ValueError`.  Simplification: `linalg.solve` of a system without unknowns is taken to succeed.
-/

namespace Verif

open Matrix

variable {n m q T : ℕ} {K : Type} [Field K]

/-- Broadcasting of a dimension of size `p` to size `q` in an assignment to a slice, e.g. `lqt_np.py:1109`. -/
def bIdx (p q : ℕ) : Py (Fin q → Fin p) :=
  if h : p = q then .ok (fun i => Fin.cast h.symm i)
  else if h : p = 1 then .ok (fun _ => ⟨0, by omega⟩)
  else .error .valueError

/-- Step data with output dimension `q`, as written into the blocks, `lqt_np.py:1104-1129`. -/
structure BStage (q n m : ℕ) (K : Type) where
  F : Matrix (Fin n) (Fin n) K
  L : Matrix (Fin n) (Fin m) K
  X : Matrix (Fin q) (Fin q) K
  U : Matrix (Fin m) (Fin m) K
  c : Fin n → K
  H : Matrix (Fin q) (Fin n) K
  r : Fin q → K
  Z : Matrix (Fin m) (Fin m) K
  s : Fin m → K
  M : Matrix (Fin q) (Fin m) K

/-- The blocks of one step, `lqt_np.py:1104-1125`. -/
def LStage.bStage (q : ℕ) (s : LStage n m K) : Py (BStage q n m K) := do
  let f ← bIdx s.p q
  return ⟨s.F, s.L, s.X.submatrix f f, s.U, s.c, s.H.submatrix f id, s.r ∘ f, s.Z, s.s, s.M.submatrix f id⟩

/-- Output weights `(X, H, r)`. -/
abbrev BOut (q n : ℕ) (K : Type) := Matrix (Fin q) (Fin q) K × Matrix (Fin q) (Fin n) K × (Fin q → K)

/-- The blocks of the final cost, `lqt_np.py:1126-1129`. -/
def LQT.bTerm (P : LQT n m K) (q : ℕ) : Py (BOut q n K) := do
  let f ← bIdx P.pT q
  return (P.XT.submatrix f f, P.HT.submatrix f id, P.rT ∘ f)

/-- The output weights of step `i + 1`, `lqt_np.py:1121-1129`. -/
def nextOut (st : Fin T → BStage q n m K) (t : BOut q n K) (i : Fin T) : BOut q n K :=
  if h : i.1 + 1 < T then ((st ⟨i + 1, h⟩).X, (st ⟨i + 1, h⟩).H, (st ⟨i + 1, h⟩).r) else t

/-- Block diagonal matrix, e.g. `lqt_np.py:1113`. -/
def blkDiag {α β : Type} (D : Fin T → Matrix α β K) : Matrix (Fin T × α) (Fin T × β) K :=
  of fun ia jb => if ia.1 = jb.1 then D ia.1 ia.2 jb.2 else 0

/-- Blocks below the diagonal, `lqt_np.py:1107-1108`. -/
def blkSub {α β : Type} (D : Fin T → Matrix α β K) : Matrix (Fin T × α) (Fin T × β) K :=
  of fun ia jb => if jb.1.1 + 1 = ia.1.1 then D ia.1 ia.2 jb.2 else 0

/-- `A`, `lqt_np.py:1105-1107`. -/
def batchA (st : Fin T → BStage q n m K) : Matrix (Fin T × Fin n) (Fin T × Fin n) K :=
  of fun ia jb => if ia.1 = jb.1 then (1 : Matrix (Fin n) (Fin n) K) ia.2 jb.2
    else if jb.1.1 + 1 = ia.1.1 then -(st ia.1).F ia.2 jb.2 else 0

/-- `d`, `lqt_np.py:1114,1131`. -/
def batchd (st : Fin T → BStage q n m K) (x0 : Fin n → K) : Fin T × Fin n → K :=
  fun ia => if ia.1.1 = 0 then (st ia.1).c ia.2 + ((st ia.1).F *ᵥ x0) ia.2 else (st ia.1).c ia.2

/-- `tr0`, `lqt_np.py:1109,1111`. -/
def batchr0 (st : Fin T → BStage q n m K) (x0 : Fin n → K) : Fin T × Fin q → K :=
  fun ia => if 0 < ia.1.1 then (st ia.1).r ia.2 else (st ia.1).r ia.2 - ((st ia.1).H *ᵥ x0) ia.2

/-- The linear systems and the extraction, `lqt_np.py:1091-1152`, after the blocks are filled in. -/
def batchSolve [DecidableEq K] (st : Fin T → BStage q n m K) (t : BOut q n K) (x0 : Fin n → K) :
    Py (List (Fin m → K) × List (Fin n → K)) := do
  let A := batchA st
  let B := blkDiag (fun i => (st i).L)
  let d := batchd st x0
  let tH1 := blkDiag (fun i => (nextOut st t i).2.1)
  let tr1 : Fin T × Fin q → K := fun ia => (nextOut st t ia.1).2.2 ia.2
  let tX := blkDiag (fun i => (nextOut st t i).1)
  let tH0 := blkSub (fun i => (st i).H)
  let tr0 := batchr0 st x0
  let tZ := blkDiag (fun i => (st i).Z)
  let ts : Fin T × Fin m → K := fun ia => (st ia.1).s ia.2
  let tU := blkDiag (fun i => (st i).U)
  let tM := blkDiag (fun i => (st i).M)
  let AB ← solve A B
  let Ad ← solveV A d
  let tA1 := tH1 * AB
  let tb1 := tr1 - tH1 *ᵥ Ad
  let tA0 := tH0 * AB
  let tb0 := tr0 - tH0 *ᵥ Ad
  let u ← solveV (tA1ᵀ * tX * tA1 + tZᵀ * tU * tZ + tA0ᵀ * tM * tZ + tZᵀ * tMᵀ * tA0)
    ((tA1ᵀ * tX) *ᵥ tb1 + (tZᵀ * tU) *ᵥ ts + (tA0ᵀ * tM) *ᵥ ts + (tZᵀ * tMᵀ) *ᵥ tb0)
  let x ← solveV A (B *ᵥ u + d)
  return (List.ofFn fun i => fun a => u (i, a), x0 :: List.ofFn fun i => fun a => x (i, a))

/-- `LQT.batchSolution`, `lqt_np.py:1074-1152`; `self.F[0]` raises `IndexError` when `T = 0`. -/
def LQT.batchSolution [DecidableEq K] (P : LQT n m K) (x0 : Fin n → K) :
    Py (List (Fin m → K) × List (Fin n → K)) := do
  let s0 ← pyGet P.stages 0
  let st ← P.stages.mapM (LStage.bStage s0.p)
  let t ← P.bTerm s0.p
  batchSolve st.get t x0

end Verif
