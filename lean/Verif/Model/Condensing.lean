import Verif.Model.LQTBatch
import Mathlib.Data.Matrix.Block
import Mathlib.Logic.Equiv.Fin.Basic

/-!
Model of `/repo/parallel_control/condensing_np.py`.

Simplifications: exact arithmetic over an ordered field.  `Nc` is a natural number.  Row blocks are indexed by pairs
`(block, index)` instead of flattened indices, while the condensed control and the matrix given to `linalg.solve` are
flattened as in the code: entry `a` of block `j` has index `j * udim + a`.  Writing an array of another output dimension
into a slice broadcasts or raises `ValueError` as in `Verif.Model.LQTBatch`.  The result of the final call of
`LQT.checkAndExpand` is the object described by its arguments (`C29_object_of`), with `Z = I`.
-/

namespace Verif

open Matrix

variable {n m p N : ℕ} {K : Type} [Field K]

/-- `linalg.solve(A, b, assume_a='pos')` for a vector right hand side, `condensing_np.py:141`. -/
def solvePosV [LinearOrder K] (A : Matrix (Fin n) (Fin n) K) (b : Fin n → K) : Py (Fin n → K) := do
  let f ← choFactor A
  return choSolveV f b

/-- Evaluates the items `0, 1, ..` of a block in order (the loop at `condensing_np.py:100-106`). -/
def pyFin {α : Type} : {N : ℕ} → (Fin N → Py α) → Py (Fin N → α)
  | 0, _ => .ok Fin.elim0
  | _ + 1, f => do
    let a ← f 0
    let r ← pyFin fun i => f i.succ
    return Fin.cons a r

/-- The step appended by padding, `condensing_np.py:62-68`; only the seven lists appended to are read afterwards. -/
def padStage (p : ℕ) : LStage n m K := ⟨p, 1, 0, 0, 1, 0, 0, 0, 1, 0, 0⟩

/-- `Ftmp` after `i` iterations, `condensing_np.py:99,106`; the rows of `Lambda` and `Fstar` are among them. -/
def condLam (F : Fin N → Matrix (Fin n) (Fin n) K) : ℕ → Matrix (Fin n) (Fin n) K
  | 0 => 1
  | i + 1 => if h : i < N then F ⟨i, h⟩ * condLam F i else condLam F i

/-- Block `j` of `Fpows` after `i` iterations, `condensing_np.py:114-119`. -/
def condPow (F : Fin N → Matrix (Fin n) (Fin n) K) : ℕ → Fin N → Matrix (Fin n) (Fin n) K
  | 0, _ => 0
  | i + 1, j => if h : i < N then
      (if j.1 = i then 1 else if j.1 < i then F ⟨i, h⟩ * condPow F i j else condPow F i j)
    else condPow F i j

/-- Block row `i` of `Lbar` and, for `i = Nc`, `Lstar`, `condensing_np.py:120-130`. -/
def condL (b : Fin N → BStage p n m K) (i : ℕ) : Matrix (Fin n) (Fin (N * m)) K :=
  of fun a ub => let jb := finProdFinEquiv.symm ub
    if jb.1.1 < i then (condPow (fun i => (b i).F) i jb.1 * (b jb.1).L) a jb.2 else 0

/-- Block `i` of `cbar` and, for `i = Nc`, `cstar`, `condensing_np.py:120-130`. -/
def condC (b : Fin N → BStage p n m K) (i : ℕ) : Fin n → K :=
  ∑ j : Fin N, if j.1 < i then condPow (fun i => (b i).F) i j *ᵥ (b j).c else 0

/-- What is stored for one block, `condensing_np.py:150-162`. -/
structure CBlock (N n m : ℕ) (K : Type) where
  stage : LStage n (N * m) K
  Lambda : Matrix (Fin N × Fin n) (Fin n) K
  cbar : Fin N × Fin n → K
  Lbar : Matrix (Fin N × Fin n) (Fin (N * m)) K

/-- Body of the loop over the blocks, `condensing_np.py:95-163`, once the items of the block are known. -/
def condBlock [LinearOrder K] (b : Fin N → BStage p n m K) : Py (CBlock N n m K) := do
  let XUbar : Matrix ((Fin N × Fin p) ⊕ Fin (N * m)) ((Fin N × Fin p) ⊕ Fin (N * m)) K :=
    fromBlocks (blkDiag fun i => (b i).X) 0 0
      ((blkDiag fun i => (b i).U).submatrix finProdFinEquiv.symm finProdFinEquiv.symm)
  let rsbar : (Fin N × Fin p) ⊕ Fin (N * m) → K := Sum.elim (fun ia => (b ia.1).r ia.2) 0
  let Hbar := blkDiag fun i => (b i).H
  let Lambda : Matrix (Fin N × Fin n) (Fin n) K := of fun ia c => condLam (fun i => (b i).F) ia.1 ia.2 c
  let Fstar := condLam (fun i => (b i).F) N
  let cbar : Fin N × Fin n → K := fun ia => condC b ia.1 ia.2
  let Lbar : Matrix (Fin N × Fin n) (Fin (N * m)) K := of fun ia c => condL b ia.1 ia.2 c
  let cstar := condC b N
  let Lstar := condL b N
  let trans : Matrix ((Fin N × Fin p) ⊕ Fin (N * m)) (Fin n ⊕ Fin (N * m)) K :=
    fromBlocks (Hbar * Lambda) (Hbar * Lbar) 0 1
  let XUMstar := transᵀ * XUbar * trans
  let tmp : (Fin N × Fin p) ⊕ Fin (N * m) → K := Sum.elim (Hbar *ᵥ cbar) 0
  let rsstar ← solvePosV (XUMstar.submatrix finSumFinEquiv.symm finSumFinEquiv.symm)
    (((transᵀ * XUbar) *ᵥ (rsbar - tmp)) ∘ finSumFinEquiv.symm)
  let Xstar := XUMstar.toBlocks₁₁
  let Mstar := XUMstar.toBlocks₁₂
  let Ustar := XUMstar.toBlocks₂₂
  let rstar : Fin n → K := fun a => rsstar (finSumFinEquiv (.inl a))
  let sstar : Fin (N * m) → K := fun a => rsstar (finSumFinEquiv (.inr a))
  return ⟨⟨n, Fstar, Lstar, Xstar, Ustar, cstar, 1, rstar, 1, sstar, Mstar⟩, Lambda, cbar, Lbar⟩

/-- The step lists after padding, `condensing_np.py:48-68`. -/
def condPad (p N : ℕ) (ss : List (LStage n m K)) : List (LStage n m K) :=
  if ss.length % N ≠ 0 then ss ++ List.replicate (N - ss.length % N) (padStage p) else ss

/-- `LQTCondenser.condense`, `condensing_np.py:34-172`; returns the condensed problem and the stored lists.  `lqt.F[0]`
raises `IndexError` when `T = 0` and `T % Nc` raises `ZeroDivisionError` when `Nc = 0`; the assertion at line 73 never
fails. -/
def LQT.condense [LinearOrder K] (P : LQT n m K) (N : ℕ) : Py (LQT n (N * m) K × List (CBlock N n m K)) := do
  let s0 ← pyGet P.stages 0
  if N = 0 then throw .zeroDivisionError
  let ss := condPad s0.p N P.stages
  let Tc := ss.length / N
  let bs ← (List.range Tc).mapM fun kp => do
    let k := N * kp
    let b ← pyFin fun i : Fin N => do
      let s ← pyGet ss (k + i)
      s.bStage s0.p
    condBlock b
  return (⟨bs.map CBlock.stage, P.pT, P.XT, P.HT, P.rT⟩, bs)

/-- Inner loop of `convertUX`, `condensing_np.py:195-198`. -/
def convertInner (T : ℕ) (u : Fin (N * m) → K) (x : Fin N × Fin n → K) (acc : List (Fin m → K) × List (Fin n → K)) :
    List (Fin m → K) × List (Fin n → K) :=
  (List.finRange N).foldl (fun acc j => if acc.1.length < T then
    (acc.1 ++ [fun a => u (finProdFinEquiv (j, a))], acc.2 ++ [fun a => x (j, a)]) else acc) acc

/-- `LQTCondenser.convertUX`, `condensing_np.py:174-201`, after `condense` of a problem with `T` steps returned `bs`. -/
def convertUX (T : ℕ) (bs : List (CBlock N n m K)) (us : List (Fin (N * m) → K)) (xs : List (Fin n → K)) :
    Py (List (Fin m → K) × List (Fin n → K)) := do
  let r ← (List.range us.length).foldlM (fun acc i => do
    let u ← pyGet us i
    let x ← pyGet xs i
    let b ← pyGet bs i
    return convertInner T u (b.Lambda *ᵥ x + b.cbar + b.Lbar *ᵥ u) acc) ([], [])
  match xs.getLast? with
  | none => throw .indexError
  | some xl => return (r.1, r.2 ++ [xl])

end Verif
