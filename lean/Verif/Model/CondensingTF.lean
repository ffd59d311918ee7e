import Verif.Model.Condensing
import Verif.Model.LQTTF

/-!
Model of `/repo/parallel_control/condensing_tf.py`.

Simplifications: those of `Verif.Model.LQTTF` (tensors with a batch dimension are lists, an operation on a batch fails if it
fails for one item, all errors of the linear algebra are `linAlgError`) and of `Verif.Model.Condensing` (row blocks are indexed by
pairs, the condensed control and the matrix given to `tf.linalg.solve` are flattened).  In `convertUX` unequal lengths are an
error; broadcasting of tensors with a single item is not modelled.  `Nc` is a natural number and the state dimension is positive.
-/

namespace Verif

open Matrix

variable {n m p N : ℕ} {K : Type} [Field K]

/-- The step appended by padding, `condensing_tf.py:59-72`. -/
def tfPadStage : TStage n m p K := ⟨1, 0, 0, 0, 0, 0, 1⟩

/-- The steps after padding, `condensing_tf.py:56-72`. -/
def tfPad (N : ℕ) (ss : List (TStage n m p K)) : List (TStage n m p K) :=
  if ss.length % N ≠ 0 then ss ++ List.replicate (N - ss.length % N) tfPadStage else ss

/-- `Fstar` after `k` iterations, `condensing_tf.py:92-95`. -/
def tfFstar (F : Fin N → Matrix (Fin n) (Fin n) K) : ℕ → Matrix (Fin n) (Fin n) K
  | 0 => if h : 0 < N then F ⟨0, h⟩ else 1
  | k + 1 => if h : k + 1 < N then F ⟨k + 1, h⟩ * tfFstar F k else tfFstar F k

/-- Block `i` of `Lambda`, `condensing_tf.py:91-96`. -/
def tfLambda (F : Fin N → Matrix (Fin n) (Fin n) K) : ℕ → Matrix (Fin n) (Fin n) K
  | 0 => 1
  | i + 1 => tfFstar F i

/-- `Lbar_row` after `k` iterations as a list of column blocks, `condensing_tf.py:101,106`. -/
def tfLrow (b : Fin N → TStage n m p K) : ℕ → List (Matrix (Fin n) (Fin m) K)
  | 0 => if h : 0 < N then [(b ⟨0, h⟩).L] else []
  | k + 1 => if h : k + 1 < N then (tfLrow b k).map (fun A => (b ⟨k + 1, h⟩).F * A) ++ [(b ⟨k + 1, h⟩).L] else tfLrow b k

/-- `cbar_row` after `k` iterations, `condensing_tf.py:102,107`. -/
def tfCrow (b : Fin N → TStage n m p K) : ℕ → Fin n → K
  | 0 => if h : 0 < N then (b ⟨0, h⟩).c else 0
  | k + 1 => if h : k + 1 < N then (b ⟨k + 1, h⟩).F *ᵥ tfCrow b k + (b ⟨k + 1, h⟩).c else tfCrow b k

/-- `tf.pad` of a row of column blocks to the full width, `condensing_tf.py:104,111`. -/
def tfPadRow (N : ℕ) (row : List (Matrix (Fin n) (Fin m) K)) : Matrix (Fin n) (Fin (N * m)) K :=
  of fun a ub => let jb := finProdFinEquiv.symm ub
    match row[jb.1.1]? with
    | some A => A a jb.2
    | none => 0

/-- Block `i` of `Lbar`, `condensing_tf.py:99,103-108`. -/
def tfLbar (b : Fin N → TStage n m p K) : ℕ → Matrix (Fin n) (Fin (N * m)) K
  | 0 => 0
  | i + 1 => tfPadRow N (tfLrow b i)

/-- Block `i` of `cbar`, `condensing_tf.py:100,103-109`. -/
def tfCbar (b : Fin N → TStage n m p K) : ℕ → Fin n → K
  | 0 => 0
  | i + 1 => tfCrow b i

/-- What is returned for one block, `condensing_tf.py:134`: the stage is
`Fstar, cstar, Lstar, Hstar, rstar, Xstar, Ustar, Mstar, sstar`. -/
structure TCBlock (N n m : ℕ) (K : Type) where
  stage : GStage n (N * m) n K
  Lambda : Matrix (Fin N × Fin n) (Fin n) K
  cbar : Fin N × Fin n → K
  Lbar : Matrix (Fin N × Fin n) (Fin (N * m)) K

/-- One item of the batch, `condensing_tf.py:77-134`; `tf.linalg.solve` fails for a singular matrix. -/
def tfCondBlock [DecidableEq K] (b : Fin N → TStage n m p K) : Py (TCBlock N n m K) := do
  let Xbar := blkDiag fun i => (b i).X
  let Ubar := (blkDiag fun i => (b i).U).submatrix finProdFinEquiv.symm finProdFinEquiv.symm
  let Hbar := blkDiag fun i => (b i).H
  let XUbar : Matrix ((Fin N × Fin p) ⊕ Fin (N * m)) ((Fin N × Fin p) ⊕ Fin (N * m)) K := fromBlocks Xbar 0 0 Ubar
  let rsbar : (Fin N × Fin p) ⊕ Fin (N * m) → K := Sum.elim (fun ia => (b ia.1).r ia.2) 0
  let Lambda : Matrix (Fin N × Fin n) (Fin n) K := of fun ia c => tfLambda (fun i => (b i).F) ia.1 ia.2 c
  let Fstar := tfFstar (fun i => (b i).F) (N - 1)
  let Lbar : Matrix (Fin N × Fin n) (Fin (N * m)) K := of fun ia c => tfLbar b ia.1 ia.2 c
  let cbar : Fin N × Fin n → K := fun ia => tfCbar b ia.1 ia.2
  let Lstar := tfPadRow N (tfLrow b (N - 1))
  let cstar := tfCrow b (N - 1)
  let trans : Matrix ((Fin N × Fin p) ⊕ Fin (N * m)) (Fin n ⊕ Fin (N * m)) K :=
    fromBlocks (Hbar * Lambda) (Hbar * Lbar) 0 1
  let XUMstar := transᵀ * XUbar * trans
  let tmp : (Fin N × Fin p) ⊕ Fin (N * m) → K := Sum.elim (Hbar *ᵥ cbar) 0
  let tmp := transᵀ *ᵥ (XUbar *ᵥ (rsbar - tmp))
  let rsstar ← solveV (XUMstar.submatrix finSumFinEquiv.symm finSumFinEquiv.symm) (tmp ∘ finSumFinEquiv.symm)
  let rstar : Fin n → K := fun a => rsstar (finSumFinEquiv (.inl a))
  let sstar : Fin (N * m) → K := fun a => rsstar (finSumFinEquiv (.inr a))
  let Xstar := XUMstar.toBlocks₁₁
  let Mstar := XUMstar.toBlocks₁₂
  let Ustar := XUMstar.toBlocks₂₂
  let Hstar : Matrix (Fin n) (Fin n) K := 1
  return ⟨⟨⟨Fstar, cstar, Lstar, Hstar, rstar, Xstar, Ustar⟩, Mstar, sstar⟩, Lambda, cbar, Lbar⟩

/-- `condense`, `condensing_tf.py:44-134`; the reshaping at lines 77-87 cuts the steps into blocks of `Nc`.  `T % Nc` is a
`ZeroDivisionError` when `Nc = 0`. -/
def tfCondense [DecidableEq K] (N : ℕ) (ss : List (TStage n m p K)) : Py (List (TCBlock N n m K)) := do
  if N = 0 then throw .zeroDivisionError
  let ps := tfPad N ss
  let Tc := ps.length / N
  (List.range Tc).mapM fun k => do
    let b ← pyFin fun i : Fin N => pyGet ps (N * k + i)
    tfCondBlock b

/-- `convertUX`, `condensing_tf.py:136-162`. -/
def tfConvertUX (T : ℕ) (bs : List (TCBlock N n m K)) (us : List (Fin (N * m) → K)) (xs : List (Fin n → K)) :
    Py (List (Fin m → K) × List (Fin n → K)) := do
  if xs.dropLast.length ≠ bs.length ∨ us.length ≠ bs.length then throw .valueError
  let blocks := List.zipWith (fun (c : TCBlock N n m K) (xu : (Fin n → K) × (Fin (N * m) → K)) =>
    c.Lambda *ᵥ xu.1 + c.cbar + c.Lbar *ᵥ xu.2) bs (xs.dropLast.zip us)
  let xs' := blocks.flatMap fun y => List.ofFn fun (i : Fin N) a => y (i, a)
  let us' := us.flatMap fun u => List.ofFn fun (i : Fin N) a => u (finProdFinEquiv (i, a))
  match xs.getLast? with
  | none => throw .indexError
  | some xl => return (us'.take T, xs'.take T ++ [xl])

end Verif
