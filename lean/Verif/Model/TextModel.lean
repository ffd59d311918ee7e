import Verif.Model.Scan
import Mathlib.Logic.Function.Basic
import Mathlib.Algebra.Field.Defs
import Mathlib.Algebra.BigOperators.Group.Finset.Basic

/-!
Model of `/repo/parallel_control/text_model.py`: Markov models of text.

Simplifications: a string is a list of characters of any type `α` with decidable equality; floating point numbers are elements of
a field `K`; the order is a natural number (a negative order makes `len(chars) ** order` a float, and `range` raises
`TypeError`); an array carries its shape and a total entry function that is only meaningful inside the shape.
The generator behind `np.random.choice` is a parameter.
-/

namespace Verif

variable {α κ K : Type}

/-- A two-dimensional array of floats, `text_model.py:57,75,130`. -/
structure FArr2 (K : Type) where
  rows : ℕ
  cols : ℕ
  get : ℕ → ℕ → K

/-- A one-dimensional array of floats, `text_model.py:99,162`. -/
structure FArr1 (K : Type) where
  len : ℕ
  get : ℕ → K

/-- `d[k]` for a dictionary, `text_model.py:81-82,102,143-144,165,203`; a missing key is a `KeyError`. -/
def dictGet (d : κ → Option ℕ) (k : κ) : Py ℕ :=
  match d k with
  | some i => .ok i
  | none => .error .keyError

/-- A `TextModel` object, `text_model.py:19-47`. -/
structure TextModel (α K : Type) where
  chars : List α
  errp : K
  charDict : α → Option ℕ
  order : ℕ
  condDict : List α → Option ℕ
  condChars : List (List α)

/-- Construction of `char_dict`, `text_model.py:22-25`. -/
def charDictOf [DecidableEq α] (chars : List α) : Py (α → Option ℕ) :=
  (List.range chars.length).foldlM (fun d i => do
    let c ← pyGet chars i
    return Function.update d c (some i)) (fun _ => none)

/-- The odometer, `text_model.py:38-46`, from position `j - 1` downwards. -/
def odoDown (n : ℕ) (ix : List ℕ) : ℕ → Py (List ℕ)
  | 0 => .ok ix
  | j + 1 => do
    let v ← pyGet ix j
    let ix := ix.set j (v + 1)
    if v + 1 ≥ n then odoDown n (ix.set j 0) j else return ix

/-- The inner loop building one conditioning string, `text_model.py:33-35`. -/
def condString (chars : List α) (ix : List ℕ) : Py (List α) :=
  (List.range ix.length).foldlM (fun s j => do
    let i ← pyGet ix j
    let c ← pyGet chars i
    return s ++ [c]) []

/-- One iteration of the loop over conditioning strings, `text_model.py:32-46`, on `(index_list, cond_dict, cond_chars)`. -/
def condStep [DecidableEq α] (chars : List α) (st : List ℕ × (List α → Option ℕ) × List (List α)) (i : ℕ) :
    Py (List ℕ × (List α → Option ℕ) × List (List α)) := do
  let s ← condString chars st.1
  let ix ← odoDown chars.length st.1 st.1.length
  return (ix, Function.update st.2.1 s (some i), st.2.2 ++ [s])

/-- `TextModel.__init__`, `text_model.py:10-47`. -/
def TextModel.init [DecidableEq α] (chars : List α) (errp : K) (order : ℕ) : Py (TextModel α K) := do
  let cd ← charDictOf chars
  let st ← (List.range (chars.length ^ order)).foldlM (condStep chars) (List.replicate order 0, fun _ => none, [])
  return ⟨chars, errp, cd, order, st.2.1, st.2.2⟩

/-- `P[i0, i1] = P[i0, i1] + 1`, `text_model.py:83,138,145`. -/
def bump2 [Add K] [One K] (P : ℕ → ℕ → K) (i0 i1 : ℕ) : ℕ → ℕ → K :=
  Function.update P i0 (Function.update (P i0) i1 (P i0 i1 + 1))

/-- `p[i] = p[i] + 1.0`, `text_model.py:102,165`. -/
def bump1 [Add K] [One K] (p : ℕ → K) (i : ℕ) : ℕ → K := Function.update p i (p i + 1)

section
variable [Field K]

/-- Normalisation of the rows, `text_model.py:85-86,147-148`. -/
def normalizeRows (cols : ℕ) (P : ℕ → ℕ → K) : ℕ → ℕ → K :=
  fun i j => P i j / ∑ k ∈ Finset.range cols, P i k

/-- Normalisation of a vector, `text_model.py:59,103,166`. -/
def normalizeVec (len : ℕ) (p : ℕ → K) : ℕ → K :=
  fun i => p i / ∑ k ∈ Finset.range len, p k

/-- `get1stOrderPo`, `text_model.py:51-63`. -/
def TextModel.firstPo (M : TextModel α K) : FArr2 K :=
  let n := M.chars.length
  let pr := normalizeVec n (fun _ => 1)
  ⟨n, n, fun i j => (if j = i then 1 - M.errp else 0) + M.errp * pr j⟩

/-- One iteration of the counting loop of `get1stOrderPi`, `text_model.py:78-83`, on `(c1, Pi)`. -/
def TextModel.countStep (M : TextModel α K) (text : List α) (st : α × (ℕ → ℕ → K)) (i : ℕ) : Py (α × (ℕ → ℕ → K)) := do
  let c0 := st.1
  let c1 ← pyGet text i
  let i0 ← dictGet M.charDict c0
  let i1 ← dictGet M.charDict c1
  return (c1, bump2 st.2 i0 i1)

/-- `get1stOrderPi`, `text_model.py:65-88`. -/
def TextModel.firstPi (M : TextModel α K) (text : List α) : Py (FArr2 K) := do
  let n := M.chars.length
  let c1 ← pyGet text 0
  let st ← (List.range' 1 (text.length - 1)).foldlM (M.countStep text) (c1, fun _ _ => 1)
  return ⟨n, n, normalizeRows n st.2⟩

/-- `get1stOrderPrior`, `text_model.py:90-105`. -/
def TextModel.firstPrior (M : TextModel α K) (text : List α) : Py (FArr1 K) := do
  let n := M.chars.length
  let p ← (List.range text.length).foldlM (fun p i => do
    let c ← pyGet text i
    let k ← dictGet M.charDict c
    return bump1 p k) (fun _ => (1 : K))
  return ⟨n, normalizeVec n p⟩

/-- `getNthOrderPo`, `text_model.py:108-118`; `np.tile` repeats the rows. -/
def TextModel.nthPo (M : TextModel α K) : FArr2 K :=
  let Po := M.firstPo
  if M.order > 1 then ⟨M.chars.length ^ (M.order - 1) * Po.rows, Po.cols, fun i => Po.get (i % Po.rows)⟩ else Po

/-- Body of the double loop marking compatible strings, `text_model.py:134-138`. -/
def TextModel.compatStep [DecidableEq α] (M : TextModel α K) (i : ℕ) (P : ℕ → ℕ → K) (j : ℕ) : Py (ℕ → ℕ → K) := do
  let c0 ← pyGet M.condChars i
  let c1 ← pyGet M.condChars j
  if c0.drop 1 = c1.dropLast then return bump2 P i j else return P

/-- One iteration of the counting loop of `getNthOrderPi`, `text_model.py:141-145`, on `(c1, Pi)`. -/
def TextModel.countNStep (M : TextModel α K) (text : List α) (st : List α × (ℕ → ℕ → K)) (i : ℕ) :
    Py (List α × (ℕ → ℕ → K)) := do
  let c0 := st.1
  let c ← pyGet text i
  let c1 := st.1.drop 1 ++ [c]
  let i0 ← dictGet M.condDict c0
  let i1 ← dictGet M.condDict c1
  return (c1, bump2 st.2 i0 i1)

/-- `getNthOrderPi`, `text_model.py:121-150`. -/
def TextModel.nthPi [DecidableEq α] (M : TextModel α K) (text : List α) : Py (FArr2 K) := do
  let N := M.chars.length ^ M.order
  let P ← (List.range N).foldlM (fun P i => (List.range N).foldlM (M.compatStep i) P) (fun _ _ => (1 / 10 ^ 12 : K))
  let st ← (List.range' M.order (text.length - M.order)).foldlM (M.countNStep text) (text.take M.order, P)
  return ⟨N, N, normalizeRows N st.2⟩

/-- `getNthOrderPrior`, `text_model.py:153-168`. -/
def TextModel.nthPrior (M : TextModel α K) (text : List α) : Py (FArr1 K) := do
  let N := M.chars.length ^ M.order
  let p ← (List.range (text.length + 1 - M.order)).foldlM (fun p i => do
    let c := (text.drop i).take M.order
    let k ← dictGet M.condDict c
    return bump1 p k) (fun _ => (1 : K))
  return ⟨N, normalizeVec N p⟩

/-- `makeNoisyText`, `text_model.py:171-190`; `choice k p` is the result of the `k`-th call of
`np.random.choice(a=p.shape[0], size=1, p=p)[0]`. -/
def TextModel.makeNoisyText (choice : ℕ → FArr1 K → Py ℕ) (M : TextModel α K) (test : List α) : Py (List α) := do
  let Po := M.firstPo
  (List.range test.length).foldlM (fun text i => do
    let c ← pyGet test i
    let j ← dictGet M.charDict c
    let k ← choice i ⟨Po.cols, Po.get j⟩
    let d ← pyGet M.chars k
    return text ++ [d]) []

end

/-- `textToIndex`, `text_model.py:192-207`. -/
def TextModel.textToIndex (M : TextModel α K) (text : List α) : Py (List ℕ) :=
  (List.range text.length).mapM (fun i => do
    let c ← pyGet text i
    dictGet M.charDict c)

/-- `indexToText`, `text_model.py:209-223`; for an empty alphabet numpy's `% 0` gives `0` and `self.chars[0]` raises
`IndexError`. -/
def TextModel.indexToText (M : TextModel α K) (ys : List ℕ) : Py (List α) :=
  (List.range ys.length).foldlM (fun text i => do
    let y ← pyGet ys i
    let c ← pyGet M.chars (y % M.chars.length)
    return text ++ [c]) []

end Verif
