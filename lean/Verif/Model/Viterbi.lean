import Verif.Model.FSC
import Mathlib.Algebra.Ring.Defs

/-!
Model of `/repo/parallel_control/viterbi_np.py`: Viterbi decoding, also as a finite-state control problem.

Simplifications: states are `Fin n` (`n ≥ 1`), observations `Fin q`; probabilities are elements of an
ordered commutative semiring `P`; `nl` stands for the elementwise `-np.log` and takes values in an ordered
monoid `K` which may contain `+inf` (`WithTop ℝ`).  `y_list` is a list.
-/

namespace Verif

/-- A `Viterbi_np` object, `viterbi_np.py:20-30`. -/
structure HMM (n q : ℕ) (P : Type) where
  prior : Fin n → P
  Pi : Fin n → Fin n → P
  Po : Fin n → Fin q → P

variable {n q : ℕ} {P K : Type}

/-- `np.argmax` of a non-empty vector: first index of the largest entry (`viterbi_np.py:58,60`). -/
def argmax1 [LinearOrder P] [NeZero n] (v : Fin n → P) : Fin n :=
  (List.finRange n).foldl (fun b i => if v b < v i then i else b) 0

/-- `max` of a non-empty vector (`viterbi_np.py:50`). -/
def max1 [LinearOrder P] [NeZero n] (v : Fin n → P) : P :=
  (List.finRange n).foldl (fun b i => max b (v i)) (v 0)

section Ref
variable [LinearOrder P] [Mul P] [NeZero n]

/-- Forward loop of `ref_viterbi`, `viterbi_np.py:42-51`: the rows of `V_list`. -/
def HMM.refForward (H : HMM n q P) (ys : List (Fin q)) : List (Fin n → P) :=
  (ys.foldl (fun (st : (Fin n → P) × List (Fin n → P)) y =>
    let psi := fun j x => H.Po x y * H.Pi j x
    let temp := fun j x => psi j x * st.1 j
    let V := fun x => max1 fun j => temp j x
    (V, st.2 ++ [V])) (H.prior, [H.prior])).2

/-- Backtracking loop of `ref_viterbi`, `viterbi_np.py:53-62`, running from the last row of `V_list` to the
first; the flag `last` is `v_map` still being empty. -/
def HMM.refBackward (H : HMM n q P) (V_list : List (Fin n → P)) : List (Fin n) :=
  V_list.foldr (fun V v_map =>
    match v_map with
    | [] => [argmax1 V]
    | x :: _ => argmax1 (fun j => H.Pi j x * V j) :: v_map) []

/-- `ref_viterbi`, `viterbi_np.py:32-64`; returns `(v_map, V_list)`. -/
def HMM.refViterbi (H : HMM n q P) (ys : List (Fin q)) : List (Fin n) × List (Fin n → P) :=
  let V_list := H.refForward ys
  (H.refBackward V_list, V_list)

end Ref

section Log
variable [LinearOrder K] [Add K] [NeZero n]

/-- The array `temp`, `viterbi_np.py:84-85` (also 124-125): `temp[j,x] = (nl_Po[x,y] + nl_Pi[j,x]) + V[j]`. -/
def HMM.logTemp (nl : P → K) (H : HMM n q P) (V : Fin n → K) (y : Fin q) : Fin n → Fin n → K :=
  fun j x => (nl (H.Po x y) + nl (H.Pi j x)) + V j

/-- Forward loop of `ref_viterbi_log`, `viterbi_np.py:76-87`. -/
def HMM.logForward (nl : P → K) (H : HMM n q P) (ys : List (Fin q)) : List (Fin n → K) :=
  (ys.foldl (fun (st : (Fin n → K) × List (Fin n → K)) y =>
    let temp := H.logTemp nl st.1 y
    let V := fun x => min1 fun j => temp j x
    (V, st.2 ++ [V])) ((fun x => nl (H.prior x)), [fun x => nl (H.prior x)])).2

/-- Backtracking loop of `ref_viterbi_log`, `viterbi_np.py:89-99`, on the remaining rows and observations
(so that `y_list[k]` is the head of `ys`). -/
def HMM.logBackward (nl : P → K) (H : HMM n q P) : List (Fin n → K) → List (Fin q) → Py (List (Fin n))
  | [], _ => .ok []
  | V :: Vs, ys => do
    let v_map ← H.logBackward nl Vs ys.tail
    match v_map with
    | [] => return [argmin1 V]
    | x :: _ =>
      let y ← pyGet ys 0
      return argmin1 (fun j => (nl (H.Po x y) + nl (H.Pi j x)) + V j) :: v_map

/-- `ref_viterbi_log`, `viterbi_np.py:66-101`. -/
def HMM.refViterbiLog (nl : P → K) (H : HMM n q P) (ys : List (Fin q)) : Py (List (Fin n) × List (Fin n → K)) := do
  let V_list := H.logForward nl ys
  let v_map ← H.logBackward nl V_list ys
  return (v_map, V_list)

/-- Forward loop of `ref_viterbi_log_v2`, `viterbi_np.py:116-130`; returns `(u_list, V_list)`. -/
def HMM.logForward2 (nl : P → K) (H : HMM n q P) (ys : List (Fin q)) :
    List (Fin n → Fin n) × List (Fin n → K) :=
  let r := ys.foldl (fun (st : (Fin n → K) × List (Fin n → Fin n) × List (Fin n → K)) y =>
    let temp := H.logTemp nl st.1 y
    let V := fun x => min1 fun j => temp j x
    let u := fun x => argmin1 fun j => temp j x
    (V, st.2.1 ++ [u], st.2.2 ++ [V])) ((fun x => nl (H.prior x)), [], [fun x => nl (H.prior x)])
  r.2

/-- `ref_viterbi_log_v2`, `viterbi_np.py:104-141`, backtracking at lines 132-138; `V_list[-1]` raises on an
empty list, which does not occur. -/
def HMM.refViterbiLog2 (nl : P → K) (H : HMM n q P) (ys : List (Fin q)) : Py (List (Fin n) × List (Fin n → K)) := do
  let r := H.logForward2 nl ys
  match r.2.getLast? with
  | none => throw .indexError
  | some VT =>
    let v_map := r.1.foldr (fun u v_map =>
      match v_map with
      | [] => []
      | x :: _ => u x :: v_map) [argmin1 VT]
    return (v_map, r.2)

end Log

/-- `Viterbi_np.getFSC`, `viterbi_np.py:144-164`: time-reversed control problem; the call of
`checkAndExpand` raises `IndexError` for an empty observation list (`fsc_np.py:149`). -/
def HMM.getFSC [Mul P] (nl : P → K) (H : HMM n q P) (ys : List (Fin q)) : Py (FSC n n K) :=
  match ys with
  | [] => .error .indexError
  | _ => .ok {
    stages := ys.reverse.map (fun y => ⟨fun _ u => u, fun x u => nl (H.Pi u x * H.Po x y)⟩)
    LT := fun x => nl (H.prior x) }

/-- `Viterbi_np.fscToViterbi`, `viterbi_np.py:167-182`. -/
def fscToViterbi (min_x_list : List (Fin n)) (V_list : List (Fin n → K)) : List (Fin n) × List (Fin n → K) :=
  (min_x_list.reverse, V_list.reverse)

section Fsc
variable [LinearOrder K] [NeZero n] [Mul P]

/-- `Viterbi_np.seqViterbi`, `viterbi_np.py:185-203`. -/
def HMM.seqViterbi [Add K] (nl : P → K) (H : HMM n q P) (ys : List (Fin q)) : Py (List (Fin n) × List (Fin n → K)) := do
  let fsc ← H.getFSC nl ys
  let (u_list, V_list) := fsc.seqBackwardPass
  let x0 := argmin1 (← pyGet V_list 0)
  let (_, min_x_list) ← fsc.seqForwardPass x0 u_list
  return fscToViterbi min_x_list V_list

/-- `Viterbi_np.parBwdFwdViterbi`, `viterbi_np.py:206-224`. -/
def HMM.parBwdFwdViterbi [Add K] (inf : K) (nl : P → K) (H : HMM n q P) (ys : List (Fin q)) :
    Py (List (Fin n) × List (Fin n → K)) := do
  let fsc ← H.getFSC nl ys
  let (u_list, V_list) ← fsc.parBackwardPass inf
  let x0 := argmin1 (← pyGet V_list 0)
  let (_, min_x_list) ← fsc.parForwardPass x0 u_list
  return fscToViterbi min_x_list V_list

/-- `Viterbi_np.parBwdFwdBwdViterbi`, `viterbi_np.py:227-246`. -/
def HMM.parBwdFwdBwdViterbi [Add K] [Zero K] (inf : K) (nl : P → K) (H : HMM n q P) (ys : List (Fin q)) :
    Py (List (Fin n) × List (Fin n → K)) := do
  let fsc ← H.getFSC nl ys
  let (u_list, V_list) ← fsc.parBackwardPass inf
  let x0 := argmin1 (← pyGet V_list 0)
  let (_, min_x_list) ← fsc.parFwdBwdPass inf x0 u_list V_list
  return fscToViterbi min_x_list V_list

end Fsc

end Verif
