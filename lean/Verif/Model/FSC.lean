import Mathlib.Data.List.FinRange
import Mathlib.Algebra.Order.Monoid.Defs
import Mathlib.Logic.Function.Basic
import Verif.Model.Scan

/-!
Model of `/repo/parallel_control/fsc_np.py`: finite-state control.

Simplifications: states are `Fin n`, controls `Fin m` with `n, m ≥ 1` (no out-of-range or negative
indices); arrays are functions; costs are elements of an ordered commutative monoid `K` (for instance `ℚ`,
`ℝ`, or `WithTop ℝ` when `inf` entries occur); the lists `self.f`, `self.L`, which `checkAndExpand` makes
equally long, are zipped into one list of stages; `self.gamma` is always `1.0` (line 114) and omitted.
-/

namespace Verif

/-- Step data `f[k]`, `L[k]` of an FSC object, `fsc_np.py:103-114`. -/
structure FStage (n m : ℕ) (K : Type) where
  f : Fin n → Fin m → Fin n
  L : Fin n → Fin m → K

/-- An FSC object, `fsc_np.py:103-114`. -/
structure FSC (n m : ℕ) (K : Type) where
  stages : List (FStage n m K)
  LT : Fin n → K

variable {n m : ℕ} {K : Type}

section Argmin
variable [LinearOrder K] [NeZero m]

/-- `v.argmin()` of a non-empty vector: the first index of the smallest entry
(`fsc_np.py:188,306,451,529`). -/
def argmin1 (v : Fin m → K) : Fin m :=
  (List.finRange m).foldl (fun b i => if v i < v b then i else b) 0

/-- `v.min()` of a non-empty vector (`fsc_np.py:39,189`). -/
def min1 (v : Fin m → K) : K :=
  (List.finRange m).foldl (fun b i => min b (v i)) (v 0)

end Argmin

/-- `combine_V(Vij, Vjk)`, `fsc_np.py:26-41`. -/
def combineV [LinearOrder K] [Add K] [NeZero n] (Vij Vjk : Fin n → Fin n → K) : Fin n → Fin n → K :=
  fun i k => min1 fun j => Vij i j + Vjk j k

/-- `combine_f(fij, fjk) = fjk[fij]`, `fsc_np.py:43-58`. -/
def combineF (fij fjk : Fin n → Fin n) : Fin n → Fin n := fun i => fjk (fij i)

section Seq
variable [LinearOrder K] [Add K] [NeZero m]

/-- The array `Vu`, `Vu[x,u] = L[x,u] + V[f[x,u]]`, `fsc_np.py:185-187,303-305`. -/
def stageVu (s : FStage n m K) (V : Fin n → K) : Fin n → Fin m → K := fun x u => s.L x u + V (s.f x u)

/-- One iteration of the loop of `seqBackwardPass`, `fsc_np.py:182-192`, on `(V, u_list, V_list)`. -/
def seqBackwardStep (st : (Fin n → K) × List (Fin n → Fin m) × List (Fin n → K)) (s : FStage n m K) :
    (Fin n → K) × List (Fin n → Fin m) × List (Fin n → K) :=
  let Vu := stageVu s st.1
  let u := fun x => argmin1 (Vu x)
  let V := fun x => min1 (Vu x)
  (V, st.2.1 ++ [u], st.2.2 ++ [V])

/-- `FSC.seqBackwardPass`, `fsc_np.py:169-197`; returns `(u_list, V_list)`. -/
def FSC.seqBackwardPass (M : FSC n m K) : List (Fin n → Fin m) × List (Fin n → K) :=
  let r := M.stages.reverse.foldl seqBackwardStep (M.LT, [], [M.LT])
  (r.2.1.reverse, r.2.2.reverse)

end Seq

/-- Loop of `seqForwardPass`, `fsc_np.py:217-222`, as a recursion over `u_list` and the stages;
a policy list longer than the horizon raises `IndexError` at line 219. -/
def seqForwardLoop : List (FStage n m K) → List (Fin n → Fin m) → Fin n → Py (List (Fin m) × List (Fin n))
  | _, [], _ => .ok ([], [])
  | [], _ :: _, _ => .error .indexError
  | s :: ss, p :: ps, x => do
    let u := p x
    let x := s.f x u
    let r ← seqForwardLoop ss ps x
    return (u :: r.1, x :: r.2)

/-- `FSC.seqForwardPass`, `fsc_np.py:200-224`; returns `(min_u_list, min_x_list)`. -/
def FSC.seqForwardPass (M : FSC n m K) (x0 : Fin n) (u_list : List (Fin n → Fin m)) :
    Py (List (Fin m) × List (Fin n)) := do
  let r ← seqForwardLoop M.stages u_list x0
  return (r.1, x0 :: r.2)

/-- Loop of `seqSimulation`, `fsc_np.py:242-246`. -/
def seqSimulationLoop : List (FStage n m K) → List (Fin m) → Fin n → Py (List (Fin n))
  | _, [], _ => .ok []
  | [], _ :: _, _ => .error .indexError
  | s :: ss, u :: us, x => do
    let x := s.f x u
    let r ← seqSimulationLoop ss us x
    return x :: r

/-- `FSC.seqSimulation`, `fsc_np.py:227-248`. -/
def FSC.seqSimulation (M : FSC n m K) (x0 : Fin n) (u_list : List (Fin m)) : Py (List (Fin n)) := do
  let r ← seqSimulationLoop M.stages u_list x0
  return x0 :: r

/-- `FSC.cost`, `fsc_np.py:615-630`. -/
def FSC.cost [Add K] (M : FSC n m K) (x_list : List (Fin n)) (u_list : List (Fin m)) : Py K := do
  let xT ← match x_list.getLast? with
    | some x => Except.ok x
    | none => .error PyErr.indexError
  (List.range u_list.length).foldlM (fun res k => do
    let s ← pyGet M.stages k
    let x ← pyGet x_list k
    let u ← pyGet u_list k
    return res + s.L x u) (M.LT xT)

section Par
variable [LinearOrder K]

/-- Body of the double loop filling one element, `fsc_np.py:271-274` (also 426-429, 500-503):
`if L[x,u] < V[x,f[x,u]]: V[x,f[x,u]] = L[x,u]`. -/
def fillStep (s : FStage n m K) (x : Fin n) (V : Fin n → Fin n → K) (u : Fin m) : Fin n → Fin n → K :=
  if s.L x u < V x (s.f x u) then Function.update V x (Function.update (V x) (s.f x u) (s.L x u)) else V

/-- Element of one step, `fsc_np.py:266-275` (also 421-430, 495-504); `inf` is `_FSC_NP_INFTY` (line 18). -/
def stageElem (inf : K) (s : FStage n m K) : Fin n → Fin n → K :=
  (List.finRange n).foldl (fun V x => (List.finRange m).foldl (fillStep s x) V) (fun _ _ => inf)

/-- `FSC.parBackwardPass_init`, `fsc_np.py:254-283`; `self.f[0]` (line 261) raises `IndexError` when `T = 0`. -/
def FSC.parBackwardInit (inf : K) (M : FSC n m K) : Py (List (Fin n → Fin n → K)) :=
  match M.stages with
  | [] => .error .indexError
  | _ => .ok (M.stages.map (stageElem inf) ++ [fun x _ => M.LT x])

variable [Add K]

/-- `FSC.parBackwardPass_extract`, `fsc_np.py:285-309`. -/
def FSC.parBackwardExtract [NeZero n] [NeZero m] (M : FSC n m K) (elems : List (Fin n → Fin n → K)) :
    Py (List (Fin n → Fin m) × List (Fin n → K)) := do
  let e0 ← pyGet elems 0
  let r ← (List.range (elems.length - 1)).mapM (fun k => do
    let e ← pyGet elems (k + 1)
    let V := fun x => e x 0
    let s ← pyGet M.stages k
    let Vu := stageVu s V
    return ((fun x => argmin1 (Vu x)), V))
  return (r.map Prod.fst, (fun x => e0 x 0) :: r.map Prod.snd)

/-- `FSC.parBackwardPass`, `fsc_np.py:311-321`, with `par_backward_pass_scan`, `fsc_np.py:61-70`. -/
def FSC.parBackwardPass [NeZero n] [NeZero m] (inf : K) (M : FSC n m K) :
    Py (List (Fin n → Fin m) × List (Fin n → K)) := do
  let elems ← M.parBackwardInit inf
  let elems ← scanVals (fun x y => .ok (combineV x y)) elems true
  M.parBackwardExtract elems

/-- `FSC.parFwdBwdPass_init`, `fsc_np.py:401-432`. -/
def FSC.parFwdBwdInit [Zero K] (inf : K) (M : FSC n m K) (x0 : Fin n) : Py (List (Fin n → Fin n → K)) :=
  match M.stages with
  | [] => .error .indexError
  | _ => .ok ((fun _ x => if x = x0 then 0 else inf) :: M.stages.map (stageElem inf))

/-- `FSC.parFwdBwdPass_extract`, `fsc_np.py:434-457`; an item of `min_u_list` is produced only for
`k < len(u_list)`. -/
def FSC.parFwdBwdExtract [NeZero n] (elems : List (Fin n → Fin n → K)) (u_list : List (Fin n → Fin m))
    (V_list : List (Fin n → K)) : Py (List (Fin m) × List (Fin n)) := do
  let r ← (List.range elems.length).mapM (fun k => do
    let e ← pyGet elems k
    let Vk ← pyGet V_list k
    let x := argmin1 (fun x => e 0 x + Vk x)
    return ((u_list[k]?).map (fun p => p x), x))
  return ((r.map Prod.fst).reduceOption, r.map Prod.snd)

/-- `FSC.parFwdBwdPass`, `fsc_np.py:459-475`, with `par_fwdbwd_pass_scan`, `fsc_np.py:83-92`. -/
def FSC.parFwdBwdPass [Zero K] [NeZero n] (inf : K) (M : FSC n m K) (x0 : Fin n) (u_list : List (Fin n → Fin m))
    (V_list : List (Fin n → K)) : Py (List (Fin m) × List (Fin n)) := do
  let elems ← M.parFwdBwdInit inf x0
  let elems ← scanVals (fun x y => .ok (combineV x y)) elems
  FSC.parFwdBwdExtract elems u_list V_list

/-- `FSC.parFwdBwdPass2_init`, `fsc_np.py:482-506`. -/
def FSC.parFwdBwd2Init (inf : K) (M : FSC n m K) : Py (List (Fin n → Fin n → K)) :=
  match M.stages with
  | [] => .error .indexError
  | _ => .ok (M.stages.map (stageElem inf))

/-- `FSC.parFwdBwdPass2_extract`, `fsc_np.py:508-535`. -/
def FSC.parFwdBwd2Extract [NeZero n] (x0 : Fin n) (elems : List (Fin n → Fin n → K))
    (u_list : List (Fin n → Fin m)) (V_list : List (Fin n → K)) : Py (List (Fin m) × List (Fin n)) := do
  let r ← (List.range (elems.length + 1)).mapM (fun k => do
    let x ← if k = 0 then pure x0 else do
      let e ← pyGet elems (k - 1)
      let Vk ← pyGet V_list k
      pure (argmin1 (fun x => e x0 x + Vk x))
    return ((u_list[k]?).map (fun p => p x), x))
  return ((r.map Prod.fst).reduceOption, r.map Prod.snd)

/-- `FSC.parFwdBwdPass2`, `fsc_np.py:537-553`. -/
def FSC.parFwdBwdPass2 [NeZero n] (inf : K) (M : FSC n m K) (x0 : Fin n) (u_list : List (Fin n → Fin m))
    (V_list : List (Fin n → K)) : Py (List (Fin m) × List (Fin n)) := do
  let elems ← M.parFwdBwd2Init inf
  let elems ← scanVals (fun x y => .ok (combineV x y)) elems
  FSC.parFwdBwd2Extract x0 elems u_list V_list

end Par

/-- `FSC.parForwardPass_init`, `fsc_np.py:327-354`; a policy list shorter than the horizon raises
`IndexError` at line 347. -/
def FSC.parForwardInit (M : FSC n m K) (x0 : Fin n) (u_list : List (Fin n → Fin m)) :
    Py (List (Fin n → Fin n)) := do
  if M.stages.isEmpty then throw .indexError
  let es ← (List.range M.stages.length).mapM (fun k => do
    let p ← pyGet u_list k
    let s ← pyGet M.stages k
    return (fun x => s.f x (p x)))
  return (fun _ => x0) :: es

/-- `FSC.parForwardPass_extract`, `fsc_np.py:356-377`. -/
def FSC.parForwardExtract [NeZero n] (elems : List (Fin n → Fin n)) (u_list : List (Fin n → Fin m)) :
    List (Fin m) × List (Fin n) :=
  let r := (List.range elems.length).zipWith (fun k (e : Fin n → Fin n) =>
    let x := e 0
    ((u_list[k]?).map (fun p => p x), x)) elems
  ((r.map Prod.fst).reduceOption, r.map Prod.snd)

/-- `FSC.parForwardPass`, `fsc_np.py:379-394`, with `par_forward_pass_scan`, `fsc_np.py:72-81`. -/
def FSC.parForwardPass [NeZero n] (M : FSC n m K) (x0 : Fin n) (u_list : List (Fin n → Fin m)) :
    Py (List (Fin m) × List (Fin n)) := do
  let elems ← M.parForwardInit x0 u_list
  let elems ← scanVals (fun x y => .ok (combineF x y)) elems
  return FSC.parForwardExtract elems u_list

section Batch
variable [LinearOrder K] [Add K] [Zero K]

/-- The odometer of `batch_solution`, `fsc_np.py:599-607`: next control list and the `done` flag. -/
def odoInc [NeZero m] : List (Fin m) → List (Fin m) × Bool
  | [] => ([], true)
  | u :: us =>
    if h : u.val = m - 1 then
      let r := odoInc us
      (0 :: r.1, r.2)
    else
      (⟨u.val + 1, by have := u.isLt; omega⟩ :: us, false)

/-- Variables of the loop of `batch_solution`, `fsc_np.py:573-579`. -/
structure BatchState (n m : ℕ) (K : Type) where
  u_list : List (Fin m)
  min_u_list : List (Fin m)
  min_x_list : List (Fin n)
  min_cost : K
  done : Bool

/-- Inner loop of `batch_solution`, `fsc_np.py:582-593`, from `(cost, x)`; returns the final cost and the
states after the initial one.  `u_list` always has the length of the horizon. -/
def batchEval (LT : Fin n → K) : List (FStage n m K) → List (Fin m) → K → Fin n → K × List (Fin n)
  | s :: ss, u :: us, cost, x =>
    let r := batchEval LT ss us (cost + s.L x u) (s.f x u)
    (r.1, s.f x u :: r.2)
  | _, _, cost, x => (cost + LT x, [])

/-- One iteration of `while not done`, `fsc_np.py:581-607`. -/
def batchStep [NeZero m] (M : FSC n m K) (x0 : Fin n) (st : BatchState n m K) : BatchState n m K :=
  let r := batchEval M.LT M.stages st.u_list 0 x0
  let o := odoInc st.u_list
  if r.1 < st.min_cost then
    { u_list := o.1, min_u_list := st.u_list, min_x_list := x0 :: r.2, min_cost := r.1, done := o.2 }
  else
    { st with u_list := o.1, done := o.2 }

/-- State before the loop, `fsc_np.py:571-579`; `cap` is `1e10`; `self.f[0]` raises `IndexError` when `T = 0`. -/
def batchInit [NeZero m] (cap : K) (M : FSC n m K) : Py (BatchState n m K) :=
  match M.stages with
  | [] => .error .indexError
  | _ => .ok { u_list := List.replicate M.stages.length 0, min_u_list := List.replicate M.stages.length 0,
               min_x_list := [], min_cost := cap, done := false }

/-- `batch_solution` ends after `N` iterations with state `st'` (`fsc_np.py:581`: the loop runs while
`done` is false). -/
def BatchRuns [NeZero m] (M : FSC n m K) (x0 : Fin n) (st : BatchState n m K) (N : ℕ) (st' : BatchState n m K) :
    Prop :=
  (batchStep M x0)^[N] st = st' ∧ st'.done = true ∧ ∀ j < N, ((batchStep M x0)^[j] st).done = false

end Batch

end Verif
