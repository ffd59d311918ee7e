import Verif.Model.FSC
import Verif.Model.FSCCheck
import Verif.Model.ShootingSQP
import Mathlib.Data.Fin.VecNotation

/-!
Model of `/repo/tests/test_fsc_np.py`: the unit tests of the finite-state solvers.

Simplifications: exact real arithmetic; the uniform draws of the generator are an arbitrary table `w`
(the generator is seeded anew by every call of `setupFSC`, so all calls within one test give the same object);
a test function returns the conjunction of the conditions it asserts, or the exception raised on the way.
-/

namespace Verif

open Matrix

/-- The integer part of `track`, `test_fsc_np.py:22-24`. -/
def testTrack : Fin 3 → Fin 9 → ℤ :=
  ![![0, 0, 2, 5, 5, 5, 1, 1, 0], ![0, 1, 2, 2, 2, 1, 2, 2, 1], ![0, 0, 0, 0, 0, 5, 5, 5, 5]]

/-- `f`, `test_fsc_np.py:28-30`. -/
def testDyn : Fin 3 → Fin 3 → Fin 3 := ![![0, 0, 1], ![0, 1, 2], ![1, 2, 2]]

/-- `u_cost`, `test_fsc_np.py:35`. -/
def testUCost : Fin 3 → ℤ := ![1, 0, 1]

/-- `x0`, `test_fsc_np.py:31`. -/
def testX0 : Fin 3 := 1

/-- `curr_L` of step `k`, with `track` of line 25, `test_fsc_np.py:25,36-41`; `w` holds the draws of `rng.uniform`. -/
noncomputable def testL (w : Fin 3 → Fin 9 → ℝ) (k : Fin 9) (x u : Fin 3) : ℝ :=
  (testTrack x k + 1 / 100 * w x k) + testUCost u

/-- The object returned by `setupFSC`, `test_fsc_np.py:17-45`, after `checkAndExpand` (`fsc_np.py:115-165`), which repeats
`f` and sets the terminal costs to ones (`C111_setup`). -/
noncomputable def testFSC (w : Fin 3 → Fin 9 → ℝ) : FSC 3 3 ℝ where
  stages := (List.finRange 9).map fun k => ⟨testDyn, testL w k⟩
  LT := fun _ => 1

/-- `max(list)`, `test_fsc_np.py:95,97`; `ValueError` for an empty list. -/
noncomputable def listMax : List ℝ → Py ℝ
  | [] => .error .valueError
  | a :: l => .ok (l.foldl max a)

/-- The bound `1e-10` of the assertions, `test_fsc_np.py:59,73,85,96,114,129,144,164`. -/
noncomputable def testTol : ℝ := 1 / 10 ^ 10

/-- `linalg.norm(a - b)` of two vectors, `test_fsc_np.py:73,85,95`. -/
noncomputable def normDiff {n : ℕ} (a b : Fin n → ℝ) : ℝ := l2norm fun x => a x - b x

variable {n m : ℕ} [NeZero n] [NeZero m]

/-- `test_seq`, `test_fsc_np.py:47-59`; `r` is the state of `batch_solution` after its loop. -/
noncomputable def fscTestSeq (M : FSC n m ℝ) (x0 : Fin n) (r : BatchState n m ℝ) : Py Prop := do
  let b := M.seqBackwardPass
  let V0 ← pyGet b.2 0
  let p ← M.seqForwardPass x0 b.1
  return r.min_x_list = p.2 ∧ r.min_u_list = p.1 ∧ |r.min_cost - V0 x0| < testTol

/-- `test_par_simple`, `test_fsc_np.py:61-73`. -/
noncomputable def fscTestParSimple (inf : ℝ) (M : FSC n m ℝ) : Py Prop := do
  let b := M.seqBackwardPass
  let elems ← M.parBackwardInit inf
  let T := b.2.length
  let V ← match elems.getLast? with
    | some V => Except.ok V
    | none => .error PyErr.indexError
  let r ← (List.range T).reverse.foldlM (fun (st : (Fin n → Fin n → ℝ) × Prop) k => do
    let V ← if k < T - 1 then do
        let e ← pyGet elems k
        pure (combineV e st.1)
      else pure st.1
    let V1 ← pyGet b.2 k
    return (V, st.2 ∧ normDiff (fun x => V x 0) V1 < testTol)) (V, True)
  return r.2

/-- `test_par_backscan`, `test_fsc_np.py:75-85`. -/
noncomputable def fscTestParBackscan (inf : ℝ) (M : FSC n m ℝ) : Py Prop := do
  let b := M.seqBackwardPass
  let elems ← M.parBackwardInit inf
  let elems ← scanVals (fun x y => .ok (combineV x y)) elems true
  let cs ← (List.range b.2.length).mapM (fun k => do
    let e ← pyGet elems k
    let V1 ← pyGet b.2 k
    return normDiff (fun x => e x 0) V1 < testTol)
  return ∀ c ∈ cs, c

/-- `test_par_back`, `test_fsc_np.py:88-98`. -/
noncomputable def fscTestParBack (inf : ℝ) (M : FSC n m ℝ) : Py Prop := do
  let b1 := M.seqBackwardPass
  let b2 ← M.parBackwardPass inf
  let err ← listMax (List.zipWith normDiff b1.2 b2.2)
  let ds ← (b1.1.zip b2.1).mapM (fun e => listMax ((List.finRange n).map fun x => |((e.1 x).val : ℝ) - (e.2 x).val|))
  let err' ← listMax ds
  return err < testTol ∧ err' = 0

/-- `test_par_forscan`, `test_fsc_np.py:101-114`. -/
noncomputable def fscTestParForscan (inf : ℝ) (M : FSC n m ℝ) (x0 : Fin n) : Py Prop := do
  let b1 := M.seqBackwardPass
  let p1 ← M.seqForwardPass x0 b1.1
  let V1 ← pyGet b1.2 0
  let b2 ← M.parBackwardPass inf
  let p2 ← M.parForwardPass x0 b2.1
  let V2 ← pyGet b2.2 0
  return p1.2 = p2.2 ∧ p1.1 = p2.1 ∧ |V1 x0 - V2 x0| < testTol

/-- `test_par_fbscan`, `test_fsc_np.py:116-129`; `tol` is `1e-10`. -/
def fscTestParFbscan {K : Type} [AddCommGroup K] [LinearOrder K] (tol inf : K) (M : FSC n m K) (x0 : Fin n) : Py Prop := do
  let b1 := M.seqBackwardPass
  let p1 ← M.seqForwardPass x0 b1.1
  let V1 ← pyGet b1.2 0
  let b2 ← M.parBackwardPass inf
  let p2 ← M.parFwdBwdPass inf x0 b2.1 b2.2
  let V2 ← pyGet b2.2 0
  return p1.2 = p2.2 ∧ p1.1 = p2.1 ∧ |V1 x0 - V2 x0| < tol

/-- `test_par_fbscan2`, `test_fsc_np.py:131-144`; `tol` is `1e-10`. -/
def fscTestParFbscan2 {K : Type} [AddCommGroup K] [LinearOrder K] (tol inf : K) (M : FSC n m K) (x0 : Fin n) : Py Prop := do
  let b1 ← M.parBackwardPass inf
  let p1 ← M.parFwdBwdPass2 inf x0 b1.1 b1.2
  let V1 ← pyGet b1.2 0
  let b2 ← M.parBackwardPass inf
  let p2 ← M.parFwdBwdPass inf x0 b2.1 b2.2
  let V2 ← pyGet b2.2 0
  return p1.2 = p2.2 ∧ p1.1 = p2.1 ∧ |V1 x0 - V2 x0| < tol

/-- `test_sim`, `test_fsc_np.py:147-152`. -/
noncomputable def fscTestSim (M : FSC n m ℝ) (x0 : Fin n) : Py Prop := do
  let b1 := M.seqBackwardPass
  let p1 ← M.seqForwardPass x0 b1.1
  let xs ← M.seqSimulation x0 p1.1
  return p1.2 = xs

/-- `test_cost`, `test_fsc_np.py:154-164`. -/
noncomputable def fscTestCost (M : FSC n m ℝ) (x0 : Fin n) : Py Prop := do
  let b1 := M.seqBackwardPass
  let p1 ← M.seqForwardPass x0 b1.1
  let V1 ← pyGet b1.2 0
  let c ← M.cost p1.2 p1.1
  return |V1 x0 - c| < testTol

end Verif
