import Verif.Model.FSCCheck
import Verif.Model.Viterbi
import Mathlib.Algebra.Field.Defs
import Mathlib.Data.Fin.VecNotation

/-!
Model of the finite example problems: `/repo/parallel_control/ge_model_np.py` and `/repo/parallel_control/finite_model_np.py`.

Simplifications: floating point numbers are elements of a field `K`; the uniform random numbers of `FiniteModel.genData` are a
parameter, the array `trace` (line 42), which is not used, is omitted; `GEModel.genData` is in `Verif.Model.SpeedTest`.
-/

namespace Verif

variable {K : Type}

/-- `get_b_list(x_list)`, `ge_model_np.py:15-29`. -/
def getBList (x_list : List ℕ) : List ℕ := x_list.map (fun x => if x = 2 ∨ x = 3 then 1 else 0)

/-- The arrays of `GEModel.__init__` as functions of the five probabilities, `ge_model_np.py:52-62`. -/
def geHMM [Field K] (p0 p1 p2 q0 q1 : K) : HMM 4 2 K where
  Pi := ![![(1 - p0) * (1 - p2), p0 * (1 - p2), (1 - p0) * p2, p0 * p2],
          ![p1 * (1 - p2), (1 - p1) * (1 - p2), p1 * p2, (1 - p1) * p2],
          ![(1 - p0) * p2, p0 * p2, (1 - p0) * (1 - p2), p0 * (1 - p2)],
          ![p1 * p2, (1 - p1) * p2, p1 * (1 - p2), (1 - p1) * (1 - p2)]]
  Po := ![![1 - q0, q0], ![1 - q1, q1], ![q0, 1 - q0], ![q1, 1 - q1]]
  prior := fun _ => 1 / 4

/-- `GEModel.__init__`, `ge_model_np.py:39-67`. -/
def geModel [Field K] : HMM 4 2 K := geHMM (3 / 100) (1 / 10) (5 / 100) (1 / 10) (3 / 10)

/-- One step of the random walk, `finite_model_np.py:49-54`. -/
def laneStep [Field K] [LinearOrder K] (nx x : ℕ) (u : K) : ℕ :=
  if u < 2 / 10 then (if 0 < x then x - 1 else x)
  else if 1 - 2 / 10 < u then (if x + 1 < nx then x + 1 else x)
  else x

/-- The array `mask`, `finite_model_np.py:40`. -/
def laneMask [Field K] : List K := [5 / 10, 3 / 10, 1 / 10, 3 / 10, 5 / 10]

/-- The loop `for i in range(mask.shape[0])` for one column, `finite_model_np.py:56-59`. -/
def laneStamp [Field K] (nx x k : ℕ) (track : ℕ → ℕ → K) : ℕ → ℕ → K :=
  (List.range (laneMask (K := K)).length).foldl (fun track (i : ℕ) =>
    let y : ℤ := (x : ℤ) - 2 + (i : ℤ)
    if 0 ≤ y ∧ y < nx then
      Function.update track y.toNat (Function.update (track y.toNat) k (track y.toNat k * (laneMask.getD i 0)))
    else track) track

/-- `FiniteModel.genData(T, nx)`, `finite_model_np.py:22-61`; `rnd r k` is the random number drawn at line 48. -/
def laneGenData [Field K] [LinearOrder K] (rnd : ℕ → ℕ → K) (T nx : ℕ) : NArr2 K × ℕ :=
  let x0 := nx / 2
  let track := (List.range 2).foldl (fun track r =>
    ((List.range T).foldl (fun (st : ℕ × (ℕ → ℕ → K)) k =>
      let x := laneStep nx st.1 (rnd r k)
      (x, laneStamp nx x k st.2)) (x0, track)).2) (fun _ _ => 1)
  (⟨nx, T, fun y k => track y k⟩, x0)

/-- `FiniteModel.getFSC(track)`, `finite_model_np.py:64-95`. -/
def laneGetFSC [Field K] (track : NArr2 K) : Py (RawFSC ℕ K) :=
  let xdim := track.rows
  let f : NArr2 ℕ := ⟨xdim, 3, fun x => ![x - 1, x, min (xdim - 1) (x + 1)]⟩
  let u_cost : Fin 3 → K := ![1, 0, 1]
  let LT : NArr1 K := ⟨xdim, fun _ => 0⟩
  let L := (List.finRange track.cols).map (fun k => (⟨xdim, 3, fun x u => track.data x k + u_cost u⟩ : NArr2 K))
  fscCheckAndExpand 1 (.one f) (.list L) (some LT) none

end Verif
