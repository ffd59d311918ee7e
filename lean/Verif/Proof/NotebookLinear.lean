import Verif.Model.NotebookLinear
import Verif.Proof.LinearModel
import Verif.Proof.SpeedItems
import Verif.Proof.SpeedTest
import Verif.Spec.LQTCheck

/-! Helper lemmas for the notebooks on linear tracking and on the chain of masses. -/

namespace Verif

open Matrix

section
variable {K : Type} {n m : ℕ}

theorem rawStage_of (s : LStage n m K) : rawStage n m (.ofMat s.F) (.ofMat s.L) (.ofMat s.X) (.ofMat s.U) (.ofVec s.c) (.ofMat s.H)
    (.ofVec s.r) (.ofMat s.Z) (.ofVec s.s) (.ofMat s.M) = .ok s := by
  unfold rawStage
  have e1 : tfMat (NArr2.ofMat s.X).rows (NArr2.ofMat s.X).rows (.ofMat s.X) = .ok s.X := tfMat_ofMat _
  have e2 : tfMat (NArr2.ofMat s.X).rows n (.ofMat s.H) = .ok s.H := tfMat_ofMat _
  have e3 : tfVec (NArr2.ofMat s.X).rows (.ofVec s.r) = .ok s.r := tfVec_ofVec _
  have e4 : tfMat (NArr2.ofMat s.X).rows m (.ofMat s.M) = .ok s.M := tfMat_ofMat _
  simp only [e1, e2, e3, e4, tfMat_ofMat, tfVec_ofVec, py_ok_bind]
  rfl

theorem typed_raw (Q : LQT n m K) : Q.raw.typed n m = .ok Q := by
  unfold RawLQT.typed
  have h : ((List.range Q.raw.F.length).mapM fun k => do
      rawStage n m (← pyGet Q.raw.F k) (← pyGet Q.raw.L k) (← pyGet Q.raw.X k) (← pyGet Q.raw.U k) (← pyGet Q.raw.c k)
        (← pyGet Q.raw.H k) (← pyGet Q.raw.r k) (← pyGet Q.raw.Z k) (← pyGet Q.raw.s k) (← pyGet Q.raw.M k)) =
      (.ok Q.stages : Py _) := by
    have hl : Q.raw.F.length = Q.stages.length := by simp [LQT.raw]
    rw [hl]
    refine mapM_range_ok.2 ⟨rfl, fun k hk => ⟨Q.stages[k], by simp [hk], ?_⟩⟩
    have hg : ∀ {α : Type} (f : LStage n m K → α), pyGet (Q.stages.map f) k = .ok (f Q.stages[k]) := fun f => by
      unfold pyGet
      simp [hk]
    simp only [LQT.raw, hg, py_ok_bind]
    exact rawStage_of _
  rw [h, py_ok_bind]
  have e1 : tfMat Q.raw.XT.rows Q.raw.XT.rows Q.raw.XT = .ok Q.XT := tfMat_ofMat _
  have e2 : tfMat Q.raw.XT.rows n Q.raw.HT = .ok Q.HT := tfMat_ofMat _
  have e3 : tfVec Q.raw.XT.rows Q.raw.rT = .ok Q.rT := tfVec_ofVec _
  simp only [e1, e2, e3, py_ok_bind]
  rfl

end

theorem npLinspace_length (a b : ℝ) (num : ℕ) : (npLinspace a b num).length = num := by
  unfold npLinspace
  rw [List.length_map, List.length_range]

theorem npLinspace_get (a b : ℝ) (num k : ℕ) (h : k < num) :
    (npLinspace a b num)[k]? = some (a + k * ((b - a) / ((num - 1 : ℕ) : ℝ))) := by
  unfold npLinspace
  simp [h]

theorem plotRow_ok {p : ℕ} (times : List ℝ) (l : List (Fin p → ℝ)) (i : ℕ) (h : i < p) (hl : times.length = l.length) :
    plotRow times l i = .ok (times.zip (l.map fun x => x ⟨i, h⟩)) := by
  unfold plotRow
  rw [dif_pos h, if_pos hl]

end Verif
