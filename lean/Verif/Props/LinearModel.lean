import Verif.Proof.LinearModel

/-!
Property C74: the linear tracking example of `linear_model_np.py` and `linear_model_tf.py`.  Motions and the cost are in
`Spec/TrackModels.lean`: `CVStep dt u z z'` says that a motion with constant acceleration `u` leads from `z` to `z'` in the
time `dt`.
-/

namespace Verif

open Matrix

/-- C74 (data): for every sequence of random numbers the `N` points start in the middle of the square `[0, 10]²`, stay at a
distance of more than `1/2` from its border, and consecutive points have distance one; no point can be requested. -/
theorem C74_genData (rnd : ℕ → ℝ) (N : ℕ) : (N = 0 → linGenData rnd N = .error .indexError) ∧
    (0 < N → ∃ pts : ℕ → Fin 2 → ℝ, linGenData rnd N = .ok ((List.range N).map pts) ∧ pts 0 = ![5, 5] ∧
      (∀ k < N, ∀ i, 0.5 < pts k i ∧ pts k i < 9.5) ∧
      ∀ k, k + 1 < N → (pts (k + 1) 0 - pts k 0) ^ 2 + (pts (k + 1) 1 - pts k 1) ^ 2 = 1) :=
  ⟨fun h => by unfold linGenData; rw [if_pos h], fun h => linGenData_eq rnd N h⟩

/-- C74 (errors): without steps `getLQT` raises `ZeroDivisionError`, with a negative number of steps or without points
`IndexError`; in all other cases it completes. -/
theorem C74_errors (xy : List (Fin 2 → ℝ)) (steps : ℤ) :
    (linGetLQT xy steps = .error .zeroDivisionError ↔ steps = 0) ∧
    (linGetLQT xy steps = .error .indexError ↔ steps < 0 ∨ (steps ≠ 0 ∧ xy = [])) ∧
    ((∃ r, linGetLQT xy steps = .ok r) ↔ 0 < steps ∧ xy ≠ []) := by
  rcases lt_trichotomy steps 0 with h | rfl | h
  · rw [linGetLQT_neg xy steps h]
    refine ⟨⟨by simp, by omega⟩, by simp [h], by simp; omega⟩
  · rw [linGetLQT_zero]
    exact ⟨by simp, by simp, by simp⟩
  · by_cases hx : xy = []
    · subst hx
      rw [linGetLQT_empty steps h.ne']
      exact ⟨by simp; omega, by simp; omega, by simp⟩
    · obtain ⟨s, rfl⟩ : ∃ s : ℕ, steps = s := ⟨steps.toNat, by omega⟩
      have hN : 0 < xy.length := List.length_pos_iff.2 hx
      obtain ⟨pts, hp⟩ : ∃ pts : ℕ → Fin 2 → ℝ, xy = (List.range xy.length).map pts := by
        refine ⟨fun k => xy.getD k 0, List.ext_getElem (by simp) fun k h1 h2 => by simp [h1]⟩
      have e := linGetLQT_eq pts s xy.length (by omega) hN
      rw [← hp] at e
      rw [e]
      exact ⟨by simp; omega, by simp [hx], by simp [hx]; omega⟩

/-- C74 (optimal control): with `N ≥ 1` points and `s ≥ 1` steps between points the object is convex with `s N` steps of length
`1 / s`, starting at rest in the first point.  All passes complete with the same controls and states, the states are those of
a point moving with piecewise constant acceleration, and among all such motions the computed one uniquely minimises the cost
of tracking. -/
theorem C74_optimal (pts : ℕ → Fin 2 → ℝ) (s N : ℕ) (hs : 0 < s) (hN : 0 < N) :
    ∃ (P : LQT 4 2 ℝ) (x0 : Fin 4 → ℝ) (bw : BwResult 4 2 ℝ) (w : ℕ → Fin 2 → ℝ) (z : ℕ → Fin 4 → ℝ),
      linGetLQT ((List.range N).map pts) s = .ok (P.raw, x0) ∧ x0 = ![pts 0 0, pts 0 1, 0, 0] ∧ P.Convex ∧
      (P.parBackwardPass = .ok bw ∧ P.seqBackwardPass = .ok bw ∧
        P.seqForwardPass x0 bw.Kx_list bw.d_list = .ok ((List.range (s * N)).map w, (List.range (s * N + 1)).map z) ∧
        P.parForwardPass x0 bw.Kx_list bw.d_list = .ok ((List.range (s * N)).map w, (List.range (s * N + 1)).map z) ∧
        P.parFwdBwdPass x0 bw = .ok ((List.range (s * N)).map w, (List.range (s * N + 1)).map z) ∧
        P.parFwdBwdPass2 x0 bw = .ok ((List.range (s * N)).map w, (List.range (s * N + 1)).map z)) ∧
      z 0 = x0 ∧ (∀ k < s * N, CVStep (1 / s) (w k) (z k) (z (k + 1))) ∧
      ∀ (w' : ℕ → Fin 2 → ℝ) (z' : ℕ → Fin 4 → ℝ), z' 0 = x0 → (∀ k < s * N, CVStep (1 / s) (w' k) (z' k) (z' (k + 1))) →
        trackCost pts s N w z ≤ trackCost pts s N w' z' ∧
        (trackCost pts s N w' z' = trackCost pts s N w z → ∀ k < s * N, w' k = w k) := by
  have hdt : (0 : ℝ) ≤ 1 / s := by positivity
  have hnext : ∀ (k : ℕ) (x : Fin 4 → ℝ) (u : Fin 2 → ℝ), (⟨2, cvF (1 / s), cvL (1 / s), if k % s = 0 then (100 : ℝ) • 1 else (1e-6 : ℝ) • 1,
      (0.1 : ℝ) • 1, 0, linH, pts (k / s), 1, 0, 0⟩ : LStage 4 2 ℝ).next x u = cvF (1 / s) *ᵥ x + cvL (1 / s) *ᵥ u := by
    intro k x u
    unfold LStage.next
    dsimp only
    rw [add_zero]
  obtain ⟨bw, w, z, hall, hz0, hz, hopt⟩ := lqt_solved (linLQT pts s N) (linLQT_convex pts s N) (s * N) (Nat.mul_pos hs hN) _ rfl
    ![pts 0 0, pts 0 1, 0, 0]
  refine ⟨linLQT pts s N, _, bw, w, z, linGetLQT_eq pts s N hs hN, rfl, linLQT_convex pts s N, hall, hz0, fun k hk => ?_,
    fun w' z' h0 h' => ?_⟩
  · rw [cvStep_iff _ hdt, hz k hk, hnext]
  · have := hopt w' z' h0 fun k hk => by rw [hnext]; exact (cvStep_iff _ hdt _ _ _).1 (h' k hk)
    rw [linCost_eq, linCost_eq] at this
    exact this

/-- C74 (continuous time): the numpy and TensorFlow versions define the same problem and initial state; the reference curve has
period `50`, the horizon of the problem, and the final target is its end point with velocity zero.  The dynamics are
`p' = v`, `v' = u`, and the weights are positive definite. -/
theorem C74_continuous : linGetCLQTTF = linGetCLQT ∧
    (∀ t, linGetCLQT.1.r (t + linGetCLQT.1.T) = linGetCLQT.1.r t) ∧ linGetCLQT.1.T = 50 ∧
    linGetCLQT.1.rT = ![linGetCLQT.1.r 50 (0 : Fin 2), linGetCLQT.1.r 50 (1 : Fin 2), 0, 0] ∧
    (∀ t x u, linGetCLQT.1.F t *ᵥ x + linGetCLQT.1.L t *ᵥ u + linGetCLQT.1.c t = ![x 2, x 3, u 0, u 1]) ∧
    (∀ t, IsPD (linGetCLQT.1.X t) ∧ (linGetCLQT.1.X t)ᵀ = linGetCLQT.1.X t ∧ IsPD (linGetCLQT.1.U t) ∧
      (linGetCLQT.1.U t)ᵀ = linGetCLQT.1.U t) ∧ IsPD linGetCLQT.1.XT ∧ linGetCLQT.1.XTᵀ = linGetCLQT.1.XT := by
  refine ⟨?_, fun t => ?_, rfl, ?_, fun t x u => ?_, fun t => ⟨?_, ?_, ?_, ?_⟩, ?_, ?_⟩
  · unfold linGetCLQTTF linGetCLQT
    simp only [linRefC_tf]
    rfl
  · show ![linRefC linCx (t + 50), linRefC linCy (t + 50)] = ![linRefC linCx t, linRefC linCy t]
    rw [linRefC_periodic, linRefC_periodic]
  · show ![4.9514, 4.4353, 0, 0] = ![linRefC linCx 50, linRefC linCy 50, 0, 0]
    rw [← zero_add (50 : ℝ), linRefC_periodic, linRefC_periodic, linRefC_zero, linRefC_zero]
    have e1 : linCx 0 + linCx 1 + linCx 3 + linCx 5 + linCx 7 + linCx 9 + linCx 11 = 4.9514 := by
      simp [linCx]
      norm_num
    have e2 : linCy 0 + linCy 1 + linCy 3 + linCy 5 + linCy 7 + linCy 9 + linCy 11 = 4.4353 := by
      simp [linCy]
      norm_num
    rw [e1, e2]
  · funext i
    fin_cases i <;> simp [linGetCLQT, mulVec, dotProduct, Fin.sum_univ_succ]
  · exact isPD_smul_one _ zero_lt_one
  · exact (isPSD_smul_one _ zero_le_one).1
  · exact isPD_smul_one _ (by norm_num)
  · exact (isPSD_smul_one _ (by norm_num)).1
  · exact isPD_smul_one _ zero_lt_one
  · exact (isPSD_smul_one _ zero_le_one).1

/-! ### Examples -/

/-- Three points, with the random number `1/2`: the walk goes straight to the right. -/
example : ∃ pts : ℕ → Fin 2 → ℝ, linGenData (fun _ => 1 / 2) 3 = .ok ((List.range 3).map pts) ∧ pts 0 = ![5, 5] :=
  let ⟨pts, h1, h2, _⟩ := (C74_genData (fun _ => 1 / 2) 3).2 (by norm_num)
  ⟨pts, h1, h2⟩

/-- The default ten steps between two points. -/
example : ∃ r, linGetLQT [![5, 5], ![6, 5]] 10 = .ok r := ((C74_errors _ _).2.2).2 ⟨by norm_num, by simp⟩

/-- Moving by `1` in the time `1` from rest takes the acceleration `2`. -/
example : CVStep 1 ![2, 0] ![5, 5, 0, 0] ![6, 5, 2, 0] := by
  rw [cvStep_iff 1 zero_le_one]
  funext i
  fin_cases i <;> norm_num [cvF, cvL, mulVec, dotProduct, Fin.sum_univ_succ]

end Verif
