import Verif.Proof.LQR
import Verif.Props.LQT

/-! Properties C26 and C27: the linear quadratic regulator (`/repo/parallel_control/lqt_np.py:98-388`). -/

namespace Verif

open Matrix

variable {n m : ℕ} {K : Type} [Field K]

/-! ### C26 -/

/-- C26: the backward pass is that of the tracking problem with constant data, identity `H`, `Z` and zero offsets,
errors included; all its offsets and linear terms are zero. -/
theorem C26_seq_backward [LinearOrder K] (R : LQR n m K) (T : ℕ) : (R.toLQT T).seqBackwardPass =
    (R.seqBackwardPass T).map fun r => ⟨r.1, List.replicate T 0, r.2, List.replicate (T + 1) 0⟩ := lqr_seq_bw R T

/-- C26: the forward pass is that of the tracking problem. -/
theorem C26_seq_forward (R : LQR n m K) (x0 : Fin n → K) (Ks : List (Matrix (Fin m) (Fin n) K)) :
    (R.toLQT Ks.length).seqForwardPass x0 Ks (List.replicate Ks.length 0) = .ok (R.seqForwardPass x0 Ks) :=
  lqr_seq_fw R x0 Ks

/-- C26: the parallel forward pass equals the sequential one for any gains; without gains it raises `ValueError`. -/
theorem C26_par_forward (R : LQR n m K) (x0 : Fin n → K) (Ks : List (Matrix (Fin m) (Fin n) K)) :
    (Ks ≠ [] → R.parForwardPass x0 Ks = .ok (R.seqForwardPass x0 Ks)) ∧
      R.parForwardPass x0 [] = .error .valueError := by
  refine ⟨fun h => ?_, ?_⟩
  · rw [lqr_par_fw, C22_par_eq_seq _ _ _ _ h, C26_seq_forward]
  · rw [lqr_par_fw]
    exact (C22_empty _ _ _).1

variable [LinearOrder K] [IsStrictOrderedRing K]

/-- C26: the parallel backward pass, when it completes, returns the result of the sequential one; `T = 0` included. -/
theorem C26_par_backward (R : LQR n m K) (hR : R.Sym) (T : ℕ)
    (r : List (Matrix (Fin m) (Fin n) K) × List (Matrix (Fin n) (Fin n) K)) (h : R.parBackwardPass T = .ok r) :
    R.seqBackwardPass T = .ok r := lqr_par_bw hR h

/-- C26: for convex problems both complete with the same result. -/
theorem C26_convex (R : LQR n m K) (hR : R.Convex) (T : ℕ) :
    ∃ r, R.parBackwardPass T = .ok r ∧ R.seqBackwardPass T = .ok r ∧ r.1.length = T ∧ r.2.length = T + 1 ∧
      ∀ S ∈ r.2, IsPSD S := by
  obtain ⟨r, h⟩ := lqr_par_total hR T
  have h' := C26_par_backward R hR.toSym T r h
  refine ⟨r, h, h', ?_⟩
  obtain ⟨q, hq, -, hp⟩ := C19_seq_psd _ (lqr_convex hR T)
  rw [(lqr_seq_bw_iff R T r).1 h'] at hq
  obtain ⟨S, v, hb⟩ := seqBackwardPass_iff.1 ((lqr_seq_bw_iff R T r).1 h')
  cases hq
  have hl := hb.length
  simp only [LQR.toLQT, List.length_replicate] at hl
  exact ⟨hl.1, hl.2.2.1, hp⟩

/-- C26: the feedback of the passes minimises the cost of the class documentation, uniquely. -/
theorem C26_optimal (R : LQR n m K) (hR : R.Sym) (T : ℕ)
    (r : List (Matrix (Fin m) (Fin n) K) × List (Matrix (Fin n) (Fin n) K)) (h : R.seqBackwardPass T = .ok r)
    (x0 : Fin n → K) : (R.seqForwardPass x0 r.1).1.length = T ∧
      (R.seqForwardPass x0 r.1).2 = x0 :: R.run x0 (R.seqForwardPass x0 r.1).1 ∧
      ∀ us : List (Fin m → K), us.length = T → R.total x0 (R.seqForwardPass x0 r.1).1 ≤ R.total x0 us ∧
        (R.total x0 us = R.total x0 (R.seqForwardPass x0 r.1).1 → us = (R.seqForwardPass x0 r.1).1) := by
  have hb := (lqr_seq_bw_iff R T r).1 h
  obtain ⟨S, v, hbw⟩ := seqBackwardPass_iff.1 hb
  have hlen : r.1.length = T := by
    have := hbw.length.1
    simpa [LQR.toLQT] using this
  obtain ⟨us, xs, J, h1, h2, h3, h4, h5⟩ := C18_optimal (R.toLQT T) (lqr_sym hR T) _ hb x0
  simp only [LQR.toLQT, List.length_replicate] at h2
  have hf := C26_seq_forward R x0 r.1
  rw [hlen] at hf
  rw [hf] at h1
  simp only [Except.ok.injEq] at h1
  have e1 : (R.seqForwardPass x0 r.1).1 = us := by rw [h1]
  have e2 : (R.seqForwardPass x0 r.1).2 = xs := by rw [h1]
  rw [e1, e2]
  have hcost : ∀ us : List (Fin m → K), us.length = T →
      (R.toLQT T).seqSimulation x0 us = .ok (x0 :: R.run x0 us) ∧
      (R.toLQT T).cost us (x0 :: R.run x0 us) = .ok (R.total x0 us) := by
    intro us hu
    subst hu
    obtain ⟨k1, k2⟩ := lqr_total_eq R us x0
    have hle : us.length ≤ (R.toLQT us.length).stages.length := by simp [LQR.toLQT]
    rw [← k1, ← k2]
    exact ⟨lqtSimulation_eq hle x0, lqt_cost_eq hle x0⟩
  obtain ⟨c1, c2⟩ := hcost us h2
  rw [c1] at h3
  cases h3
  rw [c2] at h4
  cases h4
  refine ⟨h2, rfl, fun us' hu' => ?_⟩
  obtain ⟨xs', J', d1, d2, d3, d4⟩ := h5 us' (by simpa [LQR.toLQT] using hu')
  obtain ⟨c3, c4⟩ := hcost us' hu'
  rw [c3] at d1
  cases d1
  rw [c4] at d2
  cases d2
  exact ⟨d3, d4⟩

/-! ### C27 -/

omit [IsStrictOrderedRing K] in
/-- C27: `lqrIter(k)` does the `k` steps of `seqBackwardPass(k)` from `XT = X`: it returns the first gain (`None` if
`k = 0`) and the first value function, or the same error. -/
theorem C27_iter (R : LQR n m K) (k : ℕ) : (R.lqrIter k).map (fun q => (q.1, some q.2)) =
    (({ R with XT := R.X } : LQR n m K).seqBackwardPass k).map fun r => (r.1[0]?, r.2[0]?) := by
  rw [lqr_iter_eq]
  simp only [List.head?_eq_getElem?]

/-- C27: `lqrDouble(k)` returns the value function of `2^k - 1` steps, whenever both complete. -/
theorem C27_double (R : LQR n m K) (hR : R.Sym) (hU : IsPD R.U) (k : ℕ) (Kd : Matrix (Fin m) (Fin n) K)
    (S S' : Matrix (Fin n) (Fin n) K) (o : Option (Matrix (Fin m) (Fin n) K)) (h : R.lqrDouble k = .ok (Kd, S))
    (h' : R.lqrIter (2 ^ k - 1) = .ok (o, S')) : S = S' := lqr_double_eq hR hU h h'

/-- C27: for convex problems both complete; the gain of `lqrDouble(k)` is that of `lqrIter(2^k)`. -/
theorem C27_convex (R : LQR n m K) (hR : R.Convex) (k : ℕ) :
    ∃ Kd S o S', R.lqrDouble k = .ok (Kd, S) ∧ R.lqrIter (2 ^ k - 1) = .ok (o, S) ∧
      R.lqrIter (2 ^ k) = .ok (some Kd, S') ∧ IsPSD S := by
  obtain ⟨Kd, S, h1, h2⟩ := lqr_double_total hR k
  obtain ⟨o, S1, h3, h4⟩ := lqr_iter_total hR (2 ^ k - 1)
  have := C27_double R hR.toSym hR.1.2 k Kd S S1 o h1 h3
  subst this
  refine ⟨Kd, S, o, R.update S Kd, h1, h3, ?_, h4⟩
  have hpos : 2 ^ k = (2 ^ k - 1) + 1 := (Nat.sub_add_cancel Nat.one_le_two_pow).symm
  unfold LQR.lqrIter at h3 ⊢
  rw [hpos, lqr_iterLoop_add, h3]
  show R.iterLoop 1 o S = _
  simp only [LQR.iterLoop]
  rw [h2]
  rfl

omit [IsStrictOrderedRing K] in
/-- C27: without iterations there is no gain. -/
theorem C27_zero (R : LQR n m K) : R.lqrIter 0 = .ok (none, R.X) := rfl

/-- A double integrator. -/
def exLQR : LQR 2 1 ℚ := ⟨!![1, 1; 0, 1], !![0; 1], !![2, 1; 1, 1], !![3], !![1, 0; 0, 4]⟩

theorem exLQR_convex : exLQR.Convex := by
  refine ⟨⟨?_, ?_⟩, ⟨?_, ?_⟩, ⟨?_, ?_⟩⟩
  · ext i j; fin_cases i; fin_cases j; rfl
  · intro x hx
    have h0 : x 0 ≠ 0 := fun h => hx (by ext i; fin_cases i; exact h)
    have : 0 < x 0 * x 0 := mul_self_pos.2 h0
    simp [exLQR, dotProduct, mulVec, Fin.sum_univ_succ]
    linarith
  · ext i j; fin_cases i <;> fin_cases j <;> rfl
  · intro x
    have e : x ⬝ᵥ exLQR.X *ᵥ x = x 0 ^ 2 + (x 0 + x 1) ^ 2 := by
      simp [exLQR, dotProduct, mulVec, Fin.sum_univ_succ]; ring
    rw [e]; positivity
  · ext i j; fin_cases i <;> fin_cases j <;> rfl
  · intro x
    have e : x ⬝ᵥ exLQR.XT *ᵥ x = x 0 ^ 2 + 4 * x 1 ^ 2 := by
      simp [exLQR, dotProduct, mulVec, Fin.sum_univ_succ]; ring
    rw [e]; positivity

example : ∃ r, exLQR.parBackwardPass 5 = .ok r ∧ exLQR.seqBackwardPass 5 = .ok r ∧ r.1.length = 5 := by
  obtain ⟨r, h1, h2, h3, -⟩ := C26_convex exLQR exLQR_convex 5
  exact ⟨r, h1, h2, h3⟩

example : ∃ Kd S o, exLQR.lqrDouble 3 = .ok (Kd, S) ∧ exLQR.lqrIter 7 = .ok (o, S) := by
  obtain ⟨Kd, S, o, S', h1, h2, -⟩ := C27_convex exLQR exLQR_convex 3
  exact ⟨Kd, S, o, h1, h2⟩

end Verif
