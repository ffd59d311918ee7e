import Verif.Proof.LQTTests
import Verif.Props.LQR
import Verif.Props.LQTBatch
import Verif.Props.FSCTests

/-!
# C115: the unit tests of the linear quadratic solvers (`test_lqt_np.py`)
-/

namespace Verif

open Matrix

variable {n m : ℕ}

/-- **C115** (no failed assertion): on problems with symmetric weights, convex or not, the tests that compare passes of
the tracker can raise an exception but never fail an assertion. -/
theorem C115_never_fails (P : LQT n m ℝ) (hP : P.Sym) (x0 : Fin n → ℝ) (Q : Prop) :
    (lqtTestSeqPar P x0 = .ok Q → Q) ∧ (lqtTestRnd1 P x0 = .ok Q → Q) ∧ (lqtTestRnd2 P x0 = .ok Q → Q) ∧
    (lqtTestRnd3 P x0 = .ok Q → Q) ∧
    ((∀ s ∈ P.stages, s.p = P.pT) → P.stages ≠ [] → lqtTestSeqRnd1 P x0 = .ok Q → Q) ∧
    (lqtTestTrans P = .ok Q → Q) := by
  have hfw : ∀ (b : BwResult n m ℝ) r, P.parForwardPass x0 b.Kx_list b.d_list = .ok r →
      P.seqForwardPass x0 b.Kx_list b.d_list = .ok r := by
    intro b r h
    by_cases hk : b.Kx_list = []
    · rw [hk, (C22_empty P x0 _).1] at h; cases h
    · rw [← C22_par_eq_seq P x0 _ _ hk]; exact h
  refine ⟨fun h => ?_, fun h => ?_, fun h => ?_, fun h => ?_, fun hp hT h => ?_, fun h => ?_⟩
  · unfold lqtTestSeqPar at h
    obtain ⟨b1, h1, h⟩ := bind_ok.1 h
    obtain ⟨b2, h2, h⟩ := bind_ok.1 h
    obtain ⟨p1, h3, h⟩ := bind_ok.1 h
    obtain ⟨p2, h4, h⟩ := bind_ok.1 h
    obtain ⟨e1, h5, h⟩ := bind_ok.1 h
    obtain ⟨e2, h6, hQ⟩ := bind_ok.1 h
    obtain rfl : b1 = b2 := Except.ok.inj (h1.symm.trans (C21_par_eq_seq P hP b2 h2))
    obtain rfl : p1 = p2 := Except.ok.inj (h3.symm.trans (hfw _ _ h4))
    rw [← Except.ok.inj hQ]
    exact ⟨errV_same h5, errV_same h6⟩
  · unfold lqtTestRnd1 at h
    obtain ⟨b1, h1, h⟩ := bind_ok.1 h
    obtain ⟨b2, h2, h⟩ := bind_ok.1 h
    obtain ⟨p1, h3, h⟩ := bind_ok.1 h
    obtain ⟨p2, h4, h⟩ := bind_ok.1 h
    obtain ⟨e1, h5, h⟩ := bind_ok.1 h
    obtain ⟨e2, h6, hQ⟩ := bind_ok.1 h
    obtain rfl : b1 = b2 := Except.ok.inj (h1.symm.trans (C21_par_eq_seq P hP b2 h2))
    obtain rfl : p1 = p2 := Except.ok.inj (h3.symm.trans (hfw _ _ h4))
    rw [← Except.ok.inj hQ]
    exact ⟨rfl, errV_same h5, rfl, errV_same h6⟩
  · unfold lqtTestRnd2 at h
    obtain ⟨b1, h1, h⟩ := bind_ok.1 h
    obtain ⟨p1, h3, h⟩ := bind_ok.1 h
    obtain ⟨b2, h2, h⟩ := bind_ok.1 h
    obtain ⟨p2, h4, h⟩ := bind_ok.1 h
    obtain ⟨e1, h5, h⟩ := bind_ok.1 h
    obtain ⟨e2, h6, hQ⟩ := bind_ok.1 h
    obtain rfl : b1 = b2 := Except.ok.inj (h1.symm.trans (C21_par_eq_seq P hP b2 h2))
    obtain rfl : p1 = p2 := Except.ok.inj (h3.symm.trans (C23_fwdbwd P hP b1 h1 x0 p2.1 p2.2 h4))
    rw [← Except.ok.inj hQ]
    exact ⟨rfl, errV_same h5, rfl, errV_same h6⟩
  · unfold lqtTestRnd3 at h
    obtain ⟨b1, h1, h⟩ := bind_ok.1 h
    obtain ⟨p1, h3, h⟩ := bind_ok.1 h
    obtain ⟨b2, h2, h⟩ := bind_ok.1 h
    obtain ⟨p2, h4, h⟩ := bind_ok.1 h
    obtain ⟨e1, h5, h⟩ := bind_ok.1 h
    obtain ⟨e2, h6, hQ⟩ := bind_ok.1 h
    obtain rfl : b1 = b2 := Except.ok.inj (h1.symm.trans h2)
    have hs := C21_par_eq_seq P hP b1 h1
    obtain rfl : p1 = p2 := Except.ok.inj
      ((C23_fwdbwd2 P hP b1 hs x0 p1.1 p1.2 h3).symm.trans (C23_fwdbwd P hP b1 hs x0 p2.1 p2.2 h4))
    rw [← Except.ok.inj hQ]
    exact ⟨rfl, errV_same h5, rfl, errV_same h6⟩
  · unfold lqtTestSeqRnd1 at h
    obtain ⟨p0, h0, h⟩ := bind_ok.1 h
    obtain ⟨b1, h1, h⟩ := bind_ok.1 h
    obtain ⟨p1, h3, h⟩ := bind_ok.1 h
    obtain ⟨x2, h4, h⟩ := bind_ok.1 h
    obtain ⟨e1, h5, h⟩ := bind_ok.1 h
    obtain ⟨e2, h6, h⟩ := bind_ok.1 h
    obtain ⟨e3, h7, hQ⟩ := bind_ok.1 h
    rw [C24_batch_eq_seq P hP hp hT b1 h1] at h0
    obtain rfl : p0 = p1 := Except.ok.inj (h0.symm.trans h3)
    obtain ⟨us, xs, J, k1, -, k2, -⟩ := C18_optimal P hP b1 h1 x0
    obtain rfl : p0 = (us, xs) := Except.ok.inj (h3.symm.trans k1)
    obtain rfl : x2 = xs := Except.ok.inj (h4.symm.trans k2)
    rw [← Except.ok.inj hQ]
    exact ⟨rfl, errV_same h5, rfl, errV_same h6, rfl, errV_same h7⟩
  · unfold lqtTestTrans at h
    obtain ⟨b1, h1, h⟩ := bind_ok.1 h
    obtain ⟨b2, h2, h⟩ := bind_ok.1 h
    obtain ⟨e1, h3, h⟩ := bind_ok.1 h
    obtain ⟨e2, h4, h⟩ := bind_ok.1 h
    obtain ⟨e3, h5, h⟩ := bind_ok.1 h
    obtain ⟨e4, h6, hQ⟩ := bind_ok.1 h
    have hS : LQT.Sym { P with stages := P.stages.map fun s => { s with Z := 1 } } := by
      refine ⟨fun s hs => ?_, hP.2⟩
      obtain ⟨t, ht, rfl⟩ := List.mem_map.1 hs
      exact hP.1 t ht
    have h2' := ((C25_transformed _ hS (by
      intro s hs
      obtain ⟨t, ht, rfl⟩ := List.mem_map.1 hs
      rfl) b2).1 h2).2.2.2
    obtain rfl : b1 = b2 := Except.ok.inj (h1.symm.trans h2')
    rw [← Except.ok.inj hQ]
    exact ⟨errM_same h3, errM_same h4, errV_same h5, errV_same h6⟩

theorem lqt_lists_ne {P : LQT n m ℝ} (hT : P.stages ≠ []) {b : BwResult n m ℝ} (h : P.seqBackwardPass = .ok b) :
    b.Kx_list ≠ [] ∧ b.d_list ≠ [] ∧ b.S_list ≠ [] ∧ b.v_list ≠ [] := by
  obtain ⟨S, v, hb⟩ := seqBackwardPass_iff.1 h
  have hl := hb.length
  have : 0 < P.stages.length := List.length_pos_of_ne_nil hT
  refine ⟨?_, ?_, ?_, ?_⟩ <;> intro h0 <;> simp [h0] at hl <;> omega

/-- **C115** (convex trackers): on every convex problem with at least one step, from every state, the tests pass; with
one output dimension also those that use `batchSolution` or the transformed pass. -/
theorem C115_convex (P : LQT n m ℝ) (hP : P.Convex) (hT : P.stages ≠ []) (x0 : Fin n → ℝ) :
    Passes (lqtTestSeqPar P x0) ∧ Passes (lqtTestRnd1 P x0) ∧ Passes (lqtTestRnd2 P x0) ∧
    Passes (lqtTestRnd3 P x0) ∧ ((∀ s ∈ P.stages, s.p = P.pT) → Passes (lqtTestSeqRnd1 P x0)) := by
  obtain ⟨b, us, xs, h1, h2, h3, h4, h5, h6⟩ := C23_convex P hP hT x0
  obtain ⟨us', xs', J, k1, k2, k3, -⟩ := C18_optimal P hP.toSym b h2 x0
  obtain ⟨rfl, rfl⟩ : us = us' ∧ xs = xs' := by
    have := Except.ok.inj (h3.symm.trans k1)
    exact ⟨congrArg Prod.fst this, congrArg Prod.snd this⟩
  have hu : us ≠ [] := by
    intro h; rw [h] at k2; exact hT (List.length_eq_zero_iff.1 k2.symm)
  have hx : xs ≠ [] := by
    intro h
    rw [h] at k3
    unfold LQT.seqSimulation at k3
    obtain ⟨a, -, k⟩ := bind_ok.1 k3
    cases k
  have e1 := errV_self hx
  have e2 := errV_self hu
  have ht := testTol_pos
  refine ⟨⟨0 < testTol ∧ 0 < testTol, ?_, ht, ht⟩,
    ⟨xs.length = xs.length ∧ 0 < testTol ∧ us.length = us.length ∧ 0 < testTol, ?_, rfl, ht, rfl, ht⟩,
    ⟨xs.length = xs.length ∧ 0 < testTol ∧ us.length = us.length ∧ 0 < testTol, ?_, rfl, ht, rfl, ht⟩,
    ⟨xs.length = xs.length ∧ 0 < testTol ∧ us.length = us.length ∧ 0 < testTol, ?_, rfl, ht, rfl, ht⟩,
    fun hp => ⟨xs.length = xs.length ∧ 0 < testTol ∧ us.length = us.length ∧ 0 < testTol ∧ xs.length = xs.length ∧
      0 < testTol, ?_, rfl, ht, rfl, ht, rfl, ht⟩⟩
  · unfold lqtTestSeqPar
    simp only [h1, h2, h3, h4, e1, e2, bind, Except.bind]
    rfl
  · unfold lqtTestRnd1
    simp only [h1, h2, h3, h4, e1, e2, bind, Except.bind]
    rfl
  · unfold lqtTestRnd2
    simp only [h1, h2, h3, h5, e1, e2, bind, Except.bind]
    rfl
  · unfold lqtTestRnd3
    simp only [h1, h5, h6, e1, e2, bind, Except.bind]
    rfl
  · have h7 := C24_batch_eq_seq P hP.toSym hp hT b h2 x0
    rw [h3] at h7
    unfold lqtTestSeqRnd1
    simp only [h7, h2, h3, k3, e1, e2, bind, Except.bind]
    rfl

/-- **C115** (`test_trans_pass`): it passes exactly when there is a step, every `U` is invertible, all steps have the same
output dimension and the direct backward pass with `Z = I` completes. -/
theorem C115_trans (P : LQT n m ℝ) (hP : P.Sym) :
    Passes (lqtTestTrans P) ↔ P.stages ≠ [] ∧ (∀ s ∈ P.stages, s.U.det ≠ 0) ∧
      (∀ s ∈ P.stages, ∀ t ∈ P.stages, s.p = t.p) ∧
      ∃ r, LQT.seqBackwardPass { P with stages := P.stages.map fun s => { s with Z := 1 } } = .ok r := by
  have hS : LQT.Sym { P with stages := P.stages.map fun s => { s with Z := 1 } } := by
    refine ⟨fun s hs => ?_, hP.2⟩
    obtain ⟨t, ht, rfl⟩ := List.mem_map.1 hs
    exact hP.1 t ht
  have key := fun r => C25_transformed _ hS (by
      intro s hs
      obtain ⟨t, ht, rfl⟩ := List.mem_map.1 hs
      rfl) r
  simp only [ne_eq, List.map_eq_nil_iff, List.forall_mem_map] at key
  constructor
  · rintro ⟨Q, h, -⟩
    unfold lqtTestTrans at h
    obtain ⟨b1, h1, h⟩ := bind_ok.1 h
    obtain ⟨b2, h2, h⟩ := bind_ok.1 h
    obtain ⟨a1, a2, a3, a4⟩ := (key b2).1 h2
    exact ⟨a1, a2, a3, b2, a4⟩
  · rintro ⟨a1, a2, a3, r, a4⟩
    have h2 := (key r).2 ⟨a1, a2, a3, a4⟩
    obtain ⟨n1, n2, n3, n4⟩ := lqt_lists_ne (P := { P with stages := P.stages.map fun s => { s with Z := 1 } })
      (by simpa using a1) a4
    have ht := testTol_pos
    refine ⟨0 < testTol ∧ 0 < testTol ∧ 0 < testTol ∧ 0 < testTol, ?_, ht, ht, ht, ht⟩
    unfold lqtTestTrans
    simp only [a4, h2, errM_self n1, errM_self n3, errV_self n2, errV_self n4, bind, Except.bind]
    rfl

/-- **C115** (`test_cost`): if the backward pass completes, the test passes exactly when some draw is not zero. -/
theorem C115_cost (P : LQT n m ℝ) (hP : P.Sym) (b : BwResult n m ℝ) (hb : P.seqBackwardPass = .ok b) (x0 : Fin n → ℝ)
    (w : List (Fin m → ℝ)) (hw : w.length = P.stages.length) :
    Passes (lqtTestCost P x0 w) ↔ ∃ d ∈ w, d ≠ 0 := by
  obtain ⟨us, xs, J, h1, h2, h3, h4, h5⟩ := C18_optimal P hP b hb x0
  have hl : (List.zipWith (fun u d => u + d) us w).length = P.stages.length := by
    rw [List.length_zipWith, h2, hw, min_self]
  obtain ⟨xs', J', k1, k2, k3, k4⟩ := h5 _ hl
  have e : lqtTestCost P x0 w = .ok (J' > J) := by
    unfold lqtTestCost
    simp only [hb, h1, k1, h4, k2, bind, Except.bind]
    rfl
  have hz : List.zipWith (fun u d => u + d) us w = us ↔ ∀ d ∈ w, d = 0 := by
    have : us.length = w.length := h2.trans hw.symm
    clear e k1 k2 k3 k4 hl h1 h2 h3 h4 h5 hw
    induction us generalizing w with
    | nil => cases w with
      | nil => simp
      | cons d w => simp at this
    | cons u us ih =>
      cases w with
      | nil => simp at this
      | cons d w =>
        have hi := ih w (by simpa using this)
        rw [List.zipWith_cons_cons, List.cons.injEq, List.forall_mem_cons, add_eq_left]
        exact and_congr_right fun _ => hi
  have hp : Passes (lqtTestCost P x0 w) ↔ J' > J := by
    rw [e]
    exact ⟨fun ⟨Q, h, hq⟩ => (Except.ok.inj h) ▸ hq, fun h => ⟨_, rfl, h⟩⟩
  rw [hp]
  constructor
  · intro h
    by_contra hc
    push Not at hc
    rw [hz.2 hc] at k1
    have : xs' = xs := Except.ok.inj (k1.symm.trans h3)
    rw [hz.2 hc, this, h4] at k2
    exact absurd (Except.ok.inj k2) h.ne
  · rintro ⟨d, hd, hne⟩
    refine lt_of_le_of_ne k3 fun hJ => hne (hz.1 (k4 hJ.symm) d hd)

/-- **C115** (regulators): on every convex regulator, from every state, the tests of the regulator and the tests that
compare it with the tracker pass for every positive horizon. -/
theorem C115_regulator (R : LQR n m ℝ) (hR : R.Convex) (T : ℕ) (hT : 0 < T) (x0 : Fin n → ℝ) :
    Passes (lqrTestParallel R T x0) ∧ Passes (lqrTestSingle R x0) ∧ Passes (lqtTestSeqLQR R (R.toLQT T) T x0) ∧
    Passes (lqtTestParLQR R (R.toLQT T) T x0) ∧ Passes (lqtTestLQRBatch R (R.toLQT T) T x0) := by
  have ht := testTol_pos
  have base : ∀ N, 0 < N → ∃ r, R.parBackwardPass N = .ok r ∧ R.seqBackwardPass N = .ok r ∧ r.1.length = N ∧ r.1 ≠ [] ∧
      r.2 ≠ [] ∧ R.parForwardPass x0 r.1 = .ok (R.seqForwardPass x0 r.1) ∧ (R.seqForwardPass x0 r.1).1 ≠ [] := by
    intro N hN
    obtain ⟨r, a1, a2, a3, a4, -⟩ := C26_convex R hR N
    have n1 : r.1 ≠ [] := by intro h; rw [h] at a3; simp at a3; omega
    refine ⟨r, a1, a2, a3, n1, by intro h; rw [h] at a4; simp at a4, (C26_par_forward R x0 r.1).1 n1, ?_⟩
    intro h
    cases hr : r.1 with
    | nil => exact n1 hr
    | cons a l => rw [hr] at h; simp [LQR.seqForwardPass, LQR.fwLoop] at h
  obtain ⟨r, a1, a2, a3, n1, n2, a4, n3⟩ := base T hT
  obtain ⟨q, b1, b2, b3, m1, m2, b4, m3⟩ := base 1 one_pos
  have hst : (R.toLQT T).stages ≠ [] := by
    intro h; have := congrArg List.length h; simp [LQR.toLQT] at this; omega
  have c2 : (R.toLQT T).seqBackwardPass = .ok ⟨r.1, List.replicate T 0, r.2, List.replicate (T + 1) 0⟩ := by
    rw [C26_seq_backward, a2]; rfl
  obtain ⟨bw, c1, c1'⟩ := C21_convex (R.toLQT T) (lqr_convex hR T) hst
  obtain rfl := Except.ok.inj (c1'.symm.trans c2)
  have c3 : (R.toLQT T).seqForwardPass x0 r.1 (List.replicate T 0) = .ok (R.seqForwardPass x0 r.1) := by
    have := C26_seq_forward R x0 r.1
    rwa [a3] at this
  have c4 : (R.toLQT T).parForwardPass x0 r.1 (List.replicate T 0) = .ok (R.seqForwardPass x0 r.1) := by
    rw [C22_par_eq_seq _ _ _ _ n1, c3]
  have c5 := C24_batch_eq_seq (R.toLQT T) (lqr_convex hR T).toSym (by
    intro s hs
    obtain ⟨-, rfl⟩ := List.mem_replicate.1 hs
    rfl) hst _ c2 x0
  rw [c3] at c5
  have n4 : (R.seqForwardPass x0 r.1).2 ≠ [] := by simp [LQR.seqForwardPass]
  have m4 : (R.seqForwardPass x0 q.1).2 ≠ [] := by simp [LQR.seqForwardPass]
  have n5 : List.replicate T (0 : Fin m → ℝ) ≠ [] := by
    intro h; have := congrArg List.length h; simp at this; omega
  refine ⟨⟨0 < testTol ∧ 0 < testTol ∧ 0 < testTol ∧ 0 < testTol, ?_, ht, ht, ht, ht⟩,
    ⟨0 < testTol ∧ 0 < testTol, ?_, ht, ht⟩,
    ⟨0 < testTol ∧ 0 < testTol ∧ 0 < testTol ∧ 0 < testTol ∧ 0 < testTol ∧ 0 < testTol, ?_, ht, ht, ht, ht, ht, ht⟩,
    ⟨0 < testTol ∧ 0 < testTol ∧ 0 < testTol ∧ 0 < testTol ∧ 0 < testTol ∧ 0 < testTol, ?_, ht, ht, ht, ht, ht, ht⟩,
    ⟨0 < testTol ∧ 0 < testTol, ?_, ht, ht⟩⟩
  · unfold lqrTestParallel
    simp only [a1, a2, a4, errM_self n1, errM_self n2, errV_self n3, errV_self n4, bind, Except.bind]
    rfl
  · unfold lqrTestSingle
    simp only [b1, b2, b4, errV_self m3, errV_self m4, bind, Except.bind]
    rfl
  · unfold lqtTestSeqLQR
    simp only [c2, a2, c3, errM_self n1, errM_self n2, errV_self n5, errV_zeros hT, errV_self n3, errV_self n4, bind,
      Except.bind]
    rfl
  · unfold lqtTestParLQR
    simp only [c1, a1, c4, a4, errM_self n1, errM_self n2, errV_self n5, errV_zeros hT, errV_self n3, errV_self n4, bind,
      Except.bind]
    rfl
  · unfold lqtTestLQRBatch
    simp only [c5, a2, errV_self n3, errV_self n4, bind, Except.bind]
    rfl

/-- **C115** (data): the regulators of the file are convex, so that all these tests pass on them. -/
theorem C115_data : testLQR1.Convex ∧ testLQR2.Convex := by
  have hu : ((!![1] : Matrix (Fin 1) (Fin 1) ℝ)ᵀ = !![1]) ∧ IsPD (!![1] : Matrix (Fin 1) (Fin 1) ℝ) := by
    refine ⟨by ext i j; fin_cases i; fin_cases j; rfl, fun x hx => ?_⟩
    have h0 : x 0 ≠ 0 := fun h => hx (by ext i; fin_cases i; exact h)
    simp [dotProduct, mulVec, h0]
  have hx : IsPSD (!![1 / 2, 0; 0, 1 / 10] : Matrix (Fin 2) (Fin 2) ℝ) := by
    refine ⟨by ext i j; fin_cases i <;> fin_cases j <;> rfl, fun x => ?_⟩
    simp [dotProduct, mulVec, Fin.sum_univ_succ]
    nlinarith [mul_self_nonneg (x 0), mul_self_nonneg (x 1)]
  have hT : IsPSD ((1 / 10 : ℝ) • (1 : Matrix (Fin 2) (Fin 2) ℝ)) := by
    refine ⟨by simp, fun x => ?_⟩
    rw [smul_mulVec, one_mulVec, dotProduct_smul, smul_eq_mul]
    simp [dotProduct, Fin.sum_univ_succ]
    nlinarith [mul_self_nonneg (x 0), mul_self_nonneg (x 1)]
  exact ⟨⟨hu, hx, hT⟩, hu, hx, hT⟩

/-- The tests on the data of the file. -/
example : Passes (lqrTestParallel testLQR1 10 ![0, 1]) ∧ Passes (lqrTestSingle testLQR1 ![0, 1]) ∧
    Passes (lqtTestSeqLQR testLQR2 (testLQR2.toLQT 10) 10 ![0, 1]) ∧
    Passes (lqtTestParLQR testLQR2 (testLQR2.toLQT 10) 10 ![0, 1]) ∧
    Passes (lqtTestLQRBatch testLQR2 (testLQR2.toLQT 5) 5 ![1 / 10, 1]) := by
  obtain ⟨a1, a2, -⟩ := C115_regulator testLQR1 C115_data.1 10 (by norm_num) ![0, 1]
  obtain ⟨-, -, a3, a4, -⟩ := C115_regulator testLQR2 C115_data.2 10 (by norm_num) ![0, 1]
  obtain ⟨-, -, -, -, a5⟩ := C115_regulator testLQR2 C115_data.2 5 (by norm_num) ![1 / 10, 1]
  exact ⟨a1, a2, a3, a4, a5⟩

/-- The hypotheses of `C115_never_fails`, `C115_convex`, `C115_trans` and `C115_cost` on a tracker of three steps. -/
example : (testLQR1.toLQT 3).Sym ∧ (testLQR1.toLQT 3).Convex ∧ Passes (lqtTestRnd1 (testLQR1.toLQT 3) ![1, 2]) ∧
    Passes (lqtTestCost (testLQR1.toLQT 3) ![1, 2] [![1], 0, 0]) ∧
    ¬ Passes (lqtTestCost (testLQR1.toLQT 3) ![1, 2] [0, 0, 0]) := by
  have hC := lqr_convex C115_data.1 3
  obtain ⟨b, hb, -⟩ := C19_seq_psd _ hC
  refine ⟨hC.toSym, hC, (C115_convex _ hC (by simp [LQR.toLQT]) _).2.1, ?_, ?_⟩
  · rw [C115_cost _ hC.toSym b hb _ _ (by simp [LQR.toLQT])]
    exact ⟨![1], by simp, fun h => by simpa using congrFun h 0⟩
  · rw [C115_cost _ hC.toSym b hb _ _ (by simp [LQR.toLQT])]
    simp

/-- **C115** (random problems): whatever the draws, the problem of `setupRndLQT` has symmetric weights and one output
dimension, so that by `C115_never_fails` no assertion of the tests on it fails. -/
theorem C115_rnd (d : Fin 5 → RndStage) (HT : Matrix (Fin 3) (Fin 4) ℝ) (rT : Fin 3 → ℝ) (XT : Matrix (Fin 3) (Fin 6) ℝ) :
    (testRndLQT d HT rT XT).Sym ∧ (testRndLQT d HT rT XT).stages.length = 5 ∧
      ∀ s ∈ (testRndLQT d HT rT XT).stages, s.p = (testRndLQT d HT rT XT).pT := by
  refine ⟨⟨fun s hs => ?_, ?_⟩, ?_, fun s hs => ?_⟩
  · obtain ⟨t, -, rfl⟩ := List.mem_map.1 hs
    refine ⟨?_, ?_⟩
    · show (t.X * t.Xᵀ)ᵀ = t.X * t.Xᵀ
      rw [transpose_mul, transpose_transpose]
    · show (t.U * t.Uᵀ + 1)ᵀ = t.U * t.Uᵀ + 1
      rw [transpose_add, transpose_mul, transpose_transpose, transpose_one]
  · show (XT * XTᵀ)ᵀ = XT * XTᵀ
    rw [transpose_mul, transpose_transpose]
  · simp [testRndLQT]
  · obtain ⟨t, -, rfl⟩ := List.mem_map.1 hs
    rfl

/-- Draws with a control gain `l`, an output gain `h` and a cross weight `μ`. -/
def badDraw (l h μ : ℝ) : RndStage :=
  ⟨0, 0, 0, 0, !![μ, 0; 0, 0; 0, 0], 1, !![h, 0, 0, 0; 0, 0, 0, 0; 0, 0, 0, 0], !![l, 0; 0, 0; 0, 0; 0, 0], 0, 0⟩

/-- **C115** (unlucky draws): since the cross weights `M` are drawn freely, there are draws for which the cost is not bounded
below; the sequential and the parallel backward pass raise an exception and no test on the problem passes. -/
theorem C115_unlucky : ∃ d : Fin 5 → RndStage, ∀ x0 w,
    (∀ r, (testRndLQT d 0 0 0).seqBackwardPass ≠ .ok r) ∧ (∀ r, (testRndLQT d 0 0 0).parBackwardPass ≠ .ok r) ∧
    ¬ Passes (lqtTestRnd1 (testRndLQT d 0 0 0) x0) ∧ ¬ Passes (lqtTestRnd2 (testRndLQT d 0 0 0) x0) ∧
    ¬ Passes (lqtTestRnd3 (testRndLQT d 0 0 0) x0) ∧ ¬ Passes (lqtTestSeqRnd1 (testRndLQT d 0 0 0) x0) ∧
    ¬ Passes (lqtTestTrans (testRndLQT d 0 0 0)) ∧ ¬ Passes (lqtTestCost (testRndLQT d 0 0 0) x0 w) := by
  refine ⟨![badDraw 1 0 0, badDraw 0 1 2, badDraw 0 0 0, badDraw 0 0 0, badDraw 0 0 0], fun x0 w => ?_⟩
  set d : Fin 5 → RndStage := ![badDraw 1 0 0, badDraw 0 1 2, badDraw 0 0 0, badDraw 0 0 0, badDraw 0 0 0] with hd
  have hS := (C115_rnd d 0 0 0).1
  have hs : ∀ r, (testRndLQT d 0 0 0).seqBackwardPass ≠ .ok r := by
    intro r hr
    obtain ⟨us, xs, J, -, -, -, -, h⟩ := C18_optimal _ hS r hr 0
    have key : ∀ t : ℝ, J ≤ -t ^ 2 := by
      intro t
      obtain ⟨xs', J', k1, k2, k3, -⟩ := h [![t, 0], ![-t, 0], 0, 0, 0] (by simp [testRndLQT])
      have hl : [![t, 0], ![-t, 0], (0 : Fin 2 → ℝ), 0, 0].length ≤ (testRndLQT d 0 0 0).stages.length := by
        simp [testRndLQT]
      rw [lqtSimulation_eq hl] at k1
      rw [← Except.ok.inj k1, lqt_cost_eq hl] at k2
      have e := Except.ok.inj k2
      refine k3.trans (le_of_eq ?_)
      rw [← e]
      simp [testRndLQT, hd, RndStage.stage, badDraw, lqtTotal, LQT.final, LStage.cost, LStage.next, halfQuad, dotProduct,
        mulVec, Fin.sum_univ_succ]
      ring
    have h1 := key (1 + |J|)
    have := neg_abs_le J
    nlinarith [abs_nonneg J]
  have hp : ∀ r, (testRndLQT d 0 0 0).parBackwardPass ≠ .ok r := fun r hr => hs r (C21_par_eq_seq _ hS r hr)
  have hz : LQT.seqBackwardPass { testRndLQT d 0 0 0 with
      stages := (testRndLQT d 0 0 0).stages.map fun s => { s with Z := 1 } } = (testRndLQT d 0 0 0).seqBackwardPass := by
    simp [testRndLQT, hd, RndStage.stage, badDraw]
  refine ⟨hs, hp, ?_, ?_, ?_, ?_, ?_, ?_⟩
  · rintro ⟨Q, h, -⟩
    obtain ⟨b, h1, -⟩ := bind_ok.1 h
    exact hs b h1
  · rintro ⟨Q, h, -⟩
    obtain ⟨b, h1, -⟩ := bind_ok.1 h
    exact hs b h1
  · rintro ⟨Q, h, -⟩
    obtain ⟨b, h1, -⟩ := bind_ok.1 h
    exact hp b h1
  · rintro ⟨Q, h, -⟩
    obtain ⟨p, -, h⟩ := bind_ok.1 h
    obtain ⟨b, h1, -⟩ := bind_ok.1 h
    exact hs b h1
  · intro h
    obtain ⟨-, -, -, r, h⟩ := (C115_trans _ hS).1 h
    exact hs r (hz ▸ h)
  · rintro ⟨Q, h, -⟩
    obtain ⟨b, h1, -⟩ := bind_ok.1 h
    exact hs b h1

end Verif
