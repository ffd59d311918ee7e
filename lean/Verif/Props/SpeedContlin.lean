import Verif.Proof.SpeedStart
import Verif.Props.CLQTTF
import Verif.Props.LinearModel
import Verif.Props.Parareal
import Verif.Props.PararealTF
import Verif.Props.SpeedLinear
import Verif.Props.TFLevels

/-!
C83: the speed tests of the continuous-time tracker.
-/

namespace Verif

open Matrix

variable {n m : ℕ} {K : Type} [Field K] [LinearOrder K]

/-- C83 (levels): the number of levels given to the scans of the parallel pipelines is sufficient for every positive number of
blocks. -/
theorem C83_levels (scan : AScan) (P : CLQT n m K) (blocks steps : ℕ) (hB : 0 < blocks) (dt t0 : K) (ST : Matrix (Fin n) (Fin n) K)
    (vT x0 : Fin n → K) (Kxs : List (Matrix (Fin m) (Fin n) K)) (ds : List (Fin m → K)) (bw : BwResult n m K) :
    P.tfParBackwardMp (scan _) blocks blocks steps dt t0 ST vT = P.tfParBackward (scan _) blocks steps dt t0 ST vT ∧
    P.tfParForwardMp (scan _) blocks blocks steps x0 Kxs ds dt t0 = P.tfParForward (scan _) blocks steps x0 Kxs ds dt t0 ∧
    P.tfParFwdBwdMp (scan _) blocks blocks steps x0 bw dt t0 = P.tfParFwdBwd (scan _) blocks steps x0 bw dt t0 := by
  have hinit : ∀ (forward : Bool) (ST : Matrix (Fin n) (Fin n) K) (vT : Fin n → K) es,
      P.tfParBackwardInit forward blocks steps dt t0 ST vT = .ok es → es.length = blocks + 1 := by
    intro forward ST vT es h
    unfold CLQT.tfParBackwardInit at h
    obtain ⟨l, hl, h⟩ := bind_ok.1 h
    obtain rfl := Except.ok.inj h
    simp [mapM_py_length _ _ _ hl, tfBlockTimes]
  refine ⟨?_, ?_, ?_⟩
  · unfold CLQT.tfParBackwardMp CLQT.tfParBackward
    cases h : P.tfParBackwardInit false blocks steps dt t0 ST vT with
    | error e => rfl
    | ok es =>
      rw [py_ok_bind, py_ok_bind, budgetScan1_eq _ _ hB (by simp [hinit _ _ _ _ h])]
  · unfold CLQT.tfParForwardMp CLQT.tfParForward
    cases h : P.tfParForwardInit true blocks steps x0 Kxs ds dt t0 with
    | error e => rfl
    | ok es =>
      have hl : es.length ≤ blocks + 1 := by
        unfold CLQT.tfParForwardInit at h
        obtain ⟨a, ha, h⟩ := bind_ok.1 h
        obtain ⟨b, hb, h⟩ := bind_ok.1 h
        obtain ⟨l, hl, h⟩ := bind_ok.1 h
        obtain rfl := Except.ok.inj h
        simp [mapM_py_length _ _ _ hl, tfBlockTimes]
      rw [py_ok_bind, py_ok_bind, budgetScan1_eq _ _ hB hl]
  · unfold CLQT.tfParFwdBwdMp CLQT.tfParFwdBwd
    cases h : P.tfParFwdBwdInit true blocks steps x0 dt t0 with
    | error e => rfl
    | ok es =>
      have hl : es.length ≤ blocks + 1 := by
        unfold CLQT.tfParFwdBwdInit at h
        obtain ⟨l, hl, h⟩ := bind_ok.1 h
        obtain rfl := Except.ok.inj h
        simp [hinit _ _ _ _ hl]
      rw [py_ok_bind, py_ok_bind, budgetScan1_eq _ _ hB hl]

/-- C83 (reported error): the error of the backward tests is the largest difference between entries of the value matrices of the
pipeline and of the reference, the error of the other tests the largest difference between coordinates of the states. -/
theorem C83_maxdiff [NeZero n] (scan : AScan) (P : CLQT n m K) (x0 : Fin n → K) (blocks steps n_iter : ℕ) (e : K) :
    (P.parBwSpeed scan x0 blocks steps n_iter = .ok e → ∃ r r', P.spParBw scan blocks steps = .ok r ∧
      P.spRef1 x0 blocks steps = .ok r' ∧
      (∀ (k : ℕ) A B, r.S_list[k]? = some A → r'.1.S_list[k]? = some B → ∀ i j, |A i j - B i j| ≤ e) ∧
      ∃ (k : ℕ) (A B : Matrix (Fin n) (Fin n) K) (i j : Fin n), r.S_list[k]? = some A ∧ r'.1.S_list[k]? = some B ∧
        e = |A i j - B i j|) ∧
    (P.parBwFwSpeed scan x0 blocks steps n_iter = .ok e → ∃ r r', P.spParBwFw scan x0 blocks steps = .ok r ∧
      P.spRef1 x0 blocks steps = .ok r' ∧
      (∀ (k : ℕ) x y, r.2.1[k]? = some x → r'.2.1[k]? = some y → ∀ i, |x i - y i| ≤ e) ∧
      ∃ (k : ℕ) (x y : Fin n → K) (i : Fin n), r.2.1[k]? = some x ∧ r'.2.1[k]? = some y ∧ e = |x i - y i|) ∧
    (P.parBwFwBwSpeed scan x0 blocks steps n_iter = .ok e → ∃ r r', P.spParBwFwBw scan x0 blocks steps = .ok r ∧
      P.spRef2 x0 blocks steps = .ok r' ∧
      (∀ (k : ℕ) x y, r.2.1[k]? = some x → r'.2.1[k]? = some y → ∀ i, |x i - y i| ≤ e) ∧
      ∃ (k : ℕ) (x y : Fin n → K) (i : Fin n), r.2.1[k]? = some x ∧ r'.2.1[k]? = some y ∧ e = |x i - y i|) := by
  have hM : ∀ {As Bs : List (Matrix (Fin n) (Fin n) K)}, tfMaxAbsMat As Bs = .ok e →
      (∀ (k : ℕ) A B, As[k]? = some A → Bs[k]? = some B → ∀ i j, |A i j - B i j| ≤ e) ∧
      ∃ (k : ℕ) (A B : Matrix (Fin n) (Fin n) K) (i j : Fin n), As[k]? = some A ∧ Bs[k]? = some B ∧ e = |A i j - B i j| := by
    intro As Bs h
    by_cases hl : As.length = Bs.length
    · rcases eq_or_ne As [] with rfl | hne
      · obtain rfl : Bs = [] := List.length_eq_zero_iff.1 hl.symm
        simp [tfMaxAbsMat] at h
      · obtain ⟨e', he, h1, h2⟩ := tfMaxAbsMat_ok hl hne
        obtain rfl : e' = e := Except.ok.inj (he.symm.trans h)
        exact ⟨h1, h2⟩
    · simp [tfMaxAbsMat, hl] at h
  have hX : ∀ {As Bs : List (Fin n → K)}, tfMaxAbs As Bs = .ok e →
      (∀ (k : ℕ) A B, As[k]? = some A → Bs[k]? = some B → ∀ i, |A i - B i| ≤ e) ∧
      ∃ (k : ℕ) (A B : Fin n → K) (i : Fin n), As[k]? = some A ∧ Bs[k]? = some B ∧ e = |A i - B i| := by
    intro As Bs h
    by_cases hl : As.length = Bs.length
    · rcases eq_or_ne As [] with rfl | hne
      · obtain rfl : Bs = [] := List.length_eq_zero_iff.1 hl.symm
        simp [tfMaxAbs] at h
      · obtain ⟨e', he, h1, h2⟩ := tfMaxAbsV_ok hl hne
        obtain rfl : e' = e := Except.ok.inj (he.symm.trans h)
        exact ⟨h1, h2⟩
    · simp [tfMaxAbs, hl] at h
  refine ⟨fun h => ?_, fun h => ?_, fun h => ?_⟩
  · obtain ⟨r, r', h1, h2, h3, -⟩ := contSpeed_ok _ h
    exact ⟨r, r', h1, h2, hM h3⟩
  · obtain ⟨r, r', h1, h2, h3, -⟩ := contSpeed_ok _ h
    exact ⟨r, r', h1, h2, hX h3⟩
  · obtain ⟨r, r', h1, h2, h3, -⟩ := contSpeed_ok _ h
    exact ⟨r, r', h1, h2, hX h3⟩

section
variable [IsStrictOrderedRing K]

/-- The sequential passes complete for positive definite control weights. -/
theorem CLQT.spRef1_ok (P : CLQT n m K) (hU : ∀ t, (P.U t)ᵀ = P.U t ∧ IsPD (P.U t)) (x0 : Fin n → K) (blocks steps : ℕ)
    (hB : blocks ≠ 0) (hs : steps ≠ 0) :
    ∃ bw xu, P.spSeqBw blocks steps = .ok bw ∧ P.tfSeqForward x0 bw.Kx_list bw.d_list (P.T / ((blocks * steps : ℕ) : K)) 0 = .ok xu ∧
      P.spRef1 x0 blocks steps = .ok (bw, xu) := by
  obtain ⟨bw, fw, h1, -, ⟨xu, -, h2⟩, -⟩ := C72_pipelines P hU blocks steps blocks hB hs hB (by omega) x0
  refine ⟨bw, xu, h1, h2, ?_⟩
  unfold CLQT.spRef1 CLQT.tfSeqDefaults
  unfold CLQT.tfSeqDefaults at h1
  dsimp only at h1 ⊢
  rw [h1, py_ok_bind, h2]
  rfl

/-- C83 (sequential tests): for positive definite control weights both sequential tests complete and report the error zero. -/
theorem C83_seq [NeZero n] (P : CLQT n m K) (hU : ∀ t, (P.U t)ᵀ = P.U t ∧ IsPD (P.U t)) (x0 : Fin n → K) (blocks steps n_iter : ℕ)
    (hB : blocks ≠ 0) (hs : steps ≠ 0) (hn : n_iter ≠ 0) :
    P.seqBwSpeed x0 blocks steps n_iter = .ok 0 ∧ P.seqBwFwSpeed x0 blocks steps n_iter = .ok 0 := by
  obtain ⟨bw, xu, h1, h2, h3⟩ := P.spRef1_ok hU x0 blocks steps hB hs
  have hlS := (CLQT.tfSeqBackward_length h1).2.2.1
  have hlx := CLQT.tfSeqForward_length h2
  constructor
  · unfold CLQT.seqBwSpeed
    rw [contSpeed_eq hn _ h1 h3]
    exact tfMaxAbsMat_self (by rintro h; simp [h] at hlS)
  · unfold CLQT.seqBwFwSpeed
    rw [contSpeed_eq hn _ (show P.spSeqBwFw x0 blocks steps = .ok (bw, xu) from h3) h3]
    exact tfMaxAbsV_self (by rintro h; exact absurd (hlx.symm.trans (congrArg List.length h)) (by simp))

/-- C83 (Parareal tests): with at least `blocks - 1` Parareal iterations the backward and the backward-forward test report the error
zero, and the forward-backward test does so whenever the reference completes. -/
theorem C83_parareal [NeZero n] (P : CLQT n m K) (hU : ∀ t, (P.U t)ᵀ = P.U t ∧ IsPD (P.U t)) (x0 : Fin n → K)
    (blocks steps niter n_iter : ℕ) (hB : blocks ≠ 0) (hs : steps ≠ 0) (hi : niter ≠ 0) (hb : blocks ≤ niter + 1) (hn : n_iter ≠ 0) :
    P.prBwSpeed x0 blocks steps niter n_iter = .ok 0 ∧ P.prBwFwSpeed x0 blocks steps niter n_iter = .ok 0 ∧
    ∀ r, P.spRef2 x0 blocks steps = .ok r → P.prBwFwBwSpeed x0 blocks steps niter n_iter = .ok 0 := by
  obtain ⟨bw, xu, h1, h2, h3⟩ := P.spRef1_ok hU x0 blocks steps hB hs
  have hl := CLQT.tfSeqBackward_length h1
  have hlx := CLQT.tfSeqForward_length h2
  have hpb : P.tfPrBackward blocks steps niter = .ok bw := by
    obtain ⟨r, hr, hr'⟩ := C72_backward_exact P hU blocks steps niter hB hs hi
    obtain rfl := Except.ok.inj ((hr' hb).symm.trans h1)
    exact hr
  have hpf : P.tfPrForward blocks steps niter x0 bw.Kx_list bw.d_list = .ok xu := by
    obtain ⟨r, hr, hr'⟩ := C72_forward_exact P blocks steps niter hB hs hi x0 bw.Kx_list bw.d_list hl.1 hl.2.1 false hb
    obtain rfl := Except.ok.inj (hr'.symm.trans h2)
    exact hr
  refine ⟨?_, ?_, fun r hr => ?_⟩
  · unfold CLQT.prBwSpeed
    rw [contSpeed_eq hn _ (show P.spPrBw blocks steps niter = .ok bw from hpb) h3]
    exact tfMaxAbsMat_self (by rintro h; simp [h] at hl)
  · unfold CLQT.prBwFwSpeed
    have : P.spPrBwFw x0 blocks steps niter = .ok (bw, xu) := by
      unfold CLQT.spPrBwFw
      rw [hpb, py_ok_bind, hpf]
      rfl
    rw [contSpeed_eq hn _ this h3]
    exact tfMaxAbsV_self (by rintro h; exact absurd (hlx.symm.trans (congrArg List.length h)) (by simp))
  · unfold CLQT.prBwFwBwSpeed
    obtain ⟨fw, hf, hf'⟩ := C72_fwdbwd_exact P hU blocks steps niter hB hs hi x0
    have hr0 := hr
    unfold CLQT.spRef2 CLQT.tfSeqDefaults at hr
    dsimp only at hr
    have h1' := h1
    unfold CLQT.spSeqBw CLQT.tfSeqDefaults at h1'
    dsimp only at h1'
    rw [h1', py_ok_bind, hf' hb, py_ok_bind] at hr
    obtain ⟨xu', hxu, hr⟩ := bind_ok.1 hr
    obtain rfl := Except.ok.inj hr
    have : P.spPrBwFwBw x0 blocks steps niter = .ok (bw, xu') := by
      unfold CLQT.spPrBwFwBw
      rw [hpb, py_ok_bind, hf, py_ok_bind, hxu]
      rfl
    rw [contSpeed_eq hn _ this hr0]
    refine tfMaxAbsV_self ?_
    intro h
    have hC : fw.C_list.length = blocks * steps + 1 := by
      have := hf' hb
      unfold CLQT.tfSeqFwdBwd at this
      obtain ⟨s, hs', this⟩ := bind_ok.1 this
      have hl' := tfScanFwdM_length _ _ _ hs'
      obtain rfl := Except.ok.inj this
      simp [hl', tfTimes]
    obtain ⟨xs, us⟩ := xu'
    obtain rfl : xs = [] := h
    unfold clqtTfCombine at hxu
    split_ifs at hxu with hc
    · cases hxu
    · obtain ⟨ys, hys, hxu⟩ := bind_ok.1 (show (List.mapM _ _ >>= _) = _ from hxu)
      obtain ⟨rfl, -⟩ := Prod.mk.inj (Except.ok.inj hxu)
      have := mapM_py_length _ _ _ hys
      push Not at hc
      simp [hc.1, hc.2.1, hc.2.2.1, hC] at this

/-- C83 (Parareal tests, partial exactness): with `k` iterations the last `k + 1` blocks of the tensors of the backward pipeline agree
with the reference; with the default of two iterations these are the last three blocks. -/
theorem C83_parareal_blocks (P : CLQT n m K) (hU : ∀ t, (P.U t)ᵀ = P.U t ∧ IsPD (P.U t)) (x0 : Fin n → K) (blocks steps k : ℕ)
    (hB : blocks ≠ 0) (hs : steps ≠ 0) (hk : k ≠ 0) :
    ∃ r r', P.spPrBw blocks steps k = .ok r ∧ P.spRef1 x0 blocks steps = .ok r' ∧
      ∀ j, (blocks - 1 - k) * steps ≤ j → r.S_list[j]? = r'.1.S_list[j]? ∧ r.v_list[j]? = r'.1.v_list[j]? ∧
        r.Kx_list[j]? = r'.1.Kx_list[j]? ∧ r.d_list[j]? = r'.1.d_list[j]? := by
  obtain ⟨bw, xu, h1, h2, h3⟩ := P.spRef1_ok hU x0 blocks steps hB hs
  obtain ⟨r, hr, -⟩ := C72_backward_exact P hU blocks steps k hB hs hk
  exact ⟨r, _, hr, h3, fun j hj => C72_backward_blocks P hU blocks steps k hB hs hk r bw hr h1 j hj⟩

/-- C83 (parallel tests): if the parallel backward pipeline completes, its lists have the lengths of the reference and the same last
block (gains from index `(blocks - 1) * steps` on, value function from the following index on); and the backward-forward pipeline
completes with these gains and returns the states and controls of the sequential forward pass for them. -/
theorem C83_par (P : CLQT n m K) (hU : ∀ t, (P.U t)ᵀ = P.U t ∧ IsPD (P.U t)) (scan : AScan) (hsc : ∀ α, IsAssocScan (scan α))
    (x0 : Fin n → K) (blocks steps : ℕ) (hB : blocks ≠ 0) (hs : steps ≠ 0) (r : BwResult n m K)
    (h : P.spParBw scan blocks steps = .ok r) :
    ∃ r' xu, P.spRef1 x0 blocks steps = .ok r' ∧ P.spParBwFw scan x0 blocks steps = .ok (r, xu) ∧
      P.tfSeqForward x0 r.Kx_list r.d_list (P.T / ((blocks * steps : ℕ) : K)) 0 = .ok xu ∧
      (r.Kx_list.length = r'.1.Kx_list.length ∧ r.d_list.length = r'.1.d_list.length ∧ r.S_list.length = r'.1.S_list.length ∧
        r.v_list.length = r'.1.v_list.length) ∧
      ∀ j, (blocks - 1) * steps ≤ j → r.Kx_list[j]? = r'.1.Kx_list[j]? ∧ r.d_list[j]? = r'.1.d_list[j]? ∧
        r.S_list[j + 1]? = r'.1.S_list[j + 1]? ∧ r.v_list[j + 1]? = r'.1.v_list[j + 1]? := by
  obtain ⟨bw, xu, h1, h2, h3⟩ := P.spRef1_ok hU x0 blocks steps hB hs
  obtain ⟨B, rfl⟩ := Nat.exists_eq_succ_of_ne_zero hB
  have h' : P.tfParBackward (scan _) (B + 1) steps (P.T / ((steps * (B + 1) : ℕ) : K)) 0 (P.HTᵀ * (P.XT * P.HT))
      (P.HTᵀ *ᵥ (P.XT *ᵥ P.rT)) = .ok r := by
    rw [← (C83_levels scan P (B + 1) steps (Nat.succ_pos _) _ _ _ _ x0 [] [] r).1]
    exact h
  have h1' : P.tfSeqBackward ((B + 1) * steps) (P.T / ((steps * (B + 1) : ℕ) : K)) 0 (P.HTᵀ * (P.XT * P.HT))
      (P.HTᵀ *ᵥ (P.XT *ᵥ P.rT)) = .ok bw := by
    rw [mul_comm steps]
    exact h1
  obtain ⟨hl, hlast⟩ := CLQT.tfParBackward_last (hsc _) h' h1'
  have hl' := CLQT.tfSeqBackward_length h1'
  obtain ⟨us, xs, hf, hf'⟩ := C71_forward_same P (scan _) (hsc _) x0 r.Kx_list r.d_list (B + 1) steps (Nat.succ_pos _)
    (Nat.pos_of_ne_zero hs) hl.1 hl.2.1 (P.T / ((steps * (B + 1) : ℕ) : K)) 0 true
  refine ⟨_, (xs, us), h3, ?_, ?_, ⟨hl.1.trans hl'.1.symm, hl.2.1.trans hl'.2.1.symm, hl.2.2.1.trans hl'.2.2.1.symm,
    hl.2.2.2.trans hl'.2.2.2.symm⟩, hlast⟩
  · unfold CLQT.spParBwFw CLQT.tfParDefaults
    dsimp only
    unfold CLQT.spParBw CLQT.tfParDefaults at h
    dsimp only at h
    rw [h, py_ok_bind, (C83_levels scan P (B + 1) steps (Nat.succ_pos _) _ _ 0 0 x0 _ _ r).2.1, hf]
    rfl
  · rw [mul_comm (B + 1)]
    exact hf'

/-- C83 (one block): with a single block the gains of the parallel pass are those of the reference, so that the backward-forward test
reports zero; the backward test reports the difference of the first value matrix, the only one taken from the scan. -/
theorem C83_one_block [NeZero n] (P : CLQT n m K) (hU : ∀ t, (P.U t)ᵀ = P.U t ∧ IsPD (P.U t)) (scan : AScan)
    (hsc : ∀ α, IsAssocScan (scan α)) (x0 : Fin n → K) (steps n_iter : ℕ) (hs : steps ≠ 0) (hn : n_iter ≠ 0) (r : BwResult n m K)
    (h : P.spParBw scan 1 steps = .ok r) :
    P.parBwFwSpeed scan x0 1 steps n_iter = .ok 0 ∧
    ∃ e r' S S', P.parBwSpeed scan x0 1 steps n_iter = .ok e ∧ P.spRef1 x0 1 steps = .ok r' ∧ r.S_list[0]? = some S ∧
      r'.1.S_list[0]? = some S' ∧ (∀ i j, |S i j - S' i j| ≤ e) ∧ ∃ i j, e = |S i j - S' i j| := by
  obtain ⟨bw, xu, h1, h2, h3⟩ := P.spRef1_ok hU x0 1 steps one_ne_zero hs
  obtain ⟨r', xu', hr', hf, hx, hl, hj⟩ := C83_par P hU scan hsc x0 1 steps one_ne_zero hs r h
  obtain rfl := Except.ok.inj (hr'.symm.trans h3)
  dsimp only at hl hj
  have hK : r.Kx_list = bw.Kx_list := List.ext_getElem? fun j => (hj j (by simp)).1
  have hd : r.d_list = bw.d_list := List.ext_getElem? fun j => (hj j (by simp)).2.1
  have hlS := (CLQT.tfSeqBackward_length h1).2.2.1
  constructor
  · rw [hK, hd] at hx
    obtain rfl := Except.ok.inj (hx.symm.trans h2)
    unfold CLQT.parBwFwSpeed
    rw [contSpeed_eq hn _ hf h3]
    exact tfMaxAbsV_self fun h => absurd ((CLQT.tfSeqForward_length h2).symm.trans (congrArg List.length h)) (by simp)
  · obtain ⟨e, he, hle, k, A, B, i, j, hA, hB, hatt⟩ := tfMaxAbsMat_ok (hl.2.2.1) (fun h0 => by
      have := hl.2.2.1
      rw [h0, hlS] at this
      simp at this)
    have h0 : 0 < bw.S_list.length := by omega
    have h0' : 0 < r.S_list.length := by omega
    refine ⟨e, _, r.S_list[0], bw.S_list[0], ?_, h3, List.getElem?_eq_getElem h0', List.getElem?_eq_getElem h0, ?_, ?_⟩
    · unfold CLQT.parBwSpeed
      rw [contSpeed_eq hn _ h h3]
      exact he
    · exact hle 0 _ _ (List.getElem?_eq_getElem h0') (List.getElem?_eq_getElem h0)
    · have hle0 := hle 0 _ _ (List.getElem?_eq_getElem h0') (List.getElem?_eq_getElem h0)
      cases k with
      | zero =>
        rw [List.getElem?_eq_getElem h0', Option.some.injEq] at hA
        rw [List.getElem?_eq_getElem h0, Option.some.injEq] at hB
        subst hA hB
        exact ⟨i, j, hatt⟩
      | succ k =>
        have := (hj k (by simp)).2.2.1
        rw [hA, hB, Option.some.injEq] at this
        subst this
        rw [sub_self, abs_zero] at hatt
        subst hatt
        exact ⟨0, 0, le_antisymm (abs_nonneg _) (hle0 0 0)⟩

/-- C83 (errors): with `n_iter = 0` the tests end in a division by zero, with no Parareal iterations in an index error. -/
theorem C83_errors (P : CLQT n m K) (hU : ∀ t, (P.U t)ᵀ = P.U t ∧ IsPD (P.U t)) (x0 : Fin n → K) (blocks steps niter : ℕ)
    (hB : blocks ≠ 0) (hs : steps ≠ 0) :
    (P.seqBwSpeed x0 blocks steps 0 = .error .zeroDivisionError ∧ P.seqBwFwSpeed x0 blocks steps 0 = .error .zeroDivisionError) ∧
    (niter ≠ 0 → P.prBwSpeed x0 blocks steps niter 0 = .error .zeroDivisionError) ∧
    ∀ n_iter, P.prBwSpeed x0 blocks steps 0 n_iter = .error .indexError ∧ P.prBwFwSpeed x0 blocks steps 0 n_iter = .error .indexError ∧
      P.prBwFwBwSpeed x0 blocks steps 0 n_iter = .error .indexError := by
  obtain ⟨bw, xu, h1, h2, h3⟩ := P.spRef1_ok hU x0 blocks steps hB hs
  refine ⟨⟨contSpeed_zero _ h1, contSpeed_zero _ (show P.spSeqBwFw x0 blocks steps = .ok (bw, xu) from h3)⟩, fun hi => ?_,
    fun n_iter => ?_⟩
  · obtain ⟨r, hr, -⟩ := C72_backward_exact P hU blocks steps niter hB hs hi
    exact contSpeed_zero _ hr
  · have h0 : P.tfPrBackward blocks steps 0 = .error .indexError :=
      (C72_no_iterations P hU blocks steps hB hs x0 bw.Kx_list bw.d_list (CLQT.tfSeqBackward_length h1).1
        (CLQT.tfSeqBackward_length h1).2.1 false).1.1
    refine ⟨contSpeed_error _ h0, contSpeed_error _ ?_, contSpeed_error _ ?_⟩
    · unfold CLQT.spPrBwFw
      rw [h0]
      rfl
    · unfold CLQT.spPrBwFwBw
      rw [h0]
      rfl

end

/-- C83 (tracking model): the sequential tests of the model used by the experiments report zero, the Parareal tests do so from
`blocks - 1` iterations on. -/
theorem C83_tracking (blocks steps niter n_iter : ℕ) (hB : blocks ≠ 0) (hs : steps ≠ 0) (hn : n_iter ≠ 0) :
    contTracking.1.seqBwSpeed contTracking.2 blocks steps n_iter = .ok 0 ∧
    contTracking.1.seqBwFwSpeed contTracking.2 blocks steps n_iter = .ok 0 ∧
    (niter ≠ 0 → blocks ≤ niter + 1 → contTracking.1.prBwSpeed contTracking.2 blocks steps niter n_iter = .ok 0 ∧
      contTracking.1.prBwFwSpeed contTracking.2 blocks steps niter n_iter = .ok 0) := by
  have hU : ∀ t, (contTracking.1.U t)ᵀ = contTracking.1.U t ∧ IsPD (contTracking.1.U t) := by
    intro t
    obtain ⟨h1, -, -, -, -, h2, -⟩ := C74_continuous
    unfold contTracking
    rw [h1]
    exact ⟨(h2 t).2.2.2, (h2 t).2.2.1⟩
  obtain ⟨h1, h2⟩ := C83_seq contTracking.1 hU contTracking.2 blocks steps n_iter hB hs hn
  refine ⟨h1, h2, fun hi hb => ?_⟩
  obtain ⟨h3, h4, -⟩ := C83_parareal contTracking.1 hU contTracking.2 blocks steps niter n_iter hB hs hi hb hn
  exact ⟨h3, h4⟩

theorem cont_isOk {α : Type} {x : Py α} (h : x.isOk = true) : ∃ r, x = .ok r := by
  cases x with
  | error e => cases h
  | ok r => exact ⟨r, rfl⟩

theorem cont_okAnd {α : Type} {p : α → Prop} [DecidablePred p] {x : Py α}
    (h : (match x with
      | .ok e => decide (p e)
      | .error _ => false) = true) : ∃ e, x = .ok e ∧ p e := by
  cases x with
  | error e => cases h
  | ok r => exact ⟨r, rfl, of_decide_eq_true h⟩

/-- C83 (witness): with one block of one step the parallel backward test reports an error although all gains are exact. -/
theorem C83_par_witness :
    exGain.parBwSpeed (fun _ op l => scanVals op l) ![1] 1 1 1 = .ok (353 / 24576) ∧
    exGain.parBwFwSpeed (fun _ op l => scanVals op l) ![1] 1 1 1 = .ok 0 := by
  constructor
  · obtain ⟨e, h, rfl⟩ := cont_okAnd (p := fun e => e = 353 / 24576)
      (x := exGain.parBwSpeed (fun _ op l => scanVals op l) ![1] 1 1 1) (by decide +kernel)
    exact h
  · obtain ⟨e, h, rfl⟩ := cont_okAnd (p := fun e => e = 0)
      (x := exGain.parBwFwSpeed (fun _ op l => scanVals op l) ![1] 1 1 1) (by decide +kernel)
    exact h

/-- C83 (witness): four blocks are too many for the default of two Parareal iterations, three are not. -/
theorem C83_parareal_witness : (∃ e, exPr.prBwSpeed ![1] 4 2 2 1 = .ok e ∧ 0 < e) ∧ exPr.prBwSpeed ![1] 3 2 2 1 = .ok 0 := by
  refine ⟨?_, (C83_parareal exPr exPr_U ![1] 3 2 2 1 (by decide) (by decide) (by decide) (by decide) (by decide)).1⟩
  obtain ⟨r, r', h1, h2, h3⟩ := C37_default_inexact
  have h1' : exPr.spPrBw 4 2 2 = .ok r :=
    (C72_backward exPr (fun t => (exPr_U t).1) 4 2 2 (by decide) (by decide) (by decide) r).1 h1
  rw [(C71_defaults exPr 1 (4 * 2) false (by omega) (by omega)).1] at h2
  have h2' : exPr.spSeqBw 4 2 = .ok r' := (C71_seq_backward exPr (fun t => (exPr_U t).1) _ _ _ _ _ r').1 h2
  obtain ⟨bw, xu, g1, g2, g3⟩ := exPr.spRef1_ok exPr_U ![1] 4 2 (by decide) (by decide)
  obtain rfl := Except.ok.inj (g1.symm.trans h2')
  obtain ⟨q, q', k1, k2, k3⟩ := C83_parareal_blocks exPr exPr_U ![1] 4 2 2 (by decide) (by decide) (by decide)
  obtain rfl := Except.ok.inj (k1.symm.trans h1')
  obtain rfl := Except.ok.inj (k2.symm.trans g3)
  have hl' := (CLQT.tfSeqBackward_length g1).2.2.1
  have hl : q.S_list.length = bw.S_list.length := by
    have e1 := (k3 9 (by norm_num)).1
    have e2 := (k3 8 (by norm_num)).1
    dsimp only at e1 e2
    rw [List.getElem?_eq_none (show bw.S_list.length ≤ 9 by rw [hl']), List.getElem?_eq_none_iff] at e1
    rw [List.getElem?_eq_getElem (show 8 < bw.S_list.length by rw [hl']; norm_num)] at e2
    obtain ⟨e2, -⟩ := List.getElem?_eq_some_iff.1 e2
    omega
  obtain ⟨e, he, hle, -⟩ := tfMaxAbsMat_ok hl (fun h0 => by
    rw [h0, hl'] at hl
    simp at hl)
  refine ⟨e, ?_, ?_⟩
  · unfold CLQT.prBwSpeed
    rw [contSpeed_eq (by decide) _ k1 g3]
    exact he
  · have i1 : 1 < bw.S_list.length := by omega
    have i2 : 1 < q.S_list.length := by omega
    have hle1 := hle 1 _ _ (List.getElem?_eq_getElem i2) (List.getElem?_eq_getElem i1)
    rw [List.getElem?_eq_getElem i2, List.getElem?_eq_getElem i1] at h3
    refine lt_of_le_of_ne ((abs_nonneg _).trans (hle1 0 0)) fun he0 => h3 ?_
    subst he0
    congr 1
    ext i j
    exact sub_eq_zero.1 (abs_nonpos_iff.1 (hle1 i j))

/-- C83 (start): both trajectories compared by the forward-backward test start at the initial state. -/
theorem C83_start (P : CLQT n m K) (scan : AScan) (hsc : ∀ α, IsAssocScan (scan α)) (x0 : Fin n → K) (blocks steps : ℕ) (hB : 0 < blocks)
    (hs : 0 < steps) (r : CRun n m K) :
    (P.spParBwFwBw scan x0 blocks steps = .ok r → r.2.1[0]? = some x0) ∧ (P.spRef2 x0 blocks steps = .ok r → r.2.1[0]? = some x0) := by
  constructor
  · intro h
    unfold CLQT.spParBwFwBw at h
    obtain ⟨bw, -, h⟩ := bind_ok.1 h
    obtain ⟨xu, hxu, h⟩ := bind_ok.1 h
    obtain rfl := Except.ok.inj h
    rw [(C83_levels scan P blocks steps hB _ _ 0 0 x0 [] [] bw).2.2] at hxu
    exact CLQT.tfParFwdBwd_head (hsc _) hs hxu
  · intro h
    unfold CLQT.spRef2 at h
    obtain ⟨bw, -, h⟩ := bind_ok.1 h
    obtain ⟨fw, hfw, h⟩ := bind_ok.1 h
    obtain ⟨xu, hxu, h⟩ := bind_ok.1 h
    obtain rfl := Except.ok.inj h
    obtain ⟨⟨bs, hb, -⟩, Cs, hC, -⟩ := CLQT.tfSeqFwdBwd_head hfw
    exact clqtTfCombine_head hb hC hxu

/-! ### Examples -/

/-- The hypotheses of `C83_seq`, `C83_parareal`, `C83_parareal_blocks` and `C83_errors` are met by `exCL`. -/
example : exCL.seqBwSpeed ![1, 2] 5 4 10 = .ok 0 ∧ exCL.prBwFwSpeed ![1, 2] 3 4 2 10 = .ok 0 ∧
    exCL.prBwSpeed ![1, 2] 3 4 0 10 = .error .indexError ∧
    ∃ r r', exCL.spPrBw 5 4 2 = .ok r ∧ exCL.spRef1 ![1, 2] 5 4 = .ok r' ∧ ∀ j, 8 ≤ j → r.S_list[j]? = r'.1.S_list[j]? := by
  refine ⟨(C83_seq exCL exCL_U _ 5 4 10 (by decide) (by decide) (by decide)).1,
    (C83_parareal exCL exCL_U _ 3 4 2 10 (by decide) (by decide) (by decide) (by decide) (by decide)).2.1,
    ((C83_errors exCL exCL_U _ 3 4 1 (by decide) (by decide)).2.2 10).1, ?_⟩
  obtain ⟨r, r', h1, h2, h3⟩ := C83_parareal_blocks exCL exCL_U ![1, 2] 5 4 2 (by decide) (by decide) (by decide)
  exact ⟨r, r', h1, h2, fun j hj => (h3 j (by omega)).1⟩

/-- The hypothesis of `C83_par` and `C83_one_block` is met by `exGain`, see `C83_par_witness`; the reference of the forward-backward
Parareal test completes there. -/
example : (∃ r, exGain.spParBw (fun _ op l => scanVals op l) 2 1 = .ok r) ∧ ∃ r, exGain.spRef2 ![1] 2 1 = .ok r :=
  ⟨cont_isOk (by decide +kernel), cont_isOk (by decide +kernel)⟩

/-- The forward-backward pipeline and its reference start at the given state. -/
example : (∃ r, exGain.spParBwFwBw (fun _ op l => scanVals op l) ![1] 2 1 = .ok r ∧ r.2.1[0]? = some ![1]) ∧
    ∃ r, exGain.spRef2 ![1] 2 1 = .ok r ∧ r.2.1[0]? = some ![1] := by
  obtain ⟨r, hr⟩ := cont_isOk (x := exGain.spParBwFwBw (fun _ op l => scanVals op l) ![1] 2 1) (by decide +kernel)
  obtain ⟨r', hr'⟩ := cont_isOk (x := exGain.spRef2 ![1] 2 1) (by decide +kernel)
  exact ⟨⟨r, hr, (C83_start exGain _ (fun _ => C17_scan_example) ![1] 2 1 (by decide) (by decide) r).1 hr⟩,
    r', hr', (C83_start exGain (fun _ op l => scanVals op l) (fun _ => C17_scan_example) ![1] 2 1 (by decide) (by decide) r').2 hr'⟩

end Verif
