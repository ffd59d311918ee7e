import Mathlib.Tactic.NormNum
import Verif.Model.TFLevels
import Verif.Props.FSCTF
import Verif.Props.LQTTF
import Verif.Proof.TextModel

/-!
Property C54: the numbers of levels given to `tfp.math.scan_associative` satisfy the documented requirement
`number of elements < 2**(max_num_levels + 1)`.
-/

namespace Verif

variable {n m p q : ℕ} {P K : Type}

/-- **C54** (`math.ceil(math.log2(..))`): the number of levels is the least `k` with `max_parallel <= 2**k`; the LQT and CLQT
functions use at least one; `max_parallel = 0` raises. -/
theorem C54_levels (mp k : ℕ) :
    (tfLevels mp = .ok k ↔ 0 < mp ∧ mp ≤ 2 ^ k ∧ ∀ j, mp ≤ 2 ^ j → k ≤ j) ∧
    (tfLevels1 mp = .ok k ↔ 0 < mp ∧ 1 ≤ k ∧ mp ≤ 2 ^ k ∧ ∀ j, 1 ≤ j → mp ≤ 2 ^ j → k ≤ j) ∧
    tfLevels 0 = .error .valueError ∧ tfLevels1 0 = .error .valueError := by
  have h2 : 1 < 2 := by norm_num
  refine ⟨?_, ?_, rfl, rfl⟩
  · unfold tfLevels
    split
    · next h => simp [h]
    · next h =>
      constructor
      · intro e
        obtain e := Except.ok.inj e
        subst e
        exact ⟨by omega, Nat.le_pow_clog h2 _, fun j hj => Nat.clog_le_of_le_pow hj⟩
      · rintro ⟨_, h1, h3⟩
        exact congrArg _ (le_antisymm (Nat.clog_le_of_le_pow h1) (h3 _ (Nat.le_pow_clog h2 _)))
  · unfold tfLevels1
    split
    · next h => simp [h]
    · next h =>
      constructor
      · intro e
        obtain e := Except.ok.inj e
        subst e
        refine ⟨by omega, le_max_right _ _, (Nat.le_pow_clog h2 _).trans (Nat.pow_le_pow_right (by norm_num) (le_max_left _ _)),
          fun j h1 hj => max_le (Nat.clog_le_of_le_pow hj) h1⟩
      · rintro ⟨_, h0, h1, h3⟩
        exact congrArg _ (le_antisymm (max_le (Nat.clog_le_of_le_pow h1) h0) (h3 _ (le_max_right _ _)
          ((Nat.le_pow_clog h2 _).trans (Nat.pow_le_pow_right (by norm_num) (le_max_left _ _)))))

/-- The hypotheses are met by `max_parallel = 5`: three levels. -/
example : tfLevels 5 = .ok 3 ∧ tfLevels1 5 = .ok 3 := ⟨rfl, rfl⟩

/-- **C54** (enough levels): a scan of `T + 1` elements has enough levels for every `T <= max_parallel` when
`max_parallel >= 2`, and in the LQT and CLQT functions when `max_parallel >= 1`. -/
theorem C54_enough (mp T : ℕ) (hT : T ≤ mp) :
    (2 ≤ mp → ∃ k, tfLevels mp = .ok k ∧ T + 1 < 2 ^ (k + 1)) ∧
    (1 ≤ mp → ∃ k, tfLevels1 mp = .ok k ∧ T + 1 < 2 ^ (k + 1)) := by
  have key : mp ≤ 2 ^ Nat.clog 2 mp := Nat.le_pow_clog (by norm_num) _
  constructor
  · intro h
    refine ⟨Nat.clog 2 mp, if_neg (by omega), ?_⟩
    rw [pow_succ]
    omega
  · intro h
    refine ⟨max (Nat.clog 2 mp) 1, if_neg (by omega), ?_⟩
    have h1 : 2 ^ Nat.clog 2 mp ≤ 2 ^ max (Nat.clog 2 mp) 1 := Nat.pow_le_pow_right (by norm_num) (le_max_left _ _)
    have h3 : 2 ^ 1 ≤ 2 ^ max (Nat.clog 2 mp) 1 := Nat.pow_le_pow_right (by norm_num) (le_max_right _ _)
    rw [pow_succ]
    omega

/-- **C54** (at most one level to spare): when `T = max_parallel` two levels fewer are never enough, and one level fewer is
not enough when `max_parallel` is a power of two. -/
theorem C54_tight (mp k : ℕ) (h : tfLevels mp = .ok k) :
    (∀ j, j + 1 < k → ¬ mp + 1 < 2 ^ (j + 1)) ∧ (mp = 2 ^ k → ∀ j < k, ¬ mp + 1 < 2 ^ (j + 1)) := by
  constructor
  · intro j hj hlt
    have := ((C54_levels mp k).1.1 h).2.2 (j + 1) (by omega)
    omega
  · rintro rfl j hj hlt
    have : 2 ^ (j + 1) ≤ 2 ^ k := Nat.pow_le_pow_right (by norm_num) (by omega)
    omega

/-- The bounds are attained: `max_parallel = 8` needs its three levels, `max_parallel = 5` has one to spare. -/
example : tfLevels 8 = .ok 3 ∧ ¬ 8 + 1 < 2 ^ (2 + 1) ∧ tfLevels 5 = .ok 3 ∧ 5 + 1 < 2 ^ (2 + 1) :=
  ⟨rfl, by norm_num, rfl, by norm_num⟩

section Scan
variable {α : Type} (scan : (α → α → Py α) → List α → Py (List α)) (op : α → α → Py α)

/-- A scan of at most `max_parallel + 1` elements meets the requirement. -/
theorem budgetScan_eq {mp : ℕ} (h : 2 ≤ mp) {l : List α} (hl : l.length ≤ mp + 1) :
    budgetScan scan (tfLevels mp) op l = scan op l := by
  obtain ⟨T, hT⟩ : ∃ T, T = l.length - 1 := ⟨_, rfl⟩
  obtain ⟨k, hk, hlt⟩ := (C54_enough mp T (by omega)).1 h
  unfold budgetScan
  rw [hk]
  exact if_pos (by omega)

/-- The same with at least one level. -/
theorem budgetScan1_eq {mp : ℕ} (h : 1 ≤ mp) {l : List α} (hl : l.length ≤ mp + 1) :
    budgetScan scan (tfLevels1 mp) op l = scan op l := by
  obtain ⟨T, hT⟩ : ∃ T, T = l.length - 1 := ⟨_, rfl⟩
  obtain ⟨k, hk, hlt⟩ := (C54_enough mp T (by omega)).2 h
  unfold budgetScan
  rw [hk]
  exact if_pos (by omega)

/-- With `max_parallel = 1` two elements are too many. -/
theorem budgetScan_one {l : List α} (hl : 2 ≤ l.length) :
    budgetScan scan (tfLevels 1) op l = .error .valueError := by
  have h1 : tfLevels 1 = .ok 0 := rfl
  unfold budgetScan
  rw [h1]
  exact if_neg (by simp; omega)

end Scan

section
variable [LinearOrder K] [AddCommMonoid K] [NeZero n] [NeZero m]

/-- **C54** (FSC passes): with `2 <= max_parallel` and `T <= max_parallel` the requirement holds in the three FSC passes, so
that the passes are those of C62. -/
theorem C54_fsc (scanV : ((Fin n → Fin n → K) → (Fin n → Fin n → K) → Py (Fin n → Fin n → K)) →
      List (Fin n → Fin n → K) → Py (List (Fin n → Fin n → K)))
    (scanF : ((Fin n → Fin n) → (Fin n → Fin n) → Py (Fin n → Fin n)) →
      List (Fin n → Fin n) → Py (List (Fin n → Fin n)))
    (am : (Fin m → K) → Fin m) (amX : (Fin n → K) → Fin n) (inf : K) (mp : ℕ) (M : FSC n m K) (x0 : Fin n)
    (us : List (Fin n → Fin m)) (Vs : List (Fin n → K)) (h2 : 2 ≤ mp) (hT : M.stages.length ≤ mp) :
    M.tfParBackwardMp scanV am inf mp = M.tfParBackward scanV am inf ∧
    M.tfParForwardMp scanF mp x0 us = M.tfParForward scanF x0 us ∧
    M.tfParFwdBwdMp scanV amX inf mp x0 us Vs = M.tfParFwdBwd scanV amX inf x0 us Vs := by
  refine ⟨?_, ?_, ?_⟩
  · unfold FSC.tfParBackwardMp FSC.tfParBackward
    dsimp only
    rw [budgetScan_eq _ _ h2 (by simpa using hT)]
  · unfold FSC.tfParForwardMp FSC.tfParForward
    dsimp only
    rw [budgetScan_eq _ _ h2 (by simp; omega)]
  · unfold FSC.tfParFwdBwdMp FSC.tfParFwdBwd
    dsimp only
    rw [budgetScan_eq _ _ h2 (by simpa using hT)]

/-- **C54** (violation in the FSC passes): with `max_parallel = T = 1` the three passes ask for zero levels, and the
requirement is violated by their two elements. -/
theorem C54_fsc_one (scanV : ((Fin n → Fin n → K) → (Fin n → Fin n → K) → Py (Fin n → Fin n → K)) →
      List (Fin n → Fin n → K) → Py (List (Fin n → Fin n → K)))
    (scanF : ((Fin n → Fin n) → (Fin n → Fin n) → Py (Fin n → Fin n)) →
      List (Fin n → Fin n) → Py (List (Fin n → Fin n)))
    (am : (Fin m → K) → Fin m) (amX : (Fin n → K) → Fin n) (inf : K) (M : FSC n m K) (x0 : Fin n)
    (us : List (Fin n → Fin m)) (Vs : List (Fin n → K)) (hT : M.stages.length = 1) :
    M.tfParBackwardMp scanV am inf 1 = .error .valueError ∧
    M.tfParForwardMp scanF 1 x0 us = .error .valueError ∧
    M.tfParFwdBwdMp scanV amX inf 1 x0 us Vs = .error .valueError := by
  refine ⟨?_, ?_, ?_⟩
  · unfold FSC.tfParBackwardMp FSC.tfParBackward
    dsimp only
    rw [budgetScan_one _ _ (by simp [hT])]
    rfl
  · unfold FSC.tfParForwardMp FSC.tfParForward
    dsimp only
    by_cases hu : us.length = M.stages.length
    · rw [if_neg (by simpa using hu), budgetScan_one _ _ (by simp [hu, hT])]
      rfl
    · rw [if_pos hu]; rfl
  · unfold FSC.tfParFwdBwdMp FSC.tfParFwdBwd
    dsimp only
    have he : M.stages.isEmpty = false := by
      cases h : M.stages with
      | nil => simp [h] at hT
      | cons a l => rfl
    rw [he, if_neg (by simp)]
    by_cases hu : Vs.length ≠ M.stages.length + 1 ∨ us.length ≠ M.stages.length
    · rw [if_pos hu]; rfl
    · rw [if_neg hu, budgetScan_one _ _ (by simp [hT])]
      rfl

end

section
variable [LinearOrder K] [AddCommMonoid K] [NeZero n]

/-- **C54** (Viterbi functions): with at least two observations the requirement holds in every scan of the four functions, which
pass the number of observations as `max_parallel`. -/
theorem C54_viterbi [Mul P] (scanV : ((Fin n → Fin n → K) → (Fin n → Fin n → K) → Py (Fin n → Fin n → K)) →
      List (Fin n → Fin n → K) → Py (List (Fin n → Fin n → K)))
    (scanF : ((Fin n → Fin n) → (Fin n → Fin n) → Py (Fin n → Fin n)) →
      List (Fin n → Fin n) → Py (List (Fin n → Fin n)))
    (am : (Fin n → K) → Fin n) (inf : K) (nl : P → K) (H : HMM n q P) (ys : List (Fin q)) (h2 : 2 ≤ ys.length) :
    H.tfFscParMp scanV scanF am inf nl ys = H.tfFscPar scanV scanF am inf nl ys ∧
    H.tfFscParBwFwBwMp scanV am inf nl ys = H.tfFscParBwFwBw scanV am inf nl ys ∧
    H.tfParFwBwMp scanV scanF am nl ys = H.tfParFwBw scanV scanF am nl ys ∧
    H.tfSeqParFwBwMp scanF am nl ys = H.tfSeqParFwBw scanF am nl ys ∧
    H.tfParFwBwFwMp scanV am nl ys = H.tfParFwBwFw scanV am nl ys := by
  have hb : ∀ (op : (Fin n → Fin n → K) → (Fin n → Fin n → K) → Py (Fin n → Fin n → K)) l, l.length ≤ ys.length + 1 →
      budgetScan scanV (tfLevels ys.length) op l = scanV op l := fun op l hl => budgetScan_eq _ _ h2 hl
  have hf : ∀ (op : (Fin n → Fin n) → (Fin n → Fin n) → Py (Fin n → Fin n)) l, l.length ≤ ys.length + 1 →
      budgetScan scanF (tfLevels ys.length) op l = scanF op l := fun op l hl => budgetScan_eq _ _ h2 hl
  have hG : ∀ M, H.getFSC nl ys = .ok M → M.stages.length = ys.length := by
    intro M hM
    unfold HMM.getFSC at hM
    split at hM
    · cases hM
    · cases hM; simp
  have hfwd : H.tfParForward (budgetScan scanV (tfLevels ys.length)) am nl ys = H.tfParForward scanV am nl ys := by
    unfold HMM.tfParForward
    dsimp only
    rw [hb _ _ (by simp [HMM.tfParForwardInit])]
  have hlen : ∀ r, H.tfParForward scanV am nl ys = .ok r → r.1.length ≤ ys.length := by
    intro r hr
    unfold HMM.tfParForward at hr
    obtain ⟨e, _, he⟩ := bind_ok.1 hr
    cases he
    simp [HMM.tfParForwardInit]
  have hslen : (H.tfSeqForward am nl ys).1.length = ys.length := by
    unfold HMM.tfSeqForward
    dsimp only
    have : ∀ (step : (Fin n → K) × List (Fin n → Fin n) × List (Fin n → K) → Fin q →
        (Fin n → K) × List (Fin n → Fin n) × List (Fin n → K))
        (_ : ∀ st y, (step st y).2.1.length = st.2.1.length + 1) (l : List (Fin q)) st,
        (l.foldl step st).2.1.length = st.2.1.length + l.length := by
      intro step hs l
      induction l with
      | nil => intro st; simp
      | cons a l ih => intro st; rw [List.foldl_cons, ih, hs, List.length_cons]; omega
    rw [this _ (by intro st y; simp)]
    simp
  have hbw : ∀ us VT, us.length ≤ ys.length →
      tfParBackward (budgetScan scanF (tfLevels ys.length)) am us VT = tfParBackward scanF am us VT := by
    intro us VT hu
    unfold tfParBackward
    dsimp only
    rw [hf _ _ (by simpa using hu)]
  refine ⟨?_, ?_, ?_, ?_, ?_⟩
  · unfold HMM.tfFscParMp HMM.tfFscPar
    cases hM : H.getFSC nl ys with
    | error e => rfl
    | ok M =>
      rw [py_ok_bind, py_ok_bind]
      have hl := (hG M hM).le
      have h3 := fun x0 us => C54_fsc scanV scanF am am inf ys.length M x0 us [] h2 hl
      unfold FSC.tfParBackwardMp FSC.tfParForwardMp at h3
      rw [(h3 0 []).1]
      simp only [(h3 _ _).2.1]
  · unfold HMM.tfFscParBwFwBwMp HMM.tfFscParBwFwBw
    cases hM : H.getFSC nl ys with
    | error e => rfl
    | ok M =>
      rw [py_ok_bind, py_ok_bind]
      have hl := (hG M hM).le
      have h3 := fun x0 us Vs => C54_fsc scanV scanF am am inf ys.length M x0 us Vs h2 hl
      unfold FSC.tfParBackwardMp FSC.tfParFwdBwdMp at h3
      rw [(h3 0 [] []).1]
      simp only [(h3 _ _ _).2.2]
  · unfold HMM.tfParFwBwMp HMM.tfParFwBw
    rw [hfwd]
    cases hr : H.tfParForward scanV am nl ys with
    | error e => rfl
    | ok r =>
      rw [py_ok_bind, py_ok_bind]
      cases r.2.getLast? with
      | none => rfl
      | some VT =>
        dsimp only
        rw [hbw _ _ (hlen r hr)]
  · unfold HMM.tfSeqParFwBwMp HMM.tfSeqParFwBw
    dsimp only
    cases (H.tfSeqForward am nl ys).2.getLast? with
    | none => rfl
    | some VT =>
      dsimp only
      rw [hbw _ _ hslen.le]
  · unfold HMM.tfParFwBwFwMp HMM.tfParFwBwFw
    rw [hfwd]
    have : ∀ Vs, H.tfParBwFw (budgetScan scanV (tfLevels ys.length)) am nl ys Vs = H.tfParBwFw scanV am nl ys Vs := by
      intro Vs
      unfold HMM.tfParBwFw
      dsimp only
      rw [hb _ _ (by simp)]
    simp only [this]

/-- **C54** (violation in the Viterbi functions): with a single observation all of them violate the requirement. -/
theorem C54_viterbi_one [Mul P] (scanV : ((Fin n → Fin n → K) → (Fin n → Fin n → K) → Py (Fin n → Fin n → K)) →
      List (Fin n → Fin n → K) → Py (List (Fin n → Fin n → K)))
    (scanF : ((Fin n → Fin n) → (Fin n → Fin n) → Py (Fin n → Fin n)) →
      List (Fin n → Fin n) → Py (List (Fin n → Fin n)))
    (am : (Fin n → K) → Fin n) (inf : K) (nl : P → K) (H : HMM n q P) (y : Fin q) :
    H.tfFscParMp scanV scanF am inf nl [y] = .error .valueError ∧
    H.tfFscParBwFwBwMp scanV am inf nl [y] = .error .valueError ∧
    H.tfParFwBwMp scanV scanF am nl [y] = .error .valueError ∧
    H.tfSeqParFwBwMp scanF am nl [y] = .error .valueError ∧
    H.tfParFwBwFwMp scanV am nl [y] = .error .valueError :=
  ⟨rfl, rfl, rfl, rfl, rfl⟩

end

section
variable [Field K] [LinearOrder K] [NeZero n]

/-- **C54** (HJB pass): as for the FSC passes, with the number of blocks for `T`. -/
theorem C54_hjb (scan : ((Fin n → Fin n → WithBot K) → (Fin n → Fin n → WithBot K) → Py (Fin n → Fin n → WithBot K)) →
      List (Fin n → Fin n → WithBot K) → Py (List (Fin n → Fin n → WithBot K)))
    (am : (Fin n → WithBot K) → Fin n) (mp : ℕ) (M : HJB n K) (block_V : Fin n → Fin n → WithBot K) :
    (2 ≤ mp → M.blocks ≤ mp → parBwPassTFMp scan am mp M block_V = parBwPassTF scan am M block_V) ∧
    (M.blocks = 1 → parBwPassTFMp scan am 1 M block_V = .error .valueError) := by
  constructor
  · intro h2 hT
    unfold parBwPassTFMp parBwPassTF
    dsimp only
    rw [budgetScan_eq _ _ h2 (by simpa using hT)]
  · intro hT
    unfold parBwPassTFMp parBwPassTF
    dsimp only
    rw [budgetScan_one _ _ (by simp [hT])]
    rfl

end

section
variable [Field K] [LinearOrder K]

/-- `mapM` keeps the length. -/
theorem mapM_py_length {α β : Type} (f : α → Py β) (l : List α) (r : List β) (h : l.mapM f = .ok r) :
    r.length = l.length := by
  have := mapM_ok_iff.1 h
  exact this.length_eq.symm

/-- **C54** (LQT passes): the requirement holds in the three LQT passes for all `1 <= T <= max_parallel`, also for a single
step. -/
theorem C54_lqt (scan : (Elem n K → Elem n K → Py (Elem n K)) → List (Elem n K) → Py (List (Elem n K)))
    (scanF : (Matrix (Fin n) (Fin n) K × (Fin n → K) → Matrix (Fin n) (Fin n) K × (Fin n → K) →
      Py (Matrix (Fin n) (Fin n) K × (Fin n → K))) → List (Matrix (Fin n) (Fin n) K × (Fin n → K)) →
      Py (List (Matrix (Fin n) (Fin n) K × (Fin n → K))))
    (mp : ℕ) (Q : TFLQT n m p q K) (x0 : Fin n → K) (bw : BwResult n m K) (gs : List (TFwd n m K)) (h1 : 1 ≤ mp)
    (hT : Q.stages.length ≤ mp) (hg : gs.length ≤ mp) :
    Q.parBackwardMp scan mp = Q.parBackward scan ∧ Q.parFwdBwdMp scan mp x0 bw = Q.parFwdBwd scan x0 bw ∧
    lqtTfParForwardMp scanF mp x0 gs = lqtTfParForward scanF x0 gs := by
  refine ⟨?_, ?_, ?_⟩
  · unfold TFLQT.parBackwardMp TFLQT.parBackward
    cases hm : Q.stages.mapM TStage.elem with
    | error e => rfl
    | ok most =>
      rw [py_ok_bind, py_ok_bind]
      dsimp only
      rw [budgetScan1_eq _ _ h1 (by simpa [mapM_py_length _ _ _ hm] using hT)]
  · unfold TFLQT.parFwdBwdMp TFLQT.parFwdBwd
    cases hm : Q.stages.mapM TStage.elem with
    | error e => rfl
    | ok most =>
      rw [py_ok_bind, py_ok_bind]
      dsimp only
      rw [budgetScan1_eq _ _ h1 (by simpa [mapM_py_length _ _ _ hm] using hT)]
  · unfold lqtTfParForwardMp lqtTfParForward
    cases gs with
    | nil => rfl
    | cons g rest =>
      dsimp only
      rw [budgetScan1_eq _ _ h1 (by simpa using hg.trans (Nat.le_succ _))]

end

/-- **C54** (default argument): the default `max_parallel = 10000` serves `T + 1` elements exactly up to `T = 32766`. -/
theorem C54_default (T : ℕ) : tfLevels 10000 = .ok 14 ∧ tfLevels1 10000 = .ok 14 ∧ (T + 1 < 2 ^ (14 + 1) ↔ T ≤ 32766) := by
  refine ⟨(C54_levels _ _).1.2 ⟨by norm_num, by norm_num, ?_⟩, (C54_levels _ _).2.1.2 ⟨by norm_num, by norm_num, by norm_num, ?_⟩,
    by omega⟩
  · intro j hj
    by_contra hlt
    have : 2 ^ j ≤ 2 ^ 13 := Nat.pow_le_pow_right (by norm_num) (by omega)
    omega
  · intro j _ hj
    by_contra hlt
    have : 2 ^ j ≤ 2 ^ 13 := Nat.pow_le_pow_right (by norm_num) (by omega)
    omega

/-- The hypotheses of `C54_fsc_one` are met by `hiFSC`, where the library's scan itself would succeed. -/
example : hiFSC.stages.length = 1 ∧
    hiFSC.tfParBackwardMp (fun op l => scanVals op l) argmin1 5 1 = .error .valueError ∧
    (hiFSC.tfParBackward (fun op l => scanVals op l) argmin1 5).isOk ∧
    hiFSC.tfParBackwardMp (fun op l => scanVals op l) argmin1 5 2 =
      hiFSC.tfParBackward (fun op l => scanVals op l) argmin1 5 :=
  ⟨rfl, rfl, rfl, (C54_fsc _ (fun op l => scanVals op l) argmin1 argmin1 5 2 hiFSC 0 [] [] le_rfl (by decide)).1⟩

/-- The hypotheses of `C54_lqt` are met by the two-step problem `exTF`. -/
example : exTF.stages.length ≤ 2 ∧ (exTF.parBackwardMp (fun op l => scanVals op l) 2).isOk := by
  refine ⟨by decide, ?_⟩
  rw [(C54_lqt _ (fun op l => scanVals op l) 2 exTF 0 ⟨[], [], [], []⟩ [] (by norm_num) (by decide) (by simp)).1]
  decide +kernel

end Verif
