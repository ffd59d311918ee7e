import Verif.Proof.ViterbiTensor
import Verif.Props.FSCTensor

/-!
# C99: the tensor code of `viterbi_tf.py`

The batched index code of `viterbi_tf.py` (transposed emission matrix gathered at the observations, broadcasting of the prior and of the value
functions, slices, reversals, gathers) computes what the functional model of the file (`Verif.Model.ViterbiTF`, C17, and
`Verif.Model.FSCTF`, C63) says, and hence a maximum a posteriori path.
-/

namespace Verif

variable {K P : Type} {n q : ℕ}

/-- **C99** (elements): the elements of the parallel passes hold, for each observation, the cost of every transition followed by the
observation, after the prior repeated in every row. -/
theorem C99_elements [AddCommMonoid K] (nl : P → K) (H : HMM n q P) {prior Pi Po : Tens P} {yt : Tens ℕ} {ys : List (Fin q)}
    (hp : prior.IsV H.prior) (hPi : Pi.IsM H.Pi) (hPo : Po.IsM H.Po) (hy : yt.Is1 (ys.map Fin.val)) :
    ∃ c, tensVitFwInit nl prior Pi Po yt = .ok c ∧
      c.IsMs ((fun _ x => nl (H.prior x)) :: ys.map fun y j x => nl (H.Pi j x) + nl (H.Po x y)) :=
  vitFwInit_is nl H hp hPi hPo hy

section Direct
variable [LinearOrder K] [AddCommMonoid K] [NeZero n]

/-- **C99** (sequential passes): `viterbi_seq_fwbw` on tensors returns what the functional model returns. -/
theorem C99_sequential (am : AArgmin K) (nl : P → K) (H : HMM n q P) {prior Pi Po : Tens P} {yt : Tens ℕ} {ys : List (Fin q)}
    (hp : prior.IsV H.prior) (hPi : Pi.IsM H.Pi) (hPo : Po.IsM H.Po) (hy : yt.Is1 (ys.map Fin.val)) :
    ∃ Vs lx lV, tensVitSeqFwBw am nl prior Pi Po yt = .ok (lx.map Fin.val, Vs) ∧ H.tfSeqFwBw (am n) nl ys = .ok (lx, lV) ∧ Vs.IsVs lV := by
  obtain ⟨us, Vs, h1, h2, h3⟩ := vitSeqForward_is am nl H hp hPi hPo hy
  have hne : (H.tfSeqForward (am n) nl ys).2 ≠ [] := by simp [HMM.tfSeqForward]
  have hl := List.getLast?_eq_some_getLast hne
  obtain ⟨c, h4, h5⟩ := h3.last hl
  refine ⟨Vs, tfSeqBackward (am n) (H.tfSeqForward (am n) nl ys).1 ((H.tfSeqForward (am n) nl ys).2.getLast hne), _, ?_, ?_, h3⟩
  rotate_left
  · rw [HMM.tfSeqFwBw]
    simp only [hl]
  · simp only [tensVitSeqFwBw, h1, h4, vitSeqBackward_is am h2 h5, tens_bind]
    rfl

/-- **C99** (parallel passes): with any associative scan, `viterbi_par_fwbw`, `viterbi_seqpar_fwbw` and `viterbi_par_fwbwfw` on tensors
return tensors with what the functional model returns. -/
theorem C99_parallel [IsOrderedAddMonoid K] {scan : AScan} (hs : ∀ α, IsAssocScan (scan α)) (am : AArgmin K) (nl : P → K) (H : HMM n q P)
    {prior Pi Po : Tens P} {yt : Tens ℕ} {ys : List (Fin q)} (hp : prior.IsV H.prior) (hPi : Pi.IsM H.Pi) (hPo : Po.IsM H.Po)
    (hy : yt.Is1 (ys.map Fin.val)) :
    (∃ xs Vs lx lV, tensVitParFwBw scan am nl prior Pi Po yt = .ok (xs, Vs) ∧ H.tfParFwBw (scan _) (scan _) (am n) nl ys = .ok (lx, lV) ∧
      xs.Is1 (lx.map Fin.val) ∧ Vs.IsVs lV) ∧
    (∃ xs Vs lx lV, tensVitSeqParFwBw scan am nl prior Pi Po yt = .ok (xs, Vs) ∧ H.tfSeqParFwBw (scan _) (am n) nl ys = .ok (lx, lV) ∧
      xs.Is1 (lx.map Fin.val) ∧ Vs.IsVs lV) ∧
    (∃ xs Vs lx lV, tensVitParFwBwFw scan am nl prior Pi Po yt = .ok (xs, Vs) ∧ H.tfParFwBwFw (scan _) (am n) nl ys = .ok (lx, lV) ∧
      xs.Is1 (lx.map Fin.val) ∧ Vs.IsVs lV) := by
  obtain ⟨us, Vs, lu, lV, h1, h2, h3, h4, h5, h6⟩ := vitParForward_is hs am nl H hp hPi hPo hy
  refine ⟨?_, ?_, ?_⟩
  · have hne : lV ≠ [] := by rintro rfl; simp at h6
    have hl := List.getLast?_eq_some_getLast hne
    obtain ⟨c, h7, h8⟩ := h4.last hl
    obtain ⟨xs, lx, g1, g2, g3⟩ := vitParBackward_is hs am h3 h8
    refine ⟨xs, Vs, lx, lV, ?_, ?_, g3, h4⟩
    · simp only [tensVitParFwBw, h1, h7, g1, tens_bind]
      rfl
    · simp only [HMM.tfParFwBw, h2, tens_bind, hl, g2]
      rfl
  · obtain ⟨us, Vs, h1, h2, h3⟩ := vitSeqForward_is am nl H hp hPi hPo hy
    have hne : (H.tfSeqForward (am n) nl ys).2 ≠ [] := by simp [HMM.tfSeqForward]
    have hl := List.getLast?_eq_some_getLast hne
    obtain ⟨c, h7, h8⟩ := h3.last hl
    obtain ⟨xs, lx, g1, g2, g3⟩ := vitParBackward_is hs am h2 h8
    refine ⟨xs, Vs, lx, _, ?_, ?_, g3, h3⟩
    · simp only [tensVitSeqParFwBw, h1, h7, g1, tens_bind]
      rfl
    · simp only [HMM.tfSeqParFwBw, hl, g2, tens_bind]
      rfl
  · obtain ⟨xs, Vf, lx, lf, g1, g2, g3, g4⟩ := vitParBwFw_is hs am nl H hp hPi hPo hy h4 h6
    refine ⟨xs, Vs, lx, lV, ?_, ?_, g3, h4⟩
    · simp only [tensVitParFwBwFw, h1, g1, tens_bind]
      rfl
    · simp only [HMM.tfParFwBwFw, h2, g2, tens_bind]
      rfl

end Direct

/-- **C99** (observation out of range): an observation that the emission matrix has no column for makes the construction of the elements raise. -/
theorem C99_index [AddCommMonoid K] (nl : P → K) {Pi Po : Tens P} {yt : Tens ℕ} {T : ℕ} (hPi : Pi.shape = [n, n])
    (hPo : Po.shape = [n, q]) (hy : yt.shape = [T]) {k : ℕ} (hk : k < T) (h : q ≤ yt.val [k]) :
    tensVitElems nl Pi Po yt = .error .indexError := by
  obtain ⟨s1, v1⟩ := Pi
  obtain ⟨s2, v2⟩ := Po
  obtain ⟨s3, v3⟩ := yt
  dsimp only at hPi hPo hy h
  subst hPi hPo hy
  have e1 : Tens.transpose (⟨[n, q], v2⟩ : Tens P) = .ok ⟨[q, n], fun i => v2 [i.getD 1 0, i.getD 0 0]⟩ := rfl
  have e2 : Tens.expandDims (⟨[T], v3⟩ : Tens ℕ) (-1) = .ok ⟨[T, 1], fun i => v3 (i.eraseIdx 1)⟩ := rfl
  have hr : List.range 1 = [0] := rfl
  have hall : ¬ ((allIdx [T]).all fun o => decide (o.take 0 ++ ((List.range 1).map fun j => v3 ((o ++ [j]).eraseIdx 1)) ∈
      allIdx ([q, n].take (0 + 1)))) = true := by
    rw [List.all_eq_true]
    intro hc
    have hc := of_decide_eq_true (hc [k] (mem_allIdx1.2 ⟨_, rfl, hk⟩))
    obtain ⟨a, e, ha⟩ := mem_allIdx1.1 hc
    simp [hr] at e
    omega
  have e3 : ∀ g : List ℕ → K, Tens.gatherNd ⟨[q, n], g⟩ ⟨[T, 1], fun i => v3 (i.eraseIdx 1)⟩ 0 = .error .indexError := fun g => by
    unfold Tens.gatherNd
    refine Eq.trans (if_pos ⟨Nat.zero_le 1, Nat.le_succ 1, rfl⟩) ?_
    exact if_neg hall
  have e4 : Tens.expandDims (Tens.map nl ⟨[n, n], v1⟩) 0 = .ok ⟨[1, n, n], fun i => nl (v1 (i.eraseIdx 0))⟩ := rfl
  have e5 : ∀ g : List ℕ → P, Tens.map nl ⟨[q, n], g⟩ = ⟨[q, n], fun i => nl (g i)⟩ := fun _ => rfl
  rw [tensVitElems, e4, e1, tens_bind, tens_bind, e5, Tens.gather, e2, tens_bind, e3]
  rfl

section Fsc
variable [LinearOrder K] [AddCommMonoid K] [NeZero n] [Inhabited K] [Mul P]

/-- **C99** (through the control problem): on the tensors of `make_viterbi_fsc`, the three routines that call `fsc_tf.py` return what the
functional model returns; without observations the construction raises. -/
theorem C99_control [IsOrderedAddMonoid K] {scan : AScan} (hs : ∀ α, IsAssocScan (scan α)) (am : AArgmin K) (inf : K) (nl : P → K)
    (H : HMM n q P) (ys : List (Fin q)) (hys : ys ≠ []) :
    ∃ inputs, H.makeViterbiFsc nl ys = .ok inputs ∧
      (∃ Vs lx lV, tensVitFscSeq am inputs = .ok (lx.map Fin.val, Vs) ∧ H.tfFscSeq (am n) nl ys = .ok (lx, lV) ∧ Vs.IsVs lV) ∧
      (∃ xs Vs lx lV, tensVitFscPar scan am inf inputs = .ok (xs, Vs) ∧ H.tfFscPar (scan _) (scan _) (am n) inf nl ys = .ok (lx, lV) ∧
        xs.Is1 (lx.map Fin.val) ∧ Vs.IsVs lV) ∧
      (∃ xs Vs lx lV, tensVitFscParBwFwBw scan am inf inputs = .ok (xs, Vs) ∧ H.tfFscParBwFwBw (scan _) (am n) inf nl ys = .ok (lx, lV) ∧
        xs.Is1 (lx.map Fin.val) ∧ Vs.IsVs lV) := by
  obtain ⟨M, hM, hne⟩ : ∃ M, H.getFSC nl ys = .ok M ∧ M.stages ≠ [] := by
    cases ys with
    | nil => exact absurd rfl hys
    | cons y ys => exact ⟨_, rfl, by simp⟩
  obtain ⟨c1, c2, c3⟩ := C98_convert M
  have hmk : H.makeViterbiFsc nl ys = .ok M.toTensors := by rw [HMM.makeViterbiFsc, hM]; rfl
  generalize M.toTensors = inp at c1 c2 c3 hmk
  obtain ⟨fs, Ls, LT⟩ := inp
  have get : ∀ {lV : List (Fin n → K)} (hl : lV.length = M.stages.length + 1), pyGet lV 0 = .ok (lV[0]'(by omega)) := fun hl =>
    pyGet_ok.2 (List.getElem?_eq_getElem (by omega))
  refine ⟨(fs, Ls, LT), hmk, ?_, ?_, ?_⟩
  · obtain ⟨us, Vs, lu, lV, h1, h2, h3, h4, h5, h6⟩ := seqBackward_is am M c1 c2 c3
    obtain ⟨e1, g1, g1'⟩ := h4.at (k := 0) (by omega)
    obtain ⟨e2, g2, g2'⟩ := g1'.argmin am (axis := -1) rfl
    obtain ⟨xs, vs, g3, g4⟩ := seqForward_is M (am n lV[0]) c1 h3 h5
    obtain ⟨e3, g5, g5'⟩ := (Tens.isVs_iff.1 h4).reverse
    refine ⟨e3, xs.reverse, lV.reverse, ?_, ?_, Tens.isVs_iff.2 g5'⟩
    · simp only [tensVitFscSeq, h1, g1, g2, g2', g3, g5, tens_bind, List.map_reverse]
      rfl
    · simp only [HMM.tfFscSeq, hM, h2, get h6, g4, tens_bind]
      rfl
  · obtain ⟨us, Vs, lu, lV, h1, h2, h3, h4, h5, h6⟩ := parBackward_is hs am inf M c1 c2 c3
    obtain ⟨e1, g1, g1'⟩ := h4.at (k := 0) (by omega)
    obtain ⟨e2, g2, g2'⟩ := g1'.argmin am (axis := -1) rfl
    obtain ⟨mu, mx, lmu, lmx, g3, g4, _, g6⟩ := parForward_is hs M (am n lV[0]) c1 h3 h5
    obtain ⟨e3, g5, g5'⟩ := (Tens.isVs_iff.1 h4).reverse
    obtain ⟨e4, g7, g7'⟩ := (Tens.is1_iff.1 g6).reverse
    refine ⟨e4, e3, lmx.reverse, lV.reverse, ?_, ?_, by rw [List.map_reverse]; exact Tens.is1_iff.2 g7', Tens.isVs_iff.2 g5'⟩
    · simp only [tensVitFscPar, h1, g1, g2, g2', g3, g5, g7, tens_bind]
      rfl
    · simp only [HMM.tfFscPar, hM, h2, get h6, g4, tens_bind]
      rfl
  · obtain ⟨us, Vs, lu, lV, h1, h2, h3, h4, h5, h6⟩ := parBackward_is hs am inf M c1 c2 c3
    obtain ⟨e1, g1, g1'⟩ := h4.at (k := 0) (by omega)
    obtain ⟨e2, g2, g2'⟩ := g1'.argmin am (axis := -1) rfl
    obtain ⟨mu, mx, lmu, lmx, g3, g4, _, g6⟩ := parFwdBwd_is hs am inf M hne (am n lV[0]) c1 c2 h3 h4 h5 h6
    obtain ⟨e3, g5, g5'⟩ := (Tens.isVs_iff.1 h4).reverse
    obtain ⟨e4, g7, g7'⟩ := (Tens.is1_iff.1 g6).reverse
    refine ⟨e4, e3, lmx.reverse, lV.reverse, ?_, ?_, by rw [List.map_reverse]; exact Tens.is1_iff.2 g7', Tens.isVs_iff.2 g5'⟩
    · simp only [tensVitFscParBwFwBw, h1, g1, g2, g2', g3, g5, g7, tens_bind]
      rfl
    · simp only [HMM.tfFscParBwFwBw, hM, h2, get h6, g4, tens_bind]
      rfl

omit [LinearOrder K] [AddCommMonoid K] [NeZero n] in
/-- **C99** (no observations): `make_viterbi_fsc` raises. -/
theorem C99_empty (nl : P → K) (H : HMM n q P) : H.makeViterbiFsc nl [] = .error .indexError := rfl

end Fsc

/-- **C99** (maximum a posteriori): on the tensors of a hidden Markov model, zero probabilities included, `viterbi_seq_fwbw`,
`viterbi_par_fwbw` and `viterbi_seqpar_fwbw` return the same maximum a posteriori path, and each state returned by `viterbi_par_fwbwfw` lies
on such a path. -/
theorem C99_map [CommSemiring P] [LinearOrder P] [AddCommMonoid K] [LinearOrder K] [IsOrderedAddMonoid K] [NeZero n] {S : P → Prop}
    {nl : P → K} {scan : AScan} (hs : ∀ α, IsAssocScan (scan α)) {am : AArgmin K} (ham : IsArgmin (am n)) (h : IsNegLog S nl)
    (H : HMM n q P) (hH : H.All S) {prior Pi Po : Tens P} {yt : Tens ℕ} {ys : List (Fin q)} (hp : prior.IsV H.prior) (hPi : Pi.IsM H.Pi)
    (hPo : Po.IsM H.Po) (hy : yt.Is1 (ys.map Fin.val)) :
    ∃ lx V1 xs2 V2 xs3 V3 xs4 V4, tensVitSeqFwBw am nl prior Pi Po yt = .ok (lx.map Fin.val, V1) ∧
      tensVitParFwBw scan am nl prior Pi Po yt = .ok (xs2, V2) ∧ tensVitSeqParFwBw scan am nl prior Pi Po yt = .ok (xs3, V3) ∧
      tensVitParFwBwFw scan am nl prior Pi Po yt = .ok (xs4, V4) ∧ H.IsMAP ys lx ∧ xs2.Is1 (lx.map Fin.val) ∧ xs3.Is1 (lx.map Fin.val) ∧
      xs4.shape = [ys.length + 1] ∧ (∀ k ≤ ys.length, ∃ p x, H.IsMAP ys p ∧ p[k]? = some x ∧ xs4.val [k] = x.val) ∧
      ∃ lV : List (Fin n → K), V1.IsVs lV ∧ V2.IsVs lV ∧ V3.IsVs lV ∧ V4.IsVs lV := by
  obtain ⟨V1, lx, lV, a1, a2, a3⟩ := C99_sequential am nl H hp hPi hPo hy
  obtain ⟨⟨x2, V2, l2, v2, b1, b2, b3, b4⟩, ⟨x3, V3, l3, v3, d1, d2, d3, d4⟩, ⟨x4, V4, l4, v4, f1, f2, f3, f4⟩⟩ :=
    C99_parallel hs am nl H hp hPi hPo hy
  obtain ⟨p, p', W, g1, _, g3⟩ := C17_seq ham h H hH ys
  rw [a2] at g1
  cases g1
  obtain ⟨g4, g5⟩ := C17_par_eq_seq (nl := nl) (hs _) (hs _) (am n) H ys
  rw [g4, a2] at b2
  cases b2
  rw [g5, a2] at d2
  cases d2
  obtain ⟨xs, p, W, i1, i2, i3, i4, _⟩ := C17_fwbwfw (hs _) ham h H hH ys
  rw [f2] at i1
  cases i1
  rw [a2] at i2
  cases i2
  refine ⟨lx, V1, x2, V2, x3, V3, x4, V4, a1, b1, d1, f1, g3, b3, d3, ?_, fun k hk => ?_, lV, a3, b4, d4, f4⟩
  · rw [f3.1]
    simp [i3]
  · obtain ⟨p, h1, h2⟩ := i4 k hk
    have hk' : k < l4.length := by omega
    rw [List.getElem?_eq_getElem hk'] at h2
    refine ⟨p, l4[k], h1, h2.symm, ?_⟩
    rw [f3.2 k (by simpa using hk')]
    simp

/-! ## Examples -/

/-- The tensor of a matrix. -/
def tensM [Inhabited K] {m : ℕ} (A : Fin n → Fin m → K) : Tens K :=
  ⟨[n, m], fun i => if h : i.getD 0 0 < n ∧ i.getD 1 0 < m then A ⟨_, h.1⟩ ⟨_, h.2⟩ else default⟩

theorem tensM_is [Inhabited K] {m : ℕ} (A : Fin n → Fin m → K) : (tensM A).IsM A := by
  refine ⟨rfl, fun x y => ?_⟩
  simp [tensM]

/-- The tensors of a model meet the hypotheses. -/
theorem C99_tensors [Inhabited P] (H : HMM n q P) (ys : List (Fin q)) :
    (tensV H.prior).IsV H.prior ∧ (tensM H.Pi).IsM H.Pi ∧ (tensM H.Po).IsM H.Po ∧ (tens1 (ys.map Fin.val)).Is1 (ys.map Fin.val) :=
  ⟨tensV_is _, tensM_is _, tensM_is _, tens1_is _⟩

example : ∃ lx V, tensVitSeqFwBw (fun _ => argmin1) nl01 (tensV someHMM.prior) (tensM someHMM.Pi) (tensM someHMM.Po) (tens1 [0, 0]) =
    .ok (lx.map Fin.val, V) ∧ someHMM.IsMAP [0, 0] lx := by
  obtain ⟨lx, V1, _, _, _, _, _, _, h1, _, _, _, h2, _⟩ := C99_map (am := fun _ => argmin1) (fun _ => C17_scan_example)
    (fun v i => argmin1_le v i) isNegLog01 someHMM ⟨by decide, by decide, by decide⟩ (ys := [0, 0]) (tensV_is _) (tensM_is _) (tensM_is _)
    (tens1_is _)
  exact ⟨lx, V1, h1, h2⟩

/-- The tensor code run on the model with two states that alternate. -/
example : ((tensVitSeqFwBw (fun _ => argmin1) nl01 (tensV someHMM.prior) (tensM someHMM.Pi) (tensM someHMM.Po) (tens1 [0, 0])).map Prod.fst) =
    .ok [1, 0, 1] := by decide +kernel

/-- An observation without a column. -/
example : tensVitElems nl01 (tensM someHMM.Pi) (tensM someHMM.Po) (tens1 [0, 1]) = .error .indexError :=
  C99_index nl01 rfl rfl rfl (k := 1) (by norm_num) (by decide)

end Verif
