import Verif.Proof.ViterbiTFTests
import Verif.Props.FSCTF
import Verif.Props.FSCFirst

/-!
# C120: the unit tests that compare the TensorFlow Viterbi decoders (`test_viterbi_tf.py`)
-/

namespace Verif

variable {n q : ℕ} [NeZero n]

/-- **C120** (scans): for every model with positive probabilities, all observations, any scan primitive with its contract and
any function that returns a minimiser, the tests that compare `viterbi_seq_fwbw` with its parallel versions pass, ties
included, and so does the comparison of the values with the reference; that of the forward passes needs an observation. -/
theorem C120_scans {scanV : ScanV n} (hV : IsAssocScan scanV) {scanF : ScanF n} (hF : IsAssocScan scanF)
    {am : (Fin n → ℝ) → Fin n} (ham : IsArgmin am) (H : HMM n q ℝ) (hH : H.All (fun p => 0 < p)) (ys : List (Fin q)) :
    Passes (vtfTestParBackward scanV scanF am H ys) ∧ Passes (vtfTestParFwBw scanV scanF am H ys) ∧
    Passes (vtfTestSeqPar scanF am H ys) ∧ Passes (vtfTestSeqForward am H ys) ∧
    (ys ≠ [] → Passes (vtfTestParForward scanV am H ys)) := by
  obtain ⟨p, V, hlog, -, -, hV0⟩ := log2_ok H hH ys
  obtain ⟨p', p'', V', h1, h2, hm⟩ := C17_seq ham negLog_spec H hH ys
  obtain ⟨rfl, rfl⟩ := Prod.mk.inj (Except.ok.inj (hlog.symm.trans h2))
  have hp : p' ≠ [] := by intro h; have := hm.1; rw [h] at this; simp at this
  obtain ⟨e1, e2⟩ := C17_par_eq_seq (nl := negLog) hV hF am H ys
  have hvals : (H.tfSeqForward am negLog ys).2 = V := by
    unfold HMM.tfSeqFwBw at h1
    dsimp only at h1
    split at h1
    · cases h1
    · exact (Prod.mk.inj (Except.ok.inj h1)).2
  refine ⟨vtfCmp_pass (c := (· = 0)) rfl h1 (e1.trans h1) hp hV0, vtfCmp_pass (by norm_num) h1 (e1.trans h1) hp hV0,
    vtfCmp_pass (c := (· = 0)) rfl h1 (e2.trans h1) hp hV0, ⟨(0 : ℝ) < testTol, bind_ok.2 ⟨_, hlog, ?_⟩, testTol_pos⟩,
    fun hys => ⟨(0 : ℝ) < testTol ∧ (0 : ℝ) = 0, bind_ok.2 ⟨_, tfParForward_eq hV am H ys, bind_ok.2 ⟨_, arrMax_self
      (hvals ▸ hV0), bind_ok.2 ⟨_, arrMax_self ?_, rfl⟩⟩⟩, testTol_pos, rfl⟩⟩
  · rw [hvals]
    exact bind_ok.2 ⟨_, arrMax_self hV0, rfl⟩
  · exact fun h => tfSeqForward_us_ne am H hys (List.map_eq_nil_iff.1 h)

/-- **C120** (first minimiser): if `tf.argmin` returns the first minimiser, as `np.argmin` does, the tests that compare with the
sequential numpy decoders pass for all nonempty observations, ties included; that of `viterbi_fsc_par_bwfw` if the negative log
probabilities are at most `B` with `(2 T + 1) 2 B ≤ 1e20`. -/
theorem C120_first {scanV : ScanV n} (hV : IsAssocScan scanV) {scanF : ScanF n} (hF : IsAssocScan scanF)
    (H : HMM n q ℝ) (hH : H.All (fun p => 0 < p)) (ys : List (Fin q)) (hys : ys ≠ []) :
    Passes (vtfTestFscSeq argmin1 H ys) ∧ Passes (vtfTestSeqBackward argmin1 H ys) ∧ Passes (vtfTestSeqFwBw argmin1 H ys) ∧
    (∀ B, H.All (fun p => |negLog p| ≤ B) → (2 * (ys.length : ℝ) + 1) * (B + B) ≤ 10 ^ 20 →
      Passes (vtfTestFscPar scanV scanF argmin1 H ys)) := by
  obtain ⟨p, V, hlog, -, hp, hV0⟩ := log2_ok H hH ys
  have hs : H.seqViterbi negLog ys = .ok (p, V) := (C15_reduction_exact negLog_spec H hH ys hys).trans hlog
  have hq : H.tfSeqFwBw argmin1 negLog ys = .ok (p, V) := (C17_seq_eq (nl := negLog) H ys).trans hlog
  refine ⟨vtfCmp_pass (c := (· = 0)) rfl hs ((C63_seq negLog_spec H hH ys hys).2.trans hs) hp hV0, ?_,
    vtfCmp_pass (by norm_num) hlog hq hp hV0, fun B hB hT => ?_⟩
  · unfold HMM.tfSeqFwBw at hq
    dsimp only at hq
    refine ⟨(0 : ℝ) = 0, bind_ok.2 ⟨_, hlog, ?_⟩, rfl⟩
    dsimp only
    split at hq
    · cases hq
    · rename_i VT hVT
      rw [hVT]
      dsimp only
      rw [(Prod.mk.inj (Except.ok.inj hq)).1]
      exact bind_ok.2 ⟨_, pathErr_self hp, rfl⟩
  · have hB' : (2 * ys.length + 1) • (B + B) ≤ (10 : ℝ) ^ 20 := by rw [nsmul_eq_mul]; push_cast; exact hT
    have e1 := C16_par_eq_seq negLog_spec H hH (10 ^ 20) B hB.prior hB.Pi hB.Po ys hys hB'
    have e2 := (C63_par negLog_spec H hH (10 ^ 20) B hV hF hB.prior hB.Pi hB.Po ys hys hB').2
    exact vtfCmp_pass (c := (· = 0)) rfl (e1.trans hs) (e2.trans (e1.trans hs)) hp hV0

/-- **C120** (unique path): if the most probable path is unique and the costs are below the sentinel, the tests that compare
the decoders with different recursions pass, whatever minimisers are returned. -/
theorem C120_unique {scanV : ScanV n} (hV : IsAssocScan scanV) {scanF : ScanF n} (hF : IsAssocScan scanF)
    {am : (Fin n → ℝ) → Fin n} (ham : IsArgmin am) (H : HMM n q ℝ) (hH : H.All (fun p => 0 < p)) (B : ℝ)
    (hB : H.All (fun p => |negLog p| ≤ B)) (ys : List (Fin q)) (hys : ys ≠ [])
    (hT : (2 * (ys.length : ℝ) + 2) * (B + B) < 10 ^ 20) (hu : ∀ p p', H.IsMAP ys p → H.IsMAP ys p' → p = p') :
    Passes (vtfTestFscSeq am H ys) ∧ Passes (vtfTestFscPar scanV scanF am H ys) ∧ Passes (vtfTestFscBw scanV am H ys) ∧
    Passes (vtfTestSeqBackward am H ys) ∧ Passes (vtfTestSeqFwBw am H ys) ∧ Passes (vtfTestFwBwFw scanV am H ys) ∧
    Passes (vtfTestBwFw scanV am H ys) := by
  obtain ⟨p, V, hlog, hm, hp, hV0⟩ := log2_ok H hH ys
  have hB0 : 0 ≤ B := (abs_nonneg _).trans (hB.prior 0)
  have hs : H.seqViterbi negLog ys = .ok (p, V) := (C15_reduction_exact negLog_spec H hH ys hys).trans hlog
  have hB2 : (2 * ys.length + 2) • (B + B) < (10 : ℝ) ^ 20 := by rw [nsmul_eq_mul]; push_cast; exact hT
  have hB1 : (2 * ys.length + 1) • (B + B) ≤ (10 : ℝ) ^ 20 := by rw [nsmul_eq_mul]; push_cast; nlinarith
  have hfs : H.tfFscSeq am negLog ys = .ok (p, V) := by
    obtain ⟨a, b, W, h1, h2, h3⟩ := (C63_seq negLog_spec H hH ys hys).1 am ham
    obtain ⟨-, rfl⟩ := Prod.mk.inj (Except.ok.inj (hs.symm.trans h2))
    rw [h1, hu a p h3 hm]
  have hq : H.tfSeqFwBw am negLog ys = .ok (p, V) := by
    obtain ⟨a, b, W, h1, h2, h3⟩ := C17_seq ham negLog_spec H hH ys
    obtain ⟨-, rfl⟩ := Prod.mk.inj (Except.ok.inj (hlog.symm.trans h2))
    rw [h1, hu a p h3 hm]
  have hnp : H.parBwdFwdBwdViterbi (10 ^ 20) negLog ys = .ok (p, V) := by
    obtain ⟨a, b, W, h1, h2, -, -, -, h3⟩ := C16_fwdbwd_on_MAP negLog_spec H hH (10 ^ 20) B hB.prior hB.Pi hB.Po ys hys hB2
    obtain ⟨rfl, rfl⟩ := Prod.mk.inj (Except.ok.inj (hs.symm.trans h2))
    rw [h1, h3 hu]
  have htf : H.tfFscParBwFwBw scanV am (10 ^ 20) negLog ys = .ok (p, V) := by
    obtain ⟨a, b, W, h1, h2, hl, h3⟩ := C63_par_bwfwbw negLog_spec H hH (10 ^ 20) B hV ham hB.prior hB.Pi hB.Po ys hys hB2
    obtain ⟨rfl, rfl⟩ := Prod.mk.inj (Except.ok.inj (hs.symm.trans h2))
    have : a = p := by
      apply list_ext_of (n := ys.length + 1) hl hm.1
      intro k hk
      obtain ⟨p', hp1, hp2⟩ := h3 k (by omega)
      rw [hp2, hu p' p hp1 hm]
    rw [h1, this]
  have hfw : H.tfParFwBwFw scanV am negLog ys = .ok (p, V) := by
    obtain ⟨a, b, W, h1, h2, -, -, h3⟩ := C17_fwbwfw hV ham negLog_spec H hH ys
    obtain ⟨rfl, rfl⟩ := Prod.mk.inj (Except.ok.inj (hq.symm.trans h2))
    rw [h1, h3 hu]
  refine ⟨vtfCmp_pass (c := (· = 0)) rfl hs hfs hp hV0,
    vtfCmp_pass (c := (· = 0)) rfl ((C16_par_eq_seq negLog_spec H hH (10 ^ 20) B hB.prior hB.Pi hB.Po ys hys hB1).trans hs)
      (((C63_par negLog_spec H hH (10 ^ 20) B hV hF hB.prior hB.Pi hB.Po ys hys hB1).1 am).trans hfs) hp hV0,
    vtfCmp_pass (c := (· = 0)) rfl hnp htf hp hV0, ?_, vtfCmp_pass (by norm_num) hlog hq hp hV0,
    ⟨(0 : ℝ) = 0, bind_ok.2 ⟨_, hnp, bind_ok.2 ⟨_, htf, bind_ok.2 ⟨_, hfw, bind_ok.2 ⟨_, pathErr_self hp, rfl⟩⟩⟩⟩, rfl⟩, ?_⟩
  swap
  · obtain ⟨f, hf, h1⟩ := bind_ok.1 hfw
    obtain ⟨s, hs2, h1⟩ := bind_ok.1 h1
    have hsp : s.1 = p := (Prod.mk.inj (Except.ok.inj h1)).1
    refine ⟨(0 : ℝ) = 0 ∧ (0 : ℝ) = 0, bind_ok.2 ⟨_, hnp, bind_ok.2 ⟨_, htf, bind_ok.2 ⟨f, hf, bind_ok.2 ⟨s, hs2, ?_⟩⟩⟩⟩, rfl, rfl⟩
    rw [hsp]
    exact bind_ok.2 ⟨_, pathErr_self hp, bind_ok.2 ⟨_, pathErr_self hp, rfl⟩⟩
  unfold HMM.tfSeqFwBw at hq
  dsimp only at hq
  refine ⟨(0 : ℝ) = 0, bind_ok.2 ⟨_, hlog, ?_⟩, rfl⟩
  dsimp only
  split at hq
  · cases hq
  · rename_i VT hVT
    rw [hVT]
    dsimp only
    rw [(Prod.mk.inj (Except.ok.inj hq)).1]
    exact bind_ok.2 ⟨_, pathErr_self hp, rfl⟩

/-- Both decoders complete, with paths of one length whose states differ by at most `d` and values that differ by less than
`1e-10`. -/
def DecodersAgree (d : ℝ) (d1 d2 : Py (List (Fin n) × List (Fin n → ℝ))) : Prop :=
  ∃ p1 V1 p2 V2, d1 = .ok (p1, V1) ∧ d2 = .ok (p2, V2) ∧ p1.length = p2.length ∧ V1.length = V2.length ∧
    (∀ (k : ℕ) i j, p1[k]? = some i → p2[k]? = some j → |((i : ℕ) : ℝ) - ((j : ℕ) : ℝ)| ≤ d) ∧
    ∀ (k : ℕ) v w, V1[k]? = some v → V2[k]? = some w → ∀ i, |v i - w i| < 1 / 10 ^ 10

omit [NeZero n] in
theorem vtfCmp_sound {c : ℝ → Prop} {d : ℝ} (hc : ∀ e, c e → e ≤ d) {d1 d2 : Py (List (Fin n) × List (Fin n → ℝ))}
    (h : Passes (vtfCmp c d1 d2)) : DecodersAgree d d1 d2 := by
  obtain ⟨P, h, hP⟩ := h
  obtain ⟨r1, h1, h⟩ := bind_ok.1 h
  obtain ⟨r2, h2, h⟩ := bind_ok.1 h
  obtain ⟨e1, h3, h⟩ := bind_ok.1 h
  obtain ⟨e2, h4, h⟩ := bind_ok.1 h
  obtain rfl := Except.ok.inj h
  obtain ⟨l1, a1⟩ := arrMax_le h3
  obtain ⟨l2, a2⟩ := pathErr_le h4
  exact ⟨r1.1, r1.2, r2.1, r2.2, h1, h2, l2, l1, fun k i j hi hj => (a2 k i j hi hj).trans (hc _ hP.2),
    fun k v w hv hw i => (a1 k v w hv hw i).trans_lt hP.1⟩

/-- **C120** (what a pass shows): for any model, observations, scan primitives and function in place of `tf.argmin`, correct or not,
a test that passes shows that the two decoders it names agree, up to two states for the two tests with that tolerance. -/
theorem C120_detects (scanV : ScanV n) (scanF : ScanF n) (am : (Fin n → ℝ) → Fin n) (H : HMM n q ℝ) (ys : List (Fin q)) :
    (Passes (vtfTestFscSeq am H ys) → DecodersAgree 0 (H.seqViterbi negLog ys) (H.tfFscSeq am negLog ys)) ∧
    (Passes (vtfTestFscPar scanV scanF am H ys) →
      DecodersAgree 0 (H.parBwdFwdViterbi (10 ^ 20) negLog ys) (H.tfFscPar scanV scanF am (10 ^ 20) negLog ys)) ∧
    (Passes (vtfTestFscBw scanV am H ys) →
      DecodersAgree 0 (H.parBwdFwdBwdViterbi (10 ^ 20) negLog ys) (H.tfFscParBwFwBw scanV am (10 ^ 20) negLog ys)) ∧
    (Passes (vtfTestSeqFwBw am H ys) → DecodersAgree 2 (H.refViterbiLog2 negLog ys) (H.tfSeqFwBw am negLog ys)) ∧
    (Passes (vtfTestParBackward scanV scanF am H ys) →
      DecodersAgree 0 (H.tfSeqFwBw am negLog ys) (H.tfParFwBw scanV scanF am negLog ys)) ∧
    (Passes (vtfTestParFwBw scanV scanF am H ys) →
      DecodersAgree 2 (H.tfSeqFwBw am negLog ys) (H.tfParFwBw scanV scanF am negLog ys)) ∧
    (Passes (vtfTestSeqPar scanF am H ys) →
      DecodersAgree 0 (H.tfSeqFwBw am negLog ys) (H.tfSeqParFwBw scanF am negLog ys)) ∧
    (Passes (vtfTestFwBwFw scanV am H ys) → ∃ p V1 V2,
      H.tfFscParBwFwBw scanV am (10 ^ 20) negLog ys = .ok (p, V1) ∧ H.tfParFwBwFw scanV am negLog ys = .ok (p, V2)) := by
  have h0 : ∀ e : ℝ, e = 0 → e ≤ 0 := fun e h => h.le
  refine ⟨vtfCmp_sound h0, vtfCmp_sound h0, vtfCmp_sound h0, vtfCmp_sound fun _ h => h, vtfCmp_sound h0,
    vtfCmp_sound fun _ h => h, vtfCmp_sound h0, ?_⟩
  rintro ⟨P, h, hP⟩
  obtain ⟨r0, -, h⟩ := bind_ok.1 h
  obtain ⟨r1, h1, h⟩ := bind_ok.1 h
  obtain ⟨r2, h2, h⟩ := bind_ok.1 h
  obtain ⟨e, h3, h⟩ := bind_ok.1 h
  obtain rfl := Except.ok.inj h
  obtain rfl : e = 0 := hP
  have hp := pathErr_zero (pathErr_le h3).1 h3
  exact ⟨r1.1, r1.2, r2.2, h1, by rw [h2, hp]⟩

/-- **C120** (what a pass of the tests of single passes shows): `test_seq_forwardpass` that the values agree with the reference,
`test_seq_backwardpass` that the path is that of the reference, and `test_viterbi_par_forwardpass` that the parallel forward pass
completes with the same controls and values closer than `1e-10`. -/
theorem C120_detects_passes (scanV : ScanV n) (am : (Fin n → ℝ) → Fin n) (H : HMM n q ℝ) (ys : List (Fin q)) :
    (Passes (vtfTestSeqForward am H ys) → ∃ p V, H.refViterbiLog2 negLog ys = .ok (p, V) ∧
      V.length = (H.tfSeqForward am negLog ys).2.length ∧ ∀ (k : ℕ) v w, V[k]? = some v →
        (H.tfSeqForward am negLog ys).2[k]? = some w → ∀ i, |v i - w i| < 1 / 10 ^ 10) ∧
    (Passes (vtfTestSeqBackward am H ys) → ∃ p V V', H.refViterbiLog2 negLog ys = .ok (p, V) ∧
      H.tfSeqFwBw am negLog ys = .ok (p, V')) ∧
    (Passes (vtfTestParForward scanV am H ys) → ∃ V, H.tfParForward scanV am negLog ys =
        .ok ((H.tfSeqForward am negLog ys).1, V) ∧ (H.tfSeqForward am negLog ys).2.length = V.length ∧
      ∀ (k : ℕ) v w, (H.tfSeqForward am negLog ys).2[k]? = some v → V[k]? = some w → ∀ i, |v i - w i| < 1 / 10 ^ 10) := by
  refine ⟨?_, ?_, ?_⟩
  · rintro ⟨P, h, hP⟩
    obtain ⟨r, h1, h⟩ := bind_ok.1 h
    obtain ⟨e, h2, h⟩ := bind_ok.1 h
    obtain rfl := Except.ok.inj h
    obtain ⟨hl, ha⟩ := arrMax_le h2
    exact ⟨r.1, r.2, h1, hl, fun k v w hv hw i => (ha k v w hv hw i).trans_lt hP⟩
  · rintro ⟨P, h, hP⟩
    obtain ⟨r, h1, h⟩ := bind_ok.1 h
    dsimp only at h
    unfold HMM.tfSeqFwBw
    dsimp only
    split at h
    · cases h
    · rename_i VT hVT
      obtain ⟨e, h2, h⟩ := bind_ok.1 h
      obtain rfl := Except.ok.inj h
      obtain rfl : e = 0 := hP
      have hp := pathErr_zero (pathErr_le h2).1 h2
      refine ⟨r.1, r.2, (H.tfSeqForward am negLog ys).2, h1, ?_⟩
      rw [hVT, hp]
  · rintro ⟨P, h, hP⟩
    obtain ⟨r, h1, h⟩ := bind_ok.1 h
    obtain ⟨e1, h2, h⟩ := bind_ok.1 h
    obtain ⟨e2, h3, h⟩ := bind_ok.1 h
    obtain rfl := Except.ok.inj h
    obtain ⟨hl, ha⟩ := arrMax_le h2
    obtain ⟨hl3, ha3⟩ := arrMax_le h3
    obtain ⟨hP1, rfl⟩ : e1 < testTol ∧ e2 = 0 := hP
    rw [List.length_map, List.length_map] at hl3
    have hu : (H.tfSeqForward am negLog ys).1 = r.1 := by
      refine list_ext_of (n := r.1.length) hl3 rfl fun k hk => ?_
      have hk1 : k < (H.tfSeqForward am negLog ys).1.length := by omega
      rw [List.getElem?_eq_getElem hk1, List.getElem?_eq_getElem hk]
      refine congrArg some (funext fun x => Fin.ext ?_)
      have h5 := ha3 k _ _ (by rw [List.getElem?_map, List.getElem?_eq_getElem hk1]; rfl)
        (by rw [List.getElem?_map, List.getElem?_eq_getElem hk]; rfl) x
      exact Nat.cast_injective (R := ℝ) (sub_eq_zero.1 (abs_nonpos_iff.1 h5))
    exact ⟨r.2, by rw [h1, hu], hl, fun k v w hv hw i => (ha k v w hv hw i).trans_lt hP1⟩

/-- **C120** (initial elements): if no negative log probability exceeds half the sentinel, the tests that compare the elements of the
parallel passes with those of the control problem pass for all nonempty observations and any minimisers. -/
theorem C120_init {am : (Fin n → ℝ) → Fin n} (ham : IsArgmin am) (H : HMM n q ℝ) (hH : H.All (fun p => 0 < p)) (B : ℝ)
    (hB : H.All (fun p => |negLog p| ≤ B)) (hT : B + B ≤ 10 ^ 20) (ys : List (Fin q)) (hys : ys ≠ []) :
    Passes (vtfTestFwdInit H ys) ∧ Passes (vtfTestBwFwInit am H ys) := by
  obtain ⟨a, b, W, h1, -, -⟩ := (C63_seq negLog_spec H hH ys hys).1 am ham
  obtain ⟨M, hM, h1⟩ := bind_ok.1 h1
  obtain ⟨r, hr, h1⟩ := bind_ok.1 h1
  obtain ⟨V0, hV0, -⟩ := bind_ok.1 h1
  obtain ⟨e1, e2⟩ := vit_elems H hH B hB hT ys hM
  constructor
  · refine ⟨(0 : ℝ) < testTol, bind_ok.2 ⟨M, hM, ?_⟩, testTol_pos⟩
    have : ((M.stages.map (tfStageElem (10 ^ 20)) ++ [fun x _ => M.LT x]).reverse.map fun (v : Fin n → Fin n → ℝ) j x => v x j) =
        H.tfParForwardInit negLog ys := by
      rw [List.reverse_append, List.map_append, e1, e2]
      rfl
    dsimp only
    rw [this]
    exact bind_ok.2 ⟨0, matMax_self (by simp [HMM.tfParForwardInit]), rfl⟩
  · refine ⟨(0 : ℝ) < testTol, bind_ok.2 ⟨M, hM, bind_ok.2 ⟨r, hr, bind_ok.2 ⟨V0, hV0, ?_⟩⟩⟩, testTol_pos⟩
    dsimp only
    rw [List.map_cons, List.reverse_cons, List.dropLast_concat, List.dropLast_concat, ← List.map_reverse, e1]
    exact bind_ok.2 ⟨0, matMax_self (by simpa using hys), rfl⟩

/-- **C120** (what a pass of the remaining tests shows): `test_viterbi_par_fwdbwdfwdpass` that three decoders return one path,
`test_viterbi_par_forwardpass_init` that the elements of the control problem, transposed and in reverse order, are those of the
parallel forward pass up to `1e-10`, `test_viterbi_par_fwdbwdfwdpass_init` the same for the sums of negative log probabilities. -/
theorem C120_detects_init (scanV : ScanV n) (am : (Fin n → ℝ) → Fin n) (H : HMM n q ℝ) (ys : List (Fin q)) :
    (Passes (vtfTestBwFw scanV am H ys) → ∃ p V0 V1 V2, H.parBwdFwdBwdViterbi (10 ^ 20) negLog ys = .ok (p, V0) ∧
      H.tfFscParBwFwBw scanV am (10 ^ 20) negLog ys = .ok (p, V1) ∧ H.tfParFwBwFw scanV am negLog ys = .ok (p, V2)) ∧
    (Passes (vtfTestFwdInit H ys) → ∃ M, H.getFSC negLog ys = .ok M ∧ M.stages.length = ys.length ∧
      ∀ (k : ℕ) s w, M.stages.reverse[k]? = some s → (H.tfParForwardInit negLog ys)[k + 1]? = some w →
        ∀ i j, |tfStageElem (10 ^ 20) s j i - w i j| < 1 / 10 ^ 10) ∧
    (Passes (vtfTestBwFwInit am H ys) → ∃ M, H.getFSC negLog ys = .ok M ∧ M.stages.length = ys.length ∧
      ∀ (k : ℕ) s y, M.stages.reverse[k]? = some s → ys[k]? = some y →
        ∀ i j, |tfStageElem (10 ^ 20) s j i - (negLog (H.Pi i j) + negLog (H.Po j y))| < 1 / 10 ^ 10) := by
  refine ⟨?_, ?_, ?_⟩
  · rintro ⟨P, h, hP⟩
    obtain ⟨r0, h0, h⟩ := bind_ok.1 h
    obtain ⟨r1, h1, h⟩ := bind_ok.1 h
    obtain ⟨f, hf, h⟩ := bind_ok.1 h
    obtain ⟨r2, h2, h⟩ := bind_ok.1 h
    obtain ⟨e1, h3, h⟩ := bind_ok.1 h
    obtain ⟨e2, h4, h⟩ := bind_ok.1 h
    obtain rfl := Except.ok.inj h
    obtain ⟨rfl, rfl⟩ : e1 = 0 ∧ e2 = 0 := hP
    have p0 := pathErr_zero (pathErr_le h3).1 h3
    have p1 := pathErr_zero (pathErr_le h4).1 h4
    refine ⟨r2.1, r0.2, r1.2, f.2, by rw [h0, ← p0], by rw [h1, ← p1], ?_⟩
    exact bind_ok.2 ⟨f, hf, bind_ok.2 ⟨r2, h2, rfl⟩⟩
  · rintro ⟨P, h, hP⟩
    obtain ⟨M, hM, h⟩ := bind_ok.1 h
    obtain ⟨e, h1, h⟩ := bind_ok.1 h
    obtain rfl := Except.ok.inj h
    obtain ⟨hl, ha⟩ := matMax_le h1
    refine ⟨M, hM, by simpa [HMM.tfParForwardInit] using hl, fun k s w hs hw i j => ?_⟩
    refine (ha (k + 1) (fun j x => tfStageElem (10 ^ 20) s x j) w ?_ hw i j).trans_lt hP
    rw [List.reverse_append, ← List.map_reverse, List.map_append, List.map_map]
    simp only [List.reverse_singleton, List.map_cons, List.map_nil, List.singleton_append, List.getElem?_cons_succ,
      List.getElem?_map, hs]
    rfl
  · rintro ⟨P, h, hP⟩
    obtain ⟨M, hM, h⟩ := bind_ok.1 h
    obtain ⟨r, -, h⟩ := bind_ok.1 h
    obtain ⟨V0, -, h⟩ := bind_ok.1 h
    obtain ⟨e, h1, h⟩ := bind_ok.1 h
    obtain rfl := Except.ok.inj h
    rw [List.map_cons, List.reverse_cons, List.dropLast_concat, List.dropLast_concat, List.map_map, ← List.map_reverse] at h1
    obtain ⟨hl, ha⟩ := matMax_le h1
    refine ⟨M, hM, by simpa using hl, fun k s y hs hy i j => ?_⟩
    refine (ha k (fun j x => tfStageElem (10 ^ 20) s x j) (H.tfElem negLog y) ?_ ?_ i j).trans_lt hP
    · rw [List.getElem?_map, hs]
      rfl
    · rw [List.getElem?_map, hy]
      rfl

/-- The hypotheses of `C120_scans` and `C120_first` on a model with two most probable paths. -/
example : Passes (vtfTestParBackward scanVals scanVals argmin1 tieHMM [0, 0]) ∧
    Passes (vtfTestParForward scanVals argmin1 tieHMM [0, 0]) ∧ Passes (vtfTestSeqFwBw argmin1 tieHMM [0, 0]) ∧
    Passes (vtfTestFscPar scanVals scanVals argmin1 tieHMM [0, 0]) := by
  have h1 := C120_scans (C17_scan_example) (C17_scan_example) isArgmin_argmin1 tieHMM tieHMM_pos [0, 0]
  have h2 := C120_first (C17_scan_example) (C17_scan_example) tieHMM tieHMM_pos [0, 0] (by simp)
  exact ⟨h1.1, h1.2.2.2.2 (by simp), h2.2.2.1, h2.2.2.2 3 tieHMM_bound (by norm_num)⟩

/-- The hypotheses of `C120_unique`: with one observation the most probable path of the same model is unique. -/
example : Passes (vtfTestFscBw scanVals argmin1 tieHMM [0]) ∧ Passes (vtfTestFwBwFw scanVals argmin1 tieHMM [0]) := by
  have hu : ∀ p, tieHMM.IsMAP [0] p → p = [1, 0] := by
    intro p hp
    have h1 := hp.2 [1, 0] rfl
    match p, hp.1 with
    | [a, b], _ =>
      fin_cases a <;> fin_cases b <;> first | rfl | (exfalso; norm_num [HMM.jointProb, HMM.tailProb, tieHMM] at h1)
  have h := C120_unique (C17_scan_example) (C17_scan_example) isArgmin_argmin1 tieHMM tieHMM_pos 3 tieHMM_bound [0] (by simp)
    (by norm_num) (fun p p' hp hp' => (hu p hp).trans (hu p' hp').symm)
  exact ⟨h.2.2.1, h.2.2.2.2.2.1⟩

/-- `C120_detects` on a test that passes. -/
example : DecodersAgree 0 (tieHMM.tfSeqFwBw argmin1 negLog [0, 0]) (tieHMM.tfParFwBw scanVals scanVals argmin1 negLog [0, 0]) :=
  (C120_detects scanVals scanVals argmin1 tieHMM [0, 0]).2.2.2.2.1
    (C120_scans C17_scan_example C17_scan_example isArgmin_argmin1 tieHMM tieHMM_pos [0, 0]).1

/-- `C120_detects_passes` on a test that passes. -/
example : ∃ p V V', tieHMM.refViterbiLog2 negLog [0, 0] = .ok (p, V) ∧ tieHMM.tfSeqFwBw argmin1 negLog [0, 0] = .ok (p, V') :=
  (C120_detects_passes scanVals argmin1 tieHMM [0, 0]).2.1
    (C120_first C17_scan_example C17_scan_example tieHMM tieHMM_pos [0, 0] (by simp)).2.1

/-- The hypotheses of `C120_init`. -/
example : Passes (vtfTestFwdInit tieHMM [0, 1, 1]) ∧ Passes (vtfTestBwFwInit argmin1 tieHMM [0, 1, 1]) :=
  C120_init isArgmin_argmin1 tieHMM tieHMM_pos 3 tieHMM_bound (by norm_num) [0, 1, 1] (by simp)

/-- `C120_detects_init` on a test that passes. -/
example : ∃ M, tieHMM.getFSC negLog [0, 1, 1] = .ok M ∧ M.stages.length = 3 := by
  obtain ⟨M, h1, h2, -⟩ := (C120_detects_init scanVals argmin1 tieHMM [0, 1, 1]).2.1
    (C120_init isArgmin_argmin1 tieHMM tieHMM_pos 3 tieHMM_bound (by norm_num) [0, 1, 1] (by simp)).1
  exact ⟨M, h1, h2⟩

end Verif
