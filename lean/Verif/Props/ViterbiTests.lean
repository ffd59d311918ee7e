import Verif.Proof.ViterbiTests
import Verif.Props.Viterbi
import Verif.Props.Examples
import Verif.Props.FSCTests
import Mathlib.Analysis.Complex.ExponentialBounds

/-!
# C118: the unit tests that compare Viterbi decoders (`test_viterbi_np.py`)
-/

namespace Verif

variable {n q : ℕ} [NeZero n]

theorem negLog_spec : IsNegLog (fun p : ℝ => 0 < p) negLog := C14_real_log_pos

/-- **C118** (reference decoders): for every model with positive probabilities and all observations, also none, the tests of the
log-domain decoders pass, ties included. -/
theorem C118_log (H : HMM n q ℝ) (hH : H.All (fun p => 0 < p)) (ys : List (Fin q)) :
    Passes (vitTestLog H ys) ∧ Passes (vitTestLog2 H ys) := by
  have hr := C14_log_eq_ref negLog_spec (fun _ h => le_of_lt h) H hH ys
    ⟨List.replicate (ys.length + 1) 0, by simp, jointProb_mem negLog_spec hH _ _⟩
  have hl := (C14_log_eq_log2 (nl := negLog) H ys).1
  have hm := (C13_ref_isMAP H (fun i j => (hH.Pi i j).le) (fun i y => (hH.Po i y).le) ys).1
  have hne : (H.refViterbi ys).1 ≠ [] := by intro h; rw [h] at hm; simp at hm
  exact ⟨⟨_, bind_ok.2 ⟨_, hr, bind_ok.2 ⟨_, pathErr_self hne, rfl⟩⟩, rfl⟩,
    ⟨_, bind_ok.2 ⟨_, hr, bind_ok.2 ⟨_, hl ▸ hr, bind_ok.2 ⟨_, pathErr_self hne, rfl⟩⟩⟩, rfl⟩⟩

/-- **C118** (control problem): the tests of the decoder by finite-state control pass for all nonempty observations and raise
`IndexError` without observations. -/
theorem C118_fsc (H : HMM n q ℝ) (hH : H.All (fun p => 0 < p)) (ys : List (Fin q)) :
    (ys ≠ [] → Passes (vitTestFsc1 H ys) ∧ Passes (vitTestFsc2 H ys) ∧ Passes (vitTestFsc3 H ys) ∧
      Passes (vitTestSeq H ys)) ∧
    (ys = [] → vitTestFsc1 H ys = .error .indexError ∧ vitTestFsc2 H ys = .error .indexError ∧
      vitTestFsc3 H ys = .error .indexError ∧ vitTestSeq H ys = .error .indexError) := by
  constructor
  · intro hys
    obtain ⟨p, V, hlog, hmap⟩ := C14_log_isMAP negLog_spec H hH ys
    rw [(C14_log_eq_log2 (nl := negLog) H ys).1] at hlog
    have hs := C15_reduction_exact negLog_spec H hH ys hys
    have hs' : H.seqViterbi negLog ys = .ok (p, V) := hs.trans hlog
    have hp : p ≠ [] := by intro h; have := hmap.1; rw [h] at this; simp at this
    have hV : V ≠ [] := by
      have h1 := C14_log_values negLog_spec H hH ys
      rw [(C14_log_eq_log2 (nl := negLog) H ys).1, hlog] at h1
      obtain ⟨p', h1⟩ := h1
      have h2 := congrArg (fun r => r.2.length) (Except.ok.inj h1)
      have h3 := (C13_ref_values H (fun i j => (hH.Pi i j).le) (fun i y => (hH.Po i y).le) ys).1
      intro h
      simp [h, h3] at h2
    have h := hs'
    unfold HMM.seqViterbi at h
    obtain ⟨fsc, hf, h⟩ := bind_ok.1 h
    obtain ⟨V0, hV0, h⟩ := bind_ok.1 h
    obtain ⟨⟨fu, fx⟩, hfw, h⟩ := bind_ok.1 h
    obtain ⟨e1, e2⟩ := Prod.mk.inj (Except.ok.inj h)
    subst e1
    subst e2
    refine ⟨⟨_, bind_ok.2 ⟨_, hlog, bind_ok.2 ⟨_, hf, bind_ok.2 ⟨_, arrErr_self _, rfl⟩⟩⟩, testTol_pos⟩,
      ⟨_, bind_ok.2 ⟨_, hlog, bind_ok.2 ⟨_, hf, bind_ok.2 ⟨_, hV0, bind_ok.2 ⟨_, hfw,
        bind_ok.2 ⟨_, pathErr_self hp, rfl⟩⟩⟩⟩⟩, rfl⟩,
      ⟨_, bind_ok.2 ⟨_, hlog, bind_ok.2 ⟨_, hf, bind_ok.2 ⟨_, hV0, bind_ok.2 ⟨_, hfw,
        bind_ok.2 ⟨_, pathErr_self hp, bind_ok.2 ⟨_, errV_self hV, rfl⟩⟩⟩⟩⟩⟩, rfl, testTol_pos⟩,
      ⟨_, bind_ok.2 ⟨_, hlog, bind_ok.2 ⟨_, hs', bind_ok.2 ⟨_, pathErr_self hp,
        bind_ok.2 ⟨_, arrErr_self _, rfl⟩⟩⟩⟩, rfl, testTol_pos⟩⟩
  · rintro rfl
    exact ⟨rfl, rfl, rfl, rfl⟩

/-- **C118** (parallel decoders): if the negative log probabilities are at most `B` and `(2 T + 2) 2 B < 1e20`, the test of
`parBwdFwdViterbi` passes, ties included, and the test of `parBwdFwdBwdViterbi` completes and passes exactly if the decoder
returns the path of the reference, in particular if the most probable path is unique. -/
theorem C118_par (H : HMM n q ℝ) (hH : H.All (fun p => 0 < p)) (B : ℝ) (hB : H.All (fun p => |negLog p| ≤ B))
    (ys : List (Fin q)) (hys : ys ≠ []) (hT : (2 * (ys.length : ℝ) + 2) * (B + B) < 10 ^ 20) :
    Passes (vitTestPar1 H ys) ∧
    (Passes (vitTestPar2 H ys) ↔ (H.parBwdFwdBwdViterbi (10 ^ 20) negLog ys).map Prod.fst =
      (H.refViterbiLog2 negLog ys).map Prod.fst) ∧
    ((∀ p p', H.IsMAP ys p → H.IsMAP ys p' → p = p') → Passes (vitTestPar2 H ys)) := by
  have hB0 : 0 ≤ B := (abs_nonneg _).trans (hB.prior 0)
  obtain ⟨path, sp, V, h1, h2, hl, hmap, -, huni⟩ := C16_fwdbwd_on_MAP negLog_spec H hH (10 ^ 20) B hB.prior hB.Pi hB.Po ys hys
    (by rw [nsmul_eq_mul]; push_cast; exact hT)
  have h3 := C16_par_eq_seq negLog_spec H hH (10 ^ 20) B hB.prior hB.Pi hB.Po ys hys
    (by rw [nsmul_eq_mul]; push_cast; nlinarith)
  have hlog : H.refViterbiLog2 negLog ys = .ok (sp, V) := (C15_reduction_exact negLog_spec H hH ys hys).symm.trans h2
  have hp : sp ≠ [] := by intro h; have := hmap.1; rw [h] at this; simp at this
  have hiff : Passes (vitTestPar2 H ys) ↔ path = sp := by
    constructor
    · rintro ⟨Q, h, hQ⟩
      obtain ⟨r1, e1, h⟩ := bind_ok.1 h
      obtain ⟨r2, e2, h⟩ := bind_ok.1 h
      obtain ⟨d1, e3, h⟩ := bind_ok.1 h
      obtain ⟨d2, e4, hR⟩ := bind_ok.1 h
      obtain rfl := Except.ok.inj (hlog.symm.trans e1)
      obtain rfl := Except.ok.inj (h1.symm.trans e2)
      rw [← Except.ok.inj hR] at hQ
      rw [hQ.1] at e3
      exact (pathErr_zero (hmap.1.trans hl.symm) e3).symm
    · rintro rfl
      exact ⟨_, bind_ok.2 ⟨_, hlog, bind_ok.2 ⟨_, h1, bind_ok.2 ⟨_, pathErr_self hp,
        bind_ok.2 ⟨_, arrErr_self _, rfl⟩⟩⟩⟩, rfl, testTol_pos⟩
  refine ⟨⟨_, bind_ok.2 ⟨_, hlog, bind_ok.2 ⟨_, h3.trans h2, bind_ok.2 ⟨_, pathErr_self hp,
    bind_ok.2 ⟨_, arrErr_self _, rfl⟩⟩⟩⟩, rfl, testTol_pos⟩, ?_, fun h => hiff.2 (huni h)⟩
  rw [hiff, h1, hlog]
  simp [Except.map]

/-- **C118** (the model of the tests): on the Gilbert-Elliot model all tests but `test_par_viterbi_2` pass for all observations
of length between one and `10^18`. -/
theorem C118_gilbert_elliot (ys : List (Fin 2)) (hys : ys ≠ []) (hT : ys.length ≤ 10 ^ 18) :
    Passes (vitTestLog geModel ys) ∧ Passes (vitTestLog2 geModel ys) ∧ Passes (vitTestFsc1 geModel ys) ∧
    Passes (vitTestFsc2 geModel ys) ∧ Passes (vitTestFsc3 geModel ys) ∧ Passes (vitTestSeq geModel ys) ∧
    Passes (vitTestPar1 geModel ys) := by
  obtain ⟨g1, g2, g3, -⟩ := C49_gilbert_elliot (3 / 100 : ℝ) (1 / 10) (5 / 100) (1 / 10) (3 / 10) (by norm_num) (by norm_num)
    (by norm_num) (by norm_num) (by norm_num)
  have hH : (geModel : HMM 4 2 ℝ).All (fun p => 0 < p) := ⟨g3.1, fun i => (g1 i).1, fun i => (g2 i).1⟩
  have hb : ∀ p : ℝ, 1 / 1000 ≤ p → p ≤ 1 → |negLog p| ≤ 7 := by
    intro p h1 h2
    have e1 : Real.log p ≤ 0 := Real.log_nonpos (by linarith) h2
    have e2 : -7 ≤ Real.log p := by
      rw [Real.le_log_iff_exp_le (by linarith), Real.exp_neg, inv_le_comm₀ (Real.exp_pos _) (by linarith)]
      have e3 : p⁻¹ ≤ 1000 := by
        rw [inv_le_comm₀ (by linarith) (by norm_num)]
        linarith
      have e4 := Real.exp_one_gt_d9
      have e5 : Real.exp 7 = Real.exp 1 ^ 7 := by rw [← Real.exp_nat_mul]; norm_num
      have e6 : (27 / 10 : ℝ) ^ 7 ≤ Real.exp 1 ^ 7 := pow_le_pow_left₀ (by norm_num) (by linarith) 7
      rw [e5]
      norm_num at e6 ⊢
      linarith
    show |-Real.log p| ≤ 7
    rw [abs_le]
    constructor <;> linarith
  have hB : (geModel : HMM 4 2 ℝ).All (fun p => |negLog p| ≤ 7) := by
    refine ⟨fun x => ?_, fun i j => ?_, fun i j => ?_⟩
    · exact hb _ (by show _ ≤ (1 / 4 : ℝ); norm_num) (by show (1 / 4 : ℝ) ≤ _; norm_num)
    · apply hb
      · fin_cases i <;> fin_cases j <;> simp [geModel, geHMM] <;> norm_num
      · fin_cases i <;> fin_cases j <;> simp [geModel, geHMM] <;> norm_num
    · apply hb
      · fin_cases i <;> fin_cases j <;> simp [geModel, geHMM] <;> norm_num
      · fin_cases i <;> fin_cases j <;> simp [geModel, geHMM] <;> norm_num
  obtain ⟨a1, a2⟩ := C118_log geModel hH ys
  obtain ⟨a3, a4, a5, a6⟩ := (C118_fsc geModel hH ys).1 hys
  have hT' : (ys.length : ℝ) ≤ 10 ^ 18 := by exact_mod_cast hT
  exact ⟨a1, a2, a3, a4, a5, a6, (C118_par geModel hH 7 hB ys hys (by linarith)).1⟩

/-- Three observations. -/
example : Passes (vitTestPar1 geModel [0, 1, 1]) := (C118_gilbert_elliot [0, 1, 1] (by simp) (by simp)).2.2.2.2.2.2

/-- The hypotheses of `C118_log` and `C118_fsc` on a model with two states. -/
example : Passes (vitTestLog realHMM []) ∧ Passes (vitTestSeq realHMM [0, 1]) ∧
    vitTestSeq realHMM [] = .error .indexError :=
  ⟨(C118_log realHMM realHMM_pos []).1, ((C118_fsc realHMM realHMM_pos [0, 1]).1 (by simp)).2.2.2,
    ((C118_fsc realHMM realHMM_pos []).2 rfl).2.2.2⟩

/-- With a single state the most probable path is unique and `test_par_viterbi_2` passes. -/
example : Passes (vitTestPar2 (⟨fun _ => 1, fun _ _ => 1, fun _ _ => 1 / 2⟩ : HMM 1 2 ℝ) [0, 1]) := by
  refine (C118_par _ ⟨fun _ => one_pos, fun _ _ => one_pos, fun _ _ => by norm_num⟩ 1 ?_ [0, 1] (by simp) (by norm_num)).2.2 ?_
  · have h1 : |negLog 1| ≤ 1 := by simp [negLog]
    refine ⟨fun _ => h1, fun _ _ => h1, fun _ _ => ?_⟩
    show |-Real.log (1 / 2)| ≤ 1
    rw [one_div, Real.log_inv, neg_neg, abs_of_pos (Real.log_pos (by norm_num))]
    linarith [Real.log_two_lt_d9]
  · intro p p' hp hp'
    exact List.ext_getElem (hp.1.trans hp'.1.symm) fun i _ _ => Subsingleton.elim _ _

end Verif
