import Verif.Proof.NotebookFinite
import Verif.Proof.NotebookContlin
import Verif.Props.LinearModel
import Verif.Props.SpeedContlin
import Verif.Proof.ExperimentsHJB

/-! Property C94: the notebook `/repo/notebooks/contlin_demo.ipynb`. -/

namespace Verif

open Matrix

/-! ### The fit -/

theorem cont_expand (y : ℕ → ℝ) (c : Fin 13 → ℝ) : ∑ i ∈ Finset.range 50, (y i - linRefC c i) ^ 2 =
    ∑ i ∈ Finset.range 50, y i ^ 2 - ∑ j, contW j * contCoef y j ^ 2 + ∑ j, contW j * (c j - contCoef y j) ^ 2 := by
  have h1 : ∑ i ∈ Finset.range 50, y i * linRefC c i = ∑ j, contW j * (contCoef y j * c j) := by
    simp only [contRef_eq, Finset.mul_sum]
    rw [Finset.sum_comm]
    refine Finset.sum_congr rfl fun j _ => ?_
    have : contW j * (contCoef y j * c j) = (∑ i ∈ Finset.range 50, contBasis j i * y i) * c j := by
      have := (contW_pos j).ne'
      unfold contCoef
      field_simp
    rw [this, Finset.sum_mul]
    exact Finset.sum_congr rfl fun i _ => by ring
  have h2 : ∑ i ∈ Finset.range 50, linRefC c i ^ 2 = ∑ j, contW j * c j ^ 2 := by
    simp only [contRef_eq, sq, Finset.sum_mul, Finset.mul_sum]
    rw [Finset.sum_comm]
    refine Finset.sum_congr rfl fun j _ => ?_
    rw [Finset.sum_comm, Finset.sum_eq_single j]
    · have := contGram_sum j j
      rw [if_pos rfl] at this
      rw [← mul_assoc, show contW j = _ from this.symm, Finset.sum_mul, Finset.sum_mul]
      exact Finset.sum_congr rfl fun i _ => by ring
    · intro k _ hk
      have := contGram_sum k j
      rw [if_neg hk] at this
      calc _ = ∑ i ∈ Finset.range 50, (contBasis k i * contBasis j i) * (c k * c j) := Finset.sum_congr rfl fun i _ => by ring
        _ = 0 := by rw [← Finset.sum_mul, this, zero_mul]
    · simp
  have h3 : ∑ i ∈ Finset.range 50, (y i - linRefC c i) ^ 2 =
      ∑ i ∈ Finset.range 50, y i ^ 2 - 2 * ∑ i ∈ Finset.range 50, y i * linRefC c i + ∑ i ∈ Finset.range 50, linRefC c i ^ 2 := by
    rw [Finset.mul_sum, ← Finset.sum_sub_distrib, ← Finset.sum_add_distrib]
    exact Finset.sum_congr rfl fun i _ => by ring
  rw [h3, h1, h2, Finset.mul_sum]
  have h4 : ∑ j, contW j * (c j - contCoef y j) ^ 2 = ∑ j, contW j * c j ^ 2 - ∑ j, 2 * (contW j * (contCoef y j * c j)) +
      ∑ j, contW j * contCoef y j ^ 2 := by
    rw [← Finset.sum_sub_distrib, ← Finset.sum_add_distrib]
    exact Finset.sum_congr rfl fun i _ => by ring
  rw [h4]
  ring

theorem contCoef_zero (y : ℕ → ℝ) : contCoef y 0 = (∑ i ∈ Finset.range 50, y i) / 50 := by
  simp [contCoef, contW, contBasis]

theorem contCoef_cos (y : ℕ → ℝ) (a : Fin 6) : contCoef y ⟨2 * a + 1, by omega⟩ =
    (∑ i ∈ Finset.range 50, y i * Real.cos (2 * Real.pi * (a + 1) * i / 50)) / 25 := by
  unfold contCoef
  rw [show contW ⟨2 * a + 1, by omega⟩ = 25 by simp [contW]]
  congr 1
  refine Finset.sum_congr rfl fun i _ => ?_
  rw [contBasis_eq, if_pos (Or.inr (by simp [Nat.add_mod])), mul_comm]
  have : contFreq ⟨2 * a + 1, by omega⟩ = (a : ℕ) + 1 := by
    simp only [contFreq]
    push_cast
    omega
  rw [this]
  push_cast
  rfl

theorem contCoef_sin (y : ℕ → ℝ) (a : Fin 6) : contCoef y ⟨2 * a + 2, by omega⟩ =
    (∑ i ∈ Finset.range 50, y i * Real.sin (2 * Real.pi * (a + 1) * i / 50)) / 25 := by
  unfold contCoef
  rw [show contW ⟨2 * a + 2, by omega⟩ = 25 by simp [contW]]
  congr 1
  refine Finset.sum_congr rfl fun i _ => ?_
  rw [contBasis_eq, if_neg (by simp), mul_comm]
  have : contFreq ⟨2 * a + 2, by omega⟩ = (a : ℕ) + 1 := by
    simp only [contFreq]
    push_cast
    omega
  rw [this]
  push_cast
  rfl

theorem contBasis_abs (j : Fin 13) (t : ℝ) : |contBasis j t| ≤ 1 := by
  rw [contBasis_eq]
  split_ifs
  · exact Real.abs_cos_le_one _
  · exact Real.abs_sin_le_one _

/-- C94 (coefficients): for every sequence of 50 points the fit succeeds, and the coefficients of either coordinate are its
mean and `2 / 50` times its sums against the cosines and sines of the frequencies one to six.  The plotted curves are the
reference of the continuous-time model with these coefficients at the times `k / 100`. -/
theorem C94_coefficients (pts : ℕ → Fin 2 → ℝ) : ∃ d, contFit ((List.range 50).map pts) = .ok d ∧ d.xy = (List.range 50).map pts ∧
    d.last = pts 49 ∧ (∀ k, d.fx k = linRefC d.cx (k / 100) ∧ d.fy k = linRefC d.cy (k / 100)) ∧
    ∀ (i : Fin 2) (c : Fin 13 → ℝ), c = ![d.cx, d.cy] i → c 0 = (∑ k ∈ Finset.range 50, pts k i) / 50 ∧
      (∀ a : Fin 6, c ⟨2 * a + 1, by omega⟩ = 2 / 50 * ∑ k ∈ Finset.range 50, pts k i * Real.cos (2 * Real.pi * (a + 1) * k / 50)) ∧
      ∀ a : Fin 6, c ⟨2 * a + 2, by omega⟩ = 2 / 50 * ∑ k ∈ Finset.range 50, pts k i * Real.sin (2 * Real.pi * (a + 1) * k / 50) := by
  refine ⟨_, contFit_eq pts, rfl, rfl, fun k => ⟨rfl, rfl⟩, fun i c hc => ?_⟩
  have hc' : c = contCoef fun k => pts k i := by
    rw [hc]
    fin_cases i <;> rfl
  rw [hc']
  refine ⟨contCoef_zero _, fun a => ?_, fun a => ?_⟩
  · rw [contCoef_cos]
    ring
  · rw [contCoef_sin]
    ring

/-- C94 (least squares): the fitted coefficients are the only minimiser of the sum of squares at the points, and the minimum
is the sum of squares of the values minus the energy of the coefficients. -/
theorem C94_least_squares (pts : ℕ → Fin 2 → ℝ) (d : ContFit) (h : contFit ((List.range 50).map pts) = .ok d) (i : Fin 2)
    (c : Fin 13 → ℝ) (hc : c = ![d.cx, d.cy] i) :
    (∀ c', c' ≠ c → ∑ k ∈ Finset.range 50, (pts k i - linRefC c k) ^ 2 < ∑ k ∈ Finset.range 50, (pts k i - linRefC c' k) ^ 2) ∧
    ∑ k ∈ Finset.range 50, (pts k i - linRefC c k) ^ 2 =
      ∑ k ∈ Finset.range 50, pts k i ^ 2 - 50 * c 0 ^ 2 - 25 * ∑ j : Fin 12, c j.succ ^ 2 := by
  obtain rfl := Except.ok.inj ((contFit_eq pts).symm.trans h)
  have hc' : c = contCoef fun k => pts k i := by
    rw [hc]
    fin_cases i <;> rfl
  have h1 := cont_expand (fun k => pts k i) c
  rw [← hc'] at h1
  simp only [sub_self, ne_eq, OfNat.ofNat_ne_zero, not_false_eq_true, zero_pow, mul_zero, Finset.sum_const_zero, add_zero] at h1
  refine ⟨fun c' hne => ?_, ?_⟩
  · rw [h1, cont_expand (fun k => pts k i) c', ← hc']
    obtain ⟨j, hj⟩ := Function.ne_iff.1 hne
    have : 0 < ∑ j, contW j * (c' j - c j) ^ 2 :=
      Finset.sum_pos' (fun j _ => mul_nonneg (contW_pos j).le (sq_nonneg _))
        ⟨j, Finset.mem_univ _, mul_pos (contW_pos j) (by have := sub_ne_zero.2 hj; positivity)⟩
    linarith
  · rw [h1, Fin.sum_univ_succ, Finset.mul_sum]
    have : ∀ j : Fin 12, contW j.succ = 25 := fun j => by simp [contW]
    simp only [this]
    simp [contW]
    ring

/-- C94 (recovery): values of a curve of the model class at the 50 points give back its coefficients. -/
theorem C94_recovery (cx cy : Fin 13 → ℝ) (d : ContFit)
    (h : contFit ((List.range 50).map fun k => ![linRefC cx k, linRefC cy k]) = .ok d) : d.cx = cx ∧ d.cy = cy := by
  have h1 := fun i c hc => (C94_least_squares (fun k => ![linRefC cx k, linRefC cy k]) d h i c hc).1
  constructor
  · by_contra hne
    have := h1 0 d.cx rfl cx (Ne.symm hne)
    simp only [cons_val_zero, sub_self, ne_eq, OfNat.ofNat_ne_zero, not_false_eq_true, zero_pow, Finset.sum_const_zero] at this
    exact absurd this (not_lt.2 (Finset.sum_nonneg fun k _ => sq_nonneg _))
  · by_contra hne
    have := h1 1 d.cy rfl cy (Ne.symm hne)
    simp only [cons_val_one, cons_val_zero, sub_self, ne_eq, OfNat.ofNat_ne_zero, not_false_eq_true, zero_pow, Finset.sum_const_zero] at this
    exact absurd this (not_lt.2 (Finset.sum_nonneg fun k _ => sq_nonneg _))

/-- C94 (cell 3): for every sequence of random numbers the cell succeeds; the means lie in `(0.5, 9.5)` and the other
coefficients are smaller than `9` in size. -/
theorem C94_cell (rnd : ℕ → ℝ) : ∃ (d : ContFit) (pts : ℕ → Fin 2 → ℝ), contFitCell rnd = .ok d ∧
    linGenData rnd 50 = .ok ((List.range 50).map pts) ∧ contFit ((List.range 50).map pts) = .ok d ∧
    ∀ (i : Fin 2) (c : Fin 13 → ℝ), c = ![d.cx, d.cy] i → 0.5 < c 0 ∧ c 0 < 9.5 ∧ ∀ j ≠ 0, |c j| < 9 := by
  obtain ⟨pts, h1, -, h2, -⟩ := (C74_genData rnd 50).2 (by norm_num)
  refine ⟨_, pts, ?_, h1, contFit_eq pts, fun i c hc => ?_⟩
  · unfold contFitCell
    rw [h1]
    exact contFit_eq pts
  have hc' : c = contCoef fun k => pts k i := by
    rw [hc]
    fin_cases i <;> rfl
  rw [hc', contCoef_zero]
  have hr : (Finset.range 50).Nonempty := ⟨0, by simp⟩
  refine ⟨?_, ?_, fun j hj => ?_⟩
  · have := Finset.sum_lt_sum_of_nonempty (f := fun _ => (0.5 : ℝ)) hr fun k hk => (h2 k (Finset.mem_range.1 hk) i).1
    rw [Finset.sum_const, Finset.card_range, nsmul_eq_mul] at this
    rw [lt_div_iff₀ (by norm_num)]
    linarith
  · have := Finset.sum_lt_sum_of_nonempty (g := fun _ => (9.5 : ℝ)) hr fun k hk => (h2 k (Finset.mem_range.1 hk) i).2
    rw [Finset.sum_const, Finset.card_range, nsmul_eq_mul] at this
    rw [div_lt_iff₀ (by norm_num)]
    linarith
  · have hw : contW j = 25 := by
      unfold contW
      rw [if_neg (show (j : ℕ) ≠ 0 from fun h => hj (Fin.ext h))]
    have h0 : ∑ k ∈ Finset.range 50, contBasis j k = 0 := by
      have := contGram_sum 0 j
      rw [if_neg (Ne.symm hj)] at this
      rw [← this]
      exact Finset.sum_congr rfl fun k _ => by simp [contBasis]
    have h3 : ∑ k ∈ Finset.range 50, contBasis j k * pts k i = ∑ k ∈ Finset.range 50, contBasis j k * (pts k i - 5) := by
      simp only [mul_sub, Finset.sum_sub_distrib, ← Finset.sum_mul, h0, zero_mul, sub_zero]
    unfold contCoef
    rw [hw, h3, abs_div, abs_of_pos (show (0 : ℝ) < 25 by norm_num), div_lt_iff₀ (by norm_num)]
    refine (Finset.abs_sum_le_sum_abs _ _).trans_lt ?_
    have := Finset.sum_lt_sum_of_nonempty (f := fun k : ℕ => |contBasis j k * (pts k i - 5)|) (g := fun _ => (4.5 : ℝ)) hr fun k hk => by
      rw [abs_mul]
      have h4 := h2 k (Finset.mem_range.1 hk) i
      have h5 : |pts k i - 5| < 4.5 := by
        rw [abs_lt]
        constructor <;> linarith
      have h6 := contBasis_abs j k
      have h7 := abs_nonneg (contBasis j k)
      have h8 := abs_nonneg (pts k i - 5)
      nlinarith
    rw [Finset.sum_const, Finset.card_range, nsmul_eq_mul] at this
    linarith

/-- C94 (rounding): printing the coefficients with four decimals and using the printed ones in the model moves a coordinate of
the curve by at most `13 * 5e-5`. -/
theorem C94_rounding (c c' : Fin 13 → ℝ) (h : ∀ j, |c j - c' j| ≤ 5e-5) (t : ℝ) : |linRefC c t - linRefC c' t| ≤ 6.5e-4 := by
  rw [contRef_eq, contRef_eq, ← Finset.sum_sub_distrib]
  refine (Finset.abs_sum_le_sum_abs _ _).trans ?_
  have : ∀ j : Fin 13, |contBasis j t * c j - contBasis j t * c' j| ≤ 5e-5 := by
    intro j
    rw [← mul_sub, abs_mul]
    have h1 := contBasis_abs j t
    have h2 := abs_nonneg (c j - c' j)
    have h3 := abs_nonneg (contBasis j t)
    nlinarith [h j]
  refine (Finset.sum_le_sum fun j _ => this j).trans ?_
  rw [Finset.sum_const, Finset.card_univ, Fintype.card_fin, nsmul_eq_mul]
  norm_num

/-! ### The trajectories -/

variable {n m : ℕ}

/-- C94 (sequential cells): for every problem with positive definite control weight and every positive number of steps both
passes complete and return the same states and controls, so the printed error is zero; there are `steps + 1` states, the first
one is the initial state, and `steps` controls; the times are `k T / steps`. -/
theorem C94_sequential [NeZero n] (P : CLQT n m ℝ) (hU : ∀ t, (P.U t)ᵀ = P.U t ∧ IsPD (P.U t)) (x0 : Fin n → ℝ) (steps : ℕ)
    (hs : steps ≠ 0) : ∃ d, contSeqCells P P x0 x0 steps = .ok d ∧ d.err = 0 ∧ d.xs2 = d.xs1 ∧ d.us2 = d.us1 ∧
      d.xs1.length = steps + 1 ∧ d.us1.length = steps ∧ d.xs1[0]? = some x0 ∧
      d.tt1 = (List.range (steps + 1)).map (fun k : ℕ => (k : ℝ) * P.T / steps) := by
  obtain ⟨bw, ⟨xs, us⟩, h1, h2, -⟩ := P.spRef1_ok hU x0 1 steps one_ne_zero hs
  rw [one_mul] at h2
  have h1' : P.tfSeqBackward steps (P.T / steps) 0 (P.HTᵀ * (P.XT * P.HT)) (P.HTᵀ *ᵥ (P.XT *ᵥ P.rT)) = .ok bw := by
    unfold CLQT.spSeqBw CLQT.tfSeqDefaults at h1
    rw [one_mul] at h1
    exact h1
  obtain ⟨l1, l2, -, -⟩ := CLQT.tfSeqBackward_length h1'
  have h3 : P.seqBackwardPass steps = .ok bw := by
    rw [(C71_defaults P 1 steps false one_ne_zero hs).1]
    exact ((C71_seq_backward P (fun t => (hU t).1) steps _ _ _ _ bw).2 fun t => (hU t).2).1 h1'
  have hne : bw.d_list ≠ [] := by
    rintro h
    rw [h] at l2
    exact hs l2.symm
  have hdt : P.dtSeq steps none = P.dtSeq steps (some (P.T / steps)) := pyDiv_ok.2 ⟨Nat.cast_ne_zero.2 hs, rfl⟩
  have h4 : P.seqForwardPass x0 bw.Kx_list bw.d_list = .ok (us, xs) := by
    have h := (C71_seq_forward P x0 bw.Kx_list bw.d_list (l1.trans l2.symm) hne (P.T / steps) 0 false us xs).1 h2
    unfold CLQT.seqForwardPass at h ⊢
    rw [l1] at h ⊢
    dsimp only
    rw [hdt]
    exact h
  have hl := CLQT.tfSeqForward_length h2
  have hl2 : us.length = steps ∧ xs[0]? = some x0 := by
    unfold CLQT.tfSeqForward at h2
    rw [if_neg (not_not.2 (l1.trans l2.symm))] at h2
    obtain ⟨u0, hu, h⟩ := bind_ok.1 (show (pyGet bw.d_list 0 >>= _) = _ from h2)
    obtain ⟨s, hs', h⟩ := bind_ok.1 h
    have hl' := tfScanFwdM_length _ _ _ hs'
    obtain ⟨rfl, rfl⟩ := Prod.mk.inj (Except.ok.inj h)
    simp [hl', l1, l2, tfTimes]
  refine ⟨⟨xs, us, _, xs, us, 0⟩, ?_, rfl, rfl, rfl, by rw [hl, l2], hl2.1, hl2.2, rfl⟩
  unfold contSeqCells CLQT.tfSeqDefaults
  simp only [h3, h4, h1', h2, py_ok_bind, tfMaxAbsV_self (As := xs) (by rintro rfl; simp at hl)]
  rfl

/-- C94 (what is compared): the cells use the problem and the initial state of the NumPy part for `xs1` and those of the TensorFlow part for
`xs2`, also when they differ, and the printed error is the largest absolute difference of two entries of `xs1` and `xs2`. -/
theorem C94_compare (P PT : CLQT n m ℝ) (x0 x0T : Fin n → ℝ) (steps : ℕ) (d : ContSeq n m) (h : contSeqCells P PT x0 x0T steps = .ok d) :
    (∃ bw, P.seqBackwardPass steps = .ok bw ∧ P.seqForwardPass x0 bw.Kx_list bw.d_list = .ok (d.us1, d.xs1)) ∧
    (∃ bw, PT.tfSeqBackward steps (PT.T / steps) 0 (PT.HTᵀ * (PT.XT * PT.HT)) (PT.HTᵀ *ᵥ (PT.XT *ᵥ PT.rT)) = .ok bw ∧
      PT.tfSeqForward x0T bw.Kx_list bw.d_list (PT.T / steps) 0 false = .ok (d.xs2, d.us2)) ∧
    IsGreatest {e : ℝ | ∃ (k : ℕ) (x y : Fin n → ℝ) (i : Fin n), d.xs1[k]? = some x ∧ d.xs2[k]? = some y ∧ e = |x i - y i|} d.err := by
  unfold contSeqCells CLQT.tfSeqDefaults at h
  obtain ⟨bw, h1, h⟩ := bind_ok.1 h
  obtain ⟨⟨us, xs⟩, h2, h⟩ := bind_ok.1 h
  obtain ⟨bw2, h3, h⟩ := bind_ok.1 h
  obtain ⟨⟨xs2, us2⟩, h4, h⟩ := bind_ok.1 h
  obtain ⟨e, h5, h⟩ := bind_ok.1 h
  cases h
  exact ⟨⟨bw, h1, h2⟩, ⟨bw2, h3, h4⟩, tfMaxAbs_greatest h5⟩

/-- The hypothesis of the comparison holds for the tracking problem of the notebook. -/
example : ∃ d, contSeqCells linGetCLQT.1 linGetCLQT.1 linGetCLQT.2 linGetCLQT.2 5000 = .ok d := by
  obtain ⟨-, -, -, -, -, hU, -⟩ := C74_continuous
  obtain ⟨d, h, -⟩ := C94_sequential linGetCLQT.1 (fun t => ⟨(hU t).2.2.2, (hU t).2.2.1⟩) linGetCLQT.2 5000 (by norm_num)
  exact ⟨d, h⟩

theorem contLevels (scan : AScan) (P : CLQT n m ℝ) (mp blocks steps : ℕ) (hm : 1 ≤ mp) (hB : blocks ≤ mp) (dt t0 : ℝ)
    (ST : Matrix (Fin n) (Fin n) ℝ) (vT x0 : Fin n → ℝ) (Kxs : List (Matrix (Fin m) (Fin n) ℝ)) (ds : List (Fin m → ℝ))
    (bw : BwResult n m ℝ) :
    P.tfParBackwardMp (scan _) mp blocks steps dt t0 ST vT = P.tfParBackward (scan _) blocks steps dt t0 ST vT ∧
    P.tfParForwardMp (scan _) mp blocks steps x0 Kxs ds dt t0 = P.tfParForward (scan _) blocks steps x0 Kxs ds dt t0 ∧
    P.tfParFwdBwdMp (scan _) mp blocks steps x0 bw dt t0 = P.tfParFwdBwd (scan _) blocks steps x0 bw dt t0 := by
  have hinit : ∀ (forward : Bool) (ST : Matrix (Fin n) (Fin n) ℝ) (vT : Fin n → ℝ) es,
      P.tfParBackwardInit forward blocks steps dt t0 ST vT = .ok es → es.length = blocks + 1 := by
    intro forward ST vT es h
    unfold CLQT.tfParBackwardInit at h
    obtain ⟨l, hl, h⟩ := bind_ok.1 h
    obtain rfl := Except.ok.inj h
    simp [mapM_py_length _ _ _ hl, tfBlockTimes]
  refine ⟨?_, ?_, ?_⟩
  · unfold CLQT.tfParBackwardMp CLQT.tfParBackward
    cases h : P.tfParBackwardInit false blocks steps dt t0 ST vT with
    | error e => rfl
    | ok es =>
      rw [py_ok_bind, py_ok_bind, budgetScan1_eq _ _ hm (by simp [hinit _ _ _ _ h, hB])]
  · unfold CLQT.tfParForwardMp CLQT.tfParForward
    cases h : P.tfParForwardInit true blocks steps x0 Kxs ds dt t0 with
    | error e => rfl
    | ok es =>
      have hl : es.length ≤ mp + 1 := by
        unfold CLQT.tfParForwardInit at h
        obtain ⟨a, ha, h⟩ := bind_ok.1 h
        obtain ⟨b, hb, h⟩ := bind_ok.1 h
        obtain ⟨l, hl, h⟩ := bind_ok.1 h
        obtain rfl := Except.ok.inj h
        simp [mapM_py_length _ _ _ hl, tfBlockTimes]
        omega
      rw [py_ok_bind, py_ok_bind, budgetScan1_eq _ _ hm hl]
  · unfold CLQT.tfParFwdBwdMp CLQT.tfParFwdBwd
    cases h : P.tfParFwdBwdInit true blocks steps x0 dt t0 with
    | error e => rfl
    | ok es =>
      have hl : es.length ≤ mp + 1 := by
        unfold CLQT.tfParFwdBwdInit at h
        obtain ⟨l, hl, h⟩ := bind_ok.1 h
        obtain rfl := Except.ok.inj h
        simp [hinit _ _ _ _ hl]
        omega
      rw [py_ok_bind, py_ok_bind, budgetScan1_eq _ _ hm hl]

theorem cont_fwbw_length {P : CLQT n m ℝ} {scan : (Elem n ℝ → Elem n ℝ → Py (Elem n ℝ)) → List (Elem n ℝ) → Py (List (Elem n ℝ))}
    {blocks steps : ℕ} {x0 : Fin n → ℝ} {bw : BwResult n m ℝ} {dt t0 : ℝ} {forward : Bool}
    {r : List (Fin n → ℝ) × List (Fin m → ℝ)} (h : P.tfParFwdBwd scan blocks steps x0 bw dt t0 forward = .ok r) :
    r.1.length = bw.S_list.length := by
  unfold CLQT.tfParFwdBwd at h
  obtain ⟨es, -, h⟩ := bind_ok.1 h
  obtain ⟨fs, -, h⟩ := bind_ok.1 h
  unfold CLQT.tfParFwdBwdExtract at h
  obtain ⟨rs, -, h⟩ := bind_ok.1 h
  obtain ⟨q, -, h⟩ := bind_ok.1 h
  obtain ⟨AT, -, h⟩ := bind_ok.1 h
  obtain ⟨bT, -, h⟩ := bind_ok.1 h
  obtain ⟨CT, -, h⟩ := bind_ok.1 h
  unfold clqtTfCombine at h
  split_ifs at h with hc
  · cases h
  · obtain ⟨ys, hys, h⟩ := bind_ok.1 (show (List.mapM _ _ >>= _) = _ from h)
    obtain rfl := Except.ok.inj h
    push Not at hc
    rw [mapM_py_length _ _ _ hys, List.length_zip, List.length_zip, List.length_zip]
    omega

/-- C94 (parallel cells): for positive definite control weights, up to 10000 blocks and a trajectory `xs1` of `blocks * steps + 1`
states the cells fail exactly when the parallel forward-backward pipeline of the speed tests fails, with its exception.  Otherwise
`xs3`, `xs4` and `xs6` are the states of the parallel, the parallel forward-backward and the Parareal pipeline, they have the length of
`xs1`, the first two start in `x0`, and the printed errors are the largest distances to `xs1`. -/
theorem C94_parallel [NeZero n] (P : CLQT n m ℝ) (hU : ∀ t, (P.U t)ᵀ = P.U t ∧ IsPD (P.U t)) (scan : AScan)
    (hsc : ∀ α, IsAssocScan (scan α)) (x0 : Fin n → ℝ) (blocks steps niter : ℕ) (hB : blocks ≠ 0) (hs : steps ≠ 0) (hi : niter ≠ 0)
    (hm : blocks ≤ 10000) (xs1 : List (Fin n → ℝ)) (hl : xs1.length = blocks * steps + 1) :
    (∀ e, contParCells scan P x0 blocks steps niter xs1 = .error e ↔ P.spParBwFwBw scan x0 blocks steps = .error e) ∧
    ∀ d, contParCells scan P x0 blocks steps niter xs1 = .ok d →
      (∃ bw us3 us4, P.spParBwFw scan x0 blocks steps = .ok (bw, d.xs3, us3) ∧
        P.spParBwFwBw scan x0 blocks steps = .ok (bw, d.xs4, us4)) ∧
      (∃ bw us6, P.spPrBwFw x0 blocks steps niter = .ok (bw, d.xs6, us6)) ∧ d.xs3[0]? = some x0 ∧ d.xs4[0]? = some x0 ∧
      ∀ xs e, (xs, e) ∈ [(d.xs3, d.err3), (d.xs4, d.err4), (d.xs6, d.err6)] → xs.length = blocks * steps + 1 ∧
        (∀ (k : ℕ) x y, xs1[k]? = some x → xs[k]? = some y → ∀ i, |x i - y i| ≤ e) ∧
        ∃ (k : ℕ) (x y : Fin n → ℝ) (i : Fin n), xs1[k]? = some x ∧ xs[k]? = some y ∧ e = |x i - y i| := by
  have h10 : (1 : ℕ) ≤ 10000 := by norm_num
  have hB1 : 1 ≤ blocks := Nat.one_le_iff_ne_zero.2 hB
  have hne : xs1 ≠ [] := by
    rintro rfl
    simp at hl
  obtain ⟨bw6, hbw6, -⟩ := C72_backward_exact P hU blocks steps niter hB hs hi
  have hlen6 : bw6.Kx_list.length = blocks * steps ∧ bw6.d_list.length = blocks * steps := by
    obtain ⟨bw, xu, h1, -, h3⟩ := P.spRef1_ok hU x0 blocks steps hB hs
    obtain ⟨l1, l2, -, -⟩ := CLQT.tfSeqBackward_length h1
    obtain ⟨r, r', hr, hr', hj⟩ := C83_parareal_blocks P hU x0 blocks steps niter hB hs hi
    obtain rfl := Except.ok.inj (hbw6.symm.trans hr)
    rw [h3, Except.ok.injEq] at hr'
    subst hr'
    have hlt : (blocks - 1 - niter) * steps < blocks * steps := (Nat.mul_lt_mul_right (by omega)).2 (by omega)
    exact ⟨(getElem?_length (fun j h => (hj j h).2.2.1) (by dsimp only; omega)).trans l1,
      (getElem?_length (fun j h => (hj j h).2.2.2) (by dsimp only; omega)).trans l2⟩
  obtain ⟨us6, xs6, hf6, hl6⟩ := P.prForward_len false (some niter) hB hs hlen6.1 hlen6.2 x0
  have hf6' := (C72_forward P blocks steps niter hB hs hi x0 _ _ hlen6.1 hlen6.2 false us6 xs6).2 hf6
  obtain ⟨e6, he6, he6'⟩ := tfMaxAbsV_ok (hl.trans hl6.symm) hne
  have hl1 := fun ST vT Kxs ds bw dt t0 => contLevels scan P 10000 blocks steps h10 hm dt t0 ST vT x0 Kxs ds bw
  have hl2 := fun ST vT Kxs ds bw dt t0 => contLevels scan P blocks blocks steps hB1 le_rfl dt t0 ST vT x0 Kxs ds bw
  cases h3 : P.spParBw scan blocks steps with
  | error e' =>
    have h4 : P.spParBwFwBw scan x0 blocks steps = .error e' := by
      unfold CLQT.spParBw at h3
      unfold CLQT.spParBwFwBw
      dsimp only at h3 ⊢
      rw [h3]
      rfl
    have h5 : contParCells scan P x0 blocks steps niter xs1 = .error e' := by
      unfold CLQT.spParBw at h3
      unfold contParCells
      dsimp only at h3 ⊢
      rw [(hl2 _ _ [] [] bw6 _ _).1] at h3
      rw [(hl1 _ _ [] [] bw6 _ _).1, h3]
      rfl
    rw [h4, h5]
    simp
  | ok bw =>
    obtain ⟨r', ⟨xs3, us3⟩, hr', h4, h5, ⟨-, l2, l3, -⟩, -⟩ := C83_par P hU scan hsc x0 blocks steps hB hs bw h3
    obtain ⟨bw', xu', h1', -, h3'⟩ := P.spRef1_ok hU x0 blocks steps hB hs
    obtain rfl := Except.ok.inj (hr'.symm.trans h3')
    obtain ⟨-, q2, q3, -⟩ := CLQT.tfSeqBackward_length h1'
    have hl3 : xs3.length = blocks * steps + 1 := by rw [show xs3.length = _ from CLQT.tfSeqForward_length h5, l2, q2]
    obtain ⟨e3, he3, he3'⟩ := tfMaxAbsV_ok (hl.trans hl3.symm) hne
    have hb := h3
    unfold CLQT.spParBw CLQT.tfParDefaults at hb
    dsimp only at hb
    have hf := h4
    unfold CLQT.spParBwFw CLQT.tfParDefaults at hf
    dsimp only at hf
    rw [hb, py_ok_bind, (hl2 0 0 _ _ bw _ _).2.1] at hf
    rw [(hl2 _ _ [] [] bw _ _).1] at hb
    have hf' : P.tfParForward (scan _) blocks steps x0 bw.Kx_list bw.d_list (P.T / ((steps * blocks : ℕ) : ℝ)) 0 = .ok (xs3, us3) := by
      obtain ⟨a, ha, h⟩ := bind_ok.1 hf
      obtain rfl := (Prod.mk.inj (Except.ok.inj h)).2
      exact ha
    have hcell : contParCells scan P x0 blocks steps niter xs1 = (do
        let xu ← P.tfParFwdBwd (scan _) blocks steps x0 bw (P.T / ((steps * blocks : ℕ) : ℝ)) 0
        let err4 ← tfMaxAbs xs1 xu.1
        return ⟨xs3, xu.1, xs6, e3, err4, e6⟩) := by
      unfold contParCells CLQT.tfParDefaults
      simp only [(hl1 _ _ [] [] bw _ _).1, (hl1 0 0 _ _ bw _ _).2.1, (hl1 0 0 [] [] _ _ _).2.2, hb, hf', hbw6, hf6', py_ok_bind, he3, he6]
    have h6 : P.spParBwFwBw scan x0 blocks steps = (do
        let xu ← P.tfParFwdBwd (scan _) blocks steps x0 bw (P.T / ((steps * blocks : ℕ) : ℝ)) 0
        return (bw, xu)) := by
      unfold CLQT.spParBwFwBw CLQT.tfParDefaults
      simp only [(hl2 _ _ [] [] bw _ _).1, (hl2 0 0 [] [] _ _ _).2.2, hb, py_ok_bind]
    cases h7 : P.tfParFwdBwd (scan _) blocks steps x0 bw (P.T / ((steps * blocks : ℕ) : ℝ)) 0 with
    | error e' =>
      rw [h7] at hcell h6
      rw [hcell, h6]
      constructor
      · intro e
        exact ⟨fun h => by cases h; rfl, fun h => by cases h; rfl⟩
      · intro d h
        cases h
    | ok xu =>
      obtain ⟨xs4, us4⟩ := xu
      have hl4 : xs4.length = blocks * steps + 1 := by rw [show xs4.length = _ from cont_fwbw_length h7, l3, q3]
      obtain ⟨e4, he4, he4'⟩ := tfMaxAbsV_ok (hl.trans hl4.symm) hne
      rw [h7, py_ok_bind, he4, py_ok_bind] at hcell
      rw [h7, py_ok_bind] at h6
      have hx0 : xs3[0]? = some x0 := by
        unfold CLQT.tfSeqForward at h5
        split_ifs at h5
        · cases h5
        · obtain ⟨u0, -, h⟩ := bind_ok.1 (show (pyGet bw.d_list 0 >>= _) = _ from h5)
          obtain ⟨s, -, h⟩ := bind_ok.1 h
          obtain ⟨rfl, -⟩ := Prod.mk.inj (Except.ok.inj h)
          rfl
      rw [hcell, h6]
      constructor
      · intro e
        exact ⟨fun h => (by cases h), fun h => (by cases h)⟩
      · intro d h
        obtain rfl := Except.ok.inj h
        refine ⟨⟨bw, us3, us4, h4, rfl⟩, ⟨bw6, us6, ?_⟩, hx0,
          (C83_start P scan hsc x0 blocks steps (Nat.pos_of_ne_zero hB) (Nat.pos_of_ne_zero hs) _).1 h6, ?_⟩
        · unfold CLQT.spPrBwFw
          rw [hbw6, py_ok_bind, hf6']
          rfl
        · intro xs e hmem
          simp only [List.mem_cons, Prod.mk.injEq, List.not_mem_nil, or_false] at hmem
          rcases hmem with ⟨rfl, rfl⟩ | ⟨rfl, rfl⟩ | ⟨rfl, rfl⟩
          · exact ⟨hl3, he3'⟩
          · exact ⟨hl4, he4'⟩
          · exact ⟨hl6, he6'⟩

/-- C94 (the notebook): the sequential cells with 5000 steps print the shape `(5001, 4)` and the error zero, and the sequential speed
tests print zero three times. -/
theorem C94_notebook : (∃ d, contSeqCells linGetCLQT.1 linGetCLQTTF.1 linGetCLQT.2 linGetCLQTTF.2 5000 = .ok d ∧ d.err = 0 ∧
      d.xs2.length = 5001 ∧ d.xs2 = d.xs1 ∧ d.us2 = d.us1 ∧ d.tt1.length = 5001 ∧ ∀ (k : ℕ) t, d.tt1[k]? = some t → t = k / 100) ∧
    contSeqSpeedCell = .ok [0, 0, 0] := by
  obtain ⟨heq, -, -, -, -, hU, -⟩ := C74_continuous
  have hU' : ∀ t, (linGetCLQT.1.U t)ᵀ = linGetCLQT.1.U t ∧ IsPD (linGetCLQT.1.U t) := fun t => ⟨(hU t).2.2.2, (hU t).2.2.1⟩
  constructor
  · rw [heq]
    obtain ⟨d, h1, h2, h3, h4, h5, -, -, h6⟩ := C94_sequential linGetCLQT.1 hU' linGetCLQT.2 5000 (by norm_num)
    refine ⟨d, h1, h2, by rw [h3, h5], h3, h4, by rw [h6, List.length_map, List.length_range], fun k t h => ?_⟩
    rw [h6, List.getElem?_map, Option.map_eq_some_iff] at h
    obtain ⟨j, hj, rfl⟩ := h
    obtain ⟨_, rfl⟩ := List.getElem?_eq_some_iff.1 hj
    rw [List.getElem_range, show linGetCLQT.1.T = 50 from rfl]
    push_cast
    ring
  · unfold contSeqSpeedCell
    have h := fun b hb => (C83_tracking b 50 0 10 hb (by norm_num) (by norm_num)).2.1
    simp only [List.mapM_cons, List.mapM_nil, h (1 * 100) (by norm_num), h (2 * 100) (by norm_num), h (3 * 100) (by norm_num), py_ok_bind]
    rfl

/-- C94 (parallel speed tests): the cell completes exactly when the parallel backward pass completes for 100, 200 and 300 blocks;
then it prints three nonnegative errors, and each of them is the largest difference of the states of the sequential forward passes with
the gains of the parallel and of the sequential backward pass. -/
theorem C94_par_speed (scan : AScan) (hsc : ∀ α, IsAssocScan (scan α)) :
    ((∃ es, contParSpeedCell scan = .ok es) ↔ ∀ i ∈ [1, 2, 3], ∃ r, contTracking.1.spParBw scan (i * 100) 50 = .ok r) ∧
    ∀ es, contParSpeedCell scan = .ok es → List.Forall₂ (fun i e => 0 ≤ e ∧ ∃ r r' xu, contTracking.1.spParBw scan (i * 100) 50 = .ok r ∧
      contTracking.1.spRef1 contTracking.2 (i * 100) 50 = .ok r' ∧
      contTracking.1.tfSeqForward contTracking.2 r.Kx_list r.d_list (50 / ((i * 100 * 50 : ℕ) : ℝ)) 0 = .ok xu ∧
      tfMaxAbs xu.1 r'.2.1 = .ok e) [1, 2, 3] es := by
  have hU' : ∀ t, (contTracking.1.U t)ᵀ = contTracking.1.U t ∧ IsPD (contTracking.1.U t) := by
    obtain ⟨heq, -, -, -, -, hU, -⟩ := C74_continuous
    rw [show contTracking = linGetCLQT from heq]
    exact fun t => ⟨(hU t).2.2.2, (hU t).2.2.1⟩
  have key : ∀ i : ℕ, i ≠ 0 → (∀ r, contTracking.1.spParBw scan (i * 100) 50 = .ok r →
      ∃ e, contTracking.1.parBwFwSpeed scan contTracking.2 (i * 100) 50 10 = .ok e ∧ 0 ≤ e ∧ ∃ r' xu,
        contTracking.1.spRef1 contTracking.2 (i * 100) 50 = .ok r' ∧
        contTracking.1.tfSeqForward contTracking.2 r.Kx_list r.d_list (50 / ((i * 100 * 50 : ℕ) : ℝ)) 0 = .ok xu ∧
        tfMaxAbs xu.1 r'.2.1 = .ok e) ∧
      ∀ e, contTracking.1.parBwFwSpeed scan contTracking.2 (i * 100) 50 10 = .ok e → ∃ r, contTracking.1.spParBw scan (i * 100) 50 = .ok r := by
    intro i hi
    constructor
    · intro r hr
      obtain ⟨r', xu, h1, h2, h3, ⟨-, l2, -, -⟩, -⟩ := C83_par contTracking.1 hU' scan hsc contTracking.2 (i * 100) 50 (by omega) (by norm_num) r hr
      obtain ⟨bw', xu', q1, q2, q3⟩ := contTracking.1.spRef1_ok hU' contTracking.2 (i * 100) 50 (by omega) (by norm_num)
      obtain rfl := Except.ok.inj (h1.symm.trans q3)
      have e1 := CLQT.tfSeqForward_length h3
      have e2 := CLQT.tfSeqForward_length q2
      obtain ⟨e, he, -, k, A, B, j, -, -, hj⟩ := tfMaxAbsV_ok (As := xu.1) (Bs := xu'.1) (by rw [e1, e2]; exact congrArg (· + 1) l2)
        (by rintro h; rw [h] at e1; simp at e1)
      exact ⟨e, (contSpeed_eq (by norm_num) _ h2 h1).trans he, hj ▸ abs_nonneg _, _, xu, h1, h3, he⟩
    · intro e he
      unfold CLQT.parBwFwSpeed contSpeed at he
      obtain ⟨a, ha, -⟩ := bind_ok.1 he
      unfold CLQT.spParBwFw at ha
      obtain ⟨r, hr, -⟩ := bind_ok.1 (show (contTracking.1.tfParBackwardMp (scan _) _ _ _ _ _ _ _ >>= _) = _ from ha)
      exact ⟨r, hr⟩
  have hinv : ∀ es, contParSpeedCell scan = .ok es → List.Forall₂ (fun i e =>
      contTracking.1.parBwFwSpeed scan contTracking.2 (i * 100) 50 10 = .ok e) [1, 2, 3] es := by
    intro es h
    unfold contParSpeedCell at h
    simp only [List.mapM_cons, List.mapM_nil, bind_ok] at h
    obtain ⟨a, ha, _, ⟨b, hb, _, ⟨c, hc, _, h0, h⟩, h'⟩, h''⟩ := h
    obtain rfl := Except.ok.inj h0
    obtain rfl := Except.ok.inj h
    obtain rfl := Except.ok.inj h'
    obtain rfl := Except.ok.inj h''
    exact .cons ha (.cons hb (.cons hc .nil))
  have hmem : ∀ i ∈ [1, 2, 3], i ≠ 0 := by decide
  constructor
  · constructor
    · rintro ⟨es, h⟩ i hi
      have h1 := hinv es h
      obtain ⟨e, he⟩ : ∃ e, contTracking.1.parBwFwSpeed scan contTracking.2 (i * 100) 50 10 = .ok e := by
        rcases h1 with _ | ⟨ha, _ | ⟨hb, _ | ⟨hc, _⟩⟩⟩
        simp only [List.mem_cons, List.not_mem_nil, or_false] at hi
        rcases hi with rfl | rfl | rfl
        exacts [⟨_, ha⟩, ⟨_, hb⟩, ⟨_, hc⟩]
      exact (key i (hmem i hi)).2 e he
    · intro h
      have h1 : ∀ i ∈ [1, 2, 3], ∃ e, contTracking.1.parBwFwSpeed scan contTracking.2 (i * 100) 50 10 = .ok e := by
        intro i hi
        obtain ⟨r, hr⟩ := h i hi
        obtain ⟨e, he, -⟩ := (key i (hmem i hi)).1 r hr
        exact ⟨e, he⟩
      obtain ⟨a, ha⟩ := h1 1 (by simp)
      obtain ⟨b, hb⟩ := h1 2 (by simp)
      obtain ⟨c, hc⟩ := h1 3 (by simp)
      refine ⟨[a, b, c], ?_⟩
      unfold contParSpeedCell
      simp only [List.mapM_cons, List.mapM_nil, ha, hb, hc, py_ok_bind]
      rfl
  · intro es h
    have h2 : ∀ i : ℕ, i ≠ 0 → ∀ e, contTracking.1.parBwFwSpeed scan contTracking.2 (i * 100) 50 10 = .ok e → 0 ≤ e ∧ ∃ r r' xu,
        contTracking.1.spParBw scan (i * 100) 50 = .ok r ∧ contTracking.1.spRef1 contTracking.2 (i * 100) 50 = .ok r' ∧
        contTracking.1.tfSeqForward contTracking.2 r.Kx_list r.d_list (50 / ((i * 100 * 50 : ℕ) : ℝ)) 0 = .ok xu ∧
        tfMaxAbs xu.1 r'.2.1 = .ok e := by
      intro i hi e he
      obtain ⟨r, hr⟩ := (key i hi).2 e he
      obtain ⟨e', he', h0, r', xu, a, b, c⟩ := (key i hi).1 r hr
      obtain rfl := Except.ok.inj (he.symm.trans he')
      exact ⟨h0, r, r', xu, hr, a, b, c⟩
    rcases hinv es h with _ | ⟨ha, _ | ⟨hb, _ | ⟨hc, hn⟩⟩⟩
    cases hn
    exact .cons (h2 1 (by norm_num) _ ha) (.cons (h2 2 (by norm_num) _ hb) (.cons (h2 3 (by norm_num) _ hc) .nil))

/-! ### Examples -/

/-- The coefficients of the model are recovered from its own points. -/
example : ∃ d, contFit ((List.range 50).map fun k => ![linRefC linCx k, linRefC linCy k]) = .ok d ∧ d.cx = linCx ∧ d.cy = linCy := by
  obtain ⟨d, h, -⟩ := C94_coefficients fun k => ![linRefC linCx k, linRefC linCy k]
  exact ⟨d, h, C94_recovery _ _ d h⟩

/-- The hypothesis of `C94_rounding` for the printed coefficients. -/
example : |linRefC (fun j => linCx j + 3e-5) 7 - linRefC linCx 7| ≤ 6.5e-4 :=
  C94_rounding _ _ (fun j => by rw [add_sub_cancel_left, abs_of_pos (by norm_num)]; norm_num) 7

/-- The hypotheses of `C94_sequential` and `C94_parallel` for the tracking problem of the notebook, with the scan of the model. -/
example : ∃ d, contSeqCells linGetCLQT.1 linGetCLQT.1 linGetCLQT.2 linGetCLQT.2 5000 = .ok d ∧
    ∀ e, contParCells (fun _ op l => scanVals op l) linGetCLQT.1 linGetCLQT.2 500 10 5 d.xs1 = .error e ↔
      linGetCLQT.1.spParBwFwBw (fun _ op l => scanVals op l) linGetCLQT.2 500 10 = .error e := by
  obtain ⟨-, -, -, -, -, hU, -⟩ := C74_continuous
  have hU' : ∀ t, (linGetCLQT.1.U t)ᵀ = linGetCLQT.1.U t ∧ IsPD (linGetCLQT.1.U t) := fun t => ⟨(hU t).2.2.2, (hU t).2.2.1⟩
  obtain ⟨d, h1, -, -, -, h5, -⟩ := C94_sequential linGetCLQT.1 hU' linGetCLQT.2 5000 (by norm_num)
  exact ⟨d, h1, (C94_parallel _ hU' _ (fun _ => C17_scan_example) _ 500 10 5 (by norm_num) (by norm_num) (by norm_num) (by norm_num)
    _ h5).1⟩

end Verif
