import Verif.Proof.NotebookLQR
import Verif.Props.LQRStat

/-! Property C93: the notebook `/repo/notebooks/lqr_iter_demo.ipynb`. -/

namespace Verif

open Matrix Filter Topology

variable {n m : ℕ}

theorem lqrDouble_iterS {R : LQR n m ℝ} (hR : R.Convex) (k : ℕ) : ∃ Kd, R.lqrDouble k = .ok (Kd, R.iterS (2 ^ k - 1)) := by
  obtain ⟨Kd, S, o, S', h1, h2, -, -⟩ := C27_convex R hR k
  exact ⟨Kd, by rw [h1, ← lqrIter_snd hR h2]⟩

theorem lqrDemoCell_eq {R : LQR n m ℝ} (hR : R.Convex) {are : DareSolver n m ℝ} {Kx : Matrix (Fin m) (Fin n) ℝ}
    {P : Matrix (Fin n) (Fin n) ℝ} (h : R.lqrDare are = .ok (Kx, P)) (N : ℕ) :
    lqrDemoCell R are N = .ok ⟨(List.range N).map (· + 1), (List.range N).map fun k => frob (P - R.iterS (k + 1)),
      (List.range N).map fun k => frob (P - R.iterS (2 ^ (k + 1) - 1)), P⟩ := by
  have hb : ∀ {α β : Type} (a : α) (f : α → Py β), ((Except.ok a : Py α) >>= f) = f a := fun _ _ => rfl
  unfold lqrDemoCell
  rw [h, hb]
  have hm : (List.range N).mapM (fun k => do
      let KS1 ← R.lqrIter (k + 1)
      let KS2 ← R.lqrDouble (k + 1)
      return (frob (KS1.2 - P), frob (KS2.2 - P), k + 1)) =
      (Except.ok ((List.range N).map fun k => (frob (P - R.iterS (k + 1)), frob (P - R.iterS (2 ^ (k + 1) - 1)), k + 1)) :
        Py (List (ℝ × ℝ × ℕ))) := by
    rw [mapM_congr' (g := fun k => .ok (frob (P - R.iterS (k + 1)), frob (P - R.iterS (2 ^ (k + 1) - 1)), k + 1))]
    · exact List.mapM_pure
    · intro k _
      obtain ⟨Kd, hd⟩ := lqrDouble_iterS hR (k + 1)
      rw [lqrIter_ric hR k, hb, hd, hb, frob_sub_comm P (R.iterS (k + 1)), frob_sub_comm P (R.iterS (2 ^ (k + 1) - 1))]
      rfl
  dsimp only
  rw [hm, hb]
  simp [pure, Except.pure, Function.comp_def]

theorem two_pow_pred_ge (k : ℕ) : k + 1 ≤ 2 ^ (k + 1) - 1 ∧ 2 ^ (k + 1) - 1 < 2 ^ (k + 2) - 1 := by
  have h : k + 2 ≤ 2 ^ (k + 1) := Nat.lt_two_pow_self (n := k + 1)
  have h2 : 2 ^ (k + 2) = 2 * 2 ^ (k + 1) := by ring
  omega

theorem two_pow_pred_gt (k : ℕ) : k + 2 < 2 ^ (k + 2) - 1 := by
  have h := (two_pow_pred_ge k).1
  have h2 : 2 ^ (k + 2) = 2 * 2 ^ (k + 1) := by ring
  omega

theorem pairwise_range_map {r : ℝ → ℝ → Prop} {f : ℕ → ℝ} (h : ∀ i j, i < j → r (f i) (f j)) (N : ℕ) :
    ((List.range N).map f).Pairwise r :=
  List.pairwise_map.2 (List.pairwise_lt_range.imp fun hij => h _ _ hij)

theorem forall₂_range_map {r : ℝ → ℝ → Prop} {f g : ℕ → ℝ} {l : List ℕ} (h : ∀ k ∈ l, r (f k) (g k)) :
    List.Forall₂ r (l.map f) (l.map g) := by
  induction l with
  | nil => exact .nil
  | cons a l ih => exact .cons (h a (by simp)) (ih fun k hk => h k (by simp [hk]))

/-- C93: the curves of the notebook for any convex regulator and any positive semidefinite solution `P` of the Riccati
equation returned by the solver.  The classical error of iteration `k + 1` is the distance to `P` after `k + 1` Riccati
steps, the doubling error the distance after `2 ^ (k + 1) - 1` steps.  Both curves never rise, the doubling curve never lies
above the classical one, and they start in the same point. -/
theorem C93_errors (R : LQR n m ℝ) (hR : R.Convex) (are : DareSolver n m ℝ) (Kx : Matrix (Fin m) (Fin n) ℝ)
    (P : Matrix (Fin n) (Fin n) ℝ) (h : R.lqrDare are = .ok (Kx, P)) (hP : IsPSD P) (hs : R.Stationary P Kx) (N : ℕ) :
    ∃ (d : LQRDemo n) (Ss : ℕ → Matrix (Fin n) (Fin n) ℝ), lqrDemoCell R are N = .ok d ∧ (∀ k, ∃ o, R.lqrIter k = .ok (o, Ss k)) ∧ d.S0 = P ∧
      d.iter = (List.range N).map (· + 1) ∧ d.err1 = (List.range N).map (fun k => frob (P - Ss (k + 1))) ∧
      d.err2 = (List.range N).map (fun k => frob (P - Ss (2 ^ (k + 1) - 1))) ∧
      d.err1.Pairwise (· ≥ ·) ∧ d.err2.Pairwise (· ≥ ·) ∧ List.Forall₂ (· ≤ ·) d.err2 d.err1 ∧ d.err2.head? = d.err1.head? := by
  have hex : ∀ k, ∃ o, R.lqrIter k = .ok (o, R.iterS k) := by
    intro k
    obtain ⟨o, S, h1, -⟩ := lqr_iter_total hR k
    exact ⟨o, by rw [h1, ← lqrIter_snd hR h1]⟩
  have hmono : ∀ k l, k ≤ l → frob (P - R.iterS l) ≤ frob (P - R.iterS k) := by
    intro k l hkl
    obtain ⟨o, ho⟩ := hex k
    obtain ⟨o', ho'⟩ := hex l
    obtain ⟨h1, h2⟩ := C79_monotone R hR k l hkl o o' _ _ ho ho'
    refine frob_mono (h2 P Kx hP hs) ?_
    rw [sub_sub_sub_cancel_left]
    exact h1
  refine ⟨_, R.iterS, lqrDemoCell_eq hR h N, hex, rfl, rfl, rfl, rfl, pairwise_range_map (r := (· ≥ ·)) (fun i j hij => hmono _ _ (by omega)) N,
    pairwise_range_map (r := (· ≥ ·)) (fun i j hij => hmono _ _ ?_) N, forall₂_range_map fun k _ => hmono _ _ (two_pow_pred_ge k).1, ?_⟩
  · exact Nat.sub_le_sub_right (Nat.pow_le_pow_right two_pos (by omega)) 1
  · cases N with
    | zero => rfl
    | succ N => simp [List.range_succ_eq_map]

/-- C93: the only exceptions of the last cell are those of the Riccati solver and of the gain computed from its result. -/
theorem C93_raises (R : LQR n m ℝ) (hR : R.Convex) (are : DareSolver n m ℝ) (N : ℕ) (e : PyErr) :
    lqrDemoCell R are N = .error e ↔ R.lqrDare are = .error e := by
  cases h : R.lqrDare are with
  | error e' =>
    have hb : lqrDemoCell R are N = .error e' := by
      unfold lqrDemoCell
      rw [h]
      rfl
    rw [hb]
    simp
  | ok r =>
    rw [lqrDemoCell_eq hR (Kx := r.1) (P := r.2) h N]
    simp

/-- C93: the curves need not tend to zero.  On the system without state cost of C79 both stay at the height 3 for ever. -/
theorem C93_blind (are : DareSolver 1 1 ℝ) (ha : are.Stabilising exBlind) (N : ℕ) :
    lqrDemoCell exBlind are N = .ok ⟨(List.range N).map (· + 1), List.replicate N 3, List.replicate N 3, !![3]⟩ := by
  obtain ⟨hc, -, -, hit, -, hd, -⟩ := C79_disagree
  have hz : ∀ k, exBlind.iterS k = 0 := by
    intro k
    cases k with
    | zero => ext i j; fin_cases i; fin_cases j; rfl
    | succ k => exact (lqrIter_snd hc (hit k)).symm
  rw [lqrDemoCell_eq hc (hd are ha)]
  have hf : frob (!![3] - 0 : Matrix (Fin 1) (Fin 1) ℝ) = 3 := by
    simp only [frob, sub_zero, Finset.univ_unique, Finset.sum_singleton]
    exact Real.sqrt_sq (by norm_num)
  simp only [hz, hf, List.map_const', List.length_range]

/-! ### The demo -/

theorem demo_limit : (demoLQR ℝ).Limit demoP demoK := by
  have hR := demoLQR_convex
  obtain ⟨S, Kx, h⟩ := (C79_converges _ hR).1 fun x => ⟨_, (feedback_summable hR demoP_psd demo_stationary x).1⟩
  have hX : IsPD (demoLQR ℝ).X := isPD_diagonal _ fun i => by fin_cases i <;> norm_num
  obtain ⟨h1, h2⟩ := (C79_stable _ hR (C79_definite _ hR 0 none _ (C27_zero _) hX).1 S Kx h).2 demoP demoK demoP_psd
    demo_stationary
  rwa [h1, h2]

theorem demo_detectable : (demoLQR ℝ).Detectable :=
  (C79_definite _ demoLQR_convex 0 none _ (C27_zero _) (isPD_diagonal _ fun i => by fin_cases i <;> norm_num)).1

theorem demo_strict {k l : ℕ} (h : k < l) : frob (demoP - (demoLQR ℝ).iterS l) < frob (demoP - (demoLQR ℝ).iterS k) := by
  have hR := demoLQR_convex
  have hf := (stationary_ric hR demoP_psd demo_stationary).1
  have hmono := fun x => monotone_nat_of_le_succ (f := fun k => qf ((demoLQR ℝ).iterS k) x) fun k => iterS_mono hR k x
  refine frob_strict (psd_sub demoP_psd.1 (iterS_psd hR l).1 fun x => iterS_le hR demoP_psd hf l x) ?_ fun he => ?_
  · rw [sub_sub_sub_cancel_left]
    exact psd_sub (iterS_psd hR l).1 (iterS_psd hR k).1 fun x => hmono x h.le
  · have he' : (demoLQR ℝ).iterS l = (demoLQR ℝ).iterS k := sub_right_injective he
    have h1 : (demoLQR ℝ).iterS (k + 1) = (demoLQR ℝ).iterS k := by
      refine qf_ext (iterS_psd hR _).1 (iterS_psd hR k).1 fun x => le_antisymm ?_ (iterS_mono hR k x)
      rw [← he']
      exact hmono x h
    rw [iterS_succ] at h1
    have h2 := detect_unique hR demo_detectable (limit_iff hR _ _ |>.1 demo_limit).1 (iterS_psd hR k) (ric_stationary hR (iterS_psd hR k) h1)
    exact demo_irrational k h2

theorem demo_dare {are : DareSolver 4 2 ℝ} (ha : are.Stabilising (demoLQR ℝ)) :
    (demoLQR ℝ).lqrDare are = .ok (demoK, demoP) :=
  (C79_dare _ demoLQR_convex are ha _ _ demo_limit).2 demo_detectable

theorem demo_rate {k j : ℕ} (h : 2 * j - 1 ≤ k) (hj : 0 < j) :
    frob (demoP - (demoLQR ℝ).iterS k) ≤ (1 / 10) ^ j * frob demoP := by
  have hR := demoLQR_convex
  have hf := (stationary_ric hR demoP_psd demo_stationary).1
  have h1 : ∀ x, (9 / 10 : ℝ) * qf demoP x ≤ qf ((demoLQR ℝ).iterS 1) x := by
    intro x
    have := demo_ninety.2 x
    have e := qf_sub ((demoLQR ℝ).iterS 1) ((9 / 10 : ℝ) • demoP) x
    rw [qf_smul] at e
    unfold qf at *
    linarith
  have h2 := iterS_rate hR demoP_psd hf (by norm_num) (by norm_num) h1 j
  have e2 : (demoLQR ℝ).ric^[(1 + 1) * j] 0 = (demoLQR ℝ).iterS (2 * j - 1) := (iterS_pred _ (by omega)).symm
  rw [e2] at h2
  rw [← frob_smul _ (by positivity)]
  refine frob_mono (psd_sub demoP_psd.1 (iterS_psd hR k).1 fun x => iterS_le hR demoP_psd hf k x) ?_
  refine psd_sub (by rw [transpose_smul, demoP_psd.1]) (by rw [transpose_sub, demoP_psd.1, (iterS_psd hR k).1]) fun x => ?_
  have h3 := monotone_nat_of_le_succ (f := fun k => qf ((demoLQR ℝ).iterS k) x) (fun k => iterS_mono hR k x) h
  have h4 := h2 x
  rw [qf_sub, qf_smul]
  simp only at h3
  norm_num at h4 ⊢
  linarith

/-- C93: the model cell makes the constant velocity model sampled at unit steps. -/
theorem C93_model : lqrDemoModel = .ok ⟨!![1, 0, 1, 0; 0, 1, 0, 1; 0, 0, 1, 0; 0, 0, 0, 1],
    !![1 / 2, 0; 0, 1 / 2; 1, 0; 0, 1], diagonal ![1, 1, 1 / 100, 1 / 100], diagonal ![1 / 10, 1 / 10],
    diagonal ![1, 1, 1 / 100, 1 / 100]⟩ := lqrDemoModel_eq

/-- C93: the notebook with any number `N` of iterations and any solver that returns the stabilising solution.  It raises
no exception.  The printed matrix has the closed form with `20 b = sqrt 41`, and the digits shown in the notebook are
correct.  Both curves fall strictly and are positive, the doubling curve is strictly below the classical one after the
common first point.  The relative error of the doubling is at most `10 ^ (- 2 ^ k)` and that of the classical iteration at
most `10 ^ (- (k + 2) / 2)` for the point number `k` counted from zero. -/
theorem C93_demo (are : DareSolver 4 2 ℝ) (R : LQR 4 2 ℝ) (hR : lqrDemoModel = .ok R) (ha : are.Stabilising R) (N : ℕ) :
    ∃ (d : LQRDemo 4) (a b c : ℝ), lqrDemoCell R are N = .ok d ∧ (N = 16 → lqrIterDemo are = .ok d) ∧
      d.S0 = !![a, 0, b, 0; 0, a, 0, b; b, 0, c, 0; 0, b, 0, c] ∧
      b = Real.sqrt 41 / 20 ∧ a = (1 + Real.sqrt (104 / 100 + 8 * b)) / 2 ∧ c = a * b - b / 2 + 1 / 200 ∧
      |a - 1.44884795| < 5e-9 ∧ |b - 0.32015621| < 5e-9 ∧ |c - 0.30877956| < 5e-9 ∧
      d.iter = (List.range N).map (· + 1) ∧ d.err1.length = N ∧ d.err2.length = N ∧
      d.err1.Pairwise (· > ·) ∧ d.err2.Pairwise (· > ·) ∧ d.err2.head? = d.err1.head? ∧
      List.Forall₂ (· < ·) d.err2.tail d.err1.tail ∧ (∀ e ∈ d.err2, 0 < e) ∧
      (∀ k e, d.err2[k]? = some e → e ≤ (1 / 10) ^ (2 ^ k) * frob d.S0) ∧
      ∀ k e, d.err1[k]? = some e → e ≤ (1 / 10) ^ ((k + 2) / 2) * frob d.S0 := by
  obtain rfl : demoLQR ℝ = R := Except.ok.inj (lqrDemoModel_eq.symm.trans hR)
  have hA := demoA_bounds
  have hB := demoB_bounds
  have hC := demoC_bounds
  have hcell := lqrDemoCell_eq demoLQR_convex (demo_dare ha) N
  refine ⟨_, demoA, demoB, demoC, hcell, ?_, rfl, rfl, rfl, rfl, by rw [abs_lt]; constructor <;> linarith,
    by rw [abs_lt]; constructor <;> linarith, by rw [abs_lt]; constructor <;> linarith, rfl, by simp, by simp,
    pairwise_range_map (r := (· > ·)) (fun i j hij => demo_strict (by omega)) N,
    pairwise_range_map (r := (· > ·)) (fun i j hij => demo_strict ?_) N, ?_, ?_, ?_, ?_, ?_⟩
  · rintro rfl
    unfold lqrIterDemo
    rw [lqrDemoModel_eq]
    exact hcell
  · have h1 : 2 ^ (i + 1) < 2 ^ (j + 1) := Nat.pow_lt_pow_right (by norm_num) (by omega)
    have h2 : 1 ≤ 2 ^ (i + 1) := Nat.one_le_two_pow
    omega
  · cases N with
    | zero => rfl
    | succ N => simp [List.range_succ_eq_map]
  · dsimp only
    rw [← List.map_tail, ← List.map_tail]
    refine forall₂_range_map fun k hk => demo_strict ?_
    cases N with
    | zero => simp at hk
    | succ N =>
      rw [List.range_succ_eq_map, List.tail_cons, List.mem_map] at hk
      obtain ⟨i, -, rfl⟩ := hk
      exact two_pow_pred_gt i
  · intro e he
    obtain ⟨k, -, rfl⟩ := List.mem_map.1 he
    exact lt_of_le_of_ne (frob_nonneg _) fun h =>
      demo_irrational _ (sub_eq_zero.1 ((frob_zero_iff _).1 h.symm)).symm
  · intro k e he
    dsimp only at he
    rw [List.getElem?_map, Option.map_eq_some_iff] at he
    obtain ⟨i, hi, rfl⟩ := he
    obtain ⟨h, rfl⟩ := List.getElem?_eq_some_iff.1 hi
    rw [List.getElem_range]
    exact demo_rate (by rw [← pow_succ']) (by positivity)
  · intro k e he
    dsimp only at he
    rw [List.getElem?_map, Option.map_eq_some_iff] at he
    obtain ⟨i, hi, rfl⟩ := he
    obtain ⟨h, rfl⟩ := List.getElem?_eq_some_iff.1 hi
    rw [List.getElem_range]
    exact demo_rate (by omega) (by omega)

/-- C93: the classical curve falls only linearly: the error after `k` iterations is at least `c r ^ k` for constants
`c, r > 0`. -/
theorem C93_linear : ∃ c r : ℝ, 0 < c ∧ 0 < r ∧ ∀ (are : DareSolver 4 2 ℝ) (R : LQR 4 2 ℝ), lqrDemoModel = .ok R →
    are.Stabilising R → ∀ (N : ℕ) (d : LQRDemo 4), lqrDemoCell R are N = .ok d → ∀ k e, d.err1[k]? = some e → c * r ^ k ≤ e := by
  have hR := demoLQR_convex
  obtain ⟨hf, hK⟩ := stationary_ric hR demoP_psd demo_stationary
  set R := demoLQR ℝ with hRdef
  set A := R.F - R.L * demoK with hA
  -- the closed loop is invertible
  obtain ⟨B, hB⟩ : ∃ B : Matrix (Fin 4) (Fin 4) ℝ, B * A = 1 := by
    have h1 := demo_stationary.1
    have hU : R.L * R.U = (1 / 10 : ℝ) • R.L := by
      ext i j
      fin_cases i <;> fin_cases j <;> simp [hRdef, demoLQR, mul_apply, Fin.sum_univ_succ] <;> ring
    have hF : (!![1, 0, -1, 0; 0, 1, 0, -1; 0, 0, 1, 0; 0, 0, 0, 1] : Matrix (Fin 4) (Fin 4) ℝ) * R.F = 1 := by
      ext i j
      fin_cases i <;> fin_cases j <;> simp [hRdef, demoLQR, mul_apply, Fin.sum_univ_succ]
    refine ⟨!![1, 0, -1, 0; 0, 1, 0, -1; 0, 0, 1, 0; 0, 0, 0, 1] * (1 + (10 : ℝ) • (R.L * R.Lᵀ * demoP)), ?_⟩
    rw [Matrix.mul_assoc]
    have h2 : (1 + (10 : ℝ) • (R.L * R.Lᵀ * demoP)) * A = R.F := by
      have h3 : R.L * ((R.U + R.Lᵀ * demoP * R.L) * demoK) = R.L * (R.Lᵀ * demoP * R.F) := by rw [h1]
      rw [Matrix.add_mul, Matrix.mul_add, ← Matrix.mul_assoc, hU] at h3
      have h4 : R.L * demoK = (10 : ℝ) • (R.L * (R.Lᵀ * demoP * R.F) - R.L * (R.Lᵀ * demoP * R.L * demoK)) := by
        rw [← h3, add_sub_cancel_right, Matrix.smul_mul, smul_smul]
        norm_num
      rw [hA, Matrix.add_mul, Matrix.one_mul, Matrix.smul_mul, Matrix.mul_sub]
      simp only [Matrix.mul_assoc] at h4 ⊢
      rw [← h4, sub_add_cancel]
    rw [h2, hF]
  have h1pd : IsPD (1 : Matrix (Fin 4) (Fin 4) ℝ) := by simpa using isPD_smul_one (ι := Fin 4) (1 : ℝ) one_pos
  have hBB : IsPSD (Bᵀ * 1 * B) := by
    refine ⟨by simp [transpose_mul], fun x => ?_⟩
    have := qf_conj (1 : Matrix (Fin 4) (Fin 4) ℝ) B x
    unfold qf at this
    rw [this]
    exact h1pd.nonneg _
  obtain ⟨r, hr, -, hdom⟩ := pd_dominates h1pd hBB
  have hstep : ∀ x, r * qf 1 x ≤ qf 1 (A *ᵥ x) := by
    intro x
    have := hdom (A *ᵥ x)
    rwa [qf_conj, mulVec_mulVec, hB, one_mulVec] at this
  have hlow : ∀ k x, 1 / 50 * r ^ k * qf 1 x ≤ qf (demoP - R.iterS k) x := by
    intro k
    induction k with
    | zero =>
      intro x
      have := demo_gap x
      rw [pow_zero, mul_one]
      exact this
    | succ k ih =>
      intro x
      have h1 := ric_le hR.1.1 hR.1.2 (iterS_psd hR k) x (-(demoK *ᵥ x))
      have h2 := ric_attained hR.1.1 hR.1.2 demoP_psd x
      rw [hf, hK] at h2
      have e : R.F *ᵥ x + R.L *ᵥ (-(demoK *ᵥ x)) = A *ᵥ x := by
        rw [hA, sub_mulVec, mulVec_neg, mulVec_mulVec, sub_eq_add_neg]
      rw [e] at h1 h2
      have h3 := ih (A *ᵥ x)
      rw [qf_sub] at h3 ⊢
      rw [iterS_succ]
      have h4 := mul_le_mul_of_nonneg_left (hstep x) (show (0 : ℝ) ≤ 1 / 50 * r ^ k by positivity)
      have e2 : (1 / 50 : ℝ) * r ^ (k + 1) * qf 1 x = 1 / 50 * r ^ k * (r * qf 1 x) := by ring
      rw [e2]
      linarith
  refine ⟨1 / 50 * r, r, by positivity, hr, fun are R' hR' ha N d hd k e he => ?_⟩
  obtain rfl : R = R' := Except.ok.inj (lqrDemoModel_eq.symm.trans hR')
  rw [lqrDemoCell_eq hR (demo_dare ha) N] at hd
  obtain rfl := Except.ok.inj hd
  dsimp only at he
  rw [List.getElem?_map, Option.map_eq_some_iff] at he
  obtain ⟨i, hi, rfl⟩ := he
  obtain ⟨h, rfl⟩ := List.getElem?_eq_some_iff.1 hi
  rw [List.getElem_range]
  refine le_trans ?_ (entry_le_frob _ 0 0)
  have h5 := hlow (k + 1) (Pi.single 0 1)
  have h6 : ∀ M : Matrix (Fin 4) (Fin 4) ℝ, qf M (Pi.single 0 1) = M 0 0 := by
    intro M
    simp [qf]
  rw [h6, h6] at h5
  rw [pow_succ] at h5
  simp only [one_apply_eq, mul_one] at h5
  linarith

/-! Examples: a stabilising solver for the demo exists, so the hypotheses can be met. -/

example : ∃ are : DareSolver 4 2 ℝ, ∃ R, lqrDemoModel = .ok R ∧ are.Stabilising R :=
  ⟨fun _ _ _ _ => .ok demoP, _, lqrDemoModel_eq, _, _, rfl, demoP_psd.1, demo_stationary,
    detect_stable demoLQR_convex demo_detectable demoP_psd demo_stationary⟩

example : ∃ are : DareSolver 1 1 ℝ, are.Stabilising exBlind := C79_disagree.2.2.2.2.2.2

/-- The hypotheses of `C93_errors` are met by the demo. -/
example : ∃ are : DareSolver 4 2 ℝ, (demoLQR ℝ).Convex ∧ (demoLQR ℝ).lqrDare are = .ok (demoK, demoP) ∧ IsPSD demoP ∧
    (demoLQR ℝ).Stationary demoP demoK :=
  ⟨fun _ _ _ _ => .ok demoP, demoLQR_convex, demo_dare ⟨_, _, rfl, demoP_psd.1, demo_stationary,
    detect_stable demoLQR_convex demo_detectable demoP_psd demo_stationary⟩, demoP_psd, demo_stationary⟩

end Verif
