import Verif.Proof.LQRLimit
import Verif.Props.LQR

/-! Property C79: convergence of the stationary regulator (`/repo/parallel_control/lqt_np.py:335-388`). -/

namespace Verif

open Matrix Filter Topology

variable {n m : ℕ}

section Field
variable {K : Type} [Field K] [LinearOrder K] [IsStrictOrderedRing K]

/-- C79: the matrices of `lqrIter` increase, and stay below every positive semidefinite solution of the Riccati equation. -/
theorem C79_monotone (R : LQR n m K) (hR : R.Convex) (k l : ℕ) (hkl : k ≤ l) (o o' : Option (Matrix (Fin m) (Fin n) K))
    (S S' : Matrix (Fin n) (Fin n) K) (h : R.lqrIter k = .ok (o, S)) (h' : R.lqrIter l = .ok (o', S')) :
    IsPSD (S' - S) ∧ ∀ P Kx, IsPSD P → R.Stationary P Kx → IsPSD (P - S') := by
  rw [lqrIter_snd hR h, lqrIter_snd hR h']
  refine ⟨psd_sub (iterS_psd hR l).1 (iterS_psd hR k).1 fun x =>
    (monotone_nat_of_le_succ (f := fun k => qf (R.iterS k) x) fun k => iterS_mono hR k x) hkl, fun P Kx hP hs => ?_⟩
  exact psd_sub hP.1 (iterS_psd hR l).1 fun x => iterS_le hR hP (stationary_ric hR hP hs).1 l x

theorem iterS_pred (R : LQR n m K) {i : ℕ} (hi : 0 < i) : R.iterS (i - 1) = R.ric^[i] 0 := by
  obtain ⟨j, rfl⟩ := Nat.exists_eq_succ_of_ne_zero hi.ne'
  rw [Nat.succ_sub_one, Function.iterate_succ_apply, ric_zero]
  rfl

/-- C79: linear convergence of `lqrIter`.  If `N` iterations recover at least the fraction `a` of a solution `P`, then
`j` such rounds leave at most the fraction `(1 - a) ^ j`. -/
theorem C79_rate (R : LQR n m K) (hR : R.Convex) (P : Matrix (Fin n) (Fin n) K) (Kx : Matrix (Fin m) (Fin n) K)
    (hP : IsPSD P) (hs : R.Stationary P Kx) (a : K) (ha : 0 ≤ a) (ha1 : a ≤ 1) (N : ℕ)
    (o : Option (Matrix (Fin m) (Fin n) K)) (S : Matrix (Fin n) (Fin n) K) (h : R.lqrIter N = .ok (o, S))
    (hd : IsPSD (S - a • P)) (j : ℕ) (hj : 0 < j) (o' : Option (Matrix (Fin m) (Fin n) K)) (S' : Matrix (Fin n) (Fin n) K)
    (h' : R.lqrIter ((N + 1) * j - 1) = .ok (o', S')) : IsPSD (S' - (1 - (1 - a) ^ j) • P) ∧ IsPSD (P - S') := by
  rw [lqrIter_snd hR h] at hd
  have hS' := lqrIter_snd hR h'
  rw [iterS_pred R (Nat.mul_pos (Nat.succ_pos N) hj)] at hS'
  have hz : IsPSD (0 : Matrix (Fin n) (Fin n) K) := ⟨by simp, fun x => by simp⟩
  refine ⟨?_, (C79_monotone R hR _ _ le_rfl _ _ _ _ h' h').2 P Kx hP hs⟩
  rw [hS']
  refine psd_sub (iterPSD hR hz _).1 (by rw [transpose_smul, hP.1]) fun x => ?_
  rw [qf_smul]
  refine iterS_rate hR hP (stationary_ric hR hP hs).1 ha ha1 (fun x => ?_) j x
  have h1 := hd.2 x
  have h2 := qf_sub (R.iterS N) (a • P) x
  rw [qf_smul] at h2
  unfold qf at *
  linarith

/-- C79: `lqrDouble` converges quadratically: `i` more doublings leave at most the fraction `(1 - a) ^ (2 ^ i)`. -/
theorem C79_rate_double (R : LQR n m K) (hR : R.Convex) (P : Matrix (Fin n) (Fin n) K) (Kx : Matrix (Fin m) (Fin n) K)
    (hP : IsPSD P) (hs : R.Stationary P Kx) (a : K) (ha : 0 ≤ a) (ha1 : a ≤ 1) (k i : ℕ)
    (Kd Kd' : Matrix (Fin m) (Fin n) K) (S S' : Matrix (Fin n) (Fin n) K) (h : R.lqrDouble k = .ok (Kd, S))
    (hd : IsPSD (S - a • P)) (h' : R.lqrDouble (k + i) = .ok (Kd', S')) :
    IsPSD (S' - (1 - (1 - a) ^ (2 ^ i)) • P) ∧ IsPSD (P - S') := by
  obtain ⟨K1, S1, o1, -, e1, e2, -, -⟩ := C27_convex R hR k
  obtain ⟨K2, S2, o2, -, f1, f2, -, -⟩ := C27_convex R hR (k + i)
  rw [h] at e1
  rw [h'] at f1
  cases e1
  cases f1
  refine C79_rate R hR P Kx hP hs a ha ha1 _ _ _ e2 hd (2 ^ i) (by positivity) o2 _ ?_
  rw [Nat.sub_add_cancel Nat.one_le_two_pow, ← pow_add, f2]

end Field

/-- C79: `lqrIter` converges exactly if every state has a control sequence of finite cost. -/
theorem C79_converges (R : LQR n m ℝ) (hR : R.Convex) : R.FiniteCost ↔ ∃ S Kx, R.Limit S Kx := by
  constructor
  · intro h
    obtain ⟨S, hS⟩ := iterS_converges hR h
    exact ⟨S, _, (limit_iff hR _ _).2 ⟨hS, rfl⟩⟩
  · rintro ⟨S, Kx, h⟩ x
    exact ⟨_, (limit_value hR ((limit_iff hR _ _).1 h).1 x).summable⟩

/-- C79: in particular if some feedback law is stable. -/
theorem C79_stabilisable (R : LQR n m ℝ) (hR : R.Convex) (h : R.Stabilisable) : ∃ S Kx, R.Limit S Kx :=
  (C79_converges R hR).1 (stabilisable_finite hR h)

/-- C79: the limit solves the Riccati equation, is the smallest positive semidefinite solution, and its gain is that the
code computes from it. -/
theorem C79_riccati (R : LQR n m ℝ) (hR : R.Convex) (S : Matrix (Fin n) (Fin n) ℝ) (Kx : Matrix (Fin m) (Fin n) ℝ)
    (h : R.Limit S Kx) : IsPSD S ∧ R.Stationary S Kx ∧ R.gain S = .ok Kx ∧
      ∀ P K', IsPSD P → R.Stationary P K' → IsPSD (P - S) := by
  obtain ⟨h1, rfl⟩ := (limit_iff hR _ _).1 h
  obtain ⟨hS, hf⟩ := limit_fixed hR h1
  refine ⟨hS, ric_stationary hR hS hf, gain_psd hR.1.1 hR.1.2 hS, fun P K' hP hs => psd_sub hP.1 hS.1 fun x => ?_⟩
  exact le_of_tendsto' ((qf_continuous x).continuousAt.tendsto.comp h1) fun k =>
    iterS_le hR hP (stationary_ric hR hP hs).1 k x

/-- C79: the limit is the optimal cost over the infinite horizon, and its feedback law attains it. -/
theorem C79_value (R : LQR n m ℝ) (hR : R.Convex) (S : Matrix (Fin n) (Fin n) ℝ) (Kx : Matrix (Fin m) (Fin n) ℝ)
    (h : R.Limit S Kx) (x0 : Fin n → ℝ) :
    (∀ k, R.state x0 (R.feedback Kx x0) (k + 1) = (R.F - R.L * Kx) *ᵥ R.state x0 (R.feedback Kx x0) k) ∧
    HasSum (R.stepCost x0 (R.feedback Kx x0)) (1 / 2 * (x0 ⬝ᵥ S *ᵥ x0)) ∧
      ∀ us c, HasSum (R.stepCost x0 us) c → 1 / 2 * (x0 ⬝ᵥ S *ᵥ x0) ≤ c := by
  obtain ⟨h1, rfl⟩ := (limit_iff hR _ _).1 h
  refine ⟨fun k => ?_, limit_value hR h1 x0, fun us c hc => limit_le_cost hR h1 x0 us c hc⟩
  rw [feedback_state, feedback_state, mulVec_mulVec, pow_succ']

/-- C79: `lqrDouble` has the same limit. -/
theorem C79_double (R : LQR n m ℝ) (hR : R.Convex) (S : Matrix (Fin n) (Fin n) ℝ) (Kx : Matrix (Fin m) (Fin n) ℝ)
    (h : R.Limit S Kx) : ∃ (Ks : ℕ → Matrix (Fin m) (Fin n) ℝ) (Ss : ℕ → Matrix (Fin n) (Fin n) ℝ),
      (∀ k, R.lqrDouble k = .ok (Ks k, Ss k)) ∧ Tendsto Ss atTop (𝓝 S) ∧ Tendsto Ks atTop (𝓝 Kx) := by
  obtain ⟨h1, rfl⟩ := (limit_iff hR _ _).1 h
  have hS := (limit_fixed hR h1).1
  have ht : Tendsto (fun k => 2 ^ k - 1) atTop atTop := by
    refine tendsto_atTop_mono (fun k => ?_) tendsto_id
    have := Nat.lt_two_pow_self (n := k)
    simp only [id]
    omega
  refine ⟨fun k => R.ricK (R.iterS (2 ^ k - 1)), fun k => R.iterS (2 ^ k - 1), fun k => ?_, h1.comp ht,
    ((ricK_continuousAt hR.1.2 hS).tendsto.comp h1).comp ht⟩
  obtain ⟨Kd, S', o, S'', e1, e2, e3, -⟩ := C27_convex R hR k
  have hi := lqrIter_snd hR e2
  have hp : 2 ^ k = (2 ^ k - 1) + 1 := (Nat.sub_add_cancel Nat.one_le_two_pow).symm
  rw [hp, lqrIter_ric hR] at e3
  simp only [Except.ok.injEq, Prod.mk.injEq, Option.some.injEq] at e3
  rw [e1]
  show _ = Except.ok (R.ricK (R.iterS (2 ^ k - 1)), R.iterS (2 ^ k - 1))
  rw [e3.1, hi]

/-- C79: if some iterate is positive definite (for example if `X` is), trajectories of finite cost tend to zero, and a
positive fraction of any solution is recovered by the iterations so far. -/
theorem C79_definite (R : LQR n m ℝ) (hR : R.Convex) (N : ℕ) (o : Option (Matrix (Fin m) (Fin n) ℝ))
    (S : Matrix (Fin n) (Fin n) ℝ) (h : R.lqrIter N = .ok (o, S)) (hS : IsPD S) :
    R.Detectable ∧ ∀ P, IsPSD P → ∃ a : ℝ, 0 < a ∧ a ≤ 1 ∧ IsPSD (S - a • P) := by
  have e := lqrIter_snd hR h
  refine ⟨observable_detectable hR (N := N) (e ▸ hS), fun P hP => ?_⟩
  obtain ⟨a, h0, h1, hd⟩ := pd_dominates hS hP
  refine ⟨a, h0, h1, psd_sub (e ▸ iterS_psd hR N).1 (by rw [transpose_smul, hP.1]) fun x => ?_⟩
  rw [qf_smul]
  exact hd x

/-- C79: if trajectories of finite cost tend to zero, the limit is the only positive semidefinite solution and its
closed loop is stable. -/
theorem C79_stable (R : LQR n m ℝ) (hR : R.Convex) (hd : R.Detectable) (S : Matrix (Fin n) (Fin n) ℝ)
    (Kx : Matrix (Fin m) (Fin n) ℝ) (h : R.Limit S Kx) : Tendsto (fun k => (R.F - R.L * Kx) ^ k) atTop (𝓝 0) ∧
      ∀ P K', IsPSD P → R.Stationary P K' → P = S ∧ K' = Kx := by
  obtain ⟨hS, hs, -⟩ := C79_riccati R hR S Kx h
  obtain ⟨h1, rfl⟩ := (limit_iff hR _ _).1 h
  refine ⟨detect_stable hR hd hS hs, fun P K' hP hs' => ?_⟩
  have := detect_unique hR hd h1 hP hs'
  exact ⟨this, by rw [← (stationary_ric hR hP hs').2, this]⟩

/-- What scipy documents about `solve_discrete_are` on this problem: a symmetric solution whose closed loop is stable. -/
def DareSolver.Stabilising (are : DareSolver n m ℝ) (R : LQR n m ℝ) : Prop :=
  ∃ P K', are R.F R.L R.X R.U = .ok P ∧ Pᵀ = P ∧ R.Stationary P K' ∧
    Tendsto (fun k => (R.F - R.L * K') ^ k) atTop (𝓝 0)

/-- C79: with a solver that returns the stabilising solution, `lqrDare` returns a gain and a matrix at least as large as
the limit of the iterations; if trajectories of finite cost tend to zero, it returns exactly the limit. -/
theorem C79_dare (R : LQR n m ℝ) (hR : R.Convex) (are : DareSolver n m ℝ) (ha : are.Stabilising R)
    (S : Matrix (Fin n) (Fin n) ℝ) (Kx : Matrix (Fin m) (Fin n) ℝ) (h : R.Limit S Kx) :
    (∃ Kd Sd, R.lqrDare are = .ok (Kd, Sd) ∧ IsPSD (Sd - S) ∧ R.Stationary Sd Kd) ∧
      (R.Detectable → R.lqrDare are = .ok (Kx, S)) := by
  obtain ⟨P, K', h1, h2, h3, h4⟩ := ha
  have hP := stabilising_psd hR h2 h3 h4
  have hg : R.lqrDare are = .ok (K', P) := by
    unfold LQR.lqrDare
    rw [h1]
    show (R.gain P >>= fun Kx => _) = _
    rw [gain_psd hR.1.1 hR.1.2 hP, (stationary_ric hR hP h3).2]
    rfl
  refine ⟨⟨K', P, hg, (C79_riccati R hR S Kx h).2.2.2 P K' hP h3, h3⟩, fun hd => ?_⟩
  obtain ⟨rfl, rfl⟩ := (C79_stable R hR hd S Kx h).2 P K' hP h3
  exact hg

/-- An unstable system without state cost. -/
def exBlind : LQR 1 1 ℝ := ⟨!![2], !![1], !![0], !![1], !![0]⟩

theorem exBlind_convex : exBlind.Convex := by
  have hz : IsPSD (!![0] : Matrix (Fin 1) (Fin 1) ℝ) := ⟨by ext i j; fin_cases i; fin_cases j; rfl, fun x => by
    simp [dotProduct, mulVec]⟩
  refine ⟨⟨by ext i j; fin_cases i; fin_cases j; rfl, fun x hx => ?_⟩, hz, hz⟩
  have h0 : x 0 ≠ 0 := fun h => hx (by ext i; fin_cases i; exact h)
  have : 0 < x 0 * x 0 := mul_self_pos.2 h0
  simpa [exBlind, dotProduct, mulVec] using this

/-- C79: the iterations and the Riccati solver disagree on a system without state cost: the iterations keep `S = 0` and
`K = 0`, whose closed loop diverges; the stabilising solution is `S = 3` with `K = 3/2`, and `lqrDare` returns it. -/
theorem C79_disagree : exBlind.Convex ∧ exBlind.Stabilisable ∧ exBlind.Limit 0 0 ∧
    (∀ k, exBlind.lqrIter (k + 1) = .ok (some 0, 0)) ∧ (∀ k, exBlind.lqrDouble k = .ok (0, 0)) ∧
    (∀ are : DareSolver 1 1 ℝ, are.Stabilising exBlind → exBlind.lqrDare are = .ok (!![3 / 2], !![3])) ∧
    ∃ are : DareSolver 1 1 ℝ, are.Stabilising exBlind := by
  have hc := exBlind_convex
  have hX : exBlind.X = 0 := by ext i j; fin_cases i; fin_cases j; rfl
  have hK0 : exBlind.ricK 0 = 0 := by unfold LQR.ricK; simp
  have hit : ∀ k, exBlind.iterS k = 0 := by
    intro k
    induction k with
    | zero => exact hX
    | succ k ih => rw [iterS_succ, ih, ric_zero, hX]
  have hpow : ∀ (a : ℝ) (k : ℕ), (!![a] : Matrix (Fin 1) (Fin 1) ℝ) ^ k = !![a ^ k] := by
    intro a k
    induction k with
    | zero => ext i j; fin_cases i; fin_cases j; simp
    | succ k ih => rw [pow_succ, ih, pow_succ]; ext i j; fin_cases i; fin_cases j; simp [Matrix.mul_apply]
  have hcl : exBlind.F - exBlind.L * !![(3 / 2 : ℝ)] = !![1 / 2] := by
    ext i j; fin_cases i; fin_cases j; simp [exBlind, Matrix.mul_apply]; norm_num
  have ht : Tendsto (fun k => (exBlind.F - exBlind.L * !![(3 / 2 : ℝ)]) ^ k) atTop (𝓝 0) := by
    rw [hcl]
    simp only [hpow]
    refine tendsto_pi_nhds.2 fun i => tendsto_pi_nhds.2 fun j => ?_
    fin_cases i; fin_cases j
    exact tendsto_pow_atTop_nhds_zero_of_lt_one (by norm_num) (by norm_num)
  have hst : exBlind.Stationary !![3] !![3 / 2] := by
    constructor
    · ext i j; fin_cases i; fin_cases j; simp [exBlind, Matrix.mul_apply]; norm_num
    · ext i j; fin_cases i; fin_cases j; simp [exBlind, Matrix.mul_apply]; norm_num
  have hsy : (!![3] : Matrix (Fin 1) (Fin 1) ℝ)ᵀ = !![3] := by ext i j; fin_cases i; fin_cases j; rfl
  have hiter : ∀ k, exBlind.lqrIter (k + 1) = .ok (some 0, 0) := by
    intro k; rw [lqrIter_ric hc, hit, hit, hK0]
  have hlim : exBlind.Limit 0 0 := ⟨fun _ => 0, fun _ => 0, hiter, tendsto_const_nhds, tendsto_const_nhds⟩
  refine ⟨hc, ⟨_, ht⟩, hlim, hiter, fun k => ?_, fun are ha => ?_, ⟨fun _ _ _ _ => .ok !![3], _, _, rfl, hsy, hst, ht⟩⟩
  · obtain ⟨Kd, S, o, S', e1, e2, e3, -⟩ := C27_convex exBlind hc k
    have hS := lqrIter_snd hc e2
    rw [hit] at hS
    have hp : 2 ^ k = (2 ^ k - 1) + 1 := (Nat.sub_add_cancel Nat.one_le_two_pow).symm
    rw [hp, hiter] at e3
    simp only [Except.ok.injEq, Prod.mk.injEq, Option.some.injEq] at e3
    rw [e1, hS, ← e3.1]
  · obtain ⟨P, K', h1, h2, h3, h4⟩ := ha
    have hP := stabilising_psd hc h2 h3 h4
    obtain ⟨e1, e2⟩ := h3
    have a1 := congrFun (congrFun e1 0) 0
    have a2 := congrFun (congrFun e2 0) 0
    simp [exBlind, Matrix.mul_apply] at a1 a2
    have h0 := (hP.2 (fun _ => 1))
    simp [dotProduct, mulVec] at h0
    have hPne : P 0 0 ≠ 0 := by
      intro hz
      rw [hz] at a1
      have hk : K' 0 0 = 0 := by linarith
      have hcl' : exBlind.F - exBlind.L * K' = !![2] := by
        ext i j; fin_cases i; fin_cases j
        show exBlind.F 0 0 - (exBlind.L * K') 0 0 = 2
        rw [Matrix.mul_apply]
        simp [exBlind, hk]
      rw [hcl'] at h4
      simp only [hpow] at h4
      have := (tendsto_pi_nhds.1 ((tendsto_pi_nhds.1 h4) 0)) 0
      have h5 : ∀ k : ℕ, (1 : ℝ) ≤ 2 ^ k := fun k => one_le_pow₀ (by norm_num)
      have h6 := ge_of_tendsto' this h5
      norm_num at h6
    have hK : K' 0 0 = 3 / 2 := by
      have : P 0 0 * (K' 0 0 - 3 / 2) = 0 := by linear_combination (1 / 2) * a2
      rcases mul_eq_zero.1 this with h | h
      · exact absurd h hPne
      · linarith
    rw [hK] at a1
    have hP3 : P = !![3] := by ext i j; fin_cases i; fin_cases j; show P 0 0 = 3; linarith
    subst hP3
    unfold LQR.lqrDare
    rw [h1]
    show (exBlind.gain !![3] >>= fun Kx => _) = _
    rw [gain_psd hc.1.1 hc.1.2 hP, (stationary_ric hc hP hst).2]
    rfl

/-- The double integrator of C27 over the reals. -/
def exStatInt : LQR 2 1 ℝ := ⟨!![1, 1; 0, 1], !![0; 1], !![2, 1; 1, 1], !![3], !![1, 0; 0, 4]⟩

theorem exStatInt_convex : exStatInt.Convex := by
  refine ⟨⟨?_, ?_⟩, ⟨?_, ?_⟩, ⟨?_, ?_⟩⟩
  · ext i j; fin_cases i; fin_cases j; rfl
  · intro x hx
    have h0 : x 0 ≠ 0 := fun h => hx (by ext i; fin_cases i; exact h)
    have : 0 < x 0 * x 0 := mul_self_pos.2 h0
    simp [exStatInt, dotProduct, mulVec, Fin.sum_univ_succ]
    linarith
  · ext i j; fin_cases i <;> fin_cases j <;> rfl
  · intro x
    have e : x ⬝ᵥ exStatInt.X *ᵥ x = x 0 ^ 2 + (x 0 + x 1) ^ 2 := by
      simp [exStatInt, dotProduct, mulVec, Fin.sum_univ_succ]; ring
    rw [e]; positivity
  · ext i j; fin_cases i <;> fin_cases j <;> rfl
  · intro x
    have e : x ⬝ᵥ exStatInt.XT *ᵥ x = x 0 ^ 2 + 4 * x 1 ^ 2 := by
      simp [exStatInt, dotProduct, mulVec, Fin.sum_univ_succ]; ring
    rw [e]; positivity

/-- The double integrator is stabilisable: the gain `(1, 2)` reaches zero in two steps. -/
theorem exStatInt_stabilisable : exStatInt.Stabilisable := by
  refine ⟨!![1, 2], ?_⟩
  have h1 : exStatInt.F - exStatInt.L * (!![1, 2] : Matrix (Fin 1) (Fin 2) ℝ) = !![1, 1; -1, -1] := by
    ext i j; fin_cases i <;> fin_cases j <;> simp [exStatInt, Matrix.mul_apply] <;> norm_num
  have h2 : (exStatInt.F - exStatInt.L * (!![1, 2] : Matrix (Fin 1) (Fin 2) ℝ)) ^ 2 = 0 := by
    rw [h1, pow_two]
    ext i j; fin_cases i <;> fin_cases j <;> simp [Matrix.mul_apply, Fin.sum_univ_succ]
  refine tendsto_atTop_of_eventually_const (i₀ := 2) fun k hk => ?_
  obtain ⟨j, rfl⟩ := Nat.exists_eq_add_of_le hk
  rw [pow_add, h2, Matrix.zero_mul]

theorem exStatInt_pd : IsPD exStatInt.X := by
  intro x hx
  have e : x ⬝ᵥ exStatInt.X *ᵥ x = x 0 ^ 2 + (x 0 + x 1) ^ 2 := by
    simp [exStatInt, dotProduct, mulVec, Fin.sum_univ_succ]; ring
  rw [e]
  by_cases h0 : x 0 = 0
  · have h1 : x 1 ≠ 0 := fun h => hx (by ext i; fin_cases i; exacts [h0, h])
    rw [h0, zero_add, zero_pow two_ne_zero, zero_add]; positivity
  · positivity

example : ∃ S Kx, exStatInt.Limit S Kx ∧ Tendsto (fun k => (exStatInt.F - exStatInt.L * Kx) ^ k) atTop (𝓝 0) ∧
    ∃ a : ℝ, 0 < a ∧ a ≤ 1 ∧ IsPSD (exStatInt.X - a • S) := by
  obtain ⟨S, Kx, h⟩ := C79_stabilisable exStatInt exStatInt_convex exStatInt_stabilisable
  obtain ⟨hd, ha⟩ := C79_definite exStatInt exStatInt_convex 0 none exStatInt.X rfl exStatInt_pd
  exact ⟨S, Kx, h, (C79_stable exStatInt exStatInt_convex hd S Kx h).1, ha S (C79_riccati exStatInt exStatInt_convex S Kx h).1⟩

/-- A scalar system with a rational solution of the Riccati equation. -/
def exScal : LQR 1 1 ℚ := ⟨!![2], !![1], !![4], !![5], !![0]⟩

theorem exScal_convex : exScal.Convex := by
  have hq : ∀ (a : ℚ) (x : Fin 1 → ℚ), x ⬝ᵥ (!![a] : Matrix (Fin 1) (Fin 1) ℚ) *ᵥ x = a * (x 0 * x 0) := by
    intro a x; simp [dotProduct, mulVec]; ring
  refine ⟨⟨?_, fun x hx => ?_⟩, ⟨?_, fun x => ?_⟩, ⟨?_, fun x => ?_⟩⟩
  · ext i j; fin_cases i; fin_cases j; rfl
  · have h0 : x 0 ≠ 0 := fun h => hx (by ext i; fin_cases i; exact h)
    have : 0 < x 0 * x 0 := mul_self_pos.2 h0
    show 0 < x ⬝ᵥ (!![5] : Matrix (Fin 1) (Fin 1) ℚ) *ᵥ x
    rw [hq]; linarith
  · ext i j; fin_cases i; fin_cases j; rfl
  · show 0 ≤ x ⬝ᵥ (!![4] : Matrix (Fin 1) (Fin 1) ℚ) *ᵥ x
    rw [hq]; exact mul_nonneg (by norm_num) (mul_self_nonneg _)
  · ext i j; fin_cases i; fin_cases j; rfl
  · show 0 ≤ x ⬝ᵥ (!![0] : Matrix (Fin 1) (Fin 1) ℚ) *ᵥ x
    rw [hq, zero_mul]

theorem exScal_stationary : exScal.Stationary !![20] !![8 / 5] := by
  constructor
  · ext i j; fin_cases i; fin_cases j; simp [exScal, Matrix.mul_apply]; norm_num
  · ext i j; fin_cases i; fin_cases j; simp [exScal, Matrix.mul_apply]; norm_num

example : ∃ o S', exScal.lqrIter 9 = .ok (o, S') ∧
    IsPSD (S' - (1 - (1 - 1 / 5) ^ 10 : ℚ) • !![20]) ∧ IsPSD (!![20] - S') := by
  have hP : IsPSD (!![20] : Matrix (Fin 1) (Fin 1) ℚ) := ⟨by ext i j; fin_cases i; fin_cases j; rfl, fun x => by
    have : x ⬝ᵥ (!![20] : Matrix (Fin 1) (Fin 1) ℚ) *ᵥ x = 20 * (x 0 * x 0) := by simp [dotProduct, mulVec]; ring
    rw [this]; exact mul_nonneg (by norm_num) (mul_self_nonneg _)⟩
  obtain ⟨o, S', h, -⟩ := lqr_iter_total exScal_convex 9
  refine ⟨o, S', h, C79_rate exScal exScal_convex _ _ hP exScal_stationary (1 / 5) (by norm_num) (by norm_num) 0 none _ rfl
    ?_ 10 (by norm_num) o S' h⟩
  have : exScal.X - (1 / 5 : ℚ) • !![20] = 0 := by
    ext i j; fin_cases i; fin_cases j; simp [exScal]; norm_num
  rw [this]
  exact ⟨by simp, fun x => by simp⟩

end Verif
