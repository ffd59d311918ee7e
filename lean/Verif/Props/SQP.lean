import Verif.Proof.SQPLoop

/-! Properties C44-C47: sequential quadratic programming. -/

namespace Verif

open Matrix

variable {n m : ℕ} {K : Type} [Field K] [LinearOrder K]

/-! ### C44 -/

/-- C44 (solution): `lqe_solve` returns the solution of the KKT conditions, and exactly when the KKT matrix is
nonsingular. -/
theorem C44_kkt (G : Matrix (Fin n) (Fin n) K) (c : Fin n → K) (A : Matrix (Fin m) (Fin n) K) (b : Fin m → K)
    (x : Fin n → K) (lam : Fin m → K) :
    lqeSolve G c A b = .ok (x, lam) ↔
      (fromBlocks G (-Aᵀ) A 0).det ≠ 0 ∧ A *ᵥ x = b ∧ G *ᵥ x + c = Aᵀ *ᵥ lam :=
  lqeSolve_ok

/-- C44 (errors): a singular KKT matrix gives a result that is not finite; a nonsingular one gives a result. -/
theorem C44_errors (G : Matrix (Fin n) (Fin n) K) (c : Fin n → K) (A : Matrix (Fin m) (Fin n) K) (b : Fin m → K) :
    ((fromBlocks G (-Aᵀ) A 0).det = 0 → lqeSolve G c A b = .error .notFinite) ∧
    ((fromBlocks G (-Aᵀ) A 0).det ≠ 0 → ∃ r, lqeSolve G c A b = .ok r) :=
  ⟨fun h => lqeSolve_error h, fun h => lqeSolve_total h c b⟩

variable [IsStrictOrderedRing K]

/-- C44 (optimality): the returned point minimises the cost over the feasible points if and only if `G` is positive
semidefinite on the null space of `A`. -/
theorem C44_optimal (G : Matrix (Fin n) (Fin n) K) (hG : Gᵀ = G) (c : Fin n → K) (A : Matrix (Fin m) (Fin n) K)
    (b : Fin m → K) (x : Fin n → K) (lam : Fin m → K) (h : lqeSolve G c A b = .ok (x, lam)) :
    A *ᵥ x = b ∧
    ((∀ y, A *ᵥ y = b → (1 / 2 : K) * (x ⬝ᵥ G *ᵥ x) + c ⬝ᵥ x ≤ (1 / 2 : K) * (y ⬝ᵥ G *ᵥ y) + c ⬝ᵥ y) ↔
      ∀ z, A *ᵥ z = 0 → 0 ≤ z ⬝ᵥ G *ᵥ z) := by
  obtain ⟨-, h1, h2⟩ := lqeSolve_ok.1 h
  exact ⟨h1, qp_min_iff hG h1 h2⟩

/-- C44 (uniqueness): in that case it is the only minimiser. -/
theorem C44_unique (G : Matrix (Fin n) (Fin n) K) (hG : Gᵀ = G) (c : Fin n → K) (A : Matrix (Fin m) (Fin n) K)
    (b : Fin m → K) (x : Fin n → K) (lam : Fin m → K) (h : lqeSolve G c A b = .ok (x, lam))
    (hN : ∀ z, A *ᵥ z = 0 → 0 ≤ z ⬝ᵥ G *ᵥ z) (y : Fin n → K) (hy : A *ᵥ y = b)
    (hle : (1 / 2 : K) * (y ⬝ᵥ G *ᵥ y) + c ⬝ᵥ y ≤ (1 / 2 : K) * (x ⬝ᵥ G *ᵥ x) + c ⬝ᵥ x) : y = x := by
  obtain ⟨h0, h1, h2⟩ := lqeSolve_ok.1 h
  exact qp_unique hG h0 h1 h2 hN hy hle

/-- C44 (sufficient condition): a positive definite `G` and full row rank `A` give a nonsingular KKT matrix. -/
theorem C44_nonsingular (G : Matrix (Fin n) (Fin n) K) (hG : IsPD G) (A : Matrix (Fin m) (Fin n) K)
    (hA : ∀ l, Aᵀ *ᵥ l = 0 → l = 0) (c : Fin n → K) (b : Fin m → K) : ∃ r, lqeSolve G c A b = .ok r :=
  lqeSolve_total (kkt_det hG hA) c b

/-- An indefinite cost that is positive on the null space of the constraint: minimise `x₀²/2 - x₁²/2 + x₀` with `x₁ = 3`. -/
example : lqeSolve (!![1, 0; 0, -1] : Matrix _ _ ℚ) ![1, 0] (!![0, 1] : Matrix _ _ ℚ) ![3] = .ok (![-1, 3], ![-3]) ∧
    (∀ z : Fin 2 → ℚ, (!![0, 1] : Matrix (Fin 1) (Fin 2) ℚ) *ᵥ z = 0 →
      0 ≤ z ⬝ᵥ (!![1, 0; 0, -1] : Matrix _ _ ℚ) *ᵥ z) ∧
    ¬ IsPD (!![1, 0; 0, -1] : Matrix (Fin 2) (Fin 2) ℚ) := by
  refine ⟨(C44_kkt _ _ _ _ _ _).2 ⟨by decide +kernel, by decide +kernel, by decide +kernel⟩, ?_, ?_⟩
  · intro z hz
    have h : z 1 = 0 := by simpa [mulVec, dotProduct, Fin.sum_univ_two] using congrFun hz 0
    simp [mulVec, dotProduct, Fin.sum_univ_two, h, mul_self_nonneg]
  · intro h
    have := h ![0, 1] (by decide)
    revert this
    decide +kernel

/-- A singular KKT matrix: no unique solution. -/
example : lqeSolve (0 : Matrix (Fin 2) (Fin 2) ℚ) ![1, 0] (!![0, 1] : Matrix _ _ ℚ) ![3] = .error .notFinite :=
  (C44_errors _ _ _ _).1 (by decide +kernel)

/-! ### C45 -/

/-- C45 (basic update): for a symmetric positive definite `B` the update is symmetric positive definite, satisfies the
secant equation when `s · y > 0` and is skipped otherwise. -/
theorem C45_basic (B : Matrix (Fin n) (Fin n) K) (hB : Bᵀ = B) (hP : IsPD B) (s y : Fin n → K) :
    ∃ B', bfgsBasicUpdate B s y = .ok B' ∧ B'ᵀ = B' ∧ IsPD B' ∧ (0 < s ⬝ᵥ y → B' *ᵥ s = y) ∧ (s ⬝ᵥ y ≤ 0 → B' = B) := by
  by_cases hs : 0 < s ⬝ᵥ y
  · have hs0 : s ≠ 0 := by rintro rfl; simp at hs
    exact ⟨_, basic_ok hP hs, bfgs_symm hB _ _ _ _, bfgs_pd hB hP hs, fun _ => bfgs_secant B hs.ne' (hP s hs0).ne',
      fun h => absurd hs (not_lt.2 h)⟩
  · refine ⟨B, ?_, hB, hP, fun h => absurd h hs, fun _ => rfl⟩
    unfold bfgsBasicUpdate
    dsimp only
    rw [if_neg hs]

/-- C45 (damped update): for a symmetric positive definite `B` and `s ≠ 0` the update is symmetric positive definite for
every `y` and satisfies the secant equation for a `y'` between `B s` and `y` with `s · y' ≥ 0.2 s · B s`; `y' = y` unless `y`
violates this bound, and then it holds with equality. -/
theorem C45_damped (B : Matrix (Fin n) (Fin n) K) (hB : Bᵀ = B) (hP : IsPD B) (s y : Fin n → K) (hs : s ≠ 0) :
    ∃ (B' : Matrix (Fin n) (Fin n) K) (y' : Fin n → K) (θ : K), bfgsDampedUpdate B s y = .ok B' ∧ B'ᵀ = B' ∧ IsPD B' ∧ B' *ᵥ s = y' ∧ 0 ≤ θ ∧ θ ≤ 1 ∧
      y' = θ • y + (1 - θ) • B *ᵥ s ∧ 2 / 10 * (s ⬝ᵥ B *ᵥ s) ≤ s ⬝ᵥ y' ∧
      (2 / 10 * (s ⬝ᵥ B *ᵥ s) ≤ s ⬝ᵥ y → y' = y) ∧
      (s ⬝ᵥ y < 2 / 10 * (s ⬝ᵥ B *ᵥ s) → s ⬝ᵥ y' = 2 / 10 * (s ⬝ᵥ B *ᵥ s)) := by
  obtain ⟨y', θ, -, h0, h1, h2, h3, h4⟩ := damped_ok hP hs y
  have hp := damped_pos hP hs h3
  refine ⟨_, y', θ, h4, bfgs_symm hB _ _ _ _, bfgs_pd hB hP hp.2, bfgs_secant B hp.2.ne' (hP s hs).ne', h0, h1, h2, hp.1,
    fun h => ?_, fun h => ?_⟩
  · rwa [if_pos h] at h3
  · rwa [if_neg (not_le.2 h)] at h3

/-- C45 (zero step): the damped update divides zero by zero for `s = 0`. -/
theorem C45_zero (B : Matrix (Fin n) (Fin n) K) (y : Fin n → K) : bfgsDampedUpdate B 0 y = .error .notFinite :=
  damped_zero B y

/-- C45 (all iterations): in `bfgs_eq_bt` every finite Hessian approximation is symmetric and positive definite. -/
theorem C45_run (P : NLP n m K) (norm : (Fin n → K) → K) (mb : ℕ) (damped : Bool) (x0 : Fin n → K) (ss : ℕ → BfgsState n m K)
    (h0 : ss 0 = ⟨x0, .ok 1, 0, 1⟩) (k : ℕ) (hss : ∀ j < k, P.bfgsStep norm mb damped (ss j) = .ok (ss (j + 1))) :
    ∀ B, (ss k).B = .ok B → Bᵀ = B ∧ IsPD B := by
  induction k with
  | zero =>
    intro B hB
    rw [h0] at hB
    cases hB
    exact one_pd
  | succ k ih => exact bfgsStep_pd (hss k (Nat.lt_succ_self k)) (ih fun j hj => hss j (Nat.lt_succ_of_lt hj))

/-- Negative curvature: the basic update is skipped, the damped one changes `B` and stays positive definite. -/
example : bfgsBasicUpdate (1 : Matrix (Fin 2) (Fin 2) ℚ) ![1, 0] ![-1, 1] = .ok 1 ∧
    bfgsDampedUpdate (1 : Matrix (Fin 2) (Fin 2) ℚ) ![1, 0] ![-1, 1] = .ok !![1 / 5, 2 / 5; 2 / 5, 9 / 5] := by
  have h (b : Matrix (Fin 2) (Fin 2) ℚ) (r : Py (Matrix (Fin 2) (Fin 2) ℚ))
      (h : (match r with | .ok x => decide (x = b) | .error _ => false) = true) : r = .ok b := by
    cases r with
    | error e => simp at h
    | ok x => rw [of_decide_eq_true h]
  exact ⟨h _ _ (by decide +kernel), h _ _ (by decide +kernel)⟩

/-! ### C46 -/

omit [IsStrictOrderedRing K] in
/-- C46 (line search): the step is the first of `1, 1/2, 1/4, ...` that does not increase the merit function, if this
happens before `max_backtrack` halvings; otherwise it is the full step, and all steps tried before increase the merit
function. -/
theorem C46_search (P : NLP n m K) (mu : K) (x p : Fin n → K) (mb : ℕ) :
    (∃ i < mb, P.lineSearch mu x p mb = (1 / 2 : K) ^ i ∧
      P.obj (x + (1 / 2 : K) ^ i • p) + (∑ j, |P.con (x + (1 / 2 : K) ^ i • p) j|) / mu ≤ P.obj x + (∑ j, |P.con x j|) / mu ∧
      ∀ l < i, P.obj x + (∑ j, |P.con x j|) / mu <
        P.obj (x + (1 / 2 : K) ^ l • p) + (∑ j, |P.con (x + (1 / 2 : K) ^ l • p) j|) / mu) ∨
    (P.lineSearch mu x p mb = 1 ∧ ∀ l < mb, P.obj x + (∑ j, |P.con x j|) / mu <
        P.obj (x + (1 / 2 : K) ^ l • p) + (∑ j, |P.con (x + (1 / 2 : K) ^ l • p) j|) / mu) :=
  lineSearch_spec P mu x p mb

/-- C46 (leap of faith): a step that is accepted after exactly `max_backtrack` halvings is still replaced by the full step:
here the full step increases the merit function from `1` to `4`, the halved one decreases it. -/
theorem C46_leap : ∃ P : NLP 1 1 ℚ, ∃ x p : Fin 1 → ℚ, P.lineSearch 1 x p 1 = 1 ∧ P.merit x 1 < P.merit (x + (1 : ℚ) • p) 1 ∧
    P.merit (x + (1 / 2 : ℚ) • p) 1 < P.merit x 1 :=
  ⟨⟨fun x => x 0 ^ 2, 0, fun x => ![2 * x 0], 0, fun _ => !![2], 0⟩, ![1], ![-3], by decide +kernel, by decide +kernel,
    by decide +kernel⟩

omit [IsStrictOrderedRing K] in
/-- C46 (loop): `bfgs_eq_bt` does at most `max_iter` iterations and stops earlier only with `crit ≤ tol`; each iteration
moves along a direction that solves the linearised constraint and either does not increase the merit function or takes
the full step when `max_backtrack` step lengths increase it; `crit` belongs to the last point. -/
theorem C46_loop (P : NLP n m K) (norm : (Fin n → K) → K) (x0 : Fin n → K) (max_iter : ℕ) (tol : K) (mb : ℕ) (damped : Bool)
    (x : Fin n → K) (iter : ℕ) (crit : K) (h : P.bfgsEqBt norm x0 max_iter tol mb damped = .ok (x, iter, crit)) :
    iter ≤ max_iter ∧ (iter < max_iter → crit ≤ tol) ∧
    ∃ (xs : ℕ → Fin n → K) (lams : ℕ → Fin m → K), xs 0 = x0 ∧ xs iter = x ∧
      (iter ≠ 0 → crit = norm (P.dfun x - (P.dcon x)ᵀ *ᵥ lams iter)) ∧
      ∀ k < iter, ∃ p, P.dcon (xs k) *ᵥ p = -P.con (xs k) ∧
        ((∃ i < mb, xs (k + 1) = xs k + (1 / 2 : K) ^ i • p ∧
            P.obj (xs (k + 1)) + ∑ j, |P.con (xs (k + 1)) j| ≤ P.obj (xs k) + ∑ j, |P.con (xs k) j|) ∨
          (xs (k + 1) = xs k + p ∧ ∀ l < mb, P.obj (xs k) + ∑ j, |P.con (xs k) j| <
            P.obj (xs k + (1 / 2 : K) ^ l • p) + ∑ j, |P.con (xs k + (1 / 2 : K) ^ l • p) j|)) := by
  unfold NLP.bfgsEqBt at h
  cases hl : P.bfgsLoop norm tol mb damped max_iter ⟨x0, .ok 1, 0, 1⟩ 0 with
  | error e => rw [hl] at h; cases h
  | ok r =>
    obtain ⟨st', it⟩ := r
    rw [hl] at h
    cases h
    obtain ⟨k, hk, h1, h2, ss, h3, h4, h5⟩ := bfgsLoop_spec P norm tol mb damped _ _ _ _ _ hl
    rw [zero_add] at h1
    subst h1
    refine ⟨hk, h2, fun j => (ss j).x, fun j => (ss j).lam, by dsimp only; rw [h3], by dsimp only; rw [h4], ?_, ?_⟩
    · intro h0
      obtain ⟨j, rfl⟩ : ∃ j, it = j + 1 := ⟨it - 1, by omega⟩
      obtain ⟨-, h6⟩ := h5 j (by omega)
      obtain ⟨B, p, hlam, -, -, alf, -, -, -, -, h7⟩ := bfgsStep_ok.1 h6
      rw [h4] at h7
      dsimp only
      rw [h4]
      exact h7
    · intro j hj
      obtain ⟨-, h6⟩ := h5 j hj
      obtain ⟨B, p, hlam, hB, hq, alf, ha, hx, -, -, -⟩ := bfgsStep_ok.1 h6
      obtain ⟨-, h7, -⟩ := lqeSolve_ok.1 hq
      refine ⟨p, h7, ?_⟩
      have hm : ∀ z, P.merit z 1 = P.obj z + ∑ j, |P.con z j| := fun z => by simp [NLP.merit]
      rcases lineSearch_spec P 1 (ss j).x p mb with ⟨i, hi, h8, h9, -⟩ | ⟨h8, h9⟩
      · left
        rw [ha, h8] at hx
        refine ⟨i, hi, hx, ?_⟩
        dsimp only
        rw [hx, ← hm, ← hm]; exact h9
      · right
        rw [ha, h8, one_smul] at hx
        refine ⟨hx, fun l hl => ?_⟩
        rw [← hm, ← hm]; exact h9 l hl

/-- C46 (completes): if the constraint Jacobian has full row rank everywhere and `tol ≥ 0`, no intermediate result of
`bfgs_eq_bt` that is needed is infinite or undefined. -/
theorem C46_completes (P : NLP n m K) (norm : (Fin n → K) → K) (hn : norm 0 = 0)
    (hA : ∀ x l, (P.dcon x)ᵀ *ᵥ l = 0 → l = 0) (x0 : Fin n → K) (max_iter : ℕ) (tol : K) (ht : 0 ≤ tol) (mb : ℕ)
    (damped : Bool) : ∃ r, P.bfgsEqBt norm x0 max_iter tol mb damped = .ok r := by
  obtain ⟨r, hr⟩ := bfgsLoop_total P norm hn tol ht mb damped hA max_iter ⟨x0, .ok 1, 0, 1⟩ 0
    (Or.inl ⟨1, rfl, one_pd.1, one_pd.2⟩)
  unfold NLP.bfgsEqBt
  rw [hr]
  exact ⟨_, rfl⟩

/-- Minimise `x₀² + x₁⁴` on the line `x₀ + x₁ = 1`. -/
def exNLP : NLP 2 1 ℚ where
  obj := fun x => x 0 ^ 2 + x 1 ^ 4
  con := fun x => ![x 0 + x 1 - 1]
  dfun := fun x => ![2 * x 0, 4 * x 1 ^ 3]
  dcon := fun _ => !![1, 1]
  hfun := fun x => !![2, 0; 0, 12 * x 1 ^ 2]
  hcon := 0

example (max_iter mb : ℕ) (damped : Bool) :
    ∃ r, exNLP.bfgsEqBt (fun v => |v 0| + |v 1|) ![3, 2] max_iter (1 / 100) mb damped = .ok r := by
  apply C46_completes _ _ (by simp) _ _ _ _ (by norm_num)
  intro x l hl
  ext i
  have := congrFun hl 0
  fin_cases i
  simpa [exNLP, mulVec, dotProduct] using this

/-! ### C47 -/

omit [IsStrictOrderedRing K] in
/-- C47 (loop): `local_eq` returns the result of `local_eq_fast` with the number of iterations done; it does at most
`max_iter` iterations, stops earlier only with `crit ≤ tol`, and goes on as long as `crit > tol`. -/
theorem C47_loop (P : NLP n m K) (norm : (Fin n → K) → K) (x0 : Fin n → K) (max_iter : ℕ) (tol : K) (x : Fin n → K)
    (iter : ℕ) (crit : K) (h : P.localEq norm x0 max_iter tol = .ok (x, iter, crit)) :
    iter ≤ max_iter ∧ (iter < max_iter → crit ≤ tol) ∧ P.localEqFast norm x0 iter = .ok (x, iter, crit) ∧
      ∀ j < iter, ∀ r, P.localEqFast norm x0 j = .ok r → tol < r.2.2 := by
  unfold NLP.localEq at h
  cases hl : P.localLoop norm tol max_iter x0 0 0 1 with
  | error e => rw [hl] at h; cases h
  | ok r =>
    obtain ⟨x', lam', it, c'⟩ := r
    rw [hl] at h
    cases h
    obtain ⟨k, hk, h1, h2, h3, h4⟩ := localLoop_spec P norm tol _ _ _ _ _ _ _ _ _ hl
    rw [zero_add] at h1
    subst h1
    refine ⟨hk, h3, ?_, ?_⟩
    · unfold NLP.localEqFast
      rw [h2]; rfl
    · intro j hj r hr
      unfold NLP.localEqFast at hr
      cases hf : P.localFastLoop norm j (x0, 0, 1) with
      | error e => rw [hf] at hr; cases hr
      | ok st =>
        rw [hf] at hr
        cases hr
        exact h4 j hj st hf

omit [IsStrictOrderedRing K] in
/-- C47 (TensorFlow): `local_eq_fast` of the TensorFlow code returns the results of the numpy code for `1, 2, ...,
num_iter` iterations. -/
theorem C47_tf (P : NLP n m K) (norm : (Fin n → K) → K) (x0 : Fin n → K) (num_iter : ℕ) :
    (∀ xs lams crits, P.localEqFastTF norm x0 num_iter = .ok (xs, lams, crits) →
      xs.length = num_iter ∧ crits.length = num_iter ∧
      ∀ j (hj : j < xs.length) (hj' : j < crits.length), P.localEqFast norm x0 (j + 1) = .ok (xs[j], j + 1, crits[j])) ∧
    (∀ e, P.localEqFastTF norm x0 num_iter = .error e ↔ P.localEqFast norm x0 num_iter = .error e) := by
  constructor
  · intro xs lams crits h
    unfold NLP.localEqFastTF at h
    cases hl : P.localFastScanTF norm num_iter (x0, 0, 1) with
    | error e => rw [hl] at h; cases h
    | ok l =>
      rw [hl] at h
      cases h
      obtain ⟨h1, h2⟩ := scanTF_spec P norm _ _ _ hl
      refine ⟨by simp [h1], by simp [h1], ?_⟩
      intro j hj hj'
      have := h2 j (by simpa using hj)
      unfold NLP.localEqFast
      rw [this]
      simp [bind, Except.bind, pure, Except.pure]
  · intro e
    have := scanTF_error P norm num_iter (x0, 0, 1) e
    unfold NLP.localEqFastTF NLP.localEqFast
    cases hl : P.localFastScanTF norm num_iter (x0, 0, 1) with
    | error e' =>
      rw [hl] at this
      rw [((scanTF_error P norm num_iter (x0, 0, 1) e').1 hl)]
      simp [bind, Except.bind]
    | ok l =>
      cases hf : P.localFastLoop norm num_iter (x0, 0, 1) with
      | error e' =>
        rw [(scanTF_error P norm num_iter (x0, 0, 1) e').2 hf] at hl
        cases hl
      | ok r => simp [bind, Except.bind, pure, Except.pure]

omit [IsStrictOrderedRing K] in
/-- C47 (Newton): one iteration is a Newton step for the equations `∇f - (∇c)ᵀ λ = 0`, `c = 0`, with the curvature of the
constraints. -/
theorem C47_newton (P : NLP n m K) (norm : (Fin n → K) → K) (x : Fin n → K) (lam : Fin m → K) (x' : Fin n → K)
    (lam' : Fin m → K) (crit : K) (h : P.localStep norm x lam = .ok (x', lam', crit)) :
    P.hfun x *ᵥ (x' - x) - (∑ i, lam i • P.hcon x i *ᵥ (x' - x)) - (P.dcon x)ᵀ *ᵥ (lam' - lam) =
      -(P.dfun x - (P.dcon x)ᵀ *ᵥ lam) ∧
    P.dcon x *ᵥ (x' - x) = -P.con x ∧ crit = norm (P.dfun x - (P.dcon x)ᵀ *ᵥ lam) := by
  obtain ⟨p, hlam, h1, h2⟩ := sqpStep_ok.1 h
  cases h2
  obtain ⟨-, h3, h4⟩ := lqeSolve_ok.1 h1
  refine ⟨?_, by simpa using h3, rfl⟩
  have e : P.hfun x *ᵥ p - ∑ i, lam i • P.hcon x i *ᵥ p = P.hlag x lam *ᵥ p := by
    unfold NLP.hlag
    rw [sub_mulVec, sum_mulVec]
    simp only [smul_mulVec]
  rw [add_sub_cancel_left, mulVec_sub, ← h4, e]
  abel

omit [IsStrictOrderedRing K] in
/-- C47 (fixed points): an iteration does not move `x` exactly when `x` satisfies the KKT conditions with the new
multiplier. -/
theorem C47_fixed (P : NLP n m K) (norm : (Fin n → K) → K) (x : Fin n → K) (lam : Fin m → K) (x' : Fin n → K)
    (lam' : Fin m → K) (crit : K) (h : P.localStep norm x lam = .ok (x', lam', crit)) :
    x' = x ↔ P.con x = 0 ∧ ∃ mu, P.dfun x = (P.dcon x)ᵀ *ᵥ mu := by
  obtain ⟨p, hlam, h1, h2⟩ := sqpStep_ok.1 h
  cases h2
  constructor
  · intro hx
    have hp : p = 0 := by simpa using hx
    subst hp
    obtain ⟨-, h3, h4⟩ := lqeSolve_ok.1 h1
    dsimp only at h3 h4
    rw [mulVec_zero] at h3
    rw [mulVec_zero, zero_add] at h4
    exact ⟨by rw [← neg_eq_zero, ← h3], lam', h4⟩
  · rintro ⟨hc, mu, hmu⟩
    have h5 : lqeSolve (P.hlag x lam) (P.dfun x) (P.dcon x) (-P.con x) = .ok (0, mu) := by
      refine lqeSolve_ok.2 ⟨(lqeSolve_ok.1 h1).1, ?_, ?_⟩
      · rw [hc]; simp
      · simpa using hmu
    rw [h1] at h5
    cases h5
    simp

/-- C47 (quadratic problems): for a quadratic cost with affine constraints and a nonsingular KKT matrix `local_eq` returns
the KKT point after one or two iterations, for every starting point. -/
theorem C47_qp (P : NLP n m K) (G : Matrix (Fin n) (Fin n) K) (c : Fin n → K) (A : Matrix (Fin m) (Fin n) K) (b : Fin m → K)
    (hf : ∀ x, P.dfun x = G *ᵥ x + c) (hh : ∀ x, P.hfun x = G) (hc : ∀ x, P.con x = A *ᵥ x - b) (hd : ∀ x, P.dcon x = A)
    (hh' : ∀ x i, P.hcon x i = 0) (hK : (fromBlocks G (-Aᵀ) A 0).det ≠ 0) (norm : (Fin n → K) → K) (hn : norm 0 = 0)
    (x0 : Fin n → K) (max_iter : ℕ) (hm : max_iter ≠ 0) (tol : K) (ht : 0 ≤ tol) (ht1 : tol < 1) :
    ∃ x lam iter crit, P.localEq norm x0 max_iter tol = .ok (x, iter, crit) ∧ A *ᵥ x = b ∧ G *ᵥ x + c = Aᵀ *ᵥ lam ∧
      1 ≤ iter ∧ iter ≤ 2 := by
  obtain ⟨⟨xs, ls⟩, hr⟩ := lqeSolve_total hK c b
  obtain ⟨-, h1, h2⟩ := lqeSolve_ok.1 hr
  dsimp only at h1 h2
  have hstep : ∀ x lam, P.localStep norm x lam = .ok (xs, ls, norm (P.dlag x lam)) := by
    intro x lam
    refine sqpStep_ok.2 ⟨xs - x, ls, lqeSolve_ok.2 ⟨?_, ?_, ?_⟩, by simp⟩
    · simp only [NLP.hlag, hh, hh', hd, smul_zero, Finset.sum_const_zero, sub_zero]; exact hK
    · dsimp only; rw [hd, hc, mulVec_sub, h1]; abel
    · dsimp only
      simp only [NLP.hlag, hh, hh', hd, hf, smul_zero, Finset.sum_const_zero, sub_zero]
      rw [mulVec_sub, ← h2]; abel
  have h0 : norm (P.dlag xs ls) = 0 := by
    unfold NLP.dlag
    rw [hf, hd, h2, sub_self, hn]
  obtain ⟨k, rfl⟩ : ∃ k, max_iter = k + 1 := ⟨max_iter - 1, by omega⟩
  have hl : ∃ iter crit, P.localLoop norm tol (k + 1) x0 0 0 1 = .ok (xs, ls, iter, crit) ∧ 1 ≤ iter ∧ iter ≤ 2 := by
    unfold NLP.localLoop
    rw [if_pos ht1, hstep]
    simp only [bind, Except.bind]
    cases k with
    | zero => exact ⟨1, _, rfl, le_refl _, by norm_num⟩
    | succ k =>
      unfold NLP.localLoop
      split_ifs with hc'
      · rw [hstep, h0]
        simp only [bind, Except.bind]
        refine ⟨2, 0, ?_, by norm_num, le_refl _⟩
        cases k with
        | zero => rfl
        | succ k =>
          unfold NLP.localLoop
          rw [if_neg (not_lt.2 ht)]
      · exact ⟨1, _, rfl, le_refl _, by norm_num⟩
  obtain ⟨iter, crit, hl, h3, h4⟩ := hl
  refine ⟨xs, ls, iter, crit, ?_, h1, h2, h3, h4⟩
  unfold NLP.localEq
  rw [hl]; rfl

/-- The problem of the example for C44 as a nonlinear program. -/
def exQP : NLP 2 1 ℚ where
  obj := fun x => x 0 ^ 2 / 2 - x 1 ^ 2 / 2 + x 0
  con := fun x => ![x 1 - 3]
  dfun := fun x => ![x 0 + 1, -x 1]
  dcon := fun _ => !![0, 1]
  hfun := fun _ => !![1, 0; 0, -1]
  hcon := 0

example (x0 : Fin 2 → ℚ) : ∃ x lam iter crit, exQP.localEq (fun v => |v 0| + |v 1|) x0 100 (1 / 1000000) = .ok (x, iter, crit) ∧
    (!![0, 1] : Matrix (Fin 1) (Fin 2) ℚ) *ᵥ x = ![3] ∧
    (!![1, 0; 0, -1] : Matrix (Fin 2) (Fin 2) ℚ) *ᵥ x + ![1, 0] = (!![0, 1] : Matrix (Fin 1) (Fin 2) ℚ)ᵀ *ᵥ lam ∧
    1 ≤ iter ∧ iter ≤ 2 := by
  apply C47_qp
  · intro x; ext i; fin_cases i <;> simp [exQP, mulVec, dotProduct]
  · intro x; rfl
  · intro x; ext i; fin_cases i; simp [exQP, mulVec, dotProduct]
  · intro x; rfl
  · intro x i; rfl
  · decide +kernel
  · simp
  · decide
  · norm_num
  · norm_num

/-- C47 (criterion): `crit ≤ tol` does not certify the returned point: for every tolerance and every bound there is a
problem with `crit = 0` where the constraint is violated by more than the bound. -/
theorem C47_criterion (norm : (Fin 1 → K) → K) (hn : norm 0 = 0) (tol : K) (ht : 0 ≤ tol) (ht1 : tol < 1) (max_iter : ℕ)
    (hm : max_iter ≠ 0) (bound : K) :
    ∃ (P : NLP 1 1 K) (x0 x : Fin 1 → K) (iter : ℕ), P.localEq norm x0 max_iter tol = .ok (x, iter, 0) ∧
      (∀ y, P.obj y = 0) ∧ (∃ a, ∀ y, P.con y = ![y 0 ^ 2 - a] ∧ P.dcon y = !![2 * y 0]) ∧ bound < |P.con x 0| := by
  obtain ⟨a, ha⟩ : ∃ a : K, a = 4 * |bound| + 5 := ⟨_, rfl⟩
  let P : NLP 1 1 K := ⟨fun _ => 0, fun y => ![y 0 ^ 2 - a], fun _ => 0, fun y => !![2 * y 0], fun _ => 0, fun _ _ => !![2]⟩
  refine ⟨P, ![1], ![(a + 1) / 2], 1, ?_, fun _ => rfl, ⟨a, fun y => ⟨rfl, rfl⟩⟩, ?_⟩
  · have hstep : P.localStep norm ![1] 0 = .ok (![(a + 1) / 2], 0, 0) := by
      refine sqpStep_ok.2 ⟨![(a - 1) / 2], 0, lqeSolve_ok.2 ⟨?_, ?_, ?_⟩, ?_⟩
      · apply det_ne_zero_of_inj
        intro x hx
        have e : x = Sum.elim (fun i => x (Sum.inl i)) (fun i => x (Sum.inr i)) := by ext (i | i) <;> rfl
        rw [e, kkt_mulVec] at hx
        have h1 := congrFun hx (Sum.inl 0)
        have h2 := congrFun hx (Sum.inr 0)
        simp [P, NLP.hlag, mulVec, dotProduct] at h1 h2
        ext (i | i) <;> fin_cases i
        · exact h2
        · exact h1
      · ext i; fin_cases i; simp [P, mulVec, dotProduct]; ring
      · ext i; fin_cases i; simp [P, NLP.hlag]
      · have : P.dlag ![1] 0 = 0 := by simp [NLP.dlag, P]
        rw [this, hn]
        congr 1
        ext i; fin_cases i
        simp
        ring
    obtain ⟨k, rfl⟩ : ∃ k, max_iter = k + 1 := ⟨max_iter - 1, by omega⟩
    unfold NLP.localEq
    have hl : P.localLoop norm tol (k + 1) ![1] 0 0 1 = .ok (![(a + 1) / 2], 0, 1, 0) := by
      unfold NLP.localLoop
      rw [if_pos ht1, hstep]
      simp only [bind, Except.bind]
      cases k with
      | zero => rfl
      | succ k =>
        unfold NLP.localLoop
        rw [if_neg (not_lt.2 ht)]
    rw [hl]; rfl
  · have h1 : P.con ![(a + 1) / 2] 0 = ((a - 1) / 2) ^ 2 := by
      simp [P]; ring
    rw [h1, abs_of_nonneg (sq_nonneg _), ha]
    have := abs_nonneg bound
    have := le_abs_self bound
    nlinarith

end Verif
