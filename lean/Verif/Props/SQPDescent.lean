import Verif.Proof.SQPDescent
import Verif.Props.SQP
import Mathlib.Analysis.Calculus.Deriv.Pow
import Mathlib.Analysis.Calculus.Deriv.Add
import Mathlib.Analysis.Calculus.Deriv.Mul

/-! Property C58: the search direction of `bfgs_eq_bt` and its merit function; C47: the residual of the KKT conditions. -/

namespace Verif

open Matrix Filter Topology

variable {n m : ℕ}

/-- C58 (slope): along the solution `p` of the quadratic program the merit function with `mu = 1` decreases at least with
slope `- p · B p`, if the multipliers are at most `1`. -/
theorem C58_slope (P : NLP n m ℝ) (B : Matrix (Fin n) (Fin n) ℝ) (x p : Fin n → ℝ) (lam : Fin m → ℝ)
    (h : lqeSolve B (P.dfun x) (P.dcon x) (-P.con x) = .ok (p, lam)) (hl : ∀ i, |lam i| ≤ 1) :
    P.dfun x ⬝ᵥ p - ∑ i, |P.con x i| ≤ -(p ⬝ᵥ B *ᵥ p) :=
  dir_slope h hl

/-- C58 (descent): for a positive definite `B`, differentiable functions and multipliers at most `1`, all sufficiently short
steps decrease the merit function. -/
theorem C58_descent (P : NLP n m ℝ) (B : Matrix (Fin n) (Fin n) ℝ) (hB : IsPD B) (x p : Fin n → ℝ) (lam : Fin m → ℝ)
    (h : lqeSolve B (P.dfun x) (P.dcon x) (-P.con x) = .ok (p, lam)) (hl : ∀ i, |lam i| ≤ 1) (hp : p ≠ 0)
    (hf : HasLineDerivAt ℝ P.obj (P.dfun x ⬝ᵥ p) x p)
    (hc : ∀ i, HasLineDerivAt ℝ (fun y => P.con y i) ((P.dcon x *ᵥ p) i) x p) :
    ∀ᶠ t in 𝓝[>] (0 : ℝ), P.obj (x + t • p) + ∑ i, |P.con (x + t • p) i| < P.obj x + ∑ i, |P.con x i| := by
  have := merit_decreases P x p (lqeSolve_ok.1 h).2.1 hf hc (lt_of_le_of_lt (dir_slope h hl) (neg_neg_of_pos (hB p hp)))
  simpa [NLP.merit] using this

/-- C58 (search): in that case, with a sufficient number of halvings the line search accepts a step that does not increase
the merit function. -/
theorem C58_search (P : NLP n m ℝ) (B : Matrix (Fin n) (Fin n) ℝ) (hB : IsPD B) (x p : Fin n → ℝ) (lam : Fin m → ℝ)
    (h : lqeSolve B (P.dfun x) (P.dcon x) (-P.con x) = .ok (p, lam)) (hl : ∀ i, |lam i| ≤ 1) (hp : p ≠ 0)
    (hf : HasLineDerivAt ℝ P.obj (P.dfun x ⬝ᵥ p) x p)
    (hc : ∀ i, HasLineDerivAt ℝ (fun y => P.con y i) ((P.dcon x *ᵥ p) i) x p) :
    ∃ N : ℕ, ∀ mb > N, ∃ i ≤ N, P.lineSearch 1 x p mb = (1 / 2 : ℝ) ^ i ∧
      P.obj (x + (1 / 2 : ℝ) ^ i • p) + ∑ j, |P.con (x + (1 / 2 : ℝ) ^ i • p) j| ≤ P.obj x + ∑ j, |P.con x j| := by
  obtain ⟨N, hN⟩ := half_eventually
    (merit_decreases P x p (lqeSolve_ok.1 h).2.1 hf hc (lt_of_le_of_lt (dir_slope h hl) (neg_neg_of_pos (hB p hp))))
  refine ⟨N, fun mb hmb => ?_⟩
  rcases lineSearch_spec P 1 x p mb with ⟨i, hi, h1, h2, h3⟩ | ⟨-, h3⟩
  · refine ⟨i, ?_, h1, by simpa [NLP.merit] using h2⟩
    by_contra hlt
    exact absurd (h3 N (by omega)) (not_lt.2 (hN N (le_refl N)).le)
  · exact absurd (h3 N hmb) (not_lt.2 (hN N (le_refl N)).le)

/-- Minimise `x² / 4` with `x² = 1`, at `x = 2`. -/
noncomputable def exDescent : NLP 1 1 ℝ where
  obj := fun x => x 0 ^ 2 / 4
  con := fun x => ![x 0 ^ 2 - 1]
  dfun := fun x => ![x 0 / 2]
  dcon := fun x => !![2 * x 0]
  hfun := fun _ => !![1 / 2]
  hcon := fun _ _ => !![2]

/-- The hypotheses hold with direction `-3/4` and multiplier `1/16`. -/
theorem exDescent_ok : lqeSolve 1 (exDescent.dfun ![2]) (exDescent.dcon ![2]) (-exDescent.con ![2]) = .ok (![-3 / 4], ![1 / 16]) ∧
    HasLineDerivAt ℝ exDescent.obj (exDescent.dfun ![2] ⬝ᵥ ![-3 / 4]) ![2] ![-3 / 4] ∧
    ∀ i, HasLineDerivAt ℝ (fun y => exDescent.con y i) ((exDescent.dcon ![2] *ᵥ ![-3 / 4]) i) ![2] ![-3 / 4] := by
  have hd : HasDerivAt (fun t : ℝ => 2 + t * (-3 / 4)) (-3 / 4) 0 := by
    simpa using ((hasDerivAt_id (0 : ℝ)).mul_const (-3 / 4 : ℝ)).const_add 2
  have hd2 := hd.pow 2
  refine ⟨lqeSolve_ok.2 ⟨?_, ?_, ?_⟩, ?_, ?_⟩
  · apply kkt_det one_pd.2
    intro l hl
    ext i
    fin_cases i
    have := congrFun hl 0
    simpa [exDescent, mulVec, dotProduct] using this
  · ext i; fin_cases i; simp [exDescent, mulVec, dotProduct]; norm_num
  · ext i; fin_cases i; simp [exDescent, mulVec, dotProduct]; norm_num
  · unfold HasLineDerivAt
    have h := hd2.div_const 4
    have e1 : (fun t : ℝ => exDescent.obj (![2] + t • ![-3 / 4])) = fun t => ((fun t : ℝ => 2 + t * (-3 / 4)) ^ 2) t / 4 := by
      funext t; simp [exDescent]
    have e2 : exDescent.dfun ![2] ⬝ᵥ ![-3 / 4] = ((2 : ℕ) : ℝ) * (2 + 0 * (-3 / 4)) ^ (2 - 1) * (-3 / 4) / 4 := by
      simp [exDescent, dotProduct]; try norm_num
    rw [e1, e2]; exact h
  · intro i
    fin_cases i
    unfold HasLineDerivAt
    have h := hd2.sub_const 1
    have e1 : (fun t : ℝ => exDescent.con (![2] + t • ![-3 / 4]) 0) = fun t => ((fun t : ℝ => 2 + t * (-3 / 4)) ^ 2) t - 1 := by
      funext t; simp [exDescent]
    have e2 : (exDescent.dcon ![2] *ᵥ ![-3 / 4]) 0 = ((2 : ℕ) : ℝ) * (2 + 0 * (-3 / 4)) ^ (2 - 1) * (-3 / 4) := by
      simp [exDescent, mulVec, dotProduct]; try norm_num
    show HasDerivAt (fun t : ℝ => exDescent.con (![2] + t • ![-3 / 4]) 0) ((exDescent.dcon ![2] *ᵥ ![-3 / 4]) 0) 0
    rw [e1, e2]; exact h

example : ∃ N : ℕ, ∀ mb > N, ∃ i ≤ N, exDescent.lineSearch 1 ![2] ![-3 / 4] mb = (1 / 2 : ℝ) ^ i ∧
      exDescent.obj (![2] + (1 / 2 : ℝ) ^ i • ![-3 / 4]) + ∑ j, |exDescent.con (![2] + (1 / 2 : ℝ) ^ i • ![-3 / 4]) j| ≤
        exDescent.obj ![2] + ∑ j, |exDescent.con ![2] j| :=
  C58_search exDescent 1 one_pd.2 _ _ _ exDescent_ok.1 (by intro i; fin_cases i; simp [abs_of_pos]; norm_num)
    (by intro h; have := congrFun h 0; simp at this) exDescent_ok.2.1 exDescent_ok.2.2

/-- C58 (large multipliers): the penalty is not adapted to the multipliers.  For `min 3 x` with `x = 0` at `x = -1` all steps
in the search direction increase the merit function, so that for every `max_backtrack` the full step is taken although it
increases the merit function. -/
theorem C58_ascent : ∃ (P : NLP 1 1 ℝ) (x p : Fin 1 → ℝ) (lam : Fin 1 → ℝ),
    lqeSolve 1 (P.dfun x) (P.dcon x) (-P.con x) = .ok (p, lam) ∧ (∀ y, HasLineDerivAt ℝ P.obj (P.dfun y ⬝ᵥ p) y p) ∧
    (∀ t : ℝ, 0 < t → P.merit x 1 < P.merit (x + t • p) 1) ∧ ∀ mb, P.lineSearch 1 x p mb = 1 := by
  let P : NLP 1 1 ℝ := ⟨fun x => 3 * x 0, fun x => ![x 0], fun _ => ![3], fun _ => !![1], 0, 0⟩
  have h3 : ∀ t : ℝ, 0 < t → P.merit ![-1] 1 < P.merit (![-1] + t • ![1]) 1 := by
    intro t ht
    have h1 : P.merit ![-1] 1 = -2 := by simp [P, NLP.merit]; norm_num
    have h2 : P.merit (![-1] + t • ![1]) 1 = 3 * (-1 + t) + |-1 + t| := by simp [P, NLP.merit]
    rw [h1, h2]
    have := neg_abs_le (-1 + t)
    rcases abs_cases (-1 + t) with ⟨h, _⟩ | ⟨h, _⟩ <;> rw [h] <;> linarith
  refine ⟨P, ![-1], ![1], ![4], lqeSolve_ok.2 ⟨?_, ?_, ?_⟩, ?_, h3, ?_⟩
  · apply kkt_det one_pd.2
    intro l hl
    ext i
    fin_cases i
    have := congrFun hl 0
    simpa [P, mulVec, dotProduct] using this
  · ext i; fin_cases i; simp [P, mulVec, dotProduct]
  · ext i; fin_cases i; simp [P, mulVec, dotProduct]; norm_num
  · intro y
    unfold HasLineDerivAt
    have hd : HasDerivAt (fun t : ℝ => 3 * (y 0 + t)) (3 * 1) 0 := ((hasDerivAt_id (0 : ℝ)).const_add (y 0)).const_mul 3
    have e1 : (fun t : ℝ => P.obj (y + t • ![1])) = fun t => 3 * (y 0 + t) := by funext t; simp [P]
    have e2 : P.dfun y ⬝ᵥ ![1] = 3 * 1 := by simp [P, dotProduct]
    rw [e1, e2]; exact hd
  · intro mb
    rcases lineSearch_spec P 1 ![-1] ![1] mb with ⟨i, -, -, h2, -⟩ | ⟨h, -⟩
    · exact absurd (h3 ((1 / 2 : ℝ) ^ i) (by positivity)) (not_lt.2 h2)
    · exact h

/-- C47 (residual): if the derivatives of the program are derivatives, then along the segment from the old to the new point and
multiplier the derivative at the start of the KKT residual is minus the residual. -/
theorem C47_residual (P : NLP n m ℝ) (norm : (Fin n → ℝ) → ℝ) (x : Fin n → ℝ) (lam : Fin m → ℝ) (x' : Fin n → ℝ)
    (lam' : Fin m → ℝ) (crit : ℝ) (h : P.localStep norm x lam = .ok (x', lam', crit))
    (hc : ∀ v j, HasDerivAt (fun s : ℝ => P.con (x + s • v) j) ((P.dcon x *ᵥ v) j) 0)
    (hg : ∀ v i, HasDerivAt (fun s : ℝ => P.dfun (x + s • v) i) ((P.hfun x *ᵥ v) i) 0)
    (hd : ∀ v j i, HasDerivAt (fun s : ℝ => P.dcon (x + s • v) j i) ((P.hcon x j *ᵥ v) i) 0) :
    (∀ i, HasDerivAt (fun s : ℝ => P.dfun (x + s • (x' - x)) i - ∑ j, P.dcon (x + s • (x' - x)) j i * (lam j + s * (lam' j - lam j)))
      (-(P.dfun x i - ∑ j, P.dcon x j i * lam j)) 0) ∧
    ∀ j, HasDerivAt (fun s : ℝ => P.con (x + s • (x' - x)) j) (-P.con x j) 0 := by
  obtain ⟨h1, h2, -⟩ := C47_newton P norm x lam x' lam' crit h
  refine ⟨fun i => ?_, fun j => ?_⟩
  · have hl : ∀ j, HasDerivAt (fun s : ℝ => lam j + s * (lam' j - lam j)) (lam' j - lam j) 0 := fun j => by
      simpa using ((hasDerivAt_id (0 : ℝ)).mul_const (lam' j - lam j)).const_add (lam j)
    have hs := (hg (x' - x) i).sub (HasDerivAt.fun_sum (u := Finset.univ) fun j _ => (hd (x' - x) j i).mul (hl j))
    refine hs.congr_deriv ?_
    have h3 := congrFun h1 i
    simp only [Pi.sub_apply, Pi.neg_apply, Finset.sum_apply, Pi.smul_apply, smul_eq_mul] at h3
    have e1 : ((P.dcon x)ᵀ *ᵥ (lam' - lam)) i = ∑ j, P.dcon x j i * (lam' j - lam j) := rfl
    have e2 : ((P.dcon x)ᵀ *ᵥ lam) i = ∑ j, P.dcon x j i * lam j := rfl
    rw [e1, e2] at h3
    rw [← h3]
    simp only [zero_smul, add_zero, zero_mul, Finset.sum_add_distrib, mul_comm (lam _)]
    ring
  · have := hc (x' - x) j
    rwa [h2] at this

/-- A program with a curved constraint: minimise `x₀² + x₁` subject to `x₀ x₁ = 1`. -/
def exCurved : NLP 2 1 ℝ where
  obj x := x 0 ^ 2 + x 1
  con x := ![x 0 * x 1 - 1]
  dfun x := ![2 * x 0, 1]
  dcon x := !![x 1, x 0]
  hfun _ := !![2, 0; 0, 0]
  hcon _ _ := !![0, 1; 1, 0]

/-- The hypotheses of `C47_residual` hold at `(1, 2)` with the multiplier `1`. -/
example (norm : (Fin 2 → ℝ) → ℝ) : (∃ r, exCurved.localStep norm ![1, 2] ![1] = .ok r) ∧
    (∀ x v j, HasDerivAt (fun s : ℝ => exCurved.con (x + s • v) j) ((exCurved.dcon x *ᵥ v) j) 0) ∧
    (∀ x v i, HasDerivAt (fun s : ℝ => exCurved.dfun (x + s • v) i) ((exCurved.hfun x *ᵥ v) i) 0) ∧
    (∀ x v j i, HasDerivAt (fun s : ℝ => exCurved.dcon (x + s • v) j i) ((exCurved.hcon x j *ᵥ v) i) 0) := by
  have hl : ∀ (x v : Fin 2 → ℝ) i, HasDerivAt (fun s : ℝ => (x + s • v) i) (v i) 0 := fun x v i => by
    simpa using ((hasDerivAt_id (0 : ℝ)).mul_const (v i)).const_add (x i)
  refine ⟨?_, fun x v j => ?_, fun x v i => ?_, fun x v j i => ?_⟩
  · obtain ⟨r, hr⟩ := lqeSolve_total (G := exCurved.hlag ![1, 2] ![1]) (A := exCurved.dcon ![1, 2]) (by
      apply det_ne_zero_of_inj
      intro z hz
      have h0 := congrFun hz (.inl 0)
      have h1 := congrFun hz (.inl 1)
      have h2 := congrFun hz (.inr 0)
      simp [exCurved, NLP.hlag, mulVec, dotProduct, Fin.sum_univ_two] at h0 h1 h2
      funext k
      rcases k with k | k <;> fin_cases k <;> simp <;> linarith) (exCurved.dfun ![1, 2]) (-exCurved.con ![1, 2])
    exact ⟨_, sqpStep_ok.2 ⟨r.1, r.2, hr, rfl⟩⟩
  · fin_cases j
    refine (((hl x v 0).mul (hl x v 1)).sub_const 1).congr_deriv ?_
    simp [exCurved, mulVec, dotProduct, Fin.sum_univ_two]; ring
  · fin_cases i
    · refine ((hl x v 0).const_mul 2).congr_deriv ?_
      simp [exCurved, mulVec, dotProduct, Fin.sum_univ_two]
    · refine (hasDerivAt_const (0 : ℝ) (1 : ℝ)).congr_deriv ?_
      simp [exCurved, mulVec, dotProduct, Fin.sum_univ_two]
  · fin_cases j
    fin_cases i
    · refine (hl x v 1).congr_deriv ?_
      simp [exCurved, mulVec, dotProduct, Fin.sum_univ_two]
    · refine (hl x v 0).congr_deriv ?_
      simp [exCurved, mulVec, dotProduct, Fin.sum_univ_two]

end Verif
