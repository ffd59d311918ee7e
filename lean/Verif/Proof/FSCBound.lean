import Verif.Proof.FSCFwdBwd
import Mathlib.Algebra.Order.Group.Abs
import Mathlib.Tactic.Module
import Mathlib.Tactic.Abel

/-! Finite-state control: bounds on the cost-to-go. -/

namespace Verif

variable {n m : ℕ} {K : Type} [AddCommGroup K] [LinearOrder K] [IsOrderedAddMonoid K]

theorem totalCost_bound (B : K) (LT : Fin n → K) (ss : List (FStage n m K)) (hLT : ∀ x, |LT x| ≤ B)
    (hL : ∀ s ∈ ss, ∀ x u, |s.L x u| ≤ B) (x : Fin n) (us : List (Fin m)) (h : us.length = ss.length) :
    |totalCost LT ss x us| ≤ (ss.length + 1) • B := by
  induction ss generalizing x us with
  | nil => simpa [totalCost] using hLT x
  | cons s ss ih =>
    cases us with
    | nil => simp at h
    | cons u us =>
      simp only [totalCost, List.length_cons]
      refine (abs_add_le _ _).trans ?_
      rw [succ_nsmul (n := ss.length + 1), add_comm]
      exact add_le_add (ih (fun s' hs' => hL s' (by simp [hs'])) _ _ (by simpa using h)) (hL s (by simp) x u)

theorem valueFn_bound [NeZero m] (B : K) (LT : Fin n → K) (ss : List (FStage n m K)) (hLT : ∀ x, |LT x| ≤ B)
    (hL : ∀ s ∈ ss, ∀ x u, |s.L x u| ≤ B) (x : Fin n) : |valueFn LT ss x| ≤ (ss.length + 1) • B := by
  rw [← greedy_cost]
  exact totalCost_bound B LT ss hLT hL x _ (greedy_length LT ss x)

theorem valueFn_diff_bound [NeZero m] (B : K) (LT : Fin n → K) (ss : List (FStage n m K)) (hLT : ∀ x, |LT x| ≤ B)
    (hL : ∀ s ∈ ss, ∀ x u, |s.L x u| ≤ B) (j k : ℕ) (x y : Fin n) :
    valueFn LT (ss.drop j) x ≤
      ((ss.length - j + 1) + (ss.length - k + 1)) • B + valueFn LT (ss.drop k) y := by
  have h1 := valueFn_bound B LT (ss.drop j) hLT (fun s hs => hL s (List.mem_of_mem_drop hs)) x
  have h2 := valueFn_bound B LT (ss.drop k) hLT (fun s hs => hL s (List.mem_of_mem_drop hs)) y
  rw [List.length_drop] at h1 h2
  have h3 := (le_abs_self _).trans h1
  have h4 := (neg_le_abs _).trans h2
  rw [add_nsmul, add_assoc]
  refine h3.trans ?_
  refine le_add_of_nonneg_right ?_
  rw [neg_le_iff_add_nonneg] at h4
  exact h4

theorem nsmul_le_of_le {B : K} (hB : 0 ≤ B) {a b : ℕ} (h : a ≤ b) : a • B ≤ b • B := nsmul_le_nsmul_left hB h

end Verif
