import Verif.Model.CondensingTests
import Verif.Proof.LQTTests
import Verif.Proof.CondensingTop

/-! Lemmas for `Props/CondensingTests.lean`. -/

namespace Verif

open Matrix

theorem gram_nonneg {p q : ℕ} (A : Matrix (Fin p) (Fin q) ℝ) (x : Fin p → ℝ) : 0 ≤ x ⬝ᵥ (A * Aᵀ) *ᵥ x := by
  rw [← mulVec_mulVec, dotProduct_mulVec, ← mulVec_transpose]
  exact Finset.sum_nonneg fun i _ => mul_self_nonneg _

theorem gram_symm {p q : ℕ} (A : Matrix (Fin p) (Fin q) ℝ) : (A * Aᵀ)ᵀ = A * Aᵀ := by
  rw [transpose_mul, transpose_transpose]

theorem exists_ker (H : Matrix (Fin 3) (Fin 4) ℝ) : ∃ x : Fin 4 → ℝ, x ≠ 0 ∧ H *ᵥ x = 0 := by
  have hd : (of (Fin.cons 0 H : Fin 4 → Fin 4 → ℝ)).det = 0 := det_eq_zero_of_row_eq_zero 0 fun j => rfl
  obtain ⟨x, hx, h⟩ := exists_mulVec_eq_zero_iff.2 hd
  exact ⟨x, hx, funext fun i => congrFun h i.succ⟩

theorem errV_same_tol {p : ℕ} {l : List (Fin p → ℝ)} {e tol : ℝ} (ht : 0 < tol) (h : errV l l = .ok e) : e < tol := by
  by_cases hl : l = []
  · subst hl; exact absurd h (by intro h; cases h)
  · rw [errV_self hl] at h
    rw [← Except.ok.inj h]; exact ht

theorem normL_self (a : List ℝ) : normL a a = .ok 0 := by
  unfold normL
  rw [if_pos rfl]
  have h : (List.zipWith (fun x y : ℝ => (x - y) ^ 2) a a).sum = 0 :=
    List.sum_eq_zero (zipWith_self_zero (α := ℝ) (fun x y => (x - y) ^ 2) (fun v => by simp) a)
  rw [h, Real.sqrt_zero]

variable {n m N : ℕ}

theorem concatV_length (us : List (Fin m → ℝ)) : (concatV us).length = us.length * m := by
  induction us with
  | nil => simp [concatV]
  | cons u us ih =>
    unfold concatV at ih ⊢
    rw [List.flatMap_cons, List.length_append, ih, List.length_ofFn, List.length_cons]
    ring

theorem concatV_take (k : ℕ) (us : List (Fin m → ℝ)) : concatV (us.take k) = (concatV us).take (k * m) := by
  induction us generalizing k with
  | nil => simp [concatV]
  | cons u us ih =>
    cases k with
    | zero => simp [concatV]
    | succ k =>
      unfold concatV at ih ⊢
      have e : (k + 1) * m = (List.ofFn u).length + k * m := by rw [List.length_ofFn]; ring
      rw [List.take_succ_cons, List.flatMap_cons, List.flatMap_cons, ih, e, List.take_length_add_append]

theorem concatV_split (us : List (Fin (N * m) → ℝ)) : concatV (splitControls N us) = concatV us := by
  unfold concatV splitControls
  rw [List.flatMap_assoc]
  congr 1
  funext u
  rw [List.ofFn_mul, List.flatMap_def, List.map_ofFn]
  refine congrArg _ (congrArg _ (funext fun i => congrArg _ (funext fun a => congrArg u (Fin.ext ?_))))
  show (a : ℕ) + m * i = i * m + a
  ring

theorem filterMap_range_self {α : Type} : ∀ c : List α, (List.range c.length).filterMap (fun j => c[j]?) = c
  | [] => rfl
  | a :: c => by
    rw [List.length_cons, List.range_succ_eq_map, List.filterMap_cons]
    simp only [List.getElem?_cons_zero, List.filterMap_map]
    exact congrArg _ (filterMap_range_self c)

theorem everyNth_eq {α : Type} {Nc : ℕ} (hN : 0 < Nc) {l c : List α} (hl : (l.length + Nc - 1) / Nc = c.length)
    (h : ∀ j < c.length, c[j]? = l[Nc * j]?) : everyNth Nc l = .ok c := by
  unfold everyNth
  rw [if_neg hN.ne', hl]
  refine congrArg _ (Eq.trans ?_ (filterMap_range_self c))
  exact List.filterMap_congr fun j hj => (h j (List.mem_range.1 hj)).symm

end Verif
