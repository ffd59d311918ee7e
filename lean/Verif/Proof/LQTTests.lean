import Verif.Model.LQTTests
import Verif.Proof.FSCTests

/-! Lemmas for `Props/LQTTests.lean`. -/

namespace Verif

open Matrix

variable {p q : ℕ}

theorem normDiffM_self (a : Matrix (Fin p) (Fin q) ℝ) : normDiffM a a = 0 := by simp [normDiffM]

theorem zipWith_self_zero {α : Type} (d : α → α → ℝ) (h : ∀ a, d a a = 0) (l : List α) :
    ∀ a ∈ List.zipWith d l l, a = 0 := by
  induction l with
  | nil => simp
  | cons x l ih =>
    intro a ha
    rw [List.zipWith_cons_cons, List.mem_cons] at ha
    rcases ha with rfl | ha
    · exact h x
    · exact ih a ha

theorem zipWith_ne_nil {α : Type} (d : α → α → ℝ) {l l' : List α} (h : l ≠ []) (h' : l' ≠ []) :
    List.zipWith d l l' ≠ [] := by
  cases l with
  | nil => exact absurd rfl h
  | cons x l =>
    cases l' with
    | nil => exact absurd rfl h'
    | cons y l' => simp

theorem errM_self {l : List (Matrix (Fin p) (Fin q) ℝ)} (h : l ≠ []) : errM l l = .ok 0 :=
  listMax_zero (zipWith_ne_nil _ h h) (zipWith_self_zero _ normDiffM_self l)

theorem errV_self {l : List (Fin p → ℝ)} (h : l ≠ []) : errV l l = .ok 0 :=
  listMax_zero (zipWith_ne_nil _ h h) (zipWith_self_zero _ normDiff_self l)

theorem zipWith_replicate_succ {α : Type} (d : α → α → ℝ) (a : α) (T : ℕ) :
    List.zipWith d (List.replicate (T + 1) a) (List.replicate T a) =
      List.zipWith d (List.replicate T a) (List.replicate T a) := by
  induction T with
  | zero => rfl
  | succ T ih =>
    rw [List.replicate_succ (n := T + 1), List.replicate_succ (n := T), List.zipWith_cons_cons, List.zipWith_cons_cons]
    rw [← List.replicate_succ, ih]

theorem errV_zeros {T : ℕ} (hT : 0 < T) :
    errV (List.replicate (T + 1) (0 : Fin p → ℝ)) (List.replicate T 0) = .ok 0 := by
  have h : List.replicate T (0 : Fin p → ℝ) ≠ [] := by
    intro h; have := congrArg List.length h; simp at this; omega
  unfold errV
  rw [zipWith_replicate_succ]
  exact errV_self h

theorem errM_same {l : List (Matrix (Fin p) (Fin q) ℝ)} {e : ℝ} (h : errM l l = .ok e) : e < testTol := by
  by_cases hl : l = []
  · subst hl; exact absurd h (by intro h; cases h)
  · rw [errM_self hl] at h
    rw [← Except.ok.inj h]; exact testTol_pos

theorem errV_same {l : List (Fin p → ℝ)} {e : ℝ} (h : errV l l = .ok e) : e < testTol := by
  by_cases hl : l = []
  · subst hl; exact absurd h (by intro h; cases h)
  · rw [errV_self hl] at h
    rw [← Except.ok.inj h]; exact testTol_pos

end Verif
