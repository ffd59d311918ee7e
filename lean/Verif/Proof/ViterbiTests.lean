import Verif.Model.ViterbiTests
import Verif.Proof.LQTTests
import Verif.Proof.ViterbiFSC

/-! Lemmas for `Props/ViterbiTests.lean`. -/

namespace Verif

variable {n q : ℕ} [NeZero n]

omit [NeZero n] in
theorem pathErr_self {a : List (Fin n)} (h : a ≠ []) : pathErr a a = .ok 0 := by
  unfold pathErr
  rw [if_pos rfl]
  exact listMax_zero (zipWith_ne_nil _ h h) (zipWith_self_zero _ (fun i => by simp) a)

omit [NeZero n] in
theorem arrErr_self (a : List (Fin n → ℝ)) : arrErr a a = .ok 0 := by
  unfold arrErr
  rw [if_pos rfl]
  have h : (List.zipWith (fun v w : Fin n → ℝ => ∑ i, (v i - w i) ^ 2) a a).sum = 0 :=
    List.sum_eq_zero (zipWith_self_zero _ (fun v => by simp) a)
  rw [h, Real.sqrt_zero]

omit [NeZero n] in
theorem pathErr_zero : ∀ {a b : List (Fin n)}, a.length = b.length → pathErr a b = .ok 0 → a = b := by
  intro a b hl h
  unfold pathErr at h
  rw [if_pos hl] at h
  have key : ∀ e ∈ List.zipWith (fun i j : Fin n => |((i : ℕ) : ℝ) - ((j : ℕ) : ℝ)|) a b, e ≤ 0 := by
    cases hz : List.zipWith (fun i j : Fin n => |((i : ℕ) : ℝ) - ((j : ℕ) : ℝ)|) a b with
    | nil => intro e he; cases he
    | cons c l =>
      rw [hz] at h
      have h := Except.ok.inj h
      have hm : ∀ (l : List ℝ) (c : ℝ), c ≤ l.foldl max c ∧ ∀ e ∈ l, e ≤ l.foldl max c := by
        intro l
        induction l with
        | nil => intro c; simp
        | cons d l ih =>
          intro c
          obtain ⟨i1, i2⟩ := ih (max c d)
          refine ⟨(le_max_left c d).trans i1, fun e he => ?_⟩
          rcases List.mem_cons.1 he with rfl | he
          · exact (le_max_right c _).trans i1
          · exact i2 e he
      obtain ⟨m1, m2⟩ := hm l c
      rw [h] at m1 m2
      intro e he
      rcases List.mem_cons.1 he with rfl | he
      · exact m1
      · exact m2 e he
  clear h
  induction a generalizing b with
  | nil => cases b with
    | nil => rfl
    | cons _ _ => simp at hl
  | cons i a ih => cases b with
    | nil => simp at hl
    | cons j b =>
      have h1 := key |((i : ℕ) : ℝ) - ((j : ℕ) : ℝ)| (by simp)
      have h2 : ((i : ℕ) : ℝ) = ((j : ℕ) : ℝ) := sub_eq_zero.1 (abs_nonpos_iff.1 h1)
      have h3 : i = j := Fin.ext (by exact_mod_cast h2)
      rw [h3, ih (by simpa using hl) fun e he => key e (by simp [he])]

end Verif
