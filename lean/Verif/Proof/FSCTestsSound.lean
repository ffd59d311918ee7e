import Verif.Proof.FSCTFTests
import Verif.Proof.PyLemmas

/-!
What passing a comparison in the tests of the finite-state solvers means.
-/

namespace Verif

variable {n m : ℕ}

theorem foldl_max_ge (l : List ℝ) (a : ℝ) : a ≤ l.foldl max a ∧ ∀ b ∈ l, b ≤ l.foldl max a := by
  induction l generalizing a with
  | nil => exact ⟨le_rfl, fun b hb => by cases hb⟩
  | cons c l ih =>
    obtain ⟨h1, h2⟩ := ih (max a c)
    refine ⟨(le_max_left a c).trans h1, fun b hb => ?_⟩
    rcases List.mem_cons.1 hb with rfl | hb
    · exact (le_max_right a b).trans h1
    · exact h2 b hb

theorem listMax_ge {l : List ℝ} {r : ℝ} (h : listMax l = .ok r) : ∀ a ∈ l, a ≤ r := by
  cases l with
  | nil => cases h
  | cons a l =>
    obtain rfl := Except.ok.inj h
    intro b hb
    rcases List.mem_cons.1 hb with rfl | hb
    · exact (foldl_max_ge l b).1
    · exact (foldl_max_ge l a).2 b hb

theorem abs_le_normDiff (a b : Fin n → ℝ) (x : Fin n) : |a x - b x| ≤ normDiff a b := by
  unfold normDiff l2norm
  rw [← Real.sqrt_sq_eq_abs]
  exact Real.sqrt_le_sqrt (Finset.single_le_sum (f := fun i => (a i - b i) ^ 2) (fun i _ => sq_nonneg _) (Finset.mem_univ x))

theorem zipWith_mem {α β γ : Type} {g : α → β → γ} {a : List α} {b : List β} {k : ℕ} {p : α} {q : β}
    (hp : a[k]? = some p) (hq : b[k]? = some q) : g p q ∈ List.zipWith g a b := by
  refine List.mem_of_getElem? (i := k) ?_
  rw [List.getElem?_zipWith, hp, hq]

theorem val_eq_of_abs {i j : Fin m} (h : |((i.val : ℝ)) - j.val| ≤ 0) : i = j := by
  have := abs_nonpos_iff.1 h
  have h2 : (i.val : ℝ) = j.val := by linarith
  exact Fin.ext (by exact_mod_cast h2)

theorem maxDiffRows_le {a b : List (Fin n → ℝ)} {r : ℝ} (h : maxDiffRows a b = .ok r) :
    a.length = b.length ∧ ∀ (k : ℕ) (p q : Fin n → ℝ), a[k]? = some p → b[k]? = some q → ∀ x, |p x - q x| ≤ r := by
  unfold maxDiffRows at h
  split at h
  · cases h
  · rename_i hl
    refine ⟨not_not.1 hl, fun k p q hp hq x => listMax_ge h _ ?_⟩
    rw [List.mem_flatten]
    exact ⟨_, zipWith_mem hp hq, List.mem_map.2 ⟨x, List.mem_finRange x, rfl⟩⟩

theorem maxDiffRows_policies {a b : List (Fin n → Fin m)} (h : maxDiffRows (policyRows a) (policyRows b) = .ok 0) : a = b := by
  obtain ⟨hl, h⟩ := maxDiffRows_le h
  simp only [policyRows, List.length_map] at hl
  refine List.ext_getElem hl fun k h1 h2 => funext fun x => val_eq_of_abs ?_
  exact h k (fun x => ((a[k] x).val : ℝ)) (fun x => ((b[k] x).val : ℝ)) (by simp [policyRows, h1]) (by simp [policyRows, h2]) x

theorem maxDiffIdx_eq {a b : List (Fin n)} (h : maxDiffIdx a b = .ok 0) : a = b := by
  unfold maxDiffIdx at h
  split at h
  · cases h
  · rename_i hl
    refine List.ext_getElem (not_not.1 hl) fun k h1 h2 => val_eq_of_abs ?_
    exact listMax_ge h _ (zipWith_mem (List.getElem?_eq_getElem h1) (List.getElem?_eq_getElem h2))

end Verif
