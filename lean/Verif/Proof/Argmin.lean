import Verif.Model.FSC
import Mathlib.Order.Bounds.Basic
import Mathlib.Data.Fin.Basic

/-! Facts about `argmin1` and `min1`. -/

namespace Verif

variable {m : ℕ} {K : Type} [LinearOrder K]

theorem argmin_foldl (v : Fin m → K) : ∀ (l : List (Fin m)) (b : Fin m), l.Pairwise (· < ·) → (∀ i ∈ l, b ≤ i) →
    let r := l.foldl (fun b i => if v i < v b then i else b) b
    (r = b ∨ (r ∈ l ∧ v r < v b)) ∧ (∀ i ∈ l, v r ≤ v i) ∧ (∀ i ∈ l, i < r → v r < v i) := by
  intro l
  induction l with
  | nil => intro b _ _; simp
  | cons i l ih =>
    intro b hp hb
    rw [List.pairwise_cons] at hp
    simp only [List.foldl_cons]
    by_cases h : v i < v b
    · rw [if_pos h]
      obtain ⟨h1, h2, h3⟩ := ih i hp.2 (fun j hj => (hp.1 j hj).le)
      generalize l.foldl (fun b i => if v i < v b then i else b) i = r at *
      have hri : v r ≤ v i := by
        rcases h1 with rfl | ⟨_, h1⟩
        · exact le_rfl
        · exact h1.le
      refine ⟨?_, ?_, ?_⟩
      · right
        refine ⟨?_, lt_of_le_of_lt hri h⟩
        rcases h1 with rfl | ⟨h1, _⟩
        · simp
        · simp [h1]
      · intro j hj
        rcases List.mem_cons.1 hj with rfl | hj
        · exact hri
        · exact h2 j hj
      · intro j hj hjr
        rcases List.mem_cons.1 hj with rfl | hj
        · rcases h1 with rfl | ⟨_, h1⟩
          · exact absurd hjr (lt_irrefl _)
          · exact h1
        · exact h3 j hj hjr
    · rw [if_neg h]
      have hbi : v b ≤ v i := not_lt.1 h
      obtain ⟨h1, h2, h3⟩ := ih b hp.2 (fun j hj => hb j (by simp [hj]))
      generalize l.foldl (fun b i => if v i < v b then i else b) b = r at *
      have hrb : v r ≤ v b := by
        rcases h1 with rfl | ⟨_, h1⟩
        · exact le_rfl
        · exact h1.le
      refine ⟨?_, ?_, ?_⟩
      · rcases h1 with rfl | ⟨h1, h1'⟩
        · exact Or.inl rfl
        · exact Or.inr ⟨by simp [h1], h1'⟩
      · intro j hj
        rcases List.mem_cons.1 hj with rfl | hj
        · exact hrb.trans hbi
        · exact h2 j hj
      · intro j hj hjr
        rcases List.mem_cons.1 hj with rfl | hj
        · rcases h1 with rfl | ⟨_, h1⟩
          · exact absurd (hb j (by simp)) (not_le.2 hjr)
          · exact lt_of_lt_of_le h1 hbi
        · exact h3 j hj hjr

theorem min_foldl (v : Fin m → K) : ∀ (l : List (Fin m)) (c : K),
    let r := l.foldl (fun b i => min b (v i)) c
    r ≤ c ∧ (∀ i ∈ l, r ≤ v i) ∧ (r = c ∨ ∃ i ∈ l, r = v i) := by
  intro l
  induction l with
  | nil => intro c; simp
  | cons i l ih =>
    intro c
    simp only [List.foldl_cons]
    obtain ⟨h1, h2, h3⟩ := ih (min c (v i))
    generalize l.foldl (fun b i => min b (v i)) (min c (v i)) = r at *
    refine ⟨h1.trans (min_le_left _ _), ?_, ?_⟩
    · intro j hj
      rcases List.mem_cons.1 hj with rfl | hj
      · exact h1.trans (min_le_right _ _)
      · exact h2 j hj
    · rcases h3 with h3 | ⟨j, hj, h3⟩
      · rcases min_choice c (v i) with h | h
        · exact Or.inl (h3.trans h)
        · exact Or.inr ⟨i, by simp, h3.trans h⟩
      · exact Or.inr ⟨j, by simp [hj], h3⟩

variable [NeZero m]

theorem min1_le (v : Fin m → K) (i : Fin m) : min1 v ≤ v i :=
  (min_foldl v (List.finRange m) (v 0)).2.1 i (List.mem_finRange i)

theorem min1_attained (v : Fin m → K) : ∃ i, min1 v = v i := by
  rcases (min_foldl v (List.finRange m) (v 0)).2.2 with h | ⟨i, _, h⟩
  · exact ⟨0, h⟩
  · exact ⟨i, h⟩

theorem le_min1 {v : Fin m → K} {c : K} (h : ∀ i, c ≤ v i) : c ≤ min1 v := by
  obtain ⟨i, hi⟩ := min1_attained v
  rw [hi]; exact h i

theorem le_min1_iff {v : Fin m → K} {c : K} : c ≤ min1 v ↔ ∀ i, c ≤ v i :=
  ⟨fun h i => h.trans (min1_le v i), le_min1⟩

theorem min1_isLeast (v : Fin m → K) : IsLeast (Set.range v) (min1 v) := by
  refine ⟨?_, ?_⟩
  · obtain ⟨i, hi⟩ := min1_attained v
    exact ⟨i, hi.symm⟩
  · rintro _ ⟨i, rfl⟩
    exact min1_le v i

theorem min1_eq {v : Fin m → K} {c : K} (h : ∀ i, c ≤ v i) (h' : ∃ i, v i = c) : min1 v = c := by
  obtain ⟨i, hi⟩ := h'
  exact le_antisymm (hi ▸ min1_le v i) (le_min1 h)

theorem argmin1_facts (v : Fin m → K) :
    (∀ i, v (argmin1 v) ≤ v i) ∧ (∀ i, i < argmin1 v → v (argmin1 v) < v i) := by
  have := argmin_foldl v (List.finRange m) 0 (List.pairwise_lt_finRange m) (fun i _ => Fin.zero_le i)
  exact ⟨fun i => this.2.1 i (List.mem_finRange i), fun i => this.2.2 i (List.mem_finRange i)⟩

theorem argmin1_le (v : Fin m → K) (i : Fin m) : v (argmin1 v) ≤ v i := (argmin1_facts v).1 i

theorem argmin1_first (v : Fin m → K) (i : Fin m) (h : i < argmin1 v) : v (argmin1 v) < v i :=
  (argmin1_facts v).2 i h

theorem argmin1_val (v : Fin m → K) : v (argmin1 v) = min1 v :=
  le_antisymm (le_min1 (argmin1_le v)) (min1_le v _)

/-- `argmin1` is the smallest index attaining the minimum. -/
theorem argmin1_isLeast (v : Fin m → K) : IsLeast {i | v i = min1 v} (argmin1 v) := by
  refine ⟨argmin1_val v, ?_⟩
  intro i hi
  by_contra h
  have := argmin1_first v i (not_le.1 h)
  rw [argmin1_val v, ← (hi : v i = min1 v)] at this
  exact lt_irrefl _ this

theorem argmin1_unique {v : Fin m → K} {i : Fin m} (h1 : ∀ j, v i ≤ v j) (h2 : ∀ j < i, v i < v j) :
    argmin1 v = i := by
  rcases lt_trichotomy (argmin1 v) i with h | h | h
  · exact absurd (h2 _ h) (not_lt.2 (argmin1_le v i))
  · exact h
  · exact absurd (argmin1_first v i h) (not_lt.2 (h1 _))

theorem argmin1_eq_of {v w : Fin m → K} (h : ∀ i j, v i ≤ v j ↔ w i ≤ w j) : argmin1 v = argmin1 w := by
  apply argmin1_unique
  · intro j; rw [h]; exact argmin1_le w j
  · intro j hj
    have := argmin1_first w j hj
    rw [← not_le] at this ⊢
    rwa [h]

end Verif
