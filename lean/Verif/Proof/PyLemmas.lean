import Verif.Proof.ScanTotal

/-! Lemmas on loops over `range`. -/

namespace Verif

universe u
variable {β γ : Type u}

theorem pyGet_lt {β : Type*} {a : List β} {i : ℕ} (h : i < a.length) : pyGet a i = .ok a[i] :=
  pyGet_ok.2 (List.getElem?_eq_getElem h)

theorem mapM_ok_iff {α : Type*} {f : α → Py β} : ∀ {l : List α} {r : List β},
    l.mapM f = .ok r ↔ List.Forall₂ (fun a b => f a = .ok b) l r := by
  intro l
  induction l with
  | nil => intro r; simp [pure, Except.pure, eq_comm]
  | cons a l ih =>
    intro r
    rw [List.mapM_cons, bind_ok]
    constructor
    · rintro ⟨b, hb, h⟩
      rw [bind_ok] at h
      obtain ⟨r', hr', h⟩ := h
      simp only [pure, Except.pure, Except.ok.injEq] at h
      subst h
      exact List.Forall₂.cons hb (ih.1 hr')
    · intro h
      cases h with
      | cons h1 h2 =>
        refine ⟨_, h1, ?_⟩
        rw [bind_ok]
        exact ⟨_, ih.2 h2, rfl⟩

theorem forall₂_range {n : ℕ} {P : ℕ → β → Prop} {r : List β} :
    List.Forall₂ P (List.range n) r ↔ r.length = n ∧ ∀ k < n, ∃ b, r[k]? = some b ∧ P k b := by
  rw [List.forall₂_iff_get]
  simp only [List.length_range, List.get_eq_getElem, List.getElem_range]
  constructor
  · rintro ⟨h1, h2⟩
    refine ⟨h1.symm, fun k hk => ⟨r[k]'(by omega), by simp [h1 ▸ hk], h2 k hk (by omega)⟩⟩
  · rintro ⟨h1, h2⟩
    refine ⟨h1.symm, fun k hk hk' => ?_⟩
    obtain ⟨b, hb, hP⟩ := h2 k hk
    rw [List.getElem?_eq_getElem hk'] at hb
    cases hb; exact hP

/-- A list comprehension over `range(n)` succeeds iff every item does. -/
theorem mapM_range_ok {n : ℕ} {f : ℕ → Py β} {r : List β} :
    (List.range n).mapM f = .ok r ↔ r.length = n ∧ ∀ k < n, ∃ b, r[k]? = some b ∧ f k = .ok b := by
  rw [mapM_ok_iff, forall₂_range]

theorem mapM_range_of {n : ℕ} {f : ℕ → Py β} {g : ℕ → β} (h : ∀ k < n, f k = .ok (g k)) :
    (List.range n).mapM f = .ok ((List.range n).map g) := by
  rw [mapM_range_ok]
  refine ⟨by simp, fun k hk => ⟨g k, by simp [hk], h k hk⟩⟩

theorem list_ext_of {a b : List β} {n : ℕ} (ha : a.length = n) (hb : b.length = n)
    (h : ∀ k < n, a[k]? = b[k]?) : a = b := by
  apply List.ext_getElem?
  intro k
  by_cases hk : k < n
  · exact h k hk
  · rw [List.getElem?_eq_none (by omega), List.getElem?_eq_none (by omega)]

end Verif
