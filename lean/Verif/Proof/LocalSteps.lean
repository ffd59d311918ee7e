import Mathlib.Data.List.Nodup
import Verif.Model.Scan

/-!
Loops whose iterations touch pairwise disjoint positions of a list.
-/

namespace Verif

variable {β ι : Type*}

/-- An iteration that reads positions `p i`, `q i`, computes new contents and writes them back. -/
def localStep (p q : ι → ℕ) (g : ι → β → β → Py (β × β)) (a : List β) (i : ι) : Py (List β) := do
  let x ← pyGet a (p i)
  let y ← pyGet a (q i)
  let r ← g i x y
  .ok ((a.set (p i) r.1).set (q i) r.2)

/-- Outcome of a loop of local steps over `is`, stated position by position. -/
structure LevelRel (p q : ι → ℕ) (g : ι → β → β → Py (β × β)) (is : List ι) (a b : List β) : Prop where
  len : b.length = a.length
  frame : ∀ k, (∀ i ∈ is, k ≠ p i ∧ k ≠ q i) → b[k]? = a[k]?
  loc : ∀ i ∈ is, ∃ x y x' y', a[p i]? = some x ∧ a[q i]? = some y ∧ g i x y = .ok (x', y') ∧
    b[q i]? = some y' ∧ (p i ≠ q i → b[p i]? = some x')

theorem pyGet_ok {a : List β} {i : ℕ} {x : β} : pyGet a i = .ok x ↔ a[i]? = some x := by
  unfold pyGet; cases h : a[i]? <;> simp

theorem localStep_ok {p q : ι → ℕ} {g : ι → β → β → Py (β × β)} {a b : List β} {i : ι} :
    localStep p q g a i = .ok b ↔
      ∃ x y r, a[p i]? = some x ∧ a[q i]? = some y ∧ g i x y = .ok r ∧
        (a.set (p i) r.1).set (q i) r.2 = b := by
  unfold localStep
  constructor
  · intro h
    cases hx : pyGet a (p i) with
    | error e => simp [hx, bind, Except.bind] at h
    | ok x =>
      cases hy : pyGet a (q i) with
      | error e => simp [hx, hy, bind, Except.bind] at h
      | ok y =>
        cases hr : g i x y with
        | error e => simp [hx, hy, hr, bind, Except.bind] at h
        | ok r =>
          simp only [hx, hy, hr, bind, Except.bind, Except.ok.injEq] at h
          exact ⟨x, y, r, pyGet_ok.1 hx, pyGet_ok.1 hy, hr, h⟩
  · rintro ⟨x, y, r, hx, hy, hr, h⟩
    simp [pyGet_ok.2 hx, pyGet_ok.2 hy, hr, bind, Except.bind, h]

theorem set_set_get (a : List β) (m n k : ℕ) (x y : β) (hm : m < a.length) (hn : n < a.length) :
    ((a.set m x).set n y)[k]? = if k = n then some y else if k = m then some x else a[k]? := by
  rw [List.getElem?_set]
  by_cases h1 : n = k
  · subst h1; simp [hn]
  · rw [if_neg h1, if_neg (Ne.symm h1), List.getElem?_set]
    by_cases h2 : m = k
    · subst h2; simp [hm]
    · rw [if_neg h2, if_neg (Ne.symm h2)]

theorem foldlM_local_iff {p q : ι → ℕ} {g : ι → β → β → Py (β × β)} :
    ∀ (is : List ι) (a b : List β), is.Nodup →
      (∀ i ∈ is, ∀ j ∈ is, i ≠ j → p i ≠ p j ∧ p i ≠ q j ∧ q i ≠ p j ∧ q i ≠ q j) →
      (is.foldlM (localStep p q g) a = .ok b ↔ LevelRel p q g is a b) := by
  intro is
  induction is with
  | nil =>
    intro a b _ _
    simp only [List.foldlM_nil, pure, Except.pure, Except.ok.injEq]
    constructor
    · rintro rfl; exact ⟨rfl, fun _ _ => rfl, by simp⟩
    · intro h; exact (List.ext_getElem? fun k => (h.frame k (by simp))).symm
  | cons i is ih =>
    intro a b hnd hdis
    have hnd' := (List.nodup_cons.1 hnd).2
    have hi : i ∉ is := (List.nodup_cons.1 hnd).1
    have hdis' : ∀ i ∈ is, ∀ j ∈ is, i ≠ j → p i ≠ p j ∧ p i ≠ q j ∧ q i ≠ p j ∧ q i ≠ q j :=
      fun i hi j hj => hdis i (List.mem_cons_of_mem _ hi) j (List.mem_cons_of_mem _ hj)
    have hsep : ∀ j ∈ is, p i ≠ p j ∧ p i ≠ q j ∧ q i ≠ p j ∧ q i ≠ q j := fun j hj =>
      hdis i List.mem_cons_self j (List.mem_cons_of_mem _ hj) (by rintro rfl; exact hi hj)
    simp only [List.foldlM_cons]
    constructor
    · intro h
      cases h1 : localStep p q g a i with
      | error e => simp [h1, bind, Except.bind] at h
      | ok c =>
        simp only [h1, bind, Except.bind] at h
        have hr := (ih c b hnd' hdis').1 h
        obtain ⟨x, y, r, hx, hy, hg, hc⟩ := localStep_ok.1 h1
        have hpl : p i < a.length := (List.getElem?_eq_some_iff.1 hx).1
        have hql : q i < a.length := (List.getElem?_eq_some_iff.1 hy).1
        have hcget : ∀ k, c[k]? = if k = q i then some r.2 else if k = p i then some r.1 else a[k]? := by
          intro k; rw [← hc]; exact set_set_get a _ _ k _ _ hpl hql
        refine ⟨?_, ?_, ?_⟩
        · rw [hr.len, ← hc]; simp
        · intro k hk
          rw [hr.frame k fun j hj => hk j (List.mem_cons_of_mem _ hj), hcget,
            if_neg (hk i List.mem_cons_self).2, if_neg (hk i List.mem_cons_self).1]
        · intro j hj
          rcases List.mem_cons.1 hj with rfl | hj
          · refine ⟨x, y, r.1, r.2, hx, hy, hg, ?_, ?_⟩
            · rw [hr.frame (q j) fun l hl => ⟨(hsep l hl).2.2.1, (hsep l hl).2.2.2⟩, hcget, if_pos rfl]
            · intro hpq
              rw [hr.frame (p j) fun l hl => ⟨(hsep l hl).1, (hsep l hl).2.1⟩, hcget, if_neg hpq, if_pos rfl]
          · obtain ⟨x2, y2, x', y', h1, h2, h3, h4, h5⟩ := hr.loc j hj
            have hs := hsep j hj
            rw [hcget, if_neg hs.2.2.1.symm, if_neg hs.1.symm] at h1
            rw [hcget, if_neg hs.2.2.2.symm, if_neg hs.2.1.symm] at h2
            exact ⟨x2, y2, x', y', h1, h2, h3, h4, h5⟩
    · intro h
      obtain ⟨x, y, x', y', hx, hy, hg, hb1, hb2⟩ := h.loc i List.mem_cons_self
      have hpl : p i < a.length := (List.getElem?_eq_some_iff.1 hx).1
      have hql : q i < a.length := (List.getElem?_eq_some_iff.1 hy).1
      have h1 : localStep p q g a i = .ok ((a.set (p i) x').set (q i) y') :=
        localStep_ok.2 ⟨x, y, (x', y'), hx, hy, hg, rfl⟩
      simp only [h1, bind, Except.bind]
      refine (ih _ b hnd' hdis').2 ⟨?_, ?_, ?_⟩
      · rw [h.len]; simp
      · intro k hk
        rw [set_set_get a _ _ k _ _ hpl hql]
        by_cases hkq : k = q i
        · rw [if_pos hkq, hkq, hb1]
        · rw [if_neg hkq]
          by_cases hkp : k = p i
          · rw [if_pos hkp]
            have : p i ≠ q i := fun e => hkq (hkp.trans e)
            rw [hkp, hb2 this]
          · rw [if_neg hkp]
            exact h.frame k fun j hj => by
              rcases List.mem_cons.1 hj with rfl | hj
              · exact ⟨hkp, hkq⟩
              · exact hk j hj
      · intro j hj
        obtain ⟨x2, y2, x2', y2', h1, h2, h3, h4, h5⟩ := h.loc j (List.mem_cons_of_mem _ hj)
        have hs := hsep j hj
        refine ⟨x2, y2, x2', y2', ?_, ?_, h3, h4, h5⟩
        · rw [set_set_get a _ _ _ _ _ hpl hql, if_neg hs.2.2.1.symm, if_neg hs.1.symm, h1]
        · rw [set_set_get a _ _ _ _ _ hpl hql, if_neg hs.2.2.2.symm, if_neg hs.2.1.symm, h2]

/-- The outcome of a loop of local steps is determined. -/
theorem LevelRel.unique {p q : ι → ℕ} {g : ι → β → β → Py (β × β)} {is : List ι} {a b c : List β}
    (hb : LevelRel p q g is a b) (hc : LevelRel p q g is a c) : b = c := by
  apply List.ext_getElem?
  intro k
  by_cases hk : ∀ i ∈ is, k ≠ p i ∧ k ≠ q i
  · rw [hb.frame k hk, hc.frame k hk]
  · push Not at hk
    obtain ⟨i, hi, hki⟩ := hk
    obtain ⟨x, y, x', y', h1, h2, h3, h4, h5⟩ := hb.loc i hi
    obtain ⟨u, v, u', v', g1, g2, g3, g4, g5⟩ := hc.loc i hi
    rw [h1] at g1; rw [h2] at g2
    cases g1; cases g2
    rw [h3] at g3
    cases g3
    by_cases hkp : k = p i
    · by_cases hpq : p i = q i
      · rw [hkp, hpq, h4, g4]
      · rw [hkp, h5 hpq, g5 hpq]
    · rw [hki hkp, h4, g4]

theorem LevelRel.perm {p q : ι → ℕ} {g : ι → β → β → Py (β × β)} {is js : List ι} {a b : List β}
    (h : is.Perm js) (hb : LevelRel p q g is a b) : LevelRel p q g js a b :=
  ⟨hb.len, fun k hk => hb.frame k fun i hi => hk i (h.subset hi), fun i hi => hb.loc i (h.symm.subset hi)⟩

end Verif
