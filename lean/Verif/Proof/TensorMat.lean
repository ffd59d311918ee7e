import Verif.Props.TensorMat
import Verif.Proof.Tensor
import Mathlib.Data.Matrix.ColumnRowPartitioned

/-! Lemmas on batches of matrices in tensors. -/

namespace Verif

open Matrix

variable {K β ι κ μ : Type} {a b c : ℕ}

@[simp] theorem sumE_inl (e : ι ≃ Fin a) (e' : κ ≃ Fin b) (i : ι) : (sumE e e' (.inl i)).val = (e i).val := by simp [sumE]

@[simp] theorem sumE_inr (e : ι ≃ Fin a) (e' : κ ≃ Fin b) (j : κ) : (sumE e e' (.inr j)).val = a + (e' j).val := by simp [sumE]

/-- Entries of an item addressed by natural numbers. -/
theorem Tens.IsMt.nat {t : Tens K} {e : ι ≃ Fin a} {e' : κ ≃ Fin b} {bs : List β} {f : β → Matrix ι κ K} (h : t.IsMt e e' bs f)
    {k i j : ℕ} (hk : k < bs.length) (hi : i < a) (hj : j < b) : t.val [k, i, j] = f bs[k] (e.symm ⟨i, hi⟩) (e'.symm ⟨j, hj⟩) := by
  simpa using h.2 k hk (e.symm ⟨i, hi⟩) (e'.symm ⟨j, hj⟩)

theorem Tens.IsMt.flat {t : Tens K} {e : ι ≃ Fin a} {e' : κ ≃ Fin b} {bs : List β} {f : β → Matrix ι κ K} (h : t.IsMt e e' bs f) :
    t.IsMt (Equiv.refl _) (Equiv.refl _) bs fun x => (f x).submatrix e.symm e'.symm :=
  ⟨h.1, fun _ hk i j => h.nat hk i.2 j.2⟩

theorem Tens.IsMt.congr {γ : Type} {t : Tens K} {e : ι ≃ Fin a} {e' : κ ≃ Fin b} {bs : List β} {f : β → Matrix ι κ K}
    {cs : List γ} {g : γ → Matrix ι κ K} (h : t.IsMt e e' bs f) (hl : bs.length = cs.length)
    (hg : ∀ (k : ℕ) (h : k < bs.length) (h' : k < cs.length), f bs[k] = g cs[k]) : t.IsMt e e' cs g :=
  ⟨by rw [h.1, hl], fun k hk i j => by rw [h.2 k (by omega), hg k (by omega) hk]⟩

theorem Tens.IsVt.congr {γ : Type} {t : Tens K} {e : ι ≃ Fin a} {bs : List β} {f : β → ι → K}
    {cs : List γ} {g : γ → ι → K} (h : t.IsVt e bs f) (hl : bs.length = cs.length)
    (hg : ∀ (k : ℕ) (h : k < bs.length) (h' : k < cs.length), f bs[k] = g cs[k]) : t.IsVt e cs g :=
  ⟨by rw [h.1, hl], fun k hk i => by rw [h.2 k (by omega), hg k (by omega) hk]⟩

theorem Tens.IsMt.size0 {t : Tens K} {e : ι ≃ Fin a} {e' : κ ≃ Fin b} {bs : List β} {f : β → Matrix ι κ K} (h : t.IsMt e e' bs f) :
    t.size 0 = .ok bs.length := by rw [Tens.size, h.1]; rfl

theorem Tens.IsMt.size1 {t : Tens K} {e : ι ≃ Fin a} {e' : κ ≃ Fin b} {bs : List β} {f : β → Matrix ι κ K} (h : t.IsMt e e' bs f) :
    t.size 1 = .ok a := by rw [Tens.size, h.1]; rfl

theorem Tens.IsMt.size2 {t : Tens K} {e : ι ≃ Fin a} {e' : κ ≃ Fin b} {bs : List β} {f : β → Matrix ι κ K} (h : t.IsMt e e' bs f) :
    t.size 2 = .ok b := by rw [Tens.size, h.1]; rfl

theorem Tens.IsMt.sizeLast {t : Tens K} {e : ι ≃ Fin a} {e' : κ ≃ Fin b} {bs : List β} {f : β → Matrix ι κ K} (h : t.IsMt e e' bs f) :
    t.size (-1) = .ok b := by rw [Tens.size, h.1]; rfl

theorem Tens.IsVt.size0 {t : Tens K} {e : ι ≃ Fin a} {bs : List β} {f : β → ι → K} (h : t.IsVt e bs f) :
    t.size 0 = .ok bs.length := by rw [Tens.size, h.1]; rfl

theorem Tens.IsVt.size1 {t : Tens K} {e : ι ≃ Fin a} {bs : List β} {f : β → ι → K} (h : t.IsVt e bs f) :
    t.size 1 = .ok a := by rw [Tens.size, h.1]; rfl

/-- Two batches one after the other. -/
theorem Tens.IsMt.append {t t' : Tens K} {e : ι ≃ Fin a} {e' : κ ≃ Fin b} {bs cs : List β} {f : β → Matrix ι κ K}
    (h : t.IsMt e e' bs f) (h' : t'.IsMt e e' cs f) : ∃ r, t.concat t' 0 = .ok r ∧ r.IsMt e e' (bs ++ cs) f := by
  obtain ⟨s, v⟩ := t
  obtain ⟨s', v'⟩ := t'
  obtain ⟨h1, h2⟩ := h
  obtain ⟨h3, h4⟩ := h'
  dsimp only at h1 h2 h3 h4
  subst h1 h3
  refine ⟨_, concat_eq (by rfl) (by rfl) (by rfl), by simp, fun k hk i j => ?_⟩
  rw [List.length_append] at hk
  by_cases hb : k < bs.length
  · simp only [List.getElem_append_left hb, ← h2 k hb i j]
    simp [hb]
  · simp only [List.getElem_append_right (Nat.le_of_not_lt hb), ← h4 (k - bs.length) (by omega) i j]
    simp [hb]

theorem Tens.IsVt.append {t t' : Tens K} {e : ι ≃ Fin a} {bs cs : List β} {f : β → ι → K}
    (h : t.IsVt e bs f) (h' : t'.IsVt e cs f) : ∃ r, t.concat t' 0 = .ok r ∧ r.IsVt e (bs ++ cs) f := by
  obtain ⟨s, v⟩ := t
  obtain ⟨s', v'⟩ := t'
  obtain ⟨h1, h2⟩ := h
  obtain ⟨h3, h4⟩ := h'
  dsimp only at h1 h2 h3 h4
  subst h1 h3
  refine ⟨_, concat_eq (by rfl) (by rfl) (by rfl), by simp, fun k hk i => ?_⟩
  rw [List.length_append] at hk
  by_cases hb : k < bs.length
  · simp only [List.getElem_append_left hb, ← h2 k hb i]
    simp [hb]
  · simp only [List.getElem_append_right (Nat.le_of_not_lt hb), ← h4 (k - bs.length) (by omega) i]
    simp [hb]

/-- Blocks side by side. -/
theorem Tens.IsMt.cols {t t' : Tens K} {e : ι ≃ Fin a} {e1 : κ ≃ Fin b} {e2 : μ ≃ Fin c} {bs : List β} {f : β → Matrix ι κ K}
    {g : β → Matrix ι μ K} (h : t.IsMt e e1 bs f) (h' : t'.IsMt e e2 bs g) :
    ∃ r, t.concat t' 2 = .ok r ∧ r.IsMt e (sumE e1 e2) bs fun x => fromCols (f x) (g x) := by
  obtain ⟨s, v⟩ := t
  obtain ⟨s', v'⟩ := t'
  obtain ⟨h1, h2⟩ := h
  obtain ⟨h3, h4⟩ := h'
  dsimp only at h1 h2 h3 h4
  subst h1 h3
  refine ⟨_, concat_eq (by rfl) (by rfl) (by rfl), rfl, fun k hk i j => ?_⟩
  rcases j with j | j
  · simp [h2 k hk i j]
  · simp [h4 k hk i j]

/-- Blocks on top of each other. -/
theorem Tens.IsMt.rows {t t' : Tens K} {e1 : ι ≃ Fin a} {e2 : κ ≃ Fin b} {e : μ ≃ Fin c} {bs : List β} {f : β → Matrix ι μ K}
    {g : β → Matrix κ μ K} (h : t.IsMt e1 e bs f) (h' : t'.IsMt e2 e bs g) :
    ∃ r, t.concat t' 1 = .ok r ∧ r.IsMt (sumE e1 e2) e bs fun x => fromRows (f x) (g x) := by
  obtain ⟨s, v⟩ := t
  obtain ⟨s', v'⟩ := t'
  obtain ⟨h1, h2⟩ := h
  obtain ⟨h3, h4⟩ := h'
  dsimp only at h1 h2 h3 h4
  subst h1 h3
  refine ⟨_, concat_eq (by rfl) (by rfl) (by rfl), rfl, fun k hk i j => ?_⟩
  rcases i with i | i
  · simp [h2 k hk i j]
  · simp [h4 k hk i j]

/-- Two vectors one after the other. -/
theorem Tens.IsVt.join {t t' : Tens K} {e1 : ι ≃ Fin a} {e2 : κ ≃ Fin b} {bs : List β} {f : β → ι → K} {g : β → κ → K}
    (h : t.IsVt e1 bs f) (h' : t'.IsVt e2 bs g) :
    ∃ r, t.concat t' 1 = .ok r ∧ r.IsVt (sumE e1 e2) bs fun x => Sum.elim (f x) (g x) := by
  obtain ⟨s, v⟩ := t
  obtain ⟨s', v'⟩ := t'
  obtain ⟨h1, h2⟩ := h
  obtain ⟨h3, h4⟩ := h'
  dsimp only at h1 h2 h3 h4
  subst h1 h3
  refine ⟨_, concat_eq (by rfl) (by rfl) (by rfl), rfl, fun k hk i => ?_⟩
  rcases i with i | i
  · simp [h2 k hk i]
  · simp [h4 k hk i]

theorem Tens.IsVt.bin {t t' : Tens K} {e : ι ≃ Fin a} {bs : List β} {f g : β → ι → K} (op : K → K → K)
    (h : t.IsVt e bs f) (h' : t'.IsVt e bs g) : ∃ r, t.bin op t' = .ok r ∧ r.IsVt e bs fun x i => op (f x i) (g x i) := by
  obtain ⟨s, v⟩ := t
  obtain ⟨s', v'⟩ := t'
  obtain ⟨h1, h2⟩ := h
  obtain ⟨h3, h4⟩ := h'
  dsimp only at h1 h2 h3 h4
  subst h1 h3
  refine ⟨_, Tens.bin_eq (s := [bs.length, a]) (by simp [padShape]) (by simp [padShape, one_or]), by simp, fun k hk i => ?_⟩
  dsimp only
  rw [← h2 k hk i, ← h4 k hk i]
  have hi : (e i).val < a := (e i).2
  simp [bcastIdx, padShape, bc_lt, hk, hi]

/-- The transposed items. -/
theorem Tens.IsMt.batchT {t : Tens K} {e : ι ≃ Fin a} {e' : κ ≃ Fin b} {bs : List β} {f : β → Matrix ι κ K} (h : t.IsMt e e' bs f) :
    ∃ r, t.batchT = .ok r ∧ r.IsMt e' e bs fun x => (f x)ᵀ := by
  obtain ⟨s, v⟩ := t
  obtain ⟨h1, h2⟩ := h
  dsimp only at h1 h2
  subst h1
  exact ⟨_, rfl, rfl, fun k hk i j => h2 k hk j i⟩

/-- The upper rows. -/
theorem Tens.IsMt.rows₁ {t : Tens K} {e1 : ι ≃ Fin a} {e2 : κ ≃ Fin b} {e : μ ≃ Fin c} {bs : List β} {f : β → Matrix (ι ⊕ κ) μ K}
    (h : t.IsMt (sumE e1 e2) e bs f) : ∃ r, t.slice 1 0 a = .ok r ∧ r.IsMt e1 e bs fun x => (f x).toRows₁ := by
  obtain ⟨s, v⟩ := t
  obtain ⟨h1, h2⟩ := h
  dsimp only at h1 h2
  subst h1
  refine ⟨_, rfl, by simp, fun k hk i j => ?_⟩
  simpa using h2 k hk (.inl i) j

/-- The lower rows. -/
theorem Tens.IsMt.rows₂ {t : Tens K} {e1 : ι ≃ Fin a} {e2 : κ ≃ Fin b} {e : μ ≃ Fin c} {bs : List β} {f : β → Matrix (ι ⊕ κ) μ K}
    (h : t.IsMt (sumE e1 e2) e bs f) : ∃ r, t.slice 1 a (a + b) = .ok r ∧ r.IsMt e2 e bs fun x => (f x).toRows₂ := by
  obtain ⟨s, v⟩ := t
  obtain ⟨h1, h2⟩ := h
  dsimp only at h1 h2
  subst h1
  refine ⟨_, rfl, by simp, fun k hk i j => ?_⟩
  simpa [Nat.add_comm] using h2 k hk (.inr i) j

/-- The left columns. -/
theorem Tens.IsMt.cols₁ {t : Tens K} {e1 : ι ≃ Fin a} {e2 : κ ≃ Fin b} {e : μ ≃ Fin c} {bs : List β} {f : β → Matrix μ (ι ⊕ κ) K}
    (h : t.IsMt e (sumE e1 e2) bs f) : ∃ r, t.slice 2 0 a = .ok r ∧ r.IsMt e e1 bs fun x => (f x).toCols₁ := by
  obtain ⟨s, v⟩ := t
  obtain ⟨h1, h2⟩ := h
  dsimp only at h1 h2
  subst h1
  refine ⟨_, rfl, by simp, fun k hk i j => ?_⟩
  simpa using h2 k hk i (.inl j)

/-- The right columns. -/
theorem Tens.IsMt.cols₂ {t : Tens K} {e1 : ι ≃ Fin a} {e2 : κ ≃ Fin b} {e : μ ≃ Fin c} {bs : List β} {f : β → Matrix μ (ι ⊕ κ) K}
    (h : t.IsMt e (sumE e1 e2) bs f) : ∃ r, t.slice 2 a (a + b) = .ok r ∧ r.IsMt e e2 bs fun x => (f x).toCols₂ := by
  obtain ⟨s, v⟩ := t
  obtain ⟨h1, h2⟩ := h
  dsimp only at h1 h2
  subst h1
  refine ⟨_, rfl, by simp, fun k hk i j => ?_⟩
  simpa [Nat.add_comm] using h2 k hk i (.inr j)

theorem Tens.IsVt.fst {t : Tens K} {e1 : ι ≃ Fin a} {e2 : κ ≃ Fin b} {bs : List β} {f : β → ι ⊕ κ → K}
    (h : t.IsVt (sumE e1 e2) bs f) : ∃ r, t.slice 1 0 a = .ok r ∧ r.IsVt e1 bs fun x i => f x (.inl i) := by
  obtain ⟨s, v⟩ := t
  obtain ⟨h1, h2⟩ := h
  dsimp only at h1 h2
  subst h1
  refine ⟨_, rfl, by simp, fun k hk i => ?_⟩
  simpa using h2 k hk (.inl i)

theorem Tens.IsVt.snd {t : Tens K} {e1 : ι ≃ Fin a} {e2 : κ ≃ Fin b} {bs : List β} {f : β → ι ⊕ κ → K}
    (h : t.IsVt (sumE e1 e2) bs f) : ∃ r, t.slice 1 a (a + b) = .ok r ∧ r.IsVt e2 bs fun x i => f x (.inr i) := by
  obtain ⟨s, v⟩ := t
  obtain ⟨h1, h2⟩ := h
  dsimp only at h1 h2
  subst h1
  refine ⟨_, rfl, by simp, fun k hk i => ?_⟩
  simpa [Nat.add_comm] using h2 k hk (.inr i)

section Ring
variable [Field K]

theorem Tens.IsMt.matmul [Fintype κ] {t t' : Tens K} {e1 : ι ≃ Fin a} {e2 : κ ≃ Fin b} {e3 : μ ≃ Fin c} {bs : List β}
    {f : β → Matrix ι κ K} {g : β → Matrix κ μ K} (h : t.IsMt e1 e2 bs f) (h' : t'.IsMt e2 e3 bs g) :
    ∃ r, t.matmul t' = .ok r ∧ r.IsMt e1 e3 bs fun x => f x * g x := by
  obtain ⟨s, v⟩ := t
  obtain ⟨s', v'⟩ := t'
  obtain ⟨h1, h2⟩ := h
  obtain ⟨h3, h4⟩ := h'
  dsimp only at h1 h2 h3 h4
  subst h1 h3
  refine ⟨_, if_pos ⟨rfl, rfl⟩, rfl, fun k hk i j => ?_⟩
  dsimp only
  rw [Finset.sum_range, ← Equiv.sum_comp e2, mul_apply]
  exact Finset.sum_congr rfl fun x _ => by rw [← h2 k hk i x, ← h4 k hk x j]; rfl

theorem Tens.IsMt.matvec [Fintype κ] {t t' : Tens K} {e1 : ι ≃ Fin a} {e2 : κ ≃ Fin b} {bs : List β}
    {f : β → Matrix ι κ K} {g : β → κ → K} (h : t.IsMt e1 e2 bs f) (h' : t'.IsVt e2 bs g) :
    ∃ r, t.matvec t' = .ok r ∧ r.IsVt e1 bs fun x => f x *ᵥ g x := by
  obtain ⟨s, v⟩ := t
  obtain ⟨s', v'⟩ := t'
  obtain ⟨h1, h2⟩ := h
  obtain ⟨h3, h4⟩ := h'
  dsimp only at h1 h2 h3 h4
  subst h1 h3
  refine ⟨_, if_pos ⟨rfl, rfl⟩, rfl, fun k hk i => ?_⟩
  dsimp only
  rw [Finset.sum_range, ← Equiv.sum_comp e2, mulVec, dotProduct]
  exact Finset.sum_congr rfl fun x _ => by rw [← h2 k hk i x, ← h4 k hk x]; rfl

theorem eye_isMt [DecidableEq ι] (e : ι ≃ Fin a) (bs : List β) : (Tens.eye bs.length a : Tens K).IsMt e e bs fun _ => 1 := by
  refine ⟨rfl, fun k hk i j => ?_⟩
  show (if (e i).val = (e j).val then (1 : K) else 0) = (1 : Matrix ι ι K) i j
  rw [one_apply]
  simp only [Fin.val_inj, e.apply_eq_iff_eq]

theorem zero_isMt (e : ι ≃ Fin a) (e' : κ ≃ Fin b) (bs : List β) : (Tens.const [bs.length, a, b] (0 : K)).IsMt e e' bs fun _ => 0 :=
  ⟨rfl, fun _ _ _ _ => rfl⟩

theorem zero_isVt (e : ι ≃ Fin a) (bs : List β) : (Tens.const [bs.length, a] (0 : K)).IsVt e bs fun _ => 0 :=
  ⟨rfl, fun _ _ _ => rfl⟩

/-- Zeros on the right. -/
theorem Tens.IsMt.padRight {t : Tens K} {e : ι ≃ Fin a} {e1 : κ ≃ Fin b} (e2 : μ ≃ Fin c) {bs : List β} {f : β → Matrix ι κ K}
    (h : t.IsMt e e1 bs f) : ∃ r, t.pad 2 0 c = .ok r ∧ r.IsMt e (sumE e1 e2) bs fun x => fromCols (f x) 0 := by
  obtain ⟨s, v⟩ := t
  obtain ⟨h1, h2⟩ := h
  dsimp only at h1 h2
  subst h1
  refine ⟨_, rfl, by simp, fun k hk i j => ?_⟩
  rcases j with j | j
  · simp [h2 k hk i j]
  · simp

/-- Zeros on the left. -/
theorem Tens.IsMt.padLeft {t : Tens K} {e : ι ≃ Fin a} (e1 : κ ≃ Fin b) {e2 : μ ≃ Fin c} {bs : List β} {f : β → Matrix ι μ K}
    (h : t.IsMt e e2 bs f) : ∃ r, t.pad 2 b 0 = .ok r ∧ r.IsMt e (sumE e1 e2) bs fun x => fromCols 0 (f x) := by
  obtain ⟨s, v⟩ := t
  obtain ⟨h1, h2⟩ := h
  dsimp only at h1 h2
  subst h1
  refine ⟨_, rfl, by simp, fun k hk i j => ?_⟩
  have hb : ∀ j, ¬ b ≤ (e1 j).val := fun j => by have := (e1 j).2; omega
  rcases j with j | j
  · simp [hb]
  · simp [h2 k hk i j]

end Ring

/-! ### Reshaping -/

theorem ravel_lt {s i : List ℕ} (h : List.Forall₂ (· < ·) i s) : ravel s i < s.prod := by
  induction h with
  | nil => simp [ravel]
  | @cons x n i s hx _ ih =>
    rw [ravel, List.prod_cons]
    calc x * s.prod + ravel s i < x * s.prod + s.prod := by omega
      _ = (x + 1) * s.prod := by ring
      _ ≤ n * s.prod := Nat.mul_le_mul_right _ hx

theorem unravel_ravel {s i : List ℕ} (h : List.Forall₂ (· < ·) i s) : unravel s (ravel s i) = i := by
  induction h with
  | nil => rfl
  | @cons x n i s hx hi ih =>
    have hl := ravel_lt hi
    have hp : 0 < s.prod := by omega
    rw [ravel, unravel, Nat.mul_comm, Nat.mul_add_div hp, Nat.div_eq_of_lt hl, Nat.mul_add_mod, Nat.mod_eq_of_lt hl, ih, Nat.add_zero]

/-- The entries of a reshaped tensor, when the index with the same number is known. -/
theorem reshape_val {t : Tens K} {s i j : List ℕ} (hp : t.shape.prod = s.prod) (hj : List.Forall₂ (· < ·) j t.shape)
    (hr : ravel s i = ravel t.shape j) : ∃ r, t.reshape s = .ok r ∧ r.shape = s ∧ r.val i = t.val j := by
  refine ⟨_, if_pos hp, rfl, ?_⟩
  show t.val (unravel t.shape (ravel s i)) = _
  rw [hr, unravel_ravel hj]

end Verif
