import Verif.Model.SpeedHJB
import Verif.Proof.TextModel

/-! Helper lemmas for C84. -/

namespace Verif

variable {n m : ℕ}

theorem nanAbsDiff_eq_bot {a b : WithBot ℝ} : nanAbsDiff a b = ⊥ ↔ a = ⊥ ∨ b = ⊥ := by
  match a, b with
  | some a, some b => simp [nanAbsDiff]
  | some a, ⊥ => simp [nanAbsDiff]
  | ⊥, b => simp [nanAbsDiff]

theorem nanMax_eq_bot {a b : WithBot ℝ} : nanMax a b = ⊥ ↔ a = ⊥ ∨ b = ⊥ := by
  match a, b with
  | some a, some b => simp [nanMax]
  | some a, ⊥ => simp [nanMax]
  | ⊥, b => simp [nanMax]

theorem foldl_nanMax (es : List (WithBot ℝ)) : ∀ e : WithBot ℝ, (es.foldl nanMax e = ⊥ ↔ ⊥ ∈ e :: es) ∧
    ∀ c : ℝ, es.foldl nanMax e = (c : WithBot ℝ) → (c : WithBot ℝ) ∈ e :: es ∧ ∀ a ∈ e :: es, a ≤ (c : WithBot ℝ) := by
  induction es with
  | nil =>
    intro e
    refine ⟨by simp [eq_comm], fun c h => ?_⟩
    obtain rfl : e = c := h
    simp
  | cons b es ih =>
    intro e
    rw [List.foldl_cons]
    obtain ⟨h1, h2⟩ := ih (nanMax e b)
    refine ⟨?_, fun c hc => ?_⟩
    · rw [h1]
      simp only [List.mem_cons, eq_comm (a := (⊥ : WithBot ℝ)), nanMax_eq_bot]
      tauto
    · obtain ⟨h3, h4⟩ := h2 c hc
      have hne : ¬ (⊥ ∈ nanMax e b :: es) := fun h => by
        rw [h1.2 h] at hc
        exact WithBot.bot_ne_coe hc
      match e, b with
      | some x, some y =>
        have hm : nanMax (some x) (some y) = ((max x y : ℝ) : WithBot ℝ) := rfl
        rw [hm] at h3 h4
        have hle := h4 _ (List.mem_cons_self ..)
        rw [WithBot.coe_le_coe] at hle
        constructor
        · rcases List.mem_cons.1 h3 with h | h
          · rw [WithBot.coe_inj] at h
            rcases max_choice x y with h' | h'
            · rw [h, h']; exact List.mem_cons_self ..
            · rw [h, h']; exact List.mem_cons_of_mem _ (List.mem_cons_self ..)
          · exact List.mem_cons_of_mem _ (List.mem_cons_of_mem _ h)
        · intro a ha
          rcases List.mem_cons.1 ha with rfl | ha
          · exact WithBot.coe_le_coe.2 ((le_max_left _ _).trans hle)
          · rcases List.mem_cons.1 ha with rfl | ha
            · exact WithBot.coe_le_coe.2 ((le_max_right _ _).trans hle)
            · exact h4 a (List.mem_cons_of_mem _ ha)
      | ⊥, b => exact absurd (List.mem_cons.2 (.inl (nanMax_eq_bot.2 (.inl rfl)).symm)) hne
      | some x, ⊥ => exact absurd (List.mem_cons.2 (.inl (nanMax_eq_bot.2 (.inr rfl)).symm)) hne

/-- The error over a range of columns that is not empty. -/
theorem hjbMaxAbs_ok {lo hi : ℕ} {As Bs : List (Fin n → WithBot ℝ)} (h : As.length = Bs.length) (hne : As ≠ [])
    (hr : ∃ i : Fin n, lo ≤ (i : ℕ) ∧ (i : ℕ) < hi) :
    ∃ e, hjbMaxAbs lo hi As Bs = .ok e ∧
      (e = ⊥ ↔ ∃ (k : ℕ) (A B : Fin n → WithBot ℝ) (i : Fin n), As[k]? = some A ∧ Bs[k]? = some B ∧ lo ≤ (i : ℕ) ∧ (i : ℕ) < hi ∧
        (A i = ⊥ ∨ B i = ⊥)) ∧
      ∀ c : ℝ, e = (c : WithBot ℝ) →
        (∀ (k : ℕ) A B, As[k]? = some A → Bs[k]? = some B → ∀ i : Fin n, lo ≤ (i : ℕ) → (i : ℕ) < hi →
          nanAbsDiff (A i) (B i) ≤ (c : WithBot ℝ)) ∧
        ∃ (k : ℕ) (A B : Fin n → WithBot ℝ) (i : Fin n), As[k]? = some A ∧ Bs[k]? = some B ∧ lo ≤ (i : ℕ) ∧ (i : ℕ) < hi ∧
          nanAbsDiff (A i) (B i) = (c : WithBot ℝ) := by
  unfold hjbMaxAbs
  rw [if_neg (by simpa using h)]
  dsimp only
  have hmem : ∀ e, e ∈ ((As.zip Bs).flatMap fun p =>
        ((List.finRange n).filter fun i : Fin n => lo ≤ (i : ℕ) ∧ (i : ℕ) < hi).map fun i => nanAbsDiff (p.1 i) (p.2 i)) ↔
      ∃ (k : ℕ) (A B : Fin n → WithBot ℝ) (i : Fin n), As[k]? = some A ∧ Bs[k]? = some B ∧ lo ≤ (i : ℕ) ∧ (i : ℕ) < hi ∧
        nanAbsDiff (A i) (B i) = e := by
    intro e
    simp only [List.mem_flatMap, List.mem_map, List.mem_filter, List.mem_finRange, true_and, Prod.exists, decide_eq_true_eq]
    constructor
    · rintro ⟨A, B, hAB, i, ⟨h1, h2⟩, rfl⟩
      obtain ⟨k, hk⟩ := List.mem_iff_getElem?.1 hAB
      rw [List.getElem?_zip_eq_some] at hk
      exact ⟨k, A, B, i, hk.1, hk.2, h1, h2, rfl⟩
    · rintro ⟨k, A, B, i, hA, hB, h1, h2, rfl⟩
      exact ⟨A, B, List.mem_iff_getElem?.2 ⟨k, List.getElem?_zip_eq_some.2 ⟨hA, hB⟩⟩, i, ⟨h1, h2⟩, rfl⟩
  obtain ⟨i0, hi0⟩ := hr
  have hpos : 0 < As.length := List.length_pos_iff.2 hne
  generalize ((As.zip Bs).flatMap fun p =>
        ((List.finRange n).filter fun i : Fin n => lo ≤ (i : ℕ) ∧ (i : ℕ) < hi).map fun i => nanAbsDiff (p.1 i) (p.2 i)) = L at hmem ⊢
  match L, hmem with
  | [], hmem =>
    have := (hmem _).2 ⟨0, _, _, i0, List.getElem?_eq_getElem hpos, List.getElem?_eq_getElem (h ▸ hpos), hi0.1, hi0.2, rfl⟩
    cases this
  | e :: es, hmem =>
    obtain ⟨h1, h2⟩ := foldl_nanMax es e
    refine ⟨_, rfl, ?_, fun c hc => ?_⟩
    · rw [h1, hmem]
      simp only [nanAbsDiff_eq_bot]
    · obtain ⟨h3, h4⟩ := h2 c hc
      exact ⟨fun k A B hA hB i h5 h6 => h4 _ ((hmem _).2 ⟨k, A, B, i, hA, hB, h5, h6, rfl⟩), (hmem _).1 h3⟩

theorem hjbSpeed_eq [NeZero m] {M : CModel (n + 2) m ℝ} {block_T : ℝ} {blocks steps n_iter : ℕ} (hn : n_iter ≠ 0)
    {run : Py (List (Fin (n + 2) → WithBot ℝ))} {Vs Vs0 : List (Fin (n + 2) → WithBot ℝ)} (h : run = .ok Vs)
    (h0 : M.spSeqUpwind block_T blocks steps = .ok Vs0) {e1 e2 : WithBot ℝ} (h1 : hjbMaxAbs 0 (n + 2) Vs Vs0 = .ok e1)
    (h2 : hjbMaxAbs ((n + 2) / 3) (2 * (n + 2) / 3) Vs Vs0 = .ok e2) : M.hjbSpeed block_T blocks steps n_iter run = .ok (e1, e2) := by
  subst h
  unfold CModel.hjbSpeed
  have hl : ∀ (l : List ℕ), l.foldlM (fun (_ : List (Fin (n + 2) → WithBot ℝ)) (_ : ℕ) => (Except.ok Vs : Py _)) Vs = .ok Vs := by
    intro l
    induction l with
    | nil => rfl
    | cons a l ih => rw [List.foldlM_cons]; exact ih
  rw [py_ok_bind, hl, py_ok_bind, if_neg hn, h0]
  show (hjbMaxAbs 0 (n + 2) Vs Vs0 >>= _) = _
  rw [h1, py_ok_bind, h2]
  rfl

theorem hjbSpeed_zero [NeZero m] {M : CModel (n + 2) m ℝ} {block_T : ℝ} {blocks steps : ℕ} {run : Py (List (Fin (n + 2) → WithBot ℝ))}
    {Vs : List (Fin (n + 2) → WithBot ℝ)} (h : run = .ok Vs) : M.hjbSpeed block_T blocks steps 0 run = .error .zeroDivisionError := by
  subst h
  rfl

theorem hjbSpeed_error [NeZero m] {M : CModel (n + 2) m ℝ} {block_T : ℝ} {blocks steps n_iter : ℕ}
    {run : Py (List (Fin (n + 2) → WithBot ℝ))} {e : PyErr} (h : run = .error e) :
    M.hjbSpeed block_T blocks steps n_iter run = .error e := by
  subst h
  rfl

theorem third_ne (n : ℕ) : ∃ i : Fin (n + 2), (n + 2) / 3 ≤ (i : ℕ) ∧ (i : ℕ) < 2 * (n + 2) / 3 :=
  ⟨⟨(n + 2) / 3, by omega⟩, le_rfl, by
    show (n + 2) / 3 < 2 * (n + 2) / 3
    rcases Nat.eq_zero_or_pos n with rfl | h
    · norm_num
    · omega⟩

end Verif
