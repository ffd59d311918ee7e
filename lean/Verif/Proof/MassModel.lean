import Verif.Proof.MassStep

/-! Helper lemmas for the chain of masses: the object built by the constructor and the equations of motion. -/

namespace Verif

open Matrix

variable {K : Type} [Field K] [CharZero K]

/-- The value of `Fc`. -/
def massFc (N : ℕ) : Matrix (Fin (2 * N)) (Fin (2 * N)) K := Matrix.of fun r c => massEntry r.val c.val

/-- The value of `Lc`. -/
def massLc (N : ℕ) : Matrix (Fin (2 * N)) (Fin 2) K :=
  Matrix.of fun r c => if c = 0 then (if r.val = 1 then 1 else 0) else (if r.val + 1 = 2 * N then -1 else 0)

/-- The value of `x0`. -/
def massX0 (N : ℕ) : Fin (2 * N) → K := fun r => if r.val = 0 ∨ r.val = 2 * (N / 2) then 1 else 0

theorem massLoop (N : ℕ) : ∀ k, k ≤ N → (List.range k).foldlM (massStep N) (0 : Matrix (Fin (2 * N)) (Fin (2 * N)) K) =
    .ok (Matrix.of fun r c => if r.val / 2 < k then massEntry r.val c.val else 0)
  | 0, _ => by
    refine congrArg Except.ok ?_
    ext r c
    simp
  | k + 1, h => by
    rw [List.range_succ, List.foldlM_append, massLoop N k (by omega)]
    show (List.foldlM (massStep N) _ [k] : Py _) = _
    rw [List.foldlM_cons, massStep_eq _ k (by omega) (by intro r c hr; rw [Matrix.of_apply, if_neg (by omega)])]
    refine congrArg Except.ok ?_
    ext r c
    simp only [Matrix.of_apply]
    split_ifs <;> first | rfl | omega

theorem massInit_eq (N : ℕ) (hN : 0 < N) :
    (MassModel.init N : Py (MassModel N K)) = .ok ⟨1, (1 / 10 : K) • 1, 1, massFc N, massLc N, massX0 N⟩ := by
  have hb : ∀ {α β : Type} (a : α) (f : α → Py β), ((Except.ok a : Py α) >>= f) = f a := fun _ _ => rfl
  unfold MassModel.init
  dsimp only
  rw [massLoop N N le_rfl, hb]
  have e1 : npSet2 (0 : Matrix (Fin (2 * N)) (Fin 2) K) 1 0 (1 / massM) =
      .ok (Matrix.of fun r c => if c = 0 then (if r.val = 1 then 1 else 0) else 0) := by
    rw [npSet2_nat _ 1 0 1 0 rfl rfl (by omega) (by omega)]
    refine congrArg Except.ok ?_
    ext r c
    simp only [Matrix.of_apply, Fin.ext_iff, massM, Matrix.zero_apply, one_div_one]
    by_cases h1 : r.val = 1 <;> by_cases h2 : c.val = 0 <;> simp [h1, h2]
  have e2 : npSet2 (Matrix.of fun (r : Fin (2 * N)) (c : Fin 2) => if c = 0 then (if r.val = 1 then (1 : K) else 0) else 0)
      (-1) 1 (-1 / massM) = .ok (massLc N) := by
    unfold npSet2
    rw [npIndex_last (by omega), hb, npIndex_nat (n := 2) 1 1 rfl (by omega), hb]
    refine congrArg Except.ok ?_
    ext r c
    simp only [massLc, Matrix.of_apply, Fin.ext_iff, massM, div_one]
    have h2 : c.val = 0 ∨ c.val = 1 := by omega
    have hr : r.val = 2 * N - 1 ↔ r.val + 1 = 2 * N := by omega
    rcases h2 with h2 | h2 <;> by_cases h1 : r.val + 1 = 2 * N <;> simp [h1, h2, hr]
  have e3 : ∀ (f : Fin (2 * N) → K) (a : ℤ) (k : ℕ) (_ : a = k) (hk : k < 2 * N) (v : K),
      npSet1 f a v = .ok fun r => if r = ⟨k, hk⟩ then v else f r := by
    intro f a k ha hk v
    unfold npSet1
    rw [npIndex_nat a k ha hk]
    rfl
  have e4 : (npSet1 (0 : Fin (2 * N) → K) 0 1 >>= fun x0 => if N % 2 = 0 then npSet1 x0 N 1 else npSet1 x0 (N - 1) 1) =
      .ok (massX0 N) := by
    rw [e3 _ 0 0 rfl (by omega) _, hb]
    split_ifs with h
    · rw [e3 _ N N rfl (by omega)]
      refine congrArg Except.ok ?_
      funext r
      simp only [massX0, Fin.ext_iff, Pi.zero_apply]
      split_ifs <;> first | rfl | omega
    · rw [e3 _ _ (N - 1) (by omega) (by omega)]
      refine congrArg Except.ok ?_
      funext r
      simp only [massX0, Fin.ext_iff, Pi.zero_apply]
      split_ifs <;> first | rfl | omega
  have e5 : (Matrix.of fun (r : Fin (2 * N)) (c : Fin (2 * N)) => if r.val / 2 < N then (massEntry r.val c.val : K) else 0) =
      massFc N := by
    ext r c
    have := r.2
    simp only [massFc, Matrix.of_apply]
    rw [if_pos (by omega)]
  rw [e1, hb, e2, hb, e5]
  obtain ⟨x1, h1, h2⟩ := bind_ok.1 e4
  rw [h1, hb]
  split_ifs at h2 ⊢ with h
  · rw [h2]; rfl
  · rw [h2]; rfl

omit [CharZero K] in
theorem massInit_zero : (MassModel.init 0 : Py (MassModel 0 K)) = .error .indexError := by
  unfold MassModel.init
  dsimp only
  rw [npSet2_err (0 : Matrix (Fin (2 * 0)) (Fin 2) K) 1 0 (by norm_num)]
  rfl

omit [CharZero K] in
theorem sum_entry {n : ℕ} (x : Fin n → K) (a : K) (s k : ℕ) :
    ∑ c : Fin n, (if c.val + s = k then a else 0) * x c =
      if h : s ≤ k ∧ k - s < n then a * x ⟨k - s, h.2⟩ else 0 := by
  split_ifs with h
  · rw [Finset.sum_eq_single (⟨k - s, h.2⟩ : Fin n)]
    · rw [if_pos (by dsimp only; omega)]
    · intro c _ hc
      rw [if_neg, zero_mul]
      intro h'
      exact hc (Fin.ext (by dsimp only; omega))
    · intro h'; exact absurd (Finset.mem_univ _) h'
  · apply Finset.sum_eq_zero
    intro c _
    rw [if_neg, zero_mul]
    intro h'
    have := c.2
    omega

omit [CharZero K] in
theorem massFc_pos {N : ℕ} (x : Fin (2 * N) → K) (u : Fin 2 → K) (i : ℕ) (h1 : 1 ≤ i) (h2 : i ≤ N) :
    (massFc N *ᵥ x + massLc N *ᵥ u) ⟨2 * (i - 1), by omega⟩ = chainV x i := by
  rw [Pi.add_apply]
  have e1 : (massFc N *ᵥ x) ⟨2 * (i - 1), by omega⟩ = chainV x i := by
    simp only [mulVec, dotProduct, massFc, Matrix.of_apply, massEntry]
    have hp : 2 * (i - 1) % 2 = 0 := by omega
    simp only [hp, ↓reduceIte]
    have := sum_entry x 1 0 (2 * (i - 1) + 1)
    simp only [add_zero] at this
    rw [this, dif_pos ⟨by omega, by omega⟩, one_mul]
    unfold chainV
    rw [dif_pos ⟨h1, h2⟩]
    rfl
  have e2 : (massLc N *ᵥ u) ⟨2 * (i - 1), by omega⟩ = 0 := by
    simp only [mulVec, dotProduct, massLc, Matrix.of_apply, Fin.sum_univ_two, Fin.isValue]
    rw [if_pos trivial, if_neg (show ¬ (2 * (i - 1) = 1) by omega), if_neg (show ¬ (1 : Fin 2) = 0 by decide),
      if_neg (show ¬ (2 * (i - 1) + 1 = 2 * N) by omega)]
    ring
  rw [e1, e2, add_zero]

omit [CharZero K] in
theorem massFc_vel {N : ℕ} (x : Fin (2 * N) → K) (u : Fin 2 → K) (i : ℕ) (h1 : 1 ≤ i) (h2 : i ≤ N) :
    (massFc N *ᵥ x + massLc N *ᵥ u) ⟨2 * (i - 1) + 1, by omega⟩ = chainAcc x u i := by
  rw [Pi.add_apply]
  obtain ⟨j, rfl⟩ : ∃ j, i = j + 1 := ⟨i - 1, by omega⟩
  have e1 : (massFc N *ᵥ x) ⟨2 * (j + 1 - 1) + 1, by omega⟩ =
      (chainY x j - 2 * chainY x (j + 1) + chainY x (j + 2)) +
        (1 / 5) * (chainV x j - 2 * chainV x (j + 1) + chainV x (j + 2)) := by
    simp only [mulVec, dotProduct, massFc, Matrix.of_apply, massEntry]
    simp only [add_tsub_cancel_right]
    have hp : ¬ ((2 * j + 1) % 2 = 0) := by omega
    simp only [hp, ↓reduceIte]
    simp only [add_mul, Finset.sum_add_distrib]
    have s1 := sum_entry x (-2) 1 (2 * j + 1)
    have s2 := sum_entry x (-2 * (1 / 5)) 0 (2 * j + 1)
    have s3 := sum_entry x 1 3 (2 * j + 1)
    have s4 := sum_entry x (1 / 5) 2 (2 * j + 1)
    have s5 := sum_entry x 1 0 (2 * j + 1 + 1)
    have s6 := sum_entry x (1 / 5) 0 (2 * j + 1 + 2)
    simp only [add_zero] at s2 s5 s6
    rw [s1, s2, s3, s4, s5, s6]
    have t1 : (if h : 1 ≤ 2 * j + 1 ∧ 2 * j + 1 - 1 < 2 * N then -2 * x ⟨2 * j + 1 - 1, h.2⟩ else 0) = -2 * chainY x (j + 1) := by
      unfold chainY
      rw [dif_pos ⟨by omega, by omega⟩, dif_pos ⟨h1, h2⟩]
      rfl
    have t2 : (if h : 0 ≤ 2 * j + 1 ∧ 2 * j + 1 - 0 < 2 * N then -2 * (1 / 5) * x ⟨2 * j + 1 - 0, h.2⟩ else 0) =
        -2 * (1 / 5) * chainV x (j + 1) := by
      unfold chainV
      rw [dif_pos ⟨by omega, by omega⟩, dif_pos ⟨h1, h2⟩]
      rfl
    have t3 : (if h : 3 ≤ 2 * j + 1 ∧ 2 * j + 1 - 3 < 2 * N then 1 * x ⟨2 * j + 1 - 3, h.2⟩ else 0) = chainY x j := by
      unfold chainY
      by_cases hj : 1 ≤ j
      · rw [dif_pos ⟨by omega, by omega⟩, dif_pos ⟨hj, by omega⟩, one_mul]
        congr 2
        omega
      · rw [dif_neg (by omega), dif_neg (by omega)]
    have t4 : (if h : 2 ≤ 2 * j + 1 ∧ 2 * j + 1 - 2 < 2 * N then 1 / 5 * x ⟨2 * j + 1 - 2, h.2⟩ else 0) = 1 / 5 * chainV x j := by
      unfold chainV
      by_cases hj : 1 ≤ j
      · rw [dif_pos ⟨by omega, by omega⟩, dif_pos ⟨hj, by omega⟩]
        congr 3
        omega
      · rw [dif_neg (by omega), dif_neg (by omega), mul_zero]
    have t5 : (if h : 0 ≤ 2 * j + 1 + 1 ∧ 2 * j + 1 + 1 - 0 < 2 * N then 1 * x ⟨2 * j + 1 + 1 - 0, h.2⟩ else 0) = chainY x (j + 2) := by
      unfold chainY
      by_cases hj : j + 2 ≤ N
      · rw [dif_pos ⟨by omega, by omega⟩, dif_pos ⟨by omega, hj⟩, one_mul]
        rfl
      · rw [dif_neg (by omega), dif_neg (by omega)]
    have t6 : (if h : 0 ≤ 2 * j + 1 + 2 ∧ 2 * j + 1 + 2 - 0 < 2 * N then 1 / 5 * x ⟨2 * j + 1 + 2 - 0, h.2⟩ else 0) =
        1 / 5 * chainV x (j + 2) := by
      unfold chainV
      by_cases hj : j + 2 ≤ N
      · rw [dif_pos ⟨by omega, by omega⟩, dif_pos ⟨by omega, hj⟩]
        rfl
      · rw [dif_neg (by omega), dif_neg (by omega), mul_zero]
    rw [t1, t2, t3, t4, t5, t6]
    ring
  have e2 : (massLc N *ᵥ u) ⟨2 * (j + 1 - 1) + 1, by omega⟩ = (if j + 1 = 1 then u 0 else 0) - (if j + 1 = N then u 1 else 0) := by
    simp only [mulVec, dotProduct, massLc, Matrix.of_apply, Fin.sum_univ_two, Fin.isValue]
    rw [if_pos trivial, if_neg (show ¬ (1 : Fin 2) = 0 by decide)]
    have a1 : (2 * (j + 1 - 1) + 1 = 1) ↔ j + 1 = 1 := by omega
    have a2 : (2 * (j + 1 - 1) + 1 + 1 = 2 * N) ↔ j + 1 = N := by omega
    simp only [a1, a2]
    split_ifs <;> ring
  rw [e1, e2]
  unfold chainAcc
  simp only [add_tsub_cancel_right]
  ring

end Verif
