import Verif.Model.MassModel
import Verif.Spec.MassModel
import Verif.Proof.Disc
import Mathlib.Tactic.Linarith
import Mathlib.Tactic.FieldSimp

/-! Helper lemmas for the chain of masses. -/

namespace Verif

open Matrix

variable {K : Type}

theorem npIndex_nat {n : ℕ} (i : ℤ) (k : ℕ) (h : i = k) (hk : k < n) : npIndex n i = .ok ⟨k, hk⟩ := by
  subst h
  have e : (if (k : ℤ) < 0 then (k : ℤ) + n else k) = k := if_neg (by omega)
  unfold npIndex
  simp only [e]
  rw [dif_pos ⟨by omega, by omega⟩]
  rfl

theorem npIndex_last {n : ℕ} (h : 0 < n) : npIndex n (-1) = .ok ⟨n - 1, by omega⟩ := by
  have e : (if (-1 : ℤ) < 0 then (-1 : ℤ) + n else -1) = (n - 1 : ℕ) := by rw [if_pos (by omega)]; omega
  unfold npIndex
  simp only [e]
  rw [dif_pos ⟨by omega, by omega⟩]
  rfl

theorem npSet2_nat {p q : ℕ} (A : Matrix (Fin p) (Fin q) K) (a b : ℤ) (i j : ℕ) (ha : a = i) (hb : b = j) (hi : i < p)
    (hj : j < q) (v : K) :
    npSet2 A a b v = .ok (Matrix.of fun i' j' => if i' = (⟨i, hi⟩ : Fin p) ∧ j' = (⟨j, hj⟩ : Fin q) then v else A i' j') := by
  unfold npSet2
  rw [npIndex_nat a i ha hi, npIndex_nat b j hb hj]
  rfl

theorem npSet2_err {p q : ℕ} (A : Matrix (Fin p) (Fin q) K) (a b : ℤ) (h : (p : ℤ) ≤ a) (v : K) :
    npSet2 A a b v = .error .indexError := by
  have e : (if a < 0 then a + p else a) = a := if_neg (by omega)
  unfold npSet2 npIndex
  simp only [e]
  rw [dif_neg (by omega)]
  rfl

variable [Field K] [CharZero K]

/-- The entries of `Fc`. -/
def massEntry (r c : ℕ) : K :=
  if r % 2 = 0 then (if c = r + 1 then 1 else 0)
  else (if c + 1 = r then -2 else 0) + (if c = r then -2 * (1 / 5) else 0) + (if c + 3 = r then 1 else 0) +
    (if c + 2 = r then 1 / 5 else 0) + (if c = r + 1 then 1 else 0) + (if c = r + 2 then 1 / 5 else 0)

theorem massD_eq : (massD : K) = 1 / 5 := by unfold massD; norm_num

local macro "mass_entries" hA:ident A:ident i:ident : tactic => `(tactic| (
  refine congrArg Except.ok ?_
  ext r c
  have hr := r.2
  have hcc := c.2
  have hAr := $hA r c
  simp only [Matrix.of_apply, Fin.ext_iff, massEntry]
  generalize $A r c = v at *
  generalize r.val = r at *
  generalize c.val = c at *
  by_cases hri : r / 2 = $i
  · have hAr := hAr hri
    rcases (show r = 2 * $i ∨ r = 2 * $i + 1 by omega) with h | h
    · subst h
      by_cases hc1 : c = 2 * $i + 1
      · simp (disch := omega) only [true_and, if_pos, if_neg, one_div_one]
      · simp (disch := omega) only [true_and, if_pos, if_neg, hAr]
    · subst h
      rcases (show c = 2 * $i ∨ c = 2 * $i + 1 ∨ c + 2 = 2 * $i ∨ c + 1 = 2 * $i ∨ c = 2 * $i + 2 ∨ c = 2 * $i + 3 ∨
          (c ≠ 2 * $i ∧ c ≠ 2 * $i + 1 ∧ c + 2 ≠ 2 * $i ∧ c + 1 ≠ 2 * $i ∧ c ≠ 2 * $i + 2 ∧ c ≠ 2 * $i + 3) by omega) with
          h | h | h | h | h | h | h <;>
        first | omega | simp (disch := omega) only [true_and, and_true, if_true, if_pos, if_neg, hAr, mul_one, div_one, add_zero, zero_add]
  · simp (disch := omega) only [if_neg]))

theorem massStep_eq {N : ℕ} (A : Matrix (Fin (2 * N)) (Fin (2 * N)) K) (i : ℕ) (hi : i < N)
    (hA : ∀ r c, r.val / 2 = i → A r c = 0) :
    massStep N A i = .ok (Matrix.of fun r c => if r.val / 2 = i then massEntry r.val c.val else A r c) := by
  have hb : ∀ {α β : Type} (a : α) (f : α → Py β), ((Except.ok a : Py α) >>= f) = f a := fun _ _ => rfl
  unfold massStep
  dsimp only
  rw [npSet2_nat A _ _ (2 * i) (2 * i + 1) (by push_cast; ring) (by push_cast; ring) (by omega) (by omega), hb,
    npSet2_nat _ _ _ (2 * i + 1) (2 * i) (by push_cast; ring) (by push_cast; ring) (by omega) (by omega), hb,
    npSet2_nat _ _ _ (2 * i + 1) (2 * i + 1) (by push_cast; ring) (by push_cast; ring) (by omega) (by omega), hb]
  have hm : (massM : K) = 1 := rfl
  have hc : (massC : K) = 1 := rfl
  rw [massD_eq, hm, hc]
  by_cases h0 : i = 0
  · rw [if_neg (by omega)]
    rw [show ∀ {α : Type} (a : α), (pure a : Py α) = .ok a from fun _ => rfl, hb]
    by_cases h1 : i + 1 = N
    · rw [if_neg (by omega)]
      mass_entries hA A i
    · rw [if_pos (by omega), npSet2_nat _ _ _ (2 * i + 1) (2 * (i + 1)) (by push_cast; ring) (by push_cast; ring) (by omega) (by omega), hb,
        npSet2_nat _ _ _ (2 * i + 1) (2 * (i + 1) + 1) (by push_cast; ring) (by push_cast; ring) (by omega) (by omega)]
      mass_entries hA A i
  · rw [if_pos (by omega), npSet2_nat _ _ _ (2 * i + 1) (2 * (i - 1)) (by push_cast; ring) (by omega) (by omega) (by omega), hb,
      npSet2_nat _ _ _ (2 * i + 1) (2 * (i - 1) + 1) (by push_cast; ring) (by omega) (by omega) (by omega), hb]
    by_cases h1 : i + 1 = N
    · rw [if_neg (by omega)]
      mass_entries hA A i
    · rw [if_pos (by omega), npSet2_nat _ _ _ (2 * i + 1) (2 * (i + 1)) (by push_cast; ring) (by push_cast; ring) (by omega) (by omega), hb,
        npSet2_nat _ _ _ (2 * i + 1) (2 * (i + 1) + 1) (by push_cast; ring) (by push_cast; ring) (by omega) (by omega)]
      mass_entries hA A i

end Verif
