import Verif.Model.HJB
import Verif.Proof.Argmin
import Verif.Proof.FSCPar
import Verif.Proof.PyLemmas
import Mathlib.Tactic.Ring
import Mathlib.Tactic.FieldSimp
import Mathlib.Tactic.Linarith
import Mathlib.Tactic.LinearCombination
import Mathlib.Algebra.Order.Field.Basic

/-! Facts about the grid combination functions. -/

namespace Verif

variable {n m : ℕ} {K : Type}

section Combine
variable [Field K] [LinearOrder K]

theorem takeAlong_nat (v : Fin n → WithBot K) (j : Fin n) : takeAlong v ((j : ℕ) : ℤ) = v j := by
  unfold takeAlong
  have h1 : ¬ (((j : ℕ) : ℤ) < 0) := by omega
  simp only [if_neg h1]
  rw [dif_pos ⟨by omega, by exact_mod_cast j.2⟩]
  congr 1

theorem getClamped_nat [NeZero n] (v : Fin n → WithBot K) (j : Fin n) : getClamped v ((j : ℕ) : ℤ) = v j := by
  unfold getClamped
  have h1 : ¬ (((j : ℕ) : ℤ) < 0) := by omega
  simp only [if_neg h1]
  congr 1
  have := j.2
  apply Fin.ext
  show min (Int.toNat ((j : ℕ) : ℤ)) (n - 1) = j
  omega

/-- Left neighbour with reflection at the boundary. -/
def nbrL (hn : 2 ≤ n) (j : Fin n) : Fin n := ⟨if (j : ℕ) = 0 then 1 else j - 1, by have := j.2; split <;> omega⟩

/-- Right neighbour with reflection at the boundary. -/
def nbrR (hn : 2 ≤ n) (j : Fin n) : Fin n := ⟨if (j : ℕ) = n - 1 then n - 2 else j + 1, by have := j.2; split <;> omega⟩

theorem idxM1_eq (hn : 2 ≤ n) (j : Fin n) : idxM1 ((j : ℕ) : ℤ) = ((nbrL hn j : ℕ) : ℤ) := by
  unfold idxM1 nbrL
  dsimp only
  have := j.2
  by_cases h : (j : ℕ) = 0
  · rw [if_pos h, h]; rfl
  · rw [if_neg h, abs_of_nonneg (by omega)]; omega

theorem idxP1_eq (hn : 2 ≤ n) (j : Fin n) : idxP1 n ((j : ℕ) : ℤ) = ((nbrR hn j : ℕ) : ℤ) := by
  unfold idxP1 nbrR
  dsimp only
  have := j.2
  by_cases h : (j : ℕ) = n - 1
  · rw [if_pos h, h, abs_of_nonpos (by omega)]; omega
  · rw [if_neg h, abs_of_nonneg (by omega)]; omega

theorem interpVertex_bot (a b : WithBot K) : interpVertex a ⊥ b = ⊥ := by
  cases a <;> cases b <;> rfl

theorem interpVertex_coe (a b c : K) : interpVertex (a : WithBot K) b c =
    if c + a - 2 * b = 0 then ⊥ else ((b - (c - a) ^ 2 / (c + a - 2 * b) / 8 : K) : WithBot K) := by
  show (if c + a - 2 * b + 0 = 0 then (⊥ : WithBot K) else ((b - (c - a) ^ 2 / (c + a - 2 * b + 0) / 8 : K) : WithBot K)) = _
  rw [add_zero]

theorem combineVInterp_nbr [NeZero n] (hn : 2 ≤ n) (A B : Fin n → Fin n → WithBot K) (i k : Fin n) :
    combineVInterp A B i k = interpVertex (vsum A B i k (nbrL hn (argmin1 (vsum A B i k))))
      (vsum A B i k (argmin1 (vsum A B i k))) (vsum A B i k (nbrR hn (argmin1 (vsum A B i k)))) := by
  unfold combineVInterp
  simp only [idxM1_eq hn, idxP1_eq hn, takeAlong_nat]

theorem combineVInterp2_nbr [NeZero n] (hn : 2 ≤ n) (A B : Fin n → Fin n → WithBot K) (i k : Fin n) :
    combineVInterp2 A B i k = interpVertex (vsum A B i k (nbrL hn (argmin1 (vsum A B i k))))
      (vsum A B i k (argmin1 (vsum A B i k))) (vsum A B i k (nbrR hn (argmin1 (vsum A B i k)))) := by
  unfold combineVInterp2
  simp only [idxM1_eq hn, idxP1_eq hn, getClamped_nat]

theorem combineVInterpTF_nbr (hn : 2 ≤ n) (am : (Fin n → WithBot K) → Fin n) (A B : Fin n → Fin n → WithBot K)
    (i k : Fin n) :
    combineVInterpTF am A B i k = interpVertex (vsum A B i k (nbrL hn (am (vsum A B i k))))
      (vsum A B i k (am (vsum A B i k))) (vsum A B i k (nbrR hn (am (vsum A B i k)))) := by
  unfold combineVInterpTF
  simp only [idxM1_eq hn, idxP1_eq hn, takeAlong_nat]

/-- With a single grid point every entry is `nan`. -/
theorem combineVInterp_one (A B : Fin 1 → Fin 1 → WithBot K) (i k : Fin 1) : combineVInterp A B i k = ⊥ := by
  unfold combineVInterp
  have h0 : argmin1 (vsum A B i k) = 0 := Subsingleton.elim _ _
  dsimp only
  rw [h0]
  have h1 : takeAlong (vsum A B i k) (idxM1 (((0 : Fin 1) : ℕ) : ℤ)) = ⊥ := by
    unfold takeAlong idxM1
    rfl
  rw [h1]
  rfl

theorem combineVInterp2_one (A B : Fin 1 → Fin 1 → WithBot K) (i k : Fin 1) : combineVInterp2 A B i k = ⊥ := by
  unfold combineVInterp2
  have h : ∀ j : ℤ, getClamped (vsum A B i k) j = vsum A B i k 0 := fun j => by
    unfold getClamped; exact congrArg (vsum A B i k) (Subsingleton.elim (α := Fin 1) _ _)
  simp only [h]
  cases h0 : vsum A B i k 0 with
  | bot => rfl
  | coe a =>
    rw [interpVertex_coe, if_pos (by ring)]

theorem combineVInterp2_eq [NeZero n] (A B : Fin n → Fin n → WithBot K) : combineVInterp2 A B = combineVInterp A B := by
  funext i k
  by_cases hn : 2 ≤ n
  · rw [combineVInterp_nbr hn, combineVInterp2_nbr hn]
  · have h1 : n = 1 := by have := NeZero.pos n; omega
    subst h1
    exact (combineVInterp2_one A B i k).trans (combineVInterp_one A B i k).symm

theorem hjbCombineV2_eq [NeZero n] (A B : Fin n → Fin n → WithBot K) : hjbCombineV2 A B = hjbCombineV A B := by
  funext i k
  unfold hjbCombineV2 hjbCombineV
  dsimp only
  rw [takeAlong_nat, argmin1_val (vsum A B i k)]

theorem combineVInterp_nan [NeZero n] (A B : Fin n → Fin n → WithBot K) (i j k : Fin n)
    (h : A i j = ⊥ ∨ B j k = ⊥) : combineVInterp A B i k = ⊥ := by
  have h1 : vsum A B i k (argmin1 (vsum A B i k)) = ⊥ := by
    have h2 := argmin1_le (vsum A B i k) j
    have h3 : vsum A B i k j = ⊥ := by
      unfold vsum
      rcases h with h | h <;> rw [h]
      · exact WithBot.bot_add _
      · exact WithBot.add_bot _
    rw [h3] at h2
    exact le_bot_iff.1 h2
  unfold combineVInterp
  dsimp only
  rw [takeAlong_nat, h1, interpVertex_bot]

theorem vsum_coe (A B : Fin n → Fin n → K) (i k : Fin n) :
    vsum (fun i j => (A i j : WithBot K)) (fun i j => (B i j : WithBot K)) i k =
      fun j => ((A i j + B j k : K) : WithBot K) := rfl

theorem argmin1_coe [NeZero n] (f : Fin n → K) : argmin1 (fun j => (f j : WithBot K)) = argmin1 f :=
  argmin1_unique (fun j => WithBot.coe_le_coe.2 (argmin1_le f j)) (fun j hj => WithBot.coe_lt_coe.2 (argmin1_first f j hj))

theorem min1_coe [NeZero n] (f : Fin n → K) : min1 (fun j => (f j : WithBot K)) = ((min1 f : K) : WithBot K) := by
  rw [← argmin1_val (fun j => (f j : WithBot K)), argmin1_coe, argmin1_val f]

/-- The interpolated minimum of the values `f` around `j`. -/
def interpAt (hn : 2 ≤ n) (f : Fin n → K) (j : Fin n) : WithBot K :=
  interpVertex (f (nbrL hn j) : WithBot K) (f j : WithBot K) (f (nbrR hn j) : WithBot K)

theorem combineVInterp_coe [NeZero n] (hn : 2 ≤ n) (A B : Fin n → Fin n → K) (i k : Fin n) :
    combineVInterp (fun i j => (A i j : WithBot K)) (fun i j => (B i j : WithBot K)) i k =
      interpAt hn (fun j => A i j + B j k) (argmin1 fun j => A i j + B j k) := by
  rw [combineVInterp_nbr hn, vsum_coe, argmin1_coe]
  rfl

variable [IsStrictOrderedRing K]

theorem interpAt_nan (hn : 2 ≤ n) (f : Fin n → K) (j : Fin n) (hj : ∀ i, f j ≤ f i) :
    interpAt hn f j = ⊥ ↔ f (nbrL hn j) = f j ∧ f (nbrR hn j) = f j := by
  unfold interpAt
  rw [interpVertex_coe]
  have h1 := hj (nbrL hn j)
  have h2 := hj (nbrR hn j)
  constructor
  · intro h
    split at h
    · rename_i h3
      exact ⟨by linarith, by linarith⟩
    · exact absurd h (WithBot.coe_ne_bot)
  · rintro ⟨e1, e2⟩
    rw [e1, e2, if_pos (by ring)]

theorem interpAt_bounds (hn : 2 ≤ n) (f : Fin n → K) (j : Fin n) (hj : ∀ i, f j ≤ f i) (v : K)
    (h : interpAt hn f j = v) :
    f j - (f (nbrR hn j) + f (nbrL hn j) - 2 * f j) / 8 ≤ v ∧ v ≤ f j := by
  unfold interpAt at h
  rw [interpVertex_coe] at h
  have h1 := hj (nbrL hn j)
  have h2 := hj (nbrR hn j)
  generalize f (nbrL hn j) = a at *
  generalize f (nbrR hn j) = b at *
  generalize f j = c at *
  split at h
  · exact absurd h.symm WithBot.coe_ne_bot
  · rename_i hd
    have hv := WithBot.coe_injective h
    have hd' : 0 < b + a - 2 * c := lt_of_le_of_ne (by linarith) (Ne.symm hd)
    have h3 : (b - a) ^ 2 / (b + a - 2 * c) ≤ b + a - 2 * c := by
      rw [div_le_iff₀ hd']
      nlinarith [mul_nonneg (sub_nonneg.2 h1) (sub_nonneg.2 h2)]
    have h4 : 0 ≤ (b - a) ^ 2 / (b + a - 2 * c) := div_nonneg (sq_nonneg _) hd'.le
    rw [← hv]
    constructor <;> linarith

omit [Field K] [LinearOrder K] [IsStrictOrderedRing K] in
theorem nbr_zero (hn : 2 ≤ n) (j : Fin n) (h : (j : ℕ) = 0) : nbrR hn j = nbrL hn j := by
  apply Fin.ext
  unfold nbrL nbrR
  dsimp only
  rw [if_pos h]
  split <;> omega

omit [Field K] [LinearOrder K] [IsStrictOrderedRing K] in
theorem nbr_last (hn : 2 ≤ n) (j : Fin n) (h : (j : ℕ) = n - 1) : nbrR hn j = nbrL hn j := by
  apply Fin.ext
  unfold nbrL nbrR
  dsimp only
  rw [if_pos h]
  split <;> omega

theorem interpAt_same (hn : 2 ≤ n) (f : Fin n → K) (j : Fin n) (hb : nbrR hn j = nbrL hn j)
    (h : f (nbrL hn j) ≠ f j) : interpAt hn f j = (f j : WithBot K) := by
  unfold interpAt
  rw [interpVertex_coe, hb, if_neg]
  · congr 1; simp
  · intro h2; apply h
    have : (2 : K) * (f (nbrL hn j) - f j) = 0 := by linear_combination h2
    have := (mul_eq_zero.1 this).resolve_left two_ne_zero
    linear_combination this

theorem interpAt_parabola (hn : 2 ≤ n) (a c e : K) (ha : 0 < a) (j : Fin n) (h0 : (j : ℕ) ≠ 0) (h1 : (j : ℕ) ≠ n - 1) :
    interpAt hn (fun j : Fin n => a * (((j : ℕ) : K) - c) ^ 2 + e) j = (e : WithBot K) := by
  unfold interpAt
  have hl : ((nbrL hn j : ℕ) : K) = ((j : ℕ) : K) - 1 := by
    unfold nbrL; simp only [if_neg h0]; rw [Nat.cast_sub (by omega)]; simp
  have hr : ((nbrR hn j : ℕ) : K) = ((j : ℕ) : K) + 1 := by
    unfold nbrR; simp only [if_neg h1]; push_cast; ring
  dsimp only
  rw [hl, hr, interpVertex_coe]
  generalize ((j : ℕ) : K) = x
  have hd : a * (x + 1 - c) ^ 2 + e + (a * (x - 1 - c) ^ 2 + e) - 2 * (a * (x - c) ^ 2 + e) = 2 * a := by ring
  rw [hd, if_neg (by positivity)]
  congr 1
  field_simp
  ring

end Combine

end Verif
