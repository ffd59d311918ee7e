import Verif.Proof.PararealAbc
import Verif.Proof.Linalg
import Mathlib.Data.Rat.Lemmas
import Mathlib.Tactic.NormNum

/-! Example problems for the continuous-time properties. -/

namespace Verif

open Matrix

section
variable {n m : ℕ} {K : Type} [Field K] [LinearOrder K] [IsStrictOrderedRing K]

theorem CLQT.reg_of_pd {P : CLQT n m K} (hU : ∀ t, (P.U t)ᵀ = P.U t ∧ IsPD (P.U t)) : P.Reg := fun t =>
  ⟨(P.U t)⁻¹ * (P.L t)ᵀ, (solvePos_ok (hU t).1).2 ⟨(hU t).2, by
    rw [← Matrix.mul_assoc, Matrix.mul_nonsing_inv _ (isUnit_iff_ne_zero.2 (hU t).2.det_ne_zero), Matrix.one_mul]⟩⟩

end

/-- A time-varying example with two states. -/
def exCL : CLQT 2 1 ℚ where
  p := 2
  F := fun t => !![0, 1; -t, 0]
  L := fun _ => !![0; 1]
  X := fun _ => !![1, 0; 0, 2]
  U := fun t => !![1 + t ^ 2]
  c := fun t => ![t, 0]
  H := fun _ => 1
  r := fun _ => ![1, 0]
  pT := 1
  XT := !![3]
  HT := !![1, 0]
  rT := ![2]
  T := 6

theorem exCL_U (t : ℚ) : (exCL.U t)ᵀ = exCL.U t ∧ IsPD (exCL.U t) := by
  constructor
  · ext i j
    fin_cases i; fin_cases j; rfl
  · intro x hx
    have h0 : x 0 ≠ 0 := fun h => hx (by ext i; fin_cases i; exact h)
    have key : x ⬝ᵥ exCL.U t *ᵥ x = (1 + t ^ 2) * (x 0 * x 0) := by
      have h : exCL.U t = !![1 + t ^ 2] := rfl
      rw [h]
      simp [dotProduct, mulVec]
      ring
    rw [key]
    have : 0 < x 0 * x 0 := mul_self_pos.2 h0
    positivity

/-- Scalar example `x' = x` without control, with terminal weight 1 and horizon 8. -/
def exPr : CLQT 1 1 ℚ where
  p := 1
  F := fun _ => 1
  L := fun _ => 0
  X := fun _ => 0
  U := fun _ => 1
  c := fun _ => 0
  H := fun _ => 0
  r := fun _ => 0
  pT := 1
  XT := 1
  HT := 1
  rT := 0
  T := 8

theorem exPr_U (t : ℚ) : (exPr.U t)ᵀ = exPr.U t ∧ IsPD (exPr.U t) := by
  constructor
  · ext i j
    fin_cases i; fin_cases j; rfl
  · intro x hx
    have h0 : x 0 ≠ 0 := fun h => hx (by ext i; fin_cases i; exact h)
    have key : x ⬝ᵥ exPr.U t *ᵥ x = x 0 * x 0 := by
      have h : exPr.U t = 1 := rfl
      rw [h]
      simp [dotProduct]
    rw [key]
    exact mul_self_pos.2 h0

theorem exPr_solve (t : ℚ) : solvePos (exPr.U t) (exPr.L t)ᵀ = .ok 0 :=
  (solvePos_ok (exPr_U t).1).2 ⟨(exPr_U t).2, by
    have h : exPr.L t = 0 := rfl
    rw [h]
    simp⟩

theorem exPr_riccati (x : Matrix (Fin 1) (Fin 2) ℚ) (t : ℚ) :
    ∃ y, exPr.riccatiOdeF x t = .ok y ∧ y 0 0 = -2 * x 0 0 := by
  refine ⟨_, by unfold CLQT.riccatiOdeF; dsimp only; rw [exPr_solve]; rfl, ?_⟩
  have hF : exPr.F t = 1 := rfl
  have hH : exPr.H t = 0 := rfl
  rw [hF, hH]
  simp [packSv, unpackSv]
  ring

theorem rk4T_linear {X : Type} [AddCommGroup X] [Module ℚ X] {f : X → ℚ → Py X} (φ : X → ℚ) (hadd : ∀ x y, φ (x + y) = φ x + φ y)
    (hsmul : ∀ (a : ℚ) x, φ (a • x) = a * φ x) {a : ℚ} (hf : ∀ x t, ∃ y, f x t = .ok y ∧ φ y = a * φ x) {dt t : ℚ} {x y : X}
    (h : rk4T f dt x t = .ok y) :
    φ y = (1 + a * dt + (a * dt) ^ 2 / 2 + (a * dt) ^ 3 / 6 + (a * dt) ^ 4 / 24) * φ x := by
  have hf' : ∀ {x t y}, f x t = .ok y → φ y = a * φ x := by
    intro x t y hy
    obtain ⟨y', h1, h2⟩ := hf x t
    rw [hy, Except.ok.injEq] at h1
    rw [h1, h2]
  unfold rk4T at h
  simp only [bind_ok, pure, Except.pure, Except.ok.injEq] at h
  obtain ⟨k1, h1, k2, h2, k3, h3, k4, h4, rfl⟩ := h
  have e1 := hf' h1
  have e2 := hf' h2
  have e3 := hf' h3
  have e4 := hf' h4
  simp only [hadd, hsmul] at *
  rw [e4, e3, e2, e1]
  ring

theorem exPr_bwF {dt t : ℚ} {s s' : CVal 1 ℚ} (h : exPr.bwF dt t s = .ok s') :
    s'.1 0 0 = (1 + 2 * dt + (2 * dt) ^ 2 / 2 + (2 * dt) ^ 3 / 6 + (2 * dt) ^ 4 / 24) * s.1 0 0 := by
  unfold CLQT.bwF at h
  simp only [bind_ok, pure, Except.pure, Except.ok.injEq] at h
  obtain ⟨x, hx, rfl⟩ := h
  have := rk4T_linear (fun x : Matrix (Fin 1) (Fin 2) ℚ => x 0 0) (fun _ _ => rfl) (fun _ _ => rfl) exPr_riccati hx
  have e : symPart (unpackSv x).1 0 0 = x 0 0 := by
    simp [symPart, unpackSv]
    ring
  dsimp only
  rw [e, this]
  simp [packSv]

theorem exPr_fwF {z : Bool} {dt t : ℚ} {x x' : Fin 1 → ℚ} (h : exPr.fwF z dt t (0, 0) x = .ok x') :
    x' 0 = (1 + dt + dt ^ 2 / 2 + dt ^ 3 / 6 + dt ^ 4 / 24) * x 0 := by
  unfold CLQT.fwF at h
  have hF : ∀ t, exPr.F t = 1 := fun _ => rfl
  have hL : ∀ t, exPr.L t = 0 := fun _ => rfl
  have hc : ∀ t, exPr.c t = 0 := fun _ => rfl
  have := rk4T_linear (fun x : Fin 1 → ℚ => x 0) (fun _ _ => rfl) (fun _ _ => rfl) (a := 1)
    (fun x t => ⟨x, by unfold CLQT.fwOdeF; cases z <;> simp [hF, hL, hc], by simp⟩) h
  simpa using this

theorem exPr_abcF {dt t : ℚ} {a a' : CAbc 1 ℚ} (h : exPr.abcF dt t a = .ok a') :
    a'.2.1 0 = (1 + dt + dt ^ 2 / 2 + dt ^ 3 / 6 + dt ^ 4 / 24) * a.2.1 0 := by
  unfold CLQT.abcF at h
  simp only [bind_ok, pure, Except.pure, Except.ok.injEq] at h
  obtain ⟨x, hx, rfl⟩ := h
  have hode : ∀ (x : Matrix (Fin 1) (Fin (2 * 1 + 1)) ℚ) t, ∃ y, exPr.fwdbwdOdeF x t = .ok y ∧ y 0 2 = 1 * x 0 2 := by
    intro x t
    refine ⟨_, by unfold CLQT.fwdbwdOdeF; dsimp only; rw [exPr_solve]; rfl, ?_⟩
    have hF : exPr.F t = 1 := rfl
    have hH : exPr.H t = 0 := rfl
    have hc : exPr.c t = 0 := rfl
    rw [hF, hH, hc]
    simp [packABC, unpackABC]
  have := rk4T_linear (fun x : Matrix (Fin 1) (Fin (2 * 1 + 1)) ℚ => x 0 2) (fun _ _ => rfl) (fun _ _ => rfl) hode hx
  have e1 : (unpackABC x).2.1 0 = x 0 2 := rfl
  have e2 : packABC a.1 a.2.1 a.2.2 0 2 = a.2.1 0 := by simp [packABC]
  simp only [e2] at this
  dsimp only
  rw [e1, this]
  ring

/-- The arithmetic of the counterexample: two Parareal iterations over four blocks with fine factor `f` and coarse factor
`g` leave the fourth boundary inexact. -/
theorem exPr_arith {f g : ℚ} {s0 f0 s1 g1 f1 s2 g2 : ℕ → ℚ} (i0 : s0 0 = 1) (i1 : ∀ q < 4, s0 (q + 1) = g * s0 q)
    (a0 : f0 0 = s0 0) (a1 : ∀ q < 4, f0 (q + 1) = f * s0 q) (b0 : s1 0 = f0 0)
    (b1 : ∀ q < 4, g1 (q + 1) = g * s1 q ∧ s1 (q + 1) = g1 (q + 1) + f0 (q + 1) - s0 (q + 1))
    (c0 : f1 0 = s1 0) (c1 : ∀ q < 4, f1 (q + 1) = f * s1 q) (d0 : s2 0 = f1 0)
    (d1 : ∀ q < 4, g2 (q + 1) = g * s2 q ∧ s2 (q + 1) = g2 (q + 1) + f1 (q + 1) - g1 (q + 1)) :
    s2 3 = f ^ 3 - (f - g) ^ 3 := by
  have e1 := i1 0 (by omega)
  have e2 := i1 1 (by omega)
  have e3 := i1 2 (by omega)
  have f1' := a1 0 (by omega)
  have f2' := a1 1 (by omega)
  have f3' := a1 2 (by omega)
  obtain ⟨g1', h1'⟩ := b1 0 (by omega)
  obtain ⟨g2', h2'⟩ := b1 1 (by omega)
  obtain ⟨g3', h3'⟩ := b1 2 (by omega)
  have k1' := c1 0 (by omega)
  have k2' := c1 1 (by omega)
  have k3' := c1 2 (by omega)
  obtain ⟨l1', m1'⟩ := d1 0 (by omega)
  obtain ⟨l2', m2'⟩ := d1 1 (by omega)
  obtain ⟨l3', m3'⟩ := d1 2 (by omega)
  simp only [zero_add, Nat.reduceAdd] at *
  rw [m3', l3', m2', l2', m1', l1', d0, k1', k2', k3', g3', h2', g2', h1', g1', c0, b0, f1', f2', a0, e2, e1, i0]
  ring

end Verif
