import Verif.Proof.LQTElem
import Verif.Spec.LQT
import Mathlib.Tactic.LinearCombination
import Mathlib.Tactic.Module

/-! One step of the tracking problem: stationarity conditions, Riccati step, completion of squares, elements. -/

namespace Verif

open Matrix

variable {n m : ℕ} {K : Type} [Field K]

/-- Derivative of cost plus `l' · next` with respect to the state. -/
def LStage.gx (s : LStage n m K) (x : Fin n → K) (u : Fin m → K) (l' : Fin n → K) : Fin n → K :=
  s.Hᵀ *ᵥ (s.X *ᵥ (s.H *ᵥ x - s.r) + s.M *ᵥ (s.Z *ᵥ u - s.s)) + s.Fᵀ *ᵥ l'

/-- Derivative of cost plus `l' · next` with respect to the control. -/
def LStage.gu (s : LStage n m K) (x : Fin n → K) (u : Fin m → K) (l' : Fin n → K) : Fin m → K :=
  s.Zᵀ *ᵥ (s.U *ᵥ (s.Z *ᵥ u - s.s) + s.Mᵀ *ᵥ (s.H *ᵥ x - s.r)) + s.Lᵀ *ᵥ l'

/-- Stationarity conditions of one step. -/
def LStage.Kkt (s : LStage n m K) (x l : Fin n → K) (u : Fin m → K) (x' l' : Fin n → K) : Prop :=
  x' = s.next x u ∧ l = s.gx x u l' ∧ s.gu x u l' = 0

/-- Hessian with respect to the control. -/
def LStage.hess (s : LStage n m K) (S : Matrix (Fin n) (Fin n) K) : Matrix (Fin m) (Fin m) K :=
  s.Zᵀ * s.U * s.Z + s.Lᵀ * S * s.L

theorem LStage.hess_symm {s : LStage n m K} (hs : s.Sym) {S : Matrix (Fin n) (Fin n) K} (hS : Sᵀ = S) :
    (s.hess S)ᵀ = s.hess S := by
  simp only [LStage.hess, transpose_add, transpose_mul, transpose_transpose, hs.2, hS, Matrix.mul_assoc]

/-- Value function `1/2 x.S x - v.x`. -/
def valQ (S : Matrix (Fin n) (Fin n) K) (v : Fin n → K) (x : Fin n → K) : K := (1 / 2) * (x ⬝ᵥ S *ᵥ x) - v ⬝ᵥ x

section Gains
variable [LinearOrder K] [IsStrictOrderedRing K]

theorem gains_ok {s : LStage n m K} (hs : s.Sym) {S : Matrix (Fin n) (Fin n) K} (hS : Sᵀ = S) {v : Fin n → K}
    {Kx : Matrix (Fin m) (Fin n) K} {d : Fin m → K} :
    s.gains S v = .ok (Kx, d) ↔ IsPD (s.hess S) ∧
      s.hess S * Kx = s.Zᵀ * s.Mᵀ * s.H + s.Lᵀ * S * s.F ∧
      s.hess S *ᵥ d = (s.Zᵀ * s.U) *ᵥ s.s + (s.Zᵀ * s.Mᵀ) *ᵥ s.r - (s.Lᵀ * S) *ᵥ s.c + s.Lᵀ *ᵥ v := by
  unfold LStage.gains
  rw [bind_ok]
  have hh := LStage.hess_symm hs hS
  constructor
  · rintro ⟨f, hf, h⟩
    obtain ⟨h1, rfl⟩ := (choFactor_ok hh).1 hf
    simp only [pure, Except.pure, Except.ok.injEq, Prod.mk.injEq, choSolve, choSolveV] at h
    obtain ⟨rfl, rfl⟩ := h
    have := mul_minv h1.det_ne_zero
    refine ⟨h1, ?_, ?_⟩
    · rw [← Matrix.mul_assoc]
      exact (congrArg (· * _) this).trans (Matrix.one_mul _)
    · rw [mulVec_mulVec]
      exact (congrArg (· *ᵥ _) this).trans (one_mulVec _)
  · rintro ⟨h1, h2, h3⟩
    refine ⟨_, (choFactor_ok hh).2 ⟨h1, rfl⟩, ?_⟩
    have := minv_mul h1.det_ne_zero
    simp only [pure, Except.pure, choSolve, choSolveV]
    rw [← h2, ← h3, mulVec_mulVec, ← Matrix.mul_assoc]
    have h4 : minv (s.hess S) * s.hess S = 1 := this
    congr 2
    · exact (congrArg (· * Kx) h4).trans (Matrix.one_mul _)
    · exact (congrArg (· *ᵥ d) h4).trans (one_mulVec _)

omit [LinearOrder K] [IsStrictOrderedRing K] in
/-- The control gradient along the value function `(S, v)`. -/
theorem gu_eq (s : LStage n m K) (S : Matrix (Fin n) (Fin n) K) (v x : Fin n → K) (u : Fin m → K) :
    s.gu x u (S *ᵥ s.next x u - v) = s.hess S *ᵥ u + (s.Zᵀ * s.Mᵀ * s.H + s.Lᵀ * S * s.F) *ᵥ x -
      ((s.Zᵀ * s.U) *ᵥ s.s + (s.Zᵀ * s.Mᵀ) *ᵥ s.r - (s.Lᵀ * S) *ᵥ s.c + s.Lᵀ *ᵥ v) := by
  simp only [LStage.gu, LStage.next, LStage.hess, mulVec_add, mulVec_sub, add_mulVec, ← mulVec_mulVec]
  abel

theorem gu_zero_iff {s : LStage n m K} (hs : s.Sym) {S : Matrix (Fin n) (Fin n) K} (hS : Sᵀ = S) {v : Fin n → K}
    {Kx : Matrix (Fin m) (Fin n) K} {d : Fin m → K} (h : s.gains S v = .ok (Kx, d)) (x : Fin n → K) (u : Fin m → K) :
    s.gu x u (S *ᵥ s.next x u - v) = 0 ↔ u = -Kx *ᵥ x + d := by
  obtain ⟨h1, h2, h3⟩ := (gains_ok hs hS).1 h
  rw [gu_eq, ← h2, ← h3]
  have : s.hess S *ᵥ u + (s.hess S * Kx) *ᵥ x - s.hess S *ᵥ d = s.hess S *ᵥ (u - (-Kx *ᵥ x + d)) := by
    simp only [mulVec_add, mulVec_sub, neg_mulVec, mulVec_neg, ← mulVec_mulVec]
    abel
  rw [this]
  constructor
  · intro h0
    have : u - (-Kx *ᵥ x + d) = 0 := mulVec_inj_of_det h1.det_ne_zero (by rw [h0, mulVec_zero])
    exact sub_eq_zero.1 this
  · intro h0; rw [h0, sub_self, mulVec_zero]

theorem gx_eq {s : LStage n m K} (hs : s.Sym) {S : Matrix (Fin n) (Fin n) K} (hS : Sᵀ = S) {v : Fin n → K}
    {Kx : Matrix (Fin m) (Fin n) K} {d : Fin m → K} (h : s.gains S v = .ok (Kx, d)) (x : Fin n → K) :
    s.gx x (-Kx *ᵥ x + d) (S *ᵥ s.next x (-Kx *ᵥ x + d) - v) = (s.riccati Kx S v).1 *ᵥ x - (s.riccati Kx S v).2 := by
  obtain ⟨h1, h2, h3⟩ := (gains_ok hs hS).1 h
  have hh := LStage.hess_symm hs hS
  -- `(H.T M Z + F.T S L) d = Kx.T R d`
  have h4 : s.Hᵀ * s.M * s.Z + s.Fᵀ * S * s.L = Kxᵀ * s.hess S := by
    have := congrArg transpose h2
    rw [transpose_mul, hh] at this
    rw [this]
    simp only [transpose_add, transpose_mul, transpose_transpose, hS, Matrix.mul_assoc]
  have h5 : s.Hᵀ *ᵥ s.M *ᵥ s.Z *ᵥ d + s.Fᵀ *ᵥ S *ᵥ s.L *ᵥ d = Kxᵀ *ᵥ s.Zᵀ *ᵥ s.U *ᵥ s.s + Kxᵀ *ᵥ s.Zᵀ *ᵥ s.Mᵀ *ᵥ s.r -
      Kxᵀ *ᵥ s.Lᵀ *ᵥ S *ᵥ s.c + Kxᵀ *ᵥ s.Lᵀ *ᵥ v := by
    have := congrArg (· *ᵥ d) h4
    simp only [← mulVec_mulVec, h3, add_mulVec] at this
    rw [this]
    simp only [mulVec_add, mulVec_sub]
  simp only [LStage.gx, LStage.next, LStage.riccati, mulVec_add, mulVec_sub, add_mulVec, sub_mulVec, neg_mulVec,
    mulVec_neg, ← mulVec_mulVec, transpose_sub, transpose_mul, Matrix.mul_sub, Matrix.sub_mul]
  have h6 : s.Hᵀ *ᵥ s.M *ᵥ s.Z *ᵥ d = Kxᵀ *ᵥ s.Zᵀ *ᵥ s.U *ᵥ s.s + Kxᵀ *ᵥ s.Zᵀ *ᵥ s.Mᵀ *ᵥ s.r -
      Kxᵀ *ᵥ s.Lᵀ *ᵥ S *ᵥ s.c + Kxᵀ *ᵥ s.Lᵀ *ᵥ v - s.Fᵀ *ᵥ S *ᵥ s.L *ᵥ d := eq_sub_of_add_eq h5
  rw [h6]
  abel

/-- The Riccati step solves the stationarity conditions, uniquely. -/
theorem kkt_iff {s : LStage n m K} (hs : s.Sym) {S : Matrix (Fin n) (Fin n) K} (hS : Sᵀ = S) {v : Fin n → K}
    {Kx : Matrix (Fin m) (Fin n) K} {d : Fin m → K} (h : s.gains S v = .ok (Kx, d)) (x l : Fin n → K) (u : Fin m → K)
    (x' : Fin n → K) :
    s.Kkt x l u x' (S *ᵥ x' - v) ↔ u = -Kx *ᵥ x + d ∧ x' = s.next x u ∧
      l = (s.riccati Kx S v).1 *ᵥ x - (s.riccati Kx S v).2 := by
  unfold LStage.Kkt
  constructor
  · rintro ⟨rfl, hl, hu⟩
    have := (gu_zero_iff hs hS h x u).1 hu
    refine ⟨this, rfl, ?_⟩
    rw [hl, this, gx_eq hs hS h]
  · rintro ⟨rfl, rfl, rfl⟩
    exact ⟨rfl, (gx_eq hs hS h x).symm, (gu_zero_iff hs hS h x _).2 rfl⟩

theorem riccati_symm {s : LStage n m K} (hs : s.Sym) {S : Matrix (Fin n) (Fin n) K} (hS : Sᵀ = S) {v : Fin n → K}
    {Kx : Matrix (Fin m) (Fin n) K} {d : Fin m → K} (h : s.gains S v = .ok (Kx, d)) :
    (s.riccati Kx S v).1ᵀ = (s.riccati Kx S v).1 := by
  obtain ⟨h1, h2, h3⟩ := (gains_ok hs hS).1 h
  have hh := LStage.hess_symm hs hS
  have h4 : s.Hᵀ * s.M * s.Z + s.Fᵀ * S * s.L = Kxᵀ * s.hess S := by
    have := congrArg transpose h2
    rw [transpose_mul, hh] at this
    rw [this]
    simp only [transpose_add, transpose_mul, transpose_transpose, hS, Matrix.mul_assoc]
  have h5 : (s.riccati Kx S v).1 = s.Hᵀ * s.X * s.H + s.Fᵀ * S * s.F - Kxᵀ * s.hess S * Kx := by
    rw [← h4]
    simp only [LStage.riccati, Matrix.mul_sub, Matrix.add_mul, Matrix.mul_assoc]
    abel
  rw [h5]
  simp only [transpose_sub, transpose_add, transpose_mul, transpose_transpose, hs.1, hS, hh, Matrix.mul_assoc]

omit [LinearOrder K] [IsStrictOrderedRing K] in
theorem dot_next (L : Matrix (Fin n) (Fin m) K) (l : Fin n → K) (u : Fin m → K) : l ⬝ᵥ L *ᵥ u = (Lᵀ *ᵥ l) ⬝ᵥ u := by
  rw [dot_symm, dotProduct_comm]

/-- Exact trapezoidal rule for the stage cost plus the value function. -/
theorem trapezoid {s : LStage n m K} (hs : s.Sym) {S : Matrix (Fin n) (Fin n) K} (hS : Sᵀ = S) (v : Fin n → K)
    (x y : Fin n → K) (u w : Fin m → K) :
    s.cost x u + valQ S v (s.next x u) - (s.cost y w + valQ S v (s.next y w)) =
      (1 / 2) * ((s.gx x u (S *ᵥ s.next x u - v) + s.gx y w (S *ᵥ s.next y w - v)) ⬝ᵥ (x - y)) +
      (1 / 2) * ((s.gu x u (S *ᵥ s.next x u - v) + s.gu y w (S *ᵥ s.next y w - v)) ⬝ᵥ (u - w)) := by
  have e1 : s.H *ᵥ (x - y) = (s.H *ᵥ x - s.r) - (s.H *ᵥ y - s.r) := by rw [mulVec_sub]; abel
  have e2 : s.Z *ᵥ (u - w) = (s.Z *ᵥ u - s.s) - (s.Z *ᵥ w - s.s) := by rw [mulVec_sub]; abel
  have e3 : s.F *ᵥ (x - y) + s.L *ᵥ (u - w) = s.next x u - s.next y w := by
    simp only [LStage.next, mulVec_sub]; abel
  set y1 := s.H *ᵥ x - s.r with hy1
  set y2 := s.H *ᵥ y - s.r with hy2
  set z1 := s.Z *ᵥ u - s.s with hz1
  set z2 := s.Z *ᵥ w - s.s with hz2
  set x1 := s.next x u with hx1
  set x2 := s.next y w with hx2
  have tr : ∀ {p q : ℕ} (A : Matrix (Fin p) (Fin q) K) (a : Fin p → K) (b : Fin q → K), (Aᵀ *ᵥ a) ⬝ᵥ b = a ⬝ᵥ A *ᵥ b :=
    fun A a b => by rw [dot_symm, dotProduct_comm]
  have r1 : (s.gx x u (S *ᵥ x1 - v) + s.gx y w (S *ᵥ x2 - v)) ⬝ᵥ (x - y) +
      (s.gu x u (S *ᵥ x1 - v) + s.gu y w (S *ᵥ x2 - v)) ⬝ᵥ (u - w) =
      (s.X *ᵥ y1 + s.M *ᵥ z1 + (s.X *ᵥ y2 + s.M *ᵥ z2)) ⬝ᵥ (y1 - y2) +
      (s.U *ᵥ z1 + s.Mᵀ *ᵥ y1 + (s.U *ᵥ z2 + s.Mᵀ *ᵥ y2)) ⬝ᵥ (z1 - z2) +
      (S *ᵥ x1 - v + (S *ᵥ x2 - v)) ⬝ᵥ (x1 - x2) := by
    rw [← e1, ← e2, ← e3]
    simp only [LStage.gx, LStage.gu, ← hy1, ← hy2, ← hz1, ← hz2, add_dotProduct, dotProduct_add, tr]
    ring
  have c1 : ∀ {p : ℕ} (A : Matrix (Fin p) (Fin p) K), Aᵀ = A → ∀ a b : Fin p → K, (A *ᵥ a) ⬝ᵥ b = a ⬝ᵥ A *ᵥ b :=
    fun A hA a b => by conv_lhs => rw [← hA]; rw [tr]
  have c2 : ∀ {p : ℕ} (A : Matrix (Fin p) (Fin p) K), Aᵀ = A → ∀ a b : Fin p → K, a ⬝ᵥ A *ᵥ b = b ⬝ᵥ A *ᵥ a :=
    fun A hA a b => by rw [dot_symm, hA]
  have r2 : s.cost x u + valQ S v x1 - (s.cost y w + valQ S v x2) = (1 / 2) * (
      (s.X *ᵥ y1 + s.M *ᵥ z1 + (s.X *ᵥ y2 + s.M *ᵥ z2)) ⬝ᵥ (y1 - y2) +
      (s.U *ᵥ z1 + s.Mᵀ *ᵥ y1 + (s.U *ᵥ z2 + s.Mᵀ *ᵥ y2)) ⬝ᵥ (z1 - z2) +
      (S *ᵥ x1 - v + (S *ᵥ x2 - v)) ⬝ᵥ (x1 - x2)) := by
    simp only [LStage.cost, halfQuad, valQ, ← hy1, ← hy2, ← hz1, ← hz2, add_dotProduct, sub_dotProduct, dotProduct_sub, tr,
      c1 _ hs.1, c1 _ hs.2, c1 _ hS, dotProduct_comm (s.M *ᵥ _)]
    rw [c2 _ hs.1 y2 y1, c2 _ hs.2 z2 z1, c2 _ hS x2 x1]
    field_simp
    ring
  rw [r2, ← r1]
  ring

/-- Completion of squares for one step. -/
theorem stage_square {s : LStage n m K} (hs : s.Sym) {S : Matrix (Fin n) (Fin n) K} (hS : Sᵀ = S) {v : Fin n → K}
    {Kx : Matrix (Fin m) (Fin n) K} {d : Fin m → K} (h : s.gains S v = .ok (Kx, d)) (x : Fin n → K) (u : Fin m → K) :
    s.cost x u + valQ S v (s.next x u) = valQ (s.riccati Kx S v).1 (s.riccati Kx S v).2 x +
      (s.cost 0 d + valQ S v (s.next 0 d)) +
      (1 / 2) * ((u + Kx *ᵥ x - d) ⬝ᵥ s.hess S *ᵥ (u + Kx *ᵥ x - d)) := by
  set us := -Kx *ᵥ x + d with hus
  have t1 := trapezoid hs hS v x x u us
  have t2 := trapezoid hs hS v x 0 us d
  have g1 := (gu_zero_iff hs hS h x us).2 rfl
  have g0 : s.gu 0 d (S *ᵥ s.next 0 d - v) = 0 := (gu_zero_iff hs hS h 0 d).2 (by simp)
  have g2 : s.gu x u (S *ᵥ s.next x u - v) = s.hess S *ᵥ (u - us) := by
    have := gu_eq s S v x us
    rw [g1] at this
    rw [gu_eq, mulVec_sub]
    have h3 := sub_eq_zero.1 this.symm
    rw [← h3]
    abel
  have g3 := gx_eq hs hS h x
  have g4 : s.gx 0 d (S *ᵥ s.next 0 d - v) = -(s.riccati Kx S v).2 := by
    have := gx_eq hs hS h 0
    simpa using this
  rw [g1, g2, sub_self, dotProduct_zero, mul_zero, zero_add, add_zero] at t1
  rw [g0, g1, g3, g4, add_zero, zero_dotProduct, mul_zero, add_zero, sub_zero] at t2
  have e1 : u + Kx *ᵥ x - d = u - us := by rw [hus, neg_mulVec]; abel
  rw [e1, dotProduct_comm (u - us)]
  have e2 : (1 / 2) * (((s.riccati Kx S v).1 *ᵥ x - (s.riccati Kx S v).2 + -(s.riccati Kx S v).2) ⬝ᵥ x) =
      valQ (s.riccati Kx S v).1 (s.riccati Kx S v).2 x := by
    simp only [valQ, add_dotProduct, sub_dotProduct, neg_dotProduct, dotProduct_comm (_ *ᵥ x) x]
    field_simp
    ring
  rw [e2] at t2
  linear_combination t1 + t2

/-! ### The element of a step -/

theorem parElem_ok {s : LStage n m K} (hs : s.Sym) {e : Elem n K} :
    s.parElem = .ok e ↔ ∃ (P G : Matrix (Fin m) (Fin m) K) (z : Fin m → K) (W : Matrix (Fin m) (Fin n) K)
      (N : Matrix (Fin m) (Fin s.p) K), s.U * s.Z * P = 1 ∧ P * (s.U * s.Z) = 1 ∧ s.Z * G = 1 ∧ s.Z *ᵥ z = s.s ∧
      IsPD (s.Zᵀ * s.U * s.Z) ∧ s.Zᵀ * s.U * s.Z * W = s.Lᵀ ∧ s.U.det ≠ 0 ∧ s.U * N = s.Mᵀ ∧
      e = ⟨s.F - s.L * (P * (s.Mᵀ * s.H)), s.c + s.L *ᵥ (P *ᵥ (s.Mᵀ *ᵥ s.r)) + s.L *ᵥ z, s.L * W,
        (s.Hᵀ * (s.X - s.M * N)) *ᵥ s.r, s.Hᵀ * (s.X - s.M * N) * s.H⟩ := by
  have hW : (s.Zᵀ * s.U * s.Z)ᵀ = s.Zᵀ * s.U * s.Z := by
    simp only [transpose_mul, transpose_transpose, hs.2, Matrix.mul_assoc]
  unfold LStage.parElem
  rw [bind_ok]
  constructor
  · rintro ⟨P, hP, h⟩
    obtain ⟨z, hz, h⟩ := bind_ok.1 h
    obtain ⟨W, hW', h⟩ := bind_ok.1 h
    obtain ⟨N, hN, h⟩ := bind_ok.1 h
    simp only [pure, Except.pure, Except.ok.injEq, luSolve, luSolveV] at h
    have h1 := luFactor_ok'.1 hP
    have h2 := solveV_ok.1 hz
    have h3 := (solvePos_ok hW).1 hW'
    have h4 := solve_ok.1 hN
    exact ⟨P, minv s.Z, z, W, N, h1.1, h1.2, mul_minv h2.1, h2.2, h3.1, h3.2, h4.1, h4.2, h.symm⟩
  · rintro ⟨P, G, z, W, N, h1, h1', hG, h2, h3, h3', h4, h4', rfl⟩
    have hZ : s.Z.det ≠ 0 := by
      intro h0
      have := congrArg det hG
      simp [h0] at this
    refine ⟨P, luFactor_ok'.2 ⟨h1, h1'⟩, ?_⟩
    rw [bind_ok]
    refine ⟨z, solveV_ok.2 ⟨hZ, h2⟩, ?_⟩
    rw [bind_ok]
    refine ⟨W, (solvePos_ok hW).2 ⟨h3, h3'⟩, ?_⟩
    rw [bind_ok]
    exact ⟨N, solve_ok.2 ⟨h4, h4'⟩, rfl⟩

/-- The element of a step has the stationarity conditions as its relation. -/
theorem parElem_rel {s : LStage n m K} (hs : s.Sym) {e : Elem n K} (h : s.parElem = .ok e) :
    e.Sym ∧ ∀ x l x' l', e.Rel x l x' l' ↔ ∃ u, s.Kkt x l u x' l' := by
  obtain ⟨P, G, z, W, N, hP, hP', hG, hz, hpd, hW, hU, hN, rfl⟩ := (parElem_ok hs).1 h
  have hWs : (s.Zᵀ * s.U * s.Z)ᵀ = s.Zᵀ * s.U * s.Z := by
    simp only [transpose_mul, transpose_transpose, hs.2, Matrix.mul_assoc]
  -- symmetry
  have hC : (s.L * W)ᵀ = s.L * W := by
    have hL : s.L = Wᵀ * (s.Zᵀ * s.U * s.Z) := by
      have := congrArg transpose hW
      rw [transpose_mul, hWs, transpose_transpose] at this
      exact this.symm
    calc (s.L * W)ᵀ = (Wᵀ * (s.Zᵀ * s.U * s.Z) * W)ᵀ := by rw [← hL]
      _ = Wᵀ * (s.Zᵀ * s.U * s.Z) * W := by
        rw [transpose_mul, transpose_mul, hWs, transpose_transpose, Matrix.mul_assoc Wᵀ]
      _ = s.L * W := by rw [← hL]
  have hMN : (s.M * N)ᵀ = s.M * N := by
    have hM : s.M = Nᵀ * s.U := by
      have := congrArg transpose hN
      rw [transpose_mul, hs.2, transpose_transpose] at this
      exact this.symm
    calc (s.M * N)ᵀ = (Nᵀ * s.U * N)ᵀ := by rw [← hM]
      _ = Nᵀ * s.U * N := by rw [transpose_mul, transpose_mul, hs.2, transpose_transpose, Matrix.mul_assoc]
      _ = s.M * N := by rw [← hM]
  refine ⟨⟨hC, ?_⟩, ?_⟩
  · simp only [transpose_mul, transpose_sub, transpose_transpose, hs.1]
    rw [← transpose_mul, hMN, Matrix.mul_assoc]
  · -- `Z P M.T = N`
    have hZPN : s.Z * (P * s.Mᵀ) = N := by
      have h1 : s.U * (s.Z * (P * s.Mᵀ)) = s.U * N := by
        rw [hN, ← Matrix.mul_assoc, ← Matrix.mul_assoc, hP, Matrix.one_mul]
      have := congrArg (fun A => minv s.U * A) h1
      simpa [← Matrix.mul_assoc, minv_mul hU] using this
    have hGz : s.Zᵀ.det ≠ 0 := by
      rw [det_transpose]
      intro h0
      have := congrArg det hG
      simp [h0] at this
    -- `U Z W = Z.T \ L.T`
    intro x l x' l'
    set y := s.H *ᵥ x - s.r with hy
    have hstat : ∀ u, s.gu x u l' = 0 ↔ u = z - P *ᵥ (s.Mᵀ *ᵥ y) - W *ᵥ l' := by
      intro u
      have h1 : s.gu x u l' = (s.Zᵀ * s.U * s.Z) *ᵥ (u - (z - P *ᵥ (s.Mᵀ *ᵥ y) - W *ᵥ l')) := by
        have h2 : (s.Zᵀ * s.U * s.Z) *ᵥ (P *ᵥ (s.Mᵀ *ᵥ y)) = s.Zᵀ *ᵥ (s.Mᵀ *ᵥ y) := by
          rw [mulVec_mulVec, Matrix.mul_assoc, Matrix.mul_assoc, ← Matrix.mul_assoc s.U, hP, Matrix.mul_one]
        have h3 : (s.Zᵀ * s.U * s.Z) *ᵥ (W *ᵥ l') = s.Lᵀ *ᵥ l' := by rw [mulVec_mulVec, hW]
        have h4 : (s.Zᵀ * s.U * s.Z) *ᵥ z = s.Zᵀ *ᵥ (s.U *ᵥ s.s) := by
          rw [← mulVec_mulVec, hz, mulVec_mulVec]
        rw [mulVec_sub, mulVec_sub, mulVec_sub, h2, h3, h4]
        simp only [LStage.gu, ← hy, mulVec_add, mulVec_sub, ← mulVec_mulVec]
        abel
      rw [h1]
      constructor
      · intro h0
        exact sub_eq_zero.1 (mulVec_inj_of_det hpd.det_ne_zero (by rw [h0, mulVec_zero]))
      · intro h0; rw [h0, sub_self, mulVec_zero]
    have hnext : s.next x (z - P *ᵥ (s.Mᵀ *ᵥ y) - W *ᵥ l') =
        (s.F - s.L * (P * (s.Mᵀ * s.H))) *ᵥ x + (s.c + s.L *ᵥ (P *ᵥ (s.Mᵀ *ᵥ s.r)) + s.L *ᵥ z) - (s.L * W) *ᵥ l' := by
      simp only [LStage.next, hy, mulVec_sub, sub_mulVec, ← mulVec_mulVec]
      abel
    have hgx : s.gx x (z - P *ᵥ (s.Mᵀ *ᵥ y) - W *ᵥ l') l' =
        (s.Hᵀ * (s.X - s.M * N) * s.H) *ᵥ x - (s.Hᵀ * (s.X - s.M * N)) *ᵥ s.r +
          (s.F - s.L * (P * (s.Mᵀ * s.H)))ᵀ *ᵥ l' := by
      have h1 : s.Z *ᵥ (z - P *ᵥ (s.Mᵀ *ᵥ y) - W *ᵥ l') - s.s = -(N *ᵥ y) - s.Z *ᵥ (W *ᵥ l') := by
        rw [mulVec_sub, mulVec_sub, hz, ← hZPN]
        simp only [← mulVec_mulVec]
        abel
      have h2 : s.M * (s.Z * W) = s.M * (Pᵀ * s.Lᵀ) := by
        have h3 : s.Zᵀ * s.U * Pᵀ = 1 := by
          have := congrArg transpose hP'
          rwa [transpose_mul, transpose_mul, hs.2, transpose_one] at this
        have h4 : s.Zᵀ * s.U * (s.Z * W) = s.Zᵀ * s.U * (Pᵀ * s.Lᵀ) := by
          rw [← Matrix.mul_assoc, ← Matrix.mul_assoc, hW, h3, Matrix.one_mul]
        rw [mul_cancel_of_det (det_ne_zero_of_mul_eq_one h3) h4]
      have h3 : s.M *ᵥ (s.Z *ᵥ (W *ᵥ l')) = s.M *ᵥ (Pᵀ *ᵥ (s.Lᵀ *ᵥ l')) := by
        have := congrArg (· *ᵥ l') h2
        simpa only [← mulVec_mulVec] using this
      unfold LStage.gx
      rw [h1, mulVec_sub s.M, h3, hy]
      simp only [transpose_sub, transpose_mul, transpose_transpose, mulVec_add, mulVec_sub, mulVec_neg, sub_mulVec,
        ← mulVec_mulVec]
      abel
    unfold Elem.Rel LStage.Kkt
    simp only
    constructor
    · rintro ⟨hx, hl⟩
      exact ⟨z - P *ᵥ (s.Mᵀ *ᵥ y) - W *ᵥ l', by rw [hnext, hx], by rw [hgx, hl], (hstat _).2 rfl⟩
    · rintro ⟨u, hx, hl, hu⟩
      have := (hstat u).1 hu
      subst this
      exact ⟨by rw [hx, hnext], by rw [hl, hgx]⟩

/-- An element represents a step: it relates the same states and costates. -/
def LStage.IsElem (s : LStage n m K) (e : Elem n K) : Prop :=
  e.Sym ∧ ∀ x l x' l', e.Rel x l x' l' ↔ ∃ u, s.Kkt x l u x' l'

theorem isElem_forall {ss : List (LStage n m K)} {es : List (Elem n K)} (hs : ∀ s ∈ ss, s.Sym)
    (h : List.Forall₂ (fun s e => LStage.parElem s = .ok e) ss es) : List.Forall₂ LStage.IsElem ss es := by
  induction h with
  | nil => exact .nil
  | cons h1 h2 ih =>
    exact .cons (parElem_rel (hs _ (by simp)) h1) (ih fun s h => hs s (by simp [h]))

/-- Combining the element of a step with a terminal element is the Riccati step. -/
theorem combine_riccati {s : LStage n m K} (hs : s.Sym) {e : Elem n K} (he : s.IsElem e)
    {S : Matrix (Fin n) (Fin n) K} (hS : Sᵀ = S) {v : Fin n → K} {Kx : Matrix (Fin m) (Fin n) K} {d : Fin m → K}
    (h : s.gains S v = .ok (Kx, d)) :
    combineABCEJ e ⟨0, 0, 0, v, S⟩ = .ok ⟨0, 0, 0, (s.riccati Kx S v).2, (s.riccati Kx S v).1⟩ := by
  obtain ⟨hsym, hrel⟩ := he
  have hdet : (1 + e.C * S).det ≠ 0 := by
    obtain ⟨h1, -, -⟩ := (gains_ok hs hS).1 h
    apply det_ne_zero_of_inj
    intro y hy
    simp only [add_mulVec, one_mulVec, ← mulVec_mulVec] at hy
    have hy' : y = -(e.C *ᵥ (S *ᵥ y)) := eq_neg_of_add_eq_zero_left hy
    obtain ⟨u1, k1⟩ := (hrel 0 (e.Aᵀ *ᵥ (S *ᵥ y) - e.eta) (e.b - e.C *ᵥ (S *ᵥ y)) (S *ᵥ y)).1 (by
      simp [Elem.Rel]; abel)
    obtain ⟨u0, k0⟩ := (hrel 0 (-e.eta) e.b 0).1 (by simp [Elem.Rel])
    have hyw : y = s.L *ᵥ (u1 - u0) := by
      have a := k1.1
      have b := k0.1
      simp only [LStage.next] at a b
      rw [mulVec_sub]
      calc y = (e.b - e.C *ᵥ (S *ᵥ y)) - e.b := by rw [sub_sub_cancel_left]; exact hy'
        _ = _ := by rw [a, b]; abel
    have h2 : s.hess S *ᵥ (u1 - u0) = 0 := by
      have a := k1.2.2
      have b := k0.2.2
      have e1 : s.hess S *ᵥ (u1 - u0) = s.gu 0 u1 (S *ᵥ y) - s.gu 0 u0 0 := by
        rw [LStage.hess, add_mulVec]
        simp only [← mulVec_mulVec]
        rw [← hyw]
        simp only [LStage.gu, mulVec_zero, mulVec_add, mulVec_sub, zero_sub, add_zero]
        abel
      rw [e1, a, b, sub_zero]
    rw [hyw, mulVec_inj_of_det h1.det_ne_zero (show _ *ᵥ (u1 - u0) = _ *ᵥ 0 by rw [h2, mulVec_zero]), mulVec_zero]
  obtain ⟨e', he'⟩ := combine_defined (e1 := e) (e2 := ⟨0, 0, 0, v, S⟩) hdet
  obtain ⟨hs', hr'⟩ := combine_rel he' hsym ⟨by simp, hS⟩
  rw [he']
  congr 1
  apply Elem.ext_of_rel
  intro x l x'' l'' hR
  obtain ⟨x', l', hR1, hR2⟩ := (hr' x l x'' l'').1 hR
  obtain ⟨u, hu⟩ := (hrel _ _ _ _).1 hR1
  simp only [Elem.Rel, zero_mulVec, transpose_zero, add_zero, sub_zero] at hR2 ⊢
  obtain ⟨rfl, rfl⟩ := hR2
  have := (kkt_iff hs hS h x l u x').1 hu
  exact ⟨rfl, this.2.2⟩

end Gains

end Verif
