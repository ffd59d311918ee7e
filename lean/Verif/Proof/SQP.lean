import Verif.Model.SQP
import Verif.Proof.Linalg
import Mathlib.Tactic.Linarith
import Mathlib.Tactic.Ring
import Mathlib.Tactic.LinearCombination
import Mathlib.Tactic.FieldSimp
import Mathlib.Tactic.Positivity

/-! Helper lemmas for `Verif.Model.SQP`. -/

namespace Verif

open Matrix

variable {n m : ℕ} {K : Type} [Field K]

section Solve
variable [DecidableEq K]

theorem jnpSolveV_ok {ι : Type} [Fintype ι] [DecidableEq ι] {A : Matrix ι ι K} {b x : ι → K} :
    jnpSolveV A b = .ok x ↔ A.det ≠ 0 ∧ A *ᵥ x = b := by
  unfold jnpSolveV
  by_cases h : A.det = 0
  · simp [h]
  · simp only [h, if_false, ne_eq, not_false_eq_true, true_and, Except.ok.injEq]
    constructor
    · rintro rfl
      rw [mulVec_mulVec, mul_minv h, one_mulVec]
    · rintro rfl
      rw [mulVec_mulVec, minv_mul h, one_mulVec]

theorem jnpSolveV_error {ι : Type} [Fintype ι] [DecidableEq ι] {A : Matrix ι ι K} {b : ι → K} (h : A.det = 0) :
    jnpSolveV A b = .error .notFinite := by simp [jnpSolveV, h]

theorem jnpDiv_ok {X : Type} [SMul K X] {a r : X} {b : K} : jnpDiv a b = .ok r ↔ b ≠ 0 ∧ r = b⁻¹ • a := by
  unfold jnpDiv
  by_cases h : b = 0
  · simp [h]
  · simp [h, eq_comm]

/-- The KKT system. -/
theorem kkt_mulVec (G : Matrix (Fin n) (Fin n) K) (A : Matrix (Fin m) (Fin n) K) (x : Fin n → K) (lam : Fin m → K) :
    fromBlocks G (-Aᵀ) A 0 *ᵥ Sum.elim x lam = Sum.elim (G *ᵥ x - Aᵀ *ᵥ lam) (A *ᵥ x) := by
  rw [fromBlocks_mulVec]
  simp [neg_mulVec, sub_eq_add_neg]

theorem lqeSolve_ok {G : Matrix (Fin n) (Fin n) K} {c : Fin n → K} {A : Matrix (Fin m) (Fin n) K} {b : Fin m → K}
    {r : (Fin n → K) × (Fin m → K)} :
    lqeSolve G c A b = .ok r ↔
      (fromBlocks G (-Aᵀ) A 0).det ≠ 0 ∧ A *ᵥ r.1 = b ∧ G *ᵥ r.1 + c = Aᵀ *ᵥ r.2 := by
  unfold lqeSolve
  dsimp only
  by_cases h : (fromBlocks G (-Aᵀ) A 0).det = 0
  · rw [jnpSolveV_error h]
    simp [h, bind, Except.bind]
  · have key : ∀ x : Fin n ⊕ Fin m → K, jnpSolveV (fromBlocks G (-Aᵀ) A 0) (Sum.elim (-c) b) = .ok x ↔
        A *ᵥ (fun i => x (Sum.inl i)) = b ∧ G *ᵥ (fun i => x (Sum.inl i)) + c = Aᵀ *ᵥ fun i => x (Sum.inr i) := by
      intro x
      rw [jnpSolveV_ok]
      have hx : x = Sum.elim (fun i => x (Sum.inl i)) (fun i => x (Sum.inr i)) := by ext (i | i) <;> rfl
      rw [hx, kkt_mulVec]
      simp only [ne_eq, h, not_false_eq_true, true_and, Sum.elim_inl, Sum.elim_inr]
      constructor
      · intro e
        have h1 : G *ᵥ (fun i => x (Sum.inl i)) - Aᵀ *ᵥ (fun i => x (Sum.inr i)) = -c := by
          ext i; simpa using congrFun e (Sum.inl i)
        have h2 : A *ᵥ (fun i => x (Sum.inl i)) = b := by ext i; simpa using congrFun e (Sum.inr i)
        exact ⟨h2, by rw [sub_eq_iff_eq_add] at h1; rw [h1]; abel⟩
      · rintro ⟨h2, h1⟩
        rw [h2, ← h1]; congr 1; abel
    obtain ⟨x, hx⟩ : ∃ x, jnpSolveV (fromBlocks G (-Aᵀ) A 0) (Sum.elim (-c) b) = .ok x := by
      unfold jnpSolveV; rw [if_neg h]; exact ⟨_, rfl⟩
    rw [hx]
    simp only [bind, Except.bind, pure, Except.pure, Except.ok.injEq, ne_eq, h, not_false_eq_true, true_and]
    constructor
    · rintro rfl; exact (key x).1 hx
    · intro hr
      have := (key (Sum.elim r.1 r.2)).2 (by simpa using hr)
      rw [hx] at this
      cases this
      rfl

theorem lqeSolve_error {G : Matrix (Fin n) (Fin n) K} {c : Fin n → K} {A : Matrix (Fin m) (Fin n) K} {b : Fin m → K}
    (h : (fromBlocks G (-Aᵀ) A 0).det = 0) : lqeSolve G c A b = .error .notFinite := by
  unfold lqeSolve
  dsimp only
  rw [jnpSolveV_error h]; rfl

theorem lqeSolve_total {G : Matrix (Fin n) (Fin n) K} {A : Matrix (Fin m) (Fin n) K}
    (h : (fromBlocks G (-Aᵀ) A 0).det ≠ 0) (c : Fin n → K) (b : Fin m → K) : ∃ r, lqeSolve G c A b = .ok r := by
  unfold lqeSolve jnpSolveV
  dsimp only
  rw [if_neg h]; exact ⟨_, rfl⟩

end Solve

section QP
variable [LinearOrder K] [IsStrictOrderedRing K]

omit [LinearOrder K] [IsStrictOrderedRing K] in
theorem quad_add (G : Matrix (Fin n) (Fin n) K) (hG : Gᵀ = G) (x z : Fin n → K) :
    (x + z) ⬝ᵥ G *ᵥ (x + z) = x ⬝ᵥ G *ᵥ x + 2 * (z ⬝ᵥ G *ᵥ x) + z ⬝ᵥ G *ᵥ z := by
  have : x ⬝ᵥ G *ᵥ z = z ⬝ᵥ G *ᵥ x := by rw [dot_symm, hG]
  simp only [mulVec_add, add_dotProduct, dotProduct_add, this]; ring

/-- Cost difference of two feasible points, one of them a KKT point. -/
theorem qp_diff {G : Matrix (Fin n) (Fin n) K} (hG : Gᵀ = G) {c x z : Fin n → K} {A : Matrix (Fin m) (Fin n) K}
    {lam : Fin m → K} (hx : G *ᵥ x + c = Aᵀ *ᵥ lam) (hz : A *ᵥ z = 0) :
    (1 / 2 : K) * ((x + z) ⬝ᵥ G *ᵥ (x + z)) + c ⬝ᵥ (x + z) =
      (1 / 2 : K) * (x ⬝ᵥ G *ᵥ x) + c ⬝ᵥ x + (1 / 2 : K) * (z ⬝ᵥ G *ᵥ z) := by
  have h1 : z ⬝ᵥ G *ᵥ x + c ⬝ᵥ z = 0 := by
    rw [dotProduct_comm c z, ← dotProduct_add, hx, dot_symm, transpose_transpose, hz, dotProduct_zero]
  rw [quad_add G hG, dotProduct_add]
  linear_combination h1

theorem qp_min_iff [DecidableEq (Fin n)] {G : Matrix (Fin n) (Fin n) K} (hG : Gᵀ = G) {c : Fin n → K} {A : Matrix (Fin m) (Fin n) K}
    {b : Fin m → K} {x : Fin n → K} {lam : Fin m → K} (hA : A *ᵥ x = b) (hx : G *ᵥ x + c = Aᵀ *ᵥ lam) :
    (∀ y, A *ᵥ y = b → (1 / 2 : K) * (x ⬝ᵥ G *ᵥ x) + c ⬝ᵥ x ≤ (1 / 2 : K) * (y ⬝ᵥ G *ᵥ y) + c ⬝ᵥ y) ↔
      ∀ z, A *ᵥ z = 0 → 0 ≤ z ⬝ᵥ G *ᵥ z := by
  constructor
  · intro h z hz
    have := h (x + z) (by rw [mulVec_add, hA, hz, add_zero])
    rw [qp_diff hG hx hz] at this
    linarith
  · intro h y hy
    have hz : A *ᵥ (y - x) = 0 := by rw [mulVec_sub, hA, hy, sub_self]
    have := qp_diff hG hx hz
    rw [add_sub_cancel] at this
    rw [this]
    have := h _ hz
    linarith

theorem qp_unique {G : Matrix (Fin n) (Fin n) K} (hG : Gᵀ = G) {c : Fin n → K} {A : Matrix (Fin m) (Fin n) K}
    {b : Fin m → K} (hdet : (fromBlocks G (-Aᵀ) A 0).det ≠ 0) {x : Fin n → K} {lam : Fin m → K} (hA : A *ᵥ x = b)
    (hx : G *ᵥ x + c = Aᵀ *ᵥ lam) (hN : ∀ z, A *ᵥ z = 0 → 0 ≤ z ⬝ᵥ G *ᵥ z) {y : Fin n → K} (hy : A *ᵥ y = b)
    (hle : (1 / 2 : K) * (y ⬝ᵥ G *ᵥ y) + c ⬝ᵥ y ≤ (1 / 2 : K) * (x ⬝ᵥ G *ᵥ x) + c ⬝ᵥ x) : y = x := by
  have hz : A *ᵥ (y - x) = 0 := by rw [mulVec_sub, hA, hy, sub_self]
  have hd := qp_diff hG hx hz
  rw [add_sub_cancel] at hd
  obtain ⟨z, hzz⟩ : ∃ z, z = y - x := ⟨_, rfl⟩
  rw [← hzz] at hz hd
  have hz0 : z ⬝ᵥ G *ᵥ z = 0 := le_antisymm (by linarith) (hN z hz)
  -- `G z` is orthogonal to the null space
  have ho : ∀ w, A *ᵥ w = 0 → w ⬝ᵥ G *ᵥ z = 0 := by
    intro w hw
    have hq : ∀ t : K, 0 ≤ 2 * t * (w ⬝ᵥ G *ᵥ z) + t ^ 2 * (w ⬝ᵥ G *ᵥ w) := by
      intro t
      have := hN (z + t • w) (by rw [mulVec_add, mulVec_smul, hz, hw]; simp)
      rw [quad_add G hG, hz0] at this
      simp only [mulVec_smul, smul_dotProduct, dotProduct_smul, smul_eq_mul] at this
      nlinarith [this]
    by_contra hne
    set a := w ⬝ᵥ G *ᵥ z with ha
    set g := w ⬝ᵥ G *ᵥ w with hg
    have hg0 : 0 ≤ g := hN w hw
    have h1 := hq (-a / (g + 1))
    have hp : 0 < g + 1 := by linarith
    have h2 : 2 * (-a / (g + 1)) * a + (-a / (g + 1)) ^ 2 * g = -(a ^ 2 * (g + 2)) / (g + 1) ^ 2 := by
      field_simp; ring
    rw [h2] at h1
    have h3 : 0 < a ^ 2 * (g + 2) := mul_pos (by positivity) (by linarith)
    have h4 : -(a ^ 2 * (g + 2)) / (g + 1) ^ 2 < 0 := div_neg_of_neg_of_pos (by linarith) (by positivity)
    linarith
  obtain ⟨r, hr⟩ := lqeSolve_total hdet (-z) 0
  obtain ⟨-, h1, h2⟩ := lqeSolve_ok.1 hr
  have h3 : z ⬝ᵥ z = 0 := by
    have e : z = G *ᵥ r.1 - Aᵀ *ᵥ r.2 := by rw [← h2]; abel
    calc z ⬝ᵥ z = z ⬝ᵥ (G *ᵥ r.1 - Aᵀ *ᵥ r.2) := by rw [← e]
      _ = 0 := by
        rw [dotProduct_sub, dot_symm G, hG, ho _ h1, dot_symm Aᵀ, transpose_transpose, hz, dotProduct_zero, sub_zero]
  have h4 : z = 0 := dotProduct_self_eq_zero.1 h3
  rw [h4] at hzz
  exact (sub_eq_zero.1 hzz.symm)

end QP

section BFGS
variable [LinearOrder K] [IsStrictOrderedRing K]

/-- Value of the updated matrix. -/
theorem bfgs_quad (B : Matrix (Fin n) (Fin n) K) (a b : K) (y w x : Fin n → K) :
    x ⬝ᵥ (B + a⁻¹ • vecMulVec y y - b⁻¹ • vecMulVec w w) *ᵥ x =
      x ⬝ᵥ B *ᵥ x + (y ⬝ᵥ x) ^ 2 / a - (w ⬝ᵥ x) ^ 2 / b := by
  have h : ∀ v : Fin n → K, x ⬝ᵥ vecMulVec v v *ᵥ x = (v ⬝ᵥ x) ^ 2 := by
    intro v
    rw [vecMulVec_mulVec, dotProduct_smul, dotProduct_comm x v]
    simp [pow_two]
  simp only [sub_mulVec, add_mulVec, smul_mulVec, dotProduct_sub, dotProduct_add, dotProduct_smul, h, smul_eq_mul]
  rw [inv_mul_eq_div, inv_mul_eq_div]

theorem bfgs_pd {B : Matrix (Fin n) (Fin n) K} (hB : Bᵀ = B) (hP : IsPD B) {s y : Fin n → K} (hs : 0 < s ⬝ᵥ y) :
    IsPD (B + (s ⬝ᵥ y)⁻¹ • vecMulVec y y - (s ⬝ᵥ B *ᵥ s)⁻¹ • vecMulVec (B *ᵥ s) (B *ᵥ s)) := by
  have hs0 : s ≠ 0 := by rintro rfl; simp at hs
  have hb : 0 < s ⬝ᵥ B *ᵥ s := hP s hs0
  intro x hx
  rw [bfgs_quad]
  obtain ⟨t, ht⟩ : ∃ t, t = (B *ᵥ s) ⬝ᵥ x / (s ⬝ᵥ B *ᵥ s) := ⟨_, rfl⟩
  have hxs : x ⬝ᵥ B *ᵥ s = (B *ᵥ s) ⬝ᵥ x := dotProduct_comm _ _
  have ht' : (B *ᵥ s) ⬝ᵥ x = t * (s ⬝ᵥ B *ᵥ s) := by rw [ht]; field_simp
  have hz : (x - t • s) ⬝ᵥ B *ᵥ (x - t • s) = x ⬝ᵥ B *ᵥ x - ((B *ᵥ s) ⬝ᵥ x) ^ 2 / (s ⬝ᵥ B *ᵥ s) := by
    have e : s ⬝ᵥ B *ᵥ x = (B *ᵥ s) ⬝ᵥ x := by rw [dot_symm, hB]; exact hxs
    simp only [mulVec_sub, mulVec_smul, sub_dotProduct, dotProduct_sub, smul_dotProduct, dotProduct_smul, smul_eq_mul, e, hxs]
    rw [ht']; field_simp; ring
  by_cases hxt : x - t • s = 0
  · have hxe : x = t • s := sub_eq_zero.1 hxt
    have ht0 : t ≠ 0 := by rintro rfl; exact hx (by rw [hxe, zero_smul])
    have h0 : x ⬝ᵥ B *ᵥ x - ((B *ᵥ s) ⬝ᵥ x) ^ 2 / (s ⬝ᵥ B *ᵥ s) = 0 := by rw [← hz, hxt]; simp
    have h1 : (y ⬝ᵥ x) ^ 2 / (s ⬝ᵥ y) = t ^ 2 * (s ⬝ᵥ y) := by
      rw [hxe, dotProduct_smul, dotProduct_comm y s, smul_eq_mul]; field_simp
    rw [h1]
    have : 0 < t ^ 2 * (s ⬝ᵥ y) := by positivity
    linarith
  · have h1 := hP _ hxt
    rw [hz] at h1
    have h2 : 0 ≤ (y ⬝ᵥ x) ^ 2 / (s ⬝ᵥ y) := by positivity
    linarith

omit [LinearOrder K] [IsStrictOrderedRing K] in
theorem bfgs_symm {B : Matrix (Fin n) (Fin n) K} (hB : Bᵀ = B) (a b : K) (y w : Fin n → K) :
    (B + a • vecMulVec y y - b • vecMulVec w w)ᵀ = B + a • vecMulVec y y - b • vecMulVec w w := by
  have h : ∀ v : Fin n → K, (vecMulVec v v)ᵀ = vecMulVec v v := by
    intro v; ext i j; simp [vecMulVec_apply, mul_comm]
  simp [transpose_sub, transpose_add, transpose_smul, hB, h]

omit [LinearOrder K] [IsStrictOrderedRing K] in
theorem bfgs_secant (B : Matrix (Fin n) (Fin n) K) {s y : Fin n → K} (hs : s ⬝ᵥ y ≠ 0) (hb : s ⬝ᵥ B *ᵥ s ≠ 0) :
    (B + (s ⬝ᵥ y)⁻¹ • vecMulVec y y - (s ⬝ᵥ B *ᵥ s)⁻¹ • vecMulVec (B *ᵥ s) (B *ᵥ s)) *ᵥ s = y := by
  have h1 : y ⬝ᵥ s = s ⬝ᵥ y := dotProduct_comm _ _
  have h2 : (B *ᵥ s) ⬝ᵥ s = s ⬝ᵥ B *ᵥ s := dotProduct_comm _ _
  simp only [sub_mulVec, add_mulVec, smul_mulVec, vecMulVec_mulVec, h1, h2]
  ext i
  simp only [Pi.add_apply, Pi.sub_apply, Pi.smul_apply, smul_eq_mul, MulOpposite.smul_eq_mul_unop, MulOpposite.unop_op]
  field_simp
  ring

theorem basic_ok {B : Matrix (Fin n) (Fin n) K} (hP : IsPD B) {s y : Fin n → K} (h : 0 < s ⬝ᵥ y) :
    bfgsBasicUpdate B s y =
      .ok (B + (s ⬝ᵥ y)⁻¹ • vecMulVec y y - (s ⬝ᵥ B *ᵥ s)⁻¹ • vecMulVec (B *ᵥ s) (B *ᵥ s)) := by
  have hs0 : s ≠ 0 := by rintro rfl; simp at h
  have hb : 0 < s ⬝ᵥ B *ᵥ s := hP s hs0
  unfold bfgsBasicUpdate jnpDiv
  dsimp only
  rw [if_pos h, if_neg h.ne', if_neg hb.ne']
  rfl

/-- `theta` in exact form. -/
theorem theta_ok {B : Matrix (Fin n) (Fin n) K} {s y : Fin n → K} (hb : 0 < s ⬝ᵥ B *ᵥ s) :
    ∃ θ : K, bfgsTheta (B *ᵥ s) s y = .ok θ ∧ 0 ≤ θ ∧ θ ≤ 1 ∧
      (if 2 / 10 * (s ⬝ᵥ B *ᵥ s) ≤ s ⬝ᵥ y then θ = 1 else
        s ⬝ᵥ (θ • y + (1 - θ) • B *ᵥ s) = 2 / 10 * (s ⬝ᵥ B *ᵥ s)) := by
  have h2 : (B *ᵥ s) ⬝ᵥ s = s ⬝ᵥ B *ᵥ s := dotProduct_comm _ _
  unfold bfgsTheta
  rw [h2]
  by_cases h : s ⬝ᵥ y ≥ (2 / 10 : K) * (s ⬝ᵥ B *ᵥ s)
  · rw [if_pos h]; simp only [if_pos (ge_iff_le.1 h)]; exact ⟨1, rfl, by norm_num, le_refl _, rfl⟩
  · have hpos : 0 < s ⬝ᵥ B *ᵥ s - s ⬝ᵥ y := by
      have : s ⬝ᵥ y < 2 / 10 * (s ⬝ᵥ B *ᵥ s) := not_le.1 h
      linarith
    rw [if_neg h]
    simp only [if_neg (show ¬ 2 / 10 * (s ⬝ᵥ B *ᵥ s) ≤ s ⬝ᵥ y from h)]
    unfold jnpDiv
    rw [if_neg hpos.ne']
    refine ⟨_, rfl, ?_, ?_, ?_⟩
    · rw [smul_eq_mul]; positivity
    · rw [smul_eq_mul, inv_mul_le_iff₀ hpos]
      have : s ⬝ᵥ y < 2 / 10 * (s ⬝ᵥ B *ᵥ s) := not_le.1 h
      linarith
    · simp only [dotProduct_add, dotProduct_smul, smul_eq_mul]
      field_simp
      ring

theorem damped_ok {B : Matrix (Fin n) (Fin n) K} (hP : IsPD B) {s : Fin n → K} (hs : s ≠ 0) (y : Fin n → K) :
    ∃ y' θ : _, bfgsTheta (B *ᵥ s) s y = .ok θ ∧ 0 ≤ θ ∧ θ ≤ 1 ∧ y' = θ • y + (1 - θ) • B *ᵥ s ∧
      (if 2 / 10 * (s ⬝ᵥ B *ᵥ s) ≤ s ⬝ᵥ y then y' = y else s ⬝ᵥ y' = 2 / 10 * (s ⬝ᵥ B *ᵥ s)) ∧
      bfgsDampedUpdate B s y =
        .ok (B + (s ⬝ᵥ y')⁻¹ • vecMulVec y' y' - (s ⬝ᵥ B *ᵥ s)⁻¹ • vecMulVec (B *ᵥ s) (B *ᵥ s)) := by
  have hb : 0 < s ⬝ᵥ B *ᵥ s := hP s hs
  obtain ⟨θ, h1, h2, h3, h4⟩ := theta_ok (y := y) hb
  have h5 : (if 2 / 10 * (s ⬝ᵥ B *ᵥ s) ≤ s ⬝ᵥ y then θ • y + (1 - θ) • B *ᵥ s = y
      else s ⬝ᵥ (θ • y + (1 - θ) • B *ᵥ s) = 2 / 10 * (s ⬝ᵥ B *ᵥ s)) := by
    split_ifs with h
    · rw [if_pos h] at h4; rw [h4]; simp
    · rwa [if_neg h] at h4
  refine ⟨_, θ, h1, h2, h3, rfl, h5, ?_⟩
  have hy : 0 < s ⬝ᵥ (θ • y + (1 - θ) • B *ᵥ s) := by
    split_ifs at h5 with h
    · rw [h5]
      have : (0 : K) < 2 / 10 * (s ⬝ᵥ B *ᵥ s) := by positivity
      linarith
    · rw [h5]; positivity
  unfold bfgsDampedUpdate jnpDiv
  simp only [h1, bind, Except.bind, pure, Except.pure]
  rw [if_neg hy.ne', if_neg hb.ne']

end BFGS

end Verif
