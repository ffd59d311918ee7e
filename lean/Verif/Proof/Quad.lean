import Verif.Model.ShootingSQP
import Verif.Proof.SQPLoop
import Verif.Spec.Linalg
import Mathlib.Analysis.Calculus.FDeriv.Mul
import Mathlib.Analysis.Calculus.FDeriv.Add
import Mathlib.Analysis.Calculus.FDeriv.Linear
import Mathlib.Analysis.Normed.Module.FiniteDimension
import Mathlib.Tactic.NoncommRing

/-! Derivatives of affine and quadratic functions of a vector; one iteration of the SQP method solves a quadratic problem. -/

namespace Verif

open Matrix

variable {n m : ℕ}

/-- An affine function. -/
def IsAff (f : (Fin n → ℝ) → ℝ) : Prop := ∃ (a : Fin n → ℝ) (b : ℝ), ∀ x, f x = a ⬝ᵥ x + b

/-- A quadratic function. -/
def IsQuad (f : (Fin n → ℝ) → ℝ) : Prop :=
  ∃ (G : Matrix (Fin n) (Fin n) ℝ) (c : Fin n → ℝ) (d : ℝ), Gᵀ = G ∧ ∀ x, f x = 1 / 2 * (x ⬝ᵥ G *ᵥ x) + c ⬝ᵥ x + d

theorem IsAff.const (b : ℝ) : IsAff (fun _ : Fin n → ℝ => b) := ⟨0, b, fun x => by simp⟩

theorem IsAff.coord (i : Fin n) : IsAff (fun x : Fin n → ℝ => x i) := ⟨Pi.single i 1, 0, fun x => by simp⟩

theorem IsAff.add {f g : (Fin n → ℝ) → ℝ} (hf : IsAff f) (hg : IsAff g) : IsAff (fun x => f x + g x) := by
  obtain ⟨a, b, h⟩ := hf
  obtain ⟨a', b', h'⟩ := hg
  exact ⟨a + a', b + b', fun x => by dsimp only; rw [h, h', add_dotProduct]; ring⟩

theorem IsAff.mul {f : (Fin n → ℝ) → ℝ} (r : ℝ) (hf : IsAff f) : IsAff (fun x => r * f x) := by
  obtain ⟨a, b, h⟩ := hf
  exact ⟨r • a, r * b, fun x => by dsimp only; rw [h, smul_dotProduct, smul_eq_mul]; ring⟩

theorem IsQuad.const (b : ℝ) : IsQuad (fun _ : Fin n → ℝ => b) := ⟨0, 0, b, by simp, fun x => by simp⟩

theorem IsQuad.add {f g : (Fin n → ℝ) → ℝ} (hf : IsQuad f) (hg : IsQuad g) : IsQuad (fun x => f x + g x) := by
  obtain ⟨G, c, d, hG, h⟩ := hf
  obtain ⟨G', c', d', hG', h'⟩ := hg
  exact ⟨G + G', c + c', d + d', by rw [transpose_add, hG, hG'], fun x => by
    dsimp only; rw [h, h', add_dotProduct, add_mulVec, dotProduct_add]; ring⟩

theorem IsQuad.mul {f : (Fin n → ℝ) → ℝ} (r : ℝ) (hf : IsQuad f) : IsQuad (fun x => r * f x) := by
  obtain ⟨G, c, d, hG, h⟩ := hf
  exact ⟨r • G, r • c, r * d, by rw [transpose_smul, hG], fun x => by
    dsimp only; rw [h, smul_dotProduct, smul_mulVec, dotProduct_smul, smul_eq_mul, smul_eq_mul]; ring⟩

theorem IsAff.sq {f : (Fin n → ℝ) → ℝ} (hf : IsAff f) : IsQuad (fun x => f x ^ 2) := by
  obtain ⟨a, b, h⟩ := hf
  refine ⟨(2 : ℝ) • vecMulVec a a, (2 * b) • a, b ^ 2, ?_, fun x => ?_⟩
  · rw [transpose_smul, transpose_vecMulVec]
  · have e : x ⬝ᵥ vecMulVec a a *ᵥ x = (a ⬝ᵥ x) ^ 2 := by
      rw [vecMulVec_mulVec, dotProduct_smul, dotProduct_comm x a]
      simp only [MulOpposite.smul_eq_mul_unop, MulOpposite.unop_op]
      ring
    dsimp only; rw [h, smul_dotProduct, smul_mulVec, dotProduct_smul, e, smul_eq_mul, smul_eq_mul]
    ring

theorem adGrad_of {f : (Fin n → ℝ) → ℝ} {f' : (Fin n → ℝ) →L[ℝ] ℝ} {x : Fin n → ℝ} (h : HasFDerivAt f f' x) :
    adGrad f x = fun j => f' (Pi.single j 1) := by
  funext j
  unfold adGrad
  rw [h.fderiv]

/-- The continuous linear map of a vector. -/
noncomputable def dotL (a : Fin n → ℝ) : (Fin n → ℝ) →L[ℝ] ℝ := LinearMap.toContinuousLinearMap
  { toFun := fun x => a ⬝ᵥ x, map_add' := fun x y => dotProduct_add a x y, map_smul' := fun r x => dotProduct_smul r a x }

@[simp] theorem dotL_apply (a x : Fin n → ℝ) : dotL a x = a ⬝ᵥ x := rfl

theorem hasFDerivAt_aff (a : Fin n → ℝ) (b : ℝ) (x : Fin n → ℝ) : HasFDerivAt (fun x => a ⬝ᵥ x + b) (dotL a) x :=
  (dotL a).hasFDerivAt.add_const b

theorem hasFDerivAt_quad (G : Matrix (Fin n) (Fin n) ℝ) (hG : Gᵀ = G) (c : Fin n → ℝ) (d : ℝ) (x : Fin n → ℝ) :
    HasFDerivAt (fun x => 1 / 2 * (x ⬝ᵥ G *ᵥ x) + c ⬝ᵥ x + d) (dotL (G *ᵥ x + c)) x := by
  have h1 : ∀ i, HasFDerivAt (fun x : Fin n → ℝ => x i * (G *ᵥ x) i)
      (x i • (dotL (G i)) + (G *ᵥ x) i • dotL (Pi.single i 1)) x := by
    intro i
    have e1 : HasFDerivAt (fun x : Fin n → ℝ => x i) (dotL (Pi.single i 1)) x := by
      have := (dotL (Pi.single i (1 : ℝ) : Fin n → ℝ)).hasFDerivAt (x := x)
      have e : (fun x : Fin n → ℝ => x i) = fun x => dotL (Pi.single i (1 : ℝ) : Fin n → ℝ) x := by
        funext y; simp
      rw [e]; exact this
    have e2 : HasFDerivAt (fun x : Fin n → ℝ => (G *ᵥ x) i) (dotL (G i)) x := (dotL (G i)).hasFDerivAt
    exact e1.mul e2
  have h2 := HasFDerivAt.fun_sum (u := Finset.univ) fun i _ => h1 i
  have h3 := ((h2.const_mul (1 / 2)).add (dotL c).hasFDerivAt).add_const d
  refine HasFDerivAt.congr_fderiv h3 ?_
  ext y
  simp only [ContinuousLinearMap.add_apply, ContinuousLinearMap.smul_apply, ContinuousLinearMap.sum_apply, dotL_apply, smul_eq_mul,
    single_dotProduct, one_mul, add_dotProduct]
  have e3 : ∑ i, (x i * (G i ⬝ᵥ y) + (G *ᵥ x) i * y i) = x ⬝ᵥ G *ᵥ y + (G *ᵥ x) ⬝ᵥ y := by
    rw [Finset.sum_add_distrib]; rfl
  rw [e3, show x ⬝ᵥ G *ᵥ y = (G *ᵥ x) ⬝ᵥ y by rw [dotProduct_mulVec, ← mulVec_transpose, hG]]
  ring

theorem adGrad_aff (a : Fin n → ℝ) (b : ℝ) (x : Fin n → ℝ) : adGrad (fun x => a ⬝ᵥ x + b) x = a := by
  rw [adGrad_of (hasFDerivAt_aff a b x)]
  funext j
  simp

theorem adGrad_quad (G : Matrix (Fin n) (Fin n) ℝ) (hG : Gᵀ = G) (c : Fin n → ℝ) (d : ℝ) (x : Fin n → ℝ) :
    adGrad (fun x => 1 / 2 * (x ⬝ᵥ G *ᵥ x) + c ⬝ᵥ x + d) x = G *ᵥ x + c := by
  rw [adGrad_of (hasFDerivAt_quad G hG c d x)]
  funext j
  simp

theorem adJac_aff (A : Matrix (Fin m) (Fin n) ℝ) (b : Fin m → ℝ) (x : Fin n → ℝ) : adJac (fun x => A *ᵥ x + b) x = A := by
  funext i j
  unfold adJac
  have h : HasFDerivAt (fun x : Fin n → ℝ => A *ᵥ x + b) (ContinuousLinearMap.pi fun i => dotL (A i)) x := by
    rw [hasFDerivAt_pi]
    exact fun i => hasFDerivAt_aff (A i) (b i) x
  rw [h.fderiv]
  simp

theorem adHess_quad (G : Matrix (Fin n) (Fin n) ℝ) (hG : Gᵀ = G) (c : Fin n → ℝ) (d : ℝ) (x : Fin n → ℝ) :
    adHess (fun x => 1 / 2 * (x ⬝ᵥ G *ᵥ x) + c ⬝ᵥ x + d) x = G := by
  unfold adHess
  rw [show adGrad (fun x => 1 / 2 * (x ⬝ᵥ G *ᵥ x) + c ⬝ᵥ x + d) = fun x => G *ᵥ x + c from funext (adGrad_quad G hG c d)]
  exact adJac_aff G c x

/-- Each iteration returns the solution of the quadratic problem. -/
theorem adLocalStep_quad (fn : (Fin n → ℝ) → ℝ) (con : (Fin n → ℝ) → Fin m → ℝ) (G : Matrix (Fin n) (Fin n) ℝ) (hG : Gᵀ = G)
    (c : Fin n → ℝ) (d : ℝ) (hf : ∀ x, fn x = 1 / 2 * (x ⬝ᵥ G *ᵥ x) + c ⬝ᵥ x + d) (A : Matrix (Fin m) (Fin n) ℝ) (b : Fin m → ℝ)
    (hc : ∀ x, con x = A *ᵥ x + b) (xs : Fin n → ℝ) (ls : Fin m → ℝ) (hs : lqeSolve G c A (-b) = .ok (xs, ls)) (x : Fin n → ℝ)
    (lam : Fin m → ℝ) : ∃ crit, adLocalStep fn con x lam = .ok (xs, ls, crit) := by
  obtain ⟨h0, h1, h2⟩ := lqeSolve_ok.1 hs
  dsimp only at h1 h2
  have ef : fn = fun x => 1 / 2 * (x ⬝ᵥ G *ᵥ x) + c ⬝ᵥ x + d := funext hf
  have ec : con = fun x => A *ᵥ x + b := funext hc
  have el : (fun x => fn x - lam ⬝ᵥ con x) =
      fun x => 1 / 2 * (x ⬝ᵥ G *ᵥ x) + (c - Aᵀ *ᵥ lam) ⬝ᵥ x + (d - lam ⬝ᵥ b) := by
    funext x
    rw [hf, hc, sub_dotProduct, dotProduct_add, dotProduct_mulVec lam A x, ← mulVec_transpose]
    ring
  have hstep : lqeSolve (adHess (fun x => fn x - lam ⬝ᵥ con x) x) (adGrad fn x) (adJac con x) (-con x) = .ok (xs - x, ls) := by
    rw [el, adHess_quad G hG, ef, adGrad_quad G hG, ec, adJac_aff]
    refine lqeSolve_ok.2 ⟨h0, ?_, ?_⟩
    · dsimp only; rw [mulVec_sub, h1]; abel
    · dsimp only; rw [mulVec_sub, ← h2]; abel
  refine ⟨l2norm (adGrad (fun x => fn x - lam ⬝ᵥ con x) x), ?_⟩
  unfold adLocalStep
  dsimp only
  rw [hstep]
  show Except.ok _ = _
  rw [add_sub_cancel]

theorem foldlM_const {σ : Type} (f : σ → Py σ) (R : σ → Prop) (h : ∀ s, ∃ s', f s = .ok s' ∧ R s') : ∀ (k : ℕ) (s : σ),
    ∃ s', (List.range (k + 1)).foldlM (fun s (_ : ℕ) => f s) s = .ok s' ∧ R s'
  | 0, s => by
    obtain ⟨s', h1, h2⟩ := h s
    refine ⟨s', ?_, h2⟩
    rw [show List.range (0 + 1) = [0] from rfl, List.foldlM_cons, h1]
    rfl
  | k + 1, s => by
    obtain ⟨s1, h1, -⟩ := foldlM_const f R h k s
    obtain ⟨s', h2, h3⟩ := h s1
    refine ⟨s', ?_, h3⟩
    rw [List.range_succ (n := k + 1), List.foldlM_append, h1]
    show ((Except.ok s1 : Py σ) >>= _) = _
    rw [show ∀ g : σ → Py σ, ((Except.ok s1 : Py σ) >>= g) = g s1 from fun _ => rfl, List.foldlM_cons, h2]
    rfl

/-- With a strictly convex quadratic objective and affine constraints of full rank, any positive number of iterations from any point
gives the unique minimiser. -/
theorem adLocalEqFast_quad (fn : (Fin n → ℝ) → ℝ) (con : (Fin n → ℝ) → Fin m → ℝ) (G : Matrix (Fin n) (Fin n) ℝ) (hG : Gᵀ = G)
    (hP : IsPD G) (c : Fin n → ℝ) (d : ℝ) (hf : ∀ x, fn x = 1 / 2 * (x ⬝ᵥ G *ᵥ x) + c ⬝ᵥ x + d) (A : Matrix (Fin m) (Fin n) ℝ)
    (b : Fin m → ℝ) (hc : ∀ x, con x = A *ᵥ x + b) (hA : ∀ l, Aᵀ *ᵥ l = 0 → l = 0) :
    ∃ xs, con xs = 0 ∧ (∀ y, con y = 0 → fn xs ≤ fn y ∧ (fn y ≤ fn xs → y = xs)) ∧
      (∀ (x : Fin n → ℝ) (lam : Fin m → ℝ), ∃ lam' crit, adLocalStep fn con x lam = .ok (xs, lam', crit)) ∧
      ∀ (x0 : Fin n → ℝ) (k : ℕ), ∃ crit, adLocalEqFast fn con x0 (k + 1) = .ok (xs, k + 1, crit) := by
  obtain ⟨⟨xs, ls⟩, hs⟩ := lqeSolve_total (kkt_det hP hA) c (-b)
  obtain ⟨h0, h1, h2⟩ := lqeSolve_ok.1 hs
  dsimp only at h1 h2
  have hN : ∀ z, A *ᵥ z = 0 → 0 ≤ z ⬝ᵥ G *ᵥ z := by
    intro z _
    by_cases hz : z = 0
    · simp [hz]
    · exact (hP z hz).le
  have hcon : ∀ y, con y = 0 → A *ᵥ y = -b := by
    intro y hy
    rw [hc] at hy
    exact eq_neg_of_add_eq_zero_left hy
  refine ⟨xs, by rw [hc, h1]; simp, ?_, ?_, ?_⟩
  · intro y hy
    have := (qp_min_iff hG h1 h2).2 hN y (hcon y hy)
    refine ⟨by rw [hf, hf]; linarith, fun hle => qp_unique hG h0 h1 h2 hN (hcon y hy) ?_⟩
    rw [hf, hf] at hle
    linarith
  · intro x lam
    obtain ⟨crit, h⟩ := adLocalStep_quad fn con G hG c d hf A b hc xs ls hs x lam
    exact ⟨ls, crit, h⟩
  · intro x0 k
    obtain ⟨s', h3, h4⟩ := foldlM_const (fun st : (Fin n → ℝ) × (Fin m → ℝ) × ℝ => adLocalStep fn con st.1 st.2.1)
      (fun st => st.1 = xs) (fun st => by
        obtain ⟨crit, h⟩ := adLocalStep_quad fn con G hG c d hf A b hc xs ls hs st.1 st.2.1
        exact ⟨_, h, rfl⟩) k (x0, 0, 1)
    refine ⟨s'.2.2, ?_⟩
    unfold adLocalEqFast
    rw [h3]
    show Except.ok _ = _
    rw [h4]

end Verif
