import Verif.Proof.NLQT
import Verif.Spec.NLQT
import Mathlib.Topology.Algebra.Module.FiniteDimension
import Mathlib.Analysis.Calculus.Deriv.Comp
import Mathlib.Analysis.Calculus.Deriv.Prod
import Mathlib.Analysis.Calculus.Deriv.Pi
import Mathlib.Analysis.Calculus.Deriv.Pow
import Mathlib.Analysis.Calculus.Deriv.Add
import Mathlib.Analysis.Calculus.Deriv.Mul
import Mathlib.Analysis.Calculus.FDeriv.Mul
import Mathlib.Analysis.Calculus.FDeriv.Pi
import Mathlib.Analysis.Calculus.FDeriv.Prod
import Mathlib.Tactic.Linarith
import Mathlib.Tactic.LinearCombination

/-! The cost of the nonlinear tracker and the cost of the linearised problem have the same derivatives at the nominal
trajectory. -/

namespace Verif

open Matrix

section Alg
variable {n m : ℕ} {K : Type} [Field K]

/-- Total cost with the nonlinear dynamics and final cost `g`. -/
def NModel.total (M : NModel n m K) (g : (Fin n → K) → K) : List (LStage n m K) → (Fin n → K) → List (Fin m → K) → K
  | s :: ss, x, u :: us => s.cost x u + M.total g ss (M.f x u) us
  | _, x, _ => g x

theorem NModel.total_eq (M : NModel n m K) (g : (Fin n → K) → K) (ss : List (LStage n m K)) (us : List (Fin m → K))
    (h : us.length ≤ ss.length) (x : Fin n → K) :
    M.total g ss x us = g ((x :: M.run x us).getLast (by simp)) + stageSum ss (x :: M.run x us) us := by
  induction us generalizing ss x with
  | nil => cases ss <;> simp [NModel.total, NModel.run, stageSum]
  | cons u us ih =>
    cases ss with
    | nil => simp at h
    | cons s ss =>
      simp only [NModel.total, NModel.run, stageSum]
      have e : (x :: M.f x u :: M.run (M.f x u) us).getLast (by simp) = (M.f x u :: M.run (M.f x u) us).getLast (by simp) := rfl
      rw [ih ss (by simpa using h), e]
      ring

theorem NModel.run_length (M : NModel n m K) (us : List (Fin m → K)) (x : Fin n → K) : (M.run x us).length = us.length := by
  induction us generalizing x with
  | nil => rfl
  | cons u us ih => simp [NModel.run, ih]

theorem NModel.cost_eq (M : NModel n m K) {P : LQT n m K} {us : List (Fin m → K)} (h : us.length ≤ P.stages.length)
    (x : Fin n → K) : M.cost P x us = .ok (M.total P.final P.stages x us) := by
  unfold NModel.cost
  rw [M.simulate_eq, M.total_eq _ _ _ h]
  unfold LQT.cost
  rw [List.getLast?_eq_some_getLast (by simp : x :: M.run x us ≠ [])]
  exact lqt_cost_loop _ _ _ h (by simp [M.run_length]) _

/-- The controls `us + t ds`. -/
def alongU (us ds : List (Fin m → K)) (t : K) : List (Fin m → K) := List.zipWith (fun u d => u + t • d) us ds

theorem alongU_length {us ds : List (Fin m → K)} (h : ds.length = us.length) (t : K) : (alongU us ds t).length = us.length := by
  simp [alongU, h]

/-- The linearised steps along the trajectory of `us` from `x`. -/
def NModel.lins (M : NModel n m K) : List (LStage n m K) → (Fin n → K) → List (Fin m → K) → List (LStage n m K)
  | s :: ss, x, u :: us => M.lin s x u :: M.lins ss (M.f x u) us
  | ss, _, _ => ss

theorem NModel.lins_length (M : NModel n m K) (ss : List (LStage n m K)) (us : List (Fin m → K)) (x : Fin n → K) :
    (M.lins ss x us).length = ss.length := by
  induction us generalizing ss x with
  | nil => cases ss <;> rfl
  | cons u us ih => cases ss <;> simp [NModel.lins, ih]

theorem NModel.lins_run (M : NModel n m K) (us : List (Fin m → K)) (x : Fin n → K) (ss : List (LStage n m K))
    (h : us.length ≤ ss.length) : lqtRun (M.lins ss x us) x us = M.run x us := by
  induction us generalizing ss x with
  | nil => cases ss <;> rfl
  | cons u us ih =>
    cases ss with
    | nil => simp at h
    | cons s ss =>
      simp only [NModel.lins, lqtRun, NModel.run, M.lin_next]
      rw [ih _ _ (by simpa using h)]

theorem NModel.lins_linTo (M : NModel n m K) (us : List (Fin m → K)) (x : Fin n → K) (ss : List (LStage n m K)) :
    LinTo M us (M.simulate x us) us.length ss (M.lins ss x us) := by
  refine ⟨M.lins_length _ _ _, ?_⟩
  rw [M.simulate_eq]
  induction us generalizing ss x with
  | nil =>
    intro i s hs
    refine ⟨fun h => absurd h (by simp), fun _ => ?_⟩
    cases ss <;> simpa [NModel.lins] using hs
  | cons u us ih =>
    intro i s hs
    cases ss with
    | nil => simp at hs
    | cons s' ss =>
      cases i with
      | zero =>
        simp only [List.getElem?_cons_zero, Option.some.injEq] at hs
        subst hs
        exact ⟨fun _ => ⟨x, u, rfl, rfl, rfl⟩, fun h => absurd h (by simp)⟩
      | succ i =>
        obtain ⟨h1, h2⟩ := ih (M.f x u) ss i s (by simpa using hs)
        refine ⟨fun h => ?_, fun h => ?_⟩
        · obtain ⟨x', u', e1, e2, e3⟩ := h1 (by simpa using h)
          exact ⟨x', u', by simpa [NModel.run] using e1, by simpa using e2, by simpa [NModel.lins] using e3⟩
        · simpa [NModel.lins] using h2 (by simpa using h)

theorem halfQuad_along {p : ℕ} (W : Matrix (Fin p) (Fin p) K) (y z : Fin p → K) :
    ∃ a b c : K, ∀ t : K, halfQuad W (y + t • z) = a + b * t + c * t ^ 2 := by
  refine ⟨halfQuad W y, (1 / 2) * (y ⬝ᵥ W *ᵥ z + z ⬝ᵥ W *ᵥ y), halfQuad W z, fun t => ?_⟩
  simp only [halfQuad, mulVec_add, mulVec_smul, dotProduct_add, add_dotProduct, dotProduct_smul, smul_dotProduct, smul_eq_mul]
  ring

theorem cost_along (s : LStage n m K) (x dx : Fin n → K) (u du : Fin m → K) :
    ∃ a b c : K, ∀ t : K, s.cost (x + t • dx) (u + t • du) = a + b * t + c * t ^ 2 := by
  have ex : ∀ t : K, s.H *ᵥ (x + t • dx) - s.r = (s.H *ᵥ x - s.r) + t • (s.H *ᵥ dx) := fun t => by
    rw [mulVec_add, mulVec_smul]; abel
  have eu : ∀ t : K, s.Z *ᵥ (u + t • du) - s.s = (s.Z *ᵥ u - s.s) + t • (s.Z *ᵥ du) := fun t => by
    rw [mulVec_add, mulVec_smul]; abel
  obtain ⟨a1, b1, c1, h1⟩ := halfQuad_along s.X (s.H *ᵥ x - s.r) (s.H *ᵥ dx)
  obtain ⟨a2, b2, c2, h2⟩ := halfQuad_along s.U (s.Z *ᵥ u - s.s) (s.Z *ᵥ du)
  generalize s.H *ᵥ x - s.r = y at *
  generalize s.H *ᵥ dx = dy at *
  generalize s.Z *ᵥ u - s.s = z at *
  generalize s.Z *ᵥ du = dz at *
  refine ⟨a1 + a2 + y ⬝ᵥ s.M *ᵥ z, b1 + b2 + (y ⬝ᵥ s.M *ᵥ dz + dy ⬝ᵥ s.M *ᵥ z), c1 + c2 + dy ⬝ᵥ s.M *ᵥ dz, fun t => ?_⟩
  unfold LStage.cost
  rw [ex, eu, h1, h2]
  simp only [mulVec_add, mulVec_smul, dotProduct_add, add_dotProduct, dotProduct_smul, smul_dotProduct, smul_eq_mul]
  ring

theorem total_along (g : (Fin n → K) → K) (hg : ∀ x dx, ∃ a b c : K, ∀ t : K, g (x + t • dx) = a + b * t + c * t ^ 2)
    (ss : List (LStage n m K)) (us ds : List (Fin m → K)) (x dx : Fin n → K) :
    ∃ a b c : K, ∀ t : K, lqtTotal g ss (x + t • dx) (alongU us ds t) = a + b * t + c * t ^ 2 := by
  induction ss generalizing us ds x dx with
  | nil => exact hg x dx
  | cons s ss ih =>
    cases us with
    | nil => exact hg x dx
    | cons u us =>
      cases ds with
      | nil => exact hg x dx
      | cons d ds =>
        obtain ⟨a, b, c, h⟩ := cost_along s x dx u d
        obtain ⟨a', b', c', h'⟩ := ih us ds (s.next x u) (s.F *ᵥ dx + s.L *ᵥ d)
        refine ⟨a + a', b + b', c + c', fun t => ?_⟩
        have e : s.next (x + t • dx) (u + t • d) = s.next x u + t • (s.F *ᵥ dx + s.L *ᵥ d) := by
          unfold LStage.next
          simp only [mulVec_add, mulVec_smul, smul_add]
          abel
        change s.cost (x + t • dx) (u + t • d) + lqtTotal g ss (s.next (x + t • dx) (u + t • d)) (alongU us ds t) = _
        rw [h, e, h']
        ring

theorem final_along (P : LQT n m K) (x dx : Fin n → K) :
    ∃ a b c : K, ∀ t : K, P.final (x + t • dx) = a + b * t + c * t ^ 2 := by
  obtain ⟨a, b, c, h⟩ := halfQuad_along P.XT (P.HT *ᵥ x - P.rT) (P.HT *ᵥ dx)
  refine ⟨a, b, c, fun t => ?_⟩
  rw [← h]
  unfold LQT.final
  congr 1
  rw [mulVec_add, mulVec_smul]; abel

end Alg

variable {n m : ℕ}

theorem cost_deriv (s : LStage n m ℝ) (x dx : Fin n → ℝ) (u du : Fin m → ℝ) : ∃ D : ℝ, ∀ (X : ℝ → Fin n → ℝ) (U : ℝ → Fin m → ℝ),
    X 0 = x → U 0 = u → HasDerivAt X dx 0 → HasDerivAt U du 0 → HasDerivAt (fun t => s.cost (X t) (U t)) D 0 := by
  have hd : DifferentiableAt ℝ (fun q : (Fin n → ℝ) × (Fin m → ℝ) => s.cost q.1 q.2) (x, u) := by
    unfold LStage.cost halfQuad
    simp only [dotProduct, mulVec, Pi.sub_apply]
    fun_prop
  refine ⟨fderiv ℝ (fun q : (Fin n → ℝ) × (Fin m → ℝ) => s.cost q.1 q.2) (x, u) (dx, du), fun X U hX hU hdX hdU => ?_⟩
  have h1 : HasDerivAt (fun t => (X t, U t)) (dx, du) 0 := hdX.prodMk hdU
  have h2 : HasFDerivAt (fun q : (Fin n → ℝ) × (Fin m → ℝ) => s.cost q.1 q.2) (fderiv ℝ (fun q : (Fin n → ℝ) × (Fin m → ℝ) => s.cost q.1 q.2) (x, u))
      (X 0, U 0) := by rw [hX, hU]; exact hd.hasFDerivAt
  exact h2.comp_hasDerivAt (0 : ℝ) h1

theorem final_deriv (P : LQT n m ℝ) (x dx : Fin n → ℝ) : ∃ D : ℝ, ∀ (X : ℝ → Fin n → ℝ),
    X 0 = x → HasDerivAt X dx 0 → HasDerivAt (fun t => P.final (X t)) D 0 := by
  have hd : DifferentiableAt ℝ P.final x := by
    unfold LQT.final halfQuad
    simp only [dotProduct, mulVec, Pi.sub_apply]
    fun_prop
  refine ⟨fderiv ℝ P.final x dx, fun X hX hdX => ?_⟩
  have h2 : HasFDerivAt P.final (fderiv ℝ P.final x) (X 0) := by rw [hX]; exact hd.hasFDerivAt
  exact h2.comp_hasDerivAt (0 : ℝ) hdX

theorem along_deriv (u d : Fin m → ℝ) : HasDerivAt (fun t : ℝ => u + t • d) d 0 := by
  simpa using ((hasDerivAt_id (0 : ℝ)).smul_const d).const_add u

theorem total_deriv (M : NModel n m ℝ) (P : LQT n m ℝ) (ss : List (LStage n m ℝ)) (us ds : List (Fin m → ℝ))
    (x dx : Fin n → ℝ) (hl : us.length ≤ ss.length) (hdl : ds.length = us.length)
    (hM : ∀ (i : ℕ) y u, (x :: M.run x us)[i]? = some y → us[i]? = some u → M.DiffAt y u) :
    ∃ D : ℝ, ∀ X Y : ℝ → Fin n → ℝ, X 0 = x → Y 0 = x → HasDerivAt X dx 0 → HasDerivAt Y dx 0 →
      HasDerivAt (fun t => M.total P.final ss (X t) (alongU us ds t)) D 0 ∧
      HasDerivAt (fun t => lqtTotal P.final (M.lins ss x us) (Y t) (alongU us ds t)) D 0 := by
  induction us generalizing ss ds x dx with
  | nil =>
    obtain ⟨D, h⟩ := final_deriv P x dx
    refine ⟨D, fun X Y hX hY hdX hdY => ?_⟩
    cases ss <;> exact ⟨h X hX hdX, h Y hY hdY⟩
  | cons u us ih =>
    cases ss with
    | nil => simp at hl
    | cons s ss =>
      cases ds with
      | nil => simp at hdl
      | cons d ds =>
        obtain ⟨D1, h1⟩ := cost_deriv s x dx u d
        obtain ⟨Df, hf, hDf⟩ := hM 0 x u rfl rfl
        obtain ⟨D2, h2⟩ := ih ss ds (M.f x u) (M.Fx x u *ᵥ dx + M.Fu x u *ᵥ d) (by simpa using hl) (by simpa using hdl)
          fun i y v hy hv => hM (i + 1) y v (by simpa [NModel.run] using hy) (by simpa using hv)
        refine ⟨D1 + D2, fun X Y hX hY hdX hdY => ?_⟩
        have hu0 : (fun t : ℝ => u + t • d) 0 = u := by simp
        have hu := along_deriv u d
        obtain ⟨h3, h4⟩ := h2 (fun t => M.f (X t) (u + t • d)) (fun t => (M.lin s x u).next (Y t) (u + t • d))
          (by simp [hX]) (by simp only [hY, zero_smul, add_zero]; exact M.lin_next s x u)
          (by
            rw [← hDf]
            have h5 : HasFDerivAt (fun q : (Fin n → ℝ) × (Fin m → ℝ) => M.f q.1 q.2) Df (X 0, u + (0 : ℝ) • d) := by
              rw [hX, zero_smul, add_zero]; exact hf
            exact h5.comp_hasDerivAt (0 : ℝ) (f := fun t => (X t, u + t • d)) (hdX.prodMk hu))
          (by
            have e1 : HasDerivAt (fun t => M.Fx x u *ᵥ Y t) (M.Fx x u *ᵥ dx) 0 :=
              ((LinearMap.toContinuousLinearMap (M.Fx x u).mulVecLin).hasFDerivAt).comp_hasDerivAt (0 : ℝ) hdY
            have e2 : HasDerivAt (fun t : ℝ => M.Fu x u *ᵥ (u + t • d)) (M.Fu x u *ᵥ d) 0 :=
              ((LinearMap.toContinuousLinearMap (M.Fu x u).mulVecLin).hasFDerivAt).comp_hasDerivAt (0 : ℝ) hu
            exact (e1.add_const _).add e2)
        exact ⟨(h1 X _ hX hu0 hdX hu).add h3, (h1 Y _ hY hu0 hdY hu).add h4⟩

theorem alongU_zero {us ds : List (Fin m → ℝ)} (h : ds.length = us.length) : alongU us ds 0 = us := by
  unfold alongU
  apply List.ext_getElem (by simp [h])
  intro i h1 h2
  simp

theorem alongU_get {us ds : List (Fin m → ℝ)} {t : ℝ} {i : ℕ} (h : i < us.length) (h' : i < ds.length) (hi) :
    (alongU us ds t)[i]'hi = us[i] + t • ds[i] := by
  simp [alongU]

/-- Along a direction the cost and the cost of the linearised problem have the same derivative, and the latter is quadratic. -/
theorem dir_deriv (M : NModel n m ℝ) (P : LQT n m ℝ) (x0 : Fin n → ℝ) (us ds : List (Fin m → ℝ))
    (hl : us.length = P.stages.length) (hdl : ds.length = us.length)
    (hM : ∀ (i : ℕ) y u, (M.simulate x0 us)[i]? = some y → us[i]? = some u → M.DiffAt y u) :
    ∃ a b c : ℝ, (∀ t, lqtTotal P.final (M.lins P.stages x0 us) x0 (alongU us ds t) = a + b * t + c * t ^ 2) ∧
      HasDerivAt (fun t => M.total P.final P.stages x0 (alongU us ds t)) b 0 := by
  obtain ⟨a, b, c, h⟩ := total_along P.final (final_along P) (M.lins P.stages x0 us) us ds x0 0
  simp only [smul_zero, add_zero] at h
  rw [M.simulate_eq] at hM
  obtain ⟨D, hD⟩ := total_deriv M P P.stages us ds x0 0 hl.le hdl hM
  obtain ⟨h1, h2⟩ := hD (fun _ => x0) (fun _ => x0) rfl rfl (hasDerivAt_const _ _) (hasDerivAt_const _ _)
  refine ⟨a, b, c, h, ?_⟩
  have h3 : HasDerivAt (fun t : ℝ => a + b * t + c * t ^ 2) b 0 := by
    have := ((((hasDerivAt_id (0 : ℝ)).const_mul b).const_add a)).fun_add (((hasDerivAt_id (0 : ℝ)).fun_pow 2).const_mul c)
    exact this.congr_deriv (by simp)
  simp only [h] at h2
  rw [← h2.unique h3]
  exact h1

theorem dir_descent (M : NModel n m ℝ) (P : LQT n m ℝ) (x0 : Fin n → ℝ) (us us' : List (Fin m → ℝ))
    (hl : us.length = P.stages.length) (hl' : us'.length = P.stages.length)
    (hM : ∀ (i : ℕ) y u, (M.simulate x0 us)[i]? = some y → us[i]? = some u → M.DiffAt y u)
    (hmin : ∀ w, w.length = P.stages.length → w ≠ us' → lqtTotal P.final (M.lins P.stages x0 us) x0 us' <
      lqtTotal P.final (M.lins P.stages x0 us) x0 w) (hne : us' ≠ us) :
    ∃ b < 0, HasDerivAt (fun t => M.total P.final P.stages x0 (alongU us (List.zipWith (fun u' u => u' - u) us' us) t)) b 0 := by
  have hdl : (List.zipWith (fun u' u : Fin m → ℝ => u' - u) us' us).length = us.length := by simp [hl, hl']
  obtain ⟨a, b, c, h, hd⟩ := dir_deriv M P x0 us _ hl hdl hM
  refine ⟨b, ?_, hd⟩
  have e1 : alongU us (List.zipWith (fun u' u => u' - u) us' us) 1 = us' := by
    apply List.ext_getElem (by rw [alongU_length hdl, hl, hl'])
    intro i h1 h2
    rw [alongU_get (by rw [hl, ← hl']; exact h2) (by rw [hdl, hl, ← hl']; exact h2)]
    simp
  have e2 : alongU us (List.zipWith (fun u' u => u' - u) us' us) 2 ≠ us' := by
    intro e
    apply hne
    apply List.ext_getElem (by rw [hl, hl'])
    intro i h1 h2
    have hi : i < (alongU us (List.zipWith (fun u' u => u' - u) us' us) 2).length := by rw [e]; exact h1
    have h3 : (alongU us (List.zipWith (fun u' u => u' - u) us' us) 2)[i]'hi = us'[i] := by simp only [e]
    rw [alongU_get h2 (by rw [hdl]; exact h2)] at h3
    rw [List.getElem_zipWith] at h3
    funext j
    have := congrFun h3 j
    simp only [Pi.add_apply, Pi.smul_apply, Pi.sub_apply, smul_eq_mul] at this
    linarith
  have g0 := hmin us hl (Ne.symm hne)
  have g2 := hmin _ (by rw [alongU_length hdl, hl]) e2
  have h0 := h 0
  rw [alongU_zero hdl] at h0
  have h1 := h 1
  rw [e1] at h1
  rw [h1, h0] at g0
  rw [h1, h] at g2
  linarith

theorem dir_stationary (M : NModel n m ℝ) (P : LQT n m ℝ) (x0 : Fin n → ℝ) (us ds : List (Fin m → ℝ))
    (hl : us.length = P.stages.length) (hdl : ds.length = us.length)
    (hM : ∀ (i : ℕ) y u, (M.simulate x0 us)[i]? = some y → us[i]? = some u → M.DiffAt y u)
    (hmin : ∀ w, w.length = P.stages.length → w ≠ us → lqtTotal P.final (M.lins P.stages x0 us) x0 us <
      lqtTotal P.final (M.lins P.stages x0 us) x0 w) :
    HasDerivAt (fun t => M.total P.final P.stages x0 (alongU us ds t)) 0 0 := by
  obtain ⟨a, b, c, h, hd⟩ := dir_deriv M P x0 us ds hl hdl hM
  have h0 := h 0
  rw [alongU_zero hdl] at h0
  have hge : ∀ t, 0 ≤ b * t + c * t ^ 2 := by
    intro t
    by_cases e : alongU us ds t = us
    · have := h t
      rw [e, h0] at this
      linarith
    · have := hmin _ (by rw [alongU_length hdl, hl]) e
      rw [h0, h] at this
      linarith
  have hb : b = 0 := by
    by_contra hb
    have hc : 0 < |c| + 1 := by positivity
    have h1 := hge (-b / (2 * (|c| + 1)))
    have h2 : c * (-b / (2 * (|c| + 1))) ^ 2 ≤ (|c| + 1) * (-b / (2 * (|c| + 1))) ^ 2 :=
      mul_le_mul_of_nonneg_right (by linarith [le_abs_self c]) (sq_nonneg _)
    have h3 : b * (-b / (2 * (|c| + 1))) + (|c| + 1) * (-b / (2 * (|c| + 1))) ^ 2 = -(b ^ 2 / (4 * (|c| + 1))) := by
      field_simp; ring
    have h4 : 0 < b ^ 2 / (4 * (|c| + 1)) := by positivity
    linarith
  rw [hb] at hd
  exact hd

end Verif
