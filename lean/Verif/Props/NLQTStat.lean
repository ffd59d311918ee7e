import Verif.Proof.NLQTStat
import Verif.Props.NLQT
import Verif.Model.ExamplesReal
import Mathlib.Analysis.SpecialFunctions.Trigonometric.Deriv
import Mathlib.Tactic.FinCases
import Mathlib.Tactic.NormNum

/-! Property C68: the iterations of the nonlinear tracker and the derivative of its cost. -/

namespace Verif

open Matrix

variable {n m : ℕ}

/-- C68 (descent): from a trajectory of the model, the step to the returned controls is a direction of descent of the
nonlinear cost, if it is not zero. -/
theorem C68_descent (M : NModel n m ℝ) (P P' : LQT n m ℝ) (hP : P.Sym) (x0 : Fin n → ℝ) (us us' : List (Fin m → ℝ))
    (xs' : List (Fin n → ℝ)) (k : ℕ) (hu : us.length = P.stages.length)
    (h : M.iterate P us (M.simulate x0 us) k = .ok (P', us', xs')) (hne : us' ≠ us)
    (hM : ∀ (i : ℕ) y u, (M.simulate x0 us)[i]? = some y → us[i]? = some u → M.DiffAt y u) :
    ∃ (J : ℝ → ℝ) (b : ℝ), b < 0 ∧ HasDerivAt J b 0 ∧
      ∀ t, M.cost P x0 (List.zipWith (fun u d => u + t • d) us (List.zipWith (fun u' u => u' - u) us' us)) = .ok (J t) := by
  obtain ⟨hl, bw, x0', hb, hx, hf⟩ := iterate_seq hP h
  obtain ⟨-, -, L, hL, rfl⟩ := linearize_iff.1 hl
  obtain rfl := hL.unique (M.lins_linTo us x0 P.stages)
  have hx' : x0' = x0 := by rw [M.simulate_eq] at hx; simpa using hx.symm
  subst hx'
  obtain ⟨w, hwl, hf', hmin⟩ := seq_strict_min (linearize_sym hP hl) hb x0'
  rw [hf, Except.ok.injEq, Prod.mk.injEq] at hf'
  obtain ⟨rfl, -⟩ := hf'
  have hul' : us'.length = P.stages.length := hwl.trans hL.1
  obtain ⟨b, hb0, hd⟩ := dir_descent M P x0' us us' hu hul' hM (fun w hw => hmin w (hw.trans hL.1.symm)) hne
  refine ⟨_, b, hb0, hd, fun t => M.cost_eq ?_ x0'⟩
  simp [hu, hul']

/-- C68 (fixed points): for a convex cost the iteration returns its input exactly when the input is a trajectory of the model
at which the derivative of the nonlinear cost is zero in every direction. -/
theorem C68_fixed (M : NModel n m ℝ) (P : LQT n m ℝ) (hP : P.Convex) (hT : P.stages ≠ []) (x0 : Fin n → ℝ)
    (us : List (Fin m → ℝ)) (xs : List (Fin n → ℝ)) (k : ℕ) (hu : us.length = P.stages.length) (hx : xs[0]? = some x0)
    (hM : ∀ (i : ℕ) y u, xs[i]? = some y → us[i]? = some u → M.DiffAt y u) :
    (∃ P', M.iterate P us xs k = .ok (P', us, xs)) ↔
      xs = M.simulate x0 us ∧ ∀ ds : List (Fin m → ℝ), ds.length = us.length →
        ∃ J : ℝ → ℝ, (∀ t, M.cost P x0 (List.zipWith (fun u d => u + t • d) us ds) = .ok (J t)) ∧ HasDerivAt J 0 0 := by
  have hS : P.Sym := ⟨fun s hs => (hP.1 s hs).sym, hP.2.1⟩
  have hc : ∀ (ds : List (Fin m → ℝ)) t, ds.length = us.length →
      M.cost P x0 (List.zipWith (fun u d => u + t • d) us ds) = .ok (M.total P.final P.stages x0 (alongU us ds t)) :=
    fun ds t hd => M.cost_eq (by simp [hu, hd]) x0
  constructor
  · rintro ⟨P', h⟩
    obtain ⟨-, x0', hx0', hs⟩ := C33_fixed_point M P P' hS us xs k h
    rw [hx] at hx0'
    cases hx0'
    refine ⟨hs.symm, fun ds hd => ⟨_, fun t => hc ds t hd, ?_⟩⟩
    rw [← hs] at hM h
    obtain ⟨hl, bw, x0', hb, hx, hf⟩ := iterate_seq hS h
    obtain ⟨-, -, L, hL, rfl⟩ := linearize_iff.1 hl
    obtain rfl := hL.unique (M.lins_linTo us x0 P.stages)
    have hx' : x0' = x0 := by rw [M.simulate_eq] at hx; simpa using hx.symm
    subst hx'
    obtain ⟨w, hwl, hf', hmin⟩ := seq_strict_min (linearize_sym hS hl) hb x0'
    rw [hf, Except.ok.injEq, Prod.mk.injEq] at hf'
    obtain ⟨rfl, -⟩ := hf'
    exact dir_stationary M P x0' us ds hu hd hM fun w hw => hmin w (hw.trans hL.1.symm)
  · rintro ⟨rfl, hst⟩
    obtain ⟨⟨P', us', xs'⟩, hr⟩ := C34_methods M P hP hT us (M.simulate x0 us) hu.le
      (by rw [M.simulate_eq]; simp [M.run_length]) (by rw [M.simulate_eq]; simp)
    have h := hr k
    obtain ⟨hl, bw, x0', hb, hx', hf⟩ := iterate_seq hS h
    rw [hx] at hx'
    cases hx'
    obtain ⟨w, hwl, hf', -⟩ := seq_strict_min (linearize_sym hS hl) hb x0
    rw [hf, Except.ok.injEq, Prod.mk.injEq] at hf'
    obtain ⟨rfl, rfl⟩ := hf'
    obtain ⟨-, -, L, hL, rfl⟩ := linearize_iff.1 hl
    obtain rfl := hL.unique (M.lins_linTo us x0 P.stages)
    have hul' : us'.length = us.length := hwl.trans (hL.1.trans hu.symm)
    have he : us' = us := by
      by_contra hne
      obtain ⟨J, b, hb0, hd, hJ⟩ := C68_descent M P _ hS x0 us us' _ k hu h hne hM
      obtain ⟨J', hJ', hd'⟩ := hst (List.zipWith (fun u' u => u' - u) us' us) (by simp [hul'])
      have : J = J' := by
        funext t
        have := (hJ t).symm.trans (hJ' t)
        exact Except.ok.inj this
      subst this
      exact hb0.ne (hd.unique hd')
    subst he
    have e : lqtRun (M.lins P.stages x0 us') x0 us' = M.run x0 us' := M.lins_run _ _ _ hu.le
    dsimp only at h
    rw [e, ← M.simulate_eq] at h
    exact ⟨_, h⟩

/-- The vehicle of `nonlinear_model_np.py` as a model of the tracker. -/
noncomputable def vehicle (dt : ℝ) : NModel 4 2 ℝ := ⟨nlModelF dt, nlModelFx dt, nlModelFu dt⟩

/-- C68 (vehicle): the Jacobians of the vehicle model are the joint derivative everywhere, so that the theorems apply to it. -/
theorem C68_vehicle (dt : ℝ) (x : Fin 4 → ℝ) (u : Fin 2 → ℝ) : (vehicle dt).DiffAt x u := by
  have hx : ∀ i, HasFDerivAt (fun q : (Fin 4 → ℝ) × (Fin 2 → ℝ) => q.1 i)
      ((ContinuousLinearMap.proj (R := ℝ) i).comp (ContinuousLinearMap.fst ℝ _ _)) (x, u) :=
    fun i => HasFDerivAt.comp (g := fun y : Fin 4 → ℝ => y i) (f := Prod.fst) (x, u) (hasFDerivAt_apply i x) hasFDerivAt_fst
  have hu : ∀ i, HasFDerivAt (fun q : (Fin 4 → ℝ) × (Fin 2 → ℝ) => q.2 i)
      ((ContinuousLinearMap.proj (R := ℝ) i).comp (ContinuousLinearMap.snd ℝ _ _)) (x, u) :=
    fun i => HasFDerivAt.comp (g := fun y : Fin 2 → ℝ => y i) (f := Prod.snd) (x, u) (hasFDerivAt_apply i u) hasFDerivAt_snd
  refine ⟨(LinearMap.toContinuousLinearMap (nlModelFx dt x u).mulVecLin).comp (ContinuousLinearMap.fst ℝ _ _) +
    (LinearMap.toContinuousLinearMap (nlModelFu dt x u).mulVecLin).comp (ContinuousLinearMap.snd ℝ _ _), ?_, fun dx du => rfl⟩
  rw [hasFDerivAt_pi']
  intro i
  fin_cases i
  · refine ((hx 0).add (((hx 3).mul (hx 2).cos).mul_const dt)).congr_fderiv ?_
    ext h <;> simp [nlModelFx, nlModelFu, mulVec, dotProduct, Fin.sum_univ_four]
    ring
  · refine ((hx 1).add (((hx 3).mul (hx 2).sin).mul_const dt)).congr_fderiv ?_
    ext h <;> simp [nlModelFx, nlModelFu, mulVec, dotProduct, Fin.sum_univ_four]
    ring
  · refine ((hx 2).add ((hu 1).mul_const dt)).congr_fderiv ?_
    ext h <;> simp [nlModelFx, nlModelFu, mulVec, dotProduct, Fin.sum_univ_four]
  · refine ((hx 3).add ((hu 0).mul_const dt)).congr_fderiv ?_
    ext h <;> simp [nlModelFx, nlModelFu, mulVec, dotProduct, Fin.sum_univ_four]

/-- Tracking costs for the vehicle: reach the origin in `T` steps. -/
noncomputable def vehicleCost (T : ℕ) : LQT 4 2 ℝ :=
  ⟨List.replicate T ⟨4, 1, 0, 1, 1, 0, 1, 0, 1, 0, 0⟩, 4, 1, 1, 0⟩

theorem vehicleCost_convex (T : ℕ) : (vehicleCost T).Convex := by
  have hp : ∀ {k : ℕ}, IsPSD (1 : Matrix (Fin k) (Fin k) ℝ) := fun {k} =>
    ⟨transpose_one, fun x => by rw [one_mulVec]; exact Finset.sum_nonneg fun i _ => mul_self_nonneg _⟩
  have hd : IsPD (1 : Matrix (Fin 2) (Fin 2) ℝ) := by
    intro x hx
    rw [one_mulVec]
    exact lt_of_le_of_ne (Finset.sum_nonneg fun i _ => mul_self_nonneg _) fun h => hx (dotProduct_self_eq_zero.1 h.symm)
  refine ⟨fun s hs => ?_, hp⟩
  rw [List.eq_of_mem_replicate hs]
  refine ⟨⟨transpose_one, transpose_one⟩, ?_, hd, fun y z => ?_⟩
  · rw [det_one]; exact one_ne_zero
  · have h1 : 0 ≤ y ⬝ᵥ (1 : Matrix (Fin 4) (Fin 4) ℝ) *ᵥ y := hp.2 y
    have h2 : 0 ≤ z ⬝ᵥ (1 : Matrix (Fin 2) (Fin 2) ℝ) *ᵥ z := hp.2 z
    rw [zero_mulVec, dotProduct_zero]
    linarith

/-- The hypotheses of `C68_fixed` hold for the vehicle with any horizon, nominal controls and states. -/
example (dt : ℝ) (T k : ℕ) (hT : 0 < T) (x0 : Fin 4 → ℝ) (us : List (Fin 2 → ℝ)) (xs : List (Fin 4 → ℝ)) (hu : us.length = T)
    (hx : xs[0]? = some x0) : (∃ P', (vehicle dt).iterate (vehicleCost T) us xs k = .ok (P', us, xs)) ↔
      xs = (vehicle dt).simulate x0 us ∧ ∀ ds : List (Fin 2 → ℝ), ds.length = us.length → ∃ J : ℝ → ℝ,
        (∀ t, (vehicle dt).cost (vehicleCost T) x0 (List.zipWith (fun u d => u + t • d) us ds) = .ok (J t)) ∧ HasDerivAt J 0 0 :=
  C68_fixed _ _ (vehicleCost_convex T) (by simp [vehicleCost]; omega) x0 us xs k (by simpa [vehicleCost] using hu) hx
    fun _ y u _ _ => C68_vehicle dt y u

/-- An integrator. -/
noncomputable def exAdd : NModel 1 1 ℝ := ⟨fun x u => (1 : Matrix (Fin 1) (Fin 1) ℝ) *ᵥ x + 0 + (1 : Matrix (Fin 1) (Fin 1) ℝ) *ᵥ u, fun _ _ => 1, fun _ _ => 1⟩

/-- One step of the integrator with a quadratic cost. -/
noncomputable def exAddCost : LQT 1 1 ℝ := ⟨[⟨1, 1, 1, 1, 1, 0, 1, 0, 1, 0, 0⟩], 1, 1, 1, 0⟩

theorem exIntCost_convex : exAddCost.Convex := by
  have hp : ∀ x : Fin 1 → ℝ, 0 ≤ x ⬝ᵥ (1 : Matrix (Fin 1) (Fin 1) ℝ) *ᵥ x := fun x => by
    rw [one_mulVec]; exact Finset.sum_nonneg fun i _ => mul_self_nonneg _
  refine ⟨fun s hs => ?_, transpose_one, hp⟩
  obtain rfl := List.mem_singleton.1 hs
  refine ⟨⟨transpose_one, transpose_one⟩, ?_, fun x hx => ?_, fun y z => ?_⟩
  · rw [det_one]; exact one_ne_zero
  · exact lt_of_le_of_ne (hp x) fun h => hx (dotProduct_self_eq_zero.1 (by rw [one_mulVec] at h; exact h.symm))
  · have h1 : 0 ≤ y ⬝ᵥ (1 : Matrix (Fin 1) (Fin 1) ℝ) *ᵥ y := hp y
    have h2 := hp z
    rw [zero_mulVec, dotProduct_zero]
    linarith

/-- The hypotheses of `C68_descent` hold for the integrator from any state and some nominal control. -/
example (k : ℕ) (x0 : Fin 1 → ℝ) : ∃ P' us us' xs', us.length = exAddCost.stages.length ∧
    exAdd.iterate exAddCost us (exAdd.simulate x0 us) k = .ok (P', us', xs') ∧ us' ≠ us ∧
    ∀ (i : ℕ) y u, (exAdd.simulate x0 us)[i]? = some y → us[i]? = some u → exAdd.DiffAt y u := by
  have hd : ∀ y u, exAdd.DiffAt y u := fun y u => by
    refine ⟨ContinuousLinearMap.fst ℝ _ _ + ContinuousLinearMap.snd ℝ _ _, ?_, fun dx du => ?_⟩
    · have : (fun q : (Fin 1 → ℝ) × (Fin 1 → ℝ) => exAdd.f q.1 q.2) = fun q => q.1 + q.2 := by
        funext q; simp [exAdd]
      rw [this]
      exact hasFDerivAt_fst.add hasFDerivAt_snd
    · simp [exAdd]
  have hit : ∀ u : Fin 1 → ℝ, ∃ P' us' J, exAdd.iterate exAddCost [u] (exAdd.simulate x0 [u]) k = .ok (P', us', exAdd.simulate x0 us') ∧
      us'.length = exAddCost.stages.length ∧ exAdd.cost exAddCost x0 us' = .ok J ∧
      ∀ us'' : List (Fin 1 → ℝ), us''.length = exAddCost.stages.length →
        ∃ J', exAdd.cost exAddCost x0 us'' = .ok J' ∧ J ≤ J' ∧ (J' = J → us'' = us') := fun u =>
    C33_affine exAdd 1 1 0 (fun _ _ => rfl) (fun _ _ => rfl) (fun _ _ => rfl) exAddCost exIntCost_convex (by simp [exAddCost]) [u] _ x0 rfl
      (by rw [exAdd.simulate_eq]; simp) (by rw [exAdd.simulate_eq]; rfl) k
  obtain ⟨P1, u1, J1, h1, l1, c1, m1⟩ := hit 0
  obtain ⟨P2, u2, J2, h2, l2, c2, m2⟩ := hit 1
  by_cases e : u1 = [0]
  · refine ⟨P2, [1], u2, _, rfl, h2, fun e2 => ?_, fun i y u _ _ => hd y u⟩
    obtain ⟨J', a1, a2, a3⟩ := m1 u2 l2
    obtain ⟨J'', b1, b2, -⟩ := m2 u1 l1
    rw [c2] at a1
    rw [c1] at b1
    cases a1
    cases b1
    have := a3 (le_antisymm b2 a2)
    rw [e2, e] at this
    have := congrFun (List.cons.inj this).1 0
    simp at this
  · exact ⟨P1, [0], u1, _, rfl, h1, e, fun i y u _ _ => hd y u⟩

/-- The state is replaced by the square of the control. -/
def exSquare : NModel 1 1 ℚ where
  f _ u := ![u 0 ^ 2]
  Fx _ _ := 0
  Fu _ u := !![2 * u 0]

/-- One step with the cost `u² / 2 + (x + 11)² / 2`. -/
def exSquareCost : LQT 1 1 ℚ := ⟨[⟨1, 0, 0, 0, 1, 0, 0, 0, 1, 0, 0⟩], 1, 1, 1, ![-11]⟩

theorem exSquareCost_convex : exSquareCost.Convex := by
  have hp : ∀ x : Fin 1 → ℚ, 0 ≤ x ⬝ᵥ (1 : Matrix (Fin 1) (Fin 1) ℚ) *ᵥ x := fun x => by
    rw [one_mulVec]; exact Finset.sum_nonneg fun i _ => mul_self_nonneg _
  refine ⟨fun s hs => ?_, transpose_one, hp⟩
  obtain rfl := List.mem_singleton.1 hs
  refine ⟨⟨transpose_zero, transpose_one⟩, ?_, fun x hx => ?_, fun y z => ?_⟩
  · rw [det_one]; exact one_ne_zero
  · exact lt_of_le_of_ne (hp x) fun h => hx (dotProduct_self_eq_zero.1 (by rw [one_mulVec] at h; exact h.symm))
  · rw [zero_mulVec, zero_mulVec, dotProduct_zero]
    have := hp z
    linarith

/-- C68 (no monotonicity): the full step that `iterate` takes can increase the cost: the control goes from `1` to `-4` and the
cost from `145/2` to `745/2`. -/
theorem C68_increase : ∃ (M : NModel 1 1 ℚ) (P : LQT 1 1 ℚ) (x0 : Fin 1 → ℚ) (us us' : List (Fin 1 → ℚ)) (J J' : ℚ), P.Convex ∧
    us.length = P.stages.length ∧ (∀ k, ∃ P' xs', M.iterate P us (M.simulate x0 us) k = .ok (P', us', xs')) ∧
    M.cost P x0 us = .ok J ∧ M.cost P x0 us' = .ok J' ∧ J < J' := by
  obtain ⟨⟨P', us', xs'⟩, hr⟩ := C34_methods exSquare exSquareCost exSquareCost_convex (by simp [exSquareCost]) [![1]] [![0], ![1]]
    (by simp [exSquareCost]) (by simp) (by simp)
  have hv : (exSquare.iterate exSquareCost [![1]] [![0], ![1]] 2).toOption.map (fun r => r.2.1) = some [![-4]] := by decide +kernel
  rw [hr 2] at hv
  have hu : us' = [![-4]] := Option.some.inj hv
  subst hu
  have hs : exSquare.simulate ![0] [![1]] = [![0], ![1]] := by decide +kernel
  have c1 : exSquare.cost exSquareCost ![0] [![1]] = .ok (145 / 2) := by
    have : (exSquare.cost exSquareCost ![0] [![1]]).toOption = some (145 / 2) := by decide +kernel
    cases h : exSquare.cost exSquareCost ![0] [![1]] with
    | error e => rw [h] at this; cases this
    | ok J => rw [h] at this; cases this; rfl
  have c2 : exSquare.cost exSquareCost ![0] [![-4]] = .ok (745 / 2) := by
    have : (exSquare.cost exSquareCost ![0] [![-4]]).toOption = some (745 / 2) := by decide +kernel
    cases h : exSquare.cost exSquareCost ![0] [![-4]] with
    | error e => rw [h] at this; cases this
    | ok J => rw [h] at this; cases this; rfl
  exact ⟨exSquare, exSquareCost, ![0], [![1]], [![-4]], 145 / 2, 745 / 2, exSquareCost_convex, rfl,
    fun k => ⟨P', xs', by rw [hs]; exact hr k⟩, c1, c2, by norm_num⟩

end Verif
