import Verif.Model.Diffeq
import Mathlib.Analysis.Calculus.MeanValue
import Mathlib.Analysis.SpecialFunctions.Exp
import Mathlib.Topology.UniformSpace.HeineCantor
import Mathlib.Tactic.Linarith
import Mathlib.Tactic.Module
import Mathlib.Tactic.NormNum

/-! Convergence of the Runge-Kutta integrator. -/

namespace Verif

open Set

variable {E : Type} [NormedAddCommGroup E] [NormedSpace ℝ E]

/-- The value of `rk4T` for a right hand side that does not raise. -/
noncomputable def rkMap (f : E → ℝ → E) (h : ℝ) (x : E) (t : ℝ) : E :=
  let k1 := f x t
  let k2 := f (x + (h / 2) • k1) (t + h / 2)
  let k3 := f (x + (h / 2) • k2) (t + h / 2)
  let k4 := f (x + h • k3) (t + h)
  x + (h / 6) • (k1 + (2 : ℝ) • k2 + (2 : ℝ) • k3 + k4)

theorem rk4T_rkMap {F : E → ℝ → Py E} {f : E → ℝ → E} {h t : ℝ} (hF : ∀ x s, s = t ∨ s = t + h / 2 ∨ s = t + h → F x s = .ok (f x s))
    (x : E) : rk4T F h x t = .ok (rkMap f h x t) := by
  unfold rk4T rkMap
  rw [hF _ _ (.inl rfl)]
  simp only [bind, Except.bind, hF _ _ (.inr (.inl rfl)), hF _ _ (.inr (.inr rfl)), pure, Except.pure]
  congr 1
  have e1 : ∀ k : E, (1 / 2 : ℝ) • h • k = (h / 2) • k := fun k => by rw [smul_smul]; congr 1; ring
  simp only [e1]
  module

/-- Integration against the direction of time is integration of the reflected equation. -/
theorem rkMap_neg (f : E → ℝ → E) (h : ℝ) (x : E) (t c : ℝ) :
    rkMap f (-h) x t = rkMap (fun x s => -f x (c - s)) h x (c - t) := by
  unfold rkMap
  have e1 : c - (c - t) = t := by ring
  have e2 : c - (c - t + h / 2) = t + -h / 2 := by ring
  have e3 : c - (c - t + h) = t + -h := by ring
  simp only [e1, e2, e3]
  have e4 : ∀ k : E, (h / 2) • -k = (-h / 2) • k := fun k => by module
  have e5 : ∀ k : E, h • -k = (-h) • k := fun k => by module
  simp only [e4, e5]
  module

/-- Mean value inequality with a derivative inside the interval only. -/
theorem mvt_Ioo {φ φ' : ℝ → E} {a b C : ℝ} (hab : a ≤ b) (hc : ContinuousOn φ (Icc a b)) (hd : ∀ s ∈ Ioo a b, HasDerivAt φ (φ' s) s)
    (hC : ∀ s ∈ Ioo a b, ‖φ' s‖ ≤ C) : ‖φ b - φ a‖ ≤ C * (b - a) := by
  rcases hab.eq_or_lt with rfl | hlt
  · simp
  have h1 : ∀ s ∈ Ioo a b, ‖φ b - φ s‖ ≤ C * (b - s) := by
    intro s hs
    have := norm_image_sub_le_of_norm_deriv_right_le_segment (f := φ) (f' := φ') (a := s) (b := b) (C := C)
      (hc.mono (Icc_subset_Icc_left hs.1.le))
      (fun x hx => (hd x ⟨hs.1.trans_le hx.1, hx.2⟩).hasDerivWithinAt) (fun x hx => hC x ⟨hs.1.trans_le hx.1, hx.2⟩)
    exact this b (right_mem_Icc.2 hs.2.le)
  have hcl : closure (Ioo a b) = Icc a b := closure_Ioo hlt.ne
  refine le_on_closure (s := Ioo a b) (f := fun s => ‖φ b - φ s‖) (g := fun s => C * (b - s)) h1 ?_ ?_
    (by rw [hcl]; exact left_mem_Icc.2 hab)
  · rw [hcl]
    exact (continuousOn_const.sub hc).norm
  · fun_prop

/-- One step against the solution: `y0` is the solution at the start of the step, `e` the error there. -/
theorem rkStep_bound {f g : E → ℝ → E} {h t e M Λ om : ℝ} {x y0 : E} (hh : 0 < h) (hx : ‖x - y0‖ ≤ e) (he : e ≤ 1) (hM : h * M ≤ 1)
    (hΛ : 0 ≤ Λ) (hom : om ≤ 1)
    (hg : ∀ x' s, ‖x' - x‖ ≤ h * M → ‖x' - y0‖ ≤ 2 → t ≤ s → s ≤ t + h → ‖g x' s - f y0 t‖ ≤ Λ * ‖x' - y0‖ + om)
    (hf : ‖f y0 t‖ + 2 * Λ + 1 ≤ M) :
    ‖rkMap g h x t - (y0 + h • f y0 t)‖ ≤ e + h * (Λ * e + (Λ * (h * M) + om)) := by
  have hM0 : 0 ≤ M := le_trans (by positivity) hf
  have he0 : 0 ≤ e := (norm_nonneg _).trans hx
  have key : ∀ x' s, ‖x' - x‖ ≤ h * M → t ≤ s → s ≤ t + h → ‖g x' s - f y0 t‖ ≤ Λ * e + (Λ * (h * M) + om) ∧ ‖g x' s‖ ≤ M := by
    intro x' s h1 h2 h3
    have h4 : ‖x' - y0‖ ≤ e + h * M := by
      have : x' - y0 = (x - y0) + (x' - x) := by abel
      rw [this]
      exact (norm_add_le _ _).trans (add_le_add hx h1)
    have h5 := hg x' s h1 (by linarith) h2 h3
    constructor
    · have := mul_le_mul_of_nonneg_left h4 hΛ
      linarith
    · have h6 : ‖g x' s‖ ≤ ‖f y0 t‖ + ‖g x' s - f y0 t‖ := by
        have := norm_add_le (f y0 t) (g x' s - f y0 t)
        simpa using this
      have := mul_le_mul_of_nonneg_left (show ‖x' - y0‖ ≤ 2 by linarith) hΛ
      linarith
  have hstep : ∀ (c : ℝ) (k : E), 0 ≤ c → c ≤ h → ‖k‖ ≤ M → ‖x + c • k - x‖ ≤ h * M := by
    intro c k h1 h2 h3
    rw [add_sub_cancel_left, norm_smul, Real.norm_eq_abs, abs_of_nonneg h1]
    exact mul_le_mul h2 h3 (norm_nonneg _) hh.le
  unfold rkMap
  dsimp only
  obtain ⟨a1, b1⟩ := key x t (by simp; positivity) le_rfl (by linarith)
  generalize g x t = k1 at *
  obtain ⟨a2, b2⟩ := key (x + (h / 2) • k1) (t + h / 2) (hstep _ _ (by linarith) (by linarith) b1) (by linarith) (by linarith)
  generalize g (x + (h / 2) • k1) (t + h / 2) = k2 at *
  obtain ⟨a3, b3⟩ := key (x + (h / 2) • k2) (t + h / 2) (hstep _ _ (by linarith) (by linarith) b2) (by linarith) (by linarith)
  generalize g (x + (h / 2) • k2) (t + h / 2) = k3 at *
  obtain ⟨a4, b4⟩ := key (x + h • k3) (t + h) (hstep _ _ (by linarith) (by linarith) b3) (by linarith) (by linarith)
  generalize g (x + h • k3) (t + h) = k4 at *
  have e1 : x + (h / 6) • (k1 + (2 : ℝ) • k2 + (2 : ℝ) • k3 + k4) - (y0 + h • f y0 t) =
      (x - y0) + (h / 6) • ((k1 - f y0 t) + (2 : ℝ) • (k2 - f y0 t) + (2 : ℝ) • (k3 - f y0 t) + (k4 - f y0 t)) := by module
  rw [e1]
  refine (norm_add_le _ _).trans (add_le_add hx ?_)
  rw [norm_smul, Real.norm_eq_abs, abs_of_pos (by linarith)]
  have h2 : ∀ k : E, ‖(2 : ℝ) • k‖ = 2 * ‖k‖ := fun k => by rw [norm_smul]; norm_num
  have h3 := norm_add_le ((k1 - f y0 t) + (2 : ℝ) • (k2 - f y0 t) + (2 : ℝ) • (k3 - f y0 t)) (k4 - f y0 t)
  have h4 := norm_add_le ((k1 - f y0 t) + (2 : ℝ) • (k2 - f y0 t)) ((2 : ℝ) • (k3 - f y0 t))
  have h5 := norm_add_le (k1 - f y0 t) ((2 : ℝ) • (k2 - f y0 t))
  rw [h2] at h4 h5
  have h6 : ‖(k1 - f y0 t) + (2 : ℝ) • (k2 - f y0 t) + (2 : ℝ) • (k3 - f y0 t) + (k4 - f y0 t)‖ ≤ 6 * (Λ * e + (Λ * (h * M) + om)) := by
    linarith
  calc h / 6 * _ ≤ h / 6 * (6 * (Λ * e + (Λ * (h * M) + om))) := mul_le_mul_of_nonneg_left h6 (by linarith)
    _ = _ := by ring

/-- Growth of the error over the steps. -/
theorem error_growth {e : ℕ → ℝ} {h Λ om η B : ℝ} {N : ℕ} (hh : 0 < h) (hΛ : 0 ≤ Λ) (hom : 0 ≤ om) (h0 : e 0 ≤ η) (hη : 0 ≤ η)
    (hB : (η + N * h * om) * Real.exp (Λ * (N * h)) ≤ B)
    (hs : ∀ k < N, e k ≤ B → e (k + 1) ≤ e k + h * (Λ * e k + om)) : ∀ k ≤ N, e k ≤ B := by
  have key : ∀ k ≤ N, e k ≤ (η + k * h * om) * Real.exp (Λ * (k * h)) := by
    intro k
    induction k with
    | zero => intro _; simpa using h0
    | succ k ih =>
      intro hk
      have h1 := ih (by omega)
      have hkN : (k : ℝ) ≤ N := by exact_mod_cast (by omega : k ≤ N)
      have h2 : (η + k * h * om) * Real.exp (Λ * (k * h)) ≤ B := by
        refine le_trans ?_ hB
        gcongr
      have h3 := hs k (by omega) (h1.trans h2)
      have h4 : (1 + h * Λ) ≤ Real.exp (Λ * h) := by
        have := Real.add_one_le_exp (Λ * h)
        linarith
      have h5 : e k + h * (Λ * e k + om) = (1 + h * Λ) * e k + h * om := by ring
      rw [h5] at h3
      have hp : 0 ≤ (η + k * h * om) * Real.exp (Λ * (k * h)) := by positivity
      have h6 : (1 + h * Λ) * e k ≤ Real.exp (Λ * h) * ((η + k * h * om) * Real.exp (Λ * (k * h))) :=
        (mul_le_mul_of_nonneg_left h1 (by positivity)).trans (mul_le_mul_of_nonneg_right h4 hp)
      have h7 : Real.exp (Λ * ((k + 1 : ℕ) * h)) = Real.exp (Λ * h) * Real.exp (Λ * (k * h)) := by
        rw [← Real.exp_add]
        congr 1
        push_cast
        ring
      have h8 : h * om ≤ h * om * Real.exp (Λ * ((k + 1 : ℕ) * h)) := by
        have : 1 ≤ Real.exp (Λ * ((k + 1 : ℕ) * h)) := Real.one_le_exp (by positivity)
        nlinarith [mul_nonneg hh.le hom]
      calc e (k + 1) ≤ Real.exp (Λ * h) * ((η + k * h * om) * Real.exp (Λ * (k * h))) + h * om * Real.exp (Λ * ((k + 1 : ℕ) * h)) := by linarith
        _ = _ := by rw [h7]; push_cast; ring
  intro k hk
  have hkN : (k : ℝ) ≤ N := by exact_mod_cast hk
  refine (key k hk).trans (le_trans ?_ hB)
  gcongr

/-- Right hand sides that are continuous, and Lipschitz in the state on bounded sets. -/
structure GoodRhs (f : E → ℝ → E) (a b : ℝ) : Prop where
  cont : ContinuousOn (fun p : E × ℝ => f p.1 p.2) (univ ×ˢ Icc a b)
  lip : ∀ R : ℝ, ∃ Λ : ℝ, 0 ≤ Λ ∧ ∀ t ∈ Icc a b, ∀ x x', ‖x‖ ≤ R → ‖x'‖ ≤ R → ‖f x t - f x' t‖ ≤ Λ * ‖x - x'‖

/-- The Runge-Kutta iterates with perturbed right hand sides `g k`, followed by maps `q` that do not increase the distance to the
solution, converge to the solution. -/
theorem rk_converges {f : E → ℝ → E} {a b : ℝ} (hab : a ≤ b) (hf : GoodRhs f a b) {y : ℝ → E} (hy : ContinuousOn y (Icc a b))
    (hd : ∀ t ∈ Ioo a b, HasDerivAt y (f (y t) t) t) {q : E → E} (hq : ∀ z, ∀ t ∈ Icc a b, ‖q z - y t‖ ≤ ‖z - y t‖) :
    ∃ R : ℝ, 0 < R ∧ ∀ ε > 0, ∃ η > 0, ∀ ρ > 0, ∃ δ > 0, ∀ (N : ℕ) (h : ℝ) (z : ℕ → E) (g : ℕ → E → ℝ → E), 0 < h → h < δ → a + N * h ≤ b →
      ‖z 0 - y a‖ ≤ η →
      (∀ k < N, ∀ x t, ‖x‖ ≤ R → ‖x - z k‖ ≤ ρ → ‖z k‖ ≤ R → a + k * h ≤ t → t ≤ a + k * h + h → ‖g k x t - f x t‖ ≤ η) →
      (∀ k < N, z (k + 1) = q (rkMap (g k) h (z k) (a + k * h))) → ∀ k ≤ N, ‖z k - y (a + k * h)‖ ≤ ε := by
  obtain ⟨Y, hY⟩ := isCompact_Icc.exists_bound_of_continuousOn hy
  obtain ⟨Λ, hΛ, hlip⟩ := hf.lip (Y + 2)
  have hY0 : 0 ≤ Y := (norm_nonneg _).trans (hY a (left_mem_Icc.2 hab))
  -- the values of `f` along the solution with separate times
  have hG : ContinuousOn (fun p : ℝ × ℝ => f (y p.1) p.2) (Icc a b ×ˢ Icc a b) := by
    refine hf.cont.comp (f := fun p : ℝ × ℝ => (y p.1, p.2)) ?_ fun p hp => ⟨mem_univ _, hp.2⟩
    exact (hy.comp continuousOn_fst fun p hp => hp.1).prodMk continuousOn_snd
  have hcomp : IsCompact (Icc a b ×ˢ Icc a b) := isCompact_Icc.prod isCompact_Icc
  have hUC := hcomp.uniformContinuousOn_of_continuous hG
  rw [Metric.uniformContinuousOn_iff] at hUC
  obtain ⟨M0, hM0⟩ := hcomp.exists_bound_of_continuousOn hG
  set M := M0 + 2 * Λ + 1 with hMdef
  have hM00 : 0 ≤ M0 := (norm_nonneg _).trans (hM0 (a, a) ⟨left_mem_Icc.2 hab, left_mem_Icc.2 hab⟩)
  have hMpos : 0 < M := by positivity
  refine ⟨Y + 2, by linarith, fun ε hε => ?_⟩
  -- the total local error
  set B := min ε 1 with hB
  have hBpos : 0 < B := lt_min hε one_pos
  set C := (1 + (b - a)) * Real.exp (Λ * (b - a)) with hC
  have hba : 0 ≤ b - a := by linarith
  have hCpos : 0 < C := by positivity
  set om := min (B / C) 1 with hom
  have hompos : 0 < om := lt_min (div_pos hBpos hCpos) one_pos
  obtain ⟨δ0, hδ0, hU⟩ := hUC (om / 6) (by positivity)
  refine ⟨om / 6, by positivity, fun ρ hρ => ⟨min δ0 (min (ρ / M) (min (1 / M) (om / (6 * (Λ + 1) * M)))), by positivity, ?_⟩⟩
  intro N h z g hh hδ hN h0 hg hz
  simp only [lt_min_iff, le_min_iff] at hδ
  obtain ⟨hd1, hd3, hd4, hd5⟩ := hδ
  rw [lt_div_iff₀ hMpos] at hd3 hd4
  rw [lt_div_iff₀ (by positivity)] at hd5
  have hNh : N * h ≤ b - a := by linarith
  have hfin : ∀ k ≤ N, ‖z k - y (a + k * h)‖ ≤ B := by
    refine error_growth (h := h) (Λ := Λ) (om := om) (η := om / 6) hh hΛ hompos.le ?_ (by positivity) ?_ ?_
    · simpa using h0
    · have h1 : (om / 6 + N * h * om) ≤ (1 + (b - a)) * om := by nlinarith
      calc (om / 6 + N * h * om) * Real.exp (Λ * (N * h)) ≤ ((1 + (b - a)) * om) * Real.exp (Λ * (b - a)) := by
            gcongr
        _ = C * om := by rw [hC]; ring
        _ ≤ C * (B / C) := mul_le_mul_of_nonneg_left (min_le_left _ _) hCpos.le
        _ = B := mul_div_cancel₀ _ hCpos.ne'
    · intro k hk hkB
      set t := a + k * h with ht
      have hk1 : (k : ℝ) + 1 ≤ N := by exact_mod_cast hk
      have ht1 : a ≤ t := by rw [ht]; have : (0 : ℝ) ≤ k := Nat.cast_nonneg k; nlinarith
      have ht2 : t + h ≤ b := by rw [ht]; nlinarith
      have htm : t ∈ Icc a b := ⟨ht1, by linarith⟩
      have ht' : a + ((k + 1 : ℕ) : ℝ) * h = t + h := by rw [ht]; push_cast; ring
      rw [ht', hz k hk]
      refine (hq _ _ ⟨by linarith, ht2⟩).trans ?_
      have hzY : ‖z k‖ ≤ Y + 2 := by
        have h1 : ‖z k‖ ≤ ‖y t‖ + ‖z k - y t‖ := by
          have := norm_add_le (y t) (z k - y t)
          simpa using this
        have := hY t htm
        have : B ≤ 1 := min_le_right _ _
        linarith
      -- the step of the method
      have h1 := rkStep_bound (f := f) (g := g k) (h := h) (t := t) (e := ‖z k - y t‖) (M := M) (Λ := Λ) (om := om / 3) (x := z k)
        (y0 := y t) hh le_rfl (hkB.trans (min_le_right _ _)) hd4.le hΛ (by have : om ≤ 1 := min_le_right _ _; linarith)
        (by
          intro x' s h1 h2 h3 h4
          have hsm : s ∈ Icc a b := ⟨by linarith, by linarith⟩
          have hx'Y : ‖x'‖ ≤ Y + 2 := by
            have h5 : ‖x'‖ ≤ ‖y t‖ + ‖x' - y t‖ := by
              have := norm_add_le (y t) (x' - y t)
              simpa using this
            have := hY t htm
            linarith
          have h5 := hg k hk x' s hx'Y (h1.trans hd3.le) hzY h3 h4
          have h6 := hlip s hsm x' (y t) hx'Y (by have := hY t htm; linarith)
          have h7 := hU (t, s) ⟨htm, hsm⟩ (t, t) ⟨htm, htm⟩ (by
            rw [Prod.dist_eq, dist_self, max_eq_right dist_nonneg, Real.dist_eq, abs_of_nonneg (by linarith)]
            linarith)
          rw [dist_eq_norm] at h7
          have h8 : g k x' s - f (y t) t = (g k x' s - f x' s) + (f x' s - f (y t) s) + (f (y t) s - f (y t) t) := by abel
          rw [h8]
          have h9 := norm_add_le ((g k x' s - f x' s) + (f x' s - f (y t) s)) (f (y t) s - f (y t) t)
          have h10 := norm_add_le (g k x' s - f x' s) (f x' s - f (y t) s)
          dsimp only at h7
          linarith)
        (by have := hM0 (t, t) ⟨htm, htm⟩; dsimp only at this; linarith)
      -- the solution over the step
      have h2 : ‖y (t + h) - (y t + h • f (y t) t)‖ ≤ h * (om / 6) := by
        have := mvt_Ioo (φ := fun s => y s - s • f (y t) t) (φ' := fun s => f (y s) s - f (y t) t) (a := t) (b := t + h) (C := om / 6)
          (by linarith) ((hy.mono (Icc_subset_Icc ht1 ht2)).sub (by fun_prop))
          (fun s hs => by
            have h3 := hd s ⟨by have := hs.1; linarith, by have := hs.2; linarith⟩
            have h4 : HasDerivAt (fun s : ℝ => s • f (y t) t) ((1 : ℝ) • f (y t) t) s := (hasDerivAt_id s).smul_const _
            rw [one_smul] at h4
            exact h3.sub h4)
          (fun s hs => by
            have hsm : s ∈ Icc a b := ⟨by have := hs.1; linarith, by have := hs.2; linarith⟩
            have h7 := hU (s, s) ⟨hsm, hsm⟩ (t, t) ⟨htm, htm⟩ (by
              have := hs.1; have := hs.2
              rw [Prod.dist_eq, max_self, Real.dist_eq, abs_of_nonneg (by linarith)]
              linarith)
            rw [dist_eq_norm] at h7
            exact h7.le)
        have h3 : y (t + h) - (t + h) • f (y t) t - (y t - t • f (y t) t) = y (t + h) - (y t + h • f (y t) t) := by module
        rw [h3] at this
        linarith
      have h3 : rkMap (g k) h (z k) t - y (t + h) = (rkMap (g k) h (z k) t - (y t + h • f (y t) t)) - (y (t + h) - (y t + h • f (y t) t)) := by
        abel
      rw [h3]
      refine (norm_sub_le _ _).trans ?_
      have h4 : Λ * (h * M) ≤ om / 6 := by nlinarith [mul_pos hh hMpos]
      have h5 : h * (Λ * (h * M)) ≤ h * (om / 6) := mul_le_mul_of_nonneg_left h4 hh.le
      have h6 : h * (Λ * ‖z k - y t‖ + (Λ * (h * M) + om / 3)) = h * (Λ * ‖z k - y t‖) + h * (Λ * (h * M)) + h * om / 3 := by ring
      have h7 : h * (Λ * ‖z k - y t‖ + om) = h * (Λ * ‖z k - y t‖) + h * om := by ring
      rw [h6] at h1
      rw [h7]
      have h8 : 0 < h * om := mul_pos hh hompos
      linarith
  exact fun k hk => (hfin k hk).trans (min_le_left _ _)

end Verif
