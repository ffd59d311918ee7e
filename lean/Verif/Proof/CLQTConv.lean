import Verif.Proof.CLQTSeq
import Verif.Proof.RKGood
import Verif.Proof.CLQTOpt
import Verif.Spec.CLQTReg
import Mathlib.Topology.Instances.Matrix
import Mathlib.Analysis.Calculus.Deriv.Prod
import Mathlib.Analysis.Calculus.Deriv.Comp

/-! Convergence of the sequential backward and forward passes to the solution of the Riccati equation and to the closed loop. -/

namespace Verif

open Set Matrix

attribute [local instance] Matrix.normedAddCommGroup Matrix.normedSpace

variable {n m : ℕ}

/-- `U⁻¹ Lᵀ`. -/
noncomputable def CLQT.ULT (P : CLQT n m ℝ) (t : ℝ) : Matrix (Fin m) (Fin n) ℝ := (P.U t)⁻¹ * (P.L t)ᵀ

theorem CLQT.ContData.solve {P : CLQT n m ℝ} {a b t : ℝ} (h : P.ContData a b) (ht : t ∈ Icc a b) :
    solvePos (P.U t) (P.L t)ᵀ = .ok (P.ULT t) := by
  refine (solvePos_ok (h.sym t ht)).2 ⟨h.pos t ht, ?_⟩
  unfold CLQT.ULT
  rw [← Matrix.mul_assoc, Matrix.mul_nonsing_inv _ (isUnit_iff_ne_zero.2 (h.pos t ht).det_ne_zero), Matrix.one_mul]

theorem contOn_inv {k : ℕ} {U : ℝ → Matrix (Fin k) (Fin k) ℝ} {s : Set ℝ} (h : ∀ i j, ContinuousOn (fun t => U t i j) s)
    (hd : ∀ t ∈ s, (U t).det ≠ 0) (i j : Fin k) : ContinuousOn (fun t => (U t)⁻¹ i j) s := by
  have hU : ContinuousOn U s := continuousOn_pi.2 fun i => continuousOn_pi.2 fun j => h i j
  have h1 : ContinuousOn (fun t => (U t).det) s := (continuous_id.matrix_det).comp_continuousOn hU
  have h2 : ContinuousOn (fun t => (U t).adjugate i j) s :=
    ((continuous_id.matrix_adjugate).matrix_elem i j).comp_continuousOn hU
  have h3 : ∀ t ∈ s, (U t)⁻¹ i j = (U t).det⁻¹ * (U t).adjugate i j := by
    intro t _
    rw [Matrix.inv_def, Ring.inverse_eq_inv', Matrix.smul_apply, smul_eq_mul]
  exact ((h1.inv₀ hd).mul h2).congr h3

theorem CLQT.ContData.ultCont {P : CLQT n m ℝ} {a b : ℝ} (h : P.ContData a b) (i : Fin m) (j : Fin n) :
    ContinuousOn (fun t => P.ULT t i j) (Icc a b) := by
  unfold CLQT.ULT
  simp only [Matrix.mul_apply]
  exact continuousOn_finset_sum _ fun k _ => (contOn_inv h.U (fun t ht => (h.pos t ht).det_ne_zero) i k).mul (h.L j k)

/-- The right hand side of the Riccati equation without errors. -/
noncomputable def CLQT.ricF (P : CLQT n m ℝ) (x : Matrix (Fin n) (Fin (n + 1)) ℝ) (t : ℝ) : Matrix (Fin n) (Fin (n + 1)) ℝ :=
  packSv (-(P.F t)ᵀ * (unpackSv x).1 - (unpackSv x).1 * P.F t + (unpackSv x).1 * (P.L t * P.ULT t) * (unpackSv x).1 -
      (P.H t)ᵀ * P.X t * P.H t)
    (-((P.H t)ᵀ * P.X t) *ᵥ P.r t + (unpackSv x).1 *ᵥ P.c t - (P.F t)ᵀ *ᵥ (unpackSv x).2 +
      ((unpackSv x).1 * (P.L t * P.ULT t)) *ᵥ (unpackSv x).2)

theorem CLQT.ContData.riccati {P : CLQT n m ℝ} {a b t : ℝ} (h : P.ContData a b) (ht : t ∈ Icc a b) (x : Matrix (Fin n) (Fin (n + 1)) ℝ) :
    P.riccatiOdeF x t = .ok (P.ricF x t) := by
  unfold CLQT.riccatiOdeF CLQT.ricF
  dsimp only
  rw [h.solve ht]
  rfl

variable {a b : ℝ}

theorem GM.pack {E : Type} [NormedAddCommGroup E] [NormedSpace ℝ E] {S : E → ℝ → Matrix (Fin n) (Fin n) ℝ} {v : E → ℝ → Fin n → ℝ}
    (hS : GM a b S) (hv : GV a b v) : GM a b (fun x t => packSv (S x t) (v x t)) := fun i j => by
  unfold packSv
  simp only [Matrix.of_apply]
  split_ifs with h1 h2
  · exact hS i _
  · exact hv i
  · exact RG.const 0

theorem GM.unpackS : GM a b (fun (x : Matrix (Fin n) (Fin (n + 1)) ℝ) _ => (unpackSv x).1) := fun i _ => RG.entry i _

theorem GV.unpackV : GV a b (fun (x : Matrix (Fin n) (Fin (n + 1)) ℝ) _ => (unpackSv x).2) := fun i => RG.entry i _

theorem CLQT.ContData.ricGood {P : CLQT n m ℝ} (h : P.ContData a b) : GM a b P.ricF := by
  have hF : GM a b (fun (_ : Matrix (Fin n) (Fin (n + 1)) ℝ) t => P.F t) := GM.time h.F
  have hL : GM a b (fun (_ : Matrix (Fin n) (Fin (n + 1)) ℝ) t => P.L t) := GM.time h.L
  have hX : GM a b (fun (_ : Matrix (Fin n) (Fin (n + 1)) ℝ) t => P.X t) := GM.time h.X
  have hH : GM a b (fun (_ : Matrix (Fin n) (Fin (n + 1)) ℝ) t => P.H t) := GM.time h.H
  have hY : GM a b (fun (_ : Matrix (Fin n) (Fin (n + 1)) ℝ) t => P.ULT t) := GM.time h.ultCont
  have hc : GV a b (fun (_ : Matrix (Fin n) (Fin (n + 1)) ℝ) t => P.c t) := GV.time h.c
  have hr : GV a b (fun (_ : Matrix (Fin n) (Fin (n + 1)) ℝ) t => P.r t) := GV.time h.r
  exact GM.pack ((((hF.transpose.neg.mul GM.unpackS).sub (GM.unpackS.mul hF)).add ((GM.unpackS.mul (hL.mul hY)).mul GM.unpackS)).sub
      ((hH.transpose.mul hX).mul hH))
    (((((hH.transpose.mul hX).neg.mulVec hr).add (GM.unpackS.mulVec hc)).sub (hF.transpose.mulVec GV.unpackV)).add
      ((GM.unpackS.mul (hL.mul hY)).mulVec GV.unpackV))

/-- Symmetrisation of the packed value function. -/
noncomputable def symPack (x : Matrix (Fin n) (Fin (n + 1)) ℝ) : Matrix (Fin n) (Fin (n + 1)) ℝ :=
  packSv (symPart (unpackSv x).1) (unpackSv x).2

theorem packSv_norm_le {S : Matrix (Fin n) (Fin n) ℝ} {v : Fin n → ℝ} {x : Matrix (Fin n) (Fin (n + 1)) ℝ} {e : ℝ} (he : 0 ≤ e) :
    ‖packSv S v - x‖ ≤ e ↔ (∀ i j, |S i j - (unpackSv x).1 i j| ≤ e) ∧ ∀ i, |v i - (unpackSv x).2 i| ≤ e := by
  rw [Matrix.norm_le_iff he]
  constructor
  · intro h
    refine ⟨fun i j => ?_, fun i => ?_⟩
    · have := h i ⟨j.1, by omega⟩
      simpa [packSv, unpackSv] using this
    · have := h i ⟨n, by omega⟩
      simpa [packSv, unpackSv] using this
  · rintro ⟨h1, h2⟩ i j
    rw [Real.norm_eq_abs, Matrix.sub_apply]
    unfold packSv
    simp only [Matrix.of_apply]
    split_ifs with h3 h4
    · exact h1 i ⟨j.1, h3⟩
    · have : j = ⟨n, by omega⟩ := Fin.ext h4
      rw [this]
      exact h2 i
    · omega

theorem symPack_le {z : Matrix (Fin n) (Fin (n + 1)) ℝ} {S : Matrix (Fin n) (Fin n) ℝ} {v : Fin n → ℝ} (hS : Sᵀ = S) :
    ‖symPack z - packSv S v‖ ≤ ‖z - packSv S v‖ := by
  have hz : ‖z - packSv S v‖ ≤ ‖z - packSv S v‖ := le_rfl
  conv at hz => lhs; rw [← pack_unpackSv z]
  rw [packSv_norm_le (norm_nonneg _)] at hz
  unfold symPack
  rw [packSv_norm_le (norm_nonneg _)]
  refine ⟨fun i j => ?_, hz.2⟩
  have hSij : S j i = S i j := congrFun (congrFun hS i) j
  have h1 := hz.1 i j
  have h2 := hz.1 j i
  rw [unpack_packSv] at h1 h2 ⊢
  dsimp only at h1 h2 ⊢
  rw [hSij] at h2
  have h3 : symPart (unpackSv z).1 i j - S i j = (1 / 2) * ((unpackSv z).1 i j - S i j) + (1 / 2) * ((unpackSv z).1 j i - S i j) := by
    simp only [symPart, Matrix.smul_apply, Matrix.add_apply, Matrix.transpose_apply, smul_eq_mul]
    ring
  rw [h3]
  refine (abs_add_le _ _).trans ?_
  rw [abs_mul, abs_mul, abs_of_pos (by norm_num : (0 : ℝ) < 1 / 2)]
  linarith

/-- `S` and `v` solve the Riccati equation over `[a, b]`. -/
structure CLQT.RicOn (P : CLQT n m ℝ) (a b : ℝ) (S : ℝ → Matrix (Fin n) (Fin n) ℝ) (v : ℝ → Fin n → ℝ) : Prop where
  contS : ∀ i j, ContinuousOn (fun t => S t i j) (Icc a b)
  contv : ∀ i, ContinuousOn (fun t => v t i) (Icc a b)
  sym : ∀ t ∈ Icc a b, (S t)ᵀ = S t
  ode : ∀ t ∈ Ioo a b, ∀ i j, HasDerivAt (fun s => packSv (S s) (v s) i j) (P.ricF (packSv (S t) (v t)) t i j) t

theorem contOn_pack {S : ℝ → Matrix (Fin n) (Fin n) ℝ} {v : ℝ → Fin n → ℝ} {s : Set ℝ} (h1 : ∀ i j, ContinuousOn (fun t => S t i j) s)
    (h2 : ∀ i, ContinuousOn (fun t => v t i) s) : ContinuousOn (fun t => packSv (S t) (v t)) s := by
  refine continuousOn_pi.2 fun i => continuousOn_pi.2 fun j => ?_
  unfold packSv
  simp only [Matrix.of_apply]
  split_ifs with h3 h4
  · exact h1 i _
  · exact h2 i
  · exact continuousOn_const

theorem hasDerivAt_mat {p q : ℕ} {f : ℝ → Matrix (Fin p) (Fin q) ℝ} {f' : Matrix (Fin p) (Fin q) ℝ} {t : ℝ}
    (h : ∀ i j, HasDerivAt (fun s => f s i j) (f' i j) t) : HasDerivAt f f' t :=
  hasDerivAt_pi.2 fun i => hasDerivAt_pi.2 fun j => h i j

/-- The backward integration converges, also from perturbed final values. -/
theorem CLQT.bw_converges {P : CLQT n m ℝ} (hP : P.ContData a b) (hab : a < b) {S : ℝ → Matrix (Fin n) (Fin n) ℝ} {v : ℝ → Fin n → ℝ}
    (hR : P.RicOn a b S v) : ∀ ε > 0, ∃ δ > 0, ∀ (N : ℕ) (h : ℝ) (s : CVal n ℝ), 0 < h → h < δ → a + N * h = b →
      (∀ i j, |s.1 i j - S b i j| ≤ δ) → (∀ i, |s.2 i - v b i| ≤ δ) →
      ∃ (σ : ℕ → CVal n ℝ) (κ : ℕ → Matrix (Fin m) (Fin n) ℝ × (Fin m → ℝ)), σ N = s ∧ P.BwSeq N h a σ κ ∧
        (∀ k ≤ N, (∀ i j, |(σ k).1 i j - S (a + k * h) i j| ≤ ε) ∧ ∀ i, |(σ k).2 i - v (a + k * h) i| ≤ ε) ∧
        ∀ k < N, κ k = (P.ULT (a + k * h) * (σ k).1, P.ULT (a + k * h) *ᵥ (σ k).2) := by
  intro ε hε
  have hg := (hP.ricGood.rhs).reflect b
  rw [sub_self] at hg
  have hm : ∀ {t : ℝ}, t ∈ Icc 0 (b - a) → b - t ∈ Icc a b := fun ht => ⟨by linarith [ht.2], by linarith [ht.1]⟩
  obtain ⟨R, -, hconv⟩ := rk_converges (a := 0) (b := b - a) (by linarith) hg (y := fun t => packSv (S (b - t)) (v (b - t)))
    ((contOn_pack hR.contS hR.contv).comp (f := fun t => b - t) (by fun_prop) fun t ht => hm ht)
    (fun t ht => by
      have h1 := hasDerivAt_mat (hR.ode (b - t) ⟨by linarith [ht.2], by linarith [ht.1]⟩)
      have h2 := h1.scomp t ((hasDerivAt_id t).const_sub b)
      rw [neg_one_smul] at h2
      exact h2)
    (q := symPack) (fun z t ht => symPack_le (hR.sym _ (hm ht)))
  obtain ⟨η, hη, hconv⟩ := hconv ε hε
  obtain ⟨δ0, hδ0, hc⟩ := hconv 1 one_pos
  refine ⟨min δ0 η, lt_min hδ0 hη, fun N h s hh hhδ hN h1 h2 => ?_⟩
  let z : ℕ → Matrix (Fin n) (Fin (n + 1)) ℝ := fun j => Nat.rec (packSv s.1 s.2)
    (fun j z => symPack (rkMap (fun x t => -P.ricF x (b - t)) h z (0 + j * h))) j
  have hz0 : z 0 = packSv s.1 s.2 := rfl
  have hzs : ∀ j, z (j + 1) = symPack (rkMap (fun x t => -P.ricF x (b - t)) h (z j) (0 + j * h)) := fun j => rfl
  have hall := hc N h z (fun _ => fun x t => -P.ricF x (b - t)) hh (hhδ.trans_le (min_le_left _ _)) (by linarith)
    (by
      rw [hz0, packSv_norm_le hη.le, unpack_packSv, sub_zero]
      exact ⟨fun i j => (h1 i j).trans (min_le_right _ _), fun i => (h2 i).trans (min_le_right _ _)⟩)
    (fun k _ x t _ _ _ _ _ => by simp [hη.le]) (fun k _ => hzs k)
  have hmem : ∀ k ≤ N, a + k * h ∈ Icc a b := by
    intro k hk
    have : (k : ℝ) ≤ N := by exact_mod_cast hk
    exact ⟨by have := mul_nonneg (Nat.cast_nonneg (α := ℝ) k) hh.le; linarith, by nlinarith⟩
  refine ⟨fun k => unpackSv (z (N - k)), fun k => (P.ULT (a + k * h) * (unpackSv (z (N - k))).1, P.ULT (a + k * h) *ᵥ (unpackSv (z (N - k))).2),
    ?_, ?_, ?_, fun k _ => rfl⟩
  · simp only [Nat.sub_self, hz0, unpack_packSv]
  · intro k hk
    constructor
    · obtain ⟨j, rfl⟩ : ∃ j, N = k + 1 + j := ⟨N - (k + 1), by omega⟩
      have e1 : k + 1 + j - k = j + 1 := by omega
      have e2 : k + 1 + j - (k + 1) = j := by omega
      simp only [e1, e2]
      unfold CLQT.bwF
      rw [pack_unpackSv]
      have ht : a + ((k : ℝ) + 1) * h = b - j * h := by
        push_cast at hN
        linarith
      rw [rk4T_rkMap (f := P.ricF) (fun x s hs => hP.riccati (by
        have hj0 := mul_nonneg (Nat.cast_nonneg (α := ℝ) j) hh.le
        have hk0 := mul_nonneg (Nat.cast_nonneg (α := ℝ) k) hh.le
        rcases hs with rfl | rfl | rfl <;> constructor <;> linarith) x), ht, rkMap_neg _ _ _ _ b, hzs]
      have e3 : b - (b - j * h) = 0 + j * h := by ring
      rw [e3]
      unfold symPack
      rw [unpack_packSv]
      rfl
    · unfold CLQT.gainF
      rw [hP.solve (hmem k hk.le)]
      rfl
  · intro k hk
    have h3 := hall (N - k) (Nat.sub_le _ _)
    have h4 : b - (0 + ((N - k : ℕ) : ℝ) * h) = a + k * h := by
      rw [Nat.cast_sub hk]
      linarith
    rw [← pack_unpackSv (z (N - k)), packSv_norm_le hε.le, unpack_packSv, h4] at h3
    exact h3

/-! ### Forward pass -/

theorem mulVec_entry_le {p q : ℕ} {M : Matrix (Fin p) (Fin q) ℝ} {w : Fin q → ℝ} {e r : ℝ} {i : Fin p} (hM : ∀ j, |M i j| ≤ e)
    (hw : ∀ j, |w j| ≤ r) (he : 0 ≤ e) : |(M *ᵥ w) i| ≤ q * (e * r) := by
  have h1 : |(M *ᵥ w) i| ≤ ∑ j, |M i j * w j| := by
    simp only [Matrix.mulVec, dotProduct]
    exact Finset.abs_sum_le_sum_abs _ _
  have h2 : ∑ j, |M i j * w j| ≤ ∑ _j : Fin q, e * r := Finset.sum_le_sum fun j _ => by
    rw [abs_mul]
    exact mul_le_mul (hM j) (hw j) (abs_nonneg _) he
  simp only [Finset.sum_const, Finset.card_univ, Fintype.card_fin, nsmul_eq_mul] at h2
  exact h1.trans h2

theorem ctrl_diff {A G : Matrix (Fin m) (Fin n) ℝ} {w x : Fin n → ℝ} {d d' : Fin m → ℝ} {e M R ρ : ℝ} (he : 0 ≤ e) (hM0 : 0 ≤ M)
    (hA : ∀ i j, |A i j - G i j| ≤ e) (hG : ∀ i j, |G i j| ≤ M) (hw : ‖w‖ ≤ R) (hx : ‖w - x‖ ≤ ρ) (hd : ∀ i, |d i - d' i| ≤ e) (i : Fin m) :
    |(-A *ᵥ w + d) i - (-G *ᵥ x + d') i| ≤ n * (e * R) + n * (M * ρ) + e := by
  have h1 : (-A *ᵥ w + d) i - (-G *ᵥ x + d') i = (-(((A - G) *ᵥ w) i) - (G *ᵥ (w - x)) i) + (d i - d' i) := by
    simp only [Matrix.neg_mulVec, Matrix.sub_mulVec, Matrix.mulVec_sub, Pi.add_apply, Pi.neg_apply, Pi.sub_apply]
    ring
  have h2 := mulVec_entry_le (M := A - G) (w := w) (i := i) (fun j => hA i j) (fun j => (norm_le_pi_norm w j).trans hw) he
  have h3 := mulVec_entry_le (M := G) (w := w - x) (i := i) (fun j => hG i j) (fun j => (norm_le_pi_norm (w - x) j).trans hx) hM0
  rw [h1]
  refine (abs_add_le _ _).trans (add_le_add ((abs_sub _ _).trans ?_) (hd i))
  rw [abs_neg]
  exact add_le_add h2 h3

theorem mat_unif {p q : ℕ} {M : ℝ → Matrix (Fin p) (Fin q) ℝ} (h : ∀ i j, ContinuousOn (fun t => M t i j) (Icc a b)) :
    (∃ B, 0 ≤ B ∧ ∀ t ∈ Icc a b, ∀ i j, |M t i j| ≤ B) ∧
    ∀ θ > 0, ∃ δ > 0, ∀ s ∈ Icc a b, ∀ t ∈ Icc a b, |s - t| < δ → ∀ i j, |M s i j - M t i j| ≤ θ := by
  have hc : ContinuousOn M (Icc a b) := continuousOn_pi.2 fun i => continuousOn_pi.2 fun j => h i j
  constructor
  · obtain ⟨B, hB⟩ := isCompact_Icc.exists_bound_of_continuousOn hc
    refine ⟨max B 0, le_max_right _ _, fun t ht i j => ?_⟩
    exact (Matrix.norm_entry_le_entrywise_sup_norm (M t)).trans ((hB t ht).trans (le_max_left _ _))
  · intro θ hθ
    have hu := isCompact_Icc.uniformContinuousOn_of_continuous hc
    rw [Metric.uniformContinuousOn_iff] at hu
    obtain ⟨δ, hδ, h1⟩ := hu θ hθ
    refine ⟨δ, hδ, fun s hs t ht hst i j => ?_⟩
    have h2 := h1 s hs t ht (by rwa [Real.dist_eq])
    rw [dist_eq_norm] at h2
    exact (Matrix.norm_entry_le_entrywise_sup_norm (M s - M t)).trans h2.le

theorem vec_unif {p : ℕ} {w : ℝ → Fin p → ℝ} (h : ∀ i, ContinuousOn (fun t => w t i) (Icc a b)) :
    ∀ θ > 0, ∃ δ > 0, ∀ s ∈ Icc a b, ∀ t ∈ Icc a b, |s - t| < δ → ∀ i, |w s i - w t i| ≤ θ := by
  intro θ hθ
  obtain ⟨δ, hδ, h1⟩ := (mat_unif (M := fun t => Matrix.of fun i (_ : Fin 1) => w t i) (a := a) (b := b) fun i _ => h i).2 θ hθ
  exact ⟨δ, hδ, fun s hs t ht hst i => h1 s hs t ht hst i 0⟩

/-- The right hand side of the forward integration without errors, `w` being the state seen by the feedback. -/
def CLQT.fwG (P : CLQT n m ℝ) (A : Matrix (Fin m) (Fin n) ℝ) (d : Fin m → ℝ) (w x : Fin n → ℝ) (t : ℝ) : Fin n → ℝ :=
  P.F t *ᵥ x + P.L t *ᵥ (-A *ᵥ w + d) + P.c t

/-- The forward integration converges, also with perturbed gains and start. -/
theorem CLQT.fw_converges {P : CLQT n m ℝ} (hP : P.ContData a b) (hab : a < b) {G : ℝ → Matrix (Fin m) (Fin n) ℝ} {d : ℝ → Fin m → ℝ}
    (hG : ∀ i j, ContinuousOn (fun t => G t i j) (Icc a b)) (hdc : ∀ i, ContinuousOn (fun t => d t i) (Icc a b)) {x : ℝ → Fin n → ℝ}
    (hxc : ∀ i, ContinuousOn (fun t => x t i) (Icc a b))
    (hxd : ∀ t ∈ Ioo a b, ∀ i, HasDerivAt (fun s => x s i) (P.fwG (G t) (d t) (x t) (x t) t i) t) (u_zoh : Bool) :
    ∀ ε > 0, ∃ δ > 0, ∀ (N : ℕ) (h : ℝ) (x0 : Fin n → ℝ) (κ : ℕ → Matrix (Fin m) (Fin n) ℝ × (Fin m → ℝ)), 0 < h → h < δ → a + N * h = b →
      (∀ i, |x0 i - x a i| ≤ δ) → (∀ k < N, (∀ i j, |(κ k).1 i j - G (a + k * h) i j| ≤ δ) ∧ ∀ i, |(κ k).2 i - d (a + k * h) i| ≤ δ) →
      ∃ ξ : ℕ → Fin n → ℝ, ξ 0 = x0 ∧ P.FwSeq u_zoh N h a κ ξ ∧ (∀ k ≤ N, ∀ i, |ξ k i - x (a + k * h) i| ≤ ε) ∧
        ∀ k < N, ∀ i, |(-(κ k).1 *ᵥ ξ k + (κ k).2) i - (-G (a + k * h) *ᵥ x (a + k * h) + d (a + k * h)) i| ≤ ε := by
  intro ε hε
  have hxC : ContinuousOn x (Icc a b) := continuousOn_pi.2 hxc
  obtain ⟨Y, hY⟩ := isCompact_Icc.exists_bound_of_continuousOn hxC
  have hY0 : 0 ≤ Y := (norm_nonneg _).trans (hY a (left_mem_Icc.2 hab.le))
  obtain ⟨⟨M, hM0, hM⟩, hGu⟩ := mat_unif hG
  obtain ⟨⟨ML, hML0, hML⟩, -⟩ := mat_unif hP.L
  have hgood : GoodRhs (fun x t => P.fwG (G t) (d t) x x t) a b := by
    have hX : GV a b (fun (x : Fin n → ℝ) _ => x) := fun i => RG.vecEntry i
    exact (((GM.time hP.F).mulVec hX).add ((GM.time hP.L).mulVec (((GM.time hG).neg.mulVec hX).add (GV.time hdc)))
      |>.add (GV.time hP.c)).rhs
  obtain ⟨R, hR, hconv⟩ := rk_converges hab.le hgood hxC (fun t ht => hasDerivAt_pi.2 fun i => hxd t ht i) (q := id) (fun _ _ _ => le_rfl)
  set ε' := min 1 (min ε (ε / (2 * (n * M + 1)))) with hε'
  have hnM : 0 ≤ n * M := by positivity
  have hε'pos : 0 < ε' := by positivity
  obtain ⟨η, hη, hconv⟩ := hconv ε' hε'pos
  set D := (m * ML + 1) * (2 * n * R + n * M + 2) with hD
  have hDpos : 0 < D := by positivity
  set θ := η / D with hθ
  have hθpos : 0 < θ := div_pos hη hDpos
  obtain ⟨δ1, hδ1, hc⟩ := hconv θ hθpos
  obtain ⟨δ2, hδ2, hG2⟩ := hGu θ hθpos
  obtain ⟨δ3, hδ3, hd3⟩ := vec_unif hdc θ hθpos
  set δ4 := ε / (2 * (n * (Y + 1) + 1)) with hδ4
  have hδ4pos : 0 < δ4 := by positivity
  refine ⟨min (min δ1 (min δ2 δ3)) (min (min η θ) δ4), by positivity, fun N h x0 κ hh hhδ hN h0 hκ => ?_⟩
  set δ := min (min δ1 (min δ2 δ3)) (min (min η θ) δ4) with hδ
  have e1 : δ ≤ δ1 := (min_le_left _ _).trans (min_le_left _ _)
  have e2 : δ ≤ δ2 := (min_le_left _ _).trans ((min_le_right _ _).trans (min_le_left _ _))
  have e3 : δ ≤ δ3 := (min_le_left _ _).trans ((min_le_right _ _).trans (min_le_right _ _))
  have e4 : δ ≤ η := (min_le_right _ _).trans ((min_le_left _ _).trans (min_le_left _ _))
  have e5 : δ ≤ θ := (min_le_right _ _).trans ((min_le_left _ _).trans (min_le_right _ _))
  have e6 : δ ≤ δ4 := (min_le_right _ _).trans (min_le_right _ _)
  have hδpos : 0 < δ := by positivity
  have hmem : ∀ k ≤ N, a + k * h ∈ Icc a b := by
    intro k hk
    have : (k : ℝ) ≤ N := by exact_mod_cast hk
    exact ⟨by have := mul_nonneg (Nat.cast_nonneg (α := ℝ) k) hh.le; linarith, by nlinarith⟩
  let g : ℕ → (Fin n → ℝ) → (Fin n → ℝ) → ℝ → Fin n → ℝ := fun k w x t => P.fwG (κ k).1 (κ k).2 (if u_zoh then w else x) x t
  let z : ℕ → Fin n → ℝ := fun j => Nat.rec x0 (fun j z => rkMap (g j z) h z (a + j * h)) j
  have hz0 : z 0 = x0 := rfl
  have hzs : ∀ j, z (j + 1) = rkMap (g j (z j)) h (z j) (a + j * h) := fun j => rfl
  have hall := hc N h z (fun k => g k (z k)) hh (hhδ.trans_le e1) hN.le
    (by
      rw [hz0]
      exact (pi_norm_le_iff_of_nonneg hη.le).2 fun i => (h0 i).trans e4)
    (fun k hk x' t hx'R hx'z hzR ht1 ht2 => by
      have htm : t ∈ Icc a b := by
        have h1 := (hmem (k + 1) hk).2
        push_cast at h1
        exact ⟨(hmem k hk.le).1.trans ht1, by linarith⟩
      have htk : |a + k * h - t| < δ := by
        rw [abs_sub_comm, abs_of_nonneg (by linarith)]
        linarith
      refine (pi_norm_le_iff_of_nonneg hη.le).2 fun i => ?_
      have h1 : (g k (z k) x' t - P.fwG (G t) (d t) x' x' t) i =
          (P.L t *ᵥ ((-(κ k).1 *ᵥ (if u_zoh then z k else x') + (κ k).2) - (-G t *ᵥ x' + d t))) i := by
        simp only [g, CLQT.fwG, Matrix.mulVec_sub, Pi.add_apply, Pi.sub_apply]
        ring
      rw [Real.norm_eq_abs, h1]
      have h2 : ∀ j, |((-(κ k).1 *ᵥ (if u_zoh then z k else x') + (κ k).2) - (-G t *ᵥ x' + d t)) j| ≤
          n * (2 * θ * R) + n * (M * θ) + 2 * θ := by
        intro j
        refine ctrl_diff (e := 2 * θ) (M := M) (R := R) (ρ := θ) (by positivity) hM0 (fun i j => ?_) (hM t htm) ?_ ?_ (fun i => ?_) j
        · have h3 := (hκ k hk).1 i j
          have h4 := hG2 _ (hmem k hk.le) t htm (htk.trans_le e2) i j
          have h5 := abs_sub_le ((κ k).1 i j) (G (a + k * h) i j) (G t i j)
          linarith
        · split_ifs
          · exact hzR
          · exact hx'R
        · split_ifs
          · rwa [norm_sub_rev]
          · rw [sub_self, norm_zero]
            exact hθpos.le
        · have h3 := (hκ k hk).2 i
          have h4 := hd3 _ (hmem k hk.le) t htm (htk.trans_le e3) i
          have h5 := abs_sub_le ((κ k).2 i) (d (a + k * h) i) (d t i)
          linarith
      refine (mulVec_entry_le (fun j => hML t htm i j) h2 hML0).trans ?_
      have h3 : (m : ℝ) * (ML * (n * (2 * θ * R) + n * (M * θ) + 2 * θ)) = θ * (m * ML * (2 * n * R + n * M + 2)) := by ring
      have h4 : θ * D = η := div_mul_cancel₀ _ hDpos.ne'
      rw [h3, ← h4, hD]
      gcongr
      linarith)
    (fun k _ => hzs k)
  have hclose : ∀ k ≤ N, ∀ i, |z k i - x (a + k * h) i| ≤ ε' := fun k hk i =>
    (norm_le_pi_norm (z k - x (a + k * h)) i).trans (hall k hk)
  refine ⟨z, hz0, fun k hk => ?_, fun k hk i => (hclose k hk i).trans ((min_le_right _ _).trans (min_le_left _ _)), fun k hk i => ?_⟩
  · unfold CLQT.fwF
    rw [rk4T_rkMap (f := g k (z k)) (fun x s _ => ?_), hzs]
    unfold CLQT.fwOdeF
    cases u_zoh <;> rfl
  · have hzk := hall k hk.le
    have hzR : ‖z k‖ ≤ Y + 1 := by
      have h1 := norm_add_le (x (a + k * h)) (z k - x (a + k * h))
      rw [add_sub_cancel] at h1
      have h2 := hY _ (hmem k hk.le)
      have h3 : ε' ≤ 1 := min_le_left _ _
      linarith
    have h1 := ctrl_diff (e := δ) (M := M) (R := Y + 1) (ρ := ε') hδpos.le hM0 (hκ k hk).1 (hM _ (hmem k hk.le)) hzR hzk (hκ k hk).2 i
    refine h1.trans ?_
    have h2 : ε' ≤ ε / (2 * (n * M + 1)) := (min_le_right _ _).trans (min_le_right _ _)
    rw [le_div_iff₀ (by positivity)] at h2
    have h3 : δ ≤ ε / (2 * (n * (Y + 1) + 1)) := e6
    rw [le_div_iff₀ (by positivity)] at h3
    nlinarith

end Verif
