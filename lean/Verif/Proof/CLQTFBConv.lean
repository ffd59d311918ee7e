import Verif.Proof.CLQTHam
import Verif.Proof.CLQTParConv
import Verif.Proof.CLQTFwdBwd

/-! Convergence of the forward-backward passes. -/

namespace Verif

open Set Matrix Filter Topology

variable {n m : ℕ} {a b : ℝ}

/-! ### The integration of `(A, b, C)` -/

/-- All entries differ by at most `δ`. -/
structure ANear (a a' : CAbc n ℝ) (δ : ℝ) : Prop where
  A : ∀ i j, |a.1 i j - a'.1 i j| ≤ δ
  b : ∀ i, |a.2.1 i - a'.2.1 i| ≤ δ
  C : ∀ i j, |a.2.2 i j - a'.2.2 i j| ≤ δ

theorem ANear.mono {e e' : CAbc n ℝ} {δ ε : ℝ} (h : ANear e e' δ) (hδ : δ ≤ ε) : ANear e e' ε :=
  ⟨fun i j => (h.A i j).trans hδ, fun i => (h.b i).trans hδ, fun i j => (h.C i j).trans hδ⟩

section
attribute [local instance] Matrix.normedAddCommGroup Matrix.normedSpace

abbrev PackA (n : ℕ) := Matrix (Fin n) (Fin (2 * n + 1)) ℝ

/-- Packed triple. -/
def pkA (a : CAbc n ℝ) : PackA n := packABC a.1 a.2.1 a.2.2

theorem unpk (a : CAbc n ℝ) : unpackABC (pkA a) = a := unpack_packABC _ _ _

theorem pkun (x : PackA n) : pkA (unpackABC x) = x := pack_unpackABC x

theorem anear_iff {e e' : CAbc n ℝ} {δ : ℝ} (hδ : 0 ≤ δ) : ANear e e' δ ↔ ‖pkA e - pkA e'‖ ≤ δ := by
  rw [Matrix.norm_le_iff hδ]
  constructor
  · intro h i j
    rw [Real.norm_eq_abs, Matrix.sub_apply]
    unfold pkA packABC
    simp only [Matrix.of_apply]
    split_ifs
    · exact h.A _ _
    · exact h.C _ _
    · exact h.b _
    · simpa using hδ
  · intro h
    have key : ∀ i j, |pkA e i j - pkA e' i j| ≤ δ := fun i j => by
      have := h i j
      rwa [Real.norm_eq_abs, Matrix.sub_apply] at this
    rw [← unpk e, ← unpk e']
    exact ⟨fun i j => key i _, fun i => key i _, fun i j => key i _⟩

/-- Symmetrisation of a packed triple. -/
noncomputable def symA (x : PackA n) : PackA n := pkA ((unpackABC x).1, (unpackABC x).2.1, symPart (unpackABC x).2.2)

theorem symA_le {z : PackA n} {e : CAbc n ℝ} (he : IsPSD e.2.2) : ‖symA z - pkA e‖ ≤ ‖z - pkA e‖ := by
  have hz : ‖z - pkA e‖ ≤ ‖z - pkA e‖ := le_rfl
  conv at hz => lhs; rw [← pkun z]
  rw [← anear_iff (norm_nonneg _)] at hz
  unfold symA
  rw [← anear_iff (norm_nonneg _)]
  exact ⟨hz.A, hz.b, symPart_near he.1 hz.C⟩

/-- The right hand side without errors. -/
noncomputable def CLQT.abcG (P : CLQT n m ℝ) (x : CAbc n ℝ) (t : ℝ) : CAbc n ℝ :=
  ((P.elFw ⟨x.1, x.2.1, x.2.2, 0, 0⟩ t).A, (P.elFw ⟨x.1, x.2.1, x.2.2, 0, 0⟩ t).b, (P.elFw ⟨x.1, x.2.1, x.2.2, 0, 0⟩ t).C)

theorem CLQT.ContData.abcG_ok {P : CLQT n m ℝ} {t : ℝ} (h : P.ContData a b) (ht : t ∈ Icc a b) (x : PackA n) :
    P.fwdbwdOdeF x t = .ok (pkA (P.abcG (unpackABC x) t)) := by
  unfold CLQT.fwdbwdOdeF
  dsimp only
  rw [h.solve ht]
  rfl

theorem GM.packA {E : Type} [NormedAddCommGroup E] [NormedSpace ℝ E] {e : E → ℝ → CAbc n ℝ} (hA : GM a b fun x t => (e x t).1)
    (hb : GV a b fun x t => (e x t).2.1) (hC : GM a b fun x t => (e x t).2.2) : GM a b (fun x t => pkA (e x t)) := fun i j => by
  unfold pkA packABC
  simp only [Matrix.of_apply]
  split_ifs
  · exact hA i _
  · exact hC i _
  · exact hb i
  · exact RG.const 0

theorem CLQT.ContData.abcGood {P : CLQT n m ℝ} (h : P.ContData a b) : GM a b fun (x : PackA n) t => pkA (P.abcG (unpackABC x) t) := by
  have hF : GM a b (fun (_ : PackA n) t => P.F t) := GM.time h.F
  have hX : GM a b (fun (_ : PackA n) t => P.X t) := GM.time h.X
  have hH : GM a b (fun (_ : PackA n) t => P.H t) := GM.time h.H
  have hG : GM a b (fun (_ : PackA n) t => P.L t * P.ULT t) := (GM.time h.L).mul (GM.time h.ultCont)
  have hc : GV a b (fun (_ : PackA n) t => P.c t) := GV.time h.c
  have hr : GV a b (fun (_ : PackA n) t => P.r t) := GV.time h.r
  have uA : GM a b (fun (x : PackA n) _ => (unpackABC x).1) := fun i _ => RG.entry i _
  have uC : GM a b (fun (x : PackA n) _ => (unpackABC x).2.2) := fun i _ => RG.entry i _
  have ub : GV a b (fun (x : PackA n) _ => (unpackABC x).2.1) := fun i => RG.entry i _
  have hCX := (uC.mul hH.transpose).mul hX
  have hCM := ((uC.mul hH.transpose).mul hX).mul hH
  exact GM.packA ((hF.mul uA).sub (hCM.mul uA)) ((((hF.mulVec ub).add (hCX.mulVec hr)).sub (hCM.mulVec ub)).add hc)
    ((((hF.mul uC).sub (hCM.mul uC)).add (uC.mul hF.transpose)).add hG)

theorem abcF_rk {P : CLQT n m ℝ} {h t : ℝ}
    (hF : ∀ x s, s = t ∨ s = t + h / 2 ∨ s = t + h → P.fwdbwdOdeF x s = .ok (pkA (P.abcG (unpackABC x) s))) (x : PackA n) :
    P.abcF h t (unpackABC x) = .ok (unpackABC (symA (rkMap (fun x t => pkA (P.abcG (unpackABC x) t)) h x t))) := by
  unfold CLQT.abcF symA
  rw [show packABC (unpackABC x).1 (unpackABC x).2.1 (unpackABC x).2.2 = x from pack_unpackABC x,
    rk4T_rkMap (f := fun x t => pkA (P.abcG (unpackABC x) t)) hF, unpk]
  rfl

theorem CLQT.AbcOn.packed {P : CLQT n m ℝ} {β : ℝ → Fin n → ℝ} {Γ : ℝ → Matrix (Fin n) (Fin n) ℝ} (h : P.AbcOn a b β Γ) :
    ContinuousOn (fun t => pkA ((0, β t, Γ t) : CAbc n ℝ)) (Icc a b) ∧
    ∀ t ∈ Ioo a b, ∀ i j, HasDerivAt (fun s => pkA ((0, β s, Γ s) : CAbc n ℝ) i j) (pkA (P.abcG (0, β t, Γ t) t) i j) t := by
  refine ⟨continuousOn_pi.2 fun i => continuousOn_pi.2 fun j => ?_, fun t ht i j => ?_⟩
  · unfold pkA packABC
    simp only [Matrix.of_apply]
    split_ifs
    · exact continuousOn_const
    · exact h.contC i _
    · exact h.contb i
    · exact continuousOn_const
  · unfold pkA packABC
    simp only [Matrix.of_apply]
    split_ifs
    · have : (P.abcG (0, β t, Γ t) t).1 = 0 := by simp [CLQT.abcG, CLQT.elFw]
      rw [this]
      exact hasDerivAt_const _ _
    · exact h.odeC t ht i _
    · exact h.odeb t ht i
    · exact hasDerivAt_const _ _

/-- The integration of `(A, b, C)` converges. -/
theorem CLQT.abc_converges {P : CLQT n m ℝ} (hP : P.ContData a b) (hab : a < b) {β : ℝ → Fin n → ℝ} {Γ : ℝ → Matrix (Fin n) (Fin n) ℝ}
    (ho : P.AbcOn a b β Γ) : ∀ ε > 0, ∃ δ > 0, ∀ (N : ℕ) (h : ℝ) (s : CAbc n ℝ), 0 < h → h < δ → a + N * h = b → ANear s (0, β a, Γ a) δ →
      ∃ α, α 0 = s ∧ P.AbcSeq N h a α ∧ ∀ k ≤ N, ANear (α k) (0, β (a + k * h), Γ (a + k * h)) ε := by
  intro ε hε
  obtain ⟨hcont, hode⟩ := ho.packed
  obtain ⟨R, -, hconv⟩ := rk_converges hab.le hP.abcGood.rhs (y := fun t => pkA ((0, β t, Γ t) : CAbc n ℝ)) hcont
    (fun t ht => by
      simp only [unpk]
      exact hasDerivAt_mat (hode t ht))
    (q := symA) (fun z t ht => symA_le (ho.psd _ ht))
  obtain ⟨η, hη, hconv⟩ := hconv ε hε
  obtain ⟨δ0, hδ0, hc⟩ := hconv 1 one_pos
  refine ⟨min δ0 η, lt_min hδ0 hη, fun N h s hh hhδ hN hs => ?_⟩
  let fr : PackA n → ℝ → PackA n := fun x t => pkA (P.abcG (unpackABC x) t)
  let z : ℕ → PackA n := fun j => Nat.rec (pkA s) (fun j z => symA (rkMap fr h z (a + j * h))) j
  have hz0 : z 0 = pkA s := rfl
  have hzs : ∀ j, z (j + 1) = symA (rkMap fr h (z j) (a + j * h)) := fun j => rfl
  have hall := hc N h z (fun _ => fr) hh (hhδ.trans_le (min_le_left _ _)) hN.le (by
      rw [hz0]
      exact (anear_iff hη.le).1 (hs.mono (min_le_right _ _)))
    (fun k _ x t _ _ _ _ _ => by
      show ‖fr x t - fr x t‖ ≤ η
      rw [sub_self, norm_zero]
      exact hη.le) (fun k _ => hzs k)
  refine ⟨fun k => unpackABC (z k), by simp only [hz0, unpk], fun j hj => ?_, fun k hk => ?_⟩
  · have hj0 := mul_nonneg (Nat.cast_nonneg (α := ℝ) j) hh.le
    have hjN : ((j : ℝ) + 1) * h ≤ N * h := by
      have : (j : ℝ) + 1 ≤ N := by exact_mod_cast hj
      exact mul_le_mul_of_nonneg_right this hh.le
    dsimp only
    rw [abcF_rk (fun x s hs => hP.abcG_ok (by rcases hs with rfl | rfl | rfl <;> constructor <;> linarith) x), hzs]
  · have h3 := hall k hk
    rw [← pkun (z k)] at h3
    rwa [anear_iff hε.le]
end

/-! ### The combination of forward and backward quantities -/

/-- A function that is continuous at the points of a compact curve is uniformly continuous there. -/
theorem curve_near {Y Z : Type*} [PseudoMetricSpace Y] [PseudoMetricSpace Z] {c : ℝ → Y} (hc : ContinuousOn c (Icc a b)) {F : Y → Z}
    (hF : ∀ t ∈ Icc a b, ContinuousAt F (c t)) {ε : ℝ} (hε : 0 < ε) : ∃ δ > 0, ∀ t ∈ Icc a b, ∀ y, dist y (c t) < δ → dist (F y) (F (c t)) < ε := by
  have hK := isCompact_Icc.image_of_continuousOn hc
  have h := hK.uniformContinuousAt_of_continuousAt F (by rintro _ ⟨t, ht, rfl⟩; exact hF t ht) (Metric.dist_mem_uniformity hε)
  obtain ⟨δ, hδ, hd⟩ := Metric.mem_uniformity_dist.1 h
  refine ⟨δ, hδ, fun t ht y hy => ?_⟩
  have := hd (a := c t) (b := y) (by rwa [dist_comm]) ⟨t, ht, rfl⟩
  rw [dist_comm]
  exact this

theorem curve_open {Y : Type*} [PseudoMetricSpace Y] {c : ℝ → Y} (hc : ContinuousOn c (Icc a b)) {s : Set Y} (hs : IsOpen s)
    (h : ∀ t ∈ Icc a b, c t ∈ s) : ∃ δ > 0, ∀ t ∈ Icc a b, ∀ y, dist y (c t) < δ → y ∈ s := by
  have hK := isCompact_Icc.image_of_continuousOn hc
  obtain ⟨δ, hδ, hd⟩ := hK.exists_thickening_subset_open hs (by rintro _ ⟨t, ht, rfl⟩; exact h t ht)
  exact ⟨δ, hδ, fun t ht y hy => hd (Metric.mem_thickening_iff.2 ⟨c t, ⟨t, ht, rfl⟩, hy⟩)⟩

abbrev FMat (p q : ℕ) := Fin p → Fin q → ℝ

theorem dist_fmat {p q : ℕ} {A B : FMat p q} {δ : ℝ} (hδ : 0 ≤ δ) (h : ∀ i j, |A i j - B i j| ≤ δ) : dist A B ≤ δ :=
  (dist_pi_le_iff hδ).2 fun i => (dist_pi_le_iff hδ).2 fun j => by rw [Real.dist_eq]; exact h i j

theorem dist_fvec {p : ℕ} {A B : Fin p → ℝ} {δ : ℝ} (hδ : 0 ≤ δ) (h : ∀ i, |A i - B i| ≤ δ) : dist A B ≤ δ :=
  (dist_pi_le_iff hδ).2 fun i => by rw [Real.dist_eq]; exact h i

/-- The state of the combination. -/
noncomputable def fbState (S : Matrix (Fin n) (Fin n) ℝ) (v : Fin n → ℝ) (β : Fin n → ℝ) (C : Matrix (Fin n) (Fin n) ℝ) : Fin n → ℝ :=
  (1 + C * S)⁻¹ *ᵥ (β + C *ᵥ v)

section
variable {S Γ : ℝ → Matrix (Fin n) (Fin n) ℝ} {v β : ℝ → Fin n → ℝ}

theorem fb_at {y : (FMat n n × (Fin n → ℝ)) × ((Fin n → ℝ) × FMat n n)}
    (hd : (1 + Matrix.of y.2.2 * Matrix.of y.1.1).det ≠ 0) :
    ContinuousAt (fun y : (FMat n n × (Fin n → ℝ)) × ((Fin n → ℝ) × FMat n n) => fbState (Matrix.of y.1.1) y.1.2 y.2.1 (Matrix.of y.2.2)) y := by
  have h1 : ∀ i j, ContinuousAt (fun y : (FMat n n × (Fin n → ℝ)) × ((Fin n → ℝ) × FMat n n) => y.1.1 i j) y := fun i j =>
    ((continuous_apply_apply i j).comp (continuous_fst.comp continuous_fst)).continuousAt
  have h2 : ∀ i, ContinuousAt (fun y : (FMat n n × (Fin n → ℝ)) × ((Fin n → ℝ) × FMat n n) => y.1.2 i) y := fun i =>
    ((continuous_apply i).comp (continuous_snd.comp continuous_fst)).continuousAt
  have h3 : ∀ i, ContinuousAt (fun y : (FMat n n × (Fin n → ℝ)) × ((Fin n → ℝ) × FMat n n) => y.2.1 i) y := fun i =>
    ((continuous_apply i).comp (continuous_fst.comp continuous_snd)).continuousAt
  have h4 : ∀ i j, ContinuousAt (fun y : (FMat n n × (Fin n → ℝ)) × ((Fin n → ℝ) × FMat n n) => y.2.2 i j) y := fun i j =>
    ((continuous_apply_apply i j).comp (continuous_snd.comp continuous_snd)).continuousAt
  refine continuousAt_pi.2 fun i => ?_
  unfold fbState
  exact cat_mulVec (cat_inv (U := fun y : (FMat n n × (Fin n → ℝ)) × ((Fin n → ℝ) × FMat n n) =>
    1 + Matrix.of y.2.2 * Matrix.of y.1.1) (fun i j => continuousAt_const.add (cat_mul h4 h1 i j)) hd)
    (fun i => (h3 i).add (cat_mulVec h4 h2 i)) i

theorem fb_open : IsOpen {y : (FMat n n × (Fin n → ℝ)) × ((Fin n → ℝ) × FMat n n) |
    (1 + Matrix.of y.2.2 * Matrix.of y.1.1).det ≠ 0} := by
  have h1 : Continuous (fun y : (FMat n n × (Fin n → ℝ)) × ((Fin n → ℝ) × FMat n n) => Matrix.of y.1.1) :=
    continuous_fst.comp continuous_fst
  have h2 : Continuous (fun y : (FMat n n × (Fin n → ℝ)) × ((Fin n → ℝ) × FMat n n) => Matrix.of y.2.2) :=
    continuous_snd.comp continuous_snd
  exact isOpen_ne_fun ((continuous_const.add (h2.matrix_mul h1)).matrix_det) continuous_const

/-- The combination is defined for quantities near to the exact ones, and near to the exact state. -/
theorem fb_near (hS : ∀ i j, ContinuousOn (fun t => S t i j) (Icc a b)) (hv : ∀ i, ContinuousOn (fun t => v t i) (Icc a b))
    (hβ : ∀ i, ContinuousOn (fun t => β t i) (Icc a b)) (hΓ : ∀ i j, ContinuousOn (fun t => Γ t i j) (Icc a b))
    (hSp : ∀ t ∈ Icc a b, IsPSD (S t)) (hΓp : ∀ t ∈ Icc a b, IsPSD (Γ t)) {ε : ℝ} (hε : 0 < ε) :
    ∃ δ > 0, ∀ t ∈ Icc a b, ∀ S' v' b' (C' : Matrix (Fin n) (Fin n) ℝ), (∀ i j, |S' i j - S t i j| ≤ δ) → (∀ i, |v' i - v t i| ≤ δ) →
      (∀ i, |b' i - β t i| ≤ δ) → (∀ i j, |C' i j - Γ t i j| ≤ δ) →
      (1 + C' * S').det ≠ 0 ∧ ∀ i, |fbState S' v' b' C' i - fbState (S t) (v t) (β t) (Γ t) i| ≤ ε := by
  have hc : ContinuousOn (fun t => ((((fun i j => S t i j) : FMat n n), v t), (β t, ((fun i j => Γ t i j) : FMat n n)))) (Icc a b) :=
    ((continuousOn_pi.2 fun i => continuousOn_pi.2 fun j => hS i j).prodMk (continuousOn_pi.2 hv)).prodMk
      ((continuousOn_pi.2 hβ).prodMk (continuousOn_pi.2 fun i => continuousOn_pi.2 fun j => hΓ i j))
  have hdet : ∀ t ∈ Icc a b, (1 + Γ t * S t).det ≠ 0 := fun t ht => det_one_add_ne_zero (hΓp t ht) (hSp t ht)
  obtain ⟨δ1, hδ1, h1⟩ := curve_open hc fb_open hdet
  obtain ⟨δ2, hδ2, h2⟩ := curve_near hc (F := fun y : (FMat n n × (Fin n → ℝ)) × ((Fin n → ℝ) × FMat n n) => fbState (Matrix.of y.1.1) y.1.2 y.2.1 (Matrix.of y.2.2))
    (fun t ht => fb_at (hdet t ht)) hε
  have hδ : 0 < min δ1 δ2 / 2 := half_pos (lt_min hδ1 hδ2)
  refine ⟨min δ1 δ2 / 2, hδ, fun t ht S' v' b' C' e1 e2 e3 e4 => ?_⟩
  have hd : dist ((((fun i j => S' i j) : FMat n n), v'), (b', ((fun i j => C' i j) : FMat n n))) ((((fun i j => S t i j) : FMat n n), v t), (β t, ((fun i j => Γ t i j) : FMat n n))) < min δ1 δ2 := by
    refine lt_of_le_of_lt (b := min δ1 δ2 / 2) ?_ (half_lt_self (lt_min hδ1 hδ2))
    rw [Prod.dist_eq, Prod.dist_eq, Prod.dist_eq]
    exact max_le (max_le (dist_fmat hδ.le e1) (dist_fvec hδ.le e2)) (max_le (dist_fvec hδ.le e3) (dist_fmat hδ.le e4))
  refine ⟨h1 t ht _ (hd.trans_le (min_le_left _ _)), fun i => ?_⟩
  have := h2 t ht _ (hd.trans_le (min_le_right _ _))
  have h3 := (dist_le_pi_dist _ _ i).trans this.le
  rwa [Real.dist_eq] at h3

/-- The control of a feedback law depends continuously on gain, offset and state. -/
theorem ctl_near {G : ℝ → Matrix (Fin m) (Fin n) ℝ} {d : ℝ → Fin m → ℝ} {x : ℝ → Fin n → ℝ} (hG : ∀ i j, ContinuousOn (fun t => G t i j) (Icc a b))
    (hd : ∀ i, ContinuousOn (fun t => d t i) (Icc a b)) (hx : ∀ i, ContinuousOn (fun t => x t i) (Icc a b)) {ε : ℝ} (hε : 0 < ε) :
    ∃ δ > 0, ∀ t ∈ Icc a b, ∀ (G' : Matrix (Fin m) (Fin n) ℝ) d' x', (∀ i j, |G' i j - G t i j| ≤ δ) → (∀ i, |d' i - d t i| ≤ δ) →
      (∀ i, |x' i - x t i| ≤ δ) → ∀ i, |(-G' *ᵥ x' + d') i - (-(G t) *ᵥ x t + d t) i| ≤ ε := by
  have hc : ContinuousOn (fun t => ((((fun i j => G t i j) : FMat m n), d t), x t)) (Icc a b) :=
    ((continuousOn_pi.2 fun i => continuousOn_pi.2 fun j => hG i j).prodMk (continuousOn_pi.2 hd)).prodMk (continuousOn_pi.2 hx)
  obtain ⟨δ, hδ, h⟩ := curve_near hc (F := fun y : (FMat m n × (Fin m → ℝ)) × (Fin n → ℝ) => -Matrix.of y.1.1 *ᵥ y.2 + y.1.2)
    (fun t _ => by
      have h1 : ∀ i j, ContinuousAt (fun y : (FMat m n × (Fin m → ℝ)) × (Fin n → ℝ) => (-Matrix.of y.1.1) i j)
          ((((fun i j => G t i j) : FMat m n), d t), x t) := fun i j =>
        (((continuous_apply_apply i j).comp (continuous_fst.comp continuous_fst)).neg).continuousAt
      have h2 : ∀ i, ContinuousAt (fun y : (FMat m n × (Fin m → ℝ)) × (Fin n → ℝ) => y.1.2 i) ((((fun i j => G t i j) : FMat m n), d t), x t) := fun i =>
        ((continuous_apply i).comp (continuous_snd.comp continuous_fst)).continuousAt
      have h3 : ∀ i, ContinuousAt (fun y : (FMat m n × (Fin m → ℝ)) × (Fin n → ℝ) => y.2 i) ((((fun i j => G t i j) : FMat m n), d t), x t) := fun i =>
        ((continuous_apply i).comp continuous_snd).continuousAt
      exact continuousAt_pi.2 fun i => (cat_mulVec h1 h3 i).add (h2 i)) hε
  refine ⟨δ / 2, half_pos hδ, fun t ht G' d' x' e1 e2 e3 i => ?_⟩
  have hd : dist ((((fun i j => G' i j) : FMat m n), d'), x') ((((fun i j => G t i j) : FMat m n), d t), x t) < δ := by
    refine lt_of_le_of_lt (b := δ / 2) ?_ (half_lt_self hδ)
    rw [Prod.dist_eq, Prod.dist_eq]
    exact max_le (max_le (dist_fmat (half_pos hδ).le e1) (dist_fvec (half_pos hδ).le e2)) (dist_fvec (half_pos hδ).le e3)
  have h3 := (dist_le_pi_dist _ _ i).trans (h t ht _ hd).le
  rwa [Real.dist_eq] at h3

theorem fbState_cont (hS : ∀ i j, ContinuousOn (fun t => S t i j) (Icc a b)) (hv : ∀ i, ContinuousOn (fun t => v t i) (Icc a b))
    (hβ : ∀ i, ContinuousOn (fun t => β t i) (Icc a b)) (hΓ : ∀ i j, ContinuousOn (fun t => Γ t i j) (Icc a b))
    (hSp : ∀ t ∈ Icc a b, IsPSD (S t)) (hΓp : ∀ t ∈ Icc a b, IsPSD (Γ t)) (i : Fin n) :
    ContinuousOn (fun t => fbState (S t) (v t) (β t) (Γ t) i) (Icc a b) := by
  have cI := contOn_inv (U := fun t => 1 + Γ t * S t) (s := Icc a b) (fun i j => continuousOn_const.add (contOn_mul hΓ hS i j))
    (fun t ht => det_one_add_ne_zero (hΓp t ht) (hSp t ht))
  exact contOn_mulVec cI (fun i => (hβ i).add (contOn_mulVec hΓ hv i)) i
end

/-- The combination completes if all systems are regular. -/
theorem combineFB_total {N : ℕ} {σ : ℕ → CVal n ℝ} {κ : ℕ → Matrix (Fin m) (Fin n) ℝ × (Fin m → ℝ)} {α : ℕ → CAbc n ℝ}
    (hd : ∀ k ≤ N, (1 + (α k).2.2 * (σ k).1).det ≠ 0) :
    CLQT.combineForwardBackward (bwLists N σ κ) (abcLists (N + 1) α) =
      .ok ((List.range N).map fun k => -(κ k).1 *ᵥ fbState (σ k).1 (σ k).2 (α k).2.1 (α k).2.2 + (κ k).2,
        (List.range (N + 1)).map fun k => fbState (σ k).1 (σ k).2 (α k).2.1 (α k).2.2) := by
  unfold CLQT.combineForwardBackward
  have : Inhabited (Option (Fin m → ℝ) × (Fin n → ℝ)) := ⟨(none, 0)⟩
  simp only [bind_ok, pure, Except.pure, Except.ok.injEq]
  refine ⟨(List.range (N + 1)).map fun k => (if k < N then some (-(κ k).1 *ᵥ fbState (σ k).1 (σ k).2 (α k).2.1 (α k).2.2 + (κ k).2) else none,
    fbState (σ k).1 (σ k).2 (α k).2.1 (α k).2.2), ?_, ?_⟩
  · have hl : (bwLists N σ κ).S_list.length = N + 1 := by simp [bwLists]
    have hl' : (bwLists N σ κ).Kx_list.length = N := by simp [bwLists]
    rw [hl, hl']
    refine mapM_seq.2 ⟨_, rfl, fun k hk => ?_⟩
    have hd' := hd k (by omega)
    simp only [bind_ok]
    refine ⟨(σ k).1, pyGet_seq _ hk, (σ k).2, pyGet_seq _ hk, (α k).1, pyGet_seq _ hk, (α k).2.1, pyGet_seq _ hk, (α k).2.2, pyGet_seq _ hk,
      fbState (σ k).1 (σ k).2 (α k).2.1 (α k).2.2, solveV_ok.2 ⟨hd', ?_⟩, ?_⟩
    · unfold fbState
      rw [mulVec_mulVec, Matrix.mul_nonsing_inv _ (isUnit_iff_ne_zero.2 hd'), one_mulVec]
    · by_cases hkN : k < N
      · simp only [hkN, if_true, bind_ok, Except.ok.injEq]
        exact ⟨_, ⟨_, pyGet_seq _ hkN, _, pyGet_seq _ hkN, rfl⟩, rfl⟩
      · simp only [hkN, if_false]
        exact ⟨_, rfl, rfl⟩
  · refine Prod.ext ?_ ?_
    · dsimp only
      rw [List.map_map, seq_add, List.reduceOption_append]
      have e1 : (List.range N).map (Prod.fst ∘ fun k => ((if k < N then some (-(κ k).1 *ᵥ fbState (σ k).1 (σ k).2 (α k).2.1 (α k).2.2 + (κ k).2) else none,
          fbState (σ k).1 (σ k).2 (α k).2.1 (α k).2.2) : Option (Fin m → ℝ) × (Fin n → ℝ))) =
          (List.range N).map fun k => some (-(κ k).1 *ᵥ fbState (σ k).1 (σ k).2 (α k).2.1 (α k).2.2 + (κ k).2) :=
        seq_congr fun k hk => by simp [hk]
      rw [e1, reduceOption_some]
      simp [List.reduceOption]
    · dsimp only
      rw [List.map_map]
      rfl

end Verif
