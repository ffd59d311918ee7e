import Verif.Proof.CLQTElem

/-! The elements of the parallel passes as relations between the ends of trajectories of the Hamiltonian system; prefixes. -/

namespace Verif

open Set Matrix

variable {n m : ℕ} {a b : ℝ}

/-- Trajectories of the Hamiltonian system. -/
structure CLQT.HamOn (P : CLQT n m ℝ) (a b : ℝ) (x l : ℝ → Fin n → ℝ) : Prop where
  contx : ∀ i, ContinuousOn (fun t => x t i) (Icc a b)
  contl : ∀ i, ContinuousOn (fun t => l t i) (Icc a b)
  odex : ∀ t ∈ Ioo a b, VD x (P.F t *ᵥ x t - P.L t *ᵥ (P.ULT t *ᵥ l t) + P.c t) t
  odel : ∀ t ∈ Ioo a b, VD l (-((P.F t)ᵀ *ᵥ l t) - (P.H t)ᵀ *ᵥ (P.X t *ᵥ (P.H t *ᵥ x t)) + (P.H t)ᵀ *ᵥ (P.X t *ᵥ P.r t)) t

theorem contOn_mulC {p q : ℕ} {M : ℝ → Matrix (Fin p) (Fin q) ℝ} {s : Set ℝ} (h : ∀ i j, ContinuousOn (fun t => M t i j) s) (w : Fin q → ℝ) (i : Fin p) :
    ContinuousOn (fun t => (M t *ᵥ w) i) s := contOn_mulVec (w := fun _ => w) h (fun _ => continuousOn_const) i

theorem contOn_T {p q : ℕ} {M : ℝ → Matrix (Fin p) (Fin q) ℝ} {s : Set ℝ} (h : ∀ i j, ContinuousOn (fun t => M t i j) s) (i : Fin q) (j : Fin p) :
    ContinuousOn (fun t => (M t)ᵀ i j) s := h j i

theorem lin_zero {p : ℕ} {K : ℝ → Matrix (Fin p) (Fin p) ℝ} (hK : ∀ i j, ContinuousOn (fun t => K t i j) (Icc a b)) {D : ℝ → Fin p → ℝ}
    (hc : ∀ i, ContinuousOn (fun t => D t i) (Icc a b)) (hd : ∀ t ∈ Ioo a b, VD D (K t *ᵥ D t) t) (h0 : D a = 0 ∨ D b = 0) :
    ∀ t ∈ Icc a b, D t = 0 := by
  have hg : GoodRhs (fun (x : Fin p → ℝ) t => K t *ᵥ x) a b :=
    ((GM.time hK).mulVec (fun i => RG.vecEntry i)).rhs
  have h1 : ContinuousOn D (Icc a b) := continuousOn_pi.2 hc
  have h2 : ∀ t ∈ Ioo a b, HasDerivAt D (K t *ᵥ D t) t := fun t ht => hasDerivAt_pi.2 (hd t ht)
  have h3 : ContinuousOn (fun _ : ℝ => (0 : Fin p → ℝ)) (Icc a b) := continuousOn_const
  have h4 : ∀ t ∈ Ioo a b, HasDerivAt (fun _ : ℝ => (0 : Fin p → ℝ)) (K t *ᵥ (0 : Fin p → ℝ)) t := fun t _ => by
    rw [mulVec_zero]
    exact hasDerivAt_const _ _
  rcases h0 with h0 | h0
  · exact hg.unique h1 h2 h3 h4 h0
  · exact hg.unique_left h1 h2 h3 h4 h0

/-- Right hand side of the Hamiltonian system. -/
noncomputable def CLQT.hamV (P : CLQT n m ℝ) (z : Fin (n + n) → ℝ) (t : ℝ) : Fin (n + n) → ℝ :=
  Fin.addCases
    (P.F t *ᵥ (fun i => z (Fin.castAdd n i)) - P.L t *ᵥ (P.ULT t *ᵥ fun i => z (Fin.natAdd n i)) + P.c t)
    (-((P.F t)ᵀ *ᵥ fun i => z (Fin.natAdd n i)) - (P.H t)ᵀ *ᵥ (P.X t *ᵥ (P.H t *ᵥ fun i => z (Fin.castAdd n i))) +
      (P.H t)ᵀ *ᵥ (P.X t *ᵥ P.r t))

theorem CLQT.ContData.hamV_good {P : CLQT n m ℝ} (h : P.ContData a b) : GV a b P.hamV := by
  have h1 : GV a b (fun (z : Fin (n + n) → ℝ) _ => fun i => z (Fin.castAdd n i)) := fun i => RG.vecEntry _
  have h2 : GV a b (fun (z : Fin (n + n) → ℝ) _ => fun i => z (Fin.natAdd n i)) := fun i => RG.vecEntry _
  have h3 := (((GM.time h.F).mulVec h1).sub ((GM.time h.L).mulVec ((GM.time h.ultCont).mulVec h2))).add (GV.time h.c)
  have h4 := (((GM.time h.F).transpose.mulVec h2).neg.sub
    ((GM.time h.H).transpose.mulVec ((GM.time h.X).mulVec ((GM.time h.H).mulVec h1)))).add
    ((GM.time h.H).transpose.mulVec ((GM.time h.X).mulVec (GV.time h.r)))
  intro i
  refine Fin.addCases (fun i => ?_) (fun i => ?_) i
  · simp only [CLQT.hamV, Fin.addCases_left]
    exact h3 i
  · simp only [CLQT.hamV, Fin.addCases_right]
    exact h4 i

theorem CLQT.hamV_affine (P : CLQT n m ℝ) (t c : ℝ) (z : Fin (n + n) → ℝ) :
    P.hamV (c • z) t - P.hamV 0 t = c • (P.hamV z t - P.hamV 0 t) := by
  have e1 : (fun i => (c • z) (Fin.castAdd n i)) = c • fun i => z (Fin.castAdd n i) := rfl
  have e2 : (fun i => (c • z) (Fin.natAdd n i)) = c • fun i => z (Fin.natAdd n i) := rfl
  have e3 : (fun i : Fin n => (0 : Fin (n + n) → ℝ) (Fin.castAdd n i)) = 0 := rfl
  have e4 : (fun i : Fin n => (0 : Fin (n + n) → ℝ) (Fin.natAdd n i)) = 0 := rfl
  unfold CLQT.hamV
  simp only [e1, e2, e3, e4]
  ext i
  refine Fin.addCases (fun i => ?_) (fun i => ?_) i
  · simp only [Pi.sub_apply, Pi.smul_apply, Fin.addCases_left, mulVec_smul, mulVec_zero, Pi.add_apply, Pi.zero_apply,
      smul_eq_mul]
    ring
  · simp only [Pi.sub_apply, Pi.smul_apply, Fin.addCases_right, mulVec_smul, mulVec_zero, Pi.add_apply, Pi.zero_apply,
      Pi.neg_apply, smul_eq_mul]
    ring

/-- Trajectories with given values at the right end. -/
theorem CLQT.ham_left {P : CLQT n m ℝ} (hP : P.ContData a b) (hab : a ≤ b) (xb lb : Fin n → ℝ) :
    ∃ x l, P.HamOn a b x l ∧ x b = xb ∧ l b = lb := by
  obtain ⟨Z, h1, h2, h3⟩ := hP.hamV_good.rhs.exists_affine_left hab P.hamV_affine (Fin.addCases xb lb)
  have hc : ∀ i, ContinuousOn (fun t => Z t i) (Icc a b) := fun i => continuousOn_pi.1 h2 i
  have hd : ∀ t ∈ Ioo a b, ∀ i, HasDerivAt (fun s => Z s i) (P.hamV (Z t) t i) t := fun t ht i => hasDerivAt_pi.1 (h3 t ht) i
  refine ⟨fun t i => Z t (Fin.castAdd n i), fun t i => Z t (Fin.natAdd n i), ⟨fun i => hc _, fun i => hc _, fun t ht i => ?_, fun t ht i => ?_⟩, ?_, ?_⟩
  · have := hd t ht (Fin.castAdd n i)
    simp only [CLQT.hamV, Fin.addCases_left] at this
    exact this
  · have := hd t ht (Fin.natAdd n i)
    simp only [CLQT.hamV, Fin.addCases_right] at this
    exact this
  · ext i
    simp [h1]
  · ext i
    simp [h1, -Fin.natAdd_eq_addNat]

theorem VD.cmul {p q : ℕ} {v : ℝ → Fin q → ℝ} {v' : Fin q → ℝ} {t : ℝ} (M : Matrix (Fin p) (Fin q) ℝ) (h : VD v v' t) :
    VD (fun s => M *ᵥ v s) (M *ᵥ v') t := by
  have := (MD.const (t := t) M).mulVec h
  refine this.of_eq ?_
  rw [zero_mulVec, zero_add]

/-- The defect of the first relation of an element satisfies a linear equation. -/
theorem CLQT.defect {P : CLQT n m ℝ} {t : ℝ} {x l β : ℝ → Fin n → ℝ} {A Γ : ℝ → Matrix (Fin n) (Fin n) ℝ} {η : Fin n → ℝ}
    {J : Matrix (Fin n) (Fin n) ℝ}
    (hx : VD x (P.F t *ᵥ x t - P.L t *ᵥ (P.ULT t *ᵥ l t) + P.c t) t)
    (hl : VD l (-((P.F t)ᵀ *ᵥ l t) - (P.H t)ᵀ *ᵥ (P.X t *ᵥ (P.H t *ᵥ x t)) + (P.H t)ᵀ *ᵥ (P.X t *ᵥ P.r t)) t)
    (hA : MD A (P.elFw ⟨A t, β t, Γ t, η, J⟩ t).A t) (hβ : VD β (P.elFw ⟨A t, β t, Γ t, η, J⟩ t).b t)
    (hΓ : MD Γ (P.elFw ⟨A t, β t, Γ t, η, J⟩ t).C t) (y : Fin n → ℝ) :
    VD (fun s => x s - (A s *ᵥ y + β s - Γ s *ᵥ l s))
      ((P.F t - Γ t * ((P.H t)ᵀ * P.X t * P.H t)) *ᵥ (x t - (A t *ᵥ y + β t - Γ t *ᵥ l t))) t := by
  refine (hx.sub (((hA.mulVec (VD.const y)).add hβ).sub (hΓ.mulVec hl))).of_eq ?_
  simp only [CLQT.elFw, sub_mulVec, add_mulVec, ← mulVec_mulVec, mulVec_add, mulVec_sub, mulVec_neg, mulVec_zero]
  abel

theorem CLQT.ContData.kCont {P : CLQT n m ℝ} (h : P.ContData a b) {Γ : ℝ → Matrix (Fin n) (Fin n) ℝ}
    (hΓ : ∀ i j, ContinuousOn (fun t => Γ t i j) (Icc a b)) (i j : Fin n) :
    ContinuousOn (fun t => (P.F t - Γ t * ((P.H t)ᵀ * P.X t * P.H t)) i j) (Icc a b) := by
  simp only [Matrix.sub_apply]
  exact (h.F i j).sub (contOn_mul hΓ h.hxhCont i j)

theorem ElemOn.parts {f : Elem n ℝ → ℝ → Elem n ℝ} {e : ℝ → Elem n ℝ} (h : ElemOn f a b e) {t : ℝ} (ht : t ∈ Ioo a b) :
    MD (fun s => (e s).A) (f (e t) t).A t ∧ VD (fun s => (e s).b) (f (e t) t).b t ∧ MD (fun s => (e s).C) (f (e t) t).C t ∧
      VD (fun s => (e s).eta) (f (e t) t).eta t ∧ MD (fun s => (e s).J) (f (e t) t).J t :=
  md_elem (h.ode t ht)

theorem hxh_symm {p : ℕ} {X : Matrix (Fin p) (Fin p) ℝ} (hX : Xᵀ = X) (H : Matrix (Fin p) (Fin n) ℝ) (A C : Matrix (Fin n) (Fin n) ℝ)
    (hC : Cᵀ = C) : (C * Hᵀ * X * H * A)ᵀ = Aᵀ * Hᵀ * X * H * C := by
  simp only [transpose_mul, transpose_transpose, hX, hC, Matrix.mul_assoc]

theorem vconst {φ : ℝ → Fin n → ℝ} (hab : a ≤ b) (hc : ∀ i, ContinuousOn (fun t => φ t i) (Icc a b)) (hd : ∀ t ∈ Ioo a b, VD φ 0 t) : φ a = φ b := by
  ext i
  exact const_of_deriv (hc i) (fun t ht => hd t ht i) (left_mem_Icc.2 hab) (right_mem_Icc.2 hab)

/-- The forward elements relate the ends of trajectories. -/
theorem CLQT.elFw_rel {P : CLQT n m ℝ} (hP : P.ContData a b) (hab : a ≤ b) (hX : ∀ t ∈ Icc a b, IsPSD (P.X t)) {e : ℝ → Elem n ℝ}
    (he : ElemOn P.elFw a b e) (hea : e a = ⟨1, 0, 0, 0, 0⟩) {x l : ℝ → Fin n → ℝ} (hh : P.HamOn a b x l) :
    (e b).Rel (x a) (l a) (x b) (l b) := by
  obtain ⟨cA, cb, cC, ch, cJ⟩ := he.comp
  have hz : ∀ t ∈ Icc a b, x t - ((e t).A *ᵥ x a + (e t).b - (e t).C *ᵥ l t) = 0 := by
    refine lin_zero (hP.kCont cC) (fun i => ?_) (fun t ht => ?_) (.inl ?_)
    · exact (hh.contx i).sub (((contOn_mulC cA _ i).add (cb i)).sub (contOn_mulVec cC hh.contl i))
    · obtain ⟨h1, h2, h3, -, -⟩ := he.parts ht
      exact CLQT.defect (A := fun s => (e s).A) (β := fun s => (e s).b) (Γ := fun s => (e s).C) (η := (e t).eta) (J := (e t).J)
        (hh.odex t ht) (hh.odel t ht) h1 h2 h3 (x a)
    · rw [hea]
      simp
  have hc : (fun t => l a - ((e t).J *ᵥ x a - (e t).eta + (e t).Aᵀ *ᵥ l t)) a = (fun t => l a - ((e t).J *ᵥ x a - (e t).eta + (e t).Aᵀ *ᵥ l t)) b := by
    refine vconst hab (fun i => continuousOn_const.sub (((contOn_mulC cJ _ i).sub (ch i)).add (contOn_mulVec (contOn_T cA) hh.contl i))) fun t ht => ?_
    have ht' := Ioo_subset_Icc_self ht
    obtain ⟨h1, h2, h3, h4, h5⟩ := he.parts ht
    have hv := (VD.const (t := t) (l a)).sub (((h5.mulVec (VD.const (x a))).sub h4).add (h1.transpose.mulVec (hh.odel t ht)))
    have hD := hz t ht'
    have key : (0 : Fin n → ℝ) - ((P.elFw (e t) t).J *ᵥ x a + (e t).J *ᵥ 0 - (P.elFw (e t) t).eta +
        ((P.elFw (e t) t).Aᵀ *ᵥ l t + (e t).Aᵀ *ᵥ (-((P.F t)ᵀ *ᵥ l t) - (P.H t)ᵀ *ᵥ (P.X t *ᵥ (P.H t *ᵥ x t)) +
          (P.H t)ᵀ *ᵥ (P.X t *ᵥ P.r t)))) = 0 := by
      have h6 : (0 : Fin n → ℝ) - ((P.elFw (e t) t).J *ᵥ x a + (e t).J *ᵥ 0 - (P.elFw (e t) t).eta +
        ((P.elFw (e t) t).Aᵀ *ᵥ l t + (e t).Aᵀ *ᵥ (-((P.F t)ᵀ *ᵥ l t) - (P.H t)ᵀ *ᵥ (P.X t *ᵥ (P.H t *ᵥ x t)) +
          (P.H t)ᵀ *ᵥ (P.X t *ᵥ P.r t)))) =
          (e t).Aᵀ *ᵥ ((P.H t)ᵀ *ᵥ (P.X t *ᵥ (P.H t *ᵥ (x t - ((e t).A *ᵥ x a + (e t).b - (e t).C *ᵥ l t))))) := by
        have e1 := hxh_symm (hX t ht').1 (P.H t) (e t).A (e t).C (he.psd t ht').1.1
        simp only [CLQT.elFw, transpose_sub, e1]
        simp only [transpose_mul, sub_mulVec, add_mulVec, ← mulVec_mulVec, mulVec_add, mulVec_sub, mulVec_neg, mulVec_zero]
        abel
      rw [h6, hD]
      simp
    exact hv.of_eq key
  refine ⟨sub_eq_zero.1 (hz b (right_mem_Icc.2 hab)), ?_⟩
  simp only [hea, zero_mulVec, transpose_one, one_mulVec, sub_zero, zero_add, sub_self] at hc
  exact sub_eq_zero.1 hc.symm

/-- The backward elements relate the ends of trajectories. -/
theorem CLQT.elBw_rel {P : CLQT n m ℝ} (hP : P.ContData a b) (hab : a ≤ b) {e : ℝ → Elem n ℝ}
    (he : ElemOn P.elBw a b e) (heb : e b = ⟨1, 0, 0, 0, 0⟩) {x l : ℝ → Fin n → ℝ} (hh : P.HamOn a b x l) :
    (e a).Rel (x a) (l a) (x b) (l b) := by
  obtain ⟨cA, cb, cC, ch, cJ⟩ := he.comp
  have hz : ∀ t ∈ Icc a b, l t - ((e t).J *ᵥ x t - (e t).eta + (e t).Aᵀ *ᵥ l b) = 0 := by
    refine lin_zero (K := fun t => (e t).J * (P.L t * P.ULT t) - (P.F t)ᵀ) (fun i j => ?_) (fun i => ?_) (fun t ht => ?_) (.inr ?_)
    · exact (contOn_mul cJ hP.lultCont i j).sub (hP.F j i)
    · exact (hh.contl i).sub (((contOn_mulVec cJ hh.contx i).sub (ch i)).add (contOn_mulC (contOn_T cA) _ i))
    · have ht' := Ioo_subset_Icc_self ht
      obtain ⟨h1, h2, h3, h4, h5⟩ := he.parts ht
      refine ((hh.odel t ht).sub (((h5.mulVec (hh.odex t ht)).sub h4).add (h1.transpose.mulVec (VD.const (l b))))).of_eq ?_
      have e1 : ((e t).A * (P.L t * P.ULT t) * (e t).J)ᵀ = (e t).J * (P.L t * P.ULT t) * (e t).Aᵀ := by
        rw [transpose_mul, transpose_mul, (hP.lultPSD ht').1, (he.psd t ht').2.1, ← Matrix.mul_assoc]
      simp only [CLQT.elBw, transpose_sub, e1]
      simp only [transpose_mul, sub_mulVec, add_mulVec, neg_mulVec, Matrix.neg_mul, ← mulVec_mulVec, mulVec_add, mulVec_sub, mulVec_neg, mulVec_zero]
      abel
    · rw [heb]
      simp
  have hc : (fun t => x b - ((e t).A *ᵥ x t + (e t).b - (e t).C *ᵥ l b)) a = (fun t => x b - ((e t).A *ᵥ x t + (e t).b - (e t).C *ᵥ l b)) b := by
    refine vconst hab (fun i => continuousOn_const.sub (((contOn_mulVec cA hh.contx i).add (cb i)).sub (contOn_mulC cC _ i))) fun t ht => ?_
    have ht' := Ioo_subset_Icc_self ht
    obtain ⟨h1, h2, h3, h4, h5⟩ := he.parts ht
    have hv := (VD.const (t := t) (x b)).sub (((h1.mulVec (hh.odex t ht)).add h2).sub (h3.mulVec (VD.const (l b))))
    have hD := hz t ht'
    refine hv.of_eq ?_
    have h6 : (0 : Fin n → ℝ) - ((P.elBw (e t) t).A *ᵥ x t + (e t).A *ᵥ (P.F t *ᵥ x t - P.L t *ᵥ (P.ULT t *ᵥ l t) + P.c t) +
        (P.elBw (e t) t).b - ((P.elBw (e t) t).C *ᵥ l b + (e t).C *ᵥ 0)) =
        (e t).A *ᵥ (P.L t *ᵥ (P.ULT t *ᵥ (l t - ((e t).J *ᵥ x t - (e t).eta + (e t).Aᵀ *ᵥ l b)))) := by
      simp only [CLQT.elBw]
      simp only [sub_mulVec, add_mulVec, neg_mulVec, Matrix.neg_mul, ← mulVec_mulVec, mulVec_add, mulVec_sub, mulVec_neg, mulVec_zero]
      abel
    rw [h6, hD]
    simp
  refine ⟨?_, sub_eq_zero.1 (hz a (left_mem_Icc.2 hab))⟩
  simp only [heb, zero_mulVec, one_mulVec, sub_zero, add_zero, sub_self] at hc
  exact sub_eq_zero.1 hc

/-- The exact quantities of the forward-backward pass. -/
structure CLQT.AbcOn (P : CLQT n m ℝ) (a b : ℝ) (β : ℝ → Fin n → ℝ) (Γ : ℝ → Matrix (Fin n) (Fin n) ℝ) : Prop where
  contb : ∀ i, ContinuousOn (fun t => β t i) (Icc a b)
  contC : ∀ i j, ContinuousOn (fun t => Γ t i j) (Icc a b)
  psd : ∀ t ∈ Icc a b, IsPSD (Γ t)
  odeb : ∀ t ∈ Ioo a b, VD β (P.elFw ⟨0, β t, Γ t, 0, 0⟩ t).b t
  odeC : ∀ t ∈ Ioo a b, MD Γ (P.elFw ⟨0, β t, Γ t, 0, 0⟩ t).C t

theorem CLQT.AbcOn.mono {P : CLQT n m ℝ} {β : ℝ → Fin n → ℝ} {Γ : ℝ → Matrix (Fin n) (Fin n) ℝ} (h : P.AbcOn a b β Γ) {a' b' : ℝ}
    (ha : a ≤ a') (hb : b' ≤ b) : P.AbcOn a' b' β Γ :=
  ⟨fun i => (h.contb i).mono (Icc_subset_Icc ha hb), fun i j => (h.contC i j).mono (Icc_subset_Icc ha hb),
    fun t ht => h.psd t (Icc_subset_Icc ha hb ht), fun t ht => h.odeb t (Ioo_subset_Ioo ha hb ht), fun t ht => h.odeC t (Ioo_subset_Ioo ha hb ht)⟩

theorem CLQT.abc_exists {P : CLQT n m ℝ} (hP : P.ContData a b) (hab : a ≤ b) (hX : ∀ t ∈ Icc a b, IsPSD (P.X t)) (x0 : Fin n → ℝ) :
    ∃ β Γ, P.AbcOn a b β Γ ∧ β a = x0 ∧ Γ a = 0 := by
  obtain ⟨e, he, hea⟩ := P.elFw_exists hP hab hX
  obtain ⟨cA, cb, cC, ch, cJ⟩ := he.comp
  refine ⟨fun t => (e t).b + (e t).A *ᵥ x0, fun t => (e t).C, ⟨fun i => (cb i).add (contOn_mulC cA _ i), cC,
    fun t ht => (he.psd t ht).1, fun t ht => ?_, fun t ht => ?_⟩, ?_, ?_⟩
  · obtain ⟨h1, h2, h3, h4, h5⟩ := he.parts ht
    refine (h2.add (h1.mulVec (VD.const x0))).of_eq ?_
    simp only [CLQT.elFw, sub_mulVec, ← mulVec_mulVec, mulVec_add, mulVec_zero]
    abel
  · exact (he.parts ht).2.2.1
  · simp [hea]
  · simp [hea]

/-- Trajectories that satisfy the relation at the right end satisfy it everywhere. -/
theorem CLQT.AbcOn.rel {P : CLQT n m ℝ} (hP : P.ContData a b) {β : ℝ → Fin n → ℝ} {Γ : ℝ → Matrix (Fin n) (Fin n) ℝ} (h : P.AbcOn a b β Γ)
    {x l : ℝ → Fin n → ℝ} (hh : P.HamOn a b x l) (hb : x b = β b - Γ b *ᵥ l b) : ∀ t ∈ Icc a b, x t = β t - Γ t *ᵥ l t := by
  have hz : ∀ t ∈ Icc a b, x t - ((0 : Matrix (Fin n) (Fin n) ℝ) *ᵥ (0 : Fin n → ℝ) + β t - Γ t *ᵥ l t) = 0 := by
    refine lin_zero (hP.kCont h.contC) (fun i => ?_) (fun t ht => ?_) (.inr ?_)
    · simp only [mulVec_zero, zero_add]
      exact (hh.contx i).sub ((h.contb i).sub (contOn_mulVec h.contC hh.contl i))
    · refine CLQT.defect (A := fun _ => 0) (hh.odex t ht) (hh.odel t ht) ?_ (h.odeb t ht) (h.odeC t ht) 0
      refine (MD.const 0).of_eq ?_
      simp [CLQT.elFw]
    · rw [mulVec_zero, zero_add, hb, sub_self]
  intro t ht
  have := hz t ht
  rw [mulVec_zero, zero_add] at this
  exact sub_eq_zero.1 this

/-- An element that relates the ends of all trajectories carries the exact quantities from one end to the other. -/
theorem CLQT.AbcOn.comb {P : CLQT n m ℝ} (hP : P.ContData a b) (hab : a ≤ b) {β : ℝ → Fin n → ℝ} {Γ : ℝ → Matrix (Fin n) (Fin n) ℝ}
    (h : P.AbcOn a b β Γ) {E : Elem n ℝ} (hE : E.PSD) (hrel : ∀ x l, P.HamOn a b x l → E.Rel (x a) (l a) (x b) (l b)) :
    combT ⟨0, β a, Γ a, 0, 0⟩ E = ⟨0, β b, Γ b, 0, 0⟩ := by
  have ha := left_mem_Icc.2 hab
  have hb := right_mem_Icc.2 hab
  have hsp : (⟨0, β a, Γ a, 0, 0⟩ : Elem n ℝ).PSD := ⟨h.psd a ha, ⟨transpose_zero, fun x => by simp⟩⟩
  have hc := combine_T (e1 := ⟨0, β a, Γ a, 0, 0⟩) (e2 := E) (det_one_add_ne_zero (h.psd a ha) hE.2)
  obtain ⟨hs, hr⟩ := combine_rel hc hsp.sym hE.sym
  have hA : (combT ⟨0, β a, Γ a, 0, 0⟩ E).A = 0 := by simp [combT]
  have hη : (combT ⟨0, β a, Γ a, 0, 0⟩ E).eta = 0 := by simp [combT]
  have hJ : (combT ⟨0, β a, Γ a, 0, 0⟩ E).J = 0 := by simp [combT]
  have key : ∀ lb, β b - Γ b *ᵥ lb = (combT ⟨0, β a, Γ a, 0, 0⟩ E).b - (combT ⟨0, β a, Γ a, 0, 0⟩ E).C *ᵥ lb := by
    intro lb
    obtain ⟨x, l, hh, hxb, hlb⟩ := P.ham_left hP hab (β b - Γ b *ᵥ lb) lb
    have h1 := h.rel hP hh (by rw [hxb, hlb]) a ha
    have h2 := (hr 0 0 (x b) (l b)).2 ⟨x a, l a, ⟨by simpa using h1, by simp⟩, hrel x l hh⟩
    have h3 := h2.1
    rw [hA, zero_mulVec, zero_add, hlb, hxb] at h3
    exact h3
  have hbb : (combT ⟨0, β a, Γ a, 0, 0⟩ E).b = β b := by simpa using (key 0).symm
  have hC : (combT ⟨0, β a, Γ a, 0, 0⟩ E).C = Γ b := by
    refine mat_ext_mulVec fun x => ?_
    have := key x
    rw [hbb] at this
    exact (sub_right_inj.1 this).symm
  generalize combT ⟨0, β a, Γ a, 0, 0⟩ E = w at *
  cases w
  simp only at hA hη hJ hbb hC
  subst hA hη hJ hbb hC
  rfl

/-- The exact element of a block for both directions of integration. -/
theorem CLQT.elem_start {P : CLQT n m ℝ} (hP : P.ContData a b) (hab : a < b) (hX : ∀ t ∈ Icc a b, IsPSD (P.X t)) (forward : Bool)
    {β : ℝ → Fin n → ℝ} {Γ : ℝ → Matrix (Fin n) (Fin n) ℝ} (h : P.AbcOn a b β Γ) :
    ∃ E₀ : Elem n ℝ, E₀.PSD ∧ combT ⟨0, β a, Γ a, 0, 0⟩ E₀ = ⟨0, β b, Γ b, 0, 0⟩ ∧
      ∀ ε > 0, ∃ δ > 0, ∀ (N : ℕ) (h t0 : ℝ) (k : ℕ), 0 < h → h < δ → t0 + (k * N : ℕ) * h = a → a + N * h = b →
        ∃ E, P.blockElem forward N h t0 k = .ok E ∧ ENear E E₀ ε := by
  cases forward with
  | false =>
    obtain ⟨e, he, heb⟩ := P.elBw_exists hP hab.le hX
    exact ⟨e a, he.psd a (left_mem_Icc.2 hab.le), h.comb hP hab.le (he.psd a (left_mem_Icc.2 hab.le)) fun x l hh => P.elBw_rel hP hab.le he heb hh,
      P.elBw_converges hP hab he heb⟩
  | true =>
    obtain ⟨e, he, hea⟩ := P.elFw_exists hP hab.le hX
    exact ⟨e b, he.psd b (right_mem_Icc.2 hab.le), h.comb hP hab.le (he.psd b (right_mem_Icc.2 hab.le)) fun x l hh => P.elFw_rel hP hab.le hX he hea hh,
      P.elFw_converges hP hab he hea⟩

end Verif
