import Verif.Proof.CLQTConvSeq
import Verif.Proof.CombCont
import Verif.Proof.CLQTPar

/-! The exact elements of the blocks of the parallel passes: existence, semidefiniteness and combination with value functions; convergence of the computed ones. -/

namespace Verif

open Set Matrix

attribute [local instance] Matrix.normedAddCommGroup Matrix.normedSpace

variable {n m : ℕ} {a b : ℝ}

/-- The right hand sides of the element equations without errors. -/
noncomputable def CLQT.elBw (P : CLQT n m ℝ) (e : Elem n ℝ) (t : ℝ) : Elem n ℝ :=
  ⟨e.A * (P.L t * P.ULT t) * e.J - e.A * P.F t, -(e.A * (P.L t * P.ULT t)) *ᵥ e.eta - e.A *ᵥ P.c t, -e.A * (P.L t * P.ULT t) * e.Aᵀ,
    -((P.H t)ᵀ * P.X t) *ᵥ P.r t + (e.J * (P.L t * P.ULT t)) *ᵥ e.eta - (P.F t)ᵀ *ᵥ e.eta + e.J *ᵥ P.c t,
    -(P.H t)ᵀ * P.X t * P.H t + e.J * (P.L t * P.ULT t) * e.J - e.J * P.F t - (P.F t)ᵀ * e.J⟩

noncomputable def CLQT.elFw (P : CLQT n m ℝ) (e : Elem n ℝ) (t : ℝ) : Elem n ℝ :=
  ⟨P.F t * e.A - e.C * (P.H t)ᵀ * P.X t * P.H t * e.A,
    P.F t *ᵥ e.b + (e.C * (P.H t)ᵀ * P.X t) *ᵥ P.r t - (e.C * (P.H t)ᵀ * P.X t * P.H t) *ᵥ e.b + P.c t,
    P.F t * e.C - e.C * (P.H t)ᵀ * P.X t * P.H t * e.C + e.C * (P.F t)ᵀ + P.L t * P.ULT t,
    (e.Aᵀ * (P.H t)ᵀ * P.X t) *ᵥ P.r t - (e.Aᵀ * (P.H t)ᵀ * P.X t * P.H t) *ᵥ e.b, e.Aᵀ * (P.H t)ᵀ * P.X t * P.H t * e.A⟩

theorem CLQT.ContData.elBw_ok {P : CLQT n m ℝ} {t : ℝ} (h : P.ContData a b) (ht : t ∈ Icc a b) (x : Matrix (Fin n) (Fin (3 * n + 2)) ℝ) :
    P.bwpassBwOdeF x t = .ok (packABCEJ (P.elBw (unpackABCEJ x) t)) := by
  unfold CLQT.bwpassBwOdeF CLQT.elBw
  dsimp only
  rw [h.solve ht]
  rfl

theorem CLQT.ContData.elFw_ok {P : CLQT n m ℝ} {t : ℝ} (h : P.ContData a b) (ht : t ∈ Icc a b) (x : Matrix (Fin n) (Fin (3 * n + 2)) ℝ) :
    P.bwpassFwOdeF x t = .ok (packABCEJ (P.elFw (unpackABCEJ x) t)) := by
  unfold CLQT.bwpassFwOdeF CLQT.elFw
  dsimp only
  rw [h.solve ht]
  rfl

theorem GM.packE {E : Type} [NormedAddCommGroup E] [NormedSpace ℝ E] {e : E → ℝ → Elem n ℝ} (hA : GM a b fun x t => (e x t).A)
    (hb : GV a b fun x t => (e x t).b) (hC : GM a b fun x t => (e x t).C) (hh : GV a b fun x t => (e x t).eta)
    (hJ : GM a b fun x t => (e x t).J) : GM a b (fun x t => packABCEJ (e x t)) := fun i j => by
  unfold packABCEJ
  simp only [Matrix.of_apply]
  split_ifs
  · exact hA i _
  · exact hC i _
  · exact hJ i _
  · exact hb i
  · exact hh i
  · exact RG.const 0

section
abbrev PackE (n : ℕ) := Matrix (Fin n) (Fin (3 * n + 2)) ℝ
theorem GM.uA : GM a b (fun (x : PackE n) _ => (unpackABCEJ x).A) := fun i _ => RG.entry i _
theorem GM.uC : GM a b (fun (x : PackE n) _ => (unpackABCEJ x).C) := fun i _ => RG.entry i _
theorem GM.uJ : GM a b (fun (x : PackE n) _ => (unpackABCEJ x).J) := fun i _ => RG.entry i _
theorem GV.ub : GV a b (fun (x : PackE n) _ => (unpackABCEJ x).b) := fun i => RG.entry i _
theorem GV.ueta : GV a b (fun (x : PackE n) _ => (unpackABCEJ x).eta) := fun i => RG.entry i _
end

theorem CLQT.ContData.elBwGood {P : CLQT n m ℝ} (h : P.ContData a b) : GM a b fun (x : PackE n) t => packABCEJ (P.elBw (unpackABCEJ x) t) := by
  have hF : GM a b (fun (_ : PackE n) t => P.F t) := GM.time h.F
  have hX : GM a b (fun (_ : PackE n) t => P.X t) := GM.time h.X
  have hH : GM a b (fun (_ : PackE n) t => P.H t) := GM.time h.H
  have hG : GM a b (fun (_ : PackE n) t => P.L t * P.ULT t) := (GM.time h.L).mul (GM.time h.ultCont)
  have hc : GV a b (fun (_ : PackE n) t => P.c t) := GV.time h.c
  have hr : GV a b (fun (_ : PackE n) t => P.r t) := GV.time h.r
  exact GM.packE (((GM.uA.mul hG).mul GM.uJ).sub (GM.uA.mul hF)) (((GM.uA.mul hG).neg.mulVec GV.ueta).sub (GM.uA.mulVec hc))
    ((GM.uA.neg.mul hG).mul GM.uA.transpose)
    (((((hH.transpose.mul hX).neg.mulVec hr).add ((GM.uJ.mul hG).mulVec GV.ueta)).sub (hF.transpose.mulVec GV.ueta)).add (GM.uJ.mulVec hc))
    (((((hH.transpose.neg.mul hX).mul hH).add ((GM.uJ.mul hG).mul GM.uJ)).sub (GM.uJ.mul hF)).sub (hF.transpose.mul GM.uJ))

theorem CLQT.ContData.elFwGood {P : CLQT n m ℝ} (h : P.ContData a b) : GM a b fun (x : PackE n) t => packABCEJ (P.elFw (unpackABCEJ x) t) := by
  have hF : GM a b (fun (_ : PackE n) t => P.F t) := GM.time h.F
  have hX : GM a b (fun (_ : PackE n) t => P.X t) := GM.time h.X
  have hH : GM a b (fun (_ : PackE n) t => P.H t) := GM.time h.H
  have hG : GM a b (fun (_ : PackE n) t => P.L t * P.ULT t) := (GM.time h.L).mul (GM.time h.ultCont)
  have hc : GV a b (fun (_ : PackE n) t => P.c t) := GV.time h.c
  have hr : GV a b (fun (_ : PackE n) t => P.r t) := GV.time h.r
  have hCH := GM.uC.mul hH.transpose
  have hCX := (GM.uC.mul hH.transpose).mul hX
  have hCM := ((GM.uC.mul hH.transpose).mul hX).mul hH
  have hAX := (GM.uA.transpose.mul hH.transpose).mul hX
  have hAM := ((GM.uA.transpose.mul hH.transpose).mul hX).mul hH
  exact GM.packE ((hF.mul GM.uA).sub (hCM.mul GM.uA)) ((((hF.mulVec GV.ub).add (hCX.mulVec hr)).sub (hCM.mulVec GV.ub)).add hc)
    ((((hF.mul GM.uC).sub (hCM.mul GM.uC)).add (GM.uC.mul hF.transpose)).add hG) ((hAX.mulVec hr).sub (hAM.mulVec GV.ub)) (hAM.mul GM.uA)

/-- A solution of an element equation over `[a, b]` with semidefinite elements. -/
structure ElemOn (f : Elem n ℝ → ℝ → Elem n ℝ) (a b : ℝ) (e : ℝ → Elem n ℝ) : Prop where
  cont : ∀ i j, ContinuousOn (fun t => packABCEJ (e t) i j) (Icc a b)
  psd : ∀ t ∈ Icc a b, (e t).PSD
  ode : ∀ t ∈ Ioo a b, ∀ i j, HasDerivAt (fun s => packABCEJ (e s) i j) (packABCEJ (f (e t) t) i j) t

theorem pack_cont {e : ℝ → Elem n ℝ} {s : Set ℝ} (hA : ∀ i j, ContinuousOn (fun t => (e t).A i j) s) (hb : ∀ i, ContinuousOn (fun t => (e t).b i) s)
    (hC : ∀ i j, ContinuousOn (fun t => (e t).C i j) s) (hh : ∀ i, ContinuousOn (fun t => (e t).eta i) s)
    (hJ : ∀ i j, ContinuousOn (fun t => (e t).J i j) s) (i : Fin n) (j : Fin (3 * n + 2)) : ContinuousOn (fun t => packABCEJ (e t) i j) s := by
  unfold packABCEJ
  simp only [Matrix.of_apply]
  split_ifs
  · exact hA i _
  · exact hC i _
  · exact hJ i _
  · exact hb i
  · exact hh i
  · exact continuousOn_const

theorem pack_deriv {e : ℝ → Elem n ℝ} {d : Elem n ℝ} {t : ℝ} (hA : MD (fun s => (e s).A) d.A t) (hb : VD (fun s => (e s).b) d.b t)
    (hC : MD (fun s => (e s).C) d.C t) (hh : VD (fun s => (e s).eta) d.eta t) (hJ : MD (fun s => (e s).J) d.J t)
    (i : Fin n) (j : Fin (3 * n + 2)) : HasDerivAt (fun s => packABCEJ (e s) i j) (packABCEJ d i j) t := by
  unfold packABCEJ
  simp only [Matrix.of_apply]
  split_ifs
  · exact hA i _
  · exact hC i _
  · exact hJ i _
  · exact hb i
  · exact hh i
  · exact hasDerivAt_const _ _

/-- A matrix with zero end value and semidefinite negative derivative is semidefinite. -/
theorem psd_of_deriv {C D : ℝ → Matrix (Fin n) (Fin n) ℝ} (hab : a ≤ b) (hc : ∀ i j, ContinuousOn (fun t => C t i j) (Icc a b))
    (hd : ∀ t ∈ Ioo a b, MD C (-D t) t) (hD : ∀ t ∈ Ioo a b, IsPSD (D t)) (h0 : C b = 0) : ∀ t ∈ Icc a b, IsPSD (C t) := by
  have hb : b ∈ Icc a b := right_mem_Icc.2 hab
  intro t ht
  refine ⟨?_, fun w => ?_⟩
  · ext i j
    have hcc : ContinuousOn (fun s => C s j i - C s i j) (Icc a b) := (hc j i).sub (hc i j)
    have := const_of_deriv hcc (fun s hs => by
      have h1 := (hd s hs j i).sub (hd s hs i j)
      have h2 : D s j i = D s i j := congrFun (congrFun (hD s hs).1 i) j
      exact h1.congr_deriv (by simp [h2])) ht hb
    simp only [h0, Matrix.zero_apply, sub_self] at this
    exact sub_eq_zero.1 this
  · have hcc : ContinuousOn (fun s => w ⬝ᵥ (C s *ᵥ w)) (Icc a b) := by
      simp only [dotProduct]
      exact continuousOn_finset_sum _ fun k _ => continuousOn_const.mul (contOn_mulVec (w := fun _ => w) hc (fun _ => continuousOn_const) k)
    have hmono := antitone_of_deriv hcc (fun s hs => (VD.const w).dot ((hd s hs).mulVec (VD.const w))) fun s hs => by
      have := (hD s hs).2 w
      simp only [zero_dotProduct, Matrix.mulVec_zero, Matrix.neg_mulVec, dotProduct_neg, zero_add, add_zero]
      linarith
    have := hmono ht hb ht.2
    simpa [h0] using this

theorem conj_psd {M : Matrix (Fin n) (Fin n) ℝ} (hM : IsPSD M) (A : Matrix (Fin n) (Fin n) ℝ) : IsPSD (A * M * Aᵀ) := by
  have := hxh_psd hM Aᵀ
  rwa [transpose_transpose] at this

theorem ac_sum1 {G : Type*} [AddCommGroup G] (p s f g : G) : p + s - f + g = p + g - f + s := by abel

theorem ac_sum2 {G : Type*} [AddCommGroup G] (x y z w : G) : -x - y + z - w = -w + z - y - x := by abel

/-- The exact element of the backward equation. -/
theorem CLQT.elBw_exists {P : CLQT n m ℝ} (hP : P.ContData a b) (hab : a ≤ b) (hX : ∀ t ∈ Icc a b, IsPSD (P.X t)) :
    ∃ e : ℝ → Elem n ℝ, ElemOn P.elBw a b e ∧ e b = ⟨1, 0, 0, 0, 0⟩ := by
  obtain ⟨J, h, hR, hJb, hhb, hJp⟩ := P.ric_exists hP hab hX (Sb := 0) ⟨transpose_zero, fun x => by simp⟩ 0
  have gA : GoodRhs (fun (A : Matrix (Fin n) (Fin n) ℝ) t => A * (P.L t * P.ULT t) * J t - A * P.F t) a b := by
    have hA : GM a b (fun (A : Matrix (Fin n) (Fin n) ℝ) _ => A) := fun i j => RG.entry i j
    exact (((hA.mul ((GM.time hP.L).mul (GM.time hP.ultCont))).mul (GM.time hR.contS)).sub (hA.mul (GM.time hP.F))).rhs
  obtain ⟨A, hAb, hAc, hAd⟩ := gA.exists_affine_left hab (fun t c x => by
    simp only [Matrix.smul_mul, Matrix.zero_mul, sub_zero, smul_sub]) 1
  have hAc' : ∀ i j, ContinuousOn (fun t => A t i j) (Icc a b) := fun i j => continuousOn_pi.1 (continuousOn_pi.1 hAc i) j
  have gb : GoodRhs (fun (_ : Fin n → ℝ) t => -(A t * (P.L t * P.ULT t)) *ᵥ h t - A t *ᵥ P.c t) a b :=
    ((((GM.time hAc').mul ((GM.time hP.L).mul (GM.time hP.ultCont))).neg.mulVec (GV.time hR.contv)).sub ((GM.time hAc').mulVec (GV.time hP.c))).rhs
  obtain ⟨β, hβb, hβc, hβd⟩ := gb.exists_affine_left hab (fun t c x => by simp) 0
  have gC : GoodRhs (fun (_ : Matrix (Fin n) (Fin n) ℝ) t => -A t * (P.L t * P.ULT t) * (A t)ᵀ) a b :=
    (((GM.time hAc').neg.mul ((GM.time hP.L).mul (GM.time hP.ultCont))).mul (GM.time hAc').transpose).rhs
  obtain ⟨C, hCb, hCc, hCd⟩ := gC.exists_affine_left hab (fun t c x => by simp) 0
  have hCc' : ∀ i j, ContinuousOn (fun t => C t i j) (Icc a b) := fun i j => continuousOn_pi.1 (continuousOn_pi.1 hCc i) j
  refine ⟨fun t => ⟨A t, β t, C t, h t, J t⟩, ⟨pack_cont hAc' (fun i => continuousOn_pi.1 hβc i) hCc' hR.contv hR.contS, fun t ht => ⟨?_, hJp t ht⟩,
    fun t ht => ?_⟩, by simp only [hAb, hβb, hCb, hhb, hJb]⟩
  · refine psd_of_deriv hab hCc' (fun s hs i j => ?_) (fun s hs => conj_psd (hP.lultPSD (Ioo_subset_Icc_self hs)) (A s)) hCb t ht
    have := hasDerivAt_pi.1 (hasDerivAt_pi.1 (hCd s hs) i) j
    rwa [Matrix.neg_mul, Matrix.neg_mul] at this
  · obtain ⟨h1, h2⟩ := md_sv.1 (hR.ode t ht)
    unfold CLQT.elBw
    refine pack_deriv (fun i j => hasDerivAt_pi.1 (hasDerivAt_pi.1 (hAd t ht) i) j) (fun i => hasDerivAt_pi.1 (hβd t ht) i)
      (fun i j => hasDerivAt_pi.1 (hasDerivAt_pi.1 (hCd t ht) i) j) (h2.of_eq ?_) (h1.of_eq ?_)
    · rw [unpack_packSv]
      exact ac_sum1 _ _ _ _
    · rw [unpack_packSv]
      simp only [Matrix.neg_mul]
      exact ac_sum2 _ _ _ _

theorem MD.reflect {M : ℝ → Matrix (Fin n) (Fin n) ℝ} {D : Matrix (Fin n) (Fin n) ℝ} {t : ℝ} (h : MD M D (-t)) : MD (fun s => M (-s)) (-D) t := by
  intro i j
  have h1 := (h i j).scomp t (hasDerivAt_neg t)
  simpa [Function.comp_def] using h1

/-- The exact element of the forward equation. -/
theorem CLQT.elFw_exists {P : CLQT n m ℝ} (hP : P.ContData a b) (hab : a ≤ b) (hX : ∀ t ∈ Icc a b, IsPSD (P.X t)) :
    ∃ e : ℝ → Elem n ℝ, ElemOn P.elFw a b e ∧ e a = ⟨1, 0, 0, 0, 0⟩ := by
  have hm : ∀ {t : ℝ}, t ∈ Icc (-b) (-a) → -t ∈ Icc a b := fun ht => ⟨by linarith [ht.2], by linarith [ht.1]⟩
  have hm' : ∀ {t : ℝ}, t ∈ Icc a b → -t ∈ Icc (-b) (-a) := fun ht => ⟨by linarith [ht.2], by linarith [ht.1]⟩
  have hrf : ∀ {f : ℝ → ℝ}, ContinuousOn f (Icc a b) → ContinuousOn (fun t => f (-t)) (Icc (-b) (-a)) := fun hf =>
    hf.comp (f := fun t => -t) (by fun_prop) fun t ht => hm ht
  have hM := hP.hxhCont
  obtain ⟨S, hSb, hSc, hSp, hSd⟩ := riccati_exists (a := -b) (b := -a) (by linarith) (F := fun t => (P.F (-t))ᵀ)
    (G := fun t => (P.H (-t))ᵀ * P.X (-t) * P.H (-t)) (Q := fun t => P.L (-t) * P.ULT (-t)) (fun i j => hrf (hP.F j i)) (fun i j => hrf (hM i j))
    (fun i j => hrf (hP.lultCont i j)) (fun t ht => hxh_psd (hX _ (hm ht)) _) (fun t ht => hP.lultPSD (hm ht)) (Sb := 0)
    ⟨transpose_zero, fun x => by simp⟩
  have hCc : ∀ i j, ContinuousOn (fun t => S (-t) i j) (Icc a b) := fun i j =>
    (hSc i j).comp (f := fun t => -t) (by fun_prop) fun t ht => hm' ht
  obtain ⟨C, hC⟩ : ∃ C : ℝ → Matrix (Fin n) (Fin n) ℝ, C = fun t => S (-t) := ⟨_, rfl⟩
  have hCc' : ∀ i j, ContinuousOn (fun t => C t i j) (Icc a b) := by rw [hC]; exact hCc
  have hCp : ∀ t ∈ Icc a b, IsPSD (C t) := fun t ht => by rw [hC]; exact hSp _ (hm' ht)
  have hCa : C a = 0 := by rw [hC]; exact hSb
  have hCd : ∀ t ∈ Ioo a b, MD C (P.F t * C t - C t * (P.H t)ᵀ * P.X t * P.H t * C t + C t * (P.F t)ᵀ + P.L t * P.ULT t) t := by
    intro t ht
    have h1 := (hSd (-t) ⟨by linarith [ht.2], by linarith [ht.1]⟩).reflect
    rw [hC]
    refine h1.of_eq ?_
    simp only [neg_neg, transpose_transpose, Matrix.mul_assoc]
    noncomm_ring
  clear hSb hSc hSp hSd hCc hC
  have gA : GoodRhs (fun (A : Matrix (Fin n) (Fin n) ℝ) t => P.F t * A - C t * (P.H t)ᵀ * P.X t * P.H t * A) a b := by
    have hA : GM a b (fun (A : Matrix (Fin n) (Fin n) ℝ) _ => A) := fun i j => RG.entry i j
    exact (((GM.time hP.F).mul hA).sub (((((GM.time hCc').mul (GM.time hP.H).transpose).mul (GM.time hP.X)).mul (GM.time hP.H)).mul hA)).rhs
  obtain ⟨A, hAb, hAc, hAd⟩ := gA.exists_affine hab (fun t c x => by
    simp only [Matrix.mul_smul, Matrix.mul_zero, sub_zero, smul_sub]) 1
  have hAc' : ∀ i j, ContinuousOn (fun t => A t i j) (Icc a b) := fun i j => continuousOn_pi.1 (continuousOn_pi.1 hAc i) j
  have gb : GoodRhs (fun (β : Fin n → ℝ) t => P.F t *ᵥ β + (C t * (P.H t)ᵀ * P.X t) *ᵥ P.r t - (C t * (P.H t)ᵀ * P.X t * P.H t) *ᵥ β + P.c t) a b := by
    have hB : GV a b (fun (v : Fin n → ℝ) _ => v) := fun i => RG.vecEntry i
    have hCX := (((GM.time hCc').mul (GM.time hP.H).transpose).mul (GM.time hP.X) : GM a b (fun (_ : Fin n → ℝ) t => C t * (P.H t)ᵀ * P.X t))
    exact (((((GM.time hP.F).mulVec hB).add (hCX.mulVec (GV.time hP.r))).sub ((hCX.mul (GM.time hP.H)).mulVec hB)).add (GV.time hP.c)).rhs
  obtain ⟨β, hβb, hβc, hβd⟩ := gb.exists_affine hab (fun t c x => by
    simp only [Matrix.mulVec_smul, Matrix.mulVec_zero]
    module) 0
  have hβc' := fun i => continuousOn_pi.1 hβc i
  have gh : GoodRhs (fun (_ : Fin n → ℝ) t => ((A t)ᵀ * (P.H t)ᵀ * P.X t) *ᵥ P.r t - ((A t)ᵀ * (P.H t)ᵀ * P.X t * P.H t) *ᵥ β t) a b := by
    have hAX := (((GM.time hAc').transpose.mul (GM.time hP.H).transpose).mul (GM.time hP.X) : GM a b (fun (_ : Fin n → ℝ) t => (A t)ᵀ * (P.H t)ᵀ * P.X t))
    exact ((hAX.mulVec (GV.time hP.r)).sub ((hAX.mul (GM.time hP.H)).mulVec (GV.time hβc'))).rhs
  obtain ⟨h, hhb, hhc, hhd⟩ := gh.exists_affine hab (fun t c x => by simp) 0
  have gJ : GoodRhs (fun (_ : Matrix (Fin n) (Fin n) ℝ) t => (A t)ᵀ * (P.H t)ᵀ * P.X t * P.H t * A t) a b :=
    (((((GM.time hAc').transpose.mul (GM.time hP.H).transpose).mul (GM.time hP.X)).mul (GM.time hP.H)).mul (GM.time hAc')).rhs
  obtain ⟨J, hJb, hJc, hJd⟩ := gJ.exists_affine hab (fun t c x => by simp) 0
  have hJc' : ∀ i j, ContinuousOn (fun t => J t i j) (Icc a b) := fun i j => continuousOn_pi.1 (continuousOn_pi.1 hJc i) j
  have hJd' : ∀ t ∈ Ioo a b, MD J ((A t)ᵀ * (P.H t)ᵀ * P.X t * P.H t * A t) t := fun t ht i j => hasDerivAt_pi.1 (hasDerivAt_pi.1 (hJd t ht) i) j
  refine ⟨fun t => ⟨A t, β t, C t, h t, J t⟩, ⟨pack_cont hAc' hβc' hCc' (fun i => continuousOn_pi.1 hhc i) hJc', fun t ht => ⟨hCp t ht, ?_⟩,
    fun t ht => ?_⟩, by simp only [hAb, hβb, hCa, hhb, hJb]⟩
  · have hrf' : ∀ i j, ContinuousOn (fun t => J (-t) i j) (Icc (-b) (-a)) := fun i j => hrf (hJc' i j)
    have := psd_of_deriv (C := fun t => J (-t)) (D := fun t => (A (-t))ᵀ * (P.H (-t))ᵀ * P.X (-t) * P.H (-t) * A (-t)) (by linarith) hrf'
      (fun s hs => (hJd' (-s) ⟨by linarith [hs.2], by linarith [hs.1]⟩).reflect) (fun s hs => by
        have h1 := hxh_psd (hX (-s) (hm (Ioo_subset_Icc_self hs))) (P.H (-s) * A (-s))
        simpa only [transpose_mul, Matrix.mul_assoc] using h1) (by simpa using hJb) (-t) (hm' ht)
    simpa using this
  · unfold CLQT.elFw
    exact pack_deriv (fun i j => hasDerivAt_pi.1 (hasDerivAt_pi.1 (hAd t ht) i) j) (fun i => hasDerivAt_pi.1 (hβd t ht) i)
      (hCd t ht) (fun i => hasDerivAt_pi.1 (hhd t ht) i) (hJd' t ht)

theorem combT_value {e : Elem n ℝ} {S : Matrix (Fin n) (Fin n) ℝ} {v : Fin n → ℝ} :
    combT e ⟨0, 0, 0, v, S⟩ = ⟨0, 0, 0, e.Aᵀ *ᵥ ((1 + S * e.C)⁻¹ *ᵥ (v - S *ᵥ e.b)) + e.eta,
      e.Aᵀ * ((1 + S * e.C)⁻¹ * (S * e.A)) + e.J⟩ := by
  unfold combT
  simp

section
variable {f : Elem n ℝ → ℝ → Elem n ℝ} {e : ℝ → Elem n ℝ}

theorem ElemOn.comp (h : ElemOn f a b e) : (∀ i j, ContinuousOn (fun t => (e t).A i j) (Icc a b)) ∧
    (∀ i, ContinuousOn (fun t => (e t).b i) (Icc a b)) ∧ (∀ i j, ContinuousOn (fun t => (e t).C i j) (Icc a b)) ∧
    (∀ i, ContinuousOn (fun t => (e t).eta i) (Icc a b)) ∧ ∀ i j, ContinuousOn (fun t => (e t).J i j) (Icc a b) := by
  have key : (∀ i j, ContinuousOn (fun t => (unpackABCEJ (packABCEJ (e t))).A i j) (Icc a b)) ∧
      (∀ i, ContinuousOn (fun t => (unpackABCEJ (packABCEJ (e t))).b i) (Icc a b)) ∧
      (∀ i j, ContinuousOn (fun t => (unpackABCEJ (packABCEJ (e t))).C i j) (Icc a b)) ∧
      (∀ i, ContinuousOn (fun t => (unpackABCEJ (packABCEJ (e t))).eta i) (Icc a b)) ∧
      ∀ i j, ContinuousOn (fun t => (unpackABCEJ (packABCEJ (e t))).J i j) (Icc a b) :=
    ⟨fun i j => h.cont i _, fun i => h.cont i _, fun i j => h.cont i _, fun i => h.cont i _, fun i j => h.cont i _⟩
  simpa only [unpack_packABCEJ] using key

theorem ElemOn.det (h : ElemOn f a b e) {S : Matrix (Fin n) (Fin n) ℝ} (hS : IsPSD S) {t : ℝ} (ht : t ∈ Icc a b) : (1 + S * (e t).C).det ≠ 0 :=
  det_one_add_ne_zero hS (h.psd t ht).1

/-- The combination with value functions is continuous in time. -/
theorem ElemOn.value_cont (h : ElemOn f a b e) {S : ℝ → Matrix (Fin n) (Fin n) ℝ} {v : ℝ → Fin n → ℝ}
    (hS : ∀ i j, ContinuousOn (fun t => S t i j) (Icc a b)) (hv : ∀ i, ContinuousOn (fun t => v t i) (Icc a b)) (hp : ∀ t ∈ Icc a b, IsPSD (S t)) :
    (∀ i j, ContinuousOn (fun t => ((e t).Aᵀ * ((1 + S t * (e t).C)⁻¹ * (S t * (e t).A)) + (e t).J) i j) (Icc a b)) ∧
    ∀ i, ContinuousOn (fun t => ((e t).Aᵀ *ᵥ ((1 + S t * (e t).C)⁻¹ *ᵥ (v t - S t *ᵥ (e t).b)) + (e t).eta) i) (Icc a b) := by
  obtain ⟨cA, cb, cC, ch, cJ⟩ := h.comp
  have cI := contOn_inv (U := fun t => 1 + S t * (e t).C) (s := Icc a b) (fun i j => continuousOn_const.add (contOn_mul hS cC i j))
    (fun t ht => h.det (hp t ht) ht)
  exact ⟨fun i j => (contOn_mul (M := fun t => (e t).Aᵀ) (fun i j => cA j i) (contOn_mul cI (contOn_mul hS cA)) i j).add (cJ i j),
    fun i => (contOn_mulVec (M := fun t => (e t).Aᵀ) (fun i j => cA j i)
      (contOn_mulVec cI fun i => (hv i).sub (contOn_mulVec hS cb i)) i).add (ch i)⟩
end

/-- The exact backward element leads from the value function at the end of the block to that at the start. -/
theorem CLQT.elBw_value {P : CLQT n m ℝ} (hP : P.ContData a b) (hab : a ≤ b) {e : ℝ → Elem n ℝ} (he : ElemOn P.elBw a b e)
    (heb : e b = ⟨1, 0, 0, 0, 0⟩) {S : ℝ → Matrix (Fin n) (Fin n) ℝ} {v : ℝ → Fin n → ℝ} (hR : P.RicOn a b S v) (hS : ∀ t ∈ Icc a b, IsPSD (S t)) :
    combT (e a) ⟨0, 0, 0, v b, S b⟩ = ⟨0, 0, 0, v a, S a⟩ := by
  have hSb := hS b (right_mem_Icc.2 hab)
  obtain ⟨c1, c2⟩ := he.value_cont (S := fun _ => S b) (v := fun _ => v b) (fun _ _ => continuousOn_const) (fun _ => continuousOn_const)
    (fun _ _ => hSb)
  have hR' : P.RicOn a b (fun t => (e t).Aᵀ * ((1 + S b * (e t).C)⁻¹ * (S b * (e t).A)) + (e t).J)
      (fun t => (e t).Aᵀ *ᵥ ((1 + S b * (e t).C)⁻¹ *ᵥ (v b - S b *ᵥ (e t).b)) + (e t).eta) := by
    refine ⟨c1, c2, fun t ht => ?_, fun t ht => ?_⟩
    · have h1 := combine_psd (combine_T (e1 := e t) (e2 := ⟨0, 0, 0, v b, S b⟩) (det_one_add_ne_zero (he.psd t ht).1 hSb))
        (he.psd t ht) ⟨⟨by simp, by simp⟩, hSb⟩
      rw [combT_value] at h1
      exact h1.2.1
    · have ht' := Ioo_subset_Icc_self ht
      have hdx := hP.elBw_ok ht' (packABCEJ (e t))
      rw [unpack_packABCEJ] at hdx
      obtain ⟨dy, h1, h2⟩ := flow_bw (v := v b) (hP.sym t ht') (he.psd t ht').2.1 hdx (he.ode t ht) (he.det hSb ht')
      rw [hP.riccati ht', Except.ok.injEq] at h1
      subst h1
      exact h2
  have h1 := CLQT.RicOn.unique hP hR' hR (by simp [heb]) (by simp [heb]) a (left_mem_Icc.2 hab)
  rw [combT_value, h1.1, h1.2]

/-- The exact forward element leads from the value function at the end of the block to that at the start. -/
theorem CLQT.elFw_value {P : CLQT n m ℝ} (hP : P.ContData a b) (hab : a ≤ b) (hX : ∀ t ∈ Icc a b, IsPSD (P.X t)) {e : ℝ → Elem n ℝ}
    (he : ElemOn P.elFw a b e) (hea : e a = ⟨1, 0, 0, 0, 0⟩) {S : ℝ → Matrix (Fin n) (Fin n) ℝ} {v : ℝ → Fin n → ℝ} (hR : P.RicOn a b S v)
    (hS : ∀ t ∈ Icc a b, IsPSD (S t)) : combT (e b) ⟨0, 0, 0, v b, S b⟩ = ⟨0, 0, 0, v a, S a⟩ := by
  obtain ⟨c1, c2⟩ := he.value_cont hR.contS hR.contv hS
  have hd : ∀ t ∈ Ioo a b, MD (fun s => (e s).Aᵀ * ((1 + S s * (e s).C)⁻¹ * (S s * (e s).A)) + (e s).J) 0 t ∧
      VD (fun s => (e s).Aᵀ *ᵥ ((1 + S s * (e s).C)⁻¹ *ᵥ (v s - S s *ᵥ (e s).b)) + (e s).eta) 0 t := by
    intro t ht
    have ht' := Ioo_subset_Icc_self ht
    have hdx := hP.elFw_ok ht' (packABCEJ (e t))
    rw [unpack_packABCEJ] at hdx
    exact flow_fw (hX t ht').1 (he.psd t ht').1.1 hdx (he.ode t ht) (hP.riccati ht' _) (hR.ode t ht) (he.det (hS t ht') ht')
  have ha := left_mem_Icc.2 hab
  have hb := right_mem_Icc.2 hab
  have e1 : (e b).Aᵀ * ((1 + S b * (e b).C)⁻¹ * (S b * (e b).A)) + (e b).J = S a := by
    ext i j
    have := const_of_deriv (c1 i j) (fun t ht => (hd t ht).1 i j) hb ha
    rw [this, hea]
    simp
  have e2 : (e b).Aᵀ *ᵥ ((1 + S b * (e b).C)⁻¹ *ᵥ (v b - S b *ᵥ (e b).b)) + (e b).eta = v a := by
    ext i
    have := const_of_deriv (c2 i) (fun t ht => (hd t ht).2 i) hb ha
    rw [this, hea]
    simp
  rw [combT_value, e1, e2]

/-! ### Convergence of the computed elements -/

/-- Symmetrisation of a packed element. -/
noncomputable def symE (x : PackE n) : PackE n :=
  packABCEJ ⟨(unpackABCEJ x).A, (unpackABCEJ x).b, symPart (unpackABCEJ x).C, (unpackABCEJ x).eta, symPart (unpackABCEJ x).J⟩

theorem symPart_near {M S : Matrix (Fin n) (Fin n) ℝ} (hS : Sᵀ = S) {δ : ℝ} (h : ∀ i j, |M i j - S i j| ≤ δ) (i j : Fin n) :
    |symPart M i j - S i j| ≤ δ := by
  have hSij : S j i = S i j := congrFun (congrFun hS i) j
  have h1 := h i j
  have h2 := h j i
  rw [hSij] at h2
  have h3 : symPart M i j - S i j = (1 / 2) * (M i j - S i j) + (1 / 2) * (M j i - S i j) := by
    simp only [symPart, Matrix.smul_apply, Matrix.add_apply, Matrix.transpose_apply, smul_eq_mul]
    ring
  rw [h3]
  refine (abs_add_le _ _).trans ?_
  rw [abs_mul, abs_mul, abs_of_pos (by norm_num : (0 : ℝ) < 1 / 2)]
  linarith

theorem symE_le {z : PackE n} {e : Elem n ℝ} (he : e.PSD) : ‖symE z - packABCEJ e‖ ≤ ‖z - packABCEJ e‖ := by
  have hz : ‖z - packABCEJ e‖ ≤ ‖z - packABCEJ e‖ := le_rfl
  conv at hz => lhs; rw [← pack_unpackABCEJ z]
  rw [← enear_iff (norm_nonneg _)] at hz
  unfold symE
  rw [← enear_iff (norm_nonneg _)]
  exact ⟨hz.A, hz.b, symPart_near he.1.1 hz.C, hz.eta, symPart_near he.2.1 hz.J⟩

theorem foldlM_fwd {α : Type} {g : α → ℕ → Py α} {u : ℕ → α} : ∀ N, (∀ j < N, g (u j) j = .ok (u (j + 1))) → (List.range N).foldlM g (u 0) = .ok (u N)
  | 0, _ => rfl
  | N + 1, h => by
    rw [List.range_succ, List.foldlM_append, foldlM_fwd N fun j hj => h j (by omega)]
    show ([N].foldlM g (u N)) = _
    rw [List.foldlM_cons, h N (by omega)]
    rfl

theorem foldlM_bwd {α : Type} {g : α → ℕ → Py α} : ∀ (N : ℕ) {u : ℕ → α}, (∀ j < N, g (u j) (N - 1 - j) = .ok (u (j + 1))) →
    (List.range N).reverse.foldlM g (u 0) = .ok (u N)
  | 0, _, _ => rfl
  | N + 1, u, h => by
    rw [List.range_succ, List.reverse_append, List.reverse_singleton, List.singleton_append, List.foldlM_cons]
    have h0 := h 0 (by omega)
    rw [Nat.add_sub_cancel, Nat.sub_zero] at h0
    rw [h0]
    exact foldlM_bwd N (u := fun j => u (j + 1)) fun j hj => by
      have := h (j + 1) (by omega)
      rwa [show N + 1 - 1 - (j + 1) = N - 1 - j by omega] at this

theorem elemStep_rk {F : PackE n → ℝ → Py (PackE n)} {f : Elem n ℝ → ℝ → Elem n ℝ} {h t : ℝ}
    (hF : ∀ x s, s = t ∨ s = t + h / 2 ∨ s = t + h → F x s = .ok (packABCEJ (f (unpackABCEJ x) s))) (x : PackE n) :
    CLQT.elemStep F h t (unpackABCEJ x) = .ok (unpackABCEJ (symE (rkMap (fun x t => packABCEJ (f (unpackABCEJ x) t)) h x t))) := by
  unfold CLQT.elemStep symE
  simp only [pack_unpackABCEJ]
  rw [rk4T_rkMap (f := fun x t => packABCEJ (f (unpackABCEJ x) t)) hF, unpack_packABCEJ]
  rfl

/-- The computed backward elements converge. -/
theorem CLQT.elBw_converges {P : CLQT n m ℝ} (hP : P.ContData a b) (hab : a < b) {e : ℝ → Elem n ℝ} (he : ElemOn P.elBw a b e)
    (heb : e b = ⟨1, 0, 0, 0, 0⟩) : ∀ ε > 0, ∃ δ > 0, ∀ (N : ℕ) (h t0 : ℝ) (k : ℕ), 0 < h → h < δ → t0 + (k * N : ℕ) * h = a → a + N * h = b →
      ∃ E, P.blockElem false N h t0 k = .ok E ∧ ENear E (e a) ε := by
  intro ε hε
  have hg := (hP.elBwGood.rhs).reflect b
  rw [sub_self] at hg
  have hm : ∀ {t : ℝ}, t ∈ Icc 0 (b - a) → b - t ∈ Icc a b := fun ht => ⟨by linarith [ht.2], by linarith [ht.1]⟩
  have hcont : ContinuousOn (fun t => packABCEJ (e t)) (Icc a b) := continuousOn_pi.2 fun i => continuousOn_pi.2 fun j => he.cont i j
  obtain ⟨R, -, hconv⟩ := rk_converges (a := 0) (b := b - a) (by linarith) hg (y := fun t => packABCEJ (e (b - t)))
    (hcont.comp (f := fun t => b - t) (by fun_prop) fun t ht => hm ht)
    (fun t ht => by
      have h1 := hasDerivAt_mat (he.ode (b - t) ⟨by linarith [ht.2], by linarith [ht.1]⟩)
      have h2 := h1.scomp t ((hasDerivAt_id t).const_sub b)
      rw [neg_one_smul] at h2
      simp only [unpack_packABCEJ]
      exact h2)
    (q := symE) (fun z t ht => symE_le (he.psd _ (hm ht)))
  obtain ⟨η, hη, hconv⟩ := hconv ε hε
  obtain ⟨δ0, hδ0, hc⟩ := hconv 1 one_pos
  refine ⟨δ0, hδ0, fun N h t0 k hh hhδ ht0 hN => ?_⟩
  let fr : PackE n → ℝ → PackE n := fun x t => -packABCEJ (P.elBw (unpackABCEJ x) (b - t))
  let z : ℕ → PackE n := fun j => Nat.rec (packABCEJ ⟨1, 0, 0, 0, 0⟩) (fun j z => symE (rkMap fr h z (0 + j * h))) j
  have hz0 : z 0 = packABCEJ ⟨1, 0, 0, 0, 0⟩ := rfl
  have hzs : ∀ j, z (j + 1) = symE (rkMap fr h (z j) (0 + j * h)) := fun j => rfl
  have hall := hc N h z (fun _ => fr) hh hhδ (by linarith) (by rw [hz0, sub_zero, heb, sub_self, norm_zero]; exact hη.le)
    (fun k _ x t _ _ _ _ _ => by
      show ‖fr x t - fr x t‖ ≤ η
      rw [sub_self, norm_zero]
      exact hη.le) (fun k _ => hzs k)
  refine ⟨unpackABCEJ (z N), ?_, ?_⟩
  · unfold CLQT.blockElem
    simp only [Bool.false_eq_true, if_false]
    have h0 : (⟨1, 0, 0, 0, 0⟩ : Elem n ℝ) = unpackABCEJ (z 0) := by rw [hz0, unpack_packABCEJ]
    rw [h0]
    refine foldlM_bwd N (u := fun j => unpackABCEJ (z j)) fun j hj => ?_
    obtain ⟨l, rfl⟩ : ∃ l, N = l + 1 + j := ⟨N - 1 - j, by omega⟩
    have e1 : l + 1 + j - 1 - j = l := by omega
    rw [e1]
    have hl0 := mul_nonneg (Nat.cast_nonneg (α := ℝ) l) hh.le
    have hj0 := mul_nonneg (Nat.cast_nonneg (α := ℝ) j) hh.le
    have ht : t0 + (((k : ℝ) * ((l + 1 + j : ℕ) : ℝ) + (l : ℝ)) + 1) * h = b - j * h := by
      push_cast at ht0 hN ⊢
      linarith
    rw [ht, elemStep_rk (f := P.elBw) (fun x s hs => hP.elBw_ok (by
        push_cast at hN
        rcases hs with rfl | rfl | rfl <;> constructor <;> linarith) x), hzs, rkMap_neg _ _ _ _ b]
    have e3 : b - (b - j * h) = 0 + j * h := by ring
    rw [e3]
  · have h3 := hall N le_rfl
    rw [← pack_unpackABCEJ (z N), show b - (0 + N * h) = a by linarith] at h3
    rwa [enear_iff hε.le]

/-- The computed forward elements converge. -/
theorem CLQT.elFw_converges {P : CLQT n m ℝ} (hP : P.ContData a b) (hab : a < b) {e : ℝ → Elem n ℝ} (he : ElemOn P.elFw a b e)
    (hea : e a = ⟨1, 0, 0, 0, 0⟩) : ∀ ε > 0, ∃ δ > 0, ∀ (N : ℕ) (h t0 : ℝ) (k : ℕ), 0 < h → h < δ → t0 + (k * N : ℕ) * h = a → a + N * h = b →
      ∃ E, P.blockElem true N h t0 k = .ok E ∧ ENear E (e b) ε := by
  intro ε hε
  have hcont : ContinuousOn (fun t => packABCEJ (e t)) (Icc a b) := continuousOn_pi.2 fun i => continuousOn_pi.2 fun j => he.cont i j
  obtain ⟨R, -, hconv⟩ := rk_converges hab.le hP.elFwGood.rhs (y := fun t => packABCEJ (e t)) hcont
    (fun t ht => by
      simp only [unpack_packABCEJ]
      exact hasDerivAt_mat (he.ode t ht))
    (q := symE) (fun z t ht => symE_le (he.psd _ ht))
  obtain ⟨η, hη, hconv⟩ := hconv ε hε
  obtain ⟨δ0, hδ0, hc⟩ := hconv 1 one_pos
  refine ⟨δ0, hδ0, fun N h t0 k hh hhδ ht0 hN => ?_⟩
  let fr : PackE n → ℝ → PackE n := fun x t => packABCEJ (P.elFw (unpackABCEJ x) t)
  let z : ℕ → PackE n := fun j => Nat.rec (packABCEJ ⟨1, 0, 0, 0, 0⟩) (fun j z => symE (rkMap fr h z (a + j * h))) j
  have hz0 : z 0 = packABCEJ ⟨1, 0, 0, 0, 0⟩ := rfl
  have hzs : ∀ j, z (j + 1) = symE (rkMap fr h (z j) (a + j * h)) := fun j => rfl
  have hall := hc N h z (fun _ => fr) hh hhδ hN.le (by rw [hz0, hea, sub_self, norm_zero]; exact hη.le)
    (fun k _ x t _ _ _ _ _ => by
      show ‖fr x t - fr x t‖ ≤ η
      rw [sub_self, norm_zero]
      exact hη.le) (fun k _ => hzs k)
  refine ⟨unpackABCEJ (z N), ?_, ?_⟩
  · unfold CLQT.blockElem
    simp only [if_true]
    have h0 : (⟨1, 0, 0, 0, 0⟩ : Elem n ℝ) = unpackABCEJ (z 0) := by rw [hz0, unpack_packABCEJ]
    rw [h0]
    refine foldlM_fwd (u := fun j => unpackABCEJ (z j)) N fun j hj => ?_
    have hj0 := mul_nonneg (Nat.cast_nonneg (α := ℝ) j) hh.le
    have hjN : ((j : ℝ) + 1) * h ≤ N * h := by
      have : (j : ℝ) + 1 ≤ N := by exact_mod_cast hj
      exact mul_le_mul_of_nonneg_right this hh.le
    have ht : t0 + ((k : ℝ) * (N : ℝ) + (j : ℝ)) * h = a + j * h := by
      push_cast at ht0 ⊢
      linarith
    rw [ht, elemStep_rk (f := P.elFw) (fun x s hs => hP.elFw_ok (by
        rcases hs with rfl | rfl | rfl <;> constructor <;> linarith) x), hzs]
  · have h3 := hall N le_rfl
    rw [← pack_unpackABCEJ (z N), hN] at h3
    rwa [enear_iff hε.le]

end Verif
