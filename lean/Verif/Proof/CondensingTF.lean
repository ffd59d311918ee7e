import Verif.Spec.CondensingTF
import Verif.Proof.CondensingTop
import Verif.Proof.LQTTF

/-! Partial condensing in TensorFlow: relation to the numpy version. -/

namespace Verif

open Matrix

variable {n m p N : ℕ} {K : Type} [Field K]

/-- The step with `Z = I`, `s = 0`, `M = 0`. -/
def TStage.toB (s : TStage n m p K) : BStage p n m K := ⟨s.F, s.L, s.X, s.U, s.c, s.H, s.r, 1, 0, 0⟩

theorem tfFstar_eq (F : Fin N → Matrix (Fin n) (Fin n) K) : ∀ {k : ℕ}, k < N → tfFstar F k = condLam F (k + 1)
  | 0, h => by simp [tfFstar, condLam, h]
  | k + 1, h => by
    rw [tfFstar, dif_pos h, tfFstar_eq F (by omega), condLam.eq_def F (k + 1 + 1)]
    simp only [dif_pos h]

theorem tfLambda_eq (F : Fin N → Matrix (Fin n) (Fin n) K) {i : ℕ} (h : i ≤ N) : tfLambda F i = condLam F i := by
  cases i with
  | zero => rfl
  | succ i => exact tfFstar_eq F h

theorem tfLrow_eq (b : Fin N → TStage n m p K) : ∀ {k : ℕ}, k < N →
    (tfLrow b k).length = k + 1 ∧ ∀ j : Fin N, j.1 ≤ k →
      (tfLrow b k)[j.1]? = some (condPow (fun i => (b i).F) (k + 1) j * (b j).L)
  | 0, h => by
    rw [tfLrow, dif_pos h]
    refine ⟨rfl, fun j hj => ?_⟩
    obtain ⟨j, hj'⟩ := j
    obtain rfl : j = 0 := by simpa using hj
    simp [condPow, h]
  | k + 1, h => by
    obtain ⟨h1, h2⟩ := tfLrow_eq b (k := k) (by omega)
    rw [tfLrow, dif_pos h]
    refine ⟨by simp [h1], fun j hj => ?_⟩
    rcases Nat.lt_or_ge j.1 (k + 1) with hj' | hj'
    · rw [List.getElem?_append_left (by simp [h1]; omega), List.getElem?_map, h2 j (by omega)]
      rw [condPow.eq_def _ (k + 1 + 1)]
      simp only [dif_pos h, if_neg (show ¬ j.1 = k + 1 by omega), if_pos hj', Option.map_some, Matrix.mul_assoc]
    · have e : j.1 = k + 1 := by omega
      have ej : j = ⟨k + 1, h⟩ := Fin.ext e
      rw [List.getElem?_append_right (by simp [h1]; omega), condPow, dif_pos h, if_pos e]
      simp [h1, ej]

theorem tfPadRow_eq (b : Fin N → TStage n m p K) {k : ℕ} (h : k < N) :
    tfPadRow N (tfLrow b k) = condL (fun i => (b i).toB) (k + 1) := by
  obtain ⟨h1, h2⟩ := tfLrow_eq b h
  funext a ub
  simp only [tfPadRow, condL, of_apply]
  rcases Nat.lt_or_ge (finProdFinEquiv.symm ub).1.1 (k + 1) with hj | hj
  · rw [h2 _ (by omega), if_pos hj]
    rfl
  · rw [List.getElem?_eq_none (by omega), if_neg (by omega)]

theorem tfLbar_eq (b : Fin N → TStage n m p K) {i : ℕ} (h : i ≤ N) : tfLbar b i = condL (fun i => (b i).toB) i := by
  cases i with
  | zero => funext a ub; simp [tfLbar, condL]
  | succ i => exact tfPadRow_eq b h

theorem tfCrow_eq (b : Fin N → TStage n m p K) : ∀ {k : ℕ}, k < N → tfCrow b k = condC (fun i => (b i).toB) (k + 1)
  | 0, h => by
    rw [condC, pow_sum_succ _ _ h, tfCrow, dif_pos h]
    simp [TStage.toB]
  | k + 1, h => by
    rw [condC, pow_sum_succ _ _ h, tfCrow, dif_pos h, tfCrow_eq b (by omega)]
    rfl

theorem tfCbar_eq (b : Fin N → TStage n m p K) {i : ℕ} (h : i ≤ N) : tfCbar b i = condC (fun i => (b i).toB) i := by
  cases i with
  | zero => simp [tfCbar, condC]
  | succ i => exact tfCrow_eq b h

theorem det_submatrix_ne [DecidableEq K] {A : Matrix (Fin n ⊕ Fin m) (Fin n ⊕ Fin m) K} :
    (A.submatrix finSumFinEquiv.symm finSumFinEquiv.symm).det ≠ 0 ↔ A.det ≠ 0 := by
  rw [det_submatrix_equiv_self]

theorem tfCondBlock_ok [DecidableEq K] (hN : 0 < N) {b : Fin N → TStage n m p K} {cb : TCBlock N n m K} :
    tfCondBlock b = .ok cb ↔ (condQ fun i => (b i).toB).det ≠ 0 ∧ ∃ rs,
      condQ (fun i => (b i).toB) *ᵥ rs =
        ((condTrans fun i => (b i).toB)ᵀ * condXU fun i => (b i).toB) *ᵥ condW (fun i => (b i).toB) ∧
      cb.np = ⟨condStage (fun i => (b i).toB) rs, condLambda fun i => (b i).toB, condCbar fun i => (b i).toB,
        condLbar fun i => (b i).toB⟩ := by
  have eL : (of fun (ia : Fin N × Fin n) c => tfLambda (fun i => (b i).F) ia.1 ia.2 c : Matrix (Fin N × Fin n) (Fin n) K) =
      condLambda fun i => (b i).toB := by
    funext ia c
    simp only [of_apply, condLambda]
    rw [tfLambda_eq _ ia.1.2.le]
    rfl
  have eB : (of fun (ia : Fin N × Fin n) c => tfLbar b ia.1 ia.2 c : Matrix (Fin N × Fin n) (Fin (N * m)) K) =
      condLbar fun i => (b i).toB := by
    funext ia c
    simp only [of_apply, condLbar]
    rw [tfLbar_eq _ ia.1.2.le]
  have eC : (fun (ia : Fin N × Fin n) => tfCbar b ia.1 ia.2) = condCbar fun i => (b i).toB := by
    funext ia
    simp only [condCbar]
    rw [tfCbar_eq _ ia.1.2.le]
  have hN1 : N - 1 + 1 = N := by omega
  have e1 : tfFstar (fun i => (b i).F) (N - 1) = condLam (fun i => ((b i).toB).F) N := by
    rw [tfFstar_eq _ (by omega), hN1]; rfl
  have e2 : tfPadRow N (tfLrow b (N - 1)) = condL (fun i => (b i).toB) N := by rw [tfPadRow_eq _ (by omega), hN1]
  have e3 : tfCrow b (N - 1) = condC (fun i => (b i).toB) N := by rw [tfCrow_eq _ (by omega), hN1]
  have e : tfCondBlock b = (do
      let rsstar ← solveV ((condQ fun i => (b i).toB).submatrix finSumFinEquiv.symm finSumFinEquiv.symm)
        (((condTrans fun i => (b i).toB)ᵀ *ᵥ ((condXU fun i => (b i).toB) *ᵥ condW (fun i => (b i).toB))) ∘
          finSumFinEquiv.symm)
      return ⟨⟨⟨condLam (fun i => ((b i).toB).F) N, condC (fun i => (b i).toB) N, condL (fun i => (b i).toB) N, 1,
        rsstar ∘ finSumFinEquiv ∘ Sum.inl, (condQ fun i => (b i).toB).toBlocks₁₁, (condQ fun i => (b i).toB).toBlocks₂₂⟩,
        (condQ fun i => (b i).toB).toBlocks₁₂, rsstar ∘ finSumFinEquiv ∘ Sum.inr⟩, condLambda fun i => (b i).toB,
        condCbar fun i => (b i).toB, condLbar fun i => (b i).toB⟩) := by
    unfold tfCondBlock
    dsimp only
    rw [eL, eB, eC, e1, e2, e3]
    rfl
  rw [e, bind_ok]
  have h2 : ∀ v : Fin n ⊕ Fin (N * m) → K, (v ∘ ⇑finSumFinEquiv.symm) ∘ ⇑finSumFinEquiv = v := by
    intro v; funext i; simp
  constructor
  · rintro ⟨r, hr, h⟩
    obtain ⟨h1, hr⟩ := solveV_ok.1 hr
    refine ⟨det_submatrix_ne.1 h1, r ∘ finSumFinEquiv, ?_, ?_⟩
    · rw [submatrix_mulVec_equiv] at hr
      have := congrArg (· ∘ ⇑finSumFinEquiv) hr
      simp only [h2] at this
      rw [← mulVec_mulVec]
      exact this
    · simp only [pure, Except.pure, Except.ok.injEq] at h
      rw [← h]
      rfl
  · rintro ⟨h1, rs, hr, hc⟩
    refine ⟨rs ∘ finSumFinEquiv.symm, solveV_ok.2 ⟨det_submatrix_ne.2 h1, ?_⟩, ?_⟩
    · rw [submatrix_mulVec_equiv, Equiv.symm_symm, h2, hr, mulVec_mulVec]
    · obtain ⟨⟨⟨F, c, L, H, r, X, U⟩, M, s⟩, Lam, cb, Lb⟩ := cb
      simp only [TCBlock.np, GStage.toL, condStage, CBlock.mk.injEq, LStage.mk.injEq, heq_eq_eq, true_and] at hc
      obtain ⟨⟨rfl, rfl, rfl, rfl, rfl, rfl, rfl, rfl, rfl⟩, rfl, rfl, rfl⟩ := hc
      simp only [pure, Except.pure, Except.ok.injEq, TCBlock.mk.injEq, GStage.mk.injEq, TStage.mk.injEq, true_and, and_true]
      refine ⟨?_, ?_⟩ <;> · funext i; simp

theorem np_inj {c c' : TCBlock N n m K} (h : c.np = c'.np) : c = c' := by
  obtain ⟨⟨⟨F, c, L, H, r, X, U⟩, M, s⟩, Lam, cb, Lb⟩ := c
  obtain ⟨⟨⟨F', c', L', H', r', X', U'⟩, M', s'⟩, Lam', cb', Lb'⟩ := c'
  simp only [TCBlock.np, GStage.toL, CBlock.mk.injEq, LStage.mk.injEq, heq_eq_eq, true_and] at h
  obtain ⟨⟨rfl, rfl, rfl, rfl, rfl, rfl, rfl, rfl, rfl⟩, rfl, rfl, rfl⟩ := h
  rfl

theorem tfCondBlock_total [DecidableEq K] (hN : 0 < N) (b : Fin N → TStage n m p K) :
    ((condQ fun i => (b i).toB).det ≠ 0 ∧ ∃ cb, tfCondBlock b = .ok cb) ∨
    ((condQ fun i => (b i).toB).det = 0 ∧ tfCondBlock b = .error .linAlgError) := by
  have e : (∃ cb, tfCondBlock b = .ok cb) ∨ tfCondBlock b = .error .linAlgError := by
    have e : ∀ (A : Matrix (Fin (n + N * m)) (Fin (n + N * m)) K) c (f : _ → TCBlock N n m K),
        (∃ cb, (do let r ← solveV A c; return f r : Py (TCBlock N n m K)) = .ok cb) ∨
        (do let r ← solveV A c; return f r : Py (TCBlock N n m K)) = .error .linAlgError := by
      intro A c f
      unfold solveV luFactor
      split
      · exact Or.inr rfl
      · exact Or.inl ⟨_, rfl⟩
    exact e _ _ _
  by_cases hd : (condQ fun i => (b i).toB).det = 0
  · refine Or.inr ⟨hd, e.resolve_left ?_⟩
    rintro ⟨cb, h⟩
    exact ((tfCondBlock_ok hN).1 h).1 hd
  · refine Or.inl ⟨hd, _, (tfCondBlock_ok hN (cb := ⟨⟨⟨condLam (fun i => ((b i).toB).F) N, condC (fun i => (b i).toB) N,
      condL (fun i => (b i).toB) N, 1, fun a => _, (condQ fun i => (b i).toB).toBlocks₁₁, (condQ fun i => (b i).toB).toBlocks₂₂⟩,
        (condQ fun i => (b i).toB).toBlocks₁₂, fun a => _⟩, condLambda fun i => (b i).toB,
        condCbar fun i => (b i).toB, condLbar fun i => (b i).toB⟩)).2 ⟨hd, minv (condQ fun i => (b i).toB) *ᵥ
          (((condTrans fun i => (b i).toB)ᵀ * condXU fun i => (b i).toB) *ᵥ condW (fun i => (b i).toB)), ?_, rfl⟩⟩
    rw [mulVec_mulVec, mul_minv hd, one_mulVec]

theorem toL_bStage (s : TStage n m p K) : s.toL.bStage p = .ok s.toB := by
  unfold LStage.bStage bIdx
  have : s.toL.p = p := rfl
  rw [dif_pos this]
  rfl

theorem tfPad_map (N : ℕ) (ss : List (TStage n m p K)) : (tfPad N ss).map TStage.toL = condPad p N (ss.map TStage.toL) := by
  have e : (tfPadStage : TStage n m p K).toL = padStage p := rfl
  unfold tfPad condPad
  rw [List.length_map]
  split <;> simp [e]

/-- Both versions work on the same blocks. -/
theorem tfCondense_iff [LinearOrder K] {ss : List (TStage n m p K)} (hT : ss ≠ []) (hN : 0 < N) :
    ∃ (t k : ℕ) (B : ℕ → Fin N → TStage n m p K), t = (ss.length + N - 1) / N ∧
      (List.range t).flatMap (fun k => blkStages fun i => (B k i).toB) = ss.map TStage.toL ++ List.replicate k (padStage p) ∧
      (∀ k < t, ∀ i, B k i ∈ ss ∨ B k i = tfPadStage) ∧
      ss.length + k = N * t ∧ tfCondense N ss = (List.range t).mapM (fun k => tfCondBlock (B k)) ∧
      ∀ (q : ℕ) (XT : Matrix (Fin q) (Fin q) K) (HT : Matrix (Fin q) (Fin n) K) (rT : Fin q → K),
        (⟨ss.map TStage.toL, q, XT, HT, rT⟩ : LQT n m K).condense N = (do
          let bs ← (List.range t).mapM fun k => condBlock fun i => (B k i).toB
          return (⟨bs.map CBlock.stage, q, XT, HT, rT⟩, bs)) := by
  obtain ⟨k, hk, hl⟩ := condPad_eq p hN (ss.map TStage.toL)
  rw [List.length_map] at hl
  have hl' : (tfPad N ss).length = N * ((ss.length + N - 1) / N) := by rw [← hl, ← tfPad_map, List.length_map]
  have hlt : ∀ {k : ℕ} (i : Fin N), k < (ss.length + N - 1) / N → N * k + i < (tfPad N ss).length := by
    intro k i hk
    have : N * (k + 1) ≤ N * ((ss.length + N - 1) / N) := Nat.mul_le_mul_left _ hk
    rw [Nat.mul_succ] at this
    omega
  have hb : ∀ {α β : Type} (a : α) (f : α → Py β), ((Except.ok a : Py α) >>= f) = f a := fun _ _ => rfl
  have hN0 : ¬ N = 0 := by omega
  let O : ℕ → TStage n m p K := fun k => ((tfPad N ss)[k]?).getD tfPadStage
  have hO : ∀ {j : ℕ} (h : j < (tfPad N ss).length), O j = (tfPad N ss)[j] := by
    intro j h
    simp [O, h]
  refine ⟨_, k, fun k i => O (N * k + i), rfl, ?_, ?_, ?_, ?_, ?_⟩
  · have h1 := range_flatMap (fun k => (O k).toL) N ((ss.length + N - 1) / N)
    rw [show (fun k => blkStages fun i : Fin N => (O (N * k + i)).toB) =
      fun k => List.ofFn fun i : Fin N => (O (N * k + i)).toL from rfl, h1, ← hk, ← tfPad_map, ← hl']
    apply List.ext_getElem
    · simp
    · intro i h1 h2
      simp only [List.getElem_map, List.getElem_range]
      rw [hO]
  · intro k hk i
    beta_reduce
    rw [hO (hlt i hk)]
    have hm := List.getElem_mem (hlt i hk)
    generalize (tfPad N ss)[N * k + ↑i]'(hlt i hk) = s at hm
    unfold tfPad at hm
    split at hm
    · rcases List.mem_append.1 hm with hm | hm
      · exact Or.inl hm
      · exact Or.inr (List.eq_of_mem_replicate hm)
    · exact Or.inl hm
  · rw [← hl, hk]; simp
  · unfold tfCondense
    simp only [if_neg hN0]
    rw [hl', Nat.mul_div_cancel_left _ hN]
    refine mapM_congr_mem fun k hk => ?_
    rw [(pyFin_ok (g := fun i : Fin N => O (N * k + i))).2]
    · rfl
    · intro i
      rw [pyGet_lt (hlt i (List.mem_range.1 hk)), hO (hlt i (List.mem_range.1 hk))]
  · intro q XT HT rT
    unfold LQT.condense
    obtain ⟨s0, ss', rfl⟩ := List.exists_cons_of_ne_nil hT
    have e0 : pyGet ((s0 :: ss').map TStage.toL) 0 = .ok s0.toL := rfl
    have ep : s0.toL.p = p := rfl
    simp only [e0, hb, if_neg hN0, ep]
    rw [hl, Nat.mul_div_cancel_left _ hN]
    congr 1
    refine mapM_congr_mem fun k hk => ?_
    have e : (pyFin fun i : Fin N => do
        let s ← pyGet (condPad p N (List.map TStage.toL (s0 :: ss'))) (N * k + i)
        LStage.bStage p s) = .ok fun i : Fin N => (O (N * k + i)).toB := by
      refine pyFin_ok.2 fun i => ?_
      rw [← tfPad_map, pyGet_lt (by rw [List.length_map]; exact hlt i (List.mem_range.1 hk)), hb, List.getElem_map,
        hO (hlt i (List.mem_range.1 hk))]
      exact toL_bStage _
    exact (congrArg (· >>= condBlock) e).trans rfl

/-! ### Completion -/

section Rigid
variable [LinearOrder K] [IsStrictOrderedRing K]

theorem condQ_rigid {b : Fin N → BStage p n m K} (hs : ∀ i, (b i).Xᵀ = (b i).X ∧ (b i).Uᵀ = (b i).U) (hp : ∀ i, (b i).Plain) :
    (condQ b).det ≠ 0 ↔ Rigid (blkStages b) := by
  have hlen : (blkStages b).length = N := by simp [blkStages]
  have hT : ∀ x (u : Fin N → Fin m → K), lqtTotal (fun _ => 0) ((blkStages b).map LStage.homog) x (List.ofFn u) =
      (1 / 2) * (Sum.elim x (flatU u) ⬝ᵥ condQ b *ᵥ Sum.elim x (flatU u)) := by
    intro x u
    rw [condQ_homog b hp]
    ring
  have hadd : ∀ (x y : Fin n → K) (u w : Fin N → Fin m → K),
      Sum.elim (x + y) (flatU (u + w)) = Sum.elim x (flatU u) + Sum.elim y (flatU w) := by
    intro x y u w
    funext k
    rcases k with k | k <;> rfl
  have hexp : ∀ v w : Fin n ⊕ Fin (N * m) → K, (v + w) ⬝ᵥ condQ b *ᵥ (v + w) =
      v ⬝ᵥ condQ b *ᵥ v + 2 * (w ⬝ᵥ condQ b *ᵥ v) + w ⬝ᵥ condQ b *ᵥ w := by
    intro v w
    have h1 : v ⬝ᵥ condQ b *ᵥ w = w ⬝ᵥ condQ b *ᵥ v := by
      rw [dotProduct_mulVec, ← mulVec_transpose, condQ_symm hs, dotProduct_comm]
    rw [mulVec_add, dotProduct_add, add_dotProduct, add_dotProduct, h1]
    ring
  have hof : ∀ us : List (Fin m → K), us.length = N → ∃ u : Fin N → Fin m → K, us = List.ofFn u := by
    intro us h
    subst h
    exact ⟨fun i => us[i.1], List.ofFn_getElem.symm⟩
  have hzip : ∀ u w : Fin N → Fin m → K, List.zipWith (· + ·) (List.ofFn u) (List.ofFn w) = List.ofFn (u + w) := by
    intro u w
    apply List.ext_getElem <;> simp
  constructor
  · intro hd x us hl h
    obtain ⟨u, rfl⟩ := hof us (hl.trans hlen)
    have h1 : ∀ w : Fin n ⊕ Fin (N * m) → K, (Sum.elim x (flatU u) + w) ⬝ᵥ condQ b *ᵥ (Sum.elim x (flatU u) + w) =
        w ⬝ᵥ condQ b *ᵥ w := by
      intro w
      have h2 := h (w ∘ Sum.inl) (List.ofFn (unflat (w ∘ Sum.inr))) (by simp [hlen])
      rw [hzip, hT, hT, hadd, flat_unflat, Sum.elim_comp_inl_inr] at h2
      linarith
    have h0 := h1 0
    have hz : condQ b *ᵥ Sum.elim x (flatU u) = 0 := by
      refine dotProduct_eq_zero _ fun w => ?_
      have h2 := h1 w
      rw [hexp] at h2
      rw [add_zero] at h0
      rw [dotProduct_comm]
      have : (0 : Fin n ⊕ Fin (N * m) → K) ⬝ᵥ condQ b *ᵥ 0 = 0 := zero_dotProduct _
      linarith
    have hv : Sum.elim x (flatU u) = 0 := by
      have := congrArg (minv (condQ b) *ᵥ ·) hz
      simpa [mulVec_mulVec, minv_mul hd] using this
    refine ⟨funext fun i => congrFun hv (.inl i), ?_⟩
    intro w hw
    obtain ⟨i, rfl⟩ := List.mem_ofFn.1 hw
    have hu : u = unflat (0 : Fin (N * m) → K) := by
      rw [← unflat_flat u]
      congr 1
      funext i
      exact congrFun hv (.inr i)
    rw [hu]
    rfl
  · intro h hd
    obtain ⟨v, hv, hz⟩ := Matrix.exists_mulVec_eq_zero_iff.2 hd
    have h1 := h (v ∘ Sum.inl) (List.ofFn (unflat (v ∘ Sum.inr))) (by simp [hlen]) (by
      intro y ws hw
      obtain ⟨w, rfl⟩ := hof ws (hw.trans hlen)
      rw [hzip, hT, hT, hadd, flat_unflat, Sum.elim_comp_inl_inr, hexp, hz]
      simp)
    apply hv
    have h2 : unflat (v ∘ Sum.inr) = (0 : Fin N → Fin m → K) := by
      funext i
      exact h1.2 _ (List.mem_ofFn.2 ⟨i, rfl⟩)
    rw [← Sum.elim_comp_inl_inr v, h1.1, ← flat_unflat (v ∘ Sum.inr), h2]
    funext k
    rcases k with k | k <;> rfl

theorem pad_rigid (ss : List (LStage n m K)) (q k : ℕ) : Rigid (ss ++ List.replicate k (padStage q)) ↔ Rigid ss := by
  have hpad : (padStage q : LStage n m K).homog = padStage q := rfl
  have key : ∀ x (ua ub : List (Fin m → K)), ua.length = ss.length → ub.length = k →
      lqtTotal (fun _ => 0) ((ss ++ List.replicate k (padStage q)).map LStage.homog) x (ua ++ ub) =
        lqtTotal (fun _ => 0) (ss.map LStage.homog) x ua + (ub.map fun w => (1 / 2) * (w ⬝ᵥ w)).sum := by
    intro x ua ub h1 h2
    rw [List.map_append, List.map_replicate, hpad, lqtTotal_append _ _ (by simpa using h1)]
    exact lqtTotal_add (fun x' => (pad_total (fun _ => 0) q k x' ub h2).1) _ _ _
  have hz0 : ∀ (us : List (Fin m → K)) (j : ℕ), us.length = j → List.zipWith (· + ·) us (List.replicate j 0) = us := by
    intro us j h
    subst h
    apply List.ext_getElem <;> simp
  have hz1 : ∀ (us : List (Fin m → K)) (j : ℕ), us.length = j → List.zipWith (· + ·) (List.replicate j 0) us = us := by
    intro us j h
    subst h
    apply List.ext_getElem <;> simp
  constructor
  · intro h x us hl hinv
    obtain ⟨h1, h2⟩ := h x (us ++ List.replicate k 0) (by simp [hl]) (by
      intro y ws hw
      rw [List.length_append, List.length_replicate] at hw
      rw [← List.take_append_drop ss.length ws]
      have hw1 : (ws.take ss.length).length = ss.length := by simp; omega
      have hw2 : (ws.drop ss.length).length = k := by simp; omega
      rw [List.zipWith_append (by rw [hl, hw1]), hz1 _ _ hw2, key _ _ _ (by simp [hl]; omega) hw2, key _ _ _ hw1 hw2,
        hinv y _ hw1])
    exact ⟨h1, fun u hu => h2 u (List.mem_append_left _ hu)⟩
  · intro h x us hl hinv
    rw [List.length_append, List.length_replicate] at hl hinv
    obtain ⟨ua, ub, rfl, ha, hb⟩ : ∃ ua ub, us = ua ++ ub ∧ ua.length = ss.length ∧ ub.length = k :=
      ⟨us.take ss.length, us.drop ss.length, (List.take_append_drop _ _).symm, by simp; omega, by simp; omega⟩
    have hI : ∀ (y : Fin n → K) (wa wb : List (Fin m → K)), wa.length = ss.length → wb.length = k →
        lqtTotal (fun _ => 0) (ss.map LStage.homog) (x + y) (List.zipWith (· + ·) ua wa) +
          ((List.zipWith (· + ·) ub wb).map fun w => (1 / 2) * (w ⬝ᵥ w)).sum =
        lqtTotal (fun _ => 0) (ss.map LStage.homog) y wa + (wb.map fun w => (1 / 2) * (w ⬝ᵥ w)).sum := by
      intro y wa wb h1 h2
      have h3 := hinv y (wa ++ wb) (by simp [h1, h2])
      rwa [List.zipWith_append (by rw [ha, h1]), key _ _ _ (by simp [ha, h1]) (by simp [hb, h2]), key _ _ _ h1 h2] at h3
    have h1 := hI 0 (List.replicate ss.length 0) (List.replicate k 0) (by simp) (by simp)
    have h2 := hI 0 (List.replicate ss.length 0) ub (by simp) hb
    rw [hz0 _ _ ha] at h1 h2
    rw [hz0 _ _ hb] at h1
    have h3 : ((List.zipWith (· + ·) ub ub).map fun w => (1 / 2 : K) * (w ⬝ᵥ w)).sum =
        4 * (ub.map fun w => (1 / 2) * (w ⬝ᵥ w)).sum := by
      clear hI h1 h2 hb ha hinv hl
      induction ub with
      | nil => simp
      | cons w ub ih =>
        simp only [List.zipWith_cons_cons, List.map_cons, List.sum_cons, ih]
        rw [dotProduct_add, add_dotProduct]
        ring
    have h4 : ((List.replicate k (0 : Fin m → K)).map fun w => (1 / 2 : K) * (w ⬝ᵥ w)).sum = 0 := by simp
    rw [h3] at h2
    rw [h4] at h1
    have hub : ∀ w ∈ ub, w = 0 := by
      by_contra hc
      push Not at hc
      have := half_sum_pos hc
      linarith
    have hub' : (ub.map fun w => (1 / 2 : K) * (w ⬝ᵥ w)).sum = 0 := by
      have := half_sum_nonneg ub
      linarith
    obtain ⟨h5, h6⟩ := h x ua ha (by
      intro y wa hwa
      have h7 := hI y wa (List.replicate k 0) hwa (by simp)
      rw [hz0 _ _ hb, h4, hub'] at h7
      simpa using h7)
    refine ⟨h5, fun u hu => ?_⟩
    rcases List.mem_append.1 hu with hu | hu
    · exact h6 u hu
    · exact hub u hu

theorem tfCondense_total {ss : List (TStage n m p K)} (hs : ∀ s ∈ ss, s.Xᵀ = s.X ∧ s.Uᵀ = s.U) (hT : ss ≠ []) (hN : 0 < N) :
    let rigid := ∀ k, N * k < ss.length → Rigid (((ss.map TStage.toL).drop (N * k)).take N)
    (rigid ∧ ∃ r, tfCondense N ss = .ok r) ∨ (¬ rigid ∧ tfCondense N ss = .error .linAlgError) := by
  intro rigid
  obtain ⟨t, k, B, ht, hB, hmem, hlen, hc, -⟩ := tfCondense_iff hT hN
  have hprop : ∀ k < t, ∀ i, ((B k i).toB.Xᵀ = (B k i).toB.X ∧ (B k i).toB.Uᵀ = (B k i).toB.U) ∧ (B k i).toB.Plain := by
    intro k hk i
    refine ⟨?_, rfl, rfl, rfl⟩
    rcases hmem k hk i with h | h
    · exact hs _ h
    · rw [h]; exact ⟨transpose_zero, transpose_one⟩
  have hkt : ∀ j, N * j < ss.length ↔ j < t := by
    intro j
    constructor
    · intro h
      by_contra h'
      have := Nat.mul_le_mul_left N (not_lt.1 h')
      omega
    · intro h
      rw [ht, Nat.lt_div_iff_mul_lt hN] at h
      rw [Nat.mul_comm]; omega
  have hblk : ∀ j < t, (condQ fun i => (B j i).toB).det ≠ 0 ↔ Rigid (((ss.map TStage.toL).drop (N * j)).take N) := by
    intro j hj
    rw [condQ_rigid (fun i => (hprop j hj i).1) (fun i => (hprop j hj i).2)]
    have h1 := flatMap_drop_take (fun k i => (B k i).toB) hj
    have h2 : N * j ≤ (ss.map TStage.toL).length := by rw [List.length_map]; exact ((hkt j).2 hj).le
    rw [hB, List.drop_append_of_le_length h2, List.take_append, List.take_replicate] at h1
    rw [← h1, pad_rigid]
  have hr : rigid ↔ ∀ a ∈ List.range t, ∃ b, tfCondBlock (B a) = .ok b := by
    have hb : ∀ j < t, (∃ b, tfCondBlock (B j) = .ok b) ↔ Rigid (((ss.map TStage.toL).drop (N * j)).take N) := by
      intro j hj
      rw [← hblk j hj]
      constructor
      · rintro ⟨b, h⟩
        exact ((tfCondBlock_ok hN).1 h).1
      · intro h
        exact ((tfCondBlock_total hN (B j)).resolve_right fun h' => h h'.1).2
    constructor
    · intro h a ha
      have ha := List.mem_range.1 ha
      exact (hb a ha).2 (h a ((hkt a).2 ha))
    · intro h a ha
      exact (hb a ((hkt a).1 ha)).1 (h a (List.mem_range.2 ((hkt a).1 ha)))
  rw [hc]
  rcases mapM_ok_or (f := fun k => tfCondBlock (B k)) (e := .linAlgError) (l := List.range t) (fun a _ =>
    (tfCondBlock_total hN (B a)).imp And.right And.right) with ⟨h1, bs, h2⟩ | ⟨h1, h2⟩
  · exact Or.inl ⟨hr.2 h1, bs, h2⟩
  · exact Or.inr ⟨fun h => h1 (hr.1 h), h2⟩

end Rigid

end Verif
