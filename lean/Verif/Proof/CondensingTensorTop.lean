import Verif.Proof.CondensingTensor

/-! Lemmas for `Verif.Props.CondensingTensor`: `condense`. -/

namespace Verif

open Matrix

variable {n m p N : ℕ} {K : Type} [Field K]

/-- `trans` of one block. -/
def cbTrans (b : Fin N → TStage n m p K) : Matrix ((Fin N × Fin p) ⊕ Fin (N * m)) (Fin n ⊕ Fin (N * m)) K :=
  fromBlocks ((blkDiag fun i => (b i).H) * of fun (ia : Fin N × Fin n) c => tfLambda (fun i => (b i).F) ia.1 ia.2 c)
    ((blkDiag fun i => (b i).H) * of fun (ia : Fin N × Fin n) c => tfLbar b ia.1 ia.2 c) 0 1

/-- `XUbar` of one block. -/
def cbXU (b : Fin N → TStage n m p K) : Matrix ((Fin N × Fin p) ⊕ Fin (N * m)) ((Fin N × Fin p) ⊕ Fin (N * m)) K :=
  fromBlocks (blkDiag fun i => (b i).X) 0 0 ((blkDiag fun i => (b i).U).submatrix finProdFinEquiv.symm finProdFinEquiv.symm)

/-- The right-hand side of one block. -/
def cbV (b : Fin N → TStage n m p K) : Fin n ⊕ Fin (N * m) → K :=
  (cbTrans b)ᵀ *ᵥ (cbXU b *ᵥ ((Sum.elim (fun ia => (b ia.1).r ia.2) 0 : (Fin N × Fin p) ⊕ Fin (N * m) → K) -
    Sum.elim ((blkDiag fun i => (b i).H) *ᵥ fun ia => tfCbar b ia.1 ia.2) 0))

/-- The result of one block. -/
def cbMk (b : Fin N → TStage n m p K) (rs : Fin (n + N * m) → K) : TCBlock N n m K :=
  ⟨⟨⟨tfFstar (fun i => (b i).F) (N - 1), tfCrow b (N - 1), tfPadRow N (tfLrow b (N - 1)), 1, fun a => rs (finSumFinEquiv (.inl a)),
    ((cbTrans b)ᵀ * cbXU b * cbTrans b).toBlocks₁₁, ((cbTrans b)ᵀ * cbXU b * cbTrans b).toBlocks₂₂⟩,
    ((cbTrans b)ᵀ * cbXU b * cbTrans b).toBlocks₁₂, fun a => rs (finSumFinEquiv (.inr a))⟩,
    of fun ia c => tfLambda (fun i => (b i).F) ia.1 ia.2 c, fun ia => tfCbar b ia.1 ia.2, of fun ia c => tfLbar b ia.1 ia.2 c⟩

theorem tfCondBlock_eq [DecidableEq K] (b : Fin N → TStage n m p K) : tfCondBlock b = (do
    let rs ← solveV (((cbTrans b)ᵀ * cbXU b * cbTrans b).submatrix finSumFinEquiv.symm finSumFinEquiv.symm) (cbV b ∘ finSumFinEquiv.symm)
    return cbMk b rs) := rfl

theorem tfPad_dvd (ss : List (TStage n m p K)) (hN : 0 < N) : (tfPad N ss).length = N * ((tfPad N ss).length / N) := by
  refine (Nat.mul_div_cancel' ?_).symm
  unfold tfPad
  split
  · rw [List.length_append, List.length_replicate]
    have h1 := Nat.mod_lt ss.length hN
    have h2 := Nat.div_add_mod ss.length N
    refine ⟨ss.length / N + 1, ?_⟩
    rw [Nat.mul_add, Nat.mul_one]
    omega
  · next h => exact Nat.dvd_of_mod_eq_zero (by simpa using h)

/-- The blocks. -/
def cbBlock (N : ℕ) (ss : List (TStage n m p K)) (k : ℕ) (i : Fin N) : TStage n m p K := (tfPad N ss)[N * k + i]?.getD tfPadStage

theorem cbBlock_get (ss : List (TStage n m p K)) (hN : 0 < N) {k : ℕ} (hk : k < (tfPad N ss).length / N) (i : Fin N) :
    (tfPad N ss)[N * k + i]? = some (cbBlock N ss k i) := by
  have h := block_idx hk i.2
  rw [← tfPad_dvd ss hN] at h
  rw [cbBlock, List.getElem?_eq_getElem h]
  rfl

theorem tfCondense_eq [DecidableEq K] (ss : List (TStage n m p K)) (hN : 0 < N) :
    tfCondense N ss = (List.range ((tfPad N ss).length / N)).mapM fun k => tfCondBlock (cbBlock N ss k) := by
  unfold tfCondense
  rw [if_neg (by omega)]
  refine mapM_congr_mem fun k hk => ?_
  have : (pyFin fun i : Fin N => pyGet (tfPad N ss) (N * k + i)) = .ok (cbBlock N ss k) :=
    pyFin_ok.2 fun i => pyGet_ok.2 (cbBlock_get ss hN (List.mem_range.1 hk) i)
  rw [this]
  rfl

theorem padTo_mat {a b : ℕ} {ss : List (TStage n m p K)} {t u : Tens K} {f : TStage n m p K → Matrix (Fin a) (Fin b) K}
    (h : t.IsMt (Equiv.refl _) (Equiv.refl _) ss f)
    (hu : u.IsMt (Equiv.refl _) (Equiv.refl _) (List.replicate (N - ss.length % N) (tfPadStage : TStage n m p K)) f) :
    ∃ r, tensPadTo (decide (ss.length % N ≠ 0)) t u = .ok r ∧ r.IsMt (Equiv.refl _) (Equiv.refl _) (tfPad N ss) f := by
  unfold tensPadTo tfPad
  by_cases hz : ss.length % N = 0
  · simp only [hz, ne_eq, not_true_eq_false, decide_false, if_false]
    exact ⟨t, rfl, h⟩
  · simp only [hz, ne_eq, not_false_eq_true, decide_true, if_true]
    exact h.append hu

theorem padTo_vec {a : ℕ} {ss : List (TStage n m p K)} {t u : Tens K} {f : TStage n m p K → Fin a → K}
    (h : t.IsVt (Equiv.refl _) ss f)
    (hu : u.IsVt (Equiv.refl _) (List.replicate (N - ss.length % N) (tfPadStage : TStage n m p K)) f) :
    ∃ r, tensPadTo (decide (ss.length % N ≠ 0)) t u = .ok r ∧ r.IsVt (Equiv.refl _) (tfPad N ss) f := by
  unfold tensPadTo tfPad
  by_cases hz : ss.length % N = 0
  · simp only [hz, ne_eq, not_true_eq_false, decide_false, if_false]
    exact ⟨t, rfl, h⟩
  · simp only [hz, ne_eq, not_false_eq_true, decide_true, if_true]
    exact h.append hu

theorem padEye {a : ℕ} (f : TStage n m p K → Matrix (Fin a) (Fin a) K) (hf : f tfPadStage = 1) (k : ℕ) :
    (Tens.eye k a : Tens K).IsMt (Equiv.refl _) (Equiv.refl _) (List.replicate k (tfPadStage : TStage n m p K)) f := by
  have := (eye_isMt (K := K) (Equiv.refl (Fin a)) (List.replicate k (tfPadStage : TStage n m p K)))
  rw [List.length_replicate] at this
  exact this.congr rfl fun i h _ => by simp [hf]

theorem padZeroM {a b : ℕ} (f : TStage n m p K → Matrix (Fin a) (Fin b) K) (hf : f tfPadStage = 0) (k : ℕ) :
    (Tens.const [k, a, b] (0 : K)).IsMt (Equiv.refl _) (Equiv.refl _) (List.replicate k (tfPadStage : TStage n m p K)) f := by
  have := (zero_isMt (K := K) (Equiv.refl (Fin a)) (Equiv.refl (Fin b)) (List.replicate k (tfPadStage : TStage n m p K)))
  rw [List.length_replicate] at this
  exact this.congr rfl fun i h _ => by simp [hf]

theorem padZeroV {a : ℕ} (f : TStage n m p K → Fin a → K) (hf : f tfPadStage = 0) (k : ℕ) :
    (Tens.const [k, a] (0 : K)).IsVt (Equiv.refl _) (List.replicate k (tfPadStage : TStage n m p K)) f := by
  have := (zero_isVt (K := K) (Equiv.refl (Fin a)) (List.replicate k (tfPadStage : TStage n m p K)))
  rw [List.length_replicate] at this
  exact this.congr rfl fun i h _ => by simp [hf]

theorem bstep {α γ : Type} {x : Py α} {a : α} {f : α → Py γ} {r : Py γ} (h : x = .ok a) (h' : f a = r) : (x >>= f) = r := by
  rw [h]; exact h'

theorem tensCondense_rep [DecidableEq K] {ss : List (TStage n m p K)} {Fs cs Ls Hs rs Xs Us : Tens K}
    (h : StageTens ss Fs cs Ls Hs rs Xs Us) (hN : 0 < N) :
    (∀ bs, tfCondense N ss = .ok bs → ∃ c, tensCondense Fs cs Ls Hs rs Xs Us N = .ok c ∧ c.Holds bs) ∧
    ∀ e, tfCondense N ss = .error e → tensCondense Fs cs Ls Hs rs Xs Us N = .error e := by
  obtain ⟨hF, hc, hL, hH, hr, hX, hU⟩ := h
  have hN0 : N ≠ 0 := by omega
  -- padding
  obtain ⟨Fs', eF, hF'⟩ := padTo_mat (N := N) hF (padEye _ rfl _)
  obtain ⟨cs', ec, hc'⟩ := padTo_vec (N := N) hc (padZeroV _ rfl _)
  obtain ⟨Ls', eL, hL'⟩ := padTo_mat (N := N) hL (padZeroM _ rfl _)
  obtain ⟨Hs', eH, hH'⟩ := padTo_mat (N := N) hH (padZeroM _ rfl _)
  obtain ⟨rs', er, hr'⟩ := padTo_vec (N := N) hr (padZeroV _ rfl _)
  obtain ⟨Xs', eX, hX'⟩ := padTo_mat (N := N) hX (padZeroM _ rfl _)
  obtain ⟨Us', eU, hU'⟩ := padTo_mat (N := N) hU (padEye _ rfl _)
  have hl := tfPad_dvd ss hN
  have hB := fun k hk i => cbBlock_get ss hN (k := k) hk i
  have hcond := tfCondense_eq ss hN
  have sF := hF'.size0
  have sc := hc'.size1
  have sr := hr'.size1
  have sU := hU'.size1
  generalize hTc : (tfPad N ss).length / N = Tc at hl hB hcond
  generalize cbBlock N ss = B at hB hcond
  -- blocks
  obtain ⟨Xk, eXk, hXk⟩ := tensBlocks_rep hX' hl hB
  obtain ⟨Uk, eUk, hUk⟩ := tensBlocks_rep hU' hl hB
  obtain ⟨Hk, eHk, hHk⟩ := tensBlocks_rep hH' hl hB
  obtain ⟨Fk, eFk, hFk⟩ := tensBlocks_rep hF' hl hB
  obtain ⟨Lk, eLk, hLk⟩ := tensBlocks_rep hL' hl hB
  obtain ⟨cq, ck, ecq, eck, hck⟩ := tensVBlocks_rep hc' hl hB
  obtain ⟨rk, erk, hrk⟩ := tensRows_rep hr' hl hB
  obtain ⟨Xb, eXb, hXb⟩ := tensBlkdiag_rep hN hXk
  obtain ⟨Ub, eUb, hUb⟩ := tensBlkdiag_rep hN hUk
  obtain ⟨Hb, eHb, hHb⟩ := tensBlkdiag_rep hN hHk
  -- `XUbar` and `rsbar`
  obtain ⟨X1, eX1, hX1⟩ := hXb.padRight (Equiv.refl (Fin (N * m)))
  obtain ⟨U1, eU1, hU1⟩ := hUb.flat.padLeft (finProdFinEquiv (m := N) (n := p))
  obtain ⟨XU, eXU, hXU⟩ := hX1.rows hU1
  have z1 := zero_isVt (K := K) (Equiv.refl (Fin (N * m))) (List.range Tc)
  rw [List.length_range] at z1
  obtain ⟨rb, erb, hrb⟩ := hrk.join z1
  -- the loops
  obtain ⟨Ll, Fst, eLam, hLl, hLl', hFst⟩ := tensLambdaLoop_rep hN hFk
  obtain ⟨Lam, eLam', hLam⟩ := concatAll_isMt hLl hN hLl'
  obtain ⟨l0, c0, el0, ec0, hloop⟩ := tensRowLoop_rep (B := B) hN hFk hLk hck
  obtain ⟨st, est, h1, h2, h3, h4, h5, h6⟩ := hloop (N - 1) (by omega)
  obtain ⟨Lb, eLb, hLb⟩ := concatAll_isMt (h1.trans (by omega)) hN h3
  obtain ⟨cb, ecb, hcb⟩ := concatAll_isVt (h2.trans (by omega)) hN h4
  obtain ⟨Lst, eLst, hLst⟩ := h5.pad (N := N) (fun x => tfLrow_length (B x) (by omega)) (by omega) hLk.sizes.2.2.2.1
  -- the cost
  obtain ⟨HL, eHL, hHL⟩ := hHb.matmul hLam
  obtain ⟨HB, eHB, hHB⟩ := hHb.matmul hLb
  obtain ⟨t1, et1, ht1⟩ := hHL.cols hHB
  have z2 := zero_isMt (K := K) (Equiv.refl (Fin (N * m))) (Equiv.refl (Fin n)) (List.range Tc)
  have z3 := eye_isMt (K := K) (Equiv.refl (Fin (N * m))) (List.range Tc)
  have z4 := eye_isMt (K := K) (Equiv.refl (Fin n)) (List.range Tc)
  rw [List.length_range] at z2 z3 z4
  obtain ⟨t2, et2, ht2⟩ := z2.cols z3
  obtain ⟨tr, etr, htr⟩ := ht1.rows ht2
  replace htr : tr.IsMt (sumE finProdFinEquiv (Equiv.refl _)) (sumE (Equiv.refl _) (Equiv.refl _)) (List.range Tc) fun k => cbTrans (B k) :=
    htr.congr rfl fun k _ _ => fromRows_fromCols_eq_fromBlocks _ _ _ _
  replace hXU : XU.IsMt (sumE finProdFinEquiv (Equiv.refl _)) (sumE finProdFinEquiv (Equiv.refl _)) (List.range Tc) fun k => cbXU (B k) :=
    hXU.congr rfl fun k _ _ => fromRows_fromCols_eq_fromBlocks _ _ _ _
  obtain ⟨tT, etT, htT⟩ := htr.batchT
  obtain ⟨P1, eP1, hP1⟩ := htT.matmul hXU
  obtain ⟨Q, eQ, hQ⟩ := hP1.matmul htr
  obtain ⟨Hc, eHc, hHc⟩ := hHb.matvec hcb
  obtain ⟨w1, ew1, hw1⟩ := hHc.join z1
  obtain ⟨w2, ew2, hw2⟩ := hrb.bin (· - ·) hw1
  obtain ⟨w3, ew3, hw3⟩ := hXU.matvec hw2
  obtain ⟨w4, ew4, hw4⟩ := htT.matvec hw3
  replace hw4 : w4.IsVt (sumE (Equiv.refl _) (Equiv.refl _)) (List.range Tc) fun k => cbV (B k) := hw4
  obtain ⟨w5, ew5, hsol, herr⟩ := solve_rep hQ hw4
  simp only [sumE_refl] at hsol herr
  obtain ⟨q1, eq1, hq1⟩ := hQ.rows₁
  obtain ⟨q2, eq2, hq2⟩ := hQ.rows₂
  obtain ⟨q11, eq11, hq11⟩ := hq1.cols₁
  obtain ⟨q12, eq12, hq12⟩ := hq1.cols₂
  obtain ⟨q22, eq22, hq22⟩ := hq2.cols₂
  have sizes := hFk.sizes
  have sizesL := hLk.sizes
  have sizec := hck.sizes
  have sUb := hUb.size2
  have sXb := hXb.size2
  have sLb := hLb.sizeLast
  have pF := hF.size0
  simp only [List.length_range] at sizes sizesL est
  have key : tensCondense Fs cs Ls Hs rs Xs Us N = (do
      let rsstar ← (← Q.solve w5).select (-1) 0
      let d ← rsstar.size 1
      let rstar ← rsstar.slice 1 0 n
      let sstar ← rsstar.slice 1 n d
      let Xstar ← (← Q.slice 1 0 n).slice 2 0 n
      let Mstar ← (← Q.slice 1 0 n).slice 2 n d
      let Ustar ← (← Q.slice 1 n d).slice 2 n d
      let Hstar := Tens.eye (← Fk.size 0) n
      return ⟨Fst, st.cbar_row, Lst, Hstar, rstar, Xstar, Ustar, Mstar, sstar, Lam, cb, Lb⟩) := by
    subst hTc
    unfold tensCondense
    refine bstep pF ?_
    refine Eq.trans (if_neg hN0) ?_
    refine bstep hF.size1 ?_
    refine bstep eF ?_
    refine bstep hc.size1 ?_
    refine bstep ec ?_
    refine bstep hL.size1 ?_
    refine bstep hL.size2 ?_
    refine bstep eL ?_
    refine bstep hH.size1 ?_
    refine bstep hH.size2 ?_
    refine bstep eH ?_
    refine bstep hr.size1 ?_
    refine bstep er ?_
    refine bstep hX.size1 ?_
    refine bstep hX.size2 ?_
    refine bstep eX ?_
    refine bstep hU.size1 ?_
    refine bstep eU ?_
    refine bstep sF ?_
    refine bstep eXk ?_
    refine bstep eXb ?_
    refine bstep eUk ?_
    refine bstep eUb ?_
    refine bstep eHk ?_
    refine bstep eHb ?_
    refine bstep sUb ?_
    refine bstep eX1 ?_
    refine bstep sXb ?_
    refine bstep eU1 ?_
    refine bstep eXU ?_
    refine bstep sr ?_
    refine bstep erk ?_
    refine bstep sU ?_
    refine bstep erb ?_
    refine bstep eFk ?_
    refine bstep eLk ?_
    refine bstep ecq ?_
    refine bstep sc ?_
    refine bstep eck ?_
    refine bstep eLam ?_
    refine bstep eLam' ?_
    refine bstep sizesL.2.2.1 ?_
    refine bstep sizesL.2.2.2.1 ?_
    refine bstep sizec ?_
    refine bstep el0 ?_
    refine bstep ec0 ?_
    refine bstep est ?_
    refine bstep eLb ?_
    refine bstep ecb ?_
    refine bstep eLst ?_
    refine bstep sizes.2.2.2.2 ?_
    refine bstep sLb ?_
    refine bstep eHL ?_
    refine bstep eHB ?_
    refine bstep et1 ?_
    refine bstep sizes.1 ?_
    refine bstep sizes.1 ?_
    refine bstep et2 ?_
    refine bstep etr ?_
    refine bstep etT ?_
    refine bstep eP1 ?_
    refine bstep eQ ?_
    refine bstep eHc ?_
    refine bstep sizes.1 ?_
    refine bstep ew1 ?_
    refine bstep etT ?_
    refine bstep ew2 ?_
    refine bstep ew3 ?_
    refine bstep ew4 ?_
    refine bstep ew5 ?_
    rfl
  rw [key, hcond]
  cases hxs : (List.range Tc).mapM fun k => solveV (((cbTrans (B k))ᵀ * cbXU (B k) * cbTrans (B k)).submatrix finSumFinEquiv.symm
    finSumFinEquiv.symm) (cbV (B k) ∘ finSumFinEquiv.symm) with
  | error e =>
    have := mapM_bind_err (fun k => tfCondBlock_eq (B k)) hxs
    refine ⟨fun bs hbs => ?_, fun e' he' => ?_⟩
    · rw [this] at hbs; cases hbs
    · rw [this] at he'
      cases he'
      rw [herr e hxs]
      rfl
  | ok xs =>
    obtain ⟨hlen, hm⟩ := mapM_bind_ok (fun k => tfCondBlock_eq (B k)) hxs
    refine ⟨fun bs hbs => ?_, fun e' he' => ?_⟩
    · rw [hm] at hbs
      cases hbs
      obtain ⟨r, y, er', ey, hy⟩ := hsol xs hxs
      have hy' := hy.numbered (sumE (Equiv.refl (Fin n)) (Equiv.refl (Fin (N * m))))
      obtain ⟨y1, ey1, hy1⟩ := hy'.fst
      obtain ⟨y2, ey2, hy2⟩ := hy'.snd
      rw [List.length_range] at hlen
      have L0 : (List.range Tc).length = (List.zipWith (fun k => cbMk (B k)) (List.range Tc) xs).length := by simp [hlen]
      have L1 : xs.length = (List.zipWith (fun k => cbMk (B k)) (List.range Tc) xs).length := by simp [hlen]
      refine ⟨⟨Fst, st.cbar_row, Lst, Tens.eye Tc n, y1, q11, q22, q12, y2, Lam, cb, Lb⟩, ?_, ?_⟩
      · simp only [er', tens_bind, ey, hy'.size1, ey1, ey2, eq1, eq2, eq11, eq12, eq22, sizes.1]
        rfl
      · refine ⟨hFst.congr L0 ?_, h6.congr L0 ?_, hLst.congr L0 ?_, z4.congr L0 ?_, hy1.congr L1 ?_, hq11.congr L0 ?_, hq22.congr L0 ?_,
          hq12.congr L0 ?_, hy2.congr L1 ?_, hLam.congr L0 ?_, hcb.congr L0 ?_, hLb.congr L0 ?_⟩ <;>
        · intro k h h'
          simp only [List.getElem_zipWith, sumE_refl]
          rfl
    · rw [hm] at he'; cases he'

end Verif
