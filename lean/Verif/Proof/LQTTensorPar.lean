import Verif.Proof.LQTTensor

/-! Proofs about `lqt_tf.py` on tensors: the parallel passes. -/

namespace Verif

open Matrix

variable {n m p q a b : ℕ} {K β γ : Type} [Field K]

omit [Field K] in
theorem Tens.IsMt.zipL {t : Tens K} {bs : List β} {cs : List γ} {f : β → Matrix (Fin a) (Fin b) K} (h : t.HM bs f) (hl : bs.length = cs.length) :
    t.HM (bs.zip cs) fun x => f x.1 := by
  have e : (bs.zip cs).map Prod.fst = bs := List.map_fst_zip (by omega)
  exact h.remap ((congrArg (List.map f) e).symm.trans List.map_map)

omit [Field K] in
theorem Tens.IsMt.zipR {t : Tens K} {bs : List β} {cs : List γ} {f : γ → Matrix (Fin a) (Fin b) K} (h : t.HM cs f) (hl : bs.length = cs.length) :
    t.HM (bs.zip cs) fun x => f x.2 := by
  have e : (bs.zip cs).map Prod.snd = cs := List.map_snd_zip (by omega)
  exact h.remap ((congrArg (List.map f) e).symm.trans List.map_map)

omit [Field K] in
theorem Tens.IsVt.zipL {t : Tens K} {bs : List β} {cs : List γ} {f : β → Fin a → K} (h : t.HV bs f) (hl : bs.length = cs.length) :
    t.HV (bs.zip cs) fun x => f x.1 := by
  have e : (bs.zip cs).map Prod.fst = bs := List.map_fst_zip (by omega)
  exact h.remap ((congrArg (List.map f) e).symm.trans List.map_map)

omit [Field K] in
theorem Tens.IsVt.zipR {t : Tens K} {bs : List β} {cs : List γ} {f : γ → Fin a → K} (h : t.HV cs f) (hl : bs.length = cs.length) :
    t.HV (bs.zip cs) fun x => f x.2 := by
  have e : (bs.zip cs).map Prod.snd = cs := List.map_snd_zip (by omega)
  exact h.remap ((congrArg (List.map f) e).symm.trans List.map_map)

omit [Field K] in
theorem Tens.IsMt.sizeRows {t : Tens K} {bs : List β} {f : β → Matrix (Fin a) (Fin b) K} (h : t.HM bs f) : t.size (-2) = .ok a := by
  rw [Tens.size, h.1]; rfl

/-- Identity plus a batch of matrices. -/
theorem Tens.IsMt.eyeB {t : Tens K} {bs : List β} {f : β → Matrix (Fin a) (Fin a) K} (h : t.HM bs f) :
    ∃ r, (Tens.eye bs.length a : Tens K).bin (· + ·) t = .ok r ∧ r.HM bs fun x => 1 + f x := (eye_isMt (Equiv.refl _) bs).add h

section Ordered
variable [LinearOrder K]

/-! ### Elements -/

/-- The element of a step when `U` is invertible. -/
def TStage.elemVal (s : TStage n m p K) : Elem n K := ⟨s.F, s.c, s.L * (minv s.U * s.Lᵀ), s.Hᵀ *ᵥ (s.X *ᵥ s.r), s.Hᵀ * (s.X * s.H)⟩

theorem elem_ite {ss : List (TStage n m p K)} :
    ((∀ s ∈ ss, s.U.det ≠ 0) → ss.mapM TStage.elem = .ok (ss.map TStage.elemVal)) ∧
    ((¬ ∀ s ∈ ss, s.U.det ≠ 0) → ss.mapM TStage.elem = .error .linAlgError) := by
  refine mapM_ite (P := fun s : TStage n m p K => s.U.det ≠ 0) (fun s _ h => ?_) (fun s _ h => ?_)
  · unfold TStage.elem; rw [solve_det.1 h]; rfl
  · unfold TStage.elem; rw [solve_det.2 h]; rfl

theorem initMost_rep {ss : List (TStage n m p K)} {Fs cs Ls Hs rs Xs Us : Tens K} (h : StageTens ss Fs cs Ls Hs rs Xs Us) :
    (∀ es, ss.mapM TStage.elem = .ok es → es.length = ss.length ∧ ∃ t, tensLqtInitMost Fs cs Ls Hs rs Xs Us = .ok t ∧ t.Holds es) ∧
    ∀ e, ss.mapM TStage.elem = .error e → tensLqtInitMost Fs cs Ls Hs rs Xs Us = .error e := by
  obtain ⟨hF, hc, hL, hH, hr, hX, hU⟩ := h
  obtain ⟨i1, i2⟩ := elem_ite (ss := ss)
  obtain ⟨LT, e1, hLT⟩ := Tens.IsMt.batchT hL
  obtain ⟨k1, k2⟩ := Tens.IsMt.solveM hU hLT
  by_cases hd : ∀ s ∈ ss, s.U.det ≠ 0
  · refine ⟨fun es he => ?_, fun e he => ?_⟩
    · rw [i1 hd] at he; cases he
      obtain ⟨W, e2, hW⟩ := k1 hd
      obtain ⟨C, e3, hC⟩ := Tens.IsMt.mm hL hW
      obtain ⟨HT, e4, hHT⟩ := Tens.IsMt.mT hH
      obtain ⟨Xr, e5, hXr⟩ := Tens.IsMt.mv hX hr
      obtain ⟨eta, e6, heta⟩ := hHT.mv hXr
      obtain ⟨XH, e7, hXH⟩ := Tens.IsMt.mm hX hH
      obtain ⟨J, e8, hJ⟩ := hHT.mm hXH
      refine ⟨List.length_map _, ⟨Fs, cs, C, eta, J⟩, ?_, ⟨?_, ?_, ?_, ?_, ?_⟩⟩
      · unfold tensLqtInitMost
        refine bstep e1 (bstep e2 (bstep e3 (bstep e4 (bstep e5 (bstep e6 (bstep e4 (bstep e7 (bstep e8 ?_))))))))
        rfl
      · exact Tens.IsMt.remap hF (by rw [List.map_map]; rfl)
      · exact Tens.IsVt.remap hc (by rw [List.map_map]; rfl)
      · exact hC.remap (by rw [List.map_map]; rfl)
      · exact heta.remap (by rw [List.map_map]; rfl)
      · exact hJ.remap (by rw [List.map_map]; rfl)
    · rw [i1 hd] at he; cases he
  · refine ⟨fun es he => ?_, fun e he => ?_⟩
    · rw [i2 hd] at he; cases he
    · rw [i2 hd] at he; cases he
      unfold tensLqtInitMost
      refine bstep e1 ?_
      rw [k2 hd]
      rfl

omit [LinearOrder K] in
theorem initLast_rep {P : TFLQT n m p q K} {HT rT XT : Tens K} (h : TermTens P HT rT XT) :
    ∃ t, tensLqtInitLast HT rT XT = .ok t ∧ t.A.IsM P.lastElem.A ∧ t.b.IsV P.lastElem.b ∧ t.C.IsM P.lastElem.C ∧
      t.eta.IsV P.lastElem.eta ∧ t.J.IsM P.lastElem.J := by
  obtain ⟨HTT, Xr, v, XH, S, e1, e2, e3, e4, e5, hv, hS⟩ := term_rep h
  have s1 : HT.size 1 = .ok n := by rw [Tens.size, h.HT.1]; rfl
  refine ⟨⟨Tens.const [n, n] 0, Tens.const [n] 0, Tens.const [n, n] 0, v, S⟩, ?_, ⟨rfl, fun _ _ => rfl⟩, ⟨rfl, fun _ => rfl⟩, ⟨rfl, fun _ _ => rfl⟩, hv, hS⟩
  unfold tensLqtInitLast
  refine bstep s1 (bstep e1 (bstep e2 (bstep e3 (bstep e1 (bstep e4 (bstep e5 ?_))))))
  rfl

omit [LinearOrder K] [Field K] in
theorem push_rep {t t' : TensElem K} {es : List (Elem n K)} {e : Elem n K} (h : t.Holds es) (hA : t'.A.IsM e.A) (hb : t'.b.IsV e.b)
    (hC : t'.C.IsM e.C) (heta : t'.eta.IsV e.eta) (hJ : t'.J.IsM e.J) : ∃ r, t.push t' = .ok r ∧ r.Holds (es ++ [e]) := by
  obtain ⟨A, a1, kA⟩ := hA.expand e (·.A) rfl
  obtain ⟨b, b1, kb⟩ := hb.expand e (·.b) rfl
  obtain ⟨C, c1, kC⟩ := hC.expand e (·.C) rfl
  obtain ⟨eta, d1, keta⟩ := heta.expand e (·.eta) rfl
  obtain ⟨J, f1, kJ⟩ := hJ.expand e (·.J) rfl
  obtain ⟨A', a2, kA⟩ := Tens.IsMt.append h.A kA
  obtain ⟨b', b2, kb⟩ := Tens.IsVt.append h.b kb
  obtain ⟨C', c2, kC⟩ := Tens.IsMt.append h.C kC
  obtain ⟨eta', d2, keta⟩ := Tens.IsVt.append h.eta keta
  obtain ⟨J', f2, kJ⟩ := Tens.IsMt.append h.J kJ
  refine ⟨⟨A', b', C', eta', J'⟩, ?_, ⟨kA, kb, kC, keta, kJ⟩⟩
  unfold TensElem.push
  exact bstep a1 (bstep a2 (bstep b1 (bstep b2 (bstep c1 (bstep c2 (bstep d1 (bstep d2 (bstep f1 (bstep f2 rfl)))))))))

omit [LinearOrder K] [Field K] in
theorem cons_rep {t t' : TensElem K} {es : List (Elem n K)} {e : Elem n K} (h : t.Holds es) (hA : t'.A.IsM e.A) (hb : t'.b.IsV e.b)
    (hC : t'.C.IsM e.C) (heta : t'.eta.IsV e.eta) (hJ : t'.J.IsM e.J) : ∃ r, t'.cons t = .ok r ∧ r.Holds (e :: es) := by
  obtain ⟨A, a1, kA⟩ := hA.expand e (·.A) rfl
  obtain ⟨b, b1, kb⟩ := hb.expand e (·.b) rfl
  obtain ⟨C, c1, kC⟩ := hC.expand e (·.C) rfl
  obtain ⟨eta, d1, keta⟩ := heta.expand e (·.eta) rfl
  obtain ⟨J, f1, kJ⟩ := hJ.expand e (·.J) rfl
  obtain ⟨A', a2, kA⟩ := Tens.IsMt.append kA h.A
  obtain ⟨b', b2, kb⟩ := Tens.IsVt.append kb h.b
  obtain ⟨C', c2, kC⟩ := Tens.IsMt.append kC h.C
  obtain ⟨eta', d2, keta⟩ := Tens.IsVt.append keta h.eta
  obtain ⟨J', f2, kJ⟩ := Tens.IsMt.append kJ h.J
  refine ⟨⟨A', b', C', eta', J'⟩, ?_, ⟨kA, kb, kC, keta, kJ⟩⟩
  unfold TensElem.cons
  exact bstep a1 (bstep a2 (bstep b1 (bstep b2 (bstep c1 (bstep c2 (bstep d1 (bstep d2 (bstep f1 (bstep f2 rfl)))))))))

omit [LinearOrder K] [Field K] in
theorem reverse_rep {t : TensElem K} {es : List (Elem n K)} (h : t.Holds es) : ∃ r, t.reverse = .ok r ∧ r.Holds es.reverse := by
  obtain ⟨A, e1, kA⟩ := Tens.IsMt.reverse h.A
  obtain ⟨b, e2, kb⟩ := Tens.IsVt.reverse h.b
  obtain ⟨C, e3, kC⟩ := Tens.IsMt.reverse h.C
  obtain ⟨eta, e4, keta⟩ := Tens.IsVt.reverse h.eta
  obtain ⟨J, e5, kJ⟩ := Tens.IsMt.reverse h.J
  exact ⟨⟨A, b, C, eta, J⟩, bstep e1 (bstep e2 (bstep e3 (bstep e4 (bstep e5 rfl)))), ⟨kA, kb, kC, keta, kJ⟩⟩

/-! ### The operation -/

theorem combV_rep {t t' : TensElem K} {x y : Elem n K} (h : t.Holds [x]) (h' : t'.Holds [y]) :
    (∀ z, tfCombV x y = .ok z → ∃ c, tensLqtCombV t t' = .ok c ∧ c.Holds [z]) ∧
    ∀ e, tfCombV x y = .error e → ∃ e', tensLqtCombV t t' = .error e' := by
  obtain ⟨A, b, C, eta, J⟩ := t
  obtain ⟨A', b', C', eta', J'⟩ := t'
  obtain ⟨hA, hb, hC, heta, hJ⟩ := h
  obtain ⟨hA', hb', hC', heta', hJ'⟩ := h'
  dsimp only at hA hb hC heta hJ hA' hb' hC' heta' hJ'
  have s1 : A.size (-2) = .ok n := Tens.IsMt.sizeRows hA
  have hA : A.HM [(x, y)] fun z => z.1.A := Tens.IsMt.remap hA rfl
  have hb : b.HV [(x, y)] fun z => z.1.b := Tens.IsVt.remap hb rfl
  have hC : C.HM [(x, y)] fun z => z.1.C := Tens.IsMt.remap hC rfl
  have heta : eta.HV [(x, y)] fun z => z.1.eta := Tens.IsVt.remap heta rfl
  have hJ : J.HM [(x, y)] fun z => z.1.J := Tens.IsMt.remap hJ rfl
  have hA' : A'.HM [(x, y)] fun z => z.2.A := Tens.IsMt.remap hA' rfl
  have hb' : b'.HV [(x, y)] fun z => z.2.b := Tens.IsVt.remap hb' rfl
  have hC' : C'.HM [(x, y)] fun z => z.2.C := Tens.IsMt.remap hC' rfl
  have heta' : eta'.HV [(x, y)] fun z => z.2.eta := Tens.IsVt.remap heta' rfl
  have hJ' : J'.HM [(x, y)] fun z => z.2.J := Tens.IsMt.remap hJ' rfl
  obtain ⟨CJ, e1, hCJ⟩ := hC.mm hJ'
  obtain ⟨I, W, e2, e3, hW⟩ := hCJ.eyeAdd
  obtain ⟨JC, f1, hJC⟩ := hJ'.mm hC
  obtain ⟨I2, W2, f2, f3, hW2⟩ := hJC.eyeAdd
  rw [e2] at f2; cases f2
  obtain ⟨k1, k2⟩ := hW.lu
  obtain ⟨k3, k4⟩ := hW2.lu
  by_cases hd : (1 + x.C * y.J).det ≠ 0
  · obtain ⟨LU, e4, hLU⟩ := k1 (by simpa using hd)
    obtain ⟨a1, e5, ha1⟩ := hLU.mm hA
    obtain ⟨Aik, e6, hAik⟩ := hA'.mm ha1
    obtain ⟨Ce, e7, hCe⟩ := hC.mv heta'
    obtain ⟨bCe, e8, hbCe⟩ := hb.add hCe
    obtain ⟨q1, q2, q3, e9, e10, e11, hq3⟩ := hLU.mmCol hbCe
    obtain ⟨b1, e12, hb1⟩ := hA'.mv hq3
    obtain ⟨bik, e13, hbik⟩ := hb1.add hb'
    obtain ⟨AT, e14, hAT⟩ := hA'.mT
    obtain ⟨c1, e15, hc1⟩ := hC.mm hAT
    obtain ⟨c2, e16, hc2⟩ := hLU.mm hc1
    obtain ⟨c3, e17, hc3⟩ := hA'.mm hc2
    obtain ⟨Cik, e18, hCik⟩ := hc3.add hC'
    by_cases hd2 : (1 + y.J * x.C).det ≠ 0
    · obtain ⟨LU2, f4, hLU2⟩ := k3 (by simpa using hd2)
      obtain ⟨At, f5, hAt⟩ := hA.mT
      obtain ⟨g1, f6, hg1⟩ := hJ'.mv hb
      obtain ⟨g2, f7, hg2⟩ := heta'.sub hg1
      obtain ⟨q4, q5, q6, f8, f9, f10, hq6⟩ := hLU2.mmCol hg2
      obtain ⟨g3, f11, hg3⟩ := hAt.mv hq6
      obtain ⟨etaik, f12, hetaik⟩ := hg3.add heta
      obtain ⟨j1, f13, hj1⟩ := hJ'.mm hA
      obtain ⟨j2, f14, hj2⟩ := hLU2.mm hj1
      obtain ⟨j3, f15, hj3⟩ := hAt.mm hj2
      obtain ⟨Jik, f16, hJik⟩ := hj3.add hJ
      have h0 : tfCombV x y = .ok ⟨y.A * (minv (1 + x.C * y.J) * x.A), y.A *ᵥ (minv (1 + x.C * y.J) *ᵥ (x.b + x.C *ᵥ y.eta)) + y.b,
          y.A * (minv (1 + x.C * y.J) * (x.C * y.Aᵀ)) + y.C, x.Aᵀ *ᵥ (minv (1 + y.J * x.C) *ᵥ (y.eta - y.J *ᵥ x.b)) + x.eta,
          x.Aᵀ * (minv (1 + y.J * x.C) * (y.J * x.A)) + x.J⟩ := by
        unfold tfCombV; rw [luFactor_det.1 hd, luFactor_det.1 hd2]; rfl
      refine ⟨fun z hz => ?_, fun e he => ?_⟩
      · rw [h0] at hz; cases hz
        refine ⟨⟨Aik, bik, Cik, etaik, Jik⟩, ?_, ⟨?_, ?_, ?_, ?_, ?_⟩⟩
        · unfold tensLqtCombV
          refine bstep s1 (bstep e2 (bstep e1 (bstep e3 (bstep e4 (bstep e5 (bstep e6 ?_))))))
          refine bstep e7 (bstep e8 (bstep e9 (bstep e10 (bstep e11 (bstep e12 (bstep e13 ?_))))))
          refine bstep e14 (bstep e15 (bstep e16 (bstep e17 (bstep e18 ?_))))
          refine bstep f1 (bstep f3 (bstep f4 ?_))
          refine bstep f5 (bstep f6 (bstep f7 (bstep f8 (bstep f9 (bstep f10 (bstep f11 (bstep f12 ?_)))))))
          refine bstep f5 (bstep f13 (bstep f14 (bstep f15 (bstep f16 ?_))))
          rfl
        · exact hAik.remap rfl
        · exact hbik.remap rfl
        · exact hCik.remap rfl
        · exact hetaik.remap rfl
        · exact hJik.remap rfl
      · rw [h0] at he; cases he
    · have h0 : tfCombV x y = .error .linAlgError := by
        unfold tfCombV; rw [luFactor_det.1 hd, luFactor_det.2 hd2]; rfl
      refine ⟨fun z hz => ?_, fun e _ => ⟨.linAlgError, ?_⟩⟩
      · rw [h0] at hz; cases hz
      · unfold tensLqtCombV
        refine bstep s1 (bstep e2 (bstep e1 (bstep e3 (bstep e4 (bstep e5 (bstep e6 ?_))))))
        refine bstep e7 (bstep e8 (bstep e9 (bstep e10 (bstep e11 (bstep e12 (bstep e13 ?_))))))
        refine bstep e14 (bstep e15 (bstep e16 (bstep e17 (bstep e18 ?_))))
        refine bstep f1 (bstep f3 ?_)
        rw [k4 (by simpa using hd2)]
        rfl
  · have h0 : tfCombV x y = .error .linAlgError := by
      unfold tfCombV; rw [luFactor_det.2 hd]; rfl
    refine ⟨fun z hz => ?_, fun e _ => ⟨.linAlgError, ?_⟩⟩
    · rw [h0] at hz; cases hz
    · unfold tensLqtCombV
      refine bstep s1 (bstep e2 (bstep e1 (bstep e3 ?_)))
      rw [k2 (by simpa using hd)]
      rfl

/-! ### The scan -/

omit [LinearOrder K] [Field K] in
theorem scanAssoc_rep {scan : AScan} (hs : ∀ α, IsAssocScan (scan α)) {fn : TensElem K → TensElem K → Py (TensElem K)}
    {op : Elem n K → Elem n K → Py (Elem n K)}
    (hop : ∀ a a' b b', TensElem.Holds a [b] → TensElem.Holds a' [b'] → (∀ z, op b b' = .ok z → ∃ c, fn a a' = .ok c ∧ c.Holds [z]) ∧
      ∀ e, op b b' = .error e → ∃ e', fn a a' = .error e') {t : TensElem K} {es : List (Elem n K)} (h : t.Holds es) (hne : es ≠ []) :
    ∃ scan' : (Elem n K → Elem n K → Py (Elem n K)) → List (Elem n K) → Py (List (Elem n K)), (IsAssocScan scan' ∧
      ∀ D, HasDepth D (scan (TensElem K)) → HasDepth D (scan (Elem n K)) → HasDepth D scan') ∧
      ((∃ r rs, t.scanAssoc scan fn = .ok r ∧ scan' op es = .ok rs ∧ r.Holds rs ∧ rs.length = es.length) ∨
        ∃ e, t.scanAssoc scan fn = .error e ∧ scan' op es = .error e) := by
  obtain ⟨lA, e1, hA⟩ := Tens.IsMt.slices h.A
  obtain ⟨lb, e2, hb⟩ := Tens.IsVt.slices h.b
  obtain ⟨lC, e3, hC⟩ := Tens.IsMt.slices h.C
  obtain ⟨le, e4, he⟩ := Tens.IsVt.slices h.eta
  obtain ⟨lJ, e5, hJ⟩ := Tens.IsMt.slices h.J
  have hz := forall₂_zip_of hA (forall₂_zip_of hb (forall₂_zip_of hC (forall₂_zip_of he hJ)))
  have hl : List.Forall₂ (fun (s : TensElem K) x => s.Holds [x])
      ((lA.zip (lb.zip (lC.zip (le.zip lJ)))).map fun s => ⟨s.1, s.2.1, s.2.2.1, s.2.2.2.1, s.2.2.2.2⟩) es :=
    List.forall₂_map_left_iff.2 (hz.imp fun x s hx => ⟨hx.1, hx.2.1, hx.2.2.1, hx.2.2.2.1, hx.2.2.2.2⟩)
  have hne' : ((lA.zip (lb.zip (lC.zip (le.zip lJ)))).map fun s => (⟨s.1, s.2.1, s.2.2.1, s.2.2.2.1, s.2.2.2.2⟩ : TensElem K)) ≠ [] := by
    intro h0
    rw [h0] at hl
    cases hl
    exact hne rfl
  have hguard : ¬ (lb.length ≠ lA.length ∨ lC.length ≠ lA.length ∨ le.length ≠ lA.length ∨ lJ.length ≠ lA.length) := by
    rw [hA.length_eq, hb.length_eq, hC.length_eq, he.length_eq, hJ.length_eq]
    simp
  obtain ⟨scan', i1, i2⟩ := scan_induced (hs _) (hs _) _ hop hl hne'
  refine ⟨scan', i1, ?_⟩
  rcases i2 with ⟨ra, rb, j1, j2, j3, j4⟩ | ⟨e, j1, j2⟩
  · left
    have hrb : rb ≠ [] := by
      intro h0
      rw [h0] at j4
      exact hne (List.length_eq_zero_iff.1 j4.symm)
    obtain ⟨A, k1, hA'⟩ := joinAll_hM (ts := ra.map TensElem.A) (bs := rb) (f := (·.A)) (List.forall₂_map_left_iff.2 (j3.imp fun _ _ h => h.A)) hrb
    obtain ⟨b, k2, hb'⟩ := joinAll_hV (ts := ra.map TensElem.b) (bs := rb) (f := (·.b)) (List.forall₂_map_left_iff.2 (j3.imp fun _ _ h => h.b)) hrb
    obtain ⟨C, k3, hC'⟩ := joinAll_hM (ts := ra.map TensElem.C) (bs := rb) (f := (·.C)) (List.forall₂_map_left_iff.2 (j3.imp fun _ _ h => h.C)) hrb
    obtain ⟨eta, k4, he'⟩ := joinAll_hV (ts := ra.map TensElem.eta) (bs := rb) (f := (·.eta)) (List.forall₂_map_left_iff.2 (j3.imp fun _ _ h => h.eta)) hrb
    obtain ⟨J, k5, hJ'⟩ := joinAll_hM (ts := ra.map TensElem.J) (bs := rb) (f := (·.J)) (List.forall₂_map_left_iff.2 (j3.imp fun _ _ h => h.J)) hrb
    refine ⟨⟨A, b, C, eta, J⟩, rb, ?_, j2, ⟨hA', hb', hC', he', hJ'⟩, j4⟩
    unfold TensElem.scanAssoc
    refine bstep e1 (bstep e2 (bstep e3 (bstep e4 (bstep e5 ?_))))
    refine Eq.trans (if_neg hguard) ?_
    refine bstep j1 (bstep k1 (bstep k2 (bstep k3 (bstep k4 (bstep k5 rfl)))))
  · right
    refine ⟨e, ?_, j2⟩
    unfold TensElem.scanAssoc
    refine bstep e1 (bstep e2 (bstep e3 (bstep e4 (bstep e5 ?_))))
    refine Eq.trans (if_neg hguard) ?_
    rw [j1]
    rfl

/-! ### Parallel backward pass -/

theorem parBackward_rep {P : TFLQT n m p q K} {Fs cs Ls Hs HT rs rT Xs XT Us : Tens K} (h : StageTens P.stages Fs cs Ls Hs rs Xs Us)
    (hT : TermTens P HT rT XT) {scan : AScan} (hs : ∀ α, IsAssocScan (scan α)) :
    ∃ scan' : (Elem n K → Elem n K → Py (Elem n K)) → List (Elem n K) → Py (List (Elem n K)), IsAssocScan scan' ∧
      (∀ r, P.parBackward scan' = .ok r → ∃ t, tensLqtParBackward scan Fs cs Ls Hs HT rs rT Xs XT Us = .ok t ∧ t.Holds r) ∧
      ∀ e, P.parBackward scan' = .error e → tensLqtParBackward scan Fs cs Ls Hs HT rs rT Xs XT Us = .error e := by
  obtain ⟨i1, i2⟩ := initMost_rep h
  cases h0 : P.stages.mapM TStage.elem with
  | error e =>
    refine ⟨scan _, hs _, ?_⟩
    have h1 : P.parBackward (scan _) = .error e := by unfold TFLQT.parBackward; rw [h0]; rfl
    refine ⟨fun r hr => ?_, fun e' he => ?_⟩
    · rw [h1] at hr; cases hr
    · rw [h1] at he; cases he
      unfold tensLqtParBackward
      rw [i2 _ h0]
      rfl
  | ok es =>
    obtain ⟨hlen, tm, e1, htm⟩ := i1 _ h0
    obtain ⟨tl, e2, hA, hb, hC, heta, hJ⟩ := initLast_rep hT
    obtain ⟨tp, e3, htp⟩ := push_rep htm hA hb hC heta hJ
    obtain ⟨tr, e4, htr⟩ := reverse_rep htp
    obtain ⟨scan', k0, hk⟩ := scanAssoc_rep hs (fn := tensLqtCombVRev) (op := tfCombVRev)
      (fun a a' b b' ha ha' => combV_rep ha' ha) htr (by simp)
    refine ⟨scan', k0.1, ?_⟩
    rcases hk with ⟨ts, rev, e5, s5, hts, hl⟩ | ⟨e, e5, s5⟩
    · obtain ⟨vs, e6, hvs⟩ := Tens.IsVt.reverse hts.eta
      obtain ⟨Ss, e7, hSs⟩ := Tens.IsMt.reverse hts.J
      obtain ⟨St, e8, hSt⟩ := hSs.tl
      obtain ⟨vt, e9, hvt⟩ := hvs.tl
      have hl1 : P.stages.length = rev.reverse.tail.length := by simp [hl, hlen]
      -- all tensors of one step together
      have hF := Tens.IsMt.zipL (cs := rev.reverse.tail) h.F hl1
      have hc := Tens.IsVt.zipL (cs := rev.reverse.tail) h.c hl1
      have hL := Tens.IsMt.zipL (cs := rev.reverse.tail) h.L hl1
      have hU := Tens.IsMt.zipL (cs := rev.reverse.tail) h.U hl1
      have hS := hSt.zipR hl1
      have hv := hvt.zipR hl1
      obtain ⟨LT, e10, hLT⟩ := hL.mT
      obtain ⟨LS, e11, hLS⟩ := hLT.mm hS
      obtain ⟨LSL, e12, hLSL⟩ := hLS.mm hL
      obtain ⟨W, e13, hW⟩ := hU.add hLSL
      obtain ⟨k1, k2⟩ := hW.cholesky
      obtain ⟨m1, m2⟩ := mapM_ite (bs := P.stages.zip rev.reverse.tail) (er := .linAlgError)
        (F := fun x => x.1.gains x.2.J x.2.eta)
        (P := fun x => choPD (lowerSym (x.1.U + x.1.Lᵀ * x.2.J * x.1.L)) = true)
        (G := fun x => (minv (lowerSym (x.1.U + x.1.Lᵀ * x.2.J * x.1.L)) * (x.1.Lᵀ * x.2.J * x.1.F),
          minv (lowerSym (x.1.U + x.1.Lᵀ * x.2.J * x.1.L)) *ᵥ (x.1.Lᵀ *ᵥ (x.2.eta - x.2.J *ᵥ x.1.c))))
        (fun x _ hx => by unfold TStage.gains; rw [tfCholesky_pd.1 hx]; rfl)
        (fun x _ hx => by unfold TStage.gains; rw [tfCholesky_pd.2 hx]; rfl)
      have hz : (P.stages.zip ((rev.reverse.map Elem.J).tail.zip (rev.reverse.map Elem.eta).tail)).mapM
          (fun a => a.1.gains a.2.1 a.2.2) = (P.stages.zip rev.reverse.tail).mapM fun x => x.1.gains x.2.J x.2.eta := by
        have : P.stages.zip ((rev.reverse.map Elem.J).tail.zip (rev.reverse.map Elem.eta).tail) =
            (P.stages.zip rev.reverse.tail).map fun x => (x.1, x.2.J, x.2.eta) := by
          rw [← List.map_tail, ← List.map_tail, List.zip_map', List.zip_map_right]
          rfl
        rw [this, List.mapM_map]
        rfl
      have hp : P.parBackward scan' = (do
          let gs ← (P.stages.zip rev.reverse.tail).mapM fun x => x.1.gains x.2.J x.2.eta
          return ⟨gs.map Prod.fst, gs.map Prod.snd, rev.reverse.map Elem.J, rev.reverse.map Elem.eta⟩) := by
        unfold TFLQT.parBackward
        refine bstep h0 (bstep s5 ?_)
        dsimp only
        rw [hz]
      by_cases hd : ∀ x ∈ P.stages.zip rev.reverse.tail, choPD (lowerSym (x.1.U + x.1.Lᵀ * x.2.J * x.1.L)) = true
      · rw [hp, m1 hd]
        obtain ⟨CF, e14, hCF⟩ := k1 hd
        obtain ⟨LSF, e15, hLSF⟩ := hLS.mm hF
        obtain ⟨Kxs, e16, hKxs⟩ := hCF.mm hLSF
        obtain ⟨Sc, e17, hSc⟩ := hS.mv hc
        obtain ⟨vS, e18, hvS⟩ := hv.sub hSc
        obtain ⟨rh, e19, hrh⟩ := hLT.mv hvS
        obtain ⟨q1, q2, ds, e20, e21, e22, hds⟩ := hCF.mmCol hrh
        refine ⟨fun r hr => ?_, fun e he => by simp [pure, Except.pure, bind, Except.bind] at he⟩
        cases hr
        refine ⟨⟨Ss, vs, Kxs, ds⟩, ?_, ⟨?_, ?_, ?_, ?_⟩⟩
        · unfold tensLqtParBackward
          refine bstep e1 (bstep e2 (bstep e3 (bstep e4 (bstep e5 (bstep e6 (bstep e7 ?_))))))
          refine bstep e10 (bstep e8 (bstep e11 (bstep e12 (bstep e13 (bstep e14 ?_)))))
          refine bstep e10 (bstep e8 (bstep e11 (bstep e15 (bstep e16 ?_))))
          refine bstep e10 (bstep e9 (bstep e8 (bstep e17 (bstep e18 (bstep e19 (bstep e20 (bstep e21 (bstep e22 ?_))))))))
          rfl
        · exact hSs.remap (by rw [List.map_map]; rfl)
        · exact hvs.remap (by rw [List.map_map]; rfl)
        · exact hKxs.remap (by rw [List.map_map, List.map_map]; rfl)
        · exact hds.remap (by rw [List.map_map, List.map_map]; rfl)
      · rw [hp, m2 hd]
        refine ⟨(fun r hr => by cases hr), fun e he => ?_⟩
        cases he
        unfold tensLqtParBackward
        refine bstep e1 (bstep e2 (bstep e3 (bstep e4 (bstep e5 (bstep e6 (bstep e7 ?_))))))
        refine bstep e10 (bstep e8 (bstep e11 (bstep e12 (bstep e13 ?_))))
        rw [k2 hd]
        rfl
    · have hp : P.parBackward scan' = .error e := by
        unfold TFLQT.parBackward
        refine bstep h0 ?_
        dsimp only
        rw [s5]
        rfl
      refine ⟨fun r hr => ?_, fun e' he => ?_⟩
      · rw [hp] at hr; cases hr
      · rw [hp] at he; cases he
        unfold tensLqtParBackward
        refine bstep e1 (bstep e2 (bstep e3 (bstep e4 ?_)))
        rw [e5]
        rfl

/-! ### Parallel forward-backward pass -/

theorem parFwdBwd_rep {P : TFLQT n m p q K} {Fs cs Ls Hs rs Xs Us : Tens K} (h : StageTens P.stages Fs cs Ls Hs rs Xs Us)
    {bw : BwResult n m K} {tb : TensBw K} (hb : tb.Holds bw) (l1 : bw.S_list.length = P.stages.length + 1)
    (l2 : bw.v_list.length = P.stages.length + 1) (l3 : bw.Kx_list.length = P.stages.length) (l4 : bw.d_list.length = P.stages.length)
    {x0 : Fin n → K} {tx : Tens K} (hx : tx.IsV x0) {scan : AScan} (hs : ∀ α, IsAssocScan (scan α)) :
    ∃ scan' : (Elem n K → Elem n K → Py (Elem n K)) → List (Elem n K) → Py (List (Elem n K)), IsAssocScan scan' ∧
      (∀ r, P.parFwdBwd scan' x0 bw = .ok r → ∃ xs us,
        tensLqtParFwdBwd scan tx Fs cs Ls Hs rs Xs Us tb.Ss tb.vs tb.Kxs tb.ds = .ok (xs, us) ∧ xs.HoldsV r.1 ∧ us.HoldsV r.2) ∧
      ∀ e, P.parFwdBwd scan' x0 bw = .error e →
        tensLqtParFwdBwd scan tx Fs cs Ls Hs rs Xs Us tb.Ss tb.vs tb.Kxs tb.ds = .error e := by
  obtain ⟨i1, i2⟩ := initMost_rep h
  have s0 : tx.size 0 = .ok n := by rw [Tens.size, hx.1]; rfl
  have e0 : tensLqtFwdBwdFirst tx = .ok ⟨Tens.const [n, n] 0, tx, Tens.const [n, n] 0, tx.map fun _ => 0, Tens.const [n, n] 0⟩ := by
    unfold tensLqtFwdBwdFirst
    exact bstep s0 rfl
  cases h0 : P.stages.mapM TStage.elem with
  | error e =>
    refine ⟨scan _, hs _, ?_⟩
    have h1 : P.parFwdBwd (scan _) x0 bw = .error e := by unfold TFLQT.parFwdBwd; rw [h0]; rfl
    refine ⟨fun r hr => ?_, fun e' he => ?_⟩
    · rw [h1] at hr; cases hr
    · rw [h1] at he; cases he
      unfold tensLqtParFwdBwd
      refine bstep e0 ?_
      rw [i2 _ h0]
      rfl
  | ok es =>
    obtain ⟨hlen, tm, e1, htm⟩ := i1 _ h0
    obtain ⟨tp, e3, htp⟩ := cons_rep (e := ⟨0, x0, 0, 0, 0⟩) (t' := ⟨Tens.const [n, n] 0, tx, Tens.const [n, n] 0, tx.map fun _ => 0, Tens.const [n, n] 0⟩) htm
      ⟨rfl, fun _ _ => rfl⟩ hx ⟨rfl, fun _ _ => rfl⟩ ⟨hx.1, fun _ => rfl⟩ ⟨rfl, fun _ _ => rfl⟩
    obtain ⟨scan', k0, hk⟩ := scanAssoc_rep hs (fn := tensLqtCombV) (op := tfCombV) (fun a a' b b' ha ha' => combV_rep ha ha') htp (by simp)
    refine ⟨scan', k0.1, ?_⟩
    rcases hk with ⟨ts, el, e5, s5, hts, hl⟩ | ⟨e, e5, s5⟩
    · have hl' : el.length = (bw.S_list.zip bw.v_list).length := by simp [hl, l1, l2, hlen]
      have hC := Tens.IsMt.zipL (cs := bw.S_list.zip bw.v_list) hts.C hl'
      have hbb := Tens.IsVt.zipL (cs := bw.S_list.zip bw.v_list) hts.b hl'
      have hS := Tens.IsMt.zipR (bs := el) (Tens.IsMt.zipL (cs := bw.v_list) hb.Ss (by rw [l1, l2])) hl'
      have hv := Tens.IsVt.zipR (bs := el) (Tens.IsVt.zipR (bs := bw.S_list) hb.vs (by rw [l1, l2])) hl'
      have s1 : ts.C.size 0 = .ok (el.zip (bw.S_list.zip bw.v_list)).length := by rw [Tens.size, hC.1]; rfl
      have s2 : ts.C.size (-1) = .ok n := by rw [Tens.size, hC.1]; rfl
      obtain ⟨CS, e6, hCS⟩ := hC.mm hS
      obtain ⟨W, e7, hW⟩ := hCS.eyeB
      obtain ⟨Cv, e8, hCv⟩ := hC.mv hv
      obtain ⟨bC, e9, hbC⟩ := hbb.add hCv
      obtain ⟨q1, e10, hq1⟩ := hbC.col
      obtain ⟨k1, k2⟩ := hW.solveM hq1
      obtain ⟨m1, m2⟩ := mapM_ite (bs := el.zip (bw.S_list.zip bw.v_list)) (er := .linAlgError)
        (F := fun a => solveV (1 + a.1.C * a.2.1) (a.1.b + a.1.C *ᵥ a.2.2))
        (P := fun a => (1 + a.1.C * a.2.1).det ≠ 0)
        (G := fun a => minv (1 + a.1.C * a.2.1) *ᵥ (a.1.b + a.1.C *ᵥ a.2.2))
        (fun x _ hx => by unfold solveV; rw [luFactor_det.1 hx]; rfl)
        (fun x _ hx => by unfold solveV; rw [luFactor_det.2 hx]; rfl)
      by_cases hd : ∀ a ∈ el.zip (bw.S_list.zip bw.v_list), (1 + a.1.C * a.2.1).det ≠ 0
      · have hp : P.parFwdBwd scan' x0 bw = .ok ((el.zip (bw.S_list.zip bw.v_list)).map fun a => minv (1 + a.1.C * a.2.1) *ᵥ (a.1.b + a.1.C *ᵥ a.2.2),
            List.zipWith (fun Kd x => -(Kd.1 *ᵥ x) + Kd.2) (bw.Kx_list.zip bw.d_list)
              ((el.zip (bw.S_list.zip bw.v_list)).map fun a => minv (1 + a.1.C * a.2.1) *ᵥ (a.1.b + a.1.C *ᵥ a.2.2)).dropLast) := by
          unfold TFLQT.parFwdBwd
          exact bstep h0 (bstep s5 (bstep (m1 hd) rfl))
        obtain ⟨q2, e11, hq2⟩ := k1 hd
        obtain ⟨xs, e12, hxs⟩ := hq2.uncol
        have hxs : xs.HoldsV ((el.zip (bw.S_list.zip bw.v_list)).map fun a => minv (1 + a.1.C * a.2.1) *ᵥ (a.1.b + a.1.C *ᵥ a.2.2)) :=
          hxs.remap (by rw [List.map_map]; rfl)
        generalize hX : ((el.zip (bw.S_list.zip bw.v_list)).map fun a => minv (1 + a.1.C * a.2.1) *ᵥ (a.1.b + a.1.C *ᵥ a.2.2)) = X at hp hxs
        have lX : X.length = P.stages.length + 1 := by rw [← hX]; simp [hl, l1, l2, hlen]
        obtain ⟨xi, e13, hxi⟩ := Tens.IsVt.init hxs
        have lK : bw.Kx_list.length = (bw.d_list.zip X.dropLast).length := by simp [l3, l4, lX]
        have ld : bw.d_list.length = X.dropLast.length := by simp [l4, lX]
        have hK := Tens.IsMt.zipL (cs := bw.d_list.zip X.dropLast) hb.Kxs lK
        have hd' := Tens.IsVt.zipR (bs := bw.Kx_list) (Tens.IsVt.zipL (cs := X.dropLast) hb.ds ld) lK
        have hxi' := Tens.IsVt.zipR (bs := bw.Kx_list) (Tens.IsVt.zipR (bs := bw.d_list) hxi ld) lK
        obtain ⟨Kx, e14, hKx⟩ := hK.mv hxi'
        obtain ⟨us, e15, hus⟩ := hKx.neg.add hd'
        refine ⟨fun r hr => ?_, fun e he => ?_⟩
        · rw [hp] at hr; cases hr
          refine ⟨xs, us, ?_, hxs, ?_⟩
          · unfold tensLqtParFwdBwd
            refine bstep e0 (bstep e1 (bstep e3 (bstep e5 (bstep s1 (bstep s2 ?_)))))
            refine bstep e6 (bstep e7 (bstep e8 (bstep e9 (bstep e10 (bstep e11 (bstep e12 ?_))))))
            refine bstep e13 (bstep e14 (bstep e15 ?_))
            rfl
          · refine hus.remap ?_
            refine List.ext_getElem (by simp [l3, l4, lX]) fun k h1 h2 => ?_
            simp
        · rw [hp] at he; cases he
      · have hp : P.parFwdBwd scan' x0 bw = .error .linAlgError := by
          unfold TFLQT.parFwdBwd
          refine bstep h0 (bstep s5 ?_)
          rw [m2 hd]
          rfl
        refine ⟨fun r hr => ?_, fun e he => ?_⟩
        · rw [hp] at hr; cases hr
        · rw [hp] at he; cases he
          unfold tensLqtParFwdBwd
          refine bstep e0 (bstep e1 (bstep e3 (bstep e5 (bstep s1 (bstep s2 ?_)))))
          refine bstep e6 (bstep e7 (bstep e8 (bstep e9 (bstep e10 ?_))))
          rw [k2 hd]
          rfl
    · have hp : P.parFwdBwd scan' x0 bw = .error e := by
        unfold TFLQT.parFwdBwd
        refine bstep h0 ?_
        rw [s5]
        rfl
      refine ⟨fun r hr => ?_, fun e' he => ?_⟩
      · rw [hp] at hr; cases hr
      · rw [hp] at he; cases he
        unfold tensLqtParFwdBwd
        refine bstep e0 (bstep e1 (bstep e3 ?_))
        rw [e5]
        rfl

end Ordered

end Verif
