import Verif.Model.SpeedLinear
import Verif.Props.CondensingTF
import Verif.Props.TFLevels

/-! The pipelines of the speed tests with condensing. -/

namespace Verif

open Matrix

variable {n m p q N : ℕ} {K : Type} [Field K]

/-! ### Forward passes with the same closed loop -/

/-- The controls of a forward pass at given states. -/
def fwdControls (gs : List (TFwd n m K)) (xs : List (Fin n → K)) : List (Fin m → K) :=
  List.zipWith (fun g x => -(g.Kx *ᵥ x) + g.d) gs xs

theorem scanFwd_fst_same : ∀ (gs gs' : List (TFwd n m K)) (st st' : (Fin n → K) × (Fin m → K)), st.1 = st'.1 →
    List.Forall₂ (fun g g' => ∀ x u u', (TFwd.body (x, u) g).1 = (TFwd.body (x, u') g').1) gs gs' →
    (tfScanFwd TFwd.body st gs).map Prod.fst = (tfScanFwd TFwd.body st' gs').map Prod.fst
  | _, _, _, _, _, .nil => rfl
  | g :: _, g' :: _, st, st', h, .cons h1 h2 => by
    have e : (TFwd.body st g).1 = (TFwd.body st' g').1 := by
      obtain ⟨x, u⟩ := st
      obtain ⟨x', u'⟩ := st'
      cases (show x = x' from h)
      exact h1 x u u'
    simp only [tfScanFwd, List.map_cons]
    rw [e, scanFwd_fst_same _ _ _ _ e h2]

theorem scanFwd_snd : ∀ (gs : List (TFwd n m K)) (st : (Fin n → K) × (Fin m → K)),
    (tfScanFwd TFwd.body st gs).map Prod.snd = fwdControls gs (st.1 :: (tfScanFwd TFwd.body st gs).map Prod.fst).dropLast
  | [], st => by simp [tfScanFwd, fwdControls]
  | g :: gs, st => by
    simp only [tfScanFwd, List.map_cons]
    rw [scanFwd_snd gs]
    simp only [fwdControls, List.dropLast_cons₂, List.zipWith_cons_cons]
    rfl

theorem seqForward_same {gs gs' : List (TFwd n m K)} {x0 : Fin n → K} {xs : List (Fin n → K)} {us : List (Fin m → K)}
    (h : List.Forall₂ (fun g g' => ∀ x u u', (TFwd.body (x, u) g).1 = (TFwd.body (x, u') g').1) gs gs')
    (hf : lqtTfSeqForward x0 gs = .ok (xs, us)) : lqtTfSeqForward x0 gs' = .ok (xs, fwdControls gs' xs.dropLast) := by
  unfold lqtTfSeqForward at hf ⊢
  cases h with
  | nil => cases hf
  | cons h1 h2 =>
    rename_i g g' l l'
    have h := List.Forall₂.cons h1 h2
    simp only [List.isEmpty_cons, Bool.false_eq_true, if_false] at hf ⊢
    have hf' := Except.ok.inj hf
    simp only [Prod.mk.injEq] at hf'
    refine congrArg Except.ok ?_
    rw [Prod.mk.injEq]
    have e := scanFwd_fst_same _ _ (x0, (0 : Fin m → K)) (x0, 0) rfl h
    refine ⟨by rw [← e]; exact hf'.1, ?_⟩
    rw [scanFwd_snd, ← e, hf'.1]

section Ordered
variable [LinearOrder K] [IsStrictOrderedRing K]

theorem closed_loop : ∀ (Gs : List (GStage n m p K)) (ts : List (TStage n m p K)),
    List.Forall₂ (fun g t => GStage.canon g = .ok t) Gs ts →
    ∀ (Kd gs : List (Matrix (Fin m) (Fin n) K × (Fin m → K))), Kd.length = Gs.length →
    List.Forall₂ (fun a b => a.1.back a.2.1 a.2.2 = .ok b) (Gs.zip Kd) gs →
    List.Forall₂ (fun g g' : TFwd n m K => ∀ x u u', (TFwd.body (x, u) g).1 = (TFwd.body (x, u') g').1)
      (List.zipWith (fun s kd => (⟨s.F, s.c, s.L, kd.1, kd.2⟩ : TFwd n m K)) ts Kd)
      (List.zipWith (fun g kd => (⟨g.F, g.c, g.L, kd.1, kd.2⟩ : TFwd n m K)) Gs gs)
  | _, _, .nil, Kd, gs, hl, h => by
    cases h
    simp
  | g :: Gs, t :: ts, .cons h1 h2, Kd, gs, hl, h => by
    cases Kd with
    | nil => simp at hl
    | cons kd Kd =>
      simp only [List.zip_cons_cons] at h
      cases h with
      | cons k1 k2 =>
        rename_i kd' gs'
        simp only [List.zipWith_cons_cons]
        refine .cons ?_ (closed_loop Gs ts h2 Kd gs' (by simpa using hl) k2)
        intro x u u'
        unfold GStage.canon at h1
        unfold GStage.back at k1
        obtain ⟨CF, c1, c2⟩ := bind_ok.1 h1
        obtain ⟨CF', d1, d2⟩ := bind_ok.1 k1
        rw [c1] at d1
        cases d1
        cases c2
        cases d2
        simp only [TFwd.body, choSolveV, choSolve, sub_mulVec, add_mulVec, mulVec_add, mulVec_neg, ← mulVec_mulVec, neg_add]
        abel

theorem fwdBwd_gains {scan : (Elem n K → Elem n K → Py (Elem n K)) → List (Elem n K) → Py (List (Elem n K))}
    {C : TFLQT n m p q K} {x0 : Fin n → K} {r : BwResult n m K} {xs : List (Fin n → K)} {us : List (Fin m → K)}
    (h : C.parFwdBwd scan x0 r = .ok (xs, us)) (Kxs : List (Matrix (Fin m) (Fin n) K)) (ds : List (Fin m → K)) :
    C.parFwdBwd scan x0 ⟨Kxs, ds, r.S_list, r.v_list⟩ =
      .ok (xs, List.zipWith (fun Kd x => -(Kd.1 *ᵥ x) + Kd.2) (Kxs.zip ds) xs.dropLast) := by
  unfold TFLQT.parFwdBwd at h ⊢
  obtain ⟨most, h1, h⟩ := bind_ok.1 h
  obtain ⟨elems, h2, h⟩ := bind_ok.1 h
  obtain ⟨xs', h3, h⟩ := bind_ok.1 h
  rw [h1, py_ok_bind, h2, py_ok_bind, h3, py_ok_bind]
  simp only [pure, Except.pure, Except.ok.injEq, Prod.mk.injEq] at h ⊢
  simp [h.1]

/-- All intermediate results of the solution with condensing. -/
theorem cond_parts {P : TFLQT n m p q K} (hP : P.Convex) (hT : P.stages ≠ []) {bs : List (TCBlock N n m K)}
    (hbs : tfCondense N P.stages = .ok bs)
    {scan : (Elem n K → Elem n K → Py (Elem n K)) → List (Elem n K) → Py (List (Elem n K))}
    (hs : IsAssocScan scan) (x0 : Fin n → K) : ∃ C r gs cxs cus us,
      (P.condGen bs).canon = .ok C ∧ C.stages.length = bs.length ∧ bs ≠ [] ∧ C.parBackward scan = .ok r ∧ C.seqBackward = .ok r ∧
      (P.condGen bs).back r.Kx_list r.d_list = .ok gs ∧ gs.length = bs.length ∧
      lqtTfSeqForward x0 (List.zipWith (fun (c : TCBlock N n m K) kd => ⟨c.stage.F, c.stage.c, c.stage.L, kd.1, kd.2⟩) bs gs) =
        .ok (cxs, cus) ∧
      C.parFwdBwd scan x0 ⟨gs.map Prod.fst, gs.map Prod.snd, r.S_list, r.v_list⟩ = .ok (cxs, cus) ∧
      tfConvertUX P.stages.length bs cus cxs = .ok (us, x0 :: lqtRun P.toLQT.stages x0 us) ∧
      us.length = P.stages.length ∧ ∀ us', us'.length = P.stages.length → us' ≠ us →
        lqtTotal P.toLQT.final P.toLQT.stages x0 us < lqtTotal P.toLQT.final P.toLQT.stages x0 us' := by
  have hnp := tfCond_convex hP hT hbs
  obtain ⟨κ, k, hl, hlk, hS, hne, hmain⟩ := tfCond_main hP.toSym hT hbs
  have hcv : ∀ s ∈ (P.condGen bs).toLQT.stages, s.Convex := by
    obtain ⟨-, -, -, -, -, -, -, hc, -⟩ := cond_main hP.toSym.toLQT (fun s hs => by
      simp only [TFLQT.toLQT, List.mem_map] at hs
      obtain ⟨s, -, rfl⟩ := hs
      exact ⟨rfl, rfl, rfl⟩) (fun s hs s' hs' => by
      simp only [TFLQT.toLQT, List.mem_map] at hs hs'
      obtain ⟨s, -, rfl⟩ := hs
      obtain ⟨s', -, rfl⟩ := hs'
      rfl) hnp
    exact hc
  have hgc : ∀ g ∈ (P.condGen bs).stages, ∃ t, GStage.canon g = .ok t ∧ IsPSD t.X ∧ t.Uᵀ = t.U ∧ IsPD t.U := fun g hg =>
    canon_convex (hcv _ (List.mem_map.2 ⟨g, hg, rfl⟩))
  have hcs : ∀ gs : List (GStage n (N * m) n K), (∀ g ∈ gs, ∃ t, GStage.canon g = .ok t ∧ IsPSD t.X ∧ t.Uᵀ = t.U ∧ IsPD t.U) →
      ∃ cs, gs.mapM GStage.canon = .ok cs ∧ ∀ t ∈ cs, IsPSD t.X ∧ t.Uᵀ = t.U ∧ IsPD t.U := by
    intro gs
    induction gs with
    | nil => exact fun _ => ⟨[], rfl, by simp⟩
    | cons g gs ih =>
      intro h
      obtain ⟨t, h1, h2⟩ := h g (by simp)
      obtain ⟨cs, h3, h4⟩ := ih fun g' hg' => h g' (by simp [hg'])
      refine ⟨t :: cs, by rw [List.mapM_cons, h1, h3]; rfl, ?_⟩
      intro t' ht'
      rcases List.mem_cons.1 ht' with rfl | ht'
      · exact h2
      · exact h4 _ ht'
  obtain ⟨cs, hcs1, hcs2⟩ := hcs _ hgc
  have hC : (P.condGen bs).canon = .ok ⟨cs, P.HT, P.rT, P.XT⟩ := by
    unfold TFGen.canon
    rw [hcs1]
    rfl
  have hCc : (⟨cs, P.HT, P.rT, P.XT⟩ : TFLQT n (N * m) n q K).Convex := ⟨hcs2, hP.2⟩
  have hcl : cs.length = bs.length := by
    rw [← (mapM_ok_iff.1 hcs1).length_eq]
    simp [TFLQT.condGen]
  obtain ⟨r, hr⟩ := tf_par_bw_total hs hCc
  have hpdU : ∀ g ∈ (P.condGen bs).stages, IsPD g.U := fun g hg => (hcv _ (List.mem_map.2 ⟨g, hg, rfl⟩)).pd
  have hb0 := tf_par_bw hs hCc.toSym hr
  have hb := (tf_seq_bw hCc.toSym).2 hb0
  obtain ⟨gs, hgs⟩ : ∃ gs, (P.condGen bs).back r.Kx_list r.d_list = .ok gs :=
    ⟨_, back_list (fun s hs => (hS.1 s hs).2) hpdU⟩
  obtain ⟨cxs, cus, us, h1, h2, h3, h4⟩ := tfSolve_core hP.toSym hT hbs hC hb hgs x0
  obtain ⟨S, v, hbd⟩ := seqBackwardPass_iff.1 hb0
  have hl1 : r.Kx_list.length = cs.length := by rw [hbd.length.1]; simp [TFLQT.toLQT]
  have hl2 : r.d_list.length = cs.length := by rw [hbd.length.2.1]; simp [TFLQT.toLQT]
  have hgl : gs.length = bs.length := by
    have := (mapM_ok_iff.1 hgs).length_eq
    rw [← this]
    simp [TFLQT.condGen, hl1, hl2, hcl]
  have hcs0 : cs ≠ [] := fun e => hne (List.length_eq_zero_iff.1 (by rw [← hcl, e]; rfl))
  obtain ⟨res, f1⟩ := (tf_fwdbwd hs hCc.toSym hb0 (x0 := x0)).2 hCc
  obtain ⟨ys, ws⟩ := res
  have f2 := (tf_fwdbwd hs hCc.toSym hb0).1 _ f1
  obtain ⟨g1, g2, g3, g4⟩ := fwdData_ok (⟨cs, P.HT, P.rT, P.XT⟩ : TFLQT n (N * m) n q K) r hl1 hl2
  have f3 := tf_seq_fw (g4 hcs0) g1 x0
  rw [g2, g3, f2] at f3
  have f4 : lqtTfSeqForward x0 (TFLQT.fwdData (⟨cs, P.HT, P.rT, P.XT⟩ : TFLQT n (N * m) n q K) r) = .ok (ys, ws) := by
    revert f3
    cases lqtTfSeqForward x0 (TFLQT.fwdData (⟨cs, P.HT, P.rT, P.XT⟩ : TFLQT n (N * m) n q K) r) with
    | error _ => intro h; cases h
    | ok a =>
      intro he
      simp only [Except.map, Except.ok.injEq, Prod.ext_iff, Prod.fst_swap, Prod.snd_swap] at he
      rw [← he.1, ← he.2]
  have hcl2 := closed_loop _ _ (mapM_ok_iff.1 hcs1) (r.Kx_list.zip r.d_list) gs
    (by simp [hl1, hl2, hcl, TFLQT.condGen]) (mapM_ok_iff.1 hgs)
  have f5 := seqForward_same hcl2 f4
  have e1 : List.zipWith (fun g kd => (⟨g.F, g.c, g.L, kd.1, kd.2⟩ : TFwd n (N * m) K)) (P.condGen bs).stages gs =
      List.zipWith (fun (c : TCBlock N n m K) kd => ⟨c.stage.F, c.stage.c, c.stage.L, kd.1, kd.2⟩) bs gs := by
    simp [TFLQT.condGen, List.zipWith_map_left]
  rw [e1, h1] at f5
  simp only [Except.ok.injEq, Prod.mk.injEq] at f5
  refine ⟨_, r, gs, cxs, cus, us, hC, hcl, hne, hr, hb, hgs, hgl, h1, ?_, h2, h3, h4⟩
  rw [fwdBwd_gains f1, f5.1, f5.2]
  refine congrArg Except.ok (Prod.ext rfl ?_)
  have e2 : (gs.map Prod.fst).zip (gs.map Prod.snd) = gs := by
    rw [List.zip_map']
    simp
  have e3 : ∀ (bs : List (TCBlock N n m K)) (gs : List (Matrix (Fin (N * m)) (Fin n) K × (Fin (N * m) → K))) (ys : List (Fin n → K)),
      gs.length = bs.length → List.zipWith (fun Kd x => -(Kd.1 *ᵥ x) + Kd.2) gs ys =
      fwdControls (List.zipWith (fun (c : TCBlock N n m K) kd => ⟨c.stage.F, c.stage.c, c.stage.L, kd.1, kd.2⟩) bs gs) ys := by
    intro bs
    induction bs with
    | nil => intro gs ys h; rw [List.length_eq_zero_iff.1 h]; rfl
    | cons b bs ih =>
      intro gs ys h
      cases gs with
      | nil => simp at h
      | cons g gs =>
        cases ys with
        | nil => rfl
        | cons y ys =>
          have := ih gs ys (by simpa using h)
          simp only [List.zipWith_cons_cons, fwdControls] at this ⊢
          rw [this]
  rw [e2]
  exact e3 bs gs _ hgl

theorem tfGains_cond (bs : List (TCBlock N n m K)) (gs : List (Matrix (Fin (N * m)) (Fin n) K × (Fin (N * m) → K))) :
    tfGains ((bs.map TCBlock.stage).map GStage.toTStage) (gs.map Prod.fst) (gs.map Prod.snd) =
      List.zipWith (fun (c : TCBlock N n m K) kd => ⟨c.stage.F, c.stage.c, c.stage.L, kd.1, kd.2⟩) bs gs := by
  unfold tfGains
  rw [List.zip_map', List.map_map]
  simp [List.zipWith_map_left]

/-- The three pipelines with condensing return the optimum. -/
theorem sp_cond {P : TFLQT n m p q K} (hP : P.Convex) (hT : P.stages ≠ []) {bs : List (TCBlock N n m K)}
    (hbs : tfCondense N P.stages = .ok bs) {scan : AScan} (hs : ∀ α, IsAssocScan (scan α)) (x0 : Fin n → K) :
    ∃ us, P.spSeqCond N x0 = .ok (x0 :: lqtRun P.toLQT.stages x0 us, us) ∧
      P.spParCond1 scan N x0 = .ok (x0 :: lqtRun P.toLQT.stages x0 us, us) ∧
      P.spParCond2 scan N x0 = .ok (x0 :: lqtRun P.toLQT.stages x0 us, us) ∧
      us.length = P.stages.length ∧ ∀ us', us'.length = P.stages.length → us' ≠ us →
        lqtTotal P.toLQT.final P.toLQT.stages x0 us < lqtTotal P.toLQT.final P.toLQT.stages x0 us' := by
  obtain ⟨C, r, gs, cxs, cus, us, hC, hcl, hne, hr, hb, hgs, hgl, h1, h2, h3, h4, h5⟩ := cond_parts hP hT hbs (hs _) x0
  have hC' : (⟨bs.map TCBlock.stage, P.HT, P.rT, P.XT⟩ : TFGen n (N * m) n q K).canon = .ok C := hC
  have hgs' : (⟨bs.map TCBlock.stage, P.HT, P.rT, P.XT⟩ : TFGen n (N * m) n q K).back r.Kx_list r.d_list = .ok gs := hgs
  have hpos : 1 ≤ C.stages.length := by
    rw [hcl]
    exact List.length_pos_iff.2 hne
  have hz : (List.zipWith (fun (c : TCBlock N n m K) kd => (⟨c.stage.F, c.stage.c, c.stage.L, kd.1, kd.2⟩ : TFwd n (N * m) K))
      bs gs).length ≤ C.stages.length := by simp [hcl]
  obtain ⟨m1, -, m3⟩ := C54_lqt (scan (Elem n K)) (scan _) C.stages.length C x0 r _ hpos le_rfl hz
  obtain ⟨-, m2, -⟩ := C54_lqt (scan (Elem n K)) (scan _) C.stages.length C x0
    ⟨gs.map Prod.fst, gs.map Prod.snd, r.S_list, r.v_list⟩ _ hpos le_rfl hz
  have hpf := tf_par_fwd_eq (hs _) x0
    (List.zipWith (fun (c : TCBlock N n m K) kd => (⟨c.stage.F, c.stage.c, c.stage.L, kd.1, kd.2⟩ : TFwd n (N * m) K)) bs gs)
  refine ⟨us, ?_, ?_, ?_, h4, h5⟩
  · unfold TFLQT.spSeqCond
    rw [hbs, py_ok_bind]
    dsimp only
    rw [hC', py_ok_bind, hb, py_ok_bind, hgs', py_ok_bind, tfGains_cond, h1, py_ok_bind, h3]
    rfl
  · unfold TFLQT.spParCond1
    rw [hbs, py_ok_bind]
    dsimp only
    rw [hC', py_ok_bind, m1, hr, py_ok_bind, hgs', py_ok_bind, tfGains_cond, m3, hpf, h1, py_ok_bind, h3]
    rfl
  · unfold TFLQT.spParCond2
    rw [hbs, py_ok_bind]
    dsimp only
    rw [hC', py_ok_bind, m1, hr, py_ok_bind, hgs', py_ok_bind, m2, h2, py_ok_bind, h3]
    rfl

theorem sp_cond_error {P : TFLQT n m p q K} {e : PyErr} (hbs : (tfCondense N P.stages : Py (List (TCBlock N n m K))) = .error e)
    (scan : AScan) (x0 : Fin n → K) : P.spSeqCond N x0 = .error e ∧ P.spParCond1 scan N x0 = .error e ∧
      P.spParCond2 scan N x0 = .error e := by
  unfold TFLQT.spSeqCond TFLQT.spParCond1 TFLQT.spParCond2
  rw [hbs]
  exact ⟨rfl, rfl, rfl⟩

end Ordered

end Verif
