import Verif.Proof.CondensingTF

/-! Partial condensing in TensorFlow: whole problem. -/

namespace Verif

open Matrix

variable {n m p q N : ℕ} {K : Type} [Field K]

theorem convert_gen (T : ℕ) : ∀ (bs : List (CBlock N n m K)) (us : List (Fin (N * m) → K)) (xs : List (Fin n → K)),
    us.length = bs.length → bs.length ≤ xs.length → ∀ (A : List (Fin m → K)) (B : List (Fin n → K)), A.length = B.length →
    (List.range us.length).foldlM (fun acc i => do
        let u ← pyGet us i
        let x ← pyGet xs i
        let b ← pyGet bs i
        return convertInner T u (b.Lambda *ᵥ x + b.cbar + b.Lbar *ᵥ u) acc) (A.take T, B.take T) =
      (.ok ((A ++ us.flatMap fun u => List.ofFn fun (i : Fin N) a => u (finProdFinEquiv (i, a))).take T,
        (B ++ (List.zipWith (fun (c : CBlock N n m K) (xu : (Fin n → K) × (Fin (N * m) → K)) =>
          c.Lambda *ᵥ xu.1 + c.cbar + c.Lbar *ᵥ xu.2) bs (xs.zip us)).flatMap
          fun y => List.ofFn fun (i : Fin N) a => y (i, a)).take T) : Py (List (Fin m → K) × List (Fin n → K))) := by
  intro bs
  induction bs with
  | nil =>
    intro us xs hu hx A B hAB
    obtain rfl : us = [] := by simpa using hu
    simp [pure, Except.pure]
  | cons b bs ih =>
    intro us xs hu hx A B hAB
    cases us with
    | nil => simp at hu
    | cons u us =>
      cases xs with
      | nil => simp at hx
      | cons x xs =>
        have h1 := ih us xs (by simpa using hu) (by simpa using hx)
          (A ++ List.ofFn (unflat u)) (B ++ List.ofFn fun i a => (b.Lambda *ᵥ x + b.cbar + b.Lbar *ᵥ u) (i, a))
          (by simp [hAB])
        rw [List.length_cons, List.range_succ_eq_map, List.foldlM_cons]
        simp only [List.foldlM_map]
        have hz : ∀ {β : Type} (a : β) (l : List β), pyGet (a :: l) 0 = .ok a := fun a l => rfl
        have hsuc : ∀ {β : Type} (a : β) (l : List β) i, pyGet (a :: l) (i + 1) = pyGet l i := by
          intro β a l i
          simp [pyGet]
        simp only [hz, Nat.succ_eq_add_one, hsuc]
        have hb : ∀ {α β : Type} (a : α) (f : α → Py β), ((Except.ok a : Py α) >>= f) = f a := fun _ _ => rfl
        simp only [hb, pure, Except.pure] at h1 ⊢
        rw [convertInner_eq _ _ _ _ _ hAB, h1]
        simp only [List.flatMap_cons, List.zip_cons_cons, List.zipWith_cons_cons, List.append_assoc]
        rfl

/-- Both versions of `convertUX`. -/
theorem tfConvert_eq (T : ℕ) (bs : List (TCBlock N n m K)) (us : List (Fin (N * m) → K)) (xs : List (Fin n → K))
    (hu : us.length = bs.length) (hx : xs.length = bs.length + 1) :
    tfConvertUX T bs us xs = convertUX T (bs.map TCBlock.np) us xs := by
  have hne : xs ≠ [] := by
    rintro rfl
    simp at hx
  have hd : xs.dropLast.length = bs.length := by simp [hx]
  unfold tfConvertUX convertUX
  rw [if_neg (by push Not; exact ⟨hd, hu⟩)]
  have h1 := convert_gen T (bs.map TCBlock.np) us xs (by simp [hu]) (by simp [hx]) [] [] rfl
  simp only [List.take_nil, List.nil_append] at h1
  rw [h1]
  rw [List.getLast?_eq_some_getLast hne]
  have hb : ∀ {α β : Type} (a : α) (f : α → Py β), ((Except.ok a : Py α) >>= f) = f a := fun _ _ => rfl
  simp only [hb]
  have e : xs.zip us = xs.dropLast.zip us := by
    conv_lhs => rw [← List.dropLast_append_getLast hne, ← List.append_nil us]
    rw [List.zip_append (by rw [hd, hu])]
    simp
  rw [e, List.zipWith_map_left]
  rfl

section Ordered
variable [LinearOrder K] [IsStrictOrderedRing K]

theorem tfPad_prop {ss : List (TStage n m p K)} (hs : ∀ s ∈ ss, s.Xᵀ = s.X ∧ s.Uᵀ = s.U) {s : TStage n m p K}
    (h : s ∈ ss ∨ s = tfPadStage) : (s.toB.Xᵀ = s.toB.X ∧ s.toB.Uᵀ = s.toB.U) ∧ s.toB.Plain := by
  refine ⟨?_, rfl, rfl, rfl⟩
  rcases h with h | rfl
  · exact hs _ h
  · exact ⟨transpose_zero, transpose_one⟩

theorem condGen_stages (P : TFLQT n m p q K) (bs : List (TCBlock N n m K)) :
    (P.condGen bs).toLQT.stages = (bs.map TCBlock.np).map CBlock.stage := by
  simp [TFLQT.condGen, TFGen.toLQT, TCBlock.np]

/-- Properties of the condensed problem. -/
theorem tfCond_main {P : TFLQT n m p q K} (hP : P.Sym) (hT : P.stages ≠ []) {bs : List (TCBlock N n m K)}
    (h : tfCondense N P.stages = .ok bs) : ∃ (κ : K) (k : ℕ), bs.length = (P.stages.length + N - 1) / N ∧
      P.stages.length + k = N * bs.length ∧ (P.condGen bs).Sym ∧ bs ≠ [] ∧ ∀ x us, us.length = bs.length →
        lqtTotal P.toLQT.final P.toLQT.stages x ((splitControls N us).take P.stages.length) +
          (((splitControls N us).drop P.stages.length).map fun w => (1 / 2) * (w ⬝ᵥ w)).sum =
          lqtTotal (P.condGen bs).toLQT.final (P.condGen bs).toLQT.stages x us + κ ∧
        (∀ j ≤ bs.length, (x :: lqtRun (P.condGen bs).toLQT.stages x us)[j]? =
          (x :: lqtRun P.toLQT.stages x ((splitControls N us).take P.stages.length))[min (N * j) P.stages.length]?) ∧
        convertUX P.stages.length (bs.map TCBlock.np) us (x :: lqtRun (P.condGen bs).toLQT.stages x us) =
          .ok ((splitControls N us).take P.stages.length,
            x :: lqtRun P.toLQT.stages x ((splitControls N us).take P.stages.length)) := by
  have hN : 0 < N := by
    rcases Nat.eq_zero_or_pos N with h0 | h0
    · subst h0
      unfold tfCondense at h
      cases h
    · exact h0
  obtain ⟨t, k, B, ht, hB, hmem, hlen, hc, -⟩ := tfCondense_iff hT hN
  rw [hc] at h
  obtain ⟨hlb, hbk⟩ := mapM_range_ok.1 h
  have hprop : ∀ k < t, ∀ i, ((B k i).toB.Xᵀ = (B k i).toB.X ∧ (B k i).toB.Uᵀ = (B k i).toB.U) ∧ (B k i).toB.Plain :=
    fun k hk i => tfPad_prop hP.1 (hmem k hk i)
  have hF : List.Forall₂ (fun b c => ∃ κ, CondOk b c κ) ((List.range t).map fun k i => (B k i).toB) (bs.map TCBlock.np) := by
    rw [List.forall₂_map_left_iff, List.forall₂_map_right_iff]
    refine forall₂_range.2 ⟨hlb, fun k hk => ?_⟩
    obtain ⟨c, h1, h2⟩ := hbk k hk
    obtain ⟨-, rs, hrs, hc⟩ := (tfCondBlock_ok hN).1 h2
    refine ⟨c, h1, condConst (fun i => (B k i).toB) rs, ?_⟩
    rw [hc]
    exact condStage_condOk (fun i => (hprop k hk i).1) (fun i => (hprop k hk i).2) hrs
  have hl' : P.toLQT.stages.length = P.stages.length := by simp [TFLQT.toLQT]
  obtain ⟨κ, hcore⟩ := cond_core (P := P.toLQT) hN hB (by rw [hl']; exact hlen) hF
  have hT' : 0 < P.stages.length := List.length_pos_iff.2 hT
  refine ⟨κ, k, hlb.trans ht, by rw [hlb, hlen], ⟨?_, hP.2⟩, ?_, ?_⟩
  · intro s hs
    simp only [TFLQT.condGen, List.mem_map] at hs
    obtain ⟨c, hc, rfl⟩ := hs
    obtain ⟨k, hk, hck⟩ := List.getElem_of_mem hc
    obtain ⟨c', h1, h2⟩ := hbk k (by omega)
    rw [List.getElem?_eq_getElem hk, hck, Option.some.injEq] at h1
    subst h1
    obtain ⟨-, rs, -, he⟩ := (tfCondBlock_ok hN).1 h2
    have hsymm := condQ_symm (b := fun i => (B k i).toB) fun i => (hprop k (by omega) i).1
    obtain ⟨⟨⟨F, c, L, H, r, X, U⟩, M, s⟩, Lam, cb, Lb⟩ := c
    simp only [TCBlock.np, GStage.toL, condStage, CBlock.mk.injEq, LStage.mk.injEq, heq_eq_eq, true_and] at he
    obtain ⟨⟨-, -, hX, hU, -⟩, -⟩ := he
    simp only [hX, hU]
    exact ⟨funext fun i => funext fun j => congrFun (congrFun hsymm (.inl i)) (.inl j),
      funext fun i => funext fun j => congrFun (congrFun hsymm (.inr i)) (.inr j)⟩
  · rintro rfl
    have h0 : t = 0 := hlb.symm
    rw [h0, Nat.mul_zero] at hlen
    omega
  · intro x us hu
    rw [condGen_stages]
    have := hcore x us (hu.trans hlb)
    rw [hl'] at this
    rw [hlb]
    exact this

/-- Where numpy completes, TensorFlow returns the same. -/
theorem tfCond_np {P : TFLQT n m p q K} (hP : P.Sym) (hT : P.stages ≠ []) {cP : LQT n (N * m) K} {cbs : List (CBlock N n m K)}
    (h : P.toLQT.condense N = .ok (cP, cbs)) :
    ∃ bs, tfCondense N P.stages = .ok bs ∧ cbs = bs.map TCBlock.np ∧ cP = (P.condGen bs).toLQT := by
  have hN : 0 < N := by
    rcases Nat.eq_zero_or_pos N with h0 | h0
    · subst h0
      obtain ⟨s, ss, hss⟩ := List.exists_cons_of_ne_nil hT
      unfold LQT.condense at h
      rw [TFLQT.toLQT, hss] at h
      cases h
    · exact h0
  obtain ⟨t, k, B, ht, hB, hmem, hlen, hc, hnp⟩ := tfCondense_iff hT hN
  have hnp : P.toLQT.condense N = _ := hnp q P.XT P.HT P.rT
  rw [hnp, bind_ok] at h
  obtain ⟨bs, hbs, h⟩ := h
  simp only [pure, Except.pure, Except.ok.injEq, Prod.mk.injEq] at h
  obtain ⟨rfl, rfl⟩ := h
  obtain ⟨hlb, hbk⟩ := mapM_range_ok.1 hbs
  have hx : ∀ k < t, ∃ d, tfCondBlock (B k) = .ok d ∧ bs[k]? = some d.np := by
    intro k hk
    obtain ⟨c, h1, h2⟩ := hbk k hk
    obtain ⟨hpd, rs, hrs, rfl⟩ := (condBlock_ok fun i => (tfPad_prop hP.1 (hmem k hk i)).1).1 h2
    obtain ⟨d, hd⟩ := ((tfCondBlock_total hN (B k)).resolve_right fun h' => hpd.det_ne_zero h'.1).2
    obtain ⟨-, rs', hrs', hd'⟩ := (tfCondBlock_ok hN).1 hd
    refine ⟨d, hd, ?_⟩
    rw [h1, hd']
    have : rs = rs' := by
      have h3 := congrArg (minv (condQ fun i => (B k i).toB) *ᵥ ·) (hrs.trans hrs'.symm)
      simpa [mulVec_mulVec, minv_mul hpd.det_ne_zero] using h3
    rw [this]
  have hx' : ∀ k, ∃ d : TCBlock N n m K, k < t → tfCondBlock (B k) = .ok d ∧ bs[k]? = some d.np := by
    intro k
    by_cases hk : k < t
    · obtain ⟨d, hd⟩ := hx k hk
      exact ⟨d, fun _ => hd⟩
    · exact ⟨⟨⟨⟨0, 0, 0, 0, 0, 0, 0⟩, 0, 0⟩, 0, 0, 0⟩, fun h => absurd h hk⟩
  choose D hD using hx'
  have hD1 : ∀ k < t, tfCondBlock (B k) = .ok (D k) := fun k hk => (hD k hk).1
  have hD2 : ∀ k < t, bs[k]? = some (D k).np := fun k hk => (hD k hk).2
  have e : bs = ((List.range t).map D).map TCBlock.np := by
    refine list_ext_of hlb (by simp) fun k hk => ?_
    rw [hD2 k hk]
    simp [hk]
  refine ⟨(List.range t).map D, ?_, e, ?_⟩
  · rw [hc]
    exact mapM_range_of hD1
  · rw [e]
    simp [TFLQT.condGen, TFGen.toLQT, TCBlock.np]

/-- For convex problems both complete or none. -/
theorem tfCond_convex {P : TFLQT n m p q K} (hP : P.Convex) (hT : P.stages ≠ []) {bs : List (TCBlock N n m K)}
    (h : tfCondense N P.stages = .ok bs) : P.toLQT.condense N = .ok ((P.condGen bs).toLQT, bs.map TCBlock.np) := by
  have hN : 0 < N := by
    rcases Nat.eq_zero_or_pos N with h0 | h0
    · subst h0
      unfold tfCondense at h
      cases h
    · exact h0
  obtain ⟨t, k, B, ht, hB, hmem, hlen, hc, hnp⟩ := tfCondense_iff hT hN
  have hnp : P.toLQT.condense N = _ := hnp q P.XT P.HT P.rT
  have hS := hP.toSym
  have hprop : ∀ k < t, ∀ i, ((B k i).toB.Xᵀ = (B k i).toB.X ∧ (B k i).toB.Uᵀ = (B k i).toB.U) ∧ (B k i).toB.Plain :=
    fun k hk i => tfPad_prop hS.1 (hmem k hk i)
  have hcv : ∀ k < t, ∀ i, (B k i).toL.Convex := by
    intro k hk i
    rcases hmem k hk i with h | h
    · have := hP.1 _ h
      exact TStage.toL_convex this.1 this.2.1 this.2.2
    · rw [h]
      exact TStage.toL_convex ⟨transpose_zero, fun x => by simp [tfPadStage]⟩ transpose_one fun x hx => by
        simpa [tfPadStage] using dot_self_pos hx
  rw [hc] at h
  obtain ⟨hlb, hbk⟩ := mapM_range_ok.1 h
  have hok : ∀ k < t, ∃ c : TCBlock N n m K, bs[k]? = some c ∧ condBlock (fun i => (B k i).toB) = .ok c.np := by
    intro k hk
    obtain ⟨c, h1, h2⟩ := hbk k hk
    refine ⟨c, h1, ?_⟩
    obtain ⟨hd, rs, hrs, hc⟩ := (tfCondBlock_ok hN).1 h2
    rw [condBlock_ok fun i => (hprop k hk i).1]
    refine ⟨?_, rs, hrs, hc⟩
    have hpsd : IsPSD (condQ fun i => (B k i).toB) := by
      refine ⟨condQ_symm fun i => (hprop k hk i).1, fun z => ?_⟩
      have h1 := condQ_homog (fun i => (B k i).toB) (fun i => (hprop k hk i).2) (z ∘ Sum.inl) (unflat (z ∘ Sum.inr))
      rw [flat_unflat, Sum.elim_comp_inl_inr] at h1
      rw [h1]
      have := (homog_pos (ss := blkStages fun i => (B k i).toB) (us := List.ofFn (unflat (z ∘ Sum.inr))) (z ∘ Sum.inl)
        (by simp [blkStages]) (by
          intro s hs
          obtain ⟨i, rfl⟩ := List.mem_ofFn.1 hs
          exact ⟨(hprop k hk i).2, hcv k hk i⟩)).1
      linarith
    intro x hx
    refine lt_of_le_of_ne (hpsd.2 x) fun h0 => hx ?_
    have h3 := congrArg (minv (condQ fun i => (B k i).toB) *ᵥ ·) (hpsd.mulVec_eq_zero h0.symm)
    simpa [mulVec_mulVec, minv_mul hd] using h3
  have hm : (List.range t).mapM (fun k => condBlock fun i => (B k i).toB) = .ok (bs.map TCBlock.np) := by
    refine mapM_range_ok.2 ⟨by simp [hlb], fun k hk => ?_⟩
    obtain ⟨c, h1, h2⟩ := hok k hk
    exact ⟨c.np, by simp [h1], h2⟩
  have e : (P.condGen bs).toLQT = ⟨(bs.map TCBlock.np).map CBlock.stage, q, P.XT, P.HT, P.rT⟩ := by
    rw [← condGen_stages P]
    rfl
  rw [hnp, hm, e]
  rfl

/-! ### Solution -/

theorem tf_par_fwd_eq {scan : (Matrix (Fin n) (Fin n) K × (Fin n → K) → Matrix (Fin n) (Fin n) K × (Fin n → K) →
      Py (Matrix (Fin n) (Fin n) K × (Fin n → K))) → List (Matrix (Fin n) (Fin n) K × (Fin n → K)) →
      Py (List (Matrix (Fin n) (Fin n) K × (Fin n → K)))} (hs : IsAssocScan scan) (x0 : Fin n → K)
    (gs : List (TFwd n m K)) : lqtTfParForward scan x0 gs = lqtTfSeqForward x0 gs := by
  by_cases hne : gs = []
  · subst hne; rfl
  · have hd : List.Forall₂ LStage.SameDyn (gs.map fun g => (⟨0, g.F, g.L, 0, 0, g.c, 0, 0, 0, 0, 0⟩ : LStage n m K)) gs := by
      rw [List.forall₂_map_left_iff]
      exact List.forall₂_same.2 fun g _ => ⟨rfl, rfl, rfl⟩
    have h1 := tf_par_fw hs (P := ⟨_, 0, 0, 0, 0⟩) hne hd x0
    have h2 := tf_seq_fw (P := ⟨_, 0, 0, 0, 0⟩) hne hd x0
    have h3 := h1.trans h2.symm
    cases ha : lqtTfParForward scan x0 gs <;> cases hb : lqtTfSeqForward x0 gs <;> rw [ha, hb] at h3
    · simpa [Except.map] using h3
    · cases h3
    · cases h3
    · simp only [Except.map, Except.ok.injEq] at h3
      rw [Prod.swap_injective h3]

/-- The passes used after condensing. -/
structure GoodPasses (bwd : TFLQT n (N * m) n q K → Py (BwResult n (N * m) K))
    (fwd : (Fin n → K) → List (TFwd n (N * m) K) → Py (List (Fin n → K) × List (Fin (N * m) → K))) : Prop where
  bw : ∀ C r, C.Sym → bwd C = .ok r → C.seqBackward = .ok r
  fw : ∀ x0 gs, fwd x0 gs = lqtTfSeqForward x0 gs
  total : ∀ C, C.Convex → ∃ r, bwd C = .ok r

theorem goodPasses {scan : (Elem n K → Elem n K → Py (Elem n K)) → List (Elem n K) → Py (List (Elem n K))}
    (hs : IsAssocScan scan) {scan' : (Matrix (Fin n) (Fin n) K × (Fin n → K) → Matrix (Fin n) (Fin n) K × (Fin n → K) →
      Py (Matrix (Fin n) (Fin n) K × (Fin n → K))) → List (Matrix (Fin n) (Fin n) K × (Fin n → K)) →
      Py (List (Matrix (Fin n) (Fin n) K × (Fin n → K)))} (hs' : IsAssocScan scan')
    {bwd : TFLQT n (N * m) n q K → Py (BwResult n (N * m) K)}
    (hb : bwd = TFLQT.seqBackward ∨ bwd = TFLQT.parBackward scan)
    {fwd : (Fin n → K) → List (TFwd n (N * m) K) → Py (List (Fin n → K) × List (Fin (N * m) → K))}
    (hf : fwd = lqtTfSeqForward ∨ fwd = lqtTfParForward scan') : GoodPasses bwd fwd := by
  have hseq : ∀ C : TFLQT n (N * m) n q K, C.Convex → ∃ r, C.seqBackward = .ok r := by
    intro C hC
    obtain ⟨r, hr⟩ := tf_par_bw_total hs hC
    exact ⟨r, (tf_seq_bw hC.toSym).2 (tf_par_bw hs hC.toSym hr)⟩
  refine ⟨?_, ?_, ?_⟩
  · rcases hb with rfl | rfl
    · exact fun C r _ h => h
    · exact fun C r hC h => (tf_seq_bw hC).2 (tf_par_bw hs hC h)
  · rcases hf with rfl | rfl
    · exact fun _ _ => rfl
    · exact fun x0 gs => tf_par_fwd_eq hs' x0 gs
  · rcases hb with rfl | rfl
    · exact hseq
    · exact fun C hC => tf_par_bw_total hs hC

theorem tfSolve_core {P : TFLQT n m p q K} (hP : P.Sym) (hT : P.stages ≠ []) {bs : List (TCBlock N n m K)}
    (hbs : tfCondense N P.stages = .ok bs) {C : TFLQT n (N * m) n q K} (hC : (P.condGen bs).canon = .ok C)
    {r : BwResult n (N * m) K} (hb : C.seqBackward = .ok r) {gs : List (Matrix (Fin (N * m)) (Fin n) K × (Fin (N * m) → K))}
    (hgs : (P.condGen bs).back r.Kx_list r.d_list = .ok gs) (x0 : Fin n → K) : ∃ cxs cus us,
      lqtTfSeqForward x0 (List.zipWith (fun (c : TCBlock N n m K) kd => ⟨c.stage.F, c.stage.c, c.stage.L, kd.1, kd.2⟩) bs gs) =
        .ok (cxs, cus) ∧ tfConvertUX P.stages.length bs cus cxs = .ok (us, x0 :: lqtRun P.toLQT.stages x0 us) ∧
    us.length = P.stages.length ∧ ∀ us', us'.length = P.stages.length → us' ≠ us →
      lqtTotal P.toLQT.final P.toLQT.stages x0 us < lqtTotal P.toLQT.final P.toLQT.stages x0 us' := by
  obtain ⟨κ, k, hl, hlk, hS, hne, hmain⟩ := tfCond_main hP hT hbs
  have hR : (P.condGen bs).toLQT.seqBackwardPass = .ok ⟨gs.map Prod.fst, gs.map Prod.snd, r.S_list, r.v_list⟩ := by
    refine ((canon_solve hS).1 ?_).2
    rw [hC]
    change (C.seqBackward >>= fun r => _) = _
    rw [hb]
    change ((P.condGen bs).back r.Kx_list r.d_list >>= fun gs => _) = _
    rw [hgs]
    rfl
  have hlC : (P.condGen bs).toLQT.stages.length = bs.length := by simp [condGen_stages]
  have hlP : P.toLQT.stages.length = P.stages.length := by simp [TFLQT.toLQT]
  obtain ⟨cus', us', h1, h2, h3, h4, h5⟩ := cond_core_solution (P := P.toLQT) (cP := (P.condGen bs).toLQT)
    (cbs := bs.map TCBlock.np) (κ := κ) (k := k)
    ⟨by
      intro s hs
      simp only [TFGen.toLQT, List.mem_map] at hs
      obtain ⟨g, hg, rfl⟩ := hs
      exact hS.1 g hg, hS.2⟩ (by rw [hlC, hlP, hlk])
    (fun x us hu => by
      have := hmain x us (hu.trans hlC)
      rw [hlP]
      exact ⟨this.1, this.2.2⟩) hR x0
  have hgl : gs.length = bs.length := by
    have := mapM_ok_iff.1 hgs |>.length_eq
    have h6 := (mapM_ok_iff.1 (bind_ok.1 hC).choose_spec.1).length_eq
    have e1 : r.Kx_list.length = C.stages.length ∧ r.d_list.length = C.stages.length := by
      obtain ⟨ro, hro, he⟩ := bind_ok.1 hb
      simp only [pure, Except.pure, Except.ok.injEq] at he
      have hlen : ∀ (ss : List (TStage n (N * m) n K)) (st : TCarry n (N * m) K) ro,
          tfScanRev (fun st s => TStage.bwBody s st) st ss = .ok ro → ro.1.length = ss.length := by
        intro ss
        induction ss with
        | nil => intro st ro h; cases h; rfl
        | cons s ss ih =>
          intro st ro h
          simp only [tfScanRev, bind_ok] at h
          obtain ⟨r1, h1, b, h2, h3⟩ := h
          simp only [pure, Except.pure, Except.ok.injEq] at h3
          rw [← h3]
          simp [ih _ _ h1]
      rw [← he]
      simp [hlen _ _ _ hro]
    have e2 : C.stages.length = bs.length := by
      obtain ⟨cs, hcs, he⟩ := bind_ok.1 hC
      simp only [pure, Except.pure, Except.ok.injEq] at he
      rw [← he, ← (mapM_ok_iff.1 hcs).length_eq]
      simp [TFLQT.condGen]
    rw [← this]
    simp [TFLQT.condGen, e1, e2]
  have hsd : List.Forall₂ LStage.SameDyn (P.condGen bs).toLQT.stages (List.zipWith (fun (c : TCBlock N n m K)
      (kd : Matrix (Fin (N * m)) (Fin n) K × (Fin (N * m) → K)) =>
      (⟨c.stage.F, c.stage.c, c.stage.L, kd.1, kd.2⟩ : TFwd n (N * m) K)) bs gs) := by
    rw [List.forall₂_iff_get]
    refine ⟨by simp [hlC, hgl], fun i h1 h2 => ?_⟩
    simp only [List.get_eq_getElem, TFGen.toLQT, TFLQT.condGen, List.getElem_map, List.getElem_zipWith]
    exact ⟨rfl, rfl, rfl⟩
  have hfw := tf_seq_fw (P := (P.condGen bs).toLQT) (by
    intro h0
    have := congrArg List.length h0
    simp [hgl] at this
    exact hne this) hsd x0
  have hK : (List.zipWith (fun (c : TCBlock N n m K) (kd : Matrix (Fin (N * m)) (Fin n) K × (Fin (N * m) → K)) =>
      (⟨c.stage.F, c.stage.c, c.stage.L, kd.1, kd.2⟩ : TFwd n (N * m) K)) bs gs).map TFwd.Kx = gs.map Prod.fst := by
    apply List.ext_getElem <;> simp [hgl]
  have hd : (List.zipWith (fun (c : TCBlock N n m K) (kd : Matrix (Fin (N * m)) (Fin n) K × (Fin (N * m) → K)) =>
      (⟨c.stage.F, c.stage.c, c.stage.L, kd.1, kd.2⟩ : TFwd n (N * m) K)) bs gs).map TFwd.d = gs.map Prod.snd := by
    apply List.ext_getElem <;> simp [hgl]
  rw [hK, hd, h1] at hfw
  have hcl : cus'.length = bs.length := h4.trans hlC
  rw [hlP] at h2 h3 h5
  refine ⟨x0 :: lqtRun (P.condGen bs).toLQT.stages x0 cus', cus', us', ?_, ?_, h3, h5⟩
  · cases ha : lqtTfSeqForward x0 (List.zipWith (fun (c : TCBlock N n m K) kd =>
        (⟨c.stage.F, c.stage.c, c.stage.L, kd.1, kd.2⟩ : TFwd n (N * m) K)) bs gs) with
    | error e => rw [ha] at hfw; cases hfw
    | ok v =>
      rw [ha] at hfw
      simp only [Except.map, Except.ok.injEq] at hfw
      rw [← Prod.swap_swap v, hfw]
      rfl
  · rw [tfConvert_eq _ _ _ _ hcl (by
      rw [List.length_cons, lqtRun_length (by rw [hcl, hlC]), hcl]), h2]

theorem tfSolve_ok {P : TFLQT n m p q K} (hP : P.Sym) (hT : P.stages ≠ [])
    {bwd : TFLQT n (N * m) n q K → Py (BwResult n (N * m) K)}
    {fwd : (Fin n → K) → List (TFwd n (N * m) K) → Py (List (Fin n → K) × List (Fin (N * m) → K))} (hg : GoodPasses bwd fwd)
    {x0 : Fin n → K} {us : List (Fin m → K)} {xs : List (Fin n → K)} (h : P.condSolve N bwd fwd x0 = .ok (us, xs)) :
    us.length = P.stages.length ∧ xs = x0 :: lqtRun P.toLQT.stages x0 us ∧ ∀ us', us'.length = P.stages.length → us' ≠ us →
      lqtTotal P.toLQT.final P.toLQT.stages x0 us < lqtTotal P.toLQT.final P.toLQT.stages x0 us' := by
  unfold TFLQT.condSolve at h
  simp only [bind_ok] at h
  obtain ⟨bs, hbs, C, hC, r, hr, gs, hgs, ⟨cxs, cus⟩, hf, hcv⟩ := h
  obtain ⟨κ, k, hl, hlk, hS, hne, hmain⟩ := tfCond_main hP hT hbs
  have hb := hg.bw C r (canon_sym hS hC) hr
  obtain ⟨cxs', cus', us', h1, h2, h3, h4⟩ := tfSolve_core hP hT hbs hC hb hgs x0
  rw [hg.fw] at hf
  have h5 := hf.symm.trans h1
  simp only [Except.ok.injEq, Prod.mk.injEq] at h5
  obtain ⟨rfl, rfl⟩ := h5
  rw [h2, Except.ok.injEq, Prod.mk.injEq] at hcv
  obtain ⟨rfl, rfl⟩ := hcv
  exact ⟨h3, rfl, h4⟩

theorem canon_convex {g : GStage n m p K} (hg : g.toL.Convex) : ∃ t, g.canon = .ok t ∧ IsPSD t.X ∧ t.Uᵀ = t.U ∧ IsPD t.U := by
  have hU : g.Uᵀ = g.U := hg.sym.2
  have hpd : IsPD g.U := hg.pd
  have hX : g.Xᵀ = g.X := hg.sym.1
  refine ⟨_, (canon_ok hU).2 ⟨hpd, rfl⟩, ⟨?_, fun y => ?_⟩, hU, hpd⟩
  · dsimp only
    rw [transpose_sub, hX, transpose_mul, transpose_mul, minv_transpose, hU, transpose_transpose, Matrix.mul_assoc]
  · dsimp only
    have h1 := hg.joint y (-(minv g.U *ᵥ (g.Mᵀ *ᵥ y)))
    have h2 : g.U *ᵥ (minv g.U *ᵥ (g.Mᵀ *ᵥ y)) = g.Mᵀ *ᵥ y := by
      rw [mulVec_mulVec, mul_minv hpd.det_ne_zero, one_mulVec]
    have h3 : (minv g.U *ᵥ (g.Mᵀ *ᵥ y)) ⬝ᵥ (g.Mᵀ *ᵥ y) = y ⬝ᵥ (g.M *ᵥ (minv g.U *ᵥ (g.Mᵀ *ᵥ y))) := by
      rw [dotProduct_comm, mulVec_transpose, ← dotProduct_mulVec]
    change 0 ≤ y ⬝ᵥ g.X *ᵥ y + 2 * (y ⬝ᵥ g.M *ᵥ (-(minv g.U *ᵥ (g.Mᵀ *ᵥ y)))) +
      (-(minv g.U *ᵥ (g.Mᵀ *ᵥ y))) ⬝ᵥ g.U *ᵥ (-(minv g.U *ᵥ (g.Mᵀ *ᵥ y))) at h1
    rw [mulVec_neg, mulVec_neg, h2, neg_dotProduct_neg, h3, dotProduct_neg] at h1
    rw [sub_mulVec, dotProduct_sub, ← mulVec_mulVec, ← mulVec_mulVec]
    linarith

theorem tfSolve_total {P : TFLQT n m p q K} (hP : P.Convex) (hT : P.stages ≠ []) {bs : List (TCBlock N n m K)}
    (hbs : tfCondense N P.stages = .ok bs) {bwd : TFLQT n (N * m) n q K → Py (BwResult n (N * m) K)}
    {fwd : (Fin n → K) → List (TFwd n (N * m) K) → Py (List (Fin n → K) × List (Fin (N * m) → K))} (hg : GoodPasses bwd fwd)
    (x0 : Fin n → K) : ∃ us xs, P.condSolve N bwd fwd x0 = .ok (us, xs) := by
  have hnp := tfCond_convex hP hT hbs
  obtain ⟨κ, k, hl, hlk, hS, hne, hmain⟩ := tfCond_main hP.toSym hT hbs
  have hcv : ∀ s ∈ (P.condGen bs).toLQT.stages, s.Convex := by
    obtain ⟨-, -, -, -, -, -, -, hc, -⟩ := cond_main hP.toSym.toLQT (fun s hs => by
      simp only [TFLQT.toLQT, List.mem_map] at hs
      obtain ⟨s, -, rfl⟩ := hs
      exact ⟨rfl, rfl, rfl⟩) (fun s hs s' hs' => by
      simp only [TFLQT.toLQT, List.mem_map] at hs hs'
      obtain ⟨s, -, rfl⟩ := hs
      obtain ⟨s', -, rfl⟩ := hs'
      rfl) hnp
    exact hc
  have hgc : ∀ g ∈ (P.condGen bs).stages, ∃ t, GStage.canon g = .ok t ∧ IsPSD t.X ∧ t.Uᵀ = t.U ∧ IsPD t.U := fun g hg =>
    canon_convex (hcv _ (List.mem_map.2 ⟨g, hg, rfl⟩))
  have hcs : ∀ gs : List (GStage n (N * m) n K), (∀ g ∈ gs, ∃ t, GStage.canon g = .ok t ∧ IsPSD t.X ∧ t.Uᵀ = t.U ∧ IsPD t.U) →
      ∃ cs, gs.mapM GStage.canon = .ok cs ∧ ∀ t ∈ cs, IsPSD t.X ∧ t.Uᵀ = t.U ∧ IsPD t.U := by
    intro gs
    induction gs with
    | nil => exact fun _ => ⟨[], rfl, by simp⟩
    | cons g gs ih =>
      intro h
      obtain ⟨t, h1, h2⟩ := h g (by simp)
      obtain ⟨cs, h3, h4⟩ := ih fun g' hg' => h g' (by simp [hg'])
      refine ⟨t :: cs, by rw [List.mapM_cons, h1, h3]; rfl, ?_⟩
      intro t' ht'
      rcases List.mem_cons.1 ht' with rfl | ht'
      · exact h2
      · exact h4 _ ht'
  obtain ⟨cs, hcs1, hcs2⟩ := hcs _ hgc
  have hC : (P.condGen bs).canon = .ok ⟨cs, P.HT, P.rT, P.XT⟩ := by
    unfold TFGen.canon
    rw [hcs1]
    rfl
  obtain ⟨r, hr⟩ := hg.total ⟨cs, P.HT, P.rT, P.XT⟩ ⟨hcs2, hP.2⟩
  have hpdU : ∀ g ∈ (P.condGen bs).stages, IsPD g.U := fun g hg => (hcv _ (List.mem_map.2 ⟨g, hg, rfl⟩)).pd
  have hb := hg.bw _ r (canon_sym hS hC) hr
  have hgs : (P.condGen bs).back r.Kx_list r.d_list = .ok _ := back_list (fun s hs => (hS.1 s hs).2) hpdU
  obtain ⟨cxs, cus, us, h1, h2, -⟩ := tfSolve_core hP.toSym hT hbs hC hb hgs x0
  refine ⟨us, x0 :: lqtRun P.toLQT.stages x0 us, ?_⟩
  unfold TFLQT.condSolve
  have hbind : ∀ {α β : Type} (a : α) (f : α → Py β), ((Except.ok a : Py α) >>= f) = f a := fun _ _ => rfl
  rw [hbs, hbind, hC, hbind, hr, hbind, hgs, hbind, hg.fw, h1, hbind]
  exact h2

end Ordered

end Verif
