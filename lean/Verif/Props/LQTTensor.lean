import Verif.Proof.LQTTensorFwd
import Verif.Props.CondensingTensor
import Verif.Props.LQTTF

/-!
Property C101: the batched tensor code of `/repo/parallel_control/lqt_tf.py`, modelled operation by operation, computes what the routines of
`/repo/parallel_control/lqt_np.py` compute, for every horizon, every dimension, every ordered field and every associative scan.
-/

namespace Verif

open Matrix

variable {n m p q : ℕ} {K : Type} [Field K]

omit [Field K] in
theorem Tens.HoldsM.inj {a b : ℕ} {t : Tens K} {l l' : List (Matrix (Fin a) (Fin b) K)} (h : t.HoldsM l) (h' : t.HoldsM l') : l = l' := by
  have hl : l.length = l'.length := (List.cons.inj (h.1.symm.trans h'.1)).1
  refine List.ext_getElem hl fun k h1 h2 => ?_
  ext i j
  exact (h.2 k h1 i j).symm.trans (h'.2 k h2 i j)

omit [Field K] in
theorem Tens.HoldsV.inj {a : ℕ} {t : Tens K} {l l' : List (Fin a → K)} (h : t.HoldsV l) (h' : t.HoldsV l') : l = l' := by
  have hl : l.length = l'.length := (List.cons.inj (h.1.symm.trans h'.1)).1
  refine List.ext_getElem hl fun k h1 h2 => ?_
  ext i
  exact (h.2 k h1 i).symm.trans (h'.2 k h2 i)

omit [Field K] in
theorem TensBw.Holds.inj {t : TensBw K} {r r' : BwResult n m K} (h : t.Holds r) (h' : t.Holds r') : r = r' := by
  obtain ⟨a, b, c, d⟩ := r
  obtain ⟨a', b', c', d'⟩ := r'
  have e1 := Tens.HoldsM.inj h.Ss h'.Ss
  have e2 := Tens.HoldsV.inj h.vs h'.vs
  have e3 := Tens.HoldsM.inj h.Kxs h'.Kxs
  have e4 := Tens.HoldsV.inj h.ds h'.ds
  dsimp only at e1 e2 e3 e4
  rw [e1, e2, e3, e4]

omit [Field K] in
theorem fwdTens_data {P : TFLQT n m p q K} {Fs cs Ls Hs rs Xs Us : Tens K} (h : StageTens P.stages Fs cs Ls Hs rs Xs Us) {r : BwResult n m K}
    {t : TensBw K} (ht : t.Holds r) (l1 : r.Kx_list.length = P.stages.length) (l2 : r.d_list.length = P.stages.length) :
    FwdTens (P.fwdData r) Fs cs Ls t.Kxs t.ds := by
  have hd : P.fwdData r = (P.stages.zip (r.Kx_list.zip r.d_list)).map fun x => (⟨x.1.F, x.1.c, x.1.L, x.2.1, x.2.2⟩ : TFwd n m K) := by
    unfold TFLQT.fwdData
    rw [← List.map_uncurry_zip_eq_zipWith]
    rfl
  have l3 : P.stages.length = (r.Kx_list.zip r.d_list).length := by simp [l1, l2]
  rw [hd]
  refine ⟨?_, ?_, ?_, ?_, ?_⟩
  · exact (Tens.IsMt.zipL (cs := r.Kx_list.zip r.d_list) h.F l3).remap (by rw [List.map_map]; rfl)
  · exact (Tens.IsVt.zipL (cs := r.Kx_list.zip r.d_list) h.c l3).remap (by rw [List.map_map]; rfl)
  · exact (Tens.IsMt.zipL (cs := r.Kx_list.zip r.d_list) h.L l3).remap (by rw [List.map_map]; rfl)
  · exact (Tens.IsMt.zipR (bs := P.stages) (Tens.IsMt.zipL (cs := r.d_list) ht.Kxs (by rw [l1, l2])) l3).remap (by rw [List.map_map]; rfl)
  · exact (Tens.IsVt.zipR (bs := P.stages) (Tens.IsVt.zipR (bs := r.Kx_list) ht.ds (by rw [l1, l2])) l3).remap (by rw [List.map_map]; rfl)

section Ordered
variable [LinearOrder K] [IsStrictOrderedRing K]

/-- C101: `lqt_seq_backwardpass` returns the tensors of what `seqBackwardPass` returns, and completes exactly if that completes. -/
theorem C101_seq_backward (P : TFLQT n m p q K) (hP : P.Sym) {Fs cs Ls Hs HT rs rT Xs XT Us : Tens K} (h : StageTens P.stages Fs cs Ls Hs rs Xs Us)
    (hT : TermTens P HT rT XT) (r : BwResult n m K) :
    P.toLQT.seqBackwardPass = .ok r ↔ ∃ t, tensLqtSeqBackward Fs cs Ls Hs HT rs rT Xs XT Us = .ok t ∧ t.Holds r := by
  obtain ⟨h1, h2⟩ := seqBackward_rep h hT
  rw [← C30_seq_backward P hP]
  refine ⟨h1 r, ?_⟩
  rintro ⟨t, ht, hr⟩
  cases h0 : P.seqBackward with
  | error e => rw [h2 e h0] at ht; cases ht
  | ok r' =>
    obtain ⟨t', e', k'⟩ := h1 r' h0
    rw [ht] at e'; cases e'
    rw [hr.inj k']

/-- C101: so does `lqt_par_backwardpass`, if it completes; for convex problems it does. -/
theorem C101_par_backward (P : TFLQT n m p q K) (hP : P.Sym) {Fs cs Ls Hs HT rs rT Xs XT Us : Tens K} (h : StageTens P.stages Fs cs Ls Hs rs Xs Us)
    (hT : TermTens P HT rT XT) (scan : AScan) (hs : ∀ α, IsAssocScan (scan α)) :
    (∀ t, tensLqtParBackward scan Fs cs Ls Hs HT rs rT Xs XT Us = .ok t → ∃ r, P.toLQT.seqBackwardPass = .ok r ∧ t.Holds r) ∧
    (P.Convex → ∃ t, tensLqtParBackward scan Fs cs Ls Hs HT rs rT Xs XT Us = .ok t) := by
  obtain ⟨scan', k0, k1, k2⟩ := parBackward_rep h hT hs
  refine ⟨fun t ht => ?_, fun hc => ?_⟩
  · cases h0 : P.parBackward scan' with
    | error e => rw [k2 e h0] at ht; cases ht
    | ok r =>
      obtain ⟨t', e', k'⟩ := k1 r h0
      rw [ht] at e'; cases e'
      exact ⟨r, tf_par_bw k0 hP h0, k'⟩
  · obtain ⟨r, hr⟩ := tf_par_bw_total k0 hc
    obtain ⟨t, ht, -⟩ := k1 r hr
    exact ⟨t, ht⟩

/-- C101: `lqt_gen_to_canon`, `lqt_seq_backwardpass` and `lqt_canon_to_gen` in turn return the tensors of what the general recursion returns, and
complete exactly if it completes and every `U` is positive definite. -/
theorem C101_general (P : TFGen n m p q K) (hP : P.Sym) {Fs cs Ls Hs HT rs rT Xs XT Us Ms ss : Tens K}
    (h : GenTens P.stages Fs cs Ls Hs rs Xs Us Ms ss) (hT : HT.IsM P.HT) (hrT : rT.IsV P.rT) (hXT : XT.IsM P.XT) (R : BwResult n m K) :
    ((∀ s ∈ P.stages, IsPD s.U) ∧ P.toLQT.seqBackwardPass = .ok R) ↔ ∃ t : TensBw K, (do
        let (Fs', cs', Xs') ← tensLqtGenToCanon Fs cs Ls Hs rs Xs Us Ms ss
        let t ← tensLqtSeqBackward Fs' cs' Ls Hs HT rs rT Xs' XT Us
        let (Kxs, ds) ← tensLqtCanonToGen t.Kxs t.ds Hs rs Us Ms ss
        return (⟨t.Ss, t.vs, Kxs, ds⟩ : TensBw K)) = .ok t ∧ t.Holds R := by
  rw [← C28_solve P hP]
  obtain ⟨c1, c2⟩ := canon_rep h
  cases hC : P.canon with
  | error e =>
    rw [c2 e hC]
    refine ⟨(fun h => by cases h), ?_⟩
    rintro ⟨t, ht, -⟩
    cases ht
  | ok C =>
    obtain ⟨Fs', cs', Xs', e1, hst, hHT, hrT', hXT'⟩ := c1 C hC
    have hCT : TermTens C HT rT XT := ⟨hHT ▸ hT, hrT' ▸ hrT, hXT' ▸ hXT⟩
    obtain ⟨b1, b2⟩ := seqBackward_rep hst hCT
    rw [e1, tens_bind, tens_bind]
    dsimp only
    cases hr : C.seqBackward with
    | error e =>
      rw [b2 e hr]
      refine ⟨(fun h => by cases h), ?_⟩
      rintro ⟨t, ht, -⟩
      cases ht
    | ok r =>
      obtain ⟨t, e2, ht⟩ := b1 r hr
      rw [e2, tens_bind, tens_bind]
      have hlC : C.stages.length = P.stages.length := by
        unfold TFGen.canon at hC
        rw [bind_ok] at hC
        obtain ⟨l, hl, hC⟩ := hC
        cases hC
        exact (mapM_ok_iff.1 hl).length_eq.symm
      obtain ⟨S, v, hb⟩ := seqBackwardPass_iff.1 ((tf_seq_bw (canon_sym hP hC)).1 hr)
      have l1 : r.Kx_list.length = P.stages.length := by rw [hb.length.1]; simp [TFLQT.toLQT, hlC]
      have l2 : r.d_list.length = P.stages.length := by rw [hb.length.2.1]; simp [TFLQT.toLQT, hlC]
      obtain ⟨d1, d2⟩ := back_rep h ht.Kxs ht.ds l1 l2
      cases hg : P.back r.Kx_list r.d_list with
      | error e =>
        rw [d2 e hg]
        refine ⟨(fun h => by cases h), ?_⟩
        rintro ⟨t, ht, -⟩
        cases ht
      | ok gs =>
        obtain ⟨tK, td, e3, hK, hd⟩ := d1 gs hg
        rw [e3, tens_bind, tens_bind]
        have hh : (⟨t.Ss, t.vs, tK, td⟩ : TensBw K).Holds (⟨gs.map Prod.fst, gs.map Prod.snd, r.S_list, r.v_list⟩ : BwResult n m K) :=
          ⟨ht.Ss, ht.vs, hK, hd⟩
        constructor
        · intro h0; cases h0; exact ⟨_, rfl, hh⟩
        · rintro ⟨t', h0, hr'⟩; cases h0; rw [hh.inj hr']; rfl

omit [LinearOrder K] [IsStrictOrderedRing K] in
/-- C101: `lqt_seq_forwardpass` returns the tensors of the states and controls of `seqForwardPass`. -/
theorem C101_seq_forward (P : LQT n m K) (gs : List (TFwd n m K)) (hne : gs ≠ []) (hn : 0 < n) (hd : List.Forall₂ LStage.SameDyn P.stages gs)
    {Fs cs Ls Kxs ds : Tens K} (h : FwdTens gs Fs cs Ls Kxs ds) (x0 : Fin n → K) {tx : Tens K} (hx : tx.IsV x0) :
    ∃ xs us txs tus, P.seqForwardPass x0 (gs.map TFwd.Kx) (gs.map TFwd.d) = .ok (us, xs) ∧
      tensLqtSeqForward tx Fs cs Ls Kxs ds = .ok (txs, tus) ∧ txs.HoldsV xs ∧ tus.HoldsV us := by
  obtain ⟨r, xs, us, e1, e2, h1, h2⟩ := seqForward_rep h hne hn hx
  refine ⟨r.1, r.2, xs, us, ?_, e2, h1, h2⟩
  rw [← tf_seq_fw hne hd x0, e1]
  rfl

omit [LinearOrder K] [IsStrictOrderedRing K] in
/-- C101: so does `lqt_par_forwardpass`. -/
theorem C101_par_forward (P : LQT n m K) (gs : List (TFwd n m K)) (hne : gs ≠ []) (hd : List.Forall₂ LStage.SameDyn P.stages gs)
    {Fs cs Ls Kxs ds : Tens K} (h : FwdTens gs Fs cs Ls Kxs ds) (x0 : Fin n → K) {tx : Tens K} (hx : tx.IsV x0)
    (scan : AScan) (hs : ∀ α, IsAssocScan (scan α)) :
    ∃ xs us txs tus, P.seqForwardPass x0 (gs.map TFwd.Kx) (gs.map TFwd.d) = .ok (us, xs) ∧
      tensLqtParForward scan tx Fs cs Ls Kxs ds = .ok (txs, tus) ∧ txs.HoldsV xs ∧ tus.HoldsV us := by
  obtain ⟨scan', k0, r, xs, us, e1, e2, h1, h2⟩ := parForward_rep h hne hx hs
  refine ⟨r.1, r.2, xs, us, ?_, e2, h1, h2⟩
  rw [← tf_par_fw k0 hne hd x0, e1]
  rfl

omit [LinearOrder K] [IsStrictOrderedRing K] in
/-- C101: without a step both forward passes raise; without a state only the sequential one does, because of `Ls[0,0,:]`. -/
theorem C101_forward_fail (gs : List (TFwd n m K)) {Fs cs Ls Kxs ds : Tens K} (h : FwdTens gs Fs cs Ls Kxs ds) (x0 : Fin n → K) {tx : Tens K}
    (hx : tx.IsV x0) (scan : AScan) (hs : ∀ α, IsAssocScan (scan α)) :
    ((∃ r, tensLqtSeqForward tx Fs cs Ls Kxs ds = .ok r) ↔ gs ≠ [] ∧ 0 < n) ∧
    ((∃ r, tensLqtParForward scan tx Fs cs Ls Kxs ds = .ok r) ↔ gs ≠ []) := by
  refine ⟨⟨?_, ?_⟩, ⟨?_, ?_⟩⟩
  · rintro ⟨r, hr⟩
    by_contra hc
    rw [seqForward_fail h (by by_contra h0; push Not at h0; exact hc ⟨h0.1, Nat.pos_of_ne_zero h0.2⟩)] at hr
    cases hr
  · rintro ⟨h1, h2⟩
    obtain ⟨_, xs, us, -, e, -⟩ := seqForward_rep h h1 h2 hx
    exact ⟨_, e⟩
  · rintro ⟨r, hr⟩ hc
    rw [parForward_fail h hc] at hr
    cases hr
  · intro h1
    obtain ⟨_, _, _, xs, us, -, e, -⟩ := parForward_rep h h1 hx hs
    exact ⟨_, e⟩

/-- C101: `lqt_par_fwdbwdpass` on the tensors of a backward pass returns the tensors of the states and controls of `seqForwardPass`, if it completes;
for convex problems it does. -/
theorem C101_fwdbwd (P : TFLQT n m p q K) (hP : P.Sym) {Fs cs Ls Hs rs Xs Us : Tens K} (h : StageTens P.stages Fs cs Ls Hs rs Xs Us)
    (bw : BwResult n m K) (hb : P.toLQT.seqBackwardPass = .ok bw) {tb : TensBw K} (ht : tb.Holds bw) (x0 : Fin n → K) {tx : Tens K} (hx : tx.IsV x0)
    (scan : AScan) (hs : ∀ α, IsAssocScan (scan α)) :
    (∀ txs tus, tensLqtParFwdBwd scan tx Fs cs Ls Hs rs Xs Us tb.Ss tb.vs tb.Kxs tb.ds = .ok (txs, tus) →
      ∃ xs us, P.toLQT.seqForwardPass x0 bw.Kx_list bw.d_list = .ok (us, xs) ∧ txs.HoldsV xs ∧ tus.HoldsV us) ∧
    (P.Convex → ∃ r, tensLqtParFwdBwd scan tx Fs cs Ls Hs rs Xs Us tb.Ss tb.vs tb.Kxs tb.ds = .ok r) := by
  obtain ⟨S, v, hbl⟩ := seqBackwardPass_iff.1 hb
  obtain ⟨l1, l2, l3, l4⟩ := hbl.length
  have hT' : P.toLQT.stages.length = P.stages.length := by simp [TFLQT.toLQT]
  rw [hT'] at l1 l2 l3 l4
  obtain ⟨scan', k0, k1, k2⟩ := parFwdBwd_rep h ht l3 l4 l1 l2 hx hs
  refine ⟨fun txs tus he => ?_, fun hc => ?_⟩
  · cases h0 : P.parFwdBwd scan' x0 bw with
    | error e => rw [k2 e h0] at he; cases he
    | ok r =>
      obtain ⟨xs', us', e', h1, h2⟩ := k1 r h0
      rw [he] at e'; cases e'
      exact ⟨r.1, r.2, (tf_fwdbwd k0 hP hb).1 _ h0, h1, h2⟩
  · obtain ⟨r, hr⟩ := (tf_fwdbwd k0 hP hb (x0 := x0)).2 hc
    obtain ⟨xs', us', e', -⟩ := k1 r hr
    exact ⟨_, e'⟩

omit [LinearOrder K] [IsStrictOrderedRing K] in
/-- C101: `lqt_cost` is `cost`. -/
theorem C101_cost (P : TFLQT n m p q K) {Fs cs Ls Hs HT rs rT Xs XT Us : Tens K} (h : StageTens P.stages Fs cs Ls Hs rs Xs Us)
    (hT : TermTens P HT rT XT) (xs : List (Fin n → K)) (us : List (Fin m → K)) (lx : xs.length = P.stages.length + 1)
    (lu : us.length = P.stages.length) {tx tu : Tens K} (hx : tx.HoldsV xs) (hu : tu.HoldsV us) :
    tensLqtCost tx tu Hs HT rs rT Xs XT Us = P.toLQT.cost us xs := by
  rw [cost_rep h hT hx hu lx lu, tf_cost lu lx]

/-- C101: for convex problems with a step and a state both backward passes complete with tensors holding the same result, from which the three ways to
the trajectory return tensors holding the same states and controls, and no other controls have a smaller cost. -/
theorem C101_convex (P : TFLQT n m p q K) (hP : P.Convex) (hne : P.stages ≠ []) (hn : 0 < n) {Fs cs Ls Hs HT rs rT Xs XT Us : Tens K}
    (h : StageTens P.stages Fs cs Ls Hs rs Xs Us) (hT : TermTens P HT rT XT) (x0 : Fin n → K) {tx : Tens K} (hx : tx.IsV x0)
    (scan : AScan) (hs : ∀ α, IsAssocScan (scan α)) :
    ∃ (r : BwResult n m K) (xs : List (Fin n → K)) (us : List (Fin m → K)) (J : K) (t t' : TensBw K), tensLqtSeqBackward Fs cs Ls Hs HT rs rT Xs XT Us = .ok t ∧ t.Holds r ∧
      tensLqtParBackward scan Fs cs Ls Hs HT rs rT Xs XT Us = .ok t' ∧ t'.Holds r ∧
      (∀ tb : TensBw K, tb.Holds r →
        (∃ a b, tensLqtSeqForward tx Fs cs Ls tb.Kxs tb.ds = .ok (a, b) ∧ a.HoldsV xs ∧ b.HoldsV us) ∧
        (∃ a b, tensLqtParForward scan tx Fs cs Ls tb.Kxs tb.ds = .ok (a, b) ∧ a.HoldsV xs ∧ b.HoldsV us) ∧
        ∃ a b, tensLqtParFwdBwd scan tx Fs cs Ls Hs rs Xs Us tb.Ss tb.vs tb.Kxs tb.ds = .ok (a, b) ∧ a.HoldsV xs ∧ b.HoldsV us) ∧
      us.length = P.stages.length ∧
      (∀ a b : Tens K, a.HoldsV xs → b.HoldsV us → tensLqtCost a b Hs HT rs rT Xs XT Us = .ok J) ∧
      ∀ us' : List (Fin m → K), us'.length = P.stages.length → ∃ xs' J', P.toLQT.seqSimulation x0 us' = .ok xs' ∧
        (∀ a b : Tens K, a.HoldsV xs' → b.HoldsV us' → tensLqtCost a b Hs HT rs rT Xs XT Us = .ok J') ∧ J ≤ J' ∧ (J' = J → us' = us) := by
  obtain ⟨t', e2⟩ := (C101_par_backward P hP.toSym h hT scan hs).2 hP
  obtain ⟨r, hr, ht'⟩ := (C101_par_backward P hP.toSym h hT scan hs).1 t' e2
  obtain ⟨t, e1, ht⟩ := (C101_seq_backward P hP.toSym h hT r).1 hr
  obtain ⟨us, xs, J, h3, h4, h5, h6, h7⟩ := C18_optimal P.toLQT hP.toSym.toLQT r hr x0
  have hT' : P.toLQT.stages.length = P.stages.length := by simp [TFLQT.toLQT]
  obtain ⟨S, v, hb⟩ := seqBackwardPass_iff.1 hr
  have l1 : r.Kx_list.length = P.stages.length := by rw [hb.length.1, hT']
  have l2 : r.d_list.length = P.stages.length := by rw [hb.length.2.1, hT']
  obtain ⟨g1, g2, g3, g4⟩ := fwdData_ok P r l1 l2
  have lsim : ∀ {us' : List (Fin m → K)} {xs'}, us'.length = P.stages.length → P.toLQT.seqSimulation x0 us' = .ok xs' →
      xs'.length = P.stages.length + 1 := by
    intro us' xs' hu' hx'
    have := lqtSimulation_eq (P := P.toLQT) (us := us') (by rw [hu', hT']) x0
    rw [hx', Except.ok.injEq] at this
    rw [this]
    simp [lqtRun_length (ss := P.toLQT.stages) (us := us') (by rw [hu', hT']), hu']
  have lu : us.length = P.stages.length := by rw [h4, hT']
  refine ⟨r, xs, us, J, t, t', e1, ht, e2, ht', fun tb htb => ⟨?_, ?_, ?_⟩, lu, fun a b ha hb => ?_, fun us' lu' => ?_⟩
  · obtain ⟨xs', us', a, b, k1, k2, k3, k4⟩ := C101_seq_forward P.toLQT _ (g4 hne) hn g1 (fwdTens_data h htb l1 l2) x0 hx
    rw [g2, g3, h3] at k1; cases k1
    exact ⟨a, b, k2, k3, k4⟩
  · obtain ⟨xs', us', a, b, k1, k2, k3, k4⟩ := C101_par_forward P.toLQT _ (g4 hne) g1 (fwdTens_data h htb l1 l2) x0 hx scan hs
    rw [g2, g3, h3] at k1; cases k1
    exact ⟨a, b, k2, k3, k4⟩
  · obtain ⟨f1, f2⟩ := C101_fwdbwd P hP.toSym h r hr htb x0 hx scan hs
    obtain ⟨⟨a, b⟩, k2⟩ := f2 hP
    obtain ⟨xs', us', k1, k3, k4⟩ := f1 a b k2
    rw [h3] at k1; cases k1
    exact ⟨a, b, k2, k3, k4⟩
  · rw [C101_cost P h hT xs us (lsim lu h5) lu ha hb, h6]
  · obtain ⟨xs', J', k1, k2, k3, k4⟩ := h7 us' (by rw [lu', hT'])
    exact ⟨xs', J', k1, fun a b ha hb => by rw [C101_cost P h hT xs' us' (lsim lu' k1) lu' ha hb, k2], k3, k4⟩

end Ordered

/-! ### Examples -/

/-- A tensor that is a matrix. -/
def tensMat [Inhabited K] {a b : ℕ} (A : Matrix (Fin a) (Fin b) K) : Tens K :=
  ⟨[a, b], fun i => if h : i.getD 0 0 < a ∧ i.getD 1 0 < b then A ⟨_, h.1⟩ ⟨_, h.2⟩ else default⟩

/-- A tensor that is a vector. -/
def tensVec [Inhabited K] {a : ℕ} (v : Fin a → K) : Tens K := ⟨[a], fun i => if h : i.getD 0 0 < a then v ⟨_, h⟩ else default⟩

omit [Field K] in
theorem tensMat_is [Inhabited K] {a b : ℕ} (A : Matrix (Fin a) (Fin b) K) : (tensMat A).IsM A := ⟨rfl, fun x y => by simp [tensMat]⟩

omit [Field K] in
theorem tensVec_is [Inhabited K] {a : ℕ} (v : Fin a → K) : (tensVec v).IsV v := ⟨rfl, fun x => by simp [tensVec]⟩

theorem exTFCP_term : TermTens exTFCP (tensMat exTFCP.HT) (tensVec exTFCP.rT) (tensMat exTFCP.XT) :=
  ⟨tensMat_is _, tensVec_is _, tensMat_is _⟩

/-- The passes of a problem with three different steps. -/
theorem exTFCP_passes : ∃ (r : BwResult 2 1 ℚ) (xs : List (Fin 2 → ℚ)) (us : List (Fin 1 → ℚ)) (t t' : TensBw ℚ) (a b a' b' : Tens ℚ),
    tensLqtSeqBackward (tensMats (exTFCP.stages.map (·.F))) (tensRowsOf (exTFCP.stages.map (·.c))) (tensMats (exTFCP.stages.map (·.L)))
      (tensMats (exTFCP.stages.map (·.H))) (tensMat exTFCP.HT) (tensRowsOf (exTFCP.stages.map (·.r))) (tensVec exTFCP.rT)
      (tensMats (exTFCP.stages.map (·.X))) (tensMat exTFCP.XT) (tensMats (exTFCP.stages.map (·.U))) = .ok t ∧ t.Holds r ∧
    tensLqtParBackward (fun _ op l => scanVals op l) (tensMats (exTFCP.stages.map (·.F))) (tensRowsOf (exTFCP.stages.map (·.c)))
      (tensMats (exTFCP.stages.map (·.L))) (tensMats (exTFCP.stages.map (·.H))) (tensMat exTFCP.HT) (tensRowsOf (exTFCP.stages.map (·.r)))
      (tensVec exTFCP.rT) (tensMats (exTFCP.stages.map (·.X))) (tensMat exTFCP.XT) (tensMats (exTFCP.stages.map (·.U))) = .ok t' ∧ t'.Holds r ∧
    tensLqtSeqForward (tensVec ![1, 2]) (tensMats (exTFCP.stages.map (·.F))) (tensRowsOf (exTFCP.stages.map (·.c)))
      (tensMats (exTFCP.stages.map (·.L))) t.Kxs t.ds = .ok (a, b) ∧
    tensLqtParForward (fun _ op l => scanVals op l) (tensVec ![1, 2]) (tensMats (exTFCP.stages.map (·.F)))
      (tensRowsOf (exTFCP.stages.map (·.c))) (tensMats (exTFCP.stages.map (·.L))) t'.Kxs t'.ds = .ok (a', b') ∧
    a.HoldsV xs ∧ b.HoldsV us ∧ a'.HoldsV xs ∧ b'.HoldsV us ∧ us.length = 3 := by
  obtain ⟨r, xs, us, J, t, t', e1, h1, e2, h2, h3, h4, -⟩ := C101_convex exTFCP exTFCP_convex (by simp [exTFCP]) (by decide)
    (C100_tensors exTFCP.stages) exTFCP_term ![1, 2] (tensVec_is _) (fun _ op l => scanVals op l) fun _ => C17_scan_example
  obtain ⟨⟨a, b, k1, k2, k3⟩, -, -⟩ := h3 t h1
  obtain ⟨-, ⟨a', b', k4, k5, k6⟩, -⟩ := h3 t' h2
  exact ⟨r, xs, us, t, t', a, b, a', b', e1, h1, e2, h2, k1, k4, k2, k3, k5, k6, by simpa [exTFCP] using h4⟩

/-- The forward-backward pass and the cost of the same problem: the cost of the optimal trajectory is at most that of zero controls. -/
example : ∃ (t : TensBw ℚ) (a b : Tens ℚ) (J J' : ℚ) (xs' : List (Fin 2 → ℚ)),
    tensLqtParFwdBwd (fun _ op l => scanVals op l) (tensVec ![1, 2]) (tensMats (exTFCP.stages.map (·.F))) (tensRowsOf (exTFCP.stages.map (·.c)))
      (tensMats (exTFCP.stages.map (·.L))) (tensMats (exTFCP.stages.map (·.H))) (tensRowsOf (exTFCP.stages.map (·.r)))
      (tensMats (exTFCP.stages.map (·.X))) (tensMats (exTFCP.stages.map (·.U))) t.Ss t.vs t.Kxs t.ds = .ok (a, b) ∧
    tensLqtCost a b (tensMats (exTFCP.stages.map (·.H))) (tensMat exTFCP.HT) (tensRowsOf (exTFCP.stages.map (·.r))) (tensVec exTFCP.rT)
      (tensMats (exTFCP.stages.map (·.X))) (tensMat exTFCP.XT) (tensMats (exTFCP.stages.map (·.U))) = .ok J ∧
    exTFCP.toLQT.seqSimulation ![1, 2] [0, 0, 0] = .ok xs' ∧
    tensLqtCost (tensRowsOf xs') (tensRowsOf [0, 0, (0 : Fin 1 → ℚ)]) (tensMats (exTFCP.stages.map (·.H))) (tensMat exTFCP.HT)
      (tensRowsOf (exTFCP.stages.map (·.r))) (tensVec exTFCP.rT) (tensMats (exTFCP.stages.map (·.X))) (tensMat exTFCP.XT)
      (tensMats (exTFCP.stages.map (·.U))) = .ok J' ∧ J ≤ J' := by
  obtain ⟨r, xs, us, J, t, t', e1, h1, e2, h2, h3, h4, h5, h6⟩ := C101_convex exTFCP exTFCP_convex (by simp [exTFCP]) (by decide)
    (C100_tensors exTFCP.stages) exTFCP_term ![1, 2] (tensVec_is _) (fun _ op l => scanVals op l) fun _ => C17_scan_example
  obtain ⟨-, -, a, b, k1, k2, k3⟩ := h3 t h1
  obtain ⟨xs', J', k4, k5, k6, -⟩ := h6 [0, 0, 0] (by simp [exTFCP])
  refine ⟨t, a, b, J, J', xs', k1, h5 a b k2 k3, k4, k5 _ _ ?_ ?_, k6⟩
  · simpa [Tens.HoldsV] using tensRowsOf_is xs' fun v => v
  · simpa [Tens.HoldsV] using tensRowsOf_is [0, 0, (0 : Fin 1 → ℚ)] fun v => v

omit [Field K] in
/-- Every list of steps in general form has tensors. -/
theorem genTens_of [Inhabited K] (gs : List (GStage n m p K)) :
    GenTens gs (tensMats (gs.map (·.F))) (tensRowsOf (gs.map (·.c))) (tensMats (gs.map (·.L))) (tensMats (gs.map (·.H)))
      (tensRowsOf (gs.map (·.r))) (tensMats (gs.map (·.X))) (tensMats (gs.map (·.U))) (tensMats (gs.map (·.M))) (tensRowsOf (gs.map (·.s))) :=
  ⟨tensMats_is _ _, tensRowsOf_is _ _, tensMats_is _ _, tensMats_is _ _, tensRowsOf_is _ _, tensMats_is _ _, tensMats_is _ _, tensMats_is _ _,
    tensRowsOf_is _ _⟩

/-- A problem in general form with a cross term, converted, solved and converted back. -/
example : ∃ (R : BwResult 2 1 ℚ) (t : TensBw ℚ), exGen.toLQT.seqBackwardPass = .ok R ∧ t.Holds R ∧ (do
    let (Fs', cs', Xs') ← tensLqtGenToCanon (tensMats (exGen.stages.map fun g : GStage 2 1 2 ℚ => g.F)) (tensRowsOf (exGen.stages.map fun g : GStage 2 1 2 ℚ => g.c))
      (tensMats (exGen.stages.map fun g : GStage 2 1 2 ℚ => g.L)) (tensMats (exGen.stages.map fun g : GStage 2 1 2 ℚ => g.H)) (tensRowsOf (exGen.stages.map fun g : GStage 2 1 2 ℚ => g.r))
      (tensMats (exGen.stages.map fun g : GStage 2 1 2 ℚ => g.X)) (tensMats (exGen.stages.map fun g : GStage 2 1 2 ℚ => g.U)) (tensMats (exGen.stages.map fun g : GStage 2 1 2 ℚ => g.M)) (tensRowsOf (exGen.stages.map fun g : GStage 2 1 2 ℚ => g.s))
    let t ← tensLqtSeqBackward Fs' cs' (tensMats (exGen.stages.map fun g : GStage 2 1 2 ℚ => g.L)) (tensMats (exGen.stages.map fun g : GStage 2 1 2 ℚ => g.H)) (tensMat exGen.HT)
      (tensRowsOf (exGen.stages.map fun g : GStage 2 1 2 ℚ => g.r)) (tensVec exGen.rT) Xs' (tensMat exGen.XT) (tensMats (exGen.stages.map fun g : GStage 2 1 2 ℚ => g.U))
    let (Kxs, ds) ← tensLqtCanonToGen t.Kxs t.ds (tensMats (exGen.stages.map fun g : GStage 2 1 2 ℚ => g.H)) (tensRowsOf (exGen.stages.map fun g : GStage 2 1 2 ℚ => g.r))
      (tensMats (exGen.stages.map fun g : GStage 2 1 2 ℚ => g.U)) (tensMats (exGen.stages.map fun g : GStage 2 1 2 ℚ => g.M)) (tensRowsOf (exGen.stages.map fun g : GStage 2 1 2 ℚ => g.s))
    return (⟨t.Ss, t.vs, Kxs, ds⟩ : TensBw ℚ)) = .ok t := by
  obtain ⟨R, hR, -⟩ := C19_seq_psd exGen.toLQT exGen_convex
  obtain ⟨t, h1, h2⟩ := (C101_general exGen exGen_sym (genTens_of exGen.stages) (tensMat_is _) (tensVec_is _) (tensMat_is _) R).1
    ⟨fun s hs => (exGen_convex.1 _ (List.mem_map.2 ⟨s, hs, rfl⟩)).pd, hR⟩
  exact ⟨R, t, hR, h2, h1⟩

/-- One step without a state: the parallel forward pass completes, the sequential one raises. -/
example : (¬ ∃ r, tensLqtSeqForward (K := ℚ) (Tens.const [0] 0) (Tens.const [1, 0, 0] 0) (Tens.const [1, 0] 0) (Tens.const [1, 0, 1] 0)
      (Tens.const [1, 1, 0] 0) (Tens.const [1, 1] 5) = .ok r) ∧
    ∃ r, tensLqtParForward (K := ℚ) (fun _ op l => scanVals op l) (Tens.const [0] 0) (Tens.const [1, 0, 0] 0) (Tens.const [1, 0] 0)
      (Tens.const [1, 0, 1] 0) (Tens.const [1, 1, 0] 0) (Tens.const [1, 1] 5) = .ok r := by
  obtain ⟨h1, h2⟩ := C101_forward_fail (K := ℚ) (n := 0) (m := 1) [⟨0, 0, 0, 0, fun _ => 5⟩] (Fs := Tens.const [1, 0, 0] 0)
    (cs := Tens.const [1, 0] 0) (Ls := Tens.const [1, 0, 1] 0) (Kxs := Tens.const [1, 1, 0] 0) (ds := Tens.const [1, 1] 5)
    ⟨⟨rfl, fun _ _ i => i.elim0⟩, ⟨rfl, fun _ _ i => i.elim0⟩, ⟨rfl, fun _ _ i => i.elim0⟩, ⟨rfl, fun _ _ _ j => j.elim0⟩, ⟨rfl, fun k hk _ => by
      have : k = 0 := by simpa using hk
      subst this; rfl⟩⟩ 0 (tx := Tens.const [0] 0) ⟨rfl, fun i => i.elim0⟩ (fun _ op l => scanVals op l) fun _ => C17_scan_example
  exact ⟨fun h => absurd (h1.1 h).2 (lt_irrefl _), h2.2 (by simp)⟩

end Verif
