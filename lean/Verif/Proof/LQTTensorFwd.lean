import Verif.Proof.LQTTensorPar

/-! Proofs about `lqt_tf.py` on tensors: the forward passes, the cost and the conversions. -/

namespace Verif

open Matrix

variable {n m p q a b : ℕ} {K β γ : Type} [Field K]

/-! ### Sequential forward pass -/

/-- The tensors of a step. -/
structure TensFwd.Rep (t : TensFwd K) (s : TFwd n m K) : Prop where
  F : t.F.IsM s.F
  c : t.c.IsV s.c
  L : t.L.IsM s.L
  Kx : t.Kx.IsM s.Kx
  d : t.d.IsV s.d

theorem fwdBody_rep {t : TensFwd K} {g : TFwd n m K} {u : Tens K × Tens K} {st : (Fin n → K) × (Fin m → K)} (ht : t.Rep g)
    (hx : u.1.IsV st.1) : ∃ u', tensFwdBody u t = .ok u' ∧ u'.1.IsV (g.body st).1 ∧ u'.2.IsV (g.body st).2 := by
  obtain ⟨F, c, L, Kx, d⟩ := t
  obtain ⟨x, u0⟩ := u
  obtain ⟨hF, hc, hL, hK, hd⟩ := ht
  dsimp only at hF hc hL hK hd hx
  obtain ⟨w1, e1, h1⟩ := hK.mv hx
  obtain ⟨u, e2, h2⟩ := h1.neg.add hd
  obtain ⟨w3, e3, h3⟩ := hF.mv hx
  obtain ⟨w4, e4, h4⟩ := h3.add hc
  obtain ⟨w5, e5, h5⟩ := hL.mv h2
  obtain ⟨w6, e6, h6⟩ := h4.add h5
  refine ⟨(w6, u), ?_, h6, h2⟩
  unfold tensFwdBody
  dsimp only
  exact bstep e1 (bstep e2 (bstep e3 (bstep e4 (bstep e5 (bstep e6 rfl)))))

theorem fwdScan_rep {l : List (TensFwd K)} {gs : List (TFwd n m K)} (hl : List.Forall₂ TensFwd.Rep l gs) :
    ∀ {u : Tens K × Tens K} {st : (Fin n → K) × (Fin m → K)}, u.1.IsV st.1 →
      ∃ r, tfScanFwdM tensFwdBody u l = .ok r ∧
        List.Forall₂ (fun (y : Tens K × Tens K) (z : (Fin n → K) × (Fin m → K)) => y.1.IsV z.1 ∧ y.2.IsV z.2) r (tfScanFwd TFwd.body st gs) := by
  induction hl with
  | nil => intro u st _; exact ⟨[], rfl, .nil⟩
  | @cons t g l gs ht hl ih =>
    intro u st hx
    obtain ⟨u', e1, h1, h2⟩ := fwdBody_rep (st := st) ht hx
    obtain ⟨r, e2, h3⟩ := ih h1
    refine ⟨u' :: r, ?_, .cons ⟨h1, h2⟩ h3⟩
    rw [tfScanFwdM]
    exact bstep e1 (bstep e2 rfl)

omit [Field K] in
theorem tensFwdSteps_rep {gs : List (TFwd n m K)} {Fs cs Ls Kxs ds : Tens K} (h : FwdTens gs Fs cs Ls Kxs ds) :
    ∃ l, tensFwdSteps Fs cs Ls Kxs ds = .ok l ∧ List.Forall₂ TensFwd.Rep l gs := by
  obtain ⟨lF, eF, hF⟩ := Tens.IsMt.items h.F
  obtain ⟨lc, ec, hc⟩ := Tens.IsVt.items h.c
  obtain ⟨lL, eL, hL⟩ := Tens.IsMt.items h.L
  obtain ⟨lK, eK, hK⟩ := Tens.IsMt.items h.Kx
  obtain ⟨ld, ed, hd⟩ := Tens.IsVt.items h.d
  have hz := forall₂_zip_of hF (forall₂_zip_of hc (forall₂_zip_of hL (forall₂_zip_of hK hd)))
  refine ⟨(lF.zip (lc.zip (lL.zip (lK.zip ld)))).map fun s => ⟨s.1, s.2.1, s.2.2.1, s.2.2.2.1, s.2.2.2.2⟩, ?_,
    List.forall₂_map_left_iff.2 (hz.imp fun x s hx => ⟨hx.1, hx.2.1, hx.2.2.1, hx.2.2.2.1, hx.2.2.2.2⟩)⟩
  unfold tensFwdSteps
  refine bstep eF (bstep ec (bstep eL (bstep eK (bstep ed ?_))))
  refine Eq.trans (if_neg ?_) rfl
  rw [hF.length_eq, hc.length_eq, hL.length_eq, hK.length_eq, hd.length_eq]
  simp

omit [Field K] in
/-- The first row of the first matrix. -/
theorem row00 {gs : List β} {Ls : Tens K} {f : β → Matrix (Fin a) (Fin b) K} (h : Ls.HM gs f) :
    (gs ≠ [] → 0 < a → ∃ M r, Ls.select 0 0 = .ok M ∧ M.select 0 0 = .ok r ∧ r.shape = [b]) ∧
    (gs = [] → Ls.select 0 0 = .error .indexError) ∧
    (a = 0 → gs ≠ [] → ∃ M, Ls.select 0 0 = .ok M ∧ M.select 0 0 = .error .indexError) := by
  obtain ⟨s, v⟩ := Ls
  obtain ⟨h1, h2⟩ := h
  dsimp only at h1 h2
  subst h1
  refine ⟨fun hne ha => ?_, fun h0 => ?_, fun ha hne => ?_⟩
  · obtain ⟨g, gs, rfl⟩ := List.exists_cons_of_ne_nil hne
    obtain ⟨a, rfl⟩ := Nat.exists_eq_succ_of_ne_zero ha.ne'
    exact ⟨_, _, rfl, rfl, rfl⟩
  · subst h0; rfl
  · obtain ⟨g, gs, rfl⟩ := List.exists_cons_of_ne_nil hne
    subst ha
    exact ⟨_, rfl, rfl⟩

theorem seqForward_rep {gs : List (TFwd n m K)} {Fs cs Ls Kxs ds : Tens K} (h : FwdTens gs Fs cs Ls Kxs ds) (hne : gs ≠ []) (hn : 0 < n)
    {x0 : Fin n → K} {tx : Tens K} (hx : tx.IsV x0) :
    ∃ r xs us, lqtTfSeqForward x0 gs = .ok r ∧ tensLqtSeqForward tx Fs cs Ls Kxs ds = .ok (xs, us) ∧ xs.HoldsV r.1 ∧ us.HoldsV r.2 := by
  obtain ⟨M, r0, e1, e2, hr0⟩ := (row00 h.L).1 hne hn
  obtain ⟨l, e3, hl⟩ := tensFwdSteps_rep h
  obtain ⟨r, e4, hr⟩ := fwdScan_rep hl (u := (tx, r0.map fun _ => (0 : K))) (st := (x0, 0)) hx
  have h0 : lqtTfSeqForward x0 gs = .ok (x0 :: (tfScanFwd TFwd.body (x0, 0) gs).map Prod.fst, (tfScanFwd TFwd.body (x0, 0) gs).map Prod.snd) := by
    unfold lqtTfSeqForward
    have : gs.isEmpty = false := by simpa using hne
    rw [this]
    rfl
  obtain ⟨xs, e5, hxs⟩ := stack_hV (l := r.map Prod.fst) (bs := (tfScanFwd TFwd.body (x0, 0) gs).map Prod.fst) (f := fun A => A) tx.val (by
    rw [List.forall₂_map_left_iff, List.forall₂_map_right_iff]; exact hr.imp fun _ _ h => h.1)
  obtain ⟨us, e6, hus⟩ := stack_hV (l := r.map Prod.snd) (bs := (tfScanFwd TFwd.body (x0, 0) gs).map Prod.snd) (f := fun A => A)
    (r0.map fun _ => (0 : K)).val (by
    rw [List.forall₂_map_left_iff, List.forall₂_map_right_iff]; exact hr.imp fun _ _ h => h.2)
  obtain ⟨x1, e7, hx1⟩ := hx.expand x0 (fun v => v) rfl
  obtain ⟨xs', e8, hxs'⟩ := hx1.append hxs
  rw [← hx.1] at e5
  have hs : (r0.map fun _ => (0 : K)).shape = [m] := hr0
  rw [← hs] at e6
  refine ⟨_, xs', us, h0, ?_, hxs', hus⟩
  unfold tensLqtSeqForward
  exact bstep e1 (bstep e2 (bstep e3 (bstep e4 (bstep e5 (bstep e6 (bstep e7 (bstep e8 rfl)))))))

theorem seqForward_fail {gs : List (TFwd n m K)} {Fs cs Ls Kxs ds : Tens K} (h : FwdTens gs Fs cs Ls Kxs ds) (hne : gs = [] ∨ n = 0)
    {tx : Tens K} : tensLqtSeqForward tx Fs cs Ls Kxs ds = .error .indexError := by
  obtain ⟨-, h2, h3⟩ := row00 h.L
  unfold tensLqtSeqForward
  by_cases hg : gs = []
  · rw [h2 hg]; rfl
  · obtain ⟨M, e1, e2⟩ := h3 (hne.resolve_left hg) hg
    refine bstep e1 ?_
    rw [e2]
    rfl

/-! ### Parallel forward pass -/

theorem combF_rep {t t' : Tens K × Tens K} {x y : Matrix (Fin n) (Fin n) K × (Fin n → K)} (h1 : t.1.HM [x] (·.1)) (h2 : t.2.HV [x] (·.2))
    (h3 : t'.1.HM [y] (·.1)) (h4 : t'.2.HV [y] (·.2)) :
    ∃ c, tensLqtCombF t t' = .ok c ∧ c.1.HM [tfCombF x y] (·.1) ∧ c.2.HV [tfCombF x y] (·.2) := by
  have h1 : t.1.HM [(x, y)] fun z => z.1.1 := h1.remap rfl
  have h2 : t.2.HV [(x, y)] fun z => z.1.2 := h2.remap rfl
  have h3 : t'.1.HM [(x, y)] fun z => z.2.1 := h3.remap rfl
  have h4 : t'.2.HV [(x, y)] fun z => z.2.2 := h4.remap rfl
  obtain ⟨F, e1, hF⟩ := h3.mm h1
  obtain ⟨w, e2, hw⟩ := h3.mv h2
  obtain ⟨c, e3, hc⟩ := hw.add h4
  refine ⟨(F, c), ?_, hF.remap rfl, hc.remap rfl⟩
  unfold tensLqtCombF
  exact bstep e1 (bstep e2 (bstep e3 rfl))

theorem scanPair_rep {scan : AScan} (hs : ∀ α, IsAssocScan (scan α)) {t : Tens K × Tens K} {es : List (Matrix (Fin n) (Fin n) K × (Fin n → K))}
    (h1 : t.1.HM es (·.1)) (h2 : t.2.HV es (·.2)) (hne : es ≠ []) :
    ∃ scan' : (Matrix (Fin n) (Fin n) K × (Fin n → K) → Matrix (Fin n) (Fin n) K × (Fin n → K) → Py (Matrix (Fin n) (Fin n) K × (Fin n → K))) →
        List (Matrix (Fin n) (Fin n) K × (Fin n → K)) → Py (List (Matrix (Fin n) (Fin n) K × (Fin n → K))), IsAssocScan scan' ∧
      ∃ r rs, tensScanPair scan tensLqtCombF t = .ok r ∧ scan' (fun a b => .ok (tfCombF a b)) es = .ok rs ∧ r.1.HM rs (·.1) ∧ r.2.HV rs (·.2) ∧
        rs.length = es.length := by
  obtain ⟨lA, e1, hA⟩ := h1.slices
  obtain ⟨lb, e2, hb⟩ := h2.slices
  have hl := forall₂_zip_of hA hb
  have hne' : lA.zip lb ≠ [] := by
    intro h0
    rw [h0] at hl
    cases hl
    exact hne rfl
  obtain ⟨scan', ⟨i1, -⟩, i2⟩ := scan_induced (hs _) (hs _) (fun (s : Tens K × Tens K) x => s.1.HM [x] (·.1) ∧ s.2.HV [x] (·.2))
    (opA := tensLqtCombF) (opB := fun a b => .ok (tfCombF a b)) (fun a a' b b' ha ha' => by
      obtain ⟨c, hc, k1, k2⟩ := combF_rep ha.1 ha.2 ha'.1 ha'.2
      exact ⟨fun z hz => by cases hz; exact ⟨c, hc, k1, k2⟩, fun e he => by cases he⟩) hl hne'
  refine ⟨scan', i1, ?_⟩
  rcases i2 with ⟨ra, rb, j1, j2, j3, j4⟩ | ⟨e, j1, j2⟩
  · have hrb : rb ≠ [] := by
      intro h0
      rw [h0] at j4
      exact hne (List.length_eq_zero_iff.1 j4.symm)
    obtain ⟨A, k1, hA'⟩ := joinAll_hM (ts := ra.map Prod.fst) (bs := rb) (f := (·.1)) (List.forall₂_map_left_iff.2 (j3.imp fun _ _ h => h.1)) hrb
    obtain ⟨b, k2, hb'⟩ := joinAll_hV (ts := ra.map Prod.snd) (bs := rb) (f := (·.2)) (List.forall₂_map_left_iff.2 (j3.imp fun _ _ h => h.2)) hrb
    refine ⟨(A, b), rb, ?_, j2, hA', hb', j4⟩
    unfold tensScanPair
    refine bstep e1 (bstep e2 ?_)
    refine Eq.trans (if_neg (by rw [hA.length_eq, hb.length_eq]; simp)) ?_
    exact bstep j1 (bstep k1 (bstep k2 rfl))
  · obtain ⟨r, hr⟩ := i1.total (op := fun a b => .ok (tfCombF a b)) (l := es) (fun _ => True) (fun _ _ _ _ => ⟨_, rfl, trivial⟩) hne (fun _ _ => trivial)
    rw [j2] at hr
    cases hr

theorem parForward_rep {gs : List (TFwd n m K)} {Fs cs Ls Kxs ds : Tens K} (h : FwdTens gs Fs cs Ls Kxs ds) (hne : gs ≠ [])
    {x0 : Fin n → K} {tx : Tens K} (hx : tx.IsV x0) {scan : AScan} (hs : ∀ α, IsAssocScan (scan α)) :
    ∃ scan' : (Matrix (Fin n) (Fin n) K × (Fin n → K) → Matrix (Fin n) (Fin n) K × (Fin n → K) → Py (Matrix (Fin n) (Fin n) K × (Fin n → K))) →
        List (Matrix (Fin n) (Fin n) K × (Fin n → K)) → Py (List (Matrix (Fin n) (Fin n) K × (Fin n → K))), IsAssocScan scan' ∧
      ∃ r xs us, lqtTfParForward scan' x0 gs = .ok r ∧ tensLqtParForward scan tx Fs cs Ls Kxs ds = .ok (xs, us) ∧ xs.HoldsV r.1 ∧ us.HoldsV r.2 := by
  obtain ⟨g, gs, rfl⟩ := List.exists_cons_of_ne_nil hne
  obtain ⟨F0, e1, hF0⟩ := Tens.IsMt.first h.F
  obtain ⟨c0, e2, hc0⟩ := Tens.IsVt.first h.c
  obtain ⟨L0, e3, hL0⟩ := Tens.IsMt.first h.L
  obtain ⟨K0, e4, hK0⟩ := Tens.IsMt.first h.Kx
  obtain ⟨d0, e5, hd0⟩ := Tens.IsVt.first h.d
  obtain ⟨w1, e6, h6⟩ := hL0.mm hK0
  obtain ⟨w2, e7, h7⟩ := hF0.sub h6
  obtain ⟨w3, e8, h8⟩ := h7.mv hx
  obtain ⟨w4, e9, h9⟩ := h8.add hc0
  obtain ⟨w5, e10, h10⟩ := hL0.mv hd0
  obtain ⟨tc, e11, h11⟩ := h9.add h10
  have hfirst : tensLqtFwdFirst tx F0 c0 L0 K0 d0 = .ok (F0.map fun _ => (0 : K), tc) := by
    unfold tensLqtFwdFirst
    exact bstep e6 (bstep e7 (bstep e8 (bstep e9 (bstep e10 (bstep e11 rfl)))))
  obtain ⟨Ft, f1, hFt⟩ := Tens.IsMt.tl h.F
  obtain ⟨ct, f2, hct⟩ := Tens.IsVt.tl h.c
  obtain ⟨Lt, f3, hLt⟩ := Tens.IsMt.tl h.L
  obtain ⟨Kt, f4, hKt⟩ := Tens.IsMt.tl h.Kx
  obtain ⟨dt, f5, hdt⟩ := Tens.IsVt.tl h.d
  obtain ⟨v1, f6, k6⟩ := hLt.mm hKt
  obtain ⟨tFs, f7, k7⟩ := hFt.sub k6
  obtain ⟨v2, f8, k8⟩ := hLt.mv hdt
  obtain ⟨tcs, f9, k9⟩ := hct.add k8
  have hmost : tensLqtFwdMost Ft ct Lt Kt dt = .ok (tFs, tcs) := by
    unfold tensLqtFwdMost
    exact bstep f6 (bstep f7 (bstep f8 (bstep f9 rfl)))
  have z1 : (F0.map fun _ => (0 : K)).IsM (TFwd.first x0 g).1 := ⟨hF0.1, fun _ _ => rfl⟩
  obtain ⟨a1, g1, m1⟩ := z1.expand (TFwd.first x0 g) (·.1) rfl
  obtain ⟨b1, g2, m2⟩ := h11.expand (TFwd.first x0 g) (·.2) rfl
  have m3 : tFs.HM (gs.map TFwd.most) (·.1) := k7.remap (by rw [List.map_map]; rfl)
  have m4 : tcs.HV (gs.map TFwd.most) (·.2) := k9.remap (by rw [List.map_map]; rfl)
  obtain ⟨a2, g3, m5⟩ := m1.append m3
  obtain ⟨b2, g4, m6⟩ := m2.append m4
  obtain ⟨scan', i1, r, rs, i2, i3, i4, i5, i6⟩ := scanPair_rep hs (t := (a2, b2)) m5 m6 (by simp)
  have i3 : scan' (fun a b => .ok (tfCombF a b)) (TFwd.first x0 g :: gs.map TFwd.most) = .ok rs := i3
  have i6 : rs.length = gs.length + 1 := by simpa using i6
  obtain ⟨x1, g5, m7⟩ := hx.expand x0 (fun v => v) rfl
  have m8 : r.2.HV (rs.map Prod.snd) (fun v => v) := i5.remap (by rw [List.map_map]; rfl)
  obtain ⟨xs, g6, m9⟩ := m7.append m8
  obtain ⟨xi, g7, m10⟩ := Tens.IsVt.init m9
  generalize hX : ([x0] ++ rs.map Prod.snd).dropLast = X at m10
  have lX : (g :: gs).length = X.length := by rw [← hX]; simp [i6]
  have hK := Tens.IsMt.zipL (cs := X) h.Kx lX
  have hd := Tens.IsVt.zipL (cs := X) h.d lX
  obtain ⟨w, g8, m11⟩ := hK.mv (m10.zipR lX)
  obtain ⟨us, g9, m12⟩ := m11.neg.add hd
  refine ⟨scan', i1, (x0 :: rs.map Prod.snd, List.zipWith (fun (h : TFwd n m K) x => -(h.Kx *ᵥ x) + h.d) (g :: gs) X), xs, us, ?_, ?_, m9, ?_⟩
  · rw [← hX]
    unfold lqtTfParForward
    exact bstep i3 rfl
  · unfold tensLqtParForward
    refine bstep e1 (bstep e2 (bstep e3 (bstep e4 (bstep e5 (bstep hfirst ?_)))))
    refine bstep f1 (bstep f2 (bstep f3 (bstep f4 (bstep f5 (bstep hmost ?_)))))
    refine bstep g1 (bstep g3 (bstep g2 (bstep g4 (bstep i2 (bstep g5 (bstep g6 (bstep g7 (bstep g8 (bstep g9 ?_)))))))))
    rfl
  · refine m12.remap ?_
    refine List.ext_getElem (by simp at lX; simp [lX]) fun k h1 h2 => ?_
    simp

theorem parForward_fail {gs : List (TFwd n m K)} {Fs cs Ls Kxs ds : Tens K} (h : FwdTens gs Fs cs Ls Kxs ds) (hne : gs = [])
    {scan : AScan} {tx : Tens K} : tensLqtParForward scan tx Fs cs Ls Kxs ds = .error .indexError := by
  obtain ⟨-, h2, -⟩ := row00 h.F
  unfold tensLqtParForward
  rw [h2 hne]
  rfl

/-! ### Cost -/

theorem sum_range_fin (f : ℕ → K) (a : ℕ) : ((List.range a).map f).sum = ∑ i : Fin a, f i := by
  rw [← Finset.sum_range]
  rfl

theorem sum_flatMap' (l : List γ) (f : γ → List K) : (l.flatMap f).sum = (l.map fun x => (f x).sum).sum := by
  induction l with
  | nil => rfl
  | cons x l ih => simp [ih]

theorem reduceSum_vec {t : Tens K} {v : Fin a → K} (h : t.IsV v) : t.reduceSum = ∑ i, v i := by
  obtain ⟨s, w⟩ := t
  obtain ⟨h1, h2⟩ := h
  dsimp only at h1 h2
  subst h1
  have : (Tens.reduceSum ⟨[a], w⟩ : K) = ((List.range a).map fun i => w [i]).sum := by
    simp [Tens.reduceSum, allIdx]
    rw [← List.map_eq_flatMap]
    simp [Function.comp_def]
  rw [this, sum_range_fin]
  exact Finset.sum_congr rfl fun i _ => h2 i

theorem reduceSum_batch {t : Tens K} {bs : List β} {f : β → Fin a → K} (h : t.HV bs f) : t.reduceSum = (bs.map fun x => ∑ i, f x i).sum := by
  obtain ⟨s, w⟩ := t
  obtain ⟨h1, h2⟩ := h
  dsimp only at h1 h2
  subst h1
  have : (Tens.reduceSum ⟨[bs.length, a], w⟩ : K) = ((List.range bs.length).map fun k => ((List.range a).map fun i => w [k, i]).sum).sum := by
    simp only [Tens.reduceSum, allIdx, List.map_flatMap, sum_flatMap']
    congr 1
    refine List.map_congr_left fun k _ => ?_
    simp
  rw [this]
  congr 1
  refine List.ext_getElem (by simp) fun k h3 h4 => ?_
  have hk : k < bs.length := by simpa using h3
  simp only [List.getElem_map, List.getElem_range]
  rw [sum_range_fin]
  exact Finset.sum_congr rfl fun i _ => h2 k hk i

theorem quad_vec {W y : Tens K} {A : Matrix (Fin a) (Fin a) K} {v : Fin a → K} (hW : W.IsM A) (hy : y.IsV v) :
    tensQuad W y = .ok ((A *ᵥ v) ⬝ᵥ v) := by
  obtain ⟨w, e1, hw⟩ := hW.mv hy
  obtain ⟨r, e2, hr⟩ := hw.bin (· * ·) hy
  unfold tensQuad
  refine bstep e1 (bstep e2 ?_)
  rw [reduceSum_vec hr]
  rfl

theorem quad_batch {W y : Tens K} {bs : List β} {A : β → Matrix (Fin a) (Fin a) K} {v : β → Fin a → K} (hW : W.HM bs A) (hy : y.HV bs v) :
    tensQuad W y = .ok (bs.map fun x => (A x *ᵥ v x) ⬝ᵥ v x).sum := by
  obtain ⟨w, e1, hw⟩ := hW.mv hy
  obtain ⟨r, e2, hr⟩ := Tens.IsVt.bin (· * ·) hw hy
  unfold tensQuad
  refine bstep e1 (bstep e2 ?_)
  rw [reduceSum_batch hr]
  rfl

theorem cost_rep {P : TFLQT n m p q K} {Fs cs Ls Hs HT rs rT Xs XT Us : Tens K} (h : StageTens P.stages Fs cs Ls Hs rs Xs Us)
    (hT : TermTens P HT rT XT) {xs : List (Fin n → K)} {us : List (Fin m → K)} {tx tu : Tens K} (hx : tx.HoldsV xs) (hu : tu.HoldsV us)
    (lx : xs.length = P.stages.length + 1) (lu : us.length = P.stages.length) :
    tensLqtCost tx tu Hs HT rs rT Xs XT Us = P.cost xs us := by
  have hne : xs ≠ [] := by rintro rfl; simp at lx
  obtain ⟨xT, hxT⟩ : ∃ xT, xs.getLast? = some xT := ⟨_, List.getLast?_eq_some_getLast hne⟩
  obtain ⟨tl, e1, htl⟩ := Tens.IsVt.end hx hxT
  obtain ⟨w1, e2, h2⟩ := Tens.IsM.mv hT.HT htl
  obtain ⟨dT, e3, h3⟩ := h2.sub hT.rT
  obtain ⟨ti, e4, hti⟩ := Tens.IsVt.init hx
  have l1 : P.stages.length = xs.dropLast.length := by simp [lx]
  have hH := Tens.IsMt.zipL (cs := xs.dropLast) h.H l1
  have hr := Tens.IsVt.zipL (cs := xs.dropLast) h.r l1
  have hX := Tens.IsMt.zipL (cs := xs.dropLast) h.X l1
  have hxi := Tens.IsVt.zipR hti l1
  obtain ⟨w2, e5, h5⟩ := hH.mv hxi
  obtain ⟨ds, e6, h6⟩ := h5.sub hr
  have q1 := quad_vec hT.XT h3
  have q2 := quad_batch hX h6
  have hU := Tens.IsMt.zipL (cs := us) h.U lu.symm
  have hus := Tens.IsVt.zipR (bs := P.stages) hu lu.symm
  have q3 := quad_batch hU hus
  have hc : P.cost xs us = .ok ((1 / 2) * ((P.XT *ᵥ (P.HT *ᵥ xT - P.rT)) ⬝ᵥ (P.HT *ᵥ xT - P.rT)) +
      (1 / 2) * ((P.stages.zip xs.dropLast).map fun a => (a.1.X *ᵥ (a.1.H *ᵥ a.2 - a.1.r)) ⬝ᵥ (a.1.H *ᵥ a.2 - a.1.r)).sum +
      (1 / 2) * ((P.stages.zip us).map fun a => (a.1.U *ᵥ a.2) ⬝ᵥ a.2).sum) := by
    unfold TFLQT.cost
    rw [hxT]
    dsimp only
    rw [← List.map_uncurry_zip_eq_zipWith, ← List.map_uncurry_zip_eq_zipWith, List.map_map]
    rfl
  rw [hc]
  unfold tensLqtCost
  exact bstep e1 (bstep e2 (bstep e3 (bstep e4 (bstep e5 (bstep e6 (bstep q1 (bstep q2 (bstep q3 rfl))))))))

/-! ### Conversions -/

section Ordered
variable [LinearOrder K]

/-- The canonical step when `U` is positive definite. -/
def GStage.canonVal (g : GStage n m p K) : TStage n m p K :=
  ⟨g.F - g.L * (minv (lowerSym g.U) * (g.Mᵀ * g.H)), g.c + g.L *ᵥ (minv (lowerSym g.U) *ᵥ (g.Mᵀ *ᵥ g.r) + g.s), g.L, g.H, g.r,
    g.X - g.M * (minv (lowerSym g.U) * g.Mᵀ), g.U⟩

theorem canon_rep {P : TFGen n m p q K} {Fs cs Ls Hs rs Xs Us Ms ss : Tens K} (h : GenTens P.stages Fs cs Ls Hs rs Xs Us Ms ss) :
    (∀ C, P.canon = .ok C → ∃ Fs' cs' Xs', tensLqtGenToCanon Fs cs Ls Hs rs Xs Us Ms ss = .ok (Fs', cs', Xs') ∧
      StageTens C.stages Fs' cs' Ls Hs rs Xs' Us ∧ C.HT = P.HT ∧ C.rT = P.rT ∧ C.XT = P.XT) ∧
    ∀ e, P.canon = .error e → tensLqtGenToCanon Fs cs Ls Hs rs Xs Us Ms ss = .error e := by
  obtain ⟨hF, hc, hL, hH, hr, hX, hU, hM, hs⟩ := h
  obtain ⟨k1, k2⟩ := Tens.IsMt.cholesky hU
  obtain ⟨m1, m2⟩ := mapM_ite (bs := P.stages) (er := .linAlgError) (F := GStage.canon)
    (P := fun g => choPD (lowerSym g.U) = true)
    (G := GStage.canonVal)
    (fun x _ hx => by unfold GStage.canon; rw [tfCholesky_pd.1 hx]; rfl)
    (fun x _ hx => by unfold GStage.canon; rw [tfCholesky_pd.2 hx]; rfl)
  by_cases hd : ∀ g ∈ P.stages, choPD (lowerSym g.U) = true
  · have h0 : P.canon = .ok ⟨P.stages.map GStage.canonVal, P.HT, P.rT, P.XT⟩ := by unfold TFGen.canon; exact bstep (m1 hd) rfl
    obtain ⟨CF, e1, hCF⟩ := k1 hd
    obtain ⟨MT, e2, hMT⟩ := Tens.IsMt.mT hM
    obtain ⟨w1, e3, h3⟩ := hMT.mm hH
    obtain ⟨w2, e4, h4⟩ := hCF.mm h3
    obtain ⟨w3, e5, h5⟩ := Tens.IsMt.mm hL h4
    obtain ⟨Fn, e6, h6⟩ := Tens.IsMt.sub hF h5
    obtain ⟨w4, e7, h7⟩ := hMT.mv hr
    obtain ⟨q1, q2, tmp, e8, e9, e10, h10⟩ := hCF.mmCol h7
    obtain ⟨w5, e11, h11⟩ := h10.add hs
    obtain ⟨w6, e12, h12⟩ := Tens.IsMt.mv hL h11
    obtain ⟨cn, e13, h13⟩ := Tens.IsVt.add hc h12
    obtain ⟨MB, e14, hMB⟩ := Tens.IsMt.batchT hM
    obtain ⟨w7, e15, h15⟩ := hCF.mm hMB
    obtain ⟨w8, e16, h16⟩ := Tens.IsMt.mm hM h15
    obtain ⟨Xn, e17, h17⟩ := Tens.IsMt.sub hX h16
    refine ⟨fun C hC => ?_, fun e he => ?_⟩
    · rw [h0] at hC; cases hC
      refine ⟨Fn, cn, Xn, ?_, ⟨?_, ?_, ?_, ?_, ?_, ?_, ?_⟩, rfl, rfl, rfl⟩
      · unfold tensLqtGenToCanon
        refine bstep e1 (bstep e2 (bstep e3 (bstep e4 (bstep e5 (bstep e6 ?_)))))
        refine bstep e2 (bstep e7 (bstep e8 (bstep e9 (bstep e10 (bstep e11 (bstep e12 (bstep e13 ?_)))))))
        exact bstep e14 (bstep e15 (bstep e16 (bstep e17 rfl)))
      · exact h6.remap (by rw [List.map_map]; rfl)
      · exact h13.remap (by rw [List.map_map]; rfl)
      · exact Tens.IsMt.remap hL (by rw [List.map_map]; rfl)
      · exact Tens.IsMt.remap hH (by rw [List.map_map]; rfl)
      · exact Tens.IsVt.remap hr (by rw [List.map_map]; rfl)
      · exact h17.remap (by rw [List.map_map]; rfl)
      · exact Tens.IsMt.remap hU (by rw [List.map_map]; rfl)
    · rw [h0] at he; cases he
  · have h0 : P.canon = .error .linAlgError := by unfold TFGen.canon; rw [m2 hd]; rfl
    refine ⟨fun C hC => ?_, fun e he => ?_⟩
    · rw [h0] at hC; cases hC
    · rw [h0] at he; cases he
      unfold tensLqtGenToCanon
      rw [k2 hd]
      rfl

theorem back_rep {P : TFGen n m p q K} {Fs cs Ls Hs rs Xs Us Ms ss : Tens K} (h : GenTens P.stages Fs cs Ls Hs rs Xs Us Ms ss)
    {Kxs : List (Matrix (Fin m) (Fin n) K)} {ds : List (Fin m → K)} {tK td : Tens K} (hK : tK.HoldsM Kxs) (hd : td.HoldsV ds)
    (l1 : Kxs.length = P.stages.length) (l2 : ds.length = P.stages.length) :
    (∀ gs, P.back Kxs ds = .ok gs → ∃ tK' td', tensLqtCanonToGen tK td Hs rs Us Ms ss = .ok (tK', td') ∧ tK'.HoldsM (gs.map Prod.fst) ∧
      td'.HoldsV (gs.map Prod.snd)) ∧
    ∀ e, P.back Kxs ds = .error e → tensLqtCanonToGen tK td Hs rs Us Ms ss = .error e := by
  obtain ⟨hF, hc, hL, hH, hr, hX, hU, hM, hs⟩ := h
  have l3 : P.stages.length = (Kxs.zip ds).length := by simp [l1, l2]
  have hU := Tens.IsMt.zipL (cs := Kxs.zip ds) hU l3
  have hH := Tens.IsMt.zipL (cs := Kxs.zip ds) hH l3
  have hM := Tens.IsMt.zipL (cs := Kxs.zip ds) hM l3
  have hr := Tens.IsVt.zipL (cs := Kxs.zip ds) hr l3
  have hs := Tens.IsVt.zipL (cs := Kxs.zip ds) hs l3
  have hK := Tens.IsMt.zipR (bs := P.stages) (Tens.IsMt.zipL (cs := ds) hK (by rw [l1, l2])) l3
  have hd := Tens.IsVt.zipR (bs := P.stages) (Tens.IsVt.zipR (bs := Kxs) hd (by rw [l1, l2])) l3
  obtain ⟨k1, k2⟩ := hU.cholesky
  obtain ⟨m1, m2⟩ := mapM_ite (bs := P.stages.zip (Kxs.zip ds)) (er := .linAlgError) (F := fun a => a.1.back a.2.1 a.2.2)
    (P := fun a => choPD (lowerSym a.1.U) = true)
    (G := fun a => (a.2.1 + minv (lowerSym a.1.U) * (a.1.Mᵀ * a.1.H), a.2.2 + minv (lowerSym a.1.U) *ᵥ (a.1.Mᵀ *ᵥ a.1.r) + a.1.s))
    (fun x _ hx => by unfold GStage.back; rw [tfCholesky_pd.1 hx]; rfl)
    (fun x _ hx => by unfold GStage.back; rw [tfCholesky_pd.2 hx]; rfl)
  by_cases hp : ∀ a ∈ P.stages.zip (Kxs.zip ds), choPD (lowerSym a.1.U) = true
  · have h0 : P.back Kxs ds = _ := m1 hp
    obtain ⟨CF, e1, hCF⟩ := k1 hp
    obtain ⟨MT, e2, hMT⟩ := hM.mT
    obtain ⟨w1, e3, h3⟩ := hMT.mm hH
    obtain ⟨w2, e4, h4⟩ := hCF.mm h3
    obtain ⟨Kn, e5, h5⟩ := hK.add h4
    obtain ⟨w4, e7, h7⟩ := hMT.mv hr
    obtain ⟨q1, q2, tmp, e8, e9, e10, h10⟩ := hCF.mmCol h7
    obtain ⟨w5, e11, h11⟩ := hd.add h10
    obtain ⟨dn, e12, h12⟩ := h11.add hs
    refine ⟨fun C hC => ?_, fun e he => ?_⟩
    · rw [h0] at hC; cases hC
      refine ⟨Kn, dn, ?_, ?_, ?_⟩
      · unfold tensLqtCanonToGen
        exact bstep e1 (bstep e2 (bstep e3 (bstep e4 (bstep e5 (bstep e2 (bstep e7 (bstep e8 (bstep e9 (bstep e10 (bstep e11 (bstep e12 rfl)))))))))))
      · exact h5.remap (by rw [List.map_map, List.map_map]; rfl)
      · exact h12.remap (by rw [List.map_map, List.map_map]; rfl)
    · rw [h0] at he; cases he
  · have h0 : P.back Kxs ds = .error .linAlgError := m2 hp
    refine ⟨fun C hC => ?_, fun e he => ?_⟩
    · rw [h0] at hC; cases hC
    · rw [h0] at he; cases he
      unfold tensLqtCanonToGen
      rw [k2 hp]
      rfl

end Ordered

end Verif
