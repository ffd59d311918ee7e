import Verif.Spec.ScanDepth
import Verif.Props.TensorLQT
import Verif.Proof.TensorLinear
import Verif.Proof.LQTTF

/-! Proofs about `lqt_tf.py` on tensors: the sequential passes, the cost and the conversions. -/

namespace Verif

open Matrix

/-- A scan of related items with related operations that can fail is a scan of the other items. -/
theorem scan_induced {α β : Type} {scanA : (α → α → Py α) → List α → Py (List α)}
    {scanB : (β → β → Py β) → List β → Py (List β)} (hA : IsAssocScan scanA) (hB : IsAssocScan scanB) (R : α → β → Prop)
    {opA : α → α → Py α} {opB : β → β → Py β}
    (hop : ∀ a a' b b', R a b → R a' b' → (∀ z, opB b b' = .ok z → ∃ c, opA a a' = .ok c ∧ R c z) ∧
      ∀ e, opB b b' = .error e → ∃ e', opA a a' = .error e') {la : List α} {lb : List β} (hl : List.Forall₂ R la lb) (hne : la ≠ []) :
    ∃ scan : (β → β → Py β) → List β → Py (List β), (IsAssocScan scan ∧ ∀ D, HasDepth D scanA → HasDepth D scanB → HasDepth D scan) ∧
      ((∃ ra rb, scanA opA la = .ok ra ∧ scan opB lb = .ok rb ∧ List.Forall₂ R ra rb ∧ rb.length = lb.length) ∨
        ∃ e, scanA opA la = .error e ∧ scan opB lb = .error e) := by
  classical
  have hlen := hl.length_eq
  have key : ∀ {l : List α} {v : α}, Paren opA l v → ∀ {l' : List β}, List.Forall₂ R l l' → ∃ w, R v w ∧ Paren opB l' w := by
    intro l v h
    induction h with
    | single x => intro l' h'; cases h' with | cons h1 h2 => cases h2; exact ⟨_, h1, .single _⟩
    | @node l r x y z h1 h2 ho ih1 ih2 =>
      intro l' h'
      obtain ⟨l1, l2, e1, e2, rfl⟩ : ∃ l1 l2, List.Forall₂ R l l1 ∧ List.Forall₂ R r l2 ∧ l' = l1 ++ l2 := by
        have ht := List.forall₂_take l.length h'
        have hd := List.forall₂_drop l.length h'
        rw [List.take_left] at ht
        rw [List.drop_left] at hd
        exact ⟨_, _, ht, hd, (List.take_append_drop _ _).symm⟩
      obtain ⟨w1, r1, p1⟩ := ih1 e1
      obtain ⟨w2, r2, p2⟩ := ih2 e2
      obtain ⟨o1, o2⟩ := hop _ _ _ _ r1 r2
      cases hb : opB w1 w2 with
      | error e => obtain ⟨e', he⟩ := o2 e hb; rw [ho] at he; cases he
      | ok w =>
        obtain ⟨c, hc, hr⟩ := o1 w hb
        rw [ho] at hc; cases hc
        exact ⟨_, hr, .node p1 p2 hb⟩
  cases h : scanA opA la with
  | ok ra =>
    obtain ⟨g1, g2⟩ := hA.pref h
    have hw : ∀ k : Fin ra.length, ∃ w, R ra[k] w ∧ Paren opB (lb.take (k + 1)) w := by
      intro k
      obtain ⟨v, hv, hp⟩ := g2 k (by rw [← g1]; exact k.2)
      rw [List.getElem?_eq_getElem k.2] at hv
      cases hv
      exact key hp (List.forall₂_take (k + 1) hl)
    choose w hw1 hw2 using hw
    refine ⟨fun op l => if op = opB ∧ l = lb then .ok (List.ofFn w) else scanB op l, ⟨⟨?_, ?_⟩, ?_⟩, .inl ⟨ra, List.ofFn w, rfl, if_pos ⟨rfl, rfl⟩, ?_, ?_⟩⟩
    · intro op l r hr
      by_cases hc : op = opB ∧ l = lb
      · rw [if_pos hc] at hr
        cases hr
        obtain ⟨rfl, rfl⟩ := hc
        refine ⟨by simp [g1, hlen], fun k hk => ?_⟩
        exact ⟨w ⟨k, by omega⟩, by simp; omega, hw2 ⟨k, by omega⟩⟩
      · rw [if_neg hc] at hr
        exact hB.pref hr
    · intro op l P h1 h2 h3
      by_cases hc : op = opB ∧ l = lb
      · exact ⟨_, if_pos hc⟩
      · obtain ⟨r, hr⟩ := hB.total P h1 h2 h3
        exact ⟨r, by rw [if_neg hc]; exact hr⟩
    · intro D _ hD op l P h1 h2 h3 h4
      by_cases hc : op = opB ∧ l = lb
      · exact ⟨_, if_pos hc⟩
      · obtain ⟨r, hr⟩ := hD op l P h1 h2 h3 h4
        exact ⟨r, (if_neg hc).trans hr⟩
    · rw [List.forall₂_iff_get]
      refine ⟨by simp, fun k h1 h2 => ?_⟩
      simpa using hw1 ⟨k, h1⟩
    · simp [g1, hlen]
  | error e =>
    refine ⟨fun op l => if op = opB ∧ l = lb then .error e else scanB op l, ⟨⟨?_, ?_⟩, ?_⟩, .inr ⟨e, rfl, if_pos ⟨rfl, rfl⟩⟩⟩
    · intro op l r hr
      by_cases hc : op = opB ∧ l = lb
      · rw [if_pos hc] at hr
        cases hr
      · rw [if_neg hc] at hr
        exact hB.pref hr
    · intro op l P h1 h2 h3
      by_cases hc : op = opB ∧ l = lb
      · exfalso
        obtain ⟨rfl, rfl⟩ := hc
        obtain ⟨r, hr⟩ := hA.total (op := opA) (l := la) (fun a => ∃ b, R a b ∧ P b) (by
          rintro x y ⟨b, hb, pb⟩ ⟨b', hb', pb'⟩
          obtain ⟨z, hz, pz⟩ := h1 _ _ pb pb'
          obtain ⟨c, hc, hr⟩ := (hop _ _ _ _ hb hb').1 z hz
          exact ⟨c, hc, z, hr, pz⟩) hne (by
          intro x hx
          obtain ⟨i, hi, rfl⟩ := List.getElem_of_mem hx
          exact ⟨_, hl.get hi (by rw [← hlen]; exact hi), h3 _ (List.getElem_mem _)⟩)
        rw [h] at hr
        cases hr
      · obtain ⟨r, hr⟩ := hB.total P h1 h2 h3
        exact ⟨r, by rw [if_neg hc]; exact hr⟩
    · intro D hDA hD op l P h1 h2 h3 h4
      by_cases hc : op = opB ∧ l = lb
      · exfalso
        obtain ⟨rfl, rfl⟩ := hc
        obtain ⟨r, hr⟩ := hDA opA la (fun t a => ∃ b, R a b ∧ P t b) hne (fun t x ⟨b, hb, pb⟩ => ⟨b, hb, h2 t b pb⟩) (by
          rintro t ht x y ⟨b, hb, pb⟩ ⟨b', hb', pb'⟩
          obtain ⟨z, hz, pz⟩ := h3 t (by rw [← hlen]; exact ht) _ _ pb pb'
          obtain ⟨c, hc, hr⟩ := (hop _ _ _ _ hb hb').1 z hz
          exact ⟨c, hc, z, hr, pz⟩) (by
          intro x hx
          obtain ⟨i, hi, rfl⟩ := List.getElem_of_mem hx
          exact ⟨_, hl.get hi (by rw [← hlen]; exact hi), h4 _ (List.getElem_mem _)⟩)
        rw [h] at hr
        cases hr
      · obtain ⟨r, hr⟩ := hD op l P h1 h2 h3 h4
        exact ⟨r, (if_neg hc).trans hr⟩

variable {n m p q : ℕ} {K β : Type} [Field K]

/-! ### Sequential backward pass -/

section Ordered
variable [LinearOrder K]

/-- The tensors of a step. -/
structure TensStep.Rep (t : TensStep K) (s : TStage n m p K) : Prop where
  F : t.F.IsM s.F
  c : t.c.IsV s.c
  L : t.L.IsM s.L
  H : t.H.IsM s.H
  r : t.r.IsV s.r
  X : t.X.IsM s.X
  U : t.U.IsM s.U

/-- The tensors of a carry. -/
structure TensCarry.Rep (t : TensCarry K) (s : TCarry n m K) : Prop where
  S : t.S.IsM s.S
  v : t.v.IsV s.v
  Kx : t.Kx.IsM s.Kx
  d : t.d.IsV s.d

theorem bwBody_rep {t : TensStep K} {s : TStage n m p K} {u : TensCarry K} {st : TCarry n m K} (ht : t.Rep s) (hu : u.Rep st) :
    (∀ st', s.bwBody st = .ok st' → ∃ u', tensBwBody u t = .ok u' ∧ u'.Rep st') ∧
    ∀ e, s.bwBody st = .error e → tensBwBody u t = .error e := by
  obtain ⟨F, c, L, H, r, X, U⟩ := t
  obtain ⟨S, v, Kx0, d0⟩ := u
  obtain ⟨hF, hc, hL, hH, hr, hX, hU⟩ := ht
  obtain ⟨hS, hv, -, -⟩ := hu
  dsimp only at hF hc hL hH hr hX hU hS hv
  obtain ⟨LT, e1, hLT⟩ := hL.mT
  obtain ⟨LS, e2, hLS⟩ := hLT.mm hS
  obtain ⟨LSL, e3, hLSL⟩ := hLS.mm hL
  obtain ⟨W, e4, hW⟩ := hU.add hLSL
  obtain ⟨k1, k2⟩ := hW.cholesky
  cases hcf : tfCholesky (s.U + s.Lᵀ * st.S * s.L) with
  | error e =>
    have h0 : s.bwBody st = .error e := by unfold TStage.bwBody TStage.gains; rw [hcf]; rfl
    refine ⟨fun st' h => ?_, fun e' h => ?_⟩
    · rw [h0] at h; cases h
    · rw [h0] at h; cases h
      unfold tensBwBody
      dsimp only
      refine bstep e1 (bstep e2 (bstep e3 (bstep e4 ?_)))
      rw [k2 _ hcf]
      rfl
  | ok f =>
    obtain ⟨CF, e5, hCF⟩ := k1 f hcf
    obtain ⟨LSF, e6, hLSF⟩ := hLS.mm hF
    obtain ⟨Kx, e7, hKx⟩ := hCF.mm hLSF
    obtain ⟨Sc, e8, hSc⟩ := hS.mv hc
    obtain ⟨vS, e9, hvS⟩ := hv.sub hSc
    obtain ⟨rh, e10, hrh⟩ := hLT.mv hvS
    obtain ⟨qq, rr, d, e11, e12, e13, hd⟩ := hCF.mmCol hrh
    obtain ⟨HT, e14, hHT⟩ := hH.mT
    obtain ⟨Xr, e15, hXr⟩ := hX.mv hr
    obtain ⟨HXr, e16, hHXr⟩ := hHT.mv hXr
    obtain ⟨LK, e17, hLK⟩ := hL.mm hKx
    obtain ⟨FL, e18, hFL⟩ := hF.sub hLK
    obtain ⟨FLT, e19, hFLT⟩ := hFL.mT
    obtain ⟨w1, e20, hw1⟩ := hFLT.mv hvS
    obtain ⟨v', e21, hv'⟩ := hHXr.add hw1
    obtain ⟨FT, e22, hFT⟩ := hF.mT
    obtain ⟨SFL, e23, hSFL⟩ := hS.mm hFL
    obtain ⟨w2, e24, hw2⟩ := hFT.mm hSFL
    obtain ⟨XH, e25, hXH⟩ := hX.mm hH
    obtain ⟨w3, e26, hw3⟩ := hHT.mm hXH
    obtain ⟨S', e27, hS'⟩ := hw2.add hw3
    have h0 : s.bwBody st = .ok ⟨s.Fᵀ * (st.S * (s.F - s.L * (f * (s.Lᵀ * st.S * s.F)))) + s.Hᵀ * (s.X * s.H),
        s.Hᵀ *ᵥ (s.X *ᵥ s.r) + (s.F - s.L * (f * (s.Lᵀ * st.S * s.F)))ᵀ *ᵥ (st.v - st.S *ᵥ s.c), f * (s.Lᵀ * st.S * s.F),
        f *ᵥ (s.Lᵀ *ᵥ (st.v - st.S *ᵥ s.c))⟩ := by
      unfold TStage.bwBody TStage.gains; rw [hcf]; rfl
    refine ⟨fun st' h => ?_, fun e' h => ?_⟩
    · rw [h0] at h; cases h
      refine ⟨⟨S', v', Kx, d⟩, ?_, ⟨hS', hv', hKx, hd⟩⟩
      unfold tensBwBody
      dsimp only
      refine bstep e1 (bstep e2 (bstep e3 (bstep e4 (bstep e5 (bstep e1 (bstep e2 (bstep e6 (bstep e7 ?_))))))))
      refine bstep e1 (bstep e8 (bstep e9 (bstep e10 (bstep e11 (bstep e12 (bstep e13 ?_))))))
      refine bstep e14 (bstep e15 (bstep e16 (bstep e17 (bstep e18 (bstep e19 (bstep e8 (bstep e9 (bstep e20 (bstep e21 ?_)))))))))
      refine bstep e22 (bstep e17 (bstep e18 (bstep e23 (bstep e24 (bstep e14 (bstep e25 (bstep e26 (bstep e27 ?_))))))))
      rfl
    · rw [h0] at h; cases h

theorem tfScanRev_rep {α α' γ γ' : Type} {R : α → α' → Prop} {Q : γ → γ' → Prop} {body : γ → α → Py γ} {body' : γ' → α' → Py γ'}
    (hb : ∀ c c' x x', Q c c' → R x x' → (∀ z, body' c' x' = .ok z → ∃ y, body c x = .ok y ∧ Q y z) ∧
      ∀ e, body' c' x' = .error e → body c x = .error e) {i : γ} {i' : γ'} (hi : Q i i') {l : List α} {l' : List α'}
    (hl : List.Forall₂ R l l') :
    (∀ r', tfScanRev body' i' l' = .ok r' → ∃ r, tfScanRev body i l = .ok r ∧ List.Forall₂ Q r.1 r'.1 ∧ Q r.2 r'.2) ∧
    ∀ e, tfScanRev body' i' l' = .error e → tfScanRev body i l = .error e := by
  induction hl with
  | nil => exact ⟨fun r' h => by cases h; exact ⟨_, rfl, .nil, hi⟩, fun e h => by cases h⟩
  | @cons x x' l l' hx hl ih =>
    obtain ⟨i1, i2⟩ := ih
    cases h0 : tfScanRev body' i' l' with
    | error e =>
      have h1 : tfScanRev body' i' (x' :: l') = .error e := by rw [tfScanRev, h0]; rfl
      have h2 : tfScanRev body i (x :: l) = .error e := by rw [tfScanRev, i2 e h0]; rfl
      refine ⟨fun r' h => ?_, fun e' h => ?_⟩
      · rw [h1] at h; cases h
      · rw [h1] at h; cases h; exact h2
    | ok r' =>
      obtain ⟨r, hr, q1, q2⟩ := i1 r' h0
      obtain ⟨b1, b2⟩ := hb _ _ _ _ q2 hx
      cases h3 : body' r'.2 x' with
      | error e =>
        have h1 : tfScanRev body' i' (x' :: l') = .error e := by rw [tfScanRev, h0, tens_bind, h3]; rfl
        have h2 : tfScanRev body i (x :: l) = .error e := by rw [tfScanRev, hr, tens_bind, b2 e h3]; rfl
        refine ⟨fun r' h => ?_, fun e' h => ?_⟩
        · rw [h1] at h; cases h
        · rw [h1] at h; cases h; exact h2
      | ok z =>
        obtain ⟨y, hy, qy⟩ := b1 z h3
        have h1 : tfScanRev body' i' (x' :: l') = .ok (z :: r'.1, z) := by rw [tfScanRev, h0, tens_bind, h3]; rfl
        have h2 : tfScanRev body i (x :: l) = .ok (y :: r.1, y) := by rw [tfScanRev, hr, tens_bind, hy]; rfl
        refine ⟨fun r' h => ?_, fun e' h => ?_⟩
        · rw [h1] at h; cases h; exact ⟨_, h2, .cons qy q1, qy⟩
        · rw [h1] at h; cases h

omit [LinearOrder K] in
theorem tensSteps_rep {ss : List (TStage n m p K)} {Fs cs Ls Hs rs Xs Us : Tens K} (h : StageTens ss Fs cs Ls Hs rs Xs Us) :
    ∃ l, tensSteps Fs cs Ls Hs rs Xs Us = .ok l ∧ List.Forall₂ TensStep.Rep l ss := by
  obtain ⟨lF, eF, hF⟩ := Tens.IsMt.items h.F
  obtain ⟨lc, ec, hc⟩ := Tens.IsVt.items h.c
  obtain ⟨lL, eL, hL⟩ := Tens.IsMt.items h.L
  obtain ⟨lH, eH, hH⟩ := Tens.IsMt.items h.H
  obtain ⟨lr, er, hr⟩ := Tens.IsVt.items h.r
  obtain ⟨lX, eX, hX⟩ := Tens.IsMt.items h.X
  obtain ⟨lU, eU, hU⟩ := Tens.IsMt.items h.U
  have hz := forall₂_zip_of hF (forall₂_zip_of hc (forall₂_zip_of hL (forall₂_zip_of hH (forall₂_zip_of hr (forall₂_zip_of hX hU)))))
  refine ⟨(lF.zip (lc.zip (lL.zip (lH.zip (lr.zip (lX.zip lU)))))).map fun s => ⟨s.1, s.2.1, s.2.2.1, s.2.2.2.1, s.2.2.2.2.1, s.2.2.2.2.2.1,
    s.2.2.2.2.2.2⟩, ?_, List.forall₂_map_left_iff.2 (hz.imp fun x s hx => ?_)⟩
  · unfold tensSteps
    refine bstep eF (bstep ec (bstep eL (bstep eH (bstep er (bstep eX (bstep eU ?_))))))
    refine Eq.trans (if_neg ?_) rfl
    rw [hF.length_eq, hc.length_eq, hL.length_eq, hH.length_eq, hr.length_eq, hX.length_eq, hU.length_eq]
    simp
  · obtain ⟨h1, h2, h3, h4, h5, h6, h7⟩ := hx
    exact ⟨h1, h2, h3, h4, h5, h6, h7⟩

omit [LinearOrder K] in
/-- The terminal value function. -/
theorem term_rep {P : TFLQT n m p q K} {HT rT XT : Tens K} (h : TermTens P HT rT XT) :
    ∃ HTT Xr v XH S, HT.mT = .ok HTT ∧ XT.mv rT = .ok Xr ∧ HTT.mv Xr = .ok v ∧ XT.mm HT = .ok XH ∧ HTT.mm XH = .ok S ∧
      v.IsV (P.HTᵀ *ᵥ (P.XT *ᵥ P.rT)) ∧ S.IsM (P.HTᵀ * (P.XT * P.HT)) := by
  obtain ⟨HTT, e1, hHTT⟩ := Tens.IsM.mT h.HT
  obtain ⟨Xr, e2, hXr⟩ := Tens.IsM.mv h.XT h.rT
  obtain ⟨v, e3, hv⟩ := hHTT.mv hXr
  obtain ⟨XH, e4, hXH⟩ := Tens.IsM.mm h.XT h.HT
  obtain ⟨S, e5, hS⟩ := hHTT.mm hXH
  exact ⟨HTT, Xr, v, XH, S, e1, e2, e3, e4, e5, hv, hS⟩

theorem seqBackward_rep {P : TFLQT n m p q K} {Fs cs Ls Hs HT rs rT Xs XT Us : Tens K} (h : StageTens P.stages Fs cs Ls Hs rs Xs Us)
    (hT : TermTens P HT rT XT) :
    (∀ r, P.seqBackward = .ok r → ∃ t, tensLqtSeqBackward Fs cs Ls Hs HT rs rT Xs XT Us = .ok t ∧ t.Holds r) ∧
    ∀ e, P.seqBackward = .error e → tensLqtSeqBackward Fs cs Ls Hs HT rs rT Xs XT Us = .error e := by
  obtain ⟨HTT, Xr, vT, XH, ST, e1, e2, e3, e4, e5, hv, hS⟩ := term_rep hT
  obtain ⟨l, e6, hl⟩ := tensSteps_rep h
  have s1 : Ls.size (-1) = .ok m := h.L.sizeLast
  have s2 : Ls.size (-2) = .ok n := by rw [Tens.size, h.L.1]; rfl
  have hi : TensCarry.Rep (n := n) (m := m) (⟨ST, vT, Tens.const [m, n] 0, Tens.const [m] 0⟩ : TensCarry K)
      ⟨P.HTᵀ * (P.XT * P.HT), P.HTᵀ *ᵥ (P.XT *ᵥ P.rT), 0, 0⟩ := ⟨hS, hv, ⟨rfl, fun _ _ => rfl⟩, ⟨rfl, fun _ => rfl⟩⟩
  obtain ⟨i1, i2⟩ := tfScanRev_rep (R := TensStep.Rep) (Q := TensCarry.Rep) (body := tensBwBody)
    (body' := fun st (s : TStage n m p K) => s.bwBody st) (fun c c' x x' hc hx => bwBody_rep hx hc) hi hl
  cases h0 : tfScanRev (fun st (s : TStage n m p K) => s.bwBody st)
      (⟨P.HTᵀ * (P.XT * P.HT), P.HTᵀ *ᵥ (P.XT *ᵥ P.rT), 0, 0⟩ : TCarry n m K) P.stages with
  | error e =>
    have h1 : P.seqBackward = .error e := by unfold TFLQT.seqBackward; dsimp only; rw [h0]; rfl
    refine ⟨fun r hr => ?_, fun e' he => ?_⟩
    · rw [h1] at hr; cases hr
    · rw [h1] at he; cases he
      unfold tensLqtSeqBackward
      refine bstep s1 (bstep s2 (bstep s1 (bstep e1 (bstep e2 (bstep e3 (bstep e1 (bstep e4 (bstep e5 (bstep e6 ?_)))))))))
      rw [i2 e h0]
      rfl
  | ok r =>
    have h1 : P.seqBackward = .ok ⟨r.1.map TCarry.Kx, r.1.map TCarry.d, r.1.map TCarry.S ++ [P.HTᵀ * (P.XT * P.HT)],
        r.1.map TCarry.v ++ [P.HTᵀ *ᵥ (P.XT *ᵥ P.rT)]⟩ := by unfold TFLQT.seqBackward; dsimp only; rw [h0]; rfl
    obtain ⟨r', e7, hr, -⟩ := i1 r h0
    refine ⟨fun R hR => ?_, fun e' he => ?_⟩
    · rw [h1] at hR; cases hR
      obtain ⟨Ss, e8, hSs⟩ := stack_hM (l := r'.1.map TensCarry.S) (bs := r.1.map TCarry.S) (f := fun A => A) ST.val (by
        rw [List.forall₂_map_left_iff, List.forall₂_map_right_iff]; exact hr.imp fun _ _ h => h.S)
      obtain ⟨vs, e9, hvs⟩ := stack_hV (l := r'.1.map TensCarry.v) (bs := r.1.map TCarry.v) (f := fun A => A) vT.val (by
        rw [List.forall₂_map_left_iff, List.forall₂_map_right_iff]; exact hr.imp fun _ _ h => h.v)
      obtain ⟨Kxs, e10, hKxs⟩ := stack_hM (l := r'.1.map TensCarry.Kx) (bs := r.1.map TCarry.Kx) (f := fun A => A) (fun _ => (0 : K)) (by
        rw [List.forall₂_map_left_iff, List.forall₂_map_right_iff]; exact hr.imp fun _ _ h => h.Kx)
      obtain ⟨ds, e11, hds⟩ := stack_hV (l := r'.1.map TensCarry.d) (bs := r.1.map TCarry.d) (f := fun A => A) (fun _ => (0 : K)) (by
        rw [List.forall₂_map_left_iff, List.forall₂_map_right_iff]; exact hr.imp fun _ _ h => h.d)
      obtain ⟨S1, e12, hS1⟩ := hS.expand (P.HTᵀ * (P.XT * P.HT)) (fun A => A) rfl
      obtain ⟨v1, e13, hv1⟩ := hv.expand (P.HTᵀ *ᵥ (P.XT *ᵥ P.rT)) (fun A => A) rfl
      obtain ⟨Ss', e14, hSs'⟩ := hSs.append hS1
      obtain ⟨vs', e15, hvs'⟩ := hvs.append hv1
      refine ⟨⟨Ss', vs', Kxs, ds⟩, ?_, ⟨hSs', hvs', hKxs, hds⟩⟩
      rw [← hS.1] at e8
      rw [← hv.1] at e9
      unfold tensLqtSeqBackward
      refine bstep s1 (bstep s2 (bstep s1 (bstep e1 (bstep e2 (bstep e3 (bstep e1 (bstep e4 (bstep e5 (bstep e6 (bstep e7 ?_))))))))))
      refine bstep e8 (bstep e9 (bstep e10 (bstep e11 (bstep e12 (bstep e14 (bstep e13 (bstep e15 ?_)))))))
      rfl
    · rw [h1] at he; cases he

end Ordered

end Verif
