import Verif.Proof.CLQTTensorPar
import Verif.Model.PararealTensor
import Verif.Model.PararealTF

/-! The backward pass of `parareal_clqt_tf.py` on tensors. -/

namespace Verif

open Matrix

variable {n m : ℕ} {K : Type}

theorem PyRep.rightEq {α β γ : Type} {S : α → γ → Prop} {x : Py α} {y : Py β} {b : β} {f : β → Py γ} (hy : y = .ok b) (h : PyRep S x (f b)) :
    PyRep S x (y >>= f) := by
  rw [hy]
  exact h

theorem mapM_maps {α β γ : Type} (f : α → β) (g : β → Py γ) (l : List α) : (l.map f).mapM g = l.mapM fun a => g (f a) := by
  induction l with
  | nil => rfl
  | cons a l ih => rw [List.map_cons, List.mapM_cons, List.mapM_cons, ih]

theorem forall₂_exists {α β : Type} {R : α → β → Prop} {l : List α} (h : ∀ a ∈ l, ∃ b, R a b) : ∃ l', List.Forall₂ R l l' := by
  induction l with
  | nil => exact ⟨[], .nil⟩
  | cons a l ih =>
    obtain ⟨b, hb⟩ := h a (by simp)
    obtain ⟨l', hl⟩ := ih fun x hx => h x (by simp [hx])
    exact ⟨b :: l', .cons hb hl⟩

section Batch
variable {β : Type} {s : List ℕ} {R : Tens K → β → Prop}

/-- `t[:, k]`. -/
theorem Tens.IsB.sel1 {t : Tens K} {L : List (List β)} {N k : ℕ} (h : t.Bat (N :: s) (Tens.BatN N s R) L) (hk : k < N) :
    ∃ r L', t.select 1 k = .ok r ∧ L.mapM (fun l => pyGet l k) = .ok L' ∧ r.Bat s R L' := by
  obtain ⟨st, vt⟩ := t
  obtain ⟨h1, h2⟩ := h
  dsimp only at h1 h2
  subst h1
  have hax : tfAxis (L.length :: N :: s).length 1 = .ok 1 := tfAxis_nat (a := 1) (by simp)
  obtain ⟨L', hL⟩ := forall₂_exists (R := fun (l : List β) b => pyGet l k = .ok b) (l := L) fun l hl => by
    obtain ⟨q, hq, rfl⟩ := List.getElem_of_mem hl
    exact ⟨_, pyGet_lt (by rw [(h2 q hq).1]; exact hk)⟩
  refine ⟨⟨L.length :: s, fun i => vt (i.insertIdx 1 k)⟩, L', ?_, mapM_ok_iff.2 hL, by rw [hL.length_eq], fun q hq => ?_⟩
  · rw [Tens.select]
    refine bstep hax ?_
    exact if_pos hk
  · have hq' : q < L.length := by rw [hL.length_eq]; exact hq
    obtain ⟨e1, e2, e3⟩ := h2 q hq'
    have e4 := e3 k (by omega)
    have e5 := hL.get hq' hq
    simp only [List.get_eq_getElem] at e5
    rw [pyGet_lt (by omega)] at e5
    rw [← Except.ok.inj e5]
    exact e4

/-- `t[:, -1]`. -/
theorem Tens.IsB.last1 {t : Tens K} {L : List (List β)} {N : ℕ} (h : t.Bat ((N + 1) :: s) (Tens.BatN (N + 1) s R) L) :
    ∃ r L', t.last1 = .ok r ∧ L.mapM pyLast = .ok L' ∧ r.Bat s R L' := by
  obtain ⟨r, L', e1, e2, hr⟩ := h.sel1 (k := N) (Nat.lt_succ_self N)
  refine ⟨r, L', bstep h.size1R e1, ?_, hr⟩
  rw [← e2]
  have hl : ∀ l ∈ L, pyLast l = pyGet l N := by
    intro l hl
    obtain ⟨q, hq, rfl⟩ := List.getElem_of_mem hl
    have e := (h.2 q hq).1
    rw [pyGet_lt (by omega), pyLast_ne (by intro h0; rw [h0] at e; simp at e), List.getLast_eq_getElem]
    simp only [e, Nat.add_sub_cancel]
  clear e2 hr e1 h
  induction L generalizing L' with
  | nil => rfl
  | cons l L ih => rw [List.mapM_cons, List.mapM_cons, hl l (by simp), ih L' fun x hx => hl x (by simp [hx])]

/-- `t[::step]`. -/
theorem Tens.IsB.stride {t : Tens K} {l : List β} {step : ℕ} (h : t.Bat s R l) (hs : 0 < step) :
    ∃ r l', t.stride0 step = .ok r ∧ tfStride l step = .ok l' ∧ r.Bat s R l' ∧ l'.length = (l.length + step - 1) / step := by
  obtain ⟨st, vt⟩ := t
  obtain ⟨h1, h2⟩ := h
  dsimp only at h1 h2
  subst h1
  have hlt : ∀ q < (l.length + step - 1) / step, q * step < l.length := by
    intro q hq
    have := (Nat.le_div_iff_mul_le hs).1 (Nat.succ_le_of_lt hq)
    rw [Nat.succ_mul] at this
    omega
  obtain ⟨l', hL⟩ := forall₂_exists (R := fun q b => pyGet l (q * step) = .ok b) (l := List.range ((l.length + step - 1) / step)) fun q hq =>
    ⟨_, pyGet_lt (hlt q (List.mem_range.1 hq))⟩
  have hlen : l'.length = (l.length + step - 1) / step := by rw [← hL.length_eq, List.length_range]
  refine ⟨⟨(l.length + step - 1) / step :: s, fun i => vt (i.getD 0 0 * step :: i.tail)⟩, l', ?_, ?_, ⟨by rw [hlen], fun q hq => ?_⟩, hlen⟩
  · rw [Tens.stride0, if_neg (by omega)]
  · rw [tfStride, if_neg (by omega)]
    exact mapM_ok_iff.2 hL
  · have hq' : q < (List.range ((l.length + step - 1) / step)).length := by rw [hL.length_eq]; exact hq
    have e5 := hL.get hq' hq
    simp only [List.get_eq_getElem, List.getElem_range] at e5
    rw [List.length_range] at hq'
    rw [pyGet_lt (hlt q hq')] at e5
    rw [← Except.ok.inj e5]
    exact h2 _ (hlt q hq')

theorem Tens.IsB.pushItem (hR : TensRel s R) {t x : Tens K} {l : List β} {b : β} (h : t.Bat s R l) (hx : R x b) :
    ∃ r, t.pushItem x = .ok r ∧ r.Bat s R (l ++ [b]) := by
  obtain ⟨x', e1, h1⟩ := expand_bat hR hx
  obtain ⟨c, e2, h2⟩ := h.concat h1
  exact ⟨c, bstep e1 e2, h2⟩

theorem Tens.IsB.consItem (hR : TensRel s R) {t x : Tens K} {l : List β} {b : β} (h : t.Bat s R l) (hx : R x b) :
    ∃ r, x.consItem t = .ok r ∧ r.Bat s R (b :: l) := by
  obtain ⟨x', e1, h1⟩ := expand_bat hR hx
  obtain ⟨c, e2, h2⟩ := h1.concat h
  exact ⟨c, bstep e1 e2, h2⟩

theorem Tens.IsB.itemsL {t : Tens K} {l : List β} {N : ℕ} (h : t.Bat s R l) (hl : l.length = N) :
    ∃ ts, t.items = .ok ts ∧ (List.Forall₂ R ts l ∧ ts.length = N) := by
  obtain ⟨ts, e, h⟩ := h.itemsR
  exact ⟨ts, e, h, by rw [h.length_eq, hl]⟩

end Batch

variable [Field K]

theorem Tens.IsM.correct {a b : ℕ} {t t' t'' : Tens K} {A B C : Matrix (Fin a) (Fin b) K} (h : t.IsM A) (h' : t'.IsM B) (h'' : t''.IsM C) :
    ∃ r, t.correct t' t'' = .ok r ∧ r.IsM (A + B - C) := by
  obtain ⟨r, e1, h1⟩ := h.add h'
  obtain ⟨r', e2, h2⟩ := h1.sub h''
  exact ⟨r', bstep e1 e2, h2⟩

theorem Tens.IsV.correct {a : ℕ} {t t' t'' : Tens K} {A B C : Fin a → K} (h : t.IsV A) (h' : t'.IsV B) (h'' : t''.IsV C) :
    ∃ r, t.correct t' t'' = .ok r ∧ r.IsV (A + B - C) := by
  obtain ⟨r, e1, h1⟩ := h.add h'
  obtain ⟨r', e2, h2⟩ := h1.sub h''
  exact ⟨r', bstep e1 e2, h2⟩

theorem tfPrTimes_length (blocks steps : ℕ) (dt : K) : (tfPrTimes blocks steps dt).length = blocks := by simp [tfPrTimes]

section Ordered
variable [LinearOrder K] {p : TensCLQT K} {P : CLQT n m K}

/-- The tensors of the current values at the ends of `N` blocks. -/
structure PrBwRep (N : ℕ) (t : Tens K × Tens K) (r : List (Matrix (Fin n) (Fin n) K) × List (Fin n → K)) : Prop where
  S : t.1.BatN (N + 1) [n, n] (fun t (A : Matrix (Fin n) (Fin n) K) => t.IsM A) r.1
  v : t.2.BatN (N + 1) [n] (fun t A => t.IsV A) r.2

/-- One value function. -/
structure SvRep (t : Tens K × Tens K) (r : Matrix (Fin n) (Fin n) K × (Fin n → K)) : Prop where
  S : t.1.IsM r.1
  v : t.2.IsV r.2

omit [LinearOrder K] in
theorem seqDefaults_rep {d : TensFinal K} (hd : d.Holds P) (steps : ℕ) :
    ∃ ST vT, tensClqtSeqDefaults d steps = .ok (P.T / steps, 0, ST, vT) ∧ ST.IsM (P.tfSeqDefaults steps).2.2.1 ∧ vT.IsV (P.tfSeqDefaults steps).2.2.2 := by
  obtain ⟨HTt, e1, h1⟩ := hd.HT.mT
  obtain ⟨XH, e2, h2⟩ := hd.XT.mm hd.HT
  obtain ⟨ST, e3, h3⟩ := h1.mm h2
  obtain ⟨Xr, e4, h4⟩ := hd.XT.mv hd.rT
  obtain ⟨vT, e5, h5⟩ := h1.mv h4
  refine ⟨ST, vT, ?_, h3, h5⟩
  rw [tensClqtSeqDefaults, hd.T]
  exact bstep e1 (bstep e2 (bstep e3 (bstep e1 (bstep e4 (bstep e5 rfl)))))

theorem prInitBw_rep (hp : p.Holds P) {d : TensFinal K} (hd : d.Holds P) (blocks : ℕ) :
    PyRep (PrBwRep blocks) (tensPrInitBackward p d blocks) (P.tfPrInitBackward blocks) := by
  obtain ⟨ST, vT, e, hS, hv⟩ := seqDefaults_rep hd blocks
  unfold tensPrInitBackward CLQT.tfPrInitBackward
  refine .left ⟨_, e, rfl⟩ fun _ h => ?_
  subst h
  exact (clqtBwPass_rep hp blocks (P.T / blocks) 0 hS hv).bind fun r r' hr => .ok ⟨hr.Ss, hr.vs⟩

/-- The backward passes over all blocks. -/
theorem prBatchBw_rep (hp : p.Holds P) (steps : ℕ) (dt : K) {blocks : ℕ} (hB : 0 < blocks) {Ss vs : Tens K} {Sl : List (Matrix (Fin n) (Fin n) K)}
    {vl : List (Fin n → K)} (hS : Ss.Bat [n, n] (fun t (A : Matrix (Fin n) (Fin n) K) => t.IsM A) Sl) (hv : vs.Bat [n] (fun t A => t.IsV A) vl)
    (l1 : Sl.length = blocks) (l2 : vl.length = blocks) :
    PyRep (fun t rs => BwsRep steps t rs ∧ rs.length = blocks) (tensClqtBwBatch p steps dt (tensPrTimes blocks steps dt) Ss vs)
      (((tfPrTimes blocks steps dt).zip (Sl.zip vl)).mapM fun a => P.tfSeqBackward steps dt a.1 a.2.1 a.2.2) := by
  have hbl := tfPrTimes_length blocks steps dt
  refine (clqtBwBatch_rep hp steps dt (t0 := tfPrTimes blocks steps dt) hS hv (by rw [hbl, l1]) (by rw [hbl, l2])
    (by intro h0; rw [h0] at hbl; simp at hbl; omega)).with fun t rs e h => ⟨h, ?_⟩
  have := (mapM_ok_iff.1 e).length_eq
  rw [← this]
  simp [hbl, l1, l2]

theorem prDenseBw_rep (hp : p.Holds P) (steps : ℕ) {blocks : ℕ} (hB : 0 < blocks) {c : Tens K × Tens K} {c' : List (Matrix (Fin n) (Fin n) K) × List (Fin n → K)}
    (h : PrBwRep blocks c c') : PyRep (PrBwRep blocks) (tensPrDenseBackward p steps P.T c.1 c.2) (P.tfPrDenseBackward steps c'.1 c'.2) := by
  obtain ⟨⟨l1, hS⟩, ⟨l2, hv⟩⟩ := h
  unfold tensPrDenseBackward CLQT.tfPrDenseBackward
  refine .left ⟨_, hS.size0R, rfl⟩ fun _ h => ?_
  subst h
  dsimp only
  rw [l1, Nat.add_sub_cancel]
  refine .left hS.tail fun S1 hS1 => ?_
  refine .left hv.tail fun v1 hv1 => ?_
  refine PyRep.bind (prBatchBw_rep hp steps _ hB hS1 hv1 (by simp [l1]) (by simp [l2])) fun r rs hr => ?_
  obtain ⟨hr, hl⟩ := hr
  obtain ⟨S2, L1, e1, f1, hS2⟩ := hr.Ss.sel1 (k := 0) (Nat.succ_pos _)
  obtain ⟨v2, L2, e2, f2, hv2⟩ := hr.vs.sel1 (k := 0) (Nat.succ_pos _)
  have k1 := (mapM_ok_iff.1 f1).length_eq
  have k2 := (mapM_ok_iff.1 f2).length_eq
  rw [List.length_map, hl] at k1 k2
  rw [mapM_maps] at f1 f2
  refine PyRep.rightEq f1 (PyRep.rightEq f2 ?_)
  refine .left ⟨_, e1, rfl⟩ fun _ h => ?_
  subst h
  refine .left ⟨_, e2, rfl⟩ fun _ h => ?_
  subst h
  have ne1 : c'.1 ≠ [] := by intro h0; rw [h0] at l1; simp at l1
  have ne2 : c'.2 ≠ [] := by intro h0; rw [h0] at l2; simp at l2
  refine PyRep.rightEq (pyLast_ne ne1) (PyRep.rightEq (pyLast_ne ne2) ?_)
  refine .left (hS.lastR ne1) fun S3 hS3 => ?_
  refine .left (hS2.pushItem isM_rel hS3) fun S4 hS4 => ?_
  refine .left (hv.lastR ne2) fun v3 hv3 => ?_
  refine .left (hv2.pushItem isV_rel hv3) fun v4 hv4 => ?_
  exact .ok ⟨⟨by simp [← k1], hS4⟩, ⟨by simp [← k2], hv4⟩⟩

theorem prCoarseBwBody_rep (hp : p.Holds P) (dt : K) {c : (Tens K × Tens K) × (Tens K × Tens K)}
    {c' : (Matrix (Fin n) (Fin n) K × (Fin n → K)) × (Matrix (Fin n) (Fin n) K × (Fin n → K))} (hc : SvRep c.1 c'.1)
    {i : K × (Tens K × Tens K) × (Tens K × Tens K)} {i' : K × (Matrix (Fin n) (Fin n) K × (Fin n → K)) × (Matrix (Fin n) (Fin n) K × (Fin n → K))}
    (h0 : i.1 = i'.1) (h1 : SvRep i.2.1 i'.2.1) (h2 : SvRep i.2.2 i'.2.2) :
    PyRep (fun r r' => SvRep r.1 r'.1 ∧ SvRep r.2 r'.2) (tensPrCoarseBwBody p dt c i) (P.tfPrCoarseBwBody dt c' i') := by
  obtain ⟨t, ⟨SF, vF⟩, ⟨SG, vG⟩⟩ := i
  obtain ⟨t', ⟨SF', vF'⟩, ⟨SG', vG'⟩⟩ := i'
  obtain ⟨hSF, hvF⟩ := h1
  obtain ⟨hSG, hvG⟩ := h2
  dsimp only at h0 hSF hvF hSG hvG
  subst h0
  unfold tensPrCoarseBwBody CLQT.tfPrCoarseBwBody
  dsimp only
  refine PyRep.bind (clqtBwPass_rep hp 1 dt t hc.S hc.v) fun r r' hr => ?_
  refine PyRep.bind (hr.Ss.2.ends false) fun S hS => ?_
  intro hS1
  refine PyRep.bind (hr.vs.2.ends false) fun v hv hv1 => ?_
  refine .left (hS1.correct hSF hSG) fun S2 hS2 => ?_
  refine .left (hv1.correct hvF hvG) fun v2 hv2 => ?_
  exact .ok ⟨⟨hS2, hv2⟩, ⟨hS1, hv1⟩⟩

theorem prCoarseBw_rep (hp : p.Holds P) {blocks : ℕ} {F G : Tens K × Tens K}
    {F' G' : List (Matrix (Fin n) (Fin n) K) × List (Fin n → K)} (hF : PrBwRep blocks F F') (hG : PrBwRep blocks G G') :
    PyRep (fun r r' => PrBwRep blocks r.1 r'.1 ∧ PrBwRep blocks r.2 r'.2) (tensPrCoarseBackward p P.T F G) (P.tfPrCoarseBackward F' G') := by
  obtain ⟨⟨l1, hSF⟩, ⟨l2, hvF⟩⟩ := hF
  obtain ⟨⟨l3, hSG⟩, ⟨l4, hvG⟩⟩ := hG
  unfold tensPrCoarseBackward CLQT.tfPrCoarseBackward
  refine .left ⟨_, hSF.size0R, rfl⟩ fun _ h => ?_
  subst h
  dsimp only
  rw [l1, Nat.add_sub_cancel]
  have ne1 : F'.1 ≠ [] := by intro h0; rw [h0] at l1; simp at l1
  have ne2 : F'.2 ≠ [] := by intro h0; rw [h0] at l2; simp at l2
  refine PyRep.rightEq (pyLast_ne ne1) (PyRep.rightEq (pyLast_ne ne2) ?_)
  refine .left (hSF.lastR ne1) fun ST hST => ?_
  refine .left (hvF.lastR ne2) fun vT hvT => ?_
  refine .left hSF.init fun a ha => ?_
  refine .left (ha.itemsL (N := blocks) (by simp [l1])) fun SF ⟨iSF, k1⟩ => ?_
  refine .left hvF.init fun a ha => ?_
  refine .left (ha.itemsL (N := blocks) (by simp [l2])) fun vF ⟨ivF, k2⟩ => ?_
  refine .left hSG.init fun a ha => ?_
  refine .left (ha.itemsL (N := blocks) (by simp [l3])) fun SG ⟨iSG, k3⟩ => ?_
  refine .left hvG.init fun a ha => ?_
  refine .left (ha.itemsL (N := blocks) (by simp [l4])) fun vG ⟨ivG, k4⟩ => ?_
  rw [if_neg (by rw [k1, k2, k3, k4]; simp)]
  have hsc := PyRep.scanRev (S := fun (r : (Tens K × Tens K) × (Tens K × Tens K)) (r' : (Matrix (Fin n) (Fin n) K × (Fin n → K)) × (Matrix (Fin n) (Fin n) K × (Fin n → K))) =>
      SvRep r.1 r'.1 ∧ SvRep r.2 r'.2) (body := tensPrCoarseBwBody p (P.T / (blocks : K))) (body' := P.tfPrCoarseBwBody (P.T / (blocks : K)))
    (fun c c' x x' hc hx => prCoarseBwBody_rep hp _ hc.1 hx.1 ⟨hx.2.1.1, hx.2.1.2⟩ ⟨hx.2.2.1, hx.2.2.2⟩)
    (i := ((ST, vT), (ST, vT))) (i' := ((_, _), (_, _))) ⟨⟨hST, hvT⟩, ⟨hST, hvT⟩⟩
    (forall₂_zips (forall₂_eq_self (tfPrCoarseTimes blocks (P.T / (blocks : K)))) (forall₂_zips (forall₂_zips iSF ivF) (forall₂_zips iSG ivG)))
  refine PyRep.bind (hsc.with fun r r' e h => And.intro (tfScanRev_len e) h) fun r r' hr => ?_
  obtain ⟨hl, hr, -⟩ := hr
  have hl : r'.1.length = blocks := by rw [hl]; simp [tfPrCoarseTimes, l1, l2, l3, l4]
  refine .left (stackT isM_rel hST (forall₂_maps hr fun a b h => h.1.S)) fun S1 hS1 => ?_
  refine .left (stackT isV_rel hvT (forall₂_maps hr fun a b h => h.1.v)) fun v1 hv1 => ?_
  refine .left (stackT isM_rel hST (forall₂_maps hr fun a b h => h.2.S)) fun S2 hS2 => ?_
  refine .left (stackT isV_rel hvT (forall₂_maps hr fun a b h => h.2.v)) fun v2 hv2 => ?_
  refine .left (hS1.pushItem isM_rel hST) fun S1 hS1 => ?_
  refine .left (hv1.pushItem isV_rel hvT) fun v1 hv1 => ?_
  refine .left (hS2.pushItem isM_rel hST) fun S2 hS2 => ?_
  refine .left (hv2.pushItem isV_rel hvT) fun v2 hv2 => ?_
  exact .ok ⟨⟨⟨by simp [hl], hS1⟩, ⟨by simp [hl], hv1⟩⟩, ⟨⟨by simp [hl], hS2⟩, ⟨by simp [hl], hv2⟩⟩⟩

omit [Field K] [LinearOrder K] in
theorem Tens.IsB.lens {β : Type} {s : List ℕ} {R : Tens K → β → Prop} {t : Tens K} {L : List (List β)} {N : ℕ} (h : t.Bat (N :: s) (Tens.BatN N s R) L) :
    ∀ l ∈ L, l.length = N := by
  intro l hl
  obtain ⟨k, hk, rfl⟩ := List.getElem_of_mem hl
  exact (h.2 k hk).1

theorem prFinalBw_rep (hp : p.Holds P) (steps : ℕ) {blocks : ℕ} (hB : 0 < blocks) {c : Tens K × Tens K} {c' : List (Matrix (Fin n) (Fin n) K) × List (Fin n → K)}
    (h : PrBwRep blocks c c') : PyRep (ClBwRep (blocks * steps)) (tensPrFinalBackward p steps P.T c.1 c.2) (P.tfPrFinalBackward steps c'.1 c'.2) := by
  obtain ⟨⟨l1, hS⟩, ⟨l2, hv⟩⟩ := h
  unfold tensPrFinalBackward CLQT.tfPrFinalBackward
  refine .left ⟨_, hS.size0R, rfl⟩ fun _ h => ?_
  subst h
  dsimp only
  rw [l1, Nat.add_sub_cancel]
  refine .left hS.tail fun S1 hS1 => ?_
  refine .left hv.tail fun v1 hv1 => ?_
  refine PyRep.bind (prBatchBw_rep hp steps _ hB hS1 hv1 (by simp [l1]) (by simp [l2])) fun r rs hr => ?_
  obtain ⟨hr, hl⟩ := hr
  have k1 := hr.Kxs.lens
  have k2 := hr.ds.lens
  refine .left hr.Ss.init1 fun S2 hS2 => ?_
  refine .left hr.vs.init1 fun v2 hv2 => ?_
  have k3 := hS2.lens
  have k4 := hv2.lens
  refine .left (hS2.merge isM_rel) fun S3 hS3 => ?_
  refine .left (hv2.merge isV_rel) fun v3 hv3 => ?_
  refine .left (hr.Kxs.merge isM_rel) fun Kx hKx => ?_
  refine .left (hr.ds.merge isV_rel) fun d hd => ?_
  have ne1 : c'.1 ≠ [] := by intro h0; rw [h0] at l1; simp at l1
  have ne2 : c'.2 ≠ [] := by intro h0; rw [h0] at l2; simp at l2
  refine PyRep.rightEq (pyLast_ne ne1) (PyRep.rightEq (pyLast_ne ne2) ?_)
  refine .left (hS.lastR ne1) fun S4 hS4 => ?_
  refine .left (hv.lastR ne2) fun v4 hv4 => ?_
  refine .left (hS3.pushItem isM_rel hS4) fun S5 hS5 => ?_
  refine .left (hv3.pushItem isV_rel hv4) fun v5 hv5 => ?_
  have n1 := flattenN_len k1
  have n2 := flattenN_len k2
  have n3 := flattenN_len k3
  have n4 := flattenN_len k4
  simp only [List.length_map, hl] at n1 n2 n3 n4
  rw [List.map_map] at hS5 hv5 n3 n4
  exact .ok ⟨⟨by rw [List.length_append]; exact congrArg (· + 1) n3, hS5⟩, ⟨by rw [List.length_append]; exact congrArg (· + 1) n4, hv5⟩, ⟨n1, hKx⟩, ⟨n2, hd⟩⟩

theorem prBackward_rep (hp : p.Holds P) {d : TensFinal K} (hd : d.Holds P) {blocks : ℕ} (hB : 0 < blocks) (steps niter : ℕ) :
    PyRep (ClBwRep (blocks * steps)) (tensPrBackward p d blocks steps niter) (P.tfPrBackward blocks steps niter) := by
  unfold tensPrBackward CLQT.tfPrBackward
  rw [hd.T]
  refine PyRep.bind (prInitBw_rep hp hd blocks) fun c c' hc => ?_
  have hsc := PyRep.scanFwd (R := (· = ·)) (S := fun (r : (Tens K × Tens K) × (Tens K × Tens K))
      (r' : (List (Matrix (Fin n) (Fin n) K) × List (Fin n → K)) × (List (Matrix (Fin n) (Fin n) K) × List (Fin n → K))) => PrBwRep blocks r.1 r'.1 ∧ PrBwRep blocks r.2 r'.2)
    (body := fun c (_ : ℕ) => tensPrBwBody p steps P.T c) (body' := fun c (_ : ℕ) => P.tfPrBwBody steps c)
    (fun c c' x x' hc _ => by
      unfold tensPrBwBody CLQT.tfPrBwBody
      exact (prDenseBw_rep hp steps hB hc.1).bind fun F F' hF => prCoarseBw_rep hp hF hc.2)
    (forall₂_eq_self (List.range niter)) (i := (c, c)) (i' := (c', c')) ⟨hc, hc⟩
  obtain ⟨S, v⟩ := c
  refine PyRep.bind hsc fun r r' hr => ?_
  refine .left (stackT (isM_rel.bat (blocks + 1)) hc.S (forall₂_maps hr fun a b h => h.1.S)) fun S1 hS1 => ?_
  refine .left (stackT (isV_rel.bat (blocks + 1)) hc.v (forall₂_maps hr fun a b h => h.1.v)) fun v1 hv1 => ?_
  refine .left (stackT (isM_rel.bat (blocks + 1)) hc.S (forall₂_maps hr fun a b h => h.2.S)) fun S2 hS2 => ?_
  refine .left (stackT (isV_rel.bat (blocks + 1)) hc.v (forall₂_maps hr fun a b h => h.2.v)) fun v2 hv2 => ?_
  cases r' with
  | nil =>
    obtain ⟨e, he⟩ := hS1.last_fail rfl
    exact ⟨e, by rw [he]; rfl⟩
  | cons a r' =>
    refine PyRep.rightEq (pyLast_ne (by simp)) ?_
    refine .left (hS1.lastR (by simp)) fun S3 hS3 => ?_
    refine .left (hv1.lastR (by simp)) fun v3 hv3 => ?_
    rw [List.getLast_map] at hS3 hv3
    exact prFinalBw_rep hp steps hB (c := (S3, v3)) ⟨hS3, hv3⟩

end Ordered

end Verif
