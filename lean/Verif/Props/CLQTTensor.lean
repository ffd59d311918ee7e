import Verif.Proof.CLQTTensorPar
import Verif.Props.CLQTTF
import Verif.Props.LQTTensor
import Verif.Props.ViterbiTensor

/-! Property C106: `clqt_tf.py` on tensors computes the passes of the numpy class `CLQT`. -/

namespace Verif

open Matrix

variable {n m : ℕ} {K : Type}

theorem TensAbc.Holds.inj {t : TensAbc K} {r r' : AbcResult n K} (h : t.Holds r) (h' : t.Holds r') : r = r' := by
  obtain ⟨a, b, c⟩ := r
  obtain ⟨a', b', c'⟩ := r'
  have e1 := Tens.HoldsM.inj h.A h'.A
  have e2 := Tens.HoldsV.inj h.b h'.b
  have e3 := Tens.HoldsM.inj h.C h'.C
  dsimp only at e1 e2 e3
  rw [e1, e2, e3]

theorem holdsVV_inj {t : Tens K × Tens K} {r r' : List (Fin n → K) × List (Fin m → K)} (h : t.1.HoldsV r.1 ∧ t.2.HoldsV r.2)
    (h' : t.1.HoldsV r'.1 ∧ t.2.HoldsV r'.2) : r = r' := Prod.ext (Tens.HoldsV.inj h.1 h'.1) (Tens.HoldsV.inj h.2 h'.2)

theorem PyRep.iff {α β : Type} {R : α → β → Prop} {x : Py α} {y : Py β} (h : PyRep R x y) (hi : ∀ a b b', R a b → R a b' → b = b') (b : β) :
    (∃ a, x = .ok a ∧ R a b) ↔ y = .ok b := by
  cases y with
  | error e =>
    obtain ⟨e', rfl⟩ := h
    exact ⟨(fun ⟨a, h, _⟩ => by cases h), (fun h => by cases h)⟩
  | ok b' =>
    obtain ⟨a, rfl, hr⟩ := h
    constructor
    · rintro ⟨a', h, hr'⟩
      cases h
      rw [hi _ _ _ hr hr']
    · intro h
      cases h
      exact ⟨a, rfl, hr⟩

theorem PyRep.of_ok {α β : Type} {R : α → β → Prop} {x : Py α} {y : Py β} (h : PyRep R x y) {a : α} (ha : x = .ok a) : ∃ b, y = .ok b ∧ R a b := by
  cases y with
  | error e => obtain ⟨e', h⟩ := h; rw [ha] at h; cases h
  | ok b => obtain ⟨a', h, hr⟩ := h; rw [ha] at h; cases h; exact ⟨b, rfl, hr⟩

variable [Field K]

/-- C106 (defaults): the time steps and the tensors of the terminal values and of the initial values. -/
theorem C106_defaults (P : CLQT n m K) {d : TensFinal K} (hd : d.Holds P) (blocks steps : ℕ) :
    (∃ ST vT, tensClqtSeqDefaults d steps = .ok (P.T / steps, 0, ST, vT) ∧ ST.IsM (P.HTᵀ * P.XT * P.HT) ∧ vT.IsV (P.HTᵀ *ᵥ (P.XT *ᵥ P.rT))) ∧
    (∃ ST vT, tensClqtParDefaults d blocks steps = .ok (P.T / (steps * blocks), 0, ST, vT) ∧ ST.IsM (P.HTᵀ * P.XT * P.HT) ∧
      vT.IsV (P.HTᵀ *ᵥ (P.XT *ᵥ P.rT))) ∧
    ∀ (x0 : Fin n → K) (tx : Tens K), tx.IsV x0 → ∃ e : TensAbc K, tensClqtSeqFwdBwdDefaults tx steps d.T = .ok (P.T / steps, 0, e) ∧
      e.A.IsM (0 : Matrix (Fin n) (Fin n) K) ∧ e.b.IsV x0 ∧ e.C.IsM (0 : Matrix (Fin n) (Fin n) K) := by
  obtain ⟨HTt, e1, h1⟩ := hd.HT.mT
  obtain ⟨XH, e2, h2⟩ := hd.XT.mm hd.HT
  obtain ⟨ST, e3, h3⟩ := h1.mm h2
  obtain ⟨Xr, e4, h4⟩ := hd.XT.mv hd.rT
  obtain ⟨vT, e5, h5⟩ := h1.mv h4
  rw [← Matrix.mul_assoc] at h3
  refine ⟨⟨ST, vT, ?_, h3, h5⟩, ⟨ST, vT, ?_, h3, h5⟩, fun x0 tx hx => ⟨⟨Tens.const [n, n] 0, tx, (Tens.const [n, n] (0 : K)).map fun _ => 0⟩, ?_, constM_zero n n, hx,
    (constM_zero n n).zeroM⟩⟩
  · rw [tensClqtSeqDefaults, hd.T]
    exact bstep e1 (bstep e2 (bstep e3 (bstep e1 (bstep e4 (bstep e5 rfl)))))
  · rw [tensClqtParDefaults, hd.T]
    refine bstep e1 (bstep e2 (bstep e3 (bstep e1 (bstep e4 (bstep e5 ?_)))))
    rw [Nat.cast_mul]
    rfl
  · rw [tensClqtSeqFwdBwdDefaults, hd.T]
    exact bstep hx.size0 (bstep hx.size0 rfl)

section Ordered
variable [LinearOrder K]

/-- C106 (forward): on the tensors of at least one gain `clqt_seq_forwardpass` returns the tensors of the states and controls of
`seqForwardPass`, with and without zero-order hold, and completes if and only if that does. -/
theorem C106_seq_forward (P : CLQT n m K) {p : TensCLQT K} (hp : p.Holds P) {x0 Kxs ds : Tens K} {x0' : Fin n → K}
    {Kl : List (Matrix (Fin m) (Fin n) K)} {dl : List (Fin m → K)} (hx : x0.IsV x0') (hK : Kxs.HoldsM Kl) (hd : ds.HoldsV dl)
    (hl : Kl.length = dl.length) (h0 : dl ≠ []) (dt t0 : K) (u_zoh : Bool) (us : List (Fin m → K)) (xs : List (Fin n → K)) :
    (∃ tx tu, tensClqtSeqForward p u_zoh x0 Kxs ds dt t0 = .ok (tx, tu) ∧ tx.HoldsV xs ∧ tu.HoldsV us) ↔
      P.seqForwardPass x0' Kl dl (some dt) (some t0) u_zoh = .ok (us, xs) := by
  rw [← C71_seq_forward P x0' Kl dl hl h0, ← (((clqtSeqForward_rep hp u_zoh dt t0 hx hK hd).mono
    (R' := fun t r => t.1.HoldsV r.1 ∧ t.2.HoldsV r.2) fun a b h => ⟨h.xs.2.holdsV, h.us.2.holdsV⟩).iff (fun a b b' h h' => holdsVV_inj h h') (xs, us))]
  exact ⟨fun ⟨tx, tu, h⟩ => ⟨(tx, tu), h⟩, fun ⟨t, h⟩ => ⟨t.1, t.2, h⟩⟩

omit [LinearOrder K] in
/-- C106 (errors): without a gain, or with different numbers of gains and offsets, `clqt_seq_forwardpass` raises an error. -/
theorem C106_forward_errors (P : CLQT n m K) {p : TensCLQT K} (hp : p.Holds P) {x0 Kxs ds : Tens K} {x0' : Fin n → K}
    {Kl : List (Matrix (Fin m) (Fin n) K)} {dl : List (Fin m → K)} (hx : x0.IsV x0') (hK : Kxs.HoldsM Kl) (hd : ds.HoldsV dl)
    (h : Kl.length ≠ dl.length ∨ dl = []) (dt t0 : K) (u_zoh : Bool) : ∃ e, tensClqtSeqForward p u_zoh x0 Kxs ds dt t0 = .error e := by
  have hr := clqtSeqForward_rep hp u_zoh dt t0 hx hK hd
  unfold CLQT.tfSeqForward at hr
  by_cases hl : Kl.length ≠ dl.length
  · rw [if_pos hl] at hr
    exact hr
  · rw [if_neg hl, h.resolve_left hl] at hr
    exact hr

/-- C106 (combination): on the tensors of passes over the same `N` steps `clqt_combine_fwdbwd` returns the tensors of the states and
controls of `combineForwardBackward`, and completes if and only if that does. -/
theorem C106_combine (N : ℕ) {tb : TensBw K} {ta : TensAbc K} {bw : BwResult n m K} {fw : AbcResult n K} (hb : tb.Holds bw) (ha : ta.Holds fw)
    (h1 : bw.Kx_list.length = N) (h2 : bw.d_list.length = N) (h3 : bw.S_list.length = N + 1) (h4 : bw.v_list.length = N + 1)
    (h5 : fw.A_list.length = N + 1) (h6 : fw.b_list.length = N + 1) (h7 : fw.C_list.length = N + 1) (us : List (Fin m → K)) (xs : List (Fin n → K)) :
    (∃ tx tu, tensClqtCombine tb.Kxs tb.ds tb.Ss tb.vs ta.b ta.C = .ok (tx, tu) ∧ tx.HoldsV xs ∧ tu.HoldsV us) ↔
      CLQT.combineForwardBackward bw fw = .ok (us, xs) := by
  rw [← C71_combine N bw fw h1 h2 h3 h4 h5 h6 h7, ← (clqtCombine_rep hb.Ss hb.vs hb.Kxs hb.ds ha.b ha.C h3 h4 h1 h2 h6 h7).iff
    (fun a b b' h h' => holdsVV_inj h h') (xs, us)]
  exact ⟨fun ⟨tx, tu, h⟩ => ⟨(tx, tu), h⟩, fun ⟨t, h⟩ => ⟨t.1, t.2, h⟩⟩

/-- C106 (parallel forward): on the tensors of `blocks * steps` gains `clqt_par_forwardpass`, with any associative scan, returns the tensors
of the states and controls of `parForwardPass`, and completes if and only if that does. -/
theorem C106_par_forward (P : CLQT n m K) {p : TensCLQT K} (hp : p.Holds P) (scan : AScan) (hs : ∀ α, IsAssocScan (scan α)) {x0 Kxs ds : Tens K}
    {x0' : Fin n → K} {Kl : List (Matrix (Fin m) (Fin n) K)} {dl : List (Fin m → K)} (hx : x0.IsV x0') (hK : Kxs.HoldsM Kl) (hd : ds.HoldsV dl)
    {blocks steps : ℕ} (hB : 0 < blocks) (hst : 0 < steps) (l1 : Kl.length = blocks * steps) (l2 : dl.length = blocks * steps) (dt t0 : K)
    (forward u_zoh : Bool) (us : List (Fin m → K)) (xs : List (Fin n → K)) :
    (∃ tx tu, tensClqtParForward p scan blocks steps x0 Kxs ds dt t0 forward u_zoh = .ok (tx, tu) ∧ tx.HoldsV xs ∧ tu.HoldsV us) ↔
      P.parForwardPass x0' Kl dl blocks steps (some dt) (some t0) forward u_zoh = .ok (us, xs) := by
  obtain ⟨scan', hs', hr⟩ := clqtParForward_rep hp hs forward u_zoh hB dt t0 hx hK hd l1 l2
  rw [← C71_par_forward P scan' hs' x0' Kl dl blocks steps hst l1 l2, ← hr.iff (fun a b b' h h' => holdsVV_inj h h') (xs, us)]
  exact ⟨fun ⟨tx, tu, h⟩ => ⟨(tx, tu), h⟩, fun ⟨t, h⟩ => ⟨t.1, t.2, h⟩⟩

omit [LinearOrder K] in
/-- C106 (errors): with another number of gains the reshapes of `clqt_par_forwardpass` raise an error. -/
theorem C106_par_errors (p : TensCLQT K) (scan : AScan) {x0 Kxs ds : Tens K} {Kl : List (Matrix (Fin m) (Fin n) K)} (hK : Kxs.HoldsM Kl) (hm : 0 < m)
    (hn : 0 < n) {blocks steps : ℕ} (l1 : Kl.length ≠ blocks * steps) (dt t0 : K) (forward u_zoh : Bool) :
    ∃ e, tensClqtParForward p scan blocks steps x0 Kxs ds dt t0 forward u_zoh = .error e := by
  obtain ⟨e, he⟩ := hK.bat.split_fail l1 (by simp; exact ⟨hm, hn⟩)
  have s1 : Kxs.size (-2) = .ok m := by rw [Tens.size, hK.1]; rfl
  have s2 : Kxs.size (-1) = .ok n := by rw [Tens.size, hK.1]; rfl
  have hsp : Kxs.splitM blocks steps = .error e := bstep s1 (bstep s2 he)
  refine ⟨e, ?_⟩
  unfold tensClqtParForward tensClqtParForwardInit
  rw [hsp]
  rfl

variable [IsStrictOrderedRing K]

/-- C106 (forward agreement): without zero-order hold the parallel and the sequential pass return tensors of the same values. -/
theorem C106_forward_same (P : CLQT n m K) {p : TensCLQT K} (hp : p.Holds P) (scan : AScan) (hs : ∀ α, IsAssocScan (scan α)) {x0 Kxs ds : Tens K}
    {x0' : Fin n → K} {Kl : List (Matrix (Fin m) (Fin n) K)} {dl : List (Fin m → K)} (hx : x0.IsV x0') (hK : Kxs.HoldsM Kl) (hd : ds.HoldsV dl)
    {blocks steps : ℕ} (hB : 0 < blocks) (hst : 0 < steps) (l1 : Kl.length = blocks * steps) (l2 : dl.length = blocks * steps) (dt t0 : K)
    (forward : Bool) : ∃ (xs : List (Fin n → K)) (us : List (Fin m → K)) (tx tu tx' tu' : Tens K),
      tensClqtParForward p scan blocks steps x0 Kxs ds dt t0 forward false = .ok (tx, tu) ∧ tensClqtSeqForward p false x0 Kxs ds dt t0 = .ok (tx', tu') ∧
      tx.HoldsV xs ∧ tx'.HoldsV xs ∧ tu.HoldsV us ∧ tu'.HoldsV us := by
  have hne : dl ≠ [] := by
    rintro rfl
    have := Nat.mul_pos hB hst
    simp at l2
    omega
  obtain ⟨scan', hs', -⟩ := clqtParForward_rep hp hs forward false hB dt t0 hx hK hd l1 l2
  obtain ⟨us, xs, h1, h2⟩ := C71_forward_same P scan' hs' x0' Kl dl blocks steps hB hst l1 l2 dt t0 forward
  rw [C71_par_forward P scan' hs' x0' Kl dl blocks steps hst l1 l2] at h1
  rw [C71_seq_forward P x0' Kl dl (l1.trans l2.symm) hne] at h2
  obtain ⟨tx, tu, e1, k1, k2⟩ := (C106_par_forward P hp scan hs hx hK hd hB hst l1 l2 dt t0 forward false us xs).2 h1
  obtain ⟨tx', tu', e2, k3, k4⟩ := (C106_seq_forward P hp hx hK hd (l1.trans l2.symm) hne dt t0 false us xs).2 h2
  exact ⟨xs, us, tx, tu, tx', tu', e1, e2, k1, k3, k2, k4⟩

/-- C106 (backward): for symmetric `U`, whenever `seqBackwardPass` completes, `clqt_seq_backwardpass` returns the tensors of its gains and value
functions; for positive definite `U` they complete together. -/
theorem C106_seq_backward (P : CLQT n m K) {p : TensCLQT K} (hp : p.Holds P) (hU : ∀ t, (P.U t)ᵀ = P.U t) (steps : ℕ) (dt t0 : K) {ST vT : Tens K}
    {ST' : Matrix (Fin n) (Fin n) K} {vT' : Fin n → K} (hS : ST.IsM ST') (hv : vT.IsV vT') (r : BwResult n m K) :
    (P.seqBackwardPass steps (some dt) (some t0) (some ST') (some vT') = .ok r → ∃ t, tensClqtBwPass p steps dt t0 ST vT = .ok t ∧ t.Holds r) ∧
    ((∀ t, IsPD (P.U t)) → ((∃ t, tensClqtBwPass p steps dt t0 ST vT = .ok t ∧ t.Holds r) ↔
      P.seqBackwardPass steps (some dt) (some t0) (some ST') (some vT') = .ok r)) := by
  have hr := ((clqtBwPass_rep hp steps dt t0 hS hv).mono (R' := fun (t : TensBw K) r => t.Holds r) fun a b h => h.holds).iff (fun a b b' h h' => h.inj h') r
  obtain ⟨k1, k2⟩ := C71_seq_backward P hU steps dt t0 ST' vT' r
  exact ⟨fun h => hr.2 (k1 h), fun hpd => hr.trans (k2 hpd)⟩

/-- C106 (forward-backward): as for the backward pass. -/
theorem C106_seq_fwdbwd (P : CLQT n m K) {p : TensCLQT K} (hp : p.Holds P) (hU : ∀ t, (P.U t)ᵀ = P.U t) (steps : ℕ) (dt t0 : K) (x0 : Fin n → K) {te : TensAbc K}
    {A C : Matrix (Fin n) (Fin n) K} {b : Fin n → K} (hA : te.A.IsM A) (hb : te.b.IsV b) (hC : te.C.IsM C) (r : AbcResult n K) :
    (P.seqFwdBwdPass x0 steps (some dt) (some t0) (some A) (some b) (some C) = .ok r → ∃ t, tensAbcPass p steps dt t0 te = .ok t ∧ t.Holds r) ∧
    ((∀ t, IsPD (P.U t)) → ((∃ t, tensAbcPass p steps dt t0 te = .ok t ∧ t.Holds r) ↔
      P.seqFwdBwdPass x0 steps (some dt) (some t0) (some A) (some b) (some C) = .ok r)) := by
  have hr := ((abcPass_rep hp steps dt t0 ⟨hA, hb, hC⟩).mono (R' := fun (t : TensAbc K) r => t.Holds r) fun a b h => h.holds).iff (fun a b b' h h' => h.inj h') r
  obtain ⟨k1, k2⟩ := C71_seq_fwdbwd P hU steps dt t0 x0 b A C r
  exact ⟨fun h => hr.2 (k1 h), fun hpd => hr.trans (k2 hpd)⟩

/-- C106 (parallel backward): with the default terminal value and any associative scan, if `parBackwardPass` and `clqt_par_backwardpass`
complete, the second returns the tensors of the gains and value functions of the first; if `U` is positive definite, the terminal weight is
semidefinite and so are `C` and `J` of the elements of the blocks, both complete. -/
theorem C106_par_backward (P : CLQT n m K) {p : TensCLQT K} (hp : p.Holds P) (hn : 0 < n) (hU : ∀ t, (P.U t)ᵀ = P.U t) (hXT : P.XTᵀ = P.XT) (scan : AScan)
    (hs : ∀ α, IsAssocScan (scan α)) {blocks steps : ℕ} (hB : 0 < blocks) (hst : 0 < steps) (dt t0 : K) (forward : Bool) {ST vT : Tens K}
    (hS : ST.IsM (P.HTᵀ * P.XT * P.HT)) (hv : vT.IsV (P.HTᵀ *ᵥ (P.XT *ᵥ P.rT))) :
    (∀ t r, tensClqtParBackward p scan blocks steps dt t0 ST vT forward = .ok t → P.parBackwardPass blocks steps (some dt) (some t0) forward = .ok r → t.Holds r) ∧
    ((∀ t, IsPD (P.U t)) → IsPSD P.XT → (∀ q < blocks, ∀ e, P.blockElem forward steps dt t0 q = .ok e → IsPSD e.C ∧ IsPSD e.J) →
      ∃ t r, tensClqtParBackward p scan blocks steps dt t0 ST vT forward = .ok t ∧ P.parBackwardPass blocks steps (some dt) (some t0) forward = .ok r ∧
        t.Holds r) := by
  rw [Matrix.mul_assoc] at hS
  obtain ⟨scan', ⟨hs', -⟩, hr⟩ := clqtParBackward_rep hp hn hs forward hB steps dt t0 hS hv
  refine ⟨fun t r ht h => ?_, fun hpd hX hE => ?_⟩
  · obtain ⟨r', h', hh⟩ := hr.of_ok ht
    rw [← C71_par_backward P hU hXT scan' hs' blocks steps hst dt t0 forward r r' h h']
    exact hh
  · obtain ⟨r, h1, h2⟩ := C71_par_complete P (fun t => ⟨hU t, hpd t⟩) hX scan' hs' blocks steps hst dt t0 forward hE
    obtain ⟨t, ht, hh⟩ := (hr.iff (fun a b b' h h' => h.inj h') r).2 h2
    exact ⟨t, r, ht, h1, hh⟩

/-- C106 (parallel forward-backward): on the tensors of a backward pass over `blocks * steps` steps, if `parFwdBwdPass` and
`clqt_par_fwdbwdpass` complete, the second returns the tensors of the states and controls of the first. -/
theorem C106_par_fwdbwd (P : CLQT n m K) {p : TensCLQT K} (hp : p.Holds P) (hn : 0 < n) (hU : ∀ t, (P.U t)ᵀ = P.U t) (scan : AScan)
    (hs : ∀ α, IsAssocScan (scan α)) {blocks steps : ℕ} (hB : 0 < blocks) (hst : 0 < steps) (dt t0 : K) (forward : Bool) {x0 : Tens K} {x0' : Fin n → K}
    {tb : TensBw K} {bw : BwResult n m K} (hx : x0.IsV x0') (hb : tb.Holds bw) (l1 : bw.Kx_list.length = blocks * steps)
    (l2 : bw.d_list.length = blocks * steps) (l3 : bw.S_list.length = blocks * steps + 1) (l4 : bw.v_list.length = blocks * steps + 1)
    {tx tu : Tens K} (us : List (Fin m → K)) (xs : List (Fin n → K))
    (h' : tensClqtParFwdBwd p scan blocks steps x0 tb.Ss tb.vs tb.Kxs tb.ds dt t0 forward = .ok (tx, tu))
    (h : P.parFwdBwdPass x0' bw blocks steps (some dt) (some t0) forward = .ok (us, xs)) : tx.HoldsV xs ∧ tu.HoldsV us := by
  obtain ⟨scan', ⟨hs', -⟩, hr⟩ := clqtParFwdBwd_rep hp hn hs forward hB dt t0 hx hb l1 l2 l3 l4
  obtain ⟨⟨xs', us'⟩, k1, k2⟩ := hr.of_ok h'
  obtain ⟨rfl, rfl⟩ := C71_par_fwdbwd P hU scan' hs' blocks steps hst dt t0 forward x0' bw l1 l2 l3 l4 us us' xs xs' h k1
  exact k2

/-- C106 (no steps): in a block without steps the parallel backward pass raises an error. -/
theorem C106_no_steps (P : CLQT n m K) {p : TensCLQT K} (hp : p.Holds P) (hn : 0 < n) (scan : AScan) {blocks : ℕ} (hB : 0 < blocks) (dt t0 : K)
    (forward : Bool) {ST vT : Tens K} {ST' : Matrix (Fin n) (Fin n) K} {vT' : Fin n → K} (hS : ST.IsM ST') (hv : vT.IsV vT') :
    ∃ e, tensClqtParBackward p scan blocks 0 dt t0 ST vT forward = .error e := by
  have hi := clqtParInit_rep hp hn forward hB 0 dt t0 hS hv
  have h0 : ∃ e, P.tfParBackwardInit forward blocks 0 dt t0 ST' vT' = .error e := by
    unfold CLQT.tfParBackwardInit
    obtain ⟨b, rfl⟩ := Nat.exists_eq_succ_of_ne_zero hB.ne'
    have hb : tfBlockTimes (b + 1) 0 dt t0 ≠ [] := by simp [tfBlockTimes]
    obtain ⟨a, l, hl⟩ := List.exists_cons_of_ne_nil hb
    rw [Nat.succ_eq_add_one, hl, List.mapM_cons, (C71_errors P forward dt a).1.1]
    exact ⟨_, rfl⟩
  obtain ⟨e, he⟩ := h0
  rw [he] at hi
  obtain ⟨e', h'⟩ := hi
  refine ⟨e', ?_⟩
  unfold tensClqtParBackward
  rw [h']
  rfl

end Ordered

/-! ### Examples -/

/-- The tensors of a problem. -/
def tensOfCLQT {n m : ℕ} (P : CLQT n m ℚ) : TensCLQT ℚ :=
  ⟨fun t => tensM (P.F t), fun t => tensM (P.L t), fun t => tensM (P.X t), fun t => tensM (P.U t), fun t => tensV (P.c t), fun t => tensM (P.H t),
    fun t => tensV (P.r t)⟩

theorem tensOfCLQT_holds {n m : ℕ} (P : CLQT n m ℚ) : (tensOfCLQT P).Holds P :=
  ⟨fun _ => tensM_is _, fun _ => tensM_is _, fun _ => tensM_is _, fun _ => tensM_is _, fun _ => tensV_is _, fun _ => tensM_is _, fun _ => tensV_is _⟩

theorem tensMats_holds {a b : ℕ} (l : List (Matrix (Fin a) (Fin b) ℚ)) : (tensMats l).HoldsM l := by
  have := tensMats_is l id
  rw [List.map_id] at this
  exact this

theorem tensRowsOf_holds {a : ℕ} (l : List (Fin a → ℚ)) : (tensRowsOf l).HoldsV l := by
  have := tensRowsOf_is l id
  rw [List.map_id] at this
  exact this

example : ∃ ST vT, tensClqtParDefaults ⟨tensM exCL.XT, tensM exCL.HT, tensV exCL.rT, exCL.T⟩ 2 3 = .ok (1, 0, ST, vT) ∧
    ST.IsM (exCL.HTᵀ * exCL.XT * exCL.HT) ∧ vT.IsV (exCL.HTᵀ *ᵥ (exCL.XT *ᵥ exCL.rT)) := by
  obtain ⟨ST, vT, h, h'⟩ := (C106_defaults exCL (d := ⟨tensM exCL.XT, tensM exCL.HT, tensV exCL.rT, exCL.T⟩)
    ⟨tensM_is _, tensM_is _, tensV_is _, rfl⟩ 2 3).2.1
  refine ⟨ST, vT, ?_, h'⟩
  rw [h]
  have : exCL.T / ((3 : ℕ) * (2 : ℕ)) = 1 := by decide +kernel
  rw [this]

example : ∃ r t, exCL.seqBackwardPass 2 (some 3) (some 0) (some !![3, 0; 0, 0]) (some ![6, 0]) = .ok r ∧
    tensClqtBwPass (tensOfCLQT exCL) 2 3 0 (tensM !![3, 0; 0, 0]) (tensV ![6, 0]) = .ok t ∧ t.Holds r := by
  obtain ⟨r, hr⟩ := (CLQT.reg_of_pd exCL_U).seqBackward 2 3 (some 0) (some !![3, 0; 0, 0]) (some ![6, 0])
  obtain ⟨t, ht⟩ := (C106_seq_backward exCL (tensOfCLQT_holds exCL) (fun t => (exCL_U t).1) 2 3 0 (tensM_is !![3, 0; 0, 0]) (tensV_is ![6, 0]) r).1 hr
  exact ⟨r, t, hr, ht⟩

/-- The gains of the example of the forward passes. -/
def exGains106 : List (Matrix (Fin 1) (Fin 2) ℚ) := [!![1, 0], !![0, 2]]

/-- The offsets of the example of the forward passes. -/
def exOffs106 : List (Fin 1 → ℚ) := [![1], ![0]]

example : ∃ (xs : List (Fin 2 → ℚ)) (us : List (Fin 1 → ℚ)) (tx tu tx' tu' : Tens ℚ),
    tensClqtParForward (tensOfCLQT exCL) (fun _ op l => scanVals op l) 2 1 (tensV ![1, 2]) (tensMats exGains106) (tensRowsOf exOffs106) 1 0 true false = .ok (tx, tu) ∧
    tensClqtSeqForward (tensOfCLQT exCL) false (tensV ![1, 2]) (tensMats exGains106) (tensRowsOf exOffs106) 1 0 = .ok (tx', tu') ∧
    tx.HoldsV xs ∧ tx'.HoldsV xs ∧ tu.HoldsV us ∧ tu'.HoldsV us :=
  C106_forward_same exCL (tensOfCLQT_holds exCL) (fun _ op l => scanVals op l) (fun _ => C17_scan_example) (tensV_is ![1, 2]) (tensMats_holds exGains106)
    (tensRowsOf_holds exOffs106) (by decide) (by decide) rfl rfl 1 0 true

example : ∃ us xs, exCL.seqForwardPass ![1, 2] exGains106 exOffs106 (some 1) (some 0) true = .ok (us, xs) ∧
    ∃ tx tu, tensClqtSeqForward (tensOfCLQT exCL) true (tensV ![1, 2]) (tensMats exGains106) (tensRowsOf exOffs106) 1 0 = .ok (tx, tu) ∧
      tx.HoldsV xs ∧ tu.HoldsV us := by
  have h : (match exCL.seqForwardPass ![1, 2] exGains106 exOffs106 (some 1) (some 0) true with
    | .ok _ => true
    | .error _ => false) = true := by decide +kernel
  cases hr : exCL.seqForwardPass ![1, 2] exGains106 exOffs106 (some 1) (some 0) true with
  | error e => rw [hr] at h; simp at h
  | ok r => exact ⟨r.1, r.2, rfl, (C106_seq_forward exCL (tensOfCLQT_holds exCL) (tensV_is ![1, 2]) (tensMats_holds exGains106)
      (tensRowsOf_holds exOffs106) rfl (by simp [exOffs106]) 1 0 true r.1 r.2).2 hr⟩

example : ∃ us xs, exCL.parForwardPass ![1, 2] exGains106 exOffs106 2 1 (some 1) (some 0) false true = .ok (us, xs) ∧
    ∃ tx tu, tensClqtParForward (tensOfCLQT exCL) (fun _ op l => scanVals op l) 2 1 (tensV ![1, 2]) (tensMats exGains106) (tensRowsOf exOffs106) 1 0 false true =
      .ok (tx, tu) ∧ tx.HoldsV xs ∧ tu.HoldsV us := by
  have h : (match exCL.parForwardPass ![1, 2] exGains106 exOffs106 2 1 (some 1) (some 0) false true with
    | .ok _ => true
    | .error _ => false) = true := by decide +kernel
  cases hr : exCL.parForwardPass ![1, 2] exGains106 exOffs106 2 1 (some 1) (some 0) false true with
  | error e => rw [hr] at h; simp at h
  | ok r => exact ⟨r.1, r.2, rfl, (C106_par_forward exCL (tensOfCLQT_holds exCL) (fun _ op l => scanVals op l) (fun _ => C17_scan_example) (tensV_is ![1, 2])
      (tensMats_holds exGains106) (tensRowsOf_holds exOffs106) (by decide) (by decide) rfl rfl 1 0 false true r.1 r.2).2 hr⟩

example : ∃ e, tensClqtSeqForward (tensOfCLQT exCL) true (tensV ![1, 2]) (tensMats exGains106) (tensRowsOf ([![1]] : List (Fin 1 → ℚ))) 1 0 = .error e :=
  C106_forward_errors exCL (tensOfCLQT_holds exCL) (tensV_is ![1, 2]) (tensMats_holds exGains106) (tensRowsOf_holds _) (by left; decide) 1 0 true

example : ∃ e, tensClqtParForward (tensOfCLQT exCL) (fun _ op l => scanVals op l) 3 1 (tensV ![1, 2]) (tensMats exGains106) (tensRowsOf exOffs106) 1 0 true false =
    .error e := C106_par_errors (tensOfCLQT exCL) _ (tensMats_holds exGains106) (by decide) (by decide) (by decide) 1 0 true false

example : ∃ r t, exCL.seqFwdBwdPass ![1, 2] 2 (some 3) (some 0) (some 0) (some ![1, 2]) (some 0) = .ok r ∧
    tensAbcPass (tensOfCLQT exCL) 2 3 0 ⟨tensM (0 : Matrix (Fin 2) (Fin 2) ℚ), tensV ![1, 2], tensM (0 : Matrix (Fin 2) (Fin 2) ℚ)⟩ = .ok t ∧ t.Holds r := by
  have h : (match exCL.seqFwdBwdPass ![1, 2] 2 (some 3) (some 0) (some 0) (some ![1, 2]) (some 0) with
    | .ok _ => true
    | .error _ => false) = true := by decide +kernel
  cases hr : exCL.seqFwdBwdPass ![1, 2] 2 (some 3) (some 0) (some 0) (some ![1, 2]) (some 0) with
  | error e => rw [hr] at h; simp at h
  | ok r =>
    obtain ⟨t, ht⟩ := (C106_seq_fwdbwd exCL (tensOfCLQT_holds exCL) (fun t => (exCL_U t).1) 2 3 0 ![1, 2]
      (te := ⟨tensM (0 : Matrix (Fin 2) (Fin 2) ℚ), tensV ![1, 2], tensM (0 : Matrix (Fin 2) (Fin 2) ℚ)⟩) (tensM_is _) (tensV_is _) (tensM_is _) r).1 hr
    exact ⟨r, t, rfl, ht⟩

/-- The tensors of the results of a backward pass. -/
def tensOfBw {n m : ℕ} (r : BwResult n m ℚ) : TensBw ℚ := ⟨tensMats r.S_list, tensRowsOf r.v_list, tensMats r.Kx_list, tensRowsOf r.d_list⟩

theorem tensOfBw_holds {n m : ℕ} (r : BwResult n m ℚ) : (tensOfBw r).Holds r :=
  ⟨tensMats_holds _, tensRowsOf_holds _, tensMats_holds _, tensRowsOf_holds _⟩

/-- The tensors of the results of a forward-backward pass. -/
def tensOfAbc {n : ℕ} (r : AbcResult n ℚ) : TensAbc ℚ := ⟨tensMats r.A_list, tensRowsOf r.b_list, tensMats r.C_list⟩

theorem tensOfAbc_holds {n : ℕ} (r : AbcResult n ℚ) : (tensOfAbc r).Holds r := ⟨tensMats_holds _, tensRowsOf_holds _, tensMats_holds _⟩

example : ∃ tx tu, tensClqtCombine (tensOfBw exBw71).Kxs (tensOfBw exBw71).ds (tensOfBw exBw71).Ss (tensOfBw exBw71).vs (tensOfAbc exAbc71).b (tensOfAbc exAbc71).C =
      .ok (tx, tu) ∧ tx.HoldsV [fun _ : Fin 1 => (1 : ℚ), fun _ => 1 / 2] ∧ tu.HoldsV [fun _ : Fin 1 => (-1 / 2 : ℚ)] := by
  have h : (match CLQT.combineForwardBackward exBw71 exAbc71 with
    | .ok r => decide (r = ([fun _ => -1 / 2], [fun _ => 1, fun _ => 1 / 2]))
    | .error _ => false) = true := by decide +kernel
  have h' : CLQT.combineForwardBackward exBw71 exAbc71 = .ok ([fun _ => -1 / 2], [fun _ => 1, fun _ => 1 / 2]) := by
    revert h
    cases CLQT.combineForwardBackward exBw71 exAbc71 with
    | error e => simp
    | ok r => intro h; rw [of_decide_eq_true h]
  exact (C106_combine 1 (tensOfBw_holds exBw71) (tensOfAbc_holds exAbc71) rfl rfl rfl rfl rfl rfl rfl _ _).2 h'

/-- Both parallel backward passes complete for `exPr`. -/
example : ∃ t r, tensClqtParBackward (tensOfCLQT exPr) (fun _ op l => scanVals op l) 2 1 1 0 (tensM (exPr.HTᵀ * exPr.XT * exPr.HT))
      (tensV (exPr.HTᵀ *ᵥ (exPr.XT *ᵥ exPr.rT))) false = .ok t ∧ exPr.parBackwardPass 2 1 (some 1) (some 0) false = .ok r ∧ t.Holds r := by
  have h1 : IsPSD (1 : Matrix (Fin 1) (Fin 1) ℚ) := ⟨Matrix.transpose_one, fun x => by
    rw [Matrix.one_mulVec]
    exact Finset.sum_nonneg fun i _ => mul_self_nonneg _⟩
  refine (C106_par_backward exPr (tensOfCLQT_holds exPr) (by decide) (fun t => (exPr_U t).1) h1.1 (fun _ op l => scanVals op l)
    (fun _ => C17_scan_example) (by decide) (by decide) 1 0 false (tensM_is _) (tensV_is _)).2 (fun t => (exPr_U t).2) h1 ?_
  have key : ∀ q : Fin 2, (match exPr.blockElem false 1 1 0 q with
    | .ok e => decide (e.C = 0 ∧ e.J = 0)
    | .error _ => false) = true := by decide +kernel
  intro q hq e he
  have h := key ⟨q, hq⟩
  simp only at h
  rw [he] at h
  obtain ⟨hC, hJ⟩ := of_decide_eq_true h
  have hz : IsPSD (0 : Matrix (Fin 1) (Fin 1) ℚ) := ⟨Matrix.transpose_zero, fun x => by simp⟩
  rw [hC, hJ]
  exact ⟨hz, hz⟩

/-- Both parallel forward-backward passes complete for `exGain`. -/
example : ∃ us xs tx tu, exGain.parFwdBwdPass (fun _ => 1) exBw71 1 1 (some 1) (some 0) true = .ok (us, xs) ∧
    tensClqtParFwdBwd (tensOfCLQT exGain) (fun _ op l => scanVals op l) 1 1 (tensV fun _ : Fin 1 => (1 : ℚ)) (tensOfBw exBw71).Ss (tensOfBw exBw71).vs
      (tensOfBw exBw71).Kxs (tensOfBw exBw71).ds 1 0 true = .ok (tx, tu) ∧ tx.HoldsV xs ∧ tu.HoldsV us := by
  have h1 : (match exGain.parFwdBwdPass (fun _ => 1) exBw71 1 1 (some 1) (some 0) true with
    | .ok _ => true | .error _ => false) = true := by decide +kernel
  have h2 : (match tensClqtParFwdBwd (tensOfCLQT exGain) (fun _ op l => scanVals op l) 1 1 (tensV fun _ : Fin 1 => (1 : ℚ)) (tensOfBw exBw71).Ss
      (tensOfBw exBw71).vs (tensOfBw exBw71).Kxs (tensOfBw exBw71).ds 1 0 true with
    | .ok _ => true | .error _ => false) = true := by decide +kernel
  cases hr : exGain.parFwdBwdPass (fun _ => 1) exBw71 1 1 (some 1) (some 0) true with
  | error e => rw [hr] at h1; simp at h1
  | ok r =>
    cases hr' : tensClqtParFwdBwd (tensOfCLQT exGain) (fun _ op l => scanVals op l) 1 1 (tensV fun _ : Fin 1 => (1 : ℚ)) (tensOfBw exBw71).Ss
      (tensOfBw exBw71).vs (tensOfBw exBw71).Kxs (tensOfBw exBw71).ds 1 0 true with
    | error e => rw [hr'] at h2; simp at h2
    | ok r' => exact ⟨r.1, r.2, r'.1, r'.2, rfl, rfl, C106_par_fwdbwd exGain (tensOfCLQT_holds exGain) (by decide) exGain_U (fun _ op l => scanVals op l)
        (fun _ => C17_scan_example) (by decide) (by decide) 1 0 true (tensV_is _) (tensOfBw_holds exBw71) rfl rfl rfl rfl r.1 r.2 hr' hr⟩

example : ∃ e, tensClqtParBackward (tensOfCLQT exCL) (fun _ op l => scanVals op l) 2 0 1 0 (tensM !![3, 0; 0, 0]) (tensV ![6, 0]) false = .error e :=
  C106_no_steps exCL (tensOfCLQT_holds exCL) (by decide) _ (by decide) 1 0 false (tensM_is !![3, 0; 0, 0]) (tensV_is ![6, 0])

end Verif
