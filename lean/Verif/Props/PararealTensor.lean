import Verif.Proof.PararealTensorFwd
import Verif.Props.PararealTF
import Verif.Props.CLQTTensor

/-! Property C107: the tensor code of `parareal_clqt_tf.py` computes the parareal passes. -/

namespace Verif

open Matrix

variable {n m : ℕ} {K : Type} [Field K] [LinearOrder K] [IsStrictOrderedRing K]

/-- C107 (backward): for symmetric `U`, on the tensors of a problem with at least one block, step and iteration, `pclqt_backwardpass` returns
the tensors of the gains and value functions of the numpy pass with the same number of iterations whenever that completes; for positive
definite `U` they complete together. -/
theorem C107_backward (P : CLQT n m K) {p : TensCLQT K} (hp : p.Holds P) {d : TensFinal K} (hd : d.Holds P) (hU : ∀ t, (P.U t)ᵀ = P.U t)
    {blocks steps niter : ℕ} (hB : 0 < blocks) (hs : 0 < steps) (hn : 0 < niter) (r : BwResult n m K) :
    (P.prBackwardPass blocks steps (some niter) = .ok r → ∃ t, tensPrBackward p d blocks steps niter = .ok t ∧ t.Holds r) ∧
    ((∀ t, IsPD (P.U t)) → ((∃ t, tensPrBackward p d blocks steps niter = .ok t ∧ t.Holds r) ↔
      P.prBackwardPass blocks steps (some niter) = .ok r)) := by
  have hr := ((prBackward_rep hp hd hB steps niter).mono (R' := fun (t : TensBw K) r => t.Holds r) fun a b h => h.holds).iff (fun a b b' h h' => h.inj h') r
  obtain ⟨k1, k2⟩ := C72_backward P hU blocks steps niter hB.ne' hs.ne' hn.ne' r
  exact ⟨fun h => hr.2 (k1 h), fun hpd => hr.trans (k2 hpd)⟩

/-- C107 (backward, finite termination): for positive definite `U`, with at least `blocks - 1` iterations `pclqt_backwardpass` returns the tensors
of the sequential numpy pass on the fine grid. -/
theorem C107_backward_exact (P : CLQT n m K) {p : TensCLQT K} (hp : p.Holds P) {d : TensFinal K} (hd : d.Holds P)
    (hU : ∀ t, (P.U t)ᵀ = P.U t ∧ IsPD (P.U t)) {blocks steps niter : ℕ} (hB : 0 < blocks) (hs : 0 < steps) (hn : 0 < niter)
    (hb : blocks ≤ niter + 1) : ∃ t r, tensPrBackward p d blocks steps niter = .ok t ∧ t.Holds r ∧ P.seqBackwardPass (blocks * steps) = .ok r := by
  obtain ⟨r, hr⟩ := (C37_completes P hU blocks steps (some niter)).1 ⟨hB.ne', hs.ne'⟩
  obtain ⟨t, h1, h2⟩ := (C107_backward P hp hd (fun t => (hU t).1) hB hs hn r).1 hr
  exact ⟨t, r, h1, h2, C37_exact P blocks steps (some niter) r hr hb⟩

/-- C107 (forward): on the tensors of `blocks * steps` gains `pclqt_forwardpass` returns the tensors of the states and controls of the numpy pass,
with and without zero-order hold, and completes if and only if that does. -/
theorem C107_forward (P : CLQT n m K) {p : TensCLQT K} (hp : p.Holds P) {blocks steps niter : ℕ} (hB : 0 < blocks) (hs : 0 < steps)
    (hn : 0 < niter) {x0 Kxs ds : Tens K} {x0' : Fin n → K} {Kl : List (Matrix (Fin m) (Fin n) K)} {dl : List (Fin m → K)} (hx : x0.IsV x0')
    (hK : Kxs.HoldsM Kl) (hd : ds.HoldsV dl) (l1 : Kl.length = blocks * steps) (l2 : dl.length = blocks * steps) (u_zoh : Bool)
    (us : List (Fin m → K)) (xs : List (Fin n → K)) :
    (∃ tx tu, tensPrForward p blocks steps niter x0 P.T Kxs ds u_zoh = .ok (tx, tu) ∧ tx.HoldsV xs ∧ tu.HoldsV us) ↔
      P.prForwardPass blocks steps x0' Kl dl u_zoh (some niter) = .ok (us, xs) := by
  rw [← C72_forward P blocks steps niter hB.ne' hs.ne' hn.ne' x0' Kl dl l1 l2, ← (prForward_rep hp u_zoh hB hs niter hx hK hd l1 l2).iff
    (fun a b b' h h' => holdsVV_inj h h') (xs, us)]
  exact ⟨fun ⟨tx, tu, h⟩ => ⟨(tx, tu), h⟩, fun ⟨t, h⟩ => ⟨t.1, t.2, h⟩⟩

/-- C107 (forward, finite termination): with at least `blocks - 1` iterations `pclqt_forwardpass` returns the tensors of the states and controls
of the sequential numpy pass on the fine grid. -/
theorem C107_forward_exact (P : CLQT n m K) {p : TensCLQT K} (hp : p.Holds P) {blocks steps niter : ℕ} (hB : 0 < blocks) (hs : 0 < steps)
    (hn : 0 < niter) {x0 Kxs ds : Tens K} {x0' : Fin n → K} {Kl : List (Matrix (Fin m) (Fin n) K)} {dl : List (Fin m → K)} (hx : x0.IsV x0')
    (hK : Kxs.HoldsM Kl) (hd : ds.HoldsV dl) (l1 : Kl.length = blocks * steps) (l2 : dl.length = blocks * steps) (u_zoh : Bool)
    (hb : blocks ≤ niter + 1) : ∃ tx tu us xs, tensPrForward p blocks steps niter x0 P.T Kxs ds u_zoh = .ok (tx, tu) ∧
      tx.HoldsV xs ∧ tu.HoldsV us ∧ P.seqForwardPass x0' Kl dl none none u_zoh = .ok (us, xs) := by
  obtain ⟨⟨us, xs⟩, h1, h2⟩ := C38_exact P blocks steps hB.ne' hs.ne' x0' Kl dl l1 l2 u_zoh (some niter) hb
  obtain ⟨tx, tu, h3, h4, h5⟩ := (C107_forward P hp hB hs hn hx hK hd l1 l2 u_zoh us xs).2 h1
  exact ⟨tx, tu, us, xs, h3, h4, h5, h2⟩

/-- C107 (forward-backward): as for the backward pass. -/
theorem C107_fwdbwd (P : CLQT n m K) {p : TensCLQT K} (hp : p.Holds P) (hU : ∀ t, (P.U t)ᵀ = P.U t) {blocks steps niter : ℕ} (hB : 0 < blocks)
    (hs : 0 < steps) (hn : 0 < niter) {x0 : Tens K} {x0' : Fin n → K} (hx : x0.IsV x0') (r : AbcResult n K) :
    (P.prFwdBwdPass blocks steps x0' (some niter) = .ok r → ∃ t, tensPrFwdBwd p blocks steps niter x0 P.T = .ok t ∧ t.Holds r) ∧
    ((∀ t, IsPD (P.U t)) → ((∃ t, tensPrFwdBwd p blocks steps niter x0 P.T = .ok t ∧ t.Holds r) ↔
      P.prFwdBwdPass blocks steps x0' (some niter) = .ok r)) := by
  have hr := ((prFwdBwd_rep hp hB steps niter hx).mono (R' := fun (t : TensAbc K) r => t.Holds r) fun a b h => h.holds).iff (fun a b b' h h' => h.inj h') r
  obtain ⟨k1, k2⟩ := C72_fwdbwd P hU blocks steps niter hB.ne' hs.ne' hn.ne' x0' r
  exact ⟨fun h => hr.2 (k1 h), fun hpd => hr.trans (k2 hpd)⟩

/-- C107 (forward-backward, finite termination): as for the backward pass. -/
theorem C107_fwdbwd_exact (P : CLQT n m K) {p : TensCLQT K} (hp : p.Holds P) (hU : ∀ t, (P.U t)ᵀ = P.U t ∧ IsPD (P.U t)) {blocks steps niter : ℕ}
    (hB : 0 < blocks) (hs : 0 < steps) (hn : 0 < niter) {x0 : Tens K} {x0' : Fin n → K} (hx : x0.IsV x0') (hb : blocks ≤ niter + 1) :
    ∃ t r, tensPrFwdBwd p blocks steps niter x0 P.T = .ok t ∧ t.Holds r ∧ P.seqFwdBwdPass x0' (blocks * steps) = .ok r := by
  obtain ⟨r, hr⟩ := (C39_completes P hU blocks steps x0' (some niter)).1 ⟨hB.ne', hs.ne'⟩
  obtain ⟨t, h1, h2⟩ := (C107_fwdbwd P hp (fun t => (hU t).1) hB hs hn hx r).1 hr
  exact ⟨t, r, h1, h2, C39_exact P blocks steps x0' (some niter) r hr hb⟩

/-- C107 (pipelines): for positive definite `U`, with at least `blocks - 1` iterations `pclqt_backwardforwardpass` returns the tensors of the
states and controls of the sequential numpy passes on the fine grid, and `pclqt_backwardbwdfwdpass` those of the numpy combination of the
sequential passes, completing if and only if that does. -/
theorem C107_pipelines (P : CLQT n m K) {p : TensCLQT K} (hp : p.Holds P) {d : TensFinal K} (hd : d.Holds P)
    (hU : ∀ t, (P.U t)ᵀ = P.U t ∧ IsPD (P.U t)) {blocks steps niter : ℕ} (hB : 0 < blocks) (hs : 0 < steps) (hn : 0 < niter)
    (hb : blocks ≤ niter + 1) {x0 : Tens K} {x0' : Fin n → K} (hx : x0.IsV x0') :
    ∃ bw fw, P.seqBackwardPass (blocks * steps) = .ok bw ∧ P.seqFwdBwdPass x0' (blocks * steps) = .ok fw ∧
      (∃ tx tu us xs, tensPrBackwardForward p d blocks steps niter x0 = .ok (tx, tu) ∧ tx.HoldsV xs ∧ tu.HoldsV us ∧
        P.seqForwardPass x0' bw.Kx_list bw.d_list = .ok (us, xs)) ∧
      ∀ us xs, (∃ tx tu, tensPrBackwardBwdFwd p d blocks steps niter x0 = .ok (tx, tu) ∧ tx.HoldsV xs ∧ tu.HoldsV us) ↔
        CLQT.combineForwardBackward bw fw = .ok (us, xs) := by
  obtain ⟨bw, h1⟩ := (C37_completes P hU blocks steps (some niter)).1 ⟨hB.ne', hs.ne'⟩
  obtain ⟨fw, h2⟩ := (C39_completes P hU blocks steps x0' (some niter)).1 ⟨hB.ne', hs.ne'⟩
  have h3 := (C72_backward P (fun t => (hU t).1) blocks steps niter hB.ne' hs.ne' hn.ne' bw).1 h1
  have h4 := (C72_fwdbwd P (fun t => (hU t).1) blocks steps niter hB.ne' hs.ne' hn.ne' x0' fw).1 h2
  have r1 := prBackward_rep hp hd hB steps niter
  rw [h3] at r1
  obtain ⟨tb, e1, hbw⟩ := r1
  have r2 := prFwdBwd_rep hp hB steps niter hx
  rw [h4] at r2
  obtain ⟨ta, e2, hfw⟩ := r2
  refine ⟨bw, fw, C37_exact P blocks steps (some niter) bw h1 hb, C39_exact P blocks steps x0' (some niter) fw h2 hb, ?_, fun us xs => ?_⟩
  · obtain ⟨tx, tu, us, xs, h5, h6⟩ := C107_forward_exact P hp hB hs hn hx hbw.Kxs.2.holdsM hbw.ds.2.holdsV hbw.Kxs.1 hbw.ds.1 false hb
    refine ⟨tx, tu, us, xs, ?_, h6⟩
    rw [← hd.T] at h5
    exact bstep e1 h5
  · rw [← C71_combine (blocks * steps) bw fw hbw.Kxs.1 hbw.ds.1 hbw.Ss.1 hbw.vs.1 hfw.A.1 hfw.b.1 hfw.C.1]
    have hc : P.tfPrBackwardBwdFwd blocks steps niter x0' = clqtTfCombine bw fw := bstep h3 (bstep h4 rfl)
    rw [← hc, ← (prBackwardBwdFwd_rep (steps := steps) hp hd hB niter hx).iff (fun a b b' h h' => holdsVV_inj h h') (xs, us)]
    exact ⟨fun ⟨tx, tu, h⟩ => ⟨(tx, tu), h⟩, fun ⟨t, h⟩ => ⟨t.1, t.2, h⟩⟩

/-- C107 (no iterations): without iterations the three passes raise an error, whereas the numpy passes return the result of the coarse start. -/
theorem C107_no_iterations (P : CLQT n m K) {p : TensCLQT K} (hp : p.Holds P) {d : TensFinal K} (hd : d.Holds P)
    (hU : ∀ t, (P.U t)ᵀ = P.U t ∧ IsPD (P.U t)) {blocks steps : ℕ} (hB : 0 < blocks) (hs : 0 < steps) {x0 Kxs ds : Tens K} {x0' : Fin n → K}
    {Kl : List (Matrix (Fin m) (Fin n) K)} {dl : List (Fin m → K)} (hx : x0.IsV x0') (hK : Kxs.HoldsM Kl) (hds : ds.HoldsV dl)
    (l1 : Kl.length = blocks * steps) (l2 : dl.length = blocks * steps) (u_zoh : Bool) :
    ((∃ e, tensPrBackward p d blocks steps 0 = .error e) ∧ ∃ r, P.prBackwardPass blocks steps (some 0) = .ok r) ∧
    ((∃ e, tensPrForward p blocks steps 0 x0 P.T Kxs ds u_zoh = .error e) ∧ ∃ r, P.prForwardPass blocks steps x0' Kl dl u_zoh (some 0) = .ok r) ∧
    ((∃ e, tensPrFwdBwd p blocks steps 0 x0 P.T = .error e) ∧ ∃ r, P.prFwdBwdPass blocks steps x0' (some 0) = .ok r) := by
  obtain ⟨⟨h1, k1⟩, ⟨h2, k2⟩, h3, k3⟩ := C72_no_iterations P hU blocks steps hB.ne' hs.ne' x0' Kl dl l1 l2 u_zoh
  have r1 := prBackward_rep hp hd hB steps 0
  have r2 := prForward_rep hp u_zoh hB hs 0 hx hK hds l1 l2
  have r3 := prFwdBwd_rep hp hB steps 0 hx
  rw [h1] at r1
  rw [h2] at r2
  rw [h3] at r3
  exact ⟨⟨r1, k1⟩, ⟨r2, k2⟩, r3, k3⟩

omit [LinearOrder K] [IsStrictOrderedRing K] in
/-- C107 (number of gains): with another number of gains or offsets than `blocks * steps` the reshapes of `pclqt_forwardpass` raise an error. -/
theorem C107_gains (p : TensCLQT K) {blocks steps : ℕ} (niter : ℕ) (x0 : Tens K) (T : K) {Kxs ds : Tens K} {Kl : List (Matrix (Fin m) (Fin n) K)}
    {dl : List (Fin m → K)} (hm : 0 < m) (hn : 0 < n) (hK : Kxs.HoldsM Kl) (hd : ds.HoldsV dl)
    (h : Kl.length ≠ blocks * steps ∨ dl.length ≠ blocks * steps) (u_zoh : Bool) :
    ∃ e, tensPrForward p blocks steps niter x0 T Kxs ds u_zoh = .error e := by
  unfold tensPrForward tensPrInitForward
  dsimp only
  by_cases h1 : Kl.length = blocks * steps
  · obtain ⟨t, ht, -⟩ := splitM_rep hK h1
    obtain ⟨e, he⟩ := hd.bat.split_fail (h.resolve_left fun h2 => h2 h1) (by simpa using hm)
    have s1 : ds.size (-1) = .ok m := by rw [Tens.size, hd.1]; rfl
    have hsp : ds.splitV blocks steps = .error e := bstep s1 he
    refine ⟨e, ?_⟩
    rw [ht, hsp]
    rfl
  · obtain ⟨e, he⟩ := hK.bat.split_fail h1 (by simp; exact ⟨hm, hn⟩)
    have s1 : Kxs.size (-2) = .ok m := by rw [Tens.size, hK.1]; rfl
    have s2 : Kxs.size (-1) = .ok n := by rw [Tens.size, hK.1]; rfl
    have hsp : Kxs.splitM blocks steps = .error e := bstep s1 (bstep s2 he)
    refine ⟨e, ?_⟩
    rw [hsp]
    rfl

/-! ### Examples -/

/-- The tensors of the terminal cost of the example. -/
def exFinal107 : TensFinal ℚ := ⟨tensM exCL.XT, tensM exCL.HT, tensV exCL.rT, exCL.T⟩

theorem exFinal107_holds : exFinal107.Holds exCL := ⟨tensM_is _, tensM_is _, tensV_is _, rfl⟩

/-- The gains of the example. -/
def exGains107 : List (Matrix (Fin 1) (Fin 2) ℚ) := [!![1, 2], !![0, 1], !![1, 1], !![2, 0], !![1, 3], !![0, 2]]

/-- The offsets of the example. -/
def exOffs107 : List (Fin 1 → ℚ) := [![3], ![1], ![0], ![2], ![1], ![4]]

example : ∃ r, exCL.prBackwardPass 3 2 (some 1) = .ok r ∧ ∃ t, tensPrBackward (tensOfCLQT exCL) exFinal107 3 2 1 = .ok t ∧ t.Holds r := by
  obtain ⟨r, hr⟩ := (C37_completes exCL exCL_U 3 2 (some 1)).1 ⟨by decide, by decide⟩
  exact ⟨r, hr, (C107_backward exCL (tensOfCLQT_holds exCL) exFinal107_holds (fun t => (exCL_U t).1) (by decide) (by decide) (by decide) r).1 hr⟩

example : ∃ t r, tensPrBackward (tensOfCLQT exCL) exFinal107 3 2 2 = .ok t ∧ t.Holds r ∧ exCL.seqBackwardPass 6 = .ok r :=
  C107_backward_exact exCL (tensOfCLQT_holds exCL) exFinal107_holds exCL_U (by decide) (by decide) (by decide) (by decide)

example : ∃ us xs, exCL.prForwardPass 3 2 ![1, -1] exGains107 exOffs107 true (some 1) = .ok (us, xs) ∧
    ∃ tx tu, tensPrForward (tensOfCLQT exCL) 3 2 1 (tensV ![1, -1]) exCL.T (tensMats exGains107) (tensRowsOf exOffs107) true = .ok (tx, tu) ∧
      tx.HoldsV xs ∧ tu.HoldsV us := by
  obtain ⟨⟨us, xs⟩, h⟩ := C38_completes exCL 3 2 (by decide) (by decide) ![1, -1] exGains107 exOffs107 rfl rfl true (some 1)
  exact ⟨us, xs, h, (C107_forward exCL (tensOfCLQT_holds exCL) (by decide) (by decide) (by decide) (tensV_is ![1, -1]) (tensMats_holds exGains107)
    (tensRowsOf_holds exOffs107) rfl rfl true us xs).2 h⟩

example : ∃ tx tu us xs, tensPrForward (tensOfCLQT exCL) 3 2 2 (tensV ![1, -1]) exCL.T (tensMats exGains107) (tensRowsOf exOffs107) = .ok (tx, tu) ∧
    tx.HoldsV xs ∧ tu.HoldsV us ∧ exCL.seqForwardPass ![1, -1] exGains107 exOffs107 = .ok (us, xs) :=
  C107_forward_exact exCL (tensOfCLQT_holds exCL) (by decide) (by decide) (by decide) (tensV_is ![1, -1]) (tensMats_holds exGains107)
    (tensRowsOf_holds exOffs107) rfl rfl false (by decide)

example : ∃ r, exCL.prFwdBwdPass 3 2 ![1, -1] (some 1) = .ok r ∧
    ∃ t, tensPrFwdBwd (tensOfCLQT exCL) 3 2 1 (tensV ![1, -1]) exCL.T = .ok t ∧ t.Holds r := by
  obtain ⟨r, hr⟩ := (C39_completes exCL exCL_U 3 2 ![1, -1] (some 1)).1 ⟨by decide, by decide⟩
  exact ⟨r, hr, (C107_fwdbwd exCL (tensOfCLQT_holds exCL) (fun t => (exCL_U t).1) (by decide) (by decide) (by decide) (tensV_is ![1, -1]) r).1 hr⟩

example : ∃ t r, tensPrFwdBwd (tensOfCLQT exCL) 3 2 2 (tensV ![1, -1]) exCL.T = .ok t ∧ t.Holds r ∧ exCL.seqFwdBwdPass ![1, -1] 6 = .ok r :=
  C107_fwdbwd_exact exCL (tensOfCLQT_holds exCL) exCL_U (by decide) (by decide) (by decide) (tensV_is ![1, -1]) (by decide)

example : ∃ bw, exCL.seqBackwardPass 6 = .ok bw ∧ ∃ tx tu us xs, tensPrBackwardForward (tensOfCLQT exCL) exFinal107 3 2 2 (tensV ![1, -1]) = .ok (tx, tu) ∧
    tx.HoldsV xs ∧ tu.HoldsV us ∧ exCL.seqForwardPass ![1, -1] bw.Kx_list bw.d_list = .ok (us, xs) := by
  obtain ⟨bw, -, h1, -, h2, -⟩ := C107_pipelines exCL (tensOfCLQT_holds exCL) exFinal107_holds exCL_U (blocks := 3) (steps := 2) (niter := 2)
    (by decide) (by decide) (by decide) (by decide) (tensV_is ![1, -1])
  exact ⟨bw, h1, h2⟩

example : ∃ e, tensPrBackward (tensOfCLQT exCL) exFinal107 3 2 0 = .error e :=
  (C107_no_iterations exCL (tensOfCLQT_holds exCL) exFinal107_holds exCL_U (by decide) (by decide) (tensV_is ![1, -1]) (tensMats_holds exGains107)
    (tensRowsOf_holds exOffs107) rfl rfl false).1.1

example : ∃ e, tensPrForward (tensOfCLQT exCL) 2 2 1 (tensV ![1, -1]) exCL.T (tensMats exGains107) (tensRowsOf exOffs107) true = .error e :=
  C107_gains _ 1 _ _ (by decide) (by decide) (tensMats_holds exGains107) (tensRowsOf_holds exOffs107) (Or.inl (by decide)) true

end Verif
