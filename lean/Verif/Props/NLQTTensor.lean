import Verif.Proof.NLQTTensor
import Verif.Props.LQTTensor
import Verif.Props.NLQTStat
import Verif.Proof.ExampleLQT

/-!
Property C102: the batched tensor code of `/repo/parallel_control/nlqt_tf.py` and `/repo/parallel_control/nonlinear_model_tf.py`, modelled operation by
operation, computes what `/repo/parallel_control/nlqt_np.py` and `/repo/parallel_control/nonlinear_model_np.py` compute.
-/

namespace Verif

open Matrix

variable {n m p q : ℕ} {K : Type} [Field K]

/-- C102: the tensor functions of the vehicle compute, for any number of items, the vehicle of numpy and its Jacobians. -/
theorem C102_vehicle (dt : ℝ) : ModelTens (vehicle dt) (tensModelF dt) (tensModelFx dt) (tensModelFu dt) :=
  ⟨fun _ _ _ hx hu => modelF_rep dt hx hu, fun _ _ _ hx _ => modelFx_rep (gu := (·.2)) dt hx, fun _ _ _ _ hu => modelFu_rep (gx := (·.1)) dt hu⟩

/-- C102: `nlqt_linearize` returns the Jacobians and the offsets of the Taylor expansion at every step. -/
theorem C102_linearize (M : NModel n m K) {f Fx Fu : TensFun K} (hM : ModelTens M f Fx Fu) (us : List (Fin m → K)) (xs : List (Fin n → K))
    (hl : us.length = xs.length) {tu tx : Tens K} (hu : tu.HoldsV us) (hx : tx.HoldsV xs) :
    ∃ Fs cs Ls, tensNlqtLinearize tu tx f Fx Fu = .ok (Fs, cs, Ls) ∧ Fs.HoldsM (List.zipWith M.Fx xs us) ∧
      cs.HoldsV (List.zipWith (fun x u => M.f x u - M.Fx x u *ᵥ x - M.Fu x u *ᵥ u) xs us) ∧ Ls.HoldsM (List.zipWith M.Fu xs us) := by
  have hx' : tx.HV (xs.zip us) (·.1) := Tens.IsVt.zipL (cs := us) hx hl.symm
  have hu' : tu.HV (xs.zip us) (·.2) := Tens.IsVt.zipR (bs := xs) hu hl.symm
  obtain ⟨Fs, cs, Ls, e, hF, hc, hL⟩ := linearize_rep hM hx' hu'
  refine ⟨Fs, cs, Ls, e, hF.remap ?_, hc.remap ?_, hL.remap ?_⟩
  all_goals
    rw [← List.map_uncurry_zip_eq_zipWith, List.map_map]
    rfl

/-- C102: `nlqt_simulate` returns the tensor of the states that `simulate` returns. -/
theorem C102_simulate (M : NModel n m K) {f Fx Fu : TensFun K} (hM : ModelTens M f Fx Fu) (x0 : Fin n → K) (us : List (Fin m → K)) {tx tu : Tens K}
    (hx : tx.IsV x0) (hu : tu.HoldsV us) : ∃ txs, tensNlqtSimulate tx tu f = .ok txs ∧ txs.HoldsV (M.simulate x0 us) := by
  rw [← M.simulateTF_eq]
  exact simulate_rep hM hx hu

theorem simulate_len (M : NModel n m K) (x0 : Fin n → K) (us : List (Fin m → K)) : (M.simulate x0 us).length = us.length + 1 := by
  rw [M.simulate_eq, List.length_cons]
  congr 1
  induction us generalizing x0 with
  | nil => rfl
  | cons u us ih => simp [NModel.run, ih]

section Ordered
variable [LinearOrder K] [IsStrictOrderedRing K]

/-- C102: `nlqt_cost` is `cost`. -/
theorem C102_cost (M : NModel n m K) {f Fx Fu : TensFun K} (hM : ModelTens M f Fx Fu) (C : NQCost n m p q K) {Hs HT rs rT Xs XT Us : Tens K}
    (hC : CostTens C Hs HT rs rT Xs XT Us) (dyn : List (Matrix (Fin n) (Fin n) K × (Fin n → K) × Matrix (Fin n) (Fin m) K))
    (hd : dyn.length = C.stages.length) (x0 : Fin n → K) (us : List (Fin m → K)) (lu : us.length = C.stages.length) {tx tu : Tens K}
    (hx : tx.IsV x0) (hu : tu.HoldsV us) : tensNlqtCost tx tu f Hs HT rs rT Xs XT Us = M.cost (C.toLQT dyn) x0 us := by
  obtain ⟨txs, e1, h1⟩ := simulate_rep hM hx hu
  have hl : (M.simulateTF x0 us).length = C.stages.length + 1 := by rw [M.simulateTF_eq, simulate_len, lu]
  have hx' : (M.simulateTF x0 us).dropLast.length = C.stages.length := by simp [hl]
  obtain ⟨ti, e2, h2⟩ := Tens.IsVt.init h1
  obtain ⟨Fs, cs, Ls, e3, hst, hT⟩ := linearize_stages hM hC lu hx' h2 hu
  have key : ∀ {γ : Type} (g : TStage n m p K → γ), (∀ (F F' : Matrix (Fin n) (Fin n) K) c c' L L' H r X U, g ⟨F, c, L, H, r, X, U⟩ = g ⟨F', c', L', H, r, X, U⟩) →
      (M.linearizeTF C us (M.simulateTF x0 us).dropLast).stages.map g = (C.stages.map fun c => (⟨0, 0, 0, c.H, c.r, c.X, c.U⟩ : TStage n m p K)).map g := by
    intro γ g hg
    refine List.ext_getElem (by simp [NModel.linearizeTF, lu, hl]) fun k h1 h2 => ?_
    simp only [NModel.linearizeTF, List.getElem_map, List.getElem_zipWith]
    exact hg ..
  have hz : StageTens (C.stages.map fun c => (⟨0, 0, 0, c.H, c.r, c.X, c.U⟩ : TStage n m p K)) (Tens.const [C.stages.length, n, n] 0)
      (Tens.const [C.stages.length, n] 0) (Tens.const [C.stages.length, n, m] 0) Hs rs Xs Us := by
    refine ⟨⟨by simp [Tens.const], fun k hk i j => by simp [Tens.const]⟩, ⟨by simp [Tens.const], fun k hk i => by simp [Tens.const]⟩,
      ⟨by simp [Tens.const], fun k hk i j => by simp [Tens.const]⟩, ?_, ?_, ?_, ?_⟩
    · exact hst.H.remap (key _ fun _ _ _ _ _ _ _ _ _ _ => rfl)
    · exact hst.r.remap (key _ fun _ _ _ _ _ _ _ _ _ _ => rfl)
    · exact hst.X.remap (key _ fun _ _ _ _ _ _ _ _ _ _ => rfl)
    · exact hst.U.remap (key _ fun _ _ _ _ _ _ _ _ _ _ => rfl)
  rw [← (C69_cost M C dyn hd us lu x0).2]
  refine (bstep e1 ?_ : tensNlqtCost tx tu f Hs HT rs rT Xs XT Us = _)
  exact cost_rep (P := ⟨C.stages.map fun c => ⟨0, 0, 0, c.H, c.r, c.X, c.U⟩, C.HT, C.rT, C.XT⟩) hz ⟨hC.HT, hC.rT, hC.XT⟩ h1 hu (by simpa using hl)
    (by simpa using lu)

/-- C102: `nlqt_iterate_seq` returns the tensors of what the sequential method of `iterate` returns, and completes exactly if that completes. -/
theorem C102_seq (M : NModel n m K) {f Fx Fu : TensFun K} (hM : ModelTens M f Fx Fu) (C : NQCost n m p q K) (hS : C.Sym) (hne : C.stages ≠ [])
    (hn : 0 < n) {Hs HT rs rT Xs XT Us : Tens K} (hC : CostTens C Hs HT rs rT Xs XT Us)
    (dyn : List (Matrix (Fin n) (Fin n) K × (Fin n → K) × Matrix (Fin n) (Fin m) K)) (hd : dyn.length = C.stages.length)
    (us : List (Fin m → K)) (xs : List (Fin n → K)) (lu : us.length = C.stages.length) (lx : xs.length = C.stages.length + 1)
    {tu tx : Tens K} (hu : tu.HoldsV us) (hx : tx.HoldsV xs) (us' : List (Fin m → K)) (xs' : List (Fin n → K)) :
    (∃ P', M.iterate (C.toLQT dyn) us xs 2 = .ok (P', us', xs')) ↔
      ∃ tu' tx', tensNlqtIterateSeq tu tx f Fx Fu Hs HT rs rT Xs XT Us = .ok (tu', tx') ∧ tu'.HoldsV us' ∧ tx'.HoldsV xs' := by
  rw [iterate2_ok (linearizeTF_linTo M C dyn us xs hd lu lx)]
  obtain ⟨ti, e1, h1⟩ := Tens.IsVt.init hx
  obtain ⟨Fs, cs, Ls, e2, hst, hT⟩ := linearize_stages hM hC lu (by simp [lx]) h1 hu
  have hQ := linearizeTF_sym (M := M) hS us xs.dropLast
  have hQne := linearizeTF_ne (M := M) hne lu lx
  have hbw := C101_seq_backward (M.linearizeTF C us xs.dropLast) hQ hst hT
  obtain ⟨x0, xs0, rfl⟩ : ∃ x0 xs0, xs = x0 :: xs0 := by
    cases xs with
    | nil => simp at lx
    | cons a l => exact ⟨a, l, rfl⟩
  obtain ⟨t0, e4, ht0⟩ := Tens.IsVt.first hx
  constructor
  · rintro ⟨r, x0', hr, hx0, hf⟩
    cases hx0
    obtain ⟨t, e3, ht⟩ := (hbw r).1 hr
    obtain ⟨l1, l2⟩ := bw_lengths hr
    have l1 : r.Kx_list.length = _ := l1.trans (List.length_map ..)
    have l2 : r.d_list.length = _ := l2.trans (List.length_map ..)
    obtain ⟨f1, f2, f3, f4⟩ := fwdData_ok _ r l1 l2
    obtain ⟨xs'', us'', txs, tus, k1, k2, k3, k4⟩ := C101_seq_forward _ _ (f4 hQne) hn f1 (fwdTens_data hst ht l1 l2) x0 ht0
    rw [f2, f3, hf] at k1
    cases k1
    refine ⟨tus, txs, ?_, k4, k3⟩
    exact bstep e1 (bstep e2 (bstep e3 (bstep e4 (bstep k2 rfl))))
  · rintro ⟨tu', tx', he, hu', hx'⟩
    have he : (do
        let b ← tensLqtSeqBackward Fs cs Ls Hs HT rs rT Xs XT Us
        let (xs, us) ← tensLqtSeqForward (← tx.select 0 0) Fs cs Ls b.Kxs b.ds
        return (us, xs)) = .ok (tu', tx') := by
      rw [← he]
      exact (bstep e1 (bstep e2 rfl)).symm
    obtain ⟨t, e3, he⟩ := bind_ok.1 he
    obtain ⟨r, hr⟩ : ∃ r, (M.linearizeTF C us (x0 :: xs0).dropLast).toLQT.seqBackwardPass = .ok r := by
      cases h0 : (M.linearizeTF C us (x0 :: xs0).dropLast).toLQT.seqBackwardPass with
      | ok r => exact ⟨r, rfl⟩
      | error e =>
        obtain ⟨b1, b2⟩ := seqBackward_rep hst hT
        cases h0' : (M.linearizeTF C us (x0 :: xs0).dropLast).seqBackward with
        | ok r => rw [tf_seq_bw hQ, h0] at h0'; cases h0'
        | error e' => rw [b2 e' h0'] at e3; cases e3
    obtain ⟨t', e3', ht⟩ := (hbw r).1 hr
    rw [e3] at e3'; cases e3'
    obtain ⟨l1, l2⟩ := bw_lengths hr
    have l1 : r.Kx_list.length = _ := l1.trans (List.length_map ..)
    have l2 : r.d_list.length = _ := l2.trans (List.length_map ..)
    obtain ⟨f1, f2, f3, f4⟩ := fwdData_ok _ r l1 l2
    obtain ⟨xs'', us'', txs, tus, k1, k2, k3, k4⟩ := C101_seq_forward _ _ (f4 hQne) hn f1 (fwdTens_data hst ht l1 l2) x0 ht0
    rw [f2, f3] at k1
    have e5 : (do
        let (xs, us) ← tensLqtSeqForward (← tx.select 0 0) Fs cs Ls t.Kxs t.ds
        return (us, xs)) = .ok (tus, txs) := bstep e4 (bstep k2 rfl)
    have e6 := e5.symm.trans he
    cases e6
    exact ⟨r, x0, hr, rfl, by rw [k1, Tens.HoldsV.inj k4 hu', Tens.HoldsV.inj k3 hx']⟩

/-- C102: if `nlqt_iterate_par_1` or `nlqt_iterate_par_2` completes, it returns the tensors of what the sequential method of `iterate` returns; for convex
costs both complete. -/
theorem C102_par (M : NModel n m K) {f Fx Fu : TensFun K} (hM : ModelTens M f Fx Fu) (C : NQCost n m p q K) (hS : C.Sym) (hne : C.stages ≠ [])
    {Hs HT rs rT Xs XT Us : Tens K} (hC : CostTens C Hs HT rs rT Xs XT Us)
    (dyn : List (Matrix (Fin n) (Fin n) K × (Fin n → K) × Matrix (Fin n) (Fin m) K)) (hd : dyn.length = C.stages.length)
    (us : List (Fin m → K)) (xs : List (Fin n → K)) (lu : us.length = C.stages.length) (lx : xs.length = C.stages.length + 1)
    {tu tx : Tens K} (hu : tu.HoldsV us) (hx : tx.HoldsV xs) (scan : AScan) (hs : ∀ α, IsAssocScan (scan α)) :
    (∀ tu' tx', tensNlqtIteratePar1 scan tu tx f Fx Fu Hs HT rs rT Xs XT Us = .ok (tu', tx') ∨
        tensNlqtIteratePar2 scan tu tx f Fx Fu Hs HT rs rT Xs XT Us = .ok (tu', tx') →
      ∃ P' us' xs', M.iterate (C.toLQT dyn) us xs 2 = .ok (P', us', xs') ∧ tu'.HoldsV us' ∧ tx'.HoldsV xs') ∧
    (C.Convex → (∃ r, tensNlqtIteratePar1 scan tu tx f Fx Fu Hs HT rs rT Xs XT Us = .ok r) ∧
      ∃ r, tensNlqtIteratePar2 scan tu tx f Fx Fu Hs HT rs rT Xs XT Us = .ok r) := by
  have hit := fun us' xs' => iterate2_ok (us' := us') (xs' := xs') (linearizeTF_linTo M C dyn us xs hd lu lx)
  obtain ⟨ti, e1, h1⟩ := Tens.IsVt.init hx
  obtain ⟨Fs, cs, Ls, e2, hst, hT⟩ := linearize_stages hM hC lu (by simp [lx]) h1 hu
  have hQ := linearizeTF_sym (M := M) hS us xs.dropLast
  have hQne := linearizeTF_ne (M := M) hne lu lx
  obtain ⟨b1, b2⟩ := C101_par_backward (M.linearizeTF C us xs.dropLast) hQ hst hT scan hs
  obtain ⟨x0, xs0, rfl⟩ : ∃ x0 xs0, xs = x0 :: xs0 := by
    cases xs with
    | nil => simp at lx
    | cons a l => exact ⟨a, l, rfl⟩
  obtain ⟨t0, e4, ht0⟩ := Tens.IsVt.first hx
  have q1 : tensNlqtIteratePar1 scan tu tx f Fx Fu Hs HT rs rT Xs XT Us = (do
      let b ← tensLqtParBackward scan Fs cs Ls Hs HT rs rT Xs XT Us
      let (xs, us) ← tensLqtParForward scan t0 Fs cs Ls b.Kxs b.ds
      return (us, xs)) := by
    refine bstep e1 (bstep e2 ?_)
    dsimp only
    rw [e4]
    rfl
  have q2 : tensNlqtIteratePar2 scan tu tx f Fx Fu Hs HT rs rT Xs XT Us = (do
      let b ← tensLqtParBackward scan Fs cs Ls Hs HT rs rT Xs XT Us
      let (xs, us) ← tensLqtParFwdBwd scan t0 Fs cs Ls Hs rs Xs Us b.Ss b.vs b.Kxs b.ds
      return (us, xs)) := by
    refine bstep e1 (bstep e2 ?_)
    dsimp only
    rw [e4]
    rfl
  have hfw : ∀ {t : TensBw K} {r : BwResult n m K}, (M.linearizeTF C us (x0 :: xs0).dropLast).toLQT.seqBackwardPass = .ok r → t.Holds r →
      ∃ xs' us' txs tus, (M.linearizeTF C us (x0 :: xs0).dropLast).toLQT.seqForwardPass x0 r.Kx_list r.d_list = .ok (us', xs') ∧
        tensLqtParForward scan t0 Fs cs Ls t.Kxs t.ds = .ok (txs, tus) ∧ txs.HoldsV xs' ∧ tus.HoldsV us' := by
    intro t r hr ht
    obtain ⟨l1, l2⟩ := bw_lengths hr
    have l1 : r.Kx_list.length = _ := l1.trans (List.length_map ..)
    have l2 : r.d_list.length = _ := l2.trans (List.length_map ..)
    obtain ⟨f1, f2, f3, f4⟩ := fwdData_ok _ r l1 l2
    obtain ⟨xs'', us'', txs, tus, k1, k2, k3, k4⟩ := C101_par_forward _ _ (f4 hQne) f1 (fwdTens_data hst ht l1 l2) x0 ht0 scan hs
    rw [f2, f3] at k1
    exact ⟨xs'', us'', txs, tus, k1, k2, k3, k4⟩
  refine ⟨?_, fun hc => ⟨?_, ?_⟩⟩
  · rintro tu' tx' (h | h)
    · rw [q1] at h
      obtain ⟨t, e3, h⟩ := bind_ok.1 h
      obtain ⟨r, hr, ht⟩ := b1 t e3
      obtain ⟨xs', us', txs, tus, k1, k2, k3, k4⟩ := hfw hr ht
      have e6 := (bstep k2 rfl).symm.trans h
      cases e6
      obtain ⟨P', hP'⟩ := (hit us' xs').2 ⟨r, x0, hr, rfl, k1⟩
      exact ⟨P', us', xs', hP', k4, k3⟩
    · rw [q2] at h
      obtain ⟨t, e3, h⟩ := bind_ok.1 h
      obtain ⟨r, hr, ht⟩ := b1 t e3
      obtain ⟨⟨txs, tus⟩, k2, h⟩ := bind_ok.1 h
      cases h
      obtain ⟨xs', us', k1, k3, k4⟩ := (C101_fwdbwd _ hQ hst r hr ht x0 ht0 scan hs).1 _ _ k2
      obtain ⟨P', hP'⟩ := (hit us' xs').2 ⟨r, x0, hr, rfl, k1⟩
      exact ⟨P', us', xs', hP', k4, k3⟩
  · obtain ⟨t, e3⟩ := b2 (linearizeTF_convex hc us _)
    obtain ⟨r, hr, ht⟩ := b1 t e3
    obtain ⟨xs', us', txs, tus, k1, k2, -⟩ := hfw hr ht
    exact ⟨(tus, txs), q1.trans (bstep e3 (bstep k2 rfl))⟩
  · obtain ⟨t, e3⟩ := b2 (linearizeTF_convex hc us _)
    obtain ⟨r, hr, ht⟩ := b1 t e3
    obtain ⟨⟨txs, tus⟩, k2⟩ := (C101_fwdbwd _ hQ hst r hr ht x0 ht0 scan hs).2 (linearizeTF_convex hc us _)
    exact ⟨(tus, txs), q2.trans (bstep e3 (bstep k2 rfl))⟩

/-- C102: with convex costs, a step and a state all three iterations complete, with tensors holding the controls and states that every method of
`iterate` returns. -/
theorem C102_convex (M : NModel n m K) {f Fx Fu : TensFun K} (hM : ModelTens M f Fx Fu) (C : NQCost n m p q K) (hV : C.Convex) (hne : C.stages ≠ [])
    (hn : 0 < n) {Hs HT rs rT Xs XT Us : Tens K} (hC : CostTens C Hs HT rs rT Xs XT Us)
    (dyn : List (Matrix (Fin n) (Fin n) K × (Fin n → K) × Matrix (Fin n) (Fin m) K)) (hd : dyn.length = C.stages.length)
    (us : List (Fin m → K)) (xs : List (Fin n → K)) (lu : us.length = C.stages.length) (lx : xs.length = C.stages.length + 1)
    {tu tx : Tens K} (hu : tu.HoldsV us) (hx : tx.HoldsV xs) (scan : AScan) (hs : ∀ α, IsAssocScan (scan α)) :
    ∃ P' us' xs', (∀ k, M.iterate (C.toLQT dyn) us xs k = .ok (P', us', xs')) ∧
      (∃ a b, tensNlqtIterateSeq tu tx f Fx Fu Hs HT rs rT Xs XT Us = .ok (a, b) ∧ a.HoldsV us' ∧ b.HoldsV xs') ∧
      (∃ a b, tensNlqtIteratePar1 scan tu tx f Fx Fu Hs HT rs rT Xs XT Us = .ok (a, b) ∧ a.HoldsV us' ∧ b.HoldsV xs') ∧
      ∃ a b, tensNlqtIteratePar2 scan tu tx f Fx Fu Hs HT rs rT Xs XT Us = .ok (a, b) ∧ a.HoldsV us' ∧ b.HoldsV xs' := by
  have hS : C.Sym := ⟨fun s h => ⟨(hV.1 s h).1.1, (hV.1 s h).2.1⟩, hV.2.1⟩
  obtain ⟨P', us', xs', h1, -⟩ := C69_convex M C hV hne dyn hd us xs lu lx _ C17_scan_example _ C17_scan_example
  obtain ⟨g1, g2⟩ := C102_par M hM C hS hne hC dyn hd us xs lu lx hu hx scan hs
  obtain ⟨⟨⟨a, b⟩, k1⟩, ⟨a', b'⟩, k2⟩ := g2 hV
  refine ⟨P', us', xs', h1, (C102_seq M hM C hS hne hn hC dyn hd us xs lu lx hu hx us' xs').1 ⟨P', h1 2⟩, ⟨a, b, k1, ?_⟩, a', b', k2, ?_⟩
  · obtain ⟨P'', us'', xs'', h2, h3, h4⟩ := g1 a b (.inl k1)
    rw [h1 2] at h2; cases h2
    exact ⟨h3, h4⟩
  · obtain ⟨P'', us'', xs'', h2, h3, h4⟩ := g1 a' b' (.inr k2)
    rw [h1 2] at h2; cases h2
    exact ⟨h3, h4⟩

/-- C102: without a step `nlqt_iterate_seq` and `nlqt_iterate_par_1` raise, and `nlqt_iterate_seq` also raises without a state; `nlqt_iterate_par_2`
then returns the first state and no control, if the terminal weight is positive semidefinite. -/
theorem C102_fail (M : NModel n m K) {f Fx Fu : TensFun K} (hM : ModelTens M f Fx Fu) (C : NQCost n m p q K)
    {Hs HT rs rT Xs XT Us : Tens K} (hC : CostTens C Hs HT rs rT Xs XT Us)
    (us : List (Fin m → K)) (x0 : Fin n → K) (xs : List (Fin n → K)) (lu : us.length = C.stages.length) (lx : xs.length = C.stages.length)
    {tu tx : Tens K} (hu : tu.HoldsV us) (hx : tx.HoldsV (x0 :: xs)) (scan : AScan) (hs : ∀ α, IsAssocScan (scan α)) :
    (C.stages = [] ∨ n = 0 → C.Convex → tensNlqtIterateSeq tu tx f Fx Fu Hs HT rs rT Xs XT Us = .error .indexError) ∧
    (C.stages = [] → C.Convex → tensNlqtIteratePar1 scan tu tx f Fx Fu Hs HT rs rT Xs XT Us = .error .indexError) ∧
    (C.stages = [] → C.Convex → ∃ a b, tensNlqtIteratePar2 scan tu tx f Fx Fu Hs HT rs rT Xs XT Us = .ok (a, b) ∧ a.HoldsV ([] : List (Fin m → K)) ∧
      b.HoldsV [x0]) := by
  obtain ⟨ti, e1, h1⟩ := Tens.IsVt.init hx
  obtain ⟨Fs, cs, Ls, e2, hst, hT⟩ := linearize_stages hM hC lu (by simp [lx]) h1 hu
  obtain ⟨t0, e4, ht0⟩ := Tens.IsVt.first hx
  have hlen : ∀ {r : BwResult n m K}, (M.linearizeTF C us (x0 :: xs).dropLast).toLQT.seqBackwardPass = .ok r →
      r.Kx_list.length = (M.linearizeTF C us (x0 :: xs).dropLast).stages.length ∧ r.d_list.length = (M.linearizeTF C us (x0 :: xs).dropLast).stages.length := by
    intro r hr
    obtain ⟨l1, l2⟩ := bw_lengths hr
    exact ⟨l1.trans (List.length_map ..), l2.trans (List.length_map ..)⟩
  have hnil : C.stages = [] → (M.linearizeTF C us (x0 :: xs).dropLast).stages = [] := fun h => by simp [NModel.linearizeTF, h]
  refine ⟨fun h hV => ?_, fun h hV => ?_, fun h hV => ?_⟩
  · have hQ := linearizeTF_convex (M := M) hV us (x0 :: xs).dropLast
    obtain ⟨t, e3⟩ := (C101_par_backward _ hQ.toSym hst hT scan hs).2 hQ
    obtain ⟨r, hr, -⟩ := (C101_par_backward _ hQ.toSym hst hT scan hs).1 t e3
    obtain ⟨t, e3, ht⟩ := (C101_seq_backward _ hQ.toSym hst hT r).1 hr
    obtain ⟨l1, l2⟩ := hlen hr
    refine bstep e1 (bstep e2 (bstep e3 (bstep e4 ?_)))
    rw [seqForward_fail (fwdTens_data hst ht l1 l2) (h.imp (fun h => by simp [TFLQT.fwdData, hnil h]) id)]
    rfl
  · have hQ := linearizeTF_convex (M := M) hV us (x0 :: xs).dropLast
    obtain ⟨t, e3⟩ := (C101_par_backward _ hQ.toSym hst hT scan hs).2 hQ
    obtain ⟨r, hr, ht⟩ := (C101_par_backward _ hQ.toSym hst hT scan hs).1 t e3
    obtain ⟨l1, l2⟩ := hlen hr
    refine bstep e1 (bstep e2 (bstep e3 (bstep e4 ?_)))
    rw [parForward_fail (fwdTens_data hst ht l1 l2) (by simp [TFLQT.fwdData, hnil h])]
    rfl
  · have hQ := linearizeTF_convex (M := M) hV us (x0 :: xs).dropLast
    obtain ⟨t, e3⟩ := (C101_par_backward _ hQ.toSym hst hT scan hs).2 hQ
    obtain ⟨r, hr, ht⟩ := (C101_par_backward _ hQ.toSym hst hT scan hs).1 t e3
    obtain ⟨f1, f2⟩ := C101_fwdbwd _ hQ.toSym hst r hr ht x0 ht0 scan hs
    obtain ⟨⟨a, b⟩, k⟩ := f2 hQ
    obtain ⟨xs', us', k1, k2, k3⟩ := f1 a b k
    have hz : (M.linearizeTF C us (x0 :: xs).dropLast).toLQT.stages = [] := by simp [TFLQT.toLQT, hnil h]
    have k4 : (M.linearizeTF C us (x0 :: xs).dropLast).toLQT.seqForwardPass x0 r.Kx_list r.d_list = .ok ([], [x0]) := by
      obtain ⟨l1, l2⟩ := hlen hr
      rw [hnil h] at l1 l2
      unfold LQT.seqForwardPass
      rw [hz, List.length_eq_zero_iff.1 l1, List.length_eq_zero_iff.1 l2]
      rfl
    rw [k4] at k1
    cases k1
    exact ⟨b, a, bstep e1 (bstep e2 (bstep e3 (bstep e4 (bstep k rfl)))), k3, k2⟩

end Ordered

/-! ### Examples -/

/-- Two steps of costs for the vehicle. -/
noncomputable def exVehCost : NQCost 4 2 4 4 ℝ := ⟨[⟨1, ![1, 0, 0, 2], 1, 1⟩, ⟨1, ![0, 3, 0, 0], 1, 1⟩], 1, ![1, 1, 0, 0], 1⟩

theorem exVehCost_convex : exVehCost.Convex := by
  have h4 : IsPSD (1 : Matrix (Fin 4) (Fin 4) ℝ) := ⟨transpose_one, fun x => by
    simp only [one_mulVec]; exact Finset.sum_nonneg fun i _ => mul_self_nonneg (x i)⟩
  have h2 : IsPD (1 : Matrix (Fin 2) (Fin 2) ℝ) := by simpa using isPD_smul_one (ι := Fin 2) (1 : ℝ) one_pos
  refine ⟨fun s hs => ?_, h4⟩
  have hs : s = ⟨1, ![1, 0, 0, 2], 1, 1⟩ ∨ s = ⟨1, ![0, 3, 0, 0], 1, 1⟩ := by simpa [exVehCost] using hs
  rcases hs with rfl | rfl <;> exact ⟨h4, transpose_one, h2⟩

theorem exVehCost_tens : CostTens exVehCost (tensMats (exVehCost.stages.map (·.H))) (tensMat exVehCost.HT) (tensRowsOf (exVehCost.stages.map (·.r)))
    (tensVec exVehCost.rT) (tensMats (exVehCost.stages.map (·.X))) (tensMat exVehCost.XT) (tensMats (exVehCost.stages.map (·.U))) :=
  ⟨tensMats_is _ _, tensRowsOf_is _ _, tensMats_is _ _, tensMats_is _ _, tensMat_is _, tensVec_is _, tensMat_is _⟩

omit [Field K] in
theorem tensRows_holds [Inhabited K] {a : ℕ} (l : List (Fin a → K)) : (tensRowsOf l).HoldsV l := by
  simpa [Tens.HoldsV] using tensRowsOf_is l fun v => v

/-- One iteration for the vehicle in the three ways, from a trajectory that does not obey its dynamics. -/
example : ∃ (us' : List (Fin 2 → ℝ)) (xs' : List (Fin 4 → ℝ)) (a b a' b' : Tens ℝ),
    tensNlqtIterateSeq (tensRowsOf [![1, 0], ![0, 1]]) (tensRowsOf [![0, 0, 0, 1], ![1, 0, 0, 1], ![1, 1, 2, 0]]) (tensModelF (1 / 10)) (tensModelFx (1 / 10))
      (tensModelFu (1 / 10)) (tensMats (exVehCost.stages.map (·.H))) (tensMat exVehCost.HT) (tensRowsOf (exVehCost.stages.map (·.r)))
      (tensVec exVehCost.rT) (tensMats (exVehCost.stages.map (·.X))) (tensMat exVehCost.XT) (tensMats (exVehCost.stages.map (·.U))) = .ok (a, b) ∧
    tensNlqtIteratePar2 (fun _ op l => scanVals op l) (tensRowsOf [![1, 0], ![0, 1]]) (tensRowsOf [![0, 0, 0, 1], ![1, 0, 0, 1], ![1, 1, 2, 0]])
      (tensModelF (1 / 10)) (tensModelFx (1 / 10)) (tensModelFu (1 / 10)) (tensMats (exVehCost.stages.map (·.H))) (tensMat exVehCost.HT)
      (tensRowsOf (exVehCost.stages.map (·.r))) (tensVec exVehCost.rT) (tensMats (exVehCost.stages.map (·.X))) (tensMat exVehCost.XT)
      (tensMats (exVehCost.stages.map (·.U))) = .ok (a', b') ∧
    a.HoldsV us' ∧ b.HoldsV xs' ∧ a'.HoldsV us' ∧ b'.HoldsV xs' := by
  obtain ⟨P', us', xs', -, ⟨a, b, h1, h2, h3⟩, -, a', b', h4, h5, h6⟩ := C102_convex (vehicle (1 / 10)) (C102_vehicle (1 / 10)) exVehCost exVehCost_convex
    (by simp [exVehCost]) (by decide) exVehCost_tens [(1, 0, 0), (1, 0, 0)] (by simp [exVehCost]) [![1, 0], ![0, 1]]
    [![0, 0, 0, 1], ![1, 0, 0, 1], ![1, 1, 2, 0]] (by simp [exVehCost]) (by simp [exVehCost]) (tensRows_holds _) (tensRows_holds _)
    (fun _ op l => scanVals op l) fun _ => C17_scan_example
  exact ⟨us', xs', a, b, a', b', h1, h4, h2, h3, h5, h6⟩

/-- The states of the vehicle under two controls, and the offsets of its linearisation. -/
example : ∃ txs Fs cs Ls, tensNlqtSimulate (tensVec ![0, 0, 0, 1]) (tensRowsOf [![1, 0], ![0, 1]]) (tensModelF (1 / 10)) = .ok txs ∧
    txs.HoldsV ((vehicle (1 / 10)).simulate ![0, 0, 0, 1] [![1, 0], ![0, 1]]) ∧
    tensNlqtLinearize (tensRowsOf [![1, 0]]) (tensRowsOf [![0, 0, 0, 1]]) (tensModelF (1 / 10)) (tensModelFx (1 / 10)) (tensModelFu (1 / 10)) = .ok (Fs, cs, Ls) ∧
    Fs.HoldsM [!![1, 0, -1 * Real.sin 0 * (1 / 10), Real.cos 0 * (1 / 10); 0, 1, 1 * Real.cos 0 * (1 / 10), Real.sin 0 * (1 / 10); 0, 0, 1, 0; 0, 0, 0, 1]] := by
  obtain ⟨txs, h1, h2⟩ := C102_simulate _ (C102_vehicle (1 / 10)) ![0, 0, 0, 1] [![1, 0], ![0, 1]] (tensVec_is _) (tensRows_holds _)
  obtain ⟨Fs, cs, Ls, h3, h4, -⟩ := C102_linearize _ (C102_vehicle (1 / 10)) [![1, 0]] [![0, 0, 0, 1]] rfl (tensRows_holds _) (tensRows_holds _)
  refine ⟨txs, Fs, cs, Ls, h1, h2, h3, ?_⟩
  simpa [vehicle, nlModelFx] using h4

/-- The cost of two controls of the vehicle. -/
example : tensNlqtCost (tensVec ![0, 0, 0, 1]) (tensRowsOf [![1, 0], ![0, 1]]) (tensModelF (1 / 10)) (tensMats (exVehCost.stages.map (·.H)))
      (tensMat exVehCost.HT) (tensRowsOf (exVehCost.stages.map (·.r))) (tensVec exVehCost.rT) (tensMats (exVehCost.stages.map (·.X)))
      (tensMat exVehCost.XT) (tensMats (exVehCost.stages.map (·.U))) =
    (vehicle (1 / 10)).cost (exVehCost.toLQT [(1, 0, 0), (0, 1, 0)]) ![0, 0, 0, 1] [![1, 0], ![0, 1]] :=
  C102_cost _ (C102_vehicle (1 / 10)) exVehCost exVehCost_tens _ (by simp [exVehCost]) _ _ (by simp [exVehCost]) (tensVec_is _) (tensRows_holds _)

/-- Without a step. -/
example : ∃ a b, tensNlqtIteratePar2 (fun _ op l => scanVals op l) (tensRowsOf ([] : List (Fin 2 → ℝ))) (tensRowsOf [![0, 0, 0, 1]]) (tensModelF (1 / 10)) (tensModelFx (1 / 10))
      (tensModelFu (1 / 10)) (tensMats ([] : List (Matrix (Fin 4) (Fin 4) ℝ))) (tensMat exVehCost.HT) (tensRowsOf ([] : List (Fin 4 → ℝ)))
      (tensVec exVehCost.rT) (tensMats ([] : List (Matrix (Fin 4) (Fin 4) ℝ))) (tensMat exVehCost.XT) (tensMats ([] : List (Matrix (Fin 2) (Fin 2) ℝ))) = .ok (a, b) ∧
    a.HoldsV ([] : List (Fin 2 → ℝ)) ∧ b.HoldsV [(![0, 0, 0, 1] : Fin 4 → ℝ)] :=
  (C102_fail _ (C102_vehicle (1 / 10)) { exVehCost with stages := [] }
    ⟨tensMats_is [] fun c : NQStage 4 2 4 ℝ => c.H, tensRowsOf_is [] fun c : NQStage 4 2 4 ℝ => c.r, tensMats_is [] fun c : NQStage 4 2 4 ℝ => c.X,
      tensMats_is [] fun c : NQStage 4 2 4 ℝ => c.U, tensMat_is _, tensVec_is _, tensMat_is _⟩ [] ![0, 0, 0, 1] [] rfl rfl (tensRows_holds _)
    (tensRows_holds _) (fun _ op l => scanVals op l) fun _ => C17_scan_example).2.2 rfl ⟨fun s hs => by simp at hs, exVehCost_convex.2⟩

end Verif
