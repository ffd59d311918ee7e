import Verif.Proof.FSCTensor
import Verif.Props.FSCTF
import Verif.Props.SpeedFinite

/-!
# C98: the tensor code of `fsc_tf.py`

The index arithmetic of `fsc_tf.py` (`reshape`, `tile`, `expand_dims`, `concat`, `gather_nd`, `tensor_scatter_nd_update`, broadcasting)
on whole batches computes, step by step and state by state, what the functional model of the file (`Verif.Model.FSCTF`, C62) says.
`IsV`, `IsM`, `Is1`, `IsVs`, `IsMs` (`Verif.Props.TensorRep`) say what a tensor holds.
-/

namespace Verif

variable {K : Type} {n m : ℕ}

/-- **C98** (conversion): `fsc_np_to_tf` produces tensors that hold the transitions, the costs and the final costs. -/
theorem C98_convert [Inhabited K] (M : FSC n m K) :
    M.toTensors.1.IsMs (M.stages.map fun s x u => (s.f x u).val) ∧ M.toTensors.2.1.IsMs (M.stages.map FStage.L) ∧
      M.toTensors.2.2.IsV M.LT := by
  refine ⟨⟨by simp [FSC.toTensors], fun k h x y => ?_⟩, ⟨by simp [FSC.toTensors], fun k h x y => ?_⟩, ⟨rfl, fun x => ?_⟩⟩
  · rw [List.length_map] at h
    have hc : k < M.stages.length ∧ x.val < n ∧ y.val < m := ⟨h, x.2, y.2⟩
    simp only [List.getElem_map]
    exact dif_pos hc
  · rw [List.length_map] at h
    have hc : k < M.stages.length ∧ x.val < n ∧ y.val < m := ⟨h, x.2, y.2⟩
    simp only [List.getElem_map]
    exact dif_pos hc
  · exact dif_pos x.2

/-- **C98** (combinations): on batches of equal length, `fsc_par_comb_V` is the min-plus product and `fsc_par_comb_f` the composition of each
pair of items. -/
theorem C98_combine [LinearOrder K] [AddCommMonoid K] [NeZero n] :
    (∀ (a b : Tens K) (la lb : List (Fin n → Fin n → K)), a.IsMs la → b.IsMs lb → la.length = lb.length →
      ∃ c, tensCombV a b = .ok c ∧ c.IsMs (List.zipWith (fun A B i k => min1 fun j => A i j + B j k) la lb)) ∧
    (∀ (a b : Tens ℕ) (la lb : List (Fin n → Fin n)), a.IsVs (la.map fun f x => (f x).val) → b.IsVs (lb.map fun f x => (f x).val) →
      la.length = lb.length → ∃ c, tensCombF a b = .ok c ∧ c.IsVs ((List.zipWith (fun f g x => g (f x)) la lb).map fun f x => (f x).val)) :=
  ⟨fun _ _ _ _ ha hb hl => combV_is ha hb hl, fun _ _ _ _ ha hb hl => combF_is ha hb hl⟩

/-- **C98** (elements): the scatter and gather code that builds the elements of all steps at once gives the element of each step. -/
theorem C98_elements [LinearOrder K] [AddCommMonoid K] [NeZero n] [NeZero m] (inf : K) (M : FSC n m K) {fs : Tens ℕ} {Ls LT : Tens K}
    (hf : fs.IsMs (M.stages.map fun s x u => (s.f x u).val)) (hL : Ls.IsMs (M.stages.map FStage.L)) (hT : LT.IsV M.LT) :
    (∃ V, tensFscInitMost inf fs Ls = .ok V ∧
      V.IsMs (M.stages.map fun s x xp => min1 fun u => if xp = s.f x u then s.L x u else inf)) ∧
    (∃ V, tensFscInitLast LT = .ok V ∧ V.IsM fun x (_ : Fin n) => M.LT x) ∧
    (∀ (us : Tens ℕ) (lu : List (Fin n → Fin m)), us.IsVs (lu.map fun p x => (p x).val) → lu.length = M.stages.length →
      ∃ e, tensFscFwdMost fs us = .ok e ∧ e.IsVs ((M.stages.zipWith (fun s p x => s.f x (p x)) lu).map fun f x => (f x).val)) ∧
    (∀ (x0 : Fin n) (L0 : Tens K) (A : Fin n → Fin m → K), L0.IsM A →
      ∃ V, tensFwdBwdFirst inf x0 L0 = .ok V ∧ V.IsM fun (_ y : Fin n) => if y = x0 then 0 else inf) := by
  refine ⟨?_, initLast_is hT, fun us lu hu hl => fwdMost_is hf hu hl, fun x0 L0 A hA => ?_⟩
  · obtain ⟨V, h1, h2⟩ := initMost_is (inf := inf) hf hL
    refine ⟨V, h1, ?_⟩
    convert h2 using 2
    funext s x xp
    simp only [tfStageElem, Function.update_apply]
  · obtain ⟨V, h1, h2⟩ := fwdBwdFirst_is (inf := inf) x0 hA
    refine ⟨V, h1, ?_⟩
    convert h2 using 1
    funext x y
    simp only [tfFwdBwdFirst, Function.update_apply]

/-- **C98** (index out of range): a transition to a state that does not exist makes `fsc_par_backwardpass_init_most` raise. -/
theorem C98_index [LinearOrder K] [AddCommMonoid K] {T : ℕ} (inf : K) {fs : Tens ℕ} {Ls : Tens K} (hf : fs.shape = [T, n, m])
    (hL : Ls.shape = [T, n, m]) {k x u : ℕ} (hk : k < T) (hx : x < n) (hu : u < m) (h : n ≤ fs.val [k, x, u]) :
    tensFscInitMost inf fs Ls = .error .indexError :=
  initMost_index inf hf hL hk hx hu h

/-- **C98** (sequential passes): `fsc_seq_backwardpass` and `fsc_seq_forwardpass` on tensors return tensors with what the functional model
returns. -/
theorem C98_sequential [LinearOrder K] [AddCommMonoid K] [NeZero m] (am : AArgmin K) (M : FSC n m K) {fs : Tens ℕ} {Ls LT : Tens K}
    (hf : fs.IsMs (M.stages.map fun s x u => (s.f x u).val)) (hL : Ls.IsMs (M.stages.map FStage.L)) (hT : LT.IsV M.LT) :
    ∃ us Vs lu lV, tensFscSeqBackward am fs Ls LT = .ok (us, Vs) ∧ M.tfSeqBackward (am m) = .ok (lu, lV) ∧
      us.IsVs (lu.map fun p x => (p x).val) ∧ Vs.IsVs lV ∧
      ∀ x0 : Fin n, ∃ xs vs, tensFscSeqForward x0 fs us = .ok (xs.map Fin.val, vs.map Fin.val) ∧ M.tfSeqForward x0 lu = .ok (xs, vs) := by
  obtain ⟨us, Vs, lu, lV, h1, h2, h3, h4, h5, _⟩ := seqBackward_is am M hf hL hT
  exact ⟨us, Vs, lu, lV, h1, h2, h3, h4, fun x0 => seqForward_is M x0 hf h3 h5⟩

/-- **C98** (parallel passes): with any associative scan, `fsc_par_backwardpass`, `fsc_par_forwardpass` and `fsc_par_fwdbwdpass` on tensors
return tensors with what the functional model returns (the last for at least one step). -/
theorem C98_parallel [LinearOrder K] [AddCommMonoid K] [IsOrderedAddMonoid K] [NeZero n] [NeZero m] {scan : AScan}
    (hs : ∀ α, IsAssocScan (scan α)) (am : AArgmin K) (inf : K) (M : FSC n m K) {fs : Tens ℕ} {Ls LT : Tens K}
    (hf : fs.IsMs (M.stages.map fun s x u => (s.f x u).val)) (hL : Ls.IsMs (M.stages.map FStage.L)) (hT : LT.IsV M.LT) :
    ∃ us Vs lu lV, tensFscParBackward scan am inf fs Ls LT = .ok (us, Vs) ∧ M.tfParBackward (scan _) (am m) inf = .ok (lu, lV) ∧
      us.IsVs (lu.map fun p x => (p x).val) ∧ Vs.IsVs lV ∧
      (∀ x0 : Fin n, ∃ mu mx lmu lmx, tensFscParForward scan x0 fs us = .ok (mu, mx) ∧ M.tfParForward (scan _) x0 lu = .ok (lmu, lmx) ∧
        mu.Is1 (lmu.map Fin.val) ∧ mx.Is1 (lmx.map Fin.val)) ∧
      (M.stages ≠ [] → ∀ x0 : Fin n, ∃ mu mx lmu lmx, tensFscParFwdBwd scan am inf x0 fs Ls us Vs = .ok (mu, mx) ∧
        M.tfParFwdBwd (scan _) (am n) inf x0 lu lV = .ok (lmu, lmx) ∧ mu.Is1 (lmu.map Fin.val) ∧ mx.Is1 (lmx.map Fin.val)) := by
  obtain ⟨us, Vs, lu, lV, h1, h2, h3, h4, h5, h6⟩ := parBackward_is hs am inf M hf hL hT
  exact ⟨us, Vs, lu, lV, h1, h2, h3, h4, fun x0 => parForward_is hs M x0 hf h3 h5,
    fun hM x0 => parFwdBwd_is hs am inf M hM x0 hf hL h3 h4 h5 h6⟩

/-- **C98** (no steps): without steps `fsc_par_fwdbwdpass` raises, because `Ls[0]` does not exist. -/
theorem C98_empty [LinearOrder K] [AddCommMonoid K] (scan : AScan) (am : AArgmin K) (inf : K) (x0 : ℕ) {fs us : Tens ℕ} {Ls Vs : Tens K}
    (hL : Ls.shape = [0, n, m]) : tensFscParFwdBwd scan am inf x0 fs Ls us Vs = .error .indexError := by
  obtain ⟨s, v⟩ := Ls
  dsimp only at hL
  subst hL
  rfl

/-- **C98** (optimality): on the tensors of a problem, the sequential passes and the parallel forward pass return the states and controls of an
optimal trajectory, whose cost is the entry `[0, x0]` of the value tensor. -/
theorem C98_optimal [LinearOrder K] [AddCommMonoid K] [IsOrderedAddMonoid K] [NeZero n] [NeZero m] {scan : AScan}
    (hs : ∀ α, IsAssocScan (scan α)) {am : AArgmin K} (ham : IsArgmin (am m)) (M : FSC n m K) {fs : Tens ℕ} {Ls LT : Tens K}
    (hf : fs.IsMs (M.stages.map fun s x u => (s.f x u).val)) (hL : Ls.IsMs (M.stages.map FStage.L)) (hT : LT.IsV M.LT) (x0 : Fin n) :
    ∃ us Vs xs vs mu mx, tensFscSeqBackward am fs Ls LT = .ok (us, Vs) ∧ tensFscSeqForward x0 fs us = .ok (xs.map Fin.val, vs.map Fin.val) ∧
      tensFscParForward scan x0 fs us = .ok (mu, mx) ∧ mu.Is1 (vs.map Fin.val) ∧ mx.Is1 (xs.map Fin.val) ∧
      M.seqSimulation x0 vs = .ok xs ∧ IsOptimal M.LT M.stages x0 vs ∧ totalCost M.LT M.stages x0 vs = Vs.val [0, x0] := by
  obtain ⟨us, Vs, lu, lV, h1, h2, h3, h4, h5, h6⟩ := seqBackward_is am M hf hL hT
  obtain ⟨xs, vs, h7, h8⟩ := seqForward_is M x0 hf h3 h5
  obtain ⟨mu, mx, lmu, lmx, h9, h10, h11, h12⟩ := parForward_is hs M x0 hf h3 h5
  obtain ⟨ps, lV', V0, us', xs', g1, g2, g3, g4, g5, g6, g7⟩ := C62_optimal ham (hs _) M x0
  rw [h2] at g1
  cases g1
  rw [h8] at g3
  cases g3
  rw [h10] at g4
  cases g4
  refine ⟨us, Vs, xs, vs, mu, mx, h1, h7, h9, h11, h12, g5, g6, ?_⟩
  rw [h4.2 0 (by omega) x0, g7]
  have e : lV[0]? = some lV[0] := List.getElem?_eq_getElem (by omega)
  rw [e] at g2
  cases g2
  rfl

/-! ## Examples -/

/-- The entries of a tensor in row-major order. -/
def Tens.entries (t : Tens K) : List K := (allIdx t.shape).map t.val

/-- The hypotheses of C98 hold for the tensors of a problem with three states, two controls and its steps. -/
example : exFSC.toTensors.1.IsMs (exFSC.stages.map fun s x u => (s.f x u).val) ∧ exFSC.toTensors.2.1.IsMs (exFSC.stages.map FStage.L) ∧
    exFSC.toTensors.2.2.IsV exFSC.LT := C98_convert exFSC

example : (tensFscInitMost 100 exFSC.toTensors.1 exFSC.toTensors.2.1).map Tens.shape = .ok [exFSC.stages.length, 3, 3] := by
  obtain ⟨V, h1, h2⟩ := (C98_elements 100 exFSC (C98_convert exFSC).1 (C98_convert exFSC).2.1 (C98_convert exFSC).2.2).1
  rw [h1]
  refine congrArg Except.ok (h2.1.trans ?_)
  simp

/-- The batched combination of two pairs of matrices. -/
example : ((tensCombV (tensMs [(fun i j => i.val + 2 * j.val : Fin 2 → Fin 2 → ℤ), fun i j => 3 - i.val * j.val])
    (tensMs [(fun i j => 5 * i.val - j.val : Fin 2 → Fin 2 → ℤ), fun i j => if i = j then 0 else 9])).map Tens.entries) =
    .ok [0, -1, 1, 0, 3, 3, 3, 2] := by decide +kernel

/-- A transition to a state that does not exist. -/
example : tensFscInitMost (100 : ℤ) ⟨[1, 2, 1], fun i => i.getD 1 0 + 1⟩ ⟨[1, 2, 1], fun _ => 3⟩ = .error .indexError :=
  C98_index 100 rfl rfl (k := 0) (x := 1) (u := 0) (by norm_num) (by norm_num) (by norm_num) (by decide)

/-- The tensor passes on a concrete problem find an optimal trajectory. -/
example : ∃ us Vs xs vs mu mx, tensFscSeqBackward (fun _ => argmin1) exFSC.toTensors.1 exFSC.toTensors.2.1 exFSC.toTensors.2.2 = .ok (us, Vs) ∧
    tensFscSeqForward (0 : Fin 3) exFSC.toTensors.1 us = .ok (xs.map Fin.val, vs.map Fin.val) ∧
    tensFscParForward (fun _ op l => scanVals op l) (0 : Fin 3) exFSC.toTensors.1 us = .ok (mu, mx) ∧ mu.Is1 (vs.map Fin.val) ∧
    mx.Is1 (xs.map Fin.val) ∧ exFSC.seqSimulation 0 vs = .ok xs ∧ IsOptimal exFSC.LT exFSC.stages 0 vs ∧
    totalCost exFSC.LT exFSC.stages 0 vs = Vs.val [0, 0] :=
  C98_optimal (am := fun _ => argmin1) (fun _ => C17_scan_example) (fun v i => argmin1_le v i) exFSC (C98_convert exFSC).1 (C98_convert exFSC).2.1 (C98_convert exFSC).2.2 0

/-- The parallel passes on the same problem. -/
example : ∃ us Vs, tensFscParBackward (fun _ op l => scanVals op l) (fun _ => argmin1) 100 exFSC.toTensors.1 exFSC.toTensors.2.1
    exFSC.toTensors.2.2 = .ok (us, Vs) ∧ Vs.shape = [exFSC.stages.length + 1, 3] := by
  obtain ⟨us, Vs, lu, lV, h1, h2, h3, h4, h5, h6⟩ := parBackward_is (fun _ => C17_scan_example) (fun _ => argmin1) 100 exFSC
    (C98_convert exFSC).1 (C98_convert exFSC).2.1 (C98_convert exFSC).2.2
  exact ⟨us, Vs, h1, by rw [h4.1, h6]⟩

end Verif
