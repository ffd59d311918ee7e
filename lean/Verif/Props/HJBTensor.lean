import Verif.Proof.HJBTensorPass
import Verif.Props.HJBUpwind
import Verif.Props.HJB
import Verif.Props.ViterbiTensor

/-!
# C104: the tensor code of the combinations and passes of `hjb_grid_1d_tf.py`

The index arithmetic of the grid solver (`expand_dims`, `transpose`, `gather_nd` with reflected indices, `meshgrid`, slices, `concat`,
`tf.scan`, the strided slice) on whole tensors computes what the functional model of the file and the numpy solver (C42, C43) compute.
`IsV`, `IsM`, `IsVs`, `IsMs` (`Verif.Props.TensorRep`) say what a tensor holds; `Pointwise1`, `Pointwise2` (`Verif.Props.TensorHJB`) say that
the given functions `f`, `L`, `LT` work entry by entry.
-/

namespace Verif

variable {K : Type} [Field K] [LinearOrder K] {n m : ℕ}

/-- **C104** (plain combinations): on batches of equal length, `combine_V` is the min-plus product of each pair of items; `combine_V2`,
which picks the entry at the `argmin` by `gather_nd`, is the same function for every choice on ties. -/
theorem C104_plain [NeZero n] {am : AArgmin (WithBot K)} (ham : IsArgmin (am n)) {a b : Tens (WithBot K)}
    {la lb : List (Fin n → Fin n → WithBot K)} (ha : a.IsMs la) (hb : b.IsMs lb) (hl : la.length = lb.length) :
    ∃ c d, tensHjbCombineV a b = .ok c ∧ tensHjbCombineVRev b a = .ok c ∧ tensHjbCombineV2 am a b = .ok d ∧
      c.IsMs (List.zipWith (fun A B i k => min1 fun j => A i j + B j k) la lb) ∧
      d.IsMs (List.zipWith (fun A B i k => min1 fun j => A i j + B j k) la lb) := by
  obtain ⟨c, h1, h2⟩ := hjbCombineV_rep ha hb hl
  obtain ⟨d, h3, h4⟩ := hjbCombineV2_rep am ha hb hl
  refine ⟨c, d, h1, h1, h3, h2, ?_⟩
  have e : hjbCombineV2TF (am n) = fun (A B : Fin n → Fin n → WithBot K) i k => min1 fun j => A i j + B j k := by
    funext A B
    exact (C42_tf (am n) ham A B).2.2.1
  rw [e] at h4
  exact h4

/-- **C104** (interpolating combination): on batches of equal length and a grid with at least two points `combine_V_interp` interpolates
each pair of items as the functional model does; if ties go to the first index, as the numpy function does. -/
theorem C104_interp [IsStrictOrderedRing K] [NeZero n] (am : AArgmin (WithBot K)) (hn : 2 ≤ n) {a b : Tens (WithBot K)}
    {la lb : List (Fin n → Fin n → WithBot K)} (ha : a.IsMs la) (hb : b.IsMs lb) (hl : la.length = lb.length) :
    ∃ c, tensHjbCombineInterp am a b = .ok c ∧ tensHjbCombineInterpRev am b a = .ok c ∧
      c.IsMs (List.zipWith (combineVInterpTF (am n)) la lb) ∧
      (am n = argmin1 → c.IsMs (List.zipWith combineVInterp la lb)) := by
  obtain ⟨c, h1, h2⟩ := combineInterp_rep am hn ha hb hl
  refine ⟨c, h1, h1, h2, fun h => ?_⟩
  rw [h] at h2
  exact h2

/-- **C104** (single grid point): on a grid with one point `combine_V_interp` raises for every nonempty batch, because the reflected index
`|0 - 1|` does not exist. -/
theorem C104_single (am : AArgmin (WithBot K)) {a b : Tens (WithBot K)} {la lb : List (Fin 1 → Fin 1 → WithBot K)}
    (ha : a.IsMs la) (hb : b.IsMs lb) (hl : la.length = lb.length) (hne : la ≠ []) :
    tensHjbCombineInterp am a b = .error .indexError :=
  combineInterp_single am ha hb hl hne

/-- **C104** (symmetric differences): `seq_bw_pass_symfd` on tensors raises what the numpy pass raises, and otherwise returns a tensor whose rows
are the value functions that the numpy pass returns. -/
theorem C104_symfd [NeZero m] (M : HJB (n + 2) K) {f L : TensFun K} {LT : Tens K → Py (Tens K)} (hf : Pointwise2 f M.f)
    (hL : Pointwise2 L M.L) (hLT : Pointwise1 LT M.LT) {tx tu : Tens K} {ug : Fin m → K} (hx : tx.IsV M.grid) (hu : tu.IsV ug) :
    (∀ e, M.seqBackwardPassSymfd ug = .error e → tensSeqBwPassSymfd f L LT M.T M.blocks M.steps tx tu = .error e) ∧
    (∀ l, M.seqBackwardPassSymfd ug = .ok l → ∃ t, tensSeqBwPassSymfd f L LT M.T M.blocks M.steps tx tu = .ok t ∧ t.IsVs l) := by
  rw [← (C43_tf M ug).2]
  exact symfd_rep M hf hL hLT hx hu

/-- **C104** (upwind differences): the same for `seq_bw_pass_upwind`. -/
theorem C104_upwind [NeZero m] (M : HJB (n + 2) K) {f L : TensFun K} {LT : Tens K → Py (Tens K)} (hf : Pointwise2 f M.f)
    (hL : Pointwise2 L M.L) (hLT : Pointwise1 LT M.LT) {tx tu : Tens K} {ug : Fin m → K} (hx : tx.IsV M.grid) (hu : tu.IsV ug) :
    (∀ e, M.seqBackwardPassUpwind ug = .error e → tensSeqBwPassUpwind f L LT M.T M.blocks M.steps tx tu = .error e) ∧
    (∀ l, M.seqBackwardPassUpwind ug = .ok l → ∃ t, tensSeqBwPassUpwind f L LT M.T M.blocks M.steps tx tu = .ok t ∧ t.IsVs l) := by
  rw [← (C43_tf M ug).1]
  exact upwind_rep M hf hL hLT hx hu

/-- **C104** (small grids): both finite difference passes raise on a grid with fewer than two points, whatever the functions are. -/
theorem C104_few (hn : n < 2) {tx tu : Tens K} (hx : tx.shape = [n]) (hu : tu.shape = [m]) (f L : TensFun K) (LT : Tens K → Py (Tens K)) (T : K)
    (blocks steps : ℕ) : tensSeqBwPassSymfd f L LT T blocks steps tx tu = .error .indexError ∧
      tensSeqBwPassUpwind f L LT T blocks steps tx tu = .error .indexError :=
  few_fail hn hx hu f L LT T blocks steps

/-- **C104** (stable): under the conditions of C43 every entry of the tensor of `seq_bw_pass_upwind` is bounded by the bounds of the costs. -/
theorem C104_stable [IsStrictOrderedRing K] [NeZero m] (M : HJB (n + 2) K) {ug : Fin m → K} (h : UpwindOK M ug) (c C : K)
    (hc : ∀ i u, |M.L (M.grid i) (ug u)| ≤ c) (hC : ∀ i, |M.LT (M.grid i)| ≤ C) {f L : TensFun K} {LT : Tens K → Py (Tens K)}
    (hf : Pointwise2 f M.f) (hL : Pointwise2 L M.L) (hLT : Pointwise1 LT M.LT) {tx tu : Tens K} (hx : tx.IsV M.grid) (hu : tu.IsV ug) :
    ∃ t, tensSeqBwPassUpwind f L LT M.T M.blocks M.steps tx tu = .ok t ∧ t.shape = [M.blocks + 1, n + 2] ∧
      ∀ k ≤ M.blocks, ∀ i < n + 2, |t.val [k, i]| ≤ C + (M.blocks - k) * (M.T / M.blocks) * c := by
  obtain ⟨r, h1, h2, h3⟩ := C43_stable M ug h c C hc hC
  obtain ⟨t, h4, h5⟩ := (C104_upwind M hf hL hLT hx hu).2 r h1
  refine ⟨t, h4, by rw [h5.1, h2], fun k hk i hi => ?_⟩
  have hk' : k < r.length := by omega
  have := h3 k hk r[k] (List.getElem?_eq_getElem hk') ⟨i, hi⟩
  rwa [← h5.2 k hk' ⟨i, hi⟩] at this

/-- **C104** (sequential block pass): `seq_bw_pass_assoc` on tensors returns the value functions of the functional model at the block
boundaries; if ties go to the first index, those of the numpy pass. -/
theorem C104_assoc [IsStrictOrderedRing K] [NeZero n] (am : AArgmin (WithBot K)) (hn : 2 ≤ n) (M : HJB n K) {LT : Tens K → Py (Tens K)}
    (hLT : Pointwise1 LT M.LT) {tg : Tens K} (hg : tg.IsV M.grid) {tB : Tens (WithBot K)} {B : Fin n → Fin n → WithBot K} (hB : tB.IsM B) :
    ∃ t, tensSeqBwPassAssoc am LT M.blocks tg tB = .ok t ∧ t.IsVs (seqBwPassAssocTF (am n) M B) ∧
      (am n = argmin1 → t.IsVs (M.seqBackwardPassAssoc B)) := by
  obtain ⟨t, h1, h2⟩ := seqAssoc_rep am hn M hLT hg hB
  refine ⟨t, h1, h2, fun h => ?_⟩
  rw [h, (C42_tf_passes M B (scan := fun op l => scanVals op l) C17_scan_example).1] at h2
  exact h2

/-- **C104** (parallel block pass): with any associative scan `par_bw_pass` on tensors completes; its row `k` is the first column of some
bracketing of the combinations of the `blocks - k` remaining blocks and the terminal costs.  With at most one block it returns what the
sequential pass returns. -/
theorem C104_parallel [IsStrictOrderedRing K] [NeZero n] {scan : AScan} (hs : ∀ α, IsAssocScan (scan α)) (am : AArgmin (WithBot K)) (hn : 2 ≤ n)
    (M : HJB n K) {LT : Tens K → Py (Tens K)} (hLT : Pointwise1 LT M.LT) {tg : Tens K} (hg : tg.IsV M.grid) {tB : Tens (WithBot K)}
    {B : Fin n → Fin n → WithBot K} (hB : tB.IsM B) :
    ∃ (t : Tens (WithBot K)) (Ws : List (Fin n → Fin n → WithBot K)), tensParBwPass scan am LT M.blocks tg tB = .ok t ∧
      Ws.length = M.blocks + 1 ∧ t.IsVs (Ws.map fun (W : Fin n → Fin n → WithBot K) x => W x 0) ∧
      (∀ (k : ℕ) (hk : k < Ws.length),
        Paren (fun x y => .ok (combineVInterpTF (am n) x y)) (List.replicate (M.blocks - k) B ++ [M.VT]) Ws[k]) ∧
      (M.blocks ≤ 1 → t.IsVs (seqBwPassAssocTF (am n) M B)) := by
  obtain ⟨t, Ws, h1, h2, h3, h4⟩ := parBw_rep hs am hn M hLT hg hB
  refine ⟨t, Ws, h1, h3, h2, h4, fun hb => ?_⟩
  have e : Ws.map (fun (W : Fin n → Fin n → WithBot K) x => W x 0) = seqBwPassAssocTF (am n) M B := by
    have hW : Ws = (List.range (M.blocks + 1)).map fun k => (combineVInterpTF (am n) B)^[M.blocks - k] M.VT := by
      refine List.ext_getElem (by simp [h3]) fun k hk1 hk2 => ?_
      have hW := h4 k hk1
      rw [List.getElem_map, List.getElem_range]
      have hcase : M.blocks - k = 0 ∨ M.blocks - k = 1 := by omega
      rcases hcase with h0 | h0
      · rw [h0] at hW ⊢
        exact paren_one hW rfl
      · rw [h0] at hW ⊢
        exact (Except.ok.inj (paren_two hW rfl)).symm
    rw [hW, seqBwPassAssocTF, tfRangeScanRev_eq, List.range_succ]
    simp
  rw [← e]
  exact h2

/-! Examples meeting the hypotheses. -/

omit [Field K] [LinearOrder K] in
/-- Operations with broadcasting and operations on each entry work entry by entry, e.g. `f(x, u) = x * u` and `LT(x) = x ** 2`. -/
theorem C104_pointwise (f : K → K → K) (g : K → K) : Pointwise2 (Tens.bin f) f ∧ Pointwise1 (fun a => .ok (a.map g)) g :=
  ⟨fun a b h => bin_pointwise a b h, fun a => ⟨a.map g, rfl, rfl, fun _ _ => rfl⟩⟩

/-- `C104_plain`, `C104_interp`: two batches of two matrices over a grid of three points. -/
example : IsArgmin (argmin1 : (Fin 3 → WithBot ℚ) → Fin 3) ∧ (2 : ℕ) ≤ 3 ∧
    (tensMs [fin2 hjbB, fin2 hjbB]).IsMs [fin2 hjbB, fin2 hjbB] ∧ (tensMs [fin2 hjbB, hjbM.VT]).IsMs [fin2 hjbB, hjbM.VT] :=
  ⟨fun v j => argmin1_le v j, by norm_num, tensMs_is _, tensMs_is _⟩

/-- `C104_interp`: the interpolated value of C42 is the entry `[0, 2, 2]` of the tensor. -/
example : (match tensHjbCombineInterp (fun _ => argmin1) (tensMs [fin2 (![![1, 0, 3], ![3, 2, 0], ![3, 3, 1]] : Fin 3 → Fin 3 → ℚ)])
      (tensMs [combineVInterp (fin2 ![![1, 0, 3], ![3, 2, 0], ![3, 3, 1]]) (fin2 ![![1, 0, 3], ![3, 2, 0], ![3, 3, 1]])]) with
    | .ok t => t.val [0, 2, 2]
    | .error _ => 0) = ((3 : ℚ) : WithBot ℚ) := by decide +kernel

/-- `C104_single`: one matrix with one entry. -/
example : (tensMs [fin2 fun _ _ : Fin 1 => (2 : ℚ)]).IsMs [fin2 fun _ _ : Fin 1 => (2 : ℚ)] ∧ [fin2 fun _ _ : Fin 1 => (2 : ℚ)] ≠ [] :=
  ⟨tensMs_is _, by simp⟩

/-- A solver object with running cost `u²`, drift `u - x` and terminal cost `x` on the grid `-1, 0, 1` with two blocks of three steps. -/
def hjbTens : HJB 3 ℚ := ⟨fun x u => u - x, fun _ u => u ^ 2, fun x => x, 1, 2, 3, ![-1, 0, 1]⟩

/-- `C104_symfd`, `C104_upwind`: the numpy passes complete and the grids are tensors. -/
example : Pointwise2 (Tens.bin fun x u => u - x) hjbTens.f ∧ Pointwise2 (Tens.bin fun _ u => u ^ 2) hjbTens.L ∧
    Pointwise1 (fun a => .ok (a.map fun x => x)) hjbTens.LT ∧ (tensV hjbTens.grid).IsV hjbTens.grid ∧
    (tensV (![-1, 1] : Fin 2 → ℚ)).IsV ![-1, 1] ∧ (∃ l, hjbTens.seqBackwardPassUpwind (n := 1) (![-1, 1] : Fin 2 → ℚ) = .ok l) ∧
    ∃ l, hjbTens.seqBackwardPassSymfd (n := 1) (![-1, 1] : Fin 2 → ℚ) = .ok l := by
  refine ⟨(C104_pointwise _ id).1, (C104_pointwise _ id).1, (C104_pointwise (fun a _ => a) _).2, tensV_is _, tensV_is _, ?_, ?_⟩
  · exact (C43_errors (n := 1) hjbTens ![-1, 1]).1.2 ⟨by decide, by decide, by decide +kernel⟩
  · exact (C43_errors (n := 1) hjbTens ![-1, 1]).2.1.2 ⟨by decide, by decide, by decide +kernel⟩

/-- `C104_upwind`: two entries of the tensor pass on this object with one step per block. -/
example : (match tensSeqBwPassUpwind (Tens.bin fun x u => u - x) (Tens.bin fun _ u => u ^ 2) (fun a => .ok (a.map fun x => x)) 1 2 1
      (tensV hjbTens.grid) (tensV (![-1, 1] : Fin 2 → ℚ)) with
    | .ok t => decide (t.shape = [3, 3]) && decide (t.val [0, 1] = 1 / 4) && decide (t.val [1, 2] = 1 / 2)
    | .error _ => false) = true := by decide +kernel

/-- `C104_symfd` (errors): a repeated grid point at the start. -/
example : ({ hjbTens with grid := ![1, 1, 2] } : HJB 3 ℚ).seqBackwardPassSymfd (n := 1) (![-1, 1] : Fin 2 → ℚ) = .error .notFinite := by
  unfold HJB.seqBackwardPassSymfd HJB.dt
  simp [hjbTens]
  rfl

/-- `C104_few`: a grid with one point. -/
example : (1 : ℕ) < 2 ∧ (tensV (![5] : Fin 1 → ℚ)).shape = [1] := ⟨by decide, rfl⟩

/-- `C104_stable`: the object of C43. -/
example : UpwindOK (n := 1) hjbIn hjbU ∧ (∀ i, |hjbIn.LT (hjbIn.grid i)| ≤ 1) ∧ (∀ i u, |hjbIn.L (hjbIn.grid i) (hjbU u)| ≤ 1) ∧
    Pointwise2 (Tens.bin fun x _ => -x) hjbIn.f ∧ Pointwise2 (Tens.bin fun _ u => u) hjbIn.L ∧
    Pointwise1 (fun a => .ok (a.map fun x => x)) hjbIn.LT ∧ (tensV hjbIn.grid).IsV hjbIn.grid ∧ (tensV hjbU).IsV hjbU := by
  refine ⟨hjbIn_ok, ?_, ?_, (C104_pointwise _ id).1, (C104_pointwise _ id).1, (C104_pointwise (fun a _ => a) _).2, tensV_is _, tensV_is _⟩
  · intro i; fin_cases i <;> norm_num [hjbIn]
  · intro i u; fin_cases u <;> norm_num [hjbIn, hjbU]

/-- `C104_assoc`, `C104_parallel`: the object of C42 with four blocks, an associative scan, and the same object with one block. -/
example : (∀ α, IsAssocScan ((fun _ op l => scanVals op l : AScan) α)) ∧ (2 : ℕ) ≤ 3 ∧ hjbM.blocks = 4 ∧
    Pointwise1 (fun a => .ok (a.map fun x => 2 - x / 2 - 3 / 2 * x ^ 2)) hjbM.LT ∧ (tensV hjbM.grid).IsV hjbM.grid ∧
    (tensM (fin2 hjbB)).IsM (fin2 hjbB) ∧ ({ hjbM with blocks := 1 } : HJB 3 ℚ).blocks ≤ 1 :=
  ⟨fun _ => C17_scan_example, by norm_num, rfl, (C104_pointwise (fun a _ => a) _).2, tensV_is _, tensM_is _, le_rfl⟩

end Verif
