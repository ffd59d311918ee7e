import Verif.Proof.CLQTTFPar
import Verif.Props.CLQT
import Verif.Props.LQTTF

/-! Property C71: the continuous-time tracker in TensorFlow. -/

namespace Verif

open Matrix

variable {n m : ℕ} {K : Type} [Field K] [LinearOrder K]

/-- C71 (defaults): the default arguments of the TensorFlow functions are the defaults of the numpy methods. -/
theorem C71_defaults [CharZero K] (P : CLQT n m K) (blocks steps : ℕ) (forward : Bool) (hB : blocks ≠ 0) (hs : steps ≠ 0) :
    P.seqBackwardPass steps = P.seqBackwardPass steps (some (P.tfSeqDefaults steps).1) (some (P.tfSeqDefaults steps).2.1)
      (some (P.tfSeqDefaults steps).2.2.1) (some (P.tfSeqDefaults steps).2.2.2) ∧
    P.parBackwardPass blocks steps none none forward =
      P.parBackwardPass blocks steps (some (P.tfParDefaults blocks steps).1) (some (P.tfParDefaults blocks steps).2.1) forward := by
  have hs' : (steps : K) ≠ 0 := Nat.cast_ne_zero.2 hs
  have hB' : (blocks : K) ≠ 0 := Nat.cast_ne_zero.2 hB
  have h1 : P.dtSeq steps none = P.dtSeq steps (some (P.T / steps)) := pyDiv_ok.2 ⟨hs', rfl⟩
  have h2 : P.dtPar blocks steps none = .ok (P.T / ((steps * blocks : ℕ) : K)) := by
    unfold CLQT.dtPar
    simp only
    rw [show pyDiv P.T (steps : K) = .ok (P.T / steps) from pyDiv_ok.2 ⟨hs', rfl⟩]
    show pyDiv (P.T / steps) (blocks : K) = _
    rw [pyDiv_ok]
    refine ⟨hB', ?_⟩
    push_cast
    rw [div_div]
  constructor
  · unfold CLQT.seqBackwardPass CLQT.tfSeqDefaults
    simp only [h1, Option.getD_none, Option.getD_some, P.tfTerm.1, P.tfTerm.2]
  · unfold CLQT.parBackwardPass CLQT.tfParDefaults
    simp only [h2, Option.getD_none, Option.getD_some, P.dtPar_some]

section Ordered
variable [IsStrictOrderedRing K]

/-- C71 (sequential backward): for symmetric `U` the TensorFlow pass returns the result of the numpy pass whenever that completes;
for positive definite `U` they complete together. -/
theorem C71_seq_backward (P : CLQT n m K) (hU : ∀ t, (P.U t)ᵀ = P.U t) (steps : ℕ) (dt t0 : K) (ST : Matrix (Fin n) (Fin n) K)
    (vT : Fin n → K) (r : BwResult n m K) :
    (P.seqBackwardPass steps (some dt) (some t0) (some ST) (some vT) = .ok r → P.tfSeqBackward steps dt t0 ST vT = .ok r) ∧
    ((∀ t, IsPD (P.U t)) →
      (P.tfSeqBackward steps dt t0 ST vT = .ok r ↔ P.seqBackwardPass steps (some dt) (some t0) (some ST) (some vT) = .ok r)) := by
  refine ⟨fun h => ?_, fun hpd => ?_⟩
  · obtain ⟨_, h1, rfl⟩ := (CLQT.solvRel_sym hU).seqBackward steps dt t0 ST vT r h
    exact h1
  · exact (PyRel.both (fun d => (CLQT.solvRel_pd (fun t => ⟨hU t, hpd t⟩) d).seqBackward steps dt t0 ST vT) r).symm

omit [IsStrictOrderedRing K] in
/-- C71 (sequential forward): on at least one gain the TensorFlow pass returns the states and controls of the numpy pass, with and
without zero-order hold. -/
theorem C71_seq_forward (P : CLQT n m K) (x0 : Fin n → K) (Kxs : List (Matrix (Fin m) (Fin n) K)) (ds : List (Fin m → K))
    (hl : Kxs.length = ds.length) (h0 : ds ≠ []) (dt t0 : K) (u_zoh : Bool) (us : List (Fin m → K)) (xs : List (Fin n → K)) :
    P.tfSeqForward x0 Kxs ds dt t0 u_zoh = .ok (xs, us) ↔ P.seqForwardPass x0 Kxs ds (some dt) (some t0) u_zoh = .ok (us, xs) := by
  constructor
  · intro h
    obtain ⟨⟨a, b⟩, h1, h2⟩ := P.tfSeqForward_rel false u_zoh x0 dt t0 hl h0 _ h
    obtain ⟨rfl, rfl⟩ := Prod.mk.inj h2
    exact h1
  · intro h
    obtain ⟨⟨a, b⟩, h1, h2⟩ := P.tfSeqForward_rel true u_zoh x0 dt t0 hl h0 _ h
    obtain ⟨rfl, rfl⟩ := Prod.mk.inj h2
    exact h1

/-- C71 (sequential forward-backward): as for the backward pass. -/
theorem C71_seq_fwdbwd (P : CLQT n m K) (hU : ∀ t, (P.U t)ᵀ = P.U t) (steps : ℕ) (dt t0 : K) (x0 b0 : Fin n → K)
    (A0 C0 : Matrix (Fin n) (Fin n) K) (r : AbcResult n K) :
    (P.seqFwdBwdPass x0 steps (some dt) (some t0) (some A0) (some b0) (some C0) = .ok r →
      P.tfSeqFwdBwd steps dt t0 A0 b0 C0 = .ok r) ∧
    ((∀ t, IsPD (P.U t)) → (P.tfSeqFwdBwd steps dt t0 A0 b0 C0 = .ok r ↔
      P.seqFwdBwdPass x0 steps (some dt) (some t0) (some A0) (some b0) (some C0) = .ok r)) := by
  refine ⟨fun h => ?_, fun hpd => ?_⟩
  · obtain ⟨_, h1, rfl⟩ := (CLQT.solvRel_sym hU).seqFwdBwd steps dt t0 x0 A0 b0 C0 r h
    exact h1
  · exact (PyRel.both (fun d => (CLQT.solvRel_pd (fun t => ⟨hU t, hpd t⟩) d).seqFwdBwd steps dt t0 x0 A0 b0 C0) r).symm

omit [IsStrictOrderedRing K] in
/-- C71 (combination): on results of passes over the same `N` steps the combinations agree and complete together. -/
theorem C71_combine (N : ℕ) (bw : BwResult n m K) (fw : AbcResult n K) (h1 : bw.Kx_list.length = N) (h2 : bw.d_list.length = N)
    (h3 : bw.S_list.length = N + 1) (h4 : bw.v_list.length = N + 1) (h5 : fw.A_list.length = N + 1) (h6 : fw.b_list.length = N + 1)
    (h7 : fw.C_list.length = N + 1) (us : List (Fin m → K)) (xs : List (Fin n → K)) :
    clqtTfCombine bw fw = .ok (xs, us) ↔ CLQT.combineForwardBackward bw fw = .ok (us, xs) := by
  obtain ⟨σ, κ, rfl⟩ := exists_bwLists h1 h2 h3 h4
  obtain ⟨α, rfl⟩ : ∃ α, fw = abcLists (N + 1) α := by
    haveI : Inhabited (Fin n → K) := ⟨0⟩
    haveI : Inhabited (Matrix (Fin n) (Fin n) K) := ⟨0⟩
    obtain ⟨a, ha⟩ := exists_seq fw.A_list
    obtain ⟨b, hb⟩ := exists_seq fw.b_list
    obtain ⟨c, hc⟩ := exists_seq fw.C_list
    rw [h5] at ha
    rw [h6] at hb
    rw [h7] at hc
    refine ⟨fun k => (a k, b k, c k), ?_⟩
    cases fw
    simp only at ha hb hc
    simp only [abcLists, ha, hb, hc]
  rw [combine_tf_iff, combine_np_iff]

/-- C71 (parallel backward): with the default terminal value and any associative scan, if both parallel passes complete, their
results are equal, for both ways of computing the block elements. -/
theorem C71_par_backward (P : CLQT n m K) (hU : ∀ t, (P.U t)ᵀ = P.U t) (hXT : P.XTᵀ = P.XT)
    (scan : (Elem n K → Elem n K → Py (Elem n K)) → List (Elem n K) → Py (List (Elem n K))) (hsc : IsAssocScan scan)
    (blocks steps : ℕ) (hs : 0 < steps) (dt t0 : K) (forward : Bool) (r r' : BwResult n m K)
    (h : P.parBackwardPass blocks steps (some dt) (some t0) forward = .ok r)
    (h' : P.tfParBackward scan blocks steps dt t0 (P.tfParDefaults blocks steps).2.2.1 (P.tfParDefaults blocks steps).2.2.2 forward =
      .ok r') : r' = r :=
  CLQT.tfParBackward_eq (CLQT.solvRel_sym hU) hXT hsc hs h h'

/-- C71 (completion): with positive definite `U` and semidefinite terminal weight, if the `C` and `J` of the block elements are
semidefinite, then both parallel backward passes complete, with equal results. -/
theorem C71_par_complete (P : CLQT n m K) (hU : ∀ t, (P.U t)ᵀ = P.U t ∧ IsPD (P.U t)) (hXT : IsPSD P.XT)
    (scan : (Elem n K → Elem n K → Py (Elem n K)) → List (Elem n K) → Py (List (Elem n K))) (hsc : IsAssocScan scan)
    (blocks steps : ℕ) (hs : 0 < steps) (dt t0 : K) (forward : Bool)
    (hE : ∀ q < blocks, ∀ e, P.blockElem forward steps dt t0 q = .ok e → IsPSD e.C ∧ IsPSD e.J) :
    ∃ r, P.parBackwardPass blocks steps (some dt) (some t0) forward = .ok r ∧
      P.tfParBackward scan blocks steps dt t0 (P.tfParDefaults blocks steps).2.2.1 (P.tfParDefaults blocks steps).2.2.2 forward =
        .ok r :=
  CLQT.tfParBackward_complete hU hXT hsc hs hE

omit [IsStrictOrderedRing K] in
/-- C71 (parallel forward): on `blocks * steps` gains the parallel TensorFlow pass, with any associative scan, returns the result of
the parallel numpy pass, and completes if and only if that does. -/
theorem C71_par_forward (P : CLQT n m K)
    (scan : (Matrix (Fin n) (Fin n) K × (Fin n → K) → Matrix (Fin n) (Fin n) K × (Fin n → K) →
      Py (Matrix (Fin n) (Fin n) K × (Fin n → K))) → List (Matrix (Fin n) (Fin n) K × (Fin n → K)) →
      Py (List (Matrix (Fin n) (Fin n) K × (Fin n → K)))) (hsc : IsAssocScan scan) (x0 : Fin n → K)
    (Kxs : List (Matrix (Fin m) (Fin n) K)) (ds : List (Fin m → K)) (blocks steps : ℕ) (hs : 0 < steps)
    (hK : Kxs.length = blocks * steps) (hd : ds.length = blocks * steps) (dt t0 : K) (forward u_zoh : Bool)
    (us : List (Fin m → K)) (xs : List (Fin n → K)) :
    P.tfParForward scan blocks steps x0 Kxs ds dt t0 forward u_zoh = .ok (xs, us) ↔
      P.parForwardPass x0 Kxs ds blocks steps (some dt) (some t0) forward u_zoh = .ok (us, xs) := by
  obtain ⟨κ, rfl, rfl⟩ := exists_gains hK hd
  constructor
  · intro h
    obtain ⟨⟨a, b⟩, h1, h2⟩ := P.tfParForward_rel false hsc blocks hs κ x0 dt t0 forward u_zoh _ h
    obtain ⟨rfl, rfl⟩ := Prod.mk.inj h2
    exact h1
  · intro h
    obtain ⟨⟨a, b⟩, h1, h2⟩ := P.tfParForward_rel true hsc blocks hs κ x0 dt t0 forward u_zoh _ h
    obtain ⟨rfl, rfl⟩ := Prod.mk.inj h2
    exact h1

/-- C71 (forward agreement): without zero-order hold the parallel and the sequential TensorFlow passes agree. -/
theorem C71_forward_same (P : CLQT n m K)
    (scan : (Matrix (Fin n) (Fin n) K × (Fin n → K) → Matrix (Fin n) (Fin n) K × (Fin n → K) →
      Py (Matrix (Fin n) (Fin n) K × (Fin n → K))) → List (Matrix (Fin n) (Fin n) K × (Fin n → K)) →
      Py (List (Matrix (Fin n) (Fin n) K × (Fin n → K)))) (hsc : IsAssocScan scan) (x0 : Fin n → K)
    (Kxs : List (Matrix (Fin m) (Fin n) K)) (ds : List (Fin m → K)) (blocks steps : ℕ) (hB : 0 < blocks) (hs : 0 < steps)
    (hK : Kxs.length = blocks * steps) (hd : ds.length = blocks * steps) (dt t0 : K) (forward : Bool) :
    ∃ us xs, P.tfParForward scan blocks steps x0 Kxs ds dt t0 forward false = .ok (xs, us) ∧
      P.tfSeqForward x0 Kxs ds dt t0 false = .ok (xs, us) := by
  obtain ⟨us, xs, h, -⟩ := (C35_completes P x0 Kxs ds blocks steps (some t0) forward hK hd).1 (some dt) (.inl (by simp))
  refine ⟨us, xs, (C71_par_forward P scan hsc x0 Kxs ds blocks steps hs hK hd dt t0 forward false us xs).2 h, ?_⟩
  have hne : ds ≠ [] := by
    rintro rfl
    have := Nat.mul_pos hB hs
    simp at hd
    omega
  rw [C71_seq_forward P x0 Kxs ds (hK.trans hd.symm) hne, ← C35_eq P x0 Kxs ds blocks steps (some dt) (some t0) forward hK hd]
  exact h

/-- C71 (parallel forward-backward): for a backward pass over `blocks * steps` steps, if both parallel passes complete, their
results are equal. -/
theorem C71_par_fwdbwd (P : CLQT n m K) (hU : ∀ t, (P.U t)ᵀ = P.U t)
    (scan : (Elem n K → Elem n K → Py (Elem n K)) → List (Elem n K) → Py (List (Elem n K))) (hsc : IsAssocScan scan)
    (blocks steps : ℕ) (hs : 0 < steps) (dt t0 : K) (forward : Bool) (x0 : Fin n → K) (bw : BwResult n m K)
    (h1 : bw.Kx_list.length = blocks * steps) (h2 : bw.d_list.length = blocks * steps)
    (h3 : bw.S_list.length = blocks * steps + 1) (h4 : bw.v_list.length = blocks * steps + 1)
    (us us' : List (Fin m → K)) (xs xs' : List (Fin n → K))
    (h : P.parFwdBwdPass x0 bw blocks steps (some dt) (some t0) forward = .ok (us, xs))
    (h' : P.tfParFwdBwd scan blocks steps x0 bw dt t0 forward = .ok (xs', us')) : us' = us ∧ xs' = xs := by
  have := CLQT.tfParFwdBwd_eq (CLQT.solvRel_sym hU) hsc hs h1 h2 h3 h4 h h'
  obtain ⟨rfl, rfl⟩ := Prod.mk.inj this
  exact ⟨rfl, rfl⟩

omit [IsStrictOrderedRing K] in
/-- C71 (errors): without steps the TensorFlow block elements raise an error where numpy has the identity element; a wrong number of
gains is an error in both parallel forward passes. -/
theorem C71_errors (P : CLQT n m K) (forward : Bool) (dt t0 : K) :
    (P.tfBlockElem forward 0 dt t0 = .error .indexError ∧ P.blockElem forward 0 dt t0 0 = .ok ⟨1, 0, 0, 0, 0⟩) ∧
    ∀ (scan : (Matrix (Fin n) (Fin n) K × (Fin n → K) → Matrix (Fin n) (Fin n) K × (Fin n → K) →
      Py (Matrix (Fin n) (Fin n) K × (Fin n → K))) → List (Matrix (Fin n) (Fin n) K × (Fin n → K)) →
      Py (List (Matrix (Fin n) (Fin n) K × (Fin n → K)))) (x0 : Fin n → K)
      (Kxs : List (Matrix (Fin m) (Fin n) K)) (ds : List (Fin m → K)) (blocks steps : ℕ) (u_zoh : Bool),
      Kxs.length ≠ blocks * steps →
      P.tfParForward scan blocks steps x0 Kxs ds dt t0 forward u_zoh = .error .valueError ∧
      P.parForwardPass x0 Kxs ds blocks steps (some dt) (some t0) forward u_zoh = .error .valueError := by
  refine ⟨?_, fun scan x0 Kxs ds blocks steps u_zoh hK => ⟨?_, C35_errors P x0 Kxs ds blocks steps dt (some t0) forward u_zoh hK⟩⟩
  · cases forward <;> exact ⟨rfl, rfl⟩
  · unfold CLQT.tfParForward CLQT.tfParForwardInit tfReshape
    rw [if_neg hK]
    rfl

end Ordered

/-! ### Witness and examples -/

/-- Scalar problem with `U = -1`. -/
def exCNeg : CLQT 1 1 ℚ := { exGain with U := fun _ => -1 }

/-- C71 (indefinite): with `U = -1` the TensorFlow backward pass completes and the numpy pass raises `LinAlgError`. -/
theorem C71_indefinite : exCNeg.seqBackwardPass 1 = .error .linAlgError ∧ ∃ r, exCNeg.tfSeqBackward 1 1 0 1 0 = .ok r := by
  constructor
  · have h : (match exCNeg.seqBackwardPass 1 with
      | .ok _ => false
      | .error e => decide (e = .linAlgError)) = true := by decide +kernel
    revert h
    cases exCNeg.seqBackwardPass 1 with
    | error e => intro h; rw [of_decide_eq_true h]
    | ok r => simp
  · have h : (match exCNeg.tfSeqBackward 1 1 0 1 0 with
      | .ok _ => true
      | .error _ => false) = true := by decide +kernel
    revert h
    cases exCNeg.tfSeqBackward 1 1 0 1 0 with
    | error e => simp
    | ok r => exact fun _ => ⟨r, rfl⟩

theorem exGain_U (t : ℚ) : (exGain.U t)ᵀ = exGain.U t := Matrix.transpose_one

example : exCL.seqBackwardPass 3 = exCL.seqBackwardPass 3 (some 2) (some 0) (some !![3, 0; 0, 0]) (some ![6, 0]) := by
  refine ((C71_defaults exCL 1 3 true (by decide) (by decide)).1).trans ?_
  have h : exCL.tfSeqDefaults 3 = (2, 0, !![3, 0; 0, 0], ![6, 0]) := by decide +kernel
  rw [h]

example : ∃ r, exCL.seqBackwardPass 2 (some 3) (some 0) (some !![3, 0; 0, 0]) (some ![6, 0]) = .ok r ∧
    exCL.tfSeqBackward 2 3 0 !![3, 0; 0, 0] ![6, 0] = .ok r := by
  obtain ⟨r, hr⟩ := (CLQT.reg_of_pd exCL_U).seqBackward 2 3 (some 0) (some !![3, 0; 0, 0]) (some ![6, 0])
  exact ⟨r, hr, (C71_seq_backward exCL (fun t => (exCL_U t).1) 2 3 0 _ _ r).1 hr⟩

example : ∃ us xs, exCL.tfSeqForward ![1, 2] [!![1, 0], !![0, 2]] [![1], ![0]] 1 0 false = .ok (xs, us) ∧
    exCL.tfParForward scanVals 2 1 ![1, 2] [!![1, 0], !![0, 2]] [![1], ![0]] 1 0 true false = .ok (xs, us) := by
  obtain ⟨us, xs, h1, h2⟩ := C71_forward_same exCL scanVals C17_scan_example ![1, 2] [!![1, 0], !![0, 2]] [![1], ![0]] 2 1
    (by decide) (by decide) rfl rfl 1 0 true
  exact ⟨us, xs, h2, h1⟩

example : ∃ r, exCL.seqFwdBwdPass ![1, 2] 2 (some 3) (some 0) (some 0) (some ![1, 2]) (some 0) = .ok r ∧
    exCL.tfSeqFwdBwd 2 3 0 0 ![1, 2] 0 = .ok r := by
  have h : (match exCL.seqFwdBwdPass ![1, 2] 2 (some 3) (some 0) (some 0) (some ![1, 2]) (some 0) with
    | .ok _ => true
    | .error _ => false) = true := by decide +kernel
  cases hr : exCL.seqFwdBwdPass ![1, 2] 2 (some 3) (some 0) (some 0) (some ![1, 2]) (some 0) with
  | error e => rw [hr] at h; simp at h
  | ok r => exact ⟨r, rfl, (C71_seq_fwdbwd exCL (fun t => (exCL_U t).1) 2 3 0 _ _ _ _ r).1 hr⟩

/-- Results of one backward and one forward step. -/
def exBw71 : BwResult 1 1 ℚ := ⟨[!![1 / 2]], [0], [!![1 / 2], 1], [0, 0]⟩

/-- Results of one forward step. -/
def exAbc71 : AbcResult 1 ℚ := ⟨[0, 0], [fun _ => 1, fun _ => 1], [0, 1]⟩

example : CLQT.combineForwardBackward exBw71 exAbc71 = .ok ([fun _ => -1 / 2], [fun _ => 1, fun _ => 1 / 2]) ∧
    clqtTfCombine exBw71 exAbc71 = .ok ([fun _ => 1, fun _ => 1 / 2], [fun _ => -1 / 2]) := by
  have h : (match CLQT.combineForwardBackward exBw71 exAbc71 with
    | .ok r => decide (r = ([fun _ => -1 / 2], [fun _ => 1, fun _ => 1 / 2]))
    | .error _ => false) = true := by decide +kernel
  have h' : CLQT.combineForwardBackward exBw71 exAbc71 = .ok ([fun _ => -1 / 2], [fun _ => 1, fun _ => 1 / 2]) := by
    revert h
    cases CLQT.combineForwardBackward exBw71 exAbc71 with
    | error e => simp
    | ok r => intro h; rw [of_decide_eq_true h]
  exact ⟨h', (C71_combine 1 _ _ rfl rfl rfl rfl rfl rfl rfl _ _).2 h'⟩

example : ∃ r, exGain.parBackwardPass 2 1 (some (1 / 2)) (some 0) true = .ok r ∧
    exGain.tfParBackward scanVals 2 1 (1 / 2) 0 1 0 true = .ok r := by
  have h1 : (match exGain.parBackwardPass 2 1 (some (1 / 2)) (some 0) true with | .ok _ => true | .error _ => false) = true := by
    decide +kernel
  have h2 : (match exGain.tfParBackward scanVals 2 1 (1 / 2) 0 1 0 true with | .ok _ => true | .error _ => false) = true := by
    decide +kernel
  have hd : exGain.tfParDefaults 2 1 = (1 / 2, 0, 1, 0) := by decide +kernel
  cases hr : exGain.parBackwardPass 2 1 (some (1 / 2)) (some 0) true with
  | error e => rw [hr] at h1; simp at h1
  | ok r =>
    cases hr' : exGain.tfParBackward scanVals 2 1 (1 / 2) 0 1 0 true with
    | error e => rw [hr'] at h2; simp at h2
    | ok r' =>
      have := C71_par_backward exGain exGain_U Matrix.transpose_one scanVals C17_scan_example 2 1 (by decide) (1 / 2) 0 true r r' hr
        (by rw [hd]; exact hr')
      exact ⟨r, rfl, by rw [this]⟩

example : ∃ us xs, exInt.parForwardPass (fun _ => 1) [1, 1] [0, 0] 2 1 (some 1) (some 0) true true = .ok (us, xs) ∧
    exInt.tfParForward scanVals 2 1 (fun _ => 1) [1, 1] [0, 0] 1 0 true true = .ok (xs, us) := by
  have h : (match exInt.parForwardPass (fun _ => 1) [1, 1] [0, 0] 2 1 (some 1) (some 0) true true with
    | .ok _ => true
    | .error _ => false) = true := by decide +kernel
  cases hr : exInt.parForwardPass (fun _ => 1) [1, 1] [0, 0] 2 1 (some 1) (some 0) true true with
  | error e => rw [hr] at h; simp at h
  | ok r => exact ⟨r.1, r.2, rfl, (C71_par_forward exInt scanVals C17_scan_example _ _ _ 2 1 (by decide) rfl rfl 1 0 true true _ _).2 hr⟩

/-- Backward pass of `exGain` over two steps of length 1/2. -/
def exBwGain : BwResult 1 1 ℚ := ⟨[!![1 / 2], !![2 / 3]], [0, 0], [!![1 / 2], !![2 / 3], 1], [0, 0, 0]⟩

example : ∃ us xs, exGain.parFwdBwdPass (fun _ => 1) exBwGain 2 1 (some (1 / 2)) (some 0) true = .ok (us, xs) ∧
    exGain.tfParFwdBwd scanVals 2 1 (fun _ => 1) exBwGain (1 / 2) 0 true = .ok (xs, us) := by
  have h1 : (match exGain.parFwdBwdPass (fun _ => 1) exBwGain 2 1 (some (1 / 2)) (some 0) true with
    | .ok _ => true | .error _ => false) = true := by decide +kernel
  have h2 : (match exGain.tfParFwdBwd scanVals 2 1 (fun _ => 1) exBwGain (1 / 2) 0 true with
    | .ok _ => true | .error _ => false) = true := by decide +kernel
  cases hr : exGain.parFwdBwdPass (fun _ => 1) exBwGain 2 1 (some (1 / 2)) (some 0) true with
  | error e => rw [hr] at h1; simp at h1
  | ok r =>
    cases hr' : exGain.tfParFwdBwd scanVals 2 1 (fun _ => 1) exBwGain (1 / 2) 0 true with
    | error e => rw [hr'] at h2; simp at h2
    | ok r' =>
      obtain ⟨e1, e2⟩ := C71_par_fwdbwd exGain exGain_U scanVals C17_scan_example 2 1 (by decide) (1 / 2) 0 true (fun _ => 1) exBwGain
        rfl rfl rfl rfl r.1 r'.2 r.2 r'.1 hr hr'
      exact ⟨r.1, r.2, rfl, by rw [← e1, ← e2]⟩

/-- In `exPr` there is no control and no running cost, so the block elements have `C = 0` and `J = 0`. -/
example : ∃ r, exPr.parBackwardPass 2 1 (some 1) (some 0) false = .ok r ∧
    exPr.tfParBackward scanVals 2 1 1 0 (exPr.tfParDefaults 2 1).2.2.1 (exPr.tfParDefaults 2 1).2.2.2 false = .ok r := by
  refine C71_par_complete exPr exPr_U ?_ scanVals C17_scan_example 2 1 (by decide) 1 0 false ?_
  · have h1 : IsPSD (1 : Matrix (Fin 1) (Fin 1) ℚ) := ⟨Matrix.transpose_one, fun x => by
      rw [Matrix.one_mulVec]
      exact Finset.sum_nonneg fun i _ => mul_self_nonneg _⟩
    exact h1
  · have key : ∀ q : Fin 2, (match exPr.blockElem false 1 1 0 q with
      | .ok e => decide (e.C = 0 ∧ e.J = 0)
      | .error _ => false) = true := by decide +kernel
    intro q hq e he
    have h := key ⟨q, hq⟩
    simp only at h
    rw [he] at h
    obtain ⟨hC, hJ⟩ := of_decide_eq_true h
    have hz : IsPSD (0 : Matrix (Fin 1) (Fin 1) ℚ) := ⟨Matrix.transpose_zero, fun x => by simp⟩
    rw [hC, hJ]
    exact ⟨hz, hz⟩

example : exCL.tfBlockElem true 0 1 0 = .error .indexError := (C71_errors exCL true 1 0).1.1

end Verif
