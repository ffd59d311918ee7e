import Verif.Model.PararealTF
import Verif.Proof.CLQTTFPar
import Verif.Proof.PararealAbc

/-! Parareal in TensorFlow: comparison with the numpy class. -/

namespace Verif

open Matrix

/-! ### Generic lemmas -/

section Generic
variable {α β ι : Type}

theorem PyRel.fwd {R : α → β → Prop} {d : Bool} {a : Py α} {b : Py β} (h : PyRel d R a b) (hd : d = true) {x : α} (hx : a = .ok x) :
    ∃ y, b = .ok y ∧ R x y := by
  subst hd
  exact h x hx

theorem PyRel.bwd {R : α → β → Prop} {d : Bool} {a : Py α} {b : Py β} (h : PyRel d R a b) (hd : d = false) {y : β} (hy : b = .ok y) :
    ∃ x, a = .ok x ∧ R x y := by
  subst hd
  exact h y hy

theorem PyRel.fwdEq {d : Bool} {a b : Py α} (h : PyRel d Eq a b) (hd : d = true) {x : α} (hx : a = .ok x) : b = .ok x := by
  obtain ⟨_, h, rfl⟩ := h.fwd hd hx
  exact h

theorem PyRel.bwdEq {d : Bool} {a b : Py α} (h : PyRel d Eq a b) (hd : d = false) {x : α} (hx : b = .ok x) : a = .ok x := by
  obtain ⟨_, h, rfl⟩ := h.bwd hd hx
  exact h

/-- Comparison of computations characterised by the same kind of data. -/
theorem PyRel.of_char {d : Bool} {R : α → β → Prop} {a : Py α} {b : Py β} {A B : ι → Prop} {g : ι → α} {g' : ι → β}
    (ha : ∀ r, a = .ok r ↔ ∃ x, A x ∧ r = g x) (hb : ∀ r, b = .ok r ↔ ∃ x, B x ∧ r = g' x)
    (h : d = true → ∀ x, A x → B x) (h' : d = false → ∀ x, B x → A x) (hR : ∀ x, R (g x) (g' x)) : PyRel d R a b := by
  cases d with
  | true =>
    intro r hr
    obtain ⟨x, hx, rfl⟩ := (ha r).1 hr
    exact ⟨_, (hb _).2 ⟨x, h rfl x hx, rfl⟩, hR x⟩
  | false =>
    intro r hr
    obtain ⟨x, hx, rfl⟩ := (hb r).1 hr
    exact ⟨_, (ha _).2 ⟨x, h' rfl x hx, rfl⟩, hR x⟩

theorem tfScanRev_ok [Inhabited β] (body : β → α → Py β) (b0 : β) : ∀ (N : ℕ) (a : ℕ → α) {r : List β × β},
    tfScanRev body b0 ((List.range N).map a) = .ok r ↔
    ∃ s : ℕ → β, s N = b0 ∧ (∀ k < N, body (s (k + 1)) (a k) = .ok (s k)) ∧ r = ((List.range N).map s, s 0)
  | 0, a, r => by
    simp only [List.range_zero, List.map_nil, tfScanRev, Except.ok.injEq]
    constructor
    · rintro rfl
      exact ⟨fun _ => b0, rfl, fun k hk => absurd hk (by omega), rfl⟩
    · rintro ⟨s, h, -, rfl⟩
      rw [h]
  | N + 1, a, r => by
    rw [List.range_succ_eq_map, List.map_cons, List.map_map, tfScanRev]
    simp only [bind_ok, pure, Except.pure, Except.ok.injEq]
    have e : (List.range N).map (a ∘ Nat.succ) = (List.range N).map fun k => a (k + 1) := rfl
    rw [e]
    constructor
    · rintro ⟨r1, h1, b, hb, rfl⟩
      obtain ⟨s, h2, h3, rfl⟩ := (tfScanRev_ok body b0 N (fun k => a (k + 1))).1 h1
      refine ⟨fun k => match k with | 0 => b | k + 1 => s k, h2, fun k hk => ?_, ?_⟩
      · cases k with
        | zero => exact hb
        | succ k => exact h3 k (by omega)
      · simp [Function.comp_def]
    · rintro ⟨s, h2, h3, rfl⟩
      refine ⟨_, (tfScanRev_ok body b0 N (fun k => a (k + 1))).2 ⟨fun k => s (k + 1), h2, fun k hk => h3 (k + 1) (by omega), rfl⟩, s 0,
        h3 0 (by omega), ?_⟩
      simp [Function.comp_def]

theorem tfScanFwdM_ok [Inhabited β] (body : β → α → Py β) : ∀ (N : ℕ) (b0 : β) (a : ℕ → α) {r : List β},
    tfScanFwdM body b0 ((List.range N).map a) = .ok r ↔
    ∃ s : ℕ → β, s 0 = b0 ∧ (∀ k < N, body (s k) (a k) = .ok (s (k + 1))) ∧ r = (List.range N).map fun k => s (k + 1)
  | 0, b0, a, r => by
    simp only [List.range_zero, List.map_nil, tfScanFwdM, Except.ok.injEq]
    constructor
    · rintro rfl
      exact ⟨fun _ => b0, rfl, fun k hk => absurd hk (by omega), rfl⟩
    · rintro ⟨s, h, -, rfl⟩
      rfl
  | N + 1, b0, a, r => by
    rw [List.range_succ_eq_map, List.map_cons, List.map_map, tfScanFwdM]
    simp only [bind_ok, pure, Except.pure, Except.ok.injEq]
    have e : (List.range N).map (a ∘ Nat.succ) = (List.range N).map fun k => a (k + 1) := rfl
    rw [e]
    constructor
    · rintro ⟨b, hb, r1, h1, rfl⟩
      obtain ⟨s, h2, h3, rfl⟩ := (tfScanFwdM_ok body N b (fun k => a (k + 1))).1 h1
      refine ⟨fun k => match k with | 0 => b0 | k + 1 => s k, rfl, fun k hk => ?_, ?_⟩
      · cases k with
        | zero => simp only [h2]; exact hb
        | succ k => exact h3 k (by omega)
      · simp [h2, Function.comp_def]
    · rintro ⟨s, rfl, h3, rfl⟩
      refine ⟨s 1, h3 0 (by omega), _, (tfScanFwdM_ok body N (s 1) (fun k => a (k + 1))).2 ⟨fun k => s (k + 1), rfl,
        fun k hk => h3 (k + 1) (by omega), rfl⟩, ?_⟩
      simp [Function.comp_def]

end Generic

variable {n m : ℕ} {K : Type} [Field K] [LinearOrder K] [IsStrictOrderedRing K]
variable {P : CLQT n m K} {d : Bool}

theorem pr_div {T : K} {B : ℕ} (hB : B ≠ 0) : pyDiv T (B : K) = .ok (T / B) := pyDiv_ok.2 ⟨Nat.cast_ne_zero.2 hB, rfl⟩

theorem pr_div' (T : K) (B steps : ℕ) : T / ((B * steps : ℕ) : K) = T / B / steps := by
  push_cast
  rw [div_div]

/-! ### Backward pass -/

/-- Backward propagation with the TensorFlow pass. -/
def CLQT.tfBwProp (P : CLQT n m K) (steps : ℕ) (dt t1 : K) (s : CVal n K) : Py (CVal n K) := do
  let r ← P.tfSeqBackward steps dt t1 s.1 s.2
  return (← pyGet r.S_list 0, ← pyGet r.v_list 0)

omit [IsStrictOrderedRing K] in
theorem CLQT.SolvRel.bwProp (h : P.SolvRel d) (steps : ℕ) (dt t1 : K) (s : CVal n K) :
    PyRel d Eq (P.bwProp steps dt t1 s) (P.tfBwProp steps dt t1 s) := by
  unfold CLQT.bwProp CLQT.tfBwProp
  exact (h.seqBackward steps dt t1 s.1 s.2).bindEq fun r => PyRel.refl _

omit [IsStrictOrderedRing K] in
theorem cv_tail (B : ℕ) (s : ℕ → CVal n K) : (cvLists (B + 1) s).1.tail.zip (cvLists (B + 1) s).2.tail =
    (List.range B).map fun k => s (k + 1) := by
  unfold cvLists
  rw [tail_seq, tail_seq, zip_seq]

omit [IsStrictOrderedRing K] in
theorem cv_dropLast (B : ℕ) (s : ℕ → CVal n K) : (cvLists (B + 1) s).1.dropLast.zip (cvLists (B + 1) s).2.dropLast =
    (List.range B).map s := by
  unfold cvLists
  rw [dropLast_seq, dropLast_seq, zip_seq]

omit [IsStrictOrderedRing K] in
theorem CLQT.tfPrDenseBackward_ok {steps B : ℕ} {s : ℕ → CVal n K} {L : List (Matrix (Fin n) (Fin n) K) × List (Fin n → K)} :
    P.tfPrDenseBackward steps (cvLists (B + 1) s).1 (cvLists (B + 1) s).2 = .ok L ↔
    ∃ f : ℕ → CVal n K, (f B = s B ∧ ∀ q < B, P.tfBwProp steps (P.T / ((B * steps : ℕ) : K))
      (q * steps * (P.T / ((B * steps : ℕ) : K))) (s (q + 1)) = .ok (f q)) ∧ L = cvLists (B + 1) f := by
  unfold CLQT.tfPrDenseBackward
  have e : (cvLists (B + 1) s).1.length - 1 = B := by simp [cvLists]
  rw [e, cv_tail]
  have e1 : pyLast (cvLists (B + 1) s).1 = .ok (s B).1 := pyLast_seq _ _
  have e2 : pyLast (cvLists (B + 1) s).2 = .ok (s B).2 := pyLast_seq _ _
  rw [e1, e2]
  unfold tfPrTimes
  dsimp only
  rw [zip_seq]
  haveI : Inhabited (BwResult n m K) := ⟨⟨[], [], [], []⟩⟩
  haveI : Inhabited (Matrix (Fin n) (Fin n) K) := ⟨0⟩
  haveI : Inhabited (Fin n → K) := ⟨0⟩
  simp only [bind_ok, List.mapM_map, Function.comp_def, mapM_seq, pure, Except.pure, Except.ok.injEq]
  constructor
  · rintro ⟨rs, ⟨R, rfl, hR⟩, l1, h1, l2, h2, _, rfl, _, rfl, rfl⟩
    rw [List.mapM_map, mapM_seq] at h1 h2
    obtain ⟨f1, rfl, hf1⟩ := h1
    obtain ⟨f2, rfl, hf2⟩ := h2
    refine ⟨fun q => if q < B then (f1 q, f2 q) else s B, ⟨by simp, fun q hq => ?_⟩, ?_⟩
    · dsimp only
      rw [if_pos hq]
      unfold CLQT.tfBwProp
      simp only [hR q hq, bind, Except.bind, pure, Except.pure]
      rw [show pyGet (R q).S_list 0 = .ok (f1 q) from hf1 q hq, show pyGet (R q).v_list 0 = .ok (f2 q) from hf2 q hq]
    · unfold cvLists
      rw [List.range_succ]
      simp only [List.map_append, List.map_cons, List.map_nil, lt_irrefl, if_false]
      rw [seq_congr (g := fun k => (if k < B then (f1 k, f2 k) else s B).1) (f := f1) fun k hk => by rw [if_pos hk],
        seq_congr (g := fun k => (if k < B then (f1 k, f2 k) else s B).2) (f := f2) fun k hk => by rw [if_pos hk]]
  · rintro ⟨f, ⟨h0, hf⟩, rfl⟩
    have hf' : ∀ q, ∃ r : BwResult n m K, q < B → P.tfSeqBackward steps (P.T / ((B * steps : ℕ) : K))
        (q * steps * (P.T / ((B * steps : ℕ) : K))) (s (q + 1)).1 (s (q + 1)).2 = .ok r ∧ pyGet r.S_list 0 = .ok (f q).1 ∧
        pyGet r.v_list 0 = .ok (f q).2 := by
      intro q
      by_cases hq : q < B
      · have := hf q hq
        unfold CLQT.tfBwProp at this
        simp only [bind_ok, pure, Except.pure, Except.ok.injEq] at this
        obtain ⟨r, hr, a, ha, b, hb, e⟩ := this
        exact ⟨r, fun _ => ⟨hr, by rw [ha, ← e], by rw [hb, ← e]⟩⟩
      · exact ⟨default, fun h => absurd h hq⟩
    choose R hR using hf'
    refine ⟨(List.range B).map R, ⟨R, rfl, fun q hq => (hR q hq).1⟩, (List.range B).map (fun q => (f q).1), ?_,
      (List.range B).map (fun q => (f q).2), ?_, _, rfl, _, rfl, ?_⟩
    · rw [List.mapM_map, mapM_seq]
      exact ⟨_, rfl, fun q hq => (hR q hq).2.1⟩
    · rw [List.mapM_map, mapM_seq]
      exact ⟨_, rfl, fun q hq => (hR q hq).2.2⟩
    · unfold cvLists
      rw [List.range_succ]
      simp [h0]

theorem CLQT.SolvRel.prDenseBackward (h : P.SolvRel d) {B : ℕ} (hB : B ≠ 0) {steps : ℕ} (hs : steps ≠ 0) (s : ℕ → CVal n K) :
    PyRel d Eq (P.prDenseBackward steps (cvLists (B + 1) s).1 (cvLists (B + 1) s).2)
      (P.tfPrDenseBackward steps (cvLists (B + 1) s).1 (cvLists (B + 1) s).2) := by
  refine PyRel.of_char (ι := ℕ → CVal n K) (A := fun f => f B = s B ∧ ∀ q < B, P.bwProp steps (P.T / ((B * steps : ℕ) : K))
      (q * steps * (P.T / ((B * steps : ℕ) : K))) (s (q + 1)) = .ok (f q)) (g := cvLists (B + 1)) (g' := cvLists (B + 1))
      (fun r => ?_) (fun r => CLQT.tfPrDenseBackward_ok) ?_ ?_ fun _ => rfl
  · rw [CLQT.prDenseBackward_ok]
    simp only [pr_div hB, pr_div hs, Except.ok.injEq, exists_eq_left', pr_div', and_assoc]
  · exact fun hd f ⟨h0, hf⟩ => ⟨h0, fun q hq => (h.bwProp _ _ _ _).fwdEq hd (hf q hq)⟩
  · exact fun hd f ⟨h0, hf⟩ => ⟨h0, fun q hq => (h.bwProp _ _ _ _).bwdEq hd (hf q hq)⟩

instance : Inhabited (CVal n K) := ⟨(0, 0)⟩

omit [IsStrictOrderedRing K] in
theorem CLQT.tfPrCoarseBackward_ok {B : ℕ} {f g : ℕ → CVal n K}
    {L : (List (Matrix (Fin n) (Fin n) K) × List (Fin n → K)) × (List (Matrix (Fin n) (Fin n) K) × List (Fin n → K))} :
    P.tfPrCoarseBackward (cvLists (B + 1) f) (cvLists (B + 1) g) = .ok L ↔
    ∃ w : ℕ → CVal n K × CVal n K, ((w B).1 = f B ∧ (w B).2 = f B ∧
      ∀ q < B, P.tfBwProp 1 (P.T / B) (q * (P.T / B)) (w (q + 1)).1 = .ok (w q).2 ∧ (w q).1 = (w q).2 + f q - g q) ∧
      L = (cvLists (B + 1) fun k => (w k).1, cvLists (B + 1) fun k => (w k).2) := by
  unfold CLQT.tfPrCoarseBackward
  have e : (cvLists (B + 1) f).1.length - 1 = B := by simp [cvLists]
  rw [e, cv_dropLast, cv_dropLast]
  have e1 : pyLast (cvLists (B + 1) f).1 = .ok (f B).1 := pyLast_seq _ _
  have e2 : pyLast (cvLists (B + 1) f).2 = .ok (f B).2 := pyLast_seq _ _
  rw [e1, e2]
  unfold tfPrCoarseTimes
  dsimp only
  rw [zip_seq, zip_seq]
  have body : ∀ (c : CVal n K × CVal n K) (k : ℕ) (c' : CVal n K × CVal n K),
      P.tfPrCoarseBwBody (P.T / B) c ((k : K) * (P.T / B), f k, g k) = .ok c' ↔
      P.tfBwProp 1 (P.T / B) (k * (P.T / B)) c.1 = .ok c'.2 ∧ c'.1 = c'.2 + f k - g k := by
    intro c k c'
    unfold CLQT.tfPrCoarseBwBody CLQT.tfBwProp
    simp only [bind_ok, pure, Except.pure, Except.ok.injEq]
    constructor
    · rintro ⟨r, hr, a, ha, b, hb, rfl⟩
      exact ⟨⟨r, hr, a, ha, b, hb, rfl⟩, rfl⟩
    · rintro ⟨⟨r, hr, a, ha, b, hb, h1⟩, h2⟩
      refine ⟨r, hr, a, ha, b, hb, ?_⟩
      obtain ⟨c1, c2⟩ := c'
      subst h1
      dsimp only at h2
      rw [h2]
      rfl
  simp only [bind_ok, Except.ok.injEq, exists_eq_left', pure, Except.pure]
  constructor
  · rintro ⟨r, hr, rfl⟩
    obtain ⟨w, h0, h1, rfl⟩ := (tfScanRev_ok (β := CVal n K × CVal n K) _ _ _ _).1 hr
    refine ⟨w, ⟨by rw [h0], by rw [h0], fun q hq => (body _ _ _).1 (h1 q hq)⟩, ?_⟩
    unfold cvLists
    simp [List.range_succ, h0, Function.comp_def]
  · rintro ⟨w, ⟨h0, h1, h2⟩, rfl⟩
    have hw : w B = (f B, f B) := Prod.ext h0 h1
    refine ⟨_, (tfScanRev_ok (β := CVal n K × CVal n K) _ _ _ _).2 ⟨w, hw, fun q hq => (body _ _ _).2 (h2 q hq), rfl⟩, ?_⟩
    unfold cvLists
    simp [List.range_succ, hw, Function.comp_def]

theorem CLQT.SolvRel.prCoarseBackward (h : P.SolvRel d) {B : ℕ} (hB : B ≠ 0) (f g : ℕ → CVal n K) :
    PyRel d Eq (P.prCoarseBackward (cvLists (B + 1) f) (cvLists (B + 1) g))
      (P.tfPrCoarseBackward (cvLists (B + 1) f) (cvLists (B + 1) g)) := by
  refine PyRel.of_char (ι := ℕ → CVal n K × CVal n K) (A := fun w => (w B).1 = f B ∧ (w B).2 = f B ∧
      ∀ q < B, P.bwProp 1 (P.T / B) (q * (P.T / B)) (w (q + 1)).1 = .ok (w q).2 ∧ (w q).1 = (w q).2 + f q - g q)
      (g := fun w => (cvLists (B + 1) fun k => (w k).1, cvLists (B + 1) fun k => (w k).2))
      (fun r => ?_) (fun r => CLQT.tfPrCoarseBackward_ok) ?_ ?_ fun _ => rfl
  · rw [CLQT.prCoarseBackward_ok]
    simp only [pr_div hB, Except.ok.injEq, exists_eq_left']
    constructor
    · rintro ⟨s', g', h0, h1, h2, rfl⟩
      exact ⟨fun k => (s' k, g' k), ⟨h0, h1, h2⟩, rfl⟩
    · rintro ⟨w, ⟨h0, h1, h2⟩, rfl⟩
      exact ⟨fun k => (w k).1, fun k => (w k).2, h0, h1, h2, rfl⟩
  · exact fun hd w ⟨h0, h1, hf⟩ => ⟨h0, h1, fun q hq => ⟨(h.bwProp _ _ _ _).fwdEq hd (hf q hq).1, (hf q hq).2⟩⟩
  · exact fun hd w ⟨h0, h1, hf⟩ => ⟨h0, h1, fun q hq => ⟨(h.bwProp _ _ _ _).bwdEq hd (hf q hq).1, (hf q hq).2⟩⟩

/-- The result of the final pass, from the passes over the blocks. -/
def prGlueBw (B : ℕ) (z : CVal n K) (R : ℕ → BwResult n m K) : BwResult n m K :=
  ⟨((List.range B).map fun q => (R q).Kx_list).flatten, ((List.range B).map fun q => (R q).d_list).flatten,
    ((List.range B).map fun q => (R q).S_list.dropLast).flatten ++ [z.1],
    ((List.range B).map fun q => (R q).v_list.dropLast).flatten ++ [z.2]⟩

omit [IsStrictOrderedRing K] in
theorem CLQT.tfPrFinalBackward_ok {steps B : ℕ} {s : ℕ → CVal n K} {r : BwResult n m K} :
    P.tfPrFinalBackward steps (cvLists (B + 1) s).1 (cvLists (B + 1) s).2 = .ok r ↔
    ∃ R : ℕ → BwResult n m K, (∀ q < B, P.tfSeqBackward steps (P.T / B / steps) (q * steps * (P.T / B / steps)) (s (q + 1)).1
      (s (q + 1)).2 = .ok (R q)) ∧ r = prGlueBw B (s B) R := by
  unfold CLQT.tfPrFinalBackward
  have e : (cvLists (B + 1) s).1.length - 1 = B := by simp [cvLists]
  rw [e, cv_tail]
  have e1 : pyLast (cvLists (B + 1) s).1 = .ok (s B).1 := pyLast_seq _ _
  have e2 : pyLast (cvLists (B + 1) s).2 = .ok (s B).2 := pyLast_seq _ _
  rw [e1, e2]
  unfold tfPrTimes
  dsimp only
  rw [zip_seq]
  haveI : Inhabited (BwResult n m K) := ⟨⟨[], [], [], []⟩⟩
  simp only [bind_ok, List.mapM_map, Function.comp_def, mapM_seq, pure, Except.pure, Except.ok.injEq, exists_eq_left']
  constructor
  · rintro ⟨_, ⟨R, rfl, hR⟩, rfl⟩
    exact ⟨R, hR, by simp [prGlueBw, Function.comp_def]⟩
  · rintro ⟨R, hR, rfl⟩
    exact ⟨_, ⟨R, rfl, hR⟩, by simp [prGlueBw, Function.comp_def]⟩

theorem CLQT.prFinalBackward_glue {steps B : ℕ} (hB : B ≠ 0) (hs : steps ≠ 0) {s : ℕ → CVal n K} {r : BwResult n m K} :
    P.prFinalBackward steps (cvLists (B + 1) s).1 (cvLists (B + 1) s).2 = .ok r ↔
    ∃ R : ℕ → BwResult n m K, (∀ q < B, P.seqBackwardPass steps (some (P.T / B / steps)) (some (q * steps * (P.T / B / steps)))
      (some (s (q + 1)).1) (some (s (q + 1)).2) = .ok (R q)) ∧ r = prGlueBw B (s B) R := by
  rw [CLQT.prFinalBackward_ok]
  simp only [pr_div hB, pr_div hs, Except.ok.injEq, exists_eq_left']
  have key : ∀ q (σ : ℕ → CVal n K) (κ : ℕ → Matrix (Fin m) (Fin n) K × (Fin m → K)), 
      (σ steps = s (q + 1) ∧ P.BwSeq steps (P.T / B / steps) (q * steps * (P.T / B / steps)) σ κ) →
      P.seqBackwardPass steps (some (P.T / B / steps)) (some (q * steps * (P.T / B / steps)))
      (some (s (q + 1)).1) (some (s (q + 1)).2) = .ok (bwLists steps σ κ) := by
    intro q σ κ ⟨h1, h2⟩
    simp only [CLQT.seqBackward_ok, CLQT.dtSeq_some, Except.ok.injEq, exists_eq_left', Option.getD_some]
    exact ⟨σ, κ, h1, h2, rfl⟩
  have glue : ∀ (R : ℕ → BwResult n m K) (σ : ℕ → ℕ → CVal n K) (κ : ℕ → ℕ → Matrix (Fin m) (Fin n) K × (Fin m → K)),
      (∀ q < B, R q = bwLists steps (σ q) (κ q)) → prGlueBw B (s B) R =
      ⟨((List.range B).map fun q => (List.range steps).map fun i => (κ q i).1).flatten,
        ((List.range B).map fun q => (List.range steps).map fun i => (κ q i).2).flatten,
        ((List.range B).map fun q => (List.range steps).map fun i => (σ q i).1).flatten ++ [(s B).1],
        ((List.range B).map fun q => (List.range steps).map fun i => (σ q i).2).flatten ++ [(s B).2]⟩ := by
    intro R σ κ hR
    unfold prGlueBw
    rw [seq_congr (f := fun q => (R q).Kx_list) fun q hq => by rw [hR q hq],
      seq_congr (f := fun q => (R q).d_list) fun q hq => by rw [hR q hq],
      seq_congr (f := fun q => (R q).S_list.dropLast) fun q hq => by rw [hR q hq],
      seq_congr (f := fun q => (R q).v_list.dropLast) fun q hq => by rw [hR q hq]]
    simp only [bwLists, dropLast_seq]
  constructor
  · rintro ⟨σ, κ, h, rfl⟩
    exact ⟨fun q => bwLists steps (σ q) (κ q), fun q hq => key q _ _ (h q hq), (glue _ σ κ fun _ _ => rfl).symm⟩
  · rintro ⟨R, hR, rfl⟩
    have : ∀ q, ∃ σκ : (ℕ → CVal n K) × (ℕ → Matrix (Fin m) (Fin n) K × (Fin m → K)), q < B →
        (σκ.1 steps = s (q + 1) ∧ P.BwSeq steps (P.T / B / steps) (q * steps * (P.T / B / steps)) σκ.1 σκ.2) ∧
        R q = bwLists steps σκ.1 σκ.2 := by
      intro q
      by_cases hq : q < B
      · have := hR q hq
        simp only [CLQT.seqBackward_ok, CLQT.dtSeq_some, Except.ok.injEq, exists_eq_left', Option.getD_some] at this
        obtain ⟨σ, κ, h1, h2, h3⟩ := this
        exact ⟨(σ, κ), fun _ => ⟨⟨h1, h2⟩, h3⟩⟩
      · exact ⟨(fun _ => (0, 0), fun _ => (0, 0)), fun h => absurd h hq⟩
    choose w hw using this
    exact ⟨fun q => (w q).1, fun q => (w q).2, fun q hq => (hw q hq).1, glue _ _ _ fun q hq => (hw q hq).2⟩

theorem CLQT.SolvRel.prFinalBackward (h : P.SolvRel d) {B : ℕ} (hB : B ≠ 0) {steps : ℕ} (hs : steps ≠ 0) (s : ℕ → CVal n K) :
    PyRel d Eq (P.prFinalBackward steps (cvLists (B + 1) s).1 (cvLists (B + 1) s).2)
      (P.tfPrFinalBackward steps (cvLists (B + 1) s).1 (cvLists (B + 1) s).2) :=
  PyRel.of_char (fun _ => CLQT.prFinalBackward_glue hB hs) (fun _ => CLQT.tfPrFinalBackward_ok)
    (fun hd _ hR q hq => (h.seqBackward _ _ _ _ _).fwdEq hd (hR q hq))
    (fun hd _ hR q hq => (h.seqBackward _ _ _ _ _).bwdEq hd (hR q hq)) fun _ => rfl

/-- The states of the iteration. -/
def PrShape (B : ℕ) (st : (List (Matrix (Fin n) (Fin n) K) × List (Fin n → K)) × (List (Matrix (Fin n) (Fin n) K) × List (Fin n → K))) :
    Prop := ∃ s g : ℕ → CVal n K, st = (cvLists (B + 1) s, cvLists (B + 1) g)

theorem CLQT.SolvRel.prInitBackward (h : P.SolvRel d) {B : ℕ} (hB : B ≠ 0) :
    PyRel d Eq (P.prInitBackward B) (P.tfPrInitBackward B) := by
  have e : ∀ r, P.prInitBackward B = .ok r ↔ ∃ x, P.seqBackwardPass B (some (P.T / B)) (some 0) (some (P.HTᵀ * P.XT * P.HT))
      (some ((P.HTᵀ * P.XT) *ᵥ P.rT)) = .ok x ∧ r = (x.S_list, x.v_list) := by
    intro r
    unfold CLQT.prInitBackward
    simp only [pr_div hB, bind_ok, Except.ok.injEq, exists_eq_left', pure, Except.pure, CLQT.seqBackward_ok, CLQT.dtSeq_some,
      Option.getD_none, Option.getD_some, eq_comm (b := r)]
  have e' : ∀ r, P.tfPrInitBackward B = .ok r ↔ ∃ x, P.tfSeqBackward B (P.T / B) 0 (P.HTᵀ * P.XT * P.HT)
      ((P.HTᵀ * P.XT) *ᵥ P.rT) = .ok x ∧ r = (x.S_list, x.v_list) := by
    intro r
    unfold CLQT.tfPrInitBackward CLQT.tfSeqDefaults
    simp only [bind_ok, Except.ok.injEq, pure, Except.pure, eq_comm (b := r), P.tfTerm.1, P.tfTerm.2]
  exact PyRel.of_char e e' (fun hd _ hR => (h.seqBackward _ _ _ _ _).fwdEq hd hR)
    (fun hd _ hR => (h.seqBackward _ _ _ _ _).bwdEq hd hR) fun _ => rfl

theorem CLQT.SolvRel.prBwIter (h : P.SolvRel d) {B : ℕ} (hB : B ≠ 0) {steps : ℕ} (hs : steps ≠ 0) {st} (hst : PrShape B st) :
    PyRel d (fun x y => x = y ∧ PrShape B x) (P.prBwIter steps st) (P.tfPrBwBody steps st) := by
  obtain ⟨s, g, rfl⟩ := hst
  unfold CLQT.prBwIter CLQT.tfPrBwBody
  refine ((h.prDenseBackward hB hs s).and_left (Q := fun L => ∃ f, L = cvLists (B + 1) f) ?_).bind ?_
  · intro x hx
    obtain ⟨_, _, _, _, f, _, _, rfl⟩ := CLQT.prDenseBackward_ok.1 hx
    exact ⟨f, rfl⟩
  · rintro _ _ ⟨rfl, f, rfl⟩
    refine (h.prCoarseBackward hB f g).and_left fun x hx => ?_
    obtain ⟨_, _, s', g', _, _, _, rfl⟩ := CLQT.prCoarseBackward_ok.1 hx
    exact ⟨s', g', rfl⟩

theorem CLQT.SolvRel.prBackward (h : P.SolvRel d) {B : ℕ} (hB : B ≠ 0) {steps : ℕ} (hs : steps ≠ 0) {niter : ℕ} (hn : niter ≠ 0) :
    PyRel d Eq (P.prBackwardPass B steps (some niter)) (P.tfPrBackward B steps niter) := by
  unfold CLQT.prBackwardPass CLQT.tfPrBackward
  dsimp only [Option.getD_some]
  refine ((h.prInitBackward hB).and_left (Q := fun L => ∃ f, L = cvLists (B + 1) f) ?_).bind ?_
  · intro x hx
    obtain ⟨_, _, s, _, _, rfl⟩ := CLQT.prInitBackward_ok.1 hx
    exact ⟨s, rfl⟩
  · rintro _ _ ⟨rfl, f, rfl⟩
    rw [← bind_assoc, tfScanFwdM_last _ (by simpa using hn)]
    refine PyRel.bind (R := fun x y => x = y ∧ PrShape B x) ?_ ?_
    · exact PyRel.foldlM (T := fun _ _ => True) (fun x y _ _ ⟨hxy, hx⟩ _ => hxy ▸ h.prBwIter hB hs hx)
        (List.forall₂_same.2 fun _ _ => trivial) ⟨rfl, f, f, rfl⟩
    · rintro _ _ ⟨rfl, s, g, rfl⟩
      exact h.prFinalBackward hB hs s

end Verif
