import Verif.Proof.PararealTFFw

/-! Parareal in TensorFlow: the forward-backward pass. -/

namespace Verif

open Matrix

variable {n m : ℕ} {K : Type} [Field K] [LinearOrder K] [IsStrictOrderedRing K]
variable {P : CLQT n m K} {d : Bool}

/-- Last elements of the three lists. -/
def AbcLast (r : AbcResult n K) (a : CAbc n K) : Prop :=
  pyLast r.A_list = .ok a.1 ∧ pyLast r.b_list = .ok a.2.1 ∧ pyLast r.C_list = .ok a.2.2

omit [IsStrictOrderedRing K] in
theorem abcLast_lists (steps : ℕ) (α : ℕ → CAbc n K) {a : CAbc n K} : AbcLast (abcLists (steps + 1) α) a ↔ a = α steps := by
  unfold AbcLast
  obtain ⟨e1, e2, e3⟩ := pyLast_abc steps α
  rw [e1, e2, e3]
  simp only [Except.ok.injEq]
  constructor
  · rintro ⟨h1, h2, h3⟩
    exact Prod.ext h1.symm (Prod.ext h2.symm h3.symm)
  · rintro rfl
    exact ⟨rfl, rfl, rfl⟩

/-- Forward propagation with the TensorFlow pass. -/
def CLQT.tfAbcProp (P : CLQT n m K) (steps : ℕ) (dt t1 : K) (a : CAbc n K) : Py (CAbc n K) := do
  let r ← P.tfSeqFwdBwd steps dt t1 a.1 a.2.1 a.2.2
  return (← pyLast r.A_list, ← pyLast r.b_list, ← pyLast r.C_list)

omit [IsStrictOrderedRing K] in
theorem CLQT.tfAbcProp_ok {steps : ℕ} {dt t1 : K} {a a' : CAbc n K} : P.tfAbcProp steps dt t1 a = .ok a' ↔
    ∃ r, P.tfSeqFwdBwd steps dt t1 a.1 a.2.1 a.2.2 = .ok r ∧ AbcLast r a' := by
  unfold CLQT.tfAbcProp AbcLast
  simp only [bind_ok, pure, Except.pure, Except.ok.injEq]
  constructor
  · rintro ⟨r, hr, x, hx, y, hy, z, hz, rfl⟩
    exact ⟨r, hr, hx, hy, hz⟩
  · rintro ⟨r, hr, hx, hy, hz⟩
    exact ⟨r, hr, _, hx, _, hy, _, hz, rfl⟩

omit [IsStrictOrderedRing K] in
theorem CLQT.SolvRel.abcProp (h : P.SolvRel d) (steps : ℕ) (dt t1 : K) (a : CAbc n K) :
    PyRel d Eq (P.abcProp steps dt t1 a) (P.tfAbcProp steps dt t1 a) := by
  unfold CLQT.abcProp CLQT.tfAbcProp
  exact (h.seqFwdBwd steps dt t1 0 a.1 a.2.1 a.2.2).bindEq fun r => PyRel.refl _

theorem CLQT.SolvRel.prInitFwdBwd (h : P.SolvRel d) {B : ℕ} (hB : B ≠ 0) (x0 : Fin n → K) :
    PyRel d Eq (P.prInitFwdBwd B x0) (P.tfPrInitFwdBwd B x0) := by
  have e : ∀ r, P.prInitFwdBwd B x0 = .ok r ↔
      P.seqFwdBwdPass x0 B (some (P.T / B)) (some 0) (some 0) (some x0) (some 0) = .ok r := by
    intro r
    unfold CLQT.prInitFwdBwd
    simp only [pr_div hB, bind_ok, Except.ok.injEq, exists_eq_left', CLQT.seqFwdBwd_ok, CLQT.dtSeq_some,
      Option.getD_none, Option.getD_some]
  have h' := h.seqFwdBwd B (P.T / B) 0 x0 0 x0 0
  cases d with
  | true => exact fun r hr => h' r ((e r).1 hr)
  | false =>
    intro r hr
    obtain ⟨x, hx, rfl⟩ := h' r hr
    exact ⟨x, (e _).2 hx, rfl⟩

omit [LinearOrder K] [IsStrictOrderedRing K] in
theorem abc_dropLast (B : ℕ) (s : ℕ → CAbc n K) : (abcLists (B + 1) s).A_list.dropLast.zip
    ((abcLists (B + 1) s).b_list.dropLast.zip (abcLists (B + 1) s).C_list.dropLast) = (List.range B).map s := by
  unfold abcLists
  rw [dropLast_seq, dropLast_seq, dropLast_seq, zip_seq, zip_seq]

omit [LinearOrder K] [IsStrictOrderedRing K] in
theorem abc_tail (B : ℕ) (s : ℕ → CAbc n K) : (abcLists (B + 1) s).A_list.tail.zip
    ((abcLists (B + 1) s).b_list.tail.zip (abcLists (B + 1) s).C_list.tail) = (List.range B).map fun k => s (k + 1) := by
  unfold abcLists
  rw [tail_seq, tail_seq, tail_seq, zip_seq, zip_seq]

omit [IsStrictOrderedRing K] in
theorem CLQT.tfPrDenseFwdBwd_ok {steps B : ℕ} {s : ℕ → CAbc n K} {L : AbcResult n K} :
    P.tfPrDenseFwdBwd steps (abcLists (B + 1) s) = .ok L ↔
    ∃ f : ℕ → CAbc n K, (f 0 = s 0 ∧ ∀ q < B, P.tfAbcProp steps (P.T / ((B * steps : ℕ) : K))
      (q * steps * (P.T / ((B * steps : ℕ) : K))) (s q) = .ok (f (q + 1))) ∧ L = abcLists (B + 1) f := by
  unfold CLQT.tfPrDenseFwdBwd
  have e : (abcLists (B + 1) s).A_list.length - 1 = B := by simp [abcLists]
  rw [e, abc_dropLast]
  obtain ⟨e1, e2, e3⟩ := pyGet_abc (show 0 < B + 1 by omega) s
  rw [e1, e2, e3]
  unfold tfPrTimes
  dsimp only
  rw [zip_seq]
  haveI : Inhabited (AbcResult n K) := ⟨⟨[], [], []⟩⟩
  haveI : Inhabited (Matrix (Fin n) (Fin n) K) := ⟨0⟩
  haveI : Inhabited (Fin n → K) := ⟨0⟩
  simp only [bind_ok, List.mapM_map, Function.comp_def, mapM_seq, pure, Except.pure, Except.ok.injEq, exists_eq_left',
    CLQT.tfAbcProp_ok]
  constructor
  · rintro ⟨rs, ⟨R, rfl, hR⟩, l1, h1, l2, h2, l3, h3, rfl⟩
    rw [List.mapM_map, mapM_seq] at h1 h2 h3
    obtain ⟨f1, rfl, hf1⟩ := h1
    obtain ⟨f2, rfl, hf2⟩ := h2
    obtain ⟨f3, rfl, hf3⟩ := h3
    refine ⟨fun q => match q with | 0 => s 0 | q + 1 => (f1 q, f2 q, f3 q), ⟨rfl, fun q hq => ?_⟩, ?_⟩
    · exact ⟨R q, hR q hq, hf1 q hq, hf2 q hq, hf3 q hq⟩
    · unfold abcLists
      rw [List.range_succ_eq_map]
      simp [Function.comp_def]
  · rintro ⟨f, ⟨h0, hf⟩, rfl⟩
    choose! R hR using hf
    refine ⟨(List.range B).map R, ⟨R, rfl, fun q hq => (hR q hq).1⟩, (List.range B).map (fun q => (f (q + 1)).1), ?_,
      (List.range B).map (fun q => (f (q + 1)).2.1), ?_, (List.range B).map (fun q => (f (q + 1)).2.2), ?_, ?_⟩
    · rw [List.mapM_map, mapM_seq]
      exact ⟨_, rfl, fun q hq => (hR q hq).2.1⟩
    · rw [List.mapM_map, mapM_seq]
      exact ⟨_, rfl, fun q hq => (hR q hq).2.2.1⟩
    · rw [List.mapM_map, mapM_seq]
      exact ⟨_, rfl, fun q hq => (hR q hq).2.2.2⟩
    · unfold abcLists
      rw [List.range_succ_eq_map]
      simp [Function.comp_def, h0]

theorem CLQT.SolvRel.prDenseFwdBwd (h : P.SolvRel d) {B : ℕ} (hB : B ≠ 0) {steps : ℕ} (hs : steps ≠ 0) (s : ℕ → CAbc n K) :
    PyRel d Eq (P.prDenseFwdBwd steps (abcLists (B + 1) s)) (P.tfPrDenseFwdBwd steps (abcLists (B + 1) s)) := by
  refine PyRel.of_char (ι := ℕ → CAbc n K) (A := fun f => f 0 = s 0 ∧ ∀ q < B, P.abcProp steps (P.T / ((B * steps : ℕ) : K))
      (q * steps * (P.T / ((B * steps : ℕ) : K))) (s q) = .ok (f (q + 1))) (g := abcLists (B + 1)) (g' := abcLists (B + 1))
      (fun r => ?_) (fun r => CLQT.tfPrDenseFwdBwd_ok) ?_ ?_ fun _ => rfl
  · rw [CLQT.prDenseFwdBwd_ok]
    simp only [pr_div hB, pr_div hs, Except.ok.injEq, exists_eq_left', pr_div', and_assoc]
  · exact fun hd f ⟨h0, hf⟩ => ⟨h0, fun q hq => (h.abcProp _ _ _ _).fwdEq hd (hf q hq)⟩
  · exact fun hd f ⟨h0, hf⟩ => ⟨h0, fun q hq => (h.abcProp _ _ _ _).bwdEq hd (hf q hq)⟩

instance : Inhabited (CAbc n K) := ⟨(0, 0, 0)⟩

omit [IsStrictOrderedRing K] in
theorem CLQT.tfPrCoarseFwdBwd_ok {B : ℕ} {f g : ℕ → CAbc n K} {L : AbcResult n K × AbcResult n K} :
    P.tfPrCoarseFwdBwd (abcLists (B + 1) f) (abcLists (B + 1) g) = .ok L ↔
    ∃ w : ℕ → CAbc n K × CAbc n K, (w 0 = (f 0, f 0) ∧
      ∀ q < B, P.tfAbcProp 1 (P.T / B) (q * (P.T / B)) (w q).1 = .ok (w (q + 1)).2 ∧
        (w (q + 1)).1 = (w (q + 1)).2 + f (q + 1) - g (q + 1)) ∧
      L = (abcLists (B + 1) fun k => (w k).1, abcLists (B + 1) fun k => (w k).2) := by
  unfold CLQT.tfPrCoarseFwdBwd
  have e : (abcLists (B + 1) f).A_list.length - 1 = B := by simp [abcLists]
  rw [e, abc_tail, abc_tail]
  obtain ⟨e1, e2, e3⟩ := pyGet_abc (show 0 < B + 1 by omega) f
  rw [e1, e2, e3]
  unfold tfPrCoarseTimes
  dsimp only
  rw [zip_seq, zip_seq]
  have body : ∀ (c : CAbc n K × CAbc n K) (k : ℕ) (c' : CAbc n K × CAbc n K),
      P.tfPrCoarseAbcBody (P.T / B) c ((k : K) * (P.T / B), f (k + 1), g (k + 1)) = .ok c' ↔
      P.tfAbcProp 1 (P.T / B) (k * (P.T / B)) c.1 = .ok c'.2 ∧ c'.1 = c'.2 + f (k + 1) - g (k + 1) := by
    intro c k c'
    unfold CLQT.tfPrCoarseAbcBody CLQT.tfAbcProp
    simp only [bind_ok, pure, Except.pure, Except.ok.injEq]
    constructor
    · rintro ⟨r, hr, a, ha, b, hb, x, hx, rfl⟩
      exact ⟨⟨r, hr, a, ha, b, hb, x, hx, rfl⟩, rfl⟩
    · rintro ⟨⟨r, hr, a, ha, b, hb, x, hx, h1⟩, h2⟩
      refine ⟨r, hr, a, ha, b, hb, x, hx, ?_⟩
      obtain ⟨c1, c2⟩ := c'
      subst h1
      dsimp only at h2
      rw [h2]
      rfl
  simp only [bind_ok, Except.ok.injEq, exists_eq_left', pure, Except.pure]
  constructor
  · rintro ⟨r, hr, rfl⟩
    obtain ⟨w, h0, h1, rfl⟩ := (tfScanFwdM_ok (β := CAbc n K × CAbc n K) _ _ _ _).1 hr
    refine ⟨w, ⟨h0, fun q hq => (body _ _ _).1 (h1 q hq)⟩, ?_⟩
    unfold abcLists
    rw [List.range_succ_eq_map]
    simp [h0, Function.comp_def]
  · rintro ⟨w, ⟨h0, h2⟩, rfl⟩
    refine ⟨_, (tfScanFwdM_ok (β := CAbc n K × CAbc n K) _ _ _ _).2 ⟨w, h0, fun q hq => (body _ _ _).2 (h2 q hq), rfl⟩, ?_⟩
    unfold abcLists
    rw [List.range_succ_eq_map]
    simp [h0, Function.comp_def]

theorem CLQT.SolvRel.prCoarseFwdBwd (h : P.SolvRel d) {B : ℕ} (hB : B ≠ 0) (f g : ℕ → CAbc n K) :
    PyRel d Eq (P.prCoarseFwdBwd (abcLists (B + 1) f) (abcLists (B + 1) g))
      (P.tfPrCoarseFwdBwd (abcLists (B + 1) f) (abcLists (B + 1) g)) := by
  refine PyRel.of_char (ι := ℕ → CAbc n K × CAbc n K) (A := fun w => w 0 = (f 0, f 0) ∧
      ∀ q < B, P.abcProp 1 (P.T / B) (q * (P.T / B)) (w q).1 = .ok (w (q + 1)).2 ∧
        (w (q + 1)).1 = (w (q + 1)).2 + f (q + 1) - g (q + 1))
      (g := fun w => (abcLists (B + 1) fun k => (w k).1, abcLists (B + 1) fun k => (w k).2))
      (fun r => ?_) (fun r => CLQT.tfPrCoarseFwdBwd_ok) ?_ ?_ fun _ => rfl
  · rw [CLQT.prCoarseFwdBwd_ok]
    simp only [pr_div hB, Except.ok.injEq, exists_eq_left']
    constructor
    · rintro ⟨s', g', h0, h1, h2, rfl⟩
      exact ⟨fun k => (s' k, g' k), ⟨Prod.ext h0 h1, h2⟩, rfl⟩
    · rintro ⟨w, ⟨h0, h2⟩, rfl⟩
      exact ⟨fun k => (w k).1, fun k => (w k).2, congrArg Prod.fst h0, congrArg Prod.snd h0, h2, rfl⟩
  · exact fun hd w ⟨h0, hf⟩ => ⟨h0, fun q hq => ⟨(h.abcProp _ _ _ _).fwdEq hd (hf q hq).1, (hf q hq).2⟩⟩
  · exact fun hd w ⟨h0, hf⟩ => ⟨h0, fun q hq => ⟨(h.abcProp _ _ _ _).bwdEq hd (hf q hq).1, (hf q hq).2⟩⟩

/-- The result of the final pass, from the passes over the blocks and the last element. -/
def prGlueAbc (B : ℕ) (R : ℕ → AbcResult n K) (z : CAbc n K) : AbcResult n K :=
  ⟨((List.range B).map fun q => (R q).A_list.dropLast).flatten ++ [z.1],
    ((List.range B).map fun q => (R q).b_list.dropLast).flatten ++ [z.2.1],
    ((List.range B).map fun q => (R q).C_list.dropLast).flatten ++ [z.2.2]⟩

omit [IsStrictOrderedRing K] in
theorem CLQT.tfPrFinalFwdBwd_ok {steps B : ℕ} (hB : B ≠ 0) {s : ℕ → CAbc n K} {r : AbcResult n K} :
    P.tfPrFinalFwdBwd steps (abcLists (B + 1) s) = .ok r ↔
    ∃ x : (ℕ → AbcResult n K) × CAbc n K, ((∀ q < B, P.tfSeqFwdBwd steps (P.T / B / steps) (q * steps * (P.T / B / steps)) (s q).1
      (s q).2.1 (s q).2.2 = .ok (x.1 q)) ∧ AbcLast (x.1 (B - 1)) x.2) ∧ r = prGlueAbc B x.1 x.2 := by
  unfold CLQT.tfPrFinalFwdBwd
  have e : (abcLists (B + 1) s).A_list.length - 1 = B := by simp [abcLists]
  rw [e, abc_dropLast]
  unfold tfPrTimes
  dsimp only
  rw [zip_seq]
  haveI : Inhabited (AbcResult n K) := ⟨⟨[], [], []⟩⟩
  simp only [bind_ok, List.mapM_map, Function.comp_def, mapM_seq, pure, Except.pure, Except.ok.injEq]
  obtain ⟨b, rfl⟩ := Nat.exists_eq_succ_of_ne_zero hB
  constructor
  · rintro ⟨_, ⟨R, rfl, hR⟩, r1, h1, a1, h2, a2, h3, a3, h4, rfl⟩
    rw [pyLast_seq, Except.ok.injEq] at h1
    subst h1
    exact ⟨(R, a1, a2, a3), ⟨hR, h2, h3, h4⟩, by simp [prGlueAbc, Function.comp_def]⟩
  · rintro ⟨⟨R, z⟩, ⟨hR, h2, h3, h4⟩, rfl⟩
    exact ⟨_, ⟨R, rfl, hR⟩, _, pyLast_seq _ _, _, h2, _, h3, _, h4, by simp [prGlueAbc, Function.comp_def]⟩

theorem CLQT.prFinalFwdBwd_glue {steps B : ℕ} (hB : B ≠ 0) (hs : steps ≠ 0) {s : ℕ → CAbc n K} {r : AbcResult n K} :
    P.prFinalFwdBwd steps (abcLists (B + 1) s) = .ok r ↔
    ∃ x : (ℕ → AbcResult n K) × CAbc n K, ((∀ q < B, P.seqFwdBwdPass 0 steps (some (P.T / B / steps))
      (some (q * steps * (P.T / B / steps))) (some (s q).1) (some (s q).2.1) (some (s q).2.2) = .ok (x.1 q)) ∧
      AbcLast (x.1 (B - 1)) x.2) ∧ r = prGlueAbc B x.1 x.2 := by
  rw [CLQT.prFinalFwdBwd_ok hB]
  simp only [pr_div hB, pr_div hs, Except.ok.injEq, exists_eq_left']
  have key : ∀ (q : ℕ) (r : AbcResult n K), P.seqFwdBwdPass 0 steps (some (P.T / B / steps))
      (some (q * steps * (P.T / B / steps))) (some (s q).1) (some (s q).2.1) (some (s q).2.2) = .ok r ↔
      ∃ α, α 0 = s q ∧ P.AbcSeq steps (P.T / B / steps) (q * steps * (P.T / B / steps)) α ∧ r = abcLists (steps + 1) α := by
    intro q r
    simp only [CLQT.seqFwdBwd_ok, CLQT.dtSeq_some, Except.ok.injEq, exists_eq_left', Option.getD_some]
  have glue : ∀ (R : ℕ → AbcResult n K) (α : ℕ → ℕ → CAbc n K) (z : CAbc n K), (∀ q < B, R q = abcLists (steps + 1) (α q)) →
      AbcLast (R (B - 1)) z → prGlueAbc B R z =
      ⟨((List.range B).map fun q => (List.range steps).map fun i => (α q i).1).flatten ++ [(α (B - 1) steps).1],
        ((List.range B).map fun q => (List.range steps).map fun i => (α q i).2.1).flatten ++ [(α (B - 1) steps).2.1],
        ((List.range B).map fun q => (List.range steps).map fun i => (α q i).2.2).flatten ++ [(α (B - 1) steps).2.2]⟩ := by
    intro R α z hR hz
    rw [hR (B - 1) (by omega), abcLast_lists] at hz
    unfold prGlueAbc
    rw [seq_congr (f := fun q => (R q).A_list.dropLast) fun q hq => by rw [hR q hq],
      seq_congr (f := fun q => (R q).b_list.dropLast) fun q hq => by rw [hR q hq],
      seq_congr (f := fun q => (R q).C_list.dropLast) fun q hq => by rw [hR q hq], hz]
    simp only [abcLists, dropLast_seq]
  constructor
  · rintro ⟨α, h, rfl⟩
    have hl : AbcLast (abcLists (steps + 1) (α (B - 1))) (α (B - 1) steps) := (abcLast_lists _ _).2 rfl
    exact ⟨(fun q => abcLists (steps + 1) (α q), α (B - 1) steps), ⟨fun q hq => (key q _).2 ⟨α q, (h q hq).1, (h q hq).2, rfl⟩, hl⟩,
      (glue (fun q => abcLists (steps + 1) (α q)) α _ (fun _ _ => rfl) hl).symm⟩
  · rintro ⟨⟨R, z⟩, ⟨hR, hz⟩, rfl⟩
    have := fun q hq => (key q _).1 (hR q hq)
    choose! α hα using this
    exact ⟨α, fun q hq => ⟨(hα q hq).1, (hα q hq).2.1⟩, glue R α z (fun q hq => (hα q hq).2.2) hz⟩

theorem CLQT.SolvRel.prFinalFwdBwd (h : P.SolvRel d) {B : ℕ} (hB : B ≠ 0) {steps : ℕ} (hs : steps ≠ 0) (s : ℕ → CAbc n K) :
    PyRel d Eq (P.prFinalFwdBwd steps (abcLists (B + 1) s)) (P.tfPrFinalFwdBwd steps (abcLists (B + 1) s)) :=
  PyRel.of_char (fun _ => CLQT.prFinalFwdBwd_glue hB hs) (fun _ => CLQT.tfPrFinalFwdBwd_ok hB)
    (fun hd _ ⟨hR, hl⟩ => ⟨fun q hq => (h.seqFwdBwd _ _ _ _ _ _ _).fwdEq hd (hR q hq), hl⟩)
    (fun hd _ ⟨hR, hl⟩ => ⟨fun q hq => (h.seqFwdBwd _ _ _ _ _ _ _).bwdEq hd (hR q hq), hl⟩) fun _ => rfl

theorem CLQT.SolvRel.prFwdBwd (h : P.SolvRel d) {B : ℕ} (hB : B ≠ 0) {steps : ℕ} (hs : steps ≠ 0) {niter : ℕ} (hn : niter ≠ 0)
    (x0 : Fin n → K) : PyRel d Eq (P.prFwdBwdPass B steps x0 (some niter)) (P.tfPrFwdBwd B steps niter x0) := by
  unfold CLQT.prFwdBwdPass CLQT.tfPrFwdBwd
  dsimp only [Option.getD_some]
  refine ((h.prInitFwdBwd hB x0).and_left (Q := fun L => ∃ f, L = abcLists (B + 1) f) ?_).bind ?_
  · intro x hx
    obtain ⟨_, _, s, _, _, rfl⟩ := CLQT.prInitFwdBwd_ok.1 hx
    exact ⟨s, rfl⟩
  · rintro _ _ ⟨rfl, f, rfl⟩
    rw [← bind_assoc, tfScanFwdM_last _ (by simpa using hn)]
    refine PyRel.bind (R := fun x y => x = y ∧ ∃ f g : ℕ → CAbc n K, x = (abcLists (B + 1) f, abcLists (B + 1) g)) ?_ ?_
    · refine PyRel.foldlM (T := fun _ _ => True) ?_ (List.forall₂_same.2 fun _ _ => trivial) ⟨rfl, f, f, rfl⟩
      rintro _ _ _ _ ⟨rfl, s, g, rfl⟩ _
      unfold CLQT.prAbcIter CLQT.tfPrAbcBody
      refine ((h.prDenseFwdBwd hB hs s).and_left (Q := fun L => ∃ f, L = abcLists (B + 1) f) ?_).bind ?_
      · intro x hx
        obtain ⟨_, _, _, _, f, _, _, rfl⟩ := CLQT.prDenseFwdBwd_ok.1 hx
        exact ⟨f, rfl⟩
      · rintro _ _ ⟨rfl, f, rfl⟩
        refine (h.prCoarseFwdBwd hB f g).and_left fun x hx => ?_
        obtain ⟨_, _, s', g', _, _, _, rfl⟩ := CLQT.prCoarseFwdBwd_ok.1 hx
        exact ⟨s', g', rfl⟩
    · rintro _ _ ⟨rfl, s, g, rfl⟩
      exact h.prFinalFwdBwd hB hs s

end Verif
