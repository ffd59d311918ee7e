import Verif.Proof.PararealTF

/-! Parareal in TensorFlow: the forward pass. -/

namespace Verif

open Matrix

variable {n m : ℕ} {K : Type} [Field K] [LinearOrder K] [IsStrictOrderedRing K]
variable {P : CLQT n m K}

omit [IsStrictOrderedRing K] in
theorem CLQT.tfSeqForward_ok {u_zoh : Bool} {steps : ℕ} (hs : steps ≠ 0) {κ : ℕ → Matrix (Fin m) (Fin n) K × (Fin m → K)}
    {dt t0 : K} {x0 : Fin n → K} {r : List (Fin n → K) × List (Fin m → K)} :
    P.tfSeqForward x0 ((List.range steps).map fun k => (κ k).1) ((List.range steps).map fun k => (κ k).2) dt t0 u_zoh = .ok r ↔
    ∃ ξ, ξ 0 = x0 ∧ P.FwSeq u_zoh steps dt t0 κ ξ ∧
      r = ((List.range (steps + 1)).map ξ, (List.range steps).map fun k => -(κ k).1 *ᵥ ξ k + (κ k).2) := by
  have hne : ((List.range steps).map fun k => (κ k).2) ≠ [] := by simpa using hs
  constructor
  · intro h
    obtain ⟨x, hx, rfl⟩ := (P.tfSeqForward_rel false u_zoh x0 dt t0 (by simp) hne).bwd rfl h
    simp only [CLQT.seqForward_ok, CLQT.dtSeq_some, Except.ok.injEq, exists_eq_left', Option.getD_some] at hx
    obtain ⟨ξ, h0, h1, rfl⟩ := hx
    exact ⟨ξ, h0, h1, rfl⟩
  · rintro ⟨ξ, h0, h1, rfl⟩
    obtain ⟨y, hy, e⟩ := (P.tfSeqForward_rel true u_zoh x0 (Kxs := (List.range steps).map fun k => (κ k).1) dt t0 (by simp) hne).fwd rfl
      (x := ((List.range steps).map fun k => -(κ k).1 *ᵥ ξ k + (κ k).2, (List.range (steps + 1)).map ξ)) (by
        simp only [CLQT.seqForward_ok, CLQT.dtSeq_some, Except.ok.injEq, exists_eq_left', Option.getD_some]
        exact ⟨ξ, h0, h1, rfl⟩)
    rw [hy, ← e]
    rfl

theorem mapM_first {β : Type} (f : ℕ → ℕ → β) (B : ℕ) {s : ℕ} (hs : s ≠ 0) :
    (((List.range B).map fun q => (List.range s).map (f q)).mapM fun l => pyGet l 0) = .ok ((List.range B).map fun q => f q 0) := by
  haveI : Inhabited β := ⟨f 0 0⟩
  rw [List.mapM_map, mapM_seq]
  exact ⟨_, rfl, fun q _ => pyGet_seq _ (by omega)⟩

theorem CLQT.tfPrInitForward_rel (P : CLQT n m K) (d u_zoh : Bool) {B steps : ℕ} (hB : B ≠ 0) (hs : steps ≠ 0) (x0 : Fin n → K)
    (κ : ℕ → Matrix (Fin m) (Fin n) K × (Fin m → K)) :
    PyRel d Eq (P.prInitForward B x0 (gainLists (B * steps) κ).1 (gainLists (B * steps) κ).2 u_zoh)
      (P.tfPrInitForward B steps x0 (gainLists (B * steps) κ).1 (gainLists (B * steps) κ).2 u_zoh) := by
  refine PyRel.of_char (ι := ℕ → Fin n → K) (A := fun ξ => ξ 0 = x0 ∧ P.FwSeq u_zoh B (P.T / B) 0 (fun i => κ (i * steps)) ξ)
    (B := fun ξ => ξ 0 = x0 ∧ P.FwSeq u_zoh B (P.T / B) 0 (fun i => κ (i * steps)) ξ)
    (g := fun ξ => (List.range (B + 1)).map ξ) (g' := fun ξ => (List.range (B + 1)).map ξ) (fun r => ?_) (fun r => ?_)
    (fun _ _ h => h) (fun _ _ h => h) fun _ => rfl
  · rw [CLQT.prInitForward_ok hB hs]
    simp only [pr_div hB, Except.ok.injEq, exists_eq_left', and_assoc]
  · unfold CLQT.tfPrInitForward gainLists
    dsimp only
    rw [tfReshape_seq, tfReshape_seq]
    simp only [bind_ok, Except.ok.injEq, exists_eq_left', mapM_first _ _ hs, add_zero, pure, Except.pure]
    simp only [CLQT.tfSeqForward_ok (κ := fun i => κ (i * steps)) hB]
    constructor
    · rintro ⟨_, ⟨ξ, h0, h1, rfl⟩, rfl⟩
      exact ⟨ξ, ⟨h0, h1⟩, rfl⟩
    · rintro ⟨ξ, ⟨h0, h1⟩, rfl⟩
      exact ⟨_, ⟨ξ, h0, h1, rfl⟩, rfl⟩

omit [IsStrictOrderedRing K] in
theorem CLQT.tfFwProp_ok {u_zoh : Bool} {steps : ℕ} (hs : steps ≠ 0) {κ : ℕ → Matrix (Fin m) (Fin n) K × (Fin m → K)}
    {dt t0 : K} {x0 x : Fin n → K} :
    (∃ r, P.tfSeqForward x0 ((List.range steps).map fun k => (κ k).1) ((List.range steps).map fun k => (κ k).2) dt t0 u_zoh = .ok r ∧
      pyLast r.1 = .ok x) ↔ P.fwProp u_zoh steps dt t0 κ x0 = .ok x := by
  simp only [CLQT.tfSeqForward_ok hs, CLQT.fwProp_ok]
  constructor
  · rintro ⟨_, ⟨ξ, h0, h1, rfl⟩, hx⟩
    rw [pyLast_seq, Except.ok.injEq] at hx
    exact ⟨ξ, h0, h1, hx⟩
  · rintro ⟨ξ, h0, h1, rfl⟩
    exact ⟨_, ⟨ξ, h0, h1, rfl⟩, pyLast_seq _ _⟩

omit [IsStrictOrderedRing K] in
theorem CLQT.tfPrDenseForward_ok {u_zoh : Bool} {steps B : ℕ} (hs : steps ≠ 0) {s : ℕ → Fin n → K}
    {κ : ℕ → Matrix (Fin m) (Fin n) K × (Fin m → K)} {L : List (Fin n → K)} :
    P.tfPrDenseForward steps ((List.range (B + 1)).map s) (gainLists (B * steps) κ).1 (gainLists (B * steps) κ).2 u_zoh = .ok L ↔
    ∃ f : ℕ → Fin n → K, (f 0 = s 0 ∧ ∀ q < B, P.fwProp u_zoh steps (P.T / ((B * steps : ℕ) : K))
      (q * steps * (P.T / ((B * steps : ℕ) : K))) (fun i => κ (q * steps + i)) (s q) = .ok (f (q + 1))) ∧
      L = (List.range (B + 1)).map f := by
  unfold CLQT.tfPrDenseForward gainLists
  have e : ((List.range (B + 1)).map s).length - 1 = B := by simp
  rw [e, dropLast_seq]
  unfold tfPrTimes
  dsimp only
  rw [tfReshape_seq, tfReshape_seq]
  haveI : Inhabited (List (Fin n → K) × List (Fin m → K)) := ⟨([], [])⟩
  haveI : Inhabited (Fin n → K) := ⟨0⟩
  simp only [bind_ok, Except.ok.injEq, exists_eq_left', pure, Except.pure, zip_seq, List.mapM_map, Function.comp_def, mapM_seq,
    pyGet_seq s (show 0 < B + 1 by omega)]
  constructor
  · rintro ⟨_, ⟨R, rfl, hR⟩, xs, h1, rfl⟩
    rw [List.mapM_map, mapM_seq] at h1
    obtain ⟨f, rfl, hf⟩ := h1
    refine ⟨fun q => match q with | 0 => s 0 | q + 1 => f q, ⟨rfl, fun q hq => ?_⟩, ?_⟩
    · exact (CLQT.tfFwProp_ok (κ := fun i => κ (q * steps + i)) hs).1 ⟨R q, hR q hq, hf q hq⟩
    · rw [List.range_succ_eq_map]
      simp [Function.comp_def]
  · rintro ⟨f, ⟨h0, hf⟩, rfl⟩
    have hf' : ∀ q, ∃ r : List (Fin n → K) × List (Fin m → K), q < B → P.tfSeqForward (s q)
        ((List.range steps).map fun k => (κ (q * steps + k)).1) ((List.range steps).map fun k => (κ (q * steps + k)).2)
        (P.T / ((B * steps : ℕ) : K)) (q * steps * (P.T / ((B * steps : ℕ) : K))) u_zoh = .ok r ∧ pyLast r.1 = .ok (f (q + 1)) := by
      intro q
      by_cases hq : q < B
      · obtain ⟨r, h⟩ := (CLQT.tfFwProp_ok hs).2 (hf q hq)
        exact ⟨r, fun _ => h⟩
      · exact ⟨default, fun h => absurd h hq⟩
    choose R hR using hf'
    refine ⟨(List.range B).map R, ⟨R, rfl, fun q hq => (hR q hq).1⟩, (List.range B).map (fun q => f (q + 1)), ?_, ?_⟩
    · rw [List.mapM_map, mapM_seq]
      exact ⟨_, rfl, fun q hq => (hR q hq).2⟩
    · rw [List.range_succ_eq_map]
      simp [Function.comp_def, h0]

theorem CLQT.tfPrDenseForward_rel (P : CLQT n m K) (d u_zoh : Bool) {B steps : ℕ} (hB : B ≠ 0) (hs : steps ≠ 0) (s : ℕ → Fin n → K)
    (κ : ℕ → Matrix (Fin m) (Fin n) K × (Fin m → K)) :
    PyRel d Eq (P.prDenseForward steps ((List.range (B + 1)).map s) (gainLists (B * steps) κ).1 (gainLists (B * steps) κ).2 u_zoh)
      (P.tfPrDenseForward steps ((List.range (B + 1)).map s) (gainLists (B * steps) κ).1 (gainLists (B * steps) κ).2 u_zoh) := by
  refine PyRel.of_char (ι := ℕ → Fin n → K) (A := fun f => f 0 = s 0 ∧ ∀ q < B, P.fwProp u_zoh steps (P.T / ((B * steps : ℕ) : K))
      (q * steps * (P.T / ((B * steps : ℕ) : K))) (fun i => κ (q * steps + i)) (s q) = .ok (f (q + 1)))
    (g := fun ξ => (List.range (B + 1)).map ξ) (fun r => ?_) (fun r => CLQT.tfPrDenseForward_ok hs)
    (fun _ _ h => h) (fun _ _ h => h) fun _ => rfl
  rw [CLQT.prDenseForward_ok]
  simp only [pr_div hB, pr_div hs, Except.ok.injEq, exists_eq_left', pr_div', and_assoc]

theorem tfStride_seq {β : Type} (f : ℕ → β) {B steps : ℕ} (hs : steps ≠ 0) :
    tfStride ((List.range (B * steps)).map f) steps = .ok ((List.range B).map fun i => f (i * steps)) := pyStride_seq f hs

theorem CLQT.tfPrCoarseForward_rel (P : CLQT n m K) (d u_zoh : Bool) {B steps : ℕ} (hB : B ≠ 0) (hs : steps ≠ 0)
    (f g : ℕ → Fin n → K) (κ : ℕ → Matrix (Fin m) (Fin n) K × (Fin m → K)) :
    PyRel d Eq (P.prCoarseForward ((List.range (B + 1)).map f) ((List.range (B + 1)).map g) (gainLists (B * steps) κ).1
      (gainLists (B * steps) κ).2 u_zoh)
      (P.tfPrCoarseForward steps ((List.range (B + 1)).map f) ((List.range (B + 1)).map g) (gainLists (B * steps) κ).1
      (gainLists (B * steps) κ).2 u_zoh) := by
  refine PyRel.of_char (ι := ℕ → (Fin n → K) × (Fin n → K)) (A := fun w => (w 0 = (f 0, f 0)) ∧
      ∀ q < B, P.fwProp u_zoh 1 (P.T / B) (q * (P.T / B)) (fun i => κ (q * steps + i)) (w q).1 = .ok (w (q + 1)).2 ∧
        (w (q + 1)).1 = (w (q + 1)).2 + f (q + 1) - g (q + 1))
    (B := fun w => (w 0 = (f 0, f 0)) ∧
      ∀ q < B, P.fwProp u_zoh 1 (P.T / B) (q * (P.T / B)) (fun i => κ (q * steps + i)) (w q).1 = .ok (w (q + 1)).2 ∧
        (w (q + 1)).1 = (w (q + 1)).2 + f (q + 1) - g (q + 1))
    (g := fun w => ((List.range (B + 1)).map fun k => (w k).1, (List.range (B + 1)).map fun k => (w k).2))
    (g' := fun w => ((List.range (B + 1)).map fun k => (w k).1, (List.range (B + 1)).map fun k => (w k).2))
    (fun r => ?_) (fun r => ?_) (fun _ _ h => h) (fun _ _ h => h) fun _ => rfl
  · rw [CLQT.prCoarseForward_ok hB hs]
    simp only [pr_div hB, Except.ok.injEq, exists_eq_left']
    constructor
    · rintro ⟨s', g', h0, h1, h2, rfl⟩
      exact ⟨fun k => (s' k, g' k), ⟨Prod.ext h0 h1, h2⟩, rfl⟩
    · rintro ⟨w, ⟨h0, h2⟩, rfl⟩
      exact ⟨fun k => (w k).1, fun k => (w k).2, congrArg Prod.fst h0, congrArg Prod.snd h0, h2, rfl⟩
  · unfold CLQT.tfPrCoarseForward gainLists
    have e : ((List.range (B + 1)).map f).length - 1 = B := by simp
    rw [e, tail_seq, tail_seq]
    unfold tfPrCoarseTimes
    dsimp only
    rw [tfStride_seq _ hs, tfStride_seq _ hs]
    haveI : Inhabited ((Fin n → K) × (Fin n → K)) := ⟨(0, 0)⟩
    have body : ∀ (c : (Fin n → K) × (Fin n → K)) (k : ℕ) (c' : (Fin n → K) × (Fin n → K)),
        P.tfPrCoarseFwBody u_zoh (P.T / B) c ((k : K) * (P.T / B), (f (k + 1), g (k + 1)), ((κ (k * steps)).1, (κ (k * steps)).2)) = .ok c' ↔
        P.fwProp u_zoh 1 (P.T / B) (k * (P.T / B)) (fun i => κ (k * steps + i)) c.1 = .ok c'.2 ∧ c'.1 = c'.2 + f (k + 1) - g (k + 1) := by
      intro c k c'
      rw [← CLQT.tfFwProp_ok (by omega)]
      unfold CLQT.tfPrCoarseFwBody
      simp only [bind_ok, pure, Except.pure, Except.ok.injEq]
      constructor
      · rintro ⟨r, hr, a, ha, rfl⟩
        exact ⟨⟨r, hr, ha⟩, rfl⟩
      · rintro ⟨⟨r, hr, ha⟩, h2⟩
        refine ⟨r, hr, _, ha, Prod.ext h2.symm rfl⟩
    simp only [bind_ok, Except.ok.injEq, exists_eq_left', pure, Except.pure, zip_seq, pyGet_seq f (show 0 < B + 1 by omega)]
    constructor
    · rintro ⟨r, hr, rfl⟩
      obtain ⟨w, h0, h1, rfl⟩ := (tfScanFwdM_ok _ _ _ _).1 hr
      refine ⟨w, ⟨h0, fun q hq => (body _ _ _).1 (h1 q hq)⟩, ?_⟩
      rw [List.range_succ_eq_map]
      simp [h0, Function.comp_def]
    · rintro ⟨w, ⟨h0, h2⟩, rfl⟩
      refine ⟨_, (tfScanFwdM_ok _ _ _ _).2 ⟨w, h0, fun q hq => (body _ _ _).2 (h2 q hq), rfl⟩, ?_⟩
      rw [List.range_succ_eq_map]
      simp [h0, Function.comp_def]

theorem CLQT.tfPrFinalForward_rel (P : CLQT n m K) (d u_zoh : Bool) {B steps : ℕ} (hB : B ≠ 0) (hs : steps ≠ 0) (s : ℕ → Fin n → K)
    (κ : ℕ → Matrix (Fin m) (Fin n) K × (Fin m → K)) :
    PyRel d (fun a b => a.swap = b)
      (P.prFinalForward steps ((List.range (B + 1)).map s) (gainLists (B * steps) κ).1 (gainLists (B * steps) κ).2 u_zoh)
      (P.tfPrFinalForward steps ((List.range (B + 1)).map s) (gainLists (B * steps) κ).1 (gainLists (B * steps) κ).2 u_zoh) := by
  refine PyRel.of_char (ι := ℕ → ℕ → Fin n → K) (A := fun ξ => ∀ q < B, ξ q 0 = s q ∧ P.FwSeq u_zoh steps (P.T / B / steps)
      (q * steps * (P.T / B / steps)) (fun i => κ (q * steps + i)) (ξ q))
    (B := fun ξ => ∀ q < B, ξ q 0 = s q ∧ P.FwSeq u_zoh steps (P.T / B / steps)
      (q * steps * (P.T / B / steps)) (fun i => κ (q * steps + i)) (ξ q))
    (g := fun ξ => (((List.range B).map fun q => (List.range steps).map fun i =>
          -(κ (q * steps + i)).1 *ᵥ ξ q i + (κ (q * steps + i)).2).flatten,
        ((List.range B).map fun q => (List.range steps).map fun i => ξ q i).flatten ++ [ξ (B - 1) steps]))
    (g' := fun ξ => (((List.range B).map fun q => (List.range steps).map fun i => ξ q i).flatten ++ [ξ (B - 1) steps],
      ((List.range B).map fun q => (List.range steps).map fun i =>
          -(κ (q * steps + i)).1 *ᵥ ξ q i + (κ (q * steps + i)).2).flatten)) (fun r => ?_) (fun r => ?_)
    (fun _ _ h => h) (fun _ _ h => h) fun _ => rfl
  · rw [CLQT.prFinalForward_ok hB]
    simp only [pr_div hB, pr_div hs, Except.ok.injEq, exists_eq_left']
  · unfold CLQT.tfPrFinalForward gainLists
    have e : ((List.range (B + 1)).map s).length - 1 = B := by simp
    rw [e, dropLast_seq]
    unfold tfPrTimes
    dsimp only
    rw [pr_div', tfReshape_seq, tfReshape_seq]
    haveI : Inhabited (List (Fin n → K) × List (Fin m → K)) := ⟨([], [])⟩
    simp only [bind_ok, Except.ok.injEq, exists_eq_left', pure, Except.pure, zip_seq, List.mapM_map, Function.comp_def, mapM_seq]
    obtain ⟨b, rfl⟩ := Nat.exists_eq_succ_of_ne_zero hB
    have fin : ∀ ξ : ℕ → ℕ → Fin n → K, (List.map (fun r : List (Fin n → K) × List (Fin m → K) => r.1.dropLast)
        ((List.range (b + 1)).map fun q => ((List.range (steps + 1)).map (ξ q), (List.range steps).map fun i =>
          -(κ (q * steps + i)).1 *ᵥ ξ q i + (κ (q * steps + i)).2))) = (List.range (b + 1)).map fun q => (List.range steps).map (ξ q) := by
      intro ξ
      rw [List.map_map]
      exact seq_congr fun q _ => dropLast_seq _ _
    constructor
    · rintro ⟨_, ⟨R, rfl, hR⟩, r1, h1, x, h2, rfl⟩
      have : ∀ q, ∃ ξ : ℕ → Fin n → K, q < b + 1 → (ξ 0 = s q ∧ P.FwSeq u_zoh steps (P.T / (b + 1 : ℕ) / steps)
          (q * steps * (P.T / (b + 1 : ℕ) / steps)) (fun i => κ (q * steps + i)) ξ) ∧ R q = ((List.range (steps + 1)).map ξ,
          (List.range steps).map fun i => -(κ (q * steps + i)).1 *ᵥ ξ i + (κ (q * steps + i)).2) := by
        intro q
        by_cases hq : q < b + 1
        · obtain ⟨ξ, h0, h1, h2⟩ := (CLQT.tfSeqForward_ok (κ := fun i => κ (q * steps + i)) hs).1 (hR q hq)
          exact ⟨ξ, fun _ => ⟨⟨h0, h1⟩, h2⟩⟩
        · exact ⟨fun _ => 0, fun h => absurd h hq⟩
      choose ξ hξ using this
      rw [pyLast_seq, Except.ok.injEq] at h1
      subst h1
      rw [(hξ b (by omega)).2, pyLast_seq, Except.ok.injEq] at h2
      refine ⟨ξ, fun q hq => (hξ q hq).1, ?_⟩
      rw [seq_congr (f := R) fun q hq => (hξ q hq).2, fin, List.map_map, ← h2]
      rfl
    · rintro ⟨ξ, h, rfl⟩
      refine ⟨(List.range (b + 1)).map fun q => ((List.range (steps + 1)).map (ξ q), (List.range steps).map fun i =>
          -(κ (q * steps + i)).1 *ᵥ ξ q i + (κ (q * steps + i)).2), ⟨_, rfl, fun q hq =>
          (CLQT.tfSeqForward_ok (κ := fun i => κ (q * steps + i)) hs).2 ⟨ξ q, (h q hq).1, (h q hq).2, rfl⟩⟩, _, pyLast_seq _ _, _,
          pyLast_seq _ _, ?_⟩
      rw [fin, List.map_map]
      rfl

theorem CLQT.tfPrForward_rel (P : CLQT n m K) (d u_zoh : Bool) {B steps niter : ℕ} (hB : B ≠ 0) (hs : steps ≠ 0) (hn : niter ≠ 0)
    (x0 : Fin n → K) (κ : ℕ → Matrix (Fin m) (Fin n) K × (Fin m → K)) :
    PyRel d (fun a b => a.swap = b)
      (P.prForwardPass B steps x0 (gainLists (B * steps) κ).1 (gainLists (B * steps) κ).2 u_zoh (some niter))
      (P.tfPrForward B steps niter x0 (gainLists (B * steps) κ).1 (gainLists (B * steps) κ).2 u_zoh) := by
  unfold CLQT.prForwardPass CLQT.tfPrForward
  dsimp only [Option.getD_some]
  refine ((P.tfPrInitForward_rel d u_zoh hB hs x0 κ).and_left (Q := fun L => ∃ f : ℕ → Fin n → K, L = (List.range (B + 1)).map f) ?_).bind ?_
  · intro x hx
    obtain ⟨_, _, f, _, _, rfl⟩ := (CLQT.prInitForward_ok hB hs).1 hx
    exact ⟨f, rfl⟩
  · rintro _ _ ⟨rfl, f, rfl⟩
    rw [← bind_assoc, tfScanFwdM_last _ (by simpa using hn)]
    refine PyRel.bind (R := fun x y => x = y ∧ ∃ f g : ℕ → Fin n → K, x = ((List.range (B + 1)).map f, (List.range (B + 1)).map g)) ?_ ?_
    · refine PyRel.foldlM (T := fun _ _ => True) ?_ (List.forall₂_same.2 fun _ _ => trivial) ⟨rfl, f, f, rfl⟩
      rintro _ _ _ _ ⟨rfl, s, g, rfl⟩ _
      unfold CLQT.prFwIter CLQT.tfPrFwBody
      refine ((P.tfPrDenseForward_rel d u_zoh hB hs s κ).and_left (Q := fun L => ∃ f : ℕ → Fin n → K, L = (List.range (B + 1)).map f) ?_).bind ?_
      · intro x hx
        obtain ⟨_, _, _, _, f, _, _, rfl⟩ := CLQT.prDenseForward_ok.1 hx
        exact ⟨f, rfl⟩
      · rintro _ _ ⟨rfl, f, rfl⟩
        refine (P.tfPrCoarseForward_rel d u_zoh hB hs f g κ).and_left fun x hx => ?_
        obtain ⟨_, _, s', g', _, _, _, rfl⟩ := (CLQT.prCoarseForward_ok hB hs).1 hx
        exact ⟨s', g', rfl⟩
    · rintro _ _ ⟨rfl, s, g, rfl⟩
      exact P.tfPrFinalForward_rel d u_zoh hB hs s κ

end Verif
