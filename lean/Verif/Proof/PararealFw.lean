import Verif.Proof.PararealBw

/-! Parareal: the forward pass. -/

namespace Verif

open Matrix

variable {n m : ℕ} {K : Type} [Field K] [LinearOrder K]

/-- Gains as lists. -/
def gainLists (N : ℕ) (κ : ℕ → Matrix (Fin m) (Fin n) K × (Fin m → K)) : List (Matrix (Fin m) (Fin n) K) × List (Fin m → K) :=
  ((List.range N).map fun k => (κ k).1, (List.range N).map fun k => (κ k).2)

theorem exists_gains {Ks : List (Matrix (Fin m) (Fin n) K)} {ds : List (Fin m → K)} {N : ℕ} (h1 : Ks.length = N)
    (h2 : ds.length = N) : ∃ κ, Ks = (gainLists N κ).1 ∧ ds = (gainLists N κ).2 := by
  haveI : Inhabited (Matrix (Fin m) (Fin n) K) := ⟨0⟩
  haveI : Inhabited (Fin m → K) := ⟨0⟩
  obtain ⟨f, hf⟩ := exists_seq Ks
  obtain ⟨g, hg⟩ := exists_seq ds
  rw [h1] at hf
  rw [h2] at hg
  exact ⟨fun k => (f k, g k), hf, hg⟩

theorem pySlice_gain {β γ : Type} (κ : ℕ → β) (h : β → γ) {a b N : ℕ} (hb : a + b ≤ N) :
    pySlice ((List.range N).map fun k => h (κ k)) a (a + b) = (List.range b).map fun i => h (κ (a + i)) := by
  have := pySlice_seq (fun k => h (κ k)) (Nat.le_add_right a b) hb
  rwa [Nat.add_sub_cancel_left] at this

/-- Propagation of the state over `steps` steps from time `t1`. -/
def CLQT.fwProp (P : CLQT n m K) (u_zoh : Bool) (steps : ℕ) (dt t1 : K) (κ : ℕ → Matrix (Fin m) (Fin n) K × (Fin m → K))
    (x : Fin n → K) : Py (Fin n → K) := do
  let r ← P.seqForwardPass x (gainLists steps κ).1 (gainLists steps κ).2 (some dt) (some t1) u_zoh
  pyLast r.2

theorem CLQT.fwProp_ok {P : CLQT n m K} {u_zoh : Bool} {steps : ℕ} {dt t1 : K}
    {κ : ℕ → Matrix (Fin m) (Fin n) K × (Fin m → K)} {x x' : Fin n → K} :
    P.fwProp u_zoh steps dt t1 κ x = .ok x' ↔ ∃ ξ, ξ 0 = x ∧ P.FwSeq u_zoh steps dt t1 κ ξ ∧ ξ steps = x' := by
  unfold CLQT.fwProp gainLists
  simp only [bind_ok, CLQT.seqForward_ok, CLQT.dtSeq_some, Except.ok.injEq, exists_eq_left', Option.getD_some]
  constructor
  · rintro ⟨r, ⟨ξ, h0, hs, rfl⟩, hx⟩
    rw [pyLast_seq, Except.ok.injEq] at hx
    exact ⟨ξ, h0, hs, hx⟩
  · rintro ⟨ξ, h0, hs, rfl⟩
    exact ⟨_, ⟨ξ, h0, hs, rfl⟩, pyLast_seq _ _⟩

theorem CLQT.fwF_total (P : CLQT n m K) (u_zoh : Bool) (dt t : K) (g : Matrix (Fin m) (Fin n) K × (Fin m → K)) (x : Fin n → K) :
    ∃ y, P.fwF u_zoh dt t g x = .ok y := by
  unfold CLQT.fwF
  refine rk4T_total (fun x t => ?_) _ _ _
  unfold CLQT.fwOdeF
  cases u_zoh
  · exact ⟨_, rfl⟩
  · exact ⟨_, rfl⟩

theorem CLQT.fwSeq_total (P : CLQT n m K) (u_zoh : Bool) (steps : ℕ) (dt t0 : K)
    (κ : ℕ → Matrix (Fin m) (Fin n) K × (Fin m → K)) (x : Fin n → K) : ∃ ξ, ξ 0 = x ∧ P.FwSeq u_zoh steps dt t0 κ ξ := by
  choose F hF using fun (k : ℕ) x => P.fwF_total u_zoh dt (t0 + k * dt) (κ k) x
  exact ⟨fun k => Nat.rec x (fun k y => F k y) k, rfl, fun k _ => hF k _⟩

theorem CLQT.fwProp_total (P : CLQT n m K) (u_zoh : Bool) (steps : ℕ) (dt t1 : K)
    (κ : ℕ → Matrix (Fin m) (Fin n) K × (Fin m → K)) (x : Fin n → K) : ∃ x', P.fwProp u_zoh steps dt t1 κ x = .ok x' := by
  obtain ⟨ξ, h0, hs⟩ := P.fwSeq_total u_zoh steps dt t1 κ x
  exact ⟨_, CLQT.fwProp_ok.2 ⟨ξ, h0, hs, rfl⟩⟩

theorem pyStride_seq {β : Type} (f : ℕ → β) {B steps : ℕ} (hs : steps ≠ 0) :
    pyStride ((List.range (B * steps)).map f) steps = .ok ((List.range B).map fun i => f (i * steps)) := by
  unfold pyStride
  have e : (((List.range (B * steps)).map f).length + steps - 1) / steps = B := by
    rw [List.length_map, List.length_range]
    rw [show B * steps + steps - 1 = (steps - 1) + B * steps by omega, Nat.add_mul_div_right _ _ (by omega),
      Nat.div_eq_of_lt (by omega), zero_add]
  rw [if_neg hs, e]
  refine mapM_range_of fun i hi => ?_
  have : (i + 1) * steps ≤ B * steps := Nat.mul_le_mul_right _ hi
  rw [Nat.succ_mul] at this
  exact pyGet_seq f (by omega)

/-- The coarse gains of block `q`. -/
theorem CLQT.FwSeq.coarse {P : CLQT n m K} {u_zoh : Bool} {B steps : ℕ} {D : K}
    {κ : ℕ → Matrix (Fin m) (Fin n) K × (Fin m → K)} {ξ : ℕ → Fin n → K}
    (h : P.FwSeq u_zoh B D 0 (fun i => κ (i * steps)) ξ) {q : ℕ} (hq : q < B) :
    P.fwProp u_zoh 1 D (q * D) (fun i => κ (q * steps + i)) (ξ q) = .ok (ξ (q + 1)) := by
  refine CLQT.fwProp_ok.2 ⟨fun i => ξ (q + i), rfl, fun i hi => ?_, rfl⟩
  obtain rfl : i = 0 := by omega
  have := h q hq
  simp only [zero_add] at this
  simpa using this

theorem CLQT.prInitForward_ok {P : CLQT n m K} {u_zoh : Bool} {B steps : ℕ} {x0 : Fin n → K} (hB : B ≠ 0) (hs : steps ≠ 0)
    {κ : ℕ → Matrix (Fin m) (Fin n) K × (Fin m → K)} {L : List (Fin n → K)} :
    P.prInitForward B x0 (gainLists (B * steps) κ).1 (gainLists (B * steps) κ).2 u_zoh = .ok L ↔
    ∃ D, pyDiv P.T B = .ok D ∧ ∃ ξ, ξ 0 = x0 ∧ P.FwSeq u_zoh B D 0 (fun i => κ (i * steps)) ξ ∧
      L = (List.range (B + 1)).map ξ := by
  unfold CLQT.prInitForward
  have e : (gainLists (B * steps) κ).1.length / B = steps := by
    simp [gainLists, Nat.mul_div_cancel_left _ (Nat.pos_of_ne_zero hB)]
  have e1 : pyStride (gainLists (B * steps) κ).1 steps = .ok ((List.range B).map fun i => (κ (i * steps)).1) :=
    pyStride_seq _ hs
  have e2 : pyStride (gainLists (B * steps) κ).2 steps = .ok ((List.range B).map fun i => (κ (i * steps)).2) :=
    pyStride_seq _ hs
  simp only [hB, if_false, e, e1, e2]
  simp only [bind_ok, pure, Except.pure, Except.ok.injEq, exists_eq_left', exists_const]
  constructor
  · rintro ⟨r, hr, rfl⟩
    obtain ⟨D, hD, ξ, h0, hs, rfl⟩ := CLQT.seqForward_ok.1 hr
    exact ⟨D, hD, ξ, h0, hs, rfl⟩
  · rintro ⟨D, hD, ξ, h0, hs, rfl⟩
    exact ⟨_, CLQT.seqForward_ok.2 ⟨D, hD, ξ, h0, hs, rfl⟩, rfl⟩

theorem CLQT.prDenseForward_ok {P : CLQT n m K} {u_zoh : Bool} {steps B : ℕ} {s : ℕ → Fin n → K}
    {κ : ℕ → Matrix (Fin m) (Fin n) K × (Fin m → K)} {L : List (Fin n → K)} :
    P.prDenseForward steps ((List.range (B + 1)).map s) (gainLists (B * steps) κ).1 (gainLists (B * steps) κ).2 u_zoh = .ok L ↔
    ∃ D, pyDiv P.T B = .ok D ∧ ∃ dt, pyDiv D steps = .ok dt ∧ ∃ f : ℕ → Fin n → K, f 0 = s 0 ∧
      (∀ q < B, P.fwProp u_zoh steps dt (q * steps * dt) (fun i => κ (q * steps + i)) (s q) = .ok (f (q + 1))) ∧
      L = (List.range (B + 1)).map f := by
  unfold CLQT.prDenseForward
  have e : ((List.range (B + 1)).map s).length - 1 = B := by simp
  rw [e, pyGet_seq _ (by omega)]
  haveI : Inhabited (Fin n → K) := ⟨0⟩
  have hk : ∀ (D : K) (k : ℕ), k < B → (do
      let x ← pyGet ((List.range (B + 1)).map s) k
      let t1 := (k : K) * steps * D
      let r ← P.seqForwardPass x (pySlice (gainLists (B * steps) κ).1 (k * steps) ((k + 1) * steps))
        (pySlice (gainLists (B * steps) κ).2 (k * steps) ((k + 1) * steps)) (some D) (some t1) u_zoh
      pyLast r.2 : Py (Fin n → K)) = P.fwProp u_zoh steps D (k * steps * D) (fun i => κ (k * steps + i)) (s k) := by
    intro D k hk
    have hle : (k + 1) * steps ≤ B * steps := Nat.mul_le_mul_right _ hk
    unfold CLQT.fwProp gainLists
    rw [pyGet_seq _ (by omega), Nat.succ_mul] at *
    rw [pySlice_gain κ Prod.fst hle, pySlice_gain κ Prod.snd hle]
    rfl
  simp only [bind_ok, Except.ok.injEq, exists_eq_left', pure, Except.pure]
  constructor
  · rintro ⟨D, hD, dt, hdt, rs, hrs, rfl⟩
    obtain ⟨f, rfl, hq⟩ := mapM_seq.1 hrs
    refine ⟨D, hD, dt, hdt, fun k => if k = 0 then s 0 else f (k - 1), by simp, fun q h => ?_, ?_⟩
    · rw [← hk dt q h]
      simpa using hq q h
    · rw [List.range_succ_eq_map]
      simp [Function.comp_def]
  · rintro ⟨D, hD, dt, hdt, f, h0, hq, rfl⟩
    refine ⟨D, hD, dt, hdt, (List.range B).map fun q => f (q + 1), mapM_seq.2 ⟨_, rfl, fun q h => ?_⟩, ?_⟩
    · rw [← hq q h, ← hk dt q h]
    · rw [List.range_succ_eq_map]
      simp [h0, Function.comp_def]

theorem CLQT.prCoarseFwLoop_ok {P : CLQT n m K} {u_zoh : Bool} {B steps : ℕ} (hs : steps ≠ 0) {D : K} {f g : ℕ → Fin n → K}
    {κ : ℕ → Matrix (Fin m) (Fin n) K × (Fin m → K)} {x0 : Fin n → K} : ∀ {k : ℕ}, k ≤ B → ∀ {st'},
    (List.range k).foldlM (P.prCoarseFwStep ((List.range (B + 1)).map f) ((List.range (B + 1)).map g)
      (gainLists (B * steps) κ).1 (gainLists (B * steps) κ).2 u_zoh steps D) (x0, [x0], [x0]) = .ok st' ↔
    ∃ s' g' : ℕ → Fin n → K, s' 0 = x0 ∧ g' 0 = x0 ∧
      (∀ q < k, P.fwProp u_zoh 1 D (q * D) (fun i => κ (q * steps + i)) (s' q) = .ok (g' (q + 1)) ∧
        s' (q + 1) = g' (q + 1) + f (q + 1) - g (q + 1)) ∧
      st' = (s' k, (List.range (k + 1)).map g', (List.range (k + 1)).map s')
  | 0, _, st' => by
    simp only [List.range_zero, List.foldlM_nil, pure, Except.pure, Except.ok.injEq]
    constructor
    · rintro rfl
      exact ⟨fun _ => x0, fun _ => x0, rfl, rfl, fun k hk => absurd hk (by omega), by simp⟩
    · rintro ⟨s', g', h0, h1, -, rfl⟩
      simp [h0, h1]
  | k + 1, hB, st' => by
    have hstep : ∀ st st', P.prCoarseFwStep ((List.range (B + 1)).map f) ((List.range (B + 1)).map g)
        (gainLists (B * steps) κ).1 (gainLists (B * steps) κ).2 u_zoh steps D st k = .ok st' ↔
        ∃ a, P.fwProp u_zoh 1 D (k * D) (fun i => κ (k * steps + i)) st.1 = .ok a ∧
          st' = (a + f (k + 1) - g (k + 1), st.2.1 ++ [a], st.2.2 ++ [a + f (k + 1) - g (k + 1)]) := by
      intro st st'
      have hle : (k + 1) * steps ≤ B * steps := Nat.mul_le_mul_right _ hB
      rw [Nat.succ_mul] at hle
      unfold CLQT.prCoarseFwStep CLQT.fwProp gainLists
      dsimp only
      rw [pyGet_seq _ (show k + 1 < B + 1 by omega), pyGet_seq _ (show k + 1 < B + 1 by omega),
        pySlice_gain κ Prod.fst (by omega), pySlice_gain κ Prod.snd (by omega)]
      simp only [bind_ok, Except.ok.injEq, exists_eq_left', pure, Except.pure]
      constructor
      · rintro ⟨r, hr, a, ha, rfl⟩
        exact ⟨a, ⟨r, hr, ha⟩, rfl⟩
      · rintro ⟨a, ⟨r, hr, ha⟩, rfl⟩
        exact ⟨r, hr, a, ha, rfl⟩
    rw [List.range_succ (n := k), List.foldlM_append, bind_ok]
    simp only [List.foldlM_cons, List.foldlM_nil, bind_ok, pure, Except.pure, Except.ok.injEq, exists_eq_right]
    constructor
    · rintro ⟨st1, h1, h2⟩
      obtain ⟨s', g', h0, hg0, hseq, rfl⟩ := (CLQT.prCoarseFwLoop_ok hs (by omega)).1 h1
      obtain ⟨a, ha, rfl⟩ := (hstep _ _).1 h2
      refine ⟨fun q => if q ≤ k then s' q else a + f (k + 1) - g (k + 1), fun q => if q ≤ k then g' q else a, by simpa using h0,
        by simpa using hg0, ?_, ?_⟩
      · intro q hq
        rcases Nat.lt_succ_iff_lt_or_eq.1 hq with h | rfl
        · have e1 : q ≤ k := by omega
          have e2 : q + 1 ≤ k := h
          simpa [e1, e2] using hseq q h
        · simp [ha]
      · rw [List.range_succ (n := k + 1)]
        have e1 : ∀ (s : ℕ → Fin n → K) (z : Fin n → K), (List.range (k + 1)).map (fun q => if q ≤ k then s q else z)
            = (List.range (k + 1)).map s := fun s z => seq_congr fun q hq => by simp [Nat.lt_succ_iff.1 hq]
        rw [List.map_append, List.map_append, e1, e1]
        simp
    · rintro ⟨s', g', h0, hg0, hseq, rfl⟩
      obtain ⟨h1, h2⟩ := hseq k (by omega)
      refine ⟨_, (CLQT.prCoarseFwLoop_ok hs (by omega)).2 ⟨s', g', h0, hg0, fun q hq => hseq q (by omega), rfl⟩,
        (hstep _ _).2 ⟨_, h1, ?_⟩⟩
      rw [List.range_succ (n := k + 1)]
      simp [h2]

theorem CLQT.prCoarseForward_ok {P : CLQT n m K} {u_zoh : Bool} {B steps : ℕ} (hB : B ≠ 0) (hs : steps ≠ 0)
    {f g : ℕ → Fin n → K} {κ : ℕ → Matrix (Fin m) (Fin n) K × (Fin m → K)} {L} :
    P.prCoarseForward ((List.range (B + 1)).map f) ((List.range (B + 1)).map g) (gainLists (B * steps) κ).1
      (gainLists (B * steps) κ).2 u_zoh = .ok L ↔
    ∃ D, pyDiv P.T B = .ok D ∧ ∃ s' g' : ℕ → Fin n → K, s' 0 = f 0 ∧ g' 0 = f 0 ∧
      (∀ q < B, P.fwProp u_zoh 1 D (q * D) (fun i => κ (q * steps + i)) (s' q) = .ok (g' (q + 1)) ∧
        s' (q + 1) = g' (q + 1) + f (q + 1) - g (q + 1)) ∧
      L = ((List.range (B + 1)).map s', (List.range (B + 1)).map g') := by
  unfold CLQT.prCoarseForward
  have e : ((List.range (B + 1)).map f).length - 1 = B := by simp
  have e' : (gainLists (B * steps) κ).1.length / B = steps := by
    simp [gainLists, Nat.mul_div_cancel_left _ (Nat.pos_of_ne_zero hB)]
  rw [e, pyGet_seq _ (by omega)]
  simp only [hB, if_false, e', bind_ok, pure, Except.pure, Except.ok.injEq, exists_eq_left', exists_const]
  constructor
  · rintro ⟨D, hD, st, hst, rfl⟩
    obtain ⟨s', g', h0, hg0, hseq, rfl⟩ := (CLQT.prCoarseFwLoop_ok hs le_rfl).1 hst
    exact ⟨D, hD, s', g', h0, hg0, hseq, rfl⟩
  · rintro ⟨D, hD, s', g', h0, hg0, hseq, rfl⟩
    exact ⟨D, hD, _, (CLQT.prCoarseFwLoop_ok hs le_rfl).2 ⟨s', g', h0, hg0, hseq, rfl⟩, rfl⟩

theorem CLQT.prFinalForward_ok {P : CLQT n m K} {u_zoh : Bool} {steps B : ℕ} (hB : B ≠ 0) {s : ℕ → Fin n → K}
    {κ : ℕ → Matrix (Fin m) (Fin n) K × (Fin m → K)} {r} :
    P.prFinalForward steps ((List.range (B + 1)).map s) (gainLists (B * steps) κ).1 (gainLists (B * steps) κ).2 u_zoh = .ok r ↔
    ∃ D, pyDiv P.T B = .ok D ∧ ∃ dt, pyDiv D steps = .ok dt ∧ ∃ ξ : ℕ → ℕ → Fin n → K,
      (∀ q < B, ξ q 0 = s q ∧ P.FwSeq u_zoh steps dt (q * steps * dt) (fun i => κ (q * steps + i)) (ξ q)) ∧
      r = (((List.range B).map fun q => (List.range steps).map fun i =>
          -(κ (q * steps + i)).1 *ᵥ ξ q i + (κ (q * steps + i)).2).flatten,
        ((List.range B).map fun q => (List.range steps).map fun i => ξ q i).flatten ++ [ξ (B - 1) steps]) := by
  unfold CLQT.prFinalForward
  have e : ((List.range (B + 1)).map s).length - 1 = B := by simp
  rw [e]
  haveI : Inhabited (List ((Fin n → K) × (Fin m → K)) × List (Fin n → K)) := ⟨([], [])⟩
  have hblk : ∀ (dt : K) (k : ℕ), k < B → ∀ l, (do
      let x ← pyGet ((List.range (B + 1)).map s) k
      let t1 := (k : K) * steps * dt
      let r ← P.seqForwardPass x (pySlice (gainLists (B * steps) κ).1 (k * steps) ((k + 1) * steps))
        (pySlice (gainLists (B * steps) κ).2 (k * steps) ((k + 1) * steps)) (some dt) (some t1) u_zoh
      let l ← (List.range steps).mapM (fun (i : ℕ) => do
        return (← pyGet r.2 i, ← pyGet r.1 i))
      return (l, r.2) : Py (List ((Fin n → K) × (Fin m → K)) × List (Fin n → K))) = .ok l ↔
      ∃ ξ : ℕ → Fin n → K, ξ 0 = s k ∧ P.FwSeq u_zoh steps dt (k * steps * dt) (fun i => κ (k * steps + i)) ξ ∧
        l = ((List.range steps).map fun i => (ξ i, -(κ (k * steps + i)).1 *ᵥ ξ i + (κ (k * steps + i)).2),
          (List.range (steps + 1)).map ξ) := by
    intro dt k hk l
    have hle : (k + 1) * steps ≤ B * steps := Nat.mul_le_mul_right _ hk
    unfold gainLists
    rw [pyGet_seq _ (by omega), Nat.succ_mul] at *
    rw [pySlice_gain κ Prod.fst hle, pySlice_gain κ Prod.snd hle]
    simp only [bind_ok, Except.ok.injEq, exists_eq_left', pure, Except.pure]
    constructor
    · rintro ⟨r, hr, l, hl, rfl⟩
      obtain ⟨dt', hdt', ξ, h0, hs, rfl⟩ := CLQT.seqForward_ok.1 hr
      obtain rfl : dt = dt' := by simpa [CLQT.dtSeq_some] using hdt'
      refine ⟨ξ, h0, hs, ?_⟩
      have := hl.symm.trans (mapM_range_of (fun i hi => by rw [pyGet_seq _ (by omega), pyGet_seq _ hi]; rfl))
      rw [Except.ok.injEq] at this
      rw [this]
    · rintro ⟨ξ, h0, hs, rfl⟩
      refine ⟨_, CLQT.seqForward_ok.2 ⟨dt, CLQT.dtSeq_some _ _ _, ξ, h0, hs, rfl⟩, _,
        mapM_range_of (fun i hi => by rw [pyGet_seq _ (by omega), pyGet_seq _ hi]; rfl), rfl⟩
  have hlast : ∀ {β : Type} (f : ℕ → β), ((List.range B).map f).getLast? = some (f (B - 1)) := by
    intro β f
    obtain ⟨b, rfl⟩ := Nat.exists_eq_succ_of_ne_zero hB
    rw [Nat.succ_eq_add_one, List.range_succ]
    simp
  simp only [bind_ok]
  constructor
  · rintro ⟨D, hD, dt, hdt, rs, hrs, hr⟩
    obtain ⟨f, rfl, hq⟩ := mapM_seq.1 hrs
    have hq' : ∀ q, ∃ ξ : ℕ → Fin n → K, q < B → ξ 0 = s q ∧
        P.FwSeq u_zoh steps dt (q * steps * dt) (fun i => κ (q * steps + i)) ξ ∧
        f q = ((List.range steps).map fun i => (ξ i, -(κ (q * steps + i)).1 *ᵥ ξ i + (κ (q * steps + i)).2),
          (List.range (steps + 1)).map ξ) := by
      intro q
      by_cases h : q < B
      · obtain ⟨ξ, h1⟩ := (hblk dt q h (f q)).1 (hq q h)
        exact ⟨ξ, fun _ => h1⟩
      · exact ⟨fun _ => 0, fun h' => absurd h' h⟩
    choose ξ hξ using hq'
    refine ⟨D, hD, dt, hdt, ξ, fun q h => ⟨(hξ q h).1, (hξ q h).2.1⟩, ?_⟩
    rw [hlast, (hξ (B - 1) (by omega)).2.2] at hr
    dsimp only at hr
    simp only [pyLast_seq, bind_ok, Except.ok.injEq, exists_eq_left', pure, Except.pure] at hr
    rw [← hr, List.map_map, List.map_flatten, List.map_flatten, List.map_map, List.map_map]
    have e1 : ∀ {β : Type} (h : (Fin n → K) × (Fin m → K) → β), (List.range B).map (List.map h ∘ Prod.fst ∘ f) =
        (List.range B).map fun q => (List.range steps).map fun i =>
          h (ξ q i, -(κ (q * steps + i)).1 *ᵥ ξ q i + (κ (q * steps + i)).2) := by
      intro β h
      refine seq_congr fun q hq => ?_
      simp only [Function.comp_apply]
      rw [(hξ q hq).2.2, List.map_map]
      rfl
    rw [e1, e1]
  · rintro ⟨D, hD, dt, hdt, ξ, hξ, rfl⟩
    refine ⟨D, hD, dt, hdt, _, mapM_seq.2 ⟨_, rfl, fun q h => (hblk dt q h _).2 ⟨ξ q, (hξ q h).1, (hξ q h).2, rfl⟩⟩, ?_⟩
    rw [hlast]
    dsimp only
    rw [pyLast_seq]
    simp only [bind_ok, Except.ok.injEq, exists_eq_left', pure, Except.pure]
    simp [List.map_flatten, Function.comp_def]

/-! ### Iterations -/

/-- The states `s` and coarse states `g` at the block boundaries after `i` iterations. -/
def CLQT.FwInv (P : CLQT n m K) (u_zoh : Bool) (B steps : ℕ) (κ : ℕ → Matrix (Fin m) (Fin n) K × (Fin m → K)) (D dt : K)
    (x0 : Fin n → K) (i : ℕ) (s g : ℕ → Fin n → K) : Prop :=
  s 0 = x0 ∧ PrInv (fun q => P.fwProp u_zoh steps dt (q * steps * dt) (fun i => κ (q * steps + i)))
    (fun q => P.fwProp u_zoh 1 D (q * D) (fun i => κ (q * steps + i))) B i s g

theorem CLQT.prFwIter_inv {P : CLQT n m K} {u_zoh : Bool} {B steps i : ℕ} (hB : B ≠ 0) (hs : steps ≠ 0)
    {κ : ℕ → Matrix (Fin m) (Fin n) K × (Fin m → K)} {D dt : K} {x0 : Fin n → K} {s g : ℕ → Fin n → K}
    (hD : pyDiv P.T B = .ok D) (hdt : pyDiv D steps = .ok dt) (h : P.FwInv u_zoh B steps κ D dt x0 i s g) :
    ∃ s' g', P.prFwIter steps (gainLists (B * steps) κ).1 (gainLists (B * steps) κ).2 u_zoh
      ((List.range (B + 1)).map s, (List.range (B + 1)).map g) =
        .ok ((List.range (B + 1)).map s', (List.range (B + 1)).map g') ∧
      P.FwInv u_zoh B steps κ D dt x0 (i + 1) s' g' := by
  choose f hf using fun q : ℕ => P.fwProp_total u_zoh steps dt (q * steps * dt) (fun i => κ (q * steps + i)) (s q)
  let f' : ℕ → Fin n → K := fun k => if k = 0 then s 0 else f (k - 1)
  have hf' : ∀ q : ℕ, P.fwProp u_zoh steps dt (q * steps * dt) (fun i => κ (q * steps + i)) (s q) = .ok (f' (q + 1)) := hf
  have h1 : P.prDenseForward steps ((List.range (B + 1)).map s) (gainLists (B * steps) κ).1 (gainLists (B * steps) κ).2 u_zoh =
      .ok ((List.range (B + 1)).map f') :=
    CLQT.prDenseForward_ok.2 ⟨_, hD, _, hdt, f', rfl, fun q _ => hf' q, rfl⟩
  choose c hc using fun (q : ℕ) x => P.fwProp_total u_zoh 1 D (q * D) (fun i => κ (q * steps + i)) x
  let s' : ℕ → Fin n → K := fun k => Nat.rec (s 0) (fun q y => c q y + f' (q + 1) - g (q + 1)) k
  let g' : ℕ → Fin n → K := fun k => match k with
    | 0 => s 0
    | q + 1 => c q (s' q)
  have hc' : ∀ q < B, P.fwProp u_zoh 1 D (q * D) (fun i => κ (q * steps + i)) (s' q) = .ok (g' (q + 1)) ∧
        s' (q + 1) = g' (q + 1) + f' (q + 1) - g (q + 1) := fun q _ => ⟨hc q (s' q), rfl⟩
  refine ⟨s', g', ?_, h.1, (pr_step (cur' := s') h.2 (fun k _ => hf' k) rfl hc').1⟩
  unfold CLQT.prFwIter
  simp only
  rw [h1]
  exact (CLQT.prCoarseForward_ok hB hs).2 ⟨D, hD, s', g', rfl, rfl, hc', rfl⟩

theorem CLQT.prFwRun_inv {P : CLQT n m K} {u_zoh : Bool} {B steps : ℕ} (hB : B ≠ 0) (hs : steps ≠ 0)
    {κ : ℕ → Matrix (Fin m) (Fin n) K × (Fin m → K)} {D dt : K} {x0 : Fin n → K}
    (hD : pyDiv P.T B = .ok D) (hdt : pyDiv D steps = .ok dt) :
    ∃ cur, P.prInitForward B x0 (gainLists (B * steps) κ).1 (gainLists (B * steps) κ).2 u_zoh = .ok cur ∧ ∀ niter : ℕ,
    ∃ s g, (List.range niter).foldlM (fun st _ => P.prFwIter steps (gainLists (B * steps) κ).1 (gainLists (B * steps) κ).2 u_zoh st)
        (cur, cur) = .ok ((List.range (B + 1)).map s, (List.range (B + 1)).map g) ∧
      P.FwInv u_zoh B steps κ D dt x0 niter s g := by
  obtain ⟨ξ, h0, hξ⟩ := P.fwSeq_total u_zoh B D 0 (fun i => κ (i * steps)) x0
  refine ⟨(List.range (B + 1)).map ξ, (CLQT.prInitForward_ok hB hs).2 ⟨D, hD, ξ, h0, hξ, rfl⟩, fun niter => ?_⟩
  induction niter with
  | zero => exact ⟨ξ, ξ, rfl, h0, fun q hq => hξ.coarse hq, fun q _ hi => absurd hi (by omega)⟩
  | succ niter ih =>
    obtain ⟨s, g, h1, hI⟩ := ih
    obtain ⟨s', g', h2, hI'⟩ := CLQT.prFwIter_inv hB hs hD hdt hI
    refine ⟨s', g', ?_, hI'⟩
    rw [List.range_succ (n := niter), List.foldlM_append, h1]
    have hb : ∀ {α β : Type} (a : α) (f : α → Py β), ((Except.ok a : Py α) >>= f) = f a := fun _ _ => rfl
    simp only [hb, List.foldlM_cons, List.foldlM_nil, h2]
    rfl

theorem CLQT.prForward_exact {P : CLQT n m K} {u_zoh : Bool} {B steps : ℕ} {niter : Option ℕ} (hB : (B : K) ≠ 0)
    (hs : (steps : K) ≠ 0) {κ : ℕ → Matrix (Fin m) (Fin n) K × (Fin m → K)} {x0 : Fin n → K} (hn : B ≤ niter.getD steps + 1) :
    ∃ r, P.prForwardPass B steps x0 (gainLists (B * steps) κ).1 (gainLists (B * steps) κ).2 u_zoh niter = .ok r ∧
      P.seqForwardPass x0 (gainLists (B * steps) κ).1 (gainLists (B * steps) κ).2 none none u_zoh = .ok r := by
  have hB' : B ≠ 0 := by rintro rfl; simp at hB
  have hs' : steps ≠ 0 := by rintro rfl; simp at hs
  have hD : pyDiv P.T B = .ok (P.T / B) := pyDiv_ok.2 ⟨hB, rfl⟩
  have hdt : pyDiv (P.T / B) steps = .ok (P.T / B / steps) := pyDiv_ok.2 ⟨hs, rfl⟩
  generalize P.T / (B : K) / (steps : K) = dt at hdt
  obtain ⟨cur, hcur, hrun⟩ := CLQT.prFwRun_inv (P := P) (u_zoh := u_zoh) (κ := κ) (x0 := x0) hB' hs' hD hdt
  obtain ⟨s, g, hst, h0, -, hex⟩ := hrun (niter.getD steps)
  have : ∀ q : ℕ, ∃ ξ, ξ 0 = s q ∧ P.FwSeq u_zoh steps dt (q * steps * dt) (fun i => κ (q * steps + i)) ξ :=
    fun q => P.fwSeq_total u_zoh steps dt (q * steps * dt) (fun i => κ (q * steps + i)) (s q)
  choose ξ hξ using this
  have hch : ∀ q < B, ξ q 0 = (fun q => if q = B then ξ (B - 1) steps else s q) q ∧
      ξ q steps = (fun q => if q = B then ξ (B - 1) steps else s q) (q + 1) := by
    intro q hq
    have h1 := CLQT.fwProp_ok.2 ⟨ξ q, (hξ q).1, (hξ q).2, rfl⟩
    by_cases hqB : q + 1 = B
    · have e : B - 1 = q := by omega
      simp [hqB, hq.ne, e, (hξ q).1]
    · have h2 := hex q hq (by omega)
      dsimp only at h2
      rw [h2, Except.ok.injEq] at h1
      simp [hqB, hq.ne, h1, (hξ q).1]
  have hz : ξ (B - 1) steps = (fun q => if q = B then ξ (B - 1) steps else s q) B := by simp
  refine ⟨((List.range (B * steps)).map fun k => -(κ k).1 *ᵥ glue B steps ξ (ξ (B - 1) steps) k + (κ k).2,
    (List.range (B * steps + 1)).map (glue B steps ξ (ξ (B - 1) steps))), ?_, ?_⟩
  rotate_left
  · refine CLQT.seqForward_ok.2 ⟨dt, dt_global hD hdt, glue B steps ξ (ξ (B - 1) steps), ?_, ?_, rfl⟩
    · have := glue_eq (z := ξ (B - 1) steps) hch hz (Nat.pos_of_ne_zero hB') (Nat.zero_le steps)
      simpa [(hξ 0).1, h0] using this
    · intro j hj
      obtain ⟨q, i, hq, hi, rfl⟩ := split_index hj
      have hb := (hξ q).2 i hi
      rw [Nat.add_assoc, glue_eq hch hz hq hi.le, glue_eq hch hz hq hi, Option.getD_none]
      push_cast
      rwa [show (0 : K) + ((q : K) * steps + i) * dt = q * steps * dt + i * dt by ring]
  · unfold CLQT.prForwardPass
    have hb : ∀ {α β : Type} (a : α) (f : α → Py β), ((Except.ok a : Py α) >>= f) = f a := fun _ _ => rfl
    simp only [hcur, hb, hst]
    refine (CLQT.prFinalForward_ok hB').2 ⟨_, hD, dt, hdt, ξ, fun q _ => hξ q, ?_⟩
    have g1 : ∀ q < B, ∀ i < steps, glue B steps ξ (ξ (B - 1) steps) (q * steps + i) = ξ q i := fun q hq i hi => glue_lt hq hi
    rw [List.range_succ, List.map_append, ← seq_blocks, ← seq_blocks]
    simp only [List.map_cons, List.map_nil, glue_end]
    congr 2
    · exact seq_congr fun q hq => seq_congr fun i hi => by rw [g1 q hq i hi]
    · congr 1
      exact seq_congr fun q hq => seq_congr fun i hi => by rw [g1 q hq i hi]

/-- A sequential pass propagates over each block. -/
theorem CLQT.FwSeq.block {P : CLQT n m K} {u_zoh : Bool} {B steps : ℕ} {dt : K} {ξ : ℕ → Fin n → K}
    {κ : ℕ → Matrix (Fin m) (Fin n) K × (Fin m → K)} (h : P.FwSeq u_zoh (B * steps) dt 0 κ ξ) {q : ℕ} (hq : q < B) :
    P.fwProp u_zoh steps dt (q * steps * dt) (fun i => κ (q * steps + i)) (ξ (q * steps)) = .ok (ξ ((q + 1) * steps)) := by
  refine CLQT.fwProp_ok.2 ⟨fun i => ξ (q * steps + i), rfl, fun i hi => ?_, by rw [Nat.succ_mul]⟩
  have hle : (q + 1) * steps ≤ B * steps := Nat.mul_le_mul_right _ hq
  rw [Nat.succ_mul] at hle
  have hb := h (q * steps + i) (by omega)
  push_cast at hb
  rwa [show (0 : K) + ((q : K) * steps + i) * dt = q * steps * dt + i * dt by ring] at hb

theorem CLQT.prForward_progress {P : CLQT n m K} {u_zoh : Bool} {B steps niter : ℕ} (hB : (B : K) ≠ 0)
    (hs : (steps : K) ≠ 0) {κ : ℕ → Matrix (Fin m) (Fin n) K × (Fin m → K)} {x0 : Fin n → K} {cur}
    (hcur : P.prInitForward B x0 (gainLists (B * steps) κ).1 (gainLists (B * steps) κ).2 u_zoh = .ok cur) {st}
    (hst : (List.range niter).foldlM (fun st _ => P.prFwIter steps (gainLists (B * steps) κ).1 (gainLists (B * steps) κ).2 u_zoh st)
        (cur, cur) = .ok st) {r}
    (hr : P.seqForwardPass x0 (gainLists (B * steps) κ).1 (gainLists (B * steps) κ).2 none none u_zoh = .ok r) {q : ℕ}
    (hq : q ≤ B) (hi : q ≤ niter) : st.1[q]? = r.2[q * steps]? := by
  have hB' : B ≠ 0 := by rintro rfl; simp at hB
  have hs' : steps ≠ 0 := by rintro rfl; simp at hs
  have hD : pyDiv P.T B = .ok (P.T / B) := pyDiv_ok.2 ⟨hB, rfl⟩
  have hdt : pyDiv (P.T / B) steps = .ok (P.T / B / steps) := pyDiv_ok.2 ⟨hs, rfl⟩
  generalize P.T / (B : K) / (steps : K) = dt at hdt
  obtain ⟨cur', hcur', hrun⟩ := CLQT.prFwRun_inv (P := P) (u_zoh := u_zoh) (κ := κ) (x0 := x0) hB' hs' hD hdt
  obtain rfl : cur = cur' := by rw [hcur, Except.ok.injEq] at hcur'; exact hcur'
  obtain ⟨s, g, hst', h0, -, hex⟩ := hrun niter
  rw [hst, Except.ok.injEq] at hst'
  subst hst'
  obtain ⟨dt', hdt', ξ, hξ0, hξ, rfl⟩ := CLQT.seqForward_ok.1 hr
  obtain rfl : dt = dt' := by
    have := dt_global hD hdt
    unfold CLQT.dtSeq at hdt'
    rw [this, Except.ok.injEq] at hdt'
    exact hdt'
  have key : ∀ k ≤ B, k ≤ niter → s k = ξ (k * steps) := by
    intro k
    induction k with
    | zero => intro _ _; rw [h0, zero_mul, hξ0]
    | succ k ih =>
      intro hk hn
      have h1 := hex k hk (by omega)
      dsimp only at h1
      rw [ih (by omega) (by omega), CLQT.FwSeq.block hξ hk, Except.ok.injEq] at h1
      exact h1.symm
  have hle : q * steps ≤ B * steps := Nat.mul_le_mul_right _ hq
  have h1 : q < B + 1 := by omega
  have h2 : q * steps < B * steps + 1 := by omega
  simp [h1, h2, key q hq hi]

theorem CLQT.FwSeq.unique {P : CLQT n m K} {u_zoh : Bool} {N : ℕ} {dt t0 : K} {ξ ξ' : ℕ → Fin n → K}
    {κ : ℕ → Matrix (Fin m) (Fin n) K × (Fin m → K)} (h : P.FwSeq u_zoh N dt t0 κ ξ) (h' : P.FwSeq u_zoh N dt t0 κ ξ')
    (e : ξ 0 = ξ' 0) : ∀ i ≤ N, ξ i = ξ' i := by
  intro i
  induction i with
  | zero => exact fun _ => e
  | succ i ih =>
    intro hi
    have h1 := h i hi
    rw [ih (by omega), h' i hi, Except.ok.injEq] at h1
    exact h1.symm

theorem CLQT.FwSeq.shift {P : CLQT n m K} {u_zoh : Bool} {B steps : ℕ} {dt : K} {ξ : ℕ → Fin n → K}
    {κ : ℕ → Matrix (Fin m) (Fin n) K × (Fin m → K)} (h : P.FwSeq u_zoh (B * steps) dt 0 κ ξ) {q : ℕ} (hq : q < B) :
    P.FwSeq u_zoh steps dt (q * steps * dt) (fun i => κ (q * steps + i)) (fun i => ξ (q * steps + i)) := by
  intro i hi
  have hle : (q + 1) * steps ≤ B * steps := Nat.mul_le_mul_right _ hq
  rw [Nat.succ_mul] at hle
  have hb := h (q * steps + i) (by omega)
  push_cast at hb
  rwa [show (0 : K) + ((q : K) * steps + i) * dt = q * steps * dt + i * dt by ring] at hb

/-- After `niter` iterations the first `niter + 1` blocks of the result are exact. -/
theorem CLQT.prForward_blocks {P : CLQT n m K} {u_zoh : Bool} {B steps niter : ℕ} (hB : (B : K) ≠ 0)
    (hs : (steps : K) ≠ 0) {κ : ℕ → Matrix (Fin m) (Fin n) K × (Fin m → K)} {x0 : Fin n → K} {r r'}
    (h : P.prForwardPass B steps x0 (gainLists (B * steps) κ).1 (gainLists (B * steps) κ).2 u_zoh (some niter) = .ok r)
    (hr : P.seqForwardPass x0 (gainLists (B * steps) κ).1 (gainLists (B * steps) κ).2 none none u_zoh = .ok r') {j : ℕ}
    (hj : j < (niter + 1) * steps) : r.1[j]? = r'.1[j]? ∧ (j < B * steps → r.2[j]? = r'.2[j]?) := by
  unfold CLQT.prForwardPass at h
  simp only [bind_ok, Option.getD_some] at h
  obtain ⟨cur, hcur, st, hst, hfin⟩ := h
  have hB' : B ≠ 0 := by rintro rfl; simp at hB
  have hs' : steps ≠ 0 := by rintro rfl; simp at hs
  have hprog := fun (q : ℕ) (hq : q ≤ B) (hi : q ≤ niter) => CLQT.prForward_progress hB hs hcur hst hr hq hi
  have hD : pyDiv P.T B = .ok (P.T / B) := pyDiv_ok.2 ⟨hB, rfl⟩
  have hdt : pyDiv (P.T / B) steps = .ok (P.T / B / steps) := pyDiv_ok.2 ⟨hs, rfl⟩
  generalize P.T / (B : K) / (steps : K) = dt at hdt
  obtain ⟨cur', hcur', hrun⟩ := CLQT.prFwRun_inv (P := P) (u_zoh := u_zoh) (κ := κ) (x0 := x0) hB' hs' hD hdt
  obtain rfl : cur = cur' := by rw [hcur, Except.ok.injEq] at hcur'; exact hcur'
  obtain ⟨s, g, hst', h0, -, -⟩ := hrun niter
  rw [hst, Except.ok.injEq] at hst'
  subst hst'
  obtain ⟨dt', hdt', ξ', hξ0, hξ', rfl⟩ := CLQT.seqForward_ok.1 hr
  obtain rfl : dt = dt' := by
    have := dt_global hD hdt
    unfold CLQT.dtSeq at hdt'
    rw [this, Except.ok.injEq] at hdt'
    exact hdt'
  obtain ⟨D', hD', dt', hdt'', ξ, hξ, rfl⟩ := (CLQT.prFinalForward_ok hB').1 hfin
  obtain rfl : P.T / (B : K) = D' := by rw [hD, Except.ok.injEq] at hD'; exact hD'
  obtain rfl : dt = dt' := by rw [hdt, Except.ok.injEq] at hdt''; exact hdt''
  have hblk : ∀ q < B, q ≤ niter → ∀ i ≤ steps, ξ q i = ξ' (q * steps + i) := by
    intro q hq hi
    refine CLQT.FwSeq.unique (hξ q hq).2 (hξ'.shift hq) ?_
    have hle : q * steps ≤ B * steps := Nat.mul_le_mul_right _ hq.le
    have e1 := hprog q hq.le hi
    have h1 : q < B + 1 := by omega
    have h2 : q * steps < B * steps + 1 := by omega
    simp only [List.getElem?_map, List.getElem?_range h1, List.getElem?_range h2, Option.map_some,
      Option.some.injEq] at e1
    rw [(hξ q hq).1, e1]
    rfl
  have g1 : ∀ q < B, ∀ i < steps, glue B steps ξ 0 (q * steps + i) = ξ q i := fun q hq i hi => glue_lt hq hi
  have hp : ∀ j < B * steps, j < (niter + 1) * steps → glue B steps ξ 0 j = ξ' j := by
    intro j hj hle
    obtain ⟨q, i, hq, hi, rfl⟩ := split_index hj
    have hq' : q ≤ niter := by
      by_contra hlt
      have : (niter + 1) * steps ≤ q * steps := Nat.mul_le_mul_right _ (by omega)
      omega
    rw [g1 q hq i hi]
    exact hblk q hq hq' i hi.le
  have e1 : ((List.range B).map fun q => (List.range steps).map fun i =>
          -(κ (q * steps + i)).1 *ᵥ ξ q i + (κ (q * steps + i)).2).flatten =
      (List.range (B * steps)).map fun k => -(κ k).1 *ᵥ glue B steps ξ 0 k + (κ k).2 := by
    rw [← seq_blocks]
    congr 1
    exact seq_congr fun q hq => seq_congr fun i hi => by rw [g1 q hq i hi]
  have e2 := seq_glue (fun x : Fin n → K => x) g1
  rw [e1, e2]
  constructor
  · rcases Nat.lt_or_ge j (B * steps) with h | h
    · simp [h, hp j h hj]
    · rw [List.getElem?_eq_none (by simpa using h), List.getElem?_eq_none (by simpa using h)]
  · intro h
    rw [List.getElem?_append_left (by simpa using h)]
    simp [h, Nat.lt_succ_of_lt h, hp j h hj]

/-- On `B * steps` gains the pass completes, whatever the number of iterations. -/
theorem CLQT.prForward_total (P : CLQT n m K) (u_zoh : Bool) {B steps : ℕ} (niter : Option ℕ) (hB : (B : K) ≠ 0)
    (hs : (steps : K) ≠ 0) (κ : ℕ → Matrix (Fin m) (Fin n) K × (Fin m → K)) (x0 : Fin n → K) :
    ∃ r, P.prForwardPass B steps x0 (gainLists (B * steps) κ).1 (gainLists (B * steps) κ).2 u_zoh niter = .ok r := by
  have hB' : B ≠ 0 := by rintro rfl; simp at hB
  have hs' : steps ≠ 0 := by rintro rfl; simp at hs
  have hD : pyDiv P.T B = .ok (P.T / B) := pyDiv_ok.2 ⟨hB, rfl⟩
  have hdt : pyDiv (P.T / B) steps = .ok (P.T / B / steps) := pyDiv_ok.2 ⟨hs, rfl⟩
  generalize P.T / (B : K) / (steps : K) = dt at hdt
  obtain ⟨cur, hcur, hrun⟩ := CLQT.prFwRun_inv (P := P) (u_zoh := u_zoh) (κ := κ) (x0 := x0) hB' hs' hD hdt
  obtain ⟨s, g, hst, -⟩ := hrun (niter.getD steps)
  have : ∀ q : ℕ, ∃ ξ, ξ 0 = s q ∧ P.FwSeq u_zoh steps dt (q * steps * dt) (fun i => κ (q * steps + i)) ξ :=
    fun q => P.fwSeq_total u_zoh steps dt (q * steps * dt) (fun i => κ (q * steps + i)) (s q)
  choose ξ hξ using this
  have h := (CLQT.prFinalForward_ok (P := P) (u_zoh := u_zoh) (κ := κ) (steps := steps) (s := s) hB').2
    ⟨_, hD, dt, hdt, ξ, fun q _ => hξ q, rfl⟩
  unfold CLQT.prForwardPass
  simp only [bind_ok]
  exact ⟨_, cur, hcur, _, hst, h⟩

end Verif
