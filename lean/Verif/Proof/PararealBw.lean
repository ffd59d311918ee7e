import Verif.Model.Parareal
import Verif.Proof.CLQTSeq

/-! Parareal: generic convergence argument and the backward pass. -/

namespace Verif

open Matrix

/-! ### Generic argument -/

section Generic
variable {σ : Type} [AddCommGroup σ]

/-- Invariant after `i` iterations: `G` is the coarse propagation of `cur` and the first `i` steps of `cur` are exact. -/
def PrInv (fine coarse : ℕ → σ → Py σ) (B i : ℕ) (cur G : ℕ → σ) : Prop :=
  (∀ k < B, coarse k (cur k) = .ok (G (k + 1))) ∧ ∀ k < B, k < i → fine k (cur k) = .ok (cur (k + 1))

theorem pr_step {fine coarse : ℕ → σ → Py σ} {B i : ℕ} {cur G F cur' G' : ℕ → σ} (h : PrInv fine coarse B i cur G)
    (hF : ∀ k < B, fine k (cur k) = .ok (F (k + 1))) (h0 : cur' 0 = cur 0)
    (hc : ∀ k < B, coarse k (cur' k) = .ok (G' (k + 1)) ∧ cur' (k + 1) = G' (k + 1) + F (k + 1) - G (k + 1)) :
    PrInv fine coarse B (i + 1) cur' G' ∧ ∀ k ≤ i, k ≤ B → cur' k = cur k := by
  have key : ∀ k < B, cur' k = cur k → cur' (k + 1) = F (k + 1) := by
    intro k hk he
    obtain ⟨h1, h2⟩ := hc k hk
    rw [he, h.1 k hk, Except.ok.injEq] at h1
    rw [h2, h1]
    abel
  have eq : ∀ k ≤ i, k ≤ B → cur' k = cur k := by
    intro k
    induction k with
    | zero => exact fun _ _ => h0
    | succ k ih =>
      intro hi hB
      have e1 := key k hB (ih (by omega) (by omega))
      have e2 := h.2 k hB hi
      rw [hF k hB, Except.ok.injEq] at e2
      rw [e1, e2]
  refine ⟨⟨fun k hk => (hc k hk).1, fun k hk hi => ?_⟩, eq⟩
  have e := eq k (by omega) hk.le
  rw [key k hk e, e]
  exact hF k hk

end Generic

variable {n m : ℕ} {K : Type} [Field K] [LinearOrder K]

/-! ### Backward pass -/

/-- The two lists of values. -/
def cvLists (N : ℕ) (s : ℕ → CVal n K) : List (Matrix (Fin n) (Fin n) K) × List (Fin n → K) :=
  ((List.range N).map fun k => (s k).1, (List.range N).map fun k => (s k).2)

/-- Backward propagation over `steps` steps of length `dt` from time `t1 + steps * dt` to `t1`. -/
def CLQT.bwProp (P : CLQT n m K) (steps : ℕ) (dt t1 : K) (s : CVal n K) : Py (CVal n K) := do
  let r ← P.seqBackwardPass steps (some dt) (some t1) (some s.1) (some s.2)
  return (← pyGet r.S_list 0, ← pyGet r.v_list 0)

theorem CLQT.bwProp_ok {P : CLQT n m K} {steps : ℕ} {dt t1 : K} {s s' : CVal n K} : P.bwProp steps dt t1 s = .ok s' ↔
    ∃ σ κ, σ steps = s ∧ P.BwSeq steps dt t1 σ κ ∧ σ 0 = s' := by
  unfold CLQT.bwProp
  simp only [bind_ok, CLQT.seqBackward_ok, CLQT.dtSeq_some, Except.ok.injEq, exists_eq_left', Option.getD_some, pure,
    Except.pure]
  constructor
  · rintro ⟨r, ⟨σ, κ, h0, hs, rfl⟩, a, ha, b, hb, rfl⟩
    rw [bwLists, pyGet_seq _ (by omega), Except.ok.injEq] at ha hb
    exact ⟨σ, κ, h0, hs, by rw [← ha, ← hb]⟩
  · rintro ⟨σ, κ, h0, hs, rfl⟩
    refine ⟨_, ⟨σ, κ, h0, hs, rfl⟩, (σ 0).1, ?_, (σ 0).2, ?_, rfl⟩ <;>
    · rw [bwLists, pyGet_seq _ (by omega)]

theorem CLQT.prInitBackward_ok {P : CLQT n m K} {B : ℕ} {L : List (Matrix (Fin n) (Fin n) K) × List (Fin n → K)} :
    P.prInitBackward B = .ok L ↔ ∃ D, pyDiv P.T B = .ok D ∧ ∃ s : ℕ → CVal n K,
      s B = (P.HTᵀ * P.XT * P.HT, (P.HTᵀ * P.XT) *ᵥ P.rT) ∧
      (∃ κ, P.BwSeq B D 0 s κ) ∧ L = cvLists (B + 1) s := by
  unfold CLQT.prInitBackward
  simp only [bind_ok, CLQT.seqBackward_ok, CLQT.dtSeq_some, Except.ok.injEq, exists_eq_left', Option.getD_none, pure,
    Except.pure]
  constructor
  · rintro ⟨D, hD, r, ⟨σ, κ, h0, hs, rfl⟩, rfl⟩
    exact ⟨D, hD, σ, h0, ⟨κ, hs⟩, rfl⟩
  · rintro ⟨D, hD, σ, h0, ⟨κ, hs⟩, rfl⟩
    exact ⟨D, hD, _, ⟨σ, κ, h0, hs, rfl⟩, rfl⟩

/-- One step of a sequence is a propagation over one step. -/
theorem CLQT.BwSeq.coarse {P : CLQT n m K} {B : ℕ} {D : K} {s : ℕ → CVal n K}
    {κ : ℕ → Matrix (Fin m) (Fin n) K × (Fin m → K)} (h : P.BwSeq B D 0 s κ) {q : ℕ} (hq : q < B) :
    P.bwProp 1 D (q * D) (s (q + 1)) = .ok (s q) := by
  refine CLQT.bwProp_ok.2 ⟨fun i => s (q + i), fun i => κ (q + i), rfl, fun i hi => ?_, rfl⟩
  obtain rfl : i = 0 := by omega
  have := h q hq
  simp only [zero_add] at this
  simp only [add_zero, Nat.cast_zero, zero_add, zero_mul]
  rwa [show (q : K) * D + 1 * D = (q + 1) * D by ring]

theorem CLQT.prDenseBackward_ok {P : CLQT n m K} {steps B : ℕ} {s : ℕ → CVal n K}
    {L : List (Matrix (Fin n) (Fin n) K) × List (Fin n → K)} :
    P.prDenseBackward steps (cvLists (B + 1) s).1 (cvLists (B + 1) s).2 = .ok L ↔
    ∃ D, pyDiv P.T B = .ok D ∧ ∃ dt, pyDiv D steps = .ok dt ∧ ∃ f : ℕ → CVal n K, f B = s B ∧
      (∀ q < B, P.bwProp steps dt (q * steps * dt) (s (q + 1)) = .ok (f q)) ∧ L = cvLists (B + 1) f := by
  unfold CLQT.prDenseBackward
  have e : (cvLists (B + 1) s).1.length - 1 = B := by simp [cvLists]
  rw [e]
  have e1 : pyLast (cvLists (B + 1) s).1 = .ok (s B).1 := pyLast_seq _ _
  have e2 : pyLast (cvLists (B + 1) s).2 = .ok (s B).2 := pyLast_seq _ _
  haveI : Inhabited (CVal n K) := ⟨0⟩
  haveI : Inhabited (Matrix (Fin n) (Fin n) K × (Fin n → K)) := ⟨0⟩
  have hk : ∀ (D : K) (k : ℕ), k < B → ((do
      let S ← pyGet (cvLists (B + 1) s).1 (k + 1)
      let v ← pyGet (cvLists (B + 1) s).2 (k + 1)
      let t1 := (k : K) * steps * D
      let r ← P.seqBackwardPass steps (some D) (some t1) (some S) (some v)
      return (← pyGet r.S_list 0, ← pyGet r.v_list 0) : Py (CVal n K))) = P.bwProp steps D (k * steps * D) (s (k + 1)) := by
    intro D k hk
    unfold CLQT.bwProp cvLists
    rw [pyGet_seq _ (by omega), pyGet_seq _ (by omega)]
    rfl
  simp only [bind_ok, e1, e2, Except.ok.injEq, exists_eq_left', pure, Except.pure, mapM_reverse]
  constructor
  · rintro ⟨D, hD, dt, hdt, rs, hrs, rfl⟩
    obtain ⟨f, hf, hq⟩ := mapM_seq.1 hrs
    have hq' : ∀ q < B, P.bwProp steps dt (q * steps * dt) (s (q + 1)) = .ok (f q) := by
      intro q h
      rw [← hk dt q h]
      exact hq q h
    refine ⟨D, hD, dt, hdt, fun k => if k < B then f k else s B, by simp, fun q h => by simp [h, hq' q h], ?_⟩
    have hrs' : rs = ((List.range B).map f).reverse := by rw [← hf, List.reverse_reverse]
    rw [hrs', cvLists, List.range_succ]
    have e1 : ∀ {β : Type} (g : CVal n K → β), (List.range B).map (fun k => g (if k < B then f k else s B))
        = (List.range B).map fun k => g (f k) := fun g => seq_congr fun k hk => by simp [hk]
    simp only [List.map_append, List.map_cons, List.map_nil, List.reverse_cons, List.map_reverse, List.reverse_reverse,
      List.map_map]
    rw [e1 Prod.fst, e1 Prod.snd]
    simp [Function.comp_def]
  · rintro ⟨D, hD, dt, hdt, f, h0, hq, rfl⟩
    refine ⟨D, hD, dt, hdt, ((List.range B).map f).reverse, ?_, ?_⟩
    · rw [List.reverse_reverse]
      refine mapM_seq.2 ⟨f, rfl, fun q h => ?_⟩
      rw [← hq q h, ← hk dt q h]
      rfl
    · rw [cvLists, List.range_succ]
      simp [Function.comp_def, h0]

theorem CLQT.prCoarseLoop_ok {P : CLQT n m K} {B : ℕ} {D : K} {f g : ℕ → CVal n K} : ∀ {k : ℕ}, k ≤ B →
    ∀ {st st' : PrBw n K},
    (List.range k).reverse.foldlM (P.prCoarseBwStep (cvLists (B + 1) f).1 (cvLists (B + 1) g).1 (cvLists (B + 1) f).2
      (cvLists (B + 1) g).2 D) st = .ok st' ↔
    ∃ s' g' : ℕ → CVal n K, s' k = (st.S, st.v) ∧
      (∀ q < k, P.bwProp 1 D (q * D) (s' (q + 1)) = .ok (g' q) ∧ s' q = g' q + f q - g q) ∧
      st' = ⟨(s' 0).1, (s' 0).2, st.S_G_new_list ++ ((List.range k).map fun q => (g' q).1).reverse,
        st.v_G_new_list ++ ((List.range k).map fun q => (g' q).2).reverse,
        st.S_curr_list ++ ((List.range k).map fun q => (s' q).1).reverse,
        st.v_curr_list ++ ((List.range k).map fun q => (s' q).2).reverse⟩
  | 0, _, st, st' => by
    simp only [List.range_zero, List.reverse_nil, List.foldlM_nil, pure, Except.pure, Except.ok.injEq]
    constructor
    · rintro rfl
      exact ⟨fun _ => (st.S, st.v), fun _ => 0, rfl, fun k hk => absurd hk (by omega), by simp⟩
    · rintro ⟨s', g', h0, -, rfl⟩
      simp [h0]
  | k + 1, hB, st, st' => by
    have hstep : ∀ st st' : PrBw n K, P.prCoarseBwStep (cvLists (B + 1) f).1 (cvLists (B + 1) g).1 (cvLists (B + 1) f).2
        (cvLists (B + 1) g).2 D st k = .ok st' ↔ ∃ a, P.bwProp 1 D (k * D) (st.S, st.v) = .ok a ∧
          st' = ⟨(a + f k - g k).1, (a + f k - g k).2, st.S_G_new_list ++ [a.1], st.v_G_new_list ++ [a.2],
            st.S_curr_list ++ [(a + f k - g k).1], st.v_curr_list ++ [(a + f k - g k).2]⟩ := by
      intro st st'
      unfold CLQT.prCoarseBwStep CLQT.bwProp cvLists
      dsimp only
      rw [pyGet_seq _ (show k < B + 1 by omega), pyGet_seq _ (show k < B + 1 by omega), pyGet_seq _ (show k < B + 1 by omega),
        pyGet_seq _ (show k < B + 1 by omega)]
      simp only [bind_ok, Except.ok.injEq, exists_eq_left', pure, Except.pure]
      constructor
      · rintro ⟨r, hr, S, hS, v, hv, rfl⟩
        exact ⟨(S, v), ⟨r, hr, S, hS, v, hv, rfl⟩, rfl⟩
      · rintro ⟨a, ⟨r, hr, S, hS, v, hv, rfl⟩, rfl⟩
        exact ⟨r, hr, S, hS, v, hv, rfl⟩
    rw [List.range_succ, List.reverse_append, List.reverse_singleton, List.singleton_append, List.foldlM_cons, bind_ok]
    constructor
    · rintro ⟨st1, h1, h2⟩
      obtain ⟨a, ha, rfl⟩ := (hstep _ _).1 h1
      obtain ⟨s', g', h0, hseq, rfl⟩ := (CLQT.prCoarseLoop_ok (by omega)).1 h2
      refine ⟨fun q => if q ≤ k then s' q else (st.S, st.v), fun q => if q < k then g' q else a, by simp, ?_, ?_⟩
      · intro q hq
        rcases Nat.lt_succ_iff_lt_or_eq.1 hq with h | rfl
        · have e1 : q ≤ k := by omega
          have e2 : q + 1 ≤ k := h
          simpa [e1, e2, h] using hseq q h
        · have h0' : s' q = a + f q - g q := h0
          simp [h0', ha]
      · have h0' : s' k = a + f k - g k := h0
        have e1 : ∀ {β : Type} (h : CVal n K → β), (List.range k).map (fun q => h (if q ≤ k then s' q else (st.S, st.v)))
            = (List.range k).map fun q => h (s' q) := fun h => seq_congr fun q hq => by simp [hq.le]
        have e2 : ∀ {β : Type} (h : CVal n K → β), (List.range k).map (fun q => h (if q < k then g' q else a))
            = (List.range k).map fun q => h (g' q) := fun h => seq_congr fun q hq => by simp [hq]
        simp [h0', e2 Prod.fst, e2 Prod.snd, e1 Prod.fst, e1 Prod.snd]
    · rintro ⟨s', g', h0, hseq, rfl⟩
      obtain ⟨h1, h2⟩ := hseq k (by omega)
      rw [h0] at h1
      refine ⟨_, (hstep _ _).2 ⟨_, h1, rfl⟩, (CLQT.prCoarseLoop_ok (by omega)).2 ⟨s', g', ?_, fun q hq => hseq q (by omega), ?_⟩⟩
      · rw [h2]
      · simp [h2]

theorem CLQT.prCoarseBackward_ok {P : CLQT n m K} {B : ℕ} {f g : ℕ → CVal n K}
    {L : (List (Matrix (Fin n) (Fin n) K) × List (Fin n → K)) × (List (Matrix (Fin n) (Fin n) K) × List (Fin n → K))} :
    P.prCoarseBackward (cvLists (B + 1) f) (cvLists (B + 1) g) = .ok L ↔
    ∃ D, pyDiv P.T B = .ok D ∧ ∃ s' g' : ℕ → CVal n K, s' B = f B ∧ g' B = f B ∧
      (∀ q < B, P.bwProp 1 D (q * D) (s' (q + 1)) = .ok (g' q) ∧ s' q = g' q + f q - g q) ∧
      L = (cvLists (B + 1) s', cvLists (B + 1) g') := by
  unfold CLQT.prCoarseBackward
  have e : (cvLists (B + 1) f).1.length - 1 = B := by simp [cvLists]
  rw [e]
  have e1 : pyLast (cvLists (B + 1) f).1 = .ok (f B).1 := pyLast_seq _ _
  have e2 : pyLast (cvLists (B + 1) f).2 = .ok (f B).2 := pyLast_seq _ _
  simp only [bind_ok, e1, e2, Except.ok.injEq, exists_eq_left', pure, Except.pure]
  constructor
  · rintro ⟨D, hD, st, hst, rfl⟩
    obtain ⟨s', g', h0, hseq, rfl⟩ := (CLQT.prCoarseLoop_ok le_rfl).1 hst
    refine ⟨D, hD, s', fun q => if q < B then g' q else f B, h0, by simp, fun q hq => by simpa [hq] using hseq q hq, ?_⟩
    have e2 : ∀ {β : Type} (h : CVal n K → β), (List.range B).map (fun q => h (if q < B then g' q else f B))
            = (List.range B).map fun q => h (g' q) := fun h => seq_congr fun q hq => by simp [hq]
    unfold cvLists
    rw [List.range_succ]
    simp [h0, e2 Prod.fst, e2 Prod.snd]
  · rintro ⟨D, hD, s', g', h0, h1, hseq, rfl⟩
    refine ⟨D, hD, _, (CLQT.prCoarseLoop_ok le_rfl).2 ⟨s', g', h0, hseq, rfl⟩, ?_⟩
    unfold cvLists
    rw [List.range_succ]
    simp [h0, h1]

theorem CLQT.prFinalBackward_ok {P : CLQT n m K} {steps B : ℕ} {s : ℕ → CVal n K} {r : BwResult n m K} :
    P.prFinalBackward steps (cvLists (B + 1) s).1 (cvLists (B + 1) s).2 = .ok r ↔
    ∃ D, pyDiv P.T B = .ok D ∧ ∃ dt, pyDiv D steps = .ok dt ∧ ∃ (σ : ℕ → ℕ → CVal n K)
      (κ : ℕ → ℕ → Matrix (Fin m) (Fin n) K × (Fin m → K)),
      (∀ q < B, σ q steps = s (q + 1) ∧ P.BwSeq steps dt (q * steps * dt) (σ q) (κ q)) ∧
      r = ⟨((List.range B).map fun q => (List.range steps).map fun i => (κ q i).1).flatten,
        ((List.range B).map fun q => (List.range steps).map fun i => (κ q i).2).flatten,
        ((List.range B).map fun q => (List.range steps).map fun i => (σ q i).1).flatten ++ [(s B).1],
        ((List.range B).map fun q => (List.range steps).map fun i => (σ q i).2).flatten ++ [(s B).2]⟩ := by
  unfold CLQT.prFinalBackward
  have e : (cvLists (B + 1) s).1.length - 1 = B := by simp [cvLists]
  rw [e]
  have e1 : pyLast (cvLists (B + 1) s).1 = .ok (s B).1 := pyLast_seq _ _
  have e2 : pyLast (cvLists (B + 1) s).2 = .ok (s B).2 := pyLast_seq _ _
  haveI : Inhabited (List (Matrix (Fin n) (Fin n) K × (Fin n → K) × Matrix (Fin m) (Fin n) K × (Fin m → K))) := ⟨[]⟩
  have hblk : ∀ (dt : K) (k : ℕ), k < B → ∀ l, (do
      let S ← pyGet (cvLists (B + 1) s).1 (k + 1)
      let v ← pyGet (cvLists (B + 1) s).2 (k + 1)
      let t1 := (k : K) * steps * dt
      let r ← P.seqBackwardPass steps (some dt) (some t1) (some S) (some v)
      (List.range steps).mapM (fun (i : ℕ) => do
        let j := steps - i - 1
        return (← pyGet r.S_list j, ← pyGet r.v_list j, ← pyGet r.Kx_list j, ← pyGet r.d_list j)) :
          Py (List (Matrix (Fin n) (Fin n) K × (Fin n → K) × Matrix (Fin m) (Fin n) K × (Fin m → K)))) = .ok l ↔
      ∃ σ κ, σ steps = s (k + 1) ∧ P.BwSeq steps dt (k * steps * dt) σ κ ∧
        l = ((List.range steps).map fun i => ((σ i).1, (σ i).2, (κ i).1, (κ i).2)).reverse := by
    intro dt k hk l
    unfold cvLists
    rw [pyGet_seq _ (show k + 1 < B + 1 by omega), pyGet_seq _ (show k + 1 < B + 1 by omega)]
    simp only [bind_ok, Except.ok.injEq, exists_eq_left', CLQT.seqBackward_ok, CLQT.dtSeq_some, Option.getD_some]
    have hl : ∀ (σ : ℕ → CVal n K) (κ : ℕ → Matrix (Fin m) (Fin n) K × (Fin m → K)), ((List.range steps).mapM (fun (i : ℕ) => do
        let j := steps - i - 1
        return (← pyGet (bwLists steps σ κ).S_list j, ← pyGet (bwLists steps σ κ).v_list j,
          ← pyGet (bwLists steps σ κ).Kx_list j, ← pyGet (bwLists steps σ κ).d_list j)) :
          Py (List (Matrix (Fin n) (Fin n) K × (Fin n → K) × Matrix (Fin m) (Fin n) K × (Fin m → K)))) =
        .ok ((List.range steps).map fun i => ((σ i).1, (σ i).2, (κ i).1, (κ i).2)).reverse := by
      intro σ κ
      have : ((List.range steps).map fun i => ((σ i).1, (σ i).2, (κ i).1, (κ i).2)).reverse =
          (List.range steps).map fun i => ((σ (steps - i - 1)).1, (σ (steps - i - 1)).2, (κ (steps - i - 1)).1, (κ (steps - i - 1)).2) := by
        refine list_ext_of (n := steps) (by simp) (by simp) fun i hi => ?_
        rw [List.getElem?_reverse (by simpa using hi)]
        have h1 : steps - i - 1 < steps := by omega
        simp only [List.length_map, List.length_range, show steps - 1 - i = steps - i - 1 by omega, List.getElem?_map,
          List.getElem?_range h1, List.getElem?_range hi, Option.map_some]
      rw [this]
      refine mapM_range_of fun i hi => ?_
      unfold bwLists
      dsimp only
      rw [pyGet_seq _ (show steps - i - 1 < steps + 1 by omega), pyGet_seq _ (show steps - i - 1 < steps + 1 by omega),
        pyGet_seq _ (show steps - i - 1 < steps by omega), pyGet_seq _ (show steps - i - 1 < steps by omega)]
      rfl
    constructor
    · rintro ⟨r, ⟨σ, κ, h0, hs, rfl⟩, hr⟩
      have h := hl σ κ
      dsimp only at h hr
      rw [h, Except.ok.injEq] at hr
      exact ⟨σ, κ, h0, hs, hr.symm⟩
    · rintro ⟨σ, κ, h0, hs, rfl⟩
      exact ⟨_, ⟨σ, κ, h0, hs, rfl⟩, hl σ κ⟩
  simp only [bind_ok, e1, e2, Except.ok.injEq, exists_eq_left', pure, Except.pure, mapM_reverse]
  constructor
  · rintro ⟨D, hD, dt, hdt, rs, hrs, rfl⟩
    obtain ⟨f, hf, hq⟩ := mapM_seq.1 hrs
    have hq' : ∀ q, ∃ σκ : (ℕ → CVal n K) × (ℕ → Matrix (Fin m) (Fin n) K × (Fin m → K)), q < B → σκ.1 steps = s (q + 1) ∧
        P.BwSeq steps dt (q * steps * dt) σκ.1 σκ.2 ∧
        f q = ((List.range steps).map fun i => ((σκ.1 i).1, (σκ.1 i).2, (σκ.2 i).1, (σκ.2 i).2)).reverse := by
      intro q
      by_cases h : q < B
      · obtain ⟨σ, κ, h1⟩ := (hblk dt q h (f q)).1 (hq q h)
        exact ⟨(σ, κ), fun _ => h1⟩
      · exact ⟨(fun _ => 0, fun _ => 0), fun h' => absurd h' h⟩
    choose σκ hσκ using hq'
    refine ⟨D, hD, dt, hdt, fun q => (σκ q).1, fun q => (σκ q).2, fun q h => ⟨(hσκ q h).1, (hσκ q h).2.1⟩, ?_⟩
    have hrs' : rs = ((List.range B).map fun q => ((List.range steps).map fun i =>
        (((σκ q).1 i).1, ((σκ q).1 i).2, ((σκ q).2 i).1, ((σκ q).2 i).2)).reverse).reverse := by
      rw [← seq_congr fun q h => (hσκ q h).2.2, ← hf, List.reverse_reverse]
    rw [hrs']
    simp [List.reverse_flatten, List.map_flatten, Function.comp_def, ← List.map_reverse]
  · rintro ⟨D, hD, dt, hdt, σ, κ, hq, rfl⟩
    refine ⟨D, hD, dt, hdt, ((List.range B).map fun q => ((List.range steps).map fun i =>
        ((σ q i).1, (σ q i).2, (κ q i).1, (κ q i).2)).reverse).reverse, ?_, ?_⟩
    · rw [List.reverse_reverse]
      refine mapM_seq.2 ⟨_, rfl, fun q h => (hblk dt q h _).2 ⟨σ q, κ q, (hq q h).1, (hq q h).2, rfl⟩⟩
    · simp [List.reverse_flatten, List.map_flatten, Function.comp_def, ← List.map_reverse]

/-! ### Iterations of the backward pass -/

/-- The value boundaries `s` and coarse values `g` after `i` iterations: the last `i` boundaries are exact. -/
def CLQT.BwInv (P : CLQT n m K) (B steps : ℕ) (D dt : K) (i : ℕ) (s g : ℕ → CVal n K) : Prop :=
  s B = (P.HTᵀ * P.XT * P.HT, (P.HTᵀ * P.XT) *ᵥ P.rT) ∧
  (∀ q < B, P.bwProp 1 D (q * D) (s (q + 1)) = .ok (g q)) ∧
  ∀ q < B, B - q ≤ i → P.bwProp steps dt (q * steps * dt) (s (q + 1)) = .ok (s q)

theorem CLQT.prBwIter_inv {P : CLQT n m K} {B steps i : ℕ} {D dt : K} {s g : ℕ → CVal n K}
    (hD : pyDiv P.T B = .ok D) (hdt : pyDiv D steps = .ok dt) (h : P.BwInv B steps D dt i s g) {st}
    (hst : P.prBwIter steps (cvLists (B + 1) s, cvLists (B + 1) g) = .ok st) :
    ∃ s' g', st = (cvLists (B + 1) s', cvLists (B + 1) g') ∧ P.BwInv B steps D dt (i + 1) s' g' := by
  unfold CLQT.prBwIter at hst
  rw [bind_ok] at hst
  obtain ⟨FF, h1, h2⟩ := hst
  obtain ⟨D', hD', dt', hdt', f, h0, hf, rfl⟩ := CLQT.prDenseBackward_ok.1 h1
  obtain rfl : D = D' := by rw [hD, Except.ok.injEq] at hD'; exact hD'
  obtain rfl : dt = dt' := by rw [hdt, Except.ok.injEq] at hdt'; exact hdt'
  obtain ⟨D', hD', s', g', h3, -, h5, rfl⟩ := CLQT.prCoarseBackward_ok.1 h2
  obtain rfl : D = D' := by rw [hD, Except.ok.injEq] at hD'; exact hD'
  obtain ⟨i0, i1, i2⟩ := h
  have sub : ∀ k < B, ∃ q < B, B - 1 - k = q ∧ B - k = q + 1 ∧ B - (k + 1) = q := fun k hk =>
    ⟨B - 1 - k, by omega, rfl, by omega, by omega⟩
  have key := (pr_step (fine := fun k => P.bwProp steps dt (((B - 1 - k : ℕ) : K) * steps * dt))
    (coarse := fun k => P.bwProp 1 D (((B - 1 - k : ℕ) : K) * D)) (B := B) (i := i) (cur := fun k => s (B - k))
    (G := fun k => g (B - k)) (F := fun k => f (B - k)) (cur' := fun k => s' (B - k)) (G' := fun k => g' (B - k))
    ⟨fun k hk => ?_, fun k hk hi => ?_⟩ (fun k hk => ?_) ?_ (fun k hk => ?_)).1
  · refine ⟨s', g', rfl, by rw [h3, h0, i0], fun q hq => (h5 q hq).1, fun q hq hi => ?_⟩
    have := key.2 (B - 1 - q) (by omega) (by omega)
    dsimp only at this
    rwa [show B - 1 - (B - 1 - q) = q by omega, show B - (B - 1 - q) = q + 1 by omega,
      show B - (B - 1 - q + 1) = q by omega] at this
  · obtain ⟨q, hq, e1, e2, e3⟩ := sub k hk
    try dsimp only
    rw [e1, e2, e3]
    exact i1 q hq
  · obtain ⟨q, hq, e1, e2, e3⟩ := sub k hk
    try dsimp only
    rw [e1, e2, e3]
    exact i2 q hq (by omega)
  · obtain ⟨q, hq, e1, e2, e3⟩ := sub k hk
    try dsimp only
    rw [e1, e2, e3]
    exact hf q hq
  · rw [Nat.sub_zero, h3, h0]
  · obtain ⟨q, hq, e1, e2, e3⟩ := sub k hk
    try dsimp only
    rw [e1, e2, e3]
    exact h5 q hq

theorem CLQT.prBwRun_inv {P : CLQT n m K} {B steps : ℕ} {D dt : K} (hD : pyDiv P.T B = .ok D) (hdt : pyDiv D steps = .ok dt)
    {cur} (hcur : P.prInitBackward B = .ok cur) : ∀ {niter : ℕ} {st},
    (List.range niter).foldlM (fun st _ => P.prBwIter steps st) (cur, cur) = .ok st →
    ∃ s g, st = (cvLists (B + 1) s, cvLists (B + 1) g) ∧ P.BwInv B steps D dt niter s g
  | 0, st, h => by
    simp only [List.range_zero, List.foldlM_nil, pure, Except.pure, Except.ok.injEq] at h
    obtain ⟨D', hD', s, h0, ⟨κ, hs⟩, rfl⟩ := CLQT.prInitBackward_ok.1 hcur
    obtain rfl : D = D' := by rw [hD, Except.ok.injEq] at hD'; exact hD'
    exact ⟨s, s, h.symm, h0, fun q hq => hs.coarse hq, fun q hq hi => by omega⟩
  | niter + 1, st, h => by
    rw [List.range_succ, List.foldlM_append, bind_ok] at h
    obtain ⟨st1, h1, h2⟩ := h
    obtain ⟨s, g, rfl, hI⟩ := CLQT.prBwRun_inv hD hdt hcur h1
    simp only [List.foldlM_cons, List.foldlM_nil, bind_ok, pure, Except.pure, Except.ok.injEq] at h2
    obtain ⟨st2, h2, rfl⟩ := h2
    exact CLQT.prBwIter_inv hD hdt hI h2

/-- Blocks glued to one sequence. -/
def glue {β : Type} (B steps : ℕ) (σ : ℕ → ℕ → β) (z : β) (j : ℕ) : β := if j < B * steps then σ (j / steps) (j % steps) else z

theorem glue_eq {β : Type} {B steps : ℕ} {σ : ℕ → ℕ → β} {z : β} {s : ℕ → β} (hs : ∀ q < B, σ q 0 = s q ∧ σ q steps = s (q + 1))
    (hz : z = s B) {q i : ℕ} (hq : q < B) (hi : i ≤ steps) : glue B steps σ z (q * steps + i) = σ q i := by
  unfold glue
  have hle : (q + 1) * steps ≤ B * steps := Nat.mul_le_mul_right _ hq
  rw [Nat.succ_mul] at hle
  rcases Nat.lt_or_ge i steps with h | h
  · rw [if_pos (by omega), Nat.add_comm, Nat.add_mul_div_right _ _ (by omega), Nat.add_mul_mod_self_right, Nat.div_eq_of_lt h,
      Nat.mod_eq_of_lt h, zero_add]
  · obtain rfl : i = steps := by omega
    rw [(hs q hq).2]
    rcases Nat.lt_or_ge (q + 1) B with h1 | h1
    · by_cases hi0 : i = 0
      · subst hi0
        simp only [mul_zero, add_zero, lt_self_iff_false, if_false]
        rw [hz]
        have : ∀ k, q + 1 + k ≤ B → s (q + 1 + k) = s (q + 1) := by
          intro k
          induction k with
          | zero => exact fun _ => rfl
          | succ k ih =>
            intro hk
            obtain ⟨a, b⟩ := hs (q + 1 + k) (by omega)
            rw [← ih (by omega), ← a]
            exact b.symm
        have := this (B - (q + 1)) (by omega)
        rwa [show q + 1 + (B - (q + 1)) = B by omega] at this
      · have hle' : (q + 1 + 1) * i ≤ B * i := Nat.mul_le_mul_right _ h1
        rw [Nat.succ_mul, Nat.succ_mul] at hle'
        rw [← Nat.succ_mul, if_pos (by rw [Nat.succ_mul]; omega), Nat.mul_div_cancel _ (by omega), Nat.mul_mod_left]
        exact (hs (q + 1) h1).1
    · obtain rfl : B = q + 1 := by omega
      rw [← Nat.succ_mul, if_neg (by simp), hz]

theorem pyDiv_ok {a b c : K} : pyDiv a b = .ok c ↔ b ≠ 0 ∧ c = a / b := by
  unfold pyDiv
  split_ifs with h <;> simp [h, eq_comm]

theorem dt_global {T D dt : K} {B steps : ℕ} (hD : pyDiv T B = .ok D) (hdt : pyDiv D steps = .ok dt) :
    pyDiv T ((B * steps : ℕ) : K) = .ok dt := by
  rw [pyDiv_ok] at *
  obtain ⟨h1, rfl⟩ := hD
  obtain ⟨h2, rfl⟩ := hdt
  exact ⟨by rw [Nat.cast_mul]; exact mul_ne_zero h1 h2, by rw [Nat.cast_mul, div_div]⟩

theorem split_index {B steps j : ℕ} (h : j < B * steps) : ∃ q i, q < B ∧ i < steps ∧ j = q * steps + i := by
  have hs : 0 < steps := Nat.pos_of_ne_zero (by rintro rfl; simp at h)
  refine ⟨j / steps, j % steps, (Nat.div_lt_iff_lt_mul hs).2 h, Nat.mod_lt _ hs, ?_⟩
  rw [Nat.mul_comm]
  exact (Nat.div_add_mod j steps).symm

theorem seq_glue {β γ : Type} {B steps : ℕ} {σ : ℕ → ℕ → β} {z : β} (h : β → γ)
    (hg : ∀ q < B, ∀ i < steps, glue B steps σ z (q * steps + i) = σ q i) :
    ((List.range B).map fun q => (List.range steps).map fun i => h (σ q i)).flatten =
      (List.range (B * steps)).map fun j => h (glue B steps σ z j) := by
  rw [← seq_blocks (fun j => h (glue B steps σ z j))]
  congr 1
  exact seq_congr fun q hq => seq_congr fun i hi => by rw [hg q hq i hi]

theorem glue_lt {β : Type} {B steps : ℕ} {σ : ℕ → ℕ → β} {z : β} {q i : ℕ} (hq : q < B) (hi : i < steps) :
    glue B steps σ z (q * steps + i) = σ q i := by
  unfold glue
  have hle : (q + 1) * steps ≤ B * steps := Nat.mul_le_mul_right _ hq
  rw [Nat.succ_mul] at hle
  rw [if_pos (by omega), Nat.add_comm, Nat.add_mul_div_right _ _ (by omega), Nat.add_mul_mod_self_right, Nat.div_eq_of_lt hi,
      Nat.mod_eq_of_lt hi, zero_add]

theorem glue_end {β : Type} {B steps : ℕ} {σ : ℕ → ℕ → β} {z : β} : glue B steps σ z (B * steps) = z := by
  simp [glue]

theorem CLQT.prBackward_exact {P : CLQT n m K} {B steps : ℕ} {niter : Option ℕ} {r : BwResult n m K}
    (h : P.prBackwardPass B steps niter = .ok r) (hn : B ≤ niter.getD steps + 1) : P.seqBackwardPass (B * steps) = .ok r := by
  unfold CLQT.prBackwardPass at h
  simp only [bind_ok] at h
  obtain ⟨cur, hcur, st, hst, hr⟩ := h
  obtain ⟨D, hD, -⟩ := CLQT.prInitBackward_ok.1 hcur
  have hdt : ∃ dt, pyDiv D steps = .ok dt := by
    obtain ⟨s, hs⟩ : ∃ s, st.1 = cvLists (B + 1) s := by
      obtain ⟨_, _, s0, _, _, rfl⟩ := CLQT.prInitBackward_ok.1 hcur
      have : ∀ (N : ℕ) {st}, (List.range N).foldlM (fun st _ => P.prBwIter steps st)
          (cvLists (B + 1) s0, cvLists (B + 1) s0) = .ok st →
          ∃ s g, st = (cvLists (B + 1) s, cvLists (B + 1) g) := by
        intro N
        induction N with
        | zero =>
          intro st h
          simp only [List.range_zero, List.foldlM_nil, pure, Except.pure, Except.ok.injEq] at h
          exact ⟨s0, s0, h.symm⟩
        | succ N ih =>
          intro st h
          rw [List.range_succ, List.foldlM_append, bind_ok] at h
          obtain ⟨st1, h1, h2⟩ := h
          obtain ⟨s, g, rfl⟩ := ih h1
          simp only [List.foldlM_cons, List.foldlM_nil, bind_ok, pure, Except.pure, Except.ok.injEq] at h2
          obtain ⟨st2, h2, rfl⟩ := h2
          unfold CLQT.prBwIter at h2
          rw [bind_ok] at h2
          obtain ⟨FF, h3, h4⟩ := h2
          obtain ⟨_, _, _, _, f, _, _, rfl⟩ := CLQT.prDenseBackward_ok.1 h3
          obtain ⟨_, _, s', g', _, _, _, rfl⟩ := CLQT.prCoarseBackward_ok.1 h4
          exact ⟨s', g', rfl⟩
      obtain ⟨s, g, rfl⟩ := this _ hst
      exact ⟨s, rfl⟩
    rw [hs] at hr
    obtain ⟨D', hD', dt, hdt, _⟩ := CLQT.prFinalBackward_ok.1 hr
    obtain rfl : D = D' := by rw [hD, Except.ok.injEq] at hD'; exact hD'
    exact ⟨dt, hdt⟩
  obtain ⟨dt, hdt⟩ := hdt
  obtain ⟨s, g, rfl, i0, -, i2⟩ := CLQT.prBwRun_inv hD hdt hcur hst
  obtain ⟨D', hD', dt', hdt', σ, κ, hσ, rfl⟩ := CLQT.prFinalBackward_ok.1 hr
  obtain rfl : D = D' := by rw [hD, Except.ok.injEq] at hD'; exact hD'
  obtain rfl : dt = dt' := by rw [hdt, Except.ok.injEq] at hdt'; exact hdt'
  have hch : ∀ q < B, σ q 0 = (fun q => if q = 0 then σ 0 0 else s q) q ∧
      σ q steps = (fun q => if q = 0 then σ 0 0 else s q) (q + 1) := by
    intro q hq
    obtain ⟨a, b⟩ := hσ q hq
    have h1 : P.bwProp steps dt (q * steps * dt) (s (q + 1)) = .ok (σ q 0) := CLQT.bwProp_ok.2 ⟨σ q, κ q, a, b, rfl⟩
    by_cases hq0 : q = 0
    · subst hq0
      simp [a]
    · rw [i2 q hq (by omega), Except.ok.injEq] at h1
      simp [hq0, a, h1]
  have hB0 : B ≠ 0 := by
    rintro rfl
    simp [pyDiv] at hD
  have hz : s B = (fun q => if q = 0 then σ 0 0 else s q) B := by simp [hB0]
  rw [CLQT.seqBackward_ok]
  refine ⟨dt, dt_global hD hdt, glue B steps σ (s B), glue B steps κ 0, by rw [glue_end, i0]; rfl, ?_, ?_⟩
  · intro j hj
    obtain ⟨q, i, hq, hi, rfl⟩ := split_index hj
    have hb := (hσ q hq).2 i hi
    rw [Nat.add_assoc, glue_eq hch hz hq hi.le, glue_eq hch hz hq hi, glue_lt hq hi, Option.getD_none]
    push_cast
    rwa [show (0 : K) + ((q : K) * steps + i + 1) * dt = q * steps * dt + (i + 1) * dt by ring,
      show (0 : K) + ((q : K) * steps + i) * dt = q * steps * dt + i * dt by ring]
  · have g1 : ∀ q < B, ∀ i < steps, glue B steps σ (s B) (q * steps + i) = σ q i := fun q hq i hi => glue_lt hq hi
    have g2 : ∀ q < B, ∀ i < steps, glue B steps κ 0 (q * steps + i) = κ q i := fun q hq i hi => glue_lt hq hi
    unfold bwLists
    rw [List.range_succ, List.map_append, List.map_append]
    simp only [List.map_cons, List.map_nil, glue_end]
    rw [seq_glue Prod.fst g1, seq_glue Prod.snd g1, seq_glue Prod.fst g2, seq_glue Prod.snd g2]

/-- A sequential pass propagates over each block. -/
theorem CLQT.BwSeq.block {P : CLQT n m K} {B steps : ℕ} {dt : K} {σ : ℕ → CVal n K}
    {κ : ℕ → Matrix (Fin m) (Fin n) K × (Fin m → K)} (h : P.BwSeq (B * steps) dt 0 σ κ) {q : ℕ} (hq : q < B) :
    P.bwProp steps dt (q * steps * dt) (σ ((q + 1) * steps)) = .ok (σ (q * steps)) := by
  refine CLQT.bwProp_ok.2 ⟨fun i => σ (q * steps + i), fun i => κ (q * steps + i), by rw [Nat.succ_mul], fun i hi => ?_, rfl⟩
  have hle : (q + 1) * steps ≤ B * steps := Nat.mul_le_mul_right _ hq
  rw [Nat.succ_mul] at hle
  have hb := h (q * steps + i) (by omega)
  push_cast at hb
  rwa [show (0 : K) + ((q : K) * steps + i + 1) * dt = q * steps * dt + (i + 1) * dt by ring,
      show (0 : K) + ((q : K) * steps + i) * dt = q * steps * dt + i * dt by ring] at hb

theorem CLQT.prBackward_progress {P : CLQT n m K} {B steps niter : ℕ} {cur} (hcur : P.prInitBackward B = .ok cur) {st}
    (hst : (List.range niter).foldlM (fun st _ => P.prBwIter steps st) (cur, cur) = .ok st) {r : BwResult n m K}
    (hr : P.seqBackwardPass (B * steps) = .ok r) {q : ℕ} (hq : q ≤ B) (hi : B - q ≤ niter) :
    st.1.1[q]? = r.S_list[q * steps]? ∧ st.1.2[q]? = r.v_list[q * steps]? := by
  obtain ⟨dt, hdt, σ, κ, h0, hs, rfl⟩ := CLQT.seqBackward_ok.1 hr
  obtain ⟨D, hD, -⟩ := CLQT.prInitBackward_ok.1 hcur
  have hdt' : pyDiv D steps = .ok dt := by
    unfold CLQT.dtSeq at hdt
    rw [pyDiv_ok] at *
    obtain ⟨a, rfl⟩ := hdt
    obtain ⟨b, rfl⟩ := hD
    rw [Nat.cast_mul] at *
    exact ⟨right_ne_zero_of_mul a, by rw [div_div]⟩
  obtain ⟨s, g, rfl, i0, -, i2⟩ := CLQT.prBwRun_inv hD hdt' hcur hst
  have key : ∀ k ≤ B, k ≤ niter → s (B - k) = σ ((B - k) * steps) := by
    intro k
    induction k with
    | zero => intro _ _; rw [Nat.sub_zero, i0, h0]; rfl
    | succ k ih =>
      intro hk hn
      obtain ⟨q, hq, e1, e2⟩ : ∃ q < B, B - (k + 1) = q ∧ B - k = q + 1 := ⟨B - (k + 1), by omega, rfl, by omega⟩
      have e := ih (by omega) (by omega)
      rw [e2] at e
      rw [e1]
      have h1 := i2 q hq (by omega)
      rw [e, CLQT.BwSeq.block hs hq, Except.ok.injEq] at h1
      exact h1.symm
  have e := key (B - q) (by omega) hi
  rw [show B - (B - q) = q by omega] at e
  have hle : q * steps ≤ B * steps := Nat.mul_le_mul_right _ hq
  unfold cvLists bwLists
  have h1 : q < B + 1 := by omega
  have h2 : q * steps < B * steps + 1 := by omega
  simp [h1, h2, e]

theorem CLQT.BwSeq.unique {P : CLQT n m K} {N : ℕ} {dt t0 : K} {σ σ' : ℕ → CVal n K}
    {κ κ' : ℕ → Matrix (Fin m) (Fin n) K × (Fin m → K)} (h : P.BwSeq N dt t0 σ κ) (h' : P.BwSeq N dt t0 σ' κ')
    (e : σ N = σ' N) : (∀ i ≤ N, σ i = σ' i) ∧ ∀ i < N, κ i = κ' i := by
  have key : ∀ k ≤ N, σ (N - k) = σ' (N - k) := by
    intro k
    induction k with
    | zero => intro _; exact e
    | succ k ih =>
      intro hk
      obtain ⟨q, hq, e1, e2⟩ : ∃ q < N, N - (k + 1) = q ∧ N - k = q + 1 := ⟨N - (k + 1), by omega, rfl, by omega⟩
      have e3 := ih (by omega)
      rw [e2] at e3
      rw [e1]
      have h1 := (h q hq).1
      rw [e3, (h' q hq).1, Except.ok.injEq] at h1
      exact h1.symm
  have key' : ∀ i ≤ N, σ i = σ' i := fun i hi => by
    have := key (N - i) (by omega)
    rwa [show N - (N - i) = i by omega] at this
  refine ⟨key', fun i hi => ?_⟩
  have h1 := (h i hi).2
  rw [key' i hi.le, (h' i hi).2, Except.ok.injEq] at h1
  exact h1.symm

theorem CLQT.BwSeq.shift {P : CLQT n m K} {B steps : ℕ} {dt : K} {σ : ℕ → CVal n K}
    {κ : ℕ → Matrix (Fin m) (Fin n) K × (Fin m → K)} (h : P.BwSeq (B * steps) dt 0 σ κ) {q : ℕ} (hq : q < B) :
    P.BwSeq steps dt (q * steps * dt) (fun i => σ (q * steps + i)) (fun i => κ (q * steps + i)) := by
  intro i hi
  have hle : (q + 1) * steps ≤ B * steps := Nat.mul_le_mul_right _ hq
  rw [Nat.succ_mul] at hle
  have hb := h (q * steps + i) (by omega)
  push_cast at hb
  rwa [show (0 : K) + ((q : K) * steps + i + 1) * dt = q * steps * dt + (i + 1) * dt by ring,
      show (0 : K) + ((q : K) * steps + i) * dt = q * steps * dt + i * dt by ring] at hb

/-- After `niter` iterations the last `niter + 1` blocks of the result are exact. -/
theorem CLQT.prBackward_blocks {P : CLQT n m K} {B steps niter : ℕ} {r r' : BwResult n m K}
    (h : P.prBackwardPass B steps (some niter) = .ok r) (hr : P.seqBackwardPass (B * steps) = .ok r') {j : ℕ}
    (hj : (B - 1 - niter) * steps ≤ j) :
    r.S_list[j]? = r'.S_list[j]? ∧ r.v_list[j]? = r'.v_list[j]? ∧ r.Kx_list[j]? = r'.Kx_list[j]? ∧
      r.d_list[j]? = r'.d_list[j]? := by
  unfold CLQT.prBackwardPass at h
  simp only [bind_ok, Option.getD_some] at h
  obtain ⟨cur, hcur, st, hst, hfin⟩ := h
  obtain ⟨D, hD, -⟩ := CLQT.prInitBackward_ok.1 hcur
  have hprog := fun (q : ℕ) (hq : q ≤ B) (hi : B - q ≤ niter) => CLQT.prBackward_progress hcur hst hr hq hi
  obtain ⟨dt, hdt, σ', κ', h0, hs, rfl⟩ := CLQT.seqBackward_ok.1 hr
  have hdt' : pyDiv D steps = .ok dt := by
    unfold CLQT.dtSeq at hdt
    rw [pyDiv_ok] at *
    obtain ⟨a, rfl⟩ := hdt
    obtain ⟨b, rfl⟩ := hD
    rw [Nat.cast_mul] at *
    exact ⟨right_ne_zero_of_mul a, by rw [div_div]⟩
  obtain ⟨s, g, rfl, i0, -, -⟩ := CLQT.prBwRun_inv hD hdt' hcur hst
  have hprog' : ∀ q ≤ B, B - q ≤ niter → s q = σ' (q * steps) := by
    intro q hq hi
    have hle : q * steps ≤ B * steps := Nat.mul_le_mul_right _ hq
    obtain ⟨e1, e2⟩ := hprog q hq hi
    have h1 : q < B + 1 := by omega
    have h2 : q * steps < B * steps + 1 := by omega
    simp only [cvLists, bwLists, List.getElem?_map, List.getElem?_range h1, List.getElem?_range h2, Option.map_some,
      Option.some.injEq] at e1 e2
    exact Prod.ext e1 e2
  obtain ⟨D', hD', dt', hdt'', σ, κ, hσ, rfl⟩ := CLQT.prFinalBackward_ok.1 hfin
  obtain rfl : D = D' := by rw [hD, Except.ok.injEq] at hD'; exact hD'
  obtain rfl : dt = dt' := by rw [hdt', Except.ok.injEq] at hdt''; exact hdt''
  have hblk : ∀ q < B, B - 1 - niter ≤ q → (∀ i ≤ steps, σ q i = σ' (q * steps + i)) ∧
      ∀ i < steps, κ q i = κ' (q * steps + i) := by
    intro q hq hi
    refine CLQT.BwSeq.unique (hσ q hq).2 (hs.shift hq) ?_
    rw [(hσ q hq).1, hprog' (q + 1) hq (by omega), Nat.succ_mul]
  have hend : s B = σ' (B * steps) := hprog' B le_rfl (by omega)
  have g1 : ∀ q < B, ∀ i < steps, glue B steps σ (s B) (q * steps + i) = σ q i := fun q hq i hi => glue_lt hq hi
  have g2 : ∀ q < B, ∀ i < steps, glue B steps κ 0 (q * steps + i) = κ q i := fun q hq i hi => glue_lt hq hi
  have hp : ∀ j < B * steps, (B - 1 - niter) * steps ≤ j → glue B steps σ (s B) j = σ' j ∧ glue B steps κ 0 j = κ' j := by
    intro j hj hle
    obtain ⟨q, i, hq, hi, rfl⟩ := split_index hj
    have hq' : B - 1 - niter ≤ q := by
      by_contra hlt
      have : (q + 1) * steps ≤ (B - 1 - niter) * steps := Nat.mul_le_mul_right _ (by omega)
      rw [Nat.succ_mul] at this
      omega
    rw [g1 q hq i hi, g2 q hq i hi]
    exact ⟨(hblk q hq hq').1 i hi.le, (hblk q hq hq').2 i hi⟩
  have hS : ∀ {β : Type} (f : CVal n K → β), ((List.range (B * steps)).map (fun k => f (glue B steps σ (s B) k)) ++ [f (s B)])[j]? =
      ((List.range (B * steps + 1)).map fun k => f (σ' k))[j]? := by
    intro β f
    rw [List.range_succ, List.map_append, List.map_singleton, ← hend]
    rcases Nat.lt_or_ge j (B * steps) with h | h
    · rw [List.getElem?_append_left (by simpa using h), List.getElem?_append_left (by simpa using h)]
      simp [h, (hp j h hj).1]
    · rw [List.getElem?_append_right (by simpa using h), List.getElem?_append_right (by simpa using h)]
      simp
  have hK : ∀ {β : Type} (f : Matrix (Fin m) (Fin n) K × (Fin m → K) → β),
      ((List.range (B * steps)).map (fun k => f (glue B steps κ 0 k)))[j]? = ((List.range (B * steps)).map fun k => f (κ' k))[j]? := by
    intro β f
    rcases Nat.lt_or_ge j (B * steps) with h | h
    · simp [h, (hp j h hj).2]
    · rw [List.getElem?_eq_none (by simpa using h), List.getElem?_eq_none (by simpa using h)]
  unfold bwLists
  dsimp only
  rw [seq_glue Prod.fst g1, seq_glue Prod.snd g1, seq_glue Prod.fst g2, seq_glue Prod.snd g2]
  exact ⟨hS Prod.fst, hS Prod.snd, hK Prod.fst, hK Prod.snd⟩

/-! ### Completion -/

/-- The equation `U(t) X = L(t)ᵀ` can be solved at all times. -/
def CLQT.Reg (P : CLQT n m K) : Prop := ∀ t, ∃ X, solvePos (P.U t) (P.L t)ᵀ = .ok X

theorem rk4T_total {X : Type} [AddCommGroup X] [Module K X] {f : X → K → Py X} (hf : ∀ x t, ∃ y, f x t = .ok y) (dt : K) (x : X)
    (t : K) : ∃ y, rk4T f dt x t = .ok y := by
  unfold rk4T
  obtain ⟨a, ha⟩ := hf x t
  obtain ⟨b, hb⟩ := hf (x + (1 / 2 : K) • (dt • a)) (t + dt / 2)
  obtain ⟨c, hc⟩ := hf (x + (1 / 2 : K) • (dt • b)) (t + dt / 2)
  obtain ⟨d, hd⟩ := hf (x + dt • c) (t + dt)
  refine ⟨x + (1 / 6 : K) • (dt • a + (2 : K) • (dt • b) + (2 : K) • (dt • c) + dt • d), ?_⟩
  have hbd : ∀ {α β : Type} (a : α) (f : α → Py β), ((Except.ok a : Py α) >>= f) = f a := fun _ _ => rfl
  simp only [ha, hbd, hb, hc, hd]
  rfl

theorem foldlM_all_ok {α β : Type} {f : α → β → Py α} {l : List β} (h : ∀ b ∈ l, ∀ a, ∃ a', f a b = .ok a') :
    ∀ a, ∃ a', l.foldlM f a = .ok a' := by
  induction l with
  | nil => exact fun a => ⟨a, rfl⟩
  | cons b l ih =>
    intro a
    obtain ⟨a1, h1⟩ := h b (by simp) a
    obtain ⟨a2, h2⟩ := ih (fun b hb => h b (by simp [hb])) a1
    exact ⟨a2, by rw [List.foldlM_cons, h1]; exact h2⟩

theorem CLQT.Reg.seqBackward {P : CLQT n m K} (h : P.Reg) (steps : ℕ) (dt : K) (t0 : Option K)
    (S : Option (Matrix (Fin n) (Fin n) K)) (v : Option (Fin n → K)) : ∃ r, P.seqBackwardPass steps (some dt) t0 S v = .ok r := by
  have hode : ∀ x t, ∃ y, P.riccatiOdeF x t = .ok y := by
    intro x t
    obtain ⟨X, hX⟩ := h t
    unfold CLQT.riccatiOdeF
    dsimp only
    rw [hX]
    exact ⟨_, rfl⟩
  have hb : ∀ {α β : Type} (a : α) (f : α → Py β), ((Except.ok a : Py α) >>= f) = f a := fun _ _ => rfl
  obtain ⟨st, hst⟩ := foldlM_all_ok (f := P.bwStep dt (t0.getD 0)) (l := (List.range steps).reverse) (by
    intro k _ st
    unfold CLQT.bwStep
    obtain ⟨x, hx⟩ := rk4T_total hode (-dt) (packSv st.S st.v) (t0.getD 0 + (k + 1) * dt)
    obtain ⟨X, hX⟩ := h (t0.getD 0 + k * dt)
    simp only [hx, hb, hX]
    exact ⟨_, rfl⟩)
    { S := S.getD (P.HTᵀ * P.XT * P.HT), v := v.getD ((P.HTᵀ * P.XT) *ᵥ P.rT), Kx_list := [], d_list := [],
      S_list := [S.getD (P.HTᵀ * P.XT * P.HT)], v_list := [v.getD ((P.HTᵀ * P.XT) *ᵥ P.rT)] }
  unfold CLQT.seqBackwardPass
  simp only [CLQT.dtSeq_some, hb, hst]
  exact ⟨_, rfl⟩

theorem CLQT.Reg.bwProp {P : CLQT n m K} (h : P.Reg) (steps : ℕ) (dt t1 : K) (s : CVal n K) :
    ∃ s', P.bwProp steps dt t1 s = .ok s' := by
  obtain ⟨r, hr⟩ := h.seqBackward steps dt (some t1) (some s.1) (some s.2)
  obtain ⟨dt', hdt', σ, κ, h0, hs, rfl⟩ := CLQT.seqBackward_ok.1 hr
  obtain rfl : dt = dt' := by simpa [CLQT.dtSeq_some] using hdt'
  exact ⟨σ 0, CLQT.bwProp_ok.2 ⟨σ, κ, h0, hs, rfl⟩⟩

theorem CLQT.prBackward_total {P : CLQT n m K} (h : P.Reg) {B steps : ℕ} (hB : (B : K) ≠ 0) (hs : (steps : K) ≠ 0)
    (niter : Option ℕ) : ∃ r, P.prBackwardPass B steps niter = .ok r := by
  have hD : pyDiv P.T B = .ok (P.T / B) := pyDiv_ok.2 ⟨hB, rfl⟩
  have hdt : pyDiv (P.T / B) steps = .ok (P.T / B / steps) := pyDiv_ok.2 ⟨hs, rfl⟩
  have hinit : ∃ s0 : ℕ → CVal n K, P.prInitBackward B = .ok (cvLists (B + 1) s0) := by
    obtain ⟨r, hr⟩ := h.seqBackward B (P.T / B) none none none
    obtain ⟨dt', hdt', σ, κ, h0, hs, rfl⟩ := CLQT.seqBackward_ok.1 hr
    obtain rfl : P.T / B = dt' := by simpa [CLQT.dtSeq_some] using hdt'
    exact ⟨σ, CLQT.prInitBackward_ok.2 ⟨_, hD, σ, h0, ⟨κ, hs⟩, rfl⟩⟩
  have hiter : ∀ s g : ℕ → CVal n K, ∃ s' g', P.prBwIter steps (cvLists (B + 1) s, cvLists (B + 1) g) =
      .ok (cvLists (B + 1) s', cvLists (B + 1) g') := by
    intro s g
    choose f hf using fun q : ℕ => h.bwProp steps (P.T / B / steps) (q * steps * (P.T / B / steps)) (s (q + 1))
    have h1 : P.prDenseBackward steps (cvLists (B + 1) s).1 (cvLists (B + 1) s).2 =
        .ok (cvLists (B + 1) fun k => if k < B then f k else s B) :=
      CLQT.prDenseBackward_ok.2 ⟨_, hD, _, hdt, _, by simp, fun q hq => by simp [hq, hf q], rfl⟩
    generalize (fun k => if k < B then f k else s B) = f' at h1
    obtain ⟨st, hst⟩ := foldlM_all_ok (f := P.prCoarseBwStep (cvLists (B + 1) f').1 (cvLists (B + 1) g).1
      (cvLists (B + 1) f').2 (cvLists (B + 1) g).2 (P.T / B)) (l := (List.range B).reverse) (by
        intro k hk st
        have hk : k < B := by simpa using hk
        obtain ⟨a, ha⟩ := h.bwProp 1 (P.T / B) (k * (P.T / B)) (st.S, st.v)
        unfold CLQT.bwProp at ha
        simp only [bind_ok] at ha
        obtain ⟨r, hr, S, hS, v, hv, -⟩ := ha
        have hb : ∀ {α β : Type} (a : α) (f : α → Py β), ((Except.ok a : Py α) >>= f) = f a := fun _ _ => rfl
        unfold CLQT.prCoarseBwStep cvLists
        dsimp only at hr ⊢
        rw [pyGet_seq _ (show k < B + 1 by omega), pyGet_seq _ (show k < B + 1 by omega),
          pyGet_seq _ (show k < B + 1 by omega), pyGet_seq _ (show k < B + 1 by omega)]
        simp only [hr, hb, hS, hv]
        exact ⟨_, rfl⟩)
      ⟨(f' B).1, (f' B).2, [(f' B).1], [(f' B).2], [(f' B).1], [(f' B).2]⟩
    have h2 : ∃ L, P.prCoarseBackward (cvLists (B + 1) f') (cvLists (B + 1) g) = .ok L := by
      unfold CLQT.prCoarseBackward
      have e : (cvLists (B + 1) f').1.length - 1 = B := by simp [cvLists]
      have e1 : pyLast (cvLists (B + 1) f').1 = .ok (f' B).1 := pyLast_seq _ _
      have e2 : pyLast (cvLists (B + 1) f').2 = .ok (f' B).2 := pyLast_seq _ _
      have hb : ∀ {α β : Type} (a : α) (f : α → Py β), ((Except.ok a : Py α) >>= f) = f a := fun _ _ => rfl
      rw [e]
      simp only [hD, e1, e2, hb, hst]
      exact ⟨_, rfl⟩
    obtain ⟨L, hL⟩ := h2
    obtain ⟨_, _, s', g', _, _, _, rfl⟩ := CLQT.prCoarseBackward_ok.1 hL
    refine ⟨s', g', ?_⟩
    unfold CLQT.prBwIter
    rw [h1]
    exact hL
  have hrun : ∀ (N : ℕ) (s0 : ℕ → CVal n K), ∃ s g, (List.range N).foldlM (fun st _ => P.prBwIter steps st)
      (cvLists (B + 1) s0, cvLists (B + 1) s0) = .ok (cvLists (B + 1) s, cvLists (B + 1) g) := by
    intro N s0
    induction N with
    | zero => exact ⟨s0, s0, rfl⟩
    | succ N ih =>
      obtain ⟨s, g, hsg⟩ := ih
      obtain ⟨s', g', h'⟩ := hiter s g
      refine ⟨s', g', ?_⟩
      rw [List.range_succ, List.foldlM_append, hsg]
      have hb : ∀ {α β : Type} (a : α) (f : α → Py β), ((Except.ok a : Py α) >>= f) = f a := fun _ _ => rfl
      simp only [hb, List.foldlM_cons, List.foldlM_nil, h']
      rfl
  obtain ⟨s0, h0⟩ := hinit
  obtain ⟨s, g, hsg⟩ := hrun (niter.getD steps) s0
  have hfin : ∃ r, P.prFinalBackward steps (cvLists (B + 1) s).1 (cvLists (B + 1) s).2 = .ok r := by
    have : ∀ q : ℕ, ∃ σκ : (ℕ → CVal n K) × (ℕ → Matrix (Fin m) (Fin n) K × (Fin m → K)), σκ.1 steps = s (q + 1) ∧
        P.BwSeq steps (P.T / B / steps) (q * steps * (P.T / B / steps)) σκ.1 σκ.2 := by
      intro q
      obtain ⟨r, hr⟩ := h.seqBackward steps (P.T / B / steps) (some (q * steps * (P.T / B / steps))) (some (s (q + 1)).1)
        (some (s (q + 1)).2)
      obtain ⟨dt', hdt', σ, κ, h0, hs, rfl⟩ := CLQT.seqBackward_ok.1 hr
      obtain rfl : P.T / B / steps = dt' := by simpa [CLQT.dtSeq_some] using hdt'
      exact ⟨(σ, κ), h0, hs⟩
    choose σκ hσκ using this
    exact ⟨_, CLQT.prFinalBackward_ok.2 ⟨_, hD, _, hdt, fun q => (σκ q).1, fun q => (σκ q).2, fun q _ => hσκ q, rfl⟩⟩
  obtain ⟨r, hr⟩ := hfin
  refine ⟨r, ?_⟩
  unfold CLQT.prBackwardPass
  have hb : ∀ {α β : Type} (a : α) (f : α → Py β), ((Except.ok a : Py α) >>= f) = f a := fun _ _ => rfl
  simp only [h0, hb, hsg, hr]

end Verif
