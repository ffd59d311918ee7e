import Verif.Proof.PararealFw

/-! Parareal: the forward-backward pass. -/

namespace Verif

open Matrix

variable {n m : ℕ} {K : Type} [Field K] [LinearOrder K]

/-- Propagation of `(A, b, C)` over `steps` steps from time `t1`. -/
def CLQT.abcProp (P : CLQT n m K) (steps : ℕ) (dt t1 : K) (a : CAbc n K) : Py (CAbc n K) := do
  let r ← P.seqFwdBwdPass 0 steps (some dt) (some t1) (some a.1) (some a.2.1) (some a.2.2)
  return (← pyLast r.A_list, ← pyLast r.b_list, ← pyLast r.C_list)

theorem pyLast_abc (steps : ℕ) (α : ℕ → CAbc n K) : pyLast (abcLists (steps + 1) α).A_list = .ok (α steps).1 ∧
    pyLast (abcLists (steps + 1) α).b_list = .ok (α steps).2.1 ∧ pyLast (abcLists (steps + 1) α).C_list = .ok (α steps).2.2 :=
  ⟨pyLast_seq _ _, pyLast_seq _ _, pyLast_seq _ _⟩

theorem pyGet_abc {N k : ℕ} (h : k < N) (α : ℕ → CAbc n K) : pyGet (abcLists N α).A_list k = .ok (α k).1 ∧
    pyGet (abcLists N α).b_list k = .ok (α k).2.1 ∧ pyGet (abcLists N α).C_list k = .ok (α k).2.2 :=
  ⟨pyGet_seq _ h, pyGet_seq _ h, pyGet_seq _ h⟩

theorem CLQT.abcProp_ok {P : CLQT n m K} {steps : ℕ} {dt t1 : K} {a a' : CAbc n K} :
    P.abcProp steps dt t1 a = .ok a' ↔ ∃ α, α 0 = a ∧ P.AbcSeq steps dt t1 α ∧ α steps = a' := by
  unfold CLQT.abcProp
  simp only [bind_ok, CLQT.seqFwdBwd_ok, CLQT.dtSeq_some, Except.ok.injEq, exists_eq_left', Option.getD_some, pure, Except.pure]
  constructor
  · rintro ⟨r, ⟨α, h0, hs, rfl⟩, A, hA, b, hb, C, hC, rfl⟩
    obtain ⟨e1, e2, e3⟩ := pyLast_abc steps α
    rw [e1, Except.ok.injEq] at hA
    rw [e2, Except.ok.injEq] at hb
    rw [e3, Except.ok.injEq] at hC
    exact ⟨α, h0, hs, by rw [← hA, ← hb, ← hC]⟩
  · rintro ⟨α, h0, hs, rfl⟩
    obtain ⟨e1, e2, e3⟩ := pyLast_abc steps α
    exact ⟨_, ⟨α, h0, hs, rfl⟩, _, e1, _, e2, _, e3, rfl⟩

theorem CLQT.Reg.abcF {P : CLQT n m K} (h : P.Reg) (dt t : K) (a : CAbc n K) : ∃ a', P.abcF dt t a = .ok a' := by
  have hode : ∀ x t, ∃ y, P.fwdbwdOdeF x t = .ok y := by
    intro x t
    obtain ⟨X, hX⟩ := h t
    unfold CLQT.fwdbwdOdeF
    dsimp only
    rw [hX]
    exact ⟨_, rfl⟩
  obtain ⟨x, hx⟩ := rk4T_total hode dt (packABC a.1 a.2.1 a.2.2) t
  unfold CLQT.abcF
  rw [hx]
  exact ⟨_, rfl⟩

theorem CLQT.Reg.abcSeq {P : CLQT n m K} (h : P.Reg) (steps : ℕ) (dt t0 : K) (a : CAbc n K) :
    ∃ α, α 0 = a ∧ P.AbcSeq steps dt t0 α := by
  choose F hF using fun (k : ℕ) a => h.abcF dt (t0 + k * dt) a
  exact ⟨fun k => Nat.rec a (fun k y => F k y) k, rfl, fun k _ => hF k _⟩

theorem CLQT.Reg.abcProp {P : CLQT n m K} (h : P.Reg) (steps : ℕ) (dt t1 : K) (a : CAbc n K) :
    ∃ a', P.abcProp steps dt t1 a = .ok a' := by
  obtain ⟨α, h0, hs⟩ := h.abcSeq steps dt t1 a
  exact ⟨_, CLQT.abcProp_ok.2 ⟨α, h0, hs, rfl⟩⟩

theorem CLQT.AbcSeq.coarse {P : CLQT n m K} {B : ℕ} {D : K} {α : ℕ → CAbc n K} (h : P.AbcSeq B D 0 α) {q : ℕ} (hq : q < B) :
    P.abcProp 1 D (q * D) (α q) = .ok (α (q + 1)) := by
  refine CLQT.abcProp_ok.2 ⟨fun i => α (q + i), rfl, fun i hi => ?_, rfl⟩
  obtain rfl : i = 0 := by omega
  have := h q hq
  simp only [zero_add] at this
  simpa using this

theorem CLQT.prInitFwdBwd_ok {P : CLQT n m K} {B : ℕ} {x0 : Fin n → K} {L : AbcResult n K} :
    P.prInitFwdBwd B x0 = .ok L ↔ ∃ D, pyDiv P.T B = .ok D ∧ ∃ α, α 0 = (0, x0, 0) ∧ P.AbcSeq B D 0 α ∧ L = abcLists (B + 1) α := by
  unfold CLQT.prInitFwdBwd
  simp only [bind_ok, CLQT.seqFwdBwd_ok, CLQT.dtSeq_some, Except.ok.injEq, exists_eq_left', Option.getD_none]

theorem CLQT.prDenseFwdBwd_ok {P : CLQT n m K} {steps B : ℕ} {s : ℕ → CAbc n K} {L : AbcResult n K} :
    P.prDenseFwdBwd steps (abcLists (B + 1) s) = .ok L ↔
    ∃ D, pyDiv P.T B = .ok D ∧ ∃ dt, pyDiv D steps = .ok dt ∧ ∃ f : ℕ → CAbc n K, f 0 = s 0 ∧
      (∀ q < B, P.abcProp steps dt (q * steps * dt) (s q) = .ok (f (q + 1))) ∧ L = abcLists (B + 1) f := by
  unfold CLQT.prDenseFwdBwd
  have e : (abcLists (B + 1) s).A_list.length - 1 = B := by simp [abcLists]
  obtain ⟨e1, e2, e3⟩ := pyGet_abc (show 0 < B + 1 by omega) s
  rw [e, e1, e2, e3]
  haveI : Inhabited (Matrix (Fin n) (Fin n) K × (Fin n → K) × Matrix (Fin n) (Fin n) K) := ⟨0⟩
  have hk : ∀ (D : K) (k : ℕ), k < B → (do
      let A ← pyGet (abcLists (B + 1) s).A_list k
      let b ← pyGet (abcLists (B + 1) s).b_list k
      let C ← pyGet (abcLists (B + 1) s).C_list k
      let t1 := (k : K) * steps * D
      let r ← P.seqFwdBwdPass 0 steps (some D) (some t1) (some A) (some b) (some C)
      return (← pyLast r.A_list, ← pyLast r.b_list, ← pyLast r.C_list) : Py (CAbc n K)) =
      P.abcProp steps D (k * steps * D) (s k) := by
    intro D k hk
    obtain ⟨e1, e2, e3⟩ := pyGet_abc (show k < B + 1 by omega) s
    unfold CLQT.abcProp
    rw [e1, e2, e3]
    rfl
  simp only [bind_ok, Except.ok.injEq, exists_eq_left', pure, Except.pure]
  constructor
  · rintro ⟨D, hD, dt, hdt, rs, hrs, rfl⟩
    obtain ⟨f, rfl, hq⟩ := mapM_seq.1 hrs
    refine ⟨D, hD, dt, hdt, fun k => if k = 0 then s 0 else f (k - 1), by simp, fun q h => ?_, ?_⟩
    · rw [← hk dt q h]
      exact hq q h
    · unfold abcLists
      rw [List.range_succ_eq_map]
      simp [Function.comp_def]
  · rintro ⟨D, hD, dt, hdt, f, h0, hq, rfl⟩
    refine ⟨D, hD, dt, hdt, (List.range B).map fun q => f (q + 1), mapM_seq.2 ⟨_, rfl, fun q h => ?_⟩, ?_⟩
    · rw [← hq q h, ← hk dt q h]
      rfl
    · unfold abcLists
      rw [List.range_succ_eq_map]
      simp [h0, Function.comp_def]

theorem CLQT.prCoarseAbcStep_ok {P : CLQT n m K} {B : ℕ} {D : K} {f g : ℕ → CAbc n K} {k : ℕ} (hk : k < B)
    (st st' : CAbc n K × AbcResult n K × AbcResult n K) :
    P.prCoarseAbcStep (abcLists (B + 1) f) (abcLists (B + 1) g) D st k = .ok st' ↔
    ∃ a, P.abcProp 1 D (k * D) st.1 = .ok a ∧
      st' = (a + f (k + 1) - g (k + 1), ⟨st.2.1.A_list ++ [a.1], st.2.1.b_list ++ [a.2.1], st.2.1.C_list ++ [a.2.2]⟩,
        ⟨st.2.2.A_list ++ [(a + f (k + 1) - g (k + 1)).1], st.2.2.b_list ++ [(a + f (k + 1) - g (k + 1)).2.1],
          st.2.2.C_list ++ [(a + f (k + 1) - g (k + 1)).2.2]⟩) := by
  obtain ⟨e1, e2, e3⟩ := pyGet_abc (show k + 1 < B + 1 by omega) f
  obtain ⟨e4, e5, e6⟩ := pyGet_abc (show k + 1 < B + 1 by omega) g
  unfold CLQT.prCoarseAbcStep CLQT.abcProp
  dsimp only
  rw [e1, e2, e3, e4, e5, e6]
  simp only [bind_ok, Except.ok.injEq, exists_eq_left', pure, Except.pure]
  constructor
  · rintro ⟨r, hr, A, hA, b, hb, C, hC, rfl⟩
    exact ⟨(A, b, C), ⟨r, hr, A, hA, b, hb, C, hC, rfl⟩, rfl⟩
  · rintro ⟨a, ⟨r, hr, A, hA, b, hb, C, hC, rfl⟩, rfl⟩
    exact ⟨r, hr, A, hA, b, hb, C, hC, rfl⟩

theorem abcLists_succ (N : ℕ) (s : ℕ → CAbc n K) : abcLists (N + 1) s = ⟨(abcLists N s).A_list ++ [(s N).1],
    (abcLists N s).b_list ++ [(s N).2.1], (abcLists N s).C_list ++ [(s N).2.2]⟩ := by
  unfold abcLists
  rw [List.range_succ]
  simp

theorem abcLists_congr {N : ℕ} {s s' : ℕ → CAbc n K} (h : ∀ k < N, s k = s' k) : abcLists N s = abcLists N s' := by
  have e : ∀ {β : Type} (f : CAbc n K → β), (List.range N).map (fun k => f (s k)) = (List.range N).map fun k => f (s' k) :=
    fun f => seq_congr fun k hk => by rw [h k hk]
  unfold abcLists
  rw [e fun a => a.1, e fun a => a.2.1, e fun a => a.2.2]

theorem CLQT.prCoarseAbcLoop_ok {P : CLQT n m K} {B : ℕ} {D : K} {f g : ℕ → CAbc n K} {a0 : CAbc n K} : ∀ {k : ℕ}, k ≤ B → ∀ {st'},
    (List.range k).foldlM (P.prCoarseAbcStep (abcLists (B + 1) f) (abcLists (B + 1) g) D)
      (a0, ⟨[a0.1], [a0.2.1], [a0.2.2]⟩, ⟨[a0.1], [a0.2.1], [a0.2.2]⟩) = .ok st' ↔
    ∃ s' g' : ℕ → CAbc n K, s' 0 = a0 ∧ g' 0 = a0 ∧
      (∀ q < k, P.abcProp 1 D (q * D) (s' q) = .ok (g' (q + 1)) ∧ s' (q + 1) = g' (q + 1) + f (q + 1) - g (q + 1)) ∧
      st' = (s' k, abcLists (k + 1) g', abcLists (k + 1) s')
  | 0, _, st' => by
    simp only [List.range_zero, List.foldlM_nil, pure, Except.pure, Except.ok.injEq]
    constructor
    · rintro rfl
      exact ⟨fun _ => a0, fun _ => a0, rfl, rfl, fun k hk => absurd hk (by omega), by simp [abcLists]⟩
    · rintro ⟨s', g', h0, h1, -, rfl⟩
      simp [h0, h1, abcLists]
  | k + 1, hB, st' => by
    rw [List.range_succ (n := k), List.foldlM_append, bind_ok]
    simp only [List.foldlM_cons, List.foldlM_nil, bind_ok, pure, Except.pure, Except.ok.injEq, exists_eq_right]
    constructor
    · rintro ⟨st1, h1, h2⟩
      obtain ⟨s', g', h0, hg0, hseq, rfl⟩ := (CLQT.prCoarseAbcLoop_ok (by omega)).1 h1
      obtain ⟨a, ha, rfl⟩ := (CLQT.prCoarseAbcStep_ok (by omega) _ _).1 h2
      refine ⟨fun q => if q ≤ k then s' q else a + f (k + 1) - g (k + 1), fun q => if q ≤ k then g' q else a, by simpa using h0,
        by simpa using hg0, ?_, ?_⟩
      · intro q hq
        rcases Nat.lt_succ_iff_lt_or_eq.1 hq with h | rfl
        · have e1 : q ≤ k := by omega
          have e2 : q + 1 ≤ k := h
          simpa [e1, e2] using hseq q h
        · simp [ha]
      · rw [abcLists_succ (k + 1), abcLists_succ (k + 1)]
        have e1 : ∀ (s : ℕ → CAbc n K) (z : CAbc n K), abcLists (k + 1) (fun q => if q ≤ k then s q else z)
            = abcLists (k + 1) s := fun s z => abcLists_congr fun q hq => by simp [Nat.lt_succ_iff.1 hq]
        rw [e1, e1]
        simp
    · rintro ⟨s', g', h0, hg0, hseq, rfl⟩
      obtain ⟨h1, h2⟩ := hseq k (by omega)
      refine ⟨_, (CLQT.prCoarseAbcLoop_ok (by omega)).2 ⟨s', g', h0, hg0, fun q hq => hseq q (by omega), rfl⟩,
        (CLQT.prCoarseAbcStep_ok (by omega) _ _).2 ⟨_, h1, ?_⟩⟩
      rw [abcLists_succ (k + 1), abcLists_succ (k + 1), h2]

theorem CLQT.prCoarseFwdBwd_ok {P : CLQT n m K} {B : ℕ} {f g : ℕ → CAbc n K} {L} :
    P.prCoarseFwdBwd (abcLists (B + 1) f) (abcLists (B + 1) g) = .ok L ↔
    ∃ D, pyDiv P.T B = .ok D ∧ ∃ s' g' : ℕ → CAbc n K, s' 0 = f 0 ∧ g' 0 = f 0 ∧
      (∀ q < B, P.abcProp 1 D (q * D) (s' q) = .ok (g' (q + 1)) ∧ s' (q + 1) = g' (q + 1) + f (q + 1) - g (q + 1)) ∧
      L = (abcLists (B + 1) s', abcLists (B + 1) g') := by
  unfold CLQT.prCoarseFwdBwd
  have e : (abcLists (B + 1) f).A_list.length - 1 = B := by simp [abcLists]
  obtain ⟨e1, e2, e3⟩ := pyGet_abc (show 0 < B + 1 by omega) f
  rw [e, e1, e2, e3]
  simp only [bind_ok, pure, Except.pure, Except.ok.injEq, exists_eq_left']
  constructor
  · rintro ⟨D, hD, st, hst, rfl⟩
    obtain ⟨s', g', h0, hg0, hseq, rfl⟩ := (CLQT.prCoarseAbcLoop_ok (a0 := f 0) le_rfl).1 hst
    exact ⟨D, hD, s', g', h0, hg0, hseq, rfl⟩
  · rintro ⟨D, hD, s', g', h0, hg0, hseq, rfl⟩
    exact ⟨D, hD, _, (CLQT.prCoarseAbcLoop_ok (a0 := f 0) le_rfl).2 ⟨s', g', h0, hg0, hseq, rfl⟩, rfl⟩

theorem CLQT.prFinalFwdBwd_ok {P : CLQT n m K} {steps B : ℕ} (hB : B ≠ 0) {s : ℕ → CAbc n K} {r} :
    P.prFinalFwdBwd steps (abcLists (B + 1) s) = .ok r ↔
    ∃ D, pyDiv P.T B = .ok D ∧ ∃ dt, pyDiv D steps = .ok dt ∧ ∃ α : ℕ → ℕ → CAbc n K,
      (∀ q < B, α q 0 = s q ∧ P.AbcSeq steps dt (q * steps * dt) (α q)) ∧
      r = ⟨((List.range B).map fun q => (List.range steps).map fun i => (α q i).1).flatten ++ [(α (B - 1) steps).1],
        ((List.range B).map fun q => (List.range steps).map fun i => (α q i).2.1).flatten ++ [(α (B - 1) steps).2.1],
        ((List.range B).map fun q => (List.range steps).map fun i => (α q i).2.2).flatten ++ [(α (B - 1) steps).2.2]⟩ := by
  unfold CLQT.prFinalFwdBwd
  have e : (abcLists (B + 1) s).A_list.length - 1 = B := by simp [abcLists]
  obtain ⟨e1, e2, e3⟩ := pyGet_abc (show 0 < B + 1 by omega) s
  rw [e, e1, e2, e3]
  haveI : Inhabited (List (CAbc n K) × AbcResult n K) := ⟨([], ⟨[], [], []⟩)⟩
  haveI : Inhabited (List (Matrix (Fin n) (Fin n) K × (Fin n → K) × Matrix (Fin n) (Fin n) K) × AbcResult n K) :=
    ⟨([], ⟨[], [], []⟩)⟩
  have hblk : ∀ (dt : K) (k : ℕ), k < B → ∀ l, (do
      let A ← pyGet (abcLists (B + 1) s).A_list k
      let b ← pyGet (abcLists (B + 1) s).b_list k
      let C ← pyGet (abcLists (B + 1) s).C_list k
      let t1 := (k : K) * steps * dt
      let r ← P.seqFwdBwdPass 0 steps (some dt) (some t1) (some A) (some b) (some C)
      let l ← (List.range steps).mapM (fun (i : ℕ) => do
        return (← pyGet r.A_list i, ← pyGet r.b_list i, ← pyGet r.C_list i))
      return (l, r) : Py (List (CAbc n K) × AbcResult n K)) = .ok l ↔
      ∃ α : ℕ → CAbc n K, α 0 = s k ∧ P.AbcSeq steps dt (k * steps * dt) α ∧
        l = ((List.range steps).map α, abcLists (steps + 1) α) := by
    intro dt k hk l
    obtain ⟨e1, e2, e3⟩ := pyGet_abc (show k < B + 1 by omega) s
    rw [e1, e2, e3]
    simp only [bind_ok, Except.ok.injEq, exists_eq_left', pure, Except.pure]
    have hl : ∀ α : ℕ → CAbc n K, (List.range steps).mapM (fun (i : ℕ) => do
        return (← pyGet (abcLists (steps + 1) α).A_list i, ← pyGet (abcLists (steps + 1) α).b_list i,
          ← pyGet (abcLists (steps + 1) α).C_list i)) = (.ok ((List.range steps).map α) : Py (List (CAbc n K))) := by
      intro α
      refine mapM_range_of fun i hi => ?_
      obtain ⟨e1, e2, e3⟩ := pyGet_abc (show i < steps + 1 by omega) α
      rw [e1, e2, e3]
      rfl
    constructor
    · rintro ⟨r, hr, l, hl', rfl⟩
      obtain ⟨dt', hdt', α, h0, hs, rfl⟩ := CLQT.seqFwdBwd_ok.1 hr
      obtain rfl : dt = dt' := by simpa [CLQT.dtSeq_some] using hdt'
      refine ⟨α, h0, hs, ?_⟩
      have := hl'.symm.trans (hl α)
      rw [Except.ok.injEq] at this
      rw [this]
    · rintro ⟨α, h0, hs, rfl⟩
      exact ⟨_, CLQT.seqFwdBwd_ok.2 ⟨dt, CLQT.dtSeq_some _ _ _, α, h0, hs, rfl⟩, _, hl α, rfl⟩
  have hlast : ∀ {β : Type} (f : ℕ → β), ((List.range B).map f).getLast? = some (f (B - 1)) := by
    intro β f
    obtain ⟨b, rfl⟩ := Nat.exists_eq_succ_of_ne_zero hB
    rw [Nat.succ_eq_add_one, List.range_succ]
    simp
  simp only [bind_ok, Except.ok.injEq, exists_eq_left']
  constructor
  · rintro ⟨D, hD, dt, hdt, rs, hrs, hr⟩
    obtain ⟨f, rfl, hq⟩ := mapM_seq.1 hrs
    have hq' : ∀ q, ∃ α : ℕ → CAbc n K, q < B → α 0 = s q ∧ P.AbcSeq steps dt (q * steps * dt) α ∧
        f q = ((List.range steps).map α, abcLists (steps + 1) α) := by
      intro q
      by_cases h : q < B
      · obtain ⟨α, h1⟩ := (hblk dt q h (f q)).1 (hq q h)
        exact ⟨α, fun _ => h1⟩
      · exact ⟨fun _ => 0, fun h' => absurd h' h⟩
    choose α hα using hq'
    refine ⟨D, hD, dt, hdt, α, fun q h => ⟨(hα q h).1, (hα q h).2.1⟩, ?_⟩
    rw [hlast, (hα (B - 1) (by omega)).2.2] at hr
    dsimp only at hr
    obtain ⟨l1, l2, l3⟩ := pyLast_abc steps (α (B - 1))
    simp only [l1, l2, l3, bind_ok, Except.ok.injEq, exists_eq_left', pure, Except.pure] at hr
    rw [← hr, List.map_map, List.map_flatten, List.map_flatten, List.map_flatten, List.map_map, List.map_map, List.map_map]
    have e1 : ∀ {β : Type} (h : CAbc n K → β), (List.range B).map (List.map h ∘ Prod.fst ∘ f) =
        (List.range B).map fun q => (List.range steps).map fun i => h (α q i) := by
      intro β h
      refine seq_congr fun q hq => ?_
      simp only [Function.comp_apply]
      rw [(hα q hq).2.2, List.map_map]
      rfl
    rw [e1, e1, e1]
  · rintro ⟨D, hD, dt, hdt, α, hα, rfl⟩
    refine ⟨D, hD, dt, hdt, _, mapM_seq.2 ⟨_, rfl, fun q h => (hblk dt q h _).2 ⟨α q, (hα q h).1, (hα q h).2, rfl⟩⟩, ?_⟩
    rw [hlast]
    dsimp only
    obtain ⟨l1, l2, l3⟩ := pyLast_abc steps (α (B - 1))
    simp only [l1, l2, l3, bind_ok, Except.ok.injEq, exists_eq_left', pure, Except.pure]
    simp [List.map_flatten, Function.comp_def]

/-! ### Iterations -/

/-- The parameters `s` and coarse parameters `g` at the block boundaries after `i` iterations. -/
def CLQT.AbcInv (P : CLQT n m K) (B steps : ℕ) (D dt : K) (x0 : Fin n → K) (i : ℕ) (s g : ℕ → CAbc n K) : Prop :=
  s 0 = (0, x0, 0) ∧ PrInv (fun q => P.abcProp steps dt (q * steps * dt)) (fun q => P.abcProp 1 D (q * D)) B i s g

theorem CLQT.prAbcRun_inv {P : CLQT n m K} {B steps : ℕ} {D dt : K} {x0 : Fin n → K} (hD : pyDiv P.T B = .ok D)
    (hdt : pyDiv D steps = .ok dt) {cur} (hcur : P.prInitFwdBwd B x0 = .ok cur) : ∀ {niter : ℕ} {st},
    (List.range niter).foldlM (fun st _ => P.prAbcIter steps st) (cur, cur) = .ok st →
    ∃ s g, st = (abcLists (B + 1) s, abcLists (B + 1) g) ∧ P.AbcInv B steps D dt x0 niter s g
  | 0, st, h => by
    simp only [List.range_zero, List.foldlM_nil, pure, Except.pure, Except.ok.injEq] at h
    obtain ⟨D', hD', α, h0, hs, rfl⟩ := CLQT.prInitFwdBwd_ok.1 hcur
    obtain rfl : D = D' := by rw [hD, Except.ok.injEq] at hD'; exact hD'
    exact ⟨α, α, h.symm, h0, fun q hq => hs.coarse hq, fun q hq hi => by omega⟩
  | niter + 1, st, h => by
    rw [List.range_succ, List.foldlM_append, bind_ok] at h
    obtain ⟨st1, h1, h2⟩ := h
    obtain ⟨s, g, rfl, hI⟩ := CLQT.prAbcRun_inv hD hdt hcur h1
    simp only [List.foldlM_cons, List.foldlM_nil, bind_ok, pure, Except.pure, Except.ok.injEq] at h2
    obtain ⟨st2, h2, rfl⟩ := h2
    unfold CLQT.prAbcIter at h2
    rw [bind_ok] at h2
    obtain ⟨FF, h3, h4⟩ := h2
    obtain ⟨D', hD', dt', hdt', f, hf0, hf, rfl⟩ := CLQT.prDenseFwdBwd_ok.1 h3
    obtain rfl : D = D' := by rw [hD, Except.ok.injEq] at hD'; exact hD'
    obtain rfl : dt = dt' := by rw [hdt, Except.ok.injEq] at hdt'; exact hdt'
    obtain ⟨D', hD', s', g', hs0, -, hc, rfl⟩ := CLQT.prCoarseFwdBwd_ok.1 h4
    obtain rfl : D = D' := by rw [hD, Except.ok.injEq] at hD'; exact hD'
    exact ⟨s', g', rfl, by rw [hs0, hf0, hI.1], (pr_step (cur' := s') hI.2 hf (by rw [hs0, hf0]) hc).1⟩

theorem CLQT.prFwdBwd_exact {P : CLQT n m K} {B steps : ℕ} {niter : Option ℕ} {x0 : Fin n → K} {r : AbcResult n K}
    (h : P.prFwdBwdPass B steps x0 niter = .ok r) (hn : B ≤ niter.getD steps + 1) : P.seqFwdBwdPass x0 (B * steps) = .ok r := by
  unfold CLQT.prFwdBwdPass at h
  simp only [bind_ok] at h
  obtain ⟨cur, hcur, st, hst, hr⟩ := h
  obtain ⟨D, hD, α0, h0, hs0, rfl⟩ := CLQT.prInitFwdBwd_ok.1 hcur
  have hB' : B ≠ 0 := by
    rintro rfl
    simp [pyDiv] at hD
  have hdt : ∃ dt, pyDiv D steps = .ok dt := by
    have : ∀ (N : ℕ) {st}, (List.range N).foldlM (fun st _ => P.prAbcIter steps st)
        (abcLists (B + 1) α0, abcLists (B + 1) α0) = .ok st → ∃ s g, st = (abcLists (B + 1) s, abcLists (B + 1) g) := by
      intro N
      induction N with
      | zero =>
        intro st h
        simp only [List.range_zero, List.foldlM_nil, pure, Except.pure, Except.ok.injEq] at h
        exact ⟨α0, α0, h.symm⟩
      | succ N ih =>
        intro st h
        rw [List.range_succ (n := N), List.foldlM_append, bind_ok] at h
        obtain ⟨st1, h1, h2⟩ := h
        obtain ⟨s, g, rfl⟩ := ih h1
        simp only [List.foldlM_cons, List.foldlM_nil, bind_ok, pure, Except.pure, Except.ok.injEq] at h2
        obtain ⟨st2, h2, rfl⟩ := h2
        unfold CLQT.prAbcIter at h2
        rw [bind_ok] at h2
        obtain ⟨FF, h3, h4⟩ := h2
        obtain ⟨_, _, _, _, f, _, _, rfl⟩ := CLQT.prDenseFwdBwd_ok.1 h3
        obtain ⟨_, _, s', g', _, _, _, rfl⟩ := CLQT.prCoarseFwdBwd_ok.1 h4
        exact ⟨s', g', rfl⟩
    obtain ⟨s, g, rfl⟩ := this _ hst
    obtain ⟨D', hD', dt, hdt, _⟩ := (CLQT.prFinalFwdBwd_ok hB').1 hr
    obtain rfl : D = D' := by rw [hD, Except.ok.injEq] at hD'; exact hD'
    exact ⟨dt, hdt⟩
  obtain ⟨dt, hdt⟩ := hdt
  obtain ⟨s, g, rfl, hs, -, hex⟩ := CLQT.prAbcRun_inv hD hdt hcur hst
  obtain ⟨D', hD', dt', hdt', α, hα, rfl⟩ := (CLQT.prFinalFwdBwd_ok hB').1 hr
  obtain rfl : D = D' := by rw [hD, Except.ok.injEq] at hD'; exact hD'
  obtain rfl : dt = dt' := by rw [hdt, Except.ok.injEq] at hdt'; exact hdt'
  have hch : ∀ q < B, α q 0 = (fun q => if q = B then α (B - 1) steps else s q) q ∧
      α q steps = (fun q => if q = B then α (B - 1) steps else s q) (q + 1) := by
    intro q hq
    obtain ⟨a, b⟩ := hα q hq
    have h1 := CLQT.abcProp_ok.2 ⟨α q, a, b, rfl⟩
    by_cases hqB : q + 1 = B
    · have e : B - 1 = q := by omega
      simp [hqB, hq.ne, e, a]
    · have h2 := hex q hq (by omega)
      dsimp only at h2
      rw [h2, Except.ok.injEq] at h1
      simp [hqB, hq.ne, h1, a]
  have hz : α (B - 1) steps = (fun q => if q = B then α (B - 1) steps else s q) B := by simp
  rw [CLQT.seqFwdBwd_ok]
  refine ⟨dt, dt_global hD hdt, glue B steps α (α (B - 1) steps), ?_, ?_, ?_⟩
  · have := glue_eq (z := α (B - 1) steps) hch hz (Nat.pos_of_ne_zero hB') (Nat.zero_le steps)
    rw [zero_mul, zero_add, (hα 0 (Nat.pos_of_ne_zero hB')).1, hs] at this
    exact this
  · intro j hj
    obtain ⟨q, i, hq, hi, rfl⟩ := split_index hj
    have hb := (hα q hq).2 i hi
    rw [Nat.add_assoc, glue_eq hch hz hq hi.le, glue_eq hch hz hq hi, Option.getD_none]
    push_cast
    rwa [show (0 : K) + ((q : K) * steps + i) * dt = q * steps * dt + i * dt by ring]
  · have g1 : ∀ q < B, ∀ i < steps, glue B steps α (α (B - 1) steps) (q * steps + i) = α q i := fun q hq i hi => glue_lt hq hi
    rw [abcLists_succ, glue_end]
    unfold abcLists
    rw [seq_glue (fun a : CAbc n K => a.1) g1, seq_glue (fun a : CAbc n K => a.2.1) g1, seq_glue (fun a : CAbc n K => a.2.2) g1]

/-- A sequential pass propagates over each block. -/
theorem CLQT.AbcSeq.block {P : CLQT n m K} {B steps : ℕ} {dt : K} {α : ℕ → CAbc n K} (h : P.AbcSeq (B * steps) dt 0 α) {q : ℕ}
    (hq : q < B) : P.abcProp steps dt (q * steps * dt) (α (q * steps)) = .ok (α ((q + 1) * steps)) := by
  refine CLQT.abcProp_ok.2 ⟨fun i => α (q * steps + i), rfl, fun i hi => ?_, by rw [Nat.succ_mul]⟩
  have hle : (q + 1) * steps ≤ B * steps := Nat.mul_le_mul_right _ hq
  rw [Nat.succ_mul] at hle
  have hb := h (q * steps + i) (by omega)
  push_cast at hb
  rwa [show (0 : K) + ((q : K) * steps + i) * dt = q * steps * dt + i * dt by ring] at hb

theorem CLQT.prFwdBwd_progress {P : CLQT n m K} {B steps niter : ℕ} {x0 : Fin n → K} {cur}
    (hcur : P.prInitFwdBwd B x0 = .ok cur) {st}
    (hst : (List.range niter).foldlM (fun st _ => P.prAbcIter steps st) (cur, cur) = .ok st) {r : AbcResult n K}
    (hr : P.seqFwdBwdPass x0 (B * steps) = .ok r) {q : ℕ} (hq : q ≤ B) (hi : q ≤ niter) :
    st.1.A_list[q]? = r.A_list[q * steps]? ∧ st.1.b_list[q]? = r.b_list[q * steps]? ∧
      st.1.C_list[q]? = r.C_list[q * steps]? := by
  obtain ⟨dt, hdt, α, h0, hs, rfl⟩ := CLQT.seqFwdBwd_ok.1 hr
  obtain ⟨D, hD, -⟩ := CLQT.prInitFwdBwd_ok.1 hcur
  have hdt' : pyDiv D steps = .ok dt := by
    unfold CLQT.dtSeq at hdt
    rw [pyDiv_ok] at *
    obtain ⟨a, rfl⟩ := hdt
    obtain ⟨b, rfl⟩ := hD
    rw [Nat.cast_mul] at *
    exact ⟨right_ne_zero_of_mul a, by rw [div_div]⟩
  obtain ⟨s, g, rfl, i0, -, hex⟩ := CLQT.prAbcRun_inv hD hdt' hcur hst
  have key : ∀ k ≤ B, k ≤ niter → s k = α (k * steps) := by
    intro k
    induction k with
    | zero => intro _ _; rw [i0, zero_mul, h0]; rfl
    | succ k ih =>
      intro hk hn
      have h1 := hex k hk (by omega)
      dsimp only at h1
      rw [ih (by omega) (by omega), CLQT.AbcSeq.block hs hk, Except.ok.injEq] at h1
      exact h1.symm
  have hle : q * steps ≤ B * steps := Nat.mul_le_mul_right _ hq
  have h1 : q < B + 1 := by omega
  have h2 : q * steps < B * steps + 1 := by omega
  unfold abcLists
  simp [h1, h2, key q hq hi]

theorem CLQT.AbcSeq.unique {P : CLQT n m K} {N : ℕ} {dt t0 : K} {α α' : ℕ → CAbc n K} (h : P.AbcSeq N dt t0 α)
    (h' : P.AbcSeq N dt t0 α') (e : α 0 = α' 0) : ∀ i ≤ N, α i = α' i := by
  intro i
  induction i with
  | zero => exact fun _ => e
  | succ i ih =>
    intro hi
    have h1 := h i hi
    rw [ih (by omega), h' i hi, Except.ok.injEq] at h1
    exact h1.symm

theorem CLQT.AbcSeq.shift {P : CLQT n m K} {B steps : ℕ} {dt : K} {α : ℕ → CAbc n K} (h : P.AbcSeq (B * steps) dt 0 α) {q : ℕ}
    (hq : q < B) : P.AbcSeq steps dt (q * steps * dt) (fun i => α (q * steps + i)) := by
  intro i hi
  have hle : (q + 1) * steps ≤ B * steps := Nat.mul_le_mul_right _ hq
  rw [Nat.succ_mul] at hle
  have hb := h (q * steps + i) (by omega)
  push_cast at hb
  rwa [show (0 : K) + ((q : K) * steps + i) * dt = q * steps * dt + i * dt by ring] at hb

/-- After `niter` iterations the first `niter + 1` blocks of the result are exact. -/
theorem CLQT.prFwdBwd_blocks {P : CLQT n m K} {B steps niter : ℕ} {x0 : Fin n → K} {r r' : AbcResult n K}
    (h : P.prFwdBwdPass B steps x0 (some niter) = .ok r) (hr : P.seqFwdBwdPass x0 (B * steps) = .ok r') {j : ℕ}
    (hj : j < (niter + 1) * steps) (hjB : j < B * steps) :
    r.A_list[j]? = r'.A_list[j]? ∧ r.b_list[j]? = r'.b_list[j]? ∧ r.C_list[j]? = r'.C_list[j]? := by
  unfold CLQT.prFwdBwdPass at h
  simp only [bind_ok, Option.getD_some] at h
  obtain ⟨cur, hcur, st, hst, hfin⟩ := h
  have hprog := fun (q : ℕ) (hq : q ≤ B) (hi : q ≤ niter) => CLQT.prFwdBwd_progress hcur hst hr hq hi
  obtain ⟨dt, hdt, α', h0, hs, rfl⟩ := CLQT.seqFwdBwd_ok.1 hr
  obtain ⟨D, hD, -⟩ := CLQT.prInitFwdBwd_ok.1 hcur
  have hB' : B ≠ 0 := by
    rintro rfl
    simp [pyDiv] at hD
  have hdt' : pyDiv D steps = .ok dt := by
    unfold CLQT.dtSeq at hdt
    rw [pyDiv_ok] at *
    obtain ⟨a, rfl⟩ := hdt
    obtain ⟨b, rfl⟩ := hD
    rw [Nat.cast_mul] at *
    exact ⟨right_ne_zero_of_mul a, by rw [div_div]⟩
  obtain ⟨s, g, rfl, i0, -, -⟩ := CLQT.prAbcRun_inv hD hdt' hcur hst
  obtain ⟨D', hD', dt', hdt'', α, hα, rfl⟩ := (CLQT.prFinalFwdBwd_ok hB').1 hfin
  obtain rfl : D = D' := by rw [hD, Except.ok.injEq] at hD'; exact hD'
  obtain rfl : dt = dt' := by rw [hdt', Except.ok.injEq] at hdt''; exact hdt''
  have hblk : ∀ q < B, q ≤ niter → ∀ i ≤ steps, α q i = α' (q * steps + i) := by
    intro q hq hi
    refine CLQT.AbcSeq.unique (hα q hq).2 (hs.shift hq) ?_
    have hle : q * steps ≤ B * steps := Nat.mul_le_mul_right _ hq.le
    obtain ⟨e1, e2, e3⟩ := hprog q hq.le hi
    have h1 : q < B + 1 := by omega
    have h2 : q * steps < B * steps + 1 := by omega
    simp only [abcLists, List.getElem?_map, List.getElem?_range h1, List.getElem?_range h2, Option.map_some,
      Option.some.injEq] at e1 e2 e3
    rw [(hα q hq).1]
    exact Prod.ext e1 (Prod.ext e2 e3)
  have g1 : ∀ q < B, ∀ i < steps, glue B steps α 0 (q * steps + i) = α q i := fun q hq i hi => glue_lt hq hi
  have hp : glue B steps α 0 j = α' j := by
    obtain ⟨q, i, hq, hi, rfl⟩ := split_index hjB
    have hq' : q ≤ niter := by
      by_contra hlt
      have : (niter + 1) * steps ≤ q * steps := Nat.mul_le_mul_right _ (by omega)
      omega
    rw [g1 q hq i hi]
    exact hblk q hq hq' i hi.le
  unfold abcLists
  dsimp only
  rw [seq_glue (fun a : CAbc n K => a.1) g1, seq_glue (fun a : CAbc n K => a.2.1) g1, seq_glue (fun a : CAbc n K => a.2.2) g1,
    List.getElem?_append_left (by simpa using hjB), List.getElem?_append_left (by simpa using hjB),
    List.getElem?_append_left (by simpa using hjB)]
  simp [hjB, Nat.lt_succ_of_lt hjB, hp]

theorem CLQT.prFwdBwd_total {P : CLQT n m K} (h : P.Reg) {B steps : ℕ} (hB : (B : K) ≠ 0) (hs : (steps : K) ≠ 0)
    (x0 : Fin n → K) (niter : Option ℕ) : ∃ r, P.prFwdBwdPass B steps x0 niter = .ok r := by
  have hB' : B ≠ 0 := by rintro rfl; simp at hB
  have hD : pyDiv P.T B = .ok (P.T / B) := pyDiv_ok.2 ⟨hB, rfl⟩
  have hdt : pyDiv (P.T / B) steps = .ok (P.T / B / steps) := pyDiv_ok.2 ⟨hs, rfl⟩
  generalize P.T / (B : K) / (steps : K) = dt at hdt
  generalize P.T / (B : K) = D at hD hdt
  have hiter : ∀ s g : ℕ → CAbc n K, ∃ s' g', P.prAbcIter steps (abcLists (B + 1) s, abcLists (B + 1) g) =
      .ok (abcLists (B + 1) s', abcLists (B + 1) g') := by
    intro s g
    choose f hf using fun q : ℕ => h.abcProp steps dt (q * steps * dt) (s q)
    let f' : ℕ → CAbc n K := fun k => if k = 0 then s 0 else f (k - 1)
    have h1 : P.prDenseFwdBwd steps (abcLists (B + 1) s) = .ok (abcLists (B + 1) f') :=
      CLQT.prDenseFwdBwd_ok.2 ⟨D, hD, dt, hdt, f', rfl, fun q _ => hf q, rfl⟩
    choose c hc using fun (q : ℕ) x => h.abcProp 1 D (q * D) x
    let s' : ℕ → CAbc n K := fun k => Nat.rec (s 0) (fun q y => c q y + f' (q + 1) - g (q + 1)) k
    let g' : ℕ → CAbc n K := fun k => match k with
      | 0 => s 0
      | q + 1 => c q (s' q)
    refine ⟨s', g', ?_⟩
    unfold CLQT.prAbcIter
    simp only
    rw [h1]
    exact CLQT.prCoarseFwdBwd_ok.2 ⟨D, hD, s', g', rfl, rfl, fun q _ => ⟨hc q (s' q), rfl⟩, rfl⟩
  obtain ⟨α, h0, hα⟩ := h.abcSeq B D 0 (0, x0, 0)
  have hcur := CLQT.prInitFwdBwd_ok.2 ⟨D, hD, α, h0, hα, rfl⟩
  have hrun : ∀ N : ℕ, ∃ s g, (List.range N).foldlM (fun st _ => P.prAbcIter steps st)
      (abcLists (B + 1) α, abcLists (B + 1) α) = .ok (abcLists (B + 1) s, abcLists (B + 1) g) := by
    intro N
    induction N with
    | zero => exact ⟨α, α, rfl⟩
    | succ N ih =>
      obtain ⟨s, g, h1⟩ := ih
      obtain ⟨s', g', h2⟩ := hiter s g
      refine ⟨s', g', ?_⟩
      rw [List.range_succ (n := N), List.foldlM_append, h1]
      have hb : ∀ {α β : Type} (a : α) (f : α → Py β), ((Except.ok a : Py α) >>= f) = f a := fun _ _ => rfl
      simp only [hb, List.foldlM_cons, List.foldlM_nil, h2]
      rfl
  obtain ⟨s, g, hsg⟩ := hrun (niter.getD steps)
  choose β hβ using fun q : ℕ => h.abcSeq steps dt (q * steps * dt) (s q)
  have hfin : ∃ r, P.prFinalFwdBwd steps (abcLists (B + 1) s) = .ok r :=
    ⟨_, (CLQT.prFinalFwdBwd_ok hB').2 ⟨D, hD, dt, hdt, β, fun q _ => hβ q, rfl⟩⟩
  obtain ⟨r, hr⟩ := hfin
  refine ⟨r, ?_⟩
  unfold CLQT.prFwdBwdPass
  have hb : ∀ {α β : Type} (a : α) (f : α → Py β), ((Except.ok a : Py α) >>= f) = f a := fun _ _ => rfl
  simp only [hcur, hb, hsg]
  exact hr

end Verif
