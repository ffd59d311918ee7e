import Verif.Model.CLQT
import Verif.Proof.PyLemmas
import Verif.Proof.LQTCheck

/-! Sequential passes of the continuous-time tracker as sequences of values. -/

namespace Verif

open Matrix

/-! ### Lists given by a function on indices -/

section Lists
variable {α β : Type}

theorem pyGet_seq (f : ℕ → β) {k N : ℕ} (h : k < N) : pyGet ((List.range N).map f) k = .ok (f k) := by
  rw [pyGet_eq]; simp [h]

theorem pyLast_ok {l : List β} {a : β} : pyLast l = .ok a ↔ l.getLast? = some a := by
  unfold pyLast
  cases l.getLast? <;> simp

theorem pyLast_seq (f : ℕ → β) (N : ℕ) : pyLast ((List.range (N + 1)).map f) = .ok (f N) := by
  rw [pyLast_ok]; simp [List.range_succ]

theorem exists_seq [Inhabited β] (l : List β) : ∃ f : ℕ → β, l = (List.range l.length).map f := by
  refine ⟨fun k => l[k]?.getD default, list_ext_of rfl (by simp) fun k hk => ?_⟩
  simp [hk]

theorem seq_congr {f g : ℕ → β} {N : ℕ} (h : ∀ k < N, f k = g k) : (List.range N).map f = (List.range N).map g :=
  List.map_congr_left fun k hk => h k (List.mem_range.1 hk)

theorem seq_inj {f g : ℕ → β} {N : ℕ} (h : (List.range N).map f = (List.range N).map g) : ∀ k < N, f k = g k := by
  intro k hk
  have := congrArg (fun l : List β => l[k]?) h
  simpa [hk] using this

theorem mapM_seq [Inhabited β] {N : ℕ} {F : ℕ → Py β} {r : List β} :
    (List.range N).mapM F = .ok r ↔ ∃ f, r = (List.range N).map f ∧ ∀ k < N, F k = .ok (f k) := by
  rw [mapM_range_ok]
  constructor
  · rintro ⟨hl, h⟩
    obtain ⟨f, hf⟩ := exists_seq r
    rw [hl] at hf
    refine ⟨f, hf, fun k hk => ?_⟩
    obtain ⟨b, h1, h2⟩ := h k hk
    rw [hf] at h1
    simp [hk] at h1
    rw [h2, h1]
  · rintro ⟨f, rfl, h⟩
    exact ⟨by simp, fun k hk => ⟨f k, by simp [hk], h k hk⟩⟩

theorem mapM_reverse {F : α → Py β} {l : List α} {r : List β} : l.reverse.mapM F = .ok r ↔ l.mapM F = .ok r.reverse := by
  rw [mapM_ok_iff, mapM_ok_iff, ← List.forall₂_reverse_iff, List.reverse_reverse]

theorem seq_add (f : ℕ → β) (M N : ℕ) :
    (List.range (M + N)).map f = (List.range M).map f ++ (List.range N).map fun i => f (M + i) := by
  rw [List.range_add, List.map_append, List.map_map]; rfl

theorem seq_blocks (f : ℕ → β) (s : ℕ) : ∀ B : ℕ,
    ((List.range B).map fun q => (List.range s).map fun i => f (q * s + i)).flatten = (List.range (B * s)).map f
  | 0 => by simp
  | B + 1 => by
    rw [List.range_succ, List.map_append, List.flatten_append, seq_blocks f s B, Nat.succ_mul, seq_add]
    simp

theorem seq_drop (f : ℕ → β) (M N : ℕ) : ((List.range (M + N)).map f).drop M = (List.range N).map fun i => f (M + i) := by
  rw [seq_add, List.drop_left' (by simp)]

theorem seq_take (f : ℕ → β) (M N : ℕ) : ((List.range (M + N)).map f).take M = (List.range M).map f := by
  rw [seq_add, List.take_left' (by simp)]

theorem pySlice_seq (f : ℕ → β) {a b N : ℕ} (hab : a ≤ b) (hb : b ≤ N) :
    pySlice ((List.range N).map f) a b = (List.range (b - a)).map fun i => f (a + i) := by
  obtain ⟨c, rfl⟩ := Nat.exists_eq_add_of_le hab
  obtain ⟨e, rfl⟩ := Nat.exists_eq_add_of_le hb
  unfold pySlice
  rw [Nat.add_assoc, seq_drop, Nat.add_sub_cancel_left, seq_take]

end Lists

variable {n m : ℕ} {K : Type} [Field K] [LinearOrder K]

/-! ### Backward pass -/

/-- A value function. -/
abbrev CVal (n : ℕ) (K : Type) := Matrix (Fin n) (Fin n) K × (Fin n → K)

/-- One step of the backward integration from time `t`. -/
def CLQT.bwF (P : CLQT n m K) (dt t : K) (s : CVal n K) : Py (CVal n K) := do
  let x ← rk4T P.riccatiOdeF (-dt) (packSv s.1 s.2) t
  return (symPart (unpackSv x).1, (unpackSv x).2)

/-- Gain and offset at time `t`. -/
def CLQT.gainF (P : CLQT n m K) (t : K) (s : CVal n K) : Py (Matrix (Fin m) (Fin n) K × (Fin m → K)) := do
  let ULT ← solvePos (P.U t) (P.L t)ᵀ
  return (ULT * s.1, ULT *ᵥ s.2)

theorem CLQT.bwStep_ok {P : CLQT n m K} {dt t0 : K} {st st' : BwState n m K} {k : ℕ} : P.bwStep dt t0 st k = .ok st' ↔
    ∃ s g, P.bwF dt (t0 + (k + 1) * dt) (st.S, st.v) = .ok s ∧ P.gainF (t0 + k * dt) s = .ok g ∧
      st' = { S := s.1, v := s.2, Kx_list := st.Kx_list ++ [g.1], d_list := st.d_list ++ [g.2],
              S_list := st.S_list ++ [s.1], v_list := st.v_list ++ [s.2] } := by
  unfold CLQT.bwStep CLQT.bwF CLQT.gainF
  dsimp only
  cases rk4T P.riccatiOdeF (-dt) (packSv st.S st.v) (t0 + (k + 1) * dt) with
  | error e => simp [bind, Except.bind]
  | ok x =>
    cases solvePos (P.U (t0 + k * dt)) (P.L (t0 + k * dt))ᵀ with
    | error e => simp [bind, Except.bind, pure, Except.pure]
    | ok ULT => simp [bind, Except.bind, pure, Except.pure, eq_comm]

/-- The value functions `σ` and gains `κ` of a backward integration over `steps` steps from time `t0` on. -/
def CLQT.BwSeq (P : CLQT n m K) (steps : ℕ) (dt t0 : K) (σ : ℕ → CVal n K)
    (κ : ℕ → Matrix (Fin m) (Fin n) K × (Fin m → K)) : Prop :=
  ∀ k < steps, P.bwF dt (t0 + (k + 1) * dt) (σ (k + 1)) = .ok (σ k) ∧ P.gainF (t0 + k * dt) (σ k) = .ok (κ k)

/-- Lists of the result of a backward pass. -/
def bwLists (steps : ℕ) (σ : ℕ → CVal n K) (κ : ℕ → Matrix (Fin m) (Fin n) K × (Fin m → K)) : BwResult n m K :=
  ⟨(List.range steps).map fun k => (κ k).1, (List.range steps).map fun k => (κ k).2,
    (List.range (steps + 1)).map fun k => (σ k).1, (List.range (steps + 1)).map fun k => (σ k).2⟩

theorem CLQT.bwLoop_ok {P : CLQT n m K} {dt t0 : K} : ∀ {steps : ℕ} {st st' : BwState n m K},
    (List.range steps).reverse.foldlM (P.bwStep dt t0) st = .ok st' ↔
    ∃ σ κ, σ steps = (st.S, st.v) ∧ P.BwSeq steps dt t0 σ κ ∧
      st' = { S := (σ 0).1, v := (σ 0).2,
              Kx_list := st.Kx_list ++ ((List.range steps).map fun k => (κ k).1).reverse,
              d_list := st.d_list ++ ((List.range steps).map fun k => (κ k).2).reverse,
              S_list := st.S_list ++ ((List.range steps).map fun k => (σ k).1).reverse,
              v_list := st.v_list ++ ((List.range steps).map fun k => (σ k).2).reverse }
  | 0, st, st' => by
    simp only [List.range_zero, List.reverse_nil, List.foldlM_nil, pure, Except.pure, Except.ok.injEq]
    constructor
    · rintro rfl
      exact ⟨fun _ => (st.S, st.v), fun _ => (0, 0), rfl, fun k hk => absurd hk (by omega), by simp⟩
    · rintro ⟨σ, κ, h0, -, rfl⟩
      simp [h0]
  | steps + 1, st, st' => by
    rw [List.range_succ, List.reverse_append, List.reverse_singleton, List.singleton_append, List.foldlM_cons, bind_ok]
    constructor
    · rintro ⟨st1, h1, h2⟩
      obtain ⟨s, g, hs, hg, rfl⟩ := CLQT.bwStep_ok.1 h1
      obtain ⟨σ, κ, h0, hseq, rfl⟩ := CLQT.bwLoop_ok.1 h2
      refine ⟨fun k => if k ≤ steps then σ k else (st.S, st.v), fun k => if k < steps then κ k else g, ?_, ?_, ?_⟩
      · simp
      · intro k hk
        rcases Nat.lt_succ_iff_lt_or_eq.1 hk with h | rfl
        · have e1 : k ≤ steps := by omega
          have e2 : k + 1 ≤ steps := h
          simpa [e1, e2, h] using hseq k h
        · have h0' : σ k = s := h0
          simp [h0', hs, hg]
      · have h0' : σ steps = s := h0
        have e1 : ∀ {β : Type} (f : CVal n K → β), (List.range steps).map (fun k => f (if k ≤ steps then σ k else (st.S, st.v)))
            = (List.range steps).map fun k => f (σ k) := fun f => seq_congr fun k hk => by simp [hk.le]
        have e2 : ∀ {β : Type} (f : Matrix (Fin m) (Fin n) K × (Fin m → K) → β),
            (List.range steps).map (fun k => f (if k < steps then κ k else g))
            = (List.range steps).map fun k => f (κ k) := fun f => seq_congr fun k hk => by simp [hk]
        simp [h0', e1, e2 Prod.fst, e2 Prod.snd, e1 Prod.fst, e1 Prod.snd]
    · rintro ⟨σ, κ, h0, hseq, rfl⟩
      obtain ⟨h1, h2⟩ := hseq steps (by omega)
      rw [h0] at h1
      refine ⟨_, CLQT.bwStep_ok.2 ⟨_, _, h1, h2, rfl⟩, CLQT.bwLoop_ok.2 ⟨σ, κ, rfl, fun k hk => hseq k (by omega), ?_⟩⟩
      simp

theorem CLQT.dtSeq_some (P : CLQT n m K) (steps : ℕ) (dt : K) : P.dtSeq steps (some dt) = .ok dt := rfl

theorem CLQT.seqBackward_ok {P : CLQT n m K} {steps : ℕ} {odt : Option K} {t0 : Option K}
    {S : Option (Matrix (Fin n) (Fin n) K)} {v : Option (Fin n → K)} {r : BwResult n m K} :
    P.seqBackwardPass steps odt t0 S v = .ok r ↔
    ∃ dt, P.dtSeq steps odt = .ok dt ∧ ∃ σ κ,
      σ steps = (S.getD (P.HTᵀ * P.XT * P.HT), v.getD ((P.HTᵀ * P.XT) *ᵥ P.rT)) ∧
      P.BwSeq steps dt (t0.getD 0) σ κ ∧ r = bwLists steps σ κ := by
  unfold CLQT.seqBackwardPass
  simp only [bind_ok, pure, Except.pure, Except.ok.injEq]
  constructor
  · rintro ⟨dt, hdt, st, hst, rfl⟩
    obtain ⟨σ, κ, h0, hseq, rfl⟩ := CLQT.bwLoop_ok.1 hst
    refine ⟨dt, hdt, σ, κ, h0, hseq, ?_⟩
    simp [bwLists, List.range_succ, h0]
  · rintro ⟨dt, hdt, σ, κ, h0, hseq, rfl⟩
    refine ⟨dt, hdt, _, CLQT.bwLoop_ok.2 ⟨σ, κ, h0, hseq, rfl⟩, ?_⟩
    simp [bwLists, List.range_succ, h0]

/-! ### Forward pass -/

/-- One step of the forward integration from time `t`. -/
def CLQT.fwF (P : CLQT n m K) (u_zoh : Bool) (dt t : K) (g : Matrix (Fin m) (Fin n) K × (Fin m → K)) (x : Fin n → K) :
    Py (Fin n → K) :=
  rk4T (P.fwOdeF u_zoh g.1 g.2 (-g.1 *ᵥ x + g.2)) dt x t

/-- The states of a forward integration over `steps` steps from time `t0` with the gains `κ`. -/
def CLQT.FwSeq (P : CLQT n m K) (u_zoh : Bool) (steps : ℕ) (dt t0 : K) (κ : ℕ → Matrix (Fin m) (Fin n) K × (Fin m → K))
    (ξ : ℕ → Fin n → K) : Prop :=
  ∀ k < steps, P.fwF u_zoh dt (t0 + k * dt) (κ k) (ξ k) = .ok (ξ (k + 1))

theorem CLQT.fwLoop_ok {P : CLQT n m K} {u_zoh : Bool} {N : ℕ} {κ : ℕ → Matrix (Fin m) (Fin n) K × (Fin m → K)} {dt t0 : K}
    {x0 : Fin n → K} : ∀ {steps : ℕ}, steps ≤ N → ∀ {st' : List (Fin m → K) × List (Fin n → K) × (Fin n → K)},
    (List.range steps).foldlM
      (P.fwStep u_zoh ((List.range N).map fun k => (κ k).1) ((List.range N).map fun k => (κ k).2) dt t0) ([], [x0], x0) =
        .ok st' ↔
    ∃ ξ, ξ 0 = x0 ∧ P.FwSeq u_zoh steps dt t0 κ ξ ∧
      st' = ((List.range steps).map fun k => -(κ k).1 *ᵥ ξ k + (κ k).2, (List.range (steps + 1)).map ξ, ξ steps)
  | 0, _, st' => by
    simp only [List.range_zero, List.foldlM_nil, pure, Except.pure, Except.ok.injEq]
    constructor
    · rintro rfl
      exact ⟨fun _ => x0, rfl, fun k hk => absurd hk (by omega), by simp⟩
    · rintro ⟨ξ, h0, -, rfl⟩
      simp [h0]
  | steps + 1, hN, st' => by
    rw [List.range_succ, List.foldlM_append, bind_ok]
    have hstep : ∀ st st' : List (Fin m → K) × List (Fin n → K) × (Fin n → K),
        (P.fwStep u_zoh ((List.range N).map fun k => (κ k).1) ((List.range N).map fun k => (κ k).2) dt t0) st steps = .ok st' ↔
        ∃ x, P.fwF u_zoh dt (t0 + steps * dt) (κ steps) st.2.2 = .ok x ∧
          st' = (st.1 ++ [-(κ steps).1 *ᵥ st.2.2 + (κ steps).2], st.2.1 ++ [x], x) := by
      intro st st'
      unfold CLQT.fwStep CLQT.fwF
      simp only [pyGet_seq (fun k => (κ k).1) hN, pyGet_seq (fun k => (κ k).2) hN, bind_ok, pure, Except.pure,
        Except.ok.injEq, exists_eq_left']
      simp [eq_comm]
    simp only [List.foldlM_cons, List.foldlM_nil, bind_ok, hstep, pure, Except.pure, Except.ok.injEq]
    constructor
    · rintro ⟨st1, h1, st2, ⟨x, hx, rfl⟩, rfl⟩
      obtain ⟨ξ, h0, hseq, rfl⟩ := (CLQT.fwLoop_ok (by omega)).1 h1
      refine ⟨fun k => if k ≤ steps then ξ k else x, by simp [h0], ?_, ?_⟩
      · intro k hk
        rcases Nat.lt_succ_iff_lt_or_eq.1 hk with h | rfl
        · have e1 : k ≤ steps := by omega
          have e2 : k + 1 ≤ steps := h
          simpa [e1, e2] using hseq k h
        · simpa using hx
      · have e1 : ∀ {β : Type} (f : ℕ → (Fin n → K) → β), (List.range steps).map
            (fun k => f k (if k ≤ steps then ξ k else x)) = (List.range steps).map fun k => f k (ξ k) :=
          fun f => seq_congr fun k hk => by simp [hk.le]
        rw [List.range_succ (n := steps + 1), List.range_succ (n := steps)]
        simp only [List.map_append, List.map_cons, List.map_nil]
        rw [e1 fun k y => -(κ k).1 *ᵥ y + (κ k).2, e1 fun k y => y]
        simp
    · rintro ⟨ξ, h0, hseq, rfl⟩
      refine ⟨_, (CLQT.fwLoop_ok (by omega)).2 ⟨ξ, h0, fun k hk => hseq k (by omega), rfl⟩, _,
        ⟨ξ (steps + 1), hseq steps (by omega), rfl⟩, ?_⟩
      rw [List.range_succ (n := steps + 1), List.range_succ (n := steps)]
      simp

theorem CLQT.seqForward_ok {P : CLQT n m K} {u_zoh : Bool} {steps : ℕ} {κ : ℕ → Matrix (Fin m) (Fin n) K × (Fin m → K)}
    {odt : Option K} {t0 : Option K} {x0 : Fin n → K} {r : List (Fin m → K) × List (Fin n → K)} :
    P.seqForwardPass x0 ((List.range steps).map fun k => (κ k).1) ((List.range steps).map fun k => (κ k).2) odt t0 u_zoh =
      .ok r ↔
    ∃ dt, P.dtSeq steps odt = .ok dt ∧ ∃ ξ, ξ 0 = x0 ∧ P.FwSeq u_zoh steps dt (t0.getD 0) κ ξ ∧
      r = ((List.range steps).map fun k => -(κ k).1 *ᵥ ξ k + (κ k).2, (List.range (steps + 1)).map ξ) := by
  unfold CLQT.seqForwardPass
  simp only [bind_ok, pure, Except.pure, Except.ok.injEq, List.length_map, List.length_range]
  constructor
  · rintro ⟨dt, hdt, st, hst, rfl⟩
    obtain ⟨ξ, h0, hseq, rfl⟩ := (CLQT.fwLoop_ok le_rfl).1 hst
    exact ⟨dt, hdt, ξ, h0, hseq, rfl⟩
  · rintro ⟨dt, hdt, ξ, h0, hseq, rfl⟩
    exact ⟨dt, hdt, _, (CLQT.fwLoop_ok le_rfl).2 ⟨ξ, h0, hseq, rfl⟩, rfl⟩

/-! ### Forward-backward pass -/

/-- Parameters `(A, b, C)`. -/
abbrev CAbc (n : ℕ) (K : Type) := Matrix (Fin n) (Fin n) K × (Fin n → K) × Matrix (Fin n) (Fin n) K

/-- One step of the integration of `(A, b, C)` from time `t`. -/
def CLQT.abcF (P : CLQT n m K) (dt t : K) (a : CAbc n K) : Py (CAbc n K) := do
  let x ← rk4T P.fwdbwdOdeF dt (packABC a.1 a.2.1 a.2.2) t
  return ((unpackABC x).1, (unpackABC x).2.1, symPart (unpackABC x).2.2)

/-- The parameters of an integration over `steps` steps from time `t0`. -/
def CLQT.AbcSeq (P : CLQT n m K) (steps : ℕ) (dt t0 : K) (α : ℕ → CAbc n K) : Prop :=
  ∀ k < steps, P.abcF dt (t0 + k * dt) (α k) = .ok (α (k + 1))

/-- Lists of the result. -/
def abcLists (N : ℕ) (α : ℕ → CAbc n K) : AbcResult n K :=
  ⟨(List.range N).map fun k => (α k).1, (List.range N).map fun k => (α k).2.1, (List.range N).map fun k => (α k).2.2⟩

theorem CLQT.abcLoop_ok {P : CLQT n m K} {dt t0 : K} {a0 : CAbc n K} : ∀ {steps : ℕ} {st' : CAbc n K × AbcResult n K},
    (List.range steps).foldlM (P.abcStep dt t0) (a0, ⟨[a0.1], [a0.2.1], [a0.2.2]⟩) = .ok st' ↔
    ∃ α, α 0 = a0 ∧ P.AbcSeq steps dt t0 α ∧ st' = (α steps, abcLists (steps + 1) α)
  | 0, st' => by
    simp only [List.range_zero, List.foldlM_nil, pure, Except.pure, Except.ok.injEq]
    constructor
    · rintro rfl
      exact ⟨fun _ => a0, rfl, fun k hk => absurd hk (by omega), by simp [abcLists]⟩
    · rintro ⟨α, h0, -, rfl⟩
      simp [h0, abcLists]
  | steps + 1, st' => by
    rw [List.range_succ, List.foldlM_append, bind_ok]
    have hstep : ∀ st st' : CAbc n K × AbcResult n K, P.abcStep dt t0 st steps = .ok st' ↔
        ∃ a, P.abcF dt (t0 + steps * dt) st.1 = .ok a ∧
          st' = (a, ⟨st.2.A_list ++ [a.1], st.2.b_list ++ [a.2.1], st.2.C_list ++ [a.2.2]⟩) := by
      intro st st'
      unfold CLQT.abcStep CLQT.abcF
      dsimp only
      cases rk4T P.fwdbwdOdeF dt (packABC st.1.1 st.1.2.1 st.1.2.2) (t0 + steps * dt) with
      | error e => simp [bind, Except.bind]
      | ok x => simp [bind, Except.bind, pure, Except.pure, eq_comm]
    simp only [List.foldlM_cons, List.foldlM_nil, bind_ok, hstep, pure, Except.pure, Except.ok.injEq]
    constructor
    · rintro ⟨st1, h1, st2, ⟨x, hx, rfl⟩, rfl⟩
      obtain ⟨α, h0, hseq, rfl⟩ := CLQT.abcLoop_ok.1 h1
      refine ⟨fun k => if k ≤ steps then α k else x, by simp [h0], ?_, ?_⟩
      · intro k hk
        rcases Nat.lt_succ_iff_lt_or_eq.1 hk with h | rfl
        · have e1 : k ≤ steps := by omega
          have e2 : k + 1 ≤ steps := h
          simpa [e1, e2] using hseq k h
        · simpa using hx
      · have e1 : ∀ {β : Type} (f : CAbc n K → β), (List.range (steps + 1)).map
            (fun k => f (if k ≤ steps then α k else x)) = (List.range (steps + 1)).map fun k => f (α k) :=
          fun f => seq_congr fun k hk => by simp [Nat.lt_succ_iff.1 hk]
        unfold abcLists
        rw [List.range_succ (n := steps + 1)]
        simp only [List.map_append, List.map_cons, List.map_nil]
        rw [e1 fun a => a.1, e1 fun a => a.2.1, e1 fun a => a.2.2]
        simp
    · rintro ⟨α, h0, hseq, rfl⟩
      refine ⟨_, CLQT.abcLoop_ok.2 ⟨α, h0, fun k hk => hseq k (by omega), rfl⟩, _,
        ⟨α (steps + 1), hseq steps (by omega), rfl⟩, ?_⟩
      unfold abcLists
      rw [List.range_succ (n := steps + 1)]
      simp

theorem CLQT.seqFwdBwd_ok {P : CLQT n m K} {steps : ℕ} {odt : Option K} {t0 : Option K} {x0 : Fin n → K}
    {A C : Option (Matrix (Fin n) (Fin n) K)} {b : Option (Fin n → K)} {r : AbcResult n K} :
    P.seqFwdBwdPass x0 steps odt t0 A b C = .ok r ↔
    ∃ dt, P.dtSeq steps odt = .ok dt ∧ ∃ α, α 0 = (A.getD 0, b.getD x0, C.getD 0) ∧ P.AbcSeq steps dt (t0.getD 0) α ∧
      r = abcLists (steps + 1) α := by
  unfold CLQT.seqFwdBwdPass
  simp only [bind_ok, pure, Except.pure, Except.ok.injEq]
  constructor
  · rintro ⟨dt, hdt, st, hst, rfl⟩
    obtain ⟨α, h0, hseq, rfl⟩ := CLQT.abcLoop_ok.1 hst
    exact ⟨dt, hdt, α, h0, hseq, rfl⟩
  · rintro ⟨dt, hdt, α, h0, hseq, rfl⟩
    exact ⟨dt, hdt, _, CLQT.abcLoop_ok.2 ⟨α, h0, hseq, rfl⟩, rfl⟩

end Verif
