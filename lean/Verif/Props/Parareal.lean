import Verif.Proof.CLQTEx

/-! Properties C37, C38 and C39: the Parareal passes. -/

namespace Verif

open Matrix

variable {n m : ℕ} {K : Type} [Field K] [LinearOrder K]

/-! ### C37 -/

/-- C37 (finite termination): with at least `blocks - 1` iterations the Parareal backward pass returns the lists of the fine
sequential pass. -/
theorem C37_exact (P : CLQT n m K) (blocks steps : ℕ) (niter : Option ℕ) (r : BwResult n m K)
    (h : P.prBackwardPass blocks steps niter = .ok r) (hn : blocks ≤ niter.getD steps + 1) :
    P.seqBackwardPass (blocks * steps) = .ok r :=
  CLQT.prBackward_exact h hn

/-- C37 (progress): after `k` iterations the block boundaries `blocks - k, ..., blocks` are those of the fine sequential
pass. -/
theorem C37_progress (P : CLQT n m K) (blocks steps k : ℕ) (cur : List (Matrix (Fin n) (Fin n) K) × List (Fin n → K))
    (hcur : P.prInitBackward blocks = .ok cur)
    (st : (List (Matrix (Fin n) (Fin n) K) × List (Fin n → K)) × (List (Matrix (Fin n) (Fin n) K) × List (Fin n → K)))
    (hst : (List.range k).foldlM (fun st _ => P.prBwIter steps st) (cur, cur) = .ok st) (r : BwResult n m K)
    (hr : P.seqBackwardPass (blocks * steps) = .ok r) (q : ℕ) (hq : q ≤ blocks) (hk : blocks - q ≤ k) :
    st.1.1[q]? = r.S_list[q * steps]? ∧ st.1.2[q]? = r.v_list[q * steps]? :=
  CLQT.prBackward_progress hcur hst hr hq hk

/-- C37 (partial results): after `k` iterations the last `k + 1` blocks of the returned lists are those of the fine
sequential pass. -/
theorem C37_blocks (P : CLQT n m K) (blocks steps k : ℕ) (r r' : BwResult n m K)
    (h : P.prBackwardPass blocks steps (some k) = .ok r) (hr : P.seqBackwardPass (blocks * steps) = .ok r') (j : ℕ)
    (hj : (blocks - 1 - k) * steps ≤ j) :
    r.S_list[j]? = r'.S_list[j]? ∧ r.v_list[j]? = r'.v_list[j]? ∧ r.Kx_list[j]? = r'.Kx_list[j]? ∧
      r.d_list[j]? = r'.d_list[j]? :=
  CLQT.prBackward_blocks h hr hj

section Ordered
variable [IsStrictOrderedRing K]

/-- C37 (completion): with positive definite `U` and at least one block and step the pass completes; without blocks or
steps it raises `ZeroDivisionError`. -/
theorem C37_completes (P : CLQT n m K) (hU : ∀ t, (P.U t)ᵀ = P.U t ∧ IsPD (P.U t)) (blocks steps : ℕ) (niter : Option ℕ) :
    (blocks ≠ 0 ∧ steps ≠ 0 → ∃ r, P.prBackwardPass blocks steps niter = .ok r) ∧
    (blocks = 0 ∨ steps = 0 → P.prBackwardPass blocks steps niter = .error .zeroDivisionError) := by
  refine ⟨fun h => CLQT.prBackward_total (CLQT.reg_of_pd hU) (Nat.cast_ne_zero.2 h.1) (Nat.cast_ne_zero.2 h.2) niter, ?_⟩
  have hb : ∀ {α β : Type} (a : α) (f : α → Py β), ((Except.ok a : Py α) >>= f) = f a := fun _ _ => rfl
  have hbe : ∀ {α β : Type} (e : PyErr) (f : α → Py β), ((Except.error e : Py α) >>= f) = .error e := fun _ _ => rfl
  by_cases h0 : blocks = 0
  · intro _
    subst h0
    unfold CLQT.prBackwardPass CLQT.prInitBackward
    have : pyDiv P.T ((0 : ℕ) : K) = .error .zeroDivisionError := by simp [pyDiv]
    simp only [this, hbe]
  · intro h
    obtain rfl : steps = 0 := h.resolve_left h0
    have hD : pyDiv P.T blocks = .ok (P.T / blocks) := pyDiv_ok.2 ⟨Nat.cast_ne_zero.2 h0, rfl⟩
    have hz : pyDiv (P.T / blocks) ((0 : ℕ) : K) = .error .zeroDivisionError := by simp [pyDiv]
    obtain ⟨r, hr⟩ := (CLQT.reg_of_pd hU).seqBackward blocks (P.T / blocks) none none none
    obtain ⟨dt', hdt', σ, κ, -, -, rfl⟩ := CLQT.seqBackward_ok.1 hr
    have hi : P.prInitBackward blocks = .ok (cvLists (blocks + 1) σ) := by
      unfold CLQT.prInitBackward
      simp only [hD, hb, hr]
      rfl
    have e : (cvLists (blocks + 1) σ).1.length - 1 = blocks := by simp [cvLists]
    have e1 : pyLast (cvLists (blocks + 1) σ).1 = .ok (σ blocks).1 := pyLast_seq _ _
    have e2 : pyLast (cvLists (blocks + 1) σ).2 = .ok (σ blocks).2 := pyLast_seq _ _
    unfold CLQT.prBackwardPass
    simp only [hi, hb]
    cases hn : niter.getD 0 with
    | zero =>
      simp only [List.range_zero, List.foldlM_nil, pure, Except.pure, hb]
      unfold CLQT.prFinalBackward
      simp only [e, e1, e2, hD, hb, hz, hbe]
    | succ k =>
      rw [List.range_succ_eq_map, List.foldlM_cons]
      have : P.prBwIter 0 (cvLists (blocks + 1) σ, cvLists (blocks + 1) σ) = .error .zeroDivisionError := by
        unfold CLQT.prBwIter CLQT.prDenseBackward
        simp only [e, e1, e2, hD, hb, hz, hbe]
      simp only [this, hbe]

end Ordered

/-- Example for C37: the problem `exCL` with three blocks of two steps and two iterations. -/
example : ∃ r, exCL.prBackwardPass 3 2 (some 2) = .ok r ∧ exCL.seqBackwardPass 6 = .ok r := by
  obtain ⟨r, hr⟩ := (C37_completes exCL exCL_U 3 2 (some 2)).1 (by decide)
  exact ⟨r, hr, C37_exact exCL 3 2 (some 2) r hr (by decide)⟩

/-- C37 (default iteration count): with the default `niter = steps` the result can differ from the fine sequential pass
when `blocks > steps + 1`. -/
theorem C37_default_inexact : ∃ r r', exPr.prBackwardPass 4 2 = .ok r ∧ exPr.seqBackwardPass (4 * 2) = .ok r' ∧
    r.S_list[1]? ≠ r'.S_list[1]? := by
  obtain ⟨r, hr⟩ := (C37_completes exPr exPr_U 4 2 none).1 (by decide)
  have hs : ∃ r', exPr.seqBackwardPass (4 * 2) = .ok r' := by
    obtain ⟨r', hr'⟩ := (C37_completes exPr exPr_U 4 2 (some 3)).1 (by decide)
    exact ⟨r', C37_exact exPr 4 2 (some 3) r' hr' (by decide)⟩
  obtain ⟨r', hr'⟩ := hs
  refine ⟨r, r', hr, hr', ?_⟩
  intro e'
  obtain ⟨dt, hdt, σ', κ', h0', hs', e⟩ := CLQT.seqBackward_ok.1 hr'
  have hdt1 : dt = 1 := by
    unfold CLQT.dtSeq at hdt
    rw [pyDiv_ok] at hdt
    rw [hdt.2, show exPr.T = 8 from rfl]
    norm_num
  subst hdt1
  unfold CLQT.prBackwardPass at hr
  simp only [bind_ok, Option.getD_none, List.range_succ, List.range_zero, List.nil_append, List.cons_append,
    List.foldlM_cons, List.foldlM_nil, pure, Except.pure, Except.ok.injEq, exists_eq_right] at hr
  obtain ⟨cur, hcur, st, ⟨st1, h1, h2⟩, hfin⟩ := hr
  have hDeq : ∀ {D : ℚ}, pyDiv exPr.T ((4 : ℕ) : ℚ) = .ok D → D = 2 := by
    intro D h
    rw [pyDiv_ok] at h
    rw [h.2, show exPr.T = 8 from rfl]
    norm_num
  have hdeq : ∀ {d : ℚ}, pyDiv 2 ((2 : ℕ) : ℚ) = .ok d → d = 1 := by
    intro D h
    rw [pyDiv_ok] at h
    rw [h.2]
    norm_num
  have hp1 : ∀ {t : ℚ} {s s' : CVal 1 ℚ}, exPr.bwProp 1 2 t s = .ok s' → s'.1 0 0 = 103 / 3 * s.1 0 0 := by
    intro t s s' h
    obtain ⟨σ, κ, a, b, c⟩ := CLQT.bwProp_ok.1 h
    rw [← c, ← a, exPr_bwF (b 0 (by omega)).1]
    norm_num
  have hp2 : ∀ {t : ℚ} {s s' : CVal 1 ℚ}, exPr.bwProp 2 1 t s = .ok s' → s'.1 0 0 = 49 * s.1 0 0 := by
    intro t s s' h
    obtain ⟨σ, κ, a, b, c⟩ := CLQT.bwProp_ok.1 h
    rw [← c, ← a, exPr_bwF (b 0 (by omega)).1, exPr_bwF (b 1 (by omega)).1]
    norm_num
    ring
  obtain ⟨D, hD, s0, i0, ⟨κ0, i1⟩, rfl⟩ := CLQT.prInitBackward_ok.1 hcur
  obtain rfl := hDeq hD
  unfold CLQT.prBwIter at h1 h2
  simp only [bind_ok] at h1 h2
  obtain ⟨F0, h1, h1'⟩ := h1
  obtain ⟨D, hD, dt, hdt', f0, a0, a1, rfl⟩ := CLQT.prDenseBackward_ok.1 h1
  obtain rfl := hDeq hD
  obtain rfl := hdeq hdt'
  obtain ⟨D, hD, s1, g1, b0, -, b1, rfl⟩ := CLQT.prCoarseBackward_ok.1 h1'
  obtain rfl := hDeq hD
  obtain ⟨F1, h2, h2'⟩ := h2
  obtain ⟨D, hD, dt, hdt', f1, c0, c1, rfl⟩ := CLQT.prDenseBackward_ok.1 h2
  obtain rfl := hDeq hD
  obtain rfl := hdeq hdt'
  obtain ⟨D, hD, s2, g2, d0, -, d1, rfl⟩ := CLQT.prCoarseBackward_ok.1 h2'
  obtain rfl := hDeq hD
  obtain ⟨D, hD, dt, hdt', σ, κ, hσ, rfl⟩ := CLQT.prFinalBackward_ok.1 hfin
  obtain rfl := hDeq hD
  obtain rfl := hdeq hdt'
  have term : ((exPr.HTᵀ * exPr.XT * exPr.HT : Matrix (Fin 1) (Fin 1) ℚ)) 0 0 = 1 := by
    have : ((1 : Matrix (Fin 1) (Fin 1) ℚ)ᵀ * (1 : Matrix (Fin 1) (Fin 1) ℚ) * (1 : Matrix (Fin 1) (Fin 1) ℚ) :
        Matrix (Fin 1) (Fin 1) ℚ) 0 0 = 1 := by simp
    exact this
  have sub : ∀ q < 4, ∃ k < 4, 3 - q = k ∧ 4 - q = k + 1 ∧ 4 - (q + 1) = k := fun q hq => ⟨3 - q, by omega, rfl, by omega, by omega⟩
  have key := exPr_arith (f := 49) (g := 103 / 3) (s0 := fun q => (s0 (4 - q)).1 0 0) (f0 := fun q => (f0 (4 - q)).1 0 0)
    (s1 := fun q => (s1 (4 - q)).1 0 0) (g1 := fun q => (g1 (4 - q)).1 0 0) (f1 := fun q => (f1 (4 - q)).1 0 0)
    (s2 := fun q => (s2 (4 - q)).1 0 0) (g2 := fun q => (g2 (4 - q)).1 0 0) (by simp only [Nat.sub_zero]; rw [i0]; exact term)
    (fun q hq => by
      obtain ⟨k, hk, e1, e2, e3⟩ := sub q hq
      simp only [e2, e3]
      exact hp1 (i1.coarse hk))
    (by simp only [Nat.sub_zero]; rw [a0])
    (fun q hq => by
      obtain ⟨k, hk, e1, e2, e3⟩ := sub q hq
      simp only [e2, e3]
      exact hp2 (a1 k hk))
    (by simp only [Nat.sub_zero]; rw [b0])
    (fun q hq => by
      obtain ⟨k, hk, e1, e2, e3⟩ := sub q hq
      simp only [e2, e3]
      exact ⟨hp1 (b1 k hk).1, by rw [(b1 k hk).2]; rfl⟩)
    (by simp only [Nat.sub_zero]; rw [c0])
    (fun q hq => by
      obtain ⟨k, hk, e1, e2, e3⟩ := sub q hq
      simp only [e2, e3]
      exact hp2 (c1 k hk))
    (by simp only [Nat.sub_zero]; rw [d0])
    (fun q hq => by
      obtain ⟨k, hk, e1, e2, e3⟩ := sub q hq
      simp only [e2, e3]
      exact ⟨hp1 (d1 k hk).1, by rw [(d1 k hk).2]; rfl⟩)
  simp only [Nat.reduceSub] at key
  have l1 : (σ 0 1).1 0 0 = 7 * (s2 1).1 0 0 := by
    obtain ⟨a, b⟩ := hσ 0 (by omega)
    rw [exPr_bwF (b 1 (by omega)).1]
    simp only [Nat.reduceAdd]
    rw [a]
    norm_num
  have l2 : ∀ k < 8, (σ' k).1 0 0 = 7 * (σ' (k + 1)).1 0 0 := by
    intro k hk
    rw [exPr_bwF (hs' k hk).1]
    norm_num
  have l3 : (σ' 8).1 0 0 = 1 := by
    rw [show σ' 8 = _ from h0']
    exact term
  rw [e] at e'
  simp only [bwLists, List.range_succ, List.range_zero, List.nil_append, List.cons_append, List.map_cons, List.map_nil,
    List.flatten_cons, List.flatten_nil, List.getElem?_cons_succ, List.getElem?_cons_zero, Option.some.injEq] at e'
  have e'' := congrFun (congrFun e' 0) 0
  have m1 := l2 1 (by omega)
  have m2 := l2 2 (by omega)
  have m3 := l2 3 (by omega)
  have m4 := l2 4 (by omega)
  have m5 := l2 5 (by omega)
  have m6 := l2 6 (by omega)
  have m7 := l2 7 (by omega)
  simp only [Nat.reduceAdd] at m1 m2 m3 m4 m5 m6 m7
  rw [l1, key, m1, m2, m3, m4, m5, m6, m7, l3] at e''
  norm_num at e''

/-! ### C38 -/

section Forward
variable [IsStrictOrderedRing K]

/-- C38 (finite termination and completion): on `blocks * steps` gains and with at least `blocks - 1` iterations the Parareal
forward pass returns the lists of the fine sequential pass. -/
theorem C38_exact (P : CLQT n m K) (blocks steps : ℕ) (hb : blocks ≠ 0) (hs : steps ≠ 0) (x0 : Fin n → K)
    (Kx : List (Matrix (Fin m) (Fin n) K)) (d : List (Fin m → K)) (hK : Kx.length = blocks * steps)
    (hd : d.length = blocks * steps) (u_zoh : Bool) (niter : Option ℕ) (hn : blocks ≤ niter.getD steps + 1) :
    ∃ r, P.prForwardPass blocks steps x0 Kx d u_zoh niter = .ok r ∧ P.seqForwardPass x0 Kx d none none u_zoh = .ok r := by
  obtain ⟨κ, rfl, rfl⟩ := exists_gains hK hd
  exact CLQT.prForward_exact (Nat.cast_ne_zero.2 hb) (Nat.cast_ne_zero.2 hs) hn

/-- C38 (progress): after `k` iterations the states at the block boundaries `0, ..., k` are those of the fine sequential
pass. -/
theorem C38_progress (P : CLQT n m K) (blocks steps k : ℕ) (hb : blocks ≠ 0) (hs : steps ≠ 0) (x0 : Fin n → K)
    (Kx : List (Matrix (Fin m) (Fin n) K)) (d : List (Fin m → K)) (hK : Kx.length = blocks * steps)
    (hd : d.length = blocks * steps) (u_zoh : Bool) (cur : List (Fin n → K))
    (hcur : P.prInitForward blocks x0 Kx d u_zoh = .ok cur) (st : List (Fin n → K) × List (Fin n → K))
    (hst : (List.range k).foldlM (fun st _ => P.prFwIter steps Kx d u_zoh st) (cur, cur) = .ok st)
    (r : List (Fin m → K) × List (Fin n → K)) (hr : P.seqForwardPass x0 Kx d none none u_zoh = .ok r) (q : ℕ)
    (hq : q ≤ blocks) (hk : q ≤ k) : st.1[q]? = r.2[q * steps]? := by
  obtain ⟨κ, rfl, rfl⟩ := exists_gains hK hd
  exact CLQT.prForward_progress (Nat.cast_ne_zero.2 hb) (Nat.cast_ne_zero.2 hs) hcur hst hr hq hk

/-- C38 (partial results): after `k` iterations the first `k + 1` blocks of the returned lists are those of the fine
sequential pass. -/
theorem C38_blocks (P : CLQT n m K) (blocks steps k : ℕ) (hb : blocks ≠ 0) (hs : steps ≠ 0) (x0 : Fin n → K)
    (Kx : List (Matrix (Fin m) (Fin n) K)) (d : List (Fin m → K)) (hK : Kx.length = blocks * steps)
    (hd : d.length = blocks * steps) (u_zoh : Bool) (r r' : List (Fin m → K) × List (Fin n → K))
    (h : P.prForwardPass blocks steps x0 Kx d u_zoh (some k) = .ok r)
    (hr : P.seqForwardPass x0 Kx d none none u_zoh = .ok r') (j : ℕ) (hj : j < (k + 1) * steps) :
    r.1[j]? = r'.1[j]? ∧ (j < blocks * steps → r.2[j]? = r'.2[j]?) := by
  obtain ⟨κ, rfl, rfl⟩ := exists_gains hK hd
  exact CLQT.prForward_blocks (Nat.cast_ne_zero.2 hb) (Nat.cast_ne_zero.2 hs) h hr hj

/-- C38 (completion): on `blocks * steps` gains the pass completes for every number of iterations. -/
theorem C38_completes (P : CLQT n m K) (blocks steps : ℕ) (hb : blocks ≠ 0) (hs : steps ≠ 0) (x0 : Fin n → K)
    (Kx : List (Matrix (Fin m) (Fin n) K)) (d : List (Fin m → K)) (hK : Kx.length = blocks * steps)
    (hd : d.length = blocks * steps) (u_zoh : Bool) (niter : Option ℕ) :
    ∃ r, P.prForwardPass blocks steps x0 Kx d u_zoh niter = .ok r := by
  obtain ⟨κ, rfl, rfl⟩ := exists_gains hK hd
  exact CLQT.prForward_total P u_zoh niter (Nat.cast_ne_zero.2 hb) (Nat.cast_ne_zero.2 hs) κ x0

/-- C38 (errors): without blocks the pass raises `ZeroDivisionError`; with fewer gains than blocks the stride is zero and it
raises `ValueError`. -/
theorem C38_errors (P : CLQT n m K) (blocks steps : ℕ) (x0 : Fin n → K) (Kx : List (Matrix (Fin m) (Fin n) K))
    (d : List (Fin m → K)) (u_zoh : Bool) (niter : Option ℕ) :
    (blocks = 0 → P.prForwardPass blocks steps x0 Kx d u_zoh niter = .error .zeroDivisionError) ∧
    (Kx.length < blocks → P.prForwardPass blocks steps x0 Kx d u_zoh niter = .error .valueError) := by
  have hbe : ∀ {α β : Type} (e : PyErr) (f : α → Py β), ((Except.error e : Py α) >>= f) = .error e := fun _ _ => rfl
  constructor
  · rintro rfl
    unfold CLQT.prForwardPass CLQT.prInitForward
    simp [hbe, throw, throwThe, MonadExceptOf.throw]
  · intro h
    have h0 : blocks ≠ 0 := by omega
    have hstr : ∀ l : List (Matrix (Fin m) (Fin n) K), pyStride l (Kx.length / blocks) = .error .valueError := by
      intro l
      rw [Nat.div_eq_of_lt h]
      rfl
    unfold CLQT.prForwardPass CLQT.prInitForward
    simp only [h0, if_false, hstr, hbe, pure_bind]

end Forward

/-- Example for C38: the problem `exCL` with three blocks of two steps, constant gains and two iterations. -/
example : ∃ r, exCL.prForwardPass 3 2 ![1, -1] (List.replicate 6 !![1, 2]) (List.replicate 6 ![3]) false (some 2) = .ok r ∧
    exCL.seqForwardPass ![1, -1] (List.replicate 6 !![1, 2]) (List.replicate 6 ![3]) none none false = .ok r :=
  C38_exact exCL 3 2 (by decide) (by decide) _ _ _ rfl rfl false (some 2) (by decide)

/-- C38 (default iteration count): with the default `niter = steps` the result can differ from the fine sequential pass
when `blocks > steps + 1`. -/
theorem C38_default_inexact : ∃ r r', exPr.prForwardPass 4 2 ![1] (List.replicate 8 0) (List.replicate 8 0) = .ok r ∧
    exPr.seqForwardPass ![1] (List.replicate 8 0) (List.replicate 8 0) = .ok r' ∧ r ≠ r' := by
  obtain ⟨κ, hK, hd, hκ⟩ : ∃ κ : ℕ → Matrix (Fin 1) (Fin 1) ℚ × (Fin 1 → ℚ),
      (List.replicate 8 0 : List (Matrix (Fin 1) (Fin 1) ℚ)) = (gainLists (4 * 2) κ).1 ∧
      (List.replicate 8 0 : List (Fin 1 → ℚ)) = (gainLists (4 * 2) κ).2 ∧ ∀ k, κ k = (0, 0) :=
    ⟨fun _ => (0, 0), rfl, rfl, fun _ => rfl⟩
  rw [hK, hd]
  have hB : ((4 : ℕ) : ℚ) ≠ 0 := by norm_num
  have hS : ((2 : ℕ) : ℚ) ≠ 0 := by norm_num
  have hD : pyDiv exPr.T ((4 : ℕ) : ℚ) = .ok 2 := pyDiv_ok.2 ⟨hB, by rw [show exPr.T = 8 from rfl]; norm_num⟩
  have hdt : pyDiv 2 ((2 : ℕ) : ℚ) = .ok 1 := pyDiv_ok.2 ⟨hS, by norm_num⟩
  obtain ⟨r', -, hr'⟩ := CLQT.prForward_exact (P := exPr) (u_zoh := false) (κ := κ) (x0 := ![1]) (niter := some 3) hB hS
    (by decide)
  obtain ⟨r, hr⟩ := CLQT.prForward_total exPr false none hB hS κ ![1]
  refine ⟨r, r', hr, hr', ?_⟩
  rintro rfl
  obtain ⟨dt, hdt', ξ', h0', hs', e⟩ := CLQT.seqForward_ok.1 hr'
  have hdt1 : dt = 1 := by
    unfold CLQT.dtSeq at hdt'
    rw [pyDiv_ok] at hdt'
    rw [hdt'.2, show exPr.T = 8 from rfl]
    norm_num
  subst hdt1
  unfold CLQT.prForwardPass at hr
  simp only [bind_ok, Option.getD_none, List.range_succ, List.range_zero, List.nil_append, List.cons_append,
    List.foldlM_cons, List.foldlM_nil, pure, Except.pure, Except.ok.injEq, exists_eq_right] at hr
  obtain ⟨cur, hcur, st, ⟨st1, h1, h2⟩, hfin⟩ := hr
  have hDeq : ∀ {D : ℚ}, pyDiv exPr.T ((4 : ℕ) : ℚ) = .ok D → D = 2 := fun h => by
    rw [hD, Except.ok.injEq] at h
    exact h.symm
  have hdeq : ∀ {d : ℚ}, pyDiv 2 ((2 : ℕ) : ℚ) = .ok d → d = 1 := fun h => by
    rw [hdt, Except.ok.injEq] at h
    exact h.symm
  have hp1 : ∀ {t : ℚ} {q : ℕ} {x x' : Fin 1 → ℚ}, exPr.fwProp false 1 2 t (fun i => κ (q * 2 + i)) x = .ok x' →
      x' 0 = 7 * x 0 := by
    intro t q x x' h
    obtain ⟨ξ, a, b, c⟩ := CLQT.fwProp_ok.1 h
    have := b 0 (by omega)
    dsimp only at this
    rw [hκ] at this
    rw [← c, ← a, exPr_fwF this]
    norm_num
  have hp2 : ∀ {t : ℚ} {q : ℕ} {x x' : Fin 1 → ℚ}, exPr.fwProp false 2 1 t (fun i => κ (q * 2 + i)) x = .ok x' →
      x' 0 = (65 / 24) ^ 2 * x 0 := by
    intro t q x x' h
    obtain ⟨ξ, a, b, c⟩ := CLQT.fwProp_ok.1 h
    have h0 := b 0 (by omega)
    have h1 := b 1 (by omega)
    dsimp only at h0 h1
    rw [hκ] at h0 h1
    rw [← c, ← a, exPr_fwF h1, exPr_fwF h0]
    norm_num
    ring
  obtain ⟨D, hD', s0, i0, i1, rfl⟩ := (CLQT.prInitForward_ok (by decide) (by decide)).1 hcur
  obtain rfl := hDeq hD'
  unfold CLQT.prFwIter at h1 h2
  simp only [bind_ok] at h1 h2
  obtain ⟨F0, h1, h1'⟩ := h1
  obtain ⟨D, hD', dt, hdt', f0, a0, a1, rfl⟩ := CLQT.prDenseForward_ok.1 h1
  obtain rfl := hDeq hD'
  obtain rfl := hdeq hdt'
  obtain ⟨D, hD', s1, g1, b0, -, b1, rfl⟩ := (CLQT.prCoarseForward_ok (by decide) (by decide)).1 h1'
  obtain rfl := hDeq hD'
  obtain ⟨F1, h2, h2'⟩ := h2
  obtain ⟨D, hD', dt, hdt', f1, c0, c1, rfl⟩ := CLQT.prDenseForward_ok.1 h2
  obtain rfl := hDeq hD'
  obtain rfl := hdeq hdt'
  obtain ⟨D, hD', s2, g2, d0, -, d1, rfl⟩ := (CLQT.prCoarseForward_ok (by decide) (by decide)).1 h2'
  obtain rfl := hDeq hD'
  obtain ⟨D, hD', dt, hdt', ξ, hξ, rfl⟩ := (CLQT.prFinalForward_ok (by decide)).1 hfin
  obtain rfl := hDeq hD'
  obtain rfl := hdeq hdt'
  have key := exPr_arith (f := (65 / 24) ^ 2) (g := 7) (s0 := fun q => s0 q 0) (f0 := fun q => f0 q 0)
    (s1 := fun q => s1 q 0) (g1 := fun q => g1 q 0) (f1 := fun q => f1 q 0)
    (s2 := fun q => s2 q 0) (g2 := fun q => g2 q 0) (by simp [i0]) (fun q hq => hp1 (i1.coarse hq))
    (by simp only [a0]) (fun q hq => hp2 (a1 q hq)) (by simp only [b0])
    (fun q hq => ⟨hp1 (b1 q hq).1, by simp only [(b1 q hq).2]; rfl⟩)
    (by simp only [c0]) (fun q hq => hp2 (c1 q hq)) (by simp only [d0])
    (fun q hq => ⟨hp1 (d1 q hq).1, by simp only [(d1 q hq).2]; rfl⟩)
  have l2 : ∀ k < 8, ξ' (k + 1) 0 = 65 / 24 * ξ' k 0 := by
    intro k hk
    have := hs' k hk
    rw [hκ] at this
    rw [exPr_fwF this]
    norm_num
  have e' := congrArg (fun r : List (Fin 1 → ℚ) × List (Fin 1 → ℚ) => r.2[6]?) e
  simp only [List.range_succ, List.range_zero, List.nil_append, List.cons_append, List.map_cons, List.map_nil,
    List.flatten_cons, List.flatten_nil, List.getElem?_cons_succ, List.getElem?_cons_zero, Option.some.injEq] at e'
  have e'' := congrFun e' 0
  have m0 := l2 0 (by omega)
  have m1 := l2 1 (by omega)
  have m2 := l2 2 (by omega)
  have m3 := l2 3 (by omega)
  have m4 := l2 4 (by omega)
  have m5 := l2 5 (by omega)
  simp only [Nat.reduceAdd] at m0 m1 m2 m3 m4 m5
  have k1 := (hξ 3 (by omega)).1
  rw [k1, key, m5, m4, m3, m2, m1, m0, h0'] at e''
  norm_num at e''

/-! ### C39 -/

/-- C39 (finite termination): with at least `blocks - 1` iterations the Parareal forward value function pass returns the
lists of the fine sequential pass. -/
theorem C39_exact (P : CLQT n m K) (blocks steps : ℕ) (x0 : Fin n → K) (niter : Option ℕ) (r : AbcResult n K)
    (h : P.prFwdBwdPass blocks steps x0 niter = .ok r) (hn : blocks ≤ niter.getD steps + 1) :
    P.seqFwdBwdPass x0 (blocks * steps) = .ok r :=
  CLQT.prFwdBwd_exact h hn

/-- C39 (progress): after `k` iterations the value functions at the block boundaries `0, ..., k` are those of the fine
sequential pass. -/
theorem C39_progress (P : CLQT n m K) (blocks steps k : ℕ) (x0 : Fin n → K) (cur : AbcResult n K)
    (hcur : P.prInitFwdBwd blocks x0 = .ok cur) (st : AbcResult n K × AbcResult n K)
    (hst : (List.range k).foldlM (fun st _ => P.prAbcIter steps st) (cur, cur) = .ok st) (r : AbcResult n K)
    (hr : P.seqFwdBwdPass x0 (blocks * steps) = .ok r) (q : ℕ) (hq : q ≤ blocks) (hk : q ≤ k) :
    st.1.A_list[q]? = r.A_list[q * steps]? ∧ st.1.b_list[q]? = r.b_list[q * steps]? ∧
      st.1.C_list[q]? = r.C_list[q * steps]? :=
  CLQT.prFwdBwd_progress hcur hst hr hq hk

/-- C39 (partial results): after `k` iterations the first `k + 1` blocks of the returned lists are those of the fine
sequential pass. -/
theorem C39_blocks (P : CLQT n m K) (blocks steps k : ℕ) (x0 : Fin n → K) (r r' : AbcResult n K)
    (h : P.prFwdBwdPass blocks steps x0 (some k) = .ok r) (hr : P.seqFwdBwdPass x0 (blocks * steps) = .ok r') (j : ℕ)
    (hj : j < (k + 1) * steps) (hjB : j < blocks * steps) :
    r.A_list[j]? = r'.A_list[j]? ∧ r.b_list[j]? = r'.b_list[j]? ∧ r.C_list[j]? = r'.C_list[j]? :=
  CLQT.prFwdBwd_blocks h hr hj hjB

/-- C39 (completion): with positive definite `U` and at least one block and step the pass completes; without blocks it raises
`ZeroDivisionError`. -/
theorem C39_completes [IsStrictOrderedRing K] (P : CLQT n m K) (hU : ∀ t, (P.U t)ᵀ = P.U t ∧ IsPD (P.U t)) (blocks steps : ℕ)
    (x0 : Fin n → K) (niter : Option ℕ) :
    (blocks ≠ 0 ∧ steps ≠ 0 → ∃ r, P.prFwdBwdPass blocks steps x0 niter = .ok r) ∧
    (blocks = 0 → P.prFwdBwdPass blocks steps x0 niter = .error .zeroDivisionError) := by
  refine ⟨fun h => CLQT.prFwdBwd_total (CLQT.reg_of_pd hU) (Nat.cast_ne_zero.2 h.1) (Nat.cast_ne_zero.2 h.2) x0 niter, ?_⟩
  have hbe : ∀ {α β : Type} (e : PyErr) (f : α → Py β), ((Except.error e : Py α) >>= f) = .error e := fun _ _ => rfl
  rintro rfl
  unfold CLQT.prFwdBwdPass CLQT.prInitFwdBwd
  have : pyDiv P.T ((0 : ℕ) : K) = .error .zeroDivisionError := by simp [pyDiv]
  simp only [this, hbe]

/-- Example for C39: the problem `exCL` with three blocks of two steps and two iterations. -/
example : ∃ r, exCL.prFwdBwdPass 3 2 ![1, -1] (some 2) = .ok r ∧ exCL.seqFwdBwdPass ![1, -1] 6 = .ok r := by
  obtain ⟨r, hr⟩ := (C39_completes exCL exCL_U 3 2 ![1, -1] (some 2)).1 (by decide)
  exact ⟨r, hr, C39_exact exCL 3 2 _ (some 2) r hr (by decide)⟩

/-- C39 (default iteration count): with the default `niter = steps` the result can differ from the fine sequential pass
when `blocks > steps + 1`. -/
theorem C39_default_inexact : ∃ r r', exPr.prFwdBwdPass 4 2 ![1] = .ok r ∧ exPr.seqFwdBwdPass ![1] (4 * 2) = .ok r' ∧
    r ≠ r' := by
  have hB : ((4 : ℕ) : ℚ) ≠ 0 := by norm_num
  have hS : ((2 : ℕ) : ℚ) ≠ 0 := by norm_num
  have hD : pyDiv exPr.T ((4 : ℕ) : ℚ) = .ok 2 := pyDiv_ok.2 ⟨hB, by rw [show exPr.T = 8 from rfl]; norm_num⟩
  have hdt : pyDiv 2 ((2 : ℕ) : ℚ) = .ok 1 := pyDiv_ok.2 ⟨hS, by norm_num⟩
  obtain ⟨r, hr⟩ := (C39_completes exPr exPr_U 4 2 ![1] none).1 (by decide)
  have hs : ∃ r', exPr.seqFwdBwdPass ![1] (4 * 2) = .ok r' := by
    obtain ⟨r', hr'⟩ := (C39_completes exPr exPr_U 4 2 ![1] (some 3)).1 (by decide)
    exact ⟨r', C39_exact exPr 4 2 _ (some 3) r' hr' (by decide)⟩
  obtain ⟨r', hr'⟩ := hs
  refine ⟨r, r', hr, hr', ?_⟩
  rintro rfl
  obtain ⟨dt, hdt', ξ', h0', hs', e⟩ := CLQT.seqFwdBwd_ok.1 hr'
  have hdt1 : dt = 1 := by
    unfold CLQT.dtSeq at hdt'
    rw [pyDiv_ok] at hdt'
    rw [hdt'.2, show exPr.T = 8 from rfl]
    norm_num
  subst hdt1
  unfold CLQT.prFwdBwdPass at hr
  simp only [bind_ok, Option.getD_none, List.range_succ, List.range_zero, List.nil_append, List.cons_append,
    List.foldlM_cons, List.foldlM_nil, pure, Except.pure, Except.ok.injEq, exists_eq_right] at hr
  obtain ⟨cur, hcur, st, ⟨st1, h1, h2⟩, hfin⟩ := hr
  have hDeq : ∀ {D : ℚ}, pyDiv exPr.T ((4 : ℕ) : ℚ) = .ok D → D = 2 := fun h => by
    rw [hD, Except.ok.injEq] at h
    exact h.symm
  have hdeq : ∀ {d : ℚ}, pyDiv 2 ((2 : ℕ) : ℚ) = .ok d → d = 1 := fun h => by
    rw [hdt, Except.ok.injEq] at h
    exact h.symm
  have hp1 : ∀ {t : ℚ} {x x' : CAbc 1 ℚ}, exPr.abcProp 1 2 t x = .ok x' → x'.2.1 0 = 7 * x.2.1 0 := by
    intro t x x' h
    obtain ⟨ξ, a, b, c⟩ := CLQT.abcProp_ok.1 h
    rw [← c, ← a, exPr_abcF (b 0 (by omega))]
    norm_num
  have hp2 : ∀ {t : ℚ} {x x' : CAbc 1 ℚ}, exPr.abcProp 2 1 t x = .ok x' → x'.2.1 0 = (65 / 24) ^ 2 * x.2.1 0 := by
    intro t x x' h
    obtain ⟨ξ, a, b, c⟩ := CLQT.abcProp_ok.1 h
    rw [← c, ← a, exPr_abcF (b 1 (by omega)), exPr_abcF (b 0 (by omega))]
    norm_num
    ring
  obtain ⟨D, hD', s0, i0, i1, rfl⟩ := CLQT.prInitFwdBwd_ok.1 hcur
  obtain rfl := hDeq hD'
  unfold CLQT.prAbcIter at h1 h2
  simp only [bind_ok] at h1 h2
  obtain ⟨F0, h1, h1'⟩ := h1
  obtain ⟨D, hD', dt, hdt', f0, a0, a1, rfl⟩ := CLQT.prDenseFwdBwd_ok.1 h1
  obtain rfl := hDeq hD'
  obtain rfl := hdeq hdt'
  obtain ⟨D, hD', s1, g1, b0, -, b1, rfl⟩ := CLQT.prCoarseFwdBwd_ok.1 h1'
  obtain rfl := hDeq hD'
  obtain ⟨F1, h2, h2'⟩ := h2
  obtain ⟨D, hD', dt, hdt', f1, c0, c1, rfl⟩ := CLQT.prDenseFwdBwd_ok.1 h2
  obtain rfl := hDeq hD'
  obtain rfl := hdeq hdt'
  obtain ⟨D, hD', s2, g2, d0, -, d1, rfl⟩ := CLQT.prCoarseFwdBwd_ok.1 h2'
  obtain rfl := hDeq hD'
  obtain ⟨D, hD', dt, hdt', ξ, hξ, rfl⟩ := (CLQT.prFinalFwdBwd_ok (by decide)).1 hfin
  obtain rfl := hDeq hD'
  obtain rfl := hdeq hdt'
  have key := exPr_arith (f := (65 / 24) ^ 2) (g := 7) (s0 := fun q => (s0 q).2.1 0) (f0 := fun q => (f0 q).2.1 0)
    (s1 := fun q => (s1 q).2.1 0) (g1 := fun q => (g1 q).2.1 0) (f1 := fun q => (f1 q).2.1 0)
    (s2 := fun q => (s2 q).2.1 0) (g2 := fun q => (g2 q).2.1 0) (by simp [i0]) (fun q hq => hp1 (i1.coarse hq))
    (by simp only [a0]) (fun q hq => hp2 (a1 q hq)) (by simp only [b0])
    (fun q hq => ⟨hp1 (b1 q hq).1, by simp only [(b1 q hq).2]; rfl⟩)
    (by simp only [c0]) (fun q hq => hp2 (c1 q hq)) (by simp only [d0])
    (fun q hq => ⟨hp1 (d1 q hq).1, by simp only [(d1 q hq).2]; rfl⟩)
  have l2 : ∀ k < 8, (ξ' (k + 1)).2.1 0 = 65 / 24 * (ξ' k).2.1 0 := by
    intro k hk
    rw [exPr_abcF (hs' k hk)]
    norm_num
  have e' := congrArg (fun r : AbcResult 1 ℚ => r.b_list[6]?) e
  simp only [abcLists, List.range_succ, List.range_zero, List.nil_append, List.cons_append, List.map_cons, List.map_nil,
    List.flatten_cons, List.flatten_nil, List.getElem?_cons_succ, List.getElem?_cons_zero, Option.some.injEq] at e'
  have e'' := congrFun e' 0
  have m0 := l2 0 (by omega)
  have m1 := l2 1 (by omega)
  have m2 := l2 2 (by omega)
  have m3 := l2 3 (by omega)
  have m4 := l2 4 (by omega)
  have m5 := l2 5 (by omega)
  simp only [Nat.reduceAdd] at m0 m1 m2 m3 m4 m5
  have k1 := (hξ 3 (by omega)).1
  rw [k1, key, m5, m4, m3, m2, m1, m0, h0'] at e''
  norm_num at e''

end Verif
