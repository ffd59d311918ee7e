import Verif.Props.CLQT
import Verif.Proof.CLQTFwdBwd

/-! Properties C35, C55 and C61: the forward passes step by step, the elements of the blocks, the forward-backward pass. -/

namespace Verif

open Matrix

variable {n m : ℕ} {K : Type} [Field K] [LinearOrder K]

/-! ### C35 -/

/-- C35 (steps): every state of the sequential pass is a Runge-Kutta step of `x' = F x + L u + c` from the state before, at
the time of the step; the control is `-Kx x + d`, held at its value at the start of the step when `u_zoh`, and the list
of controls has its values at the starts of the steps. -/
theorem C35_steps (P : CLQT n m K) (x0 : Fin n → K) (Kx_list : List (Matrix (Fin m) (Fin n) K)) (d_list : List (Fin m → K))
    (hd : d_list.length = Kx_list.length) (dt t0 : K) (u_zoh : Bool) (us : List (Fin m → K)) (xs : List (Fin n → K))
    (h : P.seqForwardPass x0 Kx_list d_list (some dt) (some t0) u_zoh = .ok (us, xs)) :
    us.length = Kx_list.length ∧ xs.length = Kx_list.length + 1 ∧ xs[0]? = some x0 ∧
    ∀ k < Kx_list.length, ∃ Kx d x x' u, Kx_list[k]? = some Kx ∧ d_list[k]? = some d ∧ xs[k]? = some x ∧
      xs[k + 1]? = some x' ∧ us[k]? = some u ∧ u = -(Kx *ᵥ x) + d ∧
      rk4T (fun y s => .ok (P.F s *ᵥ y + P.L s *ᵥ (if u_zoh then u else -(Kx *ᵥ y) + d) + P.c s)) dt x (t0 + k * dt) = .ok x' := by
  obtain ⟨κ, hK, hd'⟩ := exists_gains (N := Kx_list.length) rfl hd
  generalize Kx_list.length = N at *
  subst hK hd'
  obtain ⟨dt', hdt, ξ, h0, hs, e⟩ := CLQT.seqForward_ok.1 h
  rw [P.dtSeq_some, Except.ok.injEq] at hdt
  subst hdt
  obtain ⟨rfl, rfl⟩ := Prod.mk.inj e
  refine ⟨by simp, by simp, by simp [h0], fun k hk => ?_⟩
  refine ⟨(κ k).1, (κ k).2, ξ k, ξ (k + 1), -(κ k).1 *ᵥ ξ k + (κ k).2, by simp [gainLists, hk], by simp [gainLists, hk], ?_,
    by simp [hk], by simp [hk], by rw [neg_mulVec], ?_⟩
  · rw [List.getElem?_map, List.getElem?_range (by omega), Option.map_some]
  have := hs k hk
  unfold CLQT.fwF at this
  rw [← this]
  congr 1
  funext y s
  unfold CLQT.fwOdeF
  cases u_zoh
  · simp [neg_mulVec]
  · simp [neg_mulVec]

/-! ### C55 -/

/-- C55 (superposition): in the forward equations `A` is the derivative of `b` with respect to the initial state: moving `b`
by `A y` moves its derivative by `A' y` and changes nothing else. -/
theorem C55_superposition (P : CLQT n m K) (t : K) (A C : Matrix (Fin n) (Fin n) K) (b y : Fin n → K)
    (dA dC : Matrix (Fin n) (Fin n) K) (db : Fin n → K)
    (h : P.fwdbwdOdeF (packABC A b C) t = .ok (packABC dA db dC)) :
    P.fwdbwdOdeF (packABC A (b + A *ᵥ y) C) t = .ok (packABC dA (db + dA *ᵥ y) dC) := by
  unfold CLQT.fwdbwdOdeF at *
  simp only [bind_ok, unpack_packABC, pure, Except.pure, Except.ok.injEq] at *
  obtain ⟨Y, hY, h⟩ := h
  refine ⟨Y, hY, ?_⟩
  have := congrArg unpackABC h
  rw [unpack_packABC, unpack_packABC, Prod.mk.injEq, Prod.mk.injEq] at this
  obtain ⟨rfl, rfl, rfl⟩ := this
  congr 1
  simp only [mulVec_add, sub_mulVec, mulVec_mulVec, Matrix.mul_assoc]
  abel

/-- C61 (combination): the states of `combineForwardBackward` solve `(I + C S) x = b + C v` and the controls are
`-Kx x + d` at these states. -/
theorem C61_combine (bw : BwResult n m K) (fw : AbcResult n K) (us : List (Fin m → K)) (xs : List (Fin n → K))
    (h : CLQT.combineForwardBackward bw fw = .ok (us, xs)) (hl : bw.Kx_list.length ≤ bw.S_list.length) :
    us.length = bw.Kx_list.length ∧ xs.length = bw.S_list.length ∧
    (∀ (k : ℕ) (x : Fin n → K) (S : Matrix (Fin n) (Fin n) K) (v b : Fin n → K) (C : Matrix (Fin n) (Fin n) K),
      xs[k]? = some x → bw.S_list[k]? = some S → bw.v_list[k]? = some v → fw.b_list[k]? = some b → fw.C_list[k]? = some C →
        (1 + C * S).det ≠ 0 ∧ x + C *ᵥ (S *ᵥ x) = b + C *ᵥ v) ∧
    ∀ (k : ℕ) (x : Fin n → K) (u d : Fin m → K) (Kx : Matrix (Fin m) (Fin n) K),
      xs[k]? = some x → us[k]? = some u → bw.Kx_list[k]? = some Kx → bw.d_list[k]? = some d → u = d - Kx *ᵥ x := by
  obtain ⟨ξ, υ, rfl, rfl, h1, h2⟩ := combineFB_ok h hl
  refine ⟨by simp, by simp, ?_, ?_⟩
  · intro k x S v b C hx hS hv hb hC
    obtain ⟨hk, -⟩ := List.getElem?_eq_some_iff.1 hS
    obtain ⟨S', v', b', C', e1, e2, e3, e4, hd, e5⟩ := h1 k hk
    simp only [hk, List.getElem?_map, List.getElem?_range, Option.map_some, Option.some.injEq] at hx
    rw [hS, Option.some.injEq] at e1
    rw [hv, Option.some.injEq] at e2
    rw [hb, Option.some.injEq] at e3
    rw [hC, Option.some.injEq] at e4
    subst e1 e2 e3 e4 hx
    refine ⟨hd, ?_⟩
    rw [← e5, add_mulVec, one_mulVec, mulVec_mulVec]
  · intro k x u d Kx hx hu hK hd
    obtain ⟨hk, -⟩ := List.getElem?_eq_some_iff.1 hK
    obtain ⟨Kx', d', e1, e2, e⟩ := h2 k hk
    have hk' : k < bw.S_list.length := by omega
    simp only [hk, hk', List.getElem?_map, List.getElem?_range, Option.map_some, Option.some.injEq] at hx hu
    rw [hK, Option.some.injEq] at e1
    rw [hd, Option.some.injEq] at e2
    subst e1 e2 hx hu
    rw [e, neg_mulVec, neg_add_eq_sub]

/-! ### C61 -/

/-- C61 (elements, offset): without dynamics, control and cost the element of block `k` is the translation by the composite
Simpson sum of the offset over the interval of the block, in both directions of integration. -/
theorem C61_block_offset [CharZero K] (P : CLQT n m K) (hF : ∀ t, P.F t = 0) (hL : ∀ t, P.L t = 0) (hH : ∀ t, P.H t = 0)
    (hU : ∀ t, ∃ Y, solvePos (P.U t) (P.L t)ᵀ = .ok Y) (forward : Bool) (steps : ℕ) (dt t0 : K) (k : ℕ) :
    P.blockElem forward steps dt t0 k =
      .ok ⟨1, ((List.range steps).map fun i : ℕ => simpson P.c dt (t0 + k * (steps * dt) + i * dt)).sum, 0, 0, 0⟩ := by
  rw [P.blockElem_offset hF hL hH hU]
  have : ∀ i : ℕ, t0 + k * (steps * dt) + i * dt = t0 + (k * steps + i) * dt := fun i => by ring
  simp only [this]

/-- C61 (elements, cost): without dynamics, control and offset the element of block `k` carries the composite Simpson sums of
`Hᵀ X r` and `Hᵀ X H` over the interval of the block, in both directions of integration. -/
theorem C61_block_cost [CharZero K] (P : CLQT n m K) (hF : ∀ t, P.F t = 0) (hL : ∀ t, P.L t = 0) (hc : ∀ t, P.c t = 0)
    (hX : ∀ t, (P.X t)ᵀ = P.X t) (hU : ∀ t, ∃ Y, solvePos (P.U t) (P.L t)ᵀ = .ok Y) (forward : Bool) (steps : ℕ)
    (dt t0 : K) (k : ℕ) :
    P.blockElem forward steps dt t0 k =
      .ok ⟨1, 0, 0,
        ((List.range steps).map fun i : ℕ => simpson (fun t => (P.H t)ᵀ *ᵥ (P.X t *ᵥ P.r t)) dt (t0 + k * (steps * dt) + i * dt)).sum,
        ((List.range steps).map fun i : ℕ => simpson (fun t => (P.H t)ᵀ * P.X t * P.H t) dt (t0 + k * (steps * dt) + i * dt)).sum⟩ := by
  rw [P.blockElem_cost hF hL hc hX hU]
  have : ∀ i : ℕ, t0 + k * (steps * dt) + i * dt = t0 + (k * steps + i) * dt := fun i => by ring
  simp only [this, mulVec_mulVec]

/-- C61 (forward-backward pass): the pass starts from the state `x0`; the element at the start of block `q + 1` is the
combination of the one at the start of block `q` with the element of block `q`; inside a block the states come from the
sequential equations started at the element of the block and the value functions of the backward pass at the same
indices. -/
theorem C61_fwdbwd (P : CLQT n m K) (x0 : Fin n → K) (bw : BwResult n m K) (blocks steps : ℕ) (dt : K) (t0 : Option K)
    (forward : Bool) (us : List (Fin m → K)) (xs : List (Fin n → K))
    (h : P.parFwdBwdPass x0 bw blocks steps (some dt) t0 forward = .ok (us, xs)) :
    blocks ≠ 0 ∧ us.length = blocks * steps ∧ xs.length = blocks * steps + 1 ∧
    ∃ (b : ℕ → Fin n → K) (C : ℕ → Matrix (Fin n) (Fin n) K), b 0 = x0 ∧ C 0 = 0 ∧
      (∀ q < blocks, ∀ E e, P.blockElem forward steps dt (t0.getD 0) q = .ok E →
        combineABCEJ ⟨0, b q, C q, 0, 0⟩ E = .ok e → e = ⟨0, b (q + 1), C (q + 1), 0, 0⟩) ∧
      ∀ q < blocks, ∃ fw, P.seqFwdBwdPass 0 steps (some dt) (some (t0.getD 0 + q * (steps * dt))) (some 0) (some (b q))
          (some (C q)) = .ok fw ∧
        ∀ i ≤ steps, i < steps ∨ q + 1 = blocks → ∃ x S v b C, xs[q * steps + i]? = some x ∧
          bw.S_list[q * steps + i]? = some S ∧ bw.v_list[q * steps + i]? = some v ∧ fw.b_list[i]? = some b ∧
          fw.C_list[i]? = some C ∧ (1 + C * S).det ≠ 0 ∧ x + C *ᵥ (S *ᵥ x) = b + C *ᵥ v ∧
          (i < steps → ∃ u Kx d, us[q * steps + i]? = some u ∧ bw.Kx_list[q * steps + i]? = some Kx ∧
            bw.d_list[q * steps + i]? = some d ∧ u = d - Kx *ᵥ x) := by
  obtain ⟨hB, hK, hS, dt', hdt, E, w, hE, hw0, hw, hc, fw, υ, ξ, hb, rfl, rfl⟩ := CLQT.parFwdBwd_ok h
  rw [P.dtPar_some, Except.ok.injEq] at hdt
  subst hdt
  refine ⟨hB, flatten_len _ _ _, by rw [List.length_append, flatten_len]; rfl, fun q => (w q).b, fun q => (w q).C, by simp only [hw0],
    by simp only [hw0], ?_, ?_⟩
  · intro q hq E' e hE' he
    rw [hE q hq, Except.ok.injEq] at hE'
    subst hE'
    dsimp only at he
    rw [← (hw q hq.le).1] at he
    rw [← hc q hq e he]
    exact (hw (q + 1) hq).1
  · intro q hq
    obtain ⟨h1, h2⟩ := hb q hq
    rw [(hw q hq.le).1] at h1
    refine ⟨fw q, ?_, ?_⟩
    · rw [← h1, mul_assoc]
    have hle : (q + 1) * steps ≤ blocks * steps := Nat.mul_le_mul_right _ hq
    rw [Nat.succ_mul] at hle
    have l1 : (pySlice bw.Kx_list (q * steps) ((q + 1) * steps)).length = steps := by
      rw [Nat.succ_mul]
      simp [pySlice, hK]
      omega
    have l2 : (pySlice bw.S_list (q * steps) ((q + 1) * steps + 1)).length = steps + 1 := by
      rw [Nat.succ_mul]
      simp [pySlice, hS]
      omega
    have g1 : ∀ {β : Type} (l : List β) (i : ℕ), i < steps → (pySlice l (q * steps) ((q + 1) * steps))[i]? = l[q * steps + i]? := by
      intro β l i hi
      unfold pySlice
      rw [List.getElem?_take_of_lt (by rw [Nat.succ_mul]; omega), List.getElem?_drop]
    have g2 : ∀ {β : Type} (l : List β) (i : ℕ), i ≤ steps → (pySlice l (q * steps) ((q + 1) * steps + 1))[i]? = l[q * steps + i]? := by
      intro β l i hi
      unfold pySlice
      rw [List.getElem?_take_of_lt (by rw [Nat.succ_mul]; omega), List.getElem?_drop]
    obtain ⟨ξ', υ', e1, e2, k1, k2⟩ := combineFB_ok h2 (by simp only [l1, l2]; omega)
    simp only [l1, l2] at e1 e2 k1 k2
    intro i hi hi'
    obtain ⟨S, v, b, C, hS, hv, hb, hC, hd, he⟩ := k1 i (by omega)
    rw [g2 _ _ hi] at hS hv
    refine ⟨ξ q i, S, v, b, C, ?_, hS, hv, hb, hC, hd, ?_, ?_⟩
    · by_cases hlt : i < steps
      · rw [List.getElem?_append_left (by rw [flatten_len]; omega), flatten_get _ hq hlt]
      · obtain rfl : i = steps := by omega
        have hq' : q + 1 = blocks := hi'.resolve_left hlt
        obtain rfl : q = blocks - 1 := by omega
        rw [List.getElem?_append_right (by
          rw [flatten_len]
          have : blocks * i = (blocks - 1) * i + i := by rw [← Nat.succ_mul, Nat.succ_eq_add_one, hq']
          omega), flatten_len]
        have : (blocks - 1) * i + i - blocks * i = 0 := by
          rw [← Nat.succ_mul, Nat.succ_eq_add_one, hq', Nat.sub_self]
        rw [this]
        rfl
    · rw [← he, add_mulVec, one_mulVec, mulVec_mulVec, seq_inj e1 i (by omega)]
    · intro hlt
      obtain ⟨Kx, d, hK, hd, e⟩ := k2 i hlt
      rw [g1 _ _ hlt] at hK hd
      refine ⟨υ q i, Kx, d, flatten_get _ hq hlt, hK, hd, ?_⟩
      rw [seq_inj e2 i hlt, seq_inj e1 i (by omega), e, neg_mulVec, neg_add_eq_sub]

/-- C61 (forward-backward pass, errors): when the blocks can be integrated and scanned, wrong numbers of gains or of value
functions raise `ValueError`, and no blocks raise `UnboundLocalError`. -/
theorem C61_fwdbwd_errors (P : CLQT n m K) (x0 : Fin n → K) (bw : BwResult n m K) (blocks steps : ℕ) (dt : K) (t0 : Option K)
    (forward : Bool) :
    (∀ es el, P.parFwdBwdInit x0 blocks steps (some dt) t0 forward = .ok es → scanVals combineABCEJ es = .ok el →
      bw.Kx_list.length ≠ blocks * steps ∨ bw.S_list.length ≠ blocks * steps + 1 →
      P.parFwdBwdPass x0 bw blocks steps (some dt) t0 forward = .error .valueError) ∧
    (bw.Kx_list.length = 0 → bw.S_list.length = 1 →
      P.parFwdBwdPass x0 bw 0 steps (some dt) t0 forward = .error .unboundLocalError) := by
  constructor
  · intro es el h1 h2 hne
    have h1' : P.parFwdBwdInit x0 blocks steps (some dt) (some (t0.getD 0)) forward = .ok es := h1
    have hlen : el.length = blocks + 1 := by
      rw [(scanVals_prefix h2).1]
      unfold CLQT.parFwdBwdInit at h1
      simp only [bind_ok, pure, Except.pure, Except.ok.injEq] at h1
      obtain ⟨_, -, l, hl, rfl⟩ := h1
      have : Inhabited (Elem n K) := ⟨⟨0, 0, 0, 0, 0⟩⟩
      obtain ⟨f, rfl, -⟩ := mapM_seq.1 hl
      simp
    unfold CLQT.parFwdBwdPass
    simp only [P.dtPar_some, bind, Except.bind, h1', h2]
    unfold CLQT.parFwdBwdExtract
    simp only [hlen, Nat.add_sub_cancel]
    by_cases hK : bw.Kx_list.length = blocks * steps
    · have hS := hne.resolve_left (not_not.2 hK)
      rw [if_neg (by rw [hK]; simp), if_pos (Ne.symm hS)]
      rfl
    · rw [if_pos (Ne.symm hK)]
      rfl
  · intro hK hS
    unfold CLQT.parFwdBwdPass CLQT.parFwdBwdInit
    have hsc : scanVals combineABCEJ [(⟨0, x0, 0, 0, 0⟩ : Elem n K)] = .ok [⟨0, x0, 0, 0, 0⟩] := rfl
    simp only [P.dtPar_some, bind, Except.bind, List.range_zero, List.mapM_nil, pure, Except.pure, hsc]
    unfold CLQT.parFwdBwdExtract
    simp only [List.length_singleton, Nat.sub_self, zero_mul, zero_add, hK, hS, ne_eq, not_true_eq_false, if_false]
    simp only [P.dtPar_some, bind, Except.bind, List.range_zero, List.mapM_nil, pure, Except.pure]
    rfl

/-! ### Examples -/

/-- Two gains with values that are not constant. -/
example : ∃ us xs, exCL.seqForwardPass ![1, 2] [!![1, 0], !![0, 2]] [![1], ![0]] (some 1) (some 0) true = .ok (us, xs) := by
  have h : (exCL.seqForwardPass ![1, 2] [!![1, 0], !![0, 2]] [![1], ![0]] (some 1) (some 0) true).isOk = true := by decide +kernel
  revert h
  cases exCL.seqForwardPass ![1, 2] [!![1, 0], !![0, 2]] [![1], ![0]] (some 1) (some 0) true with
  | error e => simp [Except.isOk, Except.toBool]
  | ok r => exact fun _ => ⟨r.1, r.2, rfl⟩

example : ∃ dA db dC, exCL.fwdbwdOdeF (packABC !![1, 2; 0, 1] ![1, 1] !![1, 0; 0, 1]) 1 = .ok (packABC dA db dC) := by
  have h : (exCL.fwdbwdOdeF (packABC !![1, 2; 0, 1] ![1, 1] !![1, 0; 0, 1]) 1).isOk = true := by decide +kernel
  revert h
  cases exCL.fwdbwdOdeF (packABC !![1, 2; 0, 1] ![1, 1] !![1, 0; 0, 1]) 1 with
  | error e => simp [Except.isOk, Except.toBool]
  | ok r => exact fun _ => ⟨_, _, _, congrArg _ (pack_unpackABC r).symm⟩

/-- Two steps of an integrator with unit gains: forward elements and value functions that are not zero. -/
def exComb : Py (List (Fin 1 → ℚ) × List (Fin 1 → ℚ)) :=
  CLQT.combineForwardBackward ⟨[!![1], !![2]], [![1], ![1]], [!![1], !![2], !![3]], [![1], ![0], ![2]]⟩
    ⟨[1, 1, 1], [![1], ![2], ![3]], [!![0], !![1], !![2]]⟩

example : ∃ us xs, exComb = .ok (us, xs) := by
  have h : exComb.isOk = true := by decide +kernel
  revert h
  cases exComb with
  | error e => simp [Except.isOk, Except.toBool]
  | ok r => exact fun _ => ⟨r.1, r.2, rfl⟩

/-- A drift `c = (t, 1)` and a time-dependent cost. -/
def exDrift (c : ℚ → Fin 2 → ℚ) (H : ℚ → Matrix (Fin 1) (Fin 2) ℚ) : CLQT 2 1 ℚ where
  p := 1
  F := fun _ => 0
  L := fun _ => 0
  X := fun t => !![1 + t]
  U := fun _ => 1
  c := c
  H := H
  r := fun t => ![t]
  pT := 1
  XT := 1
  HT := 0
  rT := 0
  T := 2

theorem exDrift_solve (c : ℚ → Fin 2 → ℚ) (H : ℚ → Matrix (Fin 1) (Fin 2) ℚ) (t : ℚ) :
    ∃ Y, solvePos ((exDrift c H).U t) ((exDrift c H).L t)ᵀ = .ok Y :=
  ⟨0, (solvePos_ok transpose_one).2 ⟨fun x hx => (one_mulVec x).symm ▸ lt_of_le_of_ne (Finset.sum_nonneg fun i _ => mul_self_nonneg (x i))
    (fun h => hx (dotProduct_self_eq_zero.1 h.symm)), by simp [exDrift]⟩⟩

example : (exDrift (fun t => ![t, 1]) 0).blockElem false 1 1 0 1 = .ok ⟨1, ![3 / 2, 1], 0, 0, 0⟩ := by
  rw [C61_block_offset _ (fun _ => rfl) (fun _ => rfl) (fun _ => rfl) (exDrift_solve _ _)]
  congr 2
  decide +kernel

example : (exDrift 0 (fun _ => !![1, 0])).blockElem true 1 1 0 1 = .ok ⟨1, 0, 0, ![23 / 6, 0], !![5 / 2, 0; 0, 0]⟩ := by
  rw [C61_block_cost (exDrift 0 _) (fun _ => rfl) (fun _ => rfl) (fun _ => rfl) (fun t => by ext i j; fin_cases i; fin_cases j; rfl) (exDrift_solve _ _)]
  congr 2
  · decide +kernel
  · decide +kernel

/-- The forward-backward pass on two blocks completes. -/
def exFB : Py (List (Fin 1 → ℚ) × List (Fin 1 → ℚ)) := do
  let bw ← exGain.seqBackwardPass 2
  exGain.parFwdBwdPass ![1] bw 2 1 (some (1 / 2))

example : ∃ bw us xs, exGain.parFwdBwdPass ![1] bw 2 1 (some (1 / 2)) = .ok (us, xs) := by
  have h : exFB.isOk = true := by decide +kernel
  unfold exFB at h
  revert h
  cases exGain.seqBackwardPass 2 with
  | error e => simp [Except.isOk, Except.toBool, bind, Except.bind]
  | ok bw =>
    simp only [bind, Except.bind]
    cases h : exGain.parFwdBwdPass ![1] bw 2 1 (some (1 / 2)) with
    | error e => simp [Except.isOk, Except.toBool]
    | ok r => exact fun _ => ⟨bw, r.1, r.2, h⟩

example : exGain.parFwdBwdPass ![1] ⟨[], [], [1], [0]⟩ 0 1 (some 1) = .error .unboundLocalError :=
  (C61_fwdbwd_errors exGain _ _ 0 1 1 none true).2 rfl rfl

end Verif
