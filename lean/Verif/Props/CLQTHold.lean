import Verif.Proof.CLQTHold
import Verif.Props.CLQTFwdBwd
import Verif.Props.ParTensorConv

/-! Property C110: the parallel forward pass of the continuous-time tracker with a zero-order hold. -/

namespace Verif

open Matrix

variable {n m : ℕ}

section Steps
variable {K : Type} [Field K] [LinearOrder K] [CharZero K]

/-- C110 (steps): with `u_zoh=True` the parallel pass on `blocks * steps` gains completes.  At the boundaries of the blocks its states are
those of the sequential pass without hold; the controls are `-Kx x + d` at its states; and inside a block every state is a
Runge-Kutta step of `x' = F x + L u + c` from the state before with the control of that state. -/
theorem C110_steps (P : CLQT n m K) (x0 : Fin n → K) (Kx_list : List (Matrix (Fin m) (Fin n) K)) (d_list : List (Fin m → K))
    (blocks steps : ℕ) (hs : 0 < steps) (hK : Kx_list.length = blocks * steps) (hd : d_list.length = blocks * steps) (dt t0 : K) (forward : Bool) :
    ∃ us xs us' ys, P.parForwardPass x0 Kx_list d_list blocks steps (some dt) (some t0) forward true = .ok (us, xs) ∧
      P.seqForwardPass x0 Kx_list d_list (some dt) (some t0) false = .ok (us', ys) ∧
      us.length = blocks * steps ∧ xs.length = blocks * steps + 1 ∧ (∀ k, steps ∣ k → xs[k]? = ys[k]?) ∧
      ∀ k < blocks * steps, ∃ Kx d x x' u, Kx_list[k]? = some Kx ∧ d_list[k]? = some d ∧ xs[k]? = some x ∧ xs[k + 1]? = some x' ∧
        us[k]? = some u ∧ u = -(Kx *ᵥ x) + d ∧
        (¬ steps ∣ k + 1 → rk4T (fun y s => .ok (P.F s *ᵥ y + P.L s *ᵥ u + P.c s)) dt x (t0 + k * dt) = .ok x') := by
  obtain ⟨κ, rfl, rfl⟩ := exists_gains hK hd
  obtain ⟨ξ, hξ0, hξ⟩ := P.exists_fwSeq false (blocks * steps) dt t0 κ x0
  choose η hη0 hη using fun k : ℕ => P.exists_fwSeq true steps dt (t0 + k * steps * dt) (fun i => κ (k * steps + i)) (ξ (k * steps))
  have e := P.parForward_seq x0 κ blocks hs (some dt) (some t0) forward true rfl hξ0 hξ (fun k _ => hη0 k) (fun k _ => hη k)
  refine ⟨_, _, _, _, e, CLQT.seqForward_ok.2 ⟨dt, rfl, ξ, hξ0, hξ, rfl⟩, by simp, by simp, fun k hk => ?_, fun k hk => ?_⟩
  · obtain ⟨q, rfl⟩ := hk
    by_cases hq : steps * q < blocks * steps + 1
    · rw [List.getElem?_map, List.getElem?_map, List.getElem?_range hq, Option.map_some, Option.map_some, Nat.mul_div_cancel_left _ hs,
        Nat.mul_mod_right, hη0, mul_comm q, ite_self]
    · rw [List.getElem?_eq_none (by simp; omega), List.getElem?_eq_none (by simp; omega)]
  · obtain ⟨h1, h2, h3⟩ := list_near hs k blocks hk
    refine ⟨(κ k).1, (κ k).2, η (k / steps) (k % steps), _, _, by simp [gainLists, hk], by simp [gainLists, hk], ?_,
      by rw [List.getElem?_map, List.getElem?_range (by omega)]; rfl, by rw [List.getElem?_map, List.getElem?_range hk]; rfl,
      by dsimp only; rw [neg_mulVec], fun hdv => ?_⟩
    · rw [List.getElem?_map, List.getElem?_range (by omega), Option.map_some, if_pos hk]
    · have hne : (k + 1) % steps ≠ 0 := fun h => hdv (Nat.dvd_of_mod_eq_zero h)
      have hlt : k + 1 < blocks * steps := by
        rcases Nat.lt_or_ge (k + 1) (blocks * steps) with h | h
        · exact h
        · exact absurd (by rw [show k + 1 = blocks * steps by omega]; exact Nat.dvd_mul_left _ _) hdv
      have e1 : (k + 1) / steps = k / steps := Nat.succ_div_of_not_dvd hdv
      have e2 : (k + 1) % steps = k % steps + 1 := by
        have a := Nat.div_add_mod (k + 1) steps
        have b := Nat.div_add_mod k steps
        rw [e1] at a
        omega
      have hf := hη (k / steps) (k % steps) h2
      dsimp only
      rw [if_pos hlt, e1, e2, ← hf]
      unfold CLQT.fwF
      dsimp only
      rw [h3]
      have ht : t0 + k * dt = t0 + ((k / steps : ℕ) : K) * steps * dt + ((k % steps : ℕ) : K) * dt := by
        conv_lhs => rw [← h3]
        push_cast
        ring
      rw [ht]
      congr 1

/-- C110 (one step): with one step in each block `u_zoh` has no effect: the parallel pass is the sequential pass without hold. -/
theorem C110_one (P : CLQT n m K) (x0 : Fin n → K) (Kx_list : List (Matrix (Fin m) (Fin n) K)) (d_list : List (Fin m → K))
    (blocks : ℕ) (hK : Kx_list.length = blocks) (hd : d_list.length = blocks) (dt t0 : K) (forward u_zoh : Bool) :
    P.parForwardPass x0 Kx_list d_list blocks 1 (some dt) (some t0) forward u_zoh = P.seqForwardPass x0 Kx_list d_list (some dt) (some t0) false := by
  obtain ⟨s, hs⟩ : ∃ s : ℕ, s = 1 := ⟨1, rfl⟩
  have e1 : blocks = blocks * s := by rw [hs, mul_one]
  rw [← hs]
  obtain ⟨κ, rfl, rfl⟩ := exists_gains (hK.trans e1) (hd.trans e1)
  obtain ⟨ξ, hξ0, hξ⟩ := P.exists_fwSeq false (blocks * s) dt t0 κ x0
  choose η hη0 hη using fun k : ℕ => P.exists_fwSeq u_zoh s dt (t0 + k * s * dt) (fun i => κ (k * s + i)) (ξ (k * s))
  have h := P.parForward_seq x0 κ blocks (by omega : 0 < s) (some dt) (some t0) forward u_zoh rfl hξ0 hξ (fun k _ => hη0 k) (fun k _ => hη k)
  have e : ∀ j, η (j / s) (j % s) = ξ j := fun j => by rw [hs, Nat.mod_one, hη0, Nat.div_one, hs, mul_one]
  simp only [e, ite_self] at h
  have h2 : P.seqForwardPass x0 (gainLists (blocks * s) κ).1 (gainLists (blocks * s) κ).2 (some dt) (some t0) false =
      .ok ((List.range (blocks * s)).map fun k => -(κ k).1 *ᵥ ξ k + (κ k).2, (List.range (blocks * s + 1)).map ξ) :=
    CLQT.seqForward_ok.2 ⟨dt, rfl, ξ, hξ0, hξ, rfl⟩
  rw [h, h2]

/-- C110 (one block): with one block the controls and all states but the last are those of the sequential pass with the same `u_zoh`; the last
state is that of the sequential pass without hold. -/
theorem C110_block (P : CLQT n m K) (x0 : Fin n → K) (Kx_list : List (Matrix (Fin m) (Fin n) K)) (d_list : List (Fin m → K))
    (steps : ℕ) (hK : Kx_list.length = steps) (hd : d_list.length = steps) (dt t0 : K) (forward u_zoh : Bool) :
    ∃ us xs us' ys w, P.seqForwardPass x0 Kx_list d_list (some dt) (some t0) u_zoh = .ok (us, xs) ∧
      P.seqForwardPass x0 Kx_list d_list (some dt) (some t0) false = .ok (us', ys) ∧ ys.getLast? = some w ∧
      P.parForwardPass x0 Kx_list d_list 1 steps (some dt) (some t0) forward u_zoh = .ok (us, xs.dropLast ++ [w]) := by
  obtain ⟨κ, rfl, rfl⟩ := exists_gains (hK.trans (one_mul steps).symm) (hd.trans (one_mul steps).symm)
  obtain ⟨ξ, hξ0, hξ⟩ := P.exists_fwSeq false (1 * steps) dt t0 κ x0
  obtain ⟨η, hη0, hη⟩ := P.exists_fwSeq u_zoh (1 * steps) dt t0 κ x0
  have e := P.parForward_blocks x0 κ 1 steps (some dt) (some t0) forward u_zoh (η := fun _ => η) rfl hξ0 hξ
    (fun k hk => by obtain rfl : k = 0 := by omega
                    rw [zero_mul, hη0, hξ0])
    (fun k hk => by
      obtain rfl : k = 0 := by omega
      simpa using hη)
  refine ⟨_, _, _, _, ξ (1 * steps), CLQT.seqForward_ok.2 ⟨dt, rfl, η, hη0, hη, rfl⟩, CLQT.seqForward_ok.2 ⟨dt, rfl, ξ, hξ0, hξ, rfl⟩, ?_, ?_⟩
  · rw [List.range_succ, List.map_append]
    simp
  · rw [e, List.range_succ (n := 1 * steps), List.map_append, List.map_singleton, List.dropLast_concat]
    simp

end Steps

/-- C110 (control): there is an optimal trajectory such that for every number of blocks and every accuracy, from some number of steps in a
block on, the parallel backward pass completes and the parallel forward pass on its gains, with and without zero-order hold,
completes with states and controls that near to the optimal ones. -/
theorem C110_control (P : CLQT n m ℝ) (h0 : 0 < P.T) (hP : P.ContData 0 P.T) (hX : ∀ t ∈ Set.Icc 0 P.T, IsPSD (P.X t))
    (hXT : IsPSD P.XT) (x0 : Fin n → ℝ) :
    ∃ x u, P.IsTraj 0 x0 x u ∧ (∀ x' u', P.IsTraj 0 x0 x' u' → P.totalCost 0 x u ≤ P.totalCost 0 x' u') ∧
      ∀ blocks > 0, ∀ ε > 0, ∃ N0 : ℕ, 0 < N0 ∧ ∀ steps ≥ N0, ∀ forward, ∃ r, P.parBackwardPass blocks steps none none forward = .ok r ∧
        ∀ forward' u_zoh, ∃ us xs, P.parForwardPass x0 r.Kx_list r.d_list blocks steps none none forward' u_zoh = .ok (us, xs) ∧
          VecsNear us (blocks * steps) (P.T / (blocks * steps : ℕ)) u ε ∧
          VecsNear xs (blocks * steps + 1) (P.T / (blocks * steps : ℕ)) x ε := by
  obtain ⟨S, v, x, hR, hx0, hxc, hxd, htr, hopt⟩ := P.optimal_loop h0 hP hX hXT x0
  refine ⟨x, _, htr, hopt, fun blocks hB ε hε => ?_⟩
  have hG := P.gainCont hP hR.contS
  have hd := P.offsetCont hP hR.contv
  obtain ⟨δ1, hδ1, N1, hN1, h1⟩ := CLQT.parFw_lists h0 hP hG hd hxc hxd true hB ε hε
  obtain ⟨δ2, hδ2, N2, hN2, h2⟩ := CLQT.parFw_lists h0 hP hG hd hxc hxd false hB ε hε
  obtain ⟨N3, hN3, h3⟩ := C86_backward P h0 hP hX hXT S v hR blocks hB (min δ1 δ2) (lt_min hδ1 hδ2)
  rw [hx0] at h1 h2
  refine ⟨max N3 (max N1 N2), by omega, fun steps hs forward => ?_⟩
  obtain ⟨r, hr, -, -, hK, hD⟩ := h3 steps (by omega) forward
  refine ⟨r, hr, fun forward' z => ?_⟩
  cases z
  · exact h2 steps (by omega) _ _ ⟨hK.1, fun k A hA i j => (hK.2 k A hA i j).trans (min_le_right _ _)⟩
      ⟨hD.1, fun k A hA i => (hD.2 k A hA i).trans (min_le_right _ _)⟩ forward'
  · exact h1 steps (by omega) _ _ ⟨hK.1, fun k A hA i j => (hK.2 k A hA i j).trans (min_le_left _ _)⟩
      ⟨hD.1, fun k A hA i => (hD.2 k A hA i).trans (min_le_left _ _)⟩ forward'

/-- C110 (tensors): the same for the tensors of `clqt_par_backwardpass` and `clqt_par_forwardpass`, with every associative scan of finite
depth. -/
theorem C110_tensors (P : CLQT n m ℝ) {p : TensCLQT ℝ} (hp : p.Holds P) {d : TensFinal ℝ} (hd : d.Holds P) (hn : 0 < n) (h0 : 0 < P.T)
    (hP : P.ContData 0 P.T) (hU : ∀ t, (P.U t)ᵀ = P.U t ∧ IsPD (P.U t)) (hX : ∀ t ∈ Set.Icc 0 P.T, IsPSD (P.X t)) (hXT : IsPSD P.XT)
    (scan : AScan) (hsc : ∀ α, IsAssocScan (scan α)) (hf : ∀ α, IsFiniteScan (scan α)) {x0 : Tens ℝ} {x0' : Fin n → ℝ} (hx : x0.IsV x0') :
    ∃ x u, P.IsTraj 0 x0' x u ∧ (∀ x' u', P.IsTraj 0 x0' x' u' → P.totalCost 0 x u ≤ P.totalCost 0 x' u') ∧
      ∀ blocks > 0, ∀ ε > 0, ∃ N0 : ℕ, ∀ steps ≥ N0, ∀ forward, ∃ dt t0 ST vT tb, tensClqtParDefaults d blocks steps = .ok (dt, t0, ST, vT) ∧
        tensClqtParBackward p scan blocks steps dt t0 ST vT forward = .ok tb ∧
        ∀ forward' u_zoh, ∃ tx tu, tensClqtParForward p scan blocks steps x0 tb.Kxs tb.ds dt t0 forward' u_zoh = .ok (tx, tu) ∧
          tx.Near (blocks * steps + 1) (P.T / (blocks * steps : ℕ)) x ε ∧ tu.Near (blocks * steps) (P.T / (blocks * steps : ℕ)) u ε := by
  obtain ⟨S, v, hR, -, -⟩ := C85_exists P h0 hP hX hXT
  obtain ⟨x, u, h1, h2, h3⟩ := C110_control P h0 hP hX hXT x0'
  refine ⟨x, u, h1, h2, fun blocks hB ε hε => ?_⟩
  obtain ⟨D, hD⟩ := scan_depth hf (TensElem ℝ) (Elem n ℝ)
  obtain ⟨N1, hN1, k1⟩ := h3 blocks hB ε hε
  obtain ⟨N2, hN2, k2⟩ := P.tfParBw_complete h0 hP hU hX hXT D blocks hB
  obtain ⟨N3, hN3, k3⟩ := C86_backward P h0 hP hX hXT S v hR blocks hB 1 one_pos
  refine ⟨max N1 (max N2 N3), fun steps hs forward => ?_⟩
  have hst : 0 < steps := by omega
  obtain ⟨r, e1, hpar⟩ := k1 steps (by omega) forward
  obtain ⟨r', e2, htf⟩ := k2 steps (by omega) forward
  obtain rfl : r = r' := Except.ok.inj (e1.symm.trans e2)
  obtain ⟨r', e3, -, -, lK, ld⟩ := k3 steps (by omega) forward
  obtain rfl : r = r' := Except.ok.inj (e1.symm.trans e3)
  obtain ⟨ST, vT, tb, g0, g1, hb⟩ := parBw_tens P hp hd hn hsc hD hB forward htf
  refine ⟨_, _, ST, vT, tb, g0, g1, fun forward' z => ?_⟩
  obtain ⟨us, xs, hf', hu, hx'⟩ := hpar forward' z
  have key : P.parForwardPass x0' r.Kx_list r.d_list blocks steps (some (P.T / (steps * blocks))) (some 0) forward' z = .ok (us, xs) := by
    unfold CLQT.parForwardPass at hf' ⊢
    rw [CLQT.dtPar_none_pos hB hst, div_div] at hf'
    exact hf'
  obtain ⟨tx, tu, g2, g3, g4⟩ := (C106_par_forward P hp scan hsc hx hb.Kxs hb.ds hB hst lK.1 ld.1 _ _ forward' z us xs).2 key
  exact ⟨tx, tu, g2, HoldsV.near g3 hx', HoldsV.near g4 hu⟩

/-! ### Examples -/

/-- `C110_steps` on two blocks of two steps: the hypotheses. -/
example : (2 : ℕ) > 0 ∧ [!![1, 0], !![0, 2], !![1, 1], (!![2, 0] : Matrix (Fin 1) (Fin 2) ℚ)].length = 2 * 2 ∧
    [![1], ![0], ![3], (![-1] : Fin 1 → ℚ)].length = 2 * 2 := ⟨by norm_num, rfl, rfl⟩

/-- The middle state of the parallel pass with hold is that of the sequential pass without hold. -/
example : ∃ us xs us' ys, exCL.parForwardPass ![1, 2] [!![1, 0], !![0, 2], !![1, 1], !![2, 0]] [![1], ![0], ![3], ![-1]] 2 2 (some 1) (some 0) false true =
      .ok (us, xs) ∧
    exCL.seqForwardPass ![1, 2] [!![1, 0], !![0, 2], !![1, 1], !![2, 0]] [![1], ![0], ![3], ![-1]] (some 1) (some 0) false = .ok (us', ys) ∧
    xs[2]? = ys[2]? := by
  obtain ⟨us, xs, us', ys, h1, h2, -, -, h3, -⟩ := C110_steps exCL ![1, 2] [!![1, 0], !![0, 2], !![1, 1], !![2, 0]] [![1], ![0], ![3], ![-1]] 2 2
    (by norm_num) rfl rfl 1 0 false
  exact ⟨us, xs, us', ys, h1, h2, h3 2 (by norm_num)⟩

example : exInt.parForwardPass (fun _ => 1) [1, 1] [0, 0] 2 1 (some 1) (some 0) true true =
    exInt.seqForwardPass (fun _ => 1) [1, 1] [0, 0] (some 1) (some 0) false := C110_one exInt _ [1, 1] [0, 0] 2 rfl rfl 1 0 true true

/-- On one block of two steps with `u = -x` held: the last state is `9/64` although the state before is `0`. -/
example : exInt.parForwardPass (fun _ => 1) [1, 1] [0, 0] 1 2 (some 1) (some 0) true true =
    .ok ([fun _ => -1, fun _ => 0], [fun _ => 1, fun _ => 0, fun _ => 9 / 64]) := by
  obtain ⟨us, xs, us', ys, w, h1, h2, h3, h4⟩ := C110_block exInt (fun _ => 1) [1, 1] [0, 0] 2 rfl rfl 1 0 true true
  have k1 := C35_zoh.1
  have k2 := C35_zoh.2
  have e1 : exInt.seqForwardPass (fun _ => 1) [1, 1] [0, 0] none none true = exInt.seqForwardPass (fun _ => 1) [1, 1] [0, 0] (some 1) (some 0) true := by
    unfold CLQT.seqForwardPass
    dsimp only
    have : exInt.dtSeq [(1 : Matrix (Fin 1) (Fin 1) ℚ), 1].length none = .ok 1 := by decide +kernel
    rw [this]
    rfl
  have e2 : exInt.parForwardPass (fun _ => 1) [1, 1] [0, 0] 2 1 none none true true =
      exInt.parForwardPass (fun _ => 1) [1, 1] [0, 0] 2 1 (some 1) (some 0) true true := by
    unfold CLQT.parForwardPass
    dsimp only
    have : exInt.dtPar 2 1 none = .ok 1 := by decide +kernel
    rw [this]
    rfl
  rw [e1] at k1
  rw [e2, C110_one exInt _ [1, 1] [0, 0] 2 rfl rfl 1 0 true true] at k2
  obtain ⟨rfl, rfl⟩ := Prod.mk.inj (Except.ok.inj (h1.symm.trans k1))
  obtain ⟨rfl, rfl⟩ := Prod.mk.inj (Except.ok.inj (h2.symm.trans k2))
  obtain rfl := Option.some.inj h3
  exact h4

/-- `C110_control` on the problem `exFlow` with four blocks and zero-order hold. -/
example : ∃ x u, exFlow.IsTraj 0 ![2] x u ∧ ∀ ε > 0, ∃ N0 : ℕ, ∀ steps ≥ N0, ∃ r us xs, exFlow.parBackwardPass 4 steps none none false = .ok r ∧
      exFlow.parForwardPass ![2] r.Kx_list r.d_list 4 steps none none true true = .ok (us, xs) ∧
      VecsNear us (4 * steps) (exFlow.T / (4 * steps : ℕ)) u ε ∧ VecsNear xs (4 * steps + 1) (exFlow.T / (4 * steps : ℕ)) x ε := by
  obtain ⟨x, u, h1, -, h3⟩ := C110_control exFlow exFlow_T exFlow_contData (fun t _ => exFlow_X t) exFlow_XT ![2]
  refine ⟨x, u, h1, fun ε hε => ?_⟩
  obtain ⟨N0, -, h⟩ := h3 4 (by norm_num) ε hε
  refine ⟨N0, fun steps hs => ?_⟩
  obtain ⟨r, hr, hp⟩ := h steps hs false
  obtain ⟨us, xs, hf, hu, hx⟩ := hp true true
  exact ⟨r, us, xs, hr, hf, hu, hx⟩

/-- `C110_tensors` on the problem of `get_clqt` with the scan of the repository, five blocks and zero-order hold. -/
example : ∃ x u, linGetCLQT.1.IsTraj 0 linGetCLQT.2 x u ∧ ∃ N0 : ℕ, ∀ steps ≥ N0, ∃ dt t0 ST vT tb tx tu,
    tensClqtParDefaults tensGetClqt.2.1 5 steps = .ok (dt, t0, ST, vT) ∧
    tensClqtParBackward tensGetClqt.2.2 (fun _ op l => scanVals op l) 5 steps dt t0 ST vT false = .ok tb ∧
    tensClqtParForward tensGetClqt.2.2 (fun _ op l => scanVals op l) 5 steps tensGetClqt.1 tb.Kxs tb.ds dt t0 true true = .ok (tx, tu) ∧
    tx.Near (5 * steps + 1) (50 / (5 * steps : ℕ)) x (1 / 100) ∧ tu.Near (5 * steps) (50 / (5 * steps : ℕ)) u (1 / 100) := by
  obtain ⟨hx, hd, hp⟩ := C108_linear
  obtain ⟨-, -, hT, -, -, hU, -⟩ := C74_continuous
  have h0 : 0 < linGetCLQT.1.T := by rw [hT]; norm_num
  obtain ⟨x, u, h1, -, h3⟩ := C110_tensors linGetCLQT.1 hp hd (by norm_num) h0 linGetCLQT_contData (fun t => ⟨(hU t).2.2.2, (hU t).2.2.1⟩)
    (fun t _ => (isPSD_smul_one _ zero_le_one)) (isPSD_smul_one _ zero_le_one) (fun _ op l => scanVals op l) (fun _ => C17_scan_example)
    (fun _ => scanVals_finite) hx
  rw [hT] at h3
  obtain ⟨N0, h⟩ := h3 5 (by norm_num) (1 / 100) (by norm_num)
  refine ⟨x, u, h1, N0, fun steps hs => ?_⟩
  obtain ⟨dt, t0, ST, vT, tb, g1, g2, g3⟩ := h steps hs false
  obtain ⟨tx, tu, g4, g5⟩ := g3 true true
  exact ⟨dt, t0, ST, vT, tb, tx, tu, g1, g2, g4, g5⟩

end Verif
