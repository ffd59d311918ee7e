import Verif.Proof.SpeedItems

/-!
C80: the speed tests of the linear models (`linear_speedtest.py`) run what they claim: the conversion to tensors is exact for the
fields it keeps, all eight pipelines return the solution of the reference, and the reported sizes are those of the problems.
Condensing fails exactly when a block is not rigid, for the tracking model when a block has a single step.
-/

namespace Verif

open Matrix

section General
variable {n m p q : ℕ} {K : Type} [Field K]

/-- C80 (conversion): `lqt_np_to_tf` succeeds exactly when all outputs have the dimension `p` and the final output has dimension `q`,
and then the tensors are those of the problem without `Z`, `s`, `M`. -/
theorem C80_convert (Q : LQT n m K) (P : TFLQT n m p q K) :
    (Q.raw.npToTf n m p q = .ok P ↔ P.toLQT = { Q with stages := Q.stages.map LStage.strip }) ∧
    ((∃ P' : TFLQT n m p q K, Q.raw.npToTf n m p q = .ok P') ↔ (∀ s ∈ Q.stages, s.p = p) ∧ Q.pT = q) ∧
    ((∀ s ∈ Q.stages, s.Plain) → (Q.raw.npToTf n m p q = .ok P ↔ P.toLQT = Q)) := by
  refine ⟨npToTf_iff Q P, ⟨fun ⟨P', h⟩ => npToTf_dim h, fun h => ?_⟩, fun h => ?_⟩
  · obtain ⟨G, -, hG⟩ := exists_gen Q h
    exact ⟨_, (npToTf_iff Q _).2 hG⟩
  · rw [npToTf_iff, show Q.stages.map LStage.strip = Q.stages from ?_]
    conv_rhs => rw [← List.map_id Q.stages]
    exact List.map_congr_left fun s hs => strip_plain (h s hs)

/-- C80 (conversion, general form): `lqt_np_to_tf_gen` only loses `Z`. -/
theorem C80_convert_gen (Q : LQT n m K) (P : TFGen n m p q K) :
    (Q.raw.npToTfGen n m p q = .ok P ↔ P.toLQT = { Q with stages := Q.stages.map fun s => { s with Z := 1 } }) ∧
    ((∃ P' : TFGen n m p q K, Q.raw.npToTfGen n m p q = .ok P') ↔ (∀ s ∈ Q.stages, s.p = p) ∧ Q.pT = q) := by
  refine ⟨npToTfGen_iff Q P, fun ⟨P', h⟩ => ?_, fun h => ?_⟩
  · unfold RawLQT.npToTfGen at h
    obtain ⟨P0, h0, -⟩ := bind_ok.1 h
    exact npToTf_dim h0
  · obtain ⟨G, hG, -⟩ := exists_gen Q h
    exact ⟨_, (npToTfGen_iff Q _).2 hG⟩

variable [LinearOrder K] [IsStrictOrderedRing K]

/-- C80 (pipelines): for a convex problem all pipelines of the speed tests return the gains, states and controls of
`lqt_reference`, which are optimal; those with condensing exactly when all blocks are rigid, and raise `LinAlgError` otherwise. -/
theorem C80_pipelines (P : TFLQT n m p q K) (hP : P.Convex) (hT : P.stages ≠ []) (scan : AScan) (hs : ∀ α, IsAssocScan (scan α))
    (x0 : Fin n → K) : ∃ r xs us J, lqtReference x0 P.toLQT = .ok (r, xs, us) ∧
      (P.spSeqBw = .ok r ∧ P.spParBw scan = .ok r) ∧
      (P.spSeqBwFw x0 = .ok (xs, us) ∧ P.spParBwFw1 scan x0 = .ok (xs, us) ∧ P.spParBwFw2 scan x0 = .ok (xs, us)) ∧
      (∀ N, 0 < N → (∀ k, N * k < P.stages.length → Rigid ((P.toLQT.stages.drop (N * k)).take N)) →
        P.spSeqCond N x0 = .ok (xs, us) ∧ P.spParCond1 scan N x0 = .ok (xs, us) ∧ P.spParCond2 scan N x0 = .ok (xs, us)) ∧
      (∀ N, 0 < N → (¬ ∀ k, N * k < P.stages.length → Rigid ((P.toLQT.stages.drop (N * k)).take N)) →
        P.spSeqCond N x0 = .error .linAlgError ∧ P.spParCond1 scan N x0 = .error .linAlgError ∧
          P.spParCond2 scan N x0 = .error .linAlgError) ∧
      (P.spSeqCond 0 x0 = .error .zeroDivisionError ∧ P.spParCond1 scan 0 x0 = .error .zeroDivisionError ∧
          P.spParCond2 scan 0 x0 = .error .zeroDivisionError) ∧
      P.cost xs us = .ok J ∧
      ∀ us' : List (Fin m → K), us'.length = P.stages.length → ∃ xs' J', P.toLQT.seqSimulation x0 us' = .ok xs' ∧
        P.cost xs' us' = .ok J' ∧ J ≤ J' ∧ (J' = J → us' = us) := by
  obtain ⟨r, xs, us, J, h1, h2, h3, h4, h5, h6, h7⟩ := C30_convex P hP hT (scan _) (hs _) (scan _) (hs _) x0
  have hb := (C30_seq_backward P hP.toSym r).1 h2
  have hf := C30_fwdbwd P hP.toSym (scan _) (hs _) r hb x0 xs us h5
  have hpos : 1 ≤ P.stages.length := List.length_pos_iff.2 hT
  have hg : tfGains P.stages r.Kx_list r.d_list = P.fwdData r := rfl
  obtain ⟨m1, m2, m3⟩ := C54_lqt (scan _) (scan _) P.stages.length P x0 r (P.fwdData r) hpos le_rfl (by simp [TFLQT.fwdData])
  refine ⟨r, xs, us, J, ?_, ⟨h2, ?_⟩, ⟨?_, ?_, ?_⟩, ?_, ?_, sp_cond_error (C70_errors (N := 0) P.stages 0 [] [] []).1 scan x0, h6, h7⟩
  · unfold lqtReference
    rw [hb, py_ok_bind, hf]
    rfl
  · unfold TFLQT.spParBw
    rw [m1, h1]
  · unfold TFLQT.spSeqBwFw
    rw [h2, py_ok_bind, hg, h3]
  · unfold TFLQT.spParBwFw1
    rw [m1, h1, py_ok_bind, hg, m3, h4]
  · unfold TFLQT.spParBwFw2
    rw [m1, h1, py_ok_bind, m2, h5]
  · intro N hN hr
    rcases C70_completion P hP.toSym hT hN with ⟨-, bs, hbs⟩ | ⟨h, -⟩
    · obtain ⟨us', c1, c2, c3, c4, c5⟩ := sp_cond hP hT hbs hs x0
      have hsame := C70_same (N := N) P hP.toSym hT (scan _) (hs _) (scan _) (hs _) TFLQT.seqBackward (Or.inl rfl) lqtTfSeqForward
        (Or.inl rfl) x0 us' (x0 :: lqtRun P.toLQT.stages x0 us') ?_ r h2
      · rw [hf, Except.ok.injEq, Prod.mk.injEq] at hsame
        rw [hsame.1, hsame.2]
        exact ⟨c1, c2, c3⟩
      · obtain ⟨C, r', gs, cxs, cus, us2, hC, -, -, -, hb', hgs, -, g1, -, g3, g4, g5⟩ := cond_parts hP hT hbs (hs _) x0
        have : us' = us2 := by
          by_contra hne
          exact lt_irrefl _ ((g5 us' c4 hne).trans (c5 us2 g4 (Ne.symm hne)))
        rw [this]
        unfold TFLQT.condSolve
        rw [hbs, py_ok_bind, hC, py_ok_bind, hb', py_ok_bind, hgs, py_ok_bind, g1, py_ok_bind]
        exact g3
    · exact absurd hr h
  · intro N hN hr
    rcases C70_completion P hP.toSym hT hN with ⟨h, -⟩ | ⟨-, hbs⟩
    · exact absurd h hr
    · exact sp_cond_error hbs scan x0

/-- C80 (speed tests): on convex problems the speed tests report the numbers of steps and the state dimensions of the problems;
those with condensing exactly when all blocks of all problems are rigid, and otherwise they end with `LinAlgError`. -/
theorem C80_speed (items : List (LQItem K)) (hi : ∀ it ∈ items, it.P.Convex ∧ it.P.stages ≠ []) (scan : AScan)
    (hs : ∀ α, IsAssocScan (scan α)) (n_iter Nc : ℕ) (hn : 0 < n_iter) (hN : 0 < Nc) :
    let gen := items.map Except.ok
    let res : Py (List ℕ × List ℕ) := .ok (items.map fun it => it.P.stages.length, items.map fun it => it.n)
    let rigid := ∀ it ∈ items, ∀ k, Nc * k < it.P.stages.length → Rigid ((it.P.toLQT.stages.drop (Nc * k)).take Nc)
    (seqBwSpeed gen n_iter = res ∧ parBwSpeed scan gen n_iter = res ∧ seqBwFwSpeed gen n_iter = res ∧
      parBwFw1Speed scan gen n_iter = res ∧ parBwFw2Speed scan gen n_iter = res) ∧
    (rigid → seqCondSpeed gen n_iter Nc = res ∧ parCond1Speed scan gen n_iter Nc = res ∧ parCond2Speed scan gen n_iter Nc = res) ∧
    (¬ rigid → seqCondSpeed gen n_iter Nc = .error .linAlgError ∧ parCond1Speed scan gen n_iter Nc = .error .linAlgError ∧
      parCond2Speed scan gen n_iter Nc = .error .linAlgError) := by
  intro gen res rigid
  have hsuc : ∀ {β : LQItem K → Type} (run : ∀ it, Py (β it)), (∀ it ∈ items, ∃ b, run it = .ok b) →
      lqSpeed gen run n_iter = res := fun run h => speedLoop_ok _ _ hn rfl fun it hit => by
    obtain ⟨b, hb⟩ := h it hit
    exact ⟨(), by rw [hb]; rfl⟩
  have herr : ∀ {β : LQItem K → Type} (run : ∀ it, Py (β it)) (g : LQItem K → Prop), (∀ it ∈ items, g it → ∃ b, run it = .ok b) →
      (∀ it ∈ items, ¬ g it → run it = .error .linAlgError) → (¬ ∀ it ∈ items, g it) →
      lqSpeed gen run n_iter = .error .linAlgError := by
    intro β run g h1 h2 h3
    have : ∃ pre it post, items = pre ++ it :: post ∧ (∀ a ∈ pre, g a) ∧ ¬ g it := by
      clear h1 h2 hsuc hi rigid gen res
      induction items with
      | nil => exact absurd (by simp) h3
      | cons a l ih =>
        by_cases ha : g a
        · obtain ⟨pre, it, post, e1, e2, e3⟩ := ih fun h => h3 (by
            intro it hit
            rcases List.mem_cons.1 hit with rfl | hit
            · exact ha
            · exact h it hit)
          refine ⟨a :: pre, it, post, by rw [e1]; rfl, ?_, e3⟩
          intro b hb
          rcases List.mem_cons.1 hb with rfl | hb
          · exact ha
          · exact e2 b hb
        · exact ⟨[], a, l, rfl, by simp, ha⟩
    obtain ⟨pre, it, post, e1, e2, e3⟩ := this
    unfold lqSpeed
    rw [show gen = pre.map Except.ok ++ Except.ok it :: post.map Except.ok by simp [gen, e1]]
    refine speedLoop_error _ _ hn _ _ _ _ (fun a ha => ?_) ?_
    · obtain ⟨b, hb⟩ := h1 a (by simp [e1, ha]) (e2 a ha)
      exact ⟨(), by rw [hb]; rfl⟩
    · change (do let _ ← run it; return () : Py Unit) = _
      rw [h2 it (by simp [e1]) e3]
      rfl
  have main := fun it hit => C80_pipelines it.P (hi it hit).1 (hi it hit).2 scan hs it.x0
  refine ⟨⟨hsuc _ fun it hit => ?_, hsuc _ fun it hit => ?_, hsuc _ fun it hit => ?_, hsuc _ fun it hit => ?_,
    hsuc _ fun it hit => ?_⟩, fun hr => ⟨hsuc _ fun it hit => ?_, hsuc _ fun it hit => ?_, hsuc _ fun it hit => ?_⟩,
    fun hr => ⟨herr _ _ (fun it hit h => ?_) (fun it hit h => ?_) hr, herr _ _ (fun it hit h => ?_) (fun it hit h => ?_) hr,
      herr _ _ (fun it hit h => ?_) (fun it hit h => ?_) hr⟩⟩
  all_goals obtain ⟨r, xs, us, J, h0, h1, h2, h3, h4, -⟩ := main it hit
  · exact ⟨_, h1.1⟩
  · exact ⟨_, h1.2⟩
  · exact ⟨_, h2.1⟩
  · exact ⟨_, h2.2.1⟩
  · exact ⟨_, h2.2.2⟩
  · exact ⟨_, (h3 Nc hN (hr it hit)).1⟩
  · exact ⟨_, (h3 Nc hN (hr it hit)).2.1⟩
  · exact ⟨_, (h3 Nc hN (hr it hit)).2.2⟩
  · exact ⟨_, (h3 Nc hN h).1⟩
  · exact (h4 Nc hN h).1
  · exact ⟨_, (h3 Nc hN h).2.1⟩
  · exact (h4 Nc hN h).2.1
  · exact ⟨_, (h3 Nc hN h).2.2⟩
  · exact (h4 Nc hN h).2.2

end General

/-! ### The generators -/

/-- C80 (lengths): the lengths lie between `10 ^ start` and `10 ^ stop`, begin with the former and end with the latter, and do not
decrease. -/
theorem C80_logspace (start stop : ℝ) (num : ℕ) (h : start ≤ stop) :
    (logspaceInt start stop num).length = num ∧
    (∀ T ∈ logspaceInt start stop num, ⌊(10 : ℝ) ^ start⌋₊ ≤ T ∧ T ≤ ⌊(10 : ℝ) ^ stop⌋₊) ∧
    (0 < num → (logspaceInt start stop num)[0]? = some ⌊(10 : ℝ) ^ start⌋₊) ∧
    (1 < num → (logspaceInt start stop num)[num - 1]? = some ⌊(10 : ℝ) ^ stop⌋₊) ∧
    (logspaceInt start stop num).Pairwise (· ≤ ·) := by
  have hmono : ∀ a b : ℝ, a ≤ b → ⌊(10 : ℝ) ^ a⌋₊ ≤ ⌊(10 : ℝ) ^ b⌋₊ := fun a b hab =>
    Nat.floor_mono (Real.rpow_le_rpow_of_exponent_le (by norm_num) hab)
  have hstep : 1 ≤ num → 0 ≤ (stop - start) / ((num : ℝ) - 1) := fun h1 => by
    have : (1 : ℝ) ≤ num := by exact_mod_cast h1
    exact div_nonneg (by linarith) (by linarith)
  refine ⟨by simp [logspaceInt], ?_, ?_, ?_, ?_⟩
  · intro T hT
    simp only [logspaceInt, List.mem_map, List.mem_range] at hT
    obtain ⟨k, hk, rfl⟩ := hT
    have h0 := hstep (by omega)
    refine ⟨hmono _ _ (by have : (0 : ℝ) ≤ k := by positivity
                          nlinarith), hmono _ _ ?_⟩
    rcases Nat.eq_or_lt_of_le (show 1 ≤ num by omega) with h1 | h1
    · have : k = 0 := by omega
      subst this
      simp only [Nat.cast_zero, zero_mul, add_zero]
      exact h
    · have h2 : (0 : ℝ) < (num : ℝ) - 1 := by
        have : (1 : ℝ) < num := by exact_mod_cast h1
        linarith
      have h3 : (k : ℝ) ≤ (num : ℝ) - 1 := by
        have : (k : ℝ) + 1 ≤ num := by exact_mod_cast hk
        linarith
      have h4 : ((num : ℝ) - 1) * ((stop - start) / ((num : ℝ) - 1)) = stop - start := by field_simp
      nlinarith
  · intro hn
    simp only [logspaceInt, List.getElem?_map, List.getElem?_range hn]
    simp
  · intro hn
    have h2 : ((num - 1 : ℕ) : ℝ) = (num : ℝ) - 1 := by
      rw [Nat.cast_sub (by omega)]
      simp
    have h3 : (num : ℝ) - 1 ≠ 0 := by
      have : (1 : ℝ) < num := by exact_mod_cast hn
      linarith
    simp only [logspaceInt, List.getElem?_map, List.getElem?_range (show num - 1 < num by omega), Option.map_some, h2]
    rw [mul_div_cancel₀ _ h3, add_sub_cancel]
  · unfold logspaceInt
    rw [List.pairwise_map]
    refine List.Pairwise.imp_of_mem ?_ (List.pairwise_lt_range (n := num))
    intro a b ha hb hab
    have h0 := hstep (by have := List.mem_range.1 ha; omega)
    refine hmono _ _ ?_
    have : (a : ℝ) ≤ b := by exact_mod_cast hab.le
    nlinarith

/-- C80 (tracking problems): for `T ≥ 10` the generator yields the tracking problem of `LinearModel` with ten steps per data
point: `10 * (T // 10)` steps, convex, and the blocks of condensing are rigid exactly when no block has a single step; for
`T < 10` the data is empty and `IndexError` is raised. -/
theorem C80_tracking_item (rnd : ℕ → ℝ) (T : ℕ) :
    (T < 10 → trackItem rnd T = .error .indexError) ∧
    (10 ≤ T → ∃ (xy : List (Fin 2 → ℝ)) (lqt : LQT 4 2 ℝ) (x0 : Fin 4 → ℝ) (P : TFLQT 4 2 2 4 ℝ),
      linGenData rnd (T / 10) = .ok xy ∧ linGetLQT xy 10 = .ok (lqt.raw, x0) ∧ P.toLQT = lqt ∧
      trackItem rnd T = .ok ⟨4, 2, 2, 4, x0, P⟩ ∧ P.stages.length = 10 * (T / 10) ∧ P.Convex ∧
      ∀ N, 0 < N → ((∀ k, N * k < P.stages.length → Rigid ((P.toLQT.stages.drop (N * k)).take N)) ↔
        N ≠ 1 ∧ 10 * (T / 10) % N ≠ 1)) := by
  refine ⟨trackItem_small rnd T, fun hT => ?_⟩
  obtain ⟨pts, P, h1, h2, h3⟩ := trackItem_eq rnd T hT
  have hst : P.toLQT.stages = (List.range (10 * (T / 10))).map fun k =>
      trStage (1 / 10) (if k % 10 = 0 then 100 else 1e-6) (pts (k / 10)) := by
    rw [h3]
    simp only [linLQT, trackLQT]
    refine List.map_congr_left fun k _ => ?_
    unfold trStage
    split <;> simp
  have hlen : P.stages.length = 10 * (T / 10) := by
    have := congrArg List.length hst
    simpa [TFLQT.toLQT] using this
  have hall : ∀ s ∈ P.toLQT.stages, ∃ a r, 0 < a ∧ s = trStage (1 / 10) a r := by
    intro s hs
    rw [hst, List.mem_map] at hs
    obtain ⟨k, -, rfl⟩ := hs
    exact ⟨_, _, by split <;> norm_num, rfl⟩
  refine ⟨_, _, _, P, h1, linGetLQT_eq pts 10 (T / 10) (by norm_num) (by omega), h3, h2, hlen, ⟨?_, ?_⟩, ?_⟩
  · intro s hs
    obtain ⟨a, r, ha, he⟩ := hall s.toL (List.mem_map.2 ⟨s, hs, rfl⟩)
    simp only [TStage.toL, trStage, LStage.mk.injEq, heq_eq_eq, true_and, and_true] at he
    obtain ⟨-, -, e3, e4, -⟩ := he
    rw [e3, e4]
    exact ⟨isPSD_smul_one a ha.le, by simp, isPD_smul_one _ (by norm_num)⟩
  · have : P.XT = 1 := by
      have := h3
      simp only [TFLQT.toLQT, linLQT, trackLQT, LQT.mk.injEq, heq_eq_eq, true_and] at this
      exact this.2.1
    rw [this]
    simpa using isPSD_smul_one (K := ℝ) (ι := Fin 4) 1 zero_le_one
  · intro N hN
    rw [← blocks_two N (10 * (T / 10)) hN (by omega), hlen]
    refine forall_congr' fun k => forall_congr' fun hk => ?_
    have hbl : ((P.toLQT.stages.drop (N * k)).take N).length = min N (10 * (T / 10) - N * k) := by
      rw [List.length_take, List.length_drop, hst]
      simp
    rw [rigid_track (by norm_num) _ (fun s hs => hall s (List.mem_of_mem_drop (List.mem_of_mem_take hs))) (by
      intro h0
      rw [h0] at hbl
      simp only [List.length_nil] at hbl
      omega), hbl]

/-- C80 (mass problems): for `N` masses and `T` steps the generator yields the problem of `MassModel` with step `10 / T`: `T` steps,
`2 * N` states, convex, and the blocks of condensing are rigid. -/
theorem C80_mass_item (N T : ℕ) :
    (N = 0 → massItem N T = .error .indexError) ∧ (0 < N → T = 0 → massItem N T = .error .zeroDivisionError) ∧
    (0 < N → 0 < T → ∃ (mm : MassModel N ℝ) (lqt : LQT (2 * N) 2 ℝ) (P : TFLQT (2 * N) 2 (2 * N) (2 * N) ℝ),
      MassModel.init N = .ok mm ∧ mm.getLQT (10 / T) 10 = .ok (lqt.raw, mm.x0) ∧ P.toLQT = lqt ∧
      massItem N T = .ok ⟨2 * N, 2, 2 * N, 2 * N, mm.x0, P⟩ ∧ P.stages.length = T ∧ P.Convex ∧
      ∀ Nc, 0 < Nc → ∀ k, Nc * k < P.stages.length → Rigid ((P.toLQT.stages.drop (Nc * k)).take Nc)) := by
  refine ⟨?_, ?_, fun hN hT => ?_⟩
  · rintro rfl
    unfold massItem
    rw [massInit_zero]
    rfl
  · rintro hN rfl
    unfold massItem
    rw [massInit_eq N hN, py_ok_bind]
    rfl
  · obtain ⟨P, h1, h2⟩ := massItem_eq N T hN hT
    have hst : P.toLQT.stages = List.replicate T (massStage N (10 / T)) := by rw [h2]; rfl
    have hlen : P.stages.length = T := by
      have := congrArg List.length hst
      simpa [TFLQT.toLQT] using this
    have hT' : (T : ℝ) ≠ 0 := by exact_mod_cast hT.ne'
    have e2 : pyInt ((10 : ℝ) / (10 / T)) = T := by
      have : (10 : ℝ) / (10 / T) = T := by field_simp
      rw [this]
      unfold pyInt
      rw [if_pos (by positivity)]
      simp
    have h3 := getLQT_eq (⟨1, (1 / 10 : ℝ) • 1, 1, massFc N, massLc N, massX0 N⟩ : MassModel N ℝ) rfl rfl rfl rfl rfl (10 / T) 10
      (by positivity)
    rw [e2, Int.toNat_natCast] at h3
    have hgood : (massStage N (10 / T)).Plain ∧ (massStage N (10 / T)).Convex :=
      ⟨⟨rfl, rfl, rfl⟩, convex_of _ _ _ _ _ _ _ (by simpa using isPSD_smul_one (K := ℝ) (ι := Fin (2 * N)) 1 zero_le_one)
        (by simp) (isPD_smul_one _ (by norm_num))⟩
    refine ⟨_, _, P, massInit_eq N hN, h3, h2, h1, hlen, ⟨?_, ?_⟩, ?_⟩
    · intro s hs
      have hm : s.toL ∈ P.toLQT.stages := List.mem_map.2 ⟨s, hs, rfl⟩
      rw [hst] at hm
      have he : s.toL = massStage N (10 / T) := (List.mem_replicate.1 hm).2
      simp only [TStage.toL, massStage, LStage.mk.injEq, heq_eq_eq, true_and, and_true] at he
      obtain ⟨-, -, e3, e4, -⟩ := he
      rw [e3, e4]
      exact ⟨by simpa using isPSD_smul_one (K := ℝ) (ι := Fin (2 * N)) 1 zero_le_one, by simp, isPD_smul_one _ (by norm_num)⟩
    · have : P.XT = 1 := by
        have := h2
        simp only [TFLQT.toLQT, massLQT, LQT.mk.injEq, heq_eq_eq, true_and] at this
        exact this.2.1
      rw [this]
      simpa using isPSD_smul_one (K := ℝ) (ι := Fin (2 * N)) 1 zero_le_one
    · intro Nc hNc k hk
      rw [hst, List.drop_replicate, List.take_replicate]
      obtain ⟨j, hj⟩ : ∃ j, min Nc (T - Nc * k) = j + 1 := ⟨min Nc (T - Nc * k) - 1, by omega⟩
      rw [hj, List.replicate_succ]
      refine rigid_pd (fun t ht => ?_) ?_
      · have : t = massStage N (10 / T) := by
          rcases List.mem_cons.1 ht with rfl | ht
          · rfl
          · exact (List.mem_replicate.1 ht).2
        rw [this]
        exact hgood
      · have : (massStage N (10 / T)).Hᵀ * (massStage N (10 / T)).X * (massStage N (10 / T)).H =
            (1 : ℝ) • (1 : Matrix (Fin (2 * N)) (Fin (2 * N)) ℝ) := by
          have e : (1 : Matrix (Fin (2 * N)) (Fin (2 * N)) ℝ)ᵀ * (1 : Matrix (Fin (2 * N)) (Fin (2 * N)) ℝ) *
              (1 : Matrix (Fin (2 * N)) (Fin (2 * N)) ℝ) = (1 : ℝ) • (1 : Matrix (Fin (2 * N)) (Fin (2 * N)) ℝ) := by simp
          exact e
        rw [this]
        exact isPD_smul_one _ one_pos


theorem logspace_ge (start stop : ℝ) (num b : ℕ) (h1 : (b : ℝ) ≤ (10 : ℝ) ^ start) (h2 : start ≤ stop) :
    ∀ T ∈ logspaceInt start stop num, b ≤ T := fun T hT =>
  (Nat.le_floor h1).trans ((C80_logspace start stop num h2).2.1 T hT).1

/-- Lists of items from a list of parameters. -/
theorem items_of {α β : Type} (f : α → Py β) (g : α → β → Prop) (l : List α) (h : ∀ a ∈ l, ∃ b, f a = .ok b ∧ g a b) :
    ∃ items, l.map f = items.map Except.ok ∧ List.Forall₂ g l items := by
  induction l with
  | nil => exact ⟨[], rfl, .nil⟩
  | cons a l ih =>
    obtain ⟨items, h1, h2⟩ := ih fun a ha => h a (by simp [ha])
    obtain ⟨b, h3, h4⟩ := h a (by simp)
    exact ⟨b :: items, by simp [h1, h3], .cons h4 h2⟩

theorem forall₂_map_eq {α β γ : Type} {g : α → β → Prop} {f : α → γ} {f' : β → γ} (hg : ∀ a b, g a b → f' b = f a) :
    ∀ {l : List α} {l' : List β}, List.Forall₂ g l l' → l'.map f' = l.map f
  | _, _, .nil => rfl
  | _, _, .cons h1 h2 => by simp [hg _ _ h1, forall₂_map_eq hg h2]

theorem forall₂_forall {α β : Type} {g : α → β → Prop} {p : α → Prop} {p' : β → Prop} (hg : ∀ a b, g a b → (p' b ↔ p a)) :
    ∀ {l : List α} {l' : List β}, List.Forall₂ g l l' → ((∀ b ∈ l', p' b) ↔ ∀ a ∈ l, p a)
  | _, _, .nil => by simp
  | _, _, .cons h1 h2 => by
    simp only [List.forall_mem_cons, hg _ _ h1, forall₂_forall hg h2]

/-- C80 (tracking model): for `start ≥ 1` the speed tests of the tracking model complete and report `10 * (T // 10)` steps and four
states; those with condensing complete exactly when `Nc ≠ 1` and no length leaves remainder one, and otherwise they end with
`LinAlgError`. -/
theorem C80_tracking (rnd : ℕ → ℝ) (start stop : ℝ) (num n_iter Nc : ℕ) (h1 : 1 ≤ start) (h2 : start ≤ stop) (hn : 0 < n_iter)
    (hN : 0 < Nc) (scan : AScan) (hs : ∀ α, IsAssocScan (scan α)) :
    let gen := trackingGen rnd start stop num
    let res : Py (List ℕ × List ℕ) := .ok ((logspaceInt start stop num).map fun T => 10 * (T / 10), List.replicate num 4)
    let fits := ∀ T ∈ logspaceInt start stop num, Nc ≠ 1 ∧ 10 * (T / 10) % Nc ≠ 1
    (seqBwSpeed gen n_iter = res ∧ parBwSpeed scan gen n_iter = res ∧ seqBwFwSpeed gen n_iter = res ∧
      parBwFw1Speed scan gen n_iter = res ∧ parBwFw2Speed scan gen n_iter = res) ∧
    (fits → seqCondSpeed gen n_iter Nc = res ∧ parCond1Speed scan gen n_iter Nc = res ∧ parCond2Speed scan gen n_iter Nc = res) ∧
    (¬ fits → seqCondSpeed gen n_iter Nc = .error .linAlgError ∧ parCond1Speed scan gen n_iter Nc = .error .linAlgError ∧
      parCond2Speed scan gen n_iter Nc = .error .linAlgError) := by
  intro gen res fits
  have hge := logspace_ge start stop num 10 (by
    have : (10 : ℝ) ^ (1 : ℝ) ≤ 10 ^ start := Real.rpow_le_rpow_of_exponent_le (by norm_num) h1
    simpa using this) h2
  obtain ⟨items, e1, e2⟩ := items_of (trackItem rnd) (fun T it => it.n = 4 ∧ it.P.stages.length = 10 * (T / 10) ∧ it.P.Convex ∧
    it.P.stages ≠ [] ∧ ((∀ k, Nc * k < it.P.stages.length → Rigid ((it.P.toLQT.stages.drop (Nc * k)).take Nc)) ↔
      Nc ≠ 1 ∧ 10 * (T / 10) % Nc ≠ 1)) (logspaceInt start stop num) (by
    intro T hT
    obtain ⟨xy, lqt, x0, P, -, -, -, g1, g2, g3, g4⟩ := (C80_tracking_item rnd T).2 (hge T hT)
    refine ⟨_, g1, rfl, g2, g3, ?_, g4 Nc hN⟩
    intro h0
    have : P.stages = [] := h0
    rw [this] at g2
    have := hge T hT
    simp only [List.length_nil] at g2
    omega)
  have hgood : ∀ it ∈ items, it.P.Convex ∧ it.P.stages ≠ [] := by
    rw [forall₂_forall (p := fun _ => True) (fun a b h => iff_of_true ⟨h.2.2.1, h.2.2.2.1⟩ trivial) e2]
    simp
  have hres : (.ok (items.map fun it => it.P.stages.length, items.map fun it => it.n) : Py (List ℕ × List ℕ)) = res := by
    simp only [res]
    rw [forall₂_map_eq (f := fun T => 10 * (T / 10)) (fun a b h => h.2.1) e2, forall₂_map_eq (f := fun _ => 4) (fun a b h => h.1) e2,
      List.map_const', (C80_logspace start stop num h2).1]
  have hfit : (∀ it ∈ items, ∀ k, Nc * k < it.P.stages.length → Rigid ((it.P.toLQT.stages.drop (Nc * k)).take Nc)) ↔ fits :=
    forall₂_forall (fun a b h => h.2.2.2.2) e2
  have main := C80_speed items hgood scan hs n_iter Nc hn hN
  simp only [hres, hfit, ← e1] at main
  exact main

/-- C80 (tracking model, the values of the experiments): block lengths that share a factor with ten never leave remainder one;
block length three fails for hundred steps. -/
theorem C80_tracking_fits (Nc : ℕ) :
    (1 < Nc.gcd 10 → ∀ T, Nc ≠ 1 ∧ 10 * (T / 10) % Nc ≠ 1) ∧ ¬ (3 ≠ 1 ∧ 10 * (100 / 10) % 3 ≠ 1) := by
  refine ⟨fun h T => ⟨?_, fun h1 => ?_⟩, by norm_num⟩
  · rintro rfl
    simp at h
  · have hd : Nc.gcd 10 ∣ 10 * (T / 10) % Nc := by
      rw [Nat.dvd_mod_iff (Nat.gcd_dvd_left _ _)]
      exact (Nat.gcd_dvd_right _ _).mul_right _
    rw [h1, Nat.dvd_one] at hd
    omega

/-- What the speed tests of the mass model have in common. -/
theorem mass_speed {α : Type} (l : List α) (fN fT : α → ℕ) (h : ∀ a ∈ l, 0 < fN a ∧ 0 < fT a) (n_iter Nc : ℕ) (hn : 0 < n_iter)
    (hN : 0 < Nc) (scan : AScan) (hs : ∀ α, IsAssocScan (scan α)) :
    let gen := l.map fun a => massItem (fN a) (fT a)
    let res : Py (List ℕ × List ℕ) := .ok (l.map fT, l.map fun a => 2 * fN a)
    (seqBwSpeed gen n_iter = res ∧ parBwSpeed scan gen n_iter = res ∧ seqBwFwSpeed gen n_iter = res ∧
      parBwFw1Speed scan gen n_iter = res ∧ parBwFw2Speed scan gen n_iter = res) ∧
    (seqCondSpeed gen n_iter Nc = res ∧ parCond1Speed scan gen n_iter Nc = res ∧ parCond2Speed scan gen n_iter Nc = res) := by
  intro gen res
  obtain ⟨items, e1, e2⟩ := items_of (fun a => massItem (fN a) (fT a)) (fun a it => it.n = 2 * fN a ∧ it.P.stages.length = fT a ∧
    it.P.Convex ∧ it.P.stages ≠ [] ∧ ∀ k, Nc * k < it.P.stages.length → Rigid ((it.P.toLQT.stages.drop (Nc * k)).take Nc)) l (by
    intro a ha
    obtain ⟨mm, lqt, P, -, -, -, g1, g2, g3, g4⟩ := (C80_mass_item (fN a) (fT a)).2.2 (h a ha).1 (h a ha).2
    refine ⟨_, g1, rfl, g2, g3, ?_, g4 Nc hN⟩
    intro h0
    have h0 : P.stages = [] := h0
    rw [h0] at g2
    have := (h a ha).2
    simp only [List.length_nil] at g2
    omega)
  have hgood : ∀ it ∈ items, it.P.Convex ∧ it.P.stages ≠ [] := by
    rw [forall₂_forall (p := fun _ => True) (fun a b h => iff_of_true ⟨h.2.2.1, h.2.2.2.1⟩ trivial) e2]
    simp
  have hrig : ∀ it ∈ items, ∀ k, Nc * k < it.P.stages.length → Rigid ((it.P.toLQT.stages.drop (Nc * k)).take Nc) := by
    rw [forall₂_forall (p := fun _ => True) (fun a b h => iff_of_true h.2.2.2.2 trivial) e2]
    simp
  have hres : (.ok (items.map fun it => it.P.stages.length, items.map fun it => it.n) : Py (List ℕ × List ℕ)) = res := by
    simp only [res]
    rw [forall₂_map_eq (f := fT) (fun a b h => h.2.1) e2, forall₂_map_eq (f := fun a => 2 * fN a) (fun a b h => h.1) e2]
  have main := C80_speed items hgood scan hs n_iter Nc hn hN
  simp only [hres, ← e1] at main
  exact ⟨main.1, main.2.1 hrig⟩

/-- C80 (mass model): all speed tests complete, for every block length, and report the lengths and `2 * N` states. -/
theorem C80_mass (N : ℕ) (start stop : ℝ) (num n_iter Nc : ℕ) (hM : 0 < N) (h1 : 0 ≤ start) (h2 : start ≤ stop) (hn : 0 < n_iter)
    (hN : 0 < Nc) (scan : AScan) (hs : ∀ α, IsAssocScan (scan α)) :
    let gen := massGen N start stop num
    let res : Py (List ℕ × List ℕ) := .ok (logspaceInt start stop num, List.replicate num (2 * N))
    (seqBwSpeed gen n_iter = res ∧ parBwSpeed scan gen n_iter = res ∧ seqBwFwSpeed gen n_iter = res ∧
      parBwFw1Speed scan gen n_iter = res ∧ parBwFw2Speed scan gen n_iter = res) ∧
    (seqCondSpeed gen n_iter Nc = res ∧ parCond1Speed scan gen n_iter Nc = res ∧ parCond2Speed scan gen n_iter Nc = res) := by
  have hge := logspace_ge start stop num 1 (by
    have : (10 : ℝ) ^ (0 : ℝ) ≤ 10 ^ start := Real.rpow_le_rpow_of_exponent_le (by norm_num) h1
    simpa using this) h2
  have := mass_speed (logspaceInt start stop num) (fun _ => N) (fun T => T) (fun T hT => ⟨hM, hge T hT⟩) n_iter Nc hn hN scan hs
  simp only [List.map_const', (C80_logspace start stop num h2).1, List.map_id'] at this
  exact this

/-- C80 (mass model over the number of masses): all speed tests complete, for every block length, and report `T` steps and `2 * N` states
for `N = nstart, nstart + nstep, …` below `nend`. -/
theorem C80_mass_2 (T nstart nend nstep n_iter Nc : ℕ) (hT : 0 < T) (h1 : 0 < nstart) (h2 : 0 < nstep) (hn : 0 < n_iter)
    (hN : 0 < Nc) (scan : AScan) (hs : ∀ α, IsAssocScan (scan α)) :
    ∃ Ns : List ℕ, (∀ k N, Ns[k]? = some N ↔ N = nstart + k * nstep ∧ N < nend) ∧
    let gen := massGen2 T nstart nend nstep
    let res : Py (List ℕ × List ℕ) := .ok (List.replicate Ns.length T, Ns.map (2 * ·))
    (seqBwSpeed gen n_iter = res ∧ parBwSpeed scan gen n_iter = res ∧ seqBwFwSpeed gen n_iter = res ∧
      parBwFw1Speed scan gen n_iter = res ∧ parBwFw2Speed scan gen n_iter = res) ∧
    (seqCondSpeed gen n_iter Nc = res ∧ parCond1Speed scan gen n_iter Nc = res ∧ parCond2Speed scan gen n_iter Nc = res) := by
  refine ⟨(List.range ((nend - nstart + nstep - 1) / nstep)).map fun k => nstart + k * nstep, ?_, ?_⟩
  · intro k N
    rw [List.getElem?_map]
    have hk : k < (nend - nstart + nstep - 1) / nstep ↔ nstart + k * nstep < nend := by
      rw [Nat.lt_iff_add_one_le, Nat.le_div_iff_mul_le h2, Nat.add_mul]
      omega
    by_cases h : k < (nend - nstart + nstep - 1) / nstep
    · rw [List.getElem?_range h]
      simp only [Option.map_some, Option.some.injEq]
      constructor
      · rintro rfl
        exact ⟨rfl, hk.1 h⟩
      · exact fun h => h.1.symm
    · rw [List.getElem?_eq_none (by simpa using h)]
      simp only [Option.map_none, reduceCtorEq, false_iff, not_and, not_lt]
      rintro rfl
      exact not_lt.1 fun h' => h (hk.2 h')
  · have := mass_speed ((List.range ((nend - nstart + nstep - 1) / nstep)).map fun k => nstart + k * nstep) (fun N => N) (fun _ => T)
      (fun N hN => ⟨by simp only [List.mem_map] at hN; obtain ⟨k, -, rfl⟩ := hN; omega, hT⟩) n_iter Nc hn hN scan hs
    simp only [massGen2, npArange, if_neg h2.ne']
    simp only [List.map_const'] at this
    exact this

/-- C80 (errors): a first length below ten, no iterations, block length zero and a step zero of the range of masses raise. -/
theorem C80_errors (rnd : ℕ → ℝ) (start stop : ℝ) (num n_iter : ℕ) (hnum : 0 < num) (scan : AScan) (hs : ∀ α, IsAssocScan (scan α))
    (h2 : start ≤ stop) :
    (start < 1 → seqBwSpeed (trackingGen rnd start stop num) n_iter = .error .indexError) ∧
    (1 ≤ start → seqBwSpeed (trackingGen rnd start stop num) 0 = .error .zeroDivisionError ∧
      parBwSpeed scan (trackingGen rnd start stop num) 0 = .error .zeroDivisionError ∧
      seqCondSpeed (trackingGen rnd start stop num) n_iter 0 = .error .zeroDivisionError) ∧
    (∀ T nstart nend, seqBwSpeed (massGen2 T nstart nend 0) n_iter = .error .zeroDivisionError) := by
  have hcons : ∃ rest, trackingGen rnd start stop num = trackItem rnd ⌊(10 : ℝ) ^ start⌋₊ :: rest := by
    have h := (C80_logspace start stop num h2).2.2.1 hnum
    unfold trackingGen
    cases hl : logspaceInt start stop num with
    | nil => rw [hl] at h; simp at h
    | cons a l =>
      rw [hl] at h
      simp only [List.getElem?_cons_zero, Option.some.injEq] at h
      exact ⟨l.map (trackItem rnd), by rw [← h]; rfl⟩
  obtain ⟨rest, hrest⟩ := hcons
  refine ⟨fun h => ?_, fun h => ?_, fun T nstart nend => rfl⟩
  · have hlt : ⌊(10 : ℝ) ^ start⌋₊ < 10 := by
      rw [Nat.floor_lt (by positivity)]
      have : (10 : ℝ) ^ start < 10 ^ (1 : ℝ) := Real.rpow_lt_rpow_of_exponent_lt (by norm_num) h
      simpa using this
    rw [hrest, trackItem_small rnd _ hlt]
    rfl
  · have hge : 10 ≤ ⌊(10 : ℝ) ^ start⌋₊ := Nat.le_floor (by
      have : (10 : ℝ) ^ (1 : ℝ) ≤ 10 ^ start := Real.rpow_le_rpow_of_exponent_le (by norm_num) h
      simpa using this)
    obtain ⟨xy, lqt, x0, P, -, -, -, g1, g2, g3, g4⟩ := (C80_tracking_item rnd _).2 hge
    have hne : P.stages ≠ [] := by
      intro h0
      rw [h0] at g2
      simp only [List.length_nil] at g2
      omega
    obtain ⟨r, xs, us, J, k0, k1, k2, k3, k4, k5, -⟩ := C80_pipelines P g3 hne scan hs x0
    rw [hrest, g1]
    refine ⟨speedLoop_zero _ _ _ _ () ?_, speedLoop_zero _ _ _ _ () ?_, ?_⟩
    · change (do let _ ← P.spSeqBw; return () : Py Unit) = _
      rw [k1.1]
      rfl
    · change (do let _ ← P.spParBw scan; return () : Py Unit) = _
      rw [k1.2]
      rfl
    · refine speedLoop_first _ _ _ _ _ ?_
      change (do let _ ← P.spSeqCond 0 x0; return () : Py Unit) = _
      rw [k5.1]
      rfl

/-! ### Examples -/

/-- A problem with reference `s` for the control. -/
def exLossy : LQT 1 1 ℚ := ⟨[⟨1, 1, 1, 1, 1, 0, 1, 0, 1, fun _ => 1, 0⟩], 1, 1, 1, 0⟩

/-- C80 (loss): the conversion silently drops `s`, so that the tensors have another optimal control than the object. -/
theorem C80_lossy : ∃ P : TFLQT 1 1 1 1 ℚ, exLossy.raw.npToTf 1 1 1 1 = .ok P ∧
    (lqtReference ![0] exLossy).map (fun a => a.2.2.map fun u => u 0) = .ok [1 / 2] ∧
    (P.spSeqBwFw ![0]).map (fun a => a.2.map fun u => u 0) = .ok [0] := by
  refine ⟨⟨[⟨1, 0, 1, 1, 0, 1, 1⟩], 1, 0, 1⟩, (C80_convert _ _).1.2 rfl, ?_, ?_⟩ <;> decide +kernel

/-- The hypotheses of `C80_pipelines` are met by the three-step problem `exTFCP`, whose blocks of two steps are rigid. -/
example (x0 : Fin 2 → ℚ) : exTFCP.stages.length = 3 ∧ ∃ r xs us, lqtReference x0 exTFCP.toLQT = .ok (r, xs, us) ∧
    exTFCP.spParBwFw2 (fun _ op l => scanVals op l) x0 = .ok (xs, us) ∧
    exTFCP.spParCond2 (fun _ op l => scanVals op l) 2 x0 = .ok (xs, us) := by
  have hne : exTFCP.stages ≠ [] := by simp [exTFCP]
  obtain ⟨r, xs, us, J, h0, h1, h2, h3, -⟩ := C80_pipelines exTFCP exTFCP_convex hne (fun _ op l => scanVals op l)
    (fun _ => C17_scan_example) x0
  refine ⟨rfl, r, xs, us, h0, h2.2.2, (h3 2 (by norm_num) ?_).2.2⟩
  obtain ⟨us, xs, bs, r, -, -, hbs, -⟩ := exTFCP_solve x0
  rcases C70_completion exTFCP exTFCP_convex.toSym hne (N := 2) (by norm_num) with ⟨h, -⟩ | ⟨-, h⟩
  · exact h
  · rw [hbs] at h
    cases h

/-- The default arguments: twenty lengths from 100 to 100000 and blocks of four steps. -/
example (rnd : ℕ → ℝ) : ∃ Ts : List ℕ, Ts.length = 20 ∧ Ts[0]? = some 100 ∧ Ts[19]? = some 100000 ∧
    parCond2Speed (fun _ op l => scanVals op l) (trackingGen rnd 2 5 20) 10 4 = .ok (Ts.map fun T => 10 * (T / 10), List.replicate 20 4) ∧
    parCond2Speed (fun _ op l => scanVals op l) (massGen 3 2 5 20) 10 4 = .ok (Ts, List.replicate 20 6) ∧
    parCond2Speed (fun _ op l => scanVals op l) (trackingGen rnd 2 5 20) 10 3 = .error .linAlgError := by
  obtain ⟨h1, -, h3, h4, -⟩ := C80_logspace 2 5 20 (by norm_num)
  have e1 : ⌊(10 : ℝ) ^ (2 : ℝ)⌋₊ = 100 := by
    rw [show (10 : ℝ) ^ (2 : ℝ) = ((100 : ℕ) : ℝ) by norm_num, Nat.floor_natCast]
  have e2 : ⌊(10 : ℝ) ^ (5 : ℝ)⌋₊ = 100000 := by
    rw [show (10 : ℝ) ^ (5 : ℝ) = ((100000 : ℕ) : ℝ) by norm_num, Nat.floor_natCast]
  rw [e1] at h3
  rw [e2] at h4
  refine ⟨logspaceInt 2 5 20, h1, h3 (by norm_num), h4 (by norm_num), ?_, ?_, ?_⟩
  · exact ((C80_tracking rnd 2 5 20 10 4 (by norm_num) (by norm_num) (by norm_num) (by norm_num) _ fun _ => C17_scan_example).2.1
      fun T _ => (C80_tracking_fits 4).1 (by norm_num) T).2.2
  · exact (C80_mass 3 2 5 20 10 4 (by norm_num) (by norm_num) (by norm_num) (by norm_num) (by norm_num) _
      fun _ => C17_scan_example).2.2.2
  · refine ((C80_tracking rnd 2 5 20 10 3 (by norm_num) (by norm_num) (by norm_num) (by norm_num) _ fun _ => C17_scan_example).2.2
      fun h => ?_).2.2
    exact (C80_tracking_fits 3).2 (h 100 (List.mem_iff_getElem?.2 ⟨0, h3 (by norm_num)⟩))

/-- The hypotheses of `C80_mass_2` are met by one to three masses. -/
example : ∃ Ns : List ℕ, Ns[0]? = some 1 ∧ Ns[1]? = some 3 ∧ Ns[2]? = none ∧
    seqBwFwSpeed (massGen2 100 1 4 2) 10 = .ok (List.replicate Ns.length 100, Ns.map (2 * ·)) := by
  obtain ⟨Ns, h1, h2⟩ := C80_mass_2 100 1 4 2 10 4 (by norm_num) (by norm_num) (by norm_num) (by norm_num) (by norm_num) _
    fun _ => C17_scan_example
  refine ⟨Ns, (h1 0 1).2 (by norm_num), (h1 1 3).2 (by norm_num), ?_, h2.1.2.2.1⟩
  cases h : Ns[2]? with
  | none => rfl
  | some N =>
    have := (h1 2 N).1 h
    omega

end Verif
