import Verif.Proof.SpeedHJB
import Verif.Props.CNonlin
import Verif.Props.HJB
import Verif.Props.HJBUpwind
import Verif.Props.ShootingSQP
import Verif.Props.TFLevels

/-!
C84: the speed tests of the grid solvers.
-/

namespace Verif

variable {n m : ℕ}

/-- The reference of all tests: the upwind pass over `block_T * blocks`. -/
theorem CModel.spSeqUpwind_ok [NeZero m] (M : CModel (n + 2) m ℝ) (block_T : ℝ) (blocks steps : ℕ) (hb : blocks ≠ 0) (hs : steps ≠ 0)
    (hx : M.x_grid 1 ≠ M.x_grid 0) :
    ∃ Vs : List (Fin (n + 2) → ℝ), seqBwPassUpwindTF (M.spHJB block_T blocks steps) M.u_grid = .ok Vs ∧ Vs.length = blocks + 1 ∧
      Vs[blocks]? = some (fun i => M.LT (M.x_grid i)) ∧
      M.spSeqUpwind block_T blocks steps = .ok (Vs.map fun V i => (V i : WithBot ℝ)) := by
  have h1 := (fdPass_eq (M.spHJB block_T blocks steps) M.u_grid hb hs (sub_ne_zero.2 hx)).1
  have h2 : seqBwPassUpwindTF (M.spHJB block_T blocks steps) M.u_grid = _ := (C43_tf _ _).1.trans h1
  refine ⟨_, h2, by simp [CModel.spHJB], ?_, ?_⟩
  · rw [List.getElem?_map, List.getElem?_range (by simp [CModel.spHJB])]
    simp [CModel.spHJB]
  · unfold CModel.spSeqUpwind
    rw [h2]
    rfl

/-- C84 (model): the model of the tests is the velocity model, whose horizon is not used. -/
theorem C84_model (n m : ℕ) : (n ≠ 0 → m ≠ 0 → hjbGetModel n m = .ok (velocityModel n m)) ∧
    (n = 0 ∨ m = 0 → hjbGetModel n m = .error .valueError) ∧
    ∀ (M : CModel n m ℝ) (T' block_T : ℝ) (blocks steps : ℕ),
      ({ M with T := T' } : CModel n m ℝ).spHJB block_T blocks steps = M.spHJB block_T blocks steps :=
  ⟨fun h1 h2 => ((C77_models n m).1 h1 h2).2.1, fun h => ((C77_models n m).2 h).2.1, fun _ _ _ _ _ => rfl⟩

/-- C84 (upwind test): with at least one block, step and run and two different grid points the test reports zero errors. -/
theorem C84_upwind [NeZero m] (M : CModel (n + 2) m ℝ) (block_T : ℝ) (blocks steps n_iter : ℕ) (hb : blocks ≠ 0) (hs : steps ≠ 0)
    (hn : n_iter ≠ 0) (hx : M.x_grid 1 ≠ M.x_grid 0) : M.seqUpwindSpeed blocks steps block_T n_iter = .ok (0, 0) := by
  obtain ⟨Vs, h1, h2, -, h3⟩ := M.spSeqUpwind_ok block_T blocks steps hb hs hx
  have key : ∀ lo hi : ℕ, (∃ i : Fin (n + 2), lo ≤ (i : ℕ) ∧ (i : ℕ) < hi) →
      hjbMaxAbs lo hi (Vs.map fun V i => (V i : WithBot ℝ)) (Vs.map fun V i => (V i : WithBot ℝ)) = .ok 0 := by
    intro lo hi hr
    obtain ⟨e, he, hbot, hc⟩ := hjbMaxAbs_ok (rfl : (Vs.map fun V (i : Fin (n + 2)) => (V i : WithBot ℝ)).length = _)
      (by intro h; simp at h; simp [h] at h2) hr
    rw [he]
    match e, hbot, hc with
    | ⊥, hbot, _ =>
      obtain ⟨k, A, B, i, hA, hB, -, -, h⟩ := hbot.1 rfl
      rw [hA, Option.some.injEq] at hB
      subst hB
      rw [List.getElem?_map, Option.map_eq_some_iff] at hA
      obtain ⟨V, -, rfl⟩ := hA
      simp at h
    | some c, _, hc =>
      obtain ⟨-, k, A, B, i, hA, hB, -, -, h⟩ := hc c rfl
      rw [hA, Option.some.injEq] at hB
      subst hB
      rw [List.getElem?_map, Option.map_eq_some_iff] at hA
      obtain ⟨V, -, rfl⟩ := hA
      rw [← show _ = some c from h]
      show Except.ok (((|V i - V i| : ℝ) : WithBot ℝ)) = _
      rw [sub_self, abs_zero]
      rfl
  exact hjbSpeed_eq hn h3 h3 (key _ _ ⟨0, by simp⟩) (key _ _ (third_ne n))

/-- C84 (reported errors): if a run completes, both errors are `nan` exactly if a compared entry is `nan`, and otherwise the largest
difference from the upwind values over all grid points and over the middle third; the second is then at most the first. -/
theorem C84_errors [NeZero m] (M : CModel (n + 2) m ℝ) (block_T : ℝ) (blocks steps n_iter : ℕ) (hb : blocks ≠ 0) (hs : steps ≠ 0)
    (hn : n_iter ≠ 0) (hx : M.x_grid 1 ≠ M.x_grid 0) (run : Py (List (Fin (n + 2) → WithBot ℝ))) (Vs : List (Fin (n + 2) → WithBot ℝ))
    (h : run = .ok Vs) (hl : Vs.length = blocks + 1) :
    ∃ (e1 e2 : WithBot ℝ) (Vs0 : List (Fin (n + 2) → ℝ)), M.hjbSpeed block_T blocks steps n_iter run = .ok (e1, e2) ∧
      seqBwPassUpwindTF (M.spHJB block_T blocks steps) M.u_grid = .ok Vs0 ∧
      (e1 = ⊥ ↔ ∃ V ∈ Vs, ∃ i, V i = ⊥) ∧
      (e2 = ⊥ ↔ ∃ V ∈ Vs, ∃ i : Fin (n + 2), (n + 2) / 3 ≤ (i : ℕ) ∧ (i : ℕ) < 2 * (n + 2) / 3 ∧ V i = ⊥) ∧
      (∀ c : ℝ, e1 = c → (∀ (k : ℕ) V V0, Vs[k]? = some V → Vs0[k]? = some V0 → ∀ i, ∃ v : ℝ, V i = v ∧ |v - V0 i| ≤ c) ∧
        ∃ (k : ℕ) (V : Fin (n + 2) → WithBot ℝ) (V0 : Fin (n + 2) → ℝ) (i : Fin (n + 2)) (v : ℝ), Vs[k]? = some V ∧
          Vs0[k]? = some V0 ∧ V i = v ∧ c = |v - V0 i|) ∧
      (∀ c : ℝ, e2 = c → (∀ (k : ℕ) V V0, Vs[k]? = some V → Vs0[k]? = some V0 → ∀ i : Fin (n + 2), (n + 2) / 3 ≤ (i : ℕ) →
          (i : ℕ) < 2 * (n + 2) / 3 → ∃ v : ℝ, V i = v ∧ |v - V0 i| ≤ c) ∧
        ∃ (k : ℕ) (V : Fin (n + 2) → WithBot ℝ) (V0 : Fin (n + 2) → ℝ) (i : Fin (n + 2)) (v : ℝ), Vs[k]? = some V ∧
          Vs0[k]? = some V0 ∧ (n + 2) / 3 ≤ (i : ℕ) ∧ (i : ℕ) < 2 * (n + 2) / 3 ∧ V i = v ∧ c = |v - V0 i|) ∧
      ∀ c : ℝ, e1 = c → e2 ≤ e1 ∧ e2 ≠ ⊥ := by
  obtain ⟨Vs0, h1, h2, -, h3⟩ := M.spSeqUpwind_ok block_T blocks steps hb hs hx
  have hl0 : Vs.length = (Vs0.map fun V (i : Fin (n + 2)) => (V i : WithBot ℝ)).length := by rw [hl, List.length_map, h2]
  have hne : Vs ≠ [] := by rintro rfl; simp at hl
  obtain ⟨e1, he1, hb1, hc1⟩ := hjbMaxAbs_ok (lo := 0) (hi := n + 2) hl0 hne ⟨0, by simp⟩
  obtain ⟨e2, he2, hb2, hc2⟩ := hjbMaxAbs_ok hl0 hne (third_ne n)
  have hget : ∀ {k : ℕ} {B}, (Vs0.map fun V (i : Fin (n + 2)) => (V i : WithBot ℝ))[k]? = some B →
      ∃ V0, Vs0[k]? = some V0 ∧ B = fun i => (V0 i : WithBot ℝ) := by
    intro k B h
    rw [List.getElem?_map, Option.map_eq_some_iff] at h
    obtain ⟨V0, h, rfl⟩ := h
    exact ⟨V0, h, rfl⟩
  have hex : ∀ {k : ℕ} {A}, Vs[k]? = some A → ∃ V0, Vs0[k]? = some V0 ∧
      (Vs0.map fun V (i : Fin (n + 2)) => (V i : WithBot ℝ))[k]? = some fun i => (V0 i : WithBot ℝ) := by
    intro k A h
    obtain ⟨hk, -⟩ := List.getElem?_eq_some_iff.1 h
    have hk' : k < Vs0.length := by omega
    exact ⟨_, List.getElem?_eq_getElem hk', by rw [List.getElem?_map, List.getElem?_eq_getElem hk']; rfl⟩
  have hval : ∀ {a : WithBot ℝ} {b c : ℝ}, nanAbsDiff a (b : WithBot ℝ) = (c : WithBot ℝ) → ∃ v : ℝ, a = v ∧ c = |v - b| := by
    intro a b c h
    match a with
    | ⊥ => exact absurd h.symm (by simp [nanAbsDiff])
    | some v => exact ⟨v, rfl, (WithBot.coe_inj.1 h).symm⟩
  have hnan : ∀ lo hi : ℕ, (∃ (k : ℕ) (A B : Fin (n + 2) → WithBot ℝ) (i : Fin (n + 2)), Vs[k]? = some A ∧
      (Vs0.map fun V (i : Fin (n + 2)) => (V i : WithBot ℝ))[k]? = some B ∧ lo ≤ (i : ℕ) ∧ (i : ℕ) < hi ∧ (A i = ⊥ ∨ B i = ⊥)) ↔
      ∃ V ∈ Vs, ∃ i : Fin (n + 2), lo ≤ (i : ℕ) ∧ (i : ℕ) < hi ∧ V i = ⊥ := by
    intro lo hi
    constructor
    · rintro ⟨k, A, B, i, hA, hB, h5, h6, h7⟩
      obtain ⟨V0, -, rfl⟩ := hget hB
      exact ⟨A, List.mem_iff_getElem?.2 ⟨k, hA⟩, i, h5, h6, h7.resolve_right WithBot.coe_ne_bot⟩
    · rintro ⟨V, hV, i, h5, h6, h7⟩
      obtain ⟨k, hk⟩ := List.mem_iff_getElem?.1 hV
      obtain ⟨V0, -, hB⟩ := hex hk
      exact ⟨k, V, _, i, hk, hB, h5, h6, .inl h7⟩
  refine ⟨e1, e2, Vs0, hjbSpeed_eq hn h h3 he1 he2, h1, ?_, ?_, fun c hc => ⟨fun k V V0 hV hV0 i => ?_, ?_⟩,
    fun c hc => ⟨fun k V V0 hV hV0 i hi1 hi2 => ?_, ?_⟩, fun c hc => ?_⟩
  · rw [hb1, hnan]
    simp
  · rw [hb2, hnan]
  · obtain ⟨W0, hW, hB⟩ := hex hV
    obtain rfl : V0 = W0 := Option.some.inj (hV0.symm.trans hW)
    have hle := (hc1 c hc).1 k V _ hV hB i (Nat.zero_le _) i.2
    match hVi : V i with
    | ⊥ =>
      have : e1 = ⊥ := by
        rw [hb1, hnan]
        exact ⟨V, List.mem_iff_getElem?.2 ⟨k, hV⟩, i, Nat.zero_le _, i.2, hVi⟩
      rw [this] at hc
      exact absurd hc (by simp)
    | some v =>
      rw [hVi] at hle
      exact ⟨v, rfl, WithBot.coe_le_coe.1 hle⟩
  · obtain ⟨-, k, A, B, i, hA, hB, -, -, h⟩ := hc1 c hc
    obtain ⟨V0, hV0, rfl⟩ := hget hB
    obtain ⟨v, hv, hcv⟩ := hval h
    exact ⟨k, A, V0, i, v, hA, hV0, hv, hcv⟩
  · obtain ⟨W0, hW, hB⟩ := hex hV
    obtain rfl : V0 = W0 := Option.some.inj (hV0.symm.trans hW)
    have hle := (hc2 c hc).1 k V _ hV hB i hi1 hi2
    match hVi : V i with
    | ⊥ =>
      have : e2 = ⊥ := by
        rw [hb2, hnan]
        exact ⟨V, List.mem_iff_getElem?.2 ⟨k, hV⟩, i, hi1, hi2, hVi⟩
      rw [this] at hc
      exact absurd hc (by simp)
    | some v =>
      rw [hVi] at hle
      exact ⟨v, rfl, WithBot.coe_le_coe.1 hle⟩
  · obtain ⟨-, k, A, B, i, hA, hB, h5, h6, h⟩ := hc2 c hc
    obtain ⟨V0, hV0, rfl⟩ := hget hB
    obtain ⟨v, hv, hcv⟩ := hval h
    exact ⟨k, A, V0, i, v, hA, hV0, h5, h6, hv, hcv⟩
  · have h2ne : e2 ≠ ⊥ := by
      intro h
      rw [hb2, hnan] at h
      obtain ⟨V, hV, i, -, -, hi⟩ := h
      have : e1 = ⊥ := by
        rw [hb1, hnan]
        exact ⟨V, hV, i, Nat.zero_le _, i.2, hi⟩
      rw [this] at hc
      exact absurd hc (by simp)
    refine ⟨?_, h2ne⟩
    obtain ⟨c2, rfl⟩ := WithBot.ne_bot_iff_exists.1 h2ne
    obtain ⟨-, k, A, B, i, hA, hB, -, -, h⟩ := hc2 c2 rfl
    rw [← h, hc]
    exact (hc1 c hc).1 k A B hA hB i (Nat.zero_le _) i.2

/-- C84 (block methods): if the direct shooting completes, so does `seq_assoc`; `par_assoc` completes for at least two blocks and
raises for one. Both give `blocks + 1` value functions, of which the last is the terminal cost on the grid and the one before it is the
same for both. -/
theorem C84_assoc (M : CModel (n + 2) m ℝ) (block_T : ℝ) (blocks steps : ℕ) (scan : AScan) (hsc : ∀ α, IsAssocScan (scan α))
    (V : List (List ℝ)) (hV : directShootingBlockV M.f M.L block_T steps (List.ofFn M.x_grid) 10 = .ok V) :
    (∃ Vs, M.spSeqAssoc argmin1 block_T blocks steps = .ok Vs ∧ Vs.length = blocks + 1 ∧
      Vs[blocks]? = some (fun i => ((M.LT (M.x_grid i) : ℝ) : WithBot ℝ)) ∧
      (2 ≤ blocks → ∃ Vs', M.spParAssoc scan argmin1 block_T blocks steps = .ok Vs' ∧ Vs'.length = blocks + 1 ∧
        ∀ k, blocks ≤ k + 1 → Vs'[k]? = Vs[k]?)) ∧
    (blocks = 1 → M.spParAssoc scan argmin1 block_T blocks steps = .error .valueError) := by
  have hseq : M.spSeqAssoc argmin1 block_T blocks steps = .ok ((M.spHJB block_T blocks steps).seqBackwardPassAssoc (hjbBlockMat V)) := by
    unfold CModel.spSeqAssoc
    rw [hV, py_ok_bind, (C42_tf_passes (M.spHJB block_T blocks steps) (hjbBlockMat V) (hsc _)).1]
    rfl
  have hpar : M.spParAssoc scan argmin1 block_T blocks steps =
      parBwPassTFMp (scan _) argmin1 blocks (M.spHJB block_T blocks steps) (hjbBlockMat V) := by
    unfold CModel.spParAssoc
    rw [hV]
    rfl
  have hit := (C42_passes (M.spHJB block_T blocks steps) (hjbBlockMat V)).1
  refine ⟨⟨_, hseq, ?_, ?_, fun h2 => ?_⟩, fun h1 => ?_⟩
  · rw [hit]
    simp [CModel.spHJB]
  · rw [hit, List.getElem?_map, List.getElem?_range (by simp [CModel.spHJB])]
    simp [CModel.spHJB, HJB.VT]
  · obtain ⟨r, hr, hl, hk⟩ := (C42_tf_passes (M.spHJB block_T blocks steps) (hjbBlockMat V) (hsc _)).2
    refine ⟨r, ?_, hl, fun k hkb => ?_⟩
    · rw [hpar, (C54_hjb (scan _) argmin1 blocks (M.spHJB block_T blocks steps) (hjbBlockMat V)).1 h2 le_rfl, hr]
    · rcases Nat.lt_or_ge blocks k with hlt | hle
      · rw [List.getElem?_eq_none (by rw [hl]; exact hlt), hit, List.getElem?_eq_none (by simpa [CModel.spHJB] using hlt)]
      · obtain ⟨W, hW, hrk⟩ := hk k hle
        rw [hrk, hit, List.getElem?_map,
          List.getElem?_range (show k < (M.spHJB block_T blocks steps).blocks + 1 from Nat.lt_succ_of_le hle)]
        have hcase : (M.spHJB block_T blocks steps).blocks - k = 0 ∨ (M.spHJB block_T blocks steps).blocks - k = 1 := by
          show blocks - k = 0 ∨ blocks - k = 1
          omega
        have e : W = (combineVInterp (hjbBlockMat V))^[(M.spHJB block_T blocks steps).blocks - k] (M.spHJB block_T blocks steps).VT := by
          rcases hcase with h0 | h0
          · rw [h0] at hW ⊢
            exact paren_one hW rfl
          · rw [h0] at hW ⊢
            exact (Except.ok.inj (paren_two hW rfl)).symm
        rw [e]
        rfl
  · subst h1
    rw [hpar]
    exact (C54_hjb (scan _) argmin1 1 (M.spHJB block_T 1 steps) (hjbBlockMat V)).2 rfl

/-- C84 (affine dynamics): for the dynamics `α x + β u + γ`, `β ≠ 0`, with quadratic running cost the direct shooting completes, and the
entry `(i, j)` of the block matrix is the smallest cost of a control of the second parametrisation from `x_grid[i]` to
`x_grid[j]`. -/
theorem C84_affine (M : CModel (n + 2) m ℝ) (al be ga X U block_T : ℝ) (hf : ∀ x u, M.f x u = al * x + be * u + ga)
    (hL : ∀ x u, M.L x u = 1 / 2 * X * x ^ 2 + 1 / 2 * U * u ^ 2) (hX : 0 ≤ X) (hU : 0 < U) (hbe : be ≠ 0) (hT : 0 < block_T) (steps : ℕ)
    (hs : steps ≠ 0) :
    ∃ V, directShootingBlockV M.f M.L block_T steps (List.ofFn M.x_grid) 10 = .ok V ∧
      ∀ i j : Fin (n + 2), ∃ v : ℝ, hjbBlockMat V i j = (v : WithBot ℝ) ∧ IsLeast {c | ∃ th : List ℝ, th.length = steps + 1 ∧
        funAndCon2 M.f M.L block_T (M.x_grid i) (M.x_grid j) th = .ok (c, 0)} v := by
  have key : ∀ x0 xf, ∃ v, vEvalOne2 M.f M.L block_T steps 10 x0 xf = .ok v ∧ IsLeast {c | ∃ th : List ℝ, th.length = steps + 1 ∧
        funAndCon2 M.f M.L block_T x0 xf th = .ok (c, 0)} v := by
    intro x0 xf
    obtain ⟨v, th, h1, h2, h3, h4⟩ := C76_exact2 M.f M.L al be ga X U block_T hf hL hX hU hbe hT steps hs x0 xf
    refine ⟨v, h1 10 (by norm_num), ⟨th, h2, h3⟩, ?_⟩
    rintro c ⟨th', h5, h6⟩
    exact (h4 th' c h5 h6).1
  choose v hv hleast using key
  refine ⟨(List.ofFn M.x_grid).map fun x0 => (List.ofFn M.x_grid).map fun xf => v x0 xf, ?_, fun i j => ⟨v (M.x_grid i) (M.x_grid j), ?_,
    hleast _ _⟩⟩
  · refine (C76_tf M.f M.L block_T steps 10 (by norm_num) (List.ofFn M.x_grid) [] _).2.2.2 ?_
    unfold vEval2
    rw [gridEval_eq]
    simp only [List.map_map]
    refine List.map_congr_left fun x0 _ => ?_
    rw [Function.comp_apply, List.map_map]
    refine List.map_congr_left fun xf _ => ?_
    exact hv x0 xf
  · unfold hjbBlockMat
    rw [List.getElem?_map, List.getElem?_ofFn]
    simp only [i.2, dif_pos, Option.map_some, Option.bind_some]
    rw [List.getElem?_map, List.getElem?_ofFn]
    simp only [j.2, dif_pos, Option.map_some]

/-- C84 (tests of the associative solvers): with two or more blocks both tests complete, with one block the parallel one raises
`ValueError` while the sequential one completes; without runs no result is returned. -/
theorem C84_assoc_tests [NeZero m] (M : CModel (n + 2) m ℝ) (block_T : ℝ) (blocks steps n_iter : ℕ) (scan : AScan)
    (hsc : ∀ α, IsAssocScan (scan α)) (V : List (List ℝ))
    (hV : directShootingBlockV M.f M.L block_T steps (List.ofFn M.x_grid) 10 = .ok V) (hb : blocks ≠ 0) (hs : steps ≠ 0)
    (hx : M.x_grid 1 ≠ M.x_grid 0) :
    (n_iter ≠ 0 → ∃ e, M.seqAssocSpeed argmin1 blocks steps block_T n_iter = .ok e) ∧
    (n_iter ≠ 0 → 2 ≤ blocks → ∃ e, M.parAssocSpeed scan argmin1 blocks steps block_T n_iter = .ok e) ∧
    (blocks = 1 → M.parAssocSpeed scan argmin1 blocks steps block_T n_iter = .error .valueError) ∧
    (n_iter = 0 → M.seqAssocSpeed argmin1 blocks steps block_T n_iter = .error .zeroDivisionError ∧
      (2 ≤ blocks → M.parAssocSpeed scan argmin1 blocks steps block_T n_iter = .error .zeroDivisionError)) := by
  obtain ⟨⟨Vs, h1, h2, -, h3⟩, h4⟩ := C84_assoc M block_T blocks steps scan hsc V hV
  refine ⟨fun hn => ?_, fun hn h => ?_, fun h => hjbSpeed_error (h4 h), ?_⟩
  · obtain ⟨e1, e2, -, h, -⟩ := C84_errors M block_T blocks steps n_iter hb hs hn hx _ Vs h1 h2
    exact ⟨_, h⟩
  · obtain ⟨Vs', h5, h6, -⟩ := h3 h
    obtain ⟨e1, e2, -, h, -⟩ := C84_errors M block_T blocks steps n_iter hb hs hn hx _ Vs' h5 h6
    exact ⟨_, h⟩
  · rintro rfl
    refine ⟨hjbSpeed_zero h1, fun h => ?_⟩
    obtain ⟨Vs', h5, -⟩ := h3 h
    exact hjbSpeed_zero h5

/-- C84 (velocity model): the upwind test of the model of the experiments reports zero errors; the number of runs must be
positive. -/
theorem C84_velocity (n m blocks steps n_iter : ℕ) (block_T : ℝ) (hb : blocks ≠ 0) (hs : steps ≠ 0) :
    ∃ M : CModel (n + 2) (m + 1) ℝ, hjbGetModel (n + 2) (m + 1) = .ok M ∧ M.x_grid 0 = -3 ∧ M.x_grid (Fin.last (n + 1)) = 3 ∧
      (n_iter ≠ 0 → M.seqUpwindSpeed blocks steps block_T n_iter = .ok (0, 0)) ∧
      (n_iter = 0 → M.seqUpwindSpeed blocks steps block_T n_iter = .error .zeroDivisionError) := by
  obtain ⟨h0, h1, dx, hdx, h2⟩ := C77_grid (-3 : ℝ) 3 (by norm_num) n
  have hx : (velocityModel (n + 2) (m + 1) : CModel _ _ ℝ).x_grid 1 ≠ (velocityModel (n + 2) (m + 1) : CModel _ _ ℝ).x_grid 0 := by
    have := h2 0 1 (by simp)
    intro h
    have h' : linspace (-3 : ℝ) 3 (n + 2) 1 = linspace (-3 : ℝ) 3 (n + 2) 0 := h
    linarith
  refine ⟨_, (C84_model _ _).1 (by omega) (by omega), h0, h1, fun hn => C84_upwind _ _ _ _ _ hb hs hn hx, ?_⟩
  rintro rfl
  obtain ⟨Vs, -, -, -, h3⟩ := (velocityModel (n + 2) (m + 1) : CModel _ _ ℝ).spSeqUpwind_ok block_T blocks steps hb hs hx
  exact hjbSpeed_zero h3

/-- C84 (more blocks): `block_T` is the length of one block: a further block adds one value function in front and leaves the others
as they are. -/
theorem C84_blocks [NeZero m] (M : CModel (n + 2) m ℝ) (block_T : ℝ) (blocks steps : ℕ) (hb : blocks ≠ 0) (hs : steps ≠ 0)
    (hx : M.x_grid 1 ≠ M.x_grid 0) :
    ∃ V Vs, M.spSeqUpwind block_T blocks steps = .ok Vs ∧ M.spSeqUpwind block_T (blocks + 1) steps = .ok (V :: Vs) := by
  have key : ∀ b : ℕ, b ≠ 0 → M.spSeqUpwind block_T b steps = .ok (((List.range (b + 1)).map fun k =>
      (upwindStep M.f M.L M.x_grid M.u_grid (M.x_grid 1 - M.x_grid 0) (block_T / steps))^[(b - k) * steps]
        fun i => M.LT (M.x_grid i)).map fun V i => (V i : WithBot ℝ)) := by
    intro b hb
    have h1 := (fdPass_eq (M.spHJB block_T b steps) M.u_grid hb hs (sub_ne_zero.2 hx)).1
    have h2 : seqBwPassUpwindTF (M.spHJB block_T b steps) M.u_grid = _ := (C43_tf _ _).1.trans h1
    unfold CModel.spSeqUpwind
    rw [h2]
    have hb' : (b : ℝ) ≠ 0 := by exact_mod_cast hb
    have e : (M.spHJB block_T b steps).T / (M.spHJB block_T b steps).blocks / (M.spHJB block_T b steps).steps = block_T / steps := by
      simp only [CModel.spHJB]
      rw [mul_div_cancel_right₀ _ hb']
    rw [e]
    rfl
  refine ⟨fun i => (((upwindStep M.f M.L M.x_grid M.u_grid (M.x_grid 1 - M.x_grid 0) (block_T / steps))^[(blocks + 1) * steps]
    fun i => M.LT (M.x_grid i)) i : WithBot ℝ), _, key blocks hb, ?_⟩
  rw [key (blocks + 1) (by omega), List.range_succ_eq_map (n := blocks + 1)]
  simp only [List.map_cons, List.map_map]
  congr 2
  refine List.map_congr_left fun k _ => ?_
  simp

/-! ### Examples -/

/-- The hypotheses of `C84_affine`, and through it those of `C84_assoc`, `C84_assoc_tests` and `C84_errors`, are met by the linear model on
20 points: the sequential test and the parallel test with 100 blocks complete, the parallel one raises for a single block. -/
example : (∃ e, (linearModel 20 20 : CModel 20 20 ℝ).seqAssocSpeed (n := 18) argmin1 100 10 0.1 10 = .ok e) ∧
    (∃ e, (linearModel 20 20 : CModel 20 20 ℝ).parAssocSpeed (n := 18) (fun _ op l => scanVals op l) argmin1 100 10 0.1 10 = .ok e) ∧
    (linearModel 20 20 : CModel 20 20 ℝ).parAssocSpeed (n := 18) (fun _ op l => scanVals op l) argmin1 1 10 0.1 10 = .error .valueError := by
  obtain ⟨V, hV, -⟩ := C84_affine (n := 18) (linearModel 20 20 : CModel 20 20 ℝ) 1 1 0 1 1 0.1 (fun x u => by simp [linearModel])
    (fun x u => by simp [linearModel]) (by norm_num) (by norm_num) (by norm_num) (by norm_num) 10 (by norm_num)
  have hx : (linearModel 20 20 : CModel 20 20 ℝ).x_grid 1 ≠ (linearModel 20 20 : CModel 20 20 ℝ).x_grid 0 := by
    simp [linearModel, linspace]
  have h := fun b : ℕ => C84_assoc_tests (n := 18) (linearModel 20 20 : CModel 20 20 ℝ) 0.1 b 10 10 (fun _ op l => scanVals op l)
      (fun _ => C17_scan_example) V hV
  exact ⟨(h 100 (by norm_num) (by norm_num) hx).1 (by norm_num), (h 100 (by norm_num) (by norm_num) hx).2.1 (by norm_num) (by norm_num),
    (h 1 (by norm_num) (by norm_num) hx).2.2.1 rfl⟩

/-- The default arguments of `C84_velocity`. -/
example : ∃ M : CModel 20 20 ℝ, hjbGetModel 20 20 = .ok M ∧ M.seqUpwindSpeed (n := 18) 100 10 0.1 10 = .ok (0, 0) := by
  obtain ⟨M, h1, -, -, h2, -⟩ := C84_velocity 18 19 100 10 10 0.1 (by norm_num) (by norm_num)
  exact ⟨M, h1, h2 (by norm_num)⟩

example : ∃ V Vs, (linearModel 20 20 : CModel 20 20 ℝ).spSeqUpwind (n := 18) 0.1 100 10 = .ok Vs ∧
    (linearModel 20 20 : CModel 20 20 ℝ).spSeqUpwind (n := 18) 0.1 101 10 = .ok (V :: Vs) :=
  C84_blocks (n := 18) (linearModel 20 20 : CModel 20 20 ℝ) 0.1 100 10 (by norm_num) (by norm_num) (by simp [linearModel, linspace])

end Verif
