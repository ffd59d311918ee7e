import Verif.Proof.Condensing
import Verif.Props.LQT

/-! Partial condensing of a whole problem. -/

namespace Verif

open Matrix

variable {n m p N : ℕ} {K : Type} [Field K]

/-! ### One block -/

section Ordered
variable [LinearOrder K] [IsStrictOrderedRing K]

theorem solvePosV_ok {A : Matrix (Fin n) (Fin n) K} {b x : Fin n → K} (hA : Aᵀ = A) :
    solvePosV A b = .ok x ↔ IsPD A ∧ A *ᵥ x = b := by
  unfold solvePosV
  rw [bind_ok]
  constructor
  · rintro ⟨f, h1, h2⟩
    obtain ⟨h3, rfl⟩ := (choFactor_ok hA).1 h1
    simp only [pure, Except.pure, Except.ok.injEq] at h2
    subst h2
    refine ⟨h3, ?_⟩
    rw [choSolveV, mulVec_mulVec, mul_minv h3.det_ne_zero, one_mulVec]
  · rintro ⟨h1, h2⟩
    refine ⟨_, (choFactor_ok hA).2 ⟨h1, rfl⟩, ?_⟩
    simp only [pure, Except.pure, Except.ok.injEq]
    rw [choSolveV, ← h2, mulVec_mulVec, minv_mul h1.det_ne_zero, one_mulVec]

theorem isPD_submatrix {ι κ : Type} [Fintype ι] [Fintype κ] (e : κ ≃ ι) {A : Matrix ι ι K} :
    IsPD (A.submatrix e e) ↔ IsPD A := by
  have key : ∀ y : ι → K, (y ∘ e) ⬝ᵥ A.submatrix e e *ᵥ (y ∘ e) = y ⬝ᵥ A *ᵥ y := by
    intro y
    rw [submatrix_mulVec_equiv, comp_equiv_dotProduct_comp_equiv]
    congr 2
    funext i; simp
  constructor
  · intro h y hy
    rw [← key]
    refine h _ fun h0 => hy ?_
    funext i
    have := congrFun h0 (e.symm i)
    simpa using this
  · intro h y hy
    have h1 := key (y ∘ e.symm)
    have h2 : (y ∘ ⇑e.symm) ∘ ⇑e = y := by funext i; simp
    rw [h2] at h1
    rw [h1]
    refine h _ fun h0 => hy ?_
    funext i
    have := congrFun h0 (e i)
    simpa using this

theorem condBlock_ok {b : Fin N → BStage p n m K} (hs : ∀ i, (b i).Xᵀ = (b i).X ∧ (b i).Uᵀ = (b i).U)
    {cb : CBlock N n m K} : condBlock b = .ok cb ↔ IsPD (condQ b) ∧ ∃ rs,
      condQ b *ᵥ rs = ((condTrans b)ᵀ * condXU b) *ᵥ condW b ∧
      cb = ⟨condStage b rs, condLambda b, condCbar b, condLbar b⟩ := by
  have hsub : ((condQ b).submatrix finSumFinEquiv.symm finSumFinEquiv.symm)ᵀ =
      (condQ b).submatrix finSumFinEquiv.symm finSumFinEquiv.symm := by
    rw [transpose_submatrix, condQ_symm hs]
  have e : condBlock b = (do
      let rsstar ← solvePosV ((condQ b).submatrix finSumFinEquiv.symm finSumFinEquiv.symm)
        ((((condTrans b)ᵀ * condXU b) *ᵥ condW b) ∘ finSumFinEquiv.symm)
      return ⟨condStage b (rsstar ∘ finSumFinEquiv), condLambda b, condCbar b, condLbar b⟩) := rfl
  rw [e, bind_ok]
  have h2 : ∀ v : Fin n ⊕ Fin (N * m) → K, (v ∘ ⇑finSumFinEquiv.symm) ∘ ⇑finSumFinEquiv = v := by
    intro v; funext i; simp
  have h3 : ∀ v : Fin (n + N * m) → K, (v ∘ ⇑finSumFinEquiv) ∘ ⇑finSumFinEquiv.symm = v := by
    intro v; funext i; simp
  constructor
  · rintro ⟨r, hr, h⟩
    obtain ⟨h1, hr⟩ := (solvePosV_ok hsub).1 hr
    refine ⟨(isPD_submatrix _).1 h1, r ∘ finSumFinEquiv, ?_, ?_⟩
    · rw [submatrix_mulVec_equiv] at hr
      have := congrArg (· ∘ ⇑finSumFinEquiv) hr
      simp only [h2] at this
      exact this
    · simp only [pure, Except.pure, Except.ok.injEq] at h
      exact h.symm
  · rintro ⟨h1, rs, hr, rfl⟩
    refine ⟨rs ∘ finSumFinEquiv.symm, (solvePosV_ok hsub).2 ⟨(isPD_submatrix _).2 h1, ?_⟩, ?_⟩
    · rw [submatrix_mulVec_equiv, Equiv.symm_symm, h2, hr]
    · rw [h2]; rfl

theorem condBlock_total {b : Fin N → BStage p n m K} (hs : ∀ i, (b i).Xᵀ = (b i).X ∧ (b i).Uᵀ = (b i).U) :
    (∃ cb, condBlock b = .ok cb) ↔ IsPD (condQ b) := by
  constructor
  · rintro ⟨cb, h⟩
    exact ((condBlock_ok hs).1 h).1
  · intro h
    refine ⟨_, (condBlock_ok hs).2 ⟨h, minv (condQ b) *ᵥ (((condTrans b)ᵀ * condXU b) *ᵥ condW b), ?_, rfl⟩⟩
    rw [mulVec_mulVec, mul_minv h.det_ne_zero, one_mulVec]

theorem condBlock_err {b : Fin N → BStage p n m K} (hs : ∀ i, (b i).Xᵀ = (b i).X ∧ (b i).Uᵀ = (b i).U) :
    condBlock b = .error .linAlgError ↔ ¬ IsPD (condQ b) := by
  rw [← condBlock_total hs]
  constructor
  · rintro h ⟨cb, h'⟩
    rw [h] at h'
    cases h'
  · intro h
    have e : ∀ (A : Matrix (Fin (n + N * m)) (Fin (n + N * m)) K) c (f : _ → CBlock N n m K),
        (∃ cb, (do let r ← solvePosV A c; return f r : Py (CBlock N n m K)) = .ok cb) ∨
        (do let r ← solvePosV A c; return f r : Py (CBlock N n m K)) = .error .linAlgError := by
      intro A c f
      unfold solvePosV choFactor
      split
      · exact Or.inl ⟨_, rfl⟩
      · exact Or.inr rfl
    exact (e _ _ _).resolve_left h

theorem condStage_condOk {b : Fin N → BStage p n m K} (hs : ∀ i, (b i).Xᵀ = (b i).X ∧ (b i).Uᵀ = (b i).U)
    (hp : ∀ i, (b i).Plain) {rs : Fin n ⊕ Fin (N * m) → K}
    (hrs : condQ b *ᵥ rs = ((condTrans b)ᵀ * condXU b) *ᵥ condW b) :
    CondOk b ⟨condStage b rs, condLambda b, condCbar b, condLbar b⟩ (condConst b rs) := by
  refine ⟨?_, ?_, ?_⟩
  · intro x u
    conv_lhs => rw [← flat_unflat u]
    exact blkRun_next x (unflat u) rs
  · intro x u
    rw [block_cost hs hp hrs, flat_unflat]
  · intro x u i
    conv_lhs => rw [← flat_unflat u]
    exact condX_states x (unflat u) i

theorem condBlock_spec {b : Fin N → BStage p n m K} (hs : ∀ i, (b i).Xᵀ = (b i).X ∧ (b i).Uᵀ = (b i).U)
    (hp : ∀ i, (b i).Plain) {cb : CBlock N n m K} (h : condBlock b = .ok cb) :
    (∃ κ, CondOk b cb κ) ∧ cb.stage.Convex := by
  obtain ⟨hQ, rs, hrs, rfl⟩ := (condBlock_ok hs).1 h
  refine ⟨⟨condConst b rs, condStage_condOk hs hp hrs⟩, ?_⟩
  · have hblk : ∀ (y : Fin n → K) (z : Fin (N * m) → K), Sum.elim y z ⬝ᵥ condQ b *ᵥ Sum.elim y z =
        y ⬝ᵥ (condQ b).toBlocks₁₁ *ᵥ y + 2 * (y ⬝ᵥ (condQ b).toBlocks₁₂ *ᵥ z) + z ⬝ᵥ (condQ b).toBlocks₂₂ *ᵥ z := by
      intro y z
      have h3 : (condQ b).toBlocks₂₁ = (condQ b).toBlocks₁₂ᵀ := by
        have := condQ_symm hs
        funext i j
        exact congrFun (congrFun this (.inr i)) (.inl j) ▸ rfl
      conv_lhs => rw [← fromBlocks_toBlocks (condQ b), fromBlocks_mulVec]
      simp only [Sum.elim_comp_inl, Sum.elim_comp_inr]
      rw [sumElim_dotProduct_sumElim, h3, dotProduct_add, dotProduct_add, ← dot_symm (condQ b).toBlocks₁₂ y z]
      ring
    have hsymm := condQ_symm hs
    refine ⟨⟨?_, ?_⟩, ?_, ?_, ?_⟩
    · funext i j
      exact congrFun (congrFun hsymm (.inl i)) (.inl j)
    · funext i j
      exact congrFun (congrFun hsymm (.inr i)) (.inr j)
    · show (1 : Matrix (Fin (N * m)) (Fin (N * m)) K).det ≠ 0
      simp
    · intro z hz
      have h1 := hblk 0 z
      have h2 := hQ (Sum.elim 0 z) (fun h0 => hz (funext fun i => congrFun h0 (.inr i)))
      rw [h1] at h2
      simpa [condStage] using h2
    · have key : ∀ (y : Fin n → K) (z : Fin (N * m) → K),
          0 ≤ y ⬝ᵥ (condQ b).toBlocks₁₁ *ᵥ y + 2 * (y ⬝ᵥ (condQ b).toBlocks₁₂ *ᵥ z) + z ⬝ᵥ (condQ b).toBlocks₂₂ *ᵥ z := by
        intro y z
        rw [← hblk]
        exact hQ.nonneg _
      exact key

end Ordered

/-! ### Cutting into blocks -/

theorem range_flatMap {α : Type} (f : ℕ → α) (N : ℕ) : ∀ t : ℕ,
    (List.range t).flatMap (fun k => List.ofFn fun i : Fin N => f (N * k + i)) = (List.range (N * t)).map f := by
  intro t
  induction t with
  | zero => simp
  | succ t ih =>
    rw [List.range_succ, List.flatMap_append, ih, Nat.mul_succ, List.range_add, List.map_append]
    simp only [List.flatMap_cons, List.flatMap_nil, List.append_nil, List.map_map]
    congr 1
    rw [List.ofFn_eq_map, ← List.map_coe_finRange_eq_range, List.map_map]
    rfl

theorem split_surj : ∀ (t : ℕ) (l : List (Fin m → K)), l.length = N * t →
    ∃ us : List (Fin (N * m) → K), us.length = t ∧ splitControls N us = l
  | 0, l, h => ⟨[], rfl, by
      obtain rfl := List.length_eq_zero_iff.1 (by simpa using h)
      rfl⟩
  | t + 1, l, h => by
    have hl : (l.drop N).length = N * t := by rw [List.length_drop, h, Nat.mul_succ]; omega
    obtain ⟨us, h1, h2⟩ := split_surj t (l.drop N) hl
    have hN : N ≤ l.length := by rw [h, Nat.mul_succ]; omega
    refine ⟨flatU (fun i : Fin N => l[i.1]'(by omega)) :: us, by simp [h1], ?_⟩
    have e : splitControls N (flatU (fun i : Fin N => l[i.1]'(by omega)) :: us) =
        List.ofFn (unflat (flatU (fun i : Fin N => l[i.1]'(by omega)))) ++ splitControls N us := rfl
    rw [e, unflat_flat, h2]
    conv_rhs => rw [← List.take_append_drop N l]
    congr 1
    apply List.ext_getElem
    · simp [hN]
    · intro i h1 h2
      simp

theorem split_length (us : List (Fin (N * m) → K)) : (splitControls N us).length = N * us.length := by
  induction us with
  | nil => simp [splitControls]
  | cons u us ih =>
    have e : splitControls N (u :: us) = List.ofFn (unflat u) ++ splitControls N us := rfl
    rw [e, List.length_append, ih]
    simp [Nat.mul_add, Nat.add_comm]

theorem split_inj : ∀ {us us' : List (Fin (N * m) → K)}, us.length = us'.length →
    splitControls N us = splitControls N us' → us = us'
  | [], [], _, _ => rfl
  | u :: us, u' :: us', hl, h => by
    have e : ∀ (u : Fin (N * m) → K) us, splitControls N (u :: us) = List.ofFn (unflat u) ++ splitControls N us := fun _ _ => rfl
    rw [e, e] at h
    obtain ⟨h1, h2⟩ := List.append_inj h (by simp)
    rw [split_inj (by simpa using hl) h2, ← flat_unflat u, List.ofFn_injective h1, flat_unflat]

/-! ### Padding -/

theorem pad_total [CharZero K] (g : (Fin n → K) → K) (q : ℕ) : ∀ (k : ℕ) (x : Fin n → K) (ws : List (Fin m → K)), ws.length = k →
    lqtTotal g (List.replicate k (padStage q)) x ws = g x + (ws.map fun w => (1 / 2) * (w ⬝ᵥ w)).sum ∧
    lqtRun (List.replicate k (padStage q)) x ws = List.replicate k x
  | 0, x, [], _ => by simp [lqtTotal, lqtRun]
  | k + 1, x, w :: ws, h => by
    have hn : (padStage q : LStage n m K).next x w = x := by
      have : (padStage q : LStage n m K).next x w = (1 : Matrix (Fin n) (Fin n) K) *ᵥ x + 0 + (0 : Matrix (Fin n) (Fin m) K) *ᵥ w := rfl
      rw [this]; simp
    have hc : (padStage q : LStage n m K).cost x w = (1 / 2) * (w ⬝ᵥ w) := by
      have : (padStage q : LStage n m K).cost x w = halfQuad (0 : Matrix (Fin q) (Fin q) K) ((0 : Matrix (Fin q) (Fin n) K) *ᵥ x - 0) +
        halfQuad (1 : Matrix (Fin m) (Fin m) K) ((1 : Matrix (Fin m) (Fin m) K) *ᵥ w - 0) +
        ((0 : Matrix (Fin q) (Fin n) K) *ᵥ x - 0) ⬝ᵥ (0 : Matrix (Fin q) (Fin m) K) *ᵥ ((1 : Matrix (Fin m) (Fin m) K) *ᵥ w - 0) := rfl
      rw [this]; simp [halfQuad]
    obtain ⟨h1, h2⟩ := pad_total g q k x ws (by simpa using h)
    simp only [List.replicate_succ, lqtTotal, lqtRun, hn, hc, h1, h2]
    simp
    ring

/-- The number of padding steps. -/
theorem condPad_eq (q : ℕ) (hN : 0 < N) (ss : List (LStage n m K)) : ∃ k, condPad q N ss = ss ++ List.replicate k (padStage q) ∧
    (condPad q N ss).length = N * ((ss.length + N - 1) / N) := by
  have hd := Nat.div_add_mod ss.length N
  have hm := Nat.mod_lt ss.length hN
  unfold condPad
  split
  · rename_i h
    refine ⟨_, rfl, ?_⟩
    have e : (ss.length + N - 1) / N = ss.length / N + 1 := by
      rw [Nat.div_eq_of_lt_le]
      · rw [Nat.add_mul, one_mul, Nat.mul_comm]; omega
      · rw [Nat.add_mul, Nat.add_mul, one_mul, Nat.mul_comm]; omega
    rw [e, List.length_append, List.length_replicate, Nat.mul_succ]
    omega
  · rename_i h
    push Not at h
    refine ⟨0, by simp, ?_⟩
    have e : (ss.length + N - 1) / N = ss.length / N := by
      rw [Nat.div_eq_of_lt_le]
      · rw [Nat.mul_comm]; omega
      · rw [Nat.add_mul, one_mul, Nat.mul_comm]; omega
    rw [e]
    omega

/-! ### Whole problem -/

section Top
variable [LinearOrder K] [IsStrictOrderedRing K]

theorem mapM_congr_mem {α β : Type} {f g : α → Py β} : ∀ {l : List α}, (∀ a ∈ l, f a = g a) → l.mapM f = l.mapM g
  | [], _ => rfl
  | a :: l, h => by
    rw [List.mapM_cons, List.mapM_cons, h a (by simp), mapM_congr_mem fun b hb => h b (by simp [hb])]

/-- The blocks read by `condense`. -/
theorem cond_blocks {q : ℕ} {ss : List (LStage n m K)} (hp : ∀ s ∈ ss, s.p = q) {t : ℕ} (ht : ss.length = N * t) :
    ∃ B : ℕ → Fin N → BStage q n m K, (List.range t).flatMap (fun k => blkStages (B k)) = ss ∧
      ∀ k < t, (pyFin fun i : Fin N => do
        let s ← pyGet ss (N * k + i)
        s.bStage q) = .ok (B k) := by
  have hget : ∀ k : ℕ, ∃ o : BStage q n m K, ∀ s, ss[(k : ℕ)]? = some s → s.bStage q = .ok o ∧ o.toL = s := by
    intro k
    cases h : ss[k]? with
    | none => exact ⟨⟨0, 0, 0, 0, 0, 0, 0, 0, 0, 0⟩, fun s h => by cases h⟩
    | some s =>
      obtain ⟨o, ho⟩ := bStage_same (hp s (List.mem_of_getElem? h))
      exact ⟨o, fun s' h' => by cases h'; exact ho⟩
  choose O hO using hget
  have hlt : ∀ {k : ℕ} (i : Fin N), k < t → N * k + i < ss.length := by
    intro k i hk
    have : N * (k + 1) ≤ N * t := Nat.mul_le_mul_left _ hk
    rw [Nat.mul_succ] at this
    omega
  refine ⟨fun k i => O (N * k + i), ?_, ?_⟩
  · have h1 := range_flatMap (fun k => (O k).toL) N t
    rw [show (fun k => blkStages fun i : Fin N => O (N * k + i)) =
      fun k => List.ofFn fun i : Fin N => (O (N * k + i)).toL from rfl, h1, ← ht]
    apply List.ext_getElem
    · simp
    · intro i h1 h2
      simp only [List.getElem_map, List.getElem_range]
      exact (hO i _ (List.getElem?_eq_getElem h2)).2
  · intro k hk
    rw [pyFin_ok]
    intro i
    rw [pyGet_lt (hlt i hk)]
    exact (hO _ _ (List.getElem?_eq_getElem (hlt i hk))).1

/-- Result of `condense`. -/
theorem condense_iff {P : LQT n m K} (hd : P.SameDim) {s0 : LStage n m K} (h0 : P.stages[0]? = some s0) (hN : 0 < N) :
    ∃ (t k : ℕ) (B : ℕ → Fin N → BStage s0.p n m K), t = (P.stages.length + N - 1) / N ∧
      (List.range t).flatMap (fun k => blkStages (B k)) = P.stages ++ List.replicate k (padStage s0.p) ∧
      P.stages.length + k = N * t ∧
      P.condense N = (do
        let bs ← (List.range t).mapM fun k => condBlock (B k)
        return (⟨bs.map CBlock.stage, P.pT, P.XT, P.HT, P.rT⟩, bs)) := by
  obtain ⟨k, hk, hl⟩ := condPad_eq s0.p hN P.stages
  have hp : ∀ s ∈ condPad s0.p N P.stages, s.p = s0.p := by
    intro s hs
    rw [hk, List.mem_append] at hs
    rcases hs with hs | hs
    · exact hd s hs s0 (List.mem_of_getElem? h0)
    · rw [List.eq_of_mem_replicate hs]; rfl
  obtain ⟨B, hB1, hB2⟩ := cond_blocks hp hl
  refine ⟨_, k, B, rfl, hB1.trans hk, ?_, ?_⟩
  · rw [← hl, hk]; simp
  · unfold LQT.condense
    rw [pyGet_eq.2 h0]
    have e1 : ¬ N = 0 := by omega
    have hb : ∀ {α β : Type} (a : α) (f : α → Py β), ((Except.ok a : Py α) >>= f) = f a := fun _ _ => rfl
    simp only [hb, if_neg e1]
    rw [hl, Nat.mul_div_cancel_left _ hN]
    have e2 : (List.range ((P.stages.length + N - 1) / N)).mapM (fun kp => do
        let b ← pyFin fun i : Fin N => do
          let s ← pyGet (condPad s0.p N P.stages) (N * kp + i)
          s.bStage s0.p
        condBlock b) = (List.range ((P.stages.length + N - 1) / N)).mapM fun k => condBlock (B k) := by
      apply mapM_congr_mem
      intro k hk
      rw [hB2 k (List.mem_range.1 hk)]
      rfl
    rw [e2]

theorem mem_blkStages {b : Fin N → BStage p n m K} (i : Fin N) : (b i).toL ∈ blkStages b := by
  unfold blkStages
  rw [List.mem_ofFn]
  exact ⟨i, rfl⟩

theorem pad_sym_plain (q : ℕ) : (padStage q : LStage n m K).Sym ∧ (padStage q : LStage n m K).Plain :=
  ⟨⟨transpose_zero, transpose_one⟩, rfl, rfl, rfl⟩

theorem pad_last {α : Type} {T : ℕ} (x : α) (R : List α) (k : ℕ) (hrl : R.length = T) :
    (x :: (R ++ List.replicate k ((x :: R).getLast (by simp)))).dropLast.take T ++
      [(x :: (R ++ List.replicate k ((x :: R).getLast (by simp)))).getLast (by simp)] = x :: R := by
  have hne : x :: R ≠ [] := by simp
  have e1 : ((x :: R) ++ List.replicate k ((x :: R).getLast hne)).dropLast.take T = (x :: R).dropLast := by
    rw [List.dropLast_eq_take, List.take_take, List.take_append_of_le_length (by simp [hrl]), List.dropLast_eq_take]
    congr 1
    simp [hrl]
  have e2 : ((x :: R) ++ List.replicate k ((x :: R).getLast hne)).getLast (by simp) = (x :: R).getLast hne := by
    rcases Nat.eq_zero_or_pos k with rfl | hk
    · simp
    · rw [List.getLast_append_of_ne_nil _ (by simp; omega)]
      simp
  have e3 := List.dropLast_append_getLast hne
  rw [← e2, ← e1] at e3
  exact e3

theorem cond_core {P : LQT n m K} {q t k : ℕ} (hN : 0 < N) {B : ℕ → Fin N → BStage q n m K}
    (hB : (List.range t).flatMap (fun k => blkStages (B k)) = P.stages ++ List.replicate k (padStage q))
    (hlen : P.stages.length + k = N * t) {bs : List (CBlock N n m K)}
    (hF : List.Forall₂ (fun b c => ∃ κ, CondOk b c κ) ((List.range t).map B) bs) : ∃ κ : K, ∀ x us, us.length = t →
        lqtTotal P.final P.stages x ((splitControls N us).take P.stages.length) +
          (((splitControls N us).drop P.stages.length).map fun w => (1 / 2) * (w ⬝ᵥ w)).sum =
          lqtTotal P.final (bs.map CBlock.stage) x us + κ ∧
        (∀ j ≤ t, (x :: lqtRun (bs.map CBlock.stage) x us)[j]? =
          (x :: lqtRun P.stages x ((splitControls N us).take P.stages.length))[min (N * j) P.stages.length]?) ∧
        convertUX P.stages.length bs us (x :: lqtRun (bs.map CBlock.stage) x us) =
          .ok ((splitControls N us).take P.stages.length,
            x :: lqtRun P.stages x ((splitControls N us).take P.stages.length)) := by
  obtain ⟨κs, hκ, hF2⟩ : ∃ κs : List K, bs.length = κs.length ∧
      List.Forall₂ (fun b ck => CondOk b ck.1 ck.2) ((List.range t).map B) (bs.zip κs) := by
    clear hlen hB
    generalize (List.range t).map B = L at hF
    induction hF with
    | nil => exact ⟨[], rfl, List.Forall₂.nil⟩
    | cons h1 _ ih =>
      obtain ⟨κ, h1⟩ := h1
      obtain ⟨κs, h2, h3⟩ := ih
      exact ⟨κ :: κs, by simp [h2], List.Forall₂.cons h1 h3⟩
  have hmap : ((List.range t).map B).flatMap blkStages = P.stages ++ List.replicate k (padStage q) := by
    rw [← hB, List.flatMap_map]
  refine ⟨κs.sum, ?_⟩
  intro x us hu
  have hul : us.length = ((List.range t).map B).length := by simp [hu]
  have h1 := cond_list P.final hF2 hκ x us hul
  have h2 := cond_run hN hF x us hul
  have h3 := convertUX_eq P.stages.length hF x us hul
  have hsl : (splitControls N us).length = P.stages.length + k := by rw [split_length, hu, hlen]
  have htl : ((splitControls N us).take P.stages.length).length = P.stages.length := by
    rw [List.length_take, hsl]; omega
  have hdl : ((splitControls N us).drop P.stages.length).length = k := by
    rw [List.length_drop, hsl]; omega
  have hsp := (List.take_append_drop P.stages.length (splitControls N us)).symm
  rw [hmap] at h1 h2
  simp only [hmap] at h3
  have hrun : lqtRun (P.stages ++ List.replicate k (padStage q)) x (splitControls N us) =
      lqtRun P.stages x ((splitControls N us).take P.stages.length) ++
      List.replicate k ((x :: lqtRun P.stages x ((splitControls N us).take P.stages.length)).getLast (by simp)) := by
    conv_lhs => rw [hsp]
    rw [lqtRun_append _ htl, (pad_total (fun _ => 0) q k _ _ hdl).2]
  have hrl : (lqtRun P.stages x ((splitControls N us).take P.stages.length)).length = P.stages.length := by
    rw [lqtRun_length htl.le, htl]
  refine ⟨?_, ?_, ?_⟩
  · refine Eq.trans ?_ h1
    conv_rhs => rw [hsp]
    rw [lqtTotal_append _ _ htl, ← lqtTotal_add (g := fun x' => lqtTotal P.final (List.replicate k (padStage q)) x'
      ((splitControls N us).drop P.stages.length))]
    intro x'
    exact (pad_total P.final q k x' _ hdl).1
  · intro j hj
    rw [h2 j, hrun, ← List.cons_append]
    generalize lqtRun P.stages x ((splitControls N us).take P.stages.length) = R at hrl
    by_cases hj2 : N * j ≤ P.stages.length
    · rw [min_eq_left hj2, List.getElem?_append_left (by simp [hrl]; omega)]
    · have hj3 : N * j ≤ N * t := Nat.mul_le_mul_left _ hj
      rw [min_eq_right (by omega), List.getElem?_append_right (by simp [hrl]; omega),
        List.getElem?_replicate_of_lt (by simp [hrl]; omega), ← hrl, ← List.getLast?_eq_some_getLast,
        List.getLast?_eq_getElem?]
      simp
  · rw [h3]
    simp only [hrun]
    rw [pad_last _ _ _ hrl]

theorem cond_main {P : LQT n m K} (hP : P.Sym) (hpl : ∀ s ∈ P.stages, s.Plain) (hd : P.SameDim) {cP : LQT n (N * m) K}
    {cbs : List (CBlock N n m K)} (h : P.condense N = .ok (cP, cbs)) : ∃ (κ : K) (k : ℕ), 0 < N ∧ 0 < P.stages.length ∧
      cP.stages.length = (P.stages.length + N - 1) / N ∧ P.stages.length + k = N * cP.stages.length ∧
      cP.final = P.final ∧ (∀ s ∈ cP.stages, s.Convex) ∧ ∀ x us, us.length = cP.stages.length →
        lqtTotal P.final P.stages x ((splitControls N us).take P.stages.length) +
          (((splitControls N us).drop P.stages.length).map fun w => (1 / 2) * (w ⬝ᵥ w)).sum =
          lqtTotal cP.final cP.stages x us + κ ∧
        (∀ j ≤ cP.stages.length, (x :: lqtRun cP.stages x us)[j]? =
          (x :: lqtRun P.stages x ((splitControls N us).take P.stages.length))[min (N * j) P.stages.length]?) ∧
        convertUX P.stages.length cbs us (x :: lqtRun cP.stages x us) =
          .ok ((splitControls N us).take P.stages.length,
            x :: lqtRun P.stages x ((splitControls N us).take P.stages.length)) := by
  have hN : 0 < N := by
    rcases Nat.eq_zero_or_pos N with h0 | h0
    · subst h0
      unfold LQT.condense at h
      cases h1 : pyGet P.stages 0 with
      | error e => rw [h1] at h; cases h
      | ok s => rw [h1] at h; cases h
    · exact h0
  obtain ⟨s0, h0⟩ : ∃ s0, P.stages[0]? = some s0 := by
    cases h1 : P.stages[0]? with
    | some s => exact ⟨s, rfl⟩
    | none =>
      unfold LQT.condense at h
      have : pyGet P.stages 0 = .error .indexError := by simp [pyGet, h1]
      rw [this] at h
      cases h
  have hT : 0 < P.stages.length := (List.getElem?_eq_some_iff.1 h0).1
  obtain ⟨t, k, B, ht, hB, hlen, hc⟩ := condense_iff hd h0 hN
  rw [hc, bind_ok] at h
  obtain ⟨bs, hbs, h⟩ := h
  simp only [pure, Except.pure, Except.ok.injEq, Prod.mk.injEq] at h
  obtain ⟨rfl, rfl⟩ := h
  have hprop : ∀ k < t, ∀ i, (B k i).toL.Sym ∧ (B k i).toL.Plain := by
    intro k hk i
    have hm : (B k i).toL ∈ (List.range t).flatMap (fun k => blkStages (B k)) :=
      List.mem_flatMap.2 ⟨k, List.mem_range.2 hk, mem_blkStages i⟩
    rw [hB, List.mem_append] at hm
    rcases hm with hm | hm
    · exact ⟨hP.1 _ hm, hpl _ hm⟩
    · rw [List.eq_of_mem_replicate hm]; exact pad_sym_plain _
  obtain ⟨hlb, hbk⟩ := mapM_range_ok.1 hbs
  have hspec : ∀ k < t, ∀ cb, condBlock (B k) = .ok cb → (∃ κ, CondOk (B k) cb κ) ∧ cb.stage.Convex :=
    fun k hk cb hcb => condBlock_spec (fun i => (hprop k hk i).1) (fun i => (hprop k hk i).2) hcb
  have hF : List.Forall₂ (fun b c => ∃ κ, CondOk b c κ) ((List.range t).map B) bs := by
    rw [List.forall₂_map_left_iff]
    refine forall₂_range.2 ⟨hlb, ?_⟩
    intro k hk
    obtain ⟨c, h1, h2⟩ := hbk k hk
    exact ⟨c, h1, (hspec k hk c h2).1⟩
  obtain ⟨κ, hcore⟩ := cond_core hN hB hlen hF
  refine ⟨κ, k, hN, hT, by simp [hlb, ht], by simp [hlb, hlen], rfl, ?_, ?_⟩
  · intro s hs
    simp only [List.mem_map] at hs
    obtain ⟨c, hc, rfl⟩ := hs
    obtain ⟨k, hk, hck⟩ := List.getElem_of_mem hc
    obtain ⟨c', h1, h2⟩ := hbk k (by omega)
    rw [List.getElem?_eq_getElem hk, hck, Option.some.injEq] at h1
    subst h1
    exact (hspec k (by omega) c h2).2
  · intro x us hu
    simp only [List.length_map, hlb] at hu
    simp only [List.length_map, hlb]
    exact hcore x us hu

/-- The expanded solution of a problem with the condensed dynamics and cost is the strict minimiser. -/
theorem cond_core_solution {P : LQT n m K} {cP : LQT n (N * m) K} {cbs : List (CBlock N n m K)} {κ : K} {k : ℕ} (hcS : cP.Sym)
    (hlk : P.stages.length + k = N * cP.stages.length)
    (hmain : ∀ x us, us.length = cP.stages.length →
        lqtTotal P.final P.stages x ((splitControls N us).take P.stages.length) +
          (((splitControls N us).drop P.stages.length).map fun w => (1 / 2) * (w ⬝ᵥ w)).sum =
          lqtTotal cP.final cP.stages x us + κ ∧
        convertUX P.stages.length cbs us (x :: lqtRun cP.stages x us) =
          .ok ((splitControls N us).take P.stages.length,
            x :: lqtRun P.stages x ((splitControls N us).take P.stages.length))) {r : BwResult n (N * m) K}
    (hr : cP.seqBackwardPass = .ok r) (x0 : Fin n → K) : ∃ cus us,
      cP.seqForwardPass x0 r.Kx_list r.d_list = .ok (cus, x0 :: lqtRun cP.stages x0 cus) ∧
      convertUX P.stages.length cbs cus (x0 :: lqtRun cP.stages x0 cus) = .ok (us, x0 :: lqtRun P.stages x0 us) ∧
      us.length = P.stages.length ∧ cus.length = cP.stages.length ∧ ∀ us', us'.length = P.stages.length → us' ≠ us →
        lqtTotal P.final P.stages x0 us < lqtTotal P.final P.stages x0 us' := by
  obtain ⟨cus, hcl, hcf, hmin⟩ := seq_strict_min hcS hr x0
  obtain ⟨h1, h3⟩ := hmain x0 cus hcl
  have hsl : ∀ us : List (Fin (N * m) → K), us.length = cP.stages.length → (splitControls N us).length = P.stages.length + k := by
    intro us hu
    rw [split_length, hu, hlk]
  refine ⟨cus, _, hcf, h3, ?_, hcl, ?_⟩
  · rw [List.length_take, hsl cus hcl]; omega
  · intro us' hl' hne
    obtain ⟨cus', hcl', hsp⟩ := split_surj (N := N) cP.stages.length (us' ++ List.replicate k 0) (by simp [hl', hlk])
    have hne' : cus' ≠ cus := by
      rintro rfl
      apply hne
      rw [hsp, ← hl']
      simp
    obtain ⟨h1', -⟩ := hmain x0 cus' hcl'
    have h4 := hmin cus' hcl' hne'
    rw [hsp, ← hl'] at h1'
    simp only [List.take_left, List.drop_left, List.map_replicate, List.sum_replicate, dotProduct_zero, mul_zero, smul_zero,
      add_zero] at h1'
    have h5 : 0 ≤ (((splitControls N cus).drop P.stages.length).map fun w => (1 / 2 : K) * (w ⬝ᵥ w)).sum := by
      refine List.sum_nonneg fun y hy => ?_
      obtain ⟨w, _, rfl⟩ := List.mem_map.1 hy
      have : 0 ≤ w ⬝ᵥ w := Finset.sum_nonneg fun i _ => mul_self_nonneg _
      positivity
    linarith

/-- The expanded solution of the condensed problem is the strict minimiser. -/
theorem cond_solution {P : LQT n m K} (hP : P.Sym) (hpl : ∀ s ∈ P.stages, s.Plain) (hd : P.SameDim) {cP : LQT n (N * m) K}
    {cbs : List (CBlock N n m K)} (h : P.condense N = .ok (cP, cbs)) {r : BwResult n (N * m) K}
    (hr : cP.seqBackwardPass = .ok r) (x0 : Fin n → K) : ∃ cus us,
      cP.seqForwardPass x0 r.Kx_list r.d_list = .ok (cus, x0 :: lqtRun cP.stages x0 cus) ∧
      convertUX P.stages.length cbs cus (x0 :: lqtRun cP.stages x0 cus) = .ok (us, x0 :: lqtRun P.stages x0 us) ∧
      us.length = P.stages.length ∧ ∀ us', us'.length = P.stages.length → us' ≠ us →
        lqtTotal P.final P.stages x0 us < lqtTotal P.final P.stages x0 us' := by
  obtain ⟨κ, k, hN, hT, hl, hlk, hf, hc, hmain⟩ := cond_main hP hpl hd h
  have hcS : cP.Sym := by
    refine ⟨fun s hs => (hc s hs).sym, ?_⟩
    obtain ⟨s0, -, h⟩ := bind_ok.1 h
    split at h
    · cases h
    · obtain ⟨bs, -, h⟩ := bind_ok.1 h
      simp only [pure, Except.pure, Except.ok.injEq, Prod.mk.injEq] at h
      obtain ⟨rfl, rfl⟩ := h
      exact hP.2
  obtain ⟨cus, us, h1, h2, h3, -, h4⟩ := cond_core_solution hcS hlk
    (fun x us hu => ⟨(hmain x us hu).1, (hmain x us hu).2.2⟩) hr x0
  exact ⟨cus, us, h1, h2, h3, h4⟩

/-! ### When the condensed weights are positive definite -/

/-- The block without offsets and references. -/
def homogB (b : Fin N → BStage p n m K) : Fin N → BStage p n m K := fun i => { b i with c := 0, r := 0 }

theorem condQ_homog (b : Fin N → BStage p n m K) (hp : ∀ i, (b i).Plain) (x : Fin n → K) (u : Fin N → Fin m → K) :
    Sum.elim x (flatU u) ⬝ᵥ condQ b *ᵥ Sum.elim x (flatU u) =
      2 * lqtTotal (fun _ => 0) ((blkStages b).map LStage.homog) x (List.ofFn u) := by
  have h1 : condTrans (homogB b) = condTrans b := rfl
  have h2 : condXU (homogB b) = condXU b := rfl
  have h3 : condW (homogB b) = 0 := by
    have : condCbar (homogB b) = 0 := by
      funext ia
      simp [condCbar, condC, homogB]
    unfold condW
    rw [this, mulVec_zero]
    funext k
    rcases k with k | k <;> simp [homogB]
  have h4 : (blkStages b).map LStage.homog = blkStages (homogB b) := by
    unfold blkStages
    rw [List.map_ofFn]
    rfl
  have h5 := cond_quad (b := homogB b) x u
  rw [h1, h2, h3, sub_zero] at h5
  rw [h4, (blk_total _ (homogB b) x u).1, add_zero,
    Finset.sum_congr rfl fun i _ => plain_cost (s := homogB b i) (hp i) _ _, ← Finset.mul_sum, ← h5, condQ]
  rw [← mulVec_mulVec, ← mulVec_mulVec, dotProduct_mulVec, vecMul_transpose]
  ring

theorem condQ_pd {b : Fin N → BStage p n m K} (hp : ∀ i, (b i).Plain) : IsPD (condQ b) ↔
    ∀ x us, us.length = N → (x ≠ 0 ∨ ∃ u ∈ us, u ≠ 0) →
      0 < lqtTotal (fun _ => 0) ((blkStages b).map LStage.homog) x us := by
  constructor
  · intro h x us hl hne
    subst hl
    have h1 := condQ_homog b hp x (fun i => us[i.1])
    have h2 : (List.ofFn fun i : Fin us.length => us[i.1]) = us := List.ofFn_getElem
    rw [h2] at h1
    have h3 : Sum.elim x (flatU fun i : Fin us.length => us[i.1]) ≠ 0 := by
      intro h0
      have hx : x = 0 := funext fun i => congrFun h0 (.inl i)
      have hu : (fun i : Fin us.length => us[i.1]) = 0 := by
        rw [← unflat_flat (fun i : Fin us.length => us[i.1])]
        funext i a
        exact congrFun h0 (.inr (finProdFinEquiv (i, a)))
      rcases hne with hne | ⟨u, hu1, hu2⟩
      · exact hne hx
      · obtain ⟨i, hi, rfl⟩ := List.getElem_of_mem hu1
        exact hu2 (congrFun hu ⟨i, hi⟩)
    have h4 := h _ h3
    rw [h1] at h4
    linarith
  · intro h z hz
    have h1 := condQ_homog b hp (z ∘ Sum.inl) (unflat (z ∘ Sum.inr))
    rw [flat_unflat] at h1
    have h2 : Sum.elim (z ∘ Sum.inl) (z ∘ Sum.inr) = z := Sum.elim_comp_inl_inr z
    rw [h2] at h1
    rw [h1]
    have h3 := h (z ∘ Sum.inl) (List.ofFn (unflat (z ∘ Sum.inr))) (by simp) (by
      by_contra hc
      push Not at hc
      apply hz
      rw [← h2, hc.1, ← flat_unflat (z ∘ Sum.inr)]
      have : unflat (z ∘ Sum.inr) = (0 : Fin N → Fin m → K) := by
        funext i
        exact hc.2 _ (List.mem_ofFn.2 ⟨i, rfl⟩)
      rw [this]
      funext k
      rcases k with k | k <;> rfl)
    linarith

theorem homog_zero : ∀ (ss : List (LStage n m K)) (us : List (Fin m → K)), us.length = ss.length → (∀ s ∈ ss, s.Plain) →
    (∀ u ∈ us, u = 0) → lqtTotal (fun _ => 0) (ss.map LStage.homog) 0 us = 0
  | [], [], _, _, _ => rfl
  | s :: ss, u :: us, h, hp, h0 => by
    obtain rfl : u = 0 := h0 u (by simp)
    have h1 : s.homog.next 0 0 = 0 := by
      have : s.homog.next 0 0 = s.F *ᵥ 0 + 0 + s.L *ᵥ 0 := rfl
      rw [this]; simp
    have h2 : s.homog.cost 0 0 = 0 := by
      have : s.homog.cost 0 0 = halfQuad s.X (s.H *ᵥ 0 - 0) + halfQuad s.U (s.Z *ᵥ 0 - s.s) +
        (s.H *ᵥ 0 - 0) ⬝ᵥ s.M *ᵥ (s.Z *ᵥ 0 - s.s) := rfl
      rw [this, (hp s (by simp)).2.1]; simp [halfQuad]
    simp only [List.map_cons, lqtTotal, h1, h2, zero_add]
    exact homog_zero ss us (by simpa using h) (fun s hs => hp s (by simp [hs])) fun u hu => h0 u (by simp [hu])

theorem dot_self_nonneg (w : Fin m → K) : 0 ≤ w ⬝ᵥ w := Finset.sum_nonneg fun i _ => mul_self_nonneg _

theorem dot_self_pos {w : Fin m → K} (h : w ≠ 0) : 0 < w ⬝ᵥ w := by
  obtain ⟨i, hi⟩ := Function.ne_iff.1 h
  exact Finset.sum_pos' (fun i _ => mul_self_nonneg _) ⟨i, Finset.mem_univ _, mul_self_pos.2 hi⟩

theorem half_sum_nonneg (ws : List (Fin m → K)) : 0 ≤ (ws.map fun w => (1 / 2 : K) * (w ⬝ᵥ w)).sum := by
  refine List.sum_nonneg fun y hy => ?_
  obtain ⟨w, _, rfl⟩ := List.mem_map.1 hy
  have := dot_self_nonneg w
  positivity

theorem half_sum_pos {ws : List (Fin m → K)} (h : ∃ w ∈ ws, w ≠ 0) : 0 < (ws.map fun w => (1 / 2 : K) * (w ⬝ᵥ w)).sum := by
  obtain ⟨w, hw, hne⟩ := h
  have h1 := List.single_le_sum (l := ws.map fun w => (1 / 2 : K) * (w ⬝ᵥ w)) (by
    intro y hy
    obtain ⟨w, _, rfl⟩ := List.mem_map.1 hy
    have := dot_self_nonneg w
    positivity) _ (List.mem_map.2 ⟨w, hw, rfl⟩)
  have := dot_self_pos hne
  linarith

/-- Positivity of a padded block. -/
theorem pad_pos {ss : List (LStage n m K)} (hp : ∀ s ∈ ss, s.Plain) (q k : ℕ) :
    (∀ x us, us.length = (ss ++ List.replicate k (padStage q)).length → (x ≠ 0 ∨ ∃ u ∈ us, u ≠ 0) →
      0 < lqtTotal (fun _ => 0) ((ss ++ List.replicate k (padStage q)).map LStage.homog) x us) ↔
    ∀ x us, us.length = ss.length → (x ≠ 0 ∨ ∃ u ∈ us, u ≠ 0) → 0 < lqtTotal (fun _ => 0) (ss.map LStage.homog) x us := by
  have hpad : (padStage q : LStage n m K).homog = padStage q := rfl
  have key : ∀ x (ua ub : List (Fin m → K)), ua.length = ss.length → ub.length = k →
      lqtTotal (fun _ => 0) ((ss ++ List.replicate k (padStage q)).map LStage.homog) x (ua ++ ub) =
        lqtTotal (fun _ => 0) (ss.map LStage.homog) x ua + (ub.map fun w => (1 / 2) * (w ⬝ᵥ w)).sum := by
    intro x ua ub h1 h2
    rw [List.map_append, List.map_replicate, hpad, lqtTotal_append _ _ (by simpa using h1)]
    exact lqtTotal_add (fun x' => (pad_total (fun _ => 0) q k x' ub h2).1) _ _ _
  constructor
  · intro h x us hl hne
    have h1 := h x (us ++ List.replicate k 0) (by simp [hl]) (by
      rcases hne with hne | ⟨u, hu, hne⟩
      · exact Or.inl hne
      · exact Or.inr ⟨u, by simp [hu], hne⟩)
    rw [key x us _ hl (by simp)] at h1
    simpa using h1
  · intro h x us hl hne
    rw [List.length_append, List.length_replicate] at hl
    rw [← List.take_append_drop ss.length us] at hne ⊢
    have h1 : (us.take ss.length).length = ss.length := by simp; omega
    rw [key _ _ _ h1 (by simp; omega)]
    have h2 := half_sum_nonneg (us.drop ss.length)
    by_cases h3 : x ≠ 0 ∨ ∃ u ∈ us.take ss.length, u ≠ 0
    · have := h x _ h1 h3
      linarith
    · push Not at h3
      obtain ⟨rfl, h3⟩ := h3
      rw [homog_zero ss _ h1 hp h3, zero_add]
      refine half_sum_pos ?_
      rcases hne with hne | ⟨u, hu, hne⟩
      · exact absurd rfl hne
      · rcases List.mem_append.1 hu with hu | hu
        · exact absurd (h3 u hu) hne
        · exact ⟨u, hu, hne⟩

theorem mapM_ok_or {α β : Type} {f : α → Py β} {e : PyErr} : ∀ {l : List α},
    (∀ a ∈ l, (∃ b, f a = .ok b) ∨ f a = .error e) →
    ((∀ a ∈ l, ∃ b, f a = .ok b) ∧ ∃ bs, l.mapM f = .ok bs) ∨ ((¬ ∀ a ∈ l, ∃ b, f a = .ok b) ∧ l.mapM f = .error e)
  | [], _ => Or.inl ⟨by simp, [], rfl⟩
  | a :: l, h => by
    rw [List.mapM_cons]
    rcases h a (by simp) with ⟨b, hb⟩ | hb
    · rcases mapM_ok_or (l := l) fun a' ha => h a' (by simp [ha]) with ⟨h1, bs, h2⟩ | ⟨h1, h2⟩
      · refine Or.inl ⟨?_, b :: bs, ?_⟩
        · intro a' ha
          rcases List.mem_cons.1 ha with rfl | ha
          · exact ⟨b, hb⟩
          · exact h1 a' ha
        · rw [hb, h2]; rfl
      · refine Or.inr ⟨fun h3 => h1 fun a' ha => h3 a' (by simp [ha]), ?_⟩
        rw [hb, h2]; rfl
    · refine Or.inr ⟨fun h3 => ?_, ?_⟩
      · obtain ⟨b, hb'⟩ := h3 a (by simp)
        rw [hb] at hb'
        cases hb'
      · rw [hb]; rfl

theorem flatMap_drop_take (B : ℕ → Fin N → BStage p n m K) {t k : ℕ} (hk : k < t) :
    (((List.range t).flatMap fun k => blkStages (B k)).drop (N * k)).take N = blkStages (B k) := by
  have hl : ∀ j, ((List.range j).flatMap fun k => blkStages (B k)).length = N * j := by
    intro j
    have := congrArg List.length (range_flatMap (fun _ => (0 : ℕ)) N j)
    simp only [List.length_flatMap, List.length_ofFn, List.length_map, List.length_range] at this ⊢
    simpa [blkStages] using this
  obtain ⟨j, rfl⟩ : ∃ j, t = k + 1 + j := ⟨t - (k + 1), by omega⟩
  rw [List.range_add, List.flatMap_append, List.range_succ, List.flatMap_append, List.append_assoc,
    List.drop_append_of_le_length (by rw [hl]), List.drop_of_length_le (by rw [hl]), List.nil_append]
  simp only [List.flatMap_cons, List.flatMap_nil, List.append_nil]
  rw [List.take_append_of_le_length (by simp [blkStages]), List.take_of_length_le (by simp [blkStages])]

theorem condense_total {P : LQT n m K} (hP : P.Sym) (hpl : ∀ s ∈ P.stages, s.Plain) (hd : P.SameDim)
    (hT : P.stages ≠ []) (hN : 0 < N) :
    let pos := ∀ k, N * k < P.stages.length → ∀ x us, us.length = ((P.stages.drop (N * k)).take N).length →
      (x ≠ 0 ∨ ∃ u ∈ us, u ≠ 0) → 0 < lqtTotal (fun _ => 0) (((P.stages.drop (N * k)).take N).map LStage.homog) x us
    (pos ∧ ∃ r, P.condense N = .ok r) ∨ (¬ pos ∧ P.condense N = .error .linAlgError) := by
  intro pos
  obtain ⟨s0, h0⟩ : ∃ s0, P.stages[0]? = some s0 := by
    cases h : P.stages with
    | nil => exact absurd h hT
    | cons s ss => exact ⟨s, rfl⟩
  obtain ⟨t, k, B, ht, hB, hlen, hc⟩ := condense_iff hd h0 hN
  have hprop : ∀ k < t, ∀ i, (B k i).toL.Sym ∧ (B k i).toL.Plain := by
    intro k hk i
    have hm : (B k i).toL ∈ (List.range t).flatMap (fun k => blkStages (B k)) :=
      List.mem_flatMap.2 ⟨k, List.mem_range.2 hk, mem_blkStages i⟩
    rw [hB, List.mem_append] at hm
    rcases hm with hm | hm
    · exact ⟨hP.1 _ hm, hpl _ hm⟩
    · rw [List.eq_of_mem_replicate hm]; exact pad_sym_plain _
  have hkt : ∀ j, N * j < P.stages.length ↔ j < t := by
    intro j
    constructor
    · intro h
      by_contra h'
      have := Nat.mul_le_mul_left N (not_lt.1 h')
      omega
    · intro h
      rw [ht, Nat.lt_div_iff_mul_lt hN] at h
      rw [Nat.mul_comm]; omega
  have hpos : pos ↔ ∀ a ∈ List.range t, ∃ b, condBlock (B a) = .ok b := by
    have hblk : ∀ j < t, (∃ b, condBlock (B j) = .ok b) ↔
        ∀ x us, us.length = ((P.stages.drop (N * j)).take N).length → (x ≠ 0 ∨ ∃ u ∈ us, u ≠ 0) →
          0 < lqtTotal (fun _ => 0) (((P.stages.drop (N * j)).take N).map LStage.homog) x us := by
      intro j hj
      rw [condBlock_total (fun i => (hprop j hj i).1), condQ_pd fun i => (hprop j hj i).2]
      have h1 := flatMap_drop_take B hj
      have h2 : N * j ≤ P.stages.length := ((hkt j).2 hj).le
      rw [hB, List.drop_append_of_le_length h2, List.take_append] at h1
      rw [List.take_replicate] at h1
      have h3 : (blkStages (B j)).length = N := by simp [blkStages]
      rw [← pad_pos (fun s hs => hpl s (List.mem_of_mem_drop (List.mem_of_mem_take hs))) s0.p
        (min (N - (P.stages.drop (N * j)).length) k), h1]
      rw [h3]
    constructor
    · intro h a ha
      have ha := List.mem_range.1 ha
      exact (hblk a ha).2 (h a ((hkt a).2 ha))
    · intro h a ha
      exact (hblk a ((hkt a).1 ha)).1 (h a (List.mem_range.2 ((hkt a).1 ha)))
  rw [hc]
  rcases mapM_ok_or (f := fun k => condBlock (B k)) (e := .linAlgError) (l := List.range t) (by
    intro a ha
    have ha := List.mem_range.1 ha
    have h1 := condBlock_total (b := B a) (fun i => (hprop a ha i).1)
    have h2 := condBlock_err (b := B a) (fun i => (hprop a ha i).1)
    by_cases h3 : IsPD (condQ (B a))
    · exact Or.inl (h1.2 h3)
    · exact Or.inr (h2.2 h3)) with ⟨h1, bs, h2⟩ | ⟨h1, h2⟩
  · exact Or.inl ⟨hpos.2 h1, by rw [h2]; exact ⟨_, rfl⟩⟩
  · exact Or.inr ⟨fun h => h1 (hpos.1 h), by rw [h2]; rfl⟩

/-- Costs of a plain convex step. -/
theorem plain_homog_cost {s : LStage n m K} (h : s.Plain) (x : Fin n → K) (u : Fin m → K) :
    s.homog.cost x u = (1 / 2) * (x ⬝ᵥ (s.Hᵀ * s.X * s.H) *ᵥ x + u ⬝ᵥ s.U *ᵥ u) := by
  have h1 : s.homog.cost x u = halfQuad s.X (s.H *ᵥ x - 0) + halfQuad s.U (s.Z *ᵥ u - s.s) +
    (s.H *ᵥ x - 0) ⬝ᵥ s.M *ᵥ (s.Z *ᵥ u - s.s) := rfl
  rw [h1, h.1, h.2.1, h.2.2, one_mulVec, sub_zero, sub_zero, zero_mulVec, dotProduct_zero, ← mulVec_mulVec, ← mulVec_mulVec,
    dotProduct_mulVec x, vecMul_transpose]
  unfold halfQuad
  ring

theorem plain_convex {s : LStage n m K} (h : s.Plain) (hc : s.Convex) (x : Fin n → K) :
    0 ≤ x ⬝ᵥ (s.Hᵀ * s.X * s.H) *ᵥ x := by
  have h1 := hc.joint (s.H *ᵥ x) 0
  rw [← mulVec_mulVec, ← mulVec_mulVec, dotProduct_mulVec x, vecMul_transpose]
  simpa using h1

theorem homog_pos : ∀ {ss : List (LStage n m K)} {us : List (Fin m → K)} (x : Fin n → K), us.length = ss.length →
    (∀ s ∈ ss, s.Plain ∧ s.Convex) → 0 ≤ lqtTotal (fun _ => 0) (ss.map LStage.homog) x us ∧
      ((∃ u ∈ us, u ≠ 0) → 0 < lqtTotal (fun _ => 0) (ss.map LStage.homog) x us)
  | [], [], x, _, _ => by simp [lqtTotal]
  | s :: ss, u :: us, x, hl, h => by
    obtain ⟨hp, hc⟩ := h s (by simp)
    have ih := homog_pos (ss := ss) (us := us) (s.homog.next x u) (by simpa using hl) fun s hs => h s (by simp [hs])
    have h1 := plain_convex hp hc x
    have h2 := hc.pd.nonneg u
    simp only [List.map_cons, lqtTotal, plain_homog_cost hp]
    refine ⟨by have := ih.1; linarith, ?_⟩
    rintro ⟨v, hv, hne⟩
    rcases List.mem_cons.1 hv with rfl | hv
    · have h3 := hc.pd v hne
      have := ih.1
      linarith
    · have := ih.2 ⟨v, hv, hne⟩
      linarith

end Top

/-! ### Parameters that are not read -/

theorem pyFin_map {α β : Type} (g : α → β) : ∀ {N : ℕ} (f : Fin N → Py α),
    pyFin (fun i => (f i).map g) = (pyFin f).map fun r i => g (r i)
  | 0, f => congrArg Except.ok (funext fun i => i.elim0)
  | N + 1, f => by
    unfold pyFin
    beta_reduce
    rw [pyFin_map g fun i => f i.succ]
    cases f 0 with
    | error e => rfl
    | ok a =>
      cases pyFin fun i => f i.succ with
      | error e => rfl
      | ok r =>
        have h : (Fin.cons (g a) fun i => g (r i) : Fin (N + 1) → β) = fun i => g ((Fin.cons a r : Fin (N + 1) → α) i) :=
          funext fun i => Fin.cases rfl (fun i => rfl) i
        exact congrArg Except.ok h

/-- The items of a step with `Z = I`, `s = 0`, `M = 0`. -/
def BStage.strip (s : BStage p n m K) : BStage p n m K := { s with Z := 1, s := 0, M := 0 }

theorem bStage_strip (q : ℕ) (s : LStage n m K) : s.strip.bStage q = (s.bStage q).map BStage.strip := by
  unfold LStage.bStage
  have : s.strip.p = s.p := rfl
  cases h : bIdx s.p q with
  | error e =>
    have h' : bIdx s.strip.p q = .error e := h
    rw [h']; rfl
  | ok f =>
    have h' : bIdx s.strip.p q = .ok f := h
    rw [h']; rfl

theorem condPad_strip (q : ℕ) (ss : List (LStage n m K)) :
    condPad q N (ss.map LStage.strip) = (condPad q N ss).map LStage.strip := by
  unfold condPad
  rw [List.length_map]
  split
  · rw [List.map_append, List.map_replicate]; rfl
  · rfl

theorem condense_strip [LinearOrder K] (P : LQT n m K) :
    (⟨P.stages.map LStage.strip, P.pT, P.XT, P.HT, P.rT⟩ : LQT n m K).condense N = P.condense N := by
  unfold LQT.condense
  simp only
  have hg : ∀ (l : List (LStage n m K)) k, pyGet (l.map LStage.strip) k = (pyGet l k).map LStage.strip := by
    intro l k
    unfold pyGet
    rw [List.getElem?_map]
    cases l[k]? <;> rfl
  rw [hg]
  cases h0 : pyGet P.stages 0 with
  | error e => rfl
  | ok s0 =>
    have hb : ∀ {α β : Type} (a : α) (f : α → Py β), ((Except.ok a : Py α) >>= f) = f a := fun _ _ => rfl
    have hm : (Except.map LStage.strip (Except.ok s0) : Py (LStage n m K)) = .ok s0.strip := rfl
    have hp : s0.strip.p = s0.p := rfl
    rw [hm]
    simp only [hb, hp, condPad_strip, List.length_map]
    have e : ∀ kp, (do
        let b ← pyFin fun i : Fin N => do
          let s ← pyGet ((condPad s0.p N P.stages).map LStage.strip) (N * kp + i)
          s.bStage s0.p
        condBlock b) = (do
        let b ← pyFin fun i : Fin N => do
          let s ← pyGet (condPad s0.p N P.stages) (N * kp + i)
          s.bStage s0.p
        condBlock b : Py (CBlock N n m K)) := by
      intro kp
      have e1 : (fun i : Fin N => (do
          let s ← pyGet ((condPad s0.p N P.stages).map LStage.strip) (N * kp + i)
          s.bStage s0.p : Py (BStage s0.p n m K))) = fun i : Fin N => (do
          let s ← pyGet (condPad s0.p N P.stages) (N * kp + i)
          s.bStage s0.p : Py (BStage s0.p n m K)).map BStage.strip := by
        funext i
        rw [hg]
        cases pyGet (condPad s0.p N P.stages) (N * kp + i) with
        | error e => rfl
        | ok s => exact bStage_strip s0.p s
      rw [e1, pyFin_map]
      cases pyFin fun i : Fin N => (do
          let s ← pyGet (condPad s0.p N P.stages) (N * kp + i)
          s.bStage s0.p : Py (BStage s0.p n m K)) with
      | error e => rfl
      | ok b => rfl
    have e' : ∀ kp, (do
        let b ← pyFin fun i : Fin N => do
          let s ← pyGet ((condPad s0.p N P.stages).map LStage.strip) (N * kp + i)
          s.bStage s0.strip.p
        condBlock b) = (do
        let b ← pyFin fun i : Fin N => do
          let s ← pyGet (condPad s0.p N P.stages) (N * kp + i)
          s.bStage s0.p
        condBlock b : Py (CBlock N n m K)) := e
    rw [funext e']

end Verif
