import Verif.Props.LQT
import Verif.Props.LQTCheck

/-! Optimality of the passes of an LQT object in terms of functions of the time step. -/

namespace Verif

open Matrix

variable {n m : ℕ} {K : Type} [Field K]

theorem lqtRun_fn : ∀ (T : ℕ) (st : ℕ → LStage n m K) (w : ℕ → Fin m → K) (z : ℕ → Fin n → K),
    (∀ k < T, z (k + 1) = (st k).next (z k) (w k)) →
    lqtRun ((List.range T).map st) (z 0) ((List.range T).map w) = (List.range T).map fun k => z (k + 1)
  | 0, st, w, z, _ => rfl
  | T + 1, st, w, z, h => by
    rw [List.range_succ_eq_map]
    simp only [List.map_cons, List.map_map, lqtRun]
    rw [← h 0 (by omega)]
    congr 1
    exact lqtRun_fn T (st ∘ Nat.succ) (w ∘ Nat.succ) (fun k => z (k + 1)) fun k hk => h (k + 1) (by omega)

theorem stageSum_fn : ∀ (T : ℕ) (st : ℕ → LStage n m K) (w : ℕ → Fin m → K) (z : ℕ → Fin n → K),
    stageSum ((List.range T).map st) ((List.range (T + 1)).map z) ((List.range T).map w) =
      ∑ k ∈ Finset.range T, (st k).cost (z k) (w k)
  | 0, st, w, z => rfl
  | T + 1, st, w, z => by
    rw [List.range_succ_eq_map, List.range_succ_eq_map]
    simp only [List.map_cons, List.map_map, stageSum]
    rw [Finset.sum_range_succ', add_comm]
    congr 1
    exact stageSum_fn T (st ∘ Nat.succ) (w ∘ Nat.succ) (fun k => z (k + 1))

theorem range_map_succ {α : Type} (T : ℕ) (z : ℕ → α) :
    (List.range (T + 1)).map z = z 0 :: (List.range T).map fun k => z (k + 1) := by
  rw [List.range_succ_eq_map, List.map_cons, List.map_map]
  rfl

/-- The value of `cost` for functions of the time step. -/
theorem lqt_cost_fn (P : LQT n m K) (T : ℕ) (st : ℕ → LStage n m K) (hst : P.stages = (List.range T).map st)
    (w : ℕ → Fin m → K) (z : ℕ → Fin n → K) (hz : ∀ k < T, z (k + 1) = (st k).next (z k) (w k)) :
    P.seqSimulation (z 0) ((List.range T).map w) = .ok ((List.range (T + 1)).map z) ∧
    P.cost ((List.range T).map w) ((List.range (T + 1)).map z) =
      .ok (halfQuad P.XT (P.HT *ᵥ z T - P.rT) + ∑ k ∈ Finset.range T, (st k).cost (z k) (w k)) := by
  have hl : ((List.range T).map w).length ≤ P.stages.length := by rw [hst]; simp
  have hr : (z 0) :: lqtRun P.stages (z 0) ((List.range T).map w) = (List.range (T + 1)).map z := by
    rw [hst, lqtRun_fn T st w z hz, range_map_succ]
  refine ⟨by rw [lqtSimulation_eq hl, hr], ?_⟩
  rw [← hr, lqt_cost_eq hl, lqtTotal_eq _ _ _ hl]
  congr 2
  · unfold LQT.final
    have : ((z 0) :: lqtRun P.stages (z 0) ((List.range T).map w)).getLast (by simp) = z T := by
      simp only [hr, List.range_succ, List.map_append, List.map_cons, List.map_nil]
      exact List.getLast_concat
    rw [this]
  · rw [hr, hst, stageSum_fn]

theorem list_eq_map_range {α : Type} [Inhabited α] (l : List α) :
    ∃ f : ℕ → α, l = (List.range l.length).map f := by
  refine ⟨fun k => l[k]?.getD default, ?_⟩
  apply List.ext_getElem?
  intro i
  by_cases h : i < l.length
  · simp [h]
  · simp [h]

variable [LinearOrder K] [IsStrictOrderedRing K]

/-- All passes of a convex problem complete and give the unique optimal controls. -/
theorem lqt_solved (P : LQT n m K) (hP : P.Convex) (T : ℕ) (hT : 0 < T) (st : ℕ → LStage n m K)
    (hst : P.stages = (List.range T).map st) (x0 : Fin n → K) :
    ∃ (bw : BwResult n m K) (w : ℕ → Fin m → K) (z : ℕ → Fin n → K),
      (P.parBackwardPass = .ok bw ∧ P.seqBackwardPass = .ok bw ∧
        P.seqForwardPass x0 bw.Kx_list bw.d_list = .ok ((List.range T).map w, (List.range (T + 1)).map z) ∧
        P.parForwardPass x0 bw.Kx_list bw.d_list = .ok ((List.range T).map w, (List.range (T + 1)).map z) ∧
        P.parFwdBwdPass x0 bw = .ok ((List.range T).map w, (List.range (T + 1)).map z) ∧
        P.parFwdBwdPass2 x0 bw = .ok ((List.range T).map w, (List.range (T + 1)).map z)) ∧
      z 0 = x0 ∧ (∀ k < T, z (k + 1) = (st k).next (z k) (w k)) ∧
      ∀ (w' : ℕ → Fin m → K) (z' : ℕ → Fin n → K), z' 0 = x0 →
        (∀ k < T, z' (k + 1) = (st k).next (z' k) (w' k)) →
        halfQuad P.XT (P.HT *ᵥ z T - P.rT) + ∑ k ∈ Finset.range T, (st k).cost (z k) (w k) ≤
          halfQuad P.XT (P.HT *ᵥ z' T - P.rT) + ∑ k ∈ Finset.range T, (st k).cost (z' k) (w' k) ∧
        (halfQuad P.XT (P.HT *ᵥ z' T - P.rT) + ∑ k ∈ Finset.range T, (st k).cost (z' k) (w' k) =
          halfQuad P.XT (P.HT *ᵥ z T - P.rT) + ∑ k ∈ Finset.range T, (st k).cost (z k) (w k) →
          ∀ k < T, w' k = w k) := by
  have hlen : P.stages.length = T := by rw [hst]; simp
  obtain ⟨bw, us, xs, h1, h2, h3, h4, h5, h6⟩ := C23_convex P hP (by intro h; rw [h] at hlen; simp at hlen; omega) x0
  obtain ⟨us', xs', J, g1, g2, g3, g4, g5⟩ := C18_optimal P hP.toSym bw h2 x0
  rw [h3] at g1
  injection g1 with g1
  injection g1 with e1 e2
  subst e1 e2
  haveI : Inhabited (Fin m → K) := ⟨0⟩
  obtain ⟨w, hw⟩ := list_eq_map_range us
  rw [g2, hlen] at hw
  let z : ℕ → Fin n → K := fun k => Nat.rec x0 (fun k x => (st k).next x (w k)) k
  have hz : ∀ k < T, z (k + 1) = (st k).next (z k) (w k) := fun k _ => rfl
  obtain ⟨c1, c2⟩ := lqt_cost_fn P T st hst w z hz
  have hxs : xs = (List.range (T + 1)).map z := by
    rw [hw] at g3
    exact Except.ok.inj (g3.symm.trans c1)
  subst hw hxs
  have hJ := Except.ok.inj (g4.symm.trans c2)
  refine ⟨bw, w, z, ⟨h1, h2, h3, h4, h5, h6⟩, rfl, hz, ?_⟩
  intro w' z' h0 hz'
  obtain ⟨d1, d2⟩ := lqt_cost_fn P T st hst w' z' hz'
  obtain ⟨xs', J', k1, k2, k3, k4⟩ := g5 ((List.range T).map w') (by rw [hlen]; simp)
  rw [h0] at d1
  have hx := Except.ok.inj (k1.symm.trans d1)
  subst hx
  have hJ' := Except.ok.inj (k2.symm.trans d2)
  rw [← hJ, ← hJ']
  refine ⟨k3, fun h k hk => ?_⟩
  have := congrArg (fun l : List (Fin m → K) => l[k]?) (k4 h)
  simpa [hk] using this

theorem eye_isEye {K : Type} [Zero K] [One K] (p : ℕ) : (NArr2.ofMat (1 : Matrix (Fin p) (Fin p) K)).IsEye p p := by
  have h : ∀ i j : Fin p, (i.val = j.val → (1 : Matrix (Fin p) (Fin p) K) i j = 1) ∧
      (i.val ≠ j.val → (1 : Matrix (Fin p) (Fin p) K) i j = 0) := by
    refine fun i j => ⟨fun h => ?_, fun h => ?_⟩
    · rw [Fin.ext h, Matrix.one_apply_eq]
    · exact Matrix.one_apply_ne fun h' => h (congrArg Fin.val h')
  exact ⟨rfl, rfl, h⟩

theorem LQT.raw_shaped {n m : ℕ} {K : Type} (P : LQT n m K) : P.raw.Shaped P.stages.length n m := by
  refine ⟨⟨rfl, rfl, rfl, rfl⟩, fun k hk => ?_⟩
  have hg : ∀ {α : Type} (f : LStage n m K → α), (P.stages.map f)[k]? = some (f P.stages[k]) := by
    intro α f
    rw [List.getElem?_map, List.getElem?_eq_getElem hk]
    rfl
  exact ⟨_, _, _, _, _, _, _, _, _, _, P.stages[k].p, ⟨hg _, hg _, hg _, hg _, hg _, hg _, hg _, hg _, hg _, hg _⟩,
    ⟨rfl, rfl⟩, ⟨rfl, rfl⟩, ⟨rfl, rfl⟩, ⟨rfl, rfl⟩, rfl, ⟨rfl, rfl⟩, rfl, ⟨rfl, rfl⟩, rfl, ⟨rfl, rfl⟩⟩

section Convex
variable {n m : ℕ} {K ι : Type} [Field K] [LinearOrder K] [IsStrictOrderedRing K] [Fintype ι] [DecidableEq ι]

theorem isPSD_diagonal (d : ι → K) (h : ∀ i, 0 ≤ d i) : IsPSD (Matrix.diagonal d) := by
  refine ⟨Matrix.diagonal_transpose d, fun x => ?_⟩
  refine Finset.sum_nonneg fun i _ => ?_
  rw [Matrix.mulVec_diagonal]
  nlinarith [mul_nonneg (h i) (mul_self_nonneg (x i))]

theorem isPD_diagonal (d : ι → K) (h : ∀ i, 0 < d i) : IsPD (Matrix.diagonal d) := by
  intro x hx
  obtain ⟨i, hi⟩ := Function.ne_iff.1 hx
  refine Finset.sum_pos' (fun j _ => ?_) ⟨i, Finset.mem_univ i, ?_⟩
  · rw [Matrix.mulVec_diagonal]
    nlinarith [mul_nonneg (h j).le (mul_self_nonneg (x j))]
  · rw [Matrix.mulVec_diagonal]
    have : 0 < x i * x i := mul_self_pos.2 hi
    nlinarith [mul_pos (h i) this]

theorem isPSD_smul_one (a : K) (h : 0 ≤ a) : IsPSD (a • (1 : Matrix ι ι K)) := by
  rw [Matrix.smul_one_eq_diagonal]
  exact isPSD_diagonal _ fun _ => h

theorem isPD_smul_one (a : K) (h : 0 < a) : IsPD (a • (1 : Matrix ι ι K)) := by
  rw [Matrix.smul_one_eq_diagonal]
  exact isPD_diagonal _ fun _ => h

theorem convex_of {p : ℕ} (F : Matrix (Fin n) (Fin n) K) (L : Matrix (Fin n) (Fin m) K) (X : Matrix (Fin p) (Fin p) K)
    (U : Matrix (Fin m) (Fin m) K) (c : Fin n → K) (H : Matrix (Fin p) (Fin n) K) (r : Fin p → K) (hX : IsPSD X)
    (hU : Uᵀ = U) (hU' : IsPD U) : (⟨p, F, L, X, U, c, H, r, 1, 0, 0⟩ : LStage n m K).Convex := by
  have h : ∀ (y : Fin p → K) (z : Fin m → K), 0 ≤ y ⬝ᵥ X *ᵥ y + 2 * (y ⬝ᵥ (0 : Matrix (Fin p) (Fin m) K) *ᵥ z) + z ⬝ᵥ U *ᵥ z := by
    intro y z
    rw [Matrix.zero_mulVec, dotProduct_zero, mul_zero, add_zero]
    refine add_nonneg (hX.2 y) ?_
    by_cases hz : z = 0
    · rw [hz]; simp
    · exact (hU' z hz).le
  exact ⟨⟨hX.1, hU⟩, by show (1 : Matrix (Fin m) (Fin m) K).det ≠ 0; simp, hU', h⟩

end Convex

end Verif
