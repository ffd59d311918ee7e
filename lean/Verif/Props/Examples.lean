import Verif.Model.Examples
import Verif.Props.FSC
import Verif.Props.FSCCheck
import Mathlib.Algebra.Order.Field.Basic
import Mathlib.Algebra.Order.Field.Rat
import Mathlib.Algebra.BigOperators.Fin
import Mathlib.Data.List.FinRange
import Mathlib.Tactic.FinCases
import Mathlib.Tactic.NormNum
import Mathlib.Tactic.Positivity
import Mathlib.Tactic.Linarith
import Mathlib.Tactic.Ring

/-! Properties C49 (Gilbert-Elliot model) and C51 (tracking game). -/

namespace Verif

variable {K : Type} [Field K] [LinearOrder K] [IsStrictOrderedRing K]

/-- The state with bit `b` and channel regime `s`. -/
def geState (b s : Fin 2) : Fin 4 := ⟨2 * b + s, by omega⟩

/-- C49 (Gilbert-Elliot): for probabilities strictly between zero and one the arrays are positive with rows summing to one; the
regime is a chain with the change probabilities `p0` and `p1`, the bit an independent chain with the change probability `p2`, the
observation differs from the bit with the probability `q0` or `q1` of the regime, and `get_b_list` reads off the bit. -/
theorem C49_gilbert_elliot (p0 p1 p2 q0 q1 : K) (h0 : 0 < p0 ∧ p0 < 1) (h1 : 0 < p1 ∧ p1 < 1) (h2 : 0 < p2 ∧ p2 < 1)
    (h3 : 0 < q0 ∧ q0 < 1) (h4 : 0 < q1 ∧ q1 < 1) :
    (∀ x, (∀ y, 0 < (geHMM p0 p1 p2 q0 q1).Pi x y) ∧ ∑ y, (geHMM p0 p1 p2 q0 q1).Pi x y = 1) ∧
    (∀ x, (∀ y, 0 < (geHMM p0 p1 p2 q0 q1).Po x y) ∧ ∑ y, (geHMM p0 p1 p2 q0 q1).Po x y = 1) ∧
    ((∀ x, 0 < (geHMM p0 p1 p2 q0 q1).prior x) ∧ ∑ x, (geHMM p0 p1 p2 q0 q1).prior x = 1) ∧
    (∀ b s b' s' : Fin 2, (geHMM p0 p1 p2 q0 q1).Pi (geState b s) (geState b' s') =
      (if s' = s then 1 - (if s = 0 then p0 else p1) else if s = 0 then p0 else p1) * (if b' = b then 1 - p2 else p2)) ∧
    (∀ b s y : Fin 2, (geHMM p0 p1 p2 q0 q1).Po (geState b s) y =
      if y = b then 1 - (if s = 0 then q0 else q1) else if s = 0 then q0 else q1) ∧
    ∀ b s : Fin 2, getBList [(geState b s : ℕ)] = [(b : ℕ)] := by
  have g0 := sub_pos.2 h0.2
  have g1 := sub_pos.2 h1.2
  have g2 := sub_pos.2 h2.2
  have g3 := sub_pos.2 h3.2
  have g4 := sub_pos.2 h4.2
  have k0 := h0.1
  have k1 := h1.1
  have k2 := h2.1
  have k3 := h3.1
  have k4 := h4.1
  refine ⟨fun x => ⟨fun y => ?_, ?_⟩, fun x => ⟨fun y => ?_, ?_⟩, ⟨fun x => ?_, ?_⟩, ?_, ?_, ?_⟩
  · fin_cases x <;> fin_cases y <;> refine mul_pos ?_ ?_ <;> assumption
  · fin_cases x <;> rw [Fin.sum_univ_four]
    · show (1 - p0) * (1 - p2) + p0 * (1 - p2) + (1 - p0) * p2 + p0 * p2 = 1
      ring
    · show p1 * (1 - p2) + (1 - p1) * (1 - p2) + p1 * p2 + (1 - p1) * p2 = 1
      ring
    · show (1 - p0) * p2 + p0 * p2 + (1 - p0) * (1 - p2) + p0 * (1 - p2) = 1
      ring
    · show p1 * p2 + (1 - p1) * p2 + p1 * (1 - p2) + (1 - p1) * (1 - p2) = 1
      ring
  · fin_cases x <;> fin_cases y <;> assumption
  · fin_cases x <;> rw [Fin.sum_univ_two]
    · exact sub_add_cancel 1 q0
    · exact sub_add_cancel 1 q1
    · exact add_sub_cancel q0 1
    · exact add_sub_cancel q1 1
  · simp [geHMM]
  · simp [geHMM]
  · intro b s b' s'
    fin_cases b <;> fin_cases s <;> fin_cases b' <;> fin_cases s' <;> rfl
  · intro b s y
    fin_cases b <;> fin_cases s <;> fin_cases y <;> rfl
  · decide

/-- The constants of the code meet the hypotheses. -/
example : (0 < (3 / 100 : ℚ) ∧ (3 / 100 : ℚ) < 1) ∧ (geModel (K := ℚ)).Pi 0 3 = 15 / 10000 := by
  constructor
  · norm_num
  · decide +kernel

/-- The arrays of `r` hold the transition functions and costs of `M`. -/
def RawFSC.Represents {n m : ℕ} (r : RawFSC ℕ K) (M : FSC n m K) : Prop :=
  r.f.length = M.stages.length ∧ r.L.length = M.stages.length ∧
  (∀ (k : ℕ) (s : FStage n m K), M.stages[k]? = some s → ∃ a b, r.f[k]? = some a ∧ r.L[k]? = some b ∧
    a.rows = n ∧ a.cols = m ∧ b.rows = n ∧ b.cols = m ∧
    (∀ (x : Fin n) (u : Fin m) (hx : x.val < a.rows) (hu : u.val < a.cols), a.data ⟨x, hx⟩ ⟨u, hu⟩ = (s.f x u : ℕ)) ∧
    (∀ (x : Fin n) (u : Fin m) (hx : x.val < b.rows) (hu : u.val < b.cols), b.data ⟨x, hx⟩ ⟨u, hu⟩ = s.L x u)) ∧
  r.LT.len = n ∧ ∀ (x : Fin n) (hx : x.val < r.LT.len), r.LT.data ⟨x, hx⟩ = M.LT x

/-- C51: for every track with at least one column `getFSC` succeeds, and for at least one lane it is a control problem on the lanes:
transitions are valid states at most one lane away, the middle control stays, every lane is reached from its neighbours, the stage
cost is the cell plus one for moving, and the terminal cost is zero; a track without columns raises `IndexError`. -/
theorem C51_getFSC (track : NArr2 K) :
    (track.cols = 0 → laneGetFSC track = .error .indexError) ∧
    (0 < track.cols → ∃ r, laneGetFSC track = .ok r) ∧
    (0 < track.cols → 0 < track.rows → ∃ r, ∃ M : FSC track.rows 3 K, laneGetFSC track = .ok r ∧ r.Represents M ∧
      M.stages.length = track.cols ∧ (∀ x, M.LT x = 0) ∧
      ∀ (k : Fin track.cols) (s : FStage track.rows 3 K), M.stages[k.val]? = some s →
        (∀ x, s.f x 1 = x ∧ (s.f x 0 : ℕ) + 1 = max x.val 1 ∧ (s.f x 2 : ℕ) = min (x.val + 1) (track.rows - 1)) ∧
        (∀ x u, s.L x u = track.data x k + if u = 1 then 0 else 1)) := by
  have hok : 0 < track.cols → ∃ r, laneGetFSC track = .ok r ∧ r = ⟨List.replicate track.cols
      ⟨track.rows, 3, fun x => ![x - 1, x, min (track.rows - 1) (x + 1)]⟩,
      (List.finRange track.cols).map (fun k => (⟨track.rows, 3, fun x u => track.data x k + (![1, 0, 1] : Fin 3 → K) u⟩ : NArr2 K)),
      ⟨track.rows, fun _ => 0⟩⟩ := by
    intro hc
    refine ⟨_, ?_, rfl⟩
    unfold laneGetFSC
    rw [C12_ok_iff]
    refine ⟨track.cols, track.rows, 3, hc, fun _ h => h.elim, ⟨by simp, fun b hb => List.eq_of_mem_replicate hb⟩, ⟨rfl, by simp⟩, ?_,
      ?_, rfl, ?_, ?_⟩
    · intro a ha
      rw [List.eq_of_mem_replicate ha]
      exact ⟨rfl, rfl⟩
    · intro a ha
      obtain ⟨k, -, rfl⟩ := List.mem_map.1 ha
      exact ⟨rfl, rfl⟩
    · intro a ha
      cases ha
      rfl
    · intro h
      cases h
  refine ⟨fun h => ?_, fun h => ?_, fun hc hr => ?_⟩
  · unfold laneGetFSC
    rw [(C12_errors _ _ _ _ _).2]
    refine ⟨⟨rfl, by simp⟩, ⟨?_, ?_⟩, fun _ h => h.elim⟩
    · symm
      rw [List.map_eq_nil_iff, List.finRange_eq_nil_iff]
      exact h
    · simp [h]
  · obtain ⟨r, h1, -⟩ := hok h
    exact ⟨r, h1⟩
  · obtain ⟨r, h1, rfl⟩ := hok hc
    let stg : Fin track.cols → FStage track.rows 3 K := fun k =>
      ⟨fun x => ![⟨x - 1, by omega⟩, x, ⟨min (track.rows - 1) (x + 1), by omega⟩],
        fun x u => track.data x k + (![1, 0, 1] : Fin 3 → K) u⟩
    refine ⟨_, ⟨(List.finRange track.cols).map stg, fun _ => 0⟩, h1, ?_, by simp, fun _ => rfl, ?_⟩
    · refine ⟨by simp, by simp, ?_, rfl, fun _ _ => rfl⟩
      intro k s hs
      have hk : k < track.cols := by
        by_contra hcon
        rw [List.getElem?_eq_none (by simpa using hcon)] at hs
        cases hs
      refine ⟨⟨track.rows, 3, fun x => ![x - 1, x, min (track.rows - 1) (x + 1)]⟩,
        ⟨track.rows, 3, fun x u => track.data x ⟨k, hk⟩ + (![1, 0, 1] : Fin 3 → K) u⟩, by simp [hk], by simp [hk], rfl, rfl, rfl, rfl, ?_, ?_⟩
      · intro x u hx hu
        have : s = stg ⟨k, hk⟩ := by simpa [hk] using hs.symm
        subst this
        fin_cases u <;> rfl
      · intro x u hx hu
        have : s = stg ⟨k, hk⟩ := by simpa [hk] using hs.symm
        subst this
        fin_cases u <;> rfl
    · intro k s hs
      have : s = stg k := by simpa using hs.symm
      subst this
      refine ⟨fun x => ⟨rfl, ?_, ?_⟩, fun x u => ?_⟩
      · show x.val - 1 + 1 = max x.val 1
        omega
      · show min (track.rows - 1) (x.val + 1) = min (x.val + 1) (track.rows - 1)
        omega
      · fin_cases u <;> simp [stg]

/-- C51: on tracks with cells between `0` and `B` the parallel pass with the sentinel `1e20` returns the sequential result, as long as
the horizon times the largest cost stays below the sentinel. -/
theorem C51_parallel (track : NArr2 K) (hc : 0 < track.cols) (hr : 0 < track.rows) (B : K) (hB : 0 ≤ B)
    (hcell : ∀ x k, 0 ≤ track.data x k ∧ track.data x k ≤ B)
    (hbound : (2 * track.cols + 1 : ℕ) * (B + 1) ≤ 10 ^ 20) :
    ∃ r, ∃ M : FSC track.rows 3 K, laneGetFSC track = .ok r ∧ r.Represents M ∧
      ∃ _ : NeZero track.rows, M.parBackwardPass (10 ^ 20) = .ok M.seqBackwardPass := by
  obtain ⟨r, M, h1, h2, h3, h4, h5⟩ := (C51_getFSC track).2.2 hc hr
  refine ⟨r, M, h1, h2, ⟨hr.ne'⟩, ?_⟩
  haveI : NeZero track.rows := ⟨hr.ne'⟩
  refine C07_par_eq_seq_bounded (10 ^ 20) (B + 1) M ?_ ?_ ?_ ?_
  · intro h
    rw [h] at h3
    simp at h3
    omega
  · intro x
    rw [h4, abs_zero]
    linarith
  · intro s hs x u
    obtain ⟨k, hk, he⟩ := List.getElem_of_mem hs
    have hs' : M.stages[k]? = some s := by rw [List.getElem?_eq_getElem hk, he]
    have := (h5 ⟨k, by omega⟩ s hs').2 x u
    rw [this]
    have hx := hcell x ⟨k, by omega⟩
    rw [abs_le]
    split_ifs <;> constructor <;> linarith
  · rw [h3, nsmul_eq_mul]
    exact hbound

/-- The lane of walk `r` after `k` steps. -/
def lanePath (rnd : ℕ → ℕ → K) (nx r : ℕ) : ℕ → ℕ
  | 0 => nx / 2
  | k + 1 => laneStep nx (lanePath rnd nx r k) (rnd r k)

/-- The factor at distance `d`. -/
def laneFactor (d : ℤ) : K :=
  if d = 0 then 1 / 10 else if d = 1 ∨ d = -1 then 3 / 10 else if d = 2 ∨ d = -2 then 5 / 10 else 1

theorem laneStep_lt (nx x : ℕ) (u : K) (h : x < nx) : laneStep nx x u < nx := by
  unfold laneStep
  split_ifs <;> omega

theorem laneStep_near (nx x : ℕ) (u : K) : laneStep nx x u ≤ x + 1 ∧ x ≤ laneStep nx x u + 1 := by
  unfold laneStep
  split_ifs <;> omega

omit [LinearOrder K] [IsStrictOrderedRing K] in
theorem laneStamp_apply (nx x k : ℕ) (track : ℕ → ℕ → K) (y j : ℕ) (hy : y < nx) :
    laneStamp nx x k track y j = if j = k then track y j * laneFactor ((y : ℤ) - x) else track y j := by
  have step : ∀ (t : ℕ → ℕ → K) (z : ℤ) (c : K),
      (if 0 ≤ z ∧ z < nx then Function.update t z.toNat (Function.update (t z.toNat) k (t z.toNat k * c)) else t) y j =
      if j = k ∧ z = y then t y j * c else t y j := by
    intro t z c
    by_cases hz : z = y
    · subst hz
      rw [if_pos ⟨by omega, by omega⟩, Int.toNat_natCast, Function.update_self]
      by_cases hj : j = k
      · subst hj; simp
      · rw [Function.update_of_ne hj]; simp [hj]
    · have h1 : ¬ (j = k ∧ z = y) := fun h => hz h.2
      rw [if_neg h1]
      split_ifs with h
      · rw [Function.update_of_ne (by omega)]
      · rfl
  unfold laneStamp
  have e : List.range (laneMask (K := K)).length = [0, 1, 2, 3, 4] := rfl
  rw [e]
  simp only [List.foldl_cons, List.foldl_nil]
  rw [step, step, step, step, step]
  by_cases hj : j = k
  · subst hj
    simp only [true_and, if_true, laneMask, List.getD_cons_zero, List.getD_cons_succ]
    have e0 : ((x : ℤ) - 2 + ((0 : ℕ) : ℤ) = y) ↔ (y : ℤ) - x = -2 := by omega
    have e1 : ((x : ℤ) - 2 + ((1 : ℕ) : ℤ) = y) ↔ (y : ℤ) - x = -1 := by omega
    have e2 : ((x : ℤ) - 2 + ((2 : ℕ) : ℤ) = y) ↔ (y : ℤ) - x = 0 := by omega
    have e3 : ((x : ℤ) - 2 + ((3 : ℕ) : ℤ) = y) ↔ (y : ℤ) - x = 1 := by omega
    have e4 : ((x : ℤ) - 2 + ((4 : ℕ) : ℤ) = y) ↔ (y : ℤ) - x = 2 := by omega
    simp only [e0, e1, e2, e3, e4]
    generalize (y : ℤ) - x = d
    unfold laneFactor
    by_cases h0 : d = 0
    · subst h0; simp
    · by_cases h1 : d = 1
      · subst h1; simp
      · by_cases h2 : d = -1
        · subst h2; simp
        · by_cases h3 : d = 2
          · subst h3; simp
          · by_cases h4 : d = -2
            · subst h4; simp
            · simp [h0, h1, h2, h3, h4]
  · simp [hj]

theorem laneWalk_eq (rnd : ℕ → ℕ → K) (nx r T : ℕ) (track : ℕ → ℕ → K) :
    ((List.range T).foldl (fun (st : ℕ × (ℕ → ℕ → K)) k =>
      (laneStep nx st.1 (rnd r k), laneStamp nx (laneStep nx st.1 (rnd r k)) k st.2)) (nx / 2, track)).1 = lanePath rnd nx r T ∧
    ∀ y < nx, ∀ j, ((List.range T).foldl (fun (st : ℕ × (ℕ → ℕ → K)) k =>
      (laneStep nx st.1 (rnd r k), laneStamp nx (laneStep nx st.1 (rnd r k)) k st.2)) (nx / 2, track)).2 y j =
      if j < T then track y j * laneFactor ((y : ℤ) - lanePath rnd nx r (j + 1)) else track y j := by
  induction T with
  | zero => exact ⟨rfl, fun y _ j => by simp⟩
  | succ T ih =>
    rw [List.range_succ, List.foldl_append]
    simp only [List.foldl_cons, List.foldl_nil]
    rw [ih.1]
    refine ⟨rfl, fun y hy j => ?_⟩
    rw [laneStamp_apply _ _ _ _ _ _ hy, ih.2 y hy]
    by_cases hj : j = T
    · subst hj
      rw [if_pos rfl, if_neg (lt_irrefl _), if_pos (Nat.lt_succ_self _)]
      rfl
    · rw [if_neg hj]
      have : j < T + 1 ↔ j < T := by omega
      simp only [this]

/-- C51: for all random numbers the generated track has the requested shape, every cell is the product of the masks of the two walks,
which start in the middle, stay on the lanes and move at most one lane; cells lie between `1/100` and `1`; the start is a valid lane. -/
theorem C51_genData (rnd : ℕ → ℕ → K) (T nx : ℕ) :
    (laneGenData rnd T nx).1.rows = nx ∧ (laneGenData rnd T nx).1.cols = T ∧ (laneGenData rnd T nx).2 = nx / 2 ∧
    (0 < nx → ∀ r k, lanePath rnd nx r k < nx ∧ lanePath rnd nx r (k + 1) ≤ lanePath rnd nx r k + 1 ∧
      lanePath rnd nx r k ≤ lanePath rnd nx r (k + 1) + 1) ∧
    (∀ (y : Fin (laneGenData rnd T nx).1.rows) (k : Fin (laneGenData rnd T nx).1.cols),
      (laneGenData rnd T nx).1.data y k =
        laneFactor ((y.val : ℤ) - lanePath rnd nx 0 (k.val + 1)) * laneFactor ((y.val : ℤ) - lanePath rnd nx 1 (k.val + 1)) ∧
      1 / 100 ≤ (laneGenData rnd T nx).1.data y k ∧ (laneGenData rnd T nx).1.data y k ≤ 1) := by
  have hf : ∀ d : ℤ, (1 / 10 : K) ≤ laneFactor d ∧ laneFactor d ≤ (1 : K) := by
    intro d
    unfold laneFactor
    split_ifs <;> constructor <;> norm_num
  refine ⟨rfl, rfl, rfl, ?_, ?_⟩
  · intro hn r k
    refine ⟨?_, laneStep_near _ _ _⟩
    induction k with
    | zero => exact Nat.div_lt_self hn (by norm_num)
    | succ k ih => exact laneStep_lt _ _ _ ih
  · intro y k
    have hy : y.val < nx := y.isLt
    have hk : k.val < T := k.isLt
    have e : (laneGenData rnd T nx).1.data y k =
        laneFactor ((y.val : ℤ) - lanePath rnd nx 0 (k.val + 1)) * laneFactor ((y.val : ℤ) - lanePath rnd nx 1 (k.val + 1)) := by
      unfold laneGenData
      dsimp only
      have e2 : List.range 2 = [0, 1] := rfl
      simp only [e2, List.foldl_cons, List.foldl_nil]
      rw [(laneWalk_eq rnd nx 1 T _).2 y.val hy k.val, if_pos hk, (laneWalk_eq rnd nx 0 T _).2 y.val hy k.val, if_pos hk, one_mul]
    refine ⟨e, ?_, ?_⟩
    · rw [e]
      have h1 := hf ((y.val : ℤ) - lanePath rnd nx 0 (k.val + 1))
      have h2 := hf ((y.val : ℤ) - lanePath rnd nx 1 (k.val + 1))
      calc (1 / 100 : K) = 1 / 10 * (1 / 10) := by norm_num
        _ ≤ _ := mul_le_mul h1.1 h2.1 (by norm_num) (le_trans (by norm_num) h1.1)
    · rw [e]
      have h1 := hf ((y.val : ℤ) - lanePath rnd nx 0 (k.val + 1))
      have h2 := hf ((y.val : ℤ) - lanePath rnd nx 1 (k.val + 1))
      exact mul_le_one₀ h1.2 (le_trans (by norm_num) h2.1) h2.2

/-- A generated track and a walk that moves. -/
example : (lanePath (K := ℚ) (fun _ k => if k = 0 then 9 / 10 else 1 / 10) 5 0 1 = 3) ∧
    (lanePath (K := ℚ) (fun _ k => if k = 0 then 9 / 10 else 1 / 10) 5 0 3 = 1) := by
  constructor <;> decide +kernel

/-- A track meeting the hypotheses of `C51_parallel`. -/
example : (∀ (x : Fin 3) (k : Fin 2), (0 : ℚ) ≤ (⟨3, 2, fun x k => (x.val + k.val : ℚ) / 10⟩ : NArr2 ℚ).data x k ∧
    (⟨3, 2, fun x k => (x.val + k.val : ℚ) / 10⟩ : NArr2 ℚ).data x k ≤ 1) ∧ ((2 * 2 + 1 : ℕ) : ℚ) * (1 + 1) ≤ 10 ^ 20 := by
  decide +kernel

end Verif
