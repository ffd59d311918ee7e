import Verif.Model.FSCTests
import Verif.Proof.FSCPar
import Verif.Proof.FSCBound
import Mathlib.Tactic.Linarith
import Mathlib.Tactic.NormNum

/-!
Helpers for the unit tests of `fsc_np.py`: lower bounds on costs, uniqueness with a gap, and the loops of the tests.
-/

namespace Verif

variable {n m : ℕ}

/-- `W, Ws` are lower bounds of the costs-to-go. -/
def LowerTable (LT : Fin n → ℤ) : (Fin n → ℤ) → List (FStage n m ℤ) → List (Fin n → ℤ) → Prop
  | W, [], [] => ∀ x, W x ≤ LT x
  | W, s :: ss, W' :: Ws => (∀ x u, W x ≤ s.L x u + W' (s.f x u)) ∧ LowerTable LT W' ss Ws
  | _, _, _ => False

/-- Leaving the path of `us` costs more than the lower bound allows. -/
def StrictPath : (Fin n → ℤ) → List (FStage n m ℤ) → List (Fin n → ℤ) → Fin n → List (Fin m) → Prop
  | _, [], [], _, [] => True
  | W, s :: ss, W' :: Ws, x, u :: us =>
    (∀ u', u' ≠ u → W x < s.L x u' + W' (s.f x u')) ∧ StrictPath W' ss Ws (s.f x u) us
  | _, _, _, _, _ => False

theorem LowerTable.le {LT : Fin n → ℤ} {W : Fin n → ℤ} {ss : List (FStage n m ℤ)} {Ws : List (Fin n → ℤ)}
    (h : LowerTable LT W ss Ws) (x : Fin n) (us : List (Fin m)) (hl : us.length = ss.length) :
    W x ≤ totalCost LT ss x us := by
  induction ss generalizing W Ws x us with
  | nil =>
    cases Ws with
    | nil => exact h x
    | cons _ _ => exact h.elim
  | cons s ss ih =>
    cases Ws with
    | nil => exact h.elim
    | cons W' Ws =>
      cases us with
      | nil => simp at hl
      | cons u us =>
        have h1 := h.1 x u
        have h2 := ih h.2 (s.f x u) us (by simpa using hl)
        show W x ≤ s.L x u + totalCost LT ss (s.f x u) us
        omega

theorem StrictPath.lt {LT : Fin n → ℤ} {W : Fin n → ℤ} {ss : List (FStage n m ℤ)} {Ws : List (Fin n → ℤ)}
    (h : LowerTable LT W ss Ws) {x : Fin n} {us : List (Fin m)} (hp : StrictPath W ss Ws x us)
    (vs : List (Fin m)) (hl : vs.length = ss.length) (hne : vs ≠ us) :
    W x < totalCost LT ss x vs := by
  induction ss generalizing W Ws x us vs with
  | nil =>
    cases Ws with
    | cons _ _ => exact h.elim
    | nil =>
      cases us with
      | nil => simp at hl; exact absurd hl hne
      | cons _ _ => exact hp.elim
  | cons s ss ih =>
    cases Ws with
    | nil => exact h.elim
    | cons W' Ws =>
      cases us with
      | nil => exact hp.elim
      | cons u us =>
        cases vs with
        | nil => simp at hl
        | cons v vs =>
          have hl' : vs.length = ss.length := by simpa using hl
          show W x < s.L x v + totalCost LT ss (s.f x v) vs
          by_cases hv : v = u
          · subst hv
            have h1 := h.1 x v
            have h2 := ih h.2 hp.2 vs hl' (by rintro rfl; exact hne rfl)
            omega
          · have h1 := hp.1 v hv
            have h2 := h.2.le (s.f x v) vs hl'
            omega

/-- Stage costs between those of an integer problem and `c` more. -/
theorem totalCost_noise (c : ℝ) {LT : Fin n → ℝ} {LTz : Fin n → ℤ} (hLT : ∀ x, LT x = LTz x)
    {ss : List (FStage n m ℝ)} {zs : List (FStage n m ℤ)}
    (h : List.Forall₂ (fun s z => s.f = z.f ∧ ∀ x u, (z.L x u : ℝ) ≤ s.L x u ∧ s.L x u ≤ z.L x u + c) ss zs)
    (x : Fin n) (us : List (Fin m)) (hl : us.length = ss.length) :
    ((totalCost LTz zs x us : ℤ) : ℝ) ≤ totalCost LT ss x us ∧
      totalCost LT ss x us ≤ (totalCost LTz zs x us : ℤ) + ss.length * c := by
  induction h generalizing x us with
  | nil => simp [totalCost, hLT]
  | @cons s z ss zs hs _ ih =>
    cases us with
    | nil => simp at hl
    | cons u us =>
      have h2 := ih (z.f x u) us (by simpa using hl)
      have h1 := hs.2 x u
      simp only [totalCost, hs.1, Int.cast_add, List.length_cons, Nat.cast_add, Nat.cast_one]
      constructor <;> linarith

/-- The integer problem of the tests. -/
def testZ : List (FStage 3 3 ℤ) :=
  (List.finRange 9).map fun k => ⟨testDyn, fun x u => testTrack x k + testUCost u⟩

/-- The optimal controls of the tests. -/
def testUs : List (Fin 3) := [2, 1, 1, 1, 0, 0, 1, 1, 1]

theorem testZ_gap (vs : List (Fin 3)) (hl : vs.length = 9) (hne : vs ≠ testUs) :
    8 ≤ totalCost (fun _ => 1) testZ testX0 vs := by
  have h : LowerTable (fun _ => 1) ![9, 7, 6] testZ
      [![10, 8, 6], ![12, 9, 6], ![13, 9, 6], ![11, 7, 6], ![8, 5, 11], ![3, 5, 10], ![2, 4, 8], ![1, 2, 6], ![1, 1, 1]] :=
    ⟨by decide, by decide, by decide, by decide, by decide, by decide, by decide, by decide, by decide, fun x => by revert x; decide⟩
  have hp : StrictPath ![9, 7, 6] testZ
      [![10, 8, 6], ![12, 9, 6], ![13, 9, 6], ![11, 7, 6], ![8, 5, 11], ![3, 5, 10], ![2, 4, 8], ![1, 2, 6], ![1, 1, 1]]
      testX0 testUs :=
    ⟨by decide, by decide, by decide, by decide, by decide, by decide, by decide, by decide, by decide, trivial⟩
  exact hp.lt h vs hl hne

theorem testZ_cost : totalCost (fun _ => 1) testZ testX0 testUs = 7 := by decide

theorem testFSC_forall₂ {w : Fin 3 → Fin 9 → ℝ} (hw : ∀ x k, 0 ≤ w x k ∧ w x k ≤ 1) :
    List.Forall₂ (fun (s : FStage 3 3 ℝ) (z : FStage 3 3 ℤ) => s.f = z.f ∧
      ∀ x u, (z.L x u : ℝ) ≤ s.L x u ∧ s.L x u ≤ z.L x u + 1 / 100) (testFSC w).stages testZ := by
  unfold testFSC testZ
  rw [List.forall₂_map_left_iff, List.forall₂_map_right_iff, List.forall₂_same]
  intro k _
  refine ⟨rfl, fun x u => ?_⟩
  have := hw x k
  simp only [testL, Int.cast_add]
  constructor <;> linarith

theorem testFSC_length (w : Fin 3 → Fin 9 → ℝ) : (testFSC w).stages.length = 9 := by simp [testFSC]

theorem testFSC_gap {w : Fin 3 → Fin 9 → ℝ} (hw : ∀ x k, 0 ≤ w x k ∧ w x k ≤ 1) :
    totalCost (testFSC w).LT (testFSC w).stages testX0 testUs < 8 ∧
    ∀ vs : List (Fin 3), vs.length = 9 → vs ≠ testUs →
      8 ≤ totalCost (testFSC w).LT (testFSC w).stages testX0 vs := by
  have hn := totalCost_noise (1 / 100) (LT := (testFSC w).LT) (LTz := fun _ => 1) (fun _ => by simp [testFSC])
    (testFSC_forall₂ hw) testX0
  constructor
  · have := (hn testUs (by rw [testFSC_length]; rfl)).2
    rw [testZ_cost, testFSC_length] at this
    norm_num at this
    linarith
  · intro vs hl hne
    have := (hn vs (by rw [testFSC_length]; exact hl)).1
    have h8 : (8 : ℝ) ≤ (totalCost (fun _ => 1) testZ testX0 vs : ℤ) := by exact_mod_cast testZ_gap vs hl hne
    linarith

theorem testFSC_optimal_iff {w : Fin 3 → Fin 9 → ℝ} (hw : ∀ x k, 0 ≤ w x k ∧ w x k ≤ 1) (vs : List (Fin 3)) :
    IsOptimal (testFSC w).LT (testFSC w).stages testX0 vs ↔ vs = testUs := by
  obtain ⟨h1, h2⟩ := testFSC_gap hw
  unfold IsOptimal
  rw [testFSC_length]
  constructor
  · rintro ⟨hl, h⟩
    by_contra hne
    have := h testUs rfl
    have := h2 vs hl hne
    linarith
  · rintro rfl
    refine ⟨rfl, fun us' hl => ?_⟩
    by_cases hne : us' = testUs
    · rw [hne]
    · have := h2 us' hl hne
      linarith

theorem testTrack_le (x : Fin 3) (k : Fin 9) : 0 ≤ testTrack x k ∧ testTrack x k ≤ 5 := by
  revert x k; decide

theorem testUCost_le (u : Fin 3) : 0 ≤ testUCost u ∧ testUCost u ≤ 1 := by
  revert u; decide

theorem testFSC_bound {w : Fin 3 → Fin 9 → ℝ} (hw : ∀ x k, 0 ≤ w x k ∧ w x k ≤ 1) :
    (∀ x, |(testFSC w).LT x| ≤ 7) ∧ ∀ s ∈ (testFSC w).stages, ∀ x u, |s.L x u| ≤ 7 := by
  refine ⟨fun x => by simp [testFSC], fun s hs x u => ?_⟩
  obtain ⟨k, _, rfl⟩ := List.mem_map.1 hs
  have h1 := hw x k
  have h2 : (0 : ℝ) ≤ testTrack x k ∧ (testTrack x k : ℝ) ≤ 5 := by exact_mod_cast testTrack_le x k
  have h3 : (0 : ℝ) ≤ testUCost u ∧ (testUCost u : ℝ) ≤ 1 := by exact_mod_cast testUCost_le u
  simp only [testL, abs_le]
  constructor <;> linarith

theorem normDiff_self (a : Fin n → ℝ) : normDiff a a = 0 := by simp [normDiff, l2norm]

theorem testTol_pos : 0 < testTol := by unfold testTol; norm_num

theorem listMax_zero {l : List ℝ} (hne : l ≠ []) (h : ∀ a ∈ l, a = 0) : listMax l = .ok 0 := by
  cases l with
  | nil => exact absurd rfl hne
  | cons a l =>
    have ha : a = 0 := h a (by simp)
    have hl : ∀ l : List ℝ, (∀ a ∈ l, a = 0) → l.foldl max (0 : ℝ) = 0 := by
      intro l
      induction l with
      | nil => intro _; rfl
      | cons b l ih =>
        intro h
        rw [List.foldl_cons, h b (by simp), max_self]
        exact ih fun a ha => h a (by simp [ha])
    simp only [listMax, ha]
    rw [hl l fun a ha => h a (by simp [ha])]

/-- The loop of `test_par_simple` after its first iteration. -/
theorem parSimple_loop [NeZero n] [NeZero m] (inf : ℝ) (M : FSC n m ℝ)
    (hv : ∀ k ≤ M.stages.length, parVal inf M.LT (M.stages.drop k) = valueFn M.LT (M.stages.drop k))
    (f : (Fin n → Fin n → ℝ) × Prop → ℕ → Py ((Fin n → Fin n → ℝ) × Prop))
    (hf : ∀ (V : Fin n → Fin n → ℝ) (P : Prop) k (hk : k < M.stages.length), P →
      ∃ P' : Prop, f (V, P) k = .ok (combineV (stageElem inf M.stages[k]) V, P') ∧
        ((∀ x, combineV (stageElem inf M.stages[k]) V x 0 = valueFn M.LT (M.stages.drop k) x) → P'))
    (j : ℕ) (hj : j ≤ M.stages.length) (P : Prop) (hP : P) :
    ∃ r : (Fin n → Fin n → ℝ) × Prop,
      (List.range j).reverse.foldlM f ((fun x _ => parVal inf M.LT (M.stages.drop j) x), P) = .ok r ∧ r.2 := by
  induction j generalizing P with
  | zero => exact ⟨_, rfl, hP⟩
  | succ j ih =>
    obtain ⟨P', h1, h2⟩ := hf (fun x _ => parVal inf M.LT (M.stages.drop (j + 1)) x) P j hj hP
    have e : combineV (stageElem inf M.stages[j]) (fun x _ => parVal inf M.LT (M.stages.drop (j + 1)) x) =
        fun x _ => parVal inf M.LT (M.stages.drop j) x := by
      funext x z
      rw [List.drop_eq_getElem_cons (i := j) hj]
      rfl
    rw [e] at h1 h2
    obtain ⟨r, hr, hr2⟩ := ih (by omega) P' (h2 fun x => by rw [hv j (by omega)])
    refine ⟨r, ?_, hr2⟩
    rw [List.range_succ, List.reverse_append, List.reverse_singleton, List.singleton_append, List.foldlM_cons, h1]
    exact hr

end Verif
