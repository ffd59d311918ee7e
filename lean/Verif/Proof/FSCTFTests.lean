import Verif.Model.FSCTFTests
import Verif.Proof.FSCTests

/-!
Helpers for the unit tests of `fsc_tf.py`.
-/

namespace Verif

variable {n m : ℕ}

/-- Stage costs between `r` times those of an integer problem and `c` more. -/
theorem totalCost_scaled (r c : ℝ) {LT : Fin n → ℝ} {LTz : Fin n → ℤ} (hLT : ∀ x, LT x = r * LTz x)
    {ss : List (FStage n m ℝ)} {zs : List (FStage n m ℤ)}
    (h : List.Forall₂ (fun s z => s.f = z.f ∧ ∀ x u, r * (z.L x u : ℝ) ≤ s.L x u ∧ s.L x u ≤ r * z.L x u + c) ss zs)
    (x : Fin n) (us : List (Fin m)) (hl : us.length = ss.length) :
    r * ((totalCost LTz zs x us : ℤ) : ℝ) ≤ totalCost LT ss x us ∧
      totalCost LT ss x us ≤ r * (totalCost LTz zs x us : ℤ) + ss.length * c := by
  induction h generalizing x us with
  | nil => simp [totalCost, hLT]
  | @cons s z ss zs hs _ ih =>
    cases us with
    | nil => simp at hl
    | cons u us =>
      have h2 := ih (z.f x u) us (by simpa using hl)
      have h1 := hs.2 x u
      simp only [totalCost, hs.1, Int.cast_add, List.length_cons, Nat.cast_add, Nat.cast_one]
      constructor <;> linarith

/-- Ten times the test problem without noise. -/
def testZ4 : List (FStage 4 3 ℤ) :=
  (List.finRange 9).map fun k => ⟨testDyn4, fun x u => 10 * testTrack4 x k + 10 * testUCost u⟩

/-- Ten times the terminal costs. -/
def testLTZ4 : Fin 4 → ℤ := ![9, 10, 11, 12]

/-- The optimal controls of the tests. -/
def testUs4 : List (Fin 3) := [2, 2, 1, 1, 0, 0, 0, 1, 1]

theorem testZ4_gap (vs : List (Fin 3)) (hl : vs.length = 9) (hne : vs ≠ testUs4) :
    110 ≤ totalCost testLTZ4 testZ4 1 vs := by
  have h : LowerTable testLTZ4 ![119, 109, 89, 79] testZ4
      [![119, 119, 99, 79], ![119, 109, 109, 79], ![129, 89, 99, 79], ![109, 69, 79, 79], ![79, 49, 69, 121],
        ![29, 49, 61, 101], ![19, 39, 41, 81], ![9, 20, 21, 62], ![9, 10, 11, 12]] :=
    ⟨by decide, by decide, by decide, by decide, by decide, by decide, by decide, by decide, by decide,
      fun x => by revert x; decide⟩
  have hp : StrictPath ![119, 109, 89, 79] testZ4
      [![119, 119, 99, 79], ![119, 109, 109, 79], ![129, 89, 99, 79], ![109, 69, 79, 79], ![79, 49, 69, 121],
        ![29, 49, 61, 101], ![19, 39, 41, 81], ![9, 20, 21, 62], ![9, 10, 11, 12]] 1 testUs4 :=
    ⟨by decide, by decide, by decide, by decide, by decide, by decide, by decide, by decide, by decide, trivial⟩
  exact hp.lt h vs hl hne

theorem testZ4_cost : totalCost testLTZ4 testZ4 1 testUs4 = 109 := by decide

theorem testFSC4_length (w : Fin 4 → Fin 9 → ℝ) : (testFSC4 w).stages.length = 9 := by simp [testFSC4]

theorem testFSC4_noise {w : Fin 4 → Fin 9 → ℝ} (hw : ∀ x k, 0 ≤ w x k ∧ w x k ≤ 1) (vs : List (Fin 3))
    (hl : vs.length = 9) :
    1 / 10 * ((totalCost testLTZ4 testZ4 1 vs : ℤ) : ℝ) ≤ totalCost (testFSC4 w).LT (testFSC4 w).stages 1 vs ∧
    totalCost (testFSC4 w).LT (testFSC4 w).stages 1 vs ≤ 1 / 10 * (totalCost testLTZ4 testZ4 1 vs : ℤ) + 9 * (1 / 100) := by
  have := totalCost_scaled (1 / 10) (1 / 100) (LT := (testFSC4 w).LT) (LTz := testLTZ4)
    (ss := (testFSC4 w).stages) (zs := testZ4) ?_ ?_ 1 vs (by rw [testFSC4_length]; exact hl)
  · rw [testFSC4_length] at this
    exact_mod_cast this
  · intro x
    have e : ∀ (a : ℝ) (z : ℤ), (testFSC4 w).LT x = a → testLTZ4 x = z → a = 1 / 10 * z →
        (testFSC4 w).LT x = 1 / 10 * testLTZ4 x := by
      rintro a z h1 h2 h3
      rw [h1, h2, h3]
    match x with
    | 0 => exact e (9 / 10) 9 rfl rfl (by norm_num)
    | 1 => exact e 1 10 rfl rfl (by norm_num)
    | 2 => exact e (11 / 10) 11 rfl rfl (by norm_num)
    | 3 => exact e (12 / 10) 12 rfl rfl (by norm_num)
  · unfold testFSC4 testZ4
    rw [List.forall₂_map_left_iff, List.forall₂_map_right_iff, List.forall₂_same]
    intro k _
    refine ⟨rfl, fun x u => ?_⟩
    have := hw x k
    simp only [testL4]
    push_cast
    constructor <;> linarith

theorem testFSC4_gap {w : Fin 4 → Fin 9 → ℝ} (hw : ∀ x k, 0 ≤ w x k ∧ w x k ≤ 1) :
    totalCost (testFSC4 w).LT (testFSC4 w).stages 1 testUs4 ≤ 1099 / 100 ∧
    ∀ vs : List (Fin 3), vs.length = 9 → vs ≠ testUs4 → 11 ≤ totalCost (testFSC4 w).LT (testFSC4 w).stages 1 vs := by
  constructor
  · have := (testFSC4_noise hw testUs4 rfl).2
    rw [testZ4_cost] at this
    norm_num at this
    linarith
  · intro vs hl hne
    have := (testFSC4_noise hw vs hl).1
    have h : (110 : ℝ) ≤ (totalCost testLTZ4 testZ4 1 vs : ℤ) := by exact_mod_cast testZ4_gap vs hl hne
    linarith

theorem testFSC4_optimal_iff {w : Fin 4 → Fin 9 → ℝ} (hw : ∀ x k, 0 ≤ w x k ∧ w x k ≤ 1) (vs : List (Fin 3)) :
    IsOptimal (testFSC4 w).LT (testFSC4 w).stages 1 vs ↔ vs = testUs4 := by
  obtain ⟨h1, h2⟩ := testFSC4_gap hw
  unfold IsOptimal
  rw [testFSC4_length]
  constructor
  · rintro ⟨hl, h⟩
    by_contra hne
    have := h testUs4 rfl
    have := h2 vs hl hne
    linarith
  · rintro rfl
    refine ⟨rfl, fun us' hl => ?_⟩
    by_cases hne : us' = testUs4
    · rw [hne]
    · have := h2 us' hl hne
      linarith

theorem testTrack4_le (x : Fin 4) (k : Fin 9) : 0 ≤ testTrack4 x k ∧ testTrack4 x k ≤ 5 := by
  revert x k; decide

theorem testFSC4_bound {w : Fin 4 → Fin 9 → ℝ} (hw : ∀ x k, 0 ≤ w x k ∧ w x k ≤ 1) :
    (∀ x, |(testFSC4 w).LT x| ≤ 7) ∧ ∀ s ∈ (testFSC4 w).stages, ∀ x u, |s.L x u| ≤ 7 := by
  refine ⟨fun x => ?_, fun s hs x u => ?_⟩
  · have e : ∀ a : ℝ, (testFSC4 w).LT x = a → |a| ≤ 7 → |(testFSC4 w).LT x| ≤ 7 := by
      rintro a h1 h2
      rwa [h1]
    match x with
    | 0 => exact e (9 / 10) rfl (by rw [abs_le]; norm_num)
    | 1 => exact e 1 rfl (by rw [abs_le]; norm_num)
    | 2 => exact e (11 / 10) rfl (by rw [abs_le]; norm_num)
    | 3 => exact e (12 / 10) rfl (by rw [abs_le]; norm_num)
  · obtain ⟨k, _, rfl⟩ := List.mem_map.1 hs
    have h1 := hw x k
    have h2 : (0 : ℝ) ≤ testTrack4 x k ∧ (testTrack4 x k : ℝ) ≤ 5 := by exact_mod_cast testTrack4_le x k
    have h3 : (0 : ℝ) ≤ testUCost u ∧ (testUCost u : ℝ) ≤ 1 := by exact_mod_cast testUCost_le u
    simp only [testL4, abs_le]
    constructor <;> linarith

theorem maxDiffRows_self [NeZero n] {a : List (Fin n → ℝ)} (ha : a ≠ []) : maxDiffRows a a = .ok 0 := by
  unfold maxDiffRows
  rw [if_neg (by simp), List.zipWith_self]
  refine listMax_zero ?_ ?_
  · cases a with
    | nil => exact absurd rfl ha
    | cons p l => simp [NeZero.ne n]
  · intro b hb
    obtain ⟨l, hl, hb⟩ := List.mem_flatten.1 hb
    obtain ⟨p, _, rfl⟩ := List.mem_map.1 hl
    obtain ⟨x, _, rfl⟩ := List.mem_map.1 hb
    simp

theorem maxDiffIdx_self {a : List (Fin n)} (ha : a ≠ []) : maxDiffIdx a a = .ok 0 := by
  unfold maxDiffIdx
  rw [if_neg (by simp), List.zipWith_self]
  refine listMax_zero (by simpa using ha) ?_
  intro b hb
  obtain ⟨p, _, rfl⟩ := List.mem_map.1 hb
  simp

end Verif
