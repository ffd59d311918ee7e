import Verif.Proof.HJBPass

/-! Stability of monotone grid operators, and consistency of the finite differences. -/

namespace Verif

variable {n m : ℕ} {K : Type} [Field K] [LinearOrder K] [IsStrictOrderedRing K]

/-- Order preserving operators that commute with constants do not expand the maximum norm. -/
theorem nonexpansive_of {S : (Fin n → K) → (Fin n → K)} (hm : ∀ V W, (∀ i, V i ≤ W i) → ∀ i, S V i ≤ S W i)
    (hc : ∀ V c, S (fun i => V i + c) = fun i => S V i + c) (V W : Fin n → K) (d : K) (h : ∀ i, |V i - W i| ≤ d)
    (i : Fin n) : |S V i - S W i| ≤ d := by
  have h1 := hm V (fun i => W i + d) (fun j => by have := (abs_le.1 (h j)).2; linarith) i
  have h2 := hm W (fun i => V i + d) (fun j => by have := (abs_le.1 (h j)).1; linarith) i
  rw [hc] at h1 h2
  rw [abs_le]
  constructor <;> linarith

theorem iterate_mono {S : (Fin n → K) → (Fin n → K)} (hm : ∀ V W, (∀ i, V i ≤ W i) → ∀ i, S V i ≤ S W i) (N : ℕ)
    (V W : Fin n → K) (h : ∀ i, V i ≤ W i) (i : Fin n) : S^[N] V i ≤ S^[N] W i := by
  induction N generalizing i with
  | zero => exact h i
  | succ N ih =>
    rw [Function.iterate_succ_apply', Function.iterate_succ_apply']
    exact hm _ _ ih i

/-- Accumulated error of a sequence that satisfies the recursion up to `tau`. -/
theorem iterate_error {S : (Fin n → K) → (Fin n → K)} (hm : ∀ V W, (∀ i, V i ≤ W i) → ∀ i, S V i ≤ S W i)
    (hc : ∀ V c, S (fun i => V i + c) = fun i => S V i + c) (W : ℕ → Fin n → K) (V : Fin n → K) (e tau : K)
    (h0 : ∀ i, |V i - W 0 i| ≤ e) (N : ℕ) (hs : ∀ j < N, ∀ i, |W (j + 1) i - S (W j) i| ≤ tau) (i : Fin n) :
    |S^[N] V i - W N i| ≤ e + N * tau := by
  induction N generalizing i with
  | zero => simpa using h0 i
  | succ N ih =>
    rw [Function.iterate_succ_apply']
    have h1 := nonexpansive_of hm hc (S^[N] V) (W N) _ (ih fun j hj => hs j (by omega)) i
    have h2 := hs N (by omega) i
    have e1 : S (S^[N] V) i - W (N + 1) i = (S (S^[N] V) i - S (W N) i) - (W (N + 1) i - S (W N) i) := by ring
    rw [e1]
    refine le_trans (abs_sub _ _) ?_
    push_cast
    linarith

variable [NeZero m]

/-- On affine functions the upwind step is exact. -/
theorem upwindStep_affine (f L : K → K → K) (x0 dx dt p q : K) (hdx : dx ≠ 0) (ug : Fin m → K) (i : Fin (n + 2)) :
    upwindStep f L (fun i : Fin (n + 2) => x0 + (i : ℕ) * dx) ug dx dt (fun i => p * (x0 + (i : ℕ) * dx) + q) i =
      p * (x0 + (i : ℕ) * dx) + q +
        min1 (fun u => L (x0 + (i : ℕ) * dx) (ug u) + f (x0 + (i : ℕ) * dx) (ug u) * p) * dt := by
  have hf : dvFwd dx (fun i : Fin (n + 2) => p * (x0 + (i : ℕ) * dx) + q) i = p := by
    unfold dvFwd prv nxt
    split
    · simp; field_simp; ring
    · split
      · rename_i h0 h1
        have : 1 ≤ (i : ℕ) := by
          rcases Nat.eq_zero_or_pos (i : ℕ) with h | h
          · exact absurd (Fin.ext h) h0
          · exact h
        dsimp only
        rw [Nat.cast_sub this]
        field_simp; push_cast; ring
      · rename_i h0 h1
        have : (i : ℕ) + 1 ≤ n + 1 := by
          have := i.2
          have h2 : (i : ℕ) ≠ n + 1 := fun h => h1 (Fin.ext h)
          omega
        dsimp only
        rw [min_eq_left this]
        field_simp; push_cast; ring
  have hb : dvBwd dx (fun i : Fin (n + 2) => p * (x0 + (i : ℕ) * dx) + q) i = p := by
    unfold dvBwd prv
    split
    · simp; field_simp; ring
    · rename_i h0
      have : 1 ≤ (i : ℕ) := by
        rcases Nat.eq_zero_or_pos (i : ℕ) with h | h
        · exact absurd (Fin.ext h) h0
        · exact h
      have e : ((fun i : Fin (n + 2) => p * (x0 + (i : ℕ) * dx) + q) i -
          (fun i : Fin (n + 2) => p * (x0 + (i : ℕ) * dx) + q) ⟨i - 1, by omega⟩) / dx = p := by
        dsimp only
        rw [Nat.cast_sub this]
        field_simp; push_cast; ring
      rw [e]; simp
  unfold upwindStep
  dsimp only
  rw [hf, hb]
  congr 3
  funext u
  ring

/-- On quadratic functions the symmetric difference is the derivative at the interior points. -/
theorem dvSym_quadratic (x0 dx a p q : K) (hdx : dx ≠ 0) (i : Fin (n + 2)) (h0 : i ≠ 0) (h1 : i ≠ Fin.last (n + 1)) :
    dvSym dx (fun i : Fin (n + 2) => a * (x0 + (i : ℕ) * dx) ^ 2 + p * (x0 + (i : ℕ) * dx) + q) i =
      2 * a * (x0 + (i : ℕ) * dx) + p := by
  unfold dvSym prv nxt
  rw [if_neg h0, if_neg h1]
  have h2 : 1 ≤ (i : ℕ) := by
    rcases Nat.eq_zero_or_pos (i : ℕ) with h | h
    · exact absurd (Fin.ext h) h0
    · exact h
  have h3 : (i : ℕ) + 1 ≤ n + 1 := by
    have := i.2
    have h2 : (i : ℕ) ≠ n + 1 := fun h => h1 (Fin.ext h)
    omega
  dsimp only
  rw [min_eq_left h3, Nat.cast_sub h2]
  field_simp
  push_cast
  ring

/-- The upwind step moves a bounded function by at most `dt` times the bound of the running cost. -/
theorem upwindStep_bound (f L : K → K → K) (grid : Fin (n + 2) → K) (ug : Fin m → K) (dx dt : K) (hdx : 0 < dx)
    (hdt : 0 ≤ dt) (hcfl : ∀ i u, dt * |f (grid i) (ug u)| ≤ dx)
    (h0 : ∀ u, 0 ≤ f (grid 0) (ug u)) (h1 : ∀ u, f (grid (Fin.last (n + 1))) (ug u) ≤ 0) (c C : K)
    (hL : ∀ i u, |L (grid i) (ug u)| ≤ c) (V : Fin (n + 2) → K) (hV : ∀ i, |V i| ≤ C) (i : Fin (n + 2)) :
    |upwindStep f L grid ug dx dt V i| ≤ C + dt * c := by
  rw [upwindStep_bellman f L grid ug dx dt hdt h0 h1]
  obtain ⟨u, hu⟩ := min1_attained (fun u => L (grid i) (ug u) * dt + (1 - |f (grid i) (ug u)| * dt / dx) * V i +
        |f (grid i) (ug u)| * dt / dx * V (downstream (f (grid i) (ug u)) i))
  rw [hu]
  have hc : |f (grid i) (ug u)| * dt / dx ≤ 1 := by
    rw [div_le_one hdx]; linarith [hcfl i u, mul_comm dt |f (grid i) (ug u)|]
  have hp : 0 ≤ |f (grid i) (ug u)| * dt / dx := div_nonneg (mul_nonneg (abs_nonneg _) hdt) hdx.le
  generalize |f (grid i) (ug u)| * dt / dx = r at *
  have a1 := abs_le.1 (hV i)
  have a2 := abs_le.1 (hV (downstream (f (grid i) (ug u)) i))
  have a3 := abs_le.1 (hL i u)
  generalize V (downstream (f (grid i) (ug u)) i) = w at *
  generalize V i = v at *
  generalize L (grid i) (ug u) = l at *
  have hr := sub_nonneg.2 hc
  rw [abs_le]
  constructor
  · nlinarith [mul_le_mul_of_nonneg_left a1.1 hr, mul_le_mul_of_nonneg_left a2.1 hp, mul_le_mul_of_nonneg_left a3.1 hdt]
  · nlinarith [mul_le_mul_of_nonneg_left a1.2 hr, mul_le_mul_of_nonneg_left a2.2 hp, mul_le_mul_of_nonneg_left a3.2 hdt]

end Verif
