import Verif.Proof.CNonlin
import Verif.Props.HJB
import Verif.Props.HJBUpwind
import Verif.Props.ExamplesReal
import Verif.Props.ShootingSQP

/-! Property C77: the grid solvers on the one-dimensional example models. -/

namespace Verif

section Field
variable {K : Type} [Field K] [LinearOrder K] [IsStrictOrderedRing K]

/-- C77 (models): with at least one grid point for the state and the control the TensorFlow functions return the numpy models, and
otherwise they raise. -/
theorem C77_models (n m : ℕ) :
    (n ≠ 0 → m ≠ 0 → linearModelTF n m = .ok (linearModel n m : CModel n m K) ∧
      velocityModelTF n m = .ok (velocityModel n m : CModel n m K) ∧ upwindModelTF n m = .ok (upwindModel n m : CModel n m K)) ∧
    (n = 0 ∨ m = 0 → (linearModelTF n m : Py (CModel n m K)) = .error .valueError ∧
      (velocityModelTF n m : Py (CModel n m K)) = .error .valueError ∧ (upwindModelTF n m : Py (CModel n m K)) = .error .valueError) := by
  have hlin : ∀ (a b : K) (k : ℕ), k ≠ 0 → tfLinspace a b k = .ok (linspace a b k) := by
    intro a b k hk
    unfold tfLinspace
    rw [if_neg hk]
    congr 1
    funext i
    unfold linspace
    by_cases h1 : k = 1
    · subst h1
      have : (i : ℕ) = 0 := by omega
      simp [this]
    · rw [if_neg h1, Nat.cast_sub (Nat.one_le_iff_ne_zero.2 hk), Nat.cast_one]
      ring
  constructor
  · intro hn hm
    unfold linearModelTF velocityModelTF upwindModelTF
    simp only [hlin _ _ n hn, hlin _ _ m hm]
    exact ⟨rfl, rfl, rfl⟩
  · intro h
    unfold linearModelTF velocityModelTF upwindModelTF
    by_cases hn : n = 0
    · subst hn
      exact ⟨rfl, rfl, rfl⟩
    · have hm : m = 0 := by tauto
      subst hm
      simp only [hlin _ _ n hn]
      exact ⟨rfl, rfl, rfl⟩

/-- `C77_models` with three states and two controls, and without states. -/
example : (3 ≠ 0 ∧ 2 ≠ 0) ∧ ((0 : ℕ) = 0 ∨ (2 : ℕ) = 0) := by decide

/-- C77 (grids): a grid with at least two points runs in equal positive steps from the first number to the second. -/
theorem C77_grid (a b : K) (hab : a < b) (n : ℕ) :
    linspace a b (n + 2) 0 = a ∧ linspace a b (n + 2) (Fin.last (n + 1)) = b ∧
    ∃ dx > 0, ∀ i j : Fin (n + 2), (j : ℕ) = i + 1 → linspace a b (n + 2) j - linspace a b (n + 2) i = dx := by
  refine ⟨linspace_zero _ _ _, linspace_last _ _ _, (b - a) / (n + 1), div_pos (sub_pos.2 hab) (by positivity), ?_⟩
  intro i j hij
  unfold linspace
  rw [hij]
  simp only [show n + 2 - 1 = n + 1 from rfl]
  push_cast
  ring

/-- `C77_grid` for the states of the velocity model. -/
example : (-3 : ℚ) < 3 := by norm_num

/-- C77 (drift conditions are necessary): if some control drives the state out of the grid at one of its ends, then the upwind step
is not monotone, however small the time step is; compare C43. -/
theorem C77_necessary {n m : ℕ} [NeZero m] (f L : K → K → K) (grid : Fin (n + 2) → K) (ug : Fin m → K) (dx dt : K) (hdx : 0 < dx)
    (hdt : 0 < dt) (h : (∃ u, 0 < f (grid (Fin.last (n + 1))) (ug u)) ∨ ∃ u, f (grid 0) (ug u) < 0) :
    ∃ V V' : Fin (n + 2) → K, (∀ i, V i ≤ V' i) ∧ ∃ i, upwindStep f L grid ug dx dt V' i < upwindStep f L grid ug dx dt V i := by
  rcases h with ⟨u, hu⟩ | ⟨u, hu⟩
  · obtain ⟨C, hC, h⟩ := min1_decreasing (fun u => L (grid (Fin.last (n + 1))) (ug u)) (fun u => f (grid (Fin.last (n + 1))) (ug u)) u hu
    refine ⟨fun i => if i = Fin.last (n + 1) then 0 else C * dx, fun i => if i = Fin.last (n + 1) then 0 else (C + 1) * dx, ?_,
      Fin.last (n + 1), ?_⟩
    · intro i
      dsimp only
      split
      · exact le_rfl
      · nlinarith
    · rw [upwind_last _ _ _ _ _ _ _ hdx.ne', upwind_last _ _ _ _ _ _ _ hdx.ne']
      exact mul_lt_mul_of_pos_right h hdt
  · obtain ⟨C, hC, h⟩ := min1_decreasing (fun u => L (grid 0) (ug u)) (fun u => -f (grid 0) (ug u)) u (neg_pos.2 hu)
    refine ⟨fun i => if i = 0 then 0 else C * dx, fun i => if i = 0 then 0 else (C + 1) * dx, ?_, 0, ?_⟩
    · intro i
      dsimp only
      split
      · exact le_rfl
      · nlinarith
    · rw [upwind_first _ _ _ _ _ _ _ hdx.ne', upwind_first _ _ _ _ _ _ _ hdx.ne']
      exact mul_lt_mul_of_pos_right h hdt

/-- `C77_necessary` for `x' = u` on `-1, 0, 1` with the controls `-1, 1`. -/
example : ∃ u : Fin 2, 0 < (fun _ u : ℚ => u) ((![-1, 0, 1] : Fin (1 + 2) → ℚ) (Fin.last (1 + 1))) ((![-1, 1] : Fin 2 → ℚ) u) :=
  ⟨1, by decide +kernel⟩

/-- C77 (no model is monotone): on all three models with at least two grid points for the state and the control the upwind step is
not monotone for any number of blocks and steps, and the conditions of C43 do not hold. -/
theorem C77_not_monotone (n m blocks steps : ℕ) (hb : blocks ≠ 0) (hs : steps ≠ 0) :
    ∀ M ∈ [linearModel (n + 2) (m + 2), velocityModel (n + 2) (m + 2), (upwindModel (n + 2) (m + 2) : CModel (n + 2) (m + 2) K)],
      ¬ UpwindOK (M.hjb blocks steps) M.u_grid ∧
      ∃ V V' : Fin (n + 2) → K, (∀ i, V i ≤ V' i) ∧ ∃ i,
        upwindStep M.f M.L M.x_grid M.u_grid (M.x_grid 1 - M.x_grid 0) (M.T / blocks / steps) V' i <
          upwindStep M.f M.L M.x_grid M.u_grid (M.x_grid 1 - M.x_grid 0) (M.T / blocks / steps) V i := by
  have hb' : (0 : K) < blocks := by exact_mod_cast Nat.pos_of_ne_zero hb
  have hs' : (0 : K) < steps := by exact_mod_cast Nat.pos_of_ne_zero hs
  have key : ∀ M : CModel (n + 2) (m + 2) K, 0 < M.T → M.x_grid 0 < M.x_grid 1 →
      0 < M.f (M.x_grid (Fin.last (n + 1))) (M.u_grid (Fin.last (m + 1))) → ¬ UpwindOK (M.hjb blocks steps) M.u_grid ∧
      ∃ V V' : Fin (n + 2) → K, (∀ i, V i ≤ V' i) ∧ ∃ i,
        upwindStep M.f M.L M.x_grid M.u_grid (M.x_grid 1 - M.x_grid 0) (M.T / blocks / steps) V' i <
          upwindStep M.f M.L M.x_grid M.u_grid (M.x_grid 1 - M.x_grid 0) (M.T / blocks / steps) V i := by
    intro M hT hx hf
    exact ⟨fun h => absurd (h.right (Fin.last (m + 1))) (not_le.2 hf),
      C77_necessary M.f M.L M.x_grid M.u_grid _ _ (sub_pos.2 hx) (by positivity) (Or.inl ⟨_, hf⟩)⟩
  have hgrid : ∀ a b : K, a < b → linspace a b (n + 2) 0 < linspace a b (n + 2) 1 := by
    intro a b hab
    obtain ⟨-, -, dx, hdx, h⟩ := C77_grid a b hab n
    have := h 0 1 (by simp)
    linarith
  intro M hM
  simp only [List.mem_cons, List.not_mem_nil, or_false] at hM
  rcases hM with rfl | rfl | rfl
  · refine key _ one_pos (hgrid _ _ (by norm_num)) ?_
    show 0 < linspace (-2 : K) 2 (n + 2) (Fin.last (n + 1)) + linspace (-2 : K) 2 (m + 2) (Fin.last (m + 1))
    rw [linspace_last, linspace_last]; norm_num
  · refine key _ one_pos (hgrid _ _ (by norm_num)) ?_
    show 0 < 1 - 1 / 10 * linspace (-3 : K) 3 (n + 2) (Fin.last (n + 1)) ^ 2 + linspace (-2 : K) 2 (m + 2) (Fin.last (m + 1))
    rw [linspace_last, linspace_last]; norm_num
  · refine key _ one_pos (hgrid _ _ (by norm_num)) ?_
    show 0 < linspace (0 : K) 1 (m + 2) (Fin.last (m + 1)) * linspace (-1 : K) 1 (n + 2) (Fin.last (n + 1))
    rw [linspace_last, linspace_last]; norm_num

/-- The number of blocks and steps in `C77_not_monotone`, `C77_upwind` and `C77_symfd`. -/
example : (4 : ℕ) ≠ 0 ∧ (10 : ℕ) ≠ 0 := by decide

/-- `C77_upwind` on the states `-1, 0, 1` with one block of two steps: the value at the last state is `-(1 + 1/2)²`. -/
example : ∃ r, ((upwindModel 3 2 : CModel 3 2 ℚ).hjb 1 2).seqBackwardPassUpwind (n := 1) (upwindModel 3 2 : CModel 3 2 ℚ).u_grid = .ok r ∧
    (r[0]?.map fun V => (V 0, V 1, V 2)) = some ((1 : ℚ), (0 : ℚ), (-(9 / 4) : ℚ)) := by
  have hd : ((upwindModel 3 2 : CModel 3 2 ℚ).hjb 1 2).grid 1 - ((upwindModel 3 2 : CModel 3 2 ℚ).hjb 1 2).grid 0 ≠ 0 := by decide +kernel
  refine ⟨_, (fdPass_eq (n := 1) ((upwindModel 3 2 : CModel 3 2 ℚ).hjb 1 2) (upwindModel 3 2 : CModel 3 2 ℚ).u_grid
    (by decide) (by decide) hd).1, ?_⟩
  decide +kernel

/-- C77 (upwind model, upwind scheme): with at least three states and two controls the pass of numpy and of TensorFlow returns
`-x` at the states `x ≤ 0` and `-(1 + dt)^j x` at the states `x ≥ 0`, `j` the number of remaining steps, on every grid. -/
theorem C77_upwind (n m blocks steps : ℕ) (hb : blocks ≠ 0) (hs : steps ≠ 0) :
    ∃ r, ((upwindModel (n + 3) (m + 2) : CModel _ _ K).hjb blocks steps).seqBackwardPassUpwind (n := n + 1) (upwindModel (n + 3) (m + 2) : CModel _ _ K).u_grid = .ok r ∧
      seqBwPassUpwindTF (n := n + 1) ((upwindModel (n + 3) (m + 2) : CModel _ _ K).hjb blocks steps) (upwindModel (n + 3) (m + 2) : CModel _ _ K).u_grid = .ok r ∧
      r.length = blocks + 1 ∧ ∀ (k : ℕ) (V : Fin (n + 3) → K), r[k]? = some V → ∀ i,
        let x := (upwindModel (n + 3) (m + 2) : CModel _ _ K).x_grid i
        V i = if 0 ≤ x then -((1 + 1 / blocks / steps) ^ ((blocks - k) * steps) * x) else -x := by
  set M := (upwindModel (n + 3) (m + 2) : CModel _ _ K) with hM
  have hdx : M.x_grid 1 - M.x_grid 0 = 2 / (n + 2) := upgrid_dx
  have h1 := (fdPass_eq (n := n + 1) (M.hjb blocks steps) M.u_grid hb hs (by
    show M.x_grid 1 - M.x_grid 0 ≠ 0
    rw [hdx]; exact (updx (K := K) (p := n)).ne')).1
  refine ⟨_, h1, by rw [(C43_tf (n := n + 1) (M.hjb blocks steps) M.u_grid).1, h1], by simp [CModel.hjb], ?_⟩
  intro k V hk i
  rw [List.getElem?_map] at hk
  obtain ⟨k', hk', rfl⟩ := Option.map_eq_some_iff.1 hk
  have hkk : k' = k := by
    rw [List.getElem?_eq_some_iff] at hk'
    obtain ⟨hlt, e⟩ := hk'
    simpa using e.symm
  subst hkk
  have hit : ∀ N : ℕ, (upwindStep (n := n + 1) M.f M.L M.x_grid M.u_grid (2 / (n + 2)) (1 / blocks / steps))^[N]
      (fun i => M.LT (M.x_grid i)) = fun i => upV ((1 + 1 / (blocks : K) / steps) ^ N) (M.x_grid i) := by
    intro N
    induction N with
    | zero =>
      funext i
      show -(M.x_grid i) = upV ((1 + 1 / (blocks : K) / steps) ^ 0) (M.x_grid i)
      unfold upV
      simp
    | succ N ih =>
      rw [Function.iterate_succ_apply', ih]
      have h2 : (0 : K) ≤ (1 + 1 / blocks / steps) ^ N := by positivity
      have := upwind_exact (K := K) (p := n) m (1 / blocks / steps) _ h2
      rw [pow_succ]
      exact this
  have e : (M.hjb blocks steps).grid 1 - (M.hjb blocks steps).grid 0 = 2 / ((n : K) + 2) := hdx
  dsimp only
  rw [e]
  exact congrFun (hit ((blocks - k') * steps)) i

/-- C77 (upwind model, symmetric differences): with an odd number of states the symmetric scheme returns the same values. -/
theorem C77_symfd (n m blocks steps : ℕ) (hb : blocks ≠ 0) (hs : steps ≠ 0) :
    ((upwindModel (2 * n + 3) (m + 2) : CModel _ _ K).hjb blocks steps).seqBackwardPassSymfd (n := 2 * n + 1) (upwindModel (2 * n + 3) (m + 2) : CModel _ _ K).u_grid =
      ((upwindModel (2 * n + 3) (m + 2) : CModel _ _ K).hjb blocks steps).seqBackwardPassUpwind (n := 2 * n + 1) (upwindModel (2 * n + 3) (m + 2) : CModel _ _ K).u_grid := by
  set M := (upwindModel (2 * n + 3) (m + 2) : CModel _ _ K) with hM
  have hdx : M.x_grid 1 - M.x_grid 0 = 2 / ((2 * n : ℕ) + 2) := upgrid_dx (p := 2 * n)
  obtain ⟨h1, h2⟩ := fdPass_eq (n := 2 * n + 1) (M.hjb blocks steps) M.u_grid hb hs (by
    show M.x_grid 1 - M.x_grid 0 ≠ 0
    rw [hdx]; exact (updx (K := K) (p := 2 * n)).ne')
  rw [h1, h2]
  have e : (M.hjb blocks steps).grid 1 - (M.hjb blocks steps).grid 0 = 2 / (((2 * n : ℕ) : K) + 2) := hdx
  rw [e]
  have hit : ∀ N : ℕ, (symStep (n := 2 * n + 1) M.f M.L M.x_grid M.u_grid (2 / ((2 * n : ℕ) + 2)) (1 / blocks / steps))^[N]
      (fun i => M.LT (M.x_grid i)) = fun i => upV ((1 + 1 / (blocks : K) / steps) ^ N) (M.x_grid i) := by
    intro N
    induction N with
    | zero =>
      funext i
      show -(M.x_grid i) = upV ((1 + 1 / (blocks : K) / steps) ^ 0) (M.x_grid i)
      unfold upV
      simp
    | succ N ih =>
      rw [Function.iterate_succ_apply', ih]
      have h2 : (0 : K) ≤ (1 + 1 / blocks / steps) ^ N := by positivity
      have := sym_exact (K := K) n m (1 / blocks / steps) _ h2
      rw [pow_succ]
      exact this
  have hit' : ∀ N : ℕ, (upwindStep (n := 2 * n + 1) M.f M.L M.x_grid M.u_grid (2 / ((2 * n : ℕ) + 2)) (1 / blocks / steps))^[N]
      (fun i => M.LT (M.x_grid i)) = fun i => upV ((1 + 1 / (blocks : K) / steps) ^ N) (M.x_grid i) := by
    intro N
    induction N with
    | zero =>
      funext i
      show -(M.x_grid i) = upV ((1 + 1 / (blocks : K) / steps) ^ 0) (M.x_grid i)
      unfold upV
      simp
    | succ N ih =>
      rw [Function.iterate_succ_apply', ih]
      have h2 : (0 : K) ≤ (1 + 1 / blocks / steps) ^ N := by positivity
      have := upwind_exact (K := K) (p := 2 * n) m (1 / blocks / steps) _ h2
      rw [pow_succ]
      exact this
  congr 1
  apply List.map_congr_left
  intro k _
  exact (hit _).trans (hit' _).symm

end Field

/-- C77 (even number of states): with four states the symmetric scheme returns other values than the upwind scheme. -/
theorem C77_symfd_even : ∃ r r' : List (Fin 4 → ℚ),
    ((upwindModel 4 2 : CModel 4 2 ℚ).hjb 1 2).seqBackwardPassSymfd (n := 2) (upwindModel 4 2 : CModel 4 2 ℚ).u_grid = .ok r ∧
    ((upwindModel 4 2 : CModel 4 2 ℚ).hjb 1 2).seqBackwardPassUpwind (n := 2) (upwindModel 4 2 : CModel 4 2 ℚ).u_grid = .ok r' ∧ r ≠ r' := by
  have hd : ((upwindModel 4 2 : CModel 4 2 ℚ).hjb 1 2).grid 1 - ((upwindModel 4 2 : CModel 4 2 ℚ).hjb 1 2).grid 0 ≠ 0 := by decide +kernel
  obtain ⟨h1, h2⟩ := fdPass_eq (n := 2) ((upwindModel 4 2 : CModel 4 2 ℚ).hjb 1 2) (upwindModel 4 2 : CModel 4 2 ℚ).u_grid
    (by decide) (by decide) hd
  refine ⟨_, _, h2, h1, ?_⟩
  intro h
  have h3 := congrArg (fun l : List (Fin 4 → ℚ) => (l[0]?.map fun V => V 2)) h
  revert h3
  decide +kernel

/-! ### Exact values -/

/-- C77 (exact value): the smallest terminal cost that can be reached from `x` in the remaining time. -/
theorem C77_value (tau x : ℝ) (ht : 0 ≤ tau) :
    IsLeast {c | ∃ xf, UpwindReach tau x xf ∧ (upwindModel 0 0 : CModel 0 0 ℝ).LT xf = c} (if 0 ≤ x then -(Real.exp tau * x) else -x) := by
  have h1 : 1 ≤ Real.exp tau := Real.one_le_exp ht
  constructor
  · by_cases hx : 0 ≤ x
    · rw [if_pos hx]
      refine ⟨Real.exp tau * x, (upwindReach_iff tau _ _ ht).2 ?_, rfl⟩
      rcases hx.eq_or_lt with h | h
      · right; rw [← h]; simp
      · left; exact ⟨h, by nlinarith, le_rfl⟩
    · rw [if_neg hx]
      refine ⟨x, (upwindReach_iff tau _ _ ht).2 (Or.inr ⟨(not_le.1 hx).le, by nlinarith [not_le.1 hx], le_rfl⟩), rfl⟩
  · rintro c ⟨xf, hr, rfl⟩
    show _ ≤ -xf
    rcases (upwindReach_iff tau _ _ ht).1 hr with ⟨h2, h3, h4⟩ | ⟨h2, h3, h4⟩
    · rw [if_pos h2.le]; linarith
    · split
      · have : x = 0 := le_antisymm h2 ‹_›
        rw [this] at h4 ⊢
        linarith
      · linarith

/-- `C77_value` at `x = 1` with remaining time one. -/
example : (0 : ℝ) ≤ 1 := by norm_num

/-- C77 (error): the values of the upwind scheme are above the exact values by at most `x exp(tau) tau dt / 2`, with the remaining
time `tau` and the time step `dt`, whatever the spacing of the grid is. -/
theorem C77_error (n m blocks steps : ℕ) (hb : blocks ≠ 0) (hs : steps ≠ 0) (r : List (Fin (n + 3) → ℝ))
    (hr : ((upwindModel (n + 3) (m + 2) : CModel _ _ ℝ).hjb blocks steps).seqBackwardPassUpwind (n := n + 1) (upwindModel (n + 3) (m + 2) : CModel _ _ ℝ).u_grid = .ok r)
    (k : ℕ) (V : Fin (n + 3) → ℝ) (hV : r[k]? = some V) (i : Fin (n + 3)) (c : ℝ)
    (hc : IsLeast {c | ∃ xf, UpwindReach ((blocks - k : ℕ) * (1 / blocks)) ((upwindModel (n + 3) (m + 2) : CModel _ _ ℝ).x_grid i) xf ∧ -xf = c} c) :
    c ≤ V i ∧ V i - c ≤ max 0 ((upwindModel (n + 3) (m + 2) : CModel _ _ ℝ).x_grid i) *
      (Real.exp ((blocks - k : ℕ) * (1 / blocks)) * ((blocks - k : ℕ) * (1 / blocks) * (1 / blocks / steps) / 2)) := by
  obtain ⟨r', h1, -, -, h2⟩ := C77_upwind (K := ℝ) n m blocks steps hb hs
  rw [hr] at h1
  obtain rfl := Except.ok.inj h1
  have h3 := h2 k V hV i
  have hb' : (blocks : ℝ) ≠ 0 := by exact_mod_cast hb
  have hs' : (steps : ℝ) ≠ 0 := by exact_mod_cast hs
  have ht : (0 : ℝ) ≤ (blocks - k : ℕ) * (1 / blocks) := by positivity
  have hcv := hc.unique (C77_value _ _ ht)
  obtain ⟨g1, g2⟩ := growth_bounds (1 / blocks / steps) (by positivity) ((blocks - k) * steps)
  have e : (((blocks - k) * steps : ℕ) : ℝ) * (1 / blocks / steps) = (blocks - k : ℕ) * (1 / blocks) := by
    push_cast
    field_simp
  rw [e] at g1 g2
  dsimp only at h3
  set x := (upwindModel (n + 3) (m + 2) : CModel _ _ ℝ).x_grid i
  rw [h3, hcv]
  by_cases hx : 0 ≤ x
  · rw [if_pos hx, if_pos hx, max_eq_right hx]
    constructor
    · nlinarith
    · have := mul_le_mul_of_nonneg_left g2 hx
      linarith
  · rw [if_neg hx, if_neg hx, max_eq_left (not_le.1 hx).le]
    simp

/-- `C77_error` on the states `-1, 0, 1` with two blocks of one step, at the last state and the initial time. -/
example : ∃ r V c, ((upwindModel (0 + 3) (0 + 2) : CModel _ _ ℝ).hjb 2 1).seqBackwardPassUpwind (n := 0 + 1) (upwindModel (0 + 3) (0 + 2) : CModel _ _ ℝ).u_grid = .ok r ∧
    r[0]? = some V ∧ IsLeast {c | ∃ xf, UpwindReach ((2 - 0 : ℕ) * (1 / (2 : ℕ))) ((upwindModel (0 + 3) (0 + 2) : CModel _ _ ℝ).x_grid 2) xf ∧ -xf = c} c := by
  obtain ⟨r, h1, -, h2, -⟩ := C77_upwind (K := ℝ) 0 0 2 1 (by decide) (by decide)
  exact ⟨r, r[0], _, h1, List.getElem?_eq_getElem (by omega), C77_value _ _ (by norm_num)⟩

/-- C77 (blocks): the plain block pass with the exact block value functions of numpy lies between the exact value and the terminal
cost. -/
theorem C77_blocks (n m blocks : ℕ) (hb : blocks ≠ 0) (inf : ℝ) (hinf : 1 + Real.exp 1 ≤ inf) (k : ℕ) (hk : k ≤ blocks) (i : Fin (n + 2)) :
    let M := (upwindModel (n + 2) (m + 2) : CModel _ _ ℝ)
    ∃ c v : ℝ, (((M.hjb blocks 1).seqBackwardPassAssocPlain (fin2 (upwindBlockV inf (1 / blocks) M.x_grid)))[k]?.map fun V => V i) =
        some (c : WithBot ℝ) ∧
      IsLeast {v | ∃ xf, UpwindReach ((blocks - k : ℕ) * (1 / blocks)) (M.x_grid i) xf ∧ M.LT xf = v} v ∧ v ≤ c ∧ c ≤ M.LT (M.x_grid i) := by
  intro M
  have hd : (0 : ℝ) ≤ 1 / blocks := by positivity
  obtain ⟨-, -, h3⟩ := C42_plain (M.hjb blocks 1) (upwindBlockV inf (1 / blocks) M.x_grid)
  obtain ⟨c, hc, hl⟩ := h3 k hk i
  refine ⟨c, _, hc, C77_value _ _ (by positivity), ?_, hl.2 ⟨List.replicate (blocks - k) i, by simp [CModel.hjb], ?_⟩⟩
  · obtain ⟨p, hp, rfl⟩ := hl.1
    have key : ∀ (p : List (Fin (n + 2))) (i : Fin (n + 2)), p.length ≤ blocks →
        (if 0 ≤ M.x_grid i then -(Real.exp (p.length * (1 / blocks)) * M.x_grid i) else -M.x_grid i) ≤
          pathCost (upwindBlockV inf (1 / blocks) M.x_grid) (fun i => M.LT (M.x_grid i)) i p := by
      intro p
      induction p with
      | nil =>
        intro i _
        show _ ≤ -M.x_grid i
        simp
      | cons j p ih =>
        intro i hle
        show _ ≤ upwindBlockV inf (1 / blocks) M.x_grid i j + pathCost _ _ j p
        have h4 := ih j (by simp at hle; omega)
        obtain ⟨a1, a2⟩ := upgrid_mem (m := m + 2) i
        obtain ⟨b1, b2⟩ := upgrid_mem (m := m + 2) j
        change -1 ≤ M.x_grid i at a1
        change M.x_grid i ≤ 1 at a2
        change -1 ≤ M.x_grid j at b1
        change M.x_grid j ≤ 1 at b2
        have e : Real.exp (((j :: p).length : ℕ) * (1 / blocks)) = Real.exp (1 / blocks) * Real.exp (p.length * (1 / blocks)) := by
          rw [← Real.exp_add, List.length_cons]
          congr 1
          push_cast
          ring
        have e1 : 1 ≤ Real.exp (1 / (blocks : ℝ)) := Real.one_le_exp hd
        have e2 : 1 ≤ Real.exp (p.length * (1 / (blocks : ℝ))) := Real.one_le_exp (by positivity)
        rw [e]
        by_cases hr : UpwindReach (1 / blocks) (M.x_grid i) (M.x_grid j)
        · rw [(C53_numpy inf _ hd _ i j).1 hr, zero_add]
          refine le_trans ?_ h4
          rcases (upwindReach_iff _ _ _ hd).1 hr with ⟨r1, r2, r3⟩ | ⟨r1, r2, r3⟩
          · rw [if_pos r1.le, if_pos (r1.le.trans r2)]
            nlinarith
          · have : (if 0 ≤ M.x_grid j then -(Real.exp (p.length * (1 / blocks)) * M.x_grid j) else -M.x_grid j) = -M.x_grid j := by
              split
              · have : M.x_grid j = 0 := le_antisymm (r3.trans r1) ‹_›
                rw [this]; simp
              · rfl
            rw [this]
            split
            · have : M.x_grid i = 0 := le_antisymm r1 ‹_›
              rw [this] at r3 ⊢
              linarith
            · linarith
        · rw [(C53_numpy inf _ hd _ i j).2 hr]
          have e3 : Real.exp (p.length * (1 / (blocks : ℝ))) ≤ Real.exp 1 := by
            apply Real.exp_le_exp.2
            have hb' : (0 : ℝ) < blocks := by exact_mod_cast Nat.pos_of_ne_zero hb
            have : (p.length : ℝ) ≤ blocks := by
              have : p.length ≤ blocks := by simp at hle; omega
              exact_mod_cast this
            rw [mul_one_div, div_le_one hb']
            exact this
          have h5 : -Real.exp 1 ≤ (if 0 ≤ M.x_grid j then -(Real.exp (p.length * (1 / blocks)) * M.x_grid j) else -M.x_grid j) := by
            split
            · nlinarith
            · have := not_le.1 ‹_›
              have := Real.exp_pos 1
              linarith
          have h6 : (if 0 ≤ M.x_grid i then -(Real.exp (1 / blocks) * Real.exp (p.length * (1 / blocks)) * M.x_grid i) else -M.x_grid i) ≤ 1 := by
            split
            · have := mul_nonneg (mul_nonneg (zero_le_one.trans e1) (zero_le_one.trans e2)) ‹0 ≤ M.x_grid i›
              linarith
            · linarith
          linarith
    have := key p i (by rw [hp]; show blocks - k ≤ blocks; omega)
    rw [hp] at this
    exact this
  · rw [const_path _ _ (block_self inf _ hd)]
    rfl

/-- `C77_blocks` with four blocks and the value `10` for infinity. -/
example : (4 : ℕ) ≠ 0 ∧ 1 + Real.exp 1 ≤ 10 ∧ 1 ≤ 4 := by
  refine ⟨by decide, ?_, by decide⟩
  have := Real.exp_one_lt_d9
  linarith

/-- C77 (blocks, fixed grid): once the blocks are so short that no grid point is reachable from another, the plain block pass returns
the terminal cost at all times. -/
theorem C77_stuck (n m blocks : ℕ) (inf : ℝ) (hinf : 2 ≤ inf) (hst : Real.exp (1 / blocks) - 1 < 2 / (n + 1)) (k : ℕ)
    (hk : k ≤ blocks) (i : Fin (n + 2)) :
    let M := (upwindModel (n + 2) (m + 2) : CModel _ _ ℝ)
    (((M.hjb blocks 1).seqBackwardPassAssocPlain (fin2 (upwindBlockV inf (1 / blocks) M.x_grid)))[k]?.map fun V => V i) =
        some ((-M.x_grid i : ℝ) : WithBot ℝ) := by
  intro M
  have hd : (0 : ℝ) ≤ 1 / blocks := by positivity
  obtain ⟨-, -, h3⟩ := C42_plain (M.hjb blocks 1) (upwindBlockV inf (1 / blocks) M.x_grid)
  obtain ⟨c, hc, hl⟩ := h3 k hk i
  rw [hc]
  have hle : c ≤ -M.x_grid i := by
    refine hl.2 ⟨List.replicate (blocks - k) i, by simp [CModel.hjb], ?_⟩
    rw [const_path _ _ (block_self inf _ hd)]
    rfl
  have hge : -M.x_grid i ≤ c := by
    obtain ⟨p, -, rfl⟩ := hl.1
    have key : ∀ (p : List (Fin (n + 2))) (i : Fin (n + 2)),
        -M.x_grid i ≤ pathCost (upwindBlockV inf (1 / blocks) M.x_grid) (fun i => M.LT (M.x_grid i)) i p := by
      intro p
      induction p with
      | nil => intro i; exact le_rfl
      | cons j p ih =>
        intro i
        show _ ≤ upwindBlockV inf (1 / blocks) M.x_grid i j + pathCost _ _ j p
        have h4 := ih j
        obtain ⟨a1, a2⟩ := upgrid_mem (m := m + 2) i
        obtain ⟨b1, b2⟩ := upgrid_mem (m := m + 2) j
        change -1 ≤ M.x_grid i at a1
        change M.x_grid i ≤ 1 at a2
        change -1 ≤ M.x_grid j at b1
        change M.x_grid j ≤ 1 at b2
        by_cases hij : i = j
        · subst hij
          rw [block_self inf _ hd, zero_add]
          exact h4
        · have hr : ¬ UpwindReach (1 / blocks) (M.x_grid i) (M.x_grid j) := by
            intro hr
            have e1 : 1 ≤ Real.exp (1 / (blocks : ℝ)) := Real.one_le_exp hd
            have habs : |M.x_grid j - M.x_grid i| ≤ Real.exp (1 / blocks) - 1 := by
              rw [abs_le]
              rcases (upwindReach_iff _ _ _ hd).1 hr with ⟨r1, r2, r3⟩ | ⟨r1, r2, r3⟩
              · constructor <;> nlinarith
              · constructor <;> nlinarith
            have hdist : 2 / ((n : ℝ) + 1) ≤ |M.x_grid j - M.x_grid i| := by
              have e : M.x_grid j - M.x_grid i = (((j : ℕ) : ℝ) - (i : ℕ)) * (2 / (n + 1)) := by
                show linspace (-1 : ℝ) 1 (n + 2) j - linspace (-1 : ℝ) 1 (n + 2) i = _
                unfold linspace
                simp only [show n + 2 - 1 = n + 1 from rfl]
                push_cast
                ring
              have hpos : (0 : ℝ) < 2 / (n + 1) := by positivity
              rw [e, abs_mul, abs_of_pos hpos]
              have : (1 : ℝ) ≤ |((j : ℕ) : ℝ) - (i : ℕ)| := by
                have h7 : ((j : ℕ) : ℤ) - (i : ℕ) ≠ 0 := by
                  intro h
                  apply hij
                  apply Fin.ext
                  omega
                have := Int.one_le_abs h7
                exact_mod_cast this
              nlinarith
            linarith
          rw [(C53_numpy inf _ hd _ i j).2 hr]
          linarith
    exact key p i
  rw [le_antisymm hle hge]

/-- `C77_stuck` with three states and two blocks. -/
example : Real.exp (1 / (2 : ℕ)) - 1 < 2 / ((1 : ℕ) + 1) := by
  have h1 := Real.exp_one_lt_d9
  have h2 : Real.exp (1 / (2 : ℕ)) * Real.exp (1 / (2 : ℕ)) = Real.exp 1 := by
    rw [← Real.exp_add]
    norm_num
  have h3 := Real.exp_pos (1 / ((2 : ℕ) : ℝ))
  norm_num at *
  nlinarith

/-- C77 (linear model, direct shooting): every entry of the matrix of `directShootingValueFunction` for the linear model is the
smallest shooting cost of a continuous piecewise linear control between the two grid points over one block. -/
theorem C77_shooting (n m blocks steps max_iter : ℕ) (hb : blocks ≠ 0) (hs : steps ≠ 0) (hm : max_iter ≠ 0) :
    let M := (linearModel n m : CModel n m ℝ)
    ∃ V, (M.hjb blocks steps).directShootingValueFunction 2 max_iter = .ok V ∧ V.length = n ∧ (∀ r ∈ V, r.length = n) ∧
      ∀ i j : Fin n, ∃ (r : List (Py ℝ)) (v : ℝ), V[(i : ℕ)]? = some r ∧ r[(j : ℕ)]? = some (.ok v) ∧
        IsLeast {c | ∃ th : List ℝ, th.length = steps + 1 ∧
          funAndCon2 M.f M.L (1 / blocks) (M.x_grid i) (M.x_grid j) th = .ok (c, 0)} v := by
  intro M
  obtain ⟨V, h1, h2, h3, h4⟩ := (C76_grid (M.hjb blocks steps) 2 max_iter).2 hb
  refine ⟨V, h1, h2, h3, fun i j => ?_⟩
  obtain ⟨r, hr1, hr2⟩ := h4 i j
  have hb' : (0 : ℝ) < 1 / blocks := by
    have : (0 : ℝ) < blocks := by exact_mod_cast Nat.pos_of_ne_zero hb
    positivity
  obtain ⟨v, th, e1, e2, e3, e4⟩ := C76_exact2 M.f M.L 1 1 0 1 1 (1 / blocks) (fun x u => by show x + u = _; ring) (fun x u => rfl)
    (by norm_num) (by norm_num) (by norm_num) hb' steps hs (M.x_grid i) (M.x_grid j)
  refine ⟨r, v, hr1, ?_, ⟨th, e2, e3⟩, ?_⟩
  · rw [hr2, if_pos rfl]
    exact congrArg some (e1 max_iter hm)
  · rintro c ⟨th', k1, k2⟩
    exact (e4 th' c k1 k2).1

/-- The numbers in `C77_shooting`. -/
example : (4 : ℕ) ≠ 0 ∧ (5 : ℕ) ≠ 0 ∧ (2 : ℕ) ≠ 0 := by decide

end Verif
