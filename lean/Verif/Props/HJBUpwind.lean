import Verif.Proof.HJBConv
import Mathlib.Tactic.NormNum
import Mathlib.Algebra.BigOperators.Group.Finset.Piecewise
import Mathlib.Data.Fin.VecNotation
import Mathlib.Data.Rat.Cast.Order
import Mathlib.Tactic.FinCases
import Mathlib.Data.Fintype.Basic
import Mathlib.Analysis.SpecialFunctions.ExpDeriv

/-! Properties C43 and C60: the finite difference passes for the Hamilton-Jacobi-Bellman equation. -/

namespace Verif

variable {n m : ℕ} {K : Type} [Field K] [LinearOrder K]

/-- The grid is increasing at its start, the time step satisfies `dt |f| ≤ dx` on the grid, and the drift does not point
out of the grid at its two ends. -/
structure UpwindOK (M : HJB (n + 2) K) (ug : Fin m → K) : Prop where
  dx : M.grid 0 < M.grid 1
  T : 0 ≤ M.T
  blocks : M.blocks ≠ 0
  steps : M.steps ≠ 0
  cfl : ∀ i u, M.T / M.blocks / M.steps * |M.f (M.grid i) (ug u)| ≤ M.grid 1 - M.grid 0
  left : ∀ u, 0 ≤ M.f (M.grid 0) (ug u)
  right : ∀ u, M.f (M.grid (Fin.last (n + 1))) (ug u) ≤ 0

/-- C43 (errors): the finite difference passes succeed exactly for a positive number of blocks and steps and a nonzero grid
spacing. -/
theorem C43_errors [NeZero m] (M : HJB (n + 2) K) (ug : Fin m → K) :
    ((∃ r, M.seqBackwardPassUpwind ug = .ok r) ↔ M.blocks ≠ 0 ∧ M.steps ≠ 0 ∧ M.grid 1 ≠ M.grid 0) ∧
    ((∃ r, M.seqBackwardPassSymfd ug = .ok r) ↔ M.blocks ≠ 0 ∧ M.steps ≠ 0 ∧ M.grid 1 ≠ M.grid 0) ∧
    (M.blocks = 0 ∨ M.steps = 0 → M.seqBackwardPassUpwind ug = .error .zeroDivisionError ∧
      M.seqBackwardPassSymfd ug = .error .zeroDivisionError) := by
  by_cases h : M.blocks = 0 ∨ M.steps = 0
  · have h1 : M.seqBackwardPassUpwind ug = .error .zeroDivisionError := by
      unfold HJB.seqBackwardPassUpwind HJB.dt; simp only [if_pos h]; rfl
    have h2 : M.seqBackwardPassSymfd ug = .error .zeroDivisionError := by
      unfold HJB.seqBackwardPassSymfd HJB.dt; simp only [if_pos h]; rfl
    rw [h1, h2]
    refine ⟨⟨?_, ?_⟩, ⟨?_, ?_⟩, fun _ => ⟨rfl, rfl⟩⟩
    · rintro ⟨r, hr⟩; cases hr
    · rintro ⟨h1, h2, -⟩; exact absurd h (by tauto)
    · rintro ⟨r, hr⟩; cases hr
    · rintro ⟨h1, h2, -⟩; exact absurd h (by tauto)
  · have hb : M.blocks ≠ 0 := by tauto
    have hs : M.steps ≠ 0 := by tauto
    by_cases hd : M.grid 1 - M.grid 0 = 0
    · have h1 : M.seqBackwardPassUpwind ug = .error .notFinite := by
        unfold HJB.seqBackwardPassUpwind HJB.dt; simp only [if_neg h, if_pos hd]; rfl
      have h2 : M.seqBackwardPassSymfd ug = .error .notFinite := by
        unfold HJB.seqBackwardPassSymfd HJB.dt; simp only [if_neg h, if_pos hd]; rfl
      rw [h1, h2]
      refine ⟨⟨?_, ?_⟩, ⟨?_, ?_⟩, fun h' => absurd h' h⟩
      · rintro ⟨r, hr⟩; cases hr
      · rintro ⟨-, -, h3⟩; exact absurd (sub_eq_zero.1 hd) h3
      · rintro ⟨r, hr⟩; cases hr
      · rintro ⟨-, -, h3⟩; exact absurd (sub_eq_zero.1 hd) h3
    · obtain ⟨h1, h2⟩ := fdPass_eq M ug hb hs hd
      exact ⟨iff_of_true ⟨_, h1⟩ ⟨hb, hs, sub_ne_zero.1 hd⟩, iff_of_true ⟨_, h2⟩ ⟨hb, hs, sub_ne_zero.1 hd⟩,
        fun h' => absurd h' h⟩

/-- C43 (TensorFlow): the TensorFlow passes return the numpy results. -/
theorem C43_tf [NeZero m] (M : HJB (n + 2) K) (ug : Fin m → K) :
    seqBwPassUpwindTF M ug = M.seqBackwardPassUpwind ug ∧ seqBwPassSymfdTF M ug = M.seqBackwardPassSymfd ug :=
  fdPassTF_eq M ug

/-- C43 (constants): raising the terminal cost by a constant raises all results of both passes by that constant. -/
theorem C43_const [NeZero m] (M : HJB (n + 2) K) (ug : Fin m → K) (c : K) (r : List (Fin (n + 2) → K)) :
    (M.seqBackwardPassUpwind ug = .ok r →
      ({ M with LT := fun x => M.LT x + c } : HJB (n + 2) K).seqBackwardPassUpwind ug =
        .ok (r.map fun V i => V i + c)) ∧
    (M.seqBackwardPassSymfd ug = .ok r →
      ({ M with LT := fun x => M.LT x + c } : HJB (n + 2) K).seqBackwardPassSymfd ug =
        .ok (r.map fun V i => V i + c)) := by
  have hit : ∀ (S : (Fin (n + 2) → K) → (Fin (n + 2) → K)), (∀ V, S (fun i => V i + c) = fun i => S V i + c) →
      ∀ N V, S^[N] (fun i => V i + c) = fun i => S^[N] V i + c := by
    intro S hS N
    induction N with
    | zero => intro V; rfl
    | succ N ih => intro V; rw [Function.iterate_succ_apply', ih, hS, Function.iterate_succ_apply']
  constructor
  · intro h
    obtain ⟨hb, hs, hd⟩ := (C43_errors M ug).1.1 ⟨r, h⟩
    have e := (fdPass_eq M ug hb hs (sub_ne_zero.2 hd)).1
    rw [h] at e
    rw [Except.ok.inj e, (fdPass_eq ({ M with LT := fun x => M.LT x + c } : HJB (n + 2) K) ug hb hs (sub_ne_zero.2 hd)).1,
      List.map_map]
    congr 1
    apply List.map_congr_left
    intro k _
    exact hit _ (upwindStep_const _ _ _ _ _ _ c) _ _
  · intro h
    obtain ⟨hb, hs, hd⟩ := (C43_errors M ug).2.1.1 ⟨r, h⟩
    have e := (fdPass_eq M ug hb hs (sub_ne_zero.2 hd)).2
    rw [h] at e
    rw [Except.ok.inj e, (fdPass_eq ({ M with LT := fun x => M.LT x + c } : HJB (n + 2) K) ug hb hs (sub_ne_zero.2 hd)).2,
      List.map_map]
    congr 1
    apply List.map_congr_left
    intro k _
    exact hit _ (symStep_const _ _ _ _ _ _ c) _ _

variable [IsStrictOrderedRing K]

/-- C43 (dynamic programming): under the conditions one upwind step is the dynamic programming step of a controlled Markov
chain that stays or moves to the neighbour in the direction of the drift. -/
theorem C43_bellman [NeZero m] (M : HJB (n + 2) K) (ug : Fin m → K) (h : UpwindOK M ug) (V : Fin (n + 2) → K)
    (i : Fin (n + 2)) :
    ∃ (q : Fin m → Fin (n + 2) → K), (∀ u j, 0 ≤ q u j) ∧ (∀ u, ∑ j, q u j = 1) ∧
      (∀ u j, q u j ≠ 0 → (j : ℕ) = i ∨ (j : ℕ) = i + 1 ∨ (j : ℕ) + 1 = i) ∧
      (∀ u, ∑ j, q u j * (((j : ℕ) : K) - (i : ℕ)) * (M.grid 1 - M.grid 0) =
        M.f (M.grid i) (ug u) * (M.T / M.blocks / M.steps)) ∧
      IsLeast (Set.range fun u => M.L (M.grid i) (ug u) * (M.T / M.blocks / M.steps) + ∑ j, q u j * V j)
        (upwindStep M.f M.L M.grid ug (M.grid 1 - M.grid 0) (M.T / M.blocks / M.steps) V i) := by
  have hdx := sub_pos.2 h.dx
  have hdt : 0 ≤ M.T / M.blocks / M.steps := div_nonneg (div_nonneg h.T (Nat.cast_nonneg _)) (Nat.cast_nonneg _)
  have hbell := upwindStep_bellman M.f M.L M.grid ug (M.grid 1 - M.grid 0) _ hdt h.left h.right V i
  have hcfl := h.cfl i
  have hl : ∀ u, i = 0 → 0 ≤ M.f (M.grid i) (ug u) := by rintro u rfl; exact h.left u
  have hr : ∀ u, i = Fin.last (n + 1) → M.f (M.grid i) (ug u) ≤ 0 := by rintro u rfl; exact h.right u
  generalize M.grid 1 - M.grid 0 = dx at *
  generalize M.T / M.blocks / M.steps = dt at *
  have hr1 : ∀ u, |M.f (M.grid i) (ug u)| * dt / dx ≤ 1 := fun u => by
    rw [div_le_one hdx]; linarith [hcfl u, mul_comm dt |M.f (M.grid i) (ug u)|]
  have hr0 : ∀ u, 0 ≤ |M.f (M.grid i) (ug u)| * dt / dx := fun u =>
    div_nonneg (mul_nonneg (abs_nonneg _) hdt) hdx.le
  have hsum : ∀ (g : Fin (n + 2) → K) (a b : K) (d : Fin (n + 2)),
      ∑ j, ((if j = i then a else 0) + (if j = d then b else 0)) * g j = a * g i + b * g d := by
    intro g a b d
    simp only [add_mul, ite_mul, zero_mul, Finset.sum_add_distrib, Finset.sum_ite_eq', Finset.mem_univ, if_true]
  refine ⟨fun u j => (if j = i then 1 - |M.f (M.grid i) (ug u)| * dt / dx else 0) +
    (if j = downstream (M.f (M.grid i) (ug u)) i then |M.f (M.grid i) (ug u)| * dt / dx else 0), ?_, ?_, ?_, ?_, ?_⟩
  · intro u j
    have h1 := hr1 u
    have h0 := hr0 u
    dsimp only
    split <;> split <;> linarith
  · intro u
    have := hsum (fun _ => 1) (1 - |M.f (M.grid i) (ug u)| * dt / dx) (|M.f (M.grid i) (ug u)| * dt / dx)
      (downstream (M.f (M.grid i) (ug u)) i)
    simp only [mul_one] at this
    dsimp only
    rw [this]; ring
  · intro u j hq
    by_cases h1 : j = i
    · exact Or.inl (by rw [h1])
    · by_cases h2 : j = downstream (M.f (M.grid i) (ug u)) i
      · rw [h2]
        unfold downstream nxt prv
        split
        · show min ((i : ℕ) + 1) (n + 1) = i ∨ min ((i : ℕ) + 1) (n + 1) = i + 1 ∨ _
          omega
        · show (i : ℕ) - 1 = i ∨ _ ∨ (i : ℕ) - 1 + 1 = i
          omega
      · simp [h1, h2] at hq
  · intro u
    dsimp only
    rw [← Finset.sum_mul]
    rw [hsum (fun j => (((j : ℕ) : K) - (i : ℕ)))]
    have hlu := hl u
    have hru := hr u
    generalize M.f (M.grid i) (ug u) = b at *
    rcases lt_trichotomy b 0 with hb | hb | hb
    · have hi : i ≠ 0 := fun h => absurd (hlu h) (not_le.2 hb)
      have hi' : 1 ≤ (i : ℕ) := Nat.pos_of_ne_zero fun h => hi (Fin.ext h)
      have ed : ((downstream b i : Fin (n + 2)) : ℕ) = (i : ℕ) - 1 := by
        unfold downstream prv; rw [if_neg (not_lt.2 hb.le)]
      rw [ed, Nat.cast_sub hi', abs_of_neg hb]
      field_simp
      push_cast
      ring
    · subst hb; simp
    · have hi : i ≠ Fin.last (n + 1) := fun h => absurd (hru h) (not_le.2 hb)
      have hi' : (i : ℕ) + 1 ≤ n + 1 := by
        have := i.2
        have h2 : (i : ℕ) ≠ n + 1 := fun h => hi (Fin.ext h)
        omega
      have ed : ((downstream b i : Fin (n + 2)) : ℕ) = (i : ℕ) + 1 := by
        unfold downstream nxt; rw [if_pos hb]; exact min_eq_left hi'
      rw [ed, abs_of_pos hb]
      field_simp
      push_cast
      ring
  · rw [hbell]
    have := min1_isLeast fun u => M.L (M.grid i) (ug u) * dt + (1 - |M.f (M.grid i) (ug u)| * dt / dx) * V i +
        |M.f (M.grid i) (ug u)| * dt / dx * V (downstream (M.f (M.grid i) (ug u)) i)
    have e : (fun u => M.L (M.grid i) (ug u) * dt + ∑ j, ((if j = i then 1 - |M.f (M.grid i) (ug u)| * dt / dx else 0) +
        (if j = downstream (M.f (M.grid i) (ug u)) i then |M.f (M.grid i) (ug u)| * dt / dx else 0)) * V j) =
        fun u => M.L (M.grid i) (ug u) * dt + (1 - |M.f (M.grid i) (ug u)| * dt / dx) * V i +
        |M.f (M.grid i) (ug u)| * dt / dx * V (downstream (M.f (M.grid i) (ug u)) i) := by
      funext u
      rw [hsum V]; ring
    rw [e]
    exact this

/-- C43 (monotone): under the conditions the results of the whole upwind pass are monotone in the terminal cost. -/
theorem C43_monotone [NeZero m] (M : HJB (n + 2) K) (ug : Fin m → K) (h : UpwindOK M ug) (LT' : K → K)
    (hLT : ∀ i, M.LT (M.grid i) ≤ LT' (M.grid i)) :
    ∃ r r' : List (Fin (n + 2) → K), M.seqBackwardPassUpwind ug = .ok r ∧
      ({ M with LT := LT' } : HJB (n + 2) K).seqBackwardPassUpwind ug = .ok r' ∧
      r.length = M.blocks + 1 ∧ r'.length = M.blocks + 1 ∧
      ∀ (k : ℕ) (V V' : Fin (n + 2) → K), r[k]? = some V → r'[k]? = some V' → ∀ i, V i ≤ V' i := by
  have hdx := sub_pos.2 h.dx
  have hdt : 0 ≤ M.T / M.blocks / M.steps := div_nonneg (div_nonneg h.T (Nat.cast_nonneg _)) (Nat.cast_nonneg _)
  refine ⟨_, _, (fdPass_eq M ug h.blocks h.steps hdx.ne').1,
    (fdPass_eq ({ M with LT := LT' } : HJB (n + 2) K) ug h.blocks h.steps hdx.ne').1, by simp, by simp, ?_⟩
  intro k V V' hV hV' i
  rw [List.getElem?_map] at hV hV'
  obtain ⟨j, hj, rfl⟩ := Option.map_eq_some_iff.1 hV
  obtain ⟨j', hj', rfl⟩ := Option.map_eq_some_iff.1 hV'
  have ej : j' = j := Option.some.inj (hj'.symm.trans hj)
  subst ej
  exact iterate_mono (fun V W hVW => upwindStep_mono M.f M.L M.grid ug _ _ hdx hdt h.cfl h.left h.right V W hVW) _ _ _ hLT i

/-- C43 (stable): under the conditions the value functions are bounded by the bounds of the costs. -/
theorem C43_stable [NeZero m] (M : HJB (n + 2) K) (ug : Fin m → K) (h : UpwindOK M ug) (c C : K)
    (hL : ∀ i u, |M.L (M.grid i) (ug u)| ≤ c) (hLT : ∀ i, |M.LT (M.grid i)| ≤ C) :
    ∃ r, M.seqBackwardPassUpwind ug = .ok r ∧ r.length = M.blocks + 1 ∧
      ∀ k ≤ M.blocks, ∀ V, r[k]? = some V → ∀ i, |V i| ≤ C + (M.blocks - k) * (M.T / M.blocks) * c := by
  have hdx := sub_pos.2 h.dx
  have hdt : 0 ≤ M.T / M.blocks / M.steps := div_nonneg (div_nonneg h.T (Nat.cast_nonneg _)) (Nat.cast_nonneg _)
  refine ⟨_, (fdPass_eq M ug h.blocks h.steps hdx.ne').1, by simp, ?_⟩
  intro k hk V hV i
  rw [List.getElem?_map, List.getElem?_range (by omega)] at hV
  have hV := Option.some.inj hV
  subst hV
  have hit : ∀ N i, |(upwindStep M.f M.L M.grid ug (M.grid 1 - M.grid 0) (M.T / M.blocks / M.steps))^[N]
      (fun i => M.LT (M.grid i)) i| ≤ C + N * ((M.T / M.blocks / M.steps) * c) := by
    intro N
    induction N with
    | zero => intro i; simpa using hLT i
    | succ N ih =>
      intro i
      rw [Function.iterate_succ_apply']
      refine le_trans (upwindStep_bound M.f M.L M.grid ug _ _ hdx hdt h.cfl h.left h.right c _ hL _ ih i) ?_
      push_cast
      linarith
  refine le_trans (hit _ i) (le_of_eq ?_)
  have hs : (M.steps : K) ≠ 0 := by exact_mod_cast h.steps
  have hb : (M.blocks : K) ≠ 0 := by exact_mod_cast h.blocks
  rw [Nat.cast_mul, Nat.cast_sub hk]
  field_simp

/-- C43 (consistent): on an affine function on a uniform grid the upwind step evaluates the Hamiltonian exactly, and on a
quadratic function the symmetric differences are the exact derivatives at the interior points. -/
theorem C43_consistent [NeZero m] (f L : K → K → K) (x0 dx dt p q : K) (hdx : dx ≠ 0) (ug : Fin m → K)
    (i : Fin (n + 2)) :
    upwindStep f L (fun i : Fin (n + 2) => x0 + (i : ℕ) * dx) ug dx dt (fun i => p * (x0 + (i : ℕ) * dx) + q) i =
      p * (x0 + (i : ℕ) * dx) + q +
        min1 (fun u => L (x0 + (i : ℕ) * dx) (ug u) + f (x0 + (i : ℕ) * dx) (ug u) * p) * dt ∧
    ∀ a, i ≠ 0 → i ≠ Fin.last (n + 1) →
      dvSym dx (fun i : Fin (n + 2) => a * (x0 + (i : ℕ) * dx) ^ 2 + p * (x0 + (i : ℕ) * dx) + q) i =
        2 * a * (x0 + (i : ℕ) * dx) + p :=
  ⟨upwindStep_affine f L x0 dx dt p q hdx ug i, fun a h0 h1 => dvSym_quadratic x0 dx a p q hdx i h0 h1⟩

/-- C60: if `W` is a solution of the Hamilton-Jacobi-Bellman equation for controls in the grid, with the
terminal cost as its value at `T` and with Lipschitz continuous derivatives, the upwind pass on a uniform grid approximates
it with an error of first order in the time step and the grid spacing. -/
theorem C60_convergence [NeZero m] (M : HJB (n + 2) ℝ) (ug : Fin m → ℝ) (h : UpwindOK M ug) (x0 dx : ℝ)
    (hgrid : ∀ i : Fin (n + 2), M.grid i = x0 + (i : ℕ) * dx) (W Wt Wx : ℝ → ℝ → ℝ) (A B F : ℝ)
    (hA0 : 0 ≤ A) (hB0 : 0 ≤ B)
    (hWt : ∀ i, ∀ t ∈ Set.Icc 0 M.T, HasDerivAt (fun s => W s (M.grid i)) (Wt t (M.grid i)) t)
    (hA : ∀ i, ∀ s ∈ Set.Icc 0 M.T, ∀ t ∈ Set.Icc 0 M.T, |Wt s (M.grid i) - Wt t (M.grid i)| ≤ A * |s - t|)
    (hWx : ∀ t ∈ Set.Icc 0 M.T, ∀ x ∈ Set.Icc (M.grid 0) (M.grid (Fin.last (n + 1))),
      HasDerivAt (fun y => W t y) (Wx t x) x)
    (hB : ∀ t ∈ Set.Icc 0 M.T, ∀ x ∈ Set.Icc (M.grid 0) (M.grid (Fin.last (n + 1))),
      ∀ y ∈ Set.Icc (M.grid 0) (M.grid (Fin.last (n + 1))), |Wx t x - Wx t y| ≤ B * |x - y|)
    (hF : ∀ i u, |M.f (M.grid i) (ug u)| ≤ F)
    (hjb : ∀ t ∈ Set.Icc 0 M.T, ∀ i, IsLeast (Set.range fun u => M.L (M.grid i) (ug u) + M.f (M.grid i) (ug u) * Wx t (M.grid i))
      (-Wt t (M.grid i)))
    (hT : ∀ i, W M.T (M.grid i) = M.LT (M.grid i)) :
    ∃ r, M.seqBackwardPassUpwind ug = .ok r ∧ r.length = M.blocks + 1 ∧
      ∀ k ≤ M.blocks, ∀ V, r[k]? = some V → ∀ i,
        |V i - W (k * (M.T / M.blocks)) (M.grid i)| ≤ M.T * (A * (M.T / M.blocks / M.steps) + F * B * dx) := by
  have hdx := sub_pos.2 h.dx
  have hdt : 0 ≤ M.T / M.blocks / M.steps := div_nonneg (div_nonneg h.T (Nat.cast_nonneg _)) (Nat.cast_nonneg _)
  refine ⟨_, (fdPass_eq M ug h.blocks h.steps hdx.ne').1, by simp, ?_⟩
  intro k hk V hV i
  rw [List.getElem?_map, List.getElem?_range (by omega)] at hV
  have hV := Option.some.inj hV
  subst hV
  have hs : (M.steps : ℝ) ≠ 0 := by exact_mod_cast h.steps
  have hb : (M.blocks : ℝ) ≠ 0 := by exact_mod_cast h.blocks
  have hdxe : M.grid 1 - M.grid 0 = dx := by rw [hgrid, hgrid]; simp
  have hge : M.grid = fun i : Fin (n + 2) => x0 + (i : ℕ) * dx := funext hgrid
  have hF0 : 0 ≤ F := le_trans (abs_nonneg _) (hF 0 0)
  rw [hdxe] at hdx
  have hN : (((M.blocks - k) * M.steps : ℕ) : ℝ) * (M.T / M.blocks / M.steps) ≤ M.T := by
    rw [Nat.cast_mul, Nat.cast_sub hk]
    have e2 : ((M.blocks : ℝ) - k) * M.steps * (M.T / M.blocks / M.steps) = M.T - k * (M.T / M.blocks) := by
      field_simp
    rw [e2]
    have : 0 ≤ (k : ℝ) * (M.T / M.blocks) := mul_nonneg (Nat.cast_nonneg _) (div_nonneg h.T (Nat.cast_nonneg _))
    linarith
  have htr : ∀ j < (M.blocks - k) * M.steps, ∀ i, |W (M.T - ((j + 1 : ℕ) : ℝ) * (M.T / M.blocks / M.steps)) (M.grid i) -
      upwindStep M.f M.L M.grid ug dx (M.T / M.blocks / M.steps)
        (fun i => W (M.T - ((j : ℕ) : ℝ) * (M.T / M.blocks / M.steps)) (M.grid i)) i| ≤
      (M.T / M.blocks / M.steps) * (A * (M.T / M.blocks / M.steps) + F * B * dx) := by
    intro j hj i
    have hj1 : (((j + 1 : ℕ)) : ℝ) * (M.T / M.blocks / M.steps) ≤ M.T := by
      refine le_trans (mul_le_mul_of_nonneg_right ?_ hdt) hN
      exact_mod_cast hj
    have e : M.T - ((j : ℕ) : ℝ) * (M.T / M.blocks / M.steps) - M.T / M.blocks / M.steps =
        M.T - ((j + 1 : ℕ) : ℝ) * (M.T / M.blocks / M.steps) := by push_cast; ring
    have ht1 : 0 ≤ M.T - ((j : ℕ) : ℝ) * (M.T / M.blocks / M.steps) - M.T / M.blocks / M.steps := by
      rw [e]; linarith
    have ht2 : M.T - ((j : ℕ) : ℝ) * (M.T / M.blocks / M.steps) ≤ M.T := by
      have : 0 ≤ ((j : ℕ) : ℝ) * (M.T / M.blocks / M.steps) := mul_nonneg (Nat.cast_nonneg _) hdt
      linarith
    rw [← e]
    generalize M.T - ((j : ℕ) : ℝ) * (M.T / M.blocks / M.steps) = t at *
    generalize M.T / M.blocks / M.steps = dt at *
    have htm : t ∈ Set.Icc 0 M.T := ⟨by linarith, ht2⟩
    have hsm : ∀ s ∈ Set.Icc (t - dt) t, s ∈ Set.Icc 0 M.T := fun s hs => ⟨by linarith [hs.1], by linarith [hs.2]⟩
    have hF' := hF
    have hj' := hjb t htm
    have hl := h.left
    have hr := h.right
    have hWt' := fun i s hs => hWt i s (hsm s hs)
    have hA' := fun i s hs => hA i s (hsm s hs) t htm
    have hWx' := hWx t htm
    have hB' := hB t htm
    have hg0 : M.grid 0 = x0 := by rw [hgrid]; simp
    have hg1 : M.grid (Fin.last (n + 1)) = x0 + (n + 1 : ℕ) * dx := by rw [hgrid]; simp
    rw [hg0, hg1] at hWx' hB'
    rw [hg0] at hl
    rw [hg1] at hr
    rw [hge] at hF' hj' hWt' hA' ⊢
    exact upwind_truncation (n := n) M.f M.L x0 dx dt ug hdx hdt hl hr W Wt Wx A B F t hA0 hB0
      hWt' hA' hWx' hB' hF' (fun i => by
        have := (hj' i).unique (min1_isLeast _)
        rw [← this]; ring) i
  have herr := iterate_error (S := upwindStep M.f M.L M.grid ug dx (M.T / M.blocks / M.steps))
    (fun V W hVW => upwindStep_mono M.f M.L M.grid ug _ _ hdx hdt (by rw [← hdxe]; exact h.cfl) h.left h.right V W hVW)
    (fun V c => upwindStep_const M.f M.L M.grid ug _ _ c V)
    (fun j i => W (M.T - ((j : ℕ) : ℝ) * (M.T / M.blocks / M.steps)) (M.grid i)) (fun i => M.LT (M.grid i)) 0 _
    (fun i => by simp [hT i]) ((M.blocks - k) * M.steps) htr i
  rw [hdxe]
  have e : M.T - (((M.blocks - k) * M.steps : ℕ) : ℝ) * (M.T / M.blocks / M.steps) = k * (M.T / M.blocks) := by
    rw [Nat.cast_mul, Nat.cast_sub hk]
    field_simp
    ring
  rw [e] at herr
  refine le_trans herr ?_
  rw [zero_add, ← mul_assoc]
  apply mul_le_mul_of_nonneg_right _ (by positivity)
  have e2 : (((M.blocks - k) * M.steps : ℕ) : ℝ) * (M.T / M.blocks / M.steps) = M.T - k * (M.T / M.blocks) := by
    linarith
  rw [e2]
  have : 0 ≤ (k : ℝ) * (M.T / M.blocks) := mul_nonneg (Nat.cast_nonneg _) (div_nonneg h.T (Nat.cast_nonneg _))
  linarith

/-- C43 (outward drift): without the conditions at the ends the upwind step is not monotone, already for the dynamics
`f(x, u) = u x` with the controls `0, 1` on the grid `-1, 0, 1` of `upwind_model` (`cnonlin_models_np.py:72-95`). -/
theorem C43_outward : ∃ V V' : Fin 3 → ℚ, (∀ i, V i ≤ V' i) ∧
    (∀ (i : Fin 3) (u : Fin 2), (1 / 2 : ℚ) * |(![0, 1] : Fin 2 → ℚ) u * (![-1, 0, 1] : Fin 3 → ℚ) i| ≤ 1) ∧
    upwindStep (fun x u => u * x) (fun _ _ => 0) ![-1, 0, 1] (![0, 1] : Fin 2 → ℚ) 1 (1 / 2) V' 0 <
      upwindStep (fun x u => u * x) (fun _ _ => 0) ![-1, 0, 1] (![0, 1] : Fin 2 → ℚ) 1 (1 / 2) V 0 := by
  refine ⟨![0, 0, 0], ![0, 1, 0], ?_, ?_, ?_⟩ <;> decide +kernel

/-- C43 (large time steps): without the condition on the time step the upwind step is not monotone, even if the drift points
inwards. -/
theorem C43_no_cfl : ∃ V V' : Fin 3 → ℚ, (∀ i, V i ≤ V' i) ∧
    upwindStep (fun x _ => -x) (fun _ _ => 0) ![-1, 0, 1] (![0] : Fin 1 → ℚ) 1 2 V' 0 <
      upwindStep (fun x _ => -x) (fun _ _ => 0) ![-1, 0, 1] (![0] : Fin 1 → ℚ) 1 2 V 0 := by
  refine ⟨![0, 0, 0], ![1, 0, 0], ?_, ?_⟩ <;> decide +kernel

/-- C43 (symmetric differences): the symmetric scheme is not monotone for any time step, even if the drift points inwards at
the ends. -/
theorem C43_symfd_not_monotone (dt : ℚ) (hdt : 0 < dt) : ∃ V V' : Fin 4 → ℚ, (∀ i, V i ≤ V' i) ∧
    symStep (fun x _ => -x) (fun _ _ => 0) ![-2, -1, 1, 2] (![0] : Fin 1 → ℚ) 1 dt V' 1 <
      symStep (fun x _ => -x) (fun _ _ => 0) ![-2, -1, 1, 2] (![0] : Fin 1 → ℚ) 1 dt V 1 := by
  refine ⟨![0, 0, 0, 0], ![1, 0, 0, 0], by decide +kernel, ?_⟩
  have e1 : dvSym 1 (![0, 0, 0, 0] : Fin 4 → ℚ) 1 = 0 := by decide +kernel
  have e2 : dvSym 1 (![1, 0, 0, 0] : Fin 4 → ℚ) 1 = -1 / 2 := by decide +kernel
  simp only [symStep, e1, e2]
  norm_num
  linarith

/-! Examples meeting the hypotheses. -/

/-- A solver object with inward drift: `f(x, u) = -x`, running cost `u`, terminal cost `x` on the grid `-1, 0, 1`. -/
noncomputable def hjbIn : HJB 3 ℝ := ⟨fun x _ => -x, fun _ u => u, fun x => x, 1, 2, 5, fun i => -1 + (i : ℕ) * 1⟩

/-- The controls `0, 1`. -/
noncomputable def hjbU : Fin 2 → ℝ := fun i => ((i : ℕ) : ℝ)

theorem hjbIn_ok : UpwindOK (n := 1) hjbIn hjbU where
  dx := by simp [hjbIn]
  T := by simp [hjbIn]
  blocks := by simp [hjbIn]
  steps := by simp [hjbIn]
  cfl := by intro i u; fin_cases i <;> norm_num [hjbIn]
  left := by intro u; norm_num [hjbIn]
  right := by intro u; norm_num [hjbIn, Fin.last]

/-- `C60_convergence`: the value function of `hjbIn` is `W t x = x exp(t - 1)`, a solution of the Hamilton-Jacobi-Bellman
equation with the controls `0, 1`; the distance to the upwind pass with the time step `1/10` is at most `3/10`. -/
example : ∃ r, hjbIn.seqBackwardPassUpwind (n := 1) hjbU = .ok r ∧ r.length = 3 ∧
    ∀ k : ℕ, k ≤ 2 → ∀ V : Fin 3 → ℝ, r[k]? = some V → ∀ i, |V i - hjbIn.grid i * Real.exp (k * (1 / 2) - 1)| ≤ 3 / 10 := by
  have hg : ∀ i, |hjbIn.grid i| ≤ 1 := by intro i; fin_cases i <;> norm_num [hjbIn]
  obtain ⟨r, h1, h2, h3⟩ := C60_convergence (n := 1) hjbIn hjbU hjbIn_ok (-1) 1 (fun i => rfl)
    (fun t x => x * Real.exp (t - 1)) (fun t x => x * Real.exp (t - 1)) (fun t _ => Real.exp (t - 1)) 3 0 1
    (by norm_num) le_rfl
    (fun i t _ => by
      have := ((hasDerivAt_id t).sub_const 1).exp.const_mul (hjbIn.grid i)
      simpa using this)
    (fun i s hs t ht => by
      have hle : ∀ a b : ℝ, a ≤ b → b ≤ 1 → Real.exp (b - 1) - Real.exp (a - 1) ≤ 1 * (b - a) := by
        intro a b hab hb
        have e1 : Real.exp (a - 1) = Real.exp (b - 1) * Real.exp (a - b) := by rw [← Real.exp_add]; congr 1; ring
        have e2 := Real.add_one_le_exp (a - b)
        have e3 : Real.exp (b - 1) ≤ 1 := Real.exp_le_one_iff.2 (by linarith)
        have e4 := Real.exp_pos (b - 1)
        rw [e1]
        nlinarith
      have key : |Real.exp (s - 1) - Real.exp (t - 1)| ≤ |s - t| := by
        have hs1 : s ≤ 1 := hs.2
        have ht1 : t ≤ 1 := ht.2
        rcases le_total s t with h | h
        · rw [abs_sub_comm, abs_sub_comm s, abs_of_nonneg (sub_nonneg.2 (Real.exp_le_exp.2 (by linarith))),
            abs_of_nonneg (sub_nonneg.2 h)]
          linarith [hle s t h ht1]
        · rw [abs_of_nonneg (sub_nonneg.2 (Real.exp_le_exp.2 (by linarith))), abs_of_nonneg (sub_nonneg.2 h)]
          linarith [hle t s h hs1]
      rw [← mul_sub, abs_mul]
      nlinarith [hg i, abs_nonneg (hjbIn.grid i), abs_nonneg (s - t), abs_nonneg (Real.exp (s - 1) - Real.exp (t - 1))])
    (fun t _ x _ => by simpa using (hasDerivAt_id x).mul_const (Real.exp (t - 1)))
    (fun t _ x _ y _ => by simp)
    (fun i u => by show |-(hjbIn.grid i)| ≤ 1; rw [abs_neg]; exact hg i)
    (fun t _ i => by
      constructor
      · exact ⟨0, by simp [hjbIn, hjbU]; ring⟩
      · rintro _ ⟨u, rfl⟩
        have : (0 : ℝ) ≤ ((u : ℕ) : ℝ) := Nat.cast_nonneg _
        simp only [hjbIn, hjbU]
        linarith)
    (fun i => by simp [hjbIn])
  refine ⟨r, h1, h2, ?_⟩
  intro k hk V hV i
  have := h3 k hk V hV i
  norm_num [hjbIn] at this ⊢
  exact this

/-- `C43_bellman`, `C43_monotone`, `C43_stable`: the same object with the bounds `1` of the costs. -/
example : UpwindOK (n := 1) hjbIn hjbU ∧ (∀ i, |hjbIn.LT (hjbIn.grid i)| ≤ 1) ∧
    (∀ i, hjbIn.LT (hjbIn.grid i) ≤ (fun x : ℝ => x + 1) (hjbIn.grid i)) ∧
    ∀ i u, |hjbIn.L (hjbIn.grid i) (hjbU u)| ≤ 1 := by
  refine ⟨hjbIn_ok, ?_, ?_, ?_⟩
  · intro i; fin_cases i <;> norm_num [hjbIn]
  · intro i; simp [hjbIn]
  · intro i u; fin_cases u <;> norm_num [hjbIn, hjbU]

end Verif
