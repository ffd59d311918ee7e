import Verif.Proof.Shooting
import Mathlib.Data.Rat.Cast.Order
import Mathlib.Tactic.NormNum

/-! Property C59: the direct shooting functions of the grid solvers. -/

namespace Verif

variable {K : Type} [Field K]

/-- C59 (parametrisations): the continuous piecewise linear control of `fun_and_con_2` with the initial value `a0` and the
slopes `bs` is the control of `fun_and_con_1` with the same slopes whose values at the interval starts are
`a0 + dt * (b_0 + .. + b_{i-1})`, and both functions return the same cost and constraint. -/
theorem C59_parametrisations (g L : K → K → K) (T x0 xf a0 : K) (as bs : List K) (hb : bs ≠ []) (hl : as.length = bs.length)
    (ha : ∀ i (h : i < as.length), as[i] = a0 + T / bs.length * (bs.take i).sum) :
    funAndCon2 g L T x0 xf (a0 :: bs) = funAndCon1 g L T x0 xf as bs :=
  funAndCon2_eq g L T x0 xf a0 as bs hb hl ha

/-- C59 (errors): the functions return a result exactly if there is at least one interval and, for `fun_and_con_1`, the two
parameter vectors have the same length. -/
theorem C59_errors (g L : K → K → K) (T x0 xf : K) (as bs th : List K) :
    ((∃ r, funAndCon1 g L T x0 xf as bs = .ok r) ↔ as ≠ [] ∧ bs.length = as.length) ∧
    ((∃ r, funAndCon2 g L T x0 xf th = .ok r) ↔ 2 ≤ th.length) := by
  constructor
  · constructor
    · rintro ⟨r, h⟩
      unfold funAndCon1 at h
      split at h
      · cases h
      · rename_i h0
        split at h
        · cases h
        · rename_i h1
          exact ⟨by simpa using h0, not_not.1 h1⟩
    · rintro ⟨h1, h2⟩
      exact ⟨_, funAndCon1_eq g L T x0 xf as bs h1 h2⟩
  · constructor
    · rintro ⟨r, h⟩
      cases th with
      | nil => cases h
      | cons a bs =>
        unfold funAndCon2 at h
        dsimp only at h
        split at h
        · cases h
        · rename_i h0
          simp only [List.length_cons]
          omega
    · intro h
      cases th with
      | nil => simp at h
      | cons a bs =>
        have hb : bs ≠ [] := by rintro rfl; simp at h
        have e := funAndCon2_eq g L T x0 xf a (List.ofFn fun i : Fin bs.length => a + T / bs.length * (bs.take i).sum) bs hb
          (by simp) (by intro i hi; simp)
        rw [e, funAndCon1_eq g L T x0 xf _ bs (by
          intro h0
          have := congrArg List.length h0
          simp at this
          exact hb this) (by simp)]
        exact ⟨_, rfl⟩

/-- C59 (TensorFlow): the TensorFlow functions return the numpy results. -/
theorem C59_tf (g L : K → K → K) (T x0 xf : K) (as bs th : List K) :
    funAndCon1TF g L T x0 xf as bs = funAndCon1 g L T x0 xf as bs ∧
    funAndCon2TF g L T x0 xf th = funAndCon2 g L T x0 xf th :=
  ⟨funAndCon1TF_eq g L T x0 xf as bs, funAndCon2TF_eq g L T x0 xf th⟩

/-- C59 (exact for the integrator): for `x' = u` with the cost `u²` the results are the exact integrals of the piecewise
linear control. -/
theorem C59_integrator (h6 : (6 : K) ≠ 0) (T x0 xf : K) (as bs : List K) (h : as ≠ []) (hl : bs.length = as.length) :
    funAndCon1 (fun _ u => u) (fun _ u => u ^ 2) T x0 xf as bs =
      .ok (((as.zip bs).map fun p => p.1 ^ 2 * (T / as.length) + p.1 * p.2 * (T / as.length) ^ 2 +
          p.2 ^ 2 * (T / as.length) ^ 3 / 3).sum,
        x0 + ((as.zip bs).map fun p => p.1 * (T / as.length) + p.2 * (T / as.length) ^ 2 / 2).sum - xf) := by
  rw [funAndCon1_eq _ _ _ _ _ _ _ h hl, shoot1_integrator _ h6]
  simp

/-- C59 (grid): the entry `(i, k)` of the value function matrix belongs to the initial state `x0_grid[i]` and the final state
`xf_grid[k]`. -/
theorem C59_grid {β γ : Type} (one : β → β → γ) (x0s xfs : List β) :
    (gridEval one x0s xfs).length = x0s.length ∧ (∀ r ∈ gridEval one x0s xfs, r.length = xfs.length) ∧
    ∀ (i k : ℕ) (x0 xf : β), x0s[i]? = some x0 → xfs[k]? = some xf →
      ∃ r : List γ, (gridEval one x0s xfs)[i]? = some r ∧ r[k]? = some (one x0 xf) := by
  rw [gridEval_eq]
  refine ⟨by simp, ?_, ?_⟩
  · intro r hr
    obtain ⟨x, -, rfl⟩ := List.mem_map.1 hr
    simp
  · intro i k x0 xf h1 h2
    exact ⟨xfs.map fun xf => one x0 xf, by rw [List.getElem?_map, h1]; rfl, by rw [List.getElem?_map, h2]; rfl⟩

variable [LinearOrder K] [IsStrictOrderedRing K]

/-- C59 (convex): for affine dynamics and a convex cost the constraint of `fun_and_con_1` is affine and its cost is convex in
the control parameters. -/
theorem C59_convex (g L : K → K → K) (al be ga T x0 xf : K) (hT : 0 ≤ T) (hg : ∀ x u, g x u = al * x + be * u + ga)
    (lam mu : K) (hlm : lam + mu = 1)
    (hL : ∀ x u x' u', L (lam * x + mu * x') (lam * u + mu * u') ≤ lam * L x u + mu * L x' u')
    (as bs as' bs' : List K) (h : as ≠ []) (hb : bs.length = as.length) (ha' : as'.length = as.length)
    (hb' : bs'.length = as.length) :
    ∃ c d c' d' c'' d'', funAndCon1 g L T x0 xf as bs = .ok (c, d) ∧ funAndCon1 g L T x0 xf as' bs' = .ok (c', d') ∧
      funAndCon1 g L T x0 xf (List.zipWith (fun a a' => lam * a + mu * a') as as')
        (List.zipWith (fun b b' => lam * b + mu * b') bs bs') = .ok (c'', d'') ∧
      d'' = lam * d + mu * d' ∧ c'' ≤ lam * c + mu * c' := by
  have h' : as' ≠ [] := by
    intro e; rw [e] at ha'; exact h (List.length_eq_zero_iff.1 ha'.symm)
  have h'' : List.zipWith (fun a a' => lam * a + mu * a') as as' ≠ [] := by
    intro e
    have := congrArg List.length e
    simp [ha'] at this
    exact h this
  have hz : ∀ (as as' bs bs' : List K), bs.length = as.length → as'.length = as.length → bs'.length = as.length →
      (List.zipWith (fun a a' => lam * a + mu * a') as as').zip (List.zipWith (fun b b' => lam * b + mu * b') bs bs') =
      List.zipWith (fun p q => (lam * p.1 + mu * q.1, lam * p.2 + mu * q.2)) (as.zip bs) (as'.zip bs') := by
    intro as
    induction as with
    | nil => intro as' bs bs' h1 h2 h3; simp
    | cons a as ih =>
      intro as' bs bs' h1 h2 h3
      match as', bs, bs' with
      | [], _, _ => simp at h2
      | _ :: _, [], _ => simp at h1
      | _ :: _, _ :: _, [] => simp at h3
      | a' :: as', b :: bs, b' :: bs' =>
        simp only [List.zipWith_cons_cons, List.zip_cons_cons]
        rw [ih as' bs bs' (by simpa using h1) (by simpa using h2) (by simpa using h3)]
  have hlen : (List.zipWith (fun a a' => lam * a + mu * a') as as').length = as.length := by simp [ha']
  obtain ⟨h1, h2⟩ := shoot1_convex g L al be ga (T / as.length) (div_nonneg hT (Nat.cast_nonneg _)) hg lam mu hlm hL
    (as.zip bs) (as'.zip bs') (by simp [hb, ha', hb']) (x0, 0) (x0, 0) (x0, 0)
    (by dsimp only; rw [← add_mul, hlm, one_mul]) (by simp)
  refine ⟨_, _, _, _, _, _, funAndCon1_eq g L T x0 xf as bs h hb,
    funAndCon1_eq g L T x0 xf as' bs' h' (by rw [hb', ha']), funAndCon1_eq g L T x0 xf _ _ h'' (by simp [hb, hb', ha']), ?_, ?_⟩
  · rw [hlen, ha', hz as as' bs bs' hb ha' hb', h1]
    linear_combination xf * hlm
  · rw [hlen, ha', hz as as' bs bs' hb ha' hb']
    exact h2

/-! Examples meeting the hypotheses. -/

/-- `C59_parametrisations`: the slopes `1, 2` from the value `3` over `T = 2` give the interval starts `3, 4`. -/
example : ∀ i (h : i < [(3 : ℚ), 4].length), [(3 : ℚ), 4][i] = 3 + 2 / ([1, 2] : List ℚ).length * (([1, 2] : List ℚ).take i).sum := by
  intro i h
  match i, h with
  | 0, _ => norm_num
  | 1, _ => norm_num

/-- `C59_integrator`: with these parameters the final state is `3 + 1/2 + 4 + 1`. -/
example : (match funAndCon1 (fun _ u : ℚ => u) (fun _ u => u ^ 2) 2 0 0 [3, 4] [1, 2] with
    | .ok r => decide (r = ((37 / 3 + 76 / 3 : ℚ), (17 / 2 : ℚ)))
    | .error _ => false) = true := by decide +kernel

/-- `C59_convex`: `x' = -x + u`, cost `x² + u²`, equal weights. -/
example : ∀ x u x' u' : ℚ, (1 / 2 * x + 1 / 2 * x') ^ 2 + (1 / 2 * u + 1 / 2 * u') ^ 2 ≤
    1 / 2 * (x ^ 2 + u ^ 2) + 1 / 2 * (x' ^ 2 + u' ^ 2) := by
  intro x u x' u'
  nlinarith [sq_nonneg (x - x'), sq_nonneg (u - u')]

/-- `C59_grid`: two initial and three final states. -/
example : gridEval (fun a b : ℕ => 10 * a + b) [1, 2] [3, 4, 5] = [[13, 14, 15], [23, 24, 25]] := by decide

end Verif
