import Verif.Proof.HJBStable
import Mathlib.Analysis.Calculus.MeanValue

/-! Convergence of the upwind scheme for smooth value functions. -/

namespace Verif

variable {n m : ℕ}

/-- First order Taylor formula with Lipschitz derivative. -/
theorem taylor_lip (g g' : ℝ → ℝ) (A : ℝ) (hA0 : 0 ≤ A) (a b : ℝ) (hg : ∀ x ∈ Set.uIcc a b, HasDerivAt g (g' x) x)
    (hA : ∀ x ∈ Set.uIcc a b, |g' x - g' a| ≤ A * |x - a|) : |g b - g a - g' a * (b - a)| ≤ A * (b - a) ^ 2 := by
  have hd : ∀ x ∈ Set.uIcc a b, HasDerivWithinAt (fun x => g x - g' a * x) (g' x - g' a) (Set.uIcc a b) x := by
    intro x hx
    have h1 := (hg x hx).sub ((hasDerivAt_id x).const_mul (g' a))
    have e1 : (g - fun y => g' a * id y) = fun x => g x - g' a * x := rfl
    rw [mul_one] at h1
    exact h1.hasDerivWithinAt
  have hb : ∀ x ∈ Set.uIcc a b, ‖g' x - g' a‖ ≤ A * |b - a| := by
    intro x hx
    refine le_trans (hA x hx) (mul_le_mul_of_nonneg_left ?_ hA0)
    exact Set.abs_sub_left_of_mem_uIcc hx
  have h := Convex.norm_image_sub_le_of_norm_hasDerivWithin_le hd hb (convex_uIcc a b) Set.left_mem_uIcc Set.right_mem_uIcc
  rw [Real.norm_eq_abs, Real.norm_eq_abs] at h
  have e : g b - g' a * b - (g a - g' a * a) = g b - g a - g' a * (b - a) := by ring
  rw [e] at h
  refine le_trans h (le_of_eq ?_)
  rw [mul_assoc, ← sq, sq_abs]

theorem min1_close [NeZero m] (v w : Fin m → ℝ) (d : ℝ) (h : ∀ u, |v u - w u| ≤ d) : |min1 v - min1 w| ≤ d := by
  obtain ⟨a, ha⟩ := min1_attained v
  obtain ⟨b, hb⟩ := min1_attained w
  have h1 := min1_le v b
  have h2 := min1_le w a
  have h3 := abs_le.1 (h a)
  have h4 := abs_le.1 (h b)
  rw [abs_le]
  constructor <;> linarith

theorem upwind_truncation [NeZero m] (f L : ℝ → ℝ → ℝ) (x0 dx dt : ℝ) (ug : Fin m → ℝ) (hdx : 0 < dx) (hdt : 0 ≤ dt)
    (h0 : ∀ u, 0 ≤ f x0 (ug u)) (h1 : ∀ u, f (x0 + (n + 1 : ℕ) * dx) (ug u) ≤ 0)
    (W Wt Wx : ℝ → ℝ → ℝ) (A B F t : ℝ)
    (hA0 : 0 ≤ A) (hB0 : 0 ≤ B)
    (hWt : ∀ i : Fin (n + 2), ∀ s ∈ Set.Icc (t - dt) t,
      HasDerivAt (fun s => W s (x0 + (i : ℕ) * dx)) (Wt s (x0 + (i : ℕ) * dx)) s)
    (hA : ∀ i : Fin (n + 2), ∀ s ∈ Set.Icc (t - dt) t,
      |Wt s (x0 + (i : ℕ) * dx) - Wt t (x0 + (i : ℕ) * dx)| ≤ A * |s - t|)
    (hWx : ∀ x ∈ Set.Icc x0 (x0 + (n + 1 : ℕ) * dx), HasDerivAt (fun y => W t y) (Wx t x) x)
    (hB : ∀ x ∈ Set.Icc x0 (x0 + (n + 1 : ℕ) * dx), ∀ y ∈ Set.Icc x0 (x0 + (n + 1 : ℕ) * dx),
      |Wx t x - Wx t y| ≤ B * |x - y|)
    (hF : ∀ (i : Fin (n + 2)) u, |f (x0 + (i : ℕ) * dx) (ug u)| ≤ F)
    (hjb : ∀ i : Fin (n + 2), Wt t (x0 + (i : ℕ) * dx) +
      min1 (fun u => L (x0 + (i : ℕ) * dx) (ug u) + f (x0 + (i : ℕ) * dx) (ug u) * Wx t (x0 + (i : ℕ) * dx)) = 0)
    (i : Fin (n + 2)) :
    |W (t - dt) (x0 + (i : ℕ) * dx) -
      upwindStep f L (fun i : Fin (n + 2) => x0 + (i : ℕ) * dx) ug dx dt (fun i => W t (x0 + (i : ℕ) * dx)) i| ≤
      dt * (A * dt + F * B * dx) := by
  have hgr : ∀ j : Fin (n + 2), x0 + (j : ℕ) * dx ∈ Set.Icc x0 (x0 + (n + 1 : ℕ) * dx) := by
    intro j
    have h1 : ((j : ℕ) : ℝ) ≤ (n + 1 : ℕ) := by exact_mod_cast Nat.lt_succ_iff.1 j.2
    have h2 : (0 : ℝ) ≤ ((j : ℕ) : ℝ) := Nat.cast_nonneg _
    constructor
    · nlinarith
    · have := mul_le_mul_of_nonneg_right h1 hdx.le
      linarith
  have hsub : ∀ j k : Fin (n + 2), ∀ x ∈ Set.uIcc (x0 + (j : ℕ) * dx) (x0 + (k : ℕ) * dx),
      x ∈ Set.Icc x0 (x0 + (n + 1 : ℕ) * dx) := fun j k x hx => Set.uIcc_subset_Icc (hgr j) (hgr k) hx
  have htt : Set.uIcc t (t - dt) = Set.Icc (t - dt) t := Set.uIcc_of_ge (by linarith)
  rw [upwindStep_bellman f L (fun i : Fin (n + 2) => x0 + (i : ℕ) * dx) ug dx dt hdt (by simpa using h0) (by simpa using h1)]
  have hT := taylor_lip (fun s => W s (x0 + (i : ℕ) * dx)) (fun s => Wt s (x0 + (i : ℕ) * dx)) A hA0
    t (t - dt) (fun s hs => hWt i s (htt ▸ hs)) (fun s hs => hA i s (htt ▸ hs))
  have hj := hjb i
  -- the minimum with exact derivatives
  have hmin : W t (x0 + (i : ℕ) * dx) + min1 (fun u => L (x0 + (i : ℕ) * dx) (ug u) +
      f (x0 + (i : ℕ) * dx) (ug u) * Wx t (x0 + (i : ℕ) * dx)) * dt = min1 fun u => W t (x0 + (i : ℕ) * dx) +
      (L (x0 + (i : ℕ) * dx) (ug u) + f (x0 + (i : ℕ) * dx) (ug u) * Wx t (x0 + (i : ℕ) * dx)) * dt :=
    min1_mul _ _ _ hdt
  have hclose := min1_close (fun u => W t (x0 + (i : ℕ) * dx) +
      (L (x0 + (i : ℕ) * dx) (ug u) + f (x0 + (i : ℕ) * dx) (ug u) * Wx t (x0 + (i : ℕ) * dx)) * dt)
      (fun u => L (x0 + (i : ℕ) * dx) (ug u) * dt + (1 - |f (x0 + (i : ℕ) * dx) (ug u)| * dt / dx) * W t (x0 + (i : ℕ) * dx) +
        |f (x0 + (i : ℕ) * dx) (ug u)| * dt / dx *
          W t (x0 + ((downstream (f (x0 + (i : ℕ) * dx) (ug u)) i : Fin (n + 2)) : ℕ) * dx)) (F * B * dx * dt) ?_
  · have e1 : W (t - dt) (x0 + (i : ℕ) * dx) - W t (x0 + (i : ℕ) * dx) - Wt t (x0 + (i : ℕ) * dx) * (t - dt - t) =
      W (t - dt) (x0 + (i : ℕ) * dx) - (W t (x0 + (i : ℕ) * dx) + min1 (fun u => L (x0 + (i : ℕ) * dx) (ug u) +
      f (x0 + (i : ℕ) * dx) (ug u) * Wx t (x0 + (i : ℕ) * dx)) * dt) := by
      linear_combination dt * hj
    rw [e1, hmin] at hT
    have h5 := abs_add_le (W (t - dt) (x0 + (i : ℕ) * dx) - (min1 fun u => W t (x0 + (i : ℕ) * dx) +
      (L (x0 + (i : ℕ) * dx) (ug u) + f (x0 + (i : ℕ) * dx) (ug u) * Wx t (x0 + (i : ℕ) * dx)) * dt))
      ((min1 fun u => W t (x0 + (i : ℕ) * dx) +
      (L (x0 + (i : ℕ) * dx) (ug u) + f (x0 + (i : ℕ) * dx) (ug u) * Wx t (x0 + (i : ℕ) * dx)) * dt) -
      min1 (fun u => L (x0 + (i : ℕ) * dx) (ug u) * dt + (1 - |f (x0 + (i : ℕ) * dx) (ug u)| * dt / dx) * W t (x0 + (i : ℕ) * dx) +
        |f (x0 + (i : ℕ) * dx) (ug u)| * dt / dx *
          W t (x0 + ((downstream (f (x0 + (i : ℕ) * dx) (ug u)) i : Fin (n + 2)) : ℕ) * dx)))
    rw [sub_add_sub_cancel] at h5
    refine le_trans h5 ?_
    have e2 : (t - dt - t) ^ 2 = dt ^ 2 := by ring
    rw [e2] at hT
    linarith
  · intro u
    have hi0 : (i : ℕ) = 0 → 0 ≤ f (x0 + (i : ℕ) * dx) (ug u) := by intro h; rw [h]; simpa using h0 u
    have hi1 : (i : ℕ) = n + 1 → f (x0 + (i : ℕ) * dx) (ug u) ≤ 0 := by intro h; rw [h]; simpa using h1 u
    have hFu := hF i u
    have hx := taylor_lip (fun y => W t y) (fun y => Wx t y) B hB0 (x0 + (i : ℕ) * dx)
      (x0 + ((downstream (f (x0 + (i : ℕ) * dx) (ug u)) i : Fin (n + 2)) : ℕ) * dx)
      (fun y hy => hWx y (hsub _ _ y hy)) (fun y hy => hB y (hsub _ _ y hy) _ (hgr i))
    generalize hfu : f (x0 + (i : ℕ) * dx) (ug u) = b at *
    generalize L (x0 + (i : ℕ) * dx) (ug u) = l at *
    have hF0 : 0 ≤ F := le_trans (abs_nonneg _) hFu
    rcases lt_trichotomy b 0 with hb | hb | hb
    · have hin : 1 ≤ (i : ℕ) := by
        rcases Nat.eq_zero_or_pos (i : ℕ) with h | h
        · exact absurd (hi0 h) (not_le.2 hb)
        · exact h
      have ed : ((downstream b i : Fin (n + 2)) : ℕ) = (i : ℕ) - 1 := by
        unfold downstream prv; rw [if_neg (not_lt.2 hb.le)]
      rw [ed, Nat.cast_sub hin] at hx ⊢
      push_cast at hx ⊢
      have ex : x0 + ((i : ℕ) - 1 : ℝ) * dx - (x0 + (i : ℕ) * dx) = -dx := by ring
      rw [ex] at hx
      rw [abs_of_neg hb] at hFu ⊢
      have e3 : W t (x0 + (i : ℕ) * dx) + (l + b * Wx t (x0 + (i : ℕ) * dx)) * dt -
          (l * dt + (1 - -b * dt / dx) * W t (x0 + (i : ℕ) * dx) + -b * dt / dx * W t (x0 + ((i : ℕ) - 1 : ℝ) * dx)) =
          (b * dt / dx) * (W t (x0 + ((i : ℕ) - 1 : ℝ) * dx) - W t (x0 + (i : ℕ) * dx) - Wx t (x0 + (i : ℕ) * dx) * -dx) := by
        field_simp
        ring
      rw [e3, abs_mul]
      have e4 : |b * dt / dx| = -b * dt / dx := by
        rw [abs_div, abs_mul, abs_of_neg hb, abs_of_nonneg hdt, abs_of_pos hdx]
      rw [e4]
      have e5 : 0 ≤ -b * dt / dx := div_nonneg (mul_nonneg (by linarith) hdt) hdx.le
      refine le_trans (mul_le_mul_of_nonneg_left hx e5) ?_
      have e6 : -b * dt / dx * (B * (-dx) ^ 2) = -b * (dt * B * dx) := by field_simp
      rw [e6]
      have := mul_le_mul_of_nonneg_right hFu (mul_nonneg (mul_nonneg hdt hB0) hdx.le)
      linarith
    · subst hb
      have e3 : W t (x0 + (i : ℕ) * dx) + (l + 0 * Wx t (x0 + (i : ℕ) * dx)) * dt -
          (l * dt + (1 - |(0 : ℝ)| * dt / dx) * W t (x0 + (i : ℕ) * dx) +
            |(0 : ℝ)| * dt / dx * W t (x0 + ((downstream (0 : ℝ) i : Fin (n + 2)) : ℕ) * dx)) = 0 := by
        rw [abs_zero]; ring
      rw [e3, abs_zero]
      positivity
    · have hin : (i : ℕ) + 1 ≤ n + 1 := by
        have := i.2
        rcases Nat.lt_or_ge (i : ℕ) (n + 1) with h | h
        · omega
        · exact absurd (hi1 (by omega)) (not_le.2 hb)
      have ed : ((downstream b i : Fin (n + 2)) : ℕ) = (i : ℕ) + 1 := by
        unfold downstream nxt; rw [if_pos hb]; exact min_eq_left hin
      rw [ed] at hx ⊢
      push_cast at hx ⊢
      have ex : x0 + ((i : ℕ) + 1 : ℝ) * dx - (x0 + (i : ℕ) * dx) = dx := by ring
      rw [ex] at hx
      rw [abs_of_pos hb] at hFu ⊢
      have e3 : W t (x0 + (i : ℕ) * dx) + (l + b * Wx t (x0 + (i : ℕ) * dx)) * dt -
          (l * dt + (1 - b * dt / dx) * W t (x0 + (i : ℕ) * dx) + b * dt / dx * W t (x0 + ((i : ℕ) + 1 : ℝ) * dx)) =
          -(b * dt / dx) * (W t (x0 + ((i : ℕ) + 1 : ℝ) * dx) - W t (x0 + (i : ℕ) * dx) - Wx t (x0 + (i : ℕ) * dx) * dx) := by
        field_simp
        ring
      rw [e3, abs_mul, abs_neg]
      have e5 : 0 ≤ b * dt / dx := div_nonneg (mul_nonneg hb.le hdt) hdx.le
      rw [abs_of_nonneg e5]
      refine le_trans (mul_le_mul_of_nonneg_left hx e5) ?_
      have e6 : b * dt / dx * (B * dx ^ 2) = b * (dt * B * dx) := by field_simp
      rw [e6]
      have := mul_le_mul_of_nonneg_right hFu (mul_nonneg (mul_nonneg hdt hB0) hdx.le)
      linarith

end Verif
