import Verif.Props.ExamplesReal
import Verif.Proof.HJBBlock
import Verif.Model.CNonlin
import Verif.Proof.HJBPass
import Mathlib.Tactic.FieldSimp
import Mathlib.Tactic.Linarith
import Mathlib.Tactic.Positivity
import Mathlib.Analysis.SpecialFunctions.Log.Deriv

/-! The finite difference passes on the example models. -/

namespace Verif

variable {n m : ℕ} {K : Type} [Field K] [LinearOrder K] [IsStrictOrderedRing K]

theorem linspace_zero (a b : K) (n : ℕ) : linspace a b (n + 1) 0 = a := by simp [linspace]

theorem linspace_last (a b : K) (n : ℕ) : linspace a b (n + 2) (Fin.last (n + 1)) = b := by
  unfold linspace
  have : ((n : K) + 1) ≠ 0 := by positivity
  simp only [Fin.val_last, Nat.add_sub_cancel, Nat.cast_add, Nat.cast_one, show n + 2 - 1 = n + 1 from rfl]
  field_simp
  ring

theorem linspace_mem {a b : K} (h : a ≤ b) (n : ℕ) (i : Fin (n + 2)) : a ≤ linspace a b (n + 2) i ∧ linspace a b (n + 2) i ≤ b := by
  unfold linspace
  have hn : (0 : K) < (n : K) + 1 := by positivity
  have hi : ((i : ℕ) : K) ≤ n + 1 := by
    have : (i : ℕ) ≤ n + 1 := by omega
    exact_mod_cast this
  have hi0 : (0 : K) ≤ ((i : ℕ) : K) := Nat.cast_nonneg _
  have hd : 0 ≤ (b - a) / ((n : K) + 1) := div_nonneg (sub_nonneg.2 h) hn.le
  simp only [show n + 2 - 1 = n + 1 from rfl, Nat.cast_add, Nat.cast_one]
  constructor
  · linarith [mul_nonneg hi0 hd]
  · have h1 : ((i : ℕ) : K) * ((b - a) / ((n : K) + 1)) ≤ (n + 1) * ((b - a) / ((n : K) + 1)) := mul_le_mul_of_nonneg_right hi hd
    have h2 : ((n : K) + 1) * ((b - a) / ((n : K) + 1)) = b - a := by field_simp
    linarith

/-! ### Necessity of the inward drift -/

theorem upwind_last (f L : K → K → K) (grid : Fin (n + 2) → K) [NeZero m] (ug : Fin m → K) (dx dt C : K) (hdx : dx ≠ 0) :
    upwindStep f L grid ug dx dt (fun i => if i = Fin.last (n + 1) then 0 else C * dx) (Fin.last (n + 1)) =
      min1 (fun u => L (grid (Fin.last (n + 1))) (ug u) - C * f (grid (Fin.last (n + 1))) (ug u)) * dt := by
  have h0 : (Fin.last (n + 1) : Fin (n + 2)) ≠ 0 := by
    intro h
    have := congrArg Fin.val h
    simp at this
  have hp : (prv (Fin.last (n + 1)) : Fin (n + 2)) ≠ Fin.last (n + 1) := by
    intro h
    have := congrArg Fin.val h
    simp [prv] at this
  unfold upwindStep dvFwd dvBwd
  dsimp only
  simp only [if_neg h0, if_true, if_neg hp, zero_add, zero_sub]
  congr 2
  funext u
  field_simp
  ring

theorem upwind_first (f L : K → K → K) (grid : Fin (n + 2) → K) [NeZero m] (ug : Fin m → K) (dx dt C : K) (hdx : dx ≠ 0) :
    upwindStep f L grid ug dx dt (fun i => if i = 0 then 0 else C * dx) 0 =
      min1 (fun u => L (grid 0) (ug u) - C * -f (grid 0) (ug u)) * dt := by
  have h1 : (1 : Fin (n + 2)) ≠ 0 := by
    intro h
    have := congrArg Fin.val h
    simp at this
  unfold upwindStep dvFwd dvBwd
  dsimp only
  simp only [if_true, if_neg h1, zero_add, sub_zero]
  congr 2
  funext u
  field_simp
  ring

theorem min1_decreasing [NeZero m] (l g : Fin m → K) (u1 : Fin m) (h : 0 < g u1) :
    ∃ C : K, 0 ≤ C ∧ min1 (fun u => l u - (C + 1) * g u) < min1 (fun u => l u - C * g u) := by
  set C := max 0 ((l u1 - min1 l) / g u1 + 1) with hC
  refine ⟨C, le_max_left _ _, ?_⟩
  obtain ⟨u, hu⟩ := min1_attained fun u => l u - C * g u
  have h1 : l u1 - C * g u1 < min1 l := by
    have : (l u1 - min1 l) / g u1 < C := lt_of_lt_of_le (lt_add_one _) (le_max_right _ _)
    rw [div_lt_iff₀ h] at this
    linarith
  have h2 : l u - C * g u ≤ l u1 - C * g u1 := by
    have := min1_le (fun u => l u - C * g u) u1
    rw [hu] at this
    exact this
  have h3 := min1_le l u
  have h4 : 0 < C * g u := by linarith
  have h5 : 0 < g u := pos_of_mul_pos_right h4 (le_max_left _ _)
  have h6 := min1_le (fun u => l u - (C + 1) * g u) u
  rw [hu]
  linarith

/-! ### The upwind model -/

/-- Value function of the upwind model with growth factor `c`. -/
def upV (c x : K) : K := if 0 ≤ x then -(c * x) else -x

theorem upV_nonneg (c : K) {x y : K} (hx : 0 ≤ x) (hy : 0 ≤ y) : upV c y - upV c x = -c * (y - x) := by
  unfold upV
  rw [if_pos hx, if_pos hy]
  ring

theorem upV_nonpos (c : K) {x : K} (hx : x ≤ 0) : upV c x = -x := by
  unfold upV
  split
  · have : x = 0 := le_antisymm hx ‹_›
    rw [this, mul_zero]
  · rfl

theorem upV_pos (c : K) {x : K} (hx : 0 ≤ x) : upV c x = -(c * x) := if_pos hx

section Grid
variable {p : ℕ}

/-- The grid of the upwind model with `p + 3` points. -/
theorem upgrid (i : Fin (p + 3)) : linspace (-1 : K) 1 (p + 3) i = -1 + ((i : ℕ) : K) * (2 / (p + 2)) := by
  unfold linspace
  simp only [show p + 3 - 1 = p + 2 from rfl, Nat.cast_add, Nat.cast_ofNat]
  norm_num

theorem updx : (0 : K) < 2 / (p + 2) := by positivity

theorem upgrid_prv (i : Fin (p + 3)) (hi : i ≠ 0) :
    linspace (-1 : K) 1 (p + 3) (prv (n := p + 1) i) = linspace (-1 : K) 1 (p + 3) i - 2 / (p + 2) := by
  have h1 : 1 ≤ (i : ℕ) := Nat.one_le_iff_ne_zero.2 fun h => hi (Fin.ext h)
  rw [upgrid, upgrid]
  simp only [prv]
  rw [Nat.cast_sub h1]
  push_cast
  ring

theorem upgrid_nxt (i : Fin (p + 3)) (hi : i ≠ Fin.last (p + 2)) :
    linspace (-1 : K) 1 (p + 3) (nxt (n := p + 1) i) = linspace (-1 : K) 1 (p + 3) i + 2 / (p + 2) := by
  have h1 : (i : ℕ) < p + 2 := lt_of_le_of_ne (by omega) fun h => hi (Fin.ext h)
  rw [upgrid, upgrid]
  simp only [nxt]
  rw [min_eq_left (by omega)]
  push_cast
  ring

theorem upgrid_dx : linspace (-1 : K) 1 (p + 3) 1 - linspace (-1 : K) 1 (p + 3) 0 = 2 / (p + 2) := by
  rw [upgrid, upgrid]
  simp

theorem up_one_ge : (2 : K) / (p + 2) ≤ 1 := by
  rw [div_le_one (by positivity)]
  linarith [Nat.cast_nonneg (α := K) p]

theorem up_neg (i : Fin (p + 3)) (h : linspace (-1 : K) 1 (p + 3) i < 0) : i ≠ Fin.last (p + 2) := by
  rintro rfl
  rw [linspace_last] at h
  linarith [zero_lt_one (α := K)]

theorem up_pos (i : Fin (p + 3)) (h : 0 ≤ linspace (-1 : K) 1 (p + 3) i) : i ≠ 0 := by
  rintro rfl
  rw [linspace_zero] at h
  linarith [zero_lt_one (α := K)]

theorem ug_facts (q : ℕ) : linspace (0 : K) 1 (q + 2) 0 = 0 ∧ linspace (0 : K) 1 (q + 2) (Fin.last (q + 1)) = 1 ∧
    ∀ u, 0 ≤ linspace (0 : K) 1 (q + 2) u ∧ linspace (0 : K) 1 (q + 2) u ≤ 1 :=
  ⟨linspace_zero _ _ _, linspace_last _ _ _, fun u => linspace_mem zero_le_one q u⟩

theorem min1_scaled {q : ℕ} (ug : Fin (q + 2) → K) (h0 : ug 0 = 0) (h1 : ug (Fin.last (q + 1)) = 1) (hu : ∀ u, 0 ≤ ug u ∧ ug u ≤ 1)
    (a : K) : min1 (fun u => ug u * a) = min 0 a := by
  apply le_antisymm
  · apply le_min
    · have := min1_le (fun u => ug u * a) 0
      simpa [h0] using this
    · have := min1_le (fun u => ug u * a) (Fin.last (q + 1))
      simpa [h1] using this
  · apply le_min1
    intro u
    rcases le_total 0 a with h | h
    · rw [min_eq_left h]; exact mul_nonneg (hu u).1 h
    · rw [min_eq_right h]
      nlinarith [(hu u).1, (hu u).2]

theorem upwind_exact (q : ℕ) (dt c : K) (hc : 0 ≤ c) :
    upwindStep (fun x u => u * x) (fun _ _ => 0) (linspace (-1 : K) 1 (p + 3)) (linspace (0 : K) 1 (q + 2)) (2 / (p + 2)) dt
      (fun i => upV c (linspace (-1 : K) 1 (p + 3) i)) = fun i => upV (c * (1 + dt)) (linspace (-1 : K) 1 (p + 3) i) := by
  obtain ⟨h0, h1, hu⟩ := ug_facts (K := K) q
  funext i
  have hdx := updx (K := K) (p := p)
  unfold upwindStep
  dsimp only
  set ug := linspace (0 : K) 1 (q + 2) with hug
  set x := linspace (-1 : K) 1 (p + 3) i with hx
  set dx : K := 2 / (p + 2) with hdxd
  rcases le_or_gt 0 x with hpos | hneg
  · have hi0 := up_pos i hpos
    have hf : dvFwd (n := p + 1) dx (fun i => upV c (linspace (-1 : K) 1 (p + 3) i)) i = -c := by
      unfold dvFwd
      rw [if_neg hi0]
      split
      · rename_i hl
        dsimp only
        rw [upgrid_prv i hi0, ← hx, ← hdxd]
        have hxl : x = 1 := by rw [hx, hl]; exact linspace_last _ _ _
        rw [upV_nonneg c (by rw [hxl]; linarith [up_one_ge (K := K) (p := p)]) hpos]
        field_simp
        ring
      · rename_i hl
        dsimp only
        rw [upgrid_nxt i hl, ← hx, ← hdxd, upV_nonneg c hpos (by linarith)]
        field_simp
        ring
    have hQ : (fun u => 0 + (1 / 2 + 1 / 2 * jsign (ug u * x)) * (ug u * x) * dvFwd (n := p + 1) dx (fun i => upV c (linspace (-1 : K) 1 (p + 3) i)) i
        + (1 / 2 - 1 / 2 * jsign (ug u * x)) * (ug u * x) * dvBwd (n := p + 1) dx (fun i => upV c (linspace (-1 : K) 1 (p + 3) i)) i) =
        fun u => ug u * (x * -c) := by
      funext u
      rw [hf]
      have hux : 0 ≤ ug u * x := mul_nonneg (hu u).1 hpos
      unfold jsign
      rw [if_neg (not_lt.2 hux)]
      rcases hux.eq_or_lt with h | h
      · rw [← h]
        rw [show ug u * (x * -c) = ug u * x * -c from by ring, ← h]
        simp
      · rw [if_pos h]
        ring
    rw [hQ, min1_scaled ug h0 h1 hu, min_eq_right (by nlinarith), upV_pos _ hpos, upV_pos _ hpos]
    ring
  · have hil := up_neg i hneg
    have hb : dvBwd (n := p + 1) dx (fun i => upV c (linspace (-1 : K) 1 (p + 3) i)) i = -1 := by
      unfold dvBwd
      split
      · rename_i hi
        have e1 : linspace (-1 : K) 1 (p + 3) 1 = -1 + dx := by
          have := upgrid_dx (K := K) (p := p)
          rw [linspace_zero] at this
          linarith
        dsimp only
        rw [linspace_zero, e1, upV_nonpos c (by linarith [up_one_ge (K := K) (p := p)]), upV_nonpos c (by linarith [zero_lt_one (α := K)])]
        field_simp
        ring
      · rename_i hi
        dsimp only
        rw [ upgrid_prv i hi, ← hx, ← hdxd, upV_nonpos c hneg.le, upV_nonpos c (by linarith)]
        field_simp
        ring
    have hQ : (fun u => 0 + (1 / 2 + 1 / 2 * jsign (ug u * x)) * (ug u * x) * dvFwd (n := p + 1) dx (fun i => upV c (linspace (-1 : K) 1 (p + 3) i)) i
        + (1 / 2 - 1 / 2 * jsign (ug u * x)) * (ug u * x) * dvBwd (n := p + 1) dx (fun i => upV c (linspace (-1 : K) 1 (p + 3) i)) i) =
        fun u => ug u * (x * -1) := by
      funext u
      rw [hb]
      have hux : ug u * x ≤ 0 := mul_nonpos_of_nonneg_of_nonpos (hu u).1 hneg.le
      unfold jsign
      rcases hux.eq_or_lt with h | h
      · rw [h]
        rw [show ug u * (x * -1) = ug u * x * -1 from by ring, h]
        simp
      · rw [if_pos h]
        ring
    rw [hQ, min1_scaled ug h0 h1 hu, min_eq_left (by linarith), upV_nonpos _ hneg.le, upV_nonpos _ hneg.le]
    ring

theorem sym_exact (r q : ℕ) (dt c : K) (hc : 0 ≤ c) :
    symStep (n := 2 * r + 1) (fun x u => u * x) (fun _ _ => 0) (linspace (-1 : K) 1 (2 * r + 3)) (linspace (0 : K) 1 (q + 2)) (2 / ((2 * r : ℕ) + 2)) dt
      (fun i => upV c (linspace (-1 : K) 1 (2 * r + 3) i)) = fun i => upV (c * (1 + dt)) (linspace (-1 : K) 1 (2 * r + 3) i) := by
  obtain ⟨h0, h1, hu⟩ := ug_facts (K := K) q
  rw [← symStepTF_eq]
  funext i
  have hdx := updx (K := K) (p := 2 * r)
  have hle := up_one_ge (K := K) (p := 2 * r)
  unfold symStepTF
  dsimp only
  have hgx : linspace (-1 : K) 1 (2 * r + 3) i = ((i : ℕ) - (r + 1 : ℕ) : K) * (2 / ((2 * r : ℕ) + 2)) := by
    rw [upgrid (p := 2 * r)]
    have : (((2 * r : ℕ) : K) + 2) ≠ 0 := by positivity
    field_simp
    push_cast
    ring
  set ug := linspace (0 : K) 1 (q + 2) with hug
  set x := linspace (-1 : K) 1 (2 * r + 3) i with hx
  set dx : K := 2 / ((2 * r : ℕ) + 2) with hdxd
  have hQ : ∀ d : K, (fun u => (0 : K) + ug u * x * d) = fun u => ug u * (x * d) := by
    intro d
    funext u
    ring
  rw [hQ, min1_scaled ug h0 h1 hu]
  rcases lt_trichotomy (i : ℕ) (r + 1) with hi | hi | hi
  · have hxle : x ≤ -dx := by
      rw [hgx]
      have : ((i : ℕ) : K) ≤ (r + 1 : ℕ) - 1 := by
        have : ((i : ℕ) : K) + 1 ≤ (r + 1 : ℕ) := by exact_mod_cast hi
        linarith
      nlinarith
    have hd : dvSym (n := 2 * r + 1) dx (fun i => upV c (linspace (-1 : K) 1 (2 * r + 3) i)) i = -1 := by
      have hil : i ≠ Fin.last (2 * r + 2) := up_neg (p := 2 * r) i (by rw [← hx]; linarith)
      unfold dvSym
      split
      · rename_i hi
        have e1 : linspace (-1 : K) 1 (2 * r + 3) 1 = -1 + dx := by
          have := upgrid_dx (K := K) (p := 2 * r)
          rw [linspace_zero] at this
          linarith
        dsimp only
        rw [linspace_zero, e1, upV_nonpos c (by linarith), upV_nonpos c (by linarith [zero_lt_one (α := K)])]
        field_simp
        ring
      · rename_i hi
        dsimp only
        rw [ upgrid_prv (p := 2 * r) i hi, upgrid_nxt (p := 2 * r) i hil, ← hx, ← hdxd, upV_nonpos c (by linarith),
          upV_nonpos c (by linarith)]
        field_simp
        ring
    rw [hd, min_eq_left (by linarith), upV_nonpos _ (by linarith), upV_nonpos _ (by linarith)]
    ring
  · have hx0 : x = 0 := by rw [hgx, hi]; simp
    rw [hx0, zero_mul, min_self, upV_nonpos _ le_rfl, upV_nonpos _ le_rfl]
    ring
  · have hxge : dx ≤ x := by
      rw [hgx]
      have : (r + 1 : ℕ) + 1 ≤ ((i : ℕ) : K) := by exact_mod_cast hi
      nlinarith
    have hi0 : i ≠ 0 := by rintro rfl; simp at hi
    have hd : dvSym (n := 2 * r + 1) dx (fun i => upV c (linspace (-1 : K) 1 (2 * r + 3) i)) i = -c := by
      unfold dvSym
      rw [if_neg hi0]
      split
      · rename_i hl
        dsimp only
        rw [upgrid_prv (p := 2 * r) i hi0, ← hx, ← hdxd, upV_nonneg c (by linarith) (by linarith)]
        field_simp
        ring
      · rename_i hl
        dsimp only
        rw [upgrid_prv (p := 2 * r) i hi0, upgrid_nxt (p := 2 * r) i hl, ← hx, ← hdxd, upV_nonneg c (by linarith) (by linarith)]
        field_simp
        ring
    have hxp : 0 ≤ x := by linarith
    rw [hd, min_eq_right (by nlinarith), upV_pos _ hxp, upV_pos _ hxp]
    ring

end Grid

/-! ### Compound growth -/

theorem growth_bounds (h : ℝ) (hh : 0 ≤ h) (N : ℕ) :
    (1 + h) ^ N ≤ Real.exp (N * h) ∧ Real.exp (N * h) - (1 + h) ^ N ≤ Real.exp (N * h) * (N * h * h / 2) := by
  have h1 : 1 + h ≤ Real.exp h := by linarith [Real.add_one_le_exp h]
  have hp : 0 < 1 + h := by linarith
  have e : Real.exp (N * h) = Real.exp h ^ N := by rw [← Real.exp_nat_mul]
  refine ⟨by rw [e]; exact pow_le_pow_left₀ hp.le h1 N, ?_⟩
  have h2 : h - h ^ 2 / 2 ≤ Real.log (1 + h) := by
    refine le_trans ?_ (Real.le_log_one_add_of_nonneg hh)
    rw [le_div_iff₀ (by linarith)]
    nlinarith [pow_nonneg hh 3]
  have h3 : Real.exp (N * h) * Real.exp (-(N * h * h / 2)) ≤ (1 + h) ^ N := by
    rw [← Real.exp_add, ← Real.log_le_log_iff (Real.exp_pos _) (pow_pos hp N), Real.log_exp, Real.log_pow]
    have := mul_le_mul_of_nonneg_left h2 (Nat.cast_nonneg (α := ℝ) N)
    nlinarith
  have h4 : 1 - N * h * h / 2 ≤ Real.exp (-(N * h * h / 2)) := by linarith [Real.add_one_le_exp (-(N * h * h / 2))]
  have := mul_le_mul_of_nonneg_left h4 (Real.exp_pos (N * h)).le
  linarith

theorem upgrid_mem {n m : ℕ} (i : Fin (n + 2)) : -1 ≤ (upwindModel (n + 2) m : CModel _ _ ℝ).x_grid i ∧ (upwindModel (n + 2) m : CModel _ _ ℝ).x_grid i ≤ 1 :=
  linspace_mem (by norm_num) n i

theorem block_self {n m : ℕ} (inf d : ℝ) (hd : 0 ≤ d) (i : Fin (n + 2)) :
    upwindBlockV inf d (upwindModel (n + 2) m : CModel _ _ ℝ).x_grid i i = 0 := by
  refine (C53_numpy inf d hd _ i i).1 ((upwindReach_iff d _ _ hd).2 ?_)
  have h1 : 1 ≤ Real.exp d := Real.one_le_exp hd
  rcases lt_or_ge 0 ((upwindModel (n + 2) m : CModel _ _ ℝ).x_grid i) with h | h
  · exact Or.inl ⟨h, le_rfl, by nlinarith⟩
  · exact Or.inr ⟨h, by nlinarith, le_rfl⟩

theorem const_path {n : ℕ} (B : Fin n → Fin n → ℝ) (LT : Fin n → ℝ) (h : ∀ i, B i i = 0) (i : Fin n) (N : ℕ) :
    pathCost B LT i (List.replicate N i) = LT i := by
  induction N with
  | zero => rfl
  | succ N ih =>
    rw [List.replicate_succ]
    show B i i + pathCost B LT i (List.replicate N i) = LT i
    rw [ih, h, zero_add]

end Verif
