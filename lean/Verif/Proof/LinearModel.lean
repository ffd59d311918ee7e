import Verif.Proof.TrackModels
import Verif.Spec.TrackModels
import Mathlib.Algebra.BigOperators.Fin

/-! Helper lemmas for the linear tracking example. -/

namespace Verif

open Matrix

theorem cvStep_iff (dt : ℝ) (hdt : 0 ≤ dt) (u : Fin 2 → ℝ) (z z' : Fin 4 → ℝ) :
    CVStep dt u z z' ↔ z' = cvF dt *ᵥ z + cvL dt *ᵥ u := by
  constructor
  · rintro ⟨x, rfl, rfl, h⟩
    have := zoh_solution linF linL u x dt hdt (by
      intro t ht i
      obtain ⟨h0, h1, h2, h3⟩ := h t ht
      fin_cases i
      · simpa [linF, linL, mulVec, dotProduct, Fin.sum_univ_succ] using h0
      · simpa [linF, linL, mulVec, dotProduct, Fin.sum_univ_succ] using h1
      · simpa [linF, linL, mulVec, dotProduct, Fin.sum_univ_succ] using h2
      · simpa [linF, linL, mulVec, dotProduct, Fin.sum_univ_succ] using h3)
    rw [this, (cv_disc dt hdt).1, (cv_disc dt hdt).2]
  · rintro rfl
    refine ⟨fun t => ![z 0 + t * z 2 + t ^ 2 / 2 * u 0, z 1 + t * z 3 + t ^ 2 / 2 * u 1, z 2 + t * u 0, z 3 + t * u 1], ?_, ?_, ?_⟩
    · funext i
      fin_cases i <;> simp
    · funext i
      fin_cases i <;> simp [cvF, cvL, mulVec, dotProduct, Fin.sum_univ_succ] <;> ring
    · intro t _
      have hd : HasDerivAt (fun s : ℝ => s) 1 t := hasDerivAt_id t
      have hq : HasDerivAt (fun s : ℝ => s ^ 2 / 2) t t := by
        refine ((hasDerivAt_pow 2 t).div_const 2).congr_deriv ?_
        simp
      refine ⟨?_, ?_, ?_, ?_⟩
      · refine (((hd.mul_const (z 2)).const_add (z 0)).add (hq.mul_const (u 0))).congr_deriv ?_
        simp
      · refine (((hd.mul_const (z 3)).const_add (z 1)).add (hq.mul_const (u 1))).congr_deriv ?_
        simp
      · refine ((hd.mul_const (u 0)).const_add (z 2)).congr_deriv ?_
        simp
      · refine ((hd.mul_const (u 1)).const_add (z 3)).congr_deriv ?_
        simp

/-- The LQT object. -/
noncomputable def linLQT (pts : ℕ → Fin 2 → ℝ) (s N : ℕ) : LQT 4 2 ℝ :=
  trackLQT (cvF (1 / s)) (cvL (1 / s)) (fun k => if k % s = 0 then (100 : ℝ) • 1 else (1e-6 : ℝ) • 1) ((0.1 : ℝ) • 1) linH
    (fun k => pts (k / s)) 1 1 ![pts (N - 1) 0, pts (N - 1) 1, 0, 0] (s * N)

theorem linGetLQT_eq (pts : ℕ → Fin 2 → ℝ) (s N : ℕ) (hs : 0 < s) (hN : 0 < N) :
    linGetLQT ((List.range N).map pts) s = .ok ((linLQT pts s N).raw, ![pts 0 0, pts 0 1, 0, 0]) := by
  have hb : ∀ {α β : Type} (a : α) (f : α → Py β), ((Except.ok a : Py α) >>= f) = f a := fun _ _ => rfl
  unfold linGetLQT
  rw [if_neg (by exact_mod_cast hs.ne')]
  dsimp only
  have e1 : (0 : ℝ) ≤ 1 / ((s : ℤ) : ℝ) := by positivity
  rw [ltiDiscU_eq _ _ _ (.mat (Matrix.diagonal ![1, 1])) _ rfl, hb, (cv_disc _ e1).1, (cv_disc _ e1).2]
  dsimp only
  have e2 : pyGet ((List.range N).map pts) 0 = .ok (pts 0) := by
    unfold pyGet
    simp [hN]
  rw [e2, hb, trackLoop_eq pts N s hs _ _ _ hN, hb]
  dsimp only
  have e3 := track_check (cvF (1 / s)) (cvL (1 / s)) (fun k => if k % s = 0 then (100 : ℝ) • (1 : Matrix (Fin 2) (Fin 2) ℝ) else (1e-6 : ℝ) • 1)
    ((0.1 : ℝ) • 1) linH (fun k => pts (k / s)) (1 : Matrix (Fin 4) (Fin 4) ℝ) 1 ![pts (N - 1) 0, pts (N - 1) 1, 0, 0] (s * N)
    (Nat.mul_pos hs hN) ((s : ℤ) * (((List.range N).map pts).length : ℤ))
  rw [Int.cast_natCast]
  exact bind_ok.2 ⟨_, e3, rfl⟩

theorem linGetLQT_zero (xy : List (Fin 2 → ℝ)) : linGetLQT xy 0 = .error .zeroDivisionError := by
  unfold linGetLQT
  rw [if_pos rfl]

theorem linGetLQT_empty (steps : ℤ) (h : steps ≠ 0) : linGetLQT [] steps = .error .indexError := by
  have hb : ∀ {α β : Type} (a : α) (f : α → Py β), ((Except.ok a : Py α) >>= f) = f a := fun _ _ => rfl
  unfold linGetLQT
  rw [if_neg h]
  dsimp only
  rw [ltiDiscU_eq _ _ _ (.mat (Matrix.diagonal ![1, 1])) _ rfl, hb]
  rfl

theorem linGetLQT_neg (xy : List (Fin 2 → ℝ)) (steps : ℤ) (h : steps < 0) : linGetLQT xy steps = .error .indexError := by
  have hb : ∀ {α β : Type} (a : α) (f : α → Py β), ((Except.ok a : Py α) >>= f) = f a := fun _ _ => rfl
  match xy with
  | [] => exact linGetLQT_empty steps h.ne
  | v :: l =>
    unfold linGetLQT
    rw [if_neg h.ne]
    dsimp only
    rw [ltiDiscU_eq _ _ _ (.mat (Matrix.diagonal ![1, 1])) _ rfl, hb]
    dsimp only
    rw [show pyGet (v :: l) 0 = .ok v from rfl, hb, trackLoop_empty _ _ _ (by
      have : (0 : ℤ) ≤ ((v :: l).length : ℤ) := by positivity
      nlinarith), hb]
    dsimp only
    have := track_check_empty (discA linF (1 / steps)) (discB linF linL (1 / steps)) ((0.1 : ℝ) • 1) linH (1 : Matrix (Fin 4) (Fin 4) ℝ) 1
      ![v 0, v 1, 0, 0] (steps * ((v :: l).length : ℤ))
    unfold trackArgs at this
    unfold linArgs
    rw [this]
    rfl

theorem linLQT_convex (pts : ℕ → Fin 2 → ℝ) (s N : ℕ) : (linLQT pts s N).Convex := by
  refine trackLQT_convex _ _ _ _ _ _ _ _ _ _ (fun k => ?_) (isPSD_smul_one _ (by norm_num)).1 (isPD_smul_one _ (by norm_num)) ?_
  · split_ifs
    · exact isPSD_smul_one _ (by norm_num)
    · exact isPSD_smul_one _ (by norm_num)
  · have := isPSD_smul_one (ι := Fin 4) (1 : ℝ) zero_le_one
    rw [one_smul] at this
    exact this

theorem linCost_eq (pts : ℕ → Fin 2 → ℝ) (s N : ℕ) (w : ℕ → Fin 2 → ℝ) (z : ℕ → Fin 4 → ℝ) :
    halfQuad (linLQT pts s N).XT ((linLQT pts s N).HT *ᵥ z (s * N) - (linLQT pts s N).rT) +
      ∑ k ∈ Finset.range (s * N), (⟨2, cvF (1 / s), cvL (1 / s), if k % s = 0 then (100 : ℝ) • 1 else (1e-6 : ℝ) • 1, (0.1 : ℝ) • 1, 0, linH,
        pts (k / s), 1, 0, 0⟩ : LStage 4 2 ℝ).cost (z k) (w k) = trackCost pts s N w z := by
  unfold trackCost
  rw [add_comm]
  congr 1
  · refine Finset.sum_congr rfl fun k _ => ?_
    unfold LStage.cost halfQuad posDist2
    dsimp only
    by_cases h : k % s = 0
    · rw [if_pos h, if_pos (Nat.dvd_of_mod_eq_zero h)]
      simp [linH, mulVec, dotProduct, Fin.sum_univ_succ, Matrix.one_apply]
      ring
    · rw [if_neg h, if_neg (fun h' => h (Nat.mod_eq_zero_of_dvd h'))]
      simp [linH, mulVec, dotProduct, Fin.sum_univ_succ, Matrix.one_apply]
      ring
  · unfold halfQuad posDist2 linLQT trackLQT
    dsimp only
    rw [one_mulVec, one_mulVec]
    simp [dotProduct, Fin.sum_univ_succ]
    ring

/-! ### The random points -/

/-- One move. -/
theorem linWalk_spec (st : ℝ × ℝ × ℝ) (w : ℝ) (hx : 0.5 < st.1 ∧ st.1 < 9.5) (hy : 0.5 < st.2.1 ∧ st.2.1 < 9.5) :
    (0.5 < (linWalk st w).1 ∧ (linWalk st w).1 < 9.5) ∧ (0.5 < (linWalk st w).2.1 ∧ (linWalk st w).2.1 < 9.5) ∧
    ((linWalk st w).1 - st.1) ^ 2 + ((linWalk st w).2.1 - st.2.1) ^ 2 = 1 := by
  obtain ⟨x, y, a⟩ := st
  have key : ∀ b : ℝ, (0.5 < (if x + 1 * Real.cos b ≤ 0 + 1 / 2 ∨ x + 1 * Real.cos b ≥ 10 - 1 / 2 then 2 * x - (x + 1 * Real.cos b)
        else x + 1 * Real.cos b) ∧ (if x + 1 * Real.cos b ≤ 0 + 1 / 2 ∨ x + 1 * Real.cos b ≥ 10 - 1 / 2 then 2 * x - (x + 1 * Real.cos b)
        else x + 1 * Real.cos b) < 9.5) ∧
      (0.5 < (if y + 1 * Real.sin b ≤ 0 + 1 / 2 ∨ y + 1 * Real.sin b ≥ 10 - 1 / 2 then 2 * y - (y + 1 * Real.sin b)
        else y + 1 * Real.sin b) ∧ (if y + 1 * Real.sin b ≤ 0 + 1 / 2 ∨ y + 1 * Real.sin b ≥ 10 - 1 / 2 then 2 * y - (y + 1 * Real.sin b)
        else y + 1 * Real.sin b) < 9.5) ∧
      ((if x + 1 * Real.cos b ≤ 0 + 1 / 2 ∨ x + 1 * Real.cos b ≥ 10 - 1 / 2 then 2 * x - (x + 1 * Real.cos b)
        else x + 1 * Real.cos b) - x) ^ 2 + ((if y + 1 * Real.sin b ≤ 0 + 1 / 2 ∨ y + 1 * Real.sin b ≥ 10 - 1 / 2 then
          2 * y - (y + 1 * Real.sin b) else y + 1 * Real.sin b) - y) ^ 2 = 1 := by
    intro b
    have h1 := Real.cos_le_one b
    have h2 := Real.neg_one_le_cos b
    have h3 := Real.sin_le_one b
    have h4 := Real.neg_one_le_sin b
    have h5 := Real.sin_sq_add_cos_sq b
    generalize Real.cos b = c at *
    generalize Real.sin b = d at *
    dsimp only at hx hy
    obtain ⟨hx1, hx2⟩ := hx
    obtain ⟨hy1, hy2⟩ := hy
    norm_num at hx1 hx2 hy1 hy2 ⊢
    refine ⟨⟨?_, ?_⟩, ⟨?_, ?_⟩, ?_⟩
    · split_ifs with h
      · rcases h with h | h <;> linarith
      · push Not at h; linarith
    · split_ifs with h
      · rcases h with h | h <;> linarith
      · push Not at h; linarith
    · split_ifs with h
      · rcases h with h | h <;> linarith
      · push Not at h; linarith
    · split_ifs with h
      · rcases h with h | h <;> linarith
      · push Not at h; linarith
    · split_ifs <;> nlinarith
  exact key _

theorem linGenData_eq (rnd : ℕ → ℝ) (N : ℕ) (hN : 0 < N) : ∃ pts : ℕ → Fin 2 → ℝ, linGenData rnd N = .ok ((List.range N).map pts) ∧
    pts 0 = ![5, 5] ∧ (∀ k < N, ∀ i, 0.5 < pts k i ∧ pts k i < 9.5) ∧
    ∀ k, k + 1 < N → (pts (k + 1) 0 - pts k 0) ^ 2 + (pts (k + 1) 1 - pts k 1) ^ 2 = 1 := by
  let stt : ℕ → ℝ × ℝ × ℝ := fun k => Nat.rec ((0 + (10 - 0) / 2, 0 + (10 - 0) / 2, 0) : ℝ × ℝ × ℝ) (fun k st => linWalk st (rnd (k + 1))) k
  have hst : ∀ k, (0.5 < (stt k).1 ∧ (stt k).1 < 9.5) ∧ (0.5 < (stt k).2.1 ∧ (stt k).2.1 < 9.5) := by
    intro k
    induction k with
    | zero => norm_num [stt]
    | succ k ih =>
      have := linWalk_spec (stt k) (rnd (k + 1)) ih.1 ih.2
      exact ⟨this.1, this.2.1⟩
  refine ⟨fun k => ![(stt k).1, (stt k).2.1], ?_, ?_, fun k _ i => ?_, fun k _ => ?_⟩
  · unfold linGenData
    rw [if_neg hN.ne']
    dsimp only
    have key : ∀ M, (List.range' 1 M).foldl (fun (st : (ℝ × ℝ × ℝ) × List (Fin 2 → ℝ)) k =>
        (linWalk st.1 (rnd k), st.2 ++ [![(linWalk st.1 (rnd k)).1, (linWalk st.1 (rnd k)).2.1]]))
        (((0 + (10 - 0) / 2, 0 + (10 - 0) / 2, 0) : ℝ × ℝ × ℝ), [![(0 + (10 - 0) / 2 : ℝ), (0 + (10 - 0) / 2 : ℝ)]]) =
        (stt M, (List.range (M + 1)).map fun k => ![(stt k).1, (stt k).2.1]) := by
      intro M
      induction M with
      | zero => rfl
      | succ M ih =>
        rw [List.range'_concat, List.foldl_append, ih, List.range_succ (n := M + 1), List.map_append, one_mul, add_comm 1 M]
        rfl
    rw [key, show N - 1 + 1 = N by omega]
  · norm_num [stt]
  · fin_cases i
    · exact (hst k).1
    · exact (hst k).2
  · exact (linWalk_spec (stt k) (rnd (k + 1)) (hst k).1 (hst k).2).2.2

/-! ### The continuous-time problem -/

theorem linRefC_tf (c : Fin 13 → ℝ) (t : ℝ) : linRefC c t = linRefCTF c t := by
  unfold linRefC linRefCTF
  dsimp only
  rw [show 2 * Real.pi * t / 50 = 1 * (2 * Real.pi / 50) * t by ring, show 4 * Real.pi * t / 50 = 2 * (2 * Real.pi / 50) * t by ring,
    show 6 * Real.pi * t / 50 = 3 * (2 * Real.pi / 50) * t by ring, show 8 * Real.pi * t / 50 = 4 * (2 * Real.pi / 50) * t by ring,
    show 10 * Real.pi * t / 50 = 5 * (2 * Real.pi / 50) * t by ring, show 12 * Real.pi * t / 50 = 6 * (2 * Real.pi / 50) * t by ring]

theorem linRefC_periodic (c : Fin 13 → ℝ) (t : ℝ) : linRefC c (t + 50) = linRefC c t := by
  have hc : ∀ n : ℕ, Real.cos ((2 * n : ℝ) * Real.pi * (t + 50) / 50) = Real.cos ((2 * n : ℝ) * Real.pi * t / 50) := by
    intro n
    rw [show (2 * n : ℝ) * Real.pi * (t + 50) / 50 = (2 * n : ℝ) * Real.pi * t / 50 + n * (2 * Real.pi) by ring]
    exact Real.cos_add_nat_mul_two_pi _ n
  have hs : ∀ n : ℕ, Real.sin ((2 * n : ℝ) * Real.pi * (t + 50) / 50) = Real.sin ((2 * n : ℝ) * Real.pi * t / 50) := by
    intro n
    rw [show (2 * n : ℝ) * Real.pi * (t + 50) / 50 = (2 * n : ℝ) * Real.pi * t / 50 + n * (2 * Real.pi) by ring]
    exact Real.sin_add_nat_mul_two_pi _ n
  have c1 := hc 1; have c2 := hc 2; have c3 := hc 3; have c4 := hc 4; have c5 := hc 5; have c6 := hc 6
  have s1 := hs 1; have s2 := hs 2; have s3 := hs 3; have s4 := hs 4; have s5 := hs 5; have s6 := hs 6
  norm_num at c1 c2 c3 c4 c5 c6 s1 s2 s3 s4 s5 s6
  unfold linRefC
  rw [c1, c2, c3, c4, c5, c6, s1, s2, s3, s4, s5, s6]

theorem linRefC_zero (c : Fin 13 → ℝ) : linRefC c 0 = c 0 + c 1 + c 3 + c 5 + c 7 + c 9 + c 11 := by
  unfold linRefC
  simp

end Verif
