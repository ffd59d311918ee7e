import Verif.Proof.NonlinearModel
import Verif.Proof.NLQTRuns
import Verif.Spec.TrackModels

/-!
Property C75: the nonlinear tracking example of `nonlinear_model_np.py` (its dynamics and Jacobians are in C52 and C68).
-/

namespace Verif

open Matrix

/-- C75 (data): a zero stepping raises `ValueError`.  Otherwise the dense data are `N` points of the closed curve at equidistant
parameters with headings; the heading of a point is the direction to the next one, the last heading repeats the one before,
consecutive headings differ by at most half a turn, and the data with stepping are the columns `0, steps, 2 steps, ...`. -/
theorem C75_genData (N steps : ℕ) : (steps = 0 → nlGenData N steps = .error .valueError) ∧
    (0 < steps → ∃ (M : ℕ) (x y θ : ℕ → ℝ), nlGenData N steps =
        .ok ((List.range M).map (fun j => ![x (j * steps), y (j * steps), θ (j * steps)]), (List.range N).map fun k => ![x k, y k, θ k]) ∧
      (∀ j, j < M ↔ j * steps < N) ∧
      (∀ k < N, (x k, y k) = trackCurve (2 * Real.pi * k / ((N - 1 : ℕ) : ℝ))) ∧
      (∀ k, k + 1 < N → ∃ ρ : ℝ, 0 ≤ ρ ∧ x (k + 1) - x k = ρ * Real.cos (θ k) ∧ y (k + 1) - y k = ρ * Real.sin (θ k)) ∧
      (∀ k, k + 1 < N → |θ (k + 1) - θ k| ≤ Real.pi) ∧ (0 < N → -Real.pi < θ 0 ∧ θ 0 ≤ Real.pi) ∧
      (2 ≤ N → x (N - 1) = x 0 ∧ y (N - 1) = y 0 ∧ ∃ n : ℤ, θ (N - 1) = θ (N - 2) + n * (2 * Real.pi))) := by
  have hb : ∀ {α β : Type} (a : α) (f : α → Py β), ((Except.ok a : Py α) >>= f) = f a := fun _ _ => rfl
  have hgrid : ∀ f : ℝ → ℝ, (nlGrid N).map f =
      (List.range N).map fun k : ℕ => f (0 + (k : ℝ) * ((2 * Real.pi - 0) / ((N - 1 : ℕ) : ℝ))) := by
    intro f
    unfold nlGrid
    rw [List.map_map]
    rfl
  set x : ℕ → ℝ := fun k => nlCurveX (0 + (k : ℝ) * ((2 * Real.pi - 0) / ((N - 1 : ℕ) : ℝ))) with hxd
  set y : ℕ → ℝ := fun k => nlCurveY (0 + (k : ℝ) * ((2 * Real.pi - 0) / ((N - 1 : ℕ) : ℝ))) with hyd
  have hl : ((List.range N).map x).length = N := by simp
  have hloop := heading_loop N x y
  obtain ⟨θ, hθ, hθ0, hθm, hθd⟩ := unwrap_spec N (nlHeading N x y)
  constructor
  · rintro rfl
    unfold nlGenData
    dsimp only
    rw [hgrid, hgrid, hl, hloop, hb]
    rfl
  · intro hs
    refine ⟨(N + steps - 1) / steps, x, y, θ, ?_, fun j => stride_count _ _ _ hs, fun k _ => ?_, fun k hk => ?_, hθd, fun hN => ?_,
      fun hN => ⟨?_, ?_, ?_⟩⟩
    · unfold nlGenData
      dsimp only
      rw [hgrid, hgrid, hl, hloop, hb, if_neg hs.ne', hθ, stride_spec _ _ hs, stride_spec _ _ hs, stride_spec _ _ hs, stack_spec,
        stack_spec]
      rfl
    · rw [hxd, hyd]
      unfold nlCurveX nlCurveY trackCurve
      dsimp only
      rw [show 0 + (k : ℝ) * ((2 * Real.pi - 0) / ((N - 1 : ℕ) : ℝ)) = 2 * Real.pi * k / ((N - 1 : ℕ) : ℝ) by ring, one_mul]
    · obtain ⟨n, hn⟩ := hθm k (by omega)
      have e : nlHeading N x y k = Complex.arg ⟨x (k + 1) - x k, y (k + 1) - y k⟩ := if_pos hk
      refine ⟨‖(⟨x (k + 1) - x k, y (k + 1) - y k⟩ : ℂ)‖, norm_nonneg _, ?_, ?_⟩
      · rw [hn, e, Real.cos_add_int_mul_two_pi, Complex.norm_mul_cos_arg]
      · rw [hn, e, Real.sin_add_int_mul_two_pi, Complex.norm_mul_sin_arg]
    · rw [hθ0 hN]
      unfold nlHeading npArctan2
      have hpi := Real.pi_pos
      split_ifs
      · exact ⟨Complex.neg_pi_lt_arg _, Complex.arg_le_pi _⟩
      · constructor <;> linarith
      · exact ⟨Complex.neg_pi_lt_arg _, Complex.arg_le_pi _⟩
    all_goals
      have hN1 : (((N - 1 : ℕ) : ℝ)) ≠ 0 := Nat.cast_ne_zero.2 (by omega)
    · rw [hxd]
      dsimp only
      rw [show 0 + ((N - 1 : ℕ) : ℝ) * ((2 * Real.pi - 0) / ((N - 1 : ℕ) : ℝ)) = 2 * Real.pi by field_simp; ring]
      unfold nlCurveX
      rw [show 2 * (2 * Real.pi) = 0 + (2 : ℕ) * (2 * Real.pi) by push_cast; ring,
        show 3 * (2 * Real.pi) = 0 + (3 : ℕ) * (2 * Real.pi) by push_cast; ring, Real.sin_add_nat_mul_two_pi,
        Real.cos_add_nat_mul_two_pi]
      simp
    · rw [hyd]
      dsimp only
      rw [show 0 + ((N - 1 : ℕ) : ℝ) * ((2 * Real.pi - 0) / ((N - 1 : ℕ) : ℝ)) = 2 * Real.pi by field_simp; ring]
      unfold nlCurveY
      rw [show 2 * (2 * Real.pi) = 0 + (2 : ℕ) * (2 * Real.pi) by push_cast; ring,
        show 3 * (2 * Real.pi) = 0 + (3 : ℕ) * (2 * Real.pi) by push_cast; ring, Real.sin_add_nat_mul_two_pi,
        Real.sin_add_nat_mul_two_pi]
      simp
    · obtain ⟨a, ha⟩ := hθm (N - 1) (by omega)
      obtain ⟨b, hb'⟩ := hθm (N - 2) (by omega)
      have e1 : nlHeading N x y (N - 2) = npArctan2 (y (N - 2 + 1) - y (N - 2)) (x (N - 2 + 1) - x (N - 2)) := if_pos (by omega)
      have e2 : nlHeading N x y (N - 1) = npArctan2 (y (N - 2 + 1) - y (N - 2)) (x (N - 2 + 1) - x (N - 2)) := by
        unfold nlHeading
        rw [if_neg (by omega), if_neg (by omega)]
      refine ⟨a - b, ?_⟩
      rw [ha, hb', e1, e2]
      push_cast
      ring

/-- C75 (object): without points or without a positive number of steps `getLQT` raises `IndexError`.  Otherwise it returns a
convex problem with `s N` steps, starting with speed zero in the first point; its cost along the vehicle is the cost of
tracking. -/
theorem C75_getLQT (xyt : List (Fin 3 → ℝ)) (steps : ℤ) :
    (xyt = [] ∨ steps ≤ 0 → nlGetLQT xyt steps = .error .indexError) ∧
    ∀ (pts : ℕ → Fin 3 → ℝ) (s N : ℕ), 0 < s → 0 < N → ∃ (P : LQT 4 2 ℝ) (x0 : Fin 4 → ℝ),
      nlGetLQT ((List.range N).map pts) s = .ok (P.raw, x0) ∧ x0 = ![pts 0 0, pts 0 1, pts 0 2, 0] ∧ P.Convex ∧
      P.stages.length = s * N ∧
      ∀ (dt : ℝ) (w : ℕ → Fin 2 → ℝ) (z : ℕ → Fin 4 → ℝ), z 0 = x0 → (∀ k < s * N, VehicleStep dt (w k) (z k) (z (k + 1))) →
        (vehicle dt).simulate x0 ((List.range (s * N)).map w) = (List.range (s * N + 1)).map z ∧
        (vehicle dt).cost P x0 ((List.range (s * N)).map w) = .ok (vehicleTrackCost pts s N w z) := by
  refine ⟨fun h => ?_, fun pts s N hs hN => ⟨nlLQT pts s N, _, nlGetLQT_eq pts s N hs hN, rfl, nlLQT_convex pts s N, ?_,
    fun dt w z h0 hz => ?_⟩⟩
  · rcases h with rfl | h
    · exact nlGetLQT_empty steps
    · exact nlGetLQT_nonpos xyt steps h
  · simp [nlLQT, trackLQT]
  · have hsim : (vehicle dt).simulate ![pts 0 0, pts 0 1, pts 0 2, 0] ((List.range (s * N)).map w) = (List.range (s * N + 1)).map z := by
      rw [← h0]
      refine simulate_fn _ _ _ _ fun k hk => ?_
      obtain ⟨h1, h2, h3, h4⟩ := hz k hk
      funext i
      fin_cases i
      · show z (k + 1) 0 = z k 0 + z k 3 * Real.cos (z k 2) * dt
        rw [h1]; ring
      · show z (k + 1) 1 = z k 1 + z k 3 * Real.sin (z k 2) * dt
        rw [h2]; ring
      · show z (k + 1) 2 = z k 2 + w k 1 * dt
        rw [h3]; ring
      · show z (k + 1) 3 = z k 3 + w k 0 * dt
        rw [h4]; ring
    refine ⟨hsim, ?_⟩
    unfold NModel.cost
    rw [hsim, cost_fn_any _ _ _ rfl]
    congr 1
    unfold vehicleTrackCost
    rw [add_comm]
    congr 1
    · refine Finset.sum_congr rfl fun k _ => ?_
      unfold LStage.cost halfQuad
      dsimp only
      by_cases h : k % s = 0
      · rw [if_pos h, if_pos (Nat.dvd_of_mod_eq_zero h)]
        simp [nlH, mulVec, dotProduct, Fin.sum_univ_succ, Matrix.diagonal_apply]
        ring
      · rw [if_neg h, if_neg (fun h' => h (Nat.mod_eq_zero_of_dvd h'))]
        simp [nlH, mulVec, dotProduct, Fin.sum_univ_succ, Matrix.diagonal_apply, Matrix.one_apply]
        ring
    · unfold halfQuad nlLQT trackLQT
      dsimp only
      simp [nlH, mulVec, dotProduct, Fin.sum_univ_succ, Matrix.one_apply]
      ring

/-- C75 (initial guess at zero): zero controls, and zero states after the given initial state. -/
theorem C75_guess_zero (dt : ℝ) (r : List (Fin 3 → ℝ)) (x0 : Fin 4 → ℝ) : ∃ us xs, nlInitialGuess dt r x0 true = .ok (us, xs) ∧
    us.length = r.length ∧ xs.length = r.length + 1 ∧ xs[0]? = some x0 ∧ (∀ u ∈ us, u = 0) ∧ ∀ x ∈ xs.tail, x = 0 := by
  refine ⟨r.map fun _ => 0, x0 :: r.map fun _ => 0, rfl, by simp, by simp, rfl, by simp, by simp⟩

/-- C75 (initial guess from the data): without targets `IndexError`; for `dt = 0` it raises `ZeroDivisionError` exactly if some
target differs from the first one by more than `0.1` in both coordinates.  For `dt ≠ 0` the controls are zero, the states have
the targets as positions and headings, and the speed is updated whenever the position differs by more than `0.1` in both
coordinates from where it was updated last: to the distance divided by the time. -/
theorem C75_guess (dt : ℝ) (r : ℕ → Fin 3 → ℝ) (T : ℕ) (x0 : Fin 4 → ℝ) :
    nlInitialGuess dt [] x0 false = .error .indexError ∧
    (0 < T → ((nlInitialGuess 0 ((List.range T).map r) x0 false = .error .zeroDivisionError ↔
        ∃ k < T, |r k 0 - r 0 0| > 0.1 ∧ |r k 1 - r 0 1| > 0.1) ∧
      (dt ≠ 0 ∨ (∀ k < T, ¬(|r k 0 - r 0 0| > 0.1 ∧ |r k 1 - r 0 1| > 0.1)) → ∃ (pos : ℕ → Fin 3 → ℝ) (a : ℕ → ℕ) (sp : ℕ → ℝ),
        nlInitialGuess dt ((List.range T).map r) x0 false =
          .ok ((List.range T).map fun _ => 0, x0 :: (List.range T).map fun k => ![r k 0, r k 1, r k 2, sp (k + 1)]) ∧
        (pos 0 = r 0 ∧ (∀ k < T, pos (k + 1) = r k)) ∧ a 0 = 0 ∧ sp 0 = 0 ∧ (∀ k ≤ T, a k ≤ k) ∧
        ∀ k < T, (|pos (k + 1) 0 - pos (a k) 0| > 0.1 ∧ |pos (k + 1) 1 - pos (a k) 1| > 0.1 →
            a (k + 1) = k + 1 ∧ sp (k + 1) = Real.sqrt ((pos (k + 1) 0 - pos (a k) 0) ^ 2 + (pos (k + 1) 1 - pos (a k) 1) ^ 2) /
              (((k + 1 : ℕ) - (a k : ℝ)) * dt)) ∧
          (¬(|pos (k + 1) 0 - pos (a k) 0| > 0.1 ∧ |pos (k + 1) 1 - pos (a k) 1| > 0.1) → a (k + 1) = a k ∧ sp (k + 1) = sp k)))) := by
  have hb : ∀ {α β : Type} (a : α) (f : α → Py β), ((Except.ok a : Py α) >>= f) = f a := fun _ _ => rfl
  refine ⟨rfl, fun hT => ?_⟩
  have h0 : pyGet ((List.range T).map r) 0 = .ok (r 0) := by
    unfold pyGet
    simp [hT]
  have hok : ∀ dt : ℝ, dt ≠ 0 ∨ (∀ k < T, ¬FarAway (r k) (r 0)) → nlInitialGuess dt ((List.range T).map r) x0 false =
      .ok ((List.range T).map fun _ => 0,
        x0 :: (List.range T).map fun k => ![r k 0, r k 1, r k 2, (guessSeq dt (guessPos r) (k + 1)).2]) := by
    intro dt h
    unfold nlInitialGuess
    rw [if_neg (by simp), h0, hb, guess_loop dt r x0 T h, hb]
    rfl
  refine ⟨⟨fun h => ?_, fun ⟨k, hk, hf⟩ => ?_⟩, fun h => ⟨guessPos r, fun k => (guessSeq dt (guessPos r) k).1,
    fun k => (guessSeq dt (guessPos r) k).2, hok dt h, ⟨rfl, fun _ _ => rfl⟩, rfl, rfl, fun k _ => guessSeq_le _ _ _,
    fun k _ => ⟨fun hf => ?_, fun hf => ?_⟩⟩⟩
  · by_contra hc
    push Not at hc
    rw [hok 0 (Or.inr fun k hk hf => absurd hf.2 (not_lt.2 (hc k hk hf.1)))] at h
    cases h
  · unfold nlInitialGuess
    rw [if_neg (by simp), h0, hb, guess_loop_zero r x0 T k hk hf]
    rfl
  · have e : guessSeq dt (guessPos r) (k + 1) = _ := if_pos hf
    dsimp only
    rw [e]
    exact ⟨rfl, rfl⟩
  · have e : guessSeq dt (guessPos r) (k + 1) = _ := if_neg hf
    dsimp only
    rw [e]
    exact ⟨rfl, rfl⟩

/-- C75 (finding): a trajectory parallel to an axis gets speed zero, however fast it is, because both coordinates have to
change. -/
theorem C75_guess_axis (dt : ℝ) (r : ℕ → Fin 3 → ℝ) (T : ℕ) (hT : 0 < T) (x0 : Fin 4 → ℝ) (i : Fin 3) (hi : i = 0 ∨ i = 1)
    (hr : ∀ k < T, r k i = r 0 i) : nlInitialGuess dt ((List.range T).map r) x0 false =
      .ok ((List.range T).map fun _ => 0, x0 :: (List.range T).map fun k => ![r k 0, r k 1, r k 2, 0]) := by
  have hb : ∀ {α β : Type} (a : α) (f : α → Py β), ((Except.ok a : Py α) >>= f) = f a := fun _ _ => rfl
  have hn : ∀ k < T, ¬FarAway (r k) (r 0) := by
    rintro k hk ⟨h1, h2⟩
    rcases hi with rfl | rfl
    · rw [hr k hk, sub_self, abs_zero] at h1; norm_num at h1
    · rw [hr k hk, sub_self, abs_zero] at h2; norm_num at h2
  have h0 : pyGet ((List.range T).map r) 0 = .ok (r 0) := by
    unfold pyGet
    simp [hT]
  unfold nlInitialGuess
  rw [if_neg (by simp), h0, hb, guess_loop dt r x0 T (Or.inr hn), hb]
  have : (List.range T).map (fun k => (![r k 0, r k 1, r k 2, (guessSeq dt (guessPos r) (k + 1)).2] : Fin 4 → ℝ)) =
      (List.range T).map fun k => ![r k 0, r k 1, r k 2, 0] := by
    refine List.map_congr_left fun k hk => ?_
    rw [guessSeq_near dt (guessPos r) (k + 1) fun j hj => hn j (by have := List.mem_range.1 hk; omega)]
  rw [this]
  rfl

/-- C75 (iterations): from either initial guess the iterations never fail, whatever the methods, and all methods give the same
results; all iterates start in the initial state, and an iterate that is repeated is a trajectory of the vehicle at which the
derivative of the tracking cost vanishes in every direction. -/
theorem C75_iterations (dt : ℝ) (hdt : dt ≠ 0) (pts : ℕ → Fin 3 → ℝ) (s N : ℕ) (hs : 0 < s) (hN : 0 < N) (init_to_zero : Bool) :
    ∃ (P : LQT 4 2 ℝ) (x0 : Fin 4 → ℝ) (us0 : List (Fin 2 → ℝ)) (xs0 : List (Fin 4 → ℝ)),
      nlGetLQT ((List.range N).map pts) s = .ok (P.raw, x0) ∧
      nlInitialGuess dt (P.stages.map fun t => fun i : Fin 3 => if h : i.1 < t.p then t.r ⟨i.1, h⟩ else 0) x0 init_to_zero = .ok (us0, xs0) ∧
      ∃ (Q : ℕ → LQT 4 2 ℝ) (us : ℕ → List (Fin 2 → ℝ)) (xs : ℕ → List (Fin 4 → ℝ)), Q 0 = P ∧ us 0 = us0 ∧ xs 0 = xs0 ∧
        ∀ i, (∀ k, (vehicle dt).iterate (Q i) (us i) (xs i) k = .ok (Q (i + 1), us (i + 1), xs (i + 1))) ∧
          (us i).length = s * N ∧ (xs i).length = s * N + 1 ∧ (xs i)[0]? = some x0 ∧
          (us (i + 1) = us i ∧ xs (i + 1) = xs i ↔ xs i = (vehicle dt).simulate x0 (us i) ∧
            ∀ ds : List (Fin 2 → ℝ), ds.length = s * N → ∃ J : ℝ → ℝ,
              (∀ t, (vehicle dt).cost P x0 (List.zipWith (fun u d => u + t • d) (us i) ds) = .ok (J t)) ∧ HasDerivAt J 0 0) := by
  have hT : 0 < s * N := Nat.mul_pos hs hN
  have hr : ((nlLQT pts s N).stages.map fun t => fun i : Fin 3 => if h : i.1 < t.p then t.r ⟨i.1, h⟩ else 0) =
      (List.range (s * N)).map fun k => pts (k / s) := by
    simp only [nlLQT, trackLQT, List.map_map]
    refine List.map_congr_left fun k _ => ?_
    funext i
    exact dif_pos i.2
  have hlen : (nlLQT pts s N).stages.length = s * N := by simp [nlLQT, trackLQT]
  have hguess : ∃ us0 xs0, nlInitialGuess dt ((List.range (s * N)).map fun k => pts (k / s)) ![pts 0 0, pts 0 1, pts 0 2, 0] init_to_zero =
      .ok (us0, xs0) ∧ us0.length = s * N ∧ xs0.length = s * N + 1 ∧ xs0[0]? = some ![pts 0 0, pts 0 1, pts 0 2, 0] := by
    cases init_to_zero with
    | true =>
      obtain ⟨us, xs, h1, h2, h3, h4, -⟩ := C75_guess_zero dt ((List.range (s * N)).map fun k => pts (k / s)) ![pts 0 0, pts 0 1, pts 0 2, 0]
      exact ⟨us, xs, h1, by simpa using h2, by simpa using h3, h4⟩
    | false =>
      obtain ⟨pos, a, sp, h1, -⟩ := ((C75_guess dt (fun k => pts (k / s)) (s * N) ![pts 0 0, pts 0 1, pts 0 2, 0]).2 hT).2 (Or.inl hdt)
      exact ⟨_, _, h1, by simp, by simp, rfl⟩
  obtain ⟨us0, xs0, hg, hu, hx, hx0⟩ := hguess
  obtain ⟨Q, us, xs, hQ0, hu0, hxs0, hall⟩ := iterates_exist (vehicle dt) (nlLQT pts s N) (nlLQT_convex pts s N)
    (by rw [← List.length_pos_iff, hlen]; exact hT) _ us0 xs0 (by rw [hu, hlen]) (by omega) hx0
  refine ⟨nlLQT pts s N, _, us0, xs0, nlGetLQT_eq pts s N hs hN, by rw [hr]; exact hg, Q, us, xs, hQ0, hu0, hxs0, fun i => ?_⟩
  obtain ⟨h1, h2, h3, h4, h5, h6, h7⟩ := hall i
  rw [hlen] at h3 h4 h5
  refine ⟨h1, h4, h5, h6, ?_⟩
  have hfix := C68_fixed (vehicle dt) (Q i) h2 (by rw [← List.length_pos_iff, h3]; exact hT) _ (us i) (xs i) 0 (by rw [h4, h3]) h6
    fun _ y u _ _ => C68_vehicle dt y u
  have hcost : ∀ x0 us, (vehicle dt).cost (Q i) x0 us = (vehicle dt).cost (nlLQT pts s N) x0 us := fun _ _ => h7 _ _
  simp only [hcost, h4] at hfix
  rw [← hfix, h1 0]
  constructor
  · rintro ⟨e1, e2⟩
    exact ⟨Q (i + 1), by rw [e1, e2]⟩
  · rintro ⟨P', h⟩
    simp only [Except.ok.injEq, Prod.mk.injEq] at h
    exact h.2

/-! ### Examples -/

/-- The default stepping: `N = 51` dense points give six points. -/
example : ∃ (x y θ : ℕ → ℝ), nlGenData 51 10 = .ok ((List.range 6).map (fun j => ![x (j * 10), y (j * 10), θ (j * 10)]),
    (List.range 51).map fun k => ![x k, y k, θ k]) := by
  obtain ⟨M, x, y, θ, h, hM, -⟩ := (C75_genData 51 10).2 (by norm_num)
  have h5 := hM 5
  have h6 := hM 6
  obtain rfl : M = 6 := by omega
  exact ⟨x, y, θ, h⟩

/-- Two points with two steps between them. -/
example : ∃ r, nlGetLQT ((List.range 2).map fun k => ![(k : ℝ), k, 0]) (2 : ℕ) = .ok r := by
  obtain ⟨P, x0, h, -⟩ := (C75_getLQT [] 0).2 (fun k => ![(k : ℝ), k, 0]) 2 2 (by norm_num) (by norm_num)
  exact ⟨_, h⟩

/-- A trajectory of the vehicle. -/
example : VehicleStep 1 ![1, 0] ![0, 0, 0, 1] ![1, 0, 0, 2] := by
  refine ⟨?_, ?_, ?_, ?_⟩
  · show (1 : ℝ) = 0 + 1 * (1 * Real.cos 0); rw [Real.cos_zero]; norm_num
  · show (0 : ℝ) = 0 + 1 * (1 * Real.sin 0); rw [Real.sin_zero]; norm_num
  · show (0 : ℝ) = 0 + 1 * 0; norm_num
  · show (2 : ℝ) = 1 + 1 * 1; norm_num

/-- Targets that move by one in both coordinates: for `dt = 0` the guess fails. -/
example : nlInitialGuess 0 ((List.range 2).map fun k => ![(k : ℝ), k, 0]) 0 false = .error .zeroDivisionError :=
  (((C75_guess 0 (fun k => ![(k : ℝ), k, 0]) 2 0).2 (by norm_num)).1).2 ⟨1, by norm_num, by norm_num⟩

/-- Targets moving along the first axis. -/
example : ∀ k < 3, (fun k : ℕ => (![(k : ℝ), 0, 0] : Fin 3 → ℝ)) k 1 = (fun k : ℕ => (![(k : ℝ), 0, 0] : Fin 3 → ℝ)) 0 1 := by
  intro k _; rfl

end Verif
