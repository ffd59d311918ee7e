import Verif.Model.SpeedNonlinear
import Verif.Props.NLQTTF
import Verif.Props.NonlinearModel
import Verif.Props.SpeedLinear
import Verif.Props.ExamplesReal

/-! Property C82: the speed tests of the nonlinear tracker, `nonlinear_speedtest.py`. -/

namespace Verif

open Matrix

section General
variable {n m p q : ℕ} {K : Type} [Field K] [LinearOrder K]

theorem linearizeTF_length (M : NModel n m K) (C : NQCost n m p q K) (us : List (Fin m → K)) (xs : List (Fin n → K)) :
    (M.linearizeTF C us xs).stages.length ≤ C.stages.length := by
  simp [NModel.linearizeTF]

theorem iteratePar1TFMp_eq (scan : AScan) (M : NModel n m K) (C : NQCost n m p q K) (hT : C.stages ≠ []) (us : List (Fin m → K))
    (xs : List (Fin n → K)) : M.iteratePar1TFMp scan C us xs = M.iteratePar1TF (scan _) (scan _) C us xs := by
  unfold NModel.iteratePar1TFMp NModel.iteratePar1TF
  have h1 : 1 ≤ C.stages.length := List.length_pos_iff.2 hT
  have h2 := linearizeTF_length M C us xs.dropLast
  dsimp only
  rw [(C54_lqt (scan _) (scan _) C.stages.length (M.linearizeTF C us xs.dropLast) 0 ⟨[], [], [], []⟩ [] h1 h2 (by simp)).1]
  refine bind_congr fun r => bind_congr fun x0 => ?_
  rw [(C54_lqt (scan _) (scan _) C.stages.length (M.linearizeTF C us xs.dropLast) x0 r ((M.linearizeTF C us xs.dropLast).withGains r)
    h1 h2 (by simp only [TFLQT.withGains, List.length_zipWith]; omega)).2.2]

theorem iteratePar2TFMp_eq (scan : AScan) (M : NModel n m K) (C : NQCost n m p q K) (hT : C.stages ≠ []) (us : List (Fin m → K))
    (xs : List (Fin n → K)) : M.iteratePar2TFMp scan C us xs = M.iteratePar2TF (scan _) C us xs := by
  unfold NModel.iteratePar2TFMp NModel.iteratePar2TF
  have h1 : 1 ≤ C.stages.length := List.length_pos_iff.2 hT
  have h2 := linearizeTF_length M C us xs.dropLast
  dsimp only
  rw [(C54_lqt (scan _) (scan _) C.stages.length (M.linearizeTF C us xs.dropLast) 0 ⟨[], [], [], []⟩ [] h1 h2 (by simp)).1]
  refine bind_congr fun r => bind_congr fun x0 => ?_
  rw [(C54_lqt (scan _) (scan _) C.stages.length (M.linearizeTF C us xs.dropLast) x0 r [] h1 h2 (by simp)).2.1]

theorem foldlM_seq {σ : Type} (f : σ → Py σ) (s : ℕ → σ) (h : ∀ i, f (s i) = .ok (s (i + 1))) :
    ∀ N, (List.range N).foldlM (fun a _ => f a) (s 0) = .ok (s N)
  | 0 => rfl
  | N + 1 => by
    rw [List.range_succ, List.foldlM_append, foldlM_seq f s h N, py_ok_bind]
    simp only [List.foldlM_cons, List.foldlM_nil, h N]
    rfl

variable [IsStrictOrderedRing K]

theorem NQCost.toLQT_convex {C : NQCost n m p q K} (hC : C.Convex)
    {dyn : List (Matrix (Fin n) (Fin n) K × (Fin n → K) × Matrix (Fin n) (Fin m) K)} (hd : dyn.length = C.stages.length) :
    (C.toLQT dyn).Convex := by
  refine ⟨fun s hs => ?_, hC.2⟩
  obtain ⟨i, hi, rfl⟩ := List.getElem_of_mem hs
  have hi' : i < C.stages.length := by
    have : (C.toLQT dyn).stages.length = C.stages.length := by simp [NQCost.toLQT, hd]
    omega
  have e : (C.toLQT dyn).stages[i] = (⟨dyn[i].1, dyn[i].2.1, dyn[i].2.2, C.stages[i].H, C.stages[i].r, C.stages[i].X, C.stages[i].U⟩ : TStage n m p K).toL :=
    List.getElem_zipWith ..
  rw [e]
  obtain ⟨g1, g2, g3⟩ := hC.1 C.stages[i] (List.getElem_mem hi')
  exact TStage.toL_convex g1 g2 g3

/-- Repeated iterations in TensorFlow are those of the numpy tracker. -/
theorem tf_iterates (M : NModel n m K) (C : NQCost n m p q K) (hC : C.Convex) (hT : C.stages ≠ [])
    (dyn : List (Matrix (Fin n) (Fin n) K × (Fin n → K) × Matrix (Fin n) (Fin m) K)) (hd : dyn.length = C.stages.length)
    (us0 : List (Fin m → K)) (xs0 : List (Fin n → K)) (hu : us0.length = C.stages.length) (hx : xs0.length = C.stages.length + 1)
    (scan : AScan) (hs : ∀ α, IsAssocScan (scan α)) :
    ∃ (Q : ℕ → LQT n m K) (us : ℕ → List (Fin m → K)) (xs : ℕ → List (Fin n → K)),
      Q 0 = C.toLQT dyn ∧ us 0 = us0 ∧ xs 0 = xs0 ∧
      (∀ i k, M.iterate (Q i) (us i) (xs i) k = .ok (Q (i + 1), us (i + 1), xs (i + 1))) ∧
      (∀ i, (us i).length = C.stages.length ∧ (xs i).length = C.stages.length + 1 ∧ (xs i)[0]? = xs0[0]? ∧ (Q i).Convex ∧
        (Q i).stages.length = C.stages.length ∧
        ∀ us' xs', (Q i).cost us' xs' = (C.toLQT dyn).cost us' xs') ∧
      ∀ i, M.iterateSeqTF C (us i) (xs i) = .ok (us (i + 1), xs (i + 1)) ∧
        M.iteratePar1TF (scan _) (scan _) C (us i) (xs i) = .ok (us (i + 1), xs (i + 1)) ∧
        M.iteratePar2TF (scan _) C (us i) (xs i) = .ok (us (i + 1), xs (i + 1)) := by
  have hl : (C.toLQT dyn).stages.length = C.stages.length := by simp [NQCost.toLQT, hd]
  have hne : (C.toLQT dyn).stages ≠ [] := by
    intro h0
    rw [h0] at hl
    exact hT (List.length_eq_zero_iff.1 hl.symm)
  obtain ⟨x0, xs1, rfl⟩ : ∃ x0 xs1, xs0 = x0 :: xs1 := by
    cases xs0 with
    | nil => simp at hx
    | cons a l => exact ⟨a, l, rfl⟩
  obtain ⟨Q, us, xs, hQ0, hu0, hx0, hall⟩ := iterates_exist M (C.toLQT dyn) (NQCost.toLQT_convex hC hd) hne x0 us0 (x0 :: xs1)
    (by rw [hu, hl]) (by omega) rfl
  rw [hl] at hall
  have hdyn : ∀ i, ∃ d : List (Matrix (Fin n) (Fin n) K × (Fin n → K) × Matrix (Fin n) (Fin m) K),
      d.length = C.stages.length ∧ Q i = C.toLQT d := by
    intro i
    induction i with
    | zero => exact ⟨dyn, hd, hQ0⟩
    | succ i ih =>
      obtain ⟨d, h1, h2⟩ := ih
      obtain ⟨h3, h4, -, h5, h6, -⟩ := hall i
      obtain ⟨h7, -⟩ := iterate_seq h4.toSym (h3 0)
      rw [h2, linearizeTF_linTo M C d _ _ h1 h5 h6, Except.ok.injEq] at h7
      refine ⟨(M.linearizeTF C (us i) (xs i).dropLast).stages.map fun t => (t.F, t.c, t.L), ?_, ?_⟩
      · simp [NModel.linearizeTF, h5, h6]
      · rw [← h7]
        unfold TFLQT.toLQT NQCost.toLQT NModel.linearizeTF
        congr 1
        dsimp only
        apply List.ext_getElem
        · simp
        · intro j g1 g2
          simp [TStage.toL]
  refine ⟨Q, us, xs, hQ0, hu0, hx0, fun i => (hall i).1, fun i => ?_, fun i => ?_⟩
  · obtain ⟨-, h2, h3, h4, h5, h6, h7⟩ := hall i
    exact ⟨h4, h5, h6, h2, h3, h7⟩
  · obtain ⟨d, h1, h2⟩ := hdyn i
    obtain ⟨h3, h4, -, h5, h6, -⟩ := hall i
    obtain ⟨P', us', xs', g1, g2, g3, g4⟩ := C69_convex M C hC hT d h1 (us i) (xs i) h5 h6 (scan _) (hs _) (scan _) (hs _)
    have := g1 0
    rw [← h2, h3 0, Except.ok.injEq, Prod.mk.injEq, Prod.mk.injEq] at this
    obtain ⟨-, e1, e2⟩ := this
    rw [g2, g3, g4, e1, e2]
    exact ⟨rfl, rfl, rfl⟩

/-- C82 (iterations): with convex costs the three functions return the tenth iterate of the numpy `NLQT.iterate`, which is the
same for all its methods and for every way in which `scan_associative` groups the elements. -/
theorem C82_iterations (M : NModel n m K) (C : NQCost n m p q K) (hC : C.Convex) (hT : C.stages ≠ [])
    (dyn : List (Matrix (Fin n) (Fin n) K × (Fin n → K) × Matrix (Fin n) (Fin m) K)) (hd : dyn.length = C.stages.length)
    (us0 : List (Fin m → K)) (xs0 : List (Fin n → K)) (hu : us0.length = C.stages.length) (hx : xs0.length = C.stages.length + 1)
    (scan : AScan) (hs : ∀ α, IsAssocScan (scan α)) :
    ∃ (Q : ℕ → LQT n m K) (us : ℕ → List (Fin m → K)) (xs : ℕ → List (Fin n → K)),
      Q 0 = C.toLQT dyn ∧ us 0 = us0 ∧ xs 0 = xs0 ∧
      (∀ i k, M.iterate (Q i) (us i) (xs i) k = .ok (Q (i + 1), us (i + 1), xs (i + 1))) ∧
      (∀ i, (us i).length = C.stages.length ∧ (xs i).length = C.stages.length + 1 ∧ (xs i)[0]? = xs0[0]? ∧ (Q i).Convex ∧
        (Q i).stages.length = C.stages.length ∧
        ∀ us' xs', (Q i).cost us' xs' = (C.toLQT dyn).cost us' xs') ∧
      M.iterSeq C us0 xs0 = .ok (us 10, xs 10) ∧ M.iterPar1 scan C us0 xs0 = .ok (us 10, xs 10) ∧
      M.iterPar2 scan C us0 xs0 = .ok (us 10, xs 10) := by
  obtain ⟨Q, us, xs, hQ0, hu0, hx0, hall, hlen, hstep⟩ := tf_iterates M C hC hT dyn hd us0 xs0 hu hx scan hs
  have step : ∀ i, M.iterateSeqTF C (us i) (xs i) = .ok (us (i + 1), xs (i + 1)) ∧
      M.iteratePar1TFMp scan C (us i) (xs i) = .ok (us (i + 1), xs (i + 1)) ∧
      M.iteratePar2TFMp scan C (us i) (xs i) = .ok (us (i + 1), xs (i + 1)) := by
    intro i
    rw [iteratePar1TFMp_eq scan M C hT, iteratePar2TFMp_eq scan M C hT]
    exact hstep i
  refine ⟨Q, us, xs, hQ0, hu0, hx0, hall, hlen, ?_, ?_, ?_⟩
  all_goals rw [← hu0, ← hx0]
  · exact foldlM_seq (fun ux => M.iterateSeqTF C ux.1 ux.2) (fun i => (us i, xs i)) (fun i => (step i).1) 10
  · exact foldlM_seq (fun ux => M.iteratePar1TFMp scan C ux.1 ux.2) (fun i => (us i, xs i)) (fun i => (step i).2.1) 10
  · exact foldlM_seq (fun ux => M.iteratePar2TFMp scan C ux.1 ux.2) (fun i => (us i, xs i)) (fun i => (step i).2.2) 10

/-- C82 (speed tests): on problems with convex costs and an initial guess of the right lengths the three speed tests report the
numbers of steps and the state dimensions. -/
theorem C82_speed (items : List (NLItem K)) (hi : ∀ it ∈ items, it.C.Convex ∧ it.C.stages ≠ [] ∧
      it.us.length = it.C.stages.length ∧ it.xs.length = it.C.stages.length + 1) (scan : AScan)
    (hs : ∀ α, IsAssocScan (scan α)) (n_iter : ℕ) (hn : 0 < n_iter) :
    let gen := items.map Except.ok
    let res : Py (List ℕ × List ℕ) := .ok (items.map fun it => it.C.stages.length, items.map fun it => it.n)
    iterSeqSpeed gen n_iter = res ∧ iterPar1Speed scan gen n_iter = res ∧ iterPar2Speed scan gen n_iter = res := by
  intro gen res
  have hsuc : ∀ {β : NLItem K → Type} (run : ∀ it, Py (β it)), (∀ it ∈ items, ∃ b, run it = .ok b) →
      nlSpeed gen run n_iter = res := fun run h => by
    have : nlSpeed gen run n_iter = .ok (items.map fun it => it.us.length, items.map fun it => it.n) :=
      speedLoop_ok _ _ hn rfl fun it hit => by
        obtain ⟨b, hb⟩ := h it hit
        exact ⟨(), by rw [hb]; rfl⟩
    rw [this]
    exact congrArg (fun l => Except.ok (l, _)) (List.map_congr_left fun it hit => (hi it hit).2.2.1)
  have main := fun it hit => C82_iterations it.M it.C (hi it hit).1 (hi it hit).2.1
    (List.replicate it.C.stages.length (0, 0, 0)) (by simp) it.us it.xs (hi it hit).2.2.1 (hi it hit).2.2.2 scan hs
  refine ⟨hsuc _ fun it hit => ?_, hsuc _ fun it hit => ?_, hsuc _ fun it hit => ?_⟩
  all_goals obtain ⟨Q, us, xs, -, -, -, -, -, h1, h2, h3⟩ := main it hit
  · exact ⟨_, h1⟩
  · exact ⟨_, h2⟩
  · exact ⟨_, h3⟩

end General

/-! ### The generator -/

theorem vehicleTF_eq : vehicleTF = vehicle 0.1 := by
  unfold vehicleTF vehicle
  congr 1
  · funext x u; exact (C52_tf _ x u).2.1
  · funext x u; exact (C52_tf _ x u).2.2

/-- The number of steps: `10 * ⌈T / 10⌉`. -/
theorem nonlinItem_eq (T : ℕ) (hT : 0 < T) : ∃ (pts : ℕ → Fin 3 → ℝ) (dense : List (Fin 3 → ℝ)) (P : TFLQT 4 2 3 3 ℝ),
    nlGenData T 10 = .ok ((List.range ((T + 9) / 10)).map pts, dense) ∧ pts 0 0 = 13 ∧ pts 0 1 = 7 ∧
    P.toLQT = nlLQT pts 10 ((T + 9) / 10) ∧
    nonlinItem T = .ok ⟨4, 2, 3, 3, List.replicate (10 * ((T + 9) / 10)) 0,
      ![pts 0 0, pts 0 1, pts 0 2, 0] :: List.replicate (10 * ((T + 9) / 10)) 0, vehicle 0.1,
      ⟨P.stages.map fun t => ⟨t.H, t.r, t.X, t.U⟩, P.HT, P.rT, P.XT⟩⟩ := by
  obtain ⟨N, x, y, θ, h1, h2, h3, -⟩ := (C75_genData T 10).2 (by norm_num)
  have hN : N = (T + 9) / 10 := by
    have a1 := h2 N
    have a2 := h2 ((T + 9) / 10)
    have a3 := h2 ((T + 9) / 10 - 1)
    omega
  subst hN
  set pts : ℕ → Fin 3 → ℝ := fun j => ![x (j * 10), y (j * 10), θ (j * 10)] with hp
  have hpos : 0 < (T + 9) / 10 := by omega
  have hpl : ∀ s ∈ (nlLQT pts 10 ((T + 9) / 10)).stages, s.Plain ∧ s.p = 3 := by
    intro s hs
    simp only [nlLQT, trackLQT, List.mem_map] at hs
    obtain ⟨k, -, rfl⟩ := hs
    exact ⟨⟨rfl, rfl, rfl⟩, rfl⟩
  obtain ⟨G, -, hG⟩ := exists_gen (p := 3) (q := 3) (nlLQT pts 10 ((T + 9) / 10)) ⟨fun s hs => (hpl s hs).2, rfl⟩
  have e : ({ nlLQT pts 10 ((T + 9) / 10) with stages := (nlLQT pts 10 ((T + 9) / 10)).stages.map LStage.strip } : LQT 4 2 ℝ) =
      nlLQT pts 10 ((T + 9) / 10) := by
    have : (nlLQT pts 10 ((T + 9) / 10)).stages.map LStage.strip = (nlLQT pts 10 ((T + 9) / 10)).stages := by
      conv_rhs => rw [← List.map_id (nlLQT pts 10 ((T + 9) / 10)).stages]
      exact List.map_congr_left fun s hs => strip_plain (hpl s hs).1
    rw [this]
  have hxy := h3 0 hT
  simp only [trackCurve, Nat.cast_zero, mul_zero, zero_div, Real.cos_zero, Real.sin_zero, Prod.mk.injEq] at hxy
  have h2' : nlGetLQT ((List.range ((T + 9) / 10)).map pts) 10 =
      .ok ((nlLQT pts 10 ((T + 9) / 10)).raw, ![pts 0 0, pts 0 1, pts 0 2, 0]) := nlGetLQT_eq pts 10 _ (by norm_num) hpos
  have hlen : ({ stages := G.stages.map GStage.toTStage, HT := G.HT, rT := G.rT, XT := G.XT } : TFLQT 4 2 3 3 ℝ).stages.length =
      10 * ((T + 9) / 10) := by
    have := congrArg (fun Q : LQT 4 2 ℝ => Q.stages.length) (hG.trans e)
    simpa [TFLQT.toLQT, nlLQT, trackLQT] using this
  refine ⟨pts, _, _, h1, ?_, ?_, hG.trans e, ?_⟩
  · show x (0 * 10) = 13
    rw [zero_mul, hxy.1]; norm_num
  · show y (0 * 10) = 7
    rw [zero_mul, hxy.2]; norm_num
  · unfold nonlinItem
    rw [h1, py_ok_bind]
    dsimp only
    rw [h2', py_ok_bind]
    dsimp only
    rw [(npToTf_iff _ _).2 hG, py_ok_bind, vehicleTF_eq]
    unfold nlInitialGuess
    rw [if_pos rfl, ← hlen]
    simp only [List.map_map, pure, Except.pure, bind, Except.bind]
    congr 2
    · exact (List.eq_replicate_iff.2 ⟨by simp, by simp⟩)
    · congr 1
      exact (List.eq_replicate_iff.2 ⟨by simp, by simp⟩)

/-- C82 (problems): for `T ≥ 1` the generator yields the tracking problem of `NonlinearModel` with ten steps per data point:
`10 * ⌈T / 10⌉` steps, convex costs, the vehicle with time step `0.1`, and a guess that is zero after the initial state, which lies
in `(13, 7)` with speed zero; for `T = 0` there is no data and `IndexError` is raised. -/
theorem C82_item (T : ℕ) :
    (T = 0 → nonlinItem T = .error .indexError) ∧
    (0 < T → ∃ (xyt dense : List (Fin 3 → ℝ)) (lqt : LQT 4 2 ℝ) (x0 : Fin 4 → ℝ) (C : NQCost 4 2 3 3 ℝ),
      nlGenData T 10 = .ok (xyt, dense) ∧ nlGetLQT xyt 10 = .ok (lqt.raw, x0) ∧ (∃ dyn, dyn.length = C.stages.length ∧ C.toLQT dyn = lqt) ∧
      nonlinItem T = .ok ⟨4, 2, 3, 3, List.replicate C.stages.length 0, x0 :: List.replicate C.stages.length 0, vehicle 0.1, C⟩ ∧
      C.stages.length = 10 * ((T + 9) / 10) ∧ C.Convex ∧ x0 0 = 13 ∧ x0 1 = 7 ∧ x0 3 = 0) := by
  constructor
  · rintro rfl
    obtain ⟨N, x, y, θ, h1, h2, -⟩ := (C75_genData 0 10).2 (by norm_num)
    have : N = 0 := by have := h2 0; omega
    subst this
    unfold nonlinItem
    rw [h1, py_ok_bind]
    dsimp only
    rw [show (List.map (fun j => ![x (j * 10), y (j * 10), θ (j * 10)]) (List.range 0)) = [] from rfl, (C75_getLQT [] 10).1 (Or.inl rfl)]
    rfl
  · intro hT
    obtain ⟨pts, dense, P, h1, h2, h3, h4, h5⟩ := nonlinItem_eq T hT
    have hlen : P.stages.length = 10 * ((T + 9) / 10) := by
      have := congrArg (fun Q : LQT 4 2 ℝ => Q.stages.length) h4
      simpa [TFLQT.toLQT, nlLQT, trackLQT] using this
    have hc := nlLQT_convex pts 10 ((T + 9) / 10)
    refine ⟨_, dense, _, _, ⟨P.stages.map fun t => ⟨t.H, t.r, t.X, t.U⟩, P.HT, P.rT, P.XT⟩, h1,
      nlGetLQT_eq pts 10 _ (by norm_num) (by omega), ⟨P.stages.map fun t => (t.F, t.c, t.L), by simp, ?_⟩, ?_, by simpa using hlen, ?_, h2,
      h3, rfl⟩
    · rw [← h4]
      unfold NQCost.toLQT TFLQT.toLQT
      congr 1
      apply List.ext_getElem
      · simp
      · intro j g1 g2
        simp [TStage.toL]
    · rw [h5]
      simp only [List.length_map, hlen]
    · rw [← h4] at hc
      refine ⟨fun c hcm => ?_, hc.2⟩
      obtain ⟨t, ht, rfl⟩ := List.mem_map.1 hcm
      have h := hc.1 t.toL (List.mem_map.2 ⟨t, ht, rfl⟩)
      exact ⟨⟨h.sym.1, fun v => by
        have : (0 : ℝ) ≤ v ⬝ᵥ t.X *ᵥ v + 2 * (v ⬝ᵥ (0 : Matrix (Fin 3) (Fin 2) ℝ) *ᵥ 0) + (0 : Fin 2 → ℝ) ⬝ᵥ t.U *ᵥ 0 := h.joint v 0
        simpa using this⟩, h.sym.2, h.pd⟩

theorem lqtRun_coord {n m : ℕ} {K : Type} [Field K] (j : Fin n) : ∀ (ss : List (LStage n m K)) (us : List (Fin m → K)) (x : Fin n → K),
    (∀ s ∈ ss, ∀ y u, s.next y u j = y j) → ∀ y ∈ lqtRun ss x us, y j = x j
  | [], _, _, _, y, hy => by simp [lqtRun] at hy
  | _ :: _, [], _, _, y, hy => by simp [lqtRun] at hy
  | s :: ss, u :: us, x, h, y, hy => by
    rw [lqtRun, List.mem_cons] at hy
    have h0 := h s (by simp) x u
    rcases hy with rfl | hy
    · exact h0
    · rw [lqtRun_coord j ss us _ (fun t ht => h t (by simp [ht])) y hy, h0]

/-- C82 (first iteration): from the zero guess the linearised vehicle heads along the first axis, so that after one iteration, with
any method and any convex costs, the vehicle keeps the second coordinate it starts with. -/
theorem C82_first (dt : ℝ) (P P' : LQT 4 2 ℝ) (hP : P.Sym) (x0 : Fin 4 → ℝ) (h0 : x0 3 = 0) (k : ℕ) (us : List (Fin 2 → ℝ))
    (xs : List (Fin 4 → ℝ))
    (h : (vehicle dt).iterate P (List.replicate P.stages.length 0) (x0 :: List.replicate P.stages.length 0) k = .ok (P', us, xs)) :
    ∀ x ∈ xs, x 1 = x0 1 := by
  obtain ⟨h1, bw, y0, h2, h3, h4⟩ := iterate_seq hP h
  simp only [List.getElem?_cons_zero, Option.some.injEq] at h3
  subst h3
  obtain ⟨-, -, L, hL, rfl⟩ := linearize_iff.1 h1
  obtain ⟨S, v, hb⟩ := seqBackwardPass_iff.1 h2
  obtain ⟨us0, hul, hf0⟩ := lqtForwardLoop_ok hb.length.1 hb.length.2.1 x0
  unfold LQT.seqForwardPass at h4
  rw [hf0] at h4
  cases h4
  rw [List.length_replicate] at hL
  obtain ⟨hL1, hL2⟩ := hL
  have hst : ∀ (i : ℕ) t, L[i]? = some t → ∃ s, t = (vehicle dt).lin s (if i = 0 then x0 else 0) 0 := by
    intro i t ht
    have hi : i < P.stages.length := hL1 ▸ (List.getElem?_eq_some_iff.1 ht).1
    obtain ⟨g1, -⟩ := hL2 i _ (List.getElem?_eq_getElem hi)
    obtain ⟨x, u, e1, e2, e3⟩ := g1 hi
    rw [ht] at e3
    cases e3
    refine ⟨P.stages[i], ?_⟩
    obtain rfl := List.eq_of_mem_replicate (List.mem_of_getElem? e2)
    cases i with
    | zero =>
      simp only [List.getElem?_cons_zero, Option.some.injEq] at e1
      rw [if_pos rfl, e1]
    | succ i =>
      simp only [List.getElem?_cons_succ] at e1
      obtain rfl := List.eq_of_mem_replicate (List.mem_of_getElem? e1)
      rw [if_neg (by simp)]
  intro x hx
  rcases List.mem_cons.1 hx with rfl | hx
  · rfl
  cases L with
  | nil => simp [lqtRun] at hx
  | cons s L =>
    cases us0 with
    | nil => simp [lqtRun] at hx
    | cons u us0 =>
      rw [lqtRun] at hx
      have hs : s.next x0 u 1 = x0 1 := by
        obtain ⟨s', rfl⟩ := hst 0 s rfl
        simp [LStage.next, NModel.lin, vehicle, nlModelF, nlModelFx, nlModelFu, Matrix.mulVec, dotProduct, Fin.sum_univ_four, h0]
      have hr : ∀ t ∈ L, ∀ y u, t.next y u 1 = y 1 := by
        intro t ht y u
        obtain ⟨i, hi⟩ := List.getElem?_of_mem ht
        obtain ⟨s', rfl⟩ := hst (i + 1) t (by simpa using hi)
        simp [LStage.next, NModel.lin, vehicle, nlModelF, nlModelFx, nlModelFu, Matrix.mulVec, dotProduct, Fin.sum_univ_four]
      rcases List.mem_cons.1 hx with rfl | hx
      · exact hs
      · rw [lqtRun_coord 1 L us0 _ hr x hx, hs]

/-- C82 (runs): on the problem of the generator the three functions return the tenth iterate of the numpy tracker started in the zero
guess; the first iterate stays on the line through the initial position, and the result is a stationary point of the tracking cost
along the vehicle exactly if an eleventh iteration would not change it. -/
theorem C82_runs (T : ℕ) (hT : 0 < T) (scan : AScan) (hs : ∀ α, IsAssocScan (scan α)) :
    ∃ (xyt dense : List (Fin 3 → ℝ)) (lqt : LQT 4 2 ℝ) (x0 : Fin 4 → ℝ) (C : NQCost 4 2 3 3 ℝ) (us0 : List (Fin 2 → ℝ))
      (xs0 : List (Fin 4 → ℝ)) (Q : ℕ → LQT 4 2 ℝ) (us : ℕ → List (Fin 2 → ℝ)) (xs : ℕ → List (Fin 4 → ℝ)),
      nlGenData T 10 = .ok (xyt, dense) ∧ nlGetLQT xyt 10 = .ok (lqt.raw, x0) ∧
      nonlinItem T = .ok ⟨4, 2, 3, 3, us0, xs0, vehicle 0.1, C⟩ ∧ Q 0 = lqt ∧ us 0 = us0 ∧ xs 0 = xs0 ∧
      (∀ i k, (vehicle 0.1).iterate (Q i) (us i) (xs i) k = .ok (Q (i + 1), us (i + 1), xs (i + 1))) ∧
      (vehicle 0.1).iterSeq C us0 xs0 = .ok (us 10, xs 10) ∧ (vehicle 0.1).iterPar1 scan C us0 xs0 = .ok (us 10, xs 10) ∧
      (vehicle 0.1).iterPar2 scan C us0 xs0 = .ok (us 10, xs 10) ∧ (∀ x ∈ xs 1, x 1 = 7) ∧
      (us 11 = us 10 ∧ xs 11 = xs 10 ↔ xs 10 = (vehicle 0.1).simulate x0 (us 10) ∧
        ∀ ds : List (Fin 2 → ℝ), ds.length = lqt.stages.length → ∃ J : ℝ → ℝ,
          (∀ t, (vehicle 0.1).cost lqt x0 (List.zipWith (fun u d => u + t • d) (us 10) ds) = .ok (J t)) ∧ HasDerivAt J 0 0) := by
  obtain ⟨xyt, dense, lqt, x0, C, h1, h2, ⟨dyn, hd, h3⟩, h4, h5, h6, -, h7, h8⟩ := (C82_item T).2 hT
  have hne : C.stages ≠ [] := by
    intro h
    rw [h] at h5
    simp only [List.length_nil] at h5
    omega
  have hll : lqt.stages.length = C.stages.length := by rw [← h3]; simp [NQCost.toLQT, hd]
  obtain ⟨Q, us, xs, g1, g2, g3, g4, g5, g6, g7, g8⟩ := C82_iterations (vehicle 0.1) C h6 hne dyn hd (List.replicate C.stages.length 0)
    (x0 :: List.replicate C.stages.length 0) (by simp) (by simp) scan hs
  refine ⟨xyt, dense, lqt, x0, C, _, _, Q, us, xs, h1, h2, h4, g1.trans h3, g2, g3, g4, g6, g7, g8, ?_, ?_⟩
  · have := g4 0 0
    rw [g1, g2, g3, h3, ← hll] at this
    rw [← h7]
    exact C82_first 0.1 lqt _ (h3 ▸ (NQCost.toLQT_convex h6 hd).toSym) x0 h8 0 _ _ this
  · obtain ⟨a1, a2, a3, a4, hQl, a5⟩ := g5 10
    rw [h3] at a5
    have hfix := C68_fixed (vehicle 0.1) (Q 10) a4 (by
      rw [← List.length_pos_iff, hQl]; exact List.length_pos_iff.2 hne) x0 (us 10) (xs 10) 0 (by rw [a1, hQl]) a3
      fun _ y u _ _ => C68_vehicle 0.1 y u
    have hcost : ∀ x0 us, (vehicle 0.1).cost (Q 10) x0 us = (vehicle 0.1).cost lqt x0 us := fun _ _ => a5 _ _
    simp only [hcost, a1, ← hll] at hfix
    rw [← hfix, g4 10 0]
    constructor
    · rintro ⟨e1, e2⟩
      exact ⟨Q 11, by rw [e1, e2]⟩
    · rintro ⟨P', h⟩
      simp only [Except.ok.injEq, Prod.mk.injEq] at h
      exact h.2

/-- C82 (generator): for `start ≥ 0` the speed tests complete and report the lengths rounded up to multiples of ten and four
states. -/
theorem C82_generator (start stop : ℝ) (num n_iter : ℕ) (h1 : 0 ≤ start) (h2 : start ≤ stop) (hn : 0 < n_iter) (scan : AScan)
    (hs : ∀ α, IsAssocScan (scan α)) :
    let gen := nonlinearGen start stop num
    let res : Py (List ℕ × List ℕ) := .ok ((logspaceInt start stop num).map fun T => 10 * ((T + 9) / 10), List.replicate num 4)
    iterSeqSpeed gen n_iter = res ∧ iterPar1Speed scan gen n_iter = res ∧ iterPar2Speed scan gen n_iter = res := by
  intro gen res
  have hge := logspace_ge start stop num 1 (by
    have : (10 : ℝ) ^ (0 : ℝ) ≤ 10 ^ start := Real.rpow_le_rpow_of_exponent_le (by norm_num) h1
    simpa using this) h2
  obtain ⟨items, e1, e2⟩ := items_of nonlinItem (fun T it => it.n = 4 ∧ it.C.stages.length = 10 * ((T + 9) / 10) ∧ it.C.Convex ∧
    it.C.stages ≠ [] ∧ it.us.length = it.C.stages.length ∧ it.xs.length = it.C.stages.length + 1) (logspaceInt start stop num) (by
    intro T hT
    obtain ⟨xyt, dense, lqt, x0, C, -, -, -, g1, g2, g3, -⟩ := (C82_item T).2 (hge T hT)
    refine ⟨_, g1, rfl, g2, g3, ?_, by simp, by simp⟩
    intro h0
    have : C.stages = [] := h0
    rw [this] at g2
    have := hge T hT
    simp only [List.length_nil] at g2
    omega)
  have hgood : ∀ it ∈ items, it.C.Convex ∧ it.C.stages ≠ [] ∧ it.us.length = it.C.stages.length ∧
      it.xs.length = it.C.stages.length + 1 :=
    (forall₂_forall (p := fun _ => True) (fun T it h => ⟨fun _ => trivial, fun _ => h.2.2⟩) e2).2 fun _ _ => trivial
  have hres : res = .ok (items.map fun it => it.C.stages.length, items.map fun it => it.n) := by
    have l1 := forall₂_map_eq (f := fun T => 10 * ((T + 9) / 10)) (f' := fun it : NLItem ℝ => it.C.stages.length)
      (fun a b h => h.2.1) e2
    have l2 := forall₂_map_eq (f := fun _ => 4) (f' := fun it : NLItem ℝ => it.n) (fun a b h => h.1) e2
    show Except.ok (_, _) = _
    rw [l1, l2, List.map_const', (C80_logspace start stop num h2).1]
  have hg : gen = items.map Except.ok := e1
  rw [hres, hg]
  exact C82_speed items hgood scan hs n_iter hn

/-- C82 (errors): `n_iter = 0` ends with `ZeroDivisionError` after the first problem, and a length zero with `IndexError`. -/
theorem C82_errors (T : ℕ) (hT : 0 < T) (rest : List (Py (NLItem ℝ))) (n_iter : ℕ) (hn : 0 < n_iter) (scan : AScan)
    (hs : ∀ α, IsAssocScan (scan α)) :
    (iterSeqSpeed (nonlinItem T :: rest) 0 = .error .zeroDivisionError ∧
      iterPar1Speed scan (nonlinItem T :: rest) 0 = .error .zeroDivisionError ∧
      iterPar2Speed scan (nonlinItem T :: rest) 0 = .error .zeroDivisionError) ∧
    (iterSeqSpeed (nonlinItem 0 :: rest) n_iter = .error .indexError ∧
      iterPar1Speed scan (nonlinItem 0 :: rest) n_iter = .error .indexError ∧
      iterPar2Speed scan (nonlinItem 0 :: rest) n_iter = .error .indexError) := by
  obtain ⟨xyt, dense, lqt, x0, C, us0, xs0, Q, us, xs, -, -, h1, -, -, -, -, h2, h3, h4, -⟩ := C82_runs T hT scan hs
  have h0 := (C82_item 0).1 rfl
  rw [h1, h0]
  refine ⟨⟨speedLoop_zero _ _ _ _ () ?_, speedLoop_zero _ _ _ _ () ?_, speedLoop_zero _ _ _ _ () ?_⟩, rfl, rfl, rfl⟩
  · show (do let _ ← (vehicle 0.1).iterSeq C us0 xs0; return () : Py Unit) = _
    rw [h2]; rfl
  · show (do let _ ← (vehicle 0.1).iterPar1 scan C us0 xs0; return () : Py Unit) = _
    rw [h3]; rfl
  · show (do let _ ← (vehicle 0.1).iterPar2 scan C us0 xs0; return () : Py Unit) = _
    rw [h4]; rfl

/-! ### Examples -/

/-- A scalar problem with one step, from a nonzero guess. -/
example (scan : AScan) (hs : ∀ α, IsAssocScan (scan α)) : ∃ us xs,
    (⟨fun x u => x * x + u, fun x _ => of fun _ _ => 2 * x 0, fun _ _ => 1⟩ : NModel 1 1 ℚ).iterPar2 scan
      (⟨[⟨1, 1, 1, 1⟩], 1, 2, 1⟩ : NQCost 1 1 1 1 ℚ) [1] [1, 0] = .ok (us, xs) := by
  obtain ⟨Q, us, xs, -, -, -, -, -, -, -, h⟩ := C82_iterations
    (⟨fun x u => x * x + u, fun x _ => of fun _ _ => 2 * x 0, fun _ _ => 1⟩ : NModel 1 1 ℚ)
    (⟨[⟨1, 1, 1, 1⟩], 1, 2, 1⟩ : NQCost 1 1 1 1 ℚ) (by
      have h1 : IsPSD (1 : Matrix (Fin 1) (Fin 1) ℚ) := by simpa using isPSD_smul_one (K := ℚ) (ι := Fin 1) 1 zero_le_one
      refine ⟨fun s hs => ?_, h1⟩
      rw [List.mem_singleton.1 hs]
      exact ⟨h1, by simp, by simpa using isPD_smul_one (K := ℚ) (ι := Fin 1) 1 zero_lt_one⟩) (by simp) [(0, 0, 0)] rfl [1] [1, 0] rfl rfl
    scan hs
  exact ⟨_, _, h⟩

/-- The default generator, with sequential evaluation of `scan_associative`. -/
example : iterPar1Speed (fun _ op l => scanVals op l) (nonlinearGen 2 5 20) 10 =
    .ok ((logspaceInt 2 5 20).map fun T => 10 * ((T + 9) / 10), List.replicate 20 4) :=
  (C82_generator 2 5 20 10 (by norm_num) (by norm_num) (by norm_num) _ (fun _ => C17_scan_example)).2.1

/-- An iteration of the vehicle from the zero guess exists. -/
example : ∃ P' us xs, (vehicle 0.1).iterate (nlLQT (fun k => ![k, k, 0]) 10 3) (List.replicate 30 0)
    (![0, 0, 0, 0] :: List.replicate 30 0) 0 = .ok (P', us, xs) ∧ ∀ x ∈ xs, x 1 = 0 := by
  have hl : (nlLQT (fun k => ![k, k, 0]) 10 3).stages.length = 30 := by simp [nlLQT, trackLQT]
  obtain ⟨Q, us, xs, h1, h2, h3, h4⟩ := iterates_exist (vehicle 0.1) (nlLQT (fun k => ![k, k, 0]) 10 3) (nlLQT_convex _ _ _)
    (by rw [← List.length_pos_iff, hl]; norm_num) ![0, 0, 0, 0] (List.replicate 30 0) (![0, 0, 0, 0] :: List.replicate 30 0)
    (by simp [hl]) (by simp) rfl
  have h5 := (h4 0).1 0
  rw [h1, h2, h3] at h5
  refine ⟨_, _, _, h5, fun x hx => ?_⟩
  rw [← hl] at h5
  exact C82_first 0.1 _ _ (nlLQT_convex _ _ _).toSym _ rfl 0 _ _ h5 x hx

end Verif
